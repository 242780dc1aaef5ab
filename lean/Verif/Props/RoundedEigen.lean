import Verif.Props.RoundedQr
import Verif.Props.Eigen
import Verif.Props.EigenNorm

/-
C117: `eigen` in binary32.
-/

set_option linter.unusedSectionVars false
set_option linter.unusedSimpArgs false

namespace Verif
open Scalar Finset

/-! ### Gram-Schmidt with rounding errors on independent columns -/

section Space
variable {V : Type*} [NormedAddCommGroup V] [InnerProductSpace ℝ V]

/-- The combination of the first `n` vectors. -/
noncomputable def comb (n : ℕ) (a : ℕ → V) (x : ℕ → ℝ) : V := ∑ j ∈ range n, x j • a j

theorem comb_sub (n : ℕ) (a : ℕ → V) (x y : ℕ → ℝ) : comb n a (fun j => x j - y j) = comb n a x - comb n a y := by
  simp only [comb, sub_smul, Finset.sum_sub_distrib]

theorem comb_smul (n : ℕ) (a : ℕ → V) (c : ℝ) (x : ℕ → ℝ) : comb n a (fun j => c * x j) = c • comb n a x := by
  simp only [comb, Finset.smul_sum, mul_smul]

theorem comb_sum (n m : ℕ) (a : ℕ → V) (c : ℕ → ℝ) (x : ℕ → ℕ → ℝ) :
    comb n a (fun j => ∑ k ∈ range m, c k * x k j) = ∑ k ∈ range m, c k • comb n a (x k) := by
  simp only [comb, Finset.smul_sum, Finset.sum_smul, mul_smul]
  rw [Finset.sum_comm]

theorem comb_one {n : ℕ} (a : ℕ → V) {j : ℕ} (hj : j < n) : comb n a (fun k => if k = j then 1 else 0) = a j := by
  unfold comb
  rw [Finset.sum_eq_single j]
  · simp
  · intro k _ hk
    simp [hk]
  · intro h
    exact absurd (Finset.mem_range.mpr hj) h

/-- What is left of column `j`, when vectors that are nearly combinations of the earlier columns are taken away. -/
theorem span_step {n j : ℕ} {a g : ℕ → V} {y : ℕ → ℕ → ℝ} {ε T : ℕ → ℝ} (hj : j < n) (hy : ∀ k < j, ∀ l, k < l → y k l = 0)
    (hg : ∀ k < j, ‖g k - comb n a (y k)‖ ≤ ε k) :
    ∃ z : ℕ → ℝ, z j = 1 ∧ (∀ l, j < l → z l = 0) ∧
      ‖(a j - ∑ k ∈ range j, T k • g k) - comb n a z‖ ≤ ∑ k ∈ range j, |T k| * ε k := by
  refine ⟨fun l => (if l = j then 1 else 0) - ∑ k ∈ range j, T k * y k l, ?_, fun l hl => ?_, ?_⟩
  · show (if j = j then (1 : ℝ) else 0) - _ = 1
    rw [if_pos rfl, Finset.sum_eq_zero, sub_zero]
    intro k hk
    rw [hy k (Finset.mem_range.mp hk) j (Finset.mem_range.mp hk), mul_zero]
  · show (if l = j then (1 : ℝ) else 0) - _ = 0
    rw [if_neg (by omega), Finset.sum_eq_zero, sub_zero]
    intro k hk
    have := Finset.mem_range.mp hk
    rw [hy k this l (by omega), mul_zero]
  · rw [comb_sub, comb_one a hj, comb_sum]
    have e : a j - ∑ k ∈ range j, T k • g k - (a j - ∑ k ∈ range j, T k • comb n a (y k)) =
        -∑ k ∈ range j, T k • (g k - comb n a (y k)) := by
      simp only [smul_sub, Finset.sum_sub_distrib]
      abel
    rw [e, norm_neg]
    refine (norm_sum_le _ _).trans (Finset.sum_le_sum fun k hk => ?_)
    rw [norm_smul, Real.norm_eq_abs]
    exact mul_le_mul_of_nonneg_left (hg k (Finset.mem_range.mp hk)) (abs_nonneg _)

/-- The growth of the errors from column to column. -/
noncomputable def grow (c r : ℝ) (j : ℕ) : ℝ := c * r * (1 + 103 / 100 * r) ^ j

theorem grow_sum (c r : ℝ) (j : ℕ) : r * (103 / 100 * ∑ k ∈ range j, grow c r k + c) = grow c r j := by
  induction j with
  | zero => simp [grow]; ring
  | succ j ih =>
    rw [Finset.sum_range_succ]
    have : grow c r (j + 1) = grow c r j * (1 + 103 / 100 * r) := by unfold grow; ring
    rw [this]
    linear_combination ih

theorem grow_nonneg {c r : ℝ} (hc : 0 ≤ c) (hr : 0 ≤ r) (j : ℕ) : 0 ≤ grow c r j := by unfold grow; positivity

theorem grow_mono {c r : ℝ} (hc : 0 ≤ c) (hr : 0 ≤ r) {i j : ℕ} (h : i ≤ j) : grow c r i ≤ grow c r j := by
  unfold grow
  exact mul_le_mul_of_nonneg_left (pow_le_pow_right₀ (by linarith) h) (by positivity)

/-- The columns are bounded and independent. -/
structure Apart (n : ℕ) (a : ℕ → V) (σ M : ℝ) : Prop where
  pos : 0 < σ
  low : ∀ x : ℕ → ℝ, ∀ j < n, σ * |x j| ≤ ‖comb n a x‖
  high : ∀ j < n, ‖a j‖ ≤ M

/-- Near combination of the columns up to `j`. -/
theorem qr_coef {n m : ℕ} {a g : ℕ → V} {T : ℕ → ℕ → ℝ} {σ M r : ℝ} (h : Apart n a σ M) (hr : M ≤ r * σ)
    (hr1 : grow (13 / 2 ^ 24) r (n - 1) ≤ 78 / 10000) (hm : m ≤ n) (hpos : ∀ j < m, 0 ≤ T j j)
    (hu : ∀ j < m, |‖g j‖ - 1| ≤ 12 / 2 ^ 24) (hc : ∀ j < m, ∀ k, k ≤ j → |T k j| ≤ 101 / 100 * ‖a j‖)
    (hres : ∀ j < m, ‖a j - ∑ k ∈ range (j + 1), T k j • g k‖ ≤ 12 / 2 ^ 24 * ‖a j‖) :
    (∀ j < m, 99 / 100 * σ ≤ T j j) ∧ ∃ y : ℕ → ℕ → ℝ, (∀ k < m, ∀ l, k < l → y k l = 0) ∧
      ∀ k < m, ‖g k - comb n a (y k)‖ ≤ grow (13 / 2 ^ 24) r k := by
  have hσ := h.pos
  induction m with
  | zero => exact ⟨fun j hj => by omega, fun _ _ => 0, fun j hj => by omega, fun j hj => by omega⟩
  | succ m ih =>
    obtain ⟨i1, y, i2, i3⟩ := ih (by omega) (fun j hj => hpos j (by omega)) (fun j hj => hu j (by omega))
      (fun j hj => hc j (by omega)) (fun j hj => hres j (by omega))
    obtain ⟨z, z1, z2, z3⟩ := span_step (T := fun k => T k m) (show m < n by omega) i2 i3
    have hM : ‖a m‖ ≤ M := h.high m (by omega)
    have hr0 : 0 ≤ r := by
      by_contra hneg
      have := norm_nonneg (a m)
      nlinarith
    set S' := ∑ k ∈ range m, grow (13 / 2 ^ 24) r k with hE
    have hE0 : 0 ≤ S' := Finset.sum_nonneg fun k _ => grow_nonneg (by norm_num) hr0 k
    have hS : ∑ k ∈ range m, |T k m| * grow (13 / 2 ^ 24) r k ≤ 101 / 100 * M * S' := by
      rw [hE, Finset.mul_sum]
      refine Finset.sum_le_sum fun k hk => mul_le_mul_of_nonneg_right ?_ (grow_nonneg (by norm_num) hr0 k)
      have := hc m (by omega) k (by have := Finset.mem_range.mp hk; omega)
      linarith
    have hg := grow_sum (13 / 2 ^ 24) r m
    have hgm : grow (13 / 2 ^ 24) r m ≤ 78 / 10000 := (grow_mono (by norm_num) hr0 (by omega)).trans hr1
    rw [← hE] at hg
    set w := a m - ∑ k ∈ range m, T k m • g k with hw
    have hwr : ‖w - T m m • g m‖ ≤ 12 / 2 ^ 24 * M := by
      have := hres m (by omega)
      rw [Finset.sum_range_succ, ← sub_sub] at this
      exact this.trans (mul_le_mul_of_nonneg_left hM (by norm_num))
    have hlow : σ ≤ ‖comb n a z‖ := by
      have := h.low z m (by omega)
      rwa [z1, abs_one, mul_one] at this
    set D := 101 / 100 * M * S' + 12 / 2 ^ 24 * M with hD
    have hzg : ‖T m m • g m - comb n a z‖ ≤ D := by
      have := norm_sub_le_norm_sub_add_norm_sub (T m m • g m) w (comb n a z)
      rw [norm_sub_rev (T m m • g m) w] at this
      linarith
    have hDσ : D ≤ σ * (r * (101 / 100 * S' + 12 / 2 ^ 24)) := by
      have : M * (101 / 100 * S' + 12 / 2 ^ 24) ≤ (r * σ) * (101 / 100 * S' + 12 / 2 ^ 24) :=
        mul_le_mul_of_nonneg_right hr (by positivity)
      rw [hD]
      linarith
    have hx : r * (101 / 100 * S' + 12 / 2 ^ 24) ≤ 99 / 100 * grow (13 / 2 ^ 24) r m := by
      rw [← hg]
      have : r * S' ≥ 0 := mul_nonneg hr0 hE0
      have : r * (1 / 2 ^ 24) ≥ 0 := mul_nonneg hr0 (by norm_num)
      norm_num at *
      linarith
    have hD2 : D ≤ 99 / 100 * σ * grow (13 / 2 ^ 24) r m := by
      have := mul_le_mul_of_nonneg_left hx hσ.le
      linarith
    have hD3 : D ≤ 99 / 100 * (78 / 10000) * σ := by
      have := mul_le_mul_of_nonneg_left hgm (show 0 ≤ 99 / 100 * σ by positivity)
      linarith
    have hT0 := hpos m (by omega)
    have hT : 99 / 100 * σ ≤ T m m := by
      have h1 : ‖comb n a z‖ ≤ ‖T m m • g m‖ + D := by
        have := norm_sub_norm_le (comb n a z) (T m m • g m)
        rw [norm_sub_rev] at this
        linarith
      rw [norm_smul, Real.norm_eq_abs, abs_of_nonneg hT0] at h1
      have h2 : T m m * ‖g m‖ ≤ T m m * (1 + 12 / 2 ^ 24) := by
        refine mul_le_mul_of_nonneg_left ?_ hT0
        have := (abs_le.mp (hu m (by omega))).2
        linarith
      norm_num at *
      linarith
    have hTp : 0 < T m m := by linarith
    refine ⟨fun j hj => ?_, fun k => if k = m then fun l => (T m m)⁻¹ * z l else y k, fun k hk l hl => ?_, fun k hk => ?_⟩
    · rcases Nat.lt_succ_iff_lt_or_eq.mp hj with hj | rfl
      · exact i1 j hj
      · exact hT
    · by_cases hkm : k = m
      · simp only [hkm, if_true]
        rw [z2 l (by omega), mul_zero]
      · simp only [hkm, if_false]
        exact i2 k (by omega) l hl
    · by_cases hkm : k = m
      · simp only [hkm, if_true]
        rw [comb_smul]
        have e : g m - (T m m)⁻¹ • comb n a z = (T m m)⁻¹ • (T m m • g m - comb n a z) := by
          rw [smul_sub, smul_smul, inv_mul_cancel₀ hTp.ne', one_smul]
        rw [e, norm_smul, norm_inv, Real.norm_eq_abs, abs_of_pos hTp, inv_mul_le_iff₀ hTp]
        refine hzg.trans (hD2.trans (mul_le_mul_of_nonneg_right hT (grow_nonneg (by norm_num) hr0 m)))
      · simp only [hkm, if_false]
        exact i3 k (by omega)

/-- The scalar products of the computed columns. -/
theorem qr_inner {n m : ℕ} {a g : ℕ → V} {T : ℕ → ℕ → ℝ} {σ M r : ℝ} (h : Apart n a σ M) (hr : M ≤ r * σ) (hm : m ≤ n)
    (hT : ∀ j < m, 99 / 100 * σ ≤ T j j)
    (ho : ∀ j < m, ∀ i < j, T j j * |(inner ℝ (g i) (g j) : ℝ)| ≤ ‖a j‖ * (55 / 2 ^ 24 + 101 / 100 *
      ∑ k ∈ Ico (i + 1) j, |(inner ℝ (g i) (g k) : ℝ)|)) {i j : ℕ} (hij : i < j) (hj : j < m) :
    |(inner ℝ (g i) (g j) : ℝ)| ≤ grow (56 / 2 ^ 24) r (j - i - 1) := by
  have hσ := h.pos
  have hr0 : 0 ≤ r := by
    by_contra hneg
    have := norm_nonneg (a j)
    have := h.high j (by omega)
    nlinarith
  induction j using Nat.strong_induction_on with
  | _ j ih =>
    have hS : ∑ k ∈ Ico (i + 1) j, |(inner ℝ (g i) (g k) : ℝ)| ≤ ∑ l ∈ range (j - i - 1), grow (56 / 2 ^ 24) r l := by
      rw [Finset.sum_Ico_eq_sum_range, show j - (i + 1) = j - i - 1 by omega]
      refine Finset.sum_le_sum fun l hl => ?_
      have := Finset.mem_range.mp hl
      have := ih (i + 1 + l) (by omega) (by omega) (by omega)
      rwa [show i + 1 + l - i - 1 = l by omega] at this
    have hg := grow_sum (56 / 2 ^ 24) r (j - i - 1)
    set S' := ∑ l ∈ range (j - i - 1), grow (56 / 2 ^ 24) r l with hS'
    have hS0 : 0 ≤ S' := Finset.sum_nonneg fun k _ => grow_nonneg (by norm_num) hr0 k
    have h1 := ho j hj i hij
    have h2 : ‖a j‖ * (55 / 2 ^ 24 + 101 / 100 * ∑ k ∈ Ico (i + 1) j, |(inner ℝ (g i) (g k) : ℝ)|) ≤
        (r * σ) * (55 / 2 ^ 24 + 101 / 100 * S') := by
      refine mul_le_mul ((h.high j (by omega)).trans hr) (by linarith) ?_ (by positivity)
      have : 0 ≤ ∑ k ∈ Ico (i + 1) j, |(inner ℝ (g i) (g k) : ℝ)| := Finset.sum_nonneg fun _ _ => abs_nonneg _
      positivity
    have h3 : 99 / 100 * σ * |(inner ℝ (g i) (g j) : ℝ)| ≤ T j j * |(inner ℝ (g i) (g j) : ℝ)| :=
      mul_le_mul_of_nonneg_right (hT j hj) (abs_nonneg _)
    have h4 : σ * (99 / 100 * |(inner ℝ (g i) (g j) : ℝ)|) ≤ σ * (r * (55 / 2 ^ 24 + 101 / 100 * S')) := by linarith
    have h5 := le_of_mul_le_mul_left h4 hσ
    rw [← hg]
    have : r * S' ≥ 0 := mul_nonneg hr0 hS0
    have : r * (1 / 2 ^ 24) ≥ 0 := mul_nonneg hr0 (by norm_num)
    norm_num at *
    linarith

/-- No column is taken for a combination of the earlier ones. -/
theorem qr_stop {n m : ℕ} {a g : ℕ → V} {T : ℕ → ℝ} {σ M r : ℝ} {y : ℕ → ℕ → ℝ} (h : Apart n a σ M) (hr : M ≤ r * σ)
    (hσ1 : 11 / 10 ^ 5 ≤ σ) (hr1 : grow (13 / 2 ^ 24) r (n - 1) ≤ 78 / 10000) (hm : m < n)
    (hy : ∀ k < m, ∀ l, k < l → y k l = 0) (hg : ∀ k < m, ‖g k - comb n a (y k)‖ ≤ grow (13 / 2 ^ 24) r k)
    (hc : ∀ k < m, |T k| ≤ 101 / 100 * ‖a m‖ + 1 / 2 ^ 100) :
    10002 / 10 ^ 8 + 12 / 2 ^ 24 * ‖a m‖ < ‖a m - ∑ k ∈ range m, T k • g k‖ := by
  have hσ := h.pos
  obtain ⟨z, z1, z2, z3⟩ := span_step (T := T) hm hy hg
  have hM : ‖a m‖ ≤ M := h.high m hm
  have hlow : σ ≤ ‖comb n a z‖ := by
    have := h.low z m hm
    rwa [z1, abs_one, mul_one] at this
  have ham : σ ≤ ‖a m‖ := by
    have := h.low (fun k => if k = m then 1 else 0) m hm
    rw [comb_one a hm] at this
    simpa using this
  have hr0 : 0 ≤ r := by
    by_contra hneg
    have := norm_nonneg (a m)
    nlinarith
  have hE := grow_sum (13 / 2 ^ 24) r m
  have hgm : grow (13 / 2 ^ 24) r m ≤ 78 / 10000 := (grow_mono (by norm_num) hr0 (by omega)).trans hr1
  set S' := ∑ k ∈ range m, grow (13 / 2 ^ 24) r k with hS'
  have hS0 : 0 ≤ S' := Finset.sum_nonneg fun k _ => grow_nonneg (by norm_num) hr0 k
  have hS : ∑ k ∈ range m, |T k| * grow (13 / 2 ^ 24) r k ≤ 102 / 100 * M * S' := by
    rw [hS', Finset.mul_sum]
    refine Finset.sum_le_sum fun k hk => mul_le_mul_of_nonneg_right ?_ (grow_nonneg (by norm_num) hr0 k)
    have := hc k (Finset.mem_range.mp hk)
    norm_num at *
    linarith
  have h1 : M * (102 / 100 * S' + 12 / 2 ^ 24) ≤ (r * σ) * (102 / 100 * S' + 12 / 2 ^ 24) :=
    mul_le_mul_of_nonneg_right hr (by positivity)
  have h2 : r * (102 / 100 * S' + 12 / 2 ^ 24) ≤ 78 / 10000 := by
    refine le_trans ?_ hgm
    rw [← hE]
    refine mul_le_mul_of_nonneg_left ?_ hr0
    norm_num
    linarith
  have h3 := mul_le_mul_of_nonneg_left h2 hσ.le
  have h4 := norm_sub_norm_le (comb n a z) (a m - ∑ k ∈ range m, T k • g k)
  rw [norm_sub_rev (comb n a z)] at h4
  norm_num at *
  linarith

end Space

/-! ### The decomposition -/

section
open scoped Matrix.Norms.L2Operator Matrix
variable {F : Type} [Scalar F] [R : Rounded F]

theorem vlen_toMatrix (n : ℕ) (A : ℕ → ℕ → ℝ) (x : ℕ → ℝ) :
    vlen (toMatrix n n A *ᵥ fun i : Fin n => x i) = norm2 n (fun i => ∑ j ∈ range n, A i j * x j) := by
  rw [norm2_eq]
  unfold vlen
  congr 2
  funext i
  rw [Finset.sum_range]
  rfl

theorem vlen_nat (n : ℕ) (x : ℕ → ℝ) : vlen (fun i : Fin n => x i) = norm2 n x := (norm2_eq n x).symm

theorem norm_comb (n : ℕ) (A : ℕ → ℕ → ℝ) (x : ℕ → ℝ) :
    ‖comb n (fun j => ev n (fun i => A i j)) x‖ = vlen (toMatrix n n A *ᵥ fun i : Fin n => x i) := by
  unfold comb
  rw [ev_sum, ev_norm, vlen_toMatrix]
  refine norm2_congr fun i _ => Finset.sum_congr rfl fun j _ => mul_comm _ _

/-- How far the computed columns may be from orthogonal, for columns whose lengths and distances from the spans of the
others are in the ratio `r`. -/
noncomputable def skew (n : ℕ) (r : ℝ) : ℝ := 56 / 2 ^ 24 * r * (1 + 103 / 100 * r) ^ (n - 2)

/-- The decomposition of a well conditioned matrix. -/
theorem qr_rounded {a : Mat F} {n : Nat} {f : Nat → Nat → F} (ha : MatIs a n n f)
    (hf : ∀ i j, i < n → j < n → Finite (f i j)) {σ M r : ℝ} (hσ : 11 / 10 ^ 5 ≤ σ) (hM : M ≤ 2 ^ 60) (hr : M ≤ r * σ)
    (hr1 : r * (1 + 103 / 100 * r) ^ (n - 1) ≤ 10 ^ 4) (hA : ‖toMatrix n n (fun i j => ⟪f i j⟫)‖ ≤ M)
    (hAl : ∀ x : Fin n → ℝ, σ * vlen x ≤ vlen (toMatrix n n (fun i j => ⟪f i j⟫) *ᵥ x)) :
    ∃ (q r' : Mat F) (g h : Nat → Nat → F), a.qrDecomp = .ok (q, r') ∧ MatIs q n n g ∧ MatIs r' n n h ∧
      (∀ i j, i < n → j < n → Finite (g i j) ∧ Finite (h i j) ∧
        |⟪h i j⟫ - ∑ t ∈ range n, ⟪g t i⟫ * ⟪f t j⟫| ≤
          12 / 2 ^ 24 * (∑ t ∈ range n, |⟪g t i⟫ * ⟪f t j⟫|) + 12 / 2 ^ 150) ∧
      (∀ i j, i < n → j < n → |∑ t ∈ range n, ⟪g t i⟫ * ⟪g t j⟫ - if i = j then 1 else 0| ≤ skew n r) ∧
      ∃ T : Nat → Nat → ℝ, ∀ j, j < n →
        ColDone n (fun i j => ⟪f i j⟫) (fun i j => ⟪g i j⟫) j (fun k => T k j) ∧ 99 / 100 * σ ≤ T j j := by
  set A : ℕ → ℕ → ℝ := fun i j => ⟪f i j⟫ with hAdef
  have hσ0 : 0 < σ := lt_of_lt_of_le (by norm_num) hσ
  obtain ⟨q, r', g, h, e, hq, hr', hfin, m, hm, T, hdone, hstop⟩ := C101_qr ha (fun i j hi hj =>
    ⟨hf i j hi hj, (entry_le (toMatrix n n A) ⟨i, hi⟩ ⟨j, hj⟩).trans (hA.trans hM)⟩)
  set G : ℕ → ℕ → ℝ := fun i j => ⟪g i j⟫ with hG
  set av : ℕ → EuclideanSpace ℝ (Fin n) := fun j => ev n (fun i => A i j) with hav
  set gv : ℕ → EuclideanSpace ℝ (Fin n) := fun j => ev n (fun i => G i j) with hgv
  have hap : Apart n av σ M := by
    refine ⟨hσ0, fun x j hj => ?_, fun j hj => ?_⟩
    · rw [hav, norm_comb]
      refine le_trans (mul_le_mul_of_nonneg_left ?_ hσ0.le) (hAl _)
      exact elem_le_vlen (fun i : Fin n => x i) ⟨j, hj⟩
    · exact (col_le (toMatrix n n A) ⟨j, hj⟩).trans hA
  have hna : ∀ j, ‖av j‖ = cnorm n A j := fun j => ev_norm _ _
  have hng : ∀ j, ‖gv j‖ = cnorm n G j := fun j => ev_norm _ _
  have hin : ∀ i j, (inner ℝ (gv i) (gv j) : ℝ) = cdot n G i j := fun i j => ev_inner _ _ _
  have hcomb : ∀ m (e : ℕ → ℝ) j, ‖av j - ∑ k ∈ range m, e k • gv k‖ = norm2 n (fun i => A i j - ∑ k ∈ range m, e k * G i k) := by
    intro m e j
    rw [hgv, ev_sum, hav, ev_sub, ev_norm]
  have hg1 : grow (13 / 2 ^ 24) r (n - 1) ≤ 78 / 10000 := by
    unfold grow
    norm_num at hr1 ⊢
    linarith
  obtain ⟨hdiag, y, hy, hyg⟩ := qr_coef hap hr hg1 hm (fun j hj => le_trans (by norm_num) (hdone j hj).diag)
    (fun j hj => by rw [hng]; exact (hdone j hj).unit) (fun j hj k hk => by rw [hna]; exact (hdone j hj).coef k hk)
    (fun j hj => by rw [hcomb, hna]; exact (hdone j hj).resid)
  have hmn : m = n := by
    by_contra hne
    have hlt : m < n := by omega
    obtain ⟨-, h2, h3⟩ := hstop hlt
    have h4 := qr_stop (T := fun k => T k m) hap hr hσ hg1 hlt hy hyg (fun k hk => by rw [hna]; exact h2 k hk)
    rw [hcomb, hna] at h4
    linarith
  subst hmn
  have hr0 : 1 ≤ r := by
    have h0 := ha.rpos
    have h1 := hap.low (fun k => if k = 0 then 1 else 0) 0 h0
    rw [comb_one av h0] at h1
    have h2 := hap.high 0 h0
    simp at h1
    by_contra hlt
    rw [not_le] at hlt
    nlinarith
  have hinner : ∀ i j, i < j → j < m → |cdot m G i j| ≤ skew m r := by
    intro i j hij hj
    rw [← hin]
    refine (qr_inner hap hr le_rfl hdiag (fun j hj i hi => ?_) hij hj).trans
      (grow_mono (by norm_num) (by linarith) (by omega))
    rw [hna]
    simp only [hin]
    exact (hdone j hj).ortho i hi
  refine ⟨q, r', g, h, e, hq, hr', hfin, fun i j hi hj => ?_, T, fun j hj => ⟨hdone j hj, hdiag j hj⟩⟩
  show |cdot m G i j - _| ≤ _
  rcases lt_trichotomy i j with hij | hij | hij
  · rw [if_neg hij.ne, sub_zero]
    exact hinner i j hij hj
  · subst hij
    rw [if_pos rfl]
    have h1 := (hdone i hi).unit
    have h2 : cdot m G i i = cnorm m G i ^ 2 := by
      rw [← hin, ← hng, real_inner_self_eq_norm_sq]
    have h3 : 25 / 2 ^ 24 ≤ skew m r := by
      unfold skew
      have : (1 : ℝ) ≤ (1 + 103 / 100 * r) ^ (m - 2) := one_le_pow₀ (by linarith)
      norm_num
      nlinarith
    refine le_trans ?_ h3
    rw [h2]
    obtain ⟨k1, k2⟩ := abs_le.mp h1
    rw [abs_le]
    norm_num at k1 k2 ⊢
    constructor <;> nlinarith
  · rw [if_neg hij.ne', sub_zero]
    have := hinner j i hij hi
    unfold cdot at this ⊢
    simpa only [mul_comm] using this

end

section
open scoped Matrix.Norms.L2Operator Matrix
variable {F : Type} [Scalar F] [R : Rounded F]

/-- The matrix stretches every vector at least `σ` and at most `M` times. -/
def Stretch (n : ℕ) (A : ℕ → ℕ → ℝ) (σ M : ℝ) : Prop :=
  ∀ x : ℕ → ℝ, σ * norm2 n x ≤ norm2 n (fun i => ∑ j ∈ range n, A i j * x j) ∧
    norm2 n (fun i => ∑ j ∈ range n, A i j * x j) ≤ M * norm2 n x

theorem extend_nat {n : ℕ} (x : Fin n → ℝ) : ∃ y : ℕ → ℝ, x = fun i : Fin n => y i :=
  ⟨fun i => if h : i < n then x ⟨i, h⟩ else 0, by funext i; simp⟩

theorem Stretch.low {n : ℕ} {A : ℕ → ℕ → ℝ} {σ M : ℝ} (h : Stretch n A σ M) (x : Fin n → ℝ) :
    σ * vlen x ≤ vlen (toMatrix n n A *ᵥ x) := by
  obtain ⟨y, rfl⟩ := extend_nat x
  rw [vlen_toMatrix, vlen_nat]
  exact (h y).1

theorem Stretch.le {n : ℕ} {A : ℕ → ℕ → ℝ} {σ M : ℝ} (h : Stretch n A σ M) (hn : 0 < n) : σ ≤ M := by
  have h1 := h (fun i => if i = 0 then 1 else 0)
  have h2 : norm2 n (fun i => if i = 0 then (1 : ℝ) else 0) = 1 := by
    rw [← vlen_nat]
    have : (fun i : Fin n => if (i : ℕ) = 0 then (1 : ℝ) else 0) = Pi.single ⟨0, hn⟩ 1 := by
      funext i
      simp [Pi.single_apply, Fin.ext_iff]
    rw [this, vlen_single]
  rw [h2] at h1
  linarith [h1.1, h1.2]

theorem Stretch.norm {n : ℕ} {A : ℕ → ℕ → ℝ} {σ M : ℝ} (h : Stretch n A σ M) (hM : 0 ≤ M) : ‖toMatrix n n A‖ ≤ M := by
  refine opNorm_le hM fun x => ?_
  obtain ⟨y, rfl⟩ := extend_nat x
  rw [vlen_toMatrix, vlen_nat]
  exact (h y).2

/-- C117: `qr_decomp` in binary32 of a matrix that stretches every vector between `σ` and `M` times, with `M ≤ r σ`: it
succeeds with finite factors, no column is left undone, any two columns of `Q` are orthogonal and every one has length 1
up to `56/2²⁴ · r (1 + 1.03 r)ⁿ⁻²`, and `R` is the product of the transpose of `Q` and the matrix up to 13 units of round-off
of `M`. -/
theorem C117_qr {a : Mat F} {n : Nat} {f : Nat → Nat → F} (ha : MatIs a n n f)
    (hf : ∀ i j, i < n → j < n → Finite (f i j)) {σ M r : ℝ} (hA : Stretch n (fun i j => ⟪f i j⟫) σ M)
    (hσ : 11 / 10 ^ 5 ≤ σ) (hM : M ≤ 2 ^ 60) (hr : M ≤ r * σ) (hr1 : r * (1 + 103 / 100 * r) ^ (n - 1) ≤ 10 ^ 4) :
    ∃ (q r' : Mat F) (g h : Nat → Nat → F), a.qrDecomp = .ok (q, r') ∧ MatIs q n n g ∧ MatIs r' n n h ∧
      (∀ i j, i < n → j < n → Finite (g i j) ∧ Finite (h i j)) ∧
      (∀ i j, i < n → j < n → |∑ t ∈ range n, ⟪g t i⟫ * ⟪g t j⟫ - if i = j then 1 else 0| ≤
        56 / 2 ^ 24 * r * (1 + 103 / 100 * r) ^ (n - 2)) ∧
      (∀ i j, i < n → j < n → |⟪h i j⟫ - ∑ t ∈ range n, ⟪g t i⟫ * ⟪f t j⟫| ≤ 13 / 2 ^ 24 * M) := by
  have hσ0 : 0 < σ := lt_of_lt_of_le (by norm_num) hσ
  have hσM := hA.le ha.rpos
  have hAn := hA.norm (hσ0.le.trans hσM)
  obtain ⟨q, r', g, h, e, hq, hr', hfin, ho, T, hT⟩ := qr_rounded ha hf hσ hM hr hr1 hAn hA.low
  refine ⟨q, r', g, h, e, hq, hr', fun i j hi hj => ⟨(hfin i j hi hj).1, (hfin i j hi hj).2.1⟩, ho, fun i j hi hj => ?_⟩
  refine (hfin i j hi hj).2.2.trans ?_
  have h1 : ∑ t ∈ range n, |⟪g t i⟫ * ⟪f t j⟫| ≤ norm2 n (fun t => ⟪g t i⟫) * norm2 n (fun t => ⟪f t j⟫) := by
    exact sum_abs_le_norm n _ _
  have h2 : norm2 n (fun t => ⟪f t j⟫) ≤ M := by
    rw [← vlen_nat]
    exact (col_le (toMatrix n n (fun i j => ⟪f i j⟫)) ⟨j, hj⟩).trans hAn
  have h3 := (abs_le.mp (hT i hi).1.unit).2
  unfold cnorm at h3
  have h4 : norm2 n (fun t => ⟪g t i⟫) * norm2 n (fun t => ⟪f t j⟫) ≤ (1 + 12 / 2 ^ 24) * M :=
    mul_le_mul (by linarith) h2 (norm2_nonneg _ _) (by norm_num)
  norm_num at h1 h4 hσ ⊢
  linarith

/-- What is known at the head of the loop after `j` iterations. -/
structure EigF (n : Nat) (A : Matrix (Fin n) (Fin n) ℝ) (st : Linalg.EigenState F) (j K M : ℝ) (B V : Nat → Nat → F) : Prop where
  a : MatIs st.a n n B
  vec : MatIs st.eigenvectors n n V
  afin : ∀ i j, i < n → j < n → Finite (B i j)
  vfin : ∀ i j, i < n → j < n → Finite (V i j)
  q : ∃ f, MatIs st.q n n f
  r : ∃ f, MatIs st.r n n f
  prev : ∃ f : Nat → F, VecIs st.previous n f ∧ ∀ i, i < n → Finite (f i) ∧ |⟪f i⟫| ≤ 2 ^ 60
  delta : ∃ f, VecIs st.delta n f
  ortho : ‖(toMatrix n n fun i j => ⟪V i j⟫).transpose * (toMatrix n n fun i j => ⟪V i j⟫) - 1‖ ≤ 101 / 100 * j * K
  similar : ‖(toMatrix n n fun i j => ⟪B i j⟫) - (toMatrix n n fun i j => ⟪V i j⟫).transpose * A *
    (toMatrix n n fun i j => ⟪V i j⟫)‖ ≤ 200 * j / 2 ^ 24 * M

/-- The product in binary32, in the operator norm. -/
theorem mul_rounded {a b s : Mat F} {n : Nat} {A B f0 : Nat → Nat → F} (ha : MatIs a n n A)
    (hb : MatIs b n n B) (hs : MatIs s n n f0) (hA : ∀ i j, i < n → j < n → Finite (A i j))
    (hB : ∀ i j, i < n → j < n → Finite (B i j))
    (hS : ‖toMatrix n n (fun i j => ⟪A i j⟫)‖ * ‖toMatrix n n (fun i j => ⟪B i j⟫)‖ ≤ 2 ^ 126) :
    ∃ s' C, exec s (Mat.mul a b) = .ok s' ∧ MatIs s' n n C ∧ (∀ i j, i < n → j < n → Finite (C i j)) ∧
      ‖toMatrix n n (fun i j => ⟪C i j⟫) - toMatrix n n (fun i j => ⟪A i j⟫) * toMatrix n n (fun i j => ⟪B i j⟫)‖ ≤
        48 * (1 / 2 ^ 24) * (‖toMatrix n n (fun i j => ⟪A i j⟫)‖ * ‖toMatrix n n (fun i j => ⟪B i j⟫)‖) +
          4 * (12 / 2 ^ 150) := by
  have hsum : ∀ i j, i < n → j < n → ∑ t ∈ range n, |⟪A i t⟫ * ⟪B t j⟫| ≤ 2 ^ 126 := fun i j hi hj => by
    refine le_trans ?_ hS
    rw [Finset.sum_range]
    exact sum_abs_mul_le (toMatrix n n (fun i j => ⟪A i j⟫)) (toMatrix n n (fun i j => ⟪B i j⟫)) ⟨i, hi⟩ ⟨j, hj⟩
  obtain ⟨s', C, e, hC, h⟩ := C76_mul ha hb hs hA hB hsum
  refine ⟨s', C, exec_ok e, hC, fun i j hi hj => (h i j hi hj).1, mul_err ha.rle (by norm_num) (by norm_num) fun i j => ?_⟩
  have h1 := (h i j i.2 j.2).2
  rw [Finset.sum_range, Finset.sum_range] at h1
  refine h1.trans ?_
  have hn : (n : ℝ) ≤ 4 := by exact_mod_cast ha.rle
  have h2 : 0 ≤ ∑ t : Fin n, |⟪A i t⟫ * ⟪B t j⟫| := Finset.sum_nonneg fun t _ => abs_nonneg _
  show _ ≤ 12 * (1 / 2 ^ 24) * ∑ t : Fin n, |⟪A i t⟫ * ⟪B t j⟫| + 12 / 2 ^ 150
  have h3 := mul_le_mul_of_nonneg_right hn h2
  norm_num at h3 ⊢
  linarith

theorem copy_rounded {s a : Mat F} {r c : Nat} {f g : Nat → Nat → F}
    (hs : MatIs s r c f) (ha : MatIs a r c g) (hg : ∀ i j, i < r → j < c → Finite (g i j)) :
    ∃ s', exec s (Mat.copyFrom a) = .ok s' ∧ MatIs s' r c g :=
  Mat.exec_of_stores (Mat.copyFrom_stores hs ha) hs hg

/-- The conditions on the matrix and on the number of iterations. -/
structure EigHyp (n : Nat) (A : Matrix (Fin n) (Fin n) ℝ) (σ M r K N : ℝ) : Prop where
  hK : K = 4 * skew n r + 100 / 2 ^ 24
  hN : N * K ≤ 1 / 200
  hr : 103 / 100 * M ≤ r * σ
  hr1 : r * (1 + 103 / 100 * r) ^ (n - 1) ≤ 10 ^ 4
  hσ : 12 / 10 ^ 5 ≤ σ
  hσM : σ ≤ M
  hM : M ≤ 2 ^ 59
  norm : ‖A‖ ≤ M
  low : ∀ x : Fin n → ℝ, σ * vlen x ≤ vlen (A *ᵥ x)

theorem EigHyp.one_le {n : Nat} {A : Matrix (Fin n) (Fin n) ℝ} {σ M r K N : ℝ} (h : EigHyp n A σ M r K N) : 1 ≤ r := by
  have h1 := h.hr
  have h2 := h.hσM
  have h3 : 0 < σ := lt_of_lt_of_le (by norm_num) h.hσ
  by_contra hlt
  rw [not_le] at hlt
  nlinarith

theorem EigHyp.skew_ge {n : Nat} {A : Matrix (Fin n) (Fin n) ℝ} {σ M r K N : ℝ} (h : EigHyp n A σ M r K N) :
    224 / 2 ^ 24 * r ≤ 4 * skew n r := by
  have h1 := h.one_le
  have h2 : (1 : ℝ) ≤ (1 + 103 / 100 * r) ^ (n - 2) := one_le_pow₀ (by linarith)
  unfold skew
  norm_num
  nlinarith

theorem norm_ok {v : Vec F} {n : Nat} {f : Nat → F} (hv : VecIs v n f) : ∃ nrm, v.calculateNorm = .ok nrm := by
  rw [Vec.calculateNorm_eq hv]
  split
  · exact ⟨_, rfl⟩
  · exact ⟨_, rfl⟩

/-- One iteration. -/
theorem eigenStep_rounded {n : Nat} {A : Matrix (Fin n) (Fin n) ℝ} {σ M r K N j : ℝ} (H : EigHyp n A σ M r K N)
    (hj : 0 ≤ j) (hjN : j + 1 ≤ N) {B V : Nat → Nat → F} {st : Linalg.EigenState F}
    (h : EigF n A st j K M B V) (hev : ∃ f, VecIs st.eigenvalues n f) :
    ∃ go st', Linalg.eigenStep n false st = .ok (go, st') ∧ ∃ B' V' : Nat → Nat → F, EigF n A st' (j + 1) K M B' V' ∧
      VecIs st'.eigenvalues n (fun i => if go then lit 0 else B' i i) := by
  have hσ0 : 0 < σ := lt_of_lt_of_le (by norm_num) H.hσ
  have hn : 0 < n := h.a.rpos
  have hsk := H.skew_ge
  have hr1 := H.one_le
  have hK0 : 0 ≤ K := by
    rw [H.hK]
    have : 0 ≤ 224 / 2 ^ 24 * r := by positivity
    norm_num at this ⊢
    linarith
  have hjK1 : (j + 1) * K ≤ 1 / 200 := (mul_le_mul_of_nonneg_right hjN hK0).trans H.hN
  have hjK : j * K ≤ 1 / 200 := by linarith
  obtain ⟨hc, hb, hBn, hBl⟩ := iter_bounds hn hj H.hK hjK hsk H.hr hσ0 H.hσM H.norm H.low h.ortho h.similar
  have hM0 : 0 < M := hσ0.trans_le H.hσM
  have hM := H.hM
  obtain ⟨q, r', g, hh, eqr, hq, hr', hfin, ho, -⟩ := qr_rounded (r := r) h.a h.afin (σ := 99 / 100 * σ) (M := 101 / 100 * M)
    (by have := H.hσ; norm_num at this ⊢; linarith) (by norm_num at hM ⊢; linarith) (by have := H.hr; linarith) H.hr1 hBn hBl
  have hgf : ∀ i j, i < n → j < n → Finite (g i j) := fun i j hi hj => (hfin i j hi hj).1
  have hhf : ∀ i j, i < n → j < n → Finite (hh i j) := fun i j hi hj => (hfin i j hi hj).2.1
  set QM := toMatrix n n (fun i j => ⟪g i j⟫) with hQM
  set RM := toMatrix n n (fun i j => ⟪hh i j⟫) with hRM
  set BM := toMatrix n n (fun i j => ⟪B i j⟫) with hBM
  set VM := toMatrix n n (fun i j => ⟪V i j⟫) with hVM
  have hsk0 : 0 ≤ skew n r := by unfold skew; positivity
  have hQ : ‖QM.transpose * QM - 1‖ ≤ 4 * skew n r := by
    refine (norm_le_entries hsk0 fun i j => ?_).trans
      (mul_le_mul_of_nonneg_right (by exact_mod_cast h.a.rle) hsk0)
    have := ho i j i.2 j.2
    rw [Finset.sum_range] at this
    rw [Matrix.sub_apply, Matrix.mul_apply, Matrix.one_apply]
    simp only [Fin.ext_iff]
    exact this
  have hRerr : ‖RM - QM.transpose * BM‖ ≤ 48 * (1 / 2 ^ 24) * (‖QM.transpose‖ * ‖BM‖) + 4 * (12 / 2 ^ 150) := by
    refine mul_err h.a.rle (by norm_num) (by norm_num) fun i j => ?_
    have := (hfin i j i.2 j.2).2.2
    rw [Finset.sum_range, Finset.sum_range] at this
    refine this.trans (le_of_eq ?_)
    show _ = 12 * (1 / 2 ^ 24) * ∑ t : Fin n, |⟪g t i⟫ * ⟪B t j⟫| + 12 / 2 ^ 150
    ring
  have hk1 : 4 * skew n r ≤ 1 / 200 := by
    have h1 : K ≤ 1 / 200 := by nlinarith
    rw [H.hK] at h1
    norm_num at h1 ⊢
    linarith
  have q1 : ‖QM‖ ≤ 101 / 100 := le_of_sq_le_sq ((norm_ortho hQ hn).trans (by norm_num; linarith)) (by norm_num)
  have v1 : ‖VM‖ ≤ 101 / 100 := le_of_sq_le_sq ((norm_ortho h.ortho hn).trans (by norm_num; linarith)) (by norm_num)
  have r1 : ‖RM‖ ≤ 2 * M := by
    have k1 : ‖QM.transpose‖ * ‖BM‖ ≤ 101 / 100 * (101 / 100 * M) := by
      rw [norm_transpose']
      exact mul_le_mul q1 hBn (norm_nonneg _) (by norm_num)
    have k2 := norm_add_le (RM - QM.transpose * BM) (QM.transpose * BM)
    rw [sub_add_cancel] at k2
    have k3 := norm_mul_le QM.transpose BM
    have k4 := H.hσ
    have k5 := H.hσM
    norm_num at hRerr k4 ⊢
    linarith
  obtain ⟨fq, hfq⟩ := h.q
  obtain ⟨fr, hfr⟩ := h.r
  obtain ⟨fd, hfd⟩ := h.delta
  obtain ⟨fe, hfe⟩ := hev
  obtain ⟨fp, hfp, hfpf⟩ := h.prev
  obtain ⟨q', e1, hq'⟩ := copy_rounded hfq hq hgf
  obtain ⟨r'', e2, hr''⟩ := copy_rounded hfr hr' hhf
  obtain ⟨a', B', e3, ha', haf', hB'⟩ := mul_rounded hr'' hq' h.a hhf hgf (by
    refine (mul_le_mul r1 q1 (norm_nonneg _) (by positivity)).trans ?_
    norm_num at hM ⊢
    linarith)
  obtain ⟨t', V', e4, ht', htf', hV'⟩ := mul_rounded h.vec hq' (Mat.zeros_of h.a) h.vfin hgf (by
    refine (mul_le_mul v1 q1 (norm_nonneg _) (by norm_num)).trans ?_
    norm_num)
  obtain ⟨v', e5, hv'⟩ := copy_rounded h.vec ht' htf'
  obtain ⟨hort, hsim⟩ := iter_step hn hj H.hK hjK1 hsk H.hr H.hσ H.hσM H.norm H.low h.ortho h.similar hQ hRerr hB' hV'
  obtain ⟨-, -, hBn', -⟩ := iter_bounds hn (by linarith) H.hK hjK1 hsk H.hr hσ0 H.hσM H.norm H.low hort hsim
  have hent : ∀ i, i < n → |⟪B' i i⟫| ≤ 2 ^ 60 := fun i hi => by
    refine (entry_le (toMatrix n n (fun i j => ⟪B' i j⟫)) ⟨i, hi⟩ ⟨i, hi⟩).trans (hBn'.trans ?_)
    norm_num at hM ⊢
    linarith
  obtain ⟨ev, e6, hev⟩ := foldRange_inv (ε := LinalgError)
    (fun k (ev : Vec F) => do exec ev (Vec.setElement k (← a'.getElement k k)))
    (fun k (v : Vec F) => VecIs v n (fun i => if i < k then B' i i else fe i)) 0 n
    (Nat.zero_le _) st.eigenvalues (hfe.congr fun i _ => by simp)
    (fun k v _ hk hI => by
      rw [ha'.get k k hk hk, Res.ok_bind]
      obtain ⟨v', h1, h2⟩ := hI.exec_set hk (haf' k k hk hk)
      refine ⟨v', h1, h2.congr fun i _ => ?_⟩
      by_cases hik : i = k
      · simp [hik]
      · have : i < k + 1 ↔ i < k := by omega
        simp [hik, this])
  have hev : VecIs ev n (fun i => B' i i) := hev.congr fun i hi => by simp [hi]
  obtain ⟨dl, e7, hdl⟩ := Vec.exec_of_stores (Vec.sub_stores hfd hev hfp) hfd
    (fun i hi => R.sub_finite (haf' i i hi hi) (hfpf i hi).1 (by
      have h1 := hent i hi
      have h2 := (hfpf i hi).2
      have h3 := abs_sub ⟪B' i i⟫ ⟪fp i⟫
      norm_num at h1 h2 ⊢
      linarith))
  obtain ⟨n1, e8⟩ := norm_ok hdl
  obtain ⟨n2, e9⟩ := norm_ok hev
  have hstep : Linalg.eigenStep n false st = if n1 /ᶠ n2 <ᶠ EPSILON then
        .ok (false, ⟨a', st.i, q', r'', v', ev, st.previous, dl⟩)
      else (foldRange 0 n
      (fun k (p : Vec F × Vec F) => do
        let ev ← exec p.1 (Vec.setElement k (lit 0))
        let pr ← exec p.2 (Vec.setElement k (← a'.getElement k k))
        .ok (ev, pr)) (ev, st.previous) : Res LinalgError (Vec F × Vec F)) >>= fun p =>
        .ok (true, ⟨a', st.i, q', r'', v', p.1, p.2, dl⟩) := by
    unfold Linalg.eigenStep Linalg.eigenQr
    simp only [Mat.init_of h.a, Res.ok_bind, Bool.false_eq_true, if_false, eqr, e1, e2, e3, e4, e5, e6,
      e7, e8, e9]
  rw [hstep]
  split
  · exact ⟨false, _, rfl, B', V', ⟨ha', hv', haf', htf', ⟨_, hq'⟩, ⟨_, hr''⟩, ⟨fp, hfp, hfpf⟩, ⟨_, hdl⟩, hort, hsim⟩, hev⟩
  · obtain ⟨⟨v1, p1⟩, e10, h8, h9⟩ := foldRange_inv (ε := LinalgError)
      (fun k (p : Vec F × Vec F) => do
        let ev ← exec p.1 (Vec.setElement k (lit 0))
        let pr ← exec p.2 (Vec.setElement k (← a'.getElement k k))
        .ok (ev, pr))
      (fun k (p : Vec F × Vec F) => VecIs p.1 n (fun i => if i < k then lit 0 else B' i i) ∧
        VecIs p.2 n (fun i => if i < k then B' i i else fp i)) 0 n (Nat.zero_le _) (ev, st.previous)
      ⟨hev.congr fun i _ => by simp, hfp.congr fun i _ => by simp⟩
      (fun k p _ hk ⟨hI1, hI2⟩ => by
        obtain ⟨v', h1, h2⟩ := hI1.exec_set hk (show Finite (lit 0 : F) from R.zero_finite)
        obtain ⟨w', h3, h4⟩ := hI2.exec_set hk (haf' k k hk hk)
        refine ⟨(v', w'), ?_, h2.congr fun i _ => ?_, h4.congr fun i _ => ?_⟩
        · rw [h1, Res.ok_bind, ha'.get k k hk hk, Res.ok_bind, h3, Res.ok_bind]
        · by_cases hik : i = k
          · simp [hik]
          · have : i < k + 1 ↔ i < k := by omega
            simp [hik, this]
        · by_cases hik : i = k
          · simp [hik]
          · have : i < k + 1 ↔ i < k := by omega
            simp [hik, this])
    rw [e10, Res.ok_bind]
    have h9 : VecIs p1 n (fun i => B' i i) := VecIs.congr (v := p1) h9 fun i hi => by simp [hi]
    exact ⟨true, _, rfl, B', V', ⟨ha', hv', haf', htf', ⟨_, hq'⟩, ⟨_, hr''⟩,
      ⟨_, h9, fun i hi => ⟨haf' i i hi hi, hent i hi⟩⟩, ⟨_, hdl⟩, hort, hsim⟩,
      VecIs.congr (v := v1) h8 fun i hi => by simp [hi]⟩

theorem EigF.mono {n : Nat} {A : Matrix (Fin n) (Fin n) ℝ} {st : Linalg.EigenState F} {j j' K M : ℝ} {B V : Nat → Nat → F}
    (h : EigF n A st j K M B V) (hj : j ≤ j') (hK : 0 ≤ K) (hM : 0 ≤ M) : EigF n A st j' K M B V := by
  refine ⟨h.a, h.vec, h.afin, h.vfin, h.q, h.r, h.prev, h.delta, h.ortho.trans ?_, h.similar.trans ?_⟩
  · have := mul_le_mul_of_nonneg_right hj hK
    linarith
  · have := mul_le_mul_of_nonneg_right hj hM
    norm_num
    linarith

/-- The whole iteration, in the operator norm. -/
theorem eigen_rounded {a : Mat F} {n : Nat} {f : Nat → Nat → F} (ha : MatIs a n n f)
    (hf : ∀ i j, i < n → j < n → Finite (f i j)) {σ M r K : ℝ} {N : ℕ}
    (H : EigHyp n (toMatrix n n fun i j => ⟪f i j⟫) σ M r K N) :
    ∃ st B V, Linalg.eigen a N false = .ok (st.eigenvalues, st.eigenvectors) ∧
      EigF n (toMatrix n n fun i j => ⟪f i j⟫) st N K M B V ∧
      (VecIs st.eigenvalues n (fun _ => lit 0) ∨ VecIs st.eigenvalues n (fun i => B i i)) := by
  set A := toMatrix n n (fun i j => ⟪f i j⟫) with hA
  have hσ0 : 0 < σ := lt_of_lt_of_le (by norm_num) H.hσ
  have hM0 : 0 ≤ M := hσ0.le.trans H.hσM
  have hK0 : 0 ≤ K := by
    rw [H.hK]
    have := H.skew_ge
    have h1 := H.one_le
    have : 0 ≤ 224 / 2 ^ 24 * r := by positivity
    norm_num at *
    linarith
  obtain ⟨a0, i0, v0, h0, h1, hv, hrun⟩ := eigen_start ha hf
  have hz : VecIs (Vec.zeros n) n (fun _ => (lit 0 : F)) := Vec.zeros_is ha.rpos ha.rle
  have hone : toMatrix n n (fun i j : Nat => ⟪(if i = j then lit 1 else lit 0 : F)⟫) = 1 := by
    ext i j
    simp only [toMatrix, Matrix.one_apply, Fin.ext_iff]
    split
    · exact R.one_val
    · exact R.zero_val
  obtain ⟨st, e, h⟩ := loopRange_total (ε := LinalgError)
    (fun _ st => Linalg.eigenStep n false st)
    (fun k st => (∃ B V, EigF n A st k K M B V) ∧ VecIs st.eigenvalues n (fun _ => (lit 0 : F)))
    (fun st => ∃ B V, EigF n A st N K M B V ∧ VecIs st.eigenvalues n (fun i => B i i))
    0 N (Nat.zero_le _)
    { a := a0, i := i0, q := Mat.zeros n n, r := Mat.zeros n n, eigenvectors := v0,
      eigenvalues := Vec.zeros n, previous := Vec.zeros n, delta := Vec.zeros n }
    ⟨⟨f, _, h0, hv, hf, fun i j _ _ => by
        split
        · exact R.one_finite
        · exact R.zero_finite,
      ⟨_, Mat.zeros_of ha⟩, ⟨_, Mat.zeros_of ha⟩, ⟨_, hz, fun i _ => ⟨R.zero_finite, by rw [R.zero_val]; norm_num⟩⟩, ⟨_, hz⟩,
      by rw [hone]; simp, by rw [hone]; simp [hA]⟩, hz⟩
    (fun k st _ hk ⟨⟨B, V, hI⟩, hev⟩ => by
      obtain ⟨go, st', h1, B', V', h2, h3⟩ := eigenStep_rounded H (Nat.cast_nonneg k) (by exact_mod_cast hk) hI ⟨_, hev⟩
      refine ⟨go, st', h1, ?_⟩
      rcases go with _ | _
      · exact ⟨B', V', h2.mono (by exact_mod_cast hk) hK0 hM0, h3⟩
      · exact ⟨⟨B', V', by push_cast; exact h2⟩, h3⟩)
  have e' : loopFrom 0 N (fun _ st => Linalg.eigenStep n false st) _ = .ok st := e
  rcases h with ⟨⟨B, V, hI⟩, hev⟩ | ⟨B, V, hI, hev⟩
  · exact ⟨st, B, V, by rw [hrun, e']; rfl, hI, Or.inl hev⟩
  · exact ⟨st, B, V, by rw [hrun, e']; rfl, hI, Or.inr hev⟩

/-- C117: the unshifted `eigen` in binary32 on a matrix that stretches every vector between `σ` and `M` times, with a number
of iterations for which the errors stay small: it succeeds, the returned matrix is orthogonal up to the errors of the
iterations, and the eigenvalues are all zero, or they are the diagonal of `Vᵀ A V` up to 200 units of round-off of `M` per
iteration and their sum is the trace of the matrix up to those errors. -/
theorem C117_eigen {a : Mat F} {n : Nat} {f : Nat → Nat → F} (ha : MatIs a n n f)
    (hf : ∀ i j, i < n → j < n → Finite (f i j)) {σ M r : ℝ} (hA : Stretch n (fun i j => ⟪f i j⟫) σ M)
    (hσ : 12 / 10 ^ 5 ≤ σ) (hM : M ≤ 2 ^ 59) (hr : 103 / 100 * M ≤ r * σ) (hr1 : r * (1 + 103 / 100 * r) ^ (n - 1) ≤ 10 ^ 4)
    {N : ℕ} (hN : N * ((224 * r * (1 + 103 / 100 * r) ^ (n - 2) + 100) / 2 ^ 24) ≤ 1 / 200) :
    ∃ (ev : Vec F) (v : Mat F) (g : Nat → Nat → F), Linalg.eigen a N false = .ok (ev, v) ∧ MatIs v n n g ∧
      (∀ i j, i < n → j < n → Finite (g i j) ∧ |∑ t ∈ range n, ⟪g t i⟫ * ⟪g t j⟫ - if i = j then 1 else 0| ≤
        101 / 100 * N * ((224 * r * (1 + 103 / 100 * r) ^ (n - 2) + 100) / 2 ^ 24)) ∧
      (VecIs ev n (fun _ => lit 0) ∨ ∃ d : Nat → F, VecIs ev n d ∧
        (∀ i, i < n → Finite (d i) ∧
          |⟪d i⟫ - ∑ s ∈ range n, ∑ t ∈ range n, ⟪g s i⟫ * ⟪f s t⟫ * ⟪g t i⟫| ≤ 200 * N / 2 ^ 24 * M) ∧
        |∑ i ∈ range n, ⟪d i⟫ - ∑ i ∈ range n, ⟪f i i⟫| ≤
          (8 * N * ((224 * r * (1 + 103 / 100 * r) ^ (n - 2) + 100) / 2 ^ 24)) * M) := by
  have hσ0 : 0 < σ := lt_of_lt_of_le (by norm_num) hσ
  have hn := ha.rpos
  have hσM := hA.le hn
  set K := (224 * r * (1 + 103 / 100 * r) ^ (n - 2) + 100) / 2 ^ 24 with hK
  have H : EigHyp n (toMatrix n n fun i j => ⟪f i j⟫) σ M r K N :=
    ⟨by rw [hK]; unfold skew; ring, hN, hr, hr1, hσ, hσM, hM, hA.norm (hσ0.le.trans hσM), hA.low⟩
  obtain ⟨st, B, V, e, hI, hev⟩ := eigen_rounded ha hf H
  have hort := hI.ortho
  have hsim := hI.similar
  set VM := toMatrix n n (fun i j => ⟪V i j⟫) with hVM
  set AM := toMatrix n n (fun i j => ⟪f i j⟫) with hAM
  have ent : ∀ i : Fin n, (VM.transpose * AM * VM) i i = ∑ s ∈ range n, ∑ t ∈ range n, ⟪V s i⟫ * ⟪f s t⟫ * ⟪V t i⟫ := by
    intro i
    rw [Matrix.mul_apply]
    simp only [Matrix.mul_apply, Finset.sum_mul]
    rw [Finset.sum_comm, Finset.sum_range]
    refine Finset.sum_congr rfl fun s _ => ?_
    rw [Finset.sum_range]
    rfl
  refine ⟨_, _, V, e, hI.vec, fun i j hi hj => ⟨hI.vfin i j hi hj, ?_⟩, ?_⟩
  · refine le_trans (le_of_eq ?_) ((entry_le _ ⟨i, hi⟩ ⟨j, hj⟩).trans hort)
    rw [Matrix.sub_apply, Matrix.mul_apply, Matrix.one_apply, Finset.sum_range]
    simp only [Fin.ext_iff]
    rfl
  · refine hev.imp id fun hev => ⟨_, hev, fun i hi => ⟨hI.afin i i hi hi, ?_⟩, ?_⟩
    · rw [← ent ⟨i, hi⟩]
      exact (entry_le _ ⟨i, hi⟩ ⟨i, hi⟩).trans hsim
    · have hK1 : 324 / 2 ^ 24 ≤ K := by
        have h0 := H.skew_ge
        have h1 := H.one_le
        rw [H.hK]
        norm_num at h0 ⊢
        linarith
      have hM0 : 0 ≤ M := hσ0.le.trans hσM
      have hc : 101 / 100 * (N : ℝ) * K ≤ 1 / 100 := by linarith
      have h1 := trace_near hort hc H.norm hn ha.rle
      have h2 := trace_le (toMatrix n n (fun i j => ⟪B i j⟫) - VM.transpose * AM * VM) ha.rle
      have h3 : ∑ i ∈ range n, ⟪B i i⟫ - ∑ i ∈ range n, ⟪f i i⟫ =
          (toMatrix n n (fun i j => ⟪B i j⟫) - VM.transpose * AM * VM).trace + ((VM.transpose * AM * VM).trace - AM.trace) := by
        rw [Matrix.trace_sub, Finset.sum_range, Finset.sum_range]
        show _ = (∑ i : Fin n, ⟪B i i⟫ - _) + (_ - ∑ i : Fin n, ⟪f i i⟫)
        ring
      rw [h3]
      have h4 := abs_add_le ((toMatrix n n (fun i j => ⟪B i j⟫) - VM.transpose * AM * VM).trace)
        ((VM.transpose * AM * VM).trace - AM.trace)
      have h5 : (N : ℝ) * (324 / 2 ^ 24) * M ≤ N * K * M :=
        mul_le_mul_of_nonneg_right (mul_le_mul_of_nonneg_left hK1 (Nat.cast_nonneg N)) hM0
      have h6 : 0 ≤ (N : ℝ) * K * M := le_trans (by positivity) h5
      linarith

end

/-- The results of `eigen` on a 2×2 matrix of literals. -/
def eigRows (l : List (List ℚ)) (N : Nat) : Res LinalgError (List F32 × List F32) := do
  let (ev, v) ← Linalg.eigen (fmat l) N false
  let ix := (List.range l.length).flatMap fun i => (List.range l.length).map fun j => (i, j)
  let e ← (List.range l.length).mapM fun i => ev.getElement i
  let v ← ix.mapM fun p => v.getElement p.1 p.2
  .ok (e, v)

/-- The matrix (2 1; 1 3) stretches vectors between 1.3 and 3.7 times. -/
theorem stretch_example : Stretch 2 (fun i j => ⟪(lit ((([[2, 1], [1, 3]] : List (List ℚ)).getD i []).getD j 0) : F32)⟫) (13 / 10) (37 / 10) := by
  have v1 : ⟪(lit 1 : F32)⟫ = 1 := Rounded.one_val
  have v2 : ⟪(lit 2 : F32)⟫ = 2 := Rounded.two_val
  have v3 : ⟪(lit 3 : F32)⟫ = 3 := by rw [val_lit (by decide +kernel)]; norm_num
  intro x
  have e : norm2 2 (fun i => ∑ j ∈ range 2, ⟪(lit ((([[2, 1], [1, 3]] : List (List ℚ)).getD i []).getD j 0) : F32)⟫ * x j) =
      √((2 * x 0 + x 1) ^ 2 + (x 0 + 3 * x 1) ^ 2) := by
    unfold norm2
    simp [Finset.sum_range_succ, v1, v2, v3]
  rw [e]
  have e2 : norm2 2 x ^ 2 = x 0 ^ 2 + x 1 ^ 2 := by
    rw [norm2_sq]
    simp [Finset.sum_range_succ]
  have h0 := norm2_nonneg 2 x
  constructor
  · refine Real.le_sqrt_of_sq_le ?_
    rw [mul_pow, e2]
    nlinarith [sq_nonneg (33 / 20 * x 0 + 5 / 2 * x 1), sq_nonneg (x 0 + 3 / 2 * x 1)]
  · rw [Real.sqrt_le_left (by positivity), mul_pow, e2]
    nlinarith [sq_nonneg (x 0 - 1 / 2 * x 1), sq_nonneg (2 * x 0 - x 1), sq_nonneg (3 * x 0 - 2 * x 1)]

/-- Beside `C117_qr` and `C117_eigen`: the matrix (2 1; 1 3), with up to 100 iterations. -/
example : ∃ (ev : Vec F32) (v : Mat F32) (g : Nat → Nat → F32), Linalg.eigen (fmat [[2, 1], [1, 3]]) 100 false = .ok (ev, v) ∧
    MatIs v 2 2 g ∧ |∑ t ∈ range 2, ⟪g t 0⟫ * ⟪g t 1⟫| ≤ 5 / 1000 := by
  have ha : MatIs (fmat [[2, 1], [1, 3]]) 2 2 _ :=
    Mat.of_is (fun i j => (lit ((([[2, 1], [1, 3]] : List (List ℚ)).getD i []).getD j 0) : F32))
      (by decide) (by decide) (by decide) (by decide)
  obtain ⟨ev, v, g, e, hv, hg, -⟩ := C117_eigen (r := 3) (N := 100) ha (fun i j hi hj => by
    obtain rfl | rfl : i = 0 ∨ i = 1 := by omega
    all_goals obtain rfl | rfl : j = 0 ∨ j = 1 := by omega
    all_goals decide +kernel) stretch_example (by norm_num) (by norm_num) (by norm_num) (by norm_num) (by norm_num)
  refine ⟨ev, v, g, e, hv, ?_⟩
  have := (hg 0 1 (by norm_num) (by norm_num)).2
  rw [if_neg (by norm_num), sub_zero] at this
  exact this.trans (by norm_num)

/-- What is computed: the eigenvalues 3.61803 and 1.38197 with nearly orthogonal vectors. -/
example : eigRows [[2, 1], [1, 3]] 20 = .ok ([⟨.fin (15175101 / 4194304)⟩, ⟨.fin (11592837 / 8388608)⟩],
    [⟨.fin (4423839 / 8388608)⟩, ⟨.fin (-14254593 / 16777216)⟩, ⟨.fin (14254597 / 16777216)⟩,
      ⟨.fin (8847679 / 16777216)⟩]) := by
  decide +kernel
end Verif
