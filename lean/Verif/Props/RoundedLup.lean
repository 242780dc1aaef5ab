import Verif.Lib.LupRounded
import Verif.Props.Lup
import Verif.Props.RoundedSensors

/-
C94: how far the factors of `lup`, the solutions of `solve` and the inverses of `invert` are from exact
ones in binary32.  There is no hypothesis on the size of the numbers: whenever a call succeeds, the
bound holds.
-/

set_option linter.unusedSectionVars false

namespace Verif
open Scalar Finset

variable {F : Type} [Scalar F] [R : Rounded F] [Propagates F] {n : Nat}

/-- Magnitudes of the elements of a matrix. -/
def absM (m : Matrix (Fin n) (Fin n) ℝ) : Matrix (Fin n) (Fin n) ℝ := fun i j => |m i j|
/-- Magnitudes of the elements of a vector. -/
def absV (v : Fin n → ℝ) : Fin n → ℝ := fun i => |v i|

/-- The real numbers that the elements of a matrix stand for. -/
def valM (w : Fin n → Fin n → F) : Matrix (Fin n) (Fin n) ℝ := fun i j => ⟪w i j⟫
/-- The real numbers that the elements of a vector stand for. -/
def valV (x : Fin n → F) : Fin n → ℝ := fun i => ⟪x i⟫

section
variable (W : Nat → Nat → ℝ) (y : Nat → ℝ) (G : ℝ → ℝ)

theorem lower_sum (hG : G 0 = 0) (i : Fin n) :
    ∑ x : Fin n, G (unitLower (toMatrix n n W) i x * y x) =
      (∑ k ∈ range i, G (W i k * y k)) + G (y i) := by
  rw [show (∑ x : Fin n, G (unitLower (toMatrix n n W) i x * y x)) =
      ∑ x : Fin n, (fun k : Nat => G ((if k < i.val then W i k else if k = i.val then 1 else 0) * y k)) x
      from Finset.sum_congr rfl fun x _ => by simp only [unitLower, toMatrix, Fin.lt_def, Fin.ext_iff],
    ← Finset.sum_range
      (fun k : Nat => G ((if k < i.val then W i k else if k = i.val then 1 else 0) * y k)),
    ← Finset.sum_range_add_sum_Ico _ (show i.val ≤ n by omega), Finset.sum_eq_sum_Ico_succ_bot i.2]
  have : ∑ k ∈ Ico (i.val + 1) n,
      G ((if k < i.val then W i k else if k = i.val then 1 else 0) * y k) = 0 :=
    Finset.sum_eq_zero fun k hk => by
      have := Finset.mem_Ico.mp hk
      have h1 : ¬ k < i.val := by omega
      have h2 : k ≠ i.val := by omega
      simp [h1, h2, hG]
  rw [this]
  simp only [lt_irrefl, if_false, if_true, one_mul, add_zero]
  congr 1
  exact Finset.sum_congr rfl fun k hk => by simp [Finset.mem_range.mp hk]

theorem upper_sum (hG : G 0 = 0) (i : Fin n) :
    ∑ x : Fin n, G (upper (toMatrix n n W) i x * y x) = ∑ k ∈ Ico i.val n, G (W i k * y k) := by
  rw [show (∑ x : Fin n, G (upper (toMatrix n n W) i x * y x)) =
      ∑ x : Fin n, (fun k : Nat => G ((if k < i.val then 0 else W i k) * y k)) x
      from Finset.sum_congr rfl fun x _ => by simp only [upper, toMatrix, Fin.lt_def],
    ← Finset.sum_range (fun k : Nat => G ((if k < i.val then 0 else W i k) * y k)),
    ← Finset.sum_range_add_sum_Ico _ (show i.val ≤ n by omega)]
  have : ∑ k ∈ range i.val, G ((if k < i.val then 0 else W i k) * y k) = 0 :=
    Finset.sum_eq_zero fun k hk => by simp [Finset.mem_range.mp hk, hG]
  rw [this, zero_add]
  refine Finset.sum_congr rfl fun k hk => ?_
  have : ¬ k < i.val := by have := Finset.mem_Ico.mp hk; omega
  simp [this]
end

theorem absM_mul (l u : Matrix (Fin n) (Fin n) ℝ) (i j : Fin n) :
    (absM l * absM u) i j = ∑ k, |l i k * u k j| := by
  rw [Matrix.mul_apply]
  exact Finset.sum_congr rfl fun k _ => (abs_mul _ _).symm

theorem absM_mulVec (l : Matrix (Fin n) (Fin n) ℝ) (v : Fin n → ℝ) (i : Fin n) :
    (absM l).mulVec (absV v) i = ∑ k, |l i k * v k| := by
  simp only [Matrix.mulVec, dotProduct]
  exact Finset.sum_congr rfl fun k _ => (abs_mul _ _).symm

/-- The error bound of the factorisation. -/
noncomputable def lupErr (W : Matrix (Fin n) (Fin n) ℝ) (i j : Fin n) : ℝ :=
  n / 2 ^ 24 * (absM (unitLower W) * absM (upper W)) i j + 20 / 2 ^ 150 * (1 + |W j j|)

/-- The error bound of the two substitutions. -/
noncomputable def substErr (W : Matrix (Fin n) (Fin n) ℝ) (x : Fin n → ℝ) (i : Fin n) : ℝ :=
  8 / 2 ^ 24 * (absM (unitLower W)).mulVec ((absM (upper W)).mulVec (absV x)) i +
    32 / 2 ^ 150 * ∑ k, |unitLower W i k| * (1 + |W k k|)

theorem rη_eq : rη = 1 / 2 ^ 150 := rfl

theorem lupErr_of {A : Nat → Nat → F} {st : Mat F × Vec Nat} {π : Nat → Nat} {f : Nat → Nat → F}
    (h : Linalg.LupNear n A (n - 1) st π f) (i j : Fin n) :
    |⟪A (π i) j⟫ - (unitLower (toMatrix n n fun i j => ⟪f (π i) j⟫) *
      upper (toMatrix n n fun i j => ⟪f (π i) j⟫)) i j| ≤
      lupErr (toMatrix n n fun i j => ⟪f (π i) j⟫) i j := by
  have hp := h.prod i j i.2 j.2
  have hn := h.lu.rpos
  have hn4 := h.lu.rle
  rw [show min i.val (n - 1) = i.val by omega] at hp
  unfold lupErr
  rw [Matrix.mul_apply, absM_mul]
  have e : ∀ k : Fin n, upper (toMatrix n n fun i j => ⟪f (π i) j⟫) k j =
      (fun k : Nat => if j.val < k then (0 : ℝ) else ⟪f (π k) j⟫) k := fun k => by
    simp only [upper, toMatrix, Fin.lt_def]
  simp only [e]
  have l1 := lower_sum (n := n) (fun i j => ⟪f (π i) j⟫)
    (fun k : Nat => if j.val < k then (0 : ℝ) else ⟪f (π k) j⟫) (fun x => x) rfl i
  have l2 := lower_sum (n := n) (fun i j => ⟪f (π i) j⟫)
    (fun k : Nat => if j.val < k then (0 : ℝ) else ⟪f (π k) j⟫) (fun x => |x|) abs_zero i
  rw [l1, l2]
  refine hp.trans (add_le_add (mul_le_mul_of_nonneg_right ?_ ?_) ?_)
  · unfold Linalg.cf
    rw [Linalg.ru_eq]
    have h1 : ((n - 1 : ℕ) : ℝ) = (n : ℝ) - 1 := by rw [Nat.cast_sub hn]; simp
    have h2 : (n : ℝ) ≤ 4 := by exact_mod_cast hn4
    rw [h1]
    norm_num
    linarith
  · have : 0 ≤ ∑ k ∈ range i.val, |⟪f (π i) k⟫ * (if j.val < k then 0 else ⟪f (π k) j⟫)| :=
      Finset.sum_nonneg fun _ _ => abs_nonneg _
    positivity
  · have h2 : ((n - 1 : ℕ) : ℝ) ≤ 3 := by exact_mod_cast (by omega : n - 1 ≤ 3)
    have hη := rη_pos
    have h3 : (20 : ℝ) / 2 ^ 150 = 20 * rη := by rw [rη_eq]; ring
    rw [h3]
    simp only [toMatrix]
    have h4 : 0 ≤ rη * |⟪f (π j) j⟫| := by positivity
    have h5 : ((n - 1 : ℕ) : ℝ) * rη ≤ 3 * rη := by gcongr
    split
    · nlinarith
    · nlinarith

/-- C94: a factorisation that `lup` returns in binary32.  The rows of the argument, permuted, are the
product of the factors up to the stated error. -/
theorem C94_lup {a : Mat F} {A : Nat → Nat → F} {lu : Mat F} {p : Vec Nat} (ha : MatIs a n n A)
    (hr : Linalg.lup a = .ok (lu, p)) :
    ∃ (σ : Equiv.Perm (Fin n)) (w : Fin n → Fin n → F),
      (∀ i : Fin n, p.getElementU8 i = .ok (σ i)) ∧
      (∀ i j : Fin n, lu.getElement (σ i) j = .ok (w i j) ∧ Finite (w i j)) ∧
      (∀ k : Fin n, k + 1 < n → 1 / 10001 ≤ |⟪w k k⟫|) ∧
      ∀ i j : Fin n, |⟪A (σ i) j⟫ - (unitLower (valM w) * upper (valM w)) i j| ≤ lupErr (valM w) i j := by
  obtain ⟨_, π, f, hI⟩ := Linalg.lup_inv ha hr
  refine ⟨hI.perm.toPerm, fun i j => f (π i) j, fun i => hI.p.get i i.2, fun i j => ⟨?_, ?_⟩,
    fun k hk => hI.pivots k (by omega), fun i j => lupErr_of hI i j⟩
  · rw [PermOn.toPerm_val]
    exact hI.lu.get _ _ (hI.perm.lt i i.2) j.2
  · exact hI.fin _ _ (hI.perm.lt i i.2) j.2

/-- The two substitutions together. -/
theorem subst_err {b x : Vec F} {B : Nat → F} {lu : Mat F} {p : Vec Nat} {π : Nat → Nat}
    {f : Nat → Nat → F} (hl : MatIs lu n n f) (hp : U8Is p n π)
    (hπ : ∀ i, i < n → π i < n) (hf : ∀ i j, i < n → j < n → Finite (f i j)) (hb : VecIs b n B)
    (he : Linalg.solve lu b p = .ok x) :
    ∃ X : Nat → F, VecIs x n X ∧ (∀ i, i < n → Finite (X i)) ∧
      ∀ i : Fin n, |⟪B (π i)⟫ - (unitLower (toMatrix n n fun i j => ⟪f (π i) j⟫) *
          upper (toMatrix n n fun i j => ⟪f (π i) j⟫)).mulVec (fun j => ⟪X j⟫) i| ≤
        substErr (toMatrix n n fun i j => ⟪f (π i) j⟫) (fun j => ⟪X j⟫) i := by
  obtain ⟨_, _, X, Y, hX, hfin, h1, h2⟩ := Linalg.solve_inv hl hp hπ hf hb he
  refine ⟨X, hX, fun i hi => (hfin i hi).1, fun i => ?_⟩
  have hη := rη_pos
  set W := toMatrix n n fun i j => ⟪f (π i) j⟫ with hW
  -- the systems as matrices
  have g1 : ∀ i : Fin n, |⟪B (π i)⟫ - ∑ k, unitLower W i k * ⟪Y k⟫| ≤
      Linalg.cf 3 * (∑ k, |unitLower W i k * ⟪Y k⟫|) + 15 * rη := fun i => by
    have l1 := lower_sum (n := n) (fun i j => ⟪f (π i) j⟫) (fun k => ⟪Y k⟫) (fun x => x) rfl i
    have l2 := lower_sum (n := n) (fun i j => ⟪f (π i) j⟫) (fun k => ⟪Y k⟫) (fun x => |x|) abs_zero i
    rw [hW, l1, l2]
    exact h1 i i.2
  have g2 : ∀ i : Fin n, |⟪Y i⟫ - ∑ k, upper W i k * ⟪X k⟫| ≤
      Linalg.cf 4 * (∑ k, |upper W i k * ⟪X k⟫|) + (15 * rη + 3 * rη * |W i i|) := fun i => by
    have l1 := upper_sum (n := n) (fun i j => ⟪f (π i) j⟫) (fun k => ⟪X k⟫) (fun x => x) rfl i
    have l2 := upper_sum (n := n) (fun i j => ⟪f (π i) j⟫) (fun k => ⟪X k⟫) (fun x => |x|) abs_zero i
    rw [hW, l1, l2]
    exact h2 i i.2
  clear_value W
  unfold substErr
  rw [← Matrix.mulVec_mulVec]
  have hU : ∀ k : Fin n, (absM (upper W)).mulVec (absV fun j => ⟪X j⟫) k = ∑ j, |upper W k j * ⟪X j⟫| :=
    fun k => absM_mulVec _ _ _
  obtain ⟨S, hS⟩ : ∃ S : Fin n → ℝ, S = (absM (upper W)).mulVec (absV fun j => ⟪X j⟫) := ⟨_, rfl⟩
  obtain ⟨Z, hZ⟩ : ∃ Z : Fin n → ℝ, Z = (upper W).mulVec (fun j => ⟪X j⟫) := ⟨_, rfl⟩
  have g3 : ∀ k : Fin n, |⟪Y k⟫ - Z k| ≤ Linalg.cf 4 * S k + (15 * rη + 3 * rη * |W k k|) := fun k => by
    rw [hS, hU k, hZ]
    exact g2 k
  have hZS : ∀ k, |Z k| ≤ S k := fun k => by
    rw [hS, hU k, hZ]
    simp only [Matrix.mulVec, dotProduct]
    exact Finset.abs_sum_le_sum_abs _ _
  rw [← hS, ← hZ]
  -- the residual
  have hY : ∀ k : Fin n, |⟪Y k⟫| ≤ (1 + Linalg.cf 4) * S k + (15 * rη + 3 * rη * |W k k|) := fun k => by
    have := abs_sub_abs_le_abs_sub ⟪Y k⟫ (Z k)
    linarith [g3 k, hZS k]
  have hsplit : |⟪B (π i)⟫ - (unitLower W).mulVec Z i| ≤
      |⟪B (π i)⟫ - ∑ k, unitLower W i k * ⟪Y k⟫| + ∑ k, |unitLower W i k| * |⟪Y k⟫ - Z k| := by
    have e : ⟪B (π i)⟫ - (unitLower W).mulVec Z i = (⟪B (π i)⟫ - ∑ k, unitLower W i k * ⟪Y k⟫) +
        ∑ k, unitLower W i k * (⟪Y k⟫ - Z k) := by
      simp only [Matrix.mulVec, dotProduct, mul_sub, Finset.sum_sub_distrib]
      ring
    rw [e]
    refine (abs_add_le _ _).trans (add_le_add le_rfl ?_)
    refine (Finset.abs_sum_le_sum_abs _ _).trans (le_of_eq ?_)
    exact Finset.sum_congr rfl fun k _ => abs_mul _ _
  refine hsplit.trans ?_
  have c3 : Linalg.cf 3 ≤ 31 / 10 / 2 ^ 24 := by unfold Linalg.cf; rw [Linalg.ru_eq]; norm_num
  have c4 : Linalg.cf 4 ≤ 41 / 10 / 2 ^ 24 := by unfold Linalg.cf; rw [Linalg.ru_eq]; norm_num
  have p3 := Linalg.cf_nonneg 3
  have p4 := Linalg.cf_nonneg 4
  have hL1 : (1 : ℝ) ≤ ∑ k, |unitLower W i k| * (1 + |W k k|) := by
    have h0 : ∀ k ∈ Finset.univ, 0 ≤ |unitLower W i k| * (1 + |W k k|) := fun k _ => by positivity
    refine le_trans ?_ (Finset.single_le_sum h0 (Finset.mem_univ i))
    simp [unitLower]
  have t1 : ∑ k, |unitLower W i k * ⟪Y k⟫| ≤
      (1 + Linalg.cf 4) * (absM (unitLower W)).mulVec S i +
        15 * rη * ∑ k, |unitLower W i k| * (1 + |W k k|) := by
    simp only [Matrix.mulVec, dotProduct, Finset.mul_sum]
    rw [← Finset.sum_add_distrib]
    refine Finset.sum_le_sum fun k _ => ?_
    rw [abs_mul]
    have a1 : |unitLower W i k| * |⟪Y k⟫| ≤
        |unitLower W i k| * ((1 + Linalg.cf 4) * S k + (15 * rη + 3 * rη * |W k k|)) := by
      gcongr
      exact hY k
    have a2 : 0 ≤ |unitLower W i k| * (rη * |W k k|) := by positivity
    simp only [absM]
    nlinarith
  have t2 : ∑ k, |unitLower W i k| * |⟪Y k⟫ - Z k| ≤
      Linalg.cf 4 * (absM (unitLower W)).mulVec S i +
        15 * rη * ∑ k, |unitLower W i k| * (1 + |W k k|) := by
    simp only [Matrix.mulVec, dotProduct, Finset.mul_sum]
    rw [← Finset.sum_add_distrib]
    refine Finset.sum_le_sum fun k _ => ?_
    have a1 : |unitLower W i k| * |⟪Y k⟫ - Z k| ≤
        |unitLower W i k| * (Linalg.cf 4 * S k + (15 * rη + 3 * rη * |W k k|)) := by
      gcongr
      exact g3 k
    have a2 : 0 ≤ |unitLower W i k| * (rη * |W k k|) := by positivity
    simp only [absM]
    nlinarith
  have hLS : 0 ≤ (absM (unitLower W)).mulVec S i := by
    simp only [Matrix.mulVec, dotProduct]
    refine Finset.sum_nonneg fun k _ => mul_nonneg (abs_nonneg _) ?_
    exact (abs_nonneg _).trans (hZS k)
  have g1i := g1 i
  generalize (absM (unitLower W)).mulVec S i = M at *
  generalize ∑ k, |unitLower W i k| * (1 + |W k k|) = T at *
  generalize ∑ k, |unitLower W i k * ⟪Y k⟫| = V at *
  have hη3 : (32 : ℝ) / 2 ^ 150 = 32 * rη := by rw [rη_eq]; ring
  rw [hη3]
  have hT : 0 ≤ rη * (T - 1) := mul_nonneg hη.le (by linarith)
  have u1 : Linalg.cf 3 * V ≤ Linalg.cf 3 * ((1 + Linalg.cf 4) * M + 15 * rη * T) := by gcongr
  have u2 : Linalg.cf 3 * ((1 + Linalg.cf 4) * M) ≤ 32 / 10 / 2 ^ 24 * M := by
    rw [← mul_assoc]
    gcongr
    calc Linalg.cf 3 * (1 + Linalg.cf 4) ≤ 31 / 10 / 2 ^ 24 * (1 + 41 / 10 / 2 ^ 24) := by gcongr
      _ ≤ _ := by norm_num
  have u3 : Linalg.cf 3 * (15 * rη * T) ≤ 1 / 10 * (rη * T) := by
    have : 0 ≤ rη * T := mul_nonneg hη.le (by linarith)
    calc Linalg.cf 3 * (15 * rη * T) ≤ 31 / 10 / 2 ^ 24 * (15 * rη * T) := by
          gcongr
      _ ≤ _ := by norm_num; linarith
  have u4 : Linalg.cf 4 * M ≤ 41 / 10 / 2 ^ 24 * M := by gcongr
  norm_num at u2 u4 ⊢
  linarith

/-- C94: `solve` on any packed factors `w` whose rows are listed by a permutation vector.  In binary32
the result satisfies the factored system up to the stated error. -/
theorem C94_subst {b x : Vec F} {B : Nat → F} {lu : Mat F} {p : Vec Nat} {π : Nat → Nat}
    {f : Nat → Nat → F} (hl : MatIs lu n n f) (hf : ∀ i j, i < n → j < n → Finite (f i j))
    (hp : U8Is p n π) (hπ : ∀ i, i < n → π i < n) (hb : VecIs b n B)
    (he : Linalg.solve lu b p = .ok x) :
    ∃ X : Fin n → F, x.getRows = .ok n ∧ (∀ i : Fin n, x.getElement i = .ok (X i) ∧ Finite (X i)) ∧
      ∀ i : Fin n, |⟪B (π i)⟫ - (unitLower (valM fun i j : Fin n => f (π i) j) *
          upper (valM fun i j : Fin n => f (π i) j)).mulVec (valV X) i| ≤
        substErr (valM fun i j : Fin n => f (π i) j) (valV X) i := by
  obtain ⟨X, h1, h2, h3⟩ := subst_err hl hp hπ hf hb he
  exact ⟨fun i => X i, h1.rows, fun i => ⟨h1.get i i.2, h2 i i.2⟩, h3⟩

/-- The residual of the original system. -/
theorem residual {A : Fin n → Fin n → ℝ} {B : Fin n → ℝ} {W : Matrix (Fin n) (Fin n) ℝ} {x : Fin n → ℝ}
    (h1 : ∀ i j, |A i j - (unitLower W * upper W) i j| ≤ lupErr W i j)
    (h2 : ∀ i, |B i - (unitLower W * upper W).mulVec x i| ≤ substErr W x i) (hn : n ≤ 4) (i : Fin n) :
    |B i - ∑ j, A i j * x j| ≤
      12 / 2 ^ 24 * (absM (unitLower W)).mulVec ((absM (upper W)).mulVec (absV x)) i +
        32 / 2 ^ 150 * (∑ k, |unitLower W i k| * (1 + |W k k|)) +
        20 / 2 ^ 150 * ∑ j, (1 + |W j j|) * |x j| := by
  have e : B i - ∑ j, A i j * x j = (B i - (unitLower W * upper W).mulVec x i) -
      ∑ j, (A i j - (unitLower W * upper W) i j) * x j := by
    simp only [Matrix.mulVec, dotProduct, sub_mul, Finset.sum_sub_distrib]
    ring
  have h3 : |∑ j, (A i j - (unitLower W * upper W) i j) * x j| ≤
      4 / 2 ^ 24 * (absM (unitLower W)).mulVec ((absM (upper W)).mulVec (absV x)) i +
        20 / 2 ^ 150 * ∑ j, (1 + |W j j|) * |x j| := by
    refine (Finset.abs_sum_le_sum_abs _ _).trans ?_
    rw [Matrix.mulVec_mulVec]
    simp only [Matrix.mulVec, dotProduct, Finset.mul_sum]
    rw [← Finset.sum_add_distrib]
    refine Finset.sum_le_sum fun j _ => ?_
    rw [abs_mul]
    have hn' : (n : ℝ) ≤ 4 := by exact_mod_cast hn
    have hm : 0 ≤ (absM (unitLower W) * absM (upper W)) i j := by
      rw [absM_mul]; exact Finset.sum_nonneg fun _ _ => abs_nonneg _
    calc _ ≤ lupErr W i j * |x j| := by gcongr; exact h1 i j
      _ ≤ (4 / 2 ^ 24 * (absM (unitLower W) * absM (upper W)) i j + 20 / 2 ^ 150 * (1 + |W j j|)) * |x j| := by
          unfold lupErr
          gcongr
      _ = _ := by simp only [absV]; ring
  rw [e]
  refine (abs_sub _ _).trans ?_
  have := h2 i
  unfold substErr at this
  have h4 : (12 : ℝ) / 2 ^ 24 = 8 / 2 ^ 24 + 4 / 2 ^ 24 := by norm_num
  rw [h4]
  linarith

/-- C94: a solution that `lup` followed by `solve` returns in binary32. -/
theorem C94_solve {a : Mat F} {A : Nat → Nat → F} {b x : Vec F} {B : Nat → F} {lu : Mat F} {p : Vec Nat}
    (ha : MatIs a n n A) (hb : VecIs b n B) (hr : Linalg.lup a = .ok (lu, p))
    (he : Linalg.solve lu b p = .ok x) :
    ∃ (σ : Equiv.Perm (Fin n)) (w : Fin n → Fin n → F) (X : Fin n → F),
      (∀ i : Fin n, p.getElementU8 i = .ok (σ i)) ∧
      (∀ i j : Fin n, lu.getElement (σ i) j = .ok (w i j)) ∧
      x.getRows = .ok n ∧ (∀ i : Fin n, x.getElement i = .ok (X i) ∧ Finite (X i)) ∧
      ∀ i : Fin n, |⟪B (σ i)⟫ - ∑ j : Fin n, ⟪A (σ i) j⟫ * ⟪X j⟫| ≤
        12 / 2 ^ 24 * (absM (unitLower (valM w))).mulVec ((absM (upper (valM w))).mulVec (absV (valV X))) i +
          32 / 2 ^ 150 * (∑ k, |unitLower (valM w) i k| * (1 + |⟪w k k⟫|)) +
          20 / 2 ^ 150 * ∑ j, (1 + |⟪w j j⟫|) * |⟪X j⟫| := by
  obtain ⟨_, π, f, hI⟩ := Linalg.lup_inv ha hr
  obtain ⟨X, hX, hXf, h3⟩ := subst_err hI.lu hI.p hI.perm.lt hI.fin hb he
  refine ⟨hI.perm.toPerm, fun i j => f (π i) j, fun i => X i, fun i => hI.p.get i i.2, fun i j => ?_,
    hX.rows, fun i => ⟨hX.get i i.2, hXf i i.2⟩, fun i => ?_⟩
  · rw [PermOn.toPerm_val]
    exact hI.lu.get _ _ (hI.perm.lt i i.2) j.2
  · exact residual (A := fun i j => ⟪A (π i) j⟫) (B := fun i => ⟪B (π i)⟫) (lupErr_of hI) h3 ha.rle i

/-! ### `invert` -/

/-- The loop of `invert`, when it succeeds. -/
theorem invertLoop_inv {A : Nat → Nat → F} {lu : Mat F} {p : Vec Nat} {π : Nat → Nat} {f : Nat → Nat → F}
    (h : Linalg.LupNear n A (n - 1) (lu, p) π f) (len : Nat) :
    ∀ (row : Nat) (t : Vec F) (s s' : Mat F) (V : Nat → Nat → F), row + len = n →
      VecIs t n (fun _ => lit 0) → MatIs s n n V → (∀ i j, i < n → j < n → Finite (V i j)) →
      Mat.invertLoop lu p row len t s = (.ok (), s') →
        ∃ V' : Nat → Nat → F, MatIs s' n n V' ∧ (∀ i j, i < n → j < n → Finite (V' i j)) ∧
          (∀ i, i < row → ∀ j, V' i j = V i j) ∧
          (∀ r, row ≤ r → r < n → ∀ i : Fin n,
            |(if π i = r then 1 else 0) - (unitLower (toMatrix n n fun i j => ⟪f (π i) j⟫) *
              upper (toMatrix n n fun i j => ⟪f (π i) j⟫)).mulVec (fun j => ⟪V' r j⟫) i| ≤
            substErr (toMatrix n n fun i j => ⟪f (π i) j⟫) (fun j => ⟪V' r j⟫) i) := by
  induction len with
  | zero =>
    intro row t s s' V hrow _ hs hV he
    cases he
    exact ⟨V, hs, hV, fun _ _ _ => rfl, fun i h1 h2 => by omega⟩
  | succ len ih =>
    intro row t s s' V hrow ht hs hV he
    have hr : row < n := by omega
    obtain ⟨t1, e1, ht1⟩ := ht.exec_set hr R.one_finite
    unfold Mat.invertLoop at he
    rw [e1, Op.liftOk_bind] at he
    unfold Mat.orElseErr at he
    rcases e2 : Linalg.solve lu t1 p with e | x
    · rw [e2] at he
      rcases e with e | _ <;> cases he
    rw [e2, Res.mapErr_ok, Op.liftOk_bind, Op.get_bind, hs.cols_eq] at he
    obtain ⟨X, hX, hXf, h3⟩ := subst_err h.lu h.p h.perm.lt h.fin ht1 e2
    obtain ⟨t2, e3, ht2⟩ := ht1.exec_set hr R.zero_finite
    obtain ⟨s1, e4, hs1⟩ := forRange_inv (ε := LinalgError)
      (fun col => do Mat.setElement row col (← (x.getElement col : Res LinalgError F)))
      (fun k (m : Mat F) => MatIs m n n (fun i j => if i = row ∧ j < k then X j else V i j))
      0 n (Nat.zero_le _) s (hs.congr fun i j _ _ => by simp)
      (fun k m _ hk hm => by
        refine ⟨_, by rw [hX.get k hk, Op.liftOk_bind]; exact hm.set_ok hr hk (hXf k hk), ?_⟩
        refine (hm.put row k hk (X k)).congr fun i j _ _ => ?_
        by_cases hi : i = row
        · by_cases hj : j = k
          · simp [hi, hj]
          · have : j < k + 1 ↔ j < k := by omega
            simp [hi, hj, this]
        · simp [hi])
    rw [Op.bind_ok e4, e3, Op.liftOk_bind] at he
    obtain ⟨V', hs2, hf2, hlow, hhigh⟩ := ih (row + 1) t2 s1 s' _ (by omega)
      (ht2.congr fun i _ => by by_cases h : i = row <;> simp [h]) hs1 (fun i j hi hj => by
        split
        · exact hXf j hj
        · exact hV i j hi hj) he
    refine ⟨V', hs2, hf2, ?_, ?_⟩
    · intro i hi j
      rw [hlow i (by omega)]
      have : i ≠ row := by omega
      simp [this]
    · intro r hi hin i
      by_cases hir : r = row
      · subst hir
        have e : (fun j : Fin n => ⟪V' r j⟫) = fun j : Fin n => ⟪X j⟫ := by
          funext j
          rw [hlow r (Nat.lt_succ_self _)]
          simp
        rw [e]
        have := h3 i
        have e' : ⟪if π i = r then (lit 1 : F) else lit 0⟫ = if π i = r then (1 : ℝ) else 0 := by
          split
          · exact R.one_val
          · exact R.zero_val
        rw [e'] at this
        exact this
      · exact hhigh r (by omega) hin i

/-- C94: an inverse that `invert` computes in binary32: the product of the argument and the inverse is
the identity up to the stated error, column by column. -/
theorem C94_invert {a v : Mat F} {A : Nat → Nat → F} (ha : MatIs a n n A)
    (he : Mat.invert a = (.ok (), v)) :
    ∃ (lu : Mat F) (p : Vec Nat) (σ : Equiv.Perm (Fin n)) (w V : Fin n → Fin n → F),
      Linalg.lup a = .ok (lu, p) ∧
      (∀ i : Fin n, p.getElementU8 i = .ok (σ i)) ∧
      (∀ i j : Fin n, lu.getElement (σ i) j = .ok (w i j)) ∧
      v.getRows = .ok n ∧ v.getCols = .ok n ∧
      (∀ i j : Fin n, v.getElement i j = .ok (V i j) ∧ Finite (V i j)) ∧
      ∀ i c : Fin n, |(if σ i = c then 1 else 0) - ∑ j : Fin n, ⟪A (σ i) j⟫ * ⟪V j c⟫| ≤
        12 / 2 ^ 24 * (absM (unitLower (valM w)) * absM (upper (valM w)) * absM (valM V)) i c +
          32 / 2 ^ 150 * (∑ k, |unitLower (valM w) i k| * (1 + |⟪w k k⟫|)) +
          20 / 2 ^ 150 * ∑ j, (1 + |⟪w j j⟫|) * |⟪V j c⟫| := by
  unfold Mat.invert at he
  simp only [Op.get_bind, Mat.isSquare_eq ha, Op.liftOk_bind, decide_true, Bool.not_true,
    Bool.false_eq_true, if_false, ha.rows_eq, Vec.init_new ha.rpos ha.rle] at he
  unfold Mat.orElseErr at he
  rcases e1 : Linalg.lup a with e | ⟨lu, p⟩
  · rw [e1] at he
    rcases e with e | _ <;> cases he
  rw [e1, Res.mapErr_ok, Op.liftOk_bind] at he
  dsimp only at he
  obtain ⟨hAf, π, f, hI⟩ := Linalg.lup_inv ha e1
  rcases e2 : Mat.invertLoop lu p 0 n (Vec.zeros n) a with ⟨r, s1⟩
  rcases r with e | u
  · rw [Op.bind_err e2] at he
    cases he
  rw [Op.bind_ok e2] at he
  obtain ⟨V, hs1, hV, _, hh⟩ := invertLoop_inv hI n 0 _ a s1 A (by omega)
    (Vec.zeros_is ha.rpos ha.rle) ha hAf e2
  obtain ⟨s2, e3, hs2⟩ := Mat.transpose_ok hs1 hV
  rw [e3] at he
  cases he
  refine ⟨lu, p, hI.perm.toPerm, fun i j => f (π i) j, fun i j => V j i, rfl, fun i => hI.p.get i i.2,
    fun i j => ?_, hs2.rows, hs2.cols, fun i j => ⟨hs2.get i j i.2 j.2, hV j i j.2 i.2⟩, fun i c => ?_⟩
  · rw [PermOn.toPerm_val]
    exact hI.lu.get _ _ (hI.perm.lt i i.2) j.2
  · have := residual (A := fun i j => ⟪A (π i) j⟫) (B := fun i => if π i = c then 1 else 0) (lupErr_of hI)
      (hh c (Nat.zero_le _) c.2) ha.rle i
    rw [Matrix.mulVec_mulVec] at this
    have e : (if hI.perm.toPerm i = c then (1 : ℝ) else 0) = if π i = c then 1 else 0 := by
      simp only [Fin.ext_iff, PermOn.toPerm_val]
    rw [e]
    exact this

/-! ### Cases in binary32 -/

/-- A square matrix of literals. -/
def fmat (l : List (List ℚ)) : Mat F32 :=
  Mat.of l.length l.length (fun i j => (lit ((l.getD i []).getD j 0) : F32))

/-- The solution of a system of literals. -/
def fsolve (l : List (List ℚ)) (b : List ℚ) : Res LinalgError (List F32) := do
  let (lu, p) ← Linalg.lup (fmat l)
  let x ← Linalg.solve lu (fvec b) p
  (List.range b.length).mapM fun i => x.getElement i

/-- Beside `C94_lup`, `C94_subst` and `C94_solve`: three equations in which two rows are exchanged and every step
rounds. -/
example : fsolve [[1, 2, 3], [-1, 1, 1], [2, 2, 1]] [1, 2, 3] =
    .ok [⟨.fin (-9586979 / 16777216)⟩, ⟨.fin (11384539 / 4194304)⟩, ⟨.fin (-10785353 / 8388608)⟩] := by
  decide +kernel

/-- Beside `C94_invert`: a matrix that is inverted. -/
example : (do
    let v ← exec (fmat [[1, 2, 3], [-1, 1, 1], [2, 2, 1]]) Mat.invert
    .ok [← v.getElement 0 0, ← v.getElement 1 1, ← v.getElement 2 2] : Res LinalgError (List F32)) =
    .ok [⟨.fin (4793491 / 33554432)⟩, ⟨.fin (5991863 / 8388608)⟩, ⟨.fin (-14380471 / 33554432)⟩] := by
  decide +kernel

/-- C94: the bound cannot be expressed by the sizes of the matrix and of the solution: the first of two equations
has a small coefficient at the place of the pivot, and since the other one is negative the rows are not
exchanged.  All numbers are at most 2 and the determinant is at least 1, but the residual exceeds 1/2100. -/
theorem C94_unstable : ∃ (a lu : Mat F32) (p : Vec Nat) (b x : Vec F32) (A : Nat → Nat → F32) (B X : Nat → F32),
    MatIs a 2 2 A ∧ VecIs b 2 B ∧ VecIs x 2 X ∧
    (∀ i, i < 2 → |⟪B i⟫| ≤ 2 ∧ |⟪X i⟫| ≤ 2 ∧ ∀ j, j < 2 → |⟪A i j⟫| ≤ 2) ∧
    1 ≤ ⟪A 0 0⟫ * ⟪A 1 1⟫ - ⟪A 0 1⟫ * ⟪A 1 0⟫ ∧
    Linalg.lup a = .ok (lu, p) ∧ Linalg.solve lu b p = .ok x ∧
    1 / 2100 ≤ |⟪B 1⟫ - (⟪A 1 0⟫ * ⟪X 0⟫ + ⟪A 1 1⟫ * ⟪X 1⟫)| := by
  have h : fsolve [[1 / 8192, 1], [-1, 8195 / 8192]] [1, 2] = .ok [⟨.fin (-1)⟩, ⟨.fin (8193 / 8192)⟩] := by
    decide +kernel
  unfold fsolve at h
  obtain ⟨⟨lu, p⟩, e1, h⟩ := Res.bind_eq_ok.mp h
  obtain ⟨x, e2, h⟩ := Res.bind_eq_ok.mp h
  have ha : MatIs (fmat [[1 / 8192, 1], [-1, 8195 / 8192]]) 2 2 _ :=
    Mat.of_is (fun i j => (lit ((([[1 / 8192, 1], [-1, 8195 / 8192]] : List (List ℚ)).getD i []).getD j 0) : F32))
      (by decide) (by decide) (by decide) (by decide)
  have hb : VecIs (fvec [1, 2]) 2 _ := Vec.of_is (fun i => (lit (([1, 2] : List ℚ).getD i 0) : F32))
    (by decide) (by decide)
  obtain ⟨_, π, f, hI⟩ := Linalg.lup_inv ha e1
  obtain ⟨X, hX, _, _⟩ := subst_err hI.lu hI.p hI.perm.lt hI.fin hb e2
  have hX' : X 0 = ⟨.fin (-1)⟩ ∧ X 1 = ⟨.fin (8193 / 8192)⟩ := by
    simp [List.range, List.range.loop, List.mapM_cons, hX.get 0 (by omega), hX.get 1 (by omega), Res.ok_bind] at h
    simpa using h
  have v00 : ⟪(lit (1 / 8192) : F32)⟫ = 1 / 8192 := by rw [val_lit (by decide +kernel)]; norm_num
  have v01 : ⟪(lit 1 : F32)⟫ = 1 := Rounded.one_val
  have v10 : ⟪(lit (-1) : F32)⟫ = -1 := by rw [val_lit (by decide +kernel)]; norm_num
  have v11 : ⟪(lit (8195 / 8192) : F32)⟫ = 8195 / 8192 := by rw [val_lit (by decide +kernel)]; norm_num
  have v2 : ⟪(lit 2 : F32)⟫ = 2 := Rounded.two_val
  have x0 : ⟪X 0⟫ = -1 := by rw [hX'.1]; show ((-1 : ℚ) : ℝ) = -1; norm_num
  have x1 : ⟪X 1⟫ = 8193 / 8192 := by rw [hX'.2]; show ((8193 / 8192 : ℚ) : ℝ) = _; norm_num
  refine ⟨_, lu, p, _, x, _, _, X, ha, hb, hX, fun i hi => ?_, ?_, e1, e2, ?_⟩
  · obtain rfl | rfl : i = 0 ∨ i = 1 := by omega
    · refine ⟨?_, ?_, fun j hj => ?_⟩
      · simp [v01]
      · rw [x0]; norm_num
      · obtain rfl | rfl : j = 0 ∨ j = 1 := by omega
        · simp only [List.getD_cons_zero, v00]; norm_num [abs_of_pos]
        · simp [v01]
    · refine ⟨?_, ?_, fun j hj => ?_⟩
      · simp [v2]
      · rw [x1]; norm_num [abs_of_pos]
      · obtain rfl | rfl : j = 0 ∨ j = 1 := by omega
        · simp [v10]
        · simp only [List.getD_cons_zero, List.getD_cons_succ, v11]; norm_num [abs_of_pos]
  · simp only [List.getD_cons_zero, List.getD_cons_succ, v00, v01, v10, v11]; norm_num
  · simp only [List.getD_cons_zero, List.getD_cons_succ, v10, v11, v2, x0, x1]; norm_num [abs_of_neg, abs_of_pos]

end Verif
