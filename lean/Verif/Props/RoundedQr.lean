import Verif.Props.RoundedChol
import Verif.Props.Qr

/-
C101: `qr_decomp` in binary32.  The matrix is, up to a few rounding errors, the product of the first
factor and an upper triangular matrix; but the columns of the first factor are orthogonal only as far as the
columns of the matrix are independent, and the second factor returned is `Qᵀ A`, so it is neither triangular
nor a factor when the columns are nearly dependent.
-/

set_option linter.unusedSectionVars false
set_option linter.unusedSimpArgs false

namespace Verif
open Scalar Finset

/-! ### The estimates, in a Euclidean space -/

section Space
variable {V : Type*} [NormedAddCommGroup V] [InnerProductSpace ℝ V]

/-- The absolute error, as a length next to which it is a rounding error. -/
noncomputable def qz : ℝ := 1 / 2 ^ 116

theorem rη_qz : rη = ru * qz / 1024 := by
  unfold rη ru qz; norm_num

theorem qz_pos : 0 < qz := by unfold qz; positivity

/-- Taking the component along `q` away from `w`, with rounding errors. -/
theorem mgs_step {q w w' : V} {d : ℝ} (hq : |‖q‖ - 1| ≤ 12 * ru)
    (hd : |d - (inner ℝ q w : ℝ)| ≤ 12 * (ru * (‖q‖ * ‖w‖) + rη))
    (hw : ‖w' - (w - d • q)‖ ≤ 21 / 10 * ru * (|d| * ‖q‖) + ru * ‖w‖ + 6 * rη) :
    |d| ≤ 1001 / 1000 * (‖w‖ + qz) ∧
    ‖w' - (w - d • q)‖ ≤ 33 / 10 * ru * (‖w‖ + qz) ∧
    ‖w'‖ + qz ≤ (1 + 17 * ru) * (‖w‖ + qz) ∧
    |(inner ℝ q w' : ℝ)| ≤ 42 * ru * (‖w‖ + qz) := by
  have hu := Linalg.ru_eq
  have hz := qz_pos
  have hη := rη_qz
  rw [hη] at hd hw
  rw [hu] at hq hd hw ⊢
  obtain ⟨hq1, hq2⟩ := abs_le.mp hq
  have hw0 := norm_nonneg w
  set W := ‖w‖ + qz with hW
  have hWw : ‖w‖ ≤ W := by linarith
  have hWz : qz ≤ W := by linarith
  have hqw : ‖q‖ * ‖w‖ ≤ 1000001 / 1000000 * ‖w‖ := by
    refine mul_le_mul_of_nonneg_right ?_ hw0
    linarith
  have hd' : |d - (inner ℝ q w : ℝ)| ≤ 121 / 10 / 16777216 * W := by
    refine hd.trans ?_
    linarith
  have hin : |(inner ℝ q w : ℝ)| ≤ 1000001 / 1000000 * ‖w‖ := (abs_real_inner_le_norm q w).trans hqw
  have hdd : |d| ≤ 1001 / 1000 * W := by
    have : |d| ≤ |d - (inner ℝ q w : ℝ)| + |(inner ℝ q w : ℝ)| := by
      calc |d| = |(d - (inner ℝ q w : ℝ)) + (inner ℝ q w : ℝ)| := by ring_nf
        _ ≤ _ := abs_add_le _ _
    linarith
  have hdq : |d| * ‖q‖ ≤ 1002 / 1000 * W := by
    calc |d| * ‖q‖ ≤ (1001 / 1000 * W) * (1000001 / 1000000) :=
          mul_le_mul hdd (by linarith) (norm_nonneg _) (by linarith)
      _ ≤ _ := by linarith
  have hδ : ‖w' - (w - d • q)‖ ≤ 33 / 10 * (1 / 16777216) * W := by
    refine hw.trans ?_
    linarith
  have hsq : ‖q‖ ^ 2 ≤ 1 + 1 / 100000 ∧ |‖q‖ ^ 2 - 1| ≤ 242 / 10 / 16777216 := by
    have e : ‖q‖ ^ 2 - 1 = (‖q‖ - 1) * (‖q‖ + 1) := by ring
    have : |‖q‖ ^ 2 - 1| ≤ 242 / 10 / 16777216 := by
      rw [e, abs_mul]
      calc |‖q‖ - 1| * |‖q‖ + 1| ≤ 12 * (1 / 16777216) * (2 + 1 / 100000) := by
            refine mul_le_mul hq ?_ (abs_nonneg _) (by norm_num)
            rw [abs_of_nonneg (by linarith)]
            linarith
        _ ≤ _ := by norm_num
    refine ⟨?_, this⟩
    have := (abs_le.mp this).2
    linarith
  have hself : (inner ℝ q q : ℝ) = ‖q‖ ^ 2 := real_inner_self_eq_norm_sq q
  have hproj : ‖w - (inner ℝ q w : ℝ) • q‖ ≤ ‖w‖ := by
    refine abs_le_of_sq_le_sq' ?_ hw0 |>.2
    rw [norm_sub_sq_real, inner_smul_right, norm_smul, real_inner_comm, mul_pow, Real.norm_eq_abs, sq_abs]
    nlinarith [sq_nonneg (inner ℝ q w : ℝ), hsq.1]
  refine ⟨hdd, hδ, ?_, ?_⟩
  · have e : w' = (w - (inner ℝ q w : ℝ) • q) + ((inner ℝ q w : ℝ) - d) • q + (w' - (w - d • q)) := by module
    have h1 : ‖((inner ℝ q w : ℝ) - d) • q‖ ≤ 122 / 10 / 16777216 * W := by
      rw [norm_smul, Real.norm_eq_abs, abs_sub_comm]
      calc |d - (inner ℝ q w : ℝ)| * ‖q‖ ≤ (121 / 10 / 16777216 * W) * (1000001 / 1000000) :=
            mul_le_mul hd' (by linarith) (norm_nonneg _) (by linarith)
        _ ≤ _ := by linarith
    have h2 : ‖w'‖ ≤ ‖w - (inner ℝ q w : ℝ) • q‖ + ‖((inner ℝ q w : ℝ) - d) • q‖ + ‖w' - (w - d • q)‖ := by
      calc ‖w'‖ = ‖(w - (inner ℝ q w : ℝ) • q) + ((inner ℝ q w : ℝ) - d) • q + (w' - (w - d • q))‖ := congrArg _ e
        _ ≤ _ := norm_add₃_le
    linarith
  · have e : (inner ℝ q w' : ℝ) = (inner ℝ q w : ℝ) * (1 - ‖q‖ ^ 2) + ((inner ℝ q w : ℝ) - d) * ‖q‖ ^ 2 + (inner ℝ q (w' - (w - d • q)) : ℝ) := by
      rw [inner_sub_right, inner_sub_right, inner_smul_right, hself]
      ring
    have h1 : |(inner ℝ q w : ℝ) * (1 - ‖q‖ ^ 2)| ≤ 243 / 10 / 16777216 * W := by
      rw [abs_mul, abs_sub_comm 1]
      calc |(inner ℝ q w : ℝ)| * |‖q‖ ^ 2 - 1| ≤ (1000001 / 1000000 * ‖w‖) * (242 / 10 / 16777216) :=
            mul_le_mul hin hsq.2 (abs_nonneg _) (by linarith)
        _ ≤ _ := by linarith
    have h2 : |((inner ℝ q w : ℝ) - d) * ‖q‖ ^ 2| ≤ 122 / 10 / 16777216 * W := by
      rw [abs_mul, abs_sub_comm, abs_of_nonneg (sq_nonneg ‖q‖)]
      calc |d - (inner ℝ q w : ℝ)| * ‖q‖ ^ 2 ≤ (121 / 10 / 16777216 * W) * (1 + 1 / 100000) :=
            mul_le_mul hd' hsq.1 (sq_nonneg _) (by linarith)
        _ ≤ _ := by linarith
    have h3 : |(inner ℝ q (w' - (w - d • q)) : ℝ)| ≤ 34 / 10 / 16777216 * W := by
      refine (abs_real_inner_le_norm _ _).trans ?_
      calc ‖q‖ * ‖w' - (w - d • q)‖ ≤ (1000001 / 1000000) * (33 / 10 * (1 / 16777216) * W) :=
            mul_le_mul (by linarith) hδ (norm_nonneg _) (by norm_num)
        _ ≤ _ := by linarith
    rw [e]
    refine (abs_add_three _ _ _).trans ?_
    linarith

/-- The component along an earlier column changes by what that column and `q` have in common. -/
theorem mgs_other {p q w w' : V} {d W : ℝ} (hp : |‖p‖ - 1| ≤ 12 * ru) (hW : 0 ≤ W)
    (hd : |d| ≤ 1001 / 1000 * W)
    (hw : ‖w' - (w - d • q)‖ ≤ 33 / 10 * ru * W) :
    |(inner ℝ p w' : ℝ)| ≤ |(inner ℝ p w : ℝ)| + 1001 / 1000 * W * |(inner ℝ p q : ℝ)| + 34 / 10 * ru * W := by
  have hu := Linalg.ru_eq
  rw [hu] at hp hw ⊢
  obtain ⟨hp1, hp2⟩ := abs_le.mp hp
  have e : (inner ℝ p w' : ℝ) = (inner ℝ p w : ℝ) + -(d * (inner ℝ p q : ℝ)) + (inner ℝ p (w' - (w - d • q)) : ℝ) := by
    rw [inner_sub_right, inner_sub_right, inner_smul_right]
    ring
  have h2 : |-(d * (inner ℝ p q : ℝ))| ≤ 1001 / 1000 * W * |(inner ℝ p q : ℝ)| := by
    rw [abs_neg, abs_mul]
    exact mul_le_mul_of_nonneg_right hd (abs_nonneg _)
  have h3 : |(inner ℝ p (w' - (w - d • q)) : ℝ)| ≤ 34 / 10 * (1 / 16777216) * W := by
    refine (abs_real_inner_le_norm _ _).trans ?_
    calc ‖p‖ * ‖w' - (w - d • q)‖ ≤ (1000001 / 1000000) * (33 / 10 * (1 / 16777216) * W) :=
          mul_le_mul (by linarith) hw (norm_nonneg _) (by norm_num)
      _ ≤ _ := by linarith
  rw [e]
  refine (abs_add_three _ _ _).trans ?_
  linarith

/-- Dividing by the computed length. -/
theorem mgs_unit {q w : V} {ν : ℝ} (hν : |ν - ‖w‖| ≤ 10 * ru * ‖w‖) (hw : 9998 / 10 ^ 8 ≤ ‖w‖)
    (hq : ‖ν • q - w‖ ≤ ru * ‖w‖ + 2 * rη * |ν|) :
    ‖ν • q - w‖ ≤ 11 / 10 * ru * ‖w‖ ∧ |‖q‖ - 1| ≤ 12 * ru ∧ 9997 / 10 ^ 8 ≤ ν := by
  have hu := Linalg.ru_eq
  have hη := rη_eq
  rw [hu] at hν hq ⊢
  rw [hη] at hq
  obtain ⟨h1, h2⟩ := abs_le.mp hν
  norm_num at hw
  have hν0 : 0 < ν := by linarith
  rw [abs_of_pos hν0] at hq
  have hq' : ‖ν • q - w‖ ≤ 11 / 10 * (1 / 16777216) * ‖w‖ := by
    norm_num at hq ⊢
    linarith
  refine ⟨hq', ?_, ?_⟩
  · have h3 : |‖ν • q‖ - ‖w‖| ≤ 11 / 10 * (1 / 16777216) * ‖w‖ := (abs_norm_sub_norm_le _ _).trans hq'
    rw [norm_smul, Real.norm_eq_abs, abs_of_pos hν0] at h3
    obtain ⟨h4, h5⟩ := abs_le.mp h3
    rw [abs_le]
    constructor
    · by_contra hc
      have hc := not_le.mp hc
      have : ν * ‖q‖ < ν * (1 - 12 * (1 / 16777216)) := mul_lt_mul_of_pos_left (by linarith) hν0
      linarith
    · by_contra hc
      have hc := not_le.mp hc
      have : ν * (1 + 12 * (1 / 16777216)) < ν * ‖q‖ := mul_lt_mul_of_pos_left (by linarith) hν0
      linarith
  · norm_num
    linarith

end Space

/-! ### Columns of numbers as vectors -/

/-- The first `n` members of a family as a vector. -/
noncomputable def ev (n : Nat) (x : Nat → ℝ) : EuclideanSpace ℝ (Fin n) := WithLp.toLp 2 (fun i : Fin n => x i)

theorem ev_norm (n : Nat) (x : Nat → ℝ) : ‖ev n x‖ = norm2 n x := (norm2_eq n x).symm

theorem ev_inner (n : Nat) (x y : Nat → ℝ) : (inner ℝ (ev n x) (ev n y) : ℝ) = ∑ k ∈ range n, x k * y k := by
  rw [PiLp.inner_apply, Finset.sum_range]
  refine Finset.sum_congr rfl fun i _ => ?_
  simp [ev, mul_comm]

theorem ev_sub (n : Nat) (x y : Nat → ℝ) : ev n x - ev n y = ev n (fun i => x i - y i) := rfl
theorem ev_add (n : Nat) (x y : Nat → ℝ) : ev n x + ev n y = ev n (fun i => x i + y i) := rfl
theorem ev_smul (n : Nat) (c : ℝ) (x : Nat → ℝ) : c • ev n x = ev n (fun i => c * x i) := rfl

theorem ev_sum (n m : Nat) (e : Nat → ℝ) (g : Nat → Nat → ℝ) :
    ∑ k ∈ range m, e k • ev n (g k) = ev n (fun i => ∑ k ∈ range m, e k * g k i) := by
  induction m with
  | zero => simp only [Finset.sum_range_zero]; rfl
  | succ m ih => simp only [Finset.sum_range_succ]; rw [ih, ev_smul, ev_add]

theorem ev_congr {n : Nat} {x y : Nat → ℝ} (h : ∀ i, i < n → x i = y i) : ev n x = ev n y := by
  unfold ev
  congr 1
  funext i
  exact h i i.2

theorem norm2_elem_le {n : Nat} (x : Nat → ℝ) {i : Nat} (hi : i < n) : |x i| ≤ norm2 n x := by
  unfold norm2
  refine Real.abs_le_sqrt ?_
  exact Finset.single_le_sum (f := fun i => x i ^ 2) (fun j _ => sq_nonneg _) (Finset.mem_range.mpr hi)

theorem norm2_le_of_le {n : Nat} (hn : n ≤ 4) {x : Nat → ℝ} {B : ℝ} (hB : 0 ≤ B) (h : ∀ i, i < n → |x i| ≤ B) :
    norm2 n x ≤ 2 * B :=
  (norm2_mono (y := fun _ => B) h).trans (norm2_const hn hB)

theorem sum_abs_le_norm (n : Nat) (x y : Nat → ℝ) :
    ∑ k ∈ range n, |x k * y k| ≤ norm2 n x * norm2 n y := by
  have h := Real.sum_mul_le_sqrt_mul_sqrt (range n) (fun k => |x k|) (fun k => |y k|)
  simp only [sq_abs, ← abs_mul] at h
  exact h

/-! ### The loops -/

section Loops
variable {F : Type} [Scalar F] {q : Mat F} {n : Nat} {f : Nat → Nat → F}

theorem colDot_f (hq : MatIs q n n f) {c1 c2 : Nat} (h1 : c1 < n) (h2 : c2 < n) :
    Mat.colDot q n c1 c2 = .ok (sumUp n fun k => f k c1 *ᶠ f k c2) := by
  unfold Mat.colDot
  refine foldRange_sumUp fun i acc hi => ?_
  rw [hq.get i c1 hi h1, Res.ok_bind, hq.get i c2 hi h2, Res.ok_bind]

/-- `col c := col c - d * col s`. -/
theorem qrSub_f (hq : MatIs q n n f) {c s : Nat} (hc : c < n) (hs : s < n) (d : F)
    (hfin : ∀ k, k < n → Finite (f k c -ᶠ (d *ᶠ f k s))) :
    ∃ q', foldRange 0 n (fun k (q : Mat F) => do
          let element := (← q.getElement k c) -ᶠ (d *ᶠ (← q.getElement k s))
          exec q (Mat.setElement k c element)) q = .ok q' ∧
      MatIs q' n n (fun i j => if j = c then f i c -ᶠ (d *ᶠ f i s) else f i j) := by
  obtain ⟨q', h1, h2⟩ := foldRange_inv (ε := LinalgError)
    (fun k (q : Mat F) => do
          let element := (← q.getElement k c) -ᶠ (d *ᶠ (← q.getElement k s))
          exec q (Mat.setElement k c element))
    (fun m (q : Mat F) => MatIs q n n (fun i j =>
      if j = c ∧ i < m then f i c -ᶠ (d *ᶠ f i s) else f i j)) 0 n (Nat.zero_le _) q
    (hq.congr fun i j _ _ => by simp)
    (fun k q _ hk hI => by
      simp only [hI.get k c hk hc, hI.get k s hk hs, Res.ok_bind, lt_irrefl, and_false, if_false]
      obtain ⟨q', h1, h2⟩ := hI.exec_set hk hc (hfin k hk)
      refine ⟨q', h1, h2.congr fun i j _ _ => ?_⟩
      by_cases hj : j = c
      · by_cases hi : i = k
        · simp [hi, hj]
        · have : i < k + 1 ↔ i < k := by omega
          simp [hi, hj, this]
      · simp [hj])
  exact ⟨q', h1, h2.congr fun i j hi _ => by simp [hi]⟩

/-- `col c := col c / d`. -/
theorem qrScale_f (hq : MatIs q n n f) {c : Nat} (hc : c < n) (d : F)
    (hfin : ∀ k, k < n → Finite (f k c /ᶠ d)) :
    ∃ q', foldRange 0 n (fun k (q : Mat F) => do
        let element := (← q.getElement k c) /ᶠ d
        exec q (Mat.setElement k c element)) q = .ok q' ∧
      MatIs q' n n (fun i j => if j = c then f i c /ᶠ d else f i j) := by
  obtain ⟨q', h1, h2⟩ := foldRange_inv (ε := LinalgError)
    (fun k (q : Mat F) => do
        let element := (← q.getElement k c) /ᶠ d
        exec q (Mat.setElement k c element))
    (fun m (q : Mat F) => MatIs q n n (fun i j =>
      if j = c ∧ i < m then f i c /ᶠ d else f i j)) 0 n (Nat.zero_le _) q
    (hq.congr fun i j _ _ => by simp)
    (fun k q _ hk hI => by
      simp only [hI.get k c hk hc, Res.ok_bind, lt_irrefl, and_false, if_false]
      obtain ⟨q', h1, h2⟩ := hI.exec_set hk hc (hfin k hk)
      refine ⟨q', h1, h2.congr fun i j _ _ => ?_⟩
      by_cases hj : j = c
      · by_cases hi : i = k
        · simp [hi, hj]
        · have : i < k + 1 ↔ i < k := by omega
          simp [hi, hj, this]
      · simp [hj])
  exact ⟨q', h1, h2.congr fun i j hi _ => by simp [hi]⟩

end Loops

section Rounded
variable {F : Type} [Scalar F] [R : Rounded F]

/-- One subtraction `w - d q` of columns. -/
theorem sub_cols {n : Nat} (hn : n ≤ 4) {q w : Nat → F} {d : F} (hq : ∀ k, k < n → Finite (q k))
    (hw : ∀ k, k < n → Finite (w k)) (hd : Finite d) (hq1 : norm2 n (fun k => ⟪q k⟫) ≤ 2)
    (hw1 : norm2 n (fun k => ⟪w k⟫) ≤ 2 ^ 64) (hd1 : |⟪d⟫| ≤ 2 ^ 65) :
    (∀ k, k < n → Finite (w k -ᶠ (d *ᶠ q k))) ∧
    ‖ev n (fun k => ⟪w k -ᶠ (d *ᶠ q k)⟫) - (ev n (fun k => ⟪w k⟫) - ⟪d⟫ • ev n fun k => ⟪q k⟫)‖ ≤
      21 / 10 * ru * (|⟪d⟫| * ‖ev n fun k => ⟪q k⟫‖) + ru * ‖ev n fun k => ⟪w k⟫‖ + 6 * rη := by
  have hu := Linalg.ru_eq
  have hη := rη_eq
  have key : ∀ k, k < n → Finite (w k -ᶠ (d *ᶠ q k)) ∧
      |⟪w k -ᶠ (d *ᶠ q k)⟫ - (⟪w k⟫ - ⟪d⟫ * ⟪q k⟫)| ≤
        21 / 10 * ru * |⟪d⟫| * |⟪q k⟫| + (ru * |⟪w k⟫| + 3 * rη) := by
    intro k hk
    have b1 : |⟪q k⟫| ≤ 2 := (norm2_elem_le (fun k => ⟪q k⟫) hk).trans hq1
    have b2 : |⟪w k⟫| ≤ 2 ^ 64 := (norm2_elem_le (fun k => ⟪w k⟫) hk).trans hw1
    have b3 : |⟪d⟫ * ⟪q k⟫| ≤ 2 ^ 66 := by
      rw [abs_mul]
      calc |⟪d⟫| * |⟪q k⟫| ≤ 2 ^ 65 * 2 := mul_le_mul hd1 b1 (abs_nonneg _) (by norm_num)
        _ = _ := by norm_num
    have f1 : Finite (d *ᶠ q k) := R.mul_finite hd (hq k hk) (b3.trans (by norm_num))
    have n1 := R.mul_near hd (hq k hk) f1
    unfold Near at n1
    have n1' := abs_le.mp n1
    have b3' := abs_le.mp b3
    have b2' := abs_le.mp b2
    have f2 : Finite (w k -ᶠ (d *ᶠ q k)) := by
      refine R.sub_finite (hw k hk) f1 (abs_le.mpr ?_)
      rw [hu, hη] at n1'
      norm_num at n1' b3' b2' ⊢
      norm_num at b3
      constructor <;> linarith [n1'.1, n1'.2, b3'.1, b3'.2, b2'.1, b2'.2]
    have n2 := R.sub_near (hw k hk) f1 f2
    unfold Near at n2
    refine ⟨f2, ?_⟩
    have n3 : |⟪w k⟫ - ⟪d *ᶠ q k⟫| ≤ |⟪w k⟫| + (|⟪d⟫ * ⟪q k⟫| + (ru * |⟪d⟫ * ⟪q k⟫| + rη)) := by
      have : ⟪w k⟫ - ⟪d *ᶠ q k⟫ = ⟪w k⟫ + (-(⟪d⟫ * ⟪q k⟫) + -(⟪d *ᶠ q k⟫ - ⟪d⟫ * ⟪q k⟫)) := by ring
      rw [this]
      refine (abs_add_le _ _).trans (add_le_add le_rfl ((abs_add_le _ _).trans ?_))
      rw [abs_neg, abs_neg]
      exact add_le_add le_rfl n1
    have e : ⟪w k -ᶠ (d *ᶠ q k)⟫ - (⟪w k⟫ - ⟪d⟫ * ⟪q k⟫) =
        (⟪w k -ᶠ (d *ᶠ q k)⟫ - (⟪w k⟫ - ⟪d *ᶠ q k⟫)) + -(⟪d *ᶠ q k⟫ - ⟪d⟫ * ⟪q k⟫) := by ring
    rw [e]
    refine (abs_add_le _ _).trans ?_
    rw [abs_neg, mul_assoc (21 / 10 * ru), ← abs_mul]
    have h0 := abs_nonneg (⟪d⟫ * ⟪q k⟫)
    have hη0 := rη_pos
    rw [hu] at n1 n2 n3 ⊢
    linarith
  refine ⟨fun k hk => (key k hk).1, ?_⟩
  rw [ev_smul, ev_sub, ev_sub, ev_norm, ev_norm, ev_norm]
  have hu0 := ru_pos
  have hη0 := rη_pos
  calc _ ≤ norm2 n (fun k => 21 / 10 * ru * |⟪d⟫| * |⟪q k⟫| + (ru * |⟪w k⟫| + 3 * rη)) :=
        norm2_mono fun k hk => (key k hk).2
    _ ≤ norm2 n (fun k => 21 / 10 * ru * |⟪d⟫| * |⟪q k⟫|) + norm2 n (fun k => ru * |⟪w k⟫| + 3 * rη) :=
        norm2_add_le _ _ _
    _ ≤ norm2 n (fun k => 21 / 10 * ru * |⟪d⟫| * |⟪q k⟫|) +
          (norm2 n (fun k => ru * |⟪w k⟫|) + norm2 n (fun _ => 3 * rη)) :=
        add_le_add le_rfl (norm2_add_le _ _ _)
    _ ≤ 21 / 10 * ru * |⟪d⟫| * norm2 n (fun k => ⟪q k⟫) + (ru * norm2 n (fun k => ⟪w k⟫) + 2 * (3 * rη)) := by
        refine add_le_add (le_of_eq ?_) (add_le_add (le_of_eq ?_) (norm2_const hn (by positivity)))
        · rw [norm2_smul n (fun k => |⟪q k⟫|) (by positivity), norm2_abs]
        · rw [norm2_smul n (fun k => |⟪w k⟫|) (by positivity), norm2_abs]
    _ = _ := by ring

/-- The length of a column and the division by it. -/
theorem scale_col {n : Nat} (hn : n ≤ 4) {w : Nat → F} (hw : ∀ k, k < n → Finite (w k))
    (hw1 : norm2 n (fun k => ⟪w k⟫) ≤ 2 ^ 62) :
    ∃ ν : F, Scalar.sqrt (sumUp n fun k => w k *ᶠ w k) = ν ∧ Finite ν ∧
      (¬(ν >ᶠ EPSILON) = true → norm2 n (fun k => ⟪w k⟫) ≤ 10001 / 10 ^ 8) ∧
      ((ν >ᶠ EPSILON) = true → 9998 / 10 ^ 8 ≤ norm2 n (fun k => ⟪w k⟫) ∧
        |⟪ν⟫ - ‖ev n fun k => ⟪w k⟫‖| ≤ 10 * ru * ‖ev n fun k => ⟪w k⟫‖ ∧
        (∀ k, k < n → Finite (w k /ᶠ ν)) ∧
        ‖⟪ν⟫ • ev n (fun k => ⟪w k /ᶠ ν⟫) - ev n fun k => ⟪w k⟫‖ ≤
          ru * ‖ev n fun k => ⟪w k⟫‖ + 2 * rη * |⟪ν⟫|) := by
  obtain ⟨e1, e2⟩ := eps_bounds (F := F)
  have hu := Linalg.ru_eq
  have hN := norm2_nonneg n (fun i => ⟪w i⟫)
  have hN2 := norm2_sq n (fun i => ⟪w i⟫)
  have hsum : ∑ i ∈ range n, |⟪w i⟫ * ⟪w i⟫| ≤ 2 ^ 126 := by
    have : ∑ i ∈ range n, |⟪w i⟫ * ⟪w i⟫| = ∑ i ∈ range n, ⟪w i⟫ ^ 2 :=
      Finset.sum_congr rfl fun i _ => by rw [abs_of_nonneg (mul_self_nonneg _), sq]
    rw [this, ← hN2]
    calc _ ≤ ((2 : ℝ) ^ 62) ^ 2 := pow_le_pow_left₀ hN hw1 2
      _ ≤ _ := by norm_num
  have hfin := (dot_acc hn hw hw hsum n le_rfl).1
  rcases sq_acc hn hw n le_rfl with h | ⟨h1, h0, hlt, h2⟩
  · have hi := h.2.1
    rw [hfin.2] at hi
    exact Bool.noConfusion hi
  have hs := R.sqrt_near h1 h0
  have hf := R.sqrt_finite h1 h0
  rw [← hN2] at h2
  have a1 := sqrt_acc hn hN h0 h2 hs
  set N := norm2 n (fun i => ⟪w i⟫) with hNdef
  set ν := Scalar.sqrt (sumUp n fun i => w i *ᶠ w i) with hν
  refine ⟨ν, rfl, hf, fun h => ?_, fun h => ?_⟩
  · rw [R.lt_val eps_fin hf] at h
    have h : ⟪ν⟫ ≤ ⟪(EPSILON : F)⟫ := not_lt.mp h
    by_contra hc
    have hc := not_le.mp hc
    have := a1 (.inl (by norm_num at hc ⊢; linarith))
    rw [abs_le] at this
    norm_num at this e2 hc
    linarith [this.1]
  · rw [R.lt_val eps_fin hf] at h
    have h : ⟪(EPSILON : F)⟫ < ⟪ν⟫ := h
    have b := a1 (.inr (by norm_num at e1 ⊢; linarith))
    have hν0 : 0 < ⟪ν⟫ := by norm_num at e1; linarith
    have hlo : 9998 / 10 ^ 8 ≤ N := by
      rw [abs_le] at b
      norm_num at b e1 ⊢
      linarith [b.2]
    have key : ∀ k, k < n → Finite (w k /ᶠ ν) := fun k hk => by
      refine R.div_finite (hw k hk) hf hν0.ne' ?_
      have : |⟪w k⟫| ≤ 2 ^ 62 := (norm2_elem_le (fun k => ⟪w k⟫) hk).trans hw1
      rw [abs_div, abs_of_pos hν0, div_le_iff₀ hν0]
      norm_num at this e1 ⊢
      linarith
    refine ⟨hlo, ?_, key, ?_⟩
    · rw [ev_norm, hu]
      norm_num at b ⊢
      linarith
    · rw [ev_smul, ev_sub, ev_norm, ev_norm]
      have hη0 := rη_pos
      have hu0 := ru_pos
      have k2 : ∀ k, k < n → |⟪ν⟫ * ⟪w k /ᶠ ν⟫ - ⟪w k⟫| ≤ ru * |⟪w k⟫| + rη * |⟪ν⟫| := fun k hk => by
        have h3 := R.div_near (hw k hk) hf hν0.ne' (key k hk)
        unfold Near at h3
        have e : ⟪ν⟫ * ⟪w k /ᶠ ν⟫ - ⟪w k⟫ = ⟪ν⟫ * (⟪w k /ᶠ ν⟫ - ⟪w k⟫ / ⟪ν⟫) := by field_simp
        rw [e, abs_mul]
        calc |⟪ν⟫| * |⟪w k /ᶠ ν⟫ - ⟪w k⟫ / ⟪ν⟫| ≤ |⟪ν⟫| * (ru * |⟪w k⟫ / ⟪ν⟫| + rη) :=
              mul_le_mul_of_nonneg_left h3 (abs_nonneg _)
          _ = _ := by
              rw [abs_div]
              have := (abs_pos.mpr hν0.ne').ne'
              field_simp
      calc _ ≤ norm2 n (fun k => ru * |⟪w k⟫| + rη * |⟪ν⟫|) := norm2_mono k2
        _ ≤ norm2 n (fun k => ru * |⟪w k⟫|) + norm2 n (fun _ => rη * |⟪ν⟫|) := norm2_add_le _ _ _
        _ ≤ ru * norm2 n (fun k => ⟪w k⟫) + 2 * (rη * |⟪ν⟫|) := by
            refine add_le_add (le_of_eq ?_) (norm2_const hn (by positivity))
            rw [norm2_smul n (fun k => |⟪w k⟫|) (by positivity), norm2_abs]
        _ = _ := by ring

/-- The scalar product of two columns, and the length of one. -/
noncomputable def cdot (n : Nat) (G : Nat → Nat → ℝ) (i j : Nat) : ℝ := ∑ k ∈ range n, G k i * G k j
noncomputable def cnorm (n : Nat) (G : Nat → Nat → ℝ) (j : Nat) : ℝ := norm2 n fun k => G k j

/-- Column `j` of `A` has been replaced in `G` by a unit vector: it is the combination of the columns up to
that one, with the coefficients `e`, up to a few rounding errors, and the new column is orthogonal to each
earlier one as far as its coefficient is large and the columns between them are orthogonal. -/
structure ColDone (n : Nat) (A G : Nat → Nat → ℝ) (j : Nat) (e : Nat → ℝ) : Prop where
  unit : |cnorm n G j - 1| ≤ 12 / 2 ^ 24
  diag : 999 / 10 ^ 7 ≤ e j
  coef : ∀ k, k ≤ j → |e k| ≤ 101 / 100 * cnorm n A j
  resid : norm2 n (fun i => A i j - ∑ k ∈ range (j + 1), e k * G i k) ≤ 12 / 2 ^ 24 * cnorm n A j
  ortho : ∀ i, i < j → e j * |cdot n G i j| ≤
    cnorm n A j * (55 / 2 ^ 24 + 101 / 100 * ∑ k ∈ Ico (i + 1) j, |cdot n G i k|)

theorem ColDone.congr {n : Nat} {A G G' : Nat → Nat → ℝ} {j : Nat} {e e' : Nat → ℝ} (h : ColDone n A G j e)
    (hG : ∀ i k, i < n → k ≤ j → G' i k = G i k) (he : ∀ k, k ≤ j → e' k = e k) : ColDone n A G' j e' := by
  have hd : ∀ i k, i ≤ j → k ≤ j → cdot n G' i k = cdot n G i k := fun i k hi hk =>
    Finset.sum_congr rfl fun l hl => by
      rw [hG l i (Finset.mem_range.mp hl) hi, hG l k (Finset.mem_range.mp hl) hk]
  refine ⟨?_, by rw [he j le_rfl]; exact h.diag, fun k hk => by rw [he k hk]; exact h.coef k hk, ?_, fun i hi => ?_⟩
  · have : cnorm n G' j = cnorm n G j := norm2_congr fun i hi => hG i j hi le_rfl
    rw [this]
    exact h.unit
  · rw [norm2_congr (y := fun i => A i j - ∑ k ∈ range (j + 1), e k * G i k)]
    · exact h.resid
    · intro i hi
      congr 1
      refine Finset.sum_congr rfl fun k hk => ?_
      have hk : k ≤ j := Nat.lt_succ_iff.mp (Finset.mem_range.mp hk)
      rw [he k hk, hG i k hi hk]
  · rw [he j le_rfl, hd i j hi.le le_rfl]
    rw [Finset.sum_congr rfl fun k hk => by rw [hd i k hi.le (Finset.mem_Ico.mp hk).2.le]]
    exact h.ortho i hi

/-- The column `c` after the components along the first `s` columns have been taken away. -/
structure Reduced {n : Nat} (a : EuclideanSpace ℝ (Fin n)) (p : Nat → EuclideanSpace ℝ (Fin n)) (s : Nat)
    (w : EuclideanSpace ℝ (Fin n)) (e : Nat → ℝ) : Prop where
  size : ‖w‖ + qz ≤ (1 + 18 * s * ru) * (‖a‖ + qz)
  resid : ‖a - ∑ k ∈ range s, e k • p k - w‖ ≤ 34 / 10 * s * ru * (‖a‖ + qz)
  ortho : ∀ t, t < s → |(inner ℝ (p t) w : ℝ)| ≤ (‖a‖ + qz) *
    ((85 / 2 + 35 / 10 * s) * ru + 1002 / 1000 * ∑ k ∈ Ico (t + 1) s, |(inner ℝ (p t) (p k) : ℝ)|)
  coef : ∀ k, k < s → |e k| ≤ 1002 / 1000 * (‖a‖ + qz)

theorem Reduced.step {n : Nat} {a w w' : EuclideanSpace ℝ (Fin n)} {p : Nat → EuclideanSpace ℝ (Fin n)}
    {s : Nat} {e : Nat → ℝ} {d : ℝ} (hs : s ≤ 3) (h : Reduced a p s w e)
    (hp : ∀ t, t ≤ s → |‖p t‖ - 1| ≤ 12 * ru)
    (hd : |d - (inner ℝ (p s) w : ℝ)| ≤ 12 * (ru * (‖p s‖ * ‖w‖) + rη))
    (hw : ‖w' - (w - d • p s)‖ ≤ 21 / 10 * ru * (|d| * ‖p s‖) + ru * ‖w‖ + 6 * rη) :
    Reduced a p (s + 1) w' (fun k => if k = s then d else e k) := by
  obtain ⟨h1, h2, h3, h4⟩ := mgs_step (hp s le_rfl) hd hw
  have hu := Linalg.ru_eq
  have hz := qz_pos
  have hs' : (s : ℝ) ≤ 3 := by exact_mod_cast hs
  have hs0 : (0 : ℝ) ≤ s := Nat.cast_nonneg s
  set M := ‖a‖ + qz with hM
  have hM0 : 0 ≤ M := by have := norm_nonneg a; linarith
  set W := ‖w‖ + qz with hW
  have hW0 : 0 ≤ W := by have := norm_nonneg w; linarith
  have hsize := h.size
  rw [← hW, ← hM] at hsize
  have hWM : W ≤ 100001 / 100000 * M := by
    refine hsize.trans (mul_le_mul_of_nonneg_right ?_ hM0)
    rw [hu]
    linarith
  refine ⟨?_, ?_, fun t ht => ?_, fun k hk => ?_⟩
  · rw [← hM]
    refine h3.trans ?_
    calc (1 + 17 * ru) * W ≤ (1 + 17 * ru) * ((1 + 18 * s * ru) * M) :=
          mul_le_mul_of_nonneg_left hsize (by rw [hu]; norm_num)
      _ ≤ (1 + 18 * ((s + 1 : ℕ) : ℝ) * ru) * M := by
          rw [← mul_assoc]
          refine mul_le_mul_of_nonneg_right ?_ hM0
          push_cast
          rw [hu]
          linarith
  · rw [Finset.sum_range_succ, if_pos rfl]
    have e1 : ∑ k ∈ range s, (if k = s then d else e k) • p k = ∑ k ∈ range s, e k • p k :=
      Finset.sum_congr rfl fun k hk => by
        rw [if_neg (by have := Finset.mem_range.mp hk; omega)]
    rw [e1]
    have e2 : a - (∑ k ∈ range s, e k • p k + d • p s) - w' =
        (a - ∑ k ∈ range s, e k • p k - w) - (w' - (w - d • p s)) := by abel
    rw [e2]
    refine (norm_sub_le _ _).trans ?_
    have := h.resid
    rw [← hM] at this
    have h5 : 33 / 10 * ru * W ≤ 34 / 10 * ru * M := by
      rw [hu]
      linarith
    push_cast
    linarith
  · rw [← hM]
    by_cases hts : t = s
    · subst hts
      rw [Finset.Ico_self, Finset.sum_empty]
      refine h4.trans ?_
      have : 42 * ru * W ≤ 85 / 2 * ru * M := by
        rw [hu]
        linarith
      push_cast
      have h6 : 0 ≤ (t + 1 : ℝ) * ru * M := by
        rw [hu]
        positivity
      linarith
    · have hts : t < s := by omega
      have h5 := mgs_other (hp t hts.le) hW0 h1 h2
      have h6 := h.ortho t hts
      rw [← hM] at h6
      rw [Finset.sum_Ico_succ_top (by omega)]
      have h7 : 1001 / 1000 * W * |(inner ℝ (p t) (p s) : ℝ)| ≤ 1002 / 1000 * M * |(inner ℝ (p t) (p s) : ℝ)| :=
        mul_le_mul_of_nonneg_right (by linarith) (abs_nonneg _)
      have h8 : 34 / 10 * ru * W ≤ 35 / 10 * ru * M := by
        rw [hu]
        linarith
      push_cast
      linarith
  · rw [← hM]
    by_cases hks : k = s
    · subst hks
      rw [if_pos rfl]
      linarith
    · rw [if_neg hks]
      exact h.coef k (by omega)

theorem Reduced.norm_le {n : Nat} {a w : EuclideanSpace ℝ (Fin n)} {p : Nat → EuclideanSpace ℝ (Fin n)}
    {s : Nat} {e : Nat → ℝ} (hs : s ≤ 4) (h : Reduced a p s w e) (ha : ‖a‖ ≤ 2 ^ 61) : ‖w‖ ≤ 2 ^ 62 := by
  have h1 := h.size
  have hu := Linalg.ru_eq
  have hz := qz_pos
  have hz' : qz ≤ 1 := by unfold qz; norm_num
  have hs' : (s : ℝ) ≤ 4 := by exact_mod_cast hs
  have hs0 : (0 : ℝ) ≤ s := Nat.cast_nonneg s
  have : (1 + 18 * s * ru) * (‖a‖ + qz) ≤ 11 / 10 * (2 ^ 61 + 1) := by
    refine mul_le_mul ?_ (by linarith) (by have := norm_nonneg a; linarith) (by norm_num)
    rw [hu]
    linarith
  norm_num at this ⊢
  linarith

/-- One column of the loop. -/
theorem qrColumn_f {q : Mat F} {n : Nat} {f g : Nat → Nat → F} (hq : MatIs q n n g) {c : Nat} (hc : c < n)
    (hfin : ∀ i j, i < n → j < n → Finite (g i j))
    (hrest : ∀ i, i < n → g i c = f i c)
    (hunit : ∀ j, j < c → |cnorm n (fun i j => ⟪g i j⟫) j - 1| ≤ 12 / 2 ^ 24)
    (hsz : cnorm n (fun i j => ⟪f i j⟫) c ≤ 2 ^ 61) :
    ∃ go q', Mat.qrColumn n c q = .ok (go, q') ∧ ∃ (y : Nat → F) (e : Nat → ℝ),
      MatIs q' n n (fun i j => if j = c then y i else g i j) ∧ (∀ i, i < n → Finite (y i)) ∧
      norm2 n (fun i => ⟪y i⟫) ≤ 2 ^ 62 ∧
      if go then ColDone n (fun i j => ⟪f i j⟫) (fun i j => ⟪if j = c then y i else g i j⟫) c e
      else (∀ k, k < c → |e k| ≤ 101 / 100 * cnorm n (fun i j => ⟪f i j⟫) c + 1 / 2 ^ 100) ∧
        norm2 n (fun i => ⟪f i c⟫ - ∑ k ∈ range c, e k * ⟪g i k⟫) ≤
          10002 / 10 ^ 8 + 12 / 2 ^ 24 * cnorm n (fun i j => ⟪f i j⟫) c := by
  have hn := hq.rle
  have hu := Linalg.ru_eq
  set a := ev n (fun i => ⟪f i c⟫) with ha
  set p : Nat → EuclideanSpace ℝ (Fin n) := fun k => ev n (fun i => ⟪g i k⟫) with hp
  have hA : cnorm n (fun i j => ⟪f i j⟫) c = ‖a‖ := (ev_norm n _).symm
  rw [hA] at hsz ⊢
  have hpu : ∀ t, t < c → |‖p t‖ - 1| ≤ 12 * ru := fun t ht => by
    have := hunit t ht
    rw [hp]
    dsimp only
    rw [ev_norm, hu]
    unfold cnorm at this
    norm_num at this ⊢
    exact this
  obtain ⟨q1, e1, y, e, hq1, hyf, hred⟩ := foldRange_inv (ε := LinalgError)
    (fun row (q : Mat F) => do
      let dotProduct ← Mat.colDot q n row c
      foldRange 0 n
        (fun k (q : Mat F) => do
          let element := (← q.getElement k c) -ᶠ (dotProduct *ᶠ (← q.getElement k row))
          exec q (Mat.setElement k c element)) q)
    (fun s (q : Mat F) => ∃ (y : Nat → F) (e : Nat → ℝ),
      MatIs q n n (fun i j => if j = c then y i else g i j) ∧ (∀ i, i < n → Finite (y i)) ∧
      Reduced a p s (ev n fun i => ⟪y i⟫) e) 0 c (Nat.zero_le _) q
    ⟨fun i => f i c, fun _ => 0, hq.congr fun i j hi _ => by
      by_cases hj : j = c
      · simp [hj, hrest i hi]
      · simp [hj], fun i hi => by
        have := hfin i c hi hc
        rwa [hrest i hi] at this,
      ⟨by simp [← ha], by simp [← ha], fun t ht => by omega, fun k hk => by omega⟩⟩
    (fun s q _ hsc ⟨y, e, hq, hyf, hred⟩ => by
      have hs : s < n := by omega
      have hne : s ≠ c := by omega
      have hyn := hred.norm_le (by omega) hsz
      have hqs := hpu s hsc
      have hpn : norm2 n (fun i => ⟪g i s⟫) = ‖p s‖ := (ev_norm n _).symm
      have hwn : norm2 n (fun i => ⟪y i⟫) = ‖ev n fun i => ⟪y i⟫‖ := (ev_norm n _).symm
      have hqs2 : ‖p s‖ ≤ 2 := by
        rw [hu] at hqs
        have := (abs_le.mp hqs).2
        linarith
      have hsum := sum_abs_le_norm n (fun i => ⟪g i s⟫) (fun i => ⟪y i⟫)
      rw [hpn, hwn] at hsum
      have hprod : ‖p s‖ * ‖ev n fun i => ⟪y i⟫‖ ≤ 2 ^ 63 := by
        calc _ ≤ 2 * 2 ^ 62 := mul_le_mul hqs2 hyn (norm_nonneg _) (by norm_num)
          _ = _ := by norm_num
      obtain ⟨d1, d2⟩ := dot_acc hn (f := fun i => g i s) (g := y) (fun i hi => hfin i s hi hs) hyf
        (hsum.trans (hprod.trans (by norm_num))) n le_rfl
      have hdot : Mat.colDot q n s c = .ok (sumUp n fun k => g k s *ᶠ y k) := by
        rw [colDot_f hq hs hc]
        simp [hne]
      rw [hdot, Res.ok_bind]
      set d := sumUp n fun k => g k s *ᶠ y k with hd
      have hn' : (n : ℝ) ≤ 4 := by exact_mod_cast hn
      have hη0 := rη_pos
      have hdd : |⟪d⟫ - (inner ℝ (p s) (ev n fun i => ⟪y i⟫) : ℝ)| ≤
          12 * (ru * (‖p s‖ * ‖ev n fun i => ⟪y i⟫‖) + rη) := by
        rw [hp, ev_inner]
        refine d2.trans ?_
        have t0 : 0 ≤ ru * (‖p s‖ * ‖ev n fun i => ⟪y i⟫‖) + rη := by
          have := ru_pos
          positivity
        calc 3 * (n : ℝ) * (ru * ∑ i ∈ range n, |⟪g i s⟫ * ⟪y i⟫| + rη)
            ≤ 3 * (n : ℝ) * (ru * (‖p s‖ * ‖ev n fun i => ⟪y i⟫‖) + rη) := by
              refine mul_le_mul_of_nonneg_left ?_ (by positivity)
              refine add_le_add (mul_le_mul_of_nonneg_left hsum ru_pos.le) le_rfl
          _ ≤ 12 * (ru * (‖p s‖ * ‖ev n fun i => ⟪y i⟫‖) + rη) := by
              refine mul_le_mul_of_nonneg_right (by linarith) t0
      have hd65 : |⟪d⟫| ≤ 2 ^ 65 := by
        have h1 := abs_real_inner_le_norm (p s) (ev n fun i => ⟪y i⟫)
        have h2 : |⟪d⟫| ≤ |⟪d⟫ - (inner ℝ (p s) (ev n fun i => ⟪y i⟫) : ℝ)| +
            |(inner ℝ (p s) (ev n fun i => ⟪y i⟫) : ℝ)| := by
          calc |⟪d⟫| = |(⟪d⟫ - (inner ℝ (p s) (ev n fun i => ⟪y i⟫) : ℝ)) +
              (inner ℝ (p s) (ev n fun i => ⟪y i⟫) : ℝ)| := by rw [sub_add_cancel]
            _ ≤ _ := abs_add_le _ _
        rw [hu, rη_eq] at hdd
        norm_num at hdd hprod ⊢
        linarith
      obtain ⟨k1, k2⟩ := sub_cols hn (q := fun i => g i s) (w := y) (d := d) (fun i hi => hfin i s hi hs) hyf d1
        (by rw [hpn]; exact hqs2) (by rw [hwn]; exact hyn.trans (by norm_num)) hd65
      obtain ⟨q', h1, h2⟩ := qrSub_f hq hc hs d (fun k hk => by simpa [hne] using k1 k hk)
      refine ⟨q', h1, fun i => y i -ᶠ (d *ᶠ g i s), fun k => if k = s then ⟪d⟫ else e k,
        h2.congr fun i j _ _ => ?_, k1, ?_⟩
      · by_cases hj : j = c <;> simp [hj, hne]
      · exact hred.step (by omega) (fun t ht => hpu t (by omega)) hdd k2)
  have hyn := hred.norm_le (by omega) hsz
  have hwn : norm2 n (fun i => ⟪y i⟫) = ‖ev n fun i => ⟪y i⟫‖ := (ev_norm n _).symm
  unfold Mat.qrColumn
  rw [e1, Res.ok_bind, colDot_f hq1 hc hc, Res.ok_bind]
  simp only [if_true]
  obtain ⟨ν, hν, hνf, hsmall, hbig⟩ := scale_col hn hyf (by rw [hwn]; exact hyn)
  rw [hν]
  have hz := qz_pos
  have hz' : qz ≤ 1 / 10 ^ 20 := by unfold qz; norm_num
  have hc3 : (c : ℝ) ≤ 3 := by
    have : c ≤ 3 := by omega
    exact_mod_cast this
  have hc0 : (0 : ℝ) ≤ c := Nat.cast_nonneg c
  have hsize := hred.size
  have hresid := hred.resid
  set M := ‖a‖ + qz with hM
  have hM0 : 0 ≤ M := by have := norm_nonneg a; linarith
  have hWM : ‖ev n fun i => ⟪y i⟫‖ ≤ 100001 / 100000 * M := by
    have : (1 + 18 * c * ru) * M ≤ 100001 / 100000 * M := by
      refine mul_le_mul_of_nonneg_right ?_ hM0
      rw [hu]
      linarith
    linarith
  have hresid' : ‖a - ∑ k ∈ range c, e k • p k - ev n fun i => ⟪y i⟫‖ ≤ 102 / 10 * ru * M := by
    refine hresid.trans (mul_le_mul_of_nonneg_right ?_ hM0)
    rw [hu]
    linarith
  by_cases hN : (ν >ᶠ EPSILON) = true
  · obtain ⟨b1, b2, b3, b4⟩ := hbig hN
    rw [hwn] at b1
    obtain ⟨m1, m2, m3⟩ := mgs_unit b2 b1 b4
    rw [if_pos hN]
    obtain ⟨q2, e2, hq2⟩ := qrScale_f hq1 hc ν (fun k hk => by simpa using b3 k hk)
    rw [e2, Res.ok_bind]
    have hqn : ‖ev n fun i => ⟪y i /ᶠ ν⟫‖ ≤ 2 := by
      rw [hu] at m2
      have := (abs_le.mp m2).2
      linarith
    have hMa : M ≤ 1001 / 1000 * ‖a‖ := by
      norm_num at b1 hz'
      linarith
    have hν0 : 0 < ⟪ν⟫ := by
      norm_num at m3
      linarith
    have hcol : ∀ k, k < c → (fun i => ⟪if k = c then y i /ᶠ ν else g i k⟫) = fun i => ⟪g i k⟫ := fun k hk => by
      funext i
      rw [if_neg (by omega)]
    refine ⟨true, q2, rfl, fun i => y i /ᶠ ν, fun k => if k = c then ⟪ν⟫ else e k,
      hq2.congr fun i j _ _ => by by_cases hj : j = c <;> simp [hj], b3, ?_, ?_⟩
    · rw [← ev_norm]
      exact hqn.trans (by norm_num)
    rw [if_pos rfl]
    have hνa : |⟪ν⟫| ≤ 101 / 100 * ‖a‖ := by
      rw [abs_of_pos hν0]
      rw [hu] at b2
      have := (abs_le.mp b2).2
      linarith
    refine ⟨?_, ?_, fun k hk => ?_, ?_, fun i hi => ?_⟩
    · unfold cnorm
      simp only [if_true]
      rw [← ev_norm]
      rw [hu] at m2
      norm_num at m2 ⊢
      exact m2
    · simp only [if_true]
      norm_num at m3 ⊢
      linarith
    · rw [hA]
      by_cases hkc : k = c
      · rw [if_pos hkc]
        exact hνa
      · rw [if_neg hkc]
        have := hred.coef k (by omega)
        rw [← hM] at this
        linarith
    · rw [hA, ← ev_norm]
      have e3 : ev n (fun i => ⟪f i c⟫ - ∑ k ∈ range (c + 1), (if k = c then ⟪ν⟫ else e k) *
          ⟪if k = c then y i /ᶠ ν else g i k⟫) =
          (a - ∑ k ∈ range c, e k • p k - ev n fun i => ⟪y i⟫) -
            (⟪ν⟫ • ev n (fun i => ⟪y i /ᶠ ν⟫) - ev n fun i => ⟪y i⟫) := by
        rw [hp, ev_sum, ha, ev_smul, ev_sub, ev_sub, ev_sub, ev_sub]
        refine ev_congr fun i _ => ?_
        rw [Finset.sum_range_succ, if_pos rfl, if_pos rfl]
        rw [Finset.sum_congr rfl (g := fun k => e k * ⟪g i k⟫) fun k hk => by
          have : k ≠ c := by have := Finset.mem_range.mp hk; omega
          rw [if_neg this, if_neg this]]
        ring
      rw [e3]
      refine (norm_sub_le _ _).trans ?_
      have := norm_nonneg a
      rw [hu] at m1 hresid'
      norm_num
      linarith
    · have e4 : cdot n (fun i j => ⟪if j = c then y i /ᶠ ν else g i j⟫) i c =
          (inner ℝ (p i) (ev n fun i => ⟪y i /ᶠ ν⟫) : ℝ) := by
        rw [hp, ev_inner]
        unfold cdot
        exact Finset.sum_congr rfl fun k _ => by dsimp only; rw [if_neg (by omega), if_pos rfl]
      have e5 : ∀ k, k < c → cdot n (fun i j => ⟪if j = c then y i /ᶠ ν else g i j⟫) i k =
          (inner ℝ (p i) (p k) : ℝ) := fun k hk => by
        rw [hp, ev_inner]
        unfold cdot
        exact Finset.sum_congr rfl fun l _ => by dsimp only; rw [if_neg (by omega), if_neg (by omega)]
      rw [e4, hA, Finset.sum_congr rfl fun k hk => by rw [e5 k (Finset.mem_Ico.mp hk).2], if_pos rfl]
      have h6 := hred.ortho i hi
      rw [← hM] at h6
      have h7 : ⟪ν⟫ * |(inner ℝ (p i) (ev n fun i => ⟪y i /ᶠ ν⟫) : ℝ)| =
          |(inner ℝ (p i) (ev n fun i => ⟪y i⟫) : ℝ) +
            (inner ℝ (p i) (⟪ν⟫ • ev n (fun i => ⟪y i /ᶠ ν⟫) - ev n fun i => ⟪y i⟫) : ℝ)| := by
        rw [inner_sub_right, inner_smul_right, add_sub_cancel, abs_mul, abs_of_pos hν0]
      have h8 : |(inner ℝ (p i) (⟪ν⟫ • ev n (fun i => ⟪y i /ᶠ ν⟫) - ev n fun i => ⟪y i⟫) : ℝ)| ≤ 12 / 10 * ru * M := by
        refine (abs_real_inner_le_norm _ _).trans ?_
        have hpi : ‖p i‖ ≤ 1000001 / 1000000 := by
          have := (abs_le.mp (hpu i hi)).2
          rw [hu] at this
          linarith
        calc ‖p i‖ * ‖⟪ν⟫ • ev n (fun i => ⟪y i /ᶠ ν⟫) - ev n fun i => ⟪y i⟫‖
            ≤ (1000001 / 1000000) * (11 / 10 * ru * ‖ev n fun i => ⟪y i⟫‖) :=
              mul_le_mul hpi m1 (norm_nonneg _) (by norm_num)
          _ ≤ _ := by rw [hu]; linarith
      rw [h7]
      refine (abs_add_le _ _).trans ?_
      set S := ∑ k ∈ Ico (i + 1) c, |(inner ℝ (p i) (p k) : ℝ)| with hS
      have hS0 : 0 ≤ S := Finset.sum_nonneg fun _ _ => abs_nonneg _
      have h9 : M * ((85 / 2 + 35 / 10 * c) * ru + 1002 / 1000 * S) + 12 / 10 * ru * M ≤
          M * (5425 / 100 * ru + 1002 / 1000 * S) := by
        have : (85 / 2 + 35 / 10 * (c : ℝ)) * ru ≤ (85 / 2 + 35 / 10 * 3) * ru :=
          mul_le_mul_of_nonneg_right (by linarith) ru_pos.le
        have h10 := mul_le_mul_of_nonneg_left this hM0
        have h11 : 0 ≤ ru * M := mul_nonneg ru_pos.le hM0
        linarith
      have h12 : M * (5425 / 100 * ru + 1002 / 1000 * S) ≤ (1001 / 1000 * ‖a‖) * (5425 / 100 * ru + 1002 / 1000 * S) :=
        mul_le_mul_of_nonneg_right hMa (by have := ru_pos; positivity)
      have h13 : (1001 / 1000 * ‖a‖) * (5425 / 100 * ru + 1002 / 1000 * S) ≤ ‖a‖ * (55 / 2 ^ 24 + 101 / 100 * S) := by
        rw [mul_comm (1001 / 1000) ‖a‖, mul_assoc]
        refine mul_le_mul_of_nonneg_left ?_ (norm_nonneg a)
        rw [hu]
        norm_num
        linarith
      linarith
  · rw [if_neg hN]
    refine ⟨false, q1, rfl, y, e, hq1, hyf, by rw [hwn]; exact hyn, ?_⟩
    rw [if_neg (by simp), ← ev_norm]
    refine ⟨fun k hk => ?_, ?_⟩
    · have h1 := hred.coef k hk
      have h2 : 1002 / 1000 * qz ≤ 1 / 2 ^ 100 := by norm_num [qz]
      have h3 := norm_nonneg a
      linarith
    have hs := hsmall hN
    rw [hwn] at hs
    have e3 : ev n (fun i => ⟪f i c⟫ - ∑ k ∈ range c, e k * ⟪g i k⟫) =
        (a - ∑ k ∈ range c, e k • p k - ev n fun i => ⟪y i⟫) + ev n fun i => ⟪y i⟫ := by
      rw [hp, ev_sum, ha, ev_sub, ev_sub, ev_add]
      exact ev_congr fun i _ => by ring
    rw [e3]
    refine (norm_add_le _ _).trans ?_
    have := norm_nonneg a
    rw [hu] at hresid'
    norm_num at hs hz' ⊢
    linarith

/-- What the loop has achieved after `c` columns. -/
structure QrF (n : Nat) (f g : Nat → Nat → F) (c : Nat) (T : Nat → Nat → ℝ) : Prop where
  fin : ∀ i j, i < n → j < n → Finite (g i j)
  rest : ∀ i j, i < n → c ≤ j → g i j = f i j
  done : ∀ j, j < c → ColDone n (fun i j => ⟪f i j⟫) (fun i j => ⟪g i j⟫) j (fun k => T k j)

/-- The loop stopped at column `m`, which is near a combination of the columns before. -/
structure QrStop (n : Nat) (f g : Nat → Nat → F) (m : Nat) (T : Nat → Nat → ℝ) : Prop where
  fin : ∀ i j, i < n → j < n → Finite (g i j)
  rest : ∀ i j, i < n → m < j → g i j = f i j
  done : ∀ j, j < m → ColDone n (fun i j => ⟪f i j⟫) (fun i j => ⟪g i j⟫) j (fun k => T k j)
  coef : ∀ k, k < m → |T k m| ≤ 101 / 100 * cnorm n (fun i j => ⟪f i j⟫) m + 1 / 2 ^ 100
  near : norm2 n (fun i => ⟪f i m⟫ - ∑ k ∈ range m, T k m * ⟪g i k⟫) ≤
    10002 / 10 ^ 8 + 12 / 2 ^ 24 * cnorm n (fun i j => ⟪f i j⟫) m
  size : norm2 n (fun i => ⟪g i m⟫) ≤ 2 ^ 62

theorem qrLoop_f {q : Mat F} {n : Nat} {f : Nat → Nat → F} (hq : MatIs q n n f)
    (hf : ∀ i j, i < n → j < n → Finite (f i j) ∧ |⟪f i j⟫| ≤ 2 ^ 60) :
    ∃ q', loopRange 0 n (Mat.qrColumn n) q = .ok q' ∧ ∃ (g : Nat → Nat → F) (T : Nat → Nat → ℝ), MatIs q' n n g ∧
      (QrF n f g n T ∨ ∃ m, m < n ∧ QrStop n f g m T) := by
  have hsz : ∀ j, j < n → cnorm n (fun i j => ⟪f i j⟫) j ≤ 2 ^ 61 := fun j hj => by
    refine (norm2_le_of_le hq.rle (B := 2 ^ 60) (by norm_num) fun i hi => (hf i j hi hj).2).trans ?_
    norm_num
  have hold : ∀ (g : Nat → Nat → F) (T : Nat → Nat → ℝ) (y : Nat → F) (e : Nat → ℝ) (c : Nat), QrF n f g c T →
      ∀ j, j < c → ColDone n (fun i j => ⟪f i j⟫) (fun i j => ⟪if j = c then y i else g i j⟫) j
        (fun k => if j = c then e k else T k j) := fun g T y e c h j hj =>
    (h.done j hj).congr (fun i k _ hk => by rw [if_neg (by omega)]) (fun k _ => by rw [if_neg (by omega)])
  obtain ⟨q', h1, h2⟩ := loopRange_total (Mat.qrColumn n)
    (fun c (q : Mat F) => ∃ (g : Nat → Nat → F) (T : Nat → Nat → ℝ), MatIs q n n g ∧ QrF n f g c T)
    (fun q => ∃ (g : Nat → Nat → F) (T : Nat → Nat → ℝ), MatIs q n n g ∧ ∃ m, m < n ∧ QrStop n f g m T)
    0 n (Nat.zero_le _) q
    ⟨f, fun _ _ => 0, hq, ⟨fun i j hi hj => (hf i j hi hj).1, fun _ _ _ _ => rfl, fun j hj => by omega⟩⟩
    (fun c q _ hc ⟨g, T, hq, hI⟩ => by
      obtain ⟨go, q', e', y, e, hq', hyf, hyn, hres⟩ := qrColumn_f hq hc hI.fin
        (fun i hi => hI.rest i c hi le_rfl) (fun j hj => (hI.done j hj).unit) (hsz c hc)
      have hfin : ∀ i j, i < n → j < n → Finite (if j = c then y i else g i j) := fun i j hi hj => by
        split
        · exact hyf i hi
        · exact hI.fin i j hi hj
      refine ⟨go, q', e', ?_⟩
      cases go with
      | false =>
        rw [if_neg (by simp)] at hres ⊢
        refine ⟨_, fun k j => if j = c then e k else T k j, hq', c, hc,
          hfin, fun i j hi hj => ?_, hold g T y e c hI, fun k hk => ?_, ?_, ?_⟩
        · rw [if_neg (by omega)]
          exact hI.rest i j hi (by omega)
        · rw [if_pos rfl]
          exact hres.1 k hk
        · rw [norm2_congr (y := fun i => ⟪f i c⟫ - ∑ k ∈ range c, e k * ⟪g i k⟫)]
          · exact hres.2
          · intro i _
            congr 1
            refine Finset.sum_congr rfl fun k hk => ?_
            have := Finset.mem_range.mp hk
            rw [if_pos rfl, if_neg (by omega)]
        · simp only [if_true]
          exact hyn
      | true =>
        rw [if_pos rfl] at hres ⊢
        refine ⟨_, fun k j => if j = c then e k else T k j, hq', hfin, fun i j hi hj => ?_, fun j hj => ?_⟩
        · rw [if_neg (by omega)]
          exact hI.rest i j hi (by omega)
        · by_cases hjc : j = c
          · subst hjc
            exact hres.congr (fun i k _ _ => rfl) (fun k _ => by rw [if_pos rfl])
          · exact hold g T y e c hI j (by omega))
  rcases h2 with ⟨g, T, hg, hI⟩ | ⟨g, T, hg, hI⟩
  · exact ⟨q', h1, g, T, hg, .inl hI⟩
  · exact ⟨q', h1, g, T, hg, .inr hI⟩

/-- C101: `qr_decomp` of a square matrix with elements up to `2⁶⁰`, in binary32, succeeds with finite factors.
The second is `Qᵀ A` up to rounding errors.  There are `m` columns, and coefficients `T` with positive diagonal,
such that each of the first `m` columns of the matrix is, up to twelve units of round-off of its length, the
combination of the columns of `Q` up to that one; these columns have length 1 up to twelve units of round-off,
and the scalar product of two of them times the diagonal coefficient is bounded by the length of the column
of the matrix times 55 units of round-off, plus the scalar products with the columns between them.  If `m` is
not the size then column `m` of the matrix is within the threshold 0.0001, and those rounding errors, of a
combination, with coefficients up to its length, of the earlier columns of `Q`, and the later columns of `Q` are those of the matrix. -/
theorem C101_qr {a : Mat F} {n : Nat} {f : Nat → Nat → F} (ha : MatIs a n n f)
    (hf : ∀ i j, i < n → j < n → Finite (f i j) ∧ |⟪f i j⟫| ≤ 2 ^ 60) :
    ∃ (q r : Mat F) (g h : Nat → Nat → F), a.qrDecomp = .ok (q, r) ∧ MatIs q n n g ∧ MatIs r n n h ∧
      (∀ i j, i < n → j < n → Finite (g i j) ∧ Finite (h i j) ∧
        |⟪h i j⟫ - ∑ t ∈ range n, ⟪g t i⟫ * ⟪f t j⟫| ≤
          12 / 2 ^ 24 * (∑ t ∈ range n, |⟪g t i⟫ * ⟪f t j⟫|) + 12 / 2 ^ 150) ∧
      ∃ m, m ≤ n ∧ ∃ T : Nat → Nat → ℝ,
        (∀ j, j < m → ColDone n (fun i j => ⟪f i j⟫) (fun i j => ⟪g i j⟫) j (fun k => T k j)) ∧
        (m < n → (∀ i j, i < n → m < j → g i j = f i j) ∧
          (∀ k, k < m → |T k m| ≤ 101 / 100 * cnorm n (fun i j => ⟪f i j⟫) m + 1 / 2 ^ 100) ∧
          norm2 n (fun i => ⟪f i m⟫ - ∑ k ∈ range m, T k m * ⟪g i k⟫) ≤
            10002 / 10 ^ 8 + 12 / 2 ^ 24 * cnorm n (fun i j => ⟪f i j⟫) m) := by
  obtain ⟨q0, e0, hq0⟩ := Mat.exec_of_stores (Mat.copyFrom_stores (Mat.zeros_of ha) ha)
    (Mat.zeros_of ha) (fun i j hi hj => (hf i j hi hj).1)
  obtain ⟨q, e1, g, T, hq, hQ⟩ := qrLoop_f hq0 hf
  have hg : ∀ i j, i < n → j < n → Finite (g i j) ∧ |⟪g i j⟫| ≤ 2 ^ 62 := by
    have hu : ∀ i j, i < n → ColDone n (fun i j => ⟪f i j⟫) (fun i j => ⟪g i j⟫) j (fun k => T k j) →
        |⟪g i j⟫| ≤ 2 ^ 62 := fun i j hi h => by
      have h1 := norm2_elem_le (n := n) (fun i => ⟪g i j⟫) hi
      have h2 := (abs_le.mp h.unit).2
      unfold cnorm at h2
      norm_num at h2 ⊢
      linarith
    rcases hQ with h | ⟨m, hm, h⟩
    · exact fun i j hi hj => ⟨h.fin i j hi hj, hu i j hi (h.done j hj)⟩
    · refine fun i j hi hj => ⟨h.fin i j hi hj, ?_⟩
      rcases lt_trichotomy j m with hjm | hjm | hjm
      · exact hu i j hi (h.done j hjm)
      · subst hjm
        exact (norm2_elem_le (fun i => ⟪g i j⟫) hi).trans h.size
      · rw [h.rest i j hi hjm]
        exact (hf i j hi hj).2.trans (by norm_num)
  obtain ⟨t0, e2, ht0⟩ := Mat.exec_of_stores (Mat.copyFrom_stores (Mat.zeros_of ha) hq)
    (Mat.zeros_of ha) (fun i j hi hj => (hg i j hi hj).1)
  obtain ⟨t, e3, ht⟩ := Mat.exec_transpose ht0 (fun i j hi hj => (hg i j hi hj).1)
  have hn := ha.rle
  obtain ⟨r, C, e4, hr, hC⟩ := C76_mul ht ha (Mat.zeros_of ha) (fun i j hi hj => (hg j i hj hi).1)
    (fun i j hi hj => (hf i j hi hj).1) (fun i j hi hj => by
      calc ∑ t ∈ range n, |⟪g t i⟫ * ⟪f t j⟫| ≤ ∑ t ∈ range n, (2 ^ 62 * 2 ^ 60 : ℝ) := by
            refine Finset.sum_le_sum fun t ht => ?_
            have ht := Finset.mem_range.mp ht
            rw [abs_mul]
            exact mul_le_mul (hg t i ht hi).2 (hf t j ht hj).2 (abs_nonneg _) (by norm_num)
        _ = n * (2 ^ 62 * 2 ^ 60 : ℝ) := by rw [Finset.sum_const, Finset.card_range, nsmul_eq_mul]
        _ ≤ 4 * (2 ^ 62 * 2 ^ 60 : ℝ) := by
            have : (n : ℝ) ≤ 4 := by exact_mod_cast hn
            exact mul_le_mul_of_nonneg_right this (by norm_num)
        _ ≤ _ := by norm_num)
  have e4' := exec_ok e4
  refine ⟨q, r, g, C, ?_, hq, hr, fun i j hi hj => ⟨(hg i j hi hj).1, (hC i j hi hj).1, ?_⟩, ?_⟩
  · unfold Mat.qrDecomp
    simp only [ha.rows_eq, ha.cols_eq, Mat.init_of ha, Res.ok_bind, e0, e1, e2, e3, e4']
  · refine (hC i j hi hj).2.trans ?_
    have hn' : (n : ℝ) ≤ 4 := by exact_mod_cast hn
    have h0 : 0 ≤ ∑ t ∈ range n, |⟪g t i⟫ * ⟪f t j⟫| := Finset.sum_nonneg fun _ _ => abs_nonneg _
    refine add_le_add (mul_le_mul_of_nonneg_right ?_ h0) ?_
    · refine div_le_div_of_nonneg_right (by linarith) (by norm_num)
    · refine div_le_div_of_nonneg_right (by linarith) (by norm_num)
  · rcases hQ with h | ⟨m, hm, h⟩
    · exact ⟨n, le_rfl, T, h.done, fun hh => absurd hh (lt_irrefl _)⟩
    · exact ⟨m, hm.le, T, h.done, fun _ => ⟨h.rest, h.coef, h.near⟩⟩

/-- The residual of the first two columns as vectors. -/
theorem ColDone.first {n : Nat} {A G : Nat → Nat → ℝ} {e : Nat → ℝ} (h : ColDone n A G 0 e) :
    ‖ev n (fun i => A i 0) - e 0 • ev n (fun i => G i 0)‖ ≤ 12 / 2 ^ 24 * ‖ev n (fun i => A i 0)‖ := by
  have := h.resid
  rw [← ev_norm] at this
  unfold cnorm at this
  rw [← ev_norm] at this
  rw [ev_smul, ev_sub]
  simpa using this

theorem ColDone.second {n : Nat} {A G : Nat → Nat → ℝ} {e : Nat → ℝ} (h : ColDone n A G 1 e) :
    ‖ev n (fun i => A i 1) - e 0 • ev n (fun i => G i 0) - e 1 • ev n (fun i => G i 1)‖ ≤
      12 / 2 ^ 24 * ‖ev n (fun i => A i 1)‖ := by
  have := h.resid
  rw [← ev_norm] at this
  unfold cnorm at this
  rw [← ev_norm] at this
  rw [ev_smul, ev_smul, ev_sub, ev_sub]
  simpa [Finset.sum_range_succ, sub_sub] using this

section Space
variable {V : Type*} [NormedAddCommGroup V] [InnerProductSpace ℝ V]

/-- If the second column is away from the line of the first, its diagonal coefficient is not small. -/
theorem angle_coef {a0 a1 q0 r : V} {t0 t1 δ ρ : ℝ} (h0 : ‖a0 - t0 • q0‖ ≤ 12 / 2 ^ 24 * ‖a0‖)
    (hq : |‖q0‖ - 1| ≤ 12 / 2 ^ 24) (ht0 : 0 < t0) (hδ : ∀ t : ℝ, δ * ‖a1‖ ≤ ‖a1 - t • a0‖)
    (ht1 : |t1| ≤ 21 / 10 * ‖a1‖) (hr : a1 - t1 • q0 = r) (hρ : ‖r‖ ≤ ρ) :
    δ * ‖a1‖ ≤ ρ + 26 / 2 ^ 24 * ‖a1‖ := by
  norm_num at h0 hq ⊢
  obtain ⟨q1, q2⟩ := abs_le.mp hq
  have hn0 := norm_nonneg a0
  have ht : 99999 / 100000 * ‖a0‖ ≤ t0 := by
    have h1 : ‖a0‖ ≤ ‖a0 - t0 • q0‖ + ‖t0 • q0‖ := by
      calc ‖a0‖ = ‖(a0 - t0 • q0) + t0 • q0‖ := by rw [sub_add_cancel]
        _ ≤ _ := norm_add_le _ _
    rw [norm_smul, Real.norm_eq_abs, abs_of_pos ht0] at h1
    have h2 : t0 * ‖q0‖ ≤ t0 * (1 + 12 / 16777216) := mul_le_mul_of_nonneg_left (by linarith) ht0.le
    linarith
  have h1 := hδ (t1 / t0)
  have e : a1 - (t1 / t0) • a0 = r - (t1 / t0) • (a0 - t0 • q0) := by
    rw [smul_sub, smul_smul, div_mul_cancel₀ _ ht0.ne', ← hr]
    abel
  rw [e] at h1
  have h2 := norm_sub_le r ((t1 / t0) • (a0 - t0 • q0))
  have h3 : ‖(t1 / t0) • (a0 - t0 • q0)‖ ≤ 26 / 16777216 * ‖a1‖ := by
    rw [norm_smul, Real.norm_eq_abs, abs_div, abs_of_pos ht0, div_mul_eq_mul_div, div_le_iff₀ ht0]
    have hn1 := norm_nonneg a1
    calc |t1| * ‖a0 - t0 • q0‖ ≤ (21 / 10 * ‖a1‖) * (3 / 4194304 * ‖a0‖) :=
          mul_le_mul ht1 h0 (norm_nonneg _) (by positivity)
      _ = (21 / 10 * 3 / 4194304 * ‖a1‖) * ‖a0‖ := by ring
      _ ≤ (21 / 10 * 3 / 4194304 * ‖a1‖) * (100002 / 100000 * t0) :=
          mul_le_mul_of_nonneg_left (by linarith) (by positivity)
      _ ≤ 26 / 16777216 * ‖a1‖ * t0 := by
          have : 0 ≤ ‖a1‖ * t0 := by positivity
          linarith
  linarith

end Space

/-- C101: the first two columns of `Q`, when the sine `δ` of the angle between the first two columns of the
matrix is at least a thousand units of round-off and the part of the second column that is orthogonal to the
first is above the threshold: their scalar product is at most 60 units of round-off divided by the sine, and
the element of `R` below the diagonal is at most 100 units of round-off divided by the sine, times the length
of the first column. -/
theorem C101_angle {a : Mat F} {n : Nat} {f : Nat → Nat → F} {δ : ℝ} (ha : MatIs a n n f) (hn : 2 ≤ n)
    (hf : ∀ i j, i < n → j < n → Finite (f i j) ∧ |⟪f i j⟫| ≤ 2 ^ 60)
    (h0 : 11 / 10 ^ 5 ≤ norm2 n (fun i => ⟪f i 0⟫)) (hδ : 1000 / 2 ^ 24 ≤ δ)
    (h1 : 11 / 10 ^ 5 ≤ δ * norm2 n (fun i => ⟪f i 1⟫))
    (hδ1 : ∀ t : ℝ, δ * norm2 n (fun i => ⟪f i 1⟫) ≤ norm2 n (fun i => ⟪f i 1⟫ - t * ⟪f i 0⟫)) :
    ∃ (q r : Mat F) (g h : Nat → Nat → F), a.qrDecomp = .ok (q, r) ∧ MatIs q n n g ∧ MatIs r n n h ∧
      |∑ k ∈ range n, ⟪g k 0⟫ * ⟪g k 1⟫| ≤ 60 / 2 ^ 24 / δ ∧
      |⟪h 1 0⟫| ≤ 100 / 2 ^ 24 / δ * norm2 n (fun i => ⟪f i 0⟫) := by
  obtain ⟨q, r, g, h, e, hq, hr, hR, m, hm, T, hT, hS⟩ := C101_qr ha hf
  refine ⟨q, r, g, h, e, hq, hr, ?_⟩
  have hδ0 : 0 < δ := by norm_num at hδ; linarith
  have n0 : norm2 n (fun i => ⟪f i 0⟫) = ‖ev n fun i => ⟪f i 0⟫‖ := (ev_norm n _).symm
  have n1 : norm2 n (fun i => ⟪f i 1⟫) = ‖ev n fun i => ⟪f i 1⟫‖ := (ev_norm n _).symm
  have hδ2 : ∀ t : ℝ, δ * ‖ev n fun i => ⟪f i 1⟫‖ ≤ ‖(ev n fun i => ⟪f i 1⟫) - t • ev n fun i => ⟪f i 0⟫‖ := fun t => by
    rw [ev_smul, ev_sub, ev_norm, ev_norm]
    exact hδ1 t
  rw [n0] at h0 ⊢
  rw [n1] at h1
  set a0 := ev n fun i => ⟪f i 0⟫ with ha0
  set a1 := ev n fun i => ⟪f i 1⟫ with ha1
  set q0 := ev n fun i => ⟪g i 0⟫ with hq0
  have hδ3 : δ * ‖a1‖ ≤ ‖a1‖ := by simpa using hδ2 0
  have hm0 : 0 < m := by
    rcases Nat.eq_zero_or_pos m with hm0 | hm0
    · exfalso
      subst hm0
      have := (hS (by omega)).2.2
      simp only [Finset.range_zero, Finset.sum_empty, sub_zero] at this
      unfold cnorm at this
      rw [n0] at this
      norm_num at this h0
      linarith
    · exact hm0
  have c0 := (hT 0 hm0).first
  have u0 := (hT 0 hm0).unit
  have t0 := (hT 0 hm0).diag
  have k0 := (hT 0 hm0).coef 0 le_rfl
  unfold cnorm at u0 k0
  rw [← ev_norm] at u0 k0
  have ht0 : 0 < T 0 0 := by norm_num at t0; linarith
  have hm1 : 1 < m := by
    rcases Nat.lt_or_ge 1 m with hm1 | hm1
    · exact hm1
    · exfalso
      obtain rfl : m = 1 := by omega
      have s := (hS (by omega)).2.2
      simp only [Finset.sum_range_one] at s
      unfold cnorm at s
      rw [n1, ← ev_norm, ← ev_sub, ← ev_smul, ← ha1, ← hq0] at s
      have ht1 : |T 0 1| ≤ 21 / 10 * ‖a1‖ := by
        have b1 : ‖T 0 1 • q0‖ ≤ ‖a1‖ + ‖a1 - T 0 1 • q0‖ := by
          calc ‖T 0 1 • q0‖ = ‖a1 - (a1 - T 0 1 • q0)‖ := by rw [sub_sub_cancel]
            _ ≤ _ := norm_sub_le _ _
        rw [norm_smul, Real.norm_eq_abs] at b1
        have b2 : |T 0 1| * (1 - 12 / 16777216) ≤ |T 0 1| * ‖q0‖ := by
          refine mul_le_mul_of_nonneg_left ?_ (abs_nonneg _)
          have := (abs_le.mp u0).1
          norm_num at this ⊢
          linarith
        norm_num at s h1
        linarith
      have := angle_coef c0 u0 ht0 hδ2 ht1 rfl s
      have : 1000 / 2 ^ 24 * ‖a1‖ ≤ δ * ‖a1‖ := mul_le_mul_of_nonneg_right hδ (norm_nonneg _)
      norm_num at *
      linarith
  have c1 := (hT 1 hm1).second
  have u1 := (hT 1 hm1).unit
  have t1 := (hT 1 hm1).diag
  have k1 := (hT 1 hm1).coef 0 (by omega)
  have o1 := (hT 1 hm1).ortho 0 (by omega)
  unfold cnorm at u1 k1 o1
  rw [← ev_norm] at u1 k1 o1
  simp only [zero_add, Finset.Ico_self, Finset.sum_empty, mul_zero, add_zero] at o1
  set q1 := ev n fun i => ⟪g i 1⟫ with hq1
  have ht1 : 0 < T 1 1 := by norm_num at t1; linarith
  have hr1 : ‖a1 - T 0 1 • q0‖ ≤ 12 / 2 ^ 24 * ‖a1‖ + T 1 1 * (1 + 12 / 2 ^ 24) := by
    calc ‖a1 - T 0 1 • q0‖ = ‖(a1 - T 0 1 • q0 - T 1 1 • q1) + T 1 1 • q1‖ := by rw [sub_add_cancel]
      _ ≤ ‖a1 - T 0 1 • q0 - T 1 1 • q1‖ + ‖T 1 1 • q1‖ := norm_add_le _ _
      _ ≤ _ := by
        refine add_le_add c1 ?_
        rw [norm_smul, Real.norm_eq_abs, abs_of_pos ht1]
        exact mul_le_mul_of_nonneg_left (by have := (abs_le.mp u1).2; linarith) ht1.le
  have hco := angle_coef c0 u0 ht0 hδ2 (k1.trans (by have := norm_nonneg a1; linarith)) rfl hr1
  have hT1 : 95 / 100 * (δ * ‖a1‖) ≤ T 1 1 := by
    have : 1000 / 2 ^ 24 * ‖a1‖ ≤ δ * ‖a1‖ := mul_le_mul_of_nonneg_right hδ (norm_nonneg _)
    norm_num at *
    linarith
  have hdot : |cdot n (fun i j => ⟪g i j⟫) 0 1| ≤ 58 / 2 ^ 24 / δ := by
    have ha : 0 < ‖a1‖ := by
      by_contra hc
      have : ‖a1‖ = 0 := le_antisymm (not_lt.mp hc) (norm_nonneg _)
      rw [this] at h1
      norm_num at h1
    rw [le_div_iff₀ hδ0]
    have b1 : 95 / 100 * (δ * ‖a1‖) * |cdot n (fun i j => ⟪g i j⟫) 0 1| ≤ ‖a1‖ * (55 / 2 ^ 24) :=
      (mul_le_mul_of_nonneg_right hT1 (abs_nonneg _)).trans o1
    have b2 : ‖a1‖ * (95 / 100 * (|cdot n (fun i j => ⟪g i j⟫) 0 1| * δ)) ≤ ‖a1‖ * (55 / 2 ^ 24) := by
      linarith
    have b3 := le_of_mul_le_mul_left b2 ha
    norm_num at b3 ⊢
    linarith
  refine ⟨?_, ?_⟩
  · refine hdot.trans ?_
    exact div_le_div_of_nonneg_right (by norm_num) hδ0.le
  · have hRR := (hR 1 0 (by omega) (by omega)).2.2
    have s1 := sum_abs_le_norm n (fun t => ⟪g t 1⟫) (fun t => ⟪f t 0⟫)
    rw [n0, ← ev_norm] at s1
    have hin : ∑ t ∈ range n, ⟪g t 1⟫ * ⟪f t 0⟫ = (inner ℝ q1 a0 : ℝ) := (ev_inner n _ _).symm
    have hcd : cdot n (fun i j => ⟪g i j⟫) 0 1 = (inner ℝ q0 q1 : ℝ) := (ev_inner n _ _).symm
    have e2 : (inner ℝ q1 a0 : ℝ) = (inner ℝ q1 (a0 - T 0 0 • q0) : ℝ) + T 0 0 * (inner ℝ q0 q1 : ℝ) := by
      rw [inner_sub_right, inner_smul_right, real_inner_comm q0 q1]
      ring
    have b0 := norm_nonneg a0
    have bq : ‖q1‖ ≤ 1000001 / 1000000 := by
      have := (abs_le.mp u1).2
      norm_num at this
      linarith
    have b1 : |(inner ℝ q1 (a0 - T 0 0 • q0) : ℝ)| ≤ 121 / 10 / 2 ^ 24 * ‖a0‖ := by
      refine (abs_real_inner_le_norm _ _).trans ?_
      calc ‖q1‖ * ‖a0 - T 0 0 • q0‖ ≤ 1000001 / 1000000 * (12 / 2 ^ 24 * ‖a0‖) :=
            mul_le_mul bq c0 (norm_nonneg _) (by norm_num)
        _ ≤ _ := by norm_num; linarith
    have b2 : |T 0 0 * (inner ℝ q0 q1 : ℝ)| ≤ 101 / 100 * ‖a0‖ * (58 / 2 ^ 24 / δ) := by
      rw [abs_mul, ← hcd]
      exact mul_le_mul k0 hdot (abs_nonneg _) (by positivity)
    have b3 : |∑ t ∈ range n, ⟪g t 1⟫ * ⟪f t 0⟫| ≤
        121 / 10 / 2 ^ 24 * ‖a0‖ + 101 / 100 * ‖a0‖ * (58 / 2 ^ 24 / δ) := by
      rw [hin, e2]
      exact (abs_add_le _ _).trans (add_le_add b1 b2)
    have b4 : |⟪h 1 0⟫| ≤ (12 / 2 ^ 24 * (‖q1‖ * ‖a0‖) + 12 / 2 ^ 150) +
        (121 / 10 / 2 ^ 24 * ‖a0‖ + 101 / 100 * ‖a0‖ * (58 / 2 ^ 24 / δ)) := by
      calc |⟪h 1 0⟫| = |(⟪h 1 0⟫ - ∑ t ∈ range n, ⟪g t 1⟫ * ⟪f t 0⟫) + ∑ t ∈ range n, ⟪g t 1⟫ * ⟪f t 0⟫| := by
            rw [sub_add_cancel]
        _ ≤ _ := abs_add_le _ _
        _ ≤ _ := by
          refine add_le_add (hRR.trans (add_le_add ?_ le_rfl)) b3
          exact mul_le_mul_of_nonneg_left s1 (by norm_num)
    refine b4.trans ?_
    have b5 : ‖q1‖ * ‖a0‖ ≤ 1000001 / 1000000 * ‖a0‖ := mul_le_mul_of_nonneg_right bq b0
    have hδle : δ ≤ 1 := by
      by_contra hc
      have hc := not_le.mp hc
      have ha : 0 < ‖a1‖ := by
        by_contra hc
        have : ‖a1‖ = 0 := le_antisymm (not_lt.mp hc) (norm_nonneg _)
        rw [this] at h1
        norm_num at h1
      have := mul_lt_mul_of_pos_right hc ha
      linarith
    have b6 : ‖a0‖ ≤ ‖a0‖ / δ := by
      rw [le_div_iff₀ hδ0]
      have := mul_le_mul_of_nonneg_left hδle b0
      linarith
    have b7 : 101 / 100 * ‖a0‖ * (58 / 2 ^ 24 / δ) = 101 / 100 * 58 / 2 ^ 24 * (‖a0‖ / δ) := by ring
    have b8 : 100 / 2 ^ 24 / δ * ‖a0‖ = 100 / 2 ^ 24 * (‖a0‖ / δ) := by ring
    rw [b7, b8]
    norm_num at b5 h0 ⊢
    linarith

end Rounded

/-! ### Cases in binary32 -/

/-- The rows of the two factors of a matrix of literals. -/
def qrRows (l : List (List ℚ)) : Res LinalgError (List F32 × List F32) := do
  let (q, r) ← (fmat l).qrDecomp
  let ix := (List.range l.length).flatMap fun i => (List.range l.length).map fun j => (i, j)
  let q ← ix.mapM fun p => q.getElement p.1 p.2
  let r ← ix.mapM fun p => r.getElement p.1 p.2
  .ok (q, r)

theorem qrRows_two {l : List (List ℚ)} (hl : l.length = 2) {a b c d x y z w : F32}
    (h : qrRows l = .ok ([a, b, c, d], [x, y, z, w])) :
    ∃ q r : Mat F32, (fmat l).qrDecomp = .ok (q, r) ∧
      (q.getElement 0 0 : Res LinalgError F32) = .ok a ∧ (q.getElement 0 1 : Res LinalgError F32) = .ok b ∧
      (q.getElement 1 0 : Res LinalgError F32) = .ok c ∧ (q.getElement 1 1 : Res LinalgError F32) = .ok d ∧
      (r.getElement 0 0 : Res LinalgError F32) = .ok x ∧ (r.getElement 0 1 : Res LinalgError F32) = .ok y ∧
      (r.getElement 1 0 : Res LinalgError F32) = .ok z ∧ (r.getElement 1 1 : Res LinalgError F32) = .ok w := by
  unfold qrRows at h
  obtain ⟨⟨q, r⟩, e1, h⟩ := Res.bind_eq_ok.mp h
  rw [hl] at h
  simp only [List.range, List.range.loop, List.flatMap_cons, List.map_cons, List.map_nil, List.flatMap_nil,
    List.cons_append, List.nil_append, List.append_nil, List.mapM_cons, List.mapM_nil] at h
  obtain ⟨ql, e2, h⟩ := Res.bind_eq_ok.mp h
  obtain ⟨rl, e3, h⟩ := Res.bind_eq_ok.mp h
  obtain ⟨rfl, rfl⟩ : ql = [a, b, c, d] ∧ rl = [x, y, z, w] := by
    have := Except.ok.inj h
    simpa using this
  obtain ⟨v1, k1, e2⟩ := Res.bind_eq_ok.mp e2
  obtain ⟨l1, e2, m1⟩ := Res.bind_eq_ok.mp e2
  obtain ⟨v2, k2, e2⟩ := Res.bind_eq_ok.mp e2
  obtain ⟨l2, e2, m2⟩ := Res.bind_eq_ok.mp e2
  obtain ⟨v3, k3, e2⟩ := Res.bind_eq_ok.mp e2
  obtain ⟨l3, e2, m3⟩ := Res.bind_eq_ok.mp e2
  obtain ⟨v4, k4, e2⟩ := Res.bind_eq_ok.mp e2
  obtain ⟨l4, e2, m4⟩ := Res.bind_eq_ok.mp e2
  obtain ⟨w1, p1, e3⟩ := Res.bind_eq_ok.mp e3
  obtain ⟨j1, e3, n1⟩ := Res.bind_eq_ok.mp e3
  obtain ⟨w2, p2, e3⟩ := Res.bind_eq_ok.mp e3
  obtain ⟨j2, e3, n2⟩ := Res.bind_eq_ok.mp e3
  obtain ⟨w3, p3, e3⟩ := Res.bind_eq_ok.mp e3
  obtain ⟨j3, e3, n3⟩ := Res.bind_eq_ok.mp e3
  obtain ⟨w4, p4, e3⟩ := Res.bind_eq_ok.mp e3
  obtain ⟨j4, e3, n4⟩ := Res.bind_eq_ok.mp e3
  have m1 := Except.ok.inj m1
  have m2 := Except.ok.inj m2
  have m3 := Except.ok.inj m3
  have m4 := Except.ok.inj m4
  have n1 := Except.ok.inj n1
  have n2 := Except.ok.inj n2
  have n3 := Except.ok.inj n3
  have n4 := Except.ok.inj n4
  subst m4 m3 m2 n4 n3 n2
  simp only [List.cons.injEq] at m1 n1
  obtain ⟨rfl, rfl, rfl, rfl, -⟩ := m1
  obtain ⟨rfl, rfl, rfl, rfl, -⟩ := n1
  exact ⟨q, r, e1, k1, k2, k3, k4, p1, p2, p3, p4⟩

/-- Beside `C101_qr`: a matrix whose factors are good; the element of `R` below the diagonal is 7/2097152. -/
example : qrRows [[1, 2], [3, 4]] = .ok
    ([⟨.fin (10610843 / 33554432)⟩, ⟨.fin (7958135 / 8388608)⟩, ⟨.fin (1989533 / 2097152)⟩,
      ⟨.fin (-10610809 / 33554432)⟩],
     [⟨.fin (13263553 / 4194304)⟩, ⟨.fin (9284487 / 2097152)⟩, ⟨.fin (7 / 2097152)⟩,
      ⟨.fin (5305461 / 8388608)⟩]) := by
  decide +kernel

/-- Beside `C101_angle`: the same matrix, whose columns make an angle of sine at least 1/10. -/
example : ∃ (q r : Mat F32) (g h : Nat → Nat → F32), (fmat [[1, 2], [3, 4]]).qrDecomp = .ok (q, r) ∧
    MatIs q 2 2 g ∧ MatIs r 2 2 h ∧ |∑ k ∈ range 2, ⟪g k 0⟫ * ⟪g k 1⟫| ≤ 60 / 2 ^ 24 / (1 / 10) ∧
    |⟪h 1 0⟫| ≤ 100 / 2 ^ 24 / (1 / 10) * √10 := by
  have ha : MatIs (fmat [[1, 2], [3, 4]]) 2 2 _ :=
    Mat.of_is (fun i j => (lit ((([[1, 2], [3, 4]] : List (List ℚ)).getD i []).getD j 0) : F32))
      (by decide) (by decide) (by decide) (by decide)
  have v1 : ⟪(lit 1 : F32)⟫ = 1 := Rounded.one_val
  have v2 : ⟪(lit 2 : F32)⟫ = 2 := Rounded.two_val
  have v3 : ⟪(lit 3 : F32)⟫ = 3 := by rw [val_lit (by decide +kernel)]; norm_num
  have v4 : ⟪(lit 4 : F32)⟫ = 4 := by rw [val_lit (by decide +kernel)]; norm_num
  have n0 : norm2 2 (fun i => ⟪(lit ((([[1, 2], [3, 4]] : List (List ℚ)).getD i []).getD 0 0) : F32)⟫) = √10 := by
    unfold norm2
    simp [Finset.sum_range_succ, v1, v3]
    norm_num
  have n1 : norm2 2 (fun i => ⟪(lit ((([[1, 2], [3, 4]] : List (List ℚ)).getD i []).getD 1 0) : F32)⟫) = √20 := by
    unfold norm2
    simp [Finset.sum_range_succ, v2, v4]
    norm_num
  have h10 : (3 : ℝ) ≤ √10 := Real.le_sqrt_of_sq_le (by norm_num)
  have h20 : (4 : ℝ) ≤ √20 := Real.le_sqrt_of_sq_le (by norm_num)
  have := C101_angle (δ := 1 / 10) ha le_rfl (fun i j hi hj => ?_) (by rw [n0]; norm_num; linarith) (by norm_num)
    (by rw [n1]; norm_num; linarith) (fun t => ?_)
  · rwa [n0] at this
  · obtain rfl | rfl : i = 0 ∨ i = 1 := by omega
    all_goals obtain rfl | rfl : j = 0 ∨ j = 1 := by omega
    all_goals refine ⟨by decide +kernel, ?_⟩
    all_goals simp [v1, v2, v3, v4]
    all_goals norm_num
  · rw [n1]
    unfold norm2
    simp only [Finset.sum_range_succ, Finset.sum_range_zero, List.getD_cons_zero, List.getD_cons_succ, v1, v2, v3, v4,
      zero_add]
    refine Real.le_sqrt_of_sq_le ?_
    rw [mul_pow, Real.sq_sqrt (by norm_num)]
    nlinarith [sq_nonneg (t - 7 / 5)]

/-- C101: nearly dependent columns.  A matrix of whole numbers up to 4001 with determinant 1: the two columns of
`Q` make an angle of 45 degrees, the element of `R` below the diagonal is -4000, and the first element of the
product of the factors is off by 3999. -/
theorem C101_loss : ∃ (a q r : Mat F32) (A G H : Nat → Nat → F32),
    MatIs a 2 2 A ∧ MatIs q 2 2 G ∧ MatIs r 2 2 H ∧ a.qrDecomp = .ok (q, r) ∧
    (∀ i j, i < 2 → j < 2 → |⟪A i j⟫| ≤ 4001) ∧ ⟪A 0 0⟫ * ⟪A 1 1⟫ - ⟪A 0 1⟫ * ⟪A 1 0⟫ = 1 ∧
    ∑ k ∈ range 2, ⟪G k 0⟫ * ⟪G k 1⟫ ≤ -7 / 10 ∧ ⟪H 1 0⟫ = -4000 ∧
    3999 ≤ |⟪G 0 0⟫ * ⟪H 0 0⟫ + ⟪G 0 1⟫ * ⟪H 1 0⟫ - ⟪A 0 0⟫| := by
  have ha : MatIs (fmat [[4000, 4001], [3999, 4000]]) 2 2 _ :=
    Mat.of_is (fun i j => (lit ((([[4000, 4001], [3999, 4000]] : List (List ℚ)).getD i []).getD j 0) : F32))
      (by decide) (by decide) (by decide) (by decide)
  have h : qrRows [[4000, 4001], [3999, 4000]] = .ok
      ([⟨.fin (11864767 / 16777216)⟩, ⟨.fin (-1)⟩, ⟨.fin (1482725 / 2097152)⟩, ⟨.fin 0⟩],
       [⟨.fin (5791895 / 1024)⟩, ⟨.fin (5793343 / 1024)⟩, ⟨.fin (-4000)⟩, ⟨.fin (-4001)⟩]) := by
    decide +kernel
  obtain ⟨q, r, e, q00, q01, q10, q11, r00, r01, r10, r11⟩ := qrRows_two rfl h
  have v1 : ⟪(lit 4000 : F32)⟫ = 4000 := by rw [val_lit (by decide +kernel)]; norm_num
  have v2 : ⟪(lit 4001 : F32)⟫ = 4001 := by rw [val_lit (by decide +kernel)]; norm_num
  have v3 : ⟪(lit 3999 : F32)⟫ = 3999 := by rw [val_lit (by decide +kernel)]; norm_num
  have hA : ∀ i j, i < 2 → j < 2 →
      Finite (lit ((([[4000, 4001], [3999, 4000]] : List (List ℚ)).getD i []).getD j 0) : F32) ∧
      |⟪(lit ((([[4000, 4001], [3999, 4000]] : List (List ℚ)).getD i []).getD j 0) : F32)⟫| ≤ 4001 := by
    intro i j hi hj
    obtain rfl | rfl : i = 0 ∨ i = 1 := by omega
    all_goals obtain rfl | rfl : j = 0 ∨ j = 1 := by omega
    all_goals refine ⟨by decide +kernel, ?_⟩
    all_goals simp [v1, v2, v3]
    all_goals norm_num
  obtain ⟨q', r', G, H, e', hG, hH, -⟩ := C101_qr ha (fun i j hi hj => ⟨(hA i j hi hj).1, (hA i j hi hj).2.trans (by norm_num)⟩)
  obtain ⟨rfl, rfl⟩ : q' = q ∧ r' = r := by
    have := Except.ok.inj (e'.symm.trans e)
    simpa using this
  have g00 := Except.ok.inj ((hG.get 0 0 (by omega) (by omega)).symm.trans q00)
  have g01 := Except.ok.inj ((hG.get 0 1 (by omega) (by omega)).symm.trans q01)
  have g10 := Except.ok.inj ((hG.get 1 0 (by omega) (by omega)).symm.trans q10)
  have g11 := Except.ok.inj ((hG.get 1 1 (by omega) (by omega)).symm.trans q11)
  have k00 := Except.ok.inj ((hH.get 0 0 (by omega) (by omega)).symm.trans r00)
  have k10 := Except.ok.inj ((hH.get 1 0 (by omega) (by omega)).symm.trans r10)
  have hv : ∀ x : ℚ, ⟪(⟨.fin x⟩ : F32)⟫ = (x : ℝ) := fun _ => rfl
  refine ⟨_, q', r', _, G, H, ha, hG, hH, e, fun i j hi hj => (hA i j hi hj).2, ?_, ?_, ?_, ?_⟩
  · simp only [List.getD_cons_zero, List.getD_cons_succ, v1, v2, v3]
    norm_num
  · simp only [Finset.sum_range_succ, Finset.sum_range_zero, g00, g01, g10, g11, hv]
    norm_num
  · rw [k10, hv]
    norm_num
  · simp only [List.getD_cons_zero, g00, g01, k00, k10, hv, v1]
    rw [le_abs]
    left
    norm_num

/-- C101: dependent columns need not be noticed.  The second column is three times the first, but the loop does
not stop and the second column of `Q` is (0, 1). -/
theorem C101_dependent : ∃ q r : Mat F32, (fmat [[10000, 30000], [10001, 30003]]).qrDecomp = .ok (q, r) ∧
    (q.getElement 0 1 : Res LinalgError F32) = .ok ⟨.fin 0⟩ ∧
    (q.getElement 1 1 : Res LinalgError F32) = .ok ⟨.fin 1⟩ := by
  have h : qrRows [[10000, 30000], [10001, 30003]] = .ok
      ([⟨.fin (5931345 / 8388608)⟩, ⟨.fin 0⟩, ⟨.fin (2965969 / 4194304)⟩, ⟨.fin 1⟩],
       [⟨.fin (14482271 / 1024)⟩, ⟨.fin (10861703 / 256)⟩, ⟨.fin 10001⟩, ⟨.fin 30003⟩]) := by
    decide +kernel
  obtain ⟨q, r, e, _, q01, _, q11, _⟩ := qrRows_two rfl h
  exact ⟨q, r, e, q01, q11⟩

/-- C101: why the elements must be bounded.  The square of `2⁷⁰` overflows, the length of the first column is
infinite, and the quotient by it is zero: the diagonal matrix of `2⁷⁰` and 1 gets, with success, factors whose
first column and row are zero. -/
theorem C101_overflow : ∃ q r : Mat F32, (fmat [[2 ^ 70, 0], [0, 1]]).qrDecomp = .ok (q, r) ∧
    (q.getElement 0 0 : Res LinalgError F32) = .ok ⟨.fin 0⟩ ∧
    (q.getElement 1 0 : Res LinalgError F32) = .ok ⟨.fin 0⟩ ∧
    (r.getElement 0 0 : Res LinalgError F32) = .ok ⟨.fin 0⟩ := by
  have h : qrRows [[2 ^ 70, 0], [0, 1]] = .ok
      ([⟨.fin 0⟩, ⟨.fin 0⟩, ⟨.fin 0⟩, ⟨.fin 1⟩], [⟨.fin 0⟩, ⟨.fin 0⟩, ⟨.fin 0⟩, ⟨.fin 1⟩]) := by
    decide +kernel
  obtain ⟨q, r, e, q00, _, q10, _, r00, _⟩ := qrRows_two rfl h
  exact ⟨q, r, e, q00, q10, r00⟩

end Verif
