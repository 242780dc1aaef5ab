import Verif.Props.Lup
import Verif.Props.Predicates

/-
`lr` (C26) and `lu_crout` (C27) in exact arithmetic over an ordered field.
-/

set_option linter.unusedSectionVars false
set_option linter.unusedSimpArgs false

namespace Verif
open Scalar Finset

variable {K : Type} [Field K] [LinearOrder K] [IsStrictOrderedRing K] [Elementary K]
variable {a : Mat (Ext K)} {n : Nat} {A : Nat → Nat → K}

theorem Mat.identity_ok {F : Type} [Scalar F] [ScalarLawful F] {l : Mat F} {n : Nat}
    {f : Nat → Nat → F} (hl : MatIs l n n f) :
    ∃ l', exec l Mat.fillIdentity = .ok l' ∧
      MatIs l' n n (fun i j => if i = j then lit 1 else lit 0) :=
  Mat.exec_of_stores (Mat.fillIdentity_stores hl) hl fun i j _ _ => by
    split
    · exact ScalarLawful.one_finite
    · exact ScalarLawful.zero_finite

theorem Mat.identity_fin {l : Mat (Ext K)} {f : Nat → Nat → Ext K} (hl : MatIs l n n f) :
    ∃ l', exec l Mat.fillIdentity = .ok l' ∧
      MatIs l' n n (fun i j => .fin (if i = j then 1 else 0)) := by
  obtain ⟨l', h1, h2⟩ := Mat.identity_ok hl
  exact ⟨l', h1, h2.congr fun i j _ _ => by split <;> simp⟩

theorem MatIs.exec_put {l : Mat (Ext K)} {r c : Nat} {L : Nat → Nat → K}
    (hl : MatIs l r c (fun i j => .fin (L i j))) {i j : Nat} (x : K) (hi : i < r) (hj : j < c) :
    ∃ l', exec l (Mat.setElement i j (.fin x)) = .ok l' ∧
      MatIs l' r c (fun p q => .fin (if p = i ∧ q = j then x else L p q)) := by
  obtain ⟨l', h1, h2⟩ := hl.exec_set hi hj (Ext.finite_fin x)
  exact ⟨l', h1, h2.congr fun p q _ _ => by split <;> rfl⟩

theorem allclose_fin (x y : K) :
    allcloseL (.fin x : Ext K) (.fin y) EPSILON = .ok (decide (|x - y| ≤ epsilon K)) := by
  rw [allcloseL_eq (Ext.finite_fin _) (Ext.finite_fin _)]
  congr 1
  rw [decide_eq_decide]
  unfold Close
  rw [Ext.sub_fin, Ext.abs_fin, Ext.epsilon_eq, Ext.le_fin, decide_eq_true_eq, abs_eq_max_neg]
  split
  · rw [max_eq_left (by linarith)]
  · rw [max_eq_right (by linarith)]

/-! ### `lr` -/

/-- The first row of `R`. -/
theorem lr_first_row (ha : MatIs a n n (fun i j => .fin (A i j))) {r : Mat (Ext K)}
    (hr : MatIs r n n (fun _ _ => .fin 0)) :
    ∃ r', foldRange 0 n (fun col (r : Mat (Ext K)) => do
        let element ← a.getElement 0 col
        exec r (Mat.setElement 0 col element)) r = .ok r' ∧
      MatIs r' n n (fun i j => .fin (if i = 0 then A 0 j else 0)) := by
  have hn := ha.rpos
  obtain ⟨r', h1, h2⟩ := foldRange_inv (ε := LinalgError)
    (fun col (r : Mat (Ext K)) => do
        let element ← a.getElement 0 col
        exec r (Mat.setElement 0 col element))
    (fun k (r : Mat (Ext K)) => MatIs r n n (fun i j => .fin (if i = 0 ∧ j < k then A 0 j else 0)))
    0 n (Nat.zero_le _) r (hr.congr fun i j _ _ => by simp)
    (fun k r _ hk hI => by
      rw [ha.get 0 k (by omega) hk, Res.ok_bind]
      obtain ⟨r', h1, h2⟩ := hI.exec_put (A 0 k) (show 0 < n by omega) hk
      refine ⟨r', h1, h2.congr fun i j _ _ => ?_⟩
      by_cases hi : i = 0
      · by_cases hj : j = k
        · simp [hi, hj]
        · have : j < k + 1 ↔ j < k := by omega
          simp [hi, hj, this]
      · simp [hi])
  exact ⟨r', h1, h2.congr fun i j _ hj => by simp [hj]⟩

/-- The first column of `L`. -/
theorem lr_first_col (ha : MatIs a n n (fun i j => .fin (A i j))) {l r : Mat (Ext K)}
    (hl : MatIs l n n (fun i j => .fin (if i = j then 1 else 0)))
    (hr : MatIs r n n (fun i j => .fin (if i = 0 then A 0 j else 0))) (h0 : A 0 0 ≠ 0) :
    ∃ l', foldRange 0 n (fun row (l : Mat (Ext K)) => do
        let rElement ← r.getElement 0 0
        let _ ← allcloseL rElement (lit 0) EPSILON
        let element := (← a.getElement row 0) /ᶠ rElement
        exec l (Mat.setElement row 0 element)) l = .ok l' ∧
      MatIs l' n n (fun i j => .fin (if j = 0 then A i 0 / A 0 0 else if i = j then 1 else 0)) := by
  have hn := ha.rpos
  have e0 : r.getElement 0 0 = .ok (.fin (A 0 0)) := by
    rw [hr.get 0 0 (by omega) (by omega)]; simp
  obtain ⟨l', h1, h2⟩ := foldRange_inv (ε := LinalgError)
    (fun row (l : Mat (Ext K)) => do
        let rElement ← r.getElement 0 0
        let _ ← allcloseL rElement (lit 0) EPSILON
        let element := (← a.getElement row 0) /ᶠ rElement
        exec l (Mat.setElement row 0 element))
    (fun k (l : Mat (Ext K)) => MatIs l n n (fun i j => .fin (
      if j = 0 ∧ i < k then A i 0 / A 0 0 else if i = j then 1 else 0)))
    0 n (Nat.zero_le _) l (hl.congr fun i j _ _ => by simp)
    (fun k l _ hk hI => by
      simp only [e0, Res.ok_bind, ha.get k 0 hk (by omega), Ext.lit_zero, allclose_fin,
        Ext.div_fin _ h0]
      obtain ⟨l', h1, h2⟩ := hI.exec_put (A k 0 / A 0 0) hk (show 0 < n by omega)
      refine ⟨l', h1, h2.congr fun i j _ _ => ?_⟩
      by_cases hj : j = 0
      · by_cases hi : i = k
        · simp [hi, hj]
        · have : i < k + 1 ↔ i < k := by omega
          simp [hi, hj, this]
      · simp [hj])
  exact ⟨l', h1, h2.congr fun i j hi _ => by simp [hi]⟩

/-- The failure of the first column of `L`. -/
theorem lr_first_col_zero (ha : MatIs a n n (fun i j => .fin (A i j))) {l r : Mat (Ext K)}
    (hl : MatIs l n n (fun i j => .fin (if i = j then 1 else 0)))
    (hr : MatIs r n n (fun i j => .fin (if i = 0 then A 0 j else 0))) (h0 : A 0 0 = 0) :
    foldRange 0 n (fun row (l : Mat (Ext K)) => do
        let rElement ← r.getElement 0 0
        let _ ← allcloseL rElement (lit 0) EPSILON
        let element := (← a.getElement row 0) /ᶠ rElement
        exec l (Mat.setElement row 0 element)) l = .error (.err (.UtilsError .Nan)) := by
  have hn := ha.rpos
  have e0 : r.getElement 0 0 = .ok (.fin 0) := by
    rw [hr.get 0 0 (by omega) (by omega)]; simp [h0]
  have e1 : ((.fin 0 : Ext K) /ᶠ .fin 0) = .nan := by
    show Ext.div (.fin 0) (.fin 0) = _
    simp [Ext.div]
  unfold foldRange
  obtain ⟨m, rfl⟩ : ∃ m, n = m + 1 := ⟨n - 1, by omega⟩
  rw [Nat.sub_zero, foldFrom_succ]
  simp only [e0, Res.ok_bind, ha.get 0 0 (by omega) (by omega), Ext.lit_zero, allclose_fin, h0, e1]
  have : exec l (Mat.setElement 0 0 (.nan : Ext K)) = .error (.err (.UtilsError .Nan)) := by
    refine exec_err (s' := l) ?_
    rw [Mat.setElement_eq hl.init (by rw [hl.rows_eq]; omega) (by rw [hl.cols_eq]; omega) (by simp),
      if_neg (fun h => by cases h.1)]
    rfl
  rw [this]; rfl

/-- Outcome of `lr` on sizes 1 and 2. -/
theorem lr_small (ha : MatIs a n n (fun i j => .fin (A i j))) (hn : n ≤ 2) :
    (A 0 0 = 0 ∧ a.lr = .error (.err (.UtilsError .Nan))) ∨
    (A 0 0 ≠ 0 ∧ ∃ l r, a.lr = .ok (l, r) ∧ ∃ L R : Nat → Nat → K,
      MatIs l n n (fun i j => .fin (L i j)) ∧ MatIs r n n (fun i j => .fin (R i j)) ∧
      (∀ i, i < n → L i i = 1) ∧ (∀ i j, i < j → j < n → L i j = 0) ∧
      (∀ i j, j < i → i < n → R i j = 0) ∧ toMatrix n n L * toMatrix n n R = toMatrix n n A) := by
  obtain ⟨l0, el0, hl0⟩ := Mat.identity_fin (K := K) (Mat.zeros_of ha)
  have hr0 : MatIs (Mat.zeros n n : Mat (Ext K)) n n (fun _ _ => .fin 0) :=
    (Mat.zeros_of ha).congr fun _ _ _ _ => by simp
  obtain ⟨r1, er1, hr1⟩ := lr_first_row ha hr0
  by_cases h0 : A 0 0 = 0
  · left
    refine ⟨h0, ?_⟩
    unfold Mat.lr
    simp only [Mat.isSquare_eq ha, Res.ok_bind, decide_true, Bool.not_true, Bool.false_eq_true, if_false,
      ha.rows_eq, Mat.init_of ha, el0, er1, lr_first_col_zero ha hl0 hr1 h0]
    rfl
  · right
    refine ⟨h0, ?_⟩
    obtain ⟨l1, el1, hl1⟩ := lr_first_col ha hl0 hr1 h0
    unfold Mat.lr
    simp only [Mat.isSquare_eq ha, Res.ok_bind, decide_true, Bool.not_true, Bool.false_eq_true, if_false,
      ha.rows_eq, Mat.init_of ha, el0, er1, el1]
    have hpos := ha.rpos
    have hn12 : n = 1 ∨ n = 2 := by omega
    rcases hn12 with rfl | rfl
    · obtain ⟨r2, er2, hr2⟩ := hr1.exec_put (A 0 0) (show 0 < 1 by omega) (show 0 < 1 by omega)
      have e2 := hr2.get 0 0 (by omega) (by omega)
      simp only [and_self, if_true] at e2
      simp only [foldRange, Nat.sub_zero, Nat.sub_self, foldFrom_succ, foldFrom_zero, Res.ok_bind,
        ha.get 0 0 (by omega) (by omega), Ext.lit_zero, Ext.sub_fin, sub_zero, er2, e2, allclose_fin,
        Nat.zero_add]
      refine ⟨_, _, rfl, _, _, hl1, hr2, ?_, ?_, ?_, ?_⟩
      · intro i hi; obtain rfl : i = 0 := by omega
        simp [h0]
      · intro i j _ _; omega
      · intro i j _ _; omega
      · rw [toMatrix_mul, toMatrix_inj]
        intro i j hi hj
        obtain rfl : i = 0 := by omega
        obtain rfl : j = 0 := by omega
        simp [h0]
    · obtain ⟨r2, er2, hr2⟩ := hr1.exec_put (A 0 0) (show 0 < 2 by omega) (show 0 < 2 by omega)
      obtain ⟨r3, er3, hr3⟩ := hr2.exec_put (A 0 1) (show 0 < 2 by omega) (show 1 < 2 by omega)
      have e3 := hr3.get 0 0 (by omega) (by omega)
      have e3' := hr3.get 0 1 (by omega) (by omega)
      simp only [and_self, if_true, Nat.zero_ne_one, and_false, if_false, Nat.one_ne_zero] at e3 e3'
      obtain ⟨l2, el2, hl2⟩ := hl1.exec_put (A 1 0 / A 0 0) (show 1 < 2 by omega) (show 0 < 2 by omega)
      have e4 := hl2.get 1 0 (by omega) (by omega)
      simp only [and_self, if_true, Nat.zero_ne_one, and_false, if_false, Nat.one_ne_zero] at e4
      obtain ⟨r4, er4, hr4⟩ := hr3.exec_put (A 1 1 - A 1 0 / A 0 0 * A 0 1) (show 1 < 2 by omega)
        (show 1 < 2 by omega)
      have e5 := hr4.get 1 1 (by omega) (by omega)
      simp only [and_self, if_true, Nat.zero_ne_one, and_false, if_false, Nat.one_ne_zero] at e5
      simp only [foldRange, Nat.sub_zero, Nat.sub_self, foldFrom_succ, foldFrom_zero, Res.ok_bind,
        ha.get 0 0 (by omega) (by omega), ha.get 0 1 (by omega) (by omega),
        ha.get 1 0 (by omega) (by omega), ha.get 1 1 (by omega) (by omega), Ext.lit_zero, Ext.sub_fin,
        sub_zero, er2, er3, e3, e3', allclose_fin, Nat.zero_add, Nat.reduceSub, Nat.reduceAdd, 
        Ext.div_fin _ h0, el2, e4, Ext.mul_fin, Ext.add_fin, zero_add, er4, e5]
      refine ⟨_, _, rfl, _, _, hl2, hr4, ?_, ?_, ?_, ?_⟩
      · intro i hi
        have : i = 0 ∨ i = 1 := by omega
        rcases this with rfl | rfl <;> simp [h0]
      · intro i j _ _
        obtain rfl : i = 0 := by omega
        obtain rfl : j = 1 := by omega
        simp
      · intro i j _ _
        obtain rfl : i = 1 := by omega
        obtain rfl : j = 0 := by omega
        simp
      · rw [toMatrix_mul, toMatrix_inj]
        intro i j hi hj
        have h1 : i = 0 ∨ i = 1 := by omega
        have h2 : j = 0 ∨ j = 1 := by omega
        rcases h1 with rfl | rfl <;> rcases h2 with rfl | rfl <;>
          simp [h0, Finset.sum_range_succ]

/-- C26: for sizes 1 and 2, when the element (0,0) is not zero, `lr` returns a unit lower triangular
`L` and an upper triangular `R` with `L * R = A`. -/
theorem C26_lr (ha : MatIs a n n (fun i j => .fin (A i j))) (hn : n ≤ 2) (h0 : A 0 0 ≠ 0) :
    ∃ l r, a.lr = .ok (l, r) ∧ ∃ L R : Nat → Nat → K,
      MatIs l n n (fun i j => .fin (L i j)) ∧ MatIs r n n (fun i j => .fin (R i j)) ∧
      (∀ i, i < n → L i i = 1) ∧ (∀ i j, i < j → j < n → L i j = 0) ∧
      (∀ i j, j < i → i < n → R i j = 0) ∧ toMatrix n n L * toMatrix n n R = toMatrix n n A := by
  rcases lr_small ha hn with ⟨h, _⟩ | ⟨_, h⟩
  · exact absurd h h0
  · exact h

/-- C26: when the element (0,0) is zero `lr` fails. -/
theorem C26_lr_zero (ha : MatIs a n n (fun i j => .fin (A i j))) (h0 : A 0 0 = 0) :
    a.lr = .error (.err (.UtilsError .Nan)) := by
  obtain ⟨l0, el0, hl0⟩ := Mat.identity_fin (K := K) (Mat.zeros_of ha)
  have hr0 : MatIs (Mat.zeros n n : Mat (Ext K)) n n (fun _ _ => .fin 0) :=
    (Mat.zeros_of ha).congr fun _ _ _ _ => by simp
  obtain ⟨r1, er1, hr1⟩ := lr_first_row ha hr0
  unfold Mat.lr
  simp only [Mat.isSquare_eq ha, Res.ok_bind, decide_true, Bool.not_true, Bool.false_eq_true, if_false,
    ha.rows_eq, Mat.init_of ha, el0, er1, lr_first_col_zero ha hl0 hr1 h0]
  rfl

/-- C26: a matrix that is not square is rejected, in every arithmetic. -/
theorem C26_not_square {F : Type} [Scalar F] {a : Mat F} {r c : Nat} {f : Nat → Nat → F}
    (ha : MatIs a r c f) (h : r ≠ c) : a.lr = .error (.err .NotSquare) := by
  unfold Mat.lr
  simp [Mat.isSquare_eq ha, h, fail]

/-- Element (i, j) of the product of the two factors returned by a factorisation, for evaluating
concrete runs. -/
def factorsAt {F : Type} [Scalar F] (x : Res LinalgError (Mat F × Mat F)) (i j : Nat) :
    Res LinalgError F := do
  let (l, r) ← x
  let m ← l.mulNew r
  m.getElement i j

/-- A regular matrix of size 3 with leading minors 1, 1, 1. -/
def exLr : Mat XQ := Mat.of 3 3 fun i j => .fin (tbl [[1, 1, 1], [1, 2, 3], [1, 3, 6]] i j)

/-- C26: from size 3 on the product of the factors differs from the matrix: here element (1,2) of
`L * R` is 2, while element (1,2) of the matrix is 3. -/
theorem C26_wrong_from_3 :
    ∃ (a : Mat XQ) (A : Nat → Nat → ℚ), MatIs a 3 3 (fun i j => .fin (A i j)) ∧
      (toMatrix 3 3 A).det = 1 ∧ a.getElement 1 2 = .ok (.fin 3) ∧
      factorsAt a.lr 1 2 = .ok (.fin 2) := by
  refine ⟨exLr, tbl [[1, 1, 1], [1, 2, 3], [1, 3, 6]],
    Mat.of_is _ (by decide) (by decide) (by decide) (by decide), ?_, by decide +kernel,
    by decide +kernel⟩
  rw [Matrix.det_fin_three]
  decide +kernel

example : factorsAt (Mat.of 2 2 fun i j => (.fin (tbl [[2, 1], [4, 5]] i j) : XQ)).lr 1 1 =
    .ok (.fin 5) := by decide +kernel
example : ∃ l r, (Mat.of 2 2 fun i j => (.fin (tbl [[2, 1], [4, 5]] i j) : XQ)).lr = .ok (l, r) ∧
    ∃ L R : Nat → Nat → ℚ,
      MatIs l 2 2 (fun i j => .fin (L i j)) ∧ MatIs r 2 2 (fun i j => .fin (R i j)) ∧
      (∀ i, i < 2 → L i i = 1) ∧ (∀ i j, i < j → j < 2 → L i j = 0) ∧
      (∀ i j, j < i → i < 2 → R i j = 0) ∧
      toMatrix 2 2 L * toMatrix 2 2 R = toMatrix 2 2 (tbl [[2, 1], [4, 5]]) :=
  C26_lr (Mat.of_is _ (by decide) (by decide) (by decide) (by decide)) (by decide) (by decide +kernel)

/-! ### `lu_crout` -/

/-- The first row of `U`: nothing is subtracted. -/
theorem crout_first_row (ha : MatIs a n n (fun i j => .fin (A i j))) {l u : Mat (Ext K)}
    (hl : MatIs l n n (fun i j => .fin (if i = j then 1 else 0)))
    (hu : MatIs u n n (fun _ _ => .fin 0)) :
    ∃ u', foldRange 0 n (fun col (st : Mat (Ext K) × Ext K) => do
          let (u, sum) := st
          let sum ← foldRange 0 col
            (fun k (sum : Ext K) => do
              .ok (sum +ᶠ ((← l.getElement 0 k) *ᶠ (← u.getElement k col)))) sum
          let element := (← a.getElement 0 col) -ᶠ sum
          let u ← exec u (Mat.setElement 0 col element)
          .ok (u, sum)) (u, lit 0) = .ok (u', .fin 0) ∧
      MatIs u' n n (fun i j => .fin (if i = 0 then A 0 j else 0)) := by
  have hn := ha.rpos
  obtain ⟨⟨u', s'⟩, h1, h2, h3⟩ := foldRange_inv (ε := LinalgError)
    (fun col (st : Mat (Ext K) × Ext K) => do
          let (u, sum) := st
          let sum ← foldRange 0 col
            (fun k (sum : Ext K) => do
              .ok (sum +ᶠ ((← l.getElement 0 k) *ᶠ (← u.getElement k col)))) sum
          let element := (← a.getElement 0 col) -ᶠ sum
          let u ← exec u (Mat.setElement 0 col element)
          .ok (u, sum))
    (fun k (st : Mat (Ext K) × Ext K) =>
      MatIs st.1 n n (fun i j => .fin (if i = 0 ∧ j < k then A 0 j else 0)) ∧ st.2 = .fin 0)
    0 n (Nat.zero_le _) (u, lit 0) ⟨hu.congr fun i j _ _ => by simp, by simp⟩
    (fun col st _ hk hI => by
      obtain ⟨u, sum⟩ := st
      obtain ⟨hI, hs⟩ := hI
      dsimp only at hI hs
      subst hs
      have hsum : foldRange 0 col (fun k (sum : Ext K) => do
          .ok (sum +ᶠ ((← l.getElement 0 k) *ᶠ (← u.getElement k col)))) (.fin 0) =
          (.ok (.fin 0) : Res LinalgError (Ext K)) := by
        refine foldRange_ok _ (fun _ => (.fin 0 : Ext K)) 0 col (Nat.zero_le _) fun k _ hk' => ?_
        rw [hl.get 0 k (by omega) (by omega), Res.ok_bind, hI.get k col (by omega) hk, Res.ok_bind]
        simp
      simp only [hsum, Res.ok_bind, ha.get 0 col (by omega) hk, Ext.sub_fin, sub_zero]
      obtain ⟨u', h1, h2⟩ := hI.exec_put (A 0 col) (show 0 < n by omega) hk
      rw [h1, Res.ok_bind]
      refine ⟨_, rfl, h2.congr fun i j _ _ => ?_, rfl⟩
      by_cases hi : i = 0
      · by_cases hj : j = col
        · simp [hi, hj]
        · have : j < col + 1 ↔ j < col := by omega
          simp [hi, hj, this]
      · simp [hi])
  dsimp only at h2 h3
  subst h3
  exact ⟨u', h1, h2.congr fun i j _ hj => by simp [hj]⟩

/-- C27: `lu_crout` fails with `Singular` on every square matrix of size at least 2 whose (0,0)
element exceeds the tolerance, however regular the matrix is. -/
theorem C27_rejects (ha : MatIs a n n (fun i j => .fin (A i j))) (hn : 2 ≤ n)
    (h0 : epsilon K < |A 0 0|) : a.luCrout = .error (.err .Singular) := by
  obtain ⟨l0, el0, hl0⟩ := Mat.identity_fin (K := K) (Mat.zeros_of ha)
  have hu0 : MatIs (Mat.zeros n n : Mat (Ext K)) n n (fun _ _ => .fin 0) :=
    (Mat.zeros_of ha).congr fun _ _ _ _ => by simp
  obtain ⟨u1, eu1, hu1⟩ := crout_first_row ha hl0 hu0
  unfold Mat.luCrout
  simp only [Mat.isSquare_eq ha, Res.ok_bind, decide_true, Bool.not_true, Bool.false_eq_true, if_false,
    ha.rows_eq, Mat.init_of ha, el0]
  have hnm : ∃ m, n = m + 2 := ⟨n - 2, by omega⟩
  obtain ⟨m, rfl⟩ := hnm
  rw [show foldRange 0 (m + 2) = (foldFrom 0 (m + 2) :
    (Nat → (Mat (Ext K) × Mat (Ext K) × Ext K) → Res LinalgError _) → _) from rfl, foldFrom_succ]
  dsimp only
  rw [eu1]
  simp only [Res.ok_bind]
  rw [show foldRange (0 + 1) (m + 2) = (foldFrom (0 + 1) (m + 1) :
    (Nat → (Mat (Ext K) × Ext K) → Res LinalgError _) → _) from rfl, foldFrom_succ]
  have e1 : foldRange 0 (0 + 1) (fun k (sum : Ext K) => do
      .ok (sum +ᶠ ((← l0.getElement (0 + 1) k) *ᶠ (← u1.getElement k 0)))) (.fin 0) =
      (.ok (.fin 0) : Res LinalgError (Ext K)) := by
    simp only [foldRange, Nat.sub_zero, Nat.zero_add, foldFrom_succ, foldFrom_zero,
      hl0.get 1 0 (by omega) (by omega), hu1.get 0 0 (by omega) (by omega), Res.ok_bind]
    simp
  simp only [Ext.lit_zero, e1, Res.ok_bind, hu1.get 0 0 (by omega) (by omega), Ext.lit_zero, allclose_fin, if_true,
    sub_zero]
  rw [if_pos (by simpa using h0)]
  rfl

/-- C27: a matrix that is not square is rejected, in every arithmetic. -/
theorem C27_not_square {F : Type} [Scalar F] {a : Mat F} {r c : Nat} {f : Nat → Nat → F}
    (ha : MatIs a r c f) (h : r ≠ c) : a.luCrout = .error (.err .NotSquare) := by
  unfold Mat.luCrout
  simp [Mat.isSquare_eq ha, h, fail]

/-- The identity matrix is rejected as singular. -/
example : (Mat.of 2 2 fun i j => (.fin (tbl [[1, 0], [0, 1]] i j) : XQ)).luCrout =
    .error (.err .Singular) :=
  C27_rejects (A := tbl [[1, 0], [0, 1]])
    (Mat.of_is _ (by decide) (by decide) (by decide) (by decide)) (by decide) (by decide +kernel)

end Verif
