import Mathlib.LinearAlgebra.Matrix.Block
import Mathlib.GroupTheory.Perm.Fin
import Verif.Lib.Lup

/-
C22 (LUP factorisation), C23 (linear solve), C24 (inversion), C25 (determinant), in exact arithmetic
over an arbitrary ordered field.
-/

set_option linter.unusedSectionVars false
set_option linter.unusedSimpArgs false

namespace Verif
open Scalar Finset

variable {K : Type} [Field K] [LinearOrder K] [IsStrictOrderedRing K] [Elementary K]
variable {n : Nat} {a : Mat (Ext K)} {A : Nat → Nat → K}

/-- The unit lower triangular factor packed in `w`. -/
def unitLower (w : Matrix (Fin n) (Fin n) K) : Matrix (Fin n) (Fin n) K :=
  fun i j => if j < i then w i j else if j = i then 1 else 0

/-- The upper triangular factor packed in `w`. -/
def upper (w : Matrix (Fin n) (Fin n) K) : Matrix (Fin n) (Fin n) K :=
  fun i j => if j < i then 0 else w i j

/-- `PermOn` as a permutation. -/
noncomputable def PermOn.toPerm {π : Nat → Nat} (h : PermOn n π) : Equiv.Perm (Fin n) :=
  Equiv.ofBijective (fun i => ⟨π i, h.lt i i.2⟩)
    (Finite.injective_iff_bijective.mp fun i j e =>
      Fin.ext (h.inj i j i.2 j.2 (by simpa using congrArg Fin.val e)))

theorem PermOn.toPerm_val {π : Nat → Nat} (h : PermOn n π) (i : Fin n) :
    ((h.toPerm i : Fin n) : Nat) = π i := rfl

/-! ### C22 -/

/-- The factorisation as an equation between matrices. -/
theorem lup_matrix {st : Mat (Ext K) × Vec Nat} {π : Nat → Nat} {u : Nat → Nat → K}
    (h : Linalg.LupInv n A (n - 1) st π u) :
    (toMatrix n n A).submatrix h.perm.toPerm id =
      unitLower (toMatrix n n fun i j => u (π i) j) * upper (toMatrix n n fun i j => u (π i) j) := by
  ext i j
  rw [Matrix.mul_apply]
  simp only [Matrix.submatrix_apply, id, toMatrix, PermOn.toPerm_val, unitLower, upper]
  have hi := i.2
  have hj := j.2
  rw [h.prod i j hi hj]
  have hm : min i.val (n - 1) = i.val := by omega
  rw [hm]
  rw [show (∑ x : Fin n, (if x < i then u (π i) x else if x = i then 1 else 0) *
      (if j < x then 0 else u (π x) j)) =
      ∑ x : Fin n, (fun k : Nat => (if k < i.val then u (π i) k else if k = i.val then 1 else 0) *
      (if j.val < k then 0 else u (π k) j)) x from by
    refine Finset.sum_congr rfl fun x _ => ?_
    simp only [Fin.lt_def, Fin.ext_iff]]
  rw [← Finset.sum_range (fun k : Nat => (if k < i.val then u (π i) k else if k = i.val then 1 else 0) *
      (if j.val < k then 0 else u (π k) j))]
  have hsplit := Finset.sum_range_add_sum_Ico
    (fun k : Nat => (if k < i.val then u (π i) k else if k = i.val then 1 else 0) *
      (if j.val < k then 0 else u (π k) j)) (show i.val ≤ n by omega)
  rw [← hsplit, Finset.sum_eq_sum_Ico_succ_bot hi]
  have hz : ∑ k ∈ Ico (i.val + 1) n, (if k < i.val then u (π i) k else if k = i.val then 1 else 0) *
      (if j.val < k then 0 else u (π k) j) = 0 := by
    refine Finset.sum_eq_zero fun k hk => ?_
    have := Finset.mem_Ico.mp hk
    have h1 : ¬ k < i.val := by omega
    have h2 : k ≠ i.val := by omega
    simp [h1, h2]
  rw [hz, add_zero]
  congr 1
  · refine Finset.sum_congr rfl fun k hk => ?_
    simp [Finset.mem_range.mp hk]
  · simp

/-- C22: on a square matrix `lup` either reports `Singular` or returns a permutation `σ` and packed
factors `w` with `A (σ i) j = (L U) i j`; the checked pivots are at least `EPSILON` in magnitude. -/
theorem C22_lup (ha : MatIs a n n (fun i j => .fin (A i j))) :
    Linalg.lup a = .error (.err .Singular) ∨
    ∃ lu p, Linalg.lup a = .ok (lu, p) ∧
      ∃ (σ : Equiv.Perm (Fin n)) (w : Matrix (Fin n) (Fin n) K),
        p.getRows = .ok n ∧ lu.getRows = .ok n ∧ lu.getCols = .ok n ∧
        (∀ i : Fin n, p.getElementU8 i = .ok (σ i)) ∧
        (∀ i j : Fin n, lu.getElement (σ i) j = .ok (.fin (w i j))) ∧
        (toMatrix n n A).submatrix σ id = unitLower w * upper w ∧
        (∀ k : Fin n, k + 1 < n → epsilon K ≤ |w k k|) := by
  rcases Linalg.lup_ok ha with h | ⟨⟨lu, p⟩, h, π, u, hI⟩
  · exact Or.inl h
  · refine Or.inr ⟨lu, p, h, hI.perm.toPerm, toMatrix n n fun i j => u (π i) j, hI.p.rows,
      hI.lu.rows, hI.lu.cols, fun i => hI.p.get i i.2, fun i j => ?_, lup_matrix hI, fun k hk => ?_⟩
    · rw [PermOn.toPerm_val]
      exact hI.lu.get _ _ (hI.perm.lt i i.2) j.2
    · exact hI.pivots k (by omega)

section
variable {F : Type} [Scalar F]

theorem Mat.getElement_lt {m : Mat F} {i j : Nat} {x : F} (h : m.getElement i j = .ok x) :
    i < m.rows ∧ j < m.cols := by
  unfold Mat.getElement at h
  rcases Bool.dichotomy m.initialized with hi | hi
  · simp [hi, fail] at h
  · simp only [hi, Bool.not_true, Bool.false_eq_true, if_false] at h
    by_cases h1 : i < m.rows
    · by_cases h2 : j < m.cols
      · exact ⟨h1, h2⟩
      · rw [isValidRow_ok h1, Res.ok_bind] at h
        unfold isValidCol at h
        rw [if_pos (by omega)] at h
        cases h
    · unfold isValidRow at h
      rw [if_pos (by omega)] at h
      cases h

theorem Vec.getElementU8_lt {p : Vec Nat} {i x : Nat} (h : p.getElementU8 i = .ok x) :
    i < p.rows := by
  unfold Vec.getElementU8 at h
  rcases Bool.dichotomy p.initialized with hi | hi
  · simp [hi, fail] at h
  · simp only [hi, Bool.not_true, Bool.false_eq_true, if_false] at h
    by_cases h1 : i < p.rows
    · exact h1
    · unfold isValidRow at h
      rw [if_pos (by omega)] at h
      cases h

/-- C22: a matrix with at least two rows that is not square is never factorised, whatever the
arithmetic. -/
theorem C22_not_square {a : Mat F} {r c : Nat} {f : Nat → Nat → F} (ha : MatIs a r c f)
    (hr : 2 ≤ r) (hrc : r ≠ c) : ∃ e, Linalg.lup a = .error e := by
  rcases hres : Linalg.lup a with e | ⟨lu', p'⟩
  · exact ⟨e, rfl⟩
  exfalso
  unfold Linalg.lup at hres
  simp only [ha.rows, ha.cols, Res.ok_bind, Mat.init_of ha, u8Sub_ok ha.rpos] at hres
  obtain ⟨p0, e2, hp0⟩ := Vec.init_newU8 ha.rpos ha.rle
  obtain ⟨p1, e3, hp1⟩ := foldRange_inv (ε := LinalgError)
    (fun row (p : Vec Nat) => exec p (Vec.setElementU8 row row))
    (fun _ (p : Vec Nat) => ∃ π, U8Is p r π) 0 r (Nat.zero_le _) p0 ⟨_, hp0⟩
    (fun k p _ hk ⟨π, hI⟩ => by
      obtain ⟨p', h1, h2⟩ := hI.exec_set k hk
      exact ⟨p', h1, _, h2⟩)
  obtain ⟨π, hp1⟩ := hp1
  rcases hcopy : exec (Mat.zeros r c) (Mat.copyFrom a) with e | l
  · rw [hcopy] at hres; cases hres
  have hl := (Mat.exec_stores_inv (Mat.copyFrom_stores (Mat.zeros_of ha) ha) (Mat.zeros_of ha) hcopy).2
  simp only [hcopy, e2, e3, Res.ok_bind] at hres
  obtain ⟨r', rfl⟩ : ∃ r', r = r' + 2 := ⟨r - 2, by omega⟩
  rw [show r' + 2 - 1 = r' + 1 from rfl] at hres
  have hres' : foldFrom 0 (r' + 1) (Linalg.lupStep (r' + 2) c) (l, p1) = .ok (lu', p') := hres
  rw [foldFrom_succ] at hres'
  rcases hstep : Linalg.lupStep (r' + 2) c 0 (l, p1) with e | st
  · rw [hstep] at hres'; cases hres'
  unfold Linalg.lupStep at hstep
  dsimp only at hstep
  rcases hpv : Linalg.lupPivot l p1 0 c with e | q
  · rw [hpv] at hstep; cases hstep
  rcases Nat.lt_or_gt_of_ne hrc with hlt | hgt
  · -- more columns than rows: the pivot search runs past the pivot vector
    unfold Linalg.lupPivot at hpv
    have := foldRange_inv_ok _ (fun k (_ : Nat) => k ≤ r' + 2) (0 + 1) c (by omega) 0 q (by omega)
      (fun i b b' _ hi _ hb => by
        rcases hg : p1.getElementU8 i with e | x
        · rw [hg] at hb; cases hb
        · have := Vec.getElementU8_lt hg
          rw [hp1.rows_eq] at this
          omega) hpv
    omega
  · -- more rows than columns: the elimination runs past the last column
    rw [hpv, Res.ok_bind] at hstep
    rcases hsw : Linalg.lupSwap p1 0 q with e | p2
    · rw [hsw] at hstep; cases hstep
    rw [hsw, Res.ok_bind] at hstep
    rcases hg : p2.getElementU8 0 with e | x
    · rw [hg] at hstep; cases hstep
    rw [hg, Res.ok_bind] at hstep
    rcases hg2 : l.getElement x 0 with e | y
    · rw [hg2] at hstep; cases hstep
    rw [hg2, Res.ok_bind] at hstep
    split at hstep
    · cases hstep
    rcases hel : foldRange (0 + 1) (r' + 2) (Linalg.lupElimRow p2 (r' + 2) 0) l with e | l'
    · rw [hel] at hstep; cases hstep
    have hel' : foldFrom 1 (r' + 1) (Linalg.lupElimRow p2 (r' + 2) 0) l = .ok l' := hel
    rw [foldFrom_succ] at hel'
    rcases hrow : Linalg.lupElimRow p2 (r' + 2) 0 1 l with e | l1
    · rw [hrow] at hel'; cases hel'
    unfold Linalg.lupElimRow at hrow
    simp only [hg, Res.ok_bind] at hrow
    rcases hg3 : p2.getElementU8 1 with e | z
    · rw [hg3] at hrow; cases hrow
    simp only [hg3, hg2, Res.ok_bind] at hrow
    rcases hg4 : l.getElement z 0 with e | t
    · rw [hg4] at hrow; cases hrow
    have hz := (Mat.getElement_lt hg4).1
    rw [hl.rows_eq] at hz
    rw [hg4, Res.ok_bind] at hrow
    rcases hg5 : exec l (Mat.setElement z 0 (t /ᶠ y)) with e | l2
    · rw [hg5] at hrow; cases hrow
    rw [hg5, Res.ok_bind] at hrow
    have hl2 := (hl.exec_set_inv hz (by have := hl.cpos; omega) hg5).2
    have := foldRange_inv_ok _ (fun k (l : Mat F) => k ≤ c ∧ ∃ f, MatIs l (r' + 2) c f) (0 + 1)
      (r' + 2) (by omega) l2 l1 ⟨by have := hl.cpos; omega, _, hl2⟩
      (fun k b b' _ hk ⟨_, f', hI⟩ hb => by
        rcases hg6 : b.getElement z k with e | v
        · rw [hg6] at hb; cases hb
        have hkc := (Mat.getElement_lt hg6).2
        rw [hI.cols_eq] at hkc
        rw [hg6, Res.ok_bind] at hb
        rcases hg7 : b.getElement x k with e | v'
        · rw [hg7] at hb; cases hb
        rw [hg7, Res.ok_bind] at hb
        rcases hg8 : b.getElement z 0 with e | v''
        · rw [hg8] at hb; cases hb
        rw [hg8, Res.ok_bind] at hb
        exact ⟨hkc, _, (hI.exec_set_inv hz hkc hb).2⟩) hrow
    omega
end

/-! ### C23 -/

/-- C23: on packed factors `solve` succeeds exactly when every pivot exceeds `EPSILON` in
magnitude; the only other outcome is `Unsolvable`. -/
theorem C23_outcome {lu : Mat (Ext K)} {p : Vec Nat} {b : Vec (Ext K)} {π : Nat → Nat}
    {u : Nat → Nat → K} {B : Nat → K}
    (hl : MatIs lu n n (fun i j => .fin (u i j))) (hp : U8Is p n π) (hπ : ∀ i, i < n → π i < n)
    (hb : VecIs b n (fun i => .fin (B i))) :
    ((∃ k, k < n ∧ |u (π k) k| ≤ epsilon K) → Linalg.solve lu b p = .error (.err .Unsolvable)) ∧
    ((∀ k, k < n → epsilon K < |u (π k) k|) → ∃ x, Linalg.solve lu b p = .ok x) := by
  rcases Linalg.solve_ok hl hp hπ hb with ⟨k, h1, h2, h3⟩ | ⟨h1, x, h2, _⟩
  · exact ⟨fun _ => h3, fun h => absurd h2 (not_le.mpr (h k h1))⟩
  · exact ⟨fun ⟨k, hk, hk'⟩ => absurd hk' (not_le.mpr (h1 k hk)), fun _ => ⟨x, h2⟩⟩

/-- Both triangular systems together. -/
theorem solve_matrix {b : Vec (Ext K)} {B : Nat → K} {lu : Mat (Ext K)} {p : Vec Nat} {π : Nat → Nat}
    {u : Nat → Nat → K} (h : Linalg.LupInv n A (n - 1) (lu, p) π u)
    (hb : VecIs b n (fun i => .fin (B i))) {x : Vec (Ext K)} (hx : Linalg.solve lu b p = .ok x) :
    ∃ X : Nat → K, VecIs x n (fun i => .fin (X i)) ∧
      (toMatrix n n A).mulVec (fun i => X i) = fun i : Fin n => B i := by
  rcases Linalg.solve_ok h.lu h.p h.perm.lt hb with ⟨k, _, _, h3⟩ | ⟨_, x', h2, X, Y, hX, hY, hXY⟩
  · rw [h3] at hx; cases hx
  rw [h2] at hx; cases hx
  refine ⟨X, hX, ?_⟩
  set w := toMatrix n n fun i j => u (π i) j with hw
  have hu : (upper w).mulVec (fun i => X i) = fun i : Fin n => Y i := by
    funext i
    rw [← hXY i i.2]
    simp only [Matrix.mulVec, dotProduct]
    rw [show (∑ k : Fin n, upper w i k * X k) = ∑ k : Fin n,
      (fun k : Nat => (if k < i.val then 0 else u (π i) k) * X k) k from
      Finset.sum_congr rfl fun k _ => by simp only [upper, hw, toMatrix, Fin.lt_def],
      ← Finset.sum_range (fun k : Nat => (if k < i.val then 0 else u (π i) k) * X k),
      ← Finset.sum_range_add_sum_Ico _ (show i.val ≤ n by omega)]
    have : ∑ k ∈ range i.val, (if k < i.val then 0 else u (π i) k) * X k = 0 :=
      Finset.sum_eq_zero fun k hk => by simp [Finset.mem_range.mp hk]
    rw [this, zero_add]
    refine Finset.sum_congr rfl fun k hk => ?_
    have : ¬ k < i.val := by have := Finset.mem_Ico.mp hk; omega
    simp [this]
  have hlo : (unitLower w).mulVec (fun i => Y i) = fun i : Fin n => B (π i) := by
    funext i
    rw [← hY i i.2]
    simp only [Matrix.mulVec, dotProduct]
    rw [show (∑ k : Fin n, unitLower w i k * Y k) = ∑ k : Fin n,
      (fun k : Nat => (if k < i.val then u (π i) k else if k = i.val then 1 else 0) * Y k) k from
      Finset.sum_congr rfl fun k _ => by simp only [unitLower, hw, toMatrix, Fin.lt_def, Fin.ext_iff],
      ← Finset.sum_range
        (fun k : Nat => (if k < i.val then u (π i) k else if k = i.val then 1 else 0) * Y k),
      ← Finset.sum_range_add_sum_Ico _ (show i.val ≤ n by omega),
      Finset.sum_eq_sum_Ico_succ_bot i.2]
    have : ∑ k ∈ Ico (i.val + 1) n,
        (if k < i.val then u (π i) k else if k = i.val then 1 else 0) * Y k = 0 :=
      Finset.sum_eq_zero fun k hk => by
        have := Finset.mem_Ico.mp hk
        have h1 : ¬ k < i.val := by omega
        have h2 : k ≠ i.val := by omega
        simp [h1, h2]
    rw [this]
    simp only [lt_irrefl, if_false, if_true, one_mul, add_zero]
    rw [add_comm]
    congr 1
    exact Finset.sum_congr rfl fun k hk => by simp [Finset.mem_range.mp hk]
  have hperm : ((toMatrix n n A).submatrix h.perm.toPerm id).mulVec (fun i => X i) =
      fun i : Fin n => B (π i) := by
    rw [lup_matrix h, ← Matrix.mulVec_mulVec, hu, hlo]
  funext i
  have := congrFun hperm (h.perm.toPerm.symm i)
  simp only [Matrix.mulVec, dotProduct, Matrix.submatrix_apply, id, Equiv.apply_symm_apply] at this
  rw [← PermOn.toPerm_val h.perm, Equiv.apply_symm_apply] at this
  simpa [Matrix.mulVec, dotProduct] using this

/-- C23: a solution returned after a factorisation solves the original system. -/
theorem C23_solve (ha : MatIs a n n (fun i j => .fin (A i j))) {b : Vec (Ext K)} {B : Nat → K}
    (hb : VecIs b n (fun i => .fin (B i))) {lu : Mat (Ext K)} {p : Vec Nat} {x : Vec (Ext K)}
    (hlu : Linalg.lup a = .ok (lu, p)) (hx : Linalg.solve lu b p = .ok x) :
    ∃ X : Nat → K, VecIs x n (fun i => .fin (X i)) ∧
      (toMatrix n n A).mulVec (fun i => X i) = fun i : Fin n => B i := by
  rcases Linalg.lup_ok ha with h | ⟨⟨lu', p'⟩, h, π, u, hI⟩
  · rw [h] at hlu; cases hlu
  · rw [h] at hlu; cases hlu
    exact solve_matrix hI hb hx

/-! ### The determinant of the factors -/

theorem det_lup {st : Mat (Ext K) × Vec Nat} {π : Nat → Nat} {u : Nat → Nat → K}
    (h : Linalg.LupInv n A (n - 1) st π u) :
    ((Equiv.Perm.sign h.perm.toPerm : ℤ) : K) * (toMatrix n n A).det = ∏ i : Fin n, u (π i) i := by
  rw [← Matrix.det_permute, lup_matrix h, Matrix.det_mul,
    Matrix.det_of_isLowerTriangular, Matrix.det_of_isUpperTriangular]
  · simp [unitLower, upper, toMatrix]
  · intro i j hij
    have : j < i := hij
    simp [upper, this]
  · intro i j hij
    have : i < j := hij
    simp [unitLower, not_lt.mpr (le_of_lt this), ne_of_gt this]

/-- C23: a system with a singular matrix is never "solved". -/
theorem C23_singular (ha : MatIs a n n (fun i j => .fin (A i j))) (hdet : (toMatrix n n A).det = 0)
    {b : Vec (Ext K)} {B : Nat → K} (hb : VecIs b n (fun i => .fin (B i))) {lu : Mat (Ext K)}
    {p : Vec Nat} (hlu : Linalg.lup a = .ok (lu, p)) :
    Linalg.solve lu b p = .error (.err .Unsolvable) := by
  rcases Linalg.lup_ok ha with h | ⟨⟨lu', p'⟩, h, π, u, hI⟩
  · rw [h] at hlu; cases hlu
  rw [h] at hlu; cases hlu
  refine (C23_outcome hI.lu hI.p hI.perm.lt hb).1 ?_
  have := det_lup hI
  rw [hdet, mul_zero] at this
  obtain ⟨i, _, hi⟩ := Finset.prod_eq_zero_iff.mp this.symm
  exact ⟨i, i.2, by rw [hi, abs_zero]; exact le_of_lt Linalg.eps_pos⟩

/-! ### C24 -/

/-- The loop of `invert` when every pivot exceeds the threshold. -/
theorem invertLoop_ok {lu : Mat (Ext K)} {p : Vec Nat} {π : Nat → Nat}
    {u : Nat → Nat → K} (h : Linalg.LupInv n A (n - 1) (lu, p) π u)
    (hpv : ∀ k, k < n → epsilon K < |u (π k) k|) (len : Nat) :
    ∀ (row : Nat) (t : Vec (Ext K)) (s : Mat (Ext K)) (V : Nat → Nat → K), row + len = n →
      VecIs t n (fun _ => .fin 0) → MatIs s n n (fun i j => .fin (V i j)) →
      ∃ s', Mat.invertLoop lu p row len t s = (.ok (), s') ∧
        ∃ V' : Nat → Nat → K, MatIs s' n n (fun i j => .fin (V' i j)) ∧
          (∀ i, i < row → ∀ j, V' i j = V i j) ∧
          (∀ i, row ≤ i → i < n → (toMatrix n n A).mulVec (fun j => V' i j) =
            fun j : Fin n => if j.val = i then 1 else 0) := by
  induction len with
  | zero =>
    intro row t s V hrow _ hs
    exact ⟨s, rfl, V, hs, fun _ _ _ => rfl, fun i h1 h2 => by omega⟩
  | succ len ih =>
    intro row t s V hrow ht hs
    have hr : row < n := by omega
    obtain ⟨t1, e1, ht1⟩ := ht.exec_set hr (Ext.finite_fin (1 : K))
    have ht1' : VecIs t1 n (fun i => .fin ((fun i : Nat => if i = row then (1 : K) else 0) i)) :=
      ht1.congr fun i _ => by by_cases h : i = row <;> simp [h]
    obtain ⟨x, e2⟩ := (C23_outcome h.lu h.p h.perm.lt ht1').2 hpv
    obtain ⟨X, hX, hAX⟩ := solve_matrix h ht1' e2
    obtain ⟨t2, e3, ht2⟩ := ht1'.exec_set hr (Ext.finite_fin (0 : K))
    obtain ⟨s1, e4, hs1⟩ := forRange_inv (ε := LinalgError)
      (fun col => do Mat.setElement row col (← (x.getElement col : Res LinalgError (Ext K))))
      (fun k (m : Mat (Ext K)) => MatIs m n n (fun i j => .fin (if i = row ∧ j < k then X j else V i j)))
      0 n (Nat.zero_le _) s (hs.congr fun i j _ _ => by simp)
      (fun k m _ hk hm => by
        refine ⟨_, by rw [hX.get k hk, Op.liftOk_bind]; exact hm.set_ok hr hk (Ext.finite_fin _), ?_⟩
        refine (hm.put row k hk (.fin (X k))).congr fun i j _ _ => ?_
        by_cases hi : i = row
        · by_cases hj : j = k
          · simp [hi, hj]
          · have : j < k + 1 ↔ j < k := by omega
            simp [hi, hj, this]
        · simp [hi])
    obtain ⟨s2, e5, V', hs2, hlow, hhigh⟩ := ih (row + 1) t2 s1 _ (by omega)
      (ht2.congr fun i _ => by by_cases h : i = row <;> simp [h]) hs1
    refine ⟨s2, ?_, V', hs2, ?_, ?_⟩
    · unfold Mat.invertLoop
      rw [Ext.lit_one, Ext.lit_zero, e1, Op.liftOk_bind]
      unfold Mat.orElseErr
      rw [e2, Res.mapErr_ok, Op.liftOk_bind, Op.get_bind, hs.cols_eq, Op.bind_ok e4, e3, Op.liftOk_bind]
      exact e5
    · intro i hi j
      rw [hlow i (by omega)]
      have : i ≠ row := by omega
      simp [this]
    · intro i hi hin
      by_cases hir : i = row
      · subst hir
        have : (fun j : Fin n => V' i j) = fun j : Fin n => X j := by
          funext j
          rw [hlow i (Nat.lt_succ_self _)]
          simp
        rw [this, hAX]
      · exact hhigh i (by omega) hin

/-- C24: `invert` on a square matrix either replaces it by its two-sided inverse, or fails with
`NotInversible` and leaves it as it was. -/
theorem C24_invert (ha : MatIs a n n (fun i j => .fin (A i j))) :
    Mat.invert a = (.error (.err .NotInversible), a) ∨
    ∃ a', Mat.invert a = (.ok (), a') ∧ ∃ V : Nat → Nat → K, MatIs a' n n (fun i j => .fin (V i j)) ∧
      toMatrix n n A * toMatrix n n V = 1 ∧ toMatrix n n V * toMatrix n n A = 1 := by
  unfold Mat.invert
  simp only [Op.get_bind, Mat.isSquare_eq ha, Op.liftOk_bind, decide_true, Bool.not_true,
    Bool.false_eq_true, if_false, ha.rows_eq, Vec.init_new ha.rpos ha.rle]
  rcases Linalg.lup_ok ha with h | ⟨⟨lu, p⟩, h, π, u, hI⟩
  · left
    unfold Mat.orElseErr
    rw [h]
    rfl
  unfold Mat.orElseErr
  rw [h, Res.mapErr_ok, Op.liftOk_bind]
  dsimp only
  have hz : VecIs (Vec.zeros n) n (fun _ => (.fin 0 : Ext K)) :=
    (Vec.zeros_is ha.rpos ha.rle).congr fun _ _ => by simp
  by_cases hpv : ∀ k, k < n → epsilon K < |u (π k) k|
  · right
    obtain ⟨s1, e1, V, hs1, _, hV⟩ := invertLoop_ok hI hpv n 0 (Vec.zeros n) a A (by omega) hz ha
    obtain ⟨s2, e2, hs2⟩ := Mat.transpose_ok hs1 (fun i j _ _ => Ext.finite_fin _)
    refine ⟨s2, by rw [Op.bind_ok e1, e2], _, hs2, ?_⟩
    have hr : toMatrix n n A * toMatrix n n (fun i j => V j i) = 1 := by
      ext i j
      have := congrFun (hV j (Nat.zero_le _) j.2) i
      rw [Matrix.mul_apply, Matrix.one_apply]
      simp only [Matrix.mulVec, dotProduct] at this
      simp only [Fin.ext_iff]
      exact this
    exact ⟨hr, mul_eq_one_comm.mp hr⟩
  · left
    push Not at hpv
    obtain ⟨k, hk, hk'⟩ := hpv
    obtain ⟨n', rfl⟩ : ∃ n', n = n' + 1 := ⟨n - 1, by have := ha.rpos; omega⟩
    obtain ⟨t1, e1, ht1⟩ := hz.exec_set (Nat.zero_lt_succ n') (Ext.finite_fin (1 : K))
    have ht1' : VecIs t1 (n' + 1) (fun i => .fin ((fun i : Nat => if i = 0 then (1 : K) else 0) i)) :=
      ht1.congr fun i _ => by by_cases h : i = 0 <;> simp [h]
    have e2 := (C23_outcome hI.lu hI.p hI.perm.lt ht1').1 ⟨k, hk, hk'⟩
    refine Op.bind_err ?_ _
    unfold Mat.invertLoop
    rw [Ext.lit_one, e1, Op.liftOk_bind]
    unfold Mat.orElseErr
    rw [e2]
    rfl

/-- C24: a matrix that is not square, or not initialised, is rejected unchanged. -/
theorem C24_fail {F : Type} [Scalar F] {a : Mat F} :
    (∀ r c f, MatIs a r c f → r ≠ c → Mat.invert a = (.error (.err .NotSquare), a)) ∧
    (a.isInitialized = false → Mat.invert a = (.error (.err .NotInit), a)) := by
  constructor
  · intro r c f ha hrc
    unfold Mat.invert
    simp [Mat.isSquare_eq ha, hrc]
  · intro hi
    have hi : a.initialized = false := hi
    unfold Mat.invert Mat.isSquare
    simp [hi, fail]

/-! ### C25 -/

/-- The value computed by `det` from the factors: the product of the pivots, negated when the number
of displaced rows is even and not zero. -/
theorem det_eq {lu : Mat (Ext K)} {p : Vec Nat} {π : Nat → Nat} {u : Nat → Nat → K}
    (ha : MatIs a n n (fun i j => .fin (A i j))) (h : Linalg.lup a = .ok (lu, p))
    (hI : Linalg.LupInv n A (n - 1) (lu, p) π u) :
    a.det = .ok (.fin (
      (if #{i : Fin n | hI.perm.toPerm i ≠ i} ≠ 0 ∧ (#{i : Fin n | hI.perm.toPerm i ≠ i} - 1) % 2 = 1
        then -1 else 1) * ∏ i : Fin n, u (π i) i)) := by
  unfold Mat.det
  simp only [Mat.isSquare_eq ha, Res.ok_bind, decide_true, Bool.not_true, Bool.false_eq_true, if_false,
    h, ha.rows_eq]
  have h1 := foldRange_ok (ε := LinalgError)
    (fun row (d : Ext K) => do
      .ok (d *ᶠ (← lu.getElement (← p.getElementU8 row) row)))
    (fun k => .fin (∏ i ∈ range k, u (π i) i)) 0 n (Nat.zero_le _)
    (fun i _ hi => by
      simp only [hI.p.get i hi, hI.lu.get _ _ (hI.perm.lt i hi) hi, Res.ok_bind, Ext.mul_fin,
        Finset.prod_range_succ])
  have h2 := foldRange_ok (ε := LinalgError)
    (fun row (col : Nat) => do
      if (← p.getElementU8 row) ≠ row then .ok (col + 1) else .ok col)
    (fun k => #{i ∈ range k | π i ≠ i}) 0 n (Nat.zero_le _)
    (fun i _ hi => by
      simp only [hI.p.get i hi, Res.ok_bind, Finset.range_add_one, Finset.filter_insert]
      by_cases hp : π i = i
      · simp [hp]
      · simp [hp])
  simp only [Finset.range_zero, Finset.prod_empty, Finset.filter_empty, Finset.card_empty] at h1 h2
  rw [Ext.lit_one, h1, Res.ok_bind, h2, Res.ok_bind]
  have hc : #{i ∈ range n | π i ≠ i} = #{i : Fin n | hI.perm.toPerm i ≠ i} := by
    rw [Finset.card_filter, Finset.card_filter, Finset.sum_range]
    refine Finset.sum_congr rfl fun i _ => ?_
    have : (hI.perm.toPerm i ≠ i) ↔ (π i.val ≠ i.val) := by
      rw [ne_eq, Fin.ext_iff, PermOn.toPerm_val]
    simp only [this]
  rw [hc, Finset.prod_range]
  split
  · simp
  · simp

/-- `σ` exchanges two disjoint pairs of rows. -/
def DoubleSwap (σ : Equiv.Perm (Fin n)) : Prop := n = 4 ∧ σ * σ = 1 ∧ ∀ i, σ i ≠ i

instance (σ : Equiv.Perm (Fin n)) : Decidable (DoubleSwap σ) := by
  unfold DoubleSwap; infer_instance

theorem sign_rule (h4 : n ≤ 4) (σ : Equiv.Perm (Fin n)) :
    (if #{i : Fin n | σ i ≠ i} ≠ 0 ∧ (#{i : Fin n | σ i ≠ i} - 1) % 2 = 1 then -1 else 1 : ℤ) =
      (if DoubleSwap σ then -1 else 1) * (Equiv.Perm.sign σ : ℤ) := by
  have h : n = 0 ∨ n = 1 ∨ n = 2 ∨ n = 3 ∨ n = 4 := by omega
  rcases h with rfl | rfl | rfl | rfl | rfl <;> revert σ <;> decide +kernel

/-- C25: when `det` succeeds its value is the determinant, except that the sign is wrong exactly
when the pivot order `σ` returned by `lup` exchanges two disjoint pairs of the four rows. -/
theorem C25_det (ha : MatIs a n n (fun i j => .fin (A i j))) :
    (a.det = .error (.err .Singular) ∧ Linalg.lup a = .error (.err .Singular)) ∨
    ∃ lu p, Linalg.lup a = .ok (lu, p) ∧ ∃ σ : Equiv.Perm (Fin n),
      (∀ i : Fin n, p.getElementU8 i = .ok (σ i)) ∧
      a.det = .ok (.fin (if DoubleSwap σ then -(toMatrix n n A).det else (toMatrix n n A).det)) := by
  rcases Linalg.lup_ok ha with h | ⟨⟨lu, p⟩, h, π, u, hI⟩
  · left
    refine ⟨?_, h⟩
    unfold Mat.det
    simp only [Mat.isSquare_eq ha, Res.ok_bind, decide_true, Bool.not_true, Bool.false_eq_true, if_false,
      h]
    rfl
  right
  refine ⟨lu, p, h, hI.perm.toPerm, fun i => hI.p.get i i.2, ?_⟩
  rw [det_eq ha h hI, ← det_lup hI]
  have hs := sign_rule ha.rle hI.perm.toPerm
  have hs' := congrArg (fun z : ℤ => (z : K)) hs
  simp only [Int.cast_mul, apply_ite (fun z : ℤ => (z : K)), Int.cast_neg, Int.cast_one] at hs'
  rw [hs', ← mul_assoc]
  have hsq : ((Equiv.Perm.sign hI.perm.toPerm : ℤ) : K) * ((Equiv.Perm.sign hI.perm.toPerm : ℤ) : K)
      = 1 := by
    rcases Int.units_eq_one_or (Equiv.Perm.sign hI.perm.toPerm) with h | h <;> rw [h] <;> simp
  rw [mul_assoc (ite _ _ _), hsq, mul_one]
  congr 2
  split <;> simp

/-- C25: up to size 3 the value is the determinant. -/
theorem C25_det_small (ha : MatIs a n n (fun i j => .fin (A i j))) (h3 : n ≤ 3) :
    a.det = .error (.err .Singular) ∨ a.det = .ok (.fin (toMatrix n n A).det) := by
  rcases C25_det ha with ⟨h, _⟩ | ⟨lu, p, _, σ, _, h⟩
  · exact Or.inl h
  · right
    rw [h, if_neg]
    rintro ⟨h, _⟩
    omega

/-- C25: at every size the absolute value is right. -/
theorem C25_det_abs (ha : MatIs a n n (fun i j => .fin (A i j))) :
    a.det = .error (.err .Singular) ∨ ∃ d, a.det = .ok (.fin d) ∧ |d| = |(toMatrix n n A).det| := by
  rcases C25_det ha with ⟨h, _⟩ | ⟨lu, p, _, σ, _, h⟩
  · exact Or.inl h
  · right
    refine ⟨_, h, ?_⟩
    split
    · rw [abs_neg]
    · rfl

/-! ### Cases -/

/-- A regular matrix that needs row exchanges. -/
def exA : Mat XQ := Mat.of 3 3 fun i j => .fin (tbl [[0, 2, 1], [1, 1, 0], [2, 0, 3]] i j)

theorem exA_is : MatIs exA 3 3 (fun i j => .fin (tbl [[0, 2, 1], [1, 1, 0], [2, 0, 3]] i j)) :=
  Mat.of_is _ (by omega) (by omega) (by omega) (by omega)

/-- The factorisation succeeds, with pivot order (2, 0, 1). -/
example : (Linalg.lup exA >>= fun st => st.2.getElementU8 0) = .ok 2 ∧
    (Linalg.lup exA >>= fun st => st.2.getElementU8 1) = .ok 0 ∧
    (Linalg.lup exA >>= fun st => st.1.getElement 1 2) = .ok (.fin (-2)) := by decide +kernel

example : (do
    let (lu, p) ← Linalg.lup exA
    let x ← Linalg.solve lu (Vec.of 3 fun i => .fin (i + 1 : Nat)) p
    x.getElement 0) = .ok (.fin (3 / 2)) := by decide +kernel

example : (Mat.invert exA).1 = .ok () ∧ (Mat.invert exA).2.getElement 0 0 = .ok (.fin (-3 / 8)) := by
  decide +kernel

example : exA.det = .ok (.fin (-8)) := by decide +kernel

/-- An invertible matrix on which the pivot search, which compares signed values, finds no pivot. -/
def exRot : Mat XQ := Mat.of 2 2 fun i j => .fin (tbl [[0, 1], [-1, 0]] i j)

/-- C25: `det`, and with it `invert`, can fail on invertible matrices. -/
theorem C25_singular_on_regular :
    MatIs exRot 2 2 (fun i j => .fin (tbl [[0, 1], [-1, 0]] i j)) ∧
    (toMatrix 2 2 (tbl [[0, 1], [-1, 0]] : Nat → Nat → ℚ)).det = 1 ∧
    exRot.det = .error (.err .Singular) ∧
    (Mat.invert exRot).1 = .error (.err .NotInversible) := by
  refine ⟨Mat.of_is _ (by omega) (by omega) (by omega) (by omega), ?_, by decide +kernel,
    by decide +kernel⟩
  rw [Matrix.det_fin_two]
  simp [toMatrix, tbl]

/-- The permutation matrix that exchanges rows 0, 1 and rows 2, 3. -/
def exSwap : Mat XQ := Mat.of 4 4 fun i j =>
  .fin (tbl [[0, 1, 0, 0], [1, 0, 0, 0], [0, 0, 0, 1], [0, 0, 1, 0]] i j)

/-- C25: the sign is wrong on a concrete 4×4 matrix. -/
theorem C25_wrong_sign :
    MatIs exSwap 4 4
      (fun i j => .fin (tbl [[0, 1, 0, 0], [1, 0, 0, 0], [0, 0, 0, 1], [0, 0, 1, 0]] i j)) ∧
    (toMatrix 4 4
      (tbl [[0, 1, 0, 0], [1, 0, 0, 0], [0, 0, 0, 1], [0, 0, 1, 0]] : Nat → Nat → ℚ)).det = 1 ∧
    exSwap.det = .ok (.fin (-1)) := by
  refine ⟨Mat.of_is _ (by omega) (by omega) (by omega) (by omega), ?_, by decide +kernel⟩
  decide +kernel

end Verif
