import Mathlib.LinearAlgebra.Matrix.Determinant.Basic
import Mathlib.GroupTheory.Perm.Fin
import Verif.Lib.SafeDecomp
import Verif.Lib.Exact

/-
C21: `det_naive`.
-/

set_option linter.unusedSectionVars false
set_option linter.unusedSimpArgs false

namespace Verif
open Scalar Finset

/-- The product `((1.0 * t 0) * t 1) * … * t (n-1)`, from left to right. -/
def prodUp {F : Type} [Scalar F] : Nat → (Nat → F) → F
  | 0, _ => lit 1
  | n + 1, t => prodUp n t *ᶠ t n

/-- The permutation table, with the default for sizes that have none. -/
def permTable (n : Nat) : Fin 24 → Fin 4 → Nat :=
  match Mat.generatePermutations n with
  | .ok p => p
  | .error _ => fun _ _ => 0

/-- Number of inversions of a row of the table. -/
def inversions (n : Nat) (i : Fin 24) : Nat :=
  match Mat.countInversions (permTable n i) n with
  | .ok k => k
  | .error _ => 0

/-- The permutations of `0, …, n-1` with their signs, in lexicographic order. -/
def lexPerms : (n : Nat) → List (List Nat × Bool)
  | 1 => [([0], true)]
  | 2 => [([0, 1], true), ([1, 0], false)]
  | 3 => [([0, 1, 2], true), ([0, 2, 1], false), ([1, 0, 2], false), ([1, 2, 0], true),
      ([2, 0, 1], true), ([2, 1, 0], false)]
  | 4 => [([0, 1, 2, 3], true), ([0, 1, 3, 2], false), ([0, 2, 1, 3], false), ([0, 2, 3, 1], true),
      ([0, 3, 1, 2], true), ([0, 3, 2, 1], false), ([1, 0, 2, 3], false), ([1, 0, 3, 2], true),
      ([1, 2, 0, 3], true), ([1, 2, 3, 0], false), ([1, 3, 0, 2], false), ([1, 3, 2, 0], true),
      ([2, 0, 1, 3], true), ([2, 0, 3, 1], false), ([2, 1, 0, 3], false), ([2, 1, 3, 0], true),
      ([2, 3, 0, 1], true), ([2, 3, 1, 0], false), ([3, 0, 1, 2], false), ([3, 0, 2, 1], true),
      ([3, 1, 0, 2], true), ([3, 1, 2, 0], false), ([3, 2, 0, 1], false), ([3, 2, 1, 0], true)]
  | _ => []

theorem permTable_lex (n : Nat) (h1 : 1 ≤ n) (h4 : n ≤ 4) :
    ∀ i : Fin 24, i < n.factorial → (∀ j : Fin 4, j < n →
      permTable n i j = (((lexPerms n).getD i ([], true)).1.getD j 0)) ∧
      Mat.countInversions (permTable n i) n = .ok (inversions n i) ∧
      (inversions n i % 2 = 0 ↔ ((lexPerms n).getD i ([], true)).2 = true) := by
  have h : n = 1 ∨ n = 2 ∨ n = 3 ∨ n = 4 := by omega
  rcases h with rfl | rfl | rfl | rfl <;> decide +kernel

theorem lexPerms_all (n : Nat) (h1 : 1 ≤ n) (h4 : n ≤ 4) :
    ∀ σ : Equiv.Perm (Fin n), ∃ i : Fin n.factorial,
      (∀ j : Fin n, ((σ j : Fin n) : Nat) = (((lexPerms n).getD i ([], true)).1.getD j 0)) ∧
      (Equiv.Perm.sign σ = 1 ↔ ((lexPerms n).getD i ([], true)).2 = true) := by
  have h : n = 1 ∨ n = 2 ∨ n = 3 ∨ n = 4 := by omega
  rcases h with rfl | rfl | rfl | rfl <;> decide +kernel

/-- The rows of the table are all permutations, each once, with the parity of their inversions. -/
theorem permTable_perm (n : Nat) (h1 : 1 ≤ n) (h4 : n ≤ 4) :
    ∃ e : Fin n.factorial ≃ Equiv.Perm (Fin n), ∀ (i : Fin 24) (hi : i < n.factorial),
      (∀ (j : Fin 4) (hj : j < n), permTable n i j = (e ⟨i, hi⟩ ⟨j, hj⟩ : Fin n)) ∧
      Mat.countInversions (permTable n i) n = .ok (inversions n i) ∧
      (inversions n i % 2 = 0 ↔ Equiv.Perm.sign (e ⟨i, hi⟩) = 1) := by
  choose g hg using lexPerms_all n h1 h4
  have hinj : Function.Injective g := fun σ τ h => by
    ext j
    rw [(hg σ).1 j, (hg τ).1 j, h]
  have hbij : Function.Bijective g := by
    rw [Fintype.bijective_iff_injective_and_card]
    refine ⟨hinj, ?_⟩
    rw [Fintype.card_perm, Fintype.card_fin, Fintype.card_fin]
  refine ⟨(Equiv.ofBijective g hbij).symm, fun i hi => ?_⟩
  have hgi : g ((Equiv.ofBijective g hbij).symm ⟨i, hi⟩) = ⟨i, hi⟩ :=
    (Equiv.ofBijective g hbij).apply_symm_apply ⟨i, hi⟩
  obtain ⟨t1, t2, t3⟩ := permTable_lex n h1 h4 i hi
  have := hg ((Equiv.ofBijective g hbij).symm ⟨i, hi⟩)
  rw [hgi] at this
  refine ⟨fun j hj => ?_, t2, ?_⟩
  · rw [t1 j hj]
    exact (this.1 ⟨j, hj⟩).symm
  · rw [t3]
    exact this.2.symm

theorem prodUp_fold {F : Type} [Scalar F] {ε : Type} {n : Nat} {t : Nat → F}
    {body : Nat → F → Res ε F} (hb : ∀ i acc, i < n → body i acc = .ok (acc *ᶠ t i)) :
    foldRange 0 n body (lit 1) = .ok (prodUp n t) :=
  foldRange_ok body (fun k => prodUp k t) 0 n (Nat.zero_le _) fun i _ hi => by
    rw [hb i _ hi]; rfl

/-- The term of a permutation in the expansion of the determinant. -/
def leibnizTerm {F : Type} [Scalar F] {n : Nat} (f : Nat → Nat → F) (σ : Equiv.Perm (Fin n)) : F :=
  (if Equiv.Perm.sign σ = 1 then lit 1 else lit (-1)) *ᶠ
    prodUp n fun r => if h : r < n then f r (σ ⟨r, h⟩) else lit 1

/-- C21: for every size there is an enumeration of all permutations such that, whatever the
arithmetic, `det_naive` succeeds on every square matrix and accumulates the signed products in that
order. -/
theorem C21_expansion (n : Nat) (h1 : 1 ≤ n) (h4 : n ≤ 4) :
    ∃ e : Fin n.factorial ≃ Equiv.Perm (Fin n),
      ∀ (F : Type) [Scalar F] (a : Mat F) (f : Nat → Nat → F), MatIs a n n f →
        a.detNaive = .ok (sumUp n.factorial fun i =>
          if h : i < n.factorial then leibnizTerm f (e ⟨i, h⟩) else lit 0) := by
  obtain ⟨e, he⟩ := permTable_perm n h1 h4
  refine ⟨e, fun F _ a f ha => ?_⟩
  have hgen : Mat.generatePermutations n = .ok (permTable n) := by
    obtain ⟨p, hp⟩ := Mat.generatePermutations_ok h1 h4
    unfold permTable; rw [hp]
  have h24 : n.factorial ≤ 24 := by
    have h : n = 1 ∨ n = 2 ∨ n = 3 ∨ n = 4 := by omega
    rcases h with rfl | rfl | rfl | rfl <;> decide
  unfold Mat.detNaive
  simp only [Mat.isSquare_eq ha, Res.ok_bind, decide_true, Bool.not_true, Bool.false_eq_true, if_false,
    ha.rows_eq, hgen]
  rw [Mat.factorial_small h4, Res.ok_bind]
  have hmin : Nat.min n.factorial 24 = n.factorial := Nat.min_eq_left h24
  rw [hmin]
  refine foldRange_sumUp fun i acc hi => ?_
  have hi24 : i < 24 := by omega
  obtain ⟨t1, t2, t3⟩ := he ⟨i, hi24⟩ hi
  simp only [arrGet_ok _ hi24, Res.ok_bind, t2]
  rw [prodUp_fold (t := fun r => if h : r < n then f r (e ⟨i, hi⟩ ⟨r, h⟩) else lit 1)
    (fun r acc hr => by
      have hr4 : r < 4 := by omega
      rw [arrGet_ok _ hr4, Res.ok_bind, t1 ⟨r, hr4⟩ hr]
      have hlt := (e ⟨i, hi⟩ ⟨r, hr⟩).2
      rw [Nat.mod_eq_of_lt (by omega), ha.get r _ hr hlt, Res.ok_bind]
      simp [hr]), Res.ok_bind]
  simp only [hi, dif_pos, leibnizTerm, t3]

theorem prodUp_fin {K : Type} [Field K] [LinearOrder K] [Elementary K] (n : Nat) (t : Nat → K) :
    prodUp n (fun i => (Ext.fin (t i) : Ext K)) = .fin (∏ i ∈ range n, t i) := by
  induction n with
  | zero => simp [prodUp]
  | succ n ih => rw [prodUp, ih, Ext.mul_fin, prod_range_succ]

/-- C21: in exact arithmetic `det_naive` is the determinant. -/
theorem C21_det {K : Type} [Field K] [LinearOrder K] [Elementary K] {n : Nat} {a : Mat (Ext K)}
    {A : Nat → Nat → K} (ha : MatIs a n n (fun i j => .fin (A i j))) :
    a.detNaive = .ok (.fin (toMatrix n n A).det) := by
  obtain ⟨e, he⟩ := C21_expansion n ha.rpos ha.rle
  rw [he _ a _ ha]
  have hterm : ∀ σ : Equiv.Perm (Fin n), (leibnizTerm (fun i j => .fin (A i j)) σ : Ext K) =
      .fin (((Equiv.Perm.sign σ : ℤ) : K) * ∏ i : Fin n, A i (σ i)) := by
    intro σ
    unfold leibnizTerm
    have : (fun r => if h : r < n then (Ext.fin (A r (σ ⟨r, h⟩)) : Ext K) else lit 1) =
        fun r => Ext.fin (if h : r < n then A r (σ ⟨r, h⟩) else 1) := by
      funext r
      split <;> simp
    rw [this, prodUp_fin, Finset.prod_range]
    simp only [Fin.is_lt, dif_pos, Fin.eta]
    rcases Int.units_eq_one_or (Equiv.Perm.sign σ) with h | h
    · rw [h]; simp
    · rw [h, if_neg (by decide), Ext.lit_eq]; simp
  have : (fun i => if h : i < n.factorial then
      (leibnizTerm (fun i j => .fin (A i j)) (e ⟨i, h⟩) : Ext K) else lit 0) =
      fun i => .fin (if h : i < n.factorial then
        ((Equiv.Perm.sign (e ⟨i, h⟩) : ℤ) : K) * ∏ j : Fin n, A j (e ⟨i, h⟩ j) else 0) := by
    funext i
    split
    · exact hterm _
    · simp
  rw [this, sumUp_fin, Finset.sum_range]
  simp only [Fin.is_lt, dif_pos, Fin.eta]
  rw [Equiv.sum_comp e fun σ => ((Equiv.Perm.sign σ : ℤ) : K) * ∏ j : Fin n, A j (σ j),
    ← Matrix.det_transpose, Matrix.det_apply']
  rfl

/-- C21: the other outcomes. -/
theorem C21_fail {F : Type} [Scalar F] {a : Mat F} :
    (∀ r c f, MatIs a r c f → r ≠ c → a.detNaive = .error (.err .NotSquare)) ∧
    (a.isInitialized = false → a.detNaive = .error (.err .NotInit)) := by
  constructor
  · intro r c f ha hrc
    unfold Mat.detNaive
    simp [Mat.isSquare_eq ha, hrc, fail]
  · intro hi
    have hi : a.initialized = false := hi
    unfold Mat.detNaive Mat.isSquare
    simp [hi, fail]

/-- C21: the table that `det_naive` uses.  For sizes 1 to 4 its first `n!` rows are the permutations of `0, …, n - 1`, each
once; other sizes are refused. -/
theorem C21_permutations (n : Nat) :
    (n = 0 → Mat.generatePermutations n = .error (.err .RowsNumberNull)) ∧
    (4 < n → Mat.generatePermutations n = .error (.err .RowsNumberOverflow)) ∧
    (1 ≤ n → n ≤ 4 → ∃ p, Mat.generatePermutations n = .ok p ∧ ∃ e : Fin n.factorial ≃ Equiv.Perm (Fin n),
      ∀ (i : Fin 24) (hi : i < n.factorial) (j : Fin 4) (hj : j < n), p i j = (e ⟨i, hi⟩ ⟨j, hj⟩ : Fin n)) := by
  refine ⟨?_, fun h => ?_, fun h1 h4 => ?_⟩
  · rintro rfl
    rfl
  · unfold Mat.generatePermutations isValidRowsNumber
    rw [if_pos (show n > M_MAX from h)]
    rfl
  · obtain ⟨p, hp⟩ := Mat.generatePermutations_ok h1 h4
    obtain ⟨e, he⟩ := permTable_perm n h1 h4
    have ht : permTable n = p := by
      unfold permTable
      rw [hp]
    rw [ht] at he
    exact ⟨p, hp, e, fun i hi j hj => (he i hi).1 j hj⟩

/-- The determinant of the 4×4 permutation matrix on which `det` has the wrong sign. -/
example : (Mat.of 4 4 fun i j =>
    (.fin (tbl [[0, 1, 0, 0], [1, 0, 0, 0], [0, 0, 0, 1], [0, 0, 1, 0]] i j) : XQ)).detNaive =
    .ok (.fin 1) := by decide +kernel
example : (Mat.of 3 3 fun i j =>
    (.fin (tbl [[0, 2, 1], [1, 1, 0], [2, 0, 3]] i j) : XQ)).detNaive = .ok (.fin (-8)) := by
  decide +kernel

end Verif
