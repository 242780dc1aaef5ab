import Mathlib.Algebra.BigOperators.Intervals
import Mathlib.Algebra.BigOperators.Fin
import Mathlib.LinearAlgebra.Matrix.NonsingularInverse
import Verif.Ext
import Verif.Lib.MatStruct

/-
Facts about exact arithmetic used by the claims that are stated for it.
-/

set_option linter.unusedSectionVars false

namespace Verif
open Scalar Finset

variable {K : Type} [Field K] [LinearOrder K] [Elementary K]

/-- The library's `EPSILON`, 0.0001, as a number. -/
def epsilon (K : Type) [Field K] : K := ((1 / 10000 : ℚ) : K)

theorem Ext.epsilon_eq : (EPSILON : Ext K) = .fin (epsilon K) := rfl

/-- Accumulation in exact arithmetic is the sum. -/
theorem sumUp_fin (n : Nat) (t : Nat → K) :
    sumUp n (fun i => (Ext.fin (t i) : Ext K)) = .fin (∑ i ∈ range n, t i) := by
  induction n with
  | zero => simp [sumUp]
  | succ n ih => rw [sumUp, ih, Ext.add_fin, sum_range_succ]

theorem sumUp_congr {F : Type} [Scalar F] {n : Nat} {s t : Nat → F} (h : ∀ i, i < n → s i = t i) :
    sumUp n s = sumUp n t := by
  induction n with
  | zero => rfl
  | succ n ih => rw [sumUp, sumUp, ih fun i hi => h i (by omega), h n (by omega)]

/-- The entries of an `r`×`c` table as a Mathlib matrix. -/
def toMatrix (r c : Nat) (a : Nat → Nat → K) : Matrix (Fin r) (Fin c) K := fun i j => a i j

theorem toMatrix_mul (r k c : Nat) (a b : Nat → Nat → K) :
    toMatrix r k a * toMatrix k c b =
      toMatrix r c (fun i j => ∑ t ∈ range k, a i t * b t j) := by
  ext i j
  simp only [toMatrix, Matrix.mul_apply]
  rw [Finset.sum_range]

theorem toMatrix_inj {r c : Nat} {a b : Nat → Nat → K} :
    toMatrix r c a = toMatrix r c b ↔ ∀ i j, i < r → j < c → a i j = b i j := by
  constructor
  · intro h i j hi hj
    exact congrFun (congrFun h ⟨i, hi⟩) ⟨j, hj⟩
  · intro h
    ext i j
    exact h i j i.2 j.2

/-- An initialised matrix with given contents. -/
def Mat.of {F : Type} (r c : Nat) (f : Nat → Nat → F) : Mat F :=
  { rows := r, cols := c, elements := fun p => f (p.val / c) (p.val % c), initialized := true }

theorem Mat.of_is {F : Type} [Scalar F] {r c : Nat} (f : Nat → Nat → F) (h1 : 1 ≤ r) (h2 : r ≤ 4)
    (h3 : 1 ≤ c) (h4 : c ≤ 4) : MatIs (Mat.of r c f) r c f := by
  rw [matIs_iff]
  refine ⟨h1, h2, h3, h4, rfl, rfl, rfl, fun i j h16 hi hj => ?_⟩
  simp only [Mat.of, MatIs.div_eq hj, MatIs.mod_eq hj]

/-- An initialised vector with given contents. -/
def Vec.of {F : Type} (n : Nat) (f : Nat → F) : Vec F :=
  { rows := n, elements := fun p => f p.val, initialized := true }

theorem Vec.of_is {F : Type} [Scalar F] {n : Nat} (f : Nat → F) (h1 : 1 ≤ n) (h2 : n ≤ 4) :
    VecIs (Vec.of n f) n f := by
  rw [vecIs_iff]
  exact ⟨h1, h2, rfl, rfl, fun _ _ _ => rfl⟩

/-- A table given by its rows, for examples. -/
def tbl {T : Type} [Zero T] (l : List (List T)) (i j : Nat) : T := (l.getD i []).getD j 0

end Verif
