import Mathlib.Algebra.Order.Field.Basic
import Mathlib.Algebra.Order.Ring.Rat
import Mathlib.Algebra.Field.Rat
import Mathlib.Data.Rat.Cast.Defs
import Mathlib.Data.Rat.Sqrt
import Mathlib.Analysis.SpecialFunctions.Complex.Arg
import Mathlib.Analysis.SpecialFunctions.Pow.Real
import Mathlib.Analysis.SpecialFunctions.Trigonometric.Inverse
import Verif.Scalar

/-
Exact arithmetic: a linearly ordered field with infinities and NaN added and the special cases of
IEEE 754 kept.  There is no rounding, no overflow, and zero has no sign.
-/

namespace Verif

/-- A number, an infinity, or NaN. -/
inductive Ext (K : Type) where
  | fin (x : K)
  | pinf
  | ninf
  | nan
  deriving DecidableEq, Repr

/-- The elementary functions on the numbers of `K`, on their mathematical domain. -/
class Elementary (K : Type) where
  sqrt : K → K
  sin : K → K
  cos : K → K
  acos : K → K
  asin : K → K
  atan2 : K → K → K
  pow : K → K → K
  exp : K → K
  /-- is it an integer? -/
  isInt : K → Bool
  /-- is it an odd integer? -/
  isOdd : K → Bool

namespace Ext
variable {K : Type} [Field K] [LinearOrder K] [Elementary K]

/-- The infinity with the sign of `x`. -/
def infOf (x : K) : Ext K := if 0 ≤ x then pinf else ninf

def neg : Ext K → Ext K
  | fin x => fin (-x)
  | pinf => ninf
  | ninf => pinf
  | nan => nan

def add : Ext K → Ext K → Ext K
  | fin x, fin y => fin (x + y)
  | nan, _ => nan
  | _, nan => nan
  | pinf, ninf => nan
  | ninf, pinf => nan
  | pinf, _ => pinf
  | ninf, _ => ninf
  | _, pinf => pinf
  | _, ninf => ninf

def mul : Ext K → Ext K → Ext K
  | fin x, fin y => fin (x * y)
  | nan, _ => nan
  | _, nan => nan
  | fin x, pinf => if x = 0 then nan else infOf x
  | fin x, ninf => if x = 0 then nan else infOf (-x)
  | pinf, fin x => if x = 0 then nan else infOf x
  | ninf, fin x => if x = 0 then nan else infOf (-x)
  | pinf, pinf => pinf
  | pinf, ninf => ninf
  | ninf, pinf => ninf
  | ninf, ninf => pinf

def div : Ext K → Ext K → Ext K
  | fin x, fin y => if y = 0 then (if x = 0 then nan else infOf x) else fin (x / y)
  | nan, _ => nan
  | _, nan => nan
  | fin _, _ => fin 0
  | pinf, fin y => infOf y
  | ninf, fin y => neg (infOf y)
  | _, _ => nan

def abs : Ext K → Ext K
  | fin x => fin (if 0 ≤ x then x else -x)
  | nan => nan
  | _ => pinf

def lt : Ext K → Ext K → Bool
  | fin x, fin y => decide (x < y)
  | fin _, pinf => true
  | ninf, fin _ => true
  | ninf, pinf => true
  | _, _ => false

def le : Ext K → Ext K → Bool
  | nan, _ => false
  | _, nan => false
  | fin x, fin y => decide (x ≤ y)
  | _, pinf => true
  | ninf, _ => true
  | _, _ => false

def sqrt : Ext K → Ext K
  | fin x => if 0 ≤ x then fin (Elementary.sqrt x) else nan
  | pinf => pinf
  | _ => nan

/-- A function that is defined on numbers only. -/
def onFin (f : K → K) : Ext K → Ext K
  | fin x => fin (f x)
  | _ => nan

/-- A function that is defined on `[-1, 1]` only. -/
def onUnit (f : K → K) : Ext K → Ext K
  | fin x => if -1 ≤ x ∧ x ≤ 1 then fin (f x) else nan
  | _ => nan

def atan2 : Ext K → Ext K → Ext K
  | fin y, fin x => fin (Elementary.atan2 y x)
  | nan, _ => nan
  | _, nan => nan
  | fin _, pinf => fin 0
  | fin y, ninf => fin (if 0 ≤ y then Elementary.atan2 0 (-1) else -Elementary.atan2 0 (-1))
  | pinf, fin _ => fin (Elementary.atan2 1 0)
  | ninf, fin _ => fin (Elementary.atan2 (-1) 0)
  | pinf, pinf => fin (Elementary.atan2 1 1)
  | pinf, ninf => fin (Elementary.atan2 1 (-1))
  | ninf, pinf => fin (Elementary.atan2 (-1) 1)
  | ninf, ninf => fin (Elementary.atan2 (-1) (-1))

def exp : Ext K → Ext K
  | fin x => fin (Elementary.exp x)
  | pinf => pinf
  | ninf => fin 0
  | nan => nan

def pow : Ext K → Ext K → Ext K
  | fin x, fin y =>
    if y = 0 then fin 1
    else if x = 0 then (if y < 0 then pinf else fin 0)
    else if x < 0 ∧ Elementary.isInt y = false then nan
    else fin (Elementary.pow x y)
  | nan, fin y => if y = 0 then fin 1 else nan
  | fin x, nan => if x = 1 then fin 1 else nan
  | nan, _ => nan
  | _, nan => nan
  | pinf, fin y => if y = 0 then fin 1 else if y < 0 then fin 0 else pinf
  | ninf, fin y =>
    if y = 0 then fin 1
    else if y < 0 then fin 0
    else if Elementary.isOdd y then ninf else pinf
  | fin x, pinf =>
    if x = 1 ∨ x = -1 then fin 1 else if -1 < x ∧ x < 1 then fin 0 else pinf
  | fin x, ninf =>
    if x = 1 ∨ x = -1 then fin 1 else if -1 < x ∧ x < 1 then pinf else fin 0
  | _, pinf => pinf
  | _, ninf => fin 0

instance : Scalar (Ext K) where
  lit q := fin (q : K)
  add := add
  sub x y := add x (neg y)
  mul := mul
  div := div
  neg := neg
  abs := abs
  sqrt := sqrt
  sin := onFin Elementary.sin
  cos := onFin Elementary.cos
  acos := onUnit Elementary.acos
  asin := onUnit Elementary.asin
  atan2 := atan2
  pow := pow
  exp := exp
  lt := lt
  le := le
  isNaN x := match x with
    | nan => true
    | _ => false
  isInf x := match x with
    | pinf => true
    | ninf => true
    | _ => false
  overflowChecks := true

section
open Scalar

@[simp] theorem add_fin (x y : K) : (fin x : Ext K) +ᶠ fin y = fin (x + y) := rfl
@[simp] theorem sub_fin (x y : K) : (fin x : Ext K) -ᶠ fin y = fin (x - y) := by
  show fin (x + -y) = _
  rw [sub_eq_add_neg]
@[simp] theorem mul_fin (x y : K) : (fin x : Ext K) *ᶠ fin y = fin (x * y) := rfl
theorem div_fin (x : K) {y : K} (h : y ≠ 0) : (fin x : Ext K) /ᶠ fin y = fin (x / y) := by
  show div (fin x) (fin y) = _
  simp [div, h]
theorem div_zero (x : K) : Finite ((fin x : Ext K) /ᶠ fin 0) → False := by
  have e : div (fin x : Ext K) (fin 0) =
      if x = 0 then nan else if 0 ≤ x then pinf else ninf := by simp [div, infOf]
  show Finite (div (fin x) (fin 0)) → False
  rw [e]
  split
  · exact fun h => by cases h.1
  · split <;> exact fun h => by cases h.2
@[simp] theorem neg_fin (x : K) : Scalar.neg (fin x : Ext K) = fin (-x) := rfl
theorem abs_fin (x : K) : Scalar.abs (fin x : Ext K) = fin (if 0 ≤ x then x else -x) := rfl
theorem sqrt_fin {x : K} (h : 0 ≤ x) : Scalar.sqrt (fin x : Ext K) = fin (Elementary.sqrt x) := by
  show sqrt (fin x) = _
  simp [sqrt, h]
@[simp] theorem sin_fin (x : K) : Scalar.sin (fin x : Ext K) = fin (Elementary.sin x) := rfl
@[simp] theorem cos_fin (x : K) : Scalar.cos (fin x : Ext K) = fin (Elementary.cos x) := rfl
theorem acos_fin {x : K} (h : -1 ≤ x ∧ x ≤ 1) :
    Scalar.acos (fin x : Ext K) = fin (Elementary.acos x) := by
  show onUnit _ (fin x) = _
  simp [onUnit, h]
theorem asin_fin {x : K} (h : -1 ≤ x ∧ x ≤ 1) :
    Scalar.asin (fin x : Ext K) = fin (Elementary.asin x) := by
  show onUnit _ (fin x) = _
  simp [onUnit, h]
@[simp] theorem atan2_fin (y x : K) :
    Scalar.atan2 (fin y : Ext K) (fin x) = fin (Elementary.atan2 y x) := rfl
@[simp] theorem exp_fin (x : K) : Scalar.exp (fin x : Ext K) = fin (Elementary.exp x) := rfl
@[simp] theorem lt_fin (x y : K) : ((fin x : Ext K) <ᶠ fin y) = decide (x < y) := rfl
@[simp] theorem le_fin (x y : K) : ((fin x : Ext K) ≤ᶠ fin y) = decide (x ≤ y) := rfl
@[simp] theorem isNaN_fin (x : K) : Scalar.isNaN (fin x : Ext K) = false := rfl
@[simp] theorem isInf_fin (x : K) : Scalar.isInf (fin x : Ext K) = false := rfl
theorem lit_eq (q : ℚ) : (lit q : Ext K) = fin (q : K) := rfl
@[simp] theorem lit_zero : (lit 0 : Ext K) = fin 0 := by rw [lit_eq, Rat.cast_zero]
@[simp] theorem lit_one : (lit 1 : Ext K) = fin 1 := by rw [lit_eq, Rat.cast_one]
@[simp] theorem finite_fin (x : K) : Finite (fin x : Ext K) := ⟨rfl, rfl⟩
theorem finite_iff {x : Ext K} : Finite x ↔ ∃ a, x = fin a := by
  constructor
  · intro h
    rcases x with a | _ | _ | _
    · exact ⟨a, rfl⟩
    · cases h.2
    · cases h.2
    · cases h.1
  · rintro ⟨a, rfl⟩
    exact finite_fin a
omit [Field K] [LinearOrder K] [Elementary K] in
@[simp] theorem fin_inj {x y : K} : (fin x : Ext K) = fin y ↔ x = y := by
  constructor
  · intro h; cases h; rfl
  · rintro rfl; rfl

instance : ScalarLawful (Ext K) := ⟨⟨rfl, rfl⟩, ⟨rfl, rfl⟩, ⟨rfl, rfl⟩⟩

end
end Ext

/-- Reals with the functions of Mathlib. -/
noncomputable instance : Elementary ℝ where
  sqrt := Real.sqrt
  sin := Real.sin
  cos := Real.cos
  acos := Real.arccos
  asin := Real.arcsin
  atan2 y x := Complex.arg ⟨x, y⟩
  pow := fun x y => x ^ y
  exp := Real.exp
  isInt y := by classical exact decide (∃ n : ℤ, y = n)
  isOdd y := by classical exact decide (∃ n : ℤ, y = n ∧ Odd n)

/-- Rationals, for evaluating concrete runs.  `sqrt` is exact on squares, `pow` on natural
exponents; the other functions are given at the points where their value is rational and
obvious, and are 0 elsewhere.  No general claim is stated for this instance. -/
instance : Elementary ℚ where
  sqrt := Rat.sqrt
  sin _ := 0
  cos x := if x = 0 then 1 else 0
  acos _ := 0
  asin _ := 0
  atan2 _ _ := 0
  pow x y := if 0 ≤ y then x ^ y.num.toNat else (x ^ (-y.num).toNat)⁻¹
  exp x := if x = 0 then 1 else 0
  isInt y := y.den == 1
  isOdd y := y.den == 1 && y.num % 2 == 1

/-- Exact real arithmetic. -/
abbrev XR : Type := Ext ℝ
/-- Exact rational arithmetic. -/
abbrev XQ : Type := Ext ℚ

/-- The same arithmetic in a release build, where integer overflow wraps. -/
@[reducible] def releaseScalar (F : Type) [inst : Scalar F] : Scalar F :=
  { inst with overflowChecks := false }

end Verif
