import Mathlib.Data.Nat.Log
import Mathlib.Algebra.Order.Round
import Mathlib.Data.Nat.Sqrt
import Verif.Ext

/-
IEEE 754 binary32: rational numbers rounded to the nearest representable one (ties to even), with
subnormal numbers and overflow to infinity, and the correctly rounded square root.  Zero has no sign.
`sin`, `cos`, … are those of the rational instance, which are placeholders: nothing here is claimed
about them.
-/

namespace Verif

/-- A binary32 value.  The operations produce values that are representable. -/
structure F32 where
  val : Ext ℚ
  deriving DecidableEq, Repr

namespace F32

/-- `2 ^ e`. -/
def pow2 (e : ℤ) : ℚ := if 0 ≤ e then (2 ^ e.toNat : ℕ) else 1 / (2 ^ (-e).toNat : ℕ)

/-- The exponent of `x > 0`: `2 ^ e ≤ x < 2 ^ (e + 1)`. -/
def expo (x : ℚ) : ℤ :=
  let e : ℤ := (Nat.log2 x.num.natAbs : ℤ) - (Nat.log2 x.den : ℤ)
  if pow2 e ≤ x then e else e - 1

/-- The integer nearest to `x ≥ 0`, the even one of two. -/
def nearest (x : ℚ) : ℤ :=
  let n := x.floor
  let d := x - n
  if d < 1 / 2 then n else if 1 / 2 < d then n + 1 else if n % 2 = 0 then n else n + 1

/-- The spacing of the representable numbers around `x > 0`. -/
def ulp (x : ℚ) : ℚ := pow2 (max (expo x - 23) (-149))

/-- Rounding of a positive number, without overflow. -/
def roundPos (x : ℚ) : ℚ := nearest (x / ulp x) * ulp x

/-- Rounding of a number to binary32. -/
def round (x : ℚ) : Ext ℚ :=
  if x = 0 then .fin 0
  else if 0 < x then (if roundPos x < pow2 128 then .fin (roundPos x) else .pinf)
  else (if roundPos (-x) < pow2 128 then .fin (-roundPos (-x)) else .ninf)

/-- The square root of `x > 0`, correctly rounded.  It is never subnormal and never overflows. -/
def sqrtPos (x : ℚ) : ℚ :=
  let s := pow2 (expo x / 2 - 23)
  let t := x / (s * s)
  let n := Nat.sqrt t.floor.toNat
  if t ≤ n * n + n + 1 / 4 then n * s else (n + 1) * s

def sqrt : Ext ℚ → Ext ℚ
  | .fin x => if x < 0 then .nan else if x = 0 then .fin 0 else .fin (sqrtPos x)
  | .pinf => .pinf
  | _ => .nan

/-- Rounding of the result of an operation. -/
def fl : Ext ℚ → F32
  | .fin x => ⟨round x⟩
  | x => ⟨x⟩

instance : Scalar F32 where
  lit q := fl (.fin q)
  add x y := fl (Scalar.add x.val y.val)
  sub x y := fl (Scalar.sub x.val y.val)
  mul x y := fl (Scalar.mul x.val y.val)
  div x y := fl (Scalar.div x.val y.val)
  neg x := ⟨Scalar.neg x.val⟩
  abs x := ⟨Scalar.abs x.val⟩
  sqrt x := ⟨sqrt x.val⟩
  sin x := fl (Scalar.sin x.val)
  cos x := fl (Scalar.cos x.val)
  acos x := fl (Scalar.acos x.val)
  asin x := fl (Scalar.asin x.val)
  atan2 y x := fl (Scalar.atan2 y.val x.val)
  pow x y := fl (Scalar.pow x.val y.val)
  exp x := fl (Scalar.exp x.val)
  lt x y := Scalar.lt x.val y.val
  le x y := Scalar.le x.val y.val
  isNaN x := Scalar.isNaN x.val
  isInf x := Scalar.isInf x.val
  overflowChecks := true

instance : ScalarLawful F32 := ⟨by decide +kernel, by decide +kernel, by decide +kernel⟩

/-- `0.1f32`, the largest finite value, and overflow. -/
example : fl (.fin (1 / 10)) = ⟨.fin (13421773 / 134217728)⟩ := by decide +kernel
example : fl (.fin 340282346638528859811704183484516925440) =
    ⟨.fin 340282346638528859811704183484516925440⟩ := by decide +kernel
example : fl (.fin (2 ^ 128)) = ⟨.pinf⟩ := by decide +kernel
example : fl (.fin (2 ^ 24 + 1)) = ⟨.fin (2 ^ 24)⟩ := by decide +kernel
/-- `sqrtf(2.0)`. -/
example : sqrt (.fin 2) = .fin (11863283 / 8388608) := by decide +kernel
example : sqrt (.fin 144) = .fin 12 := by decide +kernel
example : fl (.fin (3 / 2 ^ 150)) = ⟨.fin (1 / 2 ^ 148)⟩ := by decide +kernel

end F32
end Verif
