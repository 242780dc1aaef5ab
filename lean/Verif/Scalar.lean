import Mathlib.Data.Rat.Defs
import Verif.Basic

/-
The interface to f32 arithmetic.
-/

namespace Verif

/-- The operations the library performs on `f32` values, the libm functions it calls, and the
overflow behaviour of the build profile.  There are no laws: a theorem proved for every instance
holds for IEEE binary32 with any libm, in debug and in release builds. -/
class Scalar (F : Type) where
  /-- A decimal literal, or `n as f32` for an integer `n`. -/
  lit : ℚ → F
  add : F → F → F
  sub : F → F → F
  mul : F → F → F
  div : F → F → F
  neg : F → F
  /-- `fabsf` -/
  abs : F → F
  /-- `sqrtf` -/
  sqrt : F → F
  /-- `sinf` -/
  sin : F → F
  /-- `cosf` -/
  cos : F → F
  /-- `acosf` -/
  acos : F → F
  /-- `asinf` -/
  asin : F → F
  /-- `atan2f(y, x)` -/
  atan2 : F → F → F
  /-- `powf(base, exponent)` -/
  pow : F → F → F
  /-- `expf` -/
  exp : F → F
  /-- `x < y` -/
  lt : F → F → Bool
  /-- `x <= y` -/
  le : F → F → Bool
  /-- `x.is_nan()` -/
  isNaN : F → Bool
  /-- `x.is_infinite()` -/
  isInf : F → Bool
  /-- `true`: integer overflow panics (debug profile); `false`: it wraps (release profile). -/
  overflowChecks : Bool

scoped infixl:65 " +ᶠ " => Scalar.add
scoped infixl:65 " -ᶠ " => Scalar.sub
scoped infixl:70 " *ᶠ " => Scalar.mul
scoped infixl:70 " /ᶠ " => Scalar.div
/-- `x < y` on f32. -/
scoped notation:50 x:51 " <ᶠ " y:51 => Scalar.lt x y
/-- `x > y` on f32 (IEEE: the same as `y < x`). -/
scoped notation:50 x:51 " >ᶠ " y:51 => Scalar.lt y x
/-- `x <= y` on f32. -/
scoped notation:50 x:51 " ≤ᶠ " y:51 => Scalar.le x y
/-- `x >= y` on f32 (IEEE: the same as `y <= x`). -/
scoped notation:50 x:51 " ≥ᶠ " y:51 => Scalar.le y x

/-- `x` is neither NaN nor infinite. -/
def Finite {F : Type} [Scalar F] (x : F) : Prop :=
  Scalar.isNaN x = false ∧ Scalar.isInf x = false

instance {F : Type} [Scalar F] (x : F) : Decidable (Finite x) := by
  unfold Finite; infer_instance

/-- The only facts about f32 assumed by theorems that quantify over every `Scalar`: the literals
`0.0`, `1.0` and `0.0001` are finite. -/
class ScalarLawful (F : Type) [Scalar F] : Prop where
  zero_finite : Finite (Scalar.lit 0 : F)
  one_finite : Finite (Scalar.lit 1 : F)
  eps_finite : Finite (Scalar.lit (1 / 10000) : F)

/-- `a + b` on `u8`. -/
def u8Add (F : Type) [Scalar F] {ε : Type} (a b : Nat) : Res ε Nat :=
  if a + b < 256 then .ok (a + b)
  else if Scalar.overflowChecks F then .error .panic
  else .ok ((a + b) % 256)

/-- `a - b` on `u8`. -/
def u8Sub (F : Type) [Scalar F] {ε : Type} (a b : Nat) : Res ε Nat :=
  if b ≤ a then .ok (a - b)
  else if Scalar.overflowChecks F then .error .panic
  else .ok ((a + 256 - b) % 256)

/-- `a * b` on `u64`. -/
def u64Mul (F : Type) [Scalar F] {ε : Type} (a b : Nat) : Res ε Nat :=
  if a * b < 2 ^ 64 then .ok (a * b)
  else if Scalar.overflowChecks F then .error .panic
  else .ok ((a * b) % 2 ^ 64)

/-- Wrap an integer into the range of `i8`. -/
def wrapI8 (a : Int) : Int := (a + 128) % 256 - 128

/-- The result of an `i8` operation whose mathematical value is `a`. -/
def i8Result (F : Type) [Scalar F] {ε : Type} (a : Int) : Res ε Int :=
  if -128 ≤ a ∧ a ≤ 127 then .ok a
  else if Scalar.overflowChecks F then .error .panic
  else .ok (wrapI8 a)

end Verif
