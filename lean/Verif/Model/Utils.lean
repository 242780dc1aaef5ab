import Verif.Scalar

/-
Model of `utils/src/lib.rs`.
-/

namespace Verif
open Scalar

/-- `enum UtilsError` — utils/src/lib.rs:9-12. -/
inductive UtilsError where
  | Nan
  | Inf
  deriving DecidableEq, Repr

namespace Utils
variable {F : Type} [Scalar F]

/-- `is_valid_value` — utils/src/lib.rs:15-23. -/
def isValidValue (value : F) : Res UtilsError Unit :=
  if isNaN value then fail .Nan
  else if isInf value then fail .Inf
  else .ok ()

/-- `allclose` — utils/src/lib.rs:26-31. -/
def allclose (x y deviation : F) : Res UtilsError Bool := do
  isValidValue x
  isValidValue y
  .ok (Scalar.abs (x -ᶠ y) ≤ᶠ deviation)

/-- `in_range` at `T = f32` — utils/src/lib.rs:34-36. -/
def inRange (value start stop : F) : Bool :=
  (value ≥ᶠ start) && (value ≤ᶠ stop)

/-- `min` at an integer type — utils/src/lib.rs:39-41. -/
def minInt (x y : Int) : Int := if x < y then x else y

/-- `max` at an integer type — utils/src/lib.rs:44-46. -/
def maxInt (x y : Int) : Int := if x > y then x else y

/-- `min` at `T = u8` — utils/src/lib.rs:39-41. -/
def minU8 (x y : Nat) : Nat := if x < y then x else y

/-- `minf` at `T = f32` — utils/src/lib.rs:49-51. -/
def minf (x y : F) : F := if x <ᶠ y then x else y

/-- `maxf` at `T = f32` — utils/src/lib.rs:54-56. -/
def maxf (x y : F) : F := if x >ᶠ y then x else y

/-- `clip` at `T = f32` — utils/src/lib.rs:59-67. -/
def clip (value min max : F) : F :=
  if value <ᶠ min then min
  else if value >ᶠ max then max
  else value

/-- `factorial` — utils/src/lib.rs:70-75.  `n` is a `u8`; the product is taken in `u64` after the
recursive call has returned. -/
def factorial (F : Type) [Scalar F] {ε : Type} : Nat → Res ε Nat
  | 0 => .ok 1
  | 1 => .ok 1
  | n + 2 => do
    let r ← factorial F (n + 1)
    u64Mul F (n + 2) r

/-- `Sign::sign` at `T = f32` (and at `T = f64`, with its arithmetic for `F`) — utils/src/lib.rs:108-122. -/
def sign (x : F) : F :=
  if x >ᶠ lit 0 then lit 1
  else if x <ᶠ lit 0 then lit (-1)
  else lit 0

/-- `Sign::sign` at `T = i32` — utils/src/lib.rs:108-122.  The results are in the range of the type. -/
def signInt (x : Int) : Int :=
  if x > 0 then 1 else if x < 0 then -1 else 0

end Utils
end Verif
