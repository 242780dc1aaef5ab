import Verif.Scalar

/-
Model of `pid/src/lib.rs`.
-/

namespace Verif
open Scalar

/-- `struct PID` — pid/src/lib.rs:2-14. -/
structure PID (F : Type) where
  kp : F
  ki : F
  kd : F
  ts : F

/-- `PID::new` — pid/src/lib.rs:18-23; the other fields come from the derived `Default` (0.0). -/
def PID.new {F : Type} [Scalar F] : PID F :=
  { kp := lit 0, ki := lit 0, kd := lit 0, ts := lit (1 / 10) }

end Verif
