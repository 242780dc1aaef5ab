import Verif.Model.AhrsTest
import Verif.Model.TempDsp

/-
Model of what the library and its programs write to the standard output.  The output is a list of characters, the
state of an `Op`, so that whatever was written before an error stays visible.  How a floating-point number is written
with a given number of decimals is the business of the class `Text`, which has no laws.
-/

namespace Verif
open Scalar

/-- How Rust formats a number with `{:.p}`. -/
class Text (F : Type) where
  fixed : Nat → F → List Char

/-- How Rust formats an unsigned integer with `{}`. -/
def textNat (n : Nat) : List Char := Nat.toDigits 10 n

/-- `print!` of a text. -/
def say {ε : Type} (s : List Char) : Op ε (List Char) Unit := Op.modify (· ++ s)

variable {F : Type} [Scalar F] [Text F]

/-- `Vector::print` — linalg/src/vector.rs:164-174. -/
def Vec.print (self : Vec F) : Op LinalgError (List Char) Unit := do
  forRange 0 self.rows fun row => do
    let element ← Op.lift (self.getElement row)
    say (Text.fixed 3 element ++ ['\n'])
  say ['\n']

/-- `Matrix::print` — linalg/src/matrix.rs:231-245. -/
def Mat.print (self : Mat F) : Op LinalgError (List Char) Unit := do
  forRange 0 self.rows fun row => do
    forRange 0 self.cols fun col => do
      let element ← Op.lift (self.getElement row col)
      say (Text.fixed 3 element ++ ['\t'])
    say ['\n']
  say ['\n']

/-- `AR::print_attitude` — open_ahrs/src/ar.rs:183-193. -/
def AR.printAttitude (self : AR F) : Op AhrsError (List Char) Unit := do
  if !self.initialized then Op.fail .ARFilterNotInit
  Op.mapErr .LinalgError self.attitude.print

namespace AhrsTest

/-- The row of labels before a table — open_ahrs/src/lib.rs:73-78, 244-248, 254-258, 264-268, 340-345 and 438-443. -/
def labels {ε : Type} (c : List Char) (lo hi : Nat) : Op ε (List Char) Unit := do
  forRange lo hi fun n => say (c ++ textNat n ++ "Δt]\t".toList)
  say "\n\n".toList

/-- What the test prints, in the order of its `print!`: open_ahrs/src/lib.rs:71-103, 242-270, 338-370 and 436-468. -/
def report (r : AhrsTest F) : Op LinalgError (List Char) Unit := do
  let niter := 3
  say "\nRandomly generated attitudes:\n\n".toList
  labels "[e".toList 0 (niter + 1)
  r.attitudes.print
  say "Raw gyrometer measurements:\n\n".toList
  labels "ω[".toList 0 niter
  r.gyr.print
  say "Raw accelerometer measurements:\n\n".toList
  labels "ω[".toList 0 niter
  r.acc.print
  say "Raw magnetometer measurements:\n\n".toList
  labels "ω[".toList 0 niter
  r.mag.print
  say "Estimated attitudes (AR filter):\n\n".toList
  labels "[e".toList 1 (niter + 1)
  r.ar.print
  say "Estimated attitudes (Aqua filter):\n\n".toList
  labels "[e".toList 0 niter
  r.aqua.print

end AhrsTest

namespace TempDsp

/-- The lines of `main` — temp/dsp/src/main.rs:295 and 298. -/
def Output.text : Output F → List Char
  | .values X => (X.map fun x => "X[".toList ++ textNat x.1 ++ "] = ".toList ++ Text.fixed 2 x.2.1 ++ " + ".toList ++
      Text.fixed 2 x.2.2 ++ "i\n".toList).flatten
  | .failed => "An error occured while performing the DFT.\n".toList

end TempDsp
end Verif
