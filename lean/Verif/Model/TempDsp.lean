import Verif.Model.Utils

/-
Model of `temp/dsp/src/main.rs`: a second type of complex numbers, a discrete Fourier transform and a program
that prints one.
-/

namespace Verif
open Scalar

namespace TempDsp

/-- `N_MAX` — temp/dsp/src/main.rs:8. -/
abbrev N_MAX : Nat := 16

/-- `struct Complex` — temp/dsp/src/main.rs:14-17. -/
structure Complex (F : Type) where
  re : F
  im : F

variable {F : Type} [Scalar F]

/-- `EPSILON` — temp/dsp/src/main.rs:7. -/
def EPSILON : F := lit (1 / 10000)

/-- `PI` — temp/dsp/src/main.rs:9. -/
def PI : F := lit (3141592653589793 / 1000000000000000)

namespace Complex

/-- `Complex::new` — temp/dsp/src/main.rs:21-31. -/
def new (re im : F) : Res UtilsError (Complex F) := do
  Utils.isValidValue re
  Utils.isValidValue im
  .ok { re := re, im := im }

/-- `Complex::set_real_part` — temp/dsp/src/main.rs:34-40. -/
def setRealPart (re : F) : Op UtilsError (Complex F) Unit := do
  Utils.isValidValue re
  Op.modify fun self => { self with re := re }

/-- `Complex::get_real_part` — temp/dsp/src/main.rs:43-47. -/
def getRealPart (self : Complex F) : Res UtilsError F := do
  Utils.isValidValue self.re
  .ok self.re

/-- `Complex::set_imaginary_part` — temp/dsp/src/main.rs:50-56. -/
def setImaginaryPart (im : F) : Op UtilsError (Complex F) Unit := do
  Utils.isValidValue im
  Op.modify fun self => { self with im := im }

/-- `Complex::get_imaginary_part` — temp/dsp/src/main.rs:59-63. -/
def getImaginaryPart (self : Complex F) : Res UtilsError F := do
  Utils.isValidValue self.im
  .ok self.im

/-- `Complex::copy_from` — temp/dsp/src/main.rs:66-74. -/
def copyFrom (other : Complex F) : Op UtilsError (Complex F) Unit := do
  let re ← other.getRealPart
  let im ← other.getImaginaryPart
  setRealPart re
  setImaginaryPart im

/-- `Complex::duplicate` — temp/dsp/src/main.rs:77-83. -/
def duplicate (self : Complex F) : Res UtilsError (Complex F) := do
  let z ← new (lit 0) (lit 0)
  exec z (copyFrom self)

/-- `Complex::convert_from_polar` — temp/dsp/src/main.rs:86-97. -/
def convertFromPolar (r theta : F) : Op UtilsError (Complex F) Unit := do
  Utils.isValidValue r
  Utils.isValidValue theta
  let re := r *ᶠ Scalar.cos theta
  let im := r *ᶠ Scalar.sin theta
  setRealPart re
  setImaginaryPart im

/-- `Complex::neg` — temp/dsp/src/main.rs:100-108. -/
def neg : Op UtilsError (Complex F) Unit := do
  let self ← Op.get
  let re ← self.getRealPart
  let im ← self.getImaginaryPart
  setRealPart (Scalar.neg re)
  setImaginaryPart (Scalar.neg im)

/-- `Complex::conjugate` — temp/dsp/src/main.rs:111-117. -/
def conjugate : Op UtilsError (Complex F) Unit := do
  let self ← Op.get
  let im ← self.getImaginaryPart
  setImaginaryPart (Scalar.neg im)

/-- `Complex::calculate_module` — temp/dsp/src/main.rs:120-132.  It takes `&mut self` but writes nothing. -/
def calculateModule (self : Complex F) : Res UtilsError F := do
  let re ← self.getRealPart
  let im ← self.getImaginaryPart
  let module_ := Scalar.sqrt (re *ᶠ re +ᶠ im *ᶠ im)
  if (← Utils.allclose module_ (lit 0) EPSILON) then .ok (lit 0) else .ok module_

/-- `Complex::expo` — temp/dsp/src/main.rs:135-149.  The imaginary part is read without a check. -/
def expo : Op UtilsError (Complex F) Unit := do
  let self ← Op.get
  let re ← self.getRealPart
  let m := Scalar.exp re
  if (← Utils.allclose m (lit 0) EPSILON) then
    Op.set { re := lit 0, im := lit 0 }
  else
    Op.set { re := m *ᶠ Scalar.cos self.im, im := m *ᶠ Scalar.sin self.im }

/-- `Complex::add` — temp/dsp/src/main.rs:152-157.  The real part is written before the imaginary parts are read. -/
def add (z1 z2 : Complex F) : Op UtilsError (Complex F) Unit := do
  let a ← z1.getRealPart
  let b ← z2.getRealPart
  Op.modify fun self => { self with re := a +ᶠ b }
  let c ← z1.getImaginaryPart
  let d ← z2.getImaginaryPart
  Op.modify fun self => { self with im := c +ᶠ d }

/-- `Complex::add_in_place` — temp/dsp/src/main.rs:160-165. -/
def addInPlace (other : Complex F) : Op UtilsError (Complex F) Unit := do
  let a ← other.getRealPart
  Op.modify fun self => { self with re := self.re +ᶠ a }
  let b ← other.getImaginaryPart
  Op.modify fun self => { self with im := self.im +ᶠ b }

/-- `Complex::sub` — temp/dsp/src/main.rs:168-173. -/
def sub (z1 z2 : Complex F) : Op UtilsError (Complex F) Unit := do
  let a ← z1.getRealPart
  let b ← z2.getRealPart
  Op.modify fun self => { self with re := a -ᶠ b }
  let c ← z1.getImaginaryPart
  let d ← z2.getImaginaryPart
  Op.modify fun self => { self with im := c -ᶠ d }

/-- `Complex::sub_in_place` — temp/dsp/src/main.rs:176-181. -/
def subInPlace (other : Complex F) : Op UtilsError (Complex F) Unit := do
  let a ← other.getRealPart
  Op.modify fun self => { self with re := self.re -ᶠ a }
  let b ← other.getImaginaryPart
  Op.modify fun self => { self with im := self.im -ᶠ b }

/-- `Complex::mul` — temp/dsp/src/main.rs:184-195. -/
def mul (z1 z2 : Complex F) : Op UtilsError (Complex F) Unit := do
  let z1re ← z1.getRealPart
  let z2re ← z2.getRealPart
  let z1im ← z1.getImaginaryPart
  let z2im ← z2.getImaginaryPart
  Op.set { re := z1re *ᶠ z2re -ᶠ z1im *ᶠ z2im, im := z1re *ᶠ z2im +ᶠ z1im *ᶠ z2re }

/-- `Complex::mul_in_place` — temp/dsp/src/main.rs:198-209. -/
def mulInPlace (other : Complex F) : Op UtilsError (Complex F) Unit := do
  let self ← Op.get
  let reTemp ← self.getRealPart
  let imTemp ← self.getImaginaryPart
  let otherRe ← other.getRealPart
  let otherIm ← other.getImaginaryPart
  Op.set { re := reTemp *ᶠ otherRe -ᶠ imTemp *ᶠ otherIm, im := reTemp *ᶠ otherIm +ᶠ imTemp *ᶠ otherRe }

/-- `Complex::div` — temp/dsp/src/main.rs:212-230.  `&&` does not evaluate its second operand when the
first is false. -/
def div (z1 z2 : Complex F) : Op UtilsError (Complex F) Unit := do
  let z1re ← z1.getRealPart
  let z2re ← z2.getRealPart
  let z1im ← z1.getImaginaryPart
  let z2im ← z2.getImaginaryPart
  let c1 ← Utils.allclose z2re (lit 0) EPSILON
  let c2 ← (if c1 then Utils.allclose z2im (lit 0) EPSILON else .ok false : Res UtilsError Bool)
  if c2 then Op.fail .Inf
  else do
    let denominator := z2re *ᶠ z2re +ᶠ z2im *ᶠ z2im
    Op.set { re := (z1re *ᶠ z2re +ᶠ z1im *ᶠ z2im) /ᶠ denominator,
             im := (z1im *ᶠ z2re -ᶠ z1re *ᶠ z2im) /ᶠ denominator }

/-- `Complex::swap` — temp/dsp/src/main.rs:233-243.  The state is the pair `(self, other)`. -/
def swap : Op UtilsError (Complex F × Complex F) Unit := do
  let (self, other) ← Op.get
  let temp ← self.getRealPart
  let re ← other.getRealPart
  let self := { self with re := re }
  let other := { other with re := temp }
  Op.set (self, other)
  let temp ← self.getImaginaryPart
  let im ← other.getImaginaryPart
  Op.set ({ self with im := im }, { other with im := temp })

end Complex

/-- `dft_naive` — temp/dsp/src/main.rs:247-267. -/
def dftNaive (x : Fin N_MAX → Complex F) : Res UtilsError (Fin N_MAX → Complex F) := do
  let zero ← Complex.new (lit 0) (lit 0)
  foldRange 0 N_MAX
    (fun k X => do
      let sum ← Complex.new (lit 0) (lit 0)
      let sum ← foldRange 0 N_MAX
        (fun n sum => do
          let angle := lit (-2) *ᶠ PI *ᶠ lit k *ᶠ lit n /ᶠ lit N_MAX
          let w ← Complex.new (Scalar.cos angle) (Scalar.sin angle)
          let temp ← (← arrGet x n).duplicate
          let temp ← exec temp (Complex.mulInPlace w)
          exec sum (Complex.addInPlace temp)) sum
      let Xk ← arrGet X k
      let Xk ← exec Xk (Complex.copyFrom sum)
      arrSet X k Xk) (fun _ => zero)

/-- `Result::unwrap`: an error panics. -/
def unwrap {ε ε' α : Type} : Res ε α → Res ε' α
  | .ok a => .ok a
  | .error _ => .error .panic

/-- What `main` prints: the sixteen results, or the message of line 298. -/
inductive Output (F : Type) where
  | values (X : List (Nat × F × F))
  | failed

/-- The signal of `main` — temp/dsp/src/main.rs:272-289. -/
def signal : List ℚ := [1, 2, 3, 4, 1, 2, 3, 4, 1, 2, 3, 4, 1, 2, 3, 4]

/-- `main` — temp/dsp/src/main.rs:270-300.  The array is built by sixteen calls of `new`. -/
def main (F : Type) [Scalar F] : Res Empty (Output F) := do
  let x ← signal.mapM fun q => (unwrap (Complex.new (lit q) (lit 0)) : Res Empty (Complex F))
  let x : Fin N_MAX → Complex F := fun i => x.getD i ⟨lit 0, lit 0⟩
  match dftNaive x with
  | .ok X => do
    let out ← foldRange 0 N_MAX
      (fun i out => do
        let z ← (arrGet X i : Res Empty (Complex F))
        let re ← (unwrap z.getRealPart : Res Empty F)
        let im ← (unwrap z.getImaginaryPart : Res Empty F)
        .ok (out ++ [(i, re, im)])) []
    .ok (.values out)
  | .error (.err _) => .ok .failed
  | .error .panic => .error .panic

end TempDsp
end Verif
