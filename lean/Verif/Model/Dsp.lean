import Verif.Model.Utils

/-
Model of `dsp/src/complex.rs` and `dsp/src/fft.rs`.
-/

namespace Verif
open Scalar

namespace Dsp

/-- `struct Complex` — dsp/src/complex.rs:12-15. -/
structure Complex (F : Type) where
  re : F
  im : F

namespace Complex
variable {F : Type} [Scalar F]

/-- `EPSILON` — dsp/src/complex.rs:7. -/
def EPSILON : F := lit (1 / 10000)

/-- `Complex::new` — dsp/src/complex.rs:30-42. -/
def new (re im : F) : Res UtilsError (Complex F) := do
  Utils.isValidValue re
  Utils.isValidValue im
  .ok { re := lit 0, im := lit 0 }

/-- `Complex::set_real_part` — dsp/src/complex.rs:45-51. -/
def setRealPart (re : F) : Op UtilsError (Complex F) Unit := do
  Utils.isValidValue re
  Op.modify fun self => { self with re := re }

/-- `Complex::get_real_part` — dsp/src/complex.rs:54-56. -/
def getRealPart (self : Complex F) : Res UtilsError F := .ok self.re

/-- `Complex::set_imaginary_part` — dsp/src/complex.rs:59-65. -/
def setImaginaryPart (im : F) : Op UtilsError (Complex F) Unit := do
  Utils.isValidValue im
  Op.modify fun self => { self with im := im }

/-- `Complex::get_imaginary_part` — dsp/src/complex.rs:68-70. -/
def getImaginaryPart (self : Complex F) : Res UtilsError F := .ok self.im

/-- `Complex::convert_from_polar` — dsp/src/complex.rs:73-84. -/
def convertFromPolar (r theta : F) : Op UtilsError (Complex F) Unit := do
  Utils.isValidValue r
  Utils.isValidValue theta
  setRealPart (r *ᶠ Scalar.cos theta)
  setImaginaryPart (r *ᶠ Scalar.sin theta)

/-- `Complex::neg` — dsp/src/complex.rs:87-92. -/
def neg : Op UtilsError (Complex F) Unit := do
  let self ← Op.get
  setRealPart (Scalar.neg self.re)
  let self ← Op.get
  setImaginaryPart (Scalar.neg self.im)

/-- `Complex::conjugate` — dsp/src/complex.rs:95-99. -/
def conjugate : Op UtilsError (Complex F) Unit := do
  let self ← Op.get
  setImaginaryPart (Scalar.neg self.im)

/-- `Complex::calculate_module` — dsp/src/complex.rs:102-110.  It takes `&mut self` but writes
nothing. -/
def calculateModule (self : Complex F) : Res UtilsError F := do
  let module_ := Scalar.sqrt (self.re *ᶠ self.re +ᶠ self.im *ᶠ self.im)
  if (← Utils.allclose module_ (lit 0) EPSILON) then .ok (lit 0) else .ok module_

/-- `Complex::expo` — dsp/src/complex.rs:113-125. -/
def expo : Op UtilsError (Complex F) Unit := do
  let self ← Op.get
  let m := Scalar.exp self.re
  if (← Utils.allclose m (lit 0) EPSILON) then
    Op.set { re := lit 0, im := lit 0 }
  else
    Op.set { re := m *ᶠ Scalar.cos self.im, im := m *ᶠ Scalar.sin self.im }

/-- `Complex::add` — dsp/src/complex.rs:128-133. -/
def add (z1 z2 : Complex F) : Op UtilsError (Complex F) Unit :=
  Op.set { re := z1.re +ᶠ z2.re, im := z1.im +ᶠ z2.im }

/-- `Complex::sub` — dsp/src/complex.rs:136-141. -/
def sub (z1 z2 : Complex F) : Op UtilsError (Complex F) Unit :=
  Op.set { re := z1.re -ᶠ z2.re, im := z1.im -ᶠ z2.im }

/-- `Complex::mul` — dsp/src/complex.rs:144-149. -/
def mul (z1 z2 : Complex F) : Op UtilsError (Complex F) Unit :=
  Op.set { re := z1.re *ᶠ z2.re -ᶠ z1.im *ᶠ z2.im, im := z1.re *ᶠ z2.im +ᶠ z1.im *ᶠ z2.re }

/-- `Complex::div` — dsp/src/complex.rs:152-164.  `&&` does not evaluate its second operand when the
first is false. -/
def div (z1 z2 : Complex F) : Op UtilsError (Complex F) Unit := do
  let c1 ← Utils.allclose z2.re (lit 0) EPSILON
  let c2 ← (if c1 then Utils.allclose z2.im (lit 0) EPSILON else .ok false : Res UtilsError Bool)
  if c2 then Op.fail .Nan
  else do
    let denominator := z2.re *ᶠ z2.re +ᶠ z2.im *ᶠ z2.im
    Op.set { re := (z1.re *ᶠ z2.re +ᶠ z1.im *ᶠ z2.im) /ᶠ denominator,
             im := (z1.im *ᶠ z2.re -ᶠ z1.re *ᶠ z2.im) /ᶠ denominator }

/-- `Complex::swap` — dsp/src/complex.rs:167-176.  The state is the pair `(self, other)`. -/
def swap : Op UtilsError (Complex F × Complex F) Unit := do
  let (self, other) ← Op.get
  let temp := self.re
  let self := { self with re := other.re }
  let other := { other with re := temp }
  let temp := self.im
  let self := { self with im := other.im }
  let other := { other with im := temp }
  Op.set (self, other)

end Complex

/-- `enum FFTError` — dsp/src/fft.rs:12-22. -/
inductive FFTError where
  | BitReverseError
  | UtilsError (e : Verif.UtilsError)
  deriving DecidableEq, Repr

/-- `FFT::bitrev` — dsp/src/fft.rs:41-58.  `n` and `r` are `u8`; the state of the loop is `(r, n)`.
`1 << s` with `s < 8` and the bitwise operations stay inside `u8`. -/
def bitrev (n b : UInt8) : Res FFTError UInt8 := do
  if b > 8 then fail .BitReverseError
  else do
    let (r, _) ← foldRangeRev 0 b.toNat
      (fun m (st : UInt8 × UInt8) => do
        let (r, n) := st
        if (n >>> UInt8.ofNat m) &&& 1 = 1 then
          .ok (r ||| ((1 : UInt8) <<< (b - 1 - UInt8.ofNat m)),
            n &&& ~~~((1 : UInt8) <<< UInt8.ofNat m))
        else .ok (r, n))
      ((0 : UInt8), n)
    .ok r

/-- `FFT` — dsp/src/fft.rs:26-29. -/
structure FFT (F : Type) where
  n : Nat
  elements : Fin 16 → F

variable {F : Type} [Scalar F]

/-- `FFT::new` — dsp/src/fft.rs:33-38.  It needs an existing `FFT`, which it ignores. -/
def FFT.new (_self : FFT F) : FFT F := { n := 16, elements := fun _ => lit 0 }

/-- `PI` — dsp/src/fft.rs:8. -/
def PI : F := lit (3141592653589793 / 1000000000000000)

/-- `x[i]` on a slice: an index outside panics. -/
def sliceGet {ε T : Type} (x : List T) (i : Nat) : Res ε T :=
  match x[i]? with
  | some v => .ok v
  | none => .error .panic

/-- The two inner loops of `dftmerge` for one value of `m` — dsp/src/fft.rs:68-84.  They read `x` and
compute into local variables only.  `(0..n).step_by(m)` is `i = m*t` for `t` below
`ceil(n / m)`. -/
def dftmergeStage (x : List (Complex F)) (n m : Nat) : Res FFTError Unit := do
  let w ← (Complex.new (lit 0) (lit (-2) *ᶠ PI /ᶠ lit m) : Res UtilsError (Complex F)).mapErr .UtilsError
  let v ← (Complex.new (lit 0) (lit 0) : Res UtilsError (Complex F)).mapErr .UtilsError
  let _ ← (exec w Complex.expo).mapErr .UtilsError
  foldRange 0 (m / 2)
    (fun k (_ : Unit) => foldRange 0 ((n + m - 1) / m)
      (fun t (_ : Unit) => do
        let p ← (u8Add F k (m * t) : Res FFTError Nat)
        let q ← (u8Add F p (m / 2) : Res FFTError Nat)
        let _ ← sliceGet x p
        let b ← (Complex.new (lit 0) (lit 0) : Res UtilsError (Complex F)).mapErr .UtilsError
        let xq ← sliceGet x q
        let _ ← (exec b (Complex.mul xq v)).mapErr .UtilsError
        .ok ()) ()) ()

/-- `u8` multiplication `m *= 2`. -/
def u8Double (F : Type) [Scalar F] {ε : Type} (m : Nat) : Res ε Nat :=
  if 2 * m < 256 then .ok (2 * m)
  else if Scalar.overflowChecks F then .error .panic
  else .ok (2 * m % 256)

/-- The `while m <= self.n` loop of `dftmerge` — dsp/src/fft.rs:62-87 — run for at most `fuel`
iterations; `none` means that the loop is still running after `fuel` iterations. -/
def dftmergeLoop (self : FFT F) (x : List (Complex F)) : (fuel m : Nat) →
    Option (Res FFTError Unit)
  | 0, _ => none
  | fuel + 1, m =>
    if m ≤ self.n then
      match dftmergeStage x self.n m with
      | .ok _ =>
        match (u8Double F m : Res FFTError Nat) with
        | .ok m' => dftmergeLoop self x fuel m'
        | .error e => some (.error e)
      | .error e => some (.error e)
    else some (.ok ())

end Dsp
end Verif
