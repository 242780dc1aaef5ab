import Verif.Model.Quaternion

/-
Histories of public linalg and quaternion calls.  A call is a value; `run` gives its meaning in
terms of the model.  `Reach o` says that the object `o` can arise in a program that only uses
public calls: it starts with freshly created objects, targets and operands are reachable objects,
and a failed call may leave its target changed.
-/

namespace Verif

/-- The objects a program handles. -/
inductive Obj (F : Type) where
  | vec (v : Vec F)
  | mat (m : Mat F)
  | u8 (p : Vec Nat)

/-- The `i8` values. -/
abbrev I8 : Type := { k : Int // -128 ≤ k ∧ k ≤ 127 }

/-- Public calls that change an f32 vector (`u8` arguments are `Fin 256`). -/
inductive VecCall (F : Type) where
  | init (n : Fin 256)
  | reinit (n : Fin 256)
  | setElement (i : Fin 256) (x : F)
  | fill (x : F)
  | copyFrom (v : Vec F)
  | add (v : Vec F) (w : Vec F)
  | addInPlace (v : Vec F)
  | sub (v : Vec F) (w : Vec F)
  | subInPlace (v : Vec F)
  | addScalar (v : Vec F) (x : F)
  | addScalarInPlace (x : F)
  | subScalar (v : Vec F) (x : F)
  | subScalarInPlace (x : F)
  | mulByScalar (v : Vec F) (x : F)
  | mulByScalarInPlace (x : F)
  | normalize
  | slerp (v : Vec F) (w : Vec F) (a : F)
  | lerp (v : Vec F) (w : Vec F) (a : F)
  | powerElements (x : F)
  | getRow (m : Mat F) (i : Fin 256)
  | getCol (m : Mat F) (i : Fin 256)
  | setQw (x : F)
  | setQx (x : F)
  | setQy (x : F)
  | setQz (x : F)
  | fillq (a : F) (b : F) (c : F) (d : F)
  | fillIdentity
  | conjugate
  | qmul (v : Vec F) (w : Vec F)
  | qinvert
  | qexp
  | hughes (m : Mat F)
  | chiaverini (m : Mat F)
  | sarabandi (m : Mat F) (eta : Option F)
  | rotatedBy (v : Vec F)

/-- Public calls that change a matrix. -/
inductive MatCall (F : Type) where
  | init (r : Fin 256) (c : Fin 256)
  | reinit (r : Fin 256) (c : Fin 256)
  | setElement (i : Fin 256) (j : Fin 256) (x : F)
  | setRow (v : Vec F) (i : Fin 256)
  | setCol (v : Vec F) (i : Fin 256)
  | addRow (v : Vec F) (i : Fin 256)
  | addCol (v : Vec F) (i : Fin 256)
  | delRow (i : Fin 256)
  | fill (x : F)
  | fillIdentity
  | copyFrom (a : Mat F)
  | add (a : Mat F) (b : Mat F)
  | addInPlace (a : Mat F)
  | sub (a : Mat F) (b : Mat F)
  | subInPlace (a : Mat F)
  | addScalar (a : Mat F) (x : F)
  | addScalarInPlace (x : F)
  | subScalar (a : Mat F) (x : F)
  | subScalarInPlace (x : F)
  | mul (a : Mat F) (b : Mat F)
  | transpose
  | invert
  | mulByScalarInPlace (x : F)
  | powerElements (x : F)
  | logInPlace
  | adjugateInPlace

/-- Public calls that change a u8 vector. -/
inductive U8Call  where
  | init (n : Fin 256)
  | reinit (n : Fin 256)
  | setElement (i : Fin 256) (x : Fin 256)

/-- Public calls that only read their operands and may return new objects. -/
inductive ReadCall (F : Type) where
  | vGetRows (v : Vec F)
  | vGetElement (v : Vec F) (i : Fin 256)
  | uGetRows (p : Vec Nat)
  | uGetElement (p : Vec Nat) (i : Fin 256)
  | vIsSameSizeAs (v : Vec F) (w : Vec F)
  | vIsEqualTo (v : Vec F) (w : Vec F) (d : F)
  | vDuplicate (v : Vec F)
  | vAddNew (v : Vec F) (w : Vec F)
  | vSubNew (v : Vec F) (w : Vec F)
  | vAddScalarNew (v : Vec F) (x : F)
  | vSubScalarNew (v : Vec F) (x : F)
  | vMulByScalarNew (v : Vec F) (x : F)
  | vNorm (v : Vec F)
  | vDot (v : Vec F) (w : Vec F)
  | vOuter (v : Vec F) (w : Vec F)
  | vToMatrix (v : Vec F)
  | mGetRows (a : Mat F)
  | mGetCols (a : Mat F)
  | mGetElement (a : Mat F) (i : Fin 256) (j : Fin 256)
  | mRowToVector (a : Mat F) (i : Fin 256)
  | mColToVector (a : Mat F) (i : Fin 256)
  | mIsSameSizeAs (a : Mat F) (b : Mat F)
  | mIsSquare (a : Mat F)
  | mIsEqualTo (a : Mat F) (b : Mat F) (d : F)
  | mDuplicate (a : Mat F)
  | mAddNew (a : Mat F) (b : Mat F)
  | mSubNew (a : Mat F) (b : Mat F)
  | mAddScalarNew (a : Mat F) (x : F)
  | mSubScalarNew (a : Mat F) (x : F)
  | mMulNew (a : Mat F) (b : Mat F)
  | mTransposeNew (a : Mat F)
  | mTrace (a : Mat F)
  | mLr (a : Mat F)
  | mLuCrout (a : Mat F)
  | mQrDecomp (a : Mat F)
  | mIsUpperTriangular (a : Mat F)
  | mIsLowerTriangular (a : Mat F)
  | mFrobenius (a : Mat F)
  | mDet (a : Mat F)
  | mDetNaive (a : Mat F)
  | mIsSymmetric (a : Mat F)
  | mIsPositiveDefinite (a : Mat F)
  | mChol (a : Mat F)
  | mDlyap (a : Mat F) (b : Mat F)
  | mIsOrthogonal (a : Mat F)
  | mIsSoN (a : Mat F)
  | mDiag (a : Mat F) (k : Option I8)
  | mLog (a : Mat F)
  | lup (a : Mat F)
  | solve (a : Mat F) (v : Vec F) (p : Vec Nat)
  | eigen (a : Mat F) (niter : Fin 65536) (shifted : Bool)
  | qIsQuaternion (v : Vec F)
  | qIsReal (v : Vec F)
  | qIsPure (v : Vec F)
  | qIsVersor (v : Vec F)
  | qIsIdentity (v : Vec F)
  | qGetQw (v : Vec F)
  | qGetQx (v : Vec F)
  | qGetQy (v : Vec F)
  | qGetQz (v : Vec F)
  | qGetVectorPart (v : Vec F)
  | qConjugateNew (v : Vec F)
  | qMulNew (v : Vec F) (w : Vec F)
  | qConvertToDcm (v : Vec F)
  | qExpNew (v : Vec F)
  | qConvertToEuler (v : Vec F)
  | qRotate (v : Vec F) (w : Vec F)

section
variable {F : Type}

/-- The objects a call reads besides its target. -/
def VecCall.operands : VecCall F → List (Obj F)
  | .copyFrom v => [.vec v]
  | .add v w => [.vec v, .vec w]
  | .addInPlace v => [.vec v]
  | .sub v w => [.vec v, .vec w]
  | .subInPlace v => [.vec v]
  | .addScalar v _ => [.vec v]
  | .subScalar v _ => [.vec v]
  | .mulByScalar v _ => [.vec v]
  | .slerp v w _ => [.vec v, .vec w]
  | .lerp v w _ => [.vec v, .vec w]
  | .getRow m _ => [.mat m]
  | .getCol m _ => [.mat m]
  | .qmul v w => [.vec v, .vec w]
  | .hughes m => [.mat m]
  | .chiaverini m => [.mat m]
  | .sarabandi m _ => [.mat m]
  | .rotatedBy v => [.vec v]
  | _ => []

/-- The objects a call reads besides its target. -/
def MatCall.operands : MatCall F → List (Obj F)
  | .setRow v _ => [.vec v]
  | .setCol v _ => [.vec v]
  | .addRow v _ => [.vec v]
  | .addCol v _ => [.vec v]
  | .copyFrom a => [.mat a]
  | .add a b => [.mat a, .mat b]
  | .addInPlace a => [.mat a]
  | .sub a b => [.mat a, .mat b]
  | .subInPlace a => [.mat a]
  | .addScalar a _ => [.mat a]
  | .subScalar a _ => [.mat a]
  | .mul a b => [.mat a, .mat b]
  | _ => []

/-- The objects a call reads besides its target. -/
def ReadCall.operands : ReadCall F → List (Obj F)
  | .vGetRows v => [.vec v]
  | .vGetElement v _ => [.vec v]
  | .uGetRows p => [.u8 p]
  | .uGetElement p _ => [.u8 p]
  | .vIsSameSizeAs v w => [.vec v, .vec w]
  | .vIsEqualTo v w _ => [.vec v, .vec w]
  | .vDuplicate v => [.vec v]
  | .vAddNew v w => [.vec v, .vec w]
  | .vSubNew v w => [.vec v, .vec w]
  | .vAddScalarNew v _ => [.vec v]
  | .vSubScalarNew v _ => [.vec v]
  | .vMulByScalarNew v _ => [.vec v]
  | .vNorm v => [.vec v]
  | .vDot v w => [.vec v, .vec w]
  | .vOuter v w => [.vec v, .vec w]
  | .vToMatrix v => [.vec v]
  | .mGetRows a => [.mat a]
  | .mGetCols a => [.mat a]
  | .mGetElement a _ _ => [.mat a]
  | .mRowToVector a _ => [.mat a]
  | .mColToVector a _ => [.mat a]
  | .mIsSameSizeAs a b => [.mat a, .mat b]
  | .mIsSquare a => [.mat a]
  | .mIsEqualTo a b _ => [.mat a, .mat b]
  | .mDuplicate a => [.mat a]
  | .mAddNew a b => [.mat a, .mat b]
  | .mSubNew a b => [.mat a, .mat b]
  | .mAddScalarNew a _ => [.mat a]
  | .mSubScalarNew a _ => [.mat a]
  | .mMulNew a b => [.mat a, .mat b]
  | .mTransposeNew a => [.mat a]
  | .mTrace a => [.mat a]
  | .mLr a => [.mat a]
  | .mLuCrout a => [.mat a]
  | .mQrDecomp a => [.mat a]
  | .mIsUpperTriangular a => [.mat a]
  | .mIsLowerTriangular a => [.mat a]
  | .mFrobenius a => [.mat a]
  | .mDet a => [.mat a]
  | .mDetNaive a => [.mat a]
  | .mIsSymmetric a => [.mat a]
  | .mIsPositiveDefinite a => [.mat a]
  | .mChol a => [.mat a]
  | .mDlyap a b => [.mat a, .mat b]
  | .mIsOrthogonal a => [.mat a]
  | .mIsSoN a => [.mat a]
  | .mDiag a _ => [.mat a]
  | .mLog a => [.mat a]
  | .lup a => [.mat a]
  | .solve a v p => [.mat a, .vec v, .u8 p]
  | .eigen a _ _ => [.mat a]
  | .qIsQuaternion v => [.vec v]
  | .qIsReal v => [.vec v]
  | .qIsPure v => [.vec v]
  | .qIsVersor v => [.vec v]
  | .qIsIdentity v => [.vec v]
  | .qGetQw v => [.vec v]
  | .qGetQx v => [.vec v]
  | .qGetQy v => [.vec v]
  | .qGetQz v => [.vec v]
  | .qGetVectorPart v => [.vec v]
  | .qConjugateNew v => [.vec v]
  | .qMulNew v w => [.vec v, .vec w]
  | .qConvertToDcm v => [.vec v]
  | .qExpNew v => [.vec v]
  | .qConvertToEuler v => [.vec v]
  | .qRotate v w => [.vec v, .vec w]

variable [Scalar F]

/-- The meaning of a call on a vector. -/
def VecCall.run : VecCall F → Op LinalgError (Vec F) Unit
  | .init n => Vec.init n
  | .reinit n => Vec.reinit n
  | .setElement i x => Vec.setElement i x
  | .fill x => Vec.fill x
  | .copyFrom v => Vec.copyFrom v
  | .add v w => Vec.add v w
  | .addInPlace v => Vec.addInPlace v
  | .sub v w => Vec.sub v w
  | .subInPlace v => Vec.subInPlace v
  | .addScalar v x => Vec.addScalar v x
  | .addScalarInPlace x => Vec.addScalarInPlace x
  | .subScalar v x => Vec.subScalar v x
  | .subScalarInPlace x => Vec.subScalarInPlace x
  | .mulByScalar v x => Vec.mulByScalar v x
  | .mulByScalarInPlace x => Vec.mulByScalarInPlace x
  | .normalize => Vec.normalize
  | .slerp v w a => Vec.slerp v w a
  | .lerp v w a => Vec.lerp v w a
  | .powerElements x => Vec.powerElements x
  | .getRow m i => m.getRow i
  | .getCol m i => m.getCol i
  | .setQw x => Quat.setQw x
  | .setQx x => Quat.setQx x
  | .setQy x => Quat.setQy x
  | .setQz x => Quat.setQz x
  | .fillq a b c d => Quat.fillq a b c d
  | .fillIdentity => Quat.fillIdentity
  | .conjugate => Quat.conjugate
  | .qmul v w => Quat.mul v w
  | .qinvert => Quat.invert
  | .qexp => Quat.exp
  | .hughes m => Quat.hughes m
  | .chiaverini m => Quat.chiaverini m
  | .sarabandi m eta => Quat.sarabandi m eta
  | .rotatedBy v => Quat.rotateInPlace v

/-- The meaning of a call on a matrix; the result lists the objects returned to the caller. -/
def MatCall.run : MatCall F → Op LinalgError (Mat F) (List (Obj F))
  | .init r c => do Mat.init r c; return []
  | .reinit r c => do Mat.reinit r c; return []
  | .setElement i j x => do Mat.setElement i j x; return []
  | .setRow v i => do Mat.setRow v i; return []
  | .setCol v i => do Mat.setCol v i; return []
  | .addRow v i => do Mat.addRow v i; return []
  | .addCol v i => do Mat.addCol v i; return []
  | .delRow i => do return [.vec (← Mat.delRow i)]
  | .fill x => do Mat.fill x; return []
  | .fillIdentity => do Mat.fillIdentity; return []
  | .copyFrom a => do Mat.copyFrom a; return []
  | .add a b => do Mat.add a b; return []
  | .addInPlace a => do Mat.addInPlace a; return []
  | .sub a b => do Mat.sub a b; return []
  | .subInPlace a => do Mat.subInPlace a; return []
  | .addScalar a x => do Mat.addScalar a x; return []
  | .addScalarInPlace x => do Mat.addScalarInPlace x; return []
  | .subScalar a x => do Mat.subScalar a x; return []
  | .subScalarInPlace x => do Mat.subScalarInPlace x; return []
  | .mul a b => do Mat.mul a b; return []
  | .transpose => do Mat.transpose; return []
  | .invert => do Mat.invert; return []
  | .mulByScalarInPlace x => do Mat.mulByScalarInPlace x; return []
  | .powerElements x => do Mat.powerElements x; return []
  | .logInPlace => do Mat.logInPlace; return []
  | .adjugateInPlace => do Mat.adjugateInPlace; return []

/-- The meaning of a call on a u8 vector. -/
def U8Call.run : U8Call → Op LinalgError (Vec Nat) Unit
  | .init n => Vec.init n
  | .reinit n => Vec.reinit n
  | .setElement i x => Vec.setElementU8 i x

/-- The meaning of a read-only call; the result lists the objects returned to the caller. -/
def ReadCall.run : ReadCall F → Res LinalgError (List (Obj F))
  | .vGetRows v => do let _ ← v.getRows; return []
  | .vGetElement v i => do let _ ← v.getElement i; return []
  | .uGetRows p => do let _ ← p.getRows; return []
  | .uGetElement p i => do let _ ← p.getElementU8 i; return []
  | .vIsSameSizeAs v w => do let _ ← v.isSameSizeAs w; return []
  | .vIsEqualTo v w d => do let _ ← v.isEqualTo w d; return []
  | .vDuplicate v => do return [.vec (← v.duplicate)]
  | .vAddNew v w => do return [.vec (← v.addNew w)]
  | .vSubNew v w => do return [.vec (← v.subNew w)]
  | .vAddScalarNew v x => do return [.vec (← v.addScalarNew x)]
  | .vSubScalarNew v x => do return [.vec (← v.subScalarNew x)]
  | .vMulByScalarNew v x => do return [.vec (← v.mulByScalarNew x)]
  | .vNorm v => do let _ ← v.calculateNorm; return []
  | .vDot v w => do let _ ← v.dotProduct w; return []
  | .vOuter v w => do return [.mat (← v.outerProduct w)]
  | .vToMatrix v => do return [.mat (← v.convertToMatrix)]
  | .mGetRows a => do let _ ← a.getRows; return []
  | .mGetCols a => do let _ ← a.getCols; return []
  | .mGetElement a i j => do let _ ← a.getElement i j; return []
  | .mRowToVector a i => do return [.vec (← a.rowToVector i)]
  | .mColToVector a i => do return [.vec (← a.colToVector i)]
  | .mIsSameSizeAs a b => do let _ ← a.isSameSizeAs b; return []
  | .mIsSquare a => do let _ ← a.isSquare; return []
  | .mIsEqualTo a b d => do let _ ← a.isEqualTo b d; return []
  | .mDuplicate a => do return [.mat (← a.duplicate)]
  | .mAddNew a b => do return [.mat (← a.addNew b)]
  | .mSubNew a b => do return [.mat (← a.subNew b)]
  | .mAddScalarNew a x => do return [.mat (← a.addScalarNew x)]
  | .mSubScalarNew a x => do return [.mat (← a.subScalarNew x)]
  | .mMulNew a b => do return [.mat (← a.mulNew b)]
  | .mTransposeNew a => do return [.mat (← a.transposeNew)]
  | .mTrace a => do let _ ← a.trace; return []
  | .mLr a => do let r ← a.lr; return [.mat r.1, .mat r.2]
  | .mLuCrout a => do let r ← a.luCrout; return [.mat r.1, .mat r.2]
  | .mQrDecomp a => do let r ← a.qrDecomp; return [.mat r.1, .mat r.2]
  | .mIsUpperTriangular a => do let _ ← a.isUpperTriangular; return []
  | .mIsLowerTriangular a => do let _ ← a.isLowerTriangular; return []
  | .mFrobenius a => do let _ ← a.calculateFrobeniusNorm; return []
  | .mDet a => do let _ ← a.det; return []
  | .mDetNaive a => do let _ ← a.detNaive; return []
  | .mIsSymmetric a => do let _ ← a.isSymmetric; return []
  | .mIsPositiveDefinite a => do let _ ← a.isPositiveDefinite; return []
  | .mChol a => do return [.mat (← a.chol)]
  | .mDlyap a b => do return [.mat (← a.dlyap b)]
  | .mIsOrthogonal a => do let _ ← a.isOrthogonal; return []
  | .mIsSoN a => do let _ ← a.isSoN; return []
  | .mDiag a k => do return [.vec (← a.diag (k.map (·.val)))]
  | .mLog a => do return [.mat (← a.log)]
  | .lup a => do let r ← Linalg.lup a; return [.mat r.1, .u8 r.2]
  | .solve a v p => do return [.vec (← Linalg.solve a v p)]
  | .eigen a niter shifted => do let r ← Linalg.eigen a niter shifted; return [.vec r.1, .mat r.2]
  | .qIsQuaternion v => do let _ ← Quat.isQuaternion v; return []
  | .qIsReal v => do let _ ← Quat.isReal v; return []
  | .qIsPure v => do let _ ← Quat.isPure v; return []
  | .qIsVersor v => do let _ ← Quat.isVersor v; return []
  | .qIsIdentity v => do let _ ← Quat.isIdentity v; return []
  | .qGetQw v => do let _ ← Quat.getQw v; return []
  | .qGetQx v => do let _ ← Quat.getQx v; return []
  | .qGetQy v => do let _ ← Quat.getQy v; return []
  | .qGetQz v => do let _ ← Quat.getQz v; return []
  | .qGetVectorPart v => do return [.vec (← Quat.getVectorPart v)]
  | .qConjugateNew v => do return [.vec (← Quat.conjugateNew v)]
  | .qMulNew v w => do return [.vec (← Quat.mulNew v w)]
  | .qConvertToDcm v => do return [.mat (← Quat.convertToDcm v)]
  | .qExpNew v => do return [.vec (← Quat.expNew v)]
  | .qConvertToEuler v => do let _ ← Quat.convertToEuler v; return []
  | .qRotate v w => do return [.vec (← Quat.rotate v w)]

/-- Objects that occur in histories of public calls. -/
inductive Reach : Obj F → Prop where
  | newVec : Reach (.vec Vec.new)
  | newMat : Reach (.mat Mat.new)
  | newU8 : Reach (.u8 Vec.newU8)
  | vecCall (c : VecCall F) (v : Vec F) (hv : Reach (.vec v)) (ho : ∀ o ∈ c.operands, Reach o) :
      Reach (.vec (c.run v).2)
  | matCall (c : MatCall F) (m : Mat F) (hm : Reach (.mat m)) (ho : ∀ o ∈ c.operands, Reach o) :
      Reach (.mat (c.run m).2)
  | matResult (c : MatCall F) (m : Mat F) (hm : Reach (.mat m)) (ho : ∀ o ∈ c.operands, Reach o)
      (os : List (Obj F)) (hr : (c.run m).1 = .ok os) (o : Obj F) (h : o ∈ os) : Reach o
  | u8Call (c : U8Call) (p : Vec Nat) (hp : Reach (.u8 p)) : Reach (.u8 (c.run p).2)
  | readResult (c : ReadCall F) (ho : ∀ o ∈ c.operands, Reach o) (os : List (Obj F))
      (hr : c.run = .ok os) (o : Obj F) (h : o ∈ os) : Reach o

end
end Verif
