import Verif.Props.Uninit
import Verif.Lib.Exact
import Verif.Lib.MatOps

/-
Operands of the wrong shape (C87): what every method answers.  The objects are initialised; the shapes
are otherwise arbitrary.
-/

set_option linter.unusedSectionVars false
set_option linter.unusedSimpArgs false

namespace Verif
open Scalar

section
variable {F : Type} [Scalar F] {α : Type}

/-- `Err(e)`. -/
abbrev answers (e : LinalgError) : Res LinalgError α := .error (.err e)

/-! ### Vectors -/

section
variable {v w : Vec F} (hv : v.isInitialized = true) (hw : w.isInitialized = true) (hr : v.rows ≠ w.rows)
include hv hw hr

/-- C87: element-wise operations between vectors of different sizes fail with `NotSameSize` and change nothing;
`is_same_size_as` and `is_equal_to` answer `false`. -/
theorem C87_vec (x : F) :
    v.isSameSizeAs w = .ok false ∧ v.isEqualTo w x = .ok false ∧
    v.addNew w = answers .NotSameSize ∧ v.subNew w = answers .NotSameSize ∧
    v.dotProduct w = answers .NotSameSize ∧
    Vec.copyFrom w v = (answers .NotSameSize, v) ∧
    Vec.addInPlace w v = (answers .NotSameSize, v) ∧ Vec.subInPlace w v = (answers .NotSameSize, v) ∧
    Vec.addScalar w x v = (answers .NotSameSize, v) ∧ Vec.subScalar w x v = (answers .NotSameSize, v) ∧
    Vec.mulByScalar w x v = (answers .NotSameSize, v) := by
  have h1 : v.initialized = true := hv
  have h2 : w.initialized = true := hw
  refine ⟨?_, ?_, ?_, ?_, ?_, ?_, ?_, ?_, ?_, ?_, ?_⟩
  all_goals
    simp [Vec.isSameSizeAs, Vec.isEqualTo, Vec.addNew, Vec.subNew, Vec.dotProduct, Vec.copyFrom, Vec.addInPlace,
      Vec.subInPlace, Vec.addScalar, Vec.subScalar, Vec.mulByScalar, h1, h2, hr, fail]

/-- C87: three-operand operations fail with `NotSameSize` and change nothing when either operand has another size
than the target. -/
theorem C87_vec_three (u : Vec F) (hu : u.isInitialized = true) (x : F) :
    Vec.add w u v = (answers .NotSameSize, v) ∧ Vec.add u w v = (answers .NotSameSize, v) ∧
    Vec.sub w u v = (answers .NotSameSize, v) ∧ Vec.sub u w v = (answers .NotSameSize, v) ∧
    (Utils.inRange x (lit 0) (lit 1) = true →
      Vec.lerp w u x v = (answers .NotSameSize, v) ∧ Vec.lerp u w x v = (answers .NotSameSize, v) ∧
      Vec.slerp w u x v = (answers .NotSameSize, v) ∧ Vec.slerp u w x v = (answers .NotSameSize, v)) ∧
    (Utils.inRange x (lit 0) (lit 1) = false →
      Vec.lerp w u x v = (answers .InvalidAlpha, v) ∧ Vec.slerp w u x v = (answers .InvalidAlpha, v)) := by
  have h1 : v.initialized = true := hv
  have h2 : w.initialized = true := hw
  have h3 : u.initialized = true := hu
  have e1 : v.isSameSizeAs w = .ok false := by simp [Vec.isSameSizeAs, h1, h2, hr]
  have e2 : v.isSameSizeAs u = .ok true ∨ v.isSameSizeAs u = .ok false := by
    by_cases h : v.rows = u.rows <;> simp [Vec.isSameSizeAs, h1, h3, h]
  refine ⟨?_, ?_, ?_, ?_, fun hx => ⟨?_, ?_, ?_, ?_⟩, fun hx => ⟨?_, ?_⟩⟩
  all_goals
    rcases e2 with e2 | e2 <;> simp [Vec.add, Vec.sub, Vec.lerp, Vec.slerp, e1, e2, fail]
  all_goals simp [hx, e1, e2]

end

/-- C87: the quaternion methods refuse a vector that does not have four rows with `InvalidSize` and change
nothing. -/
theorem C87_quat {v : Vec F} (hv : v.isInitialized = true) (h4 : v.rows ≠ 4) (u w : Vec F) (m : Mat F)
    (eta : Option F) (x y z t : F) :
    Quat.isQuaternion v = .ok false ∧ Quat.isReal v = answers .InvalidSize ∧ Quat.isPure v = answers .InvalidSize ∧
    Quat.isVersor v = answers .InvalidSize ∧ Quat.isIdentity v = answers .InvalidSize ∧
    Quat.getQw v = answers .InvalidSize ∧ Quat.getQx v = answers .InvalidSize ∧
    Quat.getQy v = answers .InvalidSize ∧ Quat.getQz v = answers .InvalidSize ∧
    Quat.getVectorPart v = answers .InvalidSize ∧ Quat.mulNew v w = answers .InvalidSize ∧
    Quat.convertToEuler v = answers .InvalidSize ∧
    Quat.setQw x v = (answers .InvalidSize, v) ∧ Quat.setQx x v = (answers .InvalidSize, v) ∧
    Quat.setQy x v = (answers .InvalidSize, v) ∧ Quat.setQz x v = (answers .InvalidSize, v) ∧
    Quat.fillq x y z t v = (answers .InvalidSize, v) ∧ Quat.conjugate v = (answers .InvalidSize, v) ∧
    Quat.mul u w v = (answers .InvalidSize, v) ∧ Quat.hughes m v = (answers .InvalidSize, v) ∧
    Quat.chiaverini m v = (answers .InvalidSize, v) ∧ Quat.sarabandi m eta v = (answers .InvalidSize, v) := by
  have h : v.initialized = true := hv
  refine ⟨?_, ?_, ?_, ?_, ?_, ?_, ?_, ?_, ?_, ?_, ?_, ?_, ?_, ?_, ?_, ?_, ?_, ?_, ?_, ?_, ?_, ?_⟩
  all_goals
    simp [Quat.isQuaternion, Quat.isReal, Quat.isPure, Quat.isVersor, Quat.isIdentity, Quat.getQw, Quat.getQx, Quat.getQy,
      Quat.getQz, Quat.getComponent, Quat.getVectorPart, Quat.mulNew, Quat.setQw, Quat.setQx, Quat.setQy, Quat.setQz,
      Quat.setComponent, Quat.fillq, Quat.conjugate, Quat.mul, Quat.convertToEuler, Quat.hughes, Quat.chiaverini,
      Quat.sarabandi, Vec.getRows, h, h4, fail]

/-- C87: a product with an operand that does not have four rows fails with `InvalidSize`, on either side; a vector
to be rotated must have three rows. -/
theorem C87_quat_operand {v : Vec F} (hv : v.isInitialized = true) (h4 : v.rows ≠ 4) {q p : Vec F}
    (hq : q.isInitialized = true) (hp : p.isInitialized = true) (q4 : q.rows = 4) (p4 : p.rows = 4) :
    Quat.mulNew q v = answers .InvalidSize ∧ Quat.mul v p q = (answers .InvalidSize, q) ∧
    Quat.mul p v q = (answers .InvalidSize, q) ∧
    (v.rows ≠ 3 → Quat.rotate q v = answers .InvalidSize ∧
      Quat.rotateInPlace q v = (answers .InvalidSize, v)) := by
  have h : v.initialized = true := hv
  have h1 : q.initialized = true := hq
  have h2 : p.initialized = true := hp
  refine ⟨?_, ?_, ?_, fun h3 => ⟨?_, ?_⟩⟩
  case refine_4 => simp [Quat.rotate, Vec.getRows, h, h3, fail]
  case refine_5 => simp [Quat.rotateInPlace, Vec.getRows, h, h3, fail]
  all_goals
    simp [Quat.isQuaternion, Quat.mulNew, Quat.mul, Vec.getRows, h, h1, h2, h4, q4, p4, fail]

/-! ### Matrices -/

section
variable {a b : Mat F} (ha : a.isInitialized = true) (hb : b.isInitialized = true)
include ha hb

/-- C87: element-wise operations between matrices of different shapes fail with `NotSameSize` and change
nothing; `is_same_size_as` and `is_equal_to` answer `false`.  One equal dimension is not enough. -/
theorem C87_mat (hr : a.rows ≠ b.rows ∨ a.cols ≠ b.cols) (x : F) :
    a.isSameSizeAs b = .ok false ∧ a.isEqualTo b x = .ok false ∧
    a.addNew b = answers .NotSameSize ∧ a.subNew b = answers .NotSameSize ∧
    Mat.copyFrom b a = (answers .NotSameSize, a) ∧
    Mat.addInPlace b a = (answers .NotSameSize, a) ∧ Mat.subInPlace b a = (answers .NotSameSize, a) ∧
    Mat.addScalar b x a = (answers .NotSameSize, a) ∧ Mat.subScalar b x a = (answers .NotSameSize, a) := by
  have h1 : a.initialized = true := ha
  have h2 : b.initialized = true := hb
  have e : a.isSameSizeAs b = .ok false := by
    simp only [Mat.isSameSizeAs, h1, h2]
    simp [hr]
  refine ⟨e, ?_, ?_, ?_, ?_, ?_, ?_, ?_, ?_⟩
  all_goals
    simp [Mat.isEqualTo, Mat.addNew, Mat.subNew, Mat.copyFrom, Mat.addInPlace,
      Mat.subInPlace, Mat.addScalar, Mat.subScalar, e, fail]

/-- C87: three-operand operations refuse either operand of another shape than the target. -/
theorem C87_mat_three (hr : a.rows ≠ b.rows ∨ a.cols ≠ b.cols) (c : Mat F) (hc : c.isInitialized = true) :
    Mat.add b c a = (answers .NotSameSize, a) ∧ Mat.add c b a = (answers .NotSameSize, a) ∧
    Mat.sub b c a = (answers .NotSameSize, a) ∧ Mat.sub c b a = (answers .NotSameSize, a) := by
  have h1 : a.initialized = true := ha
  have h3 : c.initialized = true := hc
  have e1 := (C87_mat ha hb hr (lit 0)).1
  have e2 : a.isSameSizeAs c = .ok true ∨ a.isSameSizeAs c = .ok false := by
    simp only [Mat.isSameSizeAs, h1, h3]
    by_cases h : a.rows ≠ c.rows ∨ a.cols ≠ c.cols <;> simp [h]
  refine ⟨?_, ?_, ?_, ?_⟩
  all_goals
    rcases e2 with e2 | e2 <;> simp [Mat.add, Mat.sub, e1, e2, fail]

/-- C87: a product is refused with `InvalidSize` when the inner dimensions differ, or the target does not have
the outer dimensions; the target is unchanged. -/
theorem C87_mul (s : Mat F) :
    (a.cols ≠ b.rows → Mat.mul a b s = (answers .InvalidSize, s)) ∧
    (s.rows ≠ a.rows ∨ s.cols ≠ b.cols → Mat.mul a b s = (answers .InvalidSize, s)) ∧
    (a.cols ≠ b.rows → 1 ≤ a.rows → a.rows ≤ 4 → 1 ≤ b.cols → b.cols ≤ 4 →
      a.mulNew b = answers .InvalidSize) := by
  have h1 : a.initialized = true := ha
  have h2 : b.initialized = true := hb
  have key : ∀ t : Mat F, (a.cols ≠ b.rows → Mat.mul a b t = (answers .InvalidSize, t)) := by
    intro t h
    simp [Mat.mul, h, fail]
  refine ⟨key s, fun h => ?_, fun h r1 r4 c1 c4 => ?_⟩
  · have : a.cols ≠ b.rows ∨ s.rows ≠ a.rows ∨ s.cols ≠ b.cols := Or.inr h
    simp only [Mat.mul, Op.get_bind, if_pos this]
    rfl
  · have hr := Mat.init_new (F := F) r1 r4 c1 c4
    simp only [Mat.mulNew, Mat.getRows, Mat.getCols, h1, h2]
    simp only [Bool.not_true, Bool.false_eq_true, if_false, Res.ok_bind, hr]
    simp [exec, key _ h]

end

/-- C87: operations that need a square matrix refuse any other with `NotSquare` and change nothing; the tests
built on the determinant refuse it too, `is_square` and `is_symmetric` answer `false`, and positive
definiteness and Cholesky refuse it as `NotSymetric`. -/
theorem C87_square {a : Mat F} (ha : a.isInitialized = true) (hs : a.rows ≠ a.cols) (q : Mat F) (v : Vec F)
    (p : Vec Nat) (niter : Nat) (sh : Bool) :
    a.isSquare = .ok false ∧ a.isSymmetric = .ok false ∧ a.trace = answers .NotSquare ∧
    a.det = answers .NotSquare ∧ a.detNaive = answers .NotSquare ∧ a.lr = answers .NotSquare ∧
    a.luCrout = answers .NotSquare ∧ a.dlyap q = answers .NotSquare ∧
    Linalg.solve a v p = answers .NotSquare ∧ Linalg.eigen a niter sh = answers .NotSquare ∧
    a.isOrthogonal = answers .NotSquare ∧ a.isSoN = answers .NotSquare ∧ a.log = answers .NotSquare ∧
    a.isPositiveDefinite = answers .NotSymetric ∧ a.chol = answers .NotSymetric ∧
    Mat.fillIdentity a = (answers .NotSquare, a) ∧ Mat.invert a = (answers .NotSquare, a) ∧
    Mat.logInPlace a = (answers .NotSquare, a) ∧ Mat.adjugateInPlace a = (answers .NotSquare, a) := by
  have h : a.initialized = true := ha
  have e : a.isSquare = .ok false := by simp [Mat.isSquare, h, hs]
  have ed : a.det = answers .NotSquare := by simp [Mat.det, e, fail]
  have eo : a.isSoN = answers .NotSquare := by simp [Mat.isSoN, ed]
  refine ⟨e, ?_, ?_, ed, ?_, ?_, ?_, ?_, ?_, ?_, ?_, eo, ?_, ?_, ?_, ?_, ?_, ?_, ?_⟩
  all_goals
    simp [Mat.trace, Mat.isSymmetric, Mat.detNaive, Mat.lr, Mat.luCrout, Mat.dlyap, Linalg.solve, Linalg.eigen,
      Mat.isOrthogonal, Mat.log, Mat.isPositiveDefinite, Mat.chol, Mat.fillIdentity, Mat.invert, Mat.logInPlace,
      Mat.adjugateInPlace, e, ed, eo, fail]

/-- C87: rows and columns are exchanged only with vectors of the right length. -/
theorem C87_views (a : Mat F) {v : Vec F} (hv : v.isInitialized = true) (i : Nat) :
    (a.cols ≠ v.rows → Mat.setRow v i a = (answers .InvalidSize, a) ∧ a.getRow i v = (answers .InvalidSize, v)) ∧
    (a.rows ≠ v.rows → Mat.setCol v i a = (answers .InvalidSize, a) ∧ a.getCol i v = (answers .InvalidSize, v)) := by
  have h : v.initialized = true := hv
  refine ⟨fun hc => ⟨?_, ?_⟩, fun hc => ⟨?_, ?_⟩⟩
  all_goals simp [Mat.setRow, Mat.getRow, Mat.setCol, Mat.getCol, Vec.getRows, h, hc, fail]

/-- A 2×3 matrix and a vector of three rows. -/
example : (Mat.of 2 3 (fun _ _ => (lit 1 : F))).det = answers .NotSquare ∧
    (Vec.of 3 (fun _ => (lit 1 : F))).dotProduct (Vec.of 4 (fun _ => lit 1)) = answers .NotSameSize ∧
    Quat.getQw (Vec.of 3 (fun _ => (lit 1 : F))) = answers .InvalidSize :=
  ⟨(C87_square (a := Mat.of 2 3 _) rfl (by simp [Mat.of, Vec.of]) Mat.new Vec.new Vec.newU8 0 false).2.2.2.1,
    (C87_vec (v := Vec.of 3 _) (w := Vec.of 4 _) rfl rfl (by simp [Mat.of, Vec.of]) (lit 0)).2.2.2.2.1,
    (C87_quat (v := Vec.of 3 _) rfl (by simp [Mat.of, Vec.of]) Vec.new Vec.new Mat.new none (lit 0) (lit 0) (lit 0)
      (lit 0)).2.2.2.2.2.1⟩

end

end Verif
