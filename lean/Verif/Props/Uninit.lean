import Verif.Model.Quaternion
import Verif.Lib.Store

/-
Objects that are not initialised (C86): what every method answers.  An object is in this state after
`new` (with zero dimensions), and after a `reinit` that failed (with the old dimensions).
-/

set_option linter.unusedSectionVars false
set_option linter.unusedSimpArgs false

namespace Verif
open Scalar

section
variable {F : Type} [Scalar F] {α : Type}

/-- `Err(NotInit)`. -/
abbrev notInit : Res LinalgError α := .error (.err .NotInit)

theorem forRange_fails {ε σ : Type} {body : Nat → Op ε σ Unit} {s s' : σ} {e : Fail ε} {n : Nat} (hn : n ≠ 0)
    (h : body 0 s = (.error e, s')) : forRange 0 n body s = (.error e, s') := by
  obtain ⟨k, rfl⟩ : ∃ k, n = k + 1 := ⟨n - 1, by omega⟩
  show Op.bind (body 0) _ s = _
  rw [Op.bind_eq, Op.bind_err h]

theorem foldRange_fails {ε β : Type} {body : Nat → β → Res ε β} {b : β} {e : Fail ε} {n : Nat} (hn : n ≠ 0)
    (h : body 0 b = .error e) : foldRange 0 n body b = .error e := by
  obtain ⟨k, rfl⟩ : ∃ k, n = k + 1 := ⟨n - 1, by omega⟩
  show foldFrom 0 (k + 1) body b = _
  unfold foldFrom
  rw [h]

theorem forRange_none {ε σ : Type} (body : Nat → Op ε σ Unit) (s : σ) :
    forRange 0 0 body s = (.ok (), s) := rfl

/-! ### Vectors -/

section
variable {v : Vec F} (hv : v.isInitialized = false)
include hv

/-- C86: reading from a vector that is not initialised fails with `NotInit`, whichever side of a binary
operation it is on. -/
theorem C86_vec_reads (w : Vec F) (i : Nat) (x : F) :
    v.getRows = notInit ∧ v.getElement i = notInit ∧
    v.isSameSizeAs w = notInit ∧ w.isSameSizeAs v = notInit ∧
    v.isEqualTo w x = notInit ∧ w.isEqualTo v x = notInit ∧
    v.addNew w = notInit ∧ w.addNew v = notInit ∧ v.subNew w = notInit ∧ w.subNew v = notInit ∧
    v.addScalarNew x = notInit ∧ v.subScalarNew x = notInit ∧ v.mulByScalarNew x = notInit ∧
    v.dotProduct w = notInit ∧ w.dotProduct v = notInit ∧
    v.outerProduct w = notInit ∧ w.outerProduct v = notInit ∧ v.convertToMatrix = notInit := by
  have h : v.initialized = false := hv
  refine ⟨?_, ?_, ?_, ?_, ?_, ?_, ?_, ?_, ?_, ?_, ?_, ?_, ?_, ?_, ?_, ?_, ?_, ?_⟩
  case refine_17 =>
    unfold Vec.outerProduct Vec.getRows
    cases w.initialized <;> simp [h, fail]
  all_goals
    simp [Vec.getRows, Vec.getElement, Vec.isSameSizeAs, Vec.isEqualTo, Vec.addNew, Vec.subNew, Vec.addScalarNew,
      Vec.subScalarNew, Vec.mulByScalarNew, Vec.dotProduct, Vec.outerProduct, Vec.convertToMatrix, h, fail]

/-- C86: writing to a vector that is not initialised fails with `NotInit` and changes nothing. -/
theorem C86_vec_writes (u w : Vec F) (i : Nat) (x : F) :
    Vec.reinit i v = (notInit, v) ∧ Vec.setElement i x v = (notInit, v) ∧
    Vec.copyFrom w v = (notInit, v) ∧ Vec.add u w v = (notInit, v) ∧ Vec.addInPlace w v = (notInit, v) ∧
    Vec.sub u w v = (notInit, v) ∧ Vec.subInPlace w v = (notInit, v) ∧
    Vec.addScalar w x v = (notInit, v) ∧ Vec.subScalar w x v = (notInit, v) ∧
    Vec.mulByScalar w x v = (notInit, v) ∧
    (Utils.inRange x (lit 0) (lit 1) = true →
      Vec.lerp u w x v = (notInit, v) ∧ Vec.slerp u w x v = (notInit, v)) := by
  have h : v.initialized = false := hv
  refine ⟨?_, ?_, ?_, ?_, ?_, ?_, ?_, ?_, ?_, ?_, fun hx => ⟨?_, ?_⟩⟩
  all_goals
    simp [Vec.reinit, Vec.setElement, Vec.copyFrom, Vec.add, Vec.addInPlace, Vec.sub, Vec.subInPlace, Vec.addScalar,
      Vec.subScalar, Vec.mulByScalar, Vec.lerp, Vec.slerp, Vec.isSameSizeAs, h, fail]
  all_goals simp [hx, h]

/-- C86: a vector that is not initialised cannot be copied from, added or subtracted. -/
theorem C86_vec_operand (w : Vec F) (x : F) :
    Vec.copyFrom v w = (notInit, w) ∧ Vec.addInPlace v w = (notInit, w) ∧
    Vec.subInPlace v w = (notInit, w) ∧ Vec.addScalar v x w = (notInit, w) ∧
    Vec.subScalar v x w = (notInit, w) ∧ Vec.mulByScalar v x w = (notInit, w) := by
  have h : v.initialized = false := hv
  refine ⟨?_, ?_, ?_, ?_, ?_, ?_⟩
  all_goals
    simp [Vec.copyFrom, Vec.addInPlace, Vec.subInPlace, Vec.addScalar,
      Vec.subScalar, Vec.mulByScalar, Vec.isSameSizeAs, h, fail]

/-- C86: the operations that only loop over the rows fail with `NotInit` when the object still has rows, and
otherwise (after `new`) report success; they change nothing in both cases. -/
theorem C86_vec_loops (x : F) :
    Vec.fill x v = (if v.rows = 0 then .ok () else notInit, v) ∧
    Vec.addScalarInPlace x v = (if v.rows = 0 then .ok () else notInit, v) ∧
    Vec.subScalarInPlace x v = (if v.rows = 0 then .ok () else notInit, v) ∧
    Vec.mulByScalarInPlace x v = (if v.rows = 0 then .ok () else notInit, v) ∧
    Vec.powerElements x v = (if v.rows = 0 then .ok () else notInit, v) ∧
    Vec.normalize v = (if v.rows = 0 then .ok () else notInit, v) ∧
    (v.rows ≠ 0 → v.calculateNorm = notInit) ∧
    v.duplicate = if v.rows = 0 then .error (.err .RowsNumberNull)
      else if 4 < v.rows then .error (.err .RowsNumberOverflow) else notInit := by
  have h : v.initialized = false := hv
  have hn : v.rows ≠ 0 → v.calculateNorm = notInit := by
    intro h0
    unfold Vec.calculateNorm
    rw [foldRange_fails (e := .err .NotInit) h0 (by simp [Vec.getElement, h, fail])]
    rfl
  refine ⟨?_, ?_, ?_, ?_, ?_, ?_, hn, ?_⟩
  case refine_7 =>
    unfold Vec.duplicate Vec.init isValidRowsNumber M_MAX
    by_cases h0 : v.rows = 0
    · simp [h0, exec, Vec.new, Vec.newWith, fail]
    · by_cases h4 : 4 < v.rows
      · simp [h0, h4, exec, Vec.new, Vec.newWith, fail]
      · simp [h0, h4, exec, Vec.new, Vec.newWith, Vec.copyFrom, Vec.isSameSizeAs, h, fail]
  case refine_6 =>
    unfold Vec.normalize
    by_cases h0 : v.rows = 0
    · simp only [Op.get_bind, Vec.calculateNorm, h0]
      simp only [foldRange, foldFrom, Nat.sub_self, Res.ok_bind]
      split <;> simp only [Op.liftOk_bind] <;> split <;> simp [Vec.fill, h0, forRange_none]
    · simp [hn h0, h0]
  all_goals
    by_cases h0 : v.rows = 0
    · simp [Vec.fill, Vec.addScalarInPlace, Vec.subScalarInPlace, Vec.mulByScalarInPlace, Vec.powerElements, h0,
        forRange_none]
    · simp only [Vec.fill, Vec.addScalarInPlace, Vec.subScalarInPlace, Vec.mulByScalarInPlace, Vec.powerElements, h0,
        Op.get_bind, if_false]
      exact forRange_fails h0 (by simp [Vec.setElement, Vec.getElement, h, fail])

/-- C86: the quaternion methods of a vector that is not initialised fail with `NotInit` and change nothing. -/
theorem C86_quat (u w : Vec F) (x y z t : F) :
    Quat.isQuaternion v = notInit ∧ Quat.isReal v = notInit ∧ Quat.isPure v = notInit ∧
    Quat.isVersor v = notInit ∧ Quat.isIdentity v = notInit ∧
    Quat.getQw v = notInit ∧ Quat.getQx v = notInit ∧ Quat.getQy v = notInit ∧ Quat.getQz v = notInit ∧
    Quat.getVectorPart v = notInit ∧ Quat.mulNew v w = notInit ∧
    Quat.setQw x v = (notInit, v) ∧ Quat.setQx x v = (notInit, v) ∧ Quat.setQy x v = (notInit, v) ∧
    Quat.setQz x v = (notInit, v) ∧ Quat.fillq x y z t v = (notInit, v) ∧
    Quat.conjugate v = (notInit, v) ∧ Quat.mul u w v = (notInit, v) := by
  have h : v.initialized = false := hv
  refine ⟨?_, ?_, ?_, ?_, ?_, ?_, ?_, ?_, ?_, ?_, ?_, ?_, ?_, ?_, ?_, ?_, ?_, ?_⟩
  all_goals
    simp [Quat.isQuaternion, Quat.isReal, Quat.isPure, Quat.isVersor, Quat.isIdentity, Quat.getQw, Quat.getQx, Quat.getQy,
      Quat.getQz, Quat.getComponent, Quat.getVectorPart, Quat.mulNew, Quat.setQw, Quat.setQx, Quat.setQy, Quat.setQz,
      Quat.setComponent, Quat.fillq, Quat.conjugate, Quat.mul, Vec.getRows, h, fail]

end

/-! ### Matrices -/

section
variable {a : Mat F} (ha : a.isInitialized = false)
include ha

/-- C86: reading from a matrix that is not initialised fails with `NotInit`. -/
theorem C86_mat_reads (b : Mat F) (i j : Nat) (x : F) :
    a.getRows = notInit ∧ a.getCols = notInit ∧ a.getElement i j = notInit ∧
    a.isSameSizeAs b = notInit ∧ b.isSameSizeAs a = notInit ∧ a.isSquare = notInit ∧
    a.isEqualTo b x = notInit ∧ b.isEqualTo a x = notInit ∧
    a.addNew b = notInit ∧ b.addNew a = notInit ∧ a.subNew b = notInit ∧ b.subNew a = notInit ∧
    a.addScalarNew x = notInit ∧ a.subScalarNew x = notInit ∧ a.mulNew b = notInit ∧ b.mulNew a = notInit ∧
    a.trace = notInit ∧ a.isSymmetric = notInit := by
  have h : a.initialized = false := ha
  refine ⟨?_, ?_, ?_, ?_, ?_, ?_, ?_, ?_, ?_, ?_, ?_, ?_, ?_, ?_, ?_, ?_, ?_, ?_⟩
  case refine_16 =>
    unfold Mat.mulNew Mat.getRows Mat.getCols
    cases b.initialized <;> simp [h, fail]
  all_goals
    simp [Mat.getRows, Mat.getCols, Mat.getElement, Mat.isSameSizeAs, Mat.isSquare, Mat.isEqualTo, Mat.addNew, Mat.subNew,
      Mat.addScalarNew, Mat.subScalarNew, Mat.mulNew, Mat.trace, Mat.isSymmetric, h, fail]

/-- C86: factorisations, determinants and tests of a matrix that is not initialised fail with `NotInit`. -/
theorem C86_mat_factors (b : Mat F) (v : Vec F) (p : Vec Nat) (niter : Nat) (sh : Bool) :
    Linalg.lup a = notInit ∧ Linalg.solve a v p = notInit ∧ Linalg.eigen a niter sh = notInit ∧
    a.lr = notInit ∧ a.luCrout = notInit ∧ a.det = notInit ∧ a.detNaive = notInit ∧
    a.isPositiveDefinite = notInit ∧ a.chol = notInit ∧ a.dlyap b = notInit ∧ a.isOrthogonal = notInit ∧
    a.isSoN = notInit ∧ a.log = notInit := by
  have h : a.initialized = false := ha
  refine ⟨?_, ?_, ?_, ?_, ?_, ?_, ?_, ?_, ?_, ?_, ?_, ?_, ?_⟩
  all_goals
    simp [Linalg.lup, Linalg.solve, Linalg.eigen, Mat.lr, Mat.luCrout, Mat.det, Mat.detNaive, Mat.isPositiveDefinite,
      Mat.chol, Mat.dlyap, Mat.isOrthogonal, Mat.isSoN, Mat.log, Mat.isSquare, Mat.isSymmetric, Mat.getRows, h, fail]

/-- C86: writing to a matrix that is not initialised fails with `NotInit` and changes nothing. -/
theorem C86_mat_writes (b c : Mat F) (i j : Nat) (x : F) :
    Mat.reinit i j a = (notInit, a) ∧ Mat.setElement i j x a = (notInit, a) ∧
    Mat.fillIdentity a = (notInit, a) ∧ Mat.copyFrom b a = (notInit, a) ∧
    Mat.add b c a = (notInit, a) ∧ Mat.addInPlace b a = (notInit, a) ∧
    Mat.sub b c a = (notInit, a) ∧ Mat.subInPlace b a = (notInit, a) ∧
    Mat.addScalar b x a = (notInit, a) ∧ Mat.subScalar b x a = (notInit, a) ∧
    Mat.transpose a = (notInit, a) ∧ Mat.invert a = (notInit, a) ∧
    Mat.logInPlace a = (notInit, a) ∧ Mat.adjugateInPlace a = (notInit, a) := by
  have h : a.initialized = false := ha
  have hs : a.isSoN = notInit := (C86_mat_factors ha a Vec.new Vec.newU8 0 false).2.2.2.2.2.2.2.2.2.2.2.1
  refine ⟨?_, ?_, ?_, ?_, ?_, ?_, ?_, ?_, ?_, ?_, ?_, ?_, ?_, ?_⟩
  all_goals
    simp [Mat.reinit, Mat.setElement, Mat.fillIdentity, Mat.copyFrom, Mat.add, Mat.addInPlace, Mat.sub, Mat.subInPlace,
      Mat.addScalar, Mat.subScalar, Mat.transpose, Mat.invert, Mat.logInPlace, Mat.adjugateInPlace, Mat.isSameSizeAs,
      Mat.isSquare, hs, h, fail]

/-- C86: a matrix that is not initialised cannot be copied from, added or subtracted. -/
theorem C86_mat_operand (b : Mat F) (x : F) :
    Mat.copyFrom a b = (notInit, b) ∧ Mat.addInPlace a b = (notInit, b) ∧
    Mat.subInPlace a b = (notInit, b) ∧ Mat.addScalar a x b = (notInit, b) ∧
    Mat.subScalar a x b = (notInit, b) := by
  have h : a.initialized = false := ha
  refine ⟨?_, ?_, ?_, ?_, ?_⟩
  all_goals
    simp [Mat.copyFrom, Mat.addInPlace, Mat.subInPlace, Mat.addScalar, Mat.subScalar, Mat.isSameSizeAs, h, fail]

/-- C86: the operations that only loop over the elements fail with `NotInit` when the object still has elements,
and otherwise (after `new`) report success; they change nothing in both cases. -/
theorem C86_mat_loops (x : F) :
    Mat.fill x a = (if a.rows = 0 ∨ a.cols = 0 then .ok () else notInit, a) ∧
    Mat.addScalarInPlace x a = (if a.rows = 0 ∨ a.cols = 0 then .ok () else notInit, a) ∧
    Mat.subScalarInPlace x a = (if a.rows = 0 ∨ a.cols = 0 then .ok () else notInit, a) ∧
    Mat.mulByScalarInPlace x a = (if a.rows = 0 ∨ a.cols = 0 then .ok () else notInit, a) ∧
    Mat.powerElements x a = (if a.rows = 0 ∨ a.cols = 0 then .ok () else notInit, a) := by
  have h : a.initialized = false := ha
  have key : ∀ body : Nat → Nat → Op LinalgError (Mat F) Unit, (∀ i j, body i j a = (notInit, a)) →
      forRange 0 a.rows (fun i => forRange 0 a.cols (fun j => body i j)) a =
        (if a.rows = 0 ∨ a.cols = 0 then .ok () else notInit, a) := by
    intro body hb
    by_cases hr : a.rows = 0
    · simp [hr, forRange_none]
    · by_cases hc : a.cols = 0
      · rw [if_pos (Or.inr hc), hc]
        exact forRange_ok _ (fun _ => a) 0 a.rows (Nat.zero_le _) (fun i _ _ => rfl)
      · rw [if_neg (by simp [hr, hc])]
        exact forRange_fails hr (forRange_fails hc (hb 0 0))
  refine ⟨?_, ?_, ?_, ?_, ?_⟩
  all_goals
    simp only [Mat.fill, Mat.addScalarInPlace, Mat.subScalarInPlace, Mat.mulByScalarInPlace, Mat.powerElements,
      Op.get_bind]
    exact key _ fun i j => by simp [Mat.setElement, Mat.getElement, h, fail]

end

/-- C86: so every loop operation on a new object reports success and does nothing. -/
theorem C86_new (x : F) :
    Vec.fill x Vec.new = (.ok (), Vec.new) ∧ Vec.normalize (Vec.new : Vec F) = (.ok (), Vec.new) ∧
    Vec.addScalarInPlace x Vec.new = (.ok (), Vec.new) ∧
    Vec.mulByScalarInPlace x Vec.new = (.ok (), Vec.new) ∧
    Mat.fill x Mat.new = (.ok (), Mat.new) ∧ Mat.addScalarInPlace x Mat.new = (.ok (), Mat.new) ∧
    Mat.mulByScalarInPlace x Mat.new = (.ok (), Mat.new) := by
  have h1 := C86_vec_loops (v := (Vec.new : Vec F)) rfl x
  have h2 := C86_mat_loops (a := (Mat.new : Mat F)) rfl x
  exact ⟨h1.1, h1.2.2.2.2.2.1, h1.2.1, h1.2.2.2.1, h2.1, h2.2.1, h2.2.2.2.1⟩

/-- A failed `reinit` gives an object with rows that is not initialised. -/
example (v : Vec F) (h : v.isInitialized = true) (h3 : v.rows = 3) :
    Vec.fill (lit 1) (Vec.reinit 5 v).2 = (notInit, (Vec.reinit 5 v).2) := by
  have h' : v.initialized = true := h
  have e : (Vec.reinit 5 v).2 = { v with initialized := false } := by
    simp [Vec.reinit, h', Vec.init, isValidRowsNumber, M_MAX, fail]
  rw [e]
  have := (C86_vec_loops (v := { v with initialized := false }) rfl (lit 1)).1
  rw [this, if_neg (by simp [h3])]

end

end Verif
