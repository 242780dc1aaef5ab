import Verif.Props.Uninit
import Verif.Lib.MatOps
import Verif.Lib.Exact
import Mathlib.Tactic.IntervalCases

/-
C86, the rest: the methods whose answer on an object that is not initialised depends on the dimensions that it
still has.  After `new` both dimensions are zero; after a failed `reinit` they are the old ones, from 1 to 4.
-/

set_option linter.unusedSectionVars false
set_option linter.unusedSimpArgs false

namespace Verif
open Scalar

section
variable {F : Type} [Scalar F]

section
variable {v : Vec F} (hv : v.isInitialized = false)
include hv

/-- C86: the remaining quaternion methods. -/
theorem C86_quat_rest (w : Vec F) (m : Mat F) (eta : Option F) :
    Quat.convertToDcm v = notInit ∧ Quat.convertToEuler v = notInit ∧ Quat.exp v = (notInit, v) ∧
    Quat.hughes m v = (notInit, v) ∧ Quat.chiaverini m v = (notInit, v) ∧ Quat.sarabandi m eta v = (notInit, v) ∧
    Quat.rotate w v = notInit ∧ Quat.rotateInPlace w v = (notInit, v) := by
  have h : v.initialized = false := hv
  refine ⟨?_, ?_, ?_, ?_, ?_, ?_, ?_, ?_⟩
  case refine_1 =>
    unfold Quat.convertToDcm
    rw [Mat.init_new (by omega) (by omega) (by omega) (by omega), Res.ok_bind]
    simp [Quat.getQw, Quat.getComponent, Quat.isQuaternion, Vec.getRows, h, fail]
  all_goals
    simp [Quat.convertToEuler, Quat.exp, Quat.hughes, Quat.chiaverini, Quat.sarabandi, Quat.rotate, Quat.rotateInPlace,
      Quat.getQw, Quat.getComponent, Quat.isReal, Quat.isQuaternion, Vec.getRows, h, fail]

/-- C86: on the other side of a product or rotation. -/
theorem C86_quat_operand {q u : Vec F} (hq : q.isInitialized = true) (q4 : q.rows = 4) (hu : u.isInitialized = true)
    (u3 : u.rows = 3) (w : Vec F) :
    Quat.mulNew q v = notInit ∧ Quat.mul v w q = (notInit, q) ∧ Quat.mul q v q = (notInit, q) ∧
    Quat.rotate v u = notInit ∧ Quat.rotateInPlace v u = (notInit, u) := by
  have h : v.initialized = false := hv
  have hq' : q.initialized = true := hq
  have hu' : u.initialized = true := hu
  have hd := (C86_quat_rest hv w (Mat.new) none).1
  refine ⟨?_, ?_, ?_, ?_, ?_⟩
  all_goals
    simp [Quat.mulNew, Quat.mul, Quat.isQuaternion, Quat.rotate, Quat.rotateInPlace, Vec.getRows, h, hq', hu', q4, u3, hd, fail]

/-- C86: `conjugate_new` and `exp_new` copy the vector first. -/
theorem C86_quat_copies :
    Quat.conjugateNew v = (if v.rows = 0 then .error (.err .RowsNumberNull)
      else if 4 < v.rows then .error (.err .RowsNumberOverflow) else notInit) ∧
    Quat.expNew v = if v.rows = 0 then .error (.err .RowsNumberNull)
      else if 4 < v.rows then .error (.err .RowsNumberOverflow) else notInit := by
  have hd := (C86_vec_loops hv (lit 0)).2.2.2.2.2.2.2
  unfold Quat.conjugateNew Quat.expNew
  rw [hd]
  constructor <;> split <;> [rfl; (split <;> rfl); rfl; (split <;> rfl)]

end

section
variable {a : Mat F} (ha : a.isInitialized = false)
include ha

/-- C86: a matrix that is not initialised and has kept its dimensions, as after a failed `reinit`: copies, sums over
the elements, views, products and insertions fail with `NotInit` and change nothing; a triangularity test that has
nothing to look at answers `true`. -/
theorem C86_mat_stale (r1 : 1 ≤ a.rows) (r4 : a.rows ≤ 4) (c1 : 1 ≤ a.cols) (c4 : a.cols ≤ 4) (i : Nat) :
    a.duplicate = notInit ∧ a.transposeNew = notInit ∧ a.qrDecomp = notInit ∧ a.calculateFrobeniusNorm = notInit ∧
    a.rowToVector i = notInit ∧ a.colToVector i = notInit ∧ a.diag none = notInit ∧
    a.isUpperTriangular = (if a.rows = 1 then .ok true else notInit) ∧
    a.isLowerTriangular = (if a.rows = 1 ∨ a.cols = 1 then .ok true else notInit) ∧
    Mat.setRows i a = (notInit, a) ∧ Mat.setCols i a = (notInit, a) := by
  have h : a.initialized = false := ha
  have hg : ∀ i j, a.getElement i j = notInit := fun i j => by simp [Mat.getElement, h, fail]
  have hc : ∀ s : Mat F, s.initialized = true → Mat.copyFrom a s = (notInit, s) := fun s hs => by
    simp [Mat.copyFrom, Mat.isSameSizeAs, hs, h, fail]
  have hd : a.duplicate = notInit := by
    unfold Mat.duplicate
    rw [Mat.init_new r1 r4 c1 c4, Res.ok_bind, exec_err (hc _ rfl)]
  refine ⟨hd, ?_, ?_, ?_, ?_, ?_, ?_, ?_, ?_, ?_, ?_⟩
  · unfold Mat.transposeNew
    rw [hd]; rfl
  · unfold Mat.qrDecomp
    rw [Mat.init_new r1 r4 c1 c4, Res.ok_bind, exec_err (hc _ rfl)]; rfl
  · unfold Mat.calculateFrobeniusNorm
    have : ∀ body : Nat → F → Res LinalgError F, body = (fun row acc => foldRange 0 a.cols
        (fun col acc => do .ok (acc +ᶠ ((← a.getElement row col) *ᶠ (← a.getElement row col)))) acc) →
        foldRange 0 a.rows body (lit 0) = notInit := by
      rintro _ rfl
      exact foldRange_fails (by omega) (foldRange_fails (by omega) (by simp [hg]))
    rw [this _ rfl]
    rfl
  · unfold Mat.rowToVector
    rw [Vec.init_new c1 c4, Res.ok_bind]
    refine exec_err (s' := Vec.zeros a.cols) ?_
    unfold Mat.getRow
    simp only [Op.get_bind, Vec.getRows, Vec.zeros, Bool.not_true, Bool.false_eq_true, if_false, Op.liftOk_bind, ne_eq, not_true_eq_false]
    exact forRange_fails (by omega) (by simp [hg])
  · unfold Mat.colToVector
    rw [Vec.init_new r1 r4, Res.ok_bind]
    refine exec_err (s' := Vec.zeros a.rows) ?_
    unfold Mat.getCol
    simp only [Op.get_bind, Vec.getRows, Vec.zeros, Bool.not_true, Bool.false_eq_true, if_false, Op.liftOk_bind, ne_eq, not_true_eq_false]
    exact forRange_fails (by omega) (by simp [hg])
  · unfold Mat.diag
    obtain ⟨r, hr⟩ : ∃ r, r = a.rows := ⟨_, rfl⟩
    obtain ⟨c, hc'⟩ : ∃ c, c = a.cols := ⟨_, rfl⟩
    rw [← hr] at r1 r4 ⊢
    rw [← hc'] at c1 c4 ⊢
    clear hr hc' hd hc
    have h0 : ∀ n : Int, 0 < n → n ≤ 4 → (exec Vec.new (Vec.init (n % 256).toNat) >>= fun vect => foldRange 0 n.toNat
        (fun i (vect : Vec F) => do
          let i : Int := i
          let row ← (if (0 : Int) ≥ 0 then .ok i else i8Result F (i - 0) : Res LinalgError Int)
          let col ← (if (0 : Int) ≥ 0 then i8Result F (i + 0) else .ok i : Res LinalgError Int)
          let element ← a.getElement (row % 256).toNat (col % 256).toNat
          exec vect (Vec.setElement (i % 256).toNat element)) vect) = notInit := by
      intro n n0 n4
      rw [Vec.init_new (by omega) (by omega), Res.ok_bind]
      exact foldRange_fails (by omega) (by simp [hg, i8Result])
    have hmin : ∃ n : Int, Utils.minInt (wrapI8 r) (wrapI8 c) = n ∧ 0 < n ∧ n ≤ 4 := by
      refine ⟨_, rfl, ?_⟩
      interval_cases r <;> interval_cases c <;> decide
    obtain ⟨n, hn, n0, n4⟩ := hmin
    have hi : (i8Result F (wrapI8 c - 0) : Res LinalgError Int) = .ok (wrapI8 c) := by
      unfold i8Result
      rw [if_pos (by interval_cases c <;> decide), sub_zero]
    have := h0 n n0 n4
    simp only [Option.getD_none, ge_iff_le, le_refl, if_true, hi, Res.ok_bind, hn, if_neg (not_le.mpr n0)] at this ⊢
    exact this
  · unfold Mat.isUpperTriangular
    split
    · rename_i h1
      rw [h1]; rfl
    · exact allRange_error _ 1 a.rows 1 _ (le_refl _) (by omega) (fun i h1 h2 => by omega)
        (allRange_error _ 0 1 0 _ (le_refl _) (by omega) (fun i h1 h2 => by omega) (by rw [hg]; rfl))
  · unfold Mat.isLowerTriangular
    rw [u8Sub, if_pos r1, Res.ok_bind]
    split
    · rename_i h1
      rcases h1 with h1 | h1
      · rw [h1]; rfl
      · rw [allRange_eq _ (fun _ => true) 0 (a.rows - 1) fun i _ _ => by
          unfold allRange
          rw [show a.cols - (i + 1) = 0 by omega]
          rfl]
        simp
    · exact allRange_error _ 0 (a.rows - 1) 0 _ (le_refl _) (by omega) (fun i h1 h2 => by omega)
        (allRange_error _ 1 a.cols 1 _ (le_refl _) (by omega) (fun i h1 h2 => by omega) (by rw [hg]; rfl))
  · simp [Mat.setRows, h]
  · simp [Mat.setCols, h]

/-- C86: the same, for the exchange of rows and columns. -/
theorem C86_mat_views (r1 : 1 ≤ a.rows) (c1 : 1 ≤ a.cols) {v : Vec F} (hv : v.isInitialized = true) (i : Nat) :
    (v.rows = a.cols → a.getRow i v = (notInit, v)) ∧ (v.rows = a.rows → a.getCol i v = (notInit, v)) ∧
    (v.rows = a.cols → (∀ k, k < v.rows → ∃ x, v.getElement k = .ok x) → Mat.setRow v i a = (notInit, a)) ∧
    (v.rows = a.rows → (∀ k, k < v.rows → ∃ x, v.getElement k = .ok x) → Mat.setCol v i a = (notInit, a)) := by
  have h : a.initialized = false := ha
  have hv' : v.initialized = true := hv
  have hg : ∀ i j, a.getElement i j = notInit := fun i j => by simp [Mat.getElement, h, fail]
  have hs : ∀ i j x, Mat.setElement i j x a = (notInit, a) := fun i j x => by simp [Mat.setElement, h, fail]
  refine ⟨fun e => ?_, fun e => ?_, fun e hx => ?_, fun e hx => ?_⟩
  · unfold Mat.getRow
    simp only [Op.get_bind, Vec.getRows, hv', Bool.not_true, Bool.false_eq_true, if_false, Op.liftOk_bind, e, ne_eq, not_true_eq_false]
    exact forRange_fails (by omega) (by simp [hg])
  · unfold Mat.getCol
    simp only [Op.get_bind, Vec.getRows, hv', Bool.not_true, Bool.false_eq_true, if_false, Op.liftOk_bind, e, ne_eq, not_true_eq_false]
    exact forRange_fails (by omega) (by simp [hg])
  · unfold Mat.setRow
    obtain ⟨x, hx⟩ := hx 0 (by omega)
    simp only [Op.get_bind, Vec.getRows, hv', Bool.not_true, Bool.false_eq_true, if_false, Op.liftOk_bind, e, ne_eq, not_true_eq_false]
    exact forRange_fails (by omega) (by simp [hx, hs])
  · unfold Mat.setCol
    obtain ⟨x, hx⟩ := hx 0 (by omega)
    simp only [Op.get_bind, Vec.getRows, hv', Bool.not_true, Bool.false_eq_true, if_false, Op.liftOk_bind, e, ne_eq, not_true_eq_false]
    exact forRange_fails (by omega) (by simp [hx, hs])

/-- C86: a product reads its operands before it writes. -/
theorem C86_mat_mul {b s : Mat F} (r1 : 1 ≤ a.rows) (c1 : 1 ≤ a.cols) :
    (1 ≤ b.cols → a.cols = b.rows → s.rows = a.rows → s.cols = b.cols → Mat.mul a b s = (notInit, s)) ∧
    (b.isInitialized = true → 1 ≤ b.rows → b.cols = a.rows → s.rows = b.rows → s.cols = a.cols →
      (∃ x, b.getElement 0 0 = .ok x) → Mat.mul b a s = (notInit, s)) ∧
    (b.cols = s.rows → a.rows = b.rows → a.cols = s.cols → 1 ≤ b.cols →
      (∃ x, b.getElement 0 0 = .ok x) → (∃ x, s.getElement 0 0 = .ok x) → Mat.mul b s a = (notInit, a)) := by
  have h : a.initialized = false := ha
  have hg : ∀ i j, a.getElement i j = notInit := fun i j => by simp [Mat.getElement, h, fail]
  have hs : ∀ i j x, Mat.setElement i j x a = (notInit, a) := fun i j x => by simp [Mat.setElement, h, fail]
  have key : ∀ {x y z z' : Mat F}, 1 ≤ x.rows → 1 ≤ x.cols → 1 ≤ y.cols → x.cols = y.rows → z.rows = x.rows → z.cols = y.cols →
      (do
        let element1 ← x.getElement 0 0
        let element2 ← y.getElement 0 0
        Mat.setElement 0 0 (lit 0 +ᶠ (element1 *ᶠ element2)) : Op LinalgError (Mat F) Unit) z = (notInit, z) →
      Mat.mul x y z = (notInit, z) := by
    intro x y z z' h1 h2 h3 h4 h5 h6 e
    unfold Mat.mul
    rw [Op.get_bind, if_neg (by simp [h4, h5, h6])]
    refine forRange_fails (by omega) (forRange_fails (by omega) ?_)
    obtain ⟨k, hk⟩ : ∃ k, x.cols = k + 1 := ⟨x.cols - 1, by omega⟩
    rw [hk]
    unfold Mat.mulCell
    rcases hx : x.getElement 0 0 with e1 | x1
    · rw [hx] at e
      simpa using e
    · rcases hy : y.getElement 0 0 with e1 | y1
      · rw [hx, hy] at e
        simpa using e
      · rw [hx, hy] at e
        simp only [Op.liftOk_bind] at e ⊢
        exact Op.bind_err e _
  refine ⟨fun h1 h2 h3 h4 => ?_, fun hb h1 h2 h3 h4 hx => ?_, fun h1 h2 h3 h4 hx hy => ?_⟩
  · exact key (z' := a) r1 c1 h1 h2 h3 h4 (by simp [hg])
  · obtain ⟨x, hx⟩ := hx
    exact key (z' := a) h1 (by omega) c1 h2 h3 h4 (by simp [hg, hx])
  · obtain ⟨x, hx⟩ := hx
    obtain ⟨y, hy⟩ := hy
    exact key (z' := a) (by omega) h4 (by omega) h1 h2 h3 (by simp [hx, hy, hs])

/-- C86: insertion and deletion. -/
theorem C86_mat_insert (r1 : 1 ≤ a.rows) (r4 : a.rows ≤ 4) (c1 : 1 ≤ a.cols) (c4 : a.cols ≤ 4) (v : Vec F) (i : Nat) :
    Mat.addRow v i a = (if a.rows = 4 then .error (.err .RowsNumberOverflow) else notInit, a) ∧
    Mat.addCol v i a = (if a.cols = 4 then .error (.err .ColsNumberOverflow) else notInit, a) ∧
    Mat.delRow i a = (if a.rows ≤ i then .error (.err .InvalidRow) else if a.rows = 1 then .error (.err .RowsNumberNull)
      else notInit, a) := by
  have h : a.initialized = false := ha
  have hg : ∀ i j, a.getElement i j = notInit := fun i j => by simp [Mat.getElement, h, fail]
  refine ⟨?_, ?_, ?_⟩
  · unfold Mat.addRow
    rw [Op.get_bind, u8Add, if_pos (by omega), Op.liftOk_bind]
    by_cases h4 : a.rows = 4
    · simp [h4, isValidRowsNumber, M_MAX, fail]
    · have : isValidRowsNumber (a.rows + 1) = .ok () := isValidRowsNumber_ok_iff.mpr ⟨by omega, by omega⟩
      rw [this, Op.liftOk_bind, if_neg h4]
      exact Op.bind_err (show Mat.setRows _ a = (notInit, a) by simp [Mat.setRows, h]) _
  · unfold Mat.addCol
    rw [Op.get_bind, u8Add, if_pos (by omega), Op.liftOk_bind]
    by_cases h4 : a.cols = 4
    · simp [h4, isValidColsNumber, N_MAX, fail]
    · have : isValidColsNumber (a.cols + 1) = .ok () := isValidColsNumber_ok_iff.mpr ⟨by omega, by omega⟩
      rw [this, Op.liftOk_bind, if_neg h4]
      exact Op.bind_err (show Mat.setCols _ a = (notInit, a) by simp [Mat.setCols, h]) _
  · unfold Mat.delRow
    rw [Op.get_bind, u8Sub, if_pos (by omega), Op.liftOk_bind]
    by_cases h1 : a.rows ≤ i
    · simp [h1, isValidRow, fail]
    · have e1 : isValidRow i a.rows = .ok () := by simp [isValidRow, h1]
      rw [e1, Op.liftOk_bind, if_neg h1]
      by_cases h2 : a.rows = 1
      · simp [h2, isValidRowsNumber, fail]
      · have : isValidRowsNumber (a.rows - 1) = .ok () := isValidRowsNumber_ok_iff.mpr ⟨by omega, by omega⟩
        rw [this, Op.liftOk_bind, Vec.init_new c1 c4, Op.liftOk_bind, if_neg h2,
          foldRange_fails (e := .err .NotInit) (by omega) (by simp [hg])]
        rfl

/-- C86: a new matrix: copies and views find no rows, the norm is that of nothing, the upper triangularity test answers
`true`, and two methods subtract one from the number of rows. -/
theorem C86_mat_fresh (r0 : a.rows = 0) (c0 : a.cols = 0) (v : Vec F) (i : Nat) :
    a.duplicate = .error (.err .RowsNumberNull) ∧ a.transposeNew = .error (.err .RowsNumberNull) ∧
    a.qrDecomp = .error (.err .RowsNumberNull) ∧ a.calculateFrobeniusNorm = .ok (Scalar.sqrt (lit 0)) ∧
    a.rowToVector i = .error (.err .RowsNumberNull) ∧ a.colToVector i = .error (.err .RowsNumberNull) ∧
    a.diag none = .error (.err .InvalidDiagonalLength) ∧ a.isUpperTriangular = .ok true ∧
    a.isLowerTriangular = (if overflowChecks F = true then .error .panic else .ok true) ∧
    Mat.addRow v i a = (notInit, a) ∧ Mat.addCol v i a = (notInit, a) ∧
    Mat.delRow i a = (if overflowChecks F = true then .error .panic else .error (.err .InvalidRow), a) := by
  have h : a.initialized = false := ha
  have e1 : exec (Mat.new : Mat F) (Mat.init 0 0) = .error (.err .RowsNumberNull) := by
    simp [exec, Mat.init, Mat.new, isValidRowsNumber, fail]
  have e2 : exec (Vec.new : Vec F) (Vec.init 0) = .error (.err .RowsNumberNull) := by
    simp [exec, Vec.init, Vec.new, Vec.newWith, isValidRowsNumber, fail]
  have hd : a.duplicate = .error (.err .RowsNumberNull) := by
    unfold Mat.duplicate
    rw [r0, c0, e1]; rfl
  refine ⟨hd, ?_, ?_, ?_, ?_, ?_, ?_, ?_, ?_, ?_, ?_, ?_⟩
  · unfold Mat.transposeNew
    rw [hd]; rfl
  · unfold Mat.qrDecomp
    rw [r0, c0, e1]; rfl
  · unfold Mat.calculateFrobeniusNorm
    rw [r0]; rfl
  · unfold Mat.rowToVector
    rw [c0, e2]; rfl
  · unfold Mat.colToVector
    rw [r0, e2]; rfl
  · unfold Mat.diag
    rw [r0, c0]
    rfl
  · unfold Mat.isUpperTriangular
    rw [r0]; rfl
  · unfold Mat.isLowerTriangular
    rw [r0, c0, u8Sub, if_neg (by omega)]
    split
    · rfl
    · rw [Res.ok_bind, allRange_eq _ (fun _ => true) 0 _ fun i _ _ => by
        unfold allRange
        rw [show 0 - (i + 1) = 0 by omega]
        rfl]
      simp
  · unfold Mat.addRow
    rw [Op.get_bind, r0, show (u8Add F 0 1 : Res LinalgError Nat) = .ok 1 from rfl, Op.liftOk_bind,
      show isValidRowsNumber 1 = .ok () from rfl, Op.liftOk_bind]
    exact Op.bind_err (show Mat.setRows _ a = (notInit, a) by simp [Mat.setRows, h]) _
  · unfold Mat.addCol
    rw [Op.get_bind, c0, show (u8Add F 0 1 : Res LinalgError Nat) = .ok 1 from rfl, Op.liftOk_bind,
      show isValidColsNumber 1 = .ok () from rfl, Op.liftOk_bind]
    exact Op.bind_err (show Mat.setCols _ a = (notInit, a) by simp [Mat.setCols, h]) _
  · unfold Mat.delRow
    rw [Op.get_bind, r0]
    by_cases ho : overflowChecks F = true
    · simp [u8Sub, ho]
    · simp [u8Sub, ho, isValidRow, fail]

end

/-! ### Concrete cases -/

/-- A matrix of 2 rows and 3 columns after the failed `reinit(5, 1)`. -/
def exStale : Mat XQ := (Mat.reinit 5 1 (Mat.zeros 2 3 : Mat XQ)).2

example : exStale.isInitialized = false ∧ exStale.rows = 2 ∧ exStale.cols = 3 := by decide +kernel

/-- C86, a case: the copy of it fails with `NotInit`, the copy of a new matrix with `RowsNumberNull`, and the upper
triangularity test of a new matrix answers `true`. -/
example : exStale.duplicate = notInit ∧ (Mat.new : Mat XQ).duplicate = .error (.err .RowsNumberNull) ∧
    (Mat.new : Mat XQ).isUpperTriangular = .ok true :=
  ⟨(C86_mat_stale (by decide +kernel) (by decide +kernel) (by decide +kernel) (by decide +kernel) (by decide +kernel) 0).1,
    (C86_mat_fresh (a := (Mat.new : Mat XQ)) rfl rfl rfl Vec.new 0).1,
    (C86_mat_fresh (a := (Mat.new : Mat XQ)) rfl rfl rfl Vec.new 0).2.2.2.2.2.2.2.1⟩

/-- C86, a case: a product with it on the left, on the right and as the target. -/
example : Mat.mul exStale (Mat.zeros 3 2) (Mat.zeros 2 2) = (notInit, Mat.zeros 2 2) ∧
    Mat.mul (Mat.zeros 3 2) exStale (Mat.zeros 3 3) = (notInit, Mat.zeros 3 3) ∧
    Mat.mul (Mat.zeros 2 2) (Mat.zeros 2 3) exStale = (notInit, exStale) := by
  have h := fun b s => C86_mat_mul (a := exStale) (b := b) (s := s) (by decide +kernel) (by decide +kernel) (by decide +kernel)
  exact ⟨(h _ _).1 (by decide) (by decide +kernel) (by decide +kernel) rfl,
    (h _ _).2.1 rfl (by decide) (by decide +kernel) rfl (by decide +kernel) ⟨_, rfl⟩,
    (h _ _).2.2 rfl (by decide +kernel) (by decide +kernel) (by decide) ⟨_, rfl⟩ ⟨_, rfl⟩⟩

end
end Verif
