import Verif.Ext
import Verif.Lib.SafeDecomp
import Verif.Lib.MatStruct
import Verif.Spec.History

/-
Claims about every history of public calls: shapes (C01), contents (C02), panics (C03).
-/

set_option linter.unusedSectionVars false
set_option linter.unusedSimpArgs false
set_option linter.unusedTactic false

namespace Verif
open Scalar

variable {F : Type} [Scalar F] [ScalarLawful F]

/-- Dimensions within the buffer, non-zero when initialised, contents finite. -/
def Obj.WF : Obj F → Prop
  | .vec v => Inv.inv v
  | .mat m => Inv.inv m
  | .u8 p => Inv.inv p

instance instInvObjs : Inv (List (Obj F)) := ⟨fun l => ∀ o ∈ l, o.WF⟩

theorem inv_nil : Inv.inv ([] : List (Obj F)) := fun _ h => by simp at h
theorem inv_vec {v : Vec F} (h : Inv.inv v) : Inv.inv ([.vec v] : List (Obj F)) := by
  intro o ho
  rw [List.mem_singleton] at ho
  subst ho
  exact h
theorem inv_mat {v : Mat F} (h : Inv.inv v) : Inv.inv ([.mat v] : List (Obj F)) := by
  intro o ho
  rw [List.mem_singleton] at ho
  subst ho
  exact h
theorem inv_matmat {v w : Mat F} (h : Inv.inv v) (h' : Inv.inv w) :
    Inv.inv ([.mat v, .mat w] : List (Obj F)) := by
  intro o ho
  rw [List.mem_cons, List.mem_singleton] at ho
  rcases ho with rfl | rfl
  · exact h
  · exact h'
theorem inv_matu8 {v : Mat F} {w : Vec Nat} (h : Inv.inv v) (h' : Inv.inv w) :
    Inv.inv ([.mat v, .u8 w] : List (Obj F)) := by
  intro o ho
  rw [List.mem_cons, List.mem_singleton] at ho
  rcases ho with rfl | rfl
  · exact h
  · exact h'
theorem inv_vecmat {v : Vec F} {w : Mat F} (h : Inv.inv v) (h' : Inv.inv w) :
    Inv.inv ([.vec v, .mat w] : List (Obj F)) := by
  intro o ho
  rw [List.mem_cons, List.mem_singleton] at ho
  rcases ho with rfl | rfl
  · exact h
  · exact h'

theorem VecCall.run_safe (c : VecCall F) (ho : ∀ o ∈ c.operands, o.WF) : Op.Safe c.run := by
  cases c <;> simp [VecCall.operands, Obj.WF] at ho <;> simp only [VecCall.run] <;>
    first
    | (safe; done)
    | (have h1 := ho.1; have h2 := ho.2; safe; done)
    | exact Vec.reinit_safe

theorem U8Call.run_safe (c : U8Call) : Op.Safe c.run := by
  cases c
  · exact Vec.initU8_safe
  · exact Vec.reinitU8_safe
  · exact Vec.setElementU8_safe

/-- The calls on a matrix that panic, in terms of the call and its target: row or column insertion
at index 255 when there is room for it, and row deletion when the row count is 0. -/
def MatCall.PanicsOn (s : Mat F) : MatCall F → Prop
  | .addRow _ i => i.val = 255 ∧ s.isInitialized = true ∧ s.rows < 4
  | .addCol _ i => i.val = 255 ∧ s.isInitialized = true ∧ s.cols < 4
  | .delRow _ => s.rows = 0
  | _ => False

/-- The read-only calls that panic: `is_lower_triangular` when the row count is 0, and shifted
`eigen` with at least one iteration on a 1×1 matrix. -/
def ReadCall.Panics : ReadCall F → Prop
  | .mIsLowerTriangular a => a.rows = 0
  | .eigen a niter shifted =>
      shifted = true ∧ niter.val ≠ 0 ∧ a.isInitialized = true ∧ a.rows = 1 ∧ a.cols = 1
  | _ => False

theorem Op.safe_then_nil {ε σ : Type} [Inv σ] {m : Op ε σ Unit} (h : Op.Safe m) :
    Op.Safe (m >>= fun _ => (pure [] : Op ε σ (List (Obj F)))) :=
  Op.safe_bind h fun _ _ => Op.safe_pure inv_nil

theorem MatCall.run_safe_of (c : MatCall F) (ho : ∀ o ∈ c.operands, o.WF) (s : Mat F)
    (hs : WFMat s) (h : ¬ (c.PanicsOn s ∧ overflowChecks F = true)) : Op.SafeAt c.run s := by
  cases c <;> simp [MatCall.operands, Obj.WF] at ho <;> simp only [MatCall.run]
  case addRow v i =>
    by_cases hi : i.val + 1 < 256 ∨ overflowChecks F = false
    · exact Op.safe_then_nil (Mat.addRow_safe ho hi) s hs
    · have h255 : i.val = 255 := by have := i.isLt; omega
      have hchk : overflowChecks F = true := by
        cases hc : overflowChecks F
        · exact absurd (Or.inr hc) hi
        · rfl
      have hn : ¬ (s.initialized = true ∧ s.rows < 4) := fun hn => h ⟨⟨h255, hn⟩, hchk⟩
      have hle := hs.rows_le
      have : ∃ e, Mat.addRow v i s = (.error (.err e), s) := by
        unfold Mat.addRow
        simp only [Op.get_bind, u8Add_ok (show s.rows + 1 < 256 by omega), Op.liftOk_bind]
        by_cases h4 : s.rows < 4
        · have hini : s.initialized = false := by
            cases hc : s.initialized
            · rfl
            · exact absurd ⟨hc, h4⟩ hn
          rw [isValidRowsNumber_ok_iff.mpr ⟨by omega, by omega⟩]
          exact ⟨.NotInit, by
            simp only [Op.liftOk_bind]
            exact Op.bind_err (show Mat.setRows (s.rows + 1) s = (.error (.err .NotInit), s) by
              simp [Mat.setRows, Op.get_bind, hini, Op.fail]) _⟩
        · refine ⟨.RowsNumberOverflow, ?_⟩
          simp [isValidRowsNumber, M_MAX, show s.rows = 4 by omega]
      obtain ⟨e, he⟩ := this
      unfold Op.SafeAt
      rw [Op.bind_err he]
      exact ⟨hs, trivial⟩
  case addCol v i =>
    by_cases hi : i.val + 1 < 256 ∨ overflowChecks F = false
    · exact Op.safe_then_nil (Mat.addCol_safe ho hi) s hs
    · have h255 : i.val = 255 := by have := i.isLt; omega
      have hchk : overflowChecks F = true := by
        cases hc : overflowChecks F
        · exact absurd (Or.inr hc) hi
        · rfl
      have hn : ¬ (s.initialized = true ∧ s.cols < 4) := fun hn => h ⟨⟨h255, hn⟩, hchk⟩
      have hle := hs.cols_le
      have : ∃ e, Mat.addCol v i s = (.error (.err e), s) := by
        unfold Mat.addCol
        simp only [Op.get_bind, u8Add_ok (show s.cols + 1 < 256 by omega), Op.liftOk_bind]
        by_cases h4 : s.cols < 4
        · have hini : s.initialized = false := by
            cases hc : s.initialized
            · rfl
            · exact absurd ⟨hc, h4⟩ hn
          rw [isValidColsNumber_ok_iff.mpr ⟨by omega, by omega⟩]
          exact ⟨.NotInit, by
            simp only [Op.liftOk_bind]
            exact Op.bind_err (show Mat.setCols (s.cols + 1) s = (.error (.err .NotInit), s) by
              simp [Mat.setCols, Op.get_bind, hini, Op.fail]) _⟩
        · refine ⟨.ColsNumberOverflow, ?_⟩
          simp [isValidColsNumber, N_MAX, show s.cols = 4 by omega]
      obtain ⟨e, he⟩ := this
      unfold Op.SafeAt
      rw [Op.bind_err he]
      exact ⟨hs, trivial⟩
  case delRow i =>
    have h' : s.rows ≠ 0 ∨ overflowChecks F = false := by
      by_cases h0 : s.rows = 0
      · exact Or.inr (by
          cases hc : overflowChecks F
          · rfl
          · exact absurd ⟨h0, hc⟩ h)
      · exact Or.inl h0
    have h1 := Mat.delRow_safeAt (i := i) s hs h'
    unfold Op.SafeAt at *
    rw [Op.bind_run]
    rcases hm : Mat.delRow i.val s with ⟨r, s'⟩
    rw [hm] at h1
    rcases r with e | a
    · cases e
      · exact ⟨h1.1, trivial⟩
      · exact ⟨h1.1, h1.2⟩
    · exact ⟨h1.1, inv_vec h1.2⟩
  all_goals first
    | (refine Op.safe_then_nil ?_ s hs; safe; done)
    | (have h1 := ho.1; have h2 := ho.2; refine Op.safe_then_nil ?_ s hs; safe; done)
    | exact Op.safe_then_nil Mat.reinit_safe s hs
    | exact Op.safe_then_nil Mat.logInPlace_safe s hs
    | exact Op.safe_then_nil Mat.adjugateInPlace_safe s hs

/-- What a panicking call on a matrix leaves behind. -/
theorem MatCall.run_panics (c : MatCall F) (s : Mat F) (hs : WFMat s) (h : c.PanicsOn s)
    (hchk : overflowChecks F = true) : (c.run s).1 = .error .panic ∧ WFMat (c.run s).2 := by
  cases c <;> try exact h.elim
  case addRow v i =>
    obtain ⟨h255, hini, h4⟩ := h
    have hini : s.initialized = true := hini
    have key : Mat.addRow v i s = (.error .panic, (Mat.setRows (s.rows + 1) s).2) := by
      unfold Mat.addRow
      have h1 : Mat.setRows (s.rows + 1) s = (.ok (), { s with rows := s.rows + 1 }) := by
        simp [Mat.setRows, Op.get_bind, hini, isValidRowsNumber_ok_iff.mpr
          (show 1 ≤ s.rows + 1 ∧ s.rows + 1 ≤ 4 by omega), Op.modify]
      have h2 : (u8Add F i.val 1 : Res LinalgError Nat) = .error .panic := by
        simp [u8Add, hchk, h255]
      simp only [Op.get_bind, u8Add_ok (show s.rows + 1 < 256 by omega), Op.liftOk_bind,
        isValidRowsNumber_ok_iff.mpr (show 1 ≤ s.rows + 1 ∧ s.rows + 1 ≤ 4 by omega)]
      rw [Op.bind_ok h1, h2, h1]
      rfl
    simp only [MatCall.run]
    rw [Op.bind_err key]
    exact ⟨rfl, (Mat.setRows_safe s hs).1⟩
  case addCol v i =>
    obtain ⟨h255, hini, h4⟩ := h
    have hini : s.initialized = true := hini
    have hsafe := Mat.setCols_safe (n := s.cols + 1) s hs
    have hval := isValidColsNumber_ok_iff.mpr (show 1 ≤ s.cols + 1 ∧ s.cols + 1 ≤ 4 by omega)
    have h1 : ∃ t, Mat.setCols (s.cols + 1) s = (.ok (), t) := by
      obtain ⟨f, hf⟩ : ∃ f, MatIs s s.rows s.cols f :=
        ⟨fun i j => if h : i * s.cols + j < 16 then s.elements ⟨i * s.cols + j, h⟩ else lit 0,
          matIs_iff.mpr ⟨hs.rows_pos hini, hs.rows_le, hs.cols_pos hini, hs.cols_le, hini, rfl, rfl,
            fun i j h16 _ _ => by simp [h16]⟩⟩
      obtain ⟨t, ht, -⟩ := Mat.setCols_ok hf (by omega)
      exact ⟨t, ht⟩
    obtain ⟨t, h1⟩ := h1
    have key : Mat.addCol v i s = (.error .panic, t) := by
      unfold Mat.addCol
      have h2 : (u8Add F i.val 1 : Res LinalgError Nat) = .error .panic := by
        simp [u8Add, hchk, h255]
      simp only [Op.get_bind, u8Add_ok (show s.cols + 1 < 256 by omega), Op.liftOk_bind, hval]
      rw [Op.bind_ok h1, h2]
      rfl
    simp only [MatCall.run]
    rw [Op.bind_err key]
    have h3 := hsafe.1
    rw [h1] at h3
    exact ⟨rfl, h3⟩
  case delRow i =>
    have h0 : s.rows = 0 := h
    have key : Mat.delRow i s = (.error .panic, s) := by
      unfold Mat.delRow
      have h2 : (u8Sub F s.rows 1 : Res LinalgError Nat) = .error .panic := by
        simp [u8Sub, hchk, h0]
      simp only [Op.get_bind, h2]
      rfl
    simp only [MatCall.run]
    rw [Op.bind_err key]
    exact ⟨rfl, hs⟩

theorem Res.safe_then_nil {ε α : Type} [Inv α] {r : Res ε α} (h : Res.Safe r) :
    Res.Safe (r >>= fun _ => (pure [] : Res ε (List (Obj F)))) :=
  Res.safe_bind h fun _ _ => Res.safe_pure inv_nil
theorem Res.safe_then_vec {ε : Type} {r : Res ε (Vec F)} (h : Res.Safe r) :
    Res.Safe (r >>= fun v => (pure [.vec v] : Res ε (List (Obj F)))) :=
  Res.safe_bind h fun _ hv => Res.safe_pure (inv_vec hv)
theorem Res.safe_then_mat {ε : Type} {r : Res ε (Mat F)} (h : Res.Safe r) :
    Res.Safe (r >>= fun v => (pure [.mat v] : Res ε (List (Obj F)))) :=
  Res.safe_bind h fun _ hv => Res.safe_pure (inv_mat hv)
theorem Res.safe_then_matmat {ε : Type} {r : Res ε (Mat F × Mat F)} (h : Res.Safe r) :
    Res.Safe (r >>= fun v => (pure [.mat v.1, .mat v.2] : Res ε (List (Obj F)))) :=
  Res.safe_bind h fun _ hv => Res.safe_pure (inv_matmat hv.1 hv.2)

theorem ReadCall.run_safe_of (c : ReadCall F) (ho : ∀ o ∈ c.operands, o.WF)
    (h : ¬ (c.Panics ∧ overflowChecks F = true)) : Res.Safe c.run := by
  cases c <;> simp [ReadCall.operands, Obj.WF] at ho <;> simp only [ReadCall.run]
  case mIsLowerTriangular a =>
    refine Res.safe_then_nil (Mat.isLowerTriangular_safe ho ?_)
    by_cases h0 : a.rows = 0
    · exact Or.inr (by
        cases hc : overflowChecks F
        · rfl
        · exact absurd ⟨h0, hc⟩ h)
    · exact Or.inl h0
  case eigen a niter sh =>
    have hb : ∀ {r : Res LinalgError (Vec F × Mat F)}, Res.Safe r →
        Res.Safe (r >>= fun v => (pure [.vec v.1, .mat v.2] : Res _ (List (Obj F)))) :=
      fun h => Res.safe_bind h fun _ hv => Res.safe_pure (inv_vecmat hv.1 hv.2)
    by_cases hsq : a.initialized = true ∧ a.rows = a.cols
    · refine hb (Linalg.eigen_safe ho fun hsh hn => ?_)
      by_cases h1 : a.rows = 1
      · refine Or.inr ?_
        cases hc : overflowChecks F
        · rfl
        · exact absurd ⟨⟨hsh, hn, hsq.1, h1, hsq.2 ▸ h1⟩, hc⟩ h
      · exact Or.inl h1
    · refine hb ?_
      unfold Linalg.eigen Mat.isSquare
      cases hi : a.initialized
      · simp
        exact trivial
      · have : a.rows ≠ a.cols := fun h' => hsq ⟨hi, h'⟩
        simp [this]
        exact trivial
  case lup a =>
    exact Res.safe_bind (Linalg.lup_safe ho) fun _ hv => Res.safe_pure (inv_matu8 hv.1 hv.2)
  case solve a v p =>
    exact Res.safe_then_vec (Linalg.solve_safe ho.1 ho.2.2 ho.2.1)
  case mDlyap a b => exact Res.safe_then_mat (Mat.dlyap_safe ho.2)
  case mDiag a k =>
    refine Res.safe_then_vec (Mat.diag_safe ho ?_)
    intro j hj
    cases k with
    | none => cases hj
    | some k => cases hj; exact k.2
  case uGetRows p => exact Res.safe_then_nil Vec.getRowsU8_safe
  case uGetElement p i => exact Res.safe_then_nil (Vec.getElementU8_safe ho)
  case mIsUpperTriangular a => exact Res.safe_then_nil (Mat.isUpperTriangular_safe ho)
  case mFrobenius a => exact Res.safe_then_nil (Mat.calculateFrobeniusNorm_safe ho)
  case mIsOrthogonal a => exact Res.safe_then_nil (Mat.isOrthogonal_safe ho)
  case mIsSoN a => exact Res.safe_then_nil (Mat.isSoN_safe ho)
  case mLog a => exact Res.safe_then_mat (Mat.log_safe ho)
  case mDetNaive a => exact Res.safe_then_nil (Mat.detNaive_safe ho)
  all_goals first
    | (refine Res.safe_then_nil ?_; safe; done)
    | (refine Res.safe_then_vec ?_; safe; done)
    | (refine Res.safe_then_mat ?_; safe; done)
    | (refine Res.safe_then_matmat ?_; safe; done)
    | (have h1 := ho.1; have h2 := ho.2; refine Res.safe_then_nil ?_; safe; done)
    | (have h1 := ho.1; have h2 := ho.2; refine Res.safe_then_vec ?_; safe; done)
    | (have h1 := ho.1; have h2 := ho.2; refine Res.safe_then_mat ?_; safe; done)

theorem ReadCall.run_panics (c : ReadCall F) (ho : ∀ o ∈ c.operands, o.WF) (h : c.Panics)
    (hchk : overflowChecks F = true) : c.run = .error .panic := by
  cases c <;> try exact h.elim
  case mIsLowerTriangular a =>
    have h0 : a.rows = 0 := h
    have h2 : (u8Sub F a.rows 1 : Res LinalgError Nat) = .error .panic := by
      simp [u8Sub, hchk, h0]
    simp only [ReadCall.run, Mat.isLowerTriangular, h2]
    rfl
  case eigen a niter sh =>
    obtain ⟨rfl, hn, hini, h1, h2⟩ := h
    have hini : a.initialized = true := hini
    simp [ReadCall.operands, Obj.WF] at ho
    have hwf : WFMat a := ho
    obtain ⟨f, hf⟩ : ∃ f, MatIs a 1 1 f :=
      ⟨fun i j => if h : i * 1 + j < 16 then a.elements ⟨i * 1 + j, h⟩ else lit 0,
        matIs_iff.mpr ⟨le_refl _, by omega, le_refl _, by omega, hini, h1, h2,
          fun i j h16 _ _ => by simp only [h16, dite_true]⟩⟩
    have hfin : ∀ i j, i < 1 → j < 1 → Finite (f i j) := by
      intro i j hi hj
      have h16 : i * 1 + j < 16 := by omega
      rw [← hf.elem h16 hi hj]
      exact hwf.finite _
    have hz := Mat.zeros_is (F := F) (le_refl 1) (show 1 ≤ 4 by omega) (le_refl 1) (show 1 ≤ 4 by omega)
    have hsq : a.isSquare = .ok true := by simp [Mat.isSquare, hini, h1, h2]
    have hgr : a.getRows = .ok 1 := by simp [Mat.getRows, hini, h1]
    obtain ⟨m1, hm1, -⟩ := Mat.exec_of_stores (Mat.copyFrom_stores hz hf) hz hfin
    obtain ⟨m2, hm2, -⟩ := Mat.exec_of_stores (Mat.fillIdentity_stores hz) hz
      (fun i j _ _ => by
        split
        · exact ScalarLawful.one_finite
        · exact ScalarLawful.zero_finite)
    have hpan : ∀ st : Linalg.EigenState F, Linalg.eigenStep 1 true st = .error .panic := by
      intro st
      have hp : (u8Sub F 1 2 : Res LinalgError Nat) = .error .panic := by simp [u8Sub, hchk]
      unfold Linalg.eigenStep Linalg.eigenQr Linalg.eigenShift
      rw [Mat.init_new (le_refl 1) (by omega) (le_refl 1) (by omega), hp]
      rfl
    obtain ⟨k, hk⟩ : ∃ k, niter.val = k + 1 := ⟨niter.val - 1, by omega⟩
    simp only [ReadCall.run, Linalg.eigen, hsq, hgr, Res.ok_bind, Bool.not_true, Bool.false_eq_true,
      if_false, Mat.init_new (F := F) (le_refl 1) (show 1 ≤ 4 by omega) (le_refl 1)
        (show 1 ≤ 4 by omega), hm1, hm2, Vec.init_new (F := F) (le_refl 1) (show 1 ≤ 4 by omega)]
    unfold loopRange
    rw [Nat.sub_zero, hk]
    simp only [loopFrom, hpan]
    rfl

/-! ### Reachable objects are well formed -/

theorem Reach.wf {o : Obj F} (h : Reach o) : o.WF := by
  induction h with
  | newVec => exact Vec.new_inv
  | newMat => exact Mat.new_inv
  | newU8 => exact Vec.newU8_inv
  | vecCall c v hv ho ihv iho => exact (c.run_safe iho v ihv).1
  | matCall c m hm ho ihm iho =>
    by_cases hp : c.PanicsOn m ∧ overflowChecks F = true
    · exact (c.run_panics m ihm hp.1 hp.2).2
    · exact (c.run_safe_of iho m ihm hp).1
  | matResult c m hm ho os hr o h ihm iho =>
    by_cases hp : c.PanicsOn m ∧ overflowChecks F = true
    · rw [(c.run_panics m ihm hp.1 hp.2).1] at hr
      cases hr
    · have := (c.run_safe_of iho m ihm hp).2
      rw [hr] at this
      exact this o h
  | u8Call c p hp ihp => exact (c.run_safe p ihp).1
  | readResult c ho os hr o h iho =>
    by_cases hp : c.Panics ∧ overflowChecks F = true
    · rw [c.run_panics iho hp.1 hp.2] at hr
      cases hr
    · have := c.run_safe_of iho hp
      rw [hr] at this
      exact this o h

/-! ### C01 -/

/-- C01 for f32 vectors. -/
theorem C01_vec {v : Vec F} (h : Reach (.vec v)) :
    v.rows ≤ 4 ∧ (v.isInitialized = true → 1 ≤ v.rows) ∧
      (∀ n, v.getRows = .ok n → 1 ≤ n ∧ n ≤ 4) := by
  have hw : WFVec v := h.wf
  refine ⟨hw.rows_le, hw.rows_pos, fun n hn => ?_⟩
  unfold Vec.getRows at hn
  split at hn
  · cases hn
  · rename_i hi
    cases hn
    exact ⟨hw.rows_pos (by simpa using hi), hw.rows_le⟩

/-- C01 for u8 vectors. -/
theorem C01_u8 {p : Vec Nat} (h : Reach (F := F) (.u8 p)) :
    p.rows ≤ 4 ∧ (p.isInitialized = true → 1 ≤ p.rows) := by
  have hw : WFVecU8 p := h.wf
  exact ⟨hw.rows_le, hw.rows_pos⟩

/-- C01 for matrices. -/
theorem C01_mat {m : Mat F} (h : Reach (.mat m)) :
    m.rows ≤ 4 ∧ m.cols ≤ 4 ∧ (m.isInitialized = true → 1 ≤ m.rows ∧ 1 ≤ m.cols) ∧
      (∀ n, m.getRows = .ok n → 1 ≤ n ∧ n ≤ 4) ∧ (∀ n, m.getCols = .ok n → 1 ≤ n ∧ n ≤ 4) := by
  have hw : WFMat m := h.wf
  refine ⟨hw.rows_le, hw.cols_le, fun hi => ⟨hw.rows_pos hi, hw.cols_pos hi⟩, fun n hn => ?_,
    fun n hn => ?_⟩
  · unfold Mat.getRows at hn
    split at hn
    · cases hn
    · rename_i hi
      cases hn
      exact ⟨hw.rows_pos (by simpa using hi), hw.rows_le⟩
  · unfold Mat.getCols at hn
    split at hn
    · cases hn
    · rename_i hi
      cases hn
      exact ⟨hw.cols_pos (by simpa using hi), hw.cols_le⟩

/-! ### C02 -/

/-- C02 for vectors: the whole buffer, and hence whatever `get_element` returns. -/
theorem C02_vec {v : Vec F} (h : Reach (.vec v)) :
    (∀ i, Finite (v.elements i)) ∧ ∀ i x, v.getElement i = .ok x → Finite x := by
  have hw : WFVec v := h.wf
  refine ⟨hw.finite, fun i x hx => ?_⟩
  unfold Vec.getElement Vec.readElement at hx
  split at hx
  · cases hx
  · unfold isValidRow arrGet at hx
    split at hx
    · cases hx
    · simp only [Res.ok_bind] at hx
      split at hx
      · cases hx
        exact hw.finite _
      · cases hx

/-- C02 for matrices: the whole buffer, and hence whatever `get_element` returns. -/
theorem C02_mat {m : Mat F} (h : Reach (.mat m)) :
    (∀ i, Finite (m.elements i)) ∧ ∀ i j x, m.getElement i j = .ok x → Finite x := by
  have hw : WFMat m := h.wf
  refine ⟨hw.finite, fun i j x hx => ?_⟩
  unfold Mat.getElement at hx
  split at hx
  · cases hx
  · unfold isValidRow isValidCol arrGet at hx
    split at hx
    · cases hx
    · rw [Res.ok_bind] at hx
      split at hx
      · cases hx
      · simp only [Res.ok_bind] at hx
        split at hx
        · cases hx
          exact hw.finite _
        · cases hx

/-! ### C03 -/

theorem Res.Safe.ne_panic {ε α : Type} [Inv α] {r : Res ε α} (h : Res.Safe r) :
    r ≠ .error .panic := by
  rintro rfl
  exact h

/-- C03: calls on f32 vectors (including quaternion methods) never panic. -/
theorem C03_vec (c : VecCall F) (v : Vec F) (hv : Reach (.vec v))
    (ho : ∀ o ∈ c.operands, Reach o) : (c.run v).1 ≠ .error .panic :=
  (c.run_safe (fun o h => (ho o h).wf) v hv.wf).2.ne_panic

/-- C03: calls on u8 vectors never panic. -/
theorem C03_u8 (c : U8Call) (p : Vec Nat) (hp : Reach (F := F) (.u8 p)) :
    (c.run p).1 ≠ .error .panic :=
  (c.run_safe p hp.wf).2.ne_panic

/-- C03: a call on a matrix panics exactly in the listed cases, in builds with overflow checks. -/
theorem C03_mat (c : MatCall F) (m : Mat F) (hm : Reach (.mat m))
    (ho : ∀ o ∈ c.operands, Reach o) :
    (c.run m).1 = .error .panic ↔ c.PanicsOn m ∧ overflowChecks F = true := by
  constructor
  · intro h
    by_contra hp
    exact (c.run_safe_of (fun o h => (ho o h).wf) m hm.wf hp).2.ne_panic h
  · exact fun h => (c.run_panics m hm.wf h.1 h.2).1

/-- C03: a read-only call panics exactly in the listed cases, in builds with overflow checks. -/
theorem C03_read (c : ReadCall F) (ho : ∀ o ∈ c.operands, Reach o) :
    c.run = .error .panic ↔ c.Panics ∧ overflowChecks F = true := by
  constructor
  · intro h
    by_contra hp
    exact (c.run_safe_of (fun o h => (ho o h).wf) hp).ne_panic h
  · exact fun h => c.run_panics (fun o h => (ho o h).wf) h.1 h.2

/-! ### Concrete histories -/

/-- A history with failures and partial writes: a 2×2 matrix, identity, doubled, an insertion beyond
the end (which fails), an inversion. -/
example : ∃ m : Mat XQ, Reach (.mat m) ∧ m.isInitialized = true ∧ m.rows = 3 ∧
    m.getElement 1 1 = .ok (.fin 2) := by
  refine ⟨_, .matCall (.addRow Vec.new 7) _ (.matCall (.mulByScalarInPlace (.fin 2)) _
    (.matCall .fillIdentity _ (.matCall (.init 2 2) _ .newMat ?_) ?_) ?_) ?_, ?_⟩
  · simp [MatCall.operands]
  · simp [MatCall.operands]
  · simp [MatCall.operands]
  · simp [MatCall.operands]
    exact .newVec
  · decide +kernel

/-- A reachable panic: insertion at 255 into a fresh 1×1 matrix. -/
example : ∃ (m : Mat XQ) (c : MatCall XQ), Reach (.mat m) ∧ (∀ o ∈ c.operands, Reach o) ∧
    (c.run m).1 = .error .panic := by
  have hm : Reach (.mat ((MatCall.init (F := XQ) 1 1).run Mat.new).2) :=
    .matCall (.init 1 1) _ .newMat (by simp [MatCall.operands])
  have ho : ∀ o ∈ (MatCall.addRow (F := XQ) Vec.new 255).operands, Reach o := by
    simp [MatCall.operands]; exact .newVec
  refine ⟨_, .addRow Vec.new 255, hm, ho, (C03_mat _ _ hm ho).mpr ⟨⟨rfl, rfl, ?_⟩, rfl⟩⟩
  decide +kernel

/-- The same call in a release build does not panic. -/
example : (letI := releaseScalar XQ
    (Mat.addRow (F := XQ) Vec.new 255 (Mat.init (F := XQ) 1 1 Mat.new).2).1) ≠ .error .panic := by
  decide +kernel

end Verif
