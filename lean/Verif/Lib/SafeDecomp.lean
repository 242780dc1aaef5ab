import Verif.Lib.SafeLinalg

/-
Safety of the factorisations, determinants, eigenvalue iteration and quaternion functions.
-/

set_option linter.unusedSectionVars false

namespace Verif
open Scalar

namespace Linalg
variable {F : Type} [Scalar F] [ScalarLawful F]

theorem lupPivot_safe {lu : Mat F} {p : Vec Nat} {r c : Nat} (h : Inv.inv lu) (hp : Inv.inv p) :
    Res.Safe (lupPivot lu p r c) := by
  unfold lupPivot; safe
macro_rules | `(tactic| safe_lemma) => `(tactic| with_reducible apply Linalg.lupPivot_safe)
theorem lupSwap_safe {p : Vec Nat} {r c : Nat} (hp : Inv.inv p) :
    Res.Safe (lupSwap p r c) := by
  unfold lupSwap; safe
macro_rules | `(tactic| safe_lemma) => `(tactic| with_reducible apply Linalg.lupSwap_safe)
theorem lupElimRow_safe {lu : Mat F} {p : Vec Nat} {rows r c : Nat} (h : Inv.inv lu)
    (hp : Inv.inv p) : Res.Safe (lupElimRow p rows r c lu) := by
  unfold lupElimRow; safe
macro_rules | `(tactic| safe_lemma) => `(tactic| with_reducible apply Linalg.lupElimRow_safe)
theorem lupStep_safe {lu : Mat F} {p : Vec Nat} {rows cols r : Nat} (h : Inv.inv lu)
    (hp : Inv.inv p) : Res.Safe (lupStep rows cols r (lu, p)) := by
  unfold lupStep; safe
macro_rules | `(tactic| safe_lemma) => `(tactic| with_reducible apply Linalg.lupStep_safe)
theorem getRows_of_init {a : Mat F} {n : Nat} (h : a.getRows = .ok n) :
    a.initialized = true ∧ n = a.rows := by
  unfold Mat.getRows at h
  split at h
  · simp at h
  · simp at h; simp_all
theorem lup_safe {a : Mat F} (h : Inv.inv a) : Res.Safe (lup a) := by
  unfold lup
  refine Res.safe_bind_eq Mat.getRows_safe fun n hn _ => ?_
  obtain ⟨hinit, rfl⟩ := getRows_of_init hn
  simp only [hn, Res.ok_bind, u8Sub_ok (h.rows_pos hinit)]
  safe
macro_rules | `(tactic| safe_lemma) => `(tactic| with_reducible apply Linalg.lup_safe)
theorem solveElim_safe {a : Mat F} {p : Vec Nat} {r c : Nat} {x : Vec F} (h : Inv.inv a)
    (hp : Inv.inv p) (hx : Inv.inv x) : Res.Safe (solveElim a p r c x) := by
  unfold solveElim; safe
macro_rules | `(tactic| safe_lemma) => `(tactic| with_reducible apply Linalg.solveElim_safe)
theorem solve_safe {a : Mat F} {p : Vec Nat} {b : Vec F} (h : Inv.inv a)
    (hp : Inv.inv p) (hb : Inv.inv b) : Res.Safe (solve a b p) := by
  unfold solve; safe
macro_rules | `(tactic| safe_lemma) => `(tactic| with_reducible apply Linalg.solve_safe)
end Linalg

namespace Mat
variable {F : Type} [Scalar F] [ScalarLawful F]

theorem orElseErr_safe {α : Type} [Inv α] {r : Res LinalgError α} {e : LinalgError}
    (h : Res.Safe r) : Res.Safe (orElseErr r e) := Res.safe_mapErr h
macro_rules | `(tactic| safe_lemma) => `(tactic| with_reducible apply Mat.orElseErr_safe)

theorem invertLoop_safe {lu : Mat F} {p : Vec Nat} {row len : Nat} {v : Vec F} (h : Inv.inv lu)
    (hp : Inv.inv p) (hv : Inv.inv v) : Op.Safe (invertLoop lu p row len v) := by
  induction len generalizing row v with
  | zero => unfold invertLoop; safe
  | succ len ih => unfold invertLoop; safe; exact ih ‹_›
macro_rules | `(tactic| safe_lemma) => `(tactic| with_reducible apply Mat.invertLoop_safe)
theorem invert_safe : Op.Safe (invert : Op LinalgError (Mat F) Unit) := by
  unfold invert; safe
macro_rules | `(tactic| safe_lemma) => `(tactic| with_reducible exact Mat.invert_safe)
theorem lr_safe {a : Mat F} (ha : Inv.inv a) : Res.Safe a.lr := by
  unfold lr; safe
macro_rules | `(tactic| safe_lemma) => `(tactic| with_reducible apply Mat.lr_safe)
theorem luCrout_safe {a : Mat F} (ha : Inv.inv a) : Res.Safe a.luCrout := by
  unfold luCrout; safe
macro_rules | `(tactic| safe_lemma) => `(tactic| with_reducible apply Mat.luCrout_safe)
theorem colDot_safe {a : Mat F} {n c1 c2 : Nat} (ha : Inv.inv a) : Res.Safe (colDot a n c1 c2) := by
  unfold colDot; safe
macro_rules | `(tactic| safe_lemma) => `(tactic| with_reducible apply Mat.colDot_safe)
theorem qrColumn_safe {a : Mat F} {n c : Nat} (ha : Inv.inv a) : Res.Safe (qrColumn n c a) := by
  unfold qrColumn; safe
macro_rules | `(tactic| safe_lemma) => `(tactic| with_reducible apply Mat.qrColumn_safe)
theorem qrDecomp_safe {a : Mat F} (ha : Inv.inv a) : Res.Safe a.qrDecomp := by
  unfold qrDecomp; safe
macro_rules | `(tactic| safe_lemma) => `(tactic| with_reducible apply Mat.qrDecomp_safe)
theorem det_safe {a : Mat F} (ha : Inv.inv a) : Res.Safe a.det := by
  unfold det; safe
macro_rules | `(tactic| safe_lemma) => `(tactic| with_reducible apply Mat.det_safe)

/-- `generate_permutations` succeeds on every admissible size, with column numbers below it. -/
theorem generatePermutations_ok {n : Nat} (h1 : 1 ≤ n) (h4 : n ≤ 4) :
    ∃ p, generatePermutations n = .ok p := by
  have h : n = 1 ∨ n = 2 ∨ n = 3 ∨ n = 4 := by omega
  rcases h with rfl | rfl | rfl | rfl
  · exact ⟨_, rfl⟩
  · exact ⟨_, rfl⟩
  · exact ⟨_, rfl⟩
  · exact ⟨_, rfl⟩

omit [ScalarLawful F] in
theorem factorial_small {ε : Type} {n : Nat} (h4 : n ≤ 4) :
    (Utils.factorial F n : Res ε Nat) = .ok n.factorial := by
  have h : n = 0 ∨ n = 1 ∨ n = 2 ∨ n = 3 ∨ n = 4 := by omega
  rcases h with rfl | rfl | rfl | rfl | rfl <;> rfl

theorem countInversions_safe {p : Fin 4 → Nat} {n : Nat} (h : n ≤ 4) :
    Res.Safe (countInversions p n) := by
  unfold countInversions
  refine foldRange_safe inv_trivial fun i _ hi b _ => foldRange_safe inv_trivial fun j _ hj b _ => ?_
  rw [arrGet_ok _ (by omega : i < 4), Res.ok_bind, arrGet_ok _ (by omega : j < 4), Res.ok_bind]
  safe

theorem detNaive_safe {a : Mat F} (ha : Inv.inv a) : Res.Safe a.detNaive := by
  unfold detNaive
  refine Res.safe_bind_eq Mat.isSquare_safe fun b hb _ => Res.safe_ite (fun _ => trivial) fun h => ?_
  have hinit : a.initialized = true := by
    unfold isSquare at hb
    split at hb
    · simp at hb
    · simp_all
  obtain ⟨p, hp⟩ := generatePermutations_ok (ha.rows_pos hinit) ha.rows_le
  have h4 := ha.rows_le
  rw [hp, Res.ok_bind, factorial_small h4, Res.ok_bind]
  refine foldRange_safe inv_trivial fun i _ hi b _ => ?_
  rw [arrGet_ok _ (lt_of_lt_of_le hi (Nat.min_le_right _ _)), Res.ok_bind]
  refine Res.safe_bind (foldRange_safe inv_trivial fun row _ hrow b _ => ?_) fun _ _ => ?_
  · rw [arrGet_ok _ (by omega : row < 4), Res.ok_bind]
    safe
  · refine Res.safe_bind (countInversions_safe h4) fun _ _ => ?_
    safe
macro_rules | `(tactic| safe_lemma) => `(tactic| with_reducible apply Mat.detNaive_safe)

theorem isPositiveDefinite_safe {a : Mat F} (ha : Inv.inv a) : Res.Safe a.isPositiveDefinite := by
  unfold isPositiveDefinite; safe
macro_rules | `(tactic| safe_lemma) => `(tactic| with_reducible apply Mat.isPositiveDefinite_safe)
theorem cholColumn_safe {a l : Mat F} {c : Nat} (ha : Inv.inv a) (hl : Inv.inv l) :
    Res.Safe (cholColumn a c l) := by
  unfold cholColumn; safe
macro_rules | `(tactic| safe_lemma) => `(tactic| with_reducible apply Mat.cholColumn_safe)
theorem chol_safe {a : Mat F} (ha : Inv.inv a) : Res.Safe a.chol := by
  unfold chol; safe
macro_rules | `(tactic| safe_lemma) => `(tactic| with_reducible apply Mat.chol_safe)
theorem dlyap_safe {a b : Mat F} (hb : Inv.inv b) : Res.Safe (a.dlyap b) := by
  unfold dlyap; safe
theorem mulTransposeIsIdentity_safe {a : Mat F} {n : Nat} (ha : Inv.inv a) :
    Res.Safe (a.mulTransposeIsIdentity n) := by
  unfold mulTransposeIsIdentity; safe
macro_rules | `(tactic| safe_lemma) => `(tactic| with_reducible apply Mat.mulTransposeIsIdentity_safe)
theorem isOrthogonal_safe {a : Mat F} (ha : Inv.inv a) : Res.Safe a.isOrthogonal := by
  unfold isOrthogonal; safe
theorem isSoN_safe {a : Mat F} (ha : Inv.inv a) : Res.Safe a.isSoN := by
  unfold isSoN; safe
macro_rules | `(tactic| safe_lemma) => `(tactic| with_reducible apply Mat.isSoN_safe)
theorem log_safe {a : Mat F} (ha : Inv.inv a) : Res.Safe a.log := by
  unfold log; safe
theorem logInPlace_safe : Op.Safe (logInPlace : Op LinalgError (Mat F) Unit) := by
  unfold logInPlace; safe
theorem adjugateInPlace_safe : Op.Safe (adjugateInPlace : Op LinalgError (Mat F) Unit) := by
  unfold adjugateInPlace; safe
end Mat

namespace Linalg
variable {F : Type} [Scalar F] [ScalarLawful F]

theorem eigenShift_safe {a : Mat F} {m : Nat} (ha : Inv.inv a)
    (hm : 2 ≤ m ∨ Scalar.overflowChecks F = false) : Res.Safe (eigenShift a m) := by
  have h1 : 1 ≤ m ∨ Scalar.overflowChecks F = false := hm.imp_left (by omega)
  unfold eigenShift
  refine Res.safe_bind (u8Sub_safe hm) fun _ _ => Res.safe_bind (Mat.getElement_safe ha) fun _ _ =>
    Res.safe_bind (u8Sub_safe h1) fun _ _ => Res.safe_bind (Mat.getElement_safe ha) fun _ _ =>
    Res.safe_bind (u8Sub_safe h1) fun _ _ => Res.safe_bind (u8Sub_safe h1) fun _ _ => ?_
  safe

/-- The invariant of the local variables of `eigen`. -/
instance instInvEigen : Inv (EigenState F) := ⟨fun st =>
  Inv.inv st.a ∧ Inv.inv st.i ∧ Inv.inv st.q ∧ Inv.inv st.r ∧ Inv.inv st.eigenvectors ∧
    Inv.inv st.eigenvalues ∧ Inv.inv st.previous ∧ Inv.inv st.delta⟩

theorem eigenQr_safe {m : Nat} {sh : Bool} {tmp : Mat F} {st : EigenState F} (ht : Inv.inv tmp)
    (hst : Inv.inv st) (hm : sh = true → 2 ≤ m ∨ Scalar.overflowChecks F = false) :
    Res.Safe (eigenQr m sh tmp st) := by
  obtain ⟨h1, h2, h3, h4, h5, h6, h7, h8⟩ := hst
  unfold eigenQr
  refine Res.safe_ite (fun hs => ?_) fun _ => ?_
  · refine Res.safe_bind (eigenShift_safe h1 (hm hs)) fun s _ => ?_
    safe
    exact ⟨by assumption, by assumption, by assumption, by assumption, h5, h6, h7, h8⟩
  · safe
    exact ⟨by assumption, h2, by assumption, by assumption, h5, h6, h7, h8⟩

theorem eigenStep_safe {m : Nat} {sh : Bool} {st : EigenState F}
    (hst : Inv.inv st) (hm : sh = true → 2 ≤ m ∨ Scalar.overflowChecks F = false) :
    Res.Safe (eigenStep m sh st) := by
  unfold eigenStep
  refine Res.safe_bind (by safe) fun tmp ht => Res.safe_bind (eigenQr_safe ht hst hm) ?_
  rintro ⟨tmp, st⟩ ⟨ht, h1, h2, h3, h4, h5, h6, h7, h8⟩
  dsimp only
  safe
  · exact ⟨h1, h2, h3, h4, by assumption, by assumption, h7, by assumption⟩
  · exact ⟨h1, h2, h3, h4, by assumption, by assumption, by assumption, by assumption⟩

theorem eigen_safe {a : Mat F} {niter : Nat} {sh : Bool} (ha : Inv.inv a)
    (hm : sh = true → niter ≠ 0 → a.rows ≠ 1 ∨ Scalar.overflowChecks F = false) :
    Res.Safe (eigen a niter sh) := by
  unfold eigen
  refine Res.safe_bind Mat.isSquare_safe fun _ _ => Res.safe_ite (fun _ => trivial) fun _ => ?_
  refine Res.safe_bind_eq Mat.getRows_safe fun m hm' _ => ?_
  obtain ⟨hinit, rfl⟩ := getRows_of_init hm'
  have h1 := ha.rows_pos hinit
  safe
  · exact ⟨by assumption, by assumption, by assumption, by assumption, by assumption,
      by assumption, by assumption, by assumption⟩
  · refine eigenStep_safe (by assumption) fun hs => (hm hs (by omega)).imp_left (by omega)
  · rename_i st hst
    exact hst.2.2.2.2.2.1
  · rename_i st hst
    exact hst.2.2.2.2.1
end Linalg

namespace Quat
variable {F : Type} [Scalar F] [ScalarLawful F]
theorem isQuaternion_safe {v : Vec F}  :
    Res.Safe (isQuaternion v) := by
  unfold isQuaternion; safe
macro_rules | `(tactic| safe_lemma) => `(tactic| with_reducible apply Quat.isQuaternion_safe)
theorem isReal_safe {v : Vec F} (hv : Inv.inv v) :
    Res.Safe (isReal v) := by
  unfold isReal; safe
macro_rules | `(tactic| safe_lemma) => `(tactic| with_reducible apply Quat.isReal_safe)
theorem isPure_safe {v : Vec F} (hv : Inv.inv v) :
    Res.Safe (isPure v) := by
  unfold isPure; safe
macro_rules | `(tactic| safe_lemma) => `(tactic| with_reducible apply Quat.isPure_safe)
theorem isVersor_safe {v : Vec F} (hv : Inv.inv v) :
    Res.Safe (isVersor v) := by
  unfold isVersor; safe
macro_rules | `(tactic| safe_lemma) => `(tactic| with_reducible apply Quat.isVersor_safe)
theorem isIdentity_safe {v : Vec F} (hv : Inv.inv v) :
    Res.Safe (isIdentity v) := by
  unfold isIdentity; safe
macro_rules | `(tactic| safe_lemma) => `(tactic| with_reducible apply Quat.isIdentity_safe)
theorem setComponent_safe {i : Nat} {x : F}  :
    Op.Safe (setComponent i x) := by
  unfold setComponent; safe
macro_rules | `(tactic| safe_lemma) => `(tactic| with_reducible apply Quat.setComponent_safe)
theorem getComponent_safe {v : Vec F} {i : Nat} (hv : Inv.inv v) :
    Res.Safe (getComponent v i) := by
  unfold getComponent; safe
macro_rules | `(tactic| safe_lemma) => `(tactic| with_reducible apply Quat.getComponent_safe)
theorem setQw_safe {x : F}  :
    Op.Safe (setQw x) := by
  unfold setQw; safe
macro_rules | `(tactic| safe_lemma) => `(tactic| with_reducible apply Quat.setQw_safe)
theorem getQw_safe {v : Vec F} (hv : Inv.inv v) :
    Res.Safe (getQw v) := by
  unfold getQw; safe
macro_rules | `(tactic| safe_lemma) => `(tactic| with_reducible apply Quat.getQw_safe)
theorem setQx_safe {x : F}  :
    Op.Safe (setQx x) := by
  unfold setQx; safe
macro_rules | `(tactic| safe_lemma) => `(tactic| with_reducible apply Quat.setQx_safe)
theorem getQx_safe {v : Vec F} (hv : Inv.inv v) :
    Res.Safe (getQx v) := by
  unfold getQx; safe
macro_rules | `(tactic| safe_lemma) => `(tactic| with_reducible apply Quat.getQx_safe)
theorem setQy_safe {x : F}  :
    Op.Safe (setQy x) := by
  unfold setQy; safe
macro_rules | `(tactic| safe_lemma) => `(tactic| with_reducible apply Quat.setQy_safe)
theorem getQy_safe {v : Vec F} (hv : Inv.inv v) :
    Res.Safe (getQy v) := by
  unfold getQy; safe
macro_rules | `(tactic| safe_lemma) => `(tactic| with_reducible apply Quat.getQy_safe)
theorem setQz_safe {x : F}  :
    Op.Safe (setQz x) := by
  unfold setQz; safe
macro_rules | `(tactic| safe_lemma) => `(tactic| with_reducible apply Quat.setQz_safe)
theorem getQz_safe {v : Vec F} (hv : Inv.inv v) :
    Res.Safe (getQz v) := by
  unfold getQz; safe
macro_rules | `(tactic| safe_lemma) => `(tactic| with_reducible apply Quat.getQz_safe)
theorem getVectorPart_safe {v : Vec F} (hv : Inv.inv v) :
    Res.Safe (getVectorPart v) := by
  unfold getVectorPart; safe
macro_rules | `(tactic| safe_lemma) => `(tactic| with_reducible apply Quat.getVectorPart_safe)
theorem storeAll_safe {a b c d : F}  :
    Op.Safe (storeAll a b c d) := by
  unfold storeAll; safe
macro_rules | `(tactic| safe_lemma) => `(tactic| with_reducible apply Quat.storeAll_safe)
theorem fillq_safe {a b c d : F}  :
    Op.Safe (fillq a b c d) := by
  unfold fillq; safe
macro_rules | `(tactic| safe_lemma) => `(tactic| with_reducible apply Quat.fillq_safe)
theorem conjugate_safe : Op.Safe (conjugate : Op LinalgError (Vec F) Unit) := by
  unfold conjugate; safe
macro_rules | `(tactic| safe_lemma) => `(tactic| with_reducible exact Quat.conjugate_safe)
theorem conjugateNew_safe {v : Vec F} (hv : Inv.inv v) :
    Res.Safe (conjugateNew v) := by
  unfold conjugateNew; safe
macro_rules | `(tactic| safe_lemma) => `(tactic| with_reducible apply Quat.conjugateNew_safe)
theorem mul_safe {v w : Vec F} (hv : Inv.inv v) (hw : Inv.inv w) :
    Op.Safe (mul v w) := by
  unfold mul; safe
macro_rules | `(tactic| safe_lemma) => `(tactic| with_reducible apply Quat.mul_safe)
theorem mulNew_safe {v w : Vec F} (hv : Inv.inv v) (hw : Inv.inv w) :
    Res.Safe (mulNew v w) := by
  unfold mulNew; safe
macro_rules | `(tactic| safe_lemma) => `(tactic| with_reducible apply Quat.mulNew_safe)
theorem fillIdentity_safe : Op.Safe (fillIdentity : Op LinalgError (Vec F) Unit) := by
  unfold fillIdentity; safe
macro_rules | `(tactic| safe_lemma) => `(tactic| with_reducible exact Quat.fillIdentity_safe)
theorem invert_safe : Op.Safe (invert : Op LinalgError (Vec F) Unit) := by
  unfold invert; safe
macro_rules | `(tactic| safe_lemma) => `(tactic| with_reducible exact Quat.invert_safe)
theorem convertToDcm_safe {v : Vec F} (hv : Inv.inv v) :
    Res.Safe (convertToDcm v) := by
  unfold convertToDcm; safe
macro_rules | `(tactic| safe_lemma) => `(tactic| with_reducible apply Quat.convertToDcm_safe)
theorem expParts_safe {v : Vec F} (hv : Inv.inv v) :
    Res.Safe (expParts v) := by
  unfold expParts; safe
macro_rules | `(tactic| safe_lemma) => `(tactic| with_reducible apply Quat.expParts_safe)
theorem exp_safe : Op.Safe (exp : Op LinalgError (Vec F) Unit) := by
  unfold exp; safe
macro_rules | `(tactic| safe_lemma) => `(tactic| with_reducible exact Quat.exp_safe)
theorem expNew_safe {v : Vec F} (hv : Inv.inv v) :
    Res.Safe (expNew v) := by
  unfold expNew; safe
macro_rules | `(tactic| safe_lemma) => `(tactic| with_reducible apply Quat.expNew_safe)
theorem diagNone_safe {a : Mat F} (ha : Inv.inv a) : Res.Safe (a.diag none) :=
  Mat.diag_safe ha (by simp)
macro_rules | `(tactic| safe_lemma) => `(tactic| with_reducible apply Quat.diagNone_safe)
theorem hughes_safe {m : Mat F} (hm : Inv.inv m) :
    Op.Safe (hughes m) := by
  unfold hughes; safe
macro_rules | `(tactic| safe_lemma) => `(tactic| with_reducible apply Quat.hughes_safe)
theorem chiaverini_safe {m : Mat F} (hm : Inv.inv m) :
    Op.Safe (chiaverini m) := by
  unfold chiaverini; safe
macro_rules | `(tactic| safe_lemma) => `(tactic| with_reducible apply Quat.chiaverini_safe)
theorem sarabandi_safe {m : Mat F} {e : Option F} (hm : Inv.inv m) :
    Op.Safe (sarabandi m e) := by
  unfold sarabandi; safe
macro_rules | `(tactic| safe_lemma) => `(tactic| with_reducible apply Quat.sarabandi_safe)
theorem convertToEuler_safe {v : Vec F} (hv : Inv.inv v) :
    Res.Safe (convertToEuler v) := by
  unfold convertToEuler; safe
macro_rules | `(tactic| safe_lemma) => `(tactic| with_reducible apply Quat.convertToEuler_safe)
theorem rotate_safe {v w : Vec F} (hv : Inv.inv v) (hw : Inv.inv w) :
    Res.Safe (rotate v w) := by
  unfold rotate; safe
macro_rules | `(tactic| safe_lemma) => `(tactic| with_reducible apply Quat.rotate_safe)
theorem rotateInPlace_safe {v : Vec F} (hv : Inv.inv v) :
    Op.Safe (rotateInPlace v) := by
  unfold rotateInPlace; safe
macro_rules | `(tactic| safe_lemma) => `(tactic| with_reducible apply Quat.rotateInPlace_safe)

end Quat
end Verif
