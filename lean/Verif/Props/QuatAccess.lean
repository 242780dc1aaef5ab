import Verif.Props.ArExact

/-
Claims about the quaternion accessors (C72) and predicates (C73).
-/

set_option linter.unusedSectionVars false
set_option linter.unusedSimpArgs false

namespace Verif
open Scalar Finset

namespace Quat
section
variable {F : Type} [Scalar F] {v : Vec F} {f : Nat → F} {n : Nat} {q w x y z : F}

/-- C72: the four getters read the four elements, in the order w, x, y, z. -/
theorem C72_get (h : VecIs v 4 f) :
    getQw v = .ok (f 0) ∧ getQx v = .ok (f 1) ∧ getQy v = .ok (f 2) ∧ getQz v = .ok (f 3) := by
  have h' : VecIs v 4 (seq4 (f 0) (f 1) (f 2) (f 3)) := h.congr (forall_lt_four.mpr ⟨rfl, rfl, rfl, rfl⟩)
  exact ⟨getQw_eq h', getQx_eq h', getQy_eq h', getQz_eq h'⟩

theorem setComponent_eq (h : VecIs v 4 f) (k : Nat) (hk : k < 4) :
    (Finite q → ∃ v', setComponent k q v = (.ok (), v') ∧ VecIs v' 4 fun i => if i = k then q else f i) ∧
    (isNaN q = true → setComponent k q v = (.error (.err (.UtilsError .Nan)), v)) ∧
    (isNaN q = false → isInf q = true → setComponent k q v = (.error (.err (.UtilsError .Inf)), v)) := by
  have e : setComponent k q v = Vec.setElement k q v := by
    unfold setComponent
    simp only [Op.get_bind, isQuaternion_eq h, Op.liftOk_bind]
    rfl
  rw [e]
  refine ⟨fun hq => ?_, fun hq => ?_, fun hq hi => ?_⟩
  · obtain ⟨v', e', h'⟩ := h.exec_set (i := k) hk hq
    obtain ⟨⟨⟩, e''⟩ := exec_eq_ok e'
    exact ⟨v', e'', h'⟩
  · rw [Vec.setElement_eq h.init (by rw [h.rows_eq]; exact hk) hk,
      if_neg (fun hf => by rw [hf.1] at hq; cases hq)]
    unfold valueErr
    rw [hq]; rfl
  · rw [Vec.setElement_eq h.init (by rw [h.rows_eq]; exact hk) hk,
      if_neg (fun hf => by rw [hf.2] at hi; cases hi)]
    unfold valueErr
    rw [hq]; rfl

/-- C72: a setter replaces one element and leaves the other three. -/
theorem C72_set (h : VecIs v 4 f) (hq : Finite q) :
    (∃ v', setQw q v = (.ok (), v') ∧ VecIs v' 4 (seq4 q (f 1) (f 2) (f 3))) ∧
    (∃ v', setQx q v = (.ok (), v') ∧ VecIs v' 4 (seq4 (f 0) q (f 2) (f 3))) ∧
    (∃ v', setQy q v = (.ok (), v') ∧ VecIs v' 4 (seq4 (f 0) (f 1) q (f 3))) ∧
    (∃ v', setQz q v = (.ok (), v') ∧ VecIs v' 4 (seq4 (f 0) (f 1) (f 2) q)) := by
  refine ⟨?_, ?_, ?_, ?_⟩
  · obtain ⟨v', e, h'⟩ := (setComponent_eq (q := q) h 0 (by omega)).1 hq
    exact ⟨v', e, h'.congr (forall_lt_four.mpr ⟨rfl, rfl, rfl, rfl⟩)⟩
  · obtain ⟨v', e, h'⟩ := (setComponent_eq (q := q) h 1 (by omega)).1 hq
    exact ⟨v', e, h'.congr (forall_lt_four.mpr ⟨rfl, rfl, rfl, rfl⟩)⟩
  · obtain ⟨v', e, h'⟩ := (setComponent_eq (q := q) h 2 (by omega)).1 hq
    exact ⟨v', e, h'.congr (forall_lt_four.mpr ⟨rfl, rfl, rfl, rfl⟩)⟩
  · obtain ⟨v', e, h'⟩ := (setComponent_eq (q := q) h 3 (by omega)).1 hq
    exact ⟨v', e, h'.congr (forall_lt_four.mpr ⟨rfl, rfl, rfl, rfl⟩)⟩

/-- C72: a setter refuses NaN and the infinities without effect. -/
theorem C72_refuse (h : VecIs v 4 f) :
    (isNaN q = true → ∀ op ∈ [setQw q, setQx q, setQy q, setQz q],
      op v = (.error (.err (.UtilsError .Nan)), v)) ∧
    (isNaN q = false → isInf q = true → ∀ op ∈ [setQw q, setQx q, setQy q, setQz q],
      op v = (.error (.err (.UtilsError .Inf)), v)) := by
  constructor
  · intro hq op hop
    simp only [List.mem_cons, List.not_mem_nil, or_false] at hop
    rcases hop with rfl | rfl | rfl | rfl <;> exact (setComponent_eq h _ (by omega)).2.1 hq
  · intro hq hi op hop
    simp only [List.mem_cons, List.not_mem_nil, or_false] at hop
    rcases hop with rfl | rfl | rfl | rfl <;> exact (setComponent_eq h _ (by omega)).2.2 hq hi

/-- C72: `fillq` and `fill_identity` set all four elements. -/
theorem C72_fill (h : VecIs v 4 f) :
    (Finite w → Finite x → Finite y → Finite z →
      ∃ v', fillq w x y z v = (.ok (), v') ∧ VecIs v' 4 (seq4 w x y z)) ∧
    (Finite (lit 0 : F) → Finite (lit 1 : F) →
      ∃ v', fillIdentity v = (.ok (), v') ∧ VecIs v' 4 (seq4 (lit 1) (lit 0) (lit 0) (lit 0))) :=
  ⟨fun hw hx hy hz => fillq_ok h hw hx hy hz, fun h0 h1 => fillq_ok h h1 h0 h0 h0⟩

/-- C72: `get_vector_part` is the vector of the last three elements. -/
theorem C72_vector_part (h : VecIs v 4 f) (h1 : Finite (f 1)) (h2 : Finite (f 2)) (h3 : Finite (f 3)) :
    ∃ u, getVectorPart v = .ok u ∧ VecIs u 3 fun i => f (i + 1) := by
  have hz := Vec.zeros_is (F := F) (n := 3) (by omega) (by omega)
  obtain ⟨u1, e1, k1⟩ := hz.exec_set (i := 0) (by omega) h1
  obtain ⟨u2, e2, k2⟩ := k1.exec_set (i := 1) (by omega) h2
  obtain ⟨u3, e3, k3⟩ := k2.exec_set (i := 2) (by omega) h3
  refine ⟨u3, ?_, k3.congr (forall_lt_three.mpr ⟨rfl, rfl, rfl⟩)⟩
  unfold getVectorPart
  simp only [isQuaternion_eq h, Res.ok_bind, decide_true, Bool.not_true, Bool.false_eq_true, if_false,
    Vec.init_new (F := F) (n := 3) (by omega) (by omega), h.get 1 (by omega), h.get 2 (by omega),
    h.get 3 (by omega), e1, e2, e3]

/-- C72: all of these, and the predicates, refuse a vector that is not of size 4 and leave it alone. -/
theorem C72_size (h : VecIs v n f) (hn : n ≠ 4) :
    isQuaternion v = .ok false ∧
    (∀ r ∈ [getQw v, getQx v, getQy v, getQz v], r = .error (.err .InvalidSize)) ∧
    (∀ r ∈ [isReal v, isPure v, isVersor v, isIdentity v], r = .error (.err .InvalidSize)) ∧
    getVectorPart v = .error (.err .InvalidSize) ∧
    ∀ op ∈ [setQw q, setQx q, setQy q, setQz q, fillq w x y z, fillIdentity, conjugate],
      op v = (.error (.err .InvalidSize), v) := by
  have e : isQuaternion v = .ok false := by rw [isQuaternion_eq h, decide_eq_false hn]
  refine ⟨e, ?_, ?_, ?_, ?_⟩
  · intro r hr
    simp only [List.mem_cons, List.not_mem_nil, or_false] at hr
    rcases hr with rfl | rfl | rfl | rfl <;>
      simp only [getQw, getQx, getQy, getQz, getComponent, e, Res.ok_bind] <;> rfl
  · intro r hr
    simp only [List.mem_cons, List.not_mem_nil, or_false] at hr
    rcases hr with rfl | rfl | rfl | rfl <;>
      simp only [isReal, isPure, isVersor, isIdentity, e, Res.ok_bind] <;> rfl
  · unfold getVectorPart; rw [e]; rfl
  · intro op hop
    simp only [List.mem_cons, List.not_mem_nil, or_false] at hop
    rcases hop with rfl | rfl | rfl | rfl | rfl | rfl | rfl <;>
      simp only [setQw, setQx, setQy, setQz, setComponent, fillq, fillIdentity, conjugate, Op.get_bind, e,
        Op.liftOk_bind] <;> rfl

/-- C72: and before `init` all fail with `NotInit`. -/
theorem C72_uninit (h : v.isInitialized = false) :
    isQuaternion v = .error (.err .NotInit) ∧
    (∀ r ∈ [getQw v, getQx v, getQy v, getQz v], r = .error (.err .NotInit)) ∧
    (∀ r ∈ [isReal v, isPure v, isVersor v, isIdentity v], r = .error (.err .NotInit)) ∧
    getVectorPart v = .error (.err .NotInit) ∧
    ∀ op ∈ [setQw q, setQx q, setQy q, setQz q, fillq w x y z, fillIdentity, conjugate],
      op v = (.error (.err .NotInit), v) := by
  have e : isQuaternion v = .error (.err .NotInit) := by
    unfold isQuaternion Vec.getRows
    have : v.initialized = false := h
    rw [this]; rfl
  refine ⟨e, ?_, ?_, ?_, ?_⟩
  · intro r hr
    simp only [List.mem_cons, List.not_mem_nil, or_false] at hr
    rcases hr with rfl | rfl | rfl | rfl <;>
      simp only [getQw, getQx, getQy, getQz, getComponent, e] <;> rfl
  · intro r hr
    simp only [List.mem_cons, List.not_mem_nil, or_false] at hr
    rcases hr with rfl | rfl | rfl | rfl <;>
      simp only [isReal, isPure, isVersor, isIdentity, e] <;> rfl
  · unfold getVectorPart; rw [e]; rfl
  · intro op hop
    simp only [List.mem_cons, List.not_mem_nil, or_false] at hop
    rcases hop with rfl | rfl | rfl | rfl | rfl | rfl | rfl <;>
      simp only [setQw, setQx, setQy, setQz, setComponent, fillq, fillIdentity, conjugate, Op.get_bind, e] <;> rfl

end

section
variable {v : Vec XR} {q : Quaternion ℝ}

/-- C73: in exact arithmetic the predicates are tests against the threshold: the vector part, the real
part, the norm and the distance to 1, component by component. -/
theorem C73_predicates (h : QuatIs v q) :
    isReal v = .ok (decide (|q.imI| ≤ epsilon ℝ ∧ |q.imJ| ≤ epsilon ℝ ∧ |q.imK| ≤ epsilon ℝ)) ∧
    isPure v = .ok (decide (|q.re| ≤ epsilon ℝ)) ∧
    isVersor v = .ok (decide (|‖q‖ - 1| ≤ epsilon ℝ)) ∧
    isIdentity v = .ok (decide (|q.re - 1| ≤ epsilon ℝ ∧ |q.imI| ≤ epsilon ℝ ∧ |q.imJ| ≤ epsilon ℝ ∧
      |q.imK| ≤ epsilon ℝ)) := by
  have g0 : v.getElement 0 = .ok (.fin q.re) := h.get 0 (by omega)
  have hr : allRange 1 4 (fun row => do allcloseL (← v.getElement row) (lit 0) EPSILON) =
      (.ok (decide (|q.imI| ≤ epsilon ℝ ∧ |q.imJ| ≤ epsilon ℝ ∧ |q.imK| ≤ epsilon ℝ)) : Res LinalgError Bool) := by
    rw [allRange_eq _ (fun i => decide (|seq4 q.re q.imI q.imJ q.imK i| ≤ epsilon ℝ))]
    · congr 1
      rw [decide_eq_decide]
      simp only [decide_eq_true_eq]
      constructor
      · intro k
        exact ⟨k 1 (by omega) (by omega), k 2 (by omega) (by omega), k 3 (by omega) (by omega)⟩
      · rintro ⟨a, b, c⟩ i h1 h2
        have : i = 1 ∨ i = 2 ∨ i = 3 := by omega
        rcases this with rfl | rfl | rfl
        · exact a
        · exact b
        · exact c
    · intro i h1 h2
      rw [h.get i h2, Res.ok_bind, Ext.lit_zero]
      have e : (seq4 (.fin q.re) (.fin q.imI) (.fin q.imJ) (.fin q.imK) i : XR) =
          .fin (seq4 q.re q.imI q.imJ q.imK i) := by
        have : i = 1 ∨ i = 2 ∨ i = 3 := by omega
        rcases this with rfl | rfl | rfl <;> rfl
      rw [e, allclose_fin, sub_zero]
  have hn : v.calculateNorm = .ok (.fin (if ‖q‖ ≤ epsilon ℝ then 0 else ‖q‖)) := by
    have h' : VecIs v 4 (fun i => (.fin (seq4 q.re q.imI q.imJ q.imK i) : XR)) :=
      h.congr (forall_lt_four.mpr ⟨rfl, rfl, rfl, rfl⟩)
    have en : norm2 4 (seq4 q.re q.imI q.imJ q.imK) = ‖q‖ := by
      rw [quat_norm, Quaternion.normSq_def', norm2]
      simp [sum_range_succ, seq4]
    rw [C31_norm h', en]
  have eps1 := AR.eps_lt_one
  have eps0 := Linalg.eps_pos (K := ℝ)
  refine ⟨?_, ?_, ?_, ?_⟩
  · unfold isReal
    rw [isQuaternion_eq h, Res.ok_bind]
    exact hr
  · unfold isPure
    simp only [isQuaternion_eq h, Res.ok_bind, decide_true, Bool.not_true, Bool.false_eq_true, if_false, g0,
      Ext.lit_zero, allclose_fin, sub_zero]
    by_cases hc : |q.re| ≤ epsilon ℝ <;> simp [hc]
  · unfold isVersor
    simp only [isQuaternion_eq h, Res.ok_bind, decide_true, Bool.not_true, Bool.false_eq_true, if_false, hn,
      Ext.lit_one, allclose_fin]
    by_cases hs : ‖q‖ ≤ epsilon ℝ
    · have hlt : epsilon ℝ = 1 / 10000 := by norm_num [epsilon]
      have h1 : ¬|(0 : ℝ) - 1| ≤ epsilon ℝ := by rw [hlt]; norm_num
      have h2 : ¬|‖q‖ - 1| ≤ epsilon ℝ := by
        rw [hlt] at hs ⊢
        rw [abs_le]; rintro ⟨h3, -⟩; linarith
      rw [if_pos hs, decide_eq_false h1, decide_eq_false h2]; rfl
    · rw [if_neg hs]
      by_cases hc : |‖q‖ - 1| ≤ epsilon ℝ <;> simp [hc]
  · unfold isIdentity
    simp only [isQuaternion_eq h, Res.ok_bind, decide_true, Bool.not_true, Bool.false_eq_true, if_false, g0,
      Ext.lit_one, allclose_fin]
    by_cases hc : |q.re - 1| ≤ epsilon ℝ
    · simp only [hc, decide_true, Bool.not_true, Bool.false_eq_true, if_false, true_and]
      exact hr
    · simp [hc]

end

/-! Concrete cases in exact rational arithmetic. -/

/-- The quaternion with these components. -/
def cQ (w x y z : ℚ) : Vec XQ := Vec.of 4 (seq4 (.fin w) (.fin x) (.fin y) (.fin z))

example : [isReal (cQ 2 0 0 0), isReal (cQ 2 0 (1/1000) 0), isPure (cQ 0 1 2 3), isPure (cQ 1 2 3 4),
    isVersor (cQ (3/5) 0 (4/5) 0), isVersor (cQ 3 0 4 0), isIdentity (cQ 1 0 0 0), isIdentity (cQ 1 1 0 0)] =
    [.ok true, .ok false, .ok true, .ok false, .ok true, .ok false, .ok true, .ok false] := by
  decide +kernel
example : [getQw (cQ 1 2 3 4), getQx (cQ 1 2 3 4), getQy (cQ 1 2 3 4), getQz (cQ 1 2 3 4)] =
      [.ok (.fin 1), .ok (.fin 2), .ok (.fin 3), .ok (.fin 4)] ∧
    (exec (cQ 1 2 3 4) (setQy (.fin 9)) >>= fun v => v.getElement 2) = .ok (.fin 9) ∧
    (getVectorPart (cQ 1 2 3 4) >>= fun v => v.getElement 2) = .ok (.fin 4) ∧
    (setQz (.nan) (cQ 1 2 3 4)).1 = .error (.err (.UtilsError .Nan)) := by
  decide +kernel
/-- A unit quaternion in exact real arithmetic. -/
example : ∃ v : Vec XR, QuatIs v (mkQ (3/5) 0 (4/5) 0) ∧ isVersor v = .ok true := by
  have h : QuatIs (Vec.of 4 (seq4 (.fin (3/5)) (.fin 0) (.fin (4/5)) (.fin 0)) : Vec XR) (mkQ (3/5) 0 (4/5) 0) :=
    Vec.of_is _ (by omega) (by omega)
  refine ⟨_, h, ?_⟩
  rw [(C73_predicates h).2.2.1]
  have : ‖(mkQ (3/5) 0 (4/5) 0 : Quaternion ℝ)‖ = 1 := by
    rw [quat_norm, normSq_mkQ]; norm_num
  rw [this, sub_self, abs_zero, decide_eq_true (Linalg.eps_pos (K := ℝ)).le]

end Quat
end Verif
