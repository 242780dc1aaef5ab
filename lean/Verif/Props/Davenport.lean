import Verif.Spec.Filters
import Verif.Props.Aqua

/-
Claims about the Davenport filter (C57): whatever is called, `update` never succeeds.
-/

set_option linter.unusedSectionVars false
set_option linter.unusedSimpArgs false

namespace Verif
open Scalar

section
variable {F : Type} [Scalar F] [ScalarLawful F]
namespace Davenport

theorem onAttitude_ok {m : Op LinalgError (Vec F) Unit} {s : Davenport F} {t : Vec F}
    (h : m s.attitude = (.ok (), t)) : onAttitude m s = (.ok (), { s with attitude := t }) := by
  unfold onAttitude; exact fieldOp_ok h
theorem onAttitude_err {m : Op LinalgError (Vec F) Unit} {s : Davenport F} {t : Vec F} {e : LinalgError}
    (h : m s.attitude = (.error (.err e), t)) :
    onAttitude m s = (.error (.err (.LinalgError e)), { s with attitude := t }) := by
  unfold onAttitude; exact fieldOp_err h

/-- Nothing has been tried yet. -/
structure Fresh (s : Davenport F) : Prop where
  initialized : s.initialized = false
  attitude : s.attitude = Vec.new
  acc : s.acc.initialized = false

/-- An `init` has failed. -/
structure Stuck (s : Davenport F) : Prop where
  initialized : s.initialized = false
  attitude : s.attitude.initialized = true

/-- The filter is initialised, its accelerometer is not. -/
structure Ready (s : Davenport F) : Prop where
  initialized : s.initialized = true
  acc : s.acc.initialized = false

theorem new_fresh : ∃ s0 : Davenport F, Davenport.new = .ok s0 ∧ Fresh s0 := by
  obtain ⟨a0, ea, hai, -⟩ := C44_acc_new (F := F)
  obtain ⟨m0, em, -, -⟩ := C44_mag_new (F := F)
  exact ⟨_, by unfold Davenport.new; rw [ea, em]; rfl, ⟨rfl, rfl, hai⟩⟩

theorem weights_eq {w1 w2 : F} : (!Utils.inRange w1 EPSILON (lit 1) || !Utils.inRange w2 EPSILON (lit 1)) = false ↔
    Weights w1 w2 := by
  unfold Utils.inRange Weights EPSILON
  simp only [Bool.or_eq_false_iff, Bool.not_eq_false', Bool.and_eq_true]
  constructor
  · rintro ⟨⟨h1, h2⟩, h3, h4⟩
    exact ⟨h1, h2, h3, h4⟩
  · rintro ⟨h1, h2, h3, h4⟩
    exact ⟨⟨h1, h2⟩, h3, h4⟩

theorem Stuck.init {s : Davenport F} (h : Stuck s) (w1 w2 : F) (g mdip : Option F) :
    Davenport.init w1 w2 g mdip s = (.error (.err (.LinalgError .AlreadyInit)), s) := by
  have e : Vec.init 4 s.attitude = (.error (.err .AlreadyInit), s.attitude) := by
    unfold Vec.init
    rw [Op.get_bind, h.attitude]
    rfl
  unfold Davenport.init
  rw [Op.get_bind, if_neg (by rw [h.initialized]; decide), Op.bind_err (onAttitude_err e)]

theorem Ready.init {s : Davenport F} (h : s.initialized = true) (w1 w2 : F) (g mdip : Option F) :
    Davenport.init w1 w2 g mdip s = (.error (.err .DavenportFilterAlreadyInit), s) := by
  unfold Davenport.init
  rw [Op.get_bind, if_pos h]
  rfl

theorem unused {s : Davenport F} (hi : s.initialized = false) (ax ay az mx my mz : F) :
    update ax ay az mx my mz s = (.error (.err .DavenportFilterNotInit), s) := by
  unfold update; rw [Op.get_bind, hi]; rfl

theorem Ready.update {s : Davenport F} (h : Ready s) (ax ay az mx my mz : F) :
    Davenport.update ax ay az mx my mz s = (.error (.err .AccNotInit), s) := by
  have e := (C44_acc_unused (c := .default) (x := ax) (y := ay) (z := az) h.acc).2.1
  unfold Davenport.update
  rw [Op.get_bind, if_neg (by rw [h.initialized]; decide)]
  have e' : Op.zoom Davenport.acc (fun a s => { s with acc := a }) (Accelerometer.update ax ay az) s =
      (.error (.err .AccNotInit), s) := by rw [Op.zoom_run, e]
  rw [Op.bind_err e']

section

theorem Fresh.init {s : Davenport F} (h : Fresh s) (w1 w2 : F) (g mdip : Option F) :
    (Weights w1 w2 ∧ ∃ s', Davenport.init w1 w2 g mdip s = (.ok (), s') ∧ Ready s') ∨
    (¬ Weights w1 w2 ∧ ∃ s', Davenport.init w1 w2 g mdip s = (.error (.err .InvalidDavenportWeights), s') ∧ Stuck s') := by
  have e1 : Vec.init 4 s.attitude = (.ok (), (Vec.zeros 4 : Vec F)) := by rw [h.attitude]; rfl
  obtain ⟨v, e2, hv⟩ := Aqua.identity_run (F := F)
  have start : Davenport.init w1 w2 g mdip s =
      (if !Utils.inRange w1 EPSILON (lit 1) || !Utils.inRange w2 EPSILON (lit 1) then
        Op.fail .InvalidDavenportWeights
      else
        Op.modify fun self =>
          { self with
            w1 := w1, w2 := w2, g := g.getD self.g, mdip := mdip.getD self.mdip,
            initialized := true } : Op AhrsError (Davenport F) Unit) { s with attitude := v } := by
    unfold Davenport.init
    rw [Op.get_bind, if_neg (by rw [h.initialized]; decide), Op.bind_ok (onAttitude_ok e1),
      Op.bind_ok (onAttitude_ok (s := { s with attitude := Vec.zeros 4 }) e2)]
  rw [start]
  cases hw : (!Utils.inRange w1 EPSILON (lit 1) || !Utils.inRange w2 EPSILON (lit 1))
  · exact Or.inl ⟨weights_eq.mp hw, _, rfl, rfl, h.acc⟩
  · refine Or.inr ⟨fun hc => ?_, _, rfl, h.initialized, hv.init⟩
    rw [weights_eq.mpr hc] at hw
    cases hw

theorem Ready.call {s : Davenport F} (h : Ready s) (k : DavenportCall F) : Ready (Davenport.call k s).2 := by
  cases k with
  | init w1 w2 g mdip =>
    show Ready (Davenport.init w1 w2 g mdip s).2
    rw [Ready.init h.initialized]
    exact h
  | update ax ay az mx my mz =>
    show Ready (Davenport.update ax ay az mx my mz s).2
    rw [h.update]
    exact h

theorem Stuck.call {s : Davenport F} (h : Stuck s) (k : DavenportCall F) : Stuck (Davenport.call k s).2 := by
  cases k with
  | init w1 w2 g mdip =>
    show Stuck (Davenport.init w1 w2 g mdip s).2
    rw [h.init]
    exact h
  | update ax ay az mx my mz =>
    show Stuck (Davenport.update ax ay az mx my mz s).2
    rw [unused h.initialized]
    exact h

theorem Ready.leads {s s' : Davenport F} (h : Ready s) (hl : Leads s s') : Ready s' := by
  induction hl with
  | refl => exact h
  | step k _ ih => exact ih.call k

theorem Stuck.leads {s s' : Davenport F} (h : Stuck s) (hl : Leads s s') : Stuck s' := by
  induction hl with
  | refl => exact h
  | step k _ ih => exact ih.call k

theorem Leads.trans {s t u : Davenport F} (h : Leads s t) (k : Leads t u) : Leads s u := by
  induction k with
  | refl => exact h
  | step c _ ih => exact .step c ih

/-- The states a filter can be in, and which of them come after a successful `init`. -/
theorem Reachable.cases {s : Davenport F} (h : Reachable s) : Fresh s ∨ Stuck s ∨ (Ready s ∧ Started s) := by
  obtain ⟨s0, e0, hl⟩ := h
  have h0 : Reachable s0 := ⟨s0, e0, .refl _⟩
  induction hl with
  | refl =>
    obtain ⟨s1, e1, h⟩ := new_fresh (F := F)
    rw [e0] at e1
    obtain rfl := Except.ok.inj e1
    exact .inl h
  | @step t k hl ih =>
    rcases ih with h | h | ⟨h, s2, s3, w1, w2, g, m, k1, k2, k3⟩
    · cases k with
      | init w1 w2 g mdip =>
        rcases h.init w1 w2 g mdip with ⟨-, s', e, h'⟩ | ⟨-, s', e, h'⟩
        · refine .inr (.inr ?_)
          show Ready (Davenport.init w1 w2 g mdip t).2 ∧ Started (Davenport.init w1 w2 g mdip t).2
          rw [e]
          exact ⟨h', t, s', w1, w2, g, mdip, ⟨s0, e0, hl⟩, e, .refl _⟩
        · refine .inr (.inl ?_)
          show Stuck (Davenport.init w1 w2 g mdip t).2
          rw [e]
          exact h'
      | update ax ay az mx my mz =>
        refine .inl ?_
        show Fresh (Davenport.update ax ay az mx my mz t).2
        rw [unused h.initialized]
        exact h
    · exact .inr (.inl (h.call k))
    · exact .inr (.inr ⟨h.call k, s2, s3, w1, w2, g, m, k1, k2, .step k k3⟩)

theorem Started.ready {s : Davenport F} (h : Started s) : Ready s := by
  obtain ⟨s0, s1, w1, w2, g, m, h0, e, hl⟩ := h
  refine Ready.leads ?_ hl
  rcases h0.cases with h | h | ⟨h, -⟩
  · rcases h.init w1 w2 g m with ⟨-, s', e', h'⟩ | ⟨-, s', e', h'⟩
    · rw [e] at e'
      obtain rfl := congrArg Prod.snd e'
      exact h'
    · rw [e] at e'
      cases congrArg Prod.fst e'
  · rw [h.init] at e
    cases congrArg Prod.fst e
  · rw [Ready.init h.initialized] at e
    cases congrArg Prod.fst e

end
end Davenport

open Davenport
variable {s s' : Davenport F} {w1 w2 : F} {g mdip : Option F}

/-- C57: the first `init` succeeds exactly when both weights lie between `EPSILON` and 1. -/
theorem C57_init (h0 : Davenport.new = .ok s) :
    ((Davenport.init w1 w2 g mdip s).1 = .ok () ↔ Weights w1 w2) ∧
    (¬ Weights w1 w2 → (Davenport.init w1 w2 g mdip s).1 = .error (.err .InvalidDavenportWeights)) := by
  obtain ⟨s1, e1, h⟩ := new_fresh (F := F)
  rw [h0] at e1
  obtain rfl := Except.ok.inj e1
  rcases h.init w1 w2 g mdip with ⟨hw, s', e, -⟩ | ⟨hw, s', e, -⟩
  · rw [e]
    exact ⟨⟨fun _ => hw, fun _ => rfl⟩, fun h => absurd hw h⟩
  · rw [e]
    exact ⟨⟨fun h => (by cases h), fun h => absurd h hw⟩, fun _ => rfl⟩

/-- C57: after a successful `init` every `update` fails with `AccNotInit`, because nothing initialises the
sensors, and every other `init` is refused; both leave the filter unchanged. -/
theorem C57_started (hs : Started s) (ax ay az mx my mz : F) :
    update ax ay az mx my mz s = (.error (.err .AccNotInit), s) ∧
    Davenport.init w1 w2 g mdip s = (.error (.err .DavenportFilterAlreadyInit), s) :=
  ⟨hs.ready.update ax ay az mx my mz, Ready.init hs.ready.initialized _ _ _ _⟩

/-- C57: before a successful `init` every `update` fails with `DavenportFilterNotInit`. -/
theorem C57_before (hs : Reachable s) (hn : ¬ Started s) (ax ay az mx my mz : F) :
    update ax ay az mx my mz s = (.error (.err .DavenportFilterNotInit), s) := by
  rcases hs.cases with h | h | ⟨-, h⟩
  · exact unused h.initialized ax ay az mx my mz
  · exact unused h.initialized ax ay az mx my mz
  · exact absurd h hn

/-- C57: so no `update` in any history succeeds. -/
theorem C57_never (hs : Reachable s) (ax ay az mx my mz : F) : (update ax ay az mx my mz s).1 ≠ .ok () := by
  by_cases h : Started s
  · rw [(C57_started (w1 := ax) (w2 := ax) (g := none) (mdip := none) h ax ay az mx my mz).1]
    exact fun h => (by cases h)
  · rw [C57_before hs h]
    exact fun h => (by cases h)

/-- C57: an `init` refused for its weights makes every later `init` fail. -/
theorem C57_permanent (hs : Reachable s)
    (h : (Davenport.init w1 w2 g mdip s).1 = .error (.err .InvalidDavenportWeights))
    (hl : Leads (Davenport.init w1 w2 g mdip s).2 s') (v1 v2 : F) (g' mdip' : Option F) :
    Davenport.init v1 v2 g' mdip' s' = (.error (.err (.LinalgError .AlreadyInit)), s') := by
  have hst : Stuck (Davenport.init w1 w2 g mdip s).2 := by
    rcases hs.cases with hf | hf | ⟨hf, -⟩
    · rcases hf.init w1 w2 g mdip with ⟨-, s1, e1, -⟩ | ⟨-, s1, e1, h1⟩
      · rw [e1] at h
        cases h
      · rw [e1]
        exact h1
    · rw [hf.init] at h
      cases h
    · rw [Ready.init hf.initialized] at h
      cases h
  exact (hst.leads hl).init _ _ _ _

end

/-- A case of `C57_init`, `C57_started`. -/
example : (do
    let s ← (Davenport.new : Res AhrsError (Davenport XQ))
    let (r1, s1) := Davenport.init (.fin (1 / 2)) (.fin 1) none (some (.fin 1)) s
    let (r2, s2) := Davenport.update (.fin 0) (.fin 0) (.fin (-1)) (.fin 1) (.fin 0) (.fin 0) s1
    let (r3, _) := Davenport.init (.fin (1 / 2)) (.fin 1) none none s2
    .ok [r1, r2, r3]) =
    (.ok [.ok (), .error (.err .AccNotInit), .error (.err .DavenportFilterAlreadyInit)] :
      Res AhrsError (List (Res AhrsError Unit))) := by
  decide +kernel

/-- A case of `C57_init`, `C57_before` and `C57_permanent`. -/
example : (do
    let s ← (Davenport.new : Res AhrsError (Davenport XQ))
    let (r0, s0) := Davenport.update (.fin 0) (.fin 0) (.fin (-1)) (.fin 1) (.fin 0) (.fin 0) s
    let (r1, s1) := Davenport.init (.fin 0) (.fin 1) none none s0
    let (r2, s2) := Davenport.init (.fin 1) (.fin 1) none none s1
    let (r3, _) := Davenport.update (.fin 0) (.fin 0) (.fin (-1)) (.fin 1) (.fin 0) (.fin 0) s2
    .ok [r0, r1, r2, r3]) =
    (.ok [.error (.err .DavenportFilterNotInit), .error (.err .InvalidDavenportWeights),
      .error (.err (.LinalgError .AlreadyInit)), .error (.err .DavenportFilterNotInit)] :
      Res AhrsError (List (Res AhrsError Unit))) := by
  decide +kernel

end Verif
