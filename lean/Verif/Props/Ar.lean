import Verif.Spec.Filters
import Verif.Props.Gyrometer
import Verif.Props.QuatAlgebra

/-
Claims about the AR filter: permanent failure (C46), no drift (C47).
-/

set_option linter.unusedSectionVars false
set_option linter.unusedSimpArgs false

namespace Verif
open Scalar

variable {F : Type} [Scalar F]

/-- Whatever a store does, the vector keeps its size and holds finite values. -/
theorem Vec.Stores.keeps {s : Vec F} {n : Nat} {f g : Nat → F} {out : Res LinalgError Unit × Vec F}
    (h : s.Stores n g out) (hs : VecIs s n f) (hf : ∀ i, i < n → Finite (f i)) :
    ∃ f', VecIs out.2 n f' ∧ ∀ i, i < n → Finite (f' i) := by
  rcases h.cases with ⟨h1, rfl⟩ | ⟨k, hk, h1, -, rfl⟩
  · exact ⟨g, hs.overwrite g, h1⟩
  · refine ⟨fun i => if i < k then g i else f i, ?_, fun i hi => ?_⟩
    · rw [vecIs_iff]
      refine ⟨hs.pos, hs.le, hs.init, hs.rows_eq, fun i h4 hi => ?_⟩
      simp only [Vec.overwrite]
      rw [hs.elem h4 hi]
    · simp only
      split
      · exact h1 i ‹_›
      · exact hf i hi

theorem Vec.calculateNorm_ok {v : Vec F} {n : Nat} {f : Nat → F} (hv : VecIs v n f) :
    ∃ nrm, v.calculateNorm = .ok nrm := by
  rw [Vec.calculateNorm_eq hv]
  split
  · exact ⟨_, rfl⟩
  · exact ⟨_, rfl⟩

namespace AR

theorem onAttitude_ok {m : Op LinalgError (Vec F) Unit} {s : AR F} {t : Vec F}
    (h : m s.attitude = (.ok (), t)) : onAttitude m s = (.ok (), { s with attitude := t }) := by
  unfold onAttitude; exact fieldOp_ok h
theorem onAttitude_err {m : Op LinalgError (Vec F) Unit} {s : AR F} {t : Vec F} {e : LinalgError}
    (h : m s.attitude = (.error (.err e), t)) :
    onAttitude m s = (.error (.err (.LinalgError e)), { s with attitude := t }) := by
  unfold onAttitude; exact fieldOp_err h
theorem onGyr_run {m : Op AhrsError (Gyrometer F) Unit} {s : AR F} {g : Gyrometer F}
    {r : Res AhrsError Unit} (h : m s.gyr = (r, g)) : onGyr m s = (r, { s with gyr := g }) := by
  unfold onGyr
  rw [Op.zoom_run, h]

/-- Nothing has succeeded yet. -/
structure Fresh (s : AR F) : Prop where
  initialized : s.initialized = false
  gyr_initialized : s.gyr.initialized = false
  gyr : s.gyr.Reachable
  attitude : s.attitude = Vec.new

/-- The gyrometer is initialised but the filter is not. -/
structure Stuck (s : AR F) : Prop where
  initialized : s.initialized = false
  gyr_initialized : s.gyr.initialized = true
  gyr : s.gyr.Reachable

/-- The filter is initialised; `f` are the components of the attitude. -/
structure Ready (s : AR F) (f : Nat → F) : Prop where
  initialized : s.initialized = true
  gyr_initialized : s.gyr.initialized = true
  gyr : s.gyr.Reachable
  attitude : VecIs s.attitude 4 f
  finite : ∀ i, i < 4 → Finite (f i)

section
variable [ScalarLawful F]

theorem new_fresh : ∃ s0 : AR F, AR.new = .ok s0 ∧ Fresh s0 := by
  obtain ⟨g0, e, hi, -, -⟩ := Gyrometer.new_ok (F := F)
  refine ⟨_, by unfold AR.new; rw [e]; rfl, ⟨rfl, hi, ⟨g0, e, .refl g0⟩, rfl⟩⟩

end

variable {s s' : AR F} {a b : ARInit F} {f : Nat → F}

theorem Stuck.init (h : Stuck s) (a : ARInit F) :
    initWith a s = (.error (.err .GyrAlreadyInit), s) := by
  unfold initWith AR.init
  rw [Op.get_bind, h.initialized]
  simp only [Bool.false_eq_true, if_false]
  have e : Gyrometer.init a.config s.gyr = (.error (.err .GyrAlreadyInit), s.gyr) := by
    unfold Gyrometer.init
    rw [Op.get_bind, h.gyr_initialized]
    rfl
  rw [Op.bind_err (onGyr_run e)]

theorem unused (hi : s.initialized = false) (gx gy gz : F) :
    update gx gy gz s = (.error (.err .ARFilterNotInit), s) ∧
      getAttitude s = .error (.err .ARFilterNotInit) := by
  constructor
  · unfold update; rw [Op.get_bind, hi]; rfl
  · unfold getAttitude; rw [hi]; rfl

theorem Ready.init (h : s.initialized = true) (a : ARInit F) :
    initWith a s = (.error (.err .ARFilterAlreadyInit), s) := by
  unfold initWith AR.init
  rw [Op.get_bind, h]
  rfl

section
variable [ScalarLawful F]

/-- `init` on a fresh filter with a rejected configuration. -/
theorem Fresh.init_config (h : Fresh s) (hc : ¬ ∀ x ∈ a.config.params, Finite x) :
    ∃ e g, initWith a s = (.error (.err (.LinalgError e)), { s with gyr := g }) ∧
      Fresh { s with gyr := g } := by
  rw [Gyrometer.params_finite] at hc
  rcases Gyrometer.param_cases a.config with hf | ⟨k, hk, hf, hb⟩
  · exact absurd hf hc
  · have e := Gyrometer.init_err h.gyr.good h.gyr_initialized hk hf hb
    refine ⟨valueErr (Gyrometer.param a.config k),
      Gyrometer.written (Gyrometer.param a.config) s.gyr k, ?_, ⟨h.initialized, ?_, ?_, h.attitude⟩⟩
    · unfold initWith AR.init
      rw [Op.get_bind, if_neg (by rw [h.initialized]; decide), Op.bind_err (onGyr_run e)]
    · exact (Gyrometer.written_initialized k).trans h.gyr_initialized
    · obtain ⟨g0, e0, hl⟩ := h.gyr
      have := Gyrometer.Leads.step (.init a.config) hl
      change Gyrometer.Leads g0 (Gyrometer.init a.config s.gyr).2 at this
      rw [e] at this
      exact ⟨g0, e0, this⟩

/-- `init` on a fresh filter with an accepted configuration. -/
theorem Fresh.init_run (h : Fresh s) (hc : ∀ x ∈ a.config.params, Finite x) :
    ∃ g, g.initialized = true ∧ g.Reachable ∧
      Gyrometer.init a.config s.gyr = (.ok (), g) ∧
      (((Finite a.qw ∧ Finite a.qx ∧ Finite a.qy ∧ Finite a.qz) ∧
        ∃ v, VecIs v 4 (seq4 a.qw a.qx a.qy a.qz) ∧
          initWith a s = (.ok (), ⟨g, v, a.ts, a.method, a.order, true⟩)) ∨
      (¬ (Finite a.qw ∧ Finite a.qx ∧ Finite a.qy ∧ Finite a.qz) ∧
        ∃ v y, ¬ Finite (y : F) ∧
          initWith a s = (.error (.err (.LinalgError (valueErr y))),
            { s with gyr := g, attitude := v }))) := by
  rw [Gyrometer.params_finite] at hc
  have e := Gyrometer.init_ok h.gyr.good h.gyr_initialized hc
  refine ⟨_, rfl, ?_, e, ?_⟩
  · obtain ⟨g0, e0, hl⟩ := h.gyr
    have := Gyrometer.Leads.step (.init a.config) hl
    change Gyrometer.Leads g0 (Gyrometer.init a.config s.gyr).2 at this
    rw [e] at this
    exact ⟨g0, e0, this⟩
  · generalize ({ Gyrometer.written (Gyrometer.param a.config) s.gyr 12 with initialized := true } :
      Gyrometer F) = g at e
    have e1 : Vec.init 4 s.attitude = (.ok (), (Vec.zeros 4 : Vec F)) := by
      rw [h.attitude]; rfl
    have hz := Vec.zeros_is (F := F) (n := 4) (by omega) (by omega)
    have hst := Quat.storeAll_stores (w := a.qw) (x := a.qx) (y := a.qy) (z := a.qz) hz
    rw [← Quat.fillq_eq hz] at hst
    have start : initWith a s = (onAttitude (Quat.fillq a.qw a.qx a.qy a.qz) >>= fun _ =>
        Op.modify fun self =>
          { self with ts := a.ts, method := a.method, order := a.order, initialized := true }) { s with gyr := g, attitude := Vec.zeros 4 } := by
      unfold initWith AR.init
      rw [Op.get_bind, if_neg (by rw [h.initialized]; decide), Op.bind_ok (onGyr_run e), Op.bind_ok (onAttitude_ok (s := { s with gyr := g }) e1)]
    rw [start]
    rcases hst.cases with ⟨hf, e2⟩ | ⟨k, hk, hf, hb, e2⟩
    · left
      refine ⟨forall_lt_four.mp hf, _, hz.overwrite _, ?_⟩
      rw [Op.bind_ok (onAttitude_ok (s := { s with gyr := g, attitude := Vec.zeros 4 }) e2)]
      rfl
    · right
      refine ⟨fun hall => hb ((forall_lt_four (P := fun i => Finite (seq4 a.qw a.qx a.qy a.qz i))).mpr hall k hk),
        (Vec.zeros 4).overwrite k (seq4 a.qw a.qx a.qy a.qz), _, hb, ?_⟩
      rw [Op.bind_err (onAttitude_err (s := { s with gyr := g, attitude := Vec.zeros 4 }) e2)]

end

/-! ### Updates -/

/-- The matrix of the map `a ↦ a ⊗ (0, p, q, r)`, by rows. -/
def omegaEntry (p q r : F) : Nat → Nat → F
  | 0 => seq4 (lit 0) (Scalar.neg p) (Scalar.neg q) (Scalar.neg r)
  | 1 => seq4 p (lit 0) r (Scalar.neg q)
  | 2 => seq4 q (Scalar.neg r) (lit 0) p
  | _ => seq4 r q (Scalar.neg p) (lit 0)

theorem omega_ok [ScalarLawful F] {p q r : F} (hp : Finite p) (hq : Finite q) (hr : Finite r)
    (hp' : Finite (Scalar.neg p)) (hq' : Finite (Scalar.neg q)) (hr' : Finite (Scalar.neg r)) :
    ∃ m, Ahrs.calculateOmegaMatrix p q r = .ok m ∧ MatIs m 4 4 (omegaEntry p q r) := by
  have h0 := ScalarLawful.zero_finite (F := F)
  have hz := Mat.zeros_is (F := F) (r := 4) (c := 4) (by omega) (by omega) (by omega) (by omega)
  obtain ⟨m0, e0, k0⟩ := hz.exec_set (i := 0) (j := 0) (by omega) (by omega) h0
  obtain ⟨m1, e1, k1⟩ := k0.exec_set (i := 1) (j := 0) (by omega) (by omega) hp
  obtain ⟨m2, e2, k2⟩ := k1.exec_set (i := 2) (j := 0) (by omega) (by omega) hq
  obtain ⟨m3, e3, k3⟩ := k2.exec_set (i := 3) (j := 0) (by omega) (by omega) hr
  obtain ⟨m4, e4, k4⟩ := k3.exec_set (i := 0) (j := 1) (by omega) (by omega) hp'
  obtain ⟨m5, e5, k5⟩ := k4.exec_set (i := 1) (j := 1) (by omega) (by omega) h0
  obtain ⟨m6, e6, k6⟩ := k5.exec_set (i := 2) (j := 1) (by omega) (by omega) hr'
  obtain ⟨m7, e7, k7⟩ := k6.exec_set (i := 3) (j := 1) (by omega) (by omega) hq
  obtain ⟨m8, e8, k8⟩ := k7.exec_set (i := 0) (j := 2) (by omega) (by omega) hq'
  obtain ⟨m9, e9, k9⟩ := k8.exec_set (i := 1) (j := 2) (by omega) (by omega) hr
  obtain ⟨m10, e10, k10⟩ := k9.exec_set (i := 2) (j := 2) (by omega) (by omega) h0
  obtain ⟨m11, e11, k11⟩ := k10.exec_set (i := 3) (j := 2) (by omega) (by omega) hp'
  obtain ⟨m12, e12, k12⟩ := k11.exec_set (i := 0) (j := 3) (by omega) (by omega) hr'
  obtain ⟨m13, e13, k13⟩ := k12.exec_set (i := 1) (j := 3) (by omega) (by omega) hq'
  obtain ⟨m14, e14, k14⟩ := k13.exec_set (i := 2) (j := 3) (by omega) (by omega) hp
  obtain ⟨m15, e15, k15⟩ := k14.exec_set (i := 3) (j := 3) (by omega) (by omega) h0
  refine ⟨m15, ?_, k15.congr fun i j hi hj => ?_⟩
  · unfold Ahrs.calculateOmegaMatrix
    simp only [Mat.init_new (F := F) (r := 4) (c := 4) (by omega) (by omega) (by omega) (by omega),
      Res.ok_bind, e0, e1, e2, e3, e4, e5, e6, e7, e8, e9, e10, e11, e12, e13, e14, e15]
  · revert i
    refine forall_lt_four.mpr ?_
    revert j
    refine forall_lt_four.mpr ?_
    simp [omegaEntry, seq4]

/-- The new quaternion before normalisation — open_ahrs/src/ar.rs:109-160. -/
def advance (tmp : Mat F) (w attitude : Vec F) (ts : F) (method : NIM) (order : Nat)
    (p q r n qw qx qy qz : F) : Res AhrsError (F × F × F × F) := do
  let omega ← liftL (Ahrs.calculateOmegaMatrix p q r)
  if method = .ClosedForm ∨ method = .TaylorSeries then
    matrixStep tmp omega attitude ts n (n *ᶠ ts /ᶠ lit 2) method order
  else if method = .Euler then eulerStep w attitude ts p q r qw qx qy qz
  else fail .ARMethodError

/-- Storing a quaternion and normalising it. -/
def store (q : F × F × F × F) : Op AhrsError (AR F) Unit := do
  onAttitude (Quat.fillq q.1 q.2.1 q.2.2.1 q.2.2.2)
  onAttitude Vec.normalize

variable {g : Gyrometer F} {gx gy gz p q r n : F}

section
variable [ScalarLawful F]

theorem identity4 : ∃ t : Mat F, exec (Mat.zeros 4 4 : Mat F) Mat.fillIdentity = .ok t ∧
    MatIs t 4 4 (fun i j => if i = j then lit 1 else lit 0) := by
  have hz := Mat.zeros_is (F := F) (r := 4) (c := 4) (by omega) (by omega) (by omega) (by omega)
  refine Mat.exec_of_stores (Mat.fillIdentity_stores hz) hz fun i j _ _ => ?_
  split
  · exact ScalarLawful.one_finite
  · exact ScalarLawful.zero_finite

theorem Ready.update_rejected {e : Fail AhrsError} (h : Ready s f)
    (hu : Gyrometer.update gx gy gz s.gyr = (.error e, g)) :
    update gx gy gz s = (.error e, { s with gyr := g }) := by
  obtain ⟨t, e1, ht⟩ := identity4 (F := F)
  unfold update
  rw [Op.get_bind', if_neg (by rw [h.initialized]; decide)]
  simp only [Mat.init_new (F := F) (r := 4) (c := 4) (by omega) (by omega) (by omega) (by omega),
    Res.mapErr, e1, Op.liftOk_bind']
  rw [Op.bind_err (onGyr_run hu)]

theorem vector3 {x y z : F} (hx : Finite x) (hy : Finite y) (hz : Finite z) :
    ∃ v1 v2 v3 : Vec F, exec (Vec.zeros 3) (Vec.setElement 0 x) = .ok v1 ∧
      exec v1 (Vec.setElement 1 y) = .ok v2 ∧ exec v2 (Vec.setElement 2 z) = .ok v3 ∧
      VecIs v3 3 (seq3 x y z) := by
  have h0 := Vec.zeros_is (F := F) (n := 3) (by omega) (by omega)
  obtain ⟨v1, e1, h1⟩ := h0.exec_set (i := 0) (by omega) hx
  obtain ⟨v2, e2, h2⟩ := h1.exec_set (i := 1) (by omega) hy
  obtain ⟨v3, e3, h3⟩ := h2.exec_set (i := 2) (by omega) hz
  exact ⟨v1, v2, v3, e1, e2, e3, h3.congr (forall_lt_three.mpr ⟨by simp [seq3], by simp [seq3],
    by simp [seq3]⟩)⟩

/-- An accepted sample: the filter either stays (norm at most `EPSILON`) or advances. -/
theorem Ready.update_run (h : Ready s f) (hu : Gyrometer.update gx gy gz s.gyr = (.ok (), g))
    (hx : g.getX = .ok p) (hy : g.getY = .ok q) (hz : g.getZ = .ok r) (hp : Finite p)
    (hq : Finite q) (hr : Finite r) {w : Vec F} (hw : VecIs w 3 (seq3 p q r))
    (hn : w.calculateNorm = .ok n) :
    ∃ t v, MatIs t 4 4 (fun i j => if i = j then lit 1 else lit 0) ∧ VecIs v 3 (seq3 p q r) ∧
      update gx gy gz s =
        if n >ᶠ EPSILON then
          ((liftM (advance t v s.attitude s.ts s.method s.order p q r n (f 0) (f 1) (f 2) (f 3)) :
            Op AhrsError (AR F) _) >>= store) { s with gyr := g }
        else (.ok (), { s with gyr := g }) := by
  obtain ⟨t, e1, ht⟩ := identity4 (F := F)
  obtain ⟨v1, v2, v3, e3, e4, e5, hv⟩ := vector3 hp hq hr
  have hn3 : v3.calculateNorm = .ok n := by
    rw [← hn, Vec.calculateNorm_eq hv, Vec.calculateNorm_eq hw]
  have ha := h.attitude.four
  refine ⟨t, v3, ht, hv, ?_⟩
  unfold update
  rw [Op.get_bind', if_neg (by rw [h.initialized]; decide)]
  simp only [Mat.init_new (F := F) (r := 4) (c := 4) (by omega) (by omega) (by omega) (by omega),
    Res.mapErr, e1, Op.liftOk_bind']
  rw [Op.bind_ok (onGyr_run hu), Op.get_bind']
  simp only [hx, hy, hz, Quat.getQw_eq ha, Quat.getQx_eq ha, Quat.getQy_eq ha, Quat.getQz_eq ha,
    Vec.init_new (F := F) (n := 3) (by omega) (by omega), Res.mapErr, e3, e4, e5, hn3, Op.liftOk_bind']
  by_cases hc : (n >ᶠ EPSILON) = true
  · rw [if_pos hc, if_pos hc]
    unfold advance
    rcases Ahrs.calculateOmegaMatrix p q r with (e | _) | omega
    · rfl
    · rfl
    · rfl
  · rw [if_neg hc, if_neg hc]
    rfl

theorem Ready.gyr_step (h : Ready s f) (gx gy gz : F) :
    (Gyrometer.update gx gy gz s.gyr).2.Reachable ∧
      (Gyrometer.update gx gy gz s.gyr).2.initialized = true := by
  obtain ⟨g0, e0, hl⟩ := h.gyr
  exact ⟨⟨g0, e0, .step (.update gx gy gz) hl⟩,
    Gyrometer.call_initialized (.update gx gy gz) h.gyr.good h.gyr_initialized⟩

/-- The readings after an accepted sample. -/
theorem Ready.readings (h : Ready s f) (hu : Gyrometer.update gx gy gz s.gyr = (.ok (), g)) :
    g.Reachable ∧ g.initialized = true ∧ ∃ p q r n w, g.getX = .ok p ∧ g.getY = .ok q ∧ g.getZ = .ok r ∧
      Finite p ∧ Finite q ∧ Finite r ∧ VecIs w 3 (seq3 p q r) ∧ w.calculateNorm = .ok n := by
  obtain ⟨h1, h2⟩ := h.gyr_step gx gy gz
  rw [hu] at h1 h2
  obtain ⟨c, p, q, r, -, hx, hy, hz, -, hp, hq, hr⟩ := C66_gyr_finite h1 h2
  obtain ⟨-, -, w, -, -, -, hw⟩ := vector3 hp hq hr
  obtain ⟨n, hn⟩ := Vec.calculateNorm_ok hw
  exact ⟨h1, h2, p, q, r, n, w, hx, hy, hz, hp, hq, hr, hw, hn⟩

theorem Ready.gyr_set (h : Ready s f) (h1 : g.Reachable) (h2 : g.initialized = true) :
    Ready { s with gyr := g } f := ⟨h.initialized, h2, h1, h.attitude, h.finite⟩

/-- Storing keeps the filter ready. -/
theorem Ready.store (h : Ready s f) (q : F × F × F × F) : ∃ f', Ready (store q s).2 f' := by
  unfold AR.store
  have h1 := Quat.storeAll_stores (w := q.1) (x := q.2.1) (y := q.2.2.1) (z := q.2.2.2) h.attitude
  rw [← Quat.fillq_eq h.attitude] at h1
  obtain ⟨f1, hf1, hfin⟩ := h1.keeps h.attitude h.finite
  rcases hr : Quat.fillq q.1 q.2.1 q.2.2.1 q.2.2.2 s.attitude with ⟨(e | _) | _, v⟩
  · rw [Op.bind_err (onAttitude_err hr)]
    rw [hr] at hf1
    exact ⟨f1, h.initialized, h.gyr_initialized, h.gyr, hf1, hfin⟩
  · rcases h1.cases with ⟨-, e⟩ | ⟨k, -, -, -, e⟩ <;> rw [hr] at e <;> cases e
  · rw [Op.bind_ok (onAttitude_ok hr)]
    rw [hr] at hf1
    obtain ⟨n, hn⟩ := Vec.calculateNorm_ok hf1
    have h3 := Vec.normalize_stores hf1 hn
    obtain ⟨f2, hf2, hfin2⟩ := h3.keeps hf1 hfin
    rcases hr2 : Vec.normalize v with ⟨(e | _) | _, v2⟩
    · rw [onAttitude_err (s := { s with attitude := v }) hr2]
      rw [hr2] at hf2
      exact ⟨f2, h.initialized, h.gyr_initialized, h.gyr, hf2, hfin2⟩
    · rcases h3.cases with ⟨-, e⟩ | ⟨k, -, -, -, e⟩ <;> rw [hr2] at e <;> cases e
    · rw [onAttitude_ok (s := { s with attitude := v }) hr2]
      rw [hr2] at hf2
      exact ⟨f2, h.initialized, h.gyr_initialized, h.gyr, hf2, hfin2⟩

theorem Ready.update (h : Ready s f) (gx gy gz : F) : ∃ f', Ready (update gx gy gz s).2 f' := by
  obtain ⟨h1, h2⟩ := h.gyr_step gx gy gz
  rcases hu : Gyrometer.update gx gy gz s.gyr with ⟨e | ⟨⟩, g⟩
  · rw [h.update_rejected hu]
    rw [hu] at h1 h2
    exact ⟨f, h.gyr_set h1 h2⟩
  · obtain ⟨h1, h2, p, q, r, n, w, hx, hy, hz, hp, hq, hr, hw, hn⟩ := h.readings hu
    obtain ⟨t, v, -, -, e⟩ := h.update_run hu hx hy hz hp hq hr hw hn
    rw [e]
    split
    · rw [Op.liftM_bind_run]
      rcases advance t v s.attitude s.ts s.method s.order p q r n (f 0) (f 1) (f 2) (f 3) with e | a
      · exact ⟨f, h.gyr_set h1 h2⟩
      · exact (h.gyr_set h1 h2).store a
    · exact ⟨f, h.gyr_set h1 h2⟩

/-- Every filter that arises in a history is in one of three situations. -/
theorem Reachable.cases (h : Reachable s) : Fresh s ∨ Stuck s ∨ ∃ f, Ready s f := by
  obtain ⟨s0, e0, hl⟩ := h
  obtain ⟨s1, e1, h1⟩ := new_fresh (F := F)
  rw [e0] at e1
  obtain rfl := Except.ok.inj e1
  induction hl with
  | refl => exact .inl h1
  | @step s k _ ih =>
    rcases ih with h | h | ⟨f, h⟩
    · cases k with
      | init a =>
        show Fresh (initWith a s).2 ∨ Stuck (initWith a s).2 ∨ ∃ f, Ready (initWith a s).2 f
        by_cases hc : ∀ x ∈ a.config.params, Finite x
        · obtain ⟨g, hg1, hg2, -, ⟨hf, v, hv, e⟩ | ⟨hf, v, y, hy, e⟩⟩ := h.init_run hc
          · rw [e]
            exact .inr (.inr ⟨_, rfl, hg1, hg2, hv, forall_lt_four.mpr hf⟩)
          · rw [e]
            exact .inr (.inl ⟨h.initialized, hg1, hg2⟩)
        · obtain ⟨e, g, e1, h2⟩ := h.init_config hc
          rw [e1]
          exact .inl h2
      | update gx gy gz =>
        show Fresh (update gx gy gz s).2 ∨ _
        rw [(unused h.initialized gx gy gz).1]
        exact .inl h
    · cases k with
      | init a =>
        show _ ∨ Stuck (initWith a s).2 ∨ _
        rw [h.init a]
        exact .inr (.inl h)
      | update gx gy gz =>
        show _ ∨ Stuck (update gx gy gz s).2 ∨ _
        rw [(unused h.initialized gx gy gz).1]
        exact .inr (.inl h)
    · cases k with
      | init a =>
        show _ ∨ _ ∨ ∃ f, Ready (initWith a s).2 f
        rw [Ready.init h.initialized a]
        exact .inr (.inr ⟨f, h⟩)
      | update gx gy gz =>
        exact .inr (.inr (h.update gx gy gz))


/-! ### Filters started with given arguments -/

theorem onAttitude_state {α : Type} (m : Op LinalgError (Vec F) α) (s : AR F) :
    ∃ r v, onAttitude m s = (r, { s with attitude := v }) := ⟨_, _, rfl⟩

theorem store_state (q : F × F × F × F) (s : AR F) :
    ∃ r v, AR.store q s = (r, { s with attitude := v }) := by
  unfold AR.store
  obtain ⟨r1, v1, e1⟩ := onAttitude_state (Quat.fillq q.1 q.2.1 q.2.2.1 q.2.2.2) s
  rcases r1 with e | u
  · exact ⟨_, _, Op.bind_err e1 _⟩
  · obtain ⟨r2, v2, e2⟩ := onAttitude_state (Vec.normalize (F := F)) { s with attitude := v1 }
    exact ⟨_, _, (Op.bind_ok e1 _).trans e2⟩

theorem Ready.update_fields (h : Ready s f) (gx gy gz : F) :
    (AR.update gx gy gz s).2.ts = s.ts ∧ (AR.update gx gy gz s).2.method = s.method ∧
      (AR.update gx gy gz s).2.order = s.order ∧
      (AR.update gx gy gz s).2.gyr = (Gyrometer.update gx gy gz s.gyr).2 := by
  rcases hu : Gyrometer.update gx gy gz s.gyr with ⟨e | ⟨⟩, g⟩
  · rw [h.update_rejected hu]
    exact ⟨rfl, rfl, rfl, rfl⟩
  · obtain ⟨h1, h2, p, q, r, n, w, hx, hy, hz, hp, hq, hr, hw, hn⟩ := h.readings hu
    obtain ⟨t, v, -, -, e⟩ := h.update_run hu hx hy hz hp hq hr hw hn
    rw [e]
    split
    · rw [Op.liftM_bind_run]
      rcases advance t v s.attitude s.ts s.method s.order p q r n (f 0) (f 1) (f 2) (f 3) with e | a
      · exact ⟨rfl, rfl, rfl, rfl⟩
      · obtain ⟨r, v, e2⟩ := store_state a { s with gyr := g }
        simp only [e2, and_self]
    · exact ⟨rfl, rfl, rfl, rfl⟩

/-- What is known of a filter after a successful `init`, whatever followed. -/
theorem Started.ready (h : Started a s) : (∃ f, Ready s f) ∧ s.ts = a.ts ∧ s.method = a.method ∧
    s.order = a.order ∧ Gyrometer.getConfig s.gyr = .ok a.config := by
  obtain ⟨s0, s1, h0, e, hl⟩ := h
  have hstart : (∃ f, Ready s1 f) ∧ s1.ts = a.ts ∧ s1.method = a.method ∧ s1.order = a.order ∧
      Gyrometer.getConfig s1.gyr = .ok a.config := by
    rcases h0.cases with h | h | ⟨f, h⟩
    · by_cases hc : ∀ x ∈ a.config.params, Finite x
      · obtain ⟨g, hg1, hg2, hg3, ⟨hf, v, hv, e'⟩ | ⟨hf, v, y, hy, e'⟩⟩ := h.init_run hc
        · rw [e] at e'
          obtain rfl := congrArg Prod.snd e'
          exact ⟨⟨_, rfl, hg1, hg2, hv, forall_lt_four.mpr hf⟩, rfl, rfl, rfl,
            C42_gyr_init h.gyr hg3⟩
        · rw [e] at e'
          cases congrArg Prod.fst e'
      · obtain ⟨e', g, e1, h2⟩ := h.init_config hc
        rw [e] at e1
        cases congrArg Prod.fst e1
    · rw [h.init a] at e
      cases congrArg Prod.fst e
    · rw [Ready.init h.initialized a] at e
      cases congrArg Prod.fst e
  induction hl with
  | refl => exact hstart
  | @step s k _ ih =>
    obtain ⟨⟨f, h⟩, h1, h2, h3, h4⟩ := ih
    cases k with
    | init b =>
      show (∃ f, Ready (initWith b s).2 f) ∧ (initWith b s).2.ts = _ ∧ (initWith b s).2.method = _ ∧
        (initWith b s).2.order = _ ∧ Gyrometer.getConfig (initWith b s).2.gyr = _
      rw [Ready.init h.initialized b]
      exact ⟨⟨f, h⟩, h1, h2, h3, h4⟩
    | update gx gy gz =>
      obtain ⟨e1, e2, e3, e4⟩ := h.update_fields gx gy gz
      refine ⟨h.update gx gy gz, e1.trans h1, e2.trans h2, e3.trans h3, ?_⟩
      show Gyrometer.getConfig (AR.update gx gy gz s).2.gyr = _
      rw [e4, C45_gyr_config h.gyr]
      exact h4

theorem Ready.getAttitude (h : Ready s f) : ∃ v, AR.getAttitude s = .ok v ∧ VecIs v 4 f := by
  obtain ⟨d, h1, h2⟩ := Vec.duplicate_ok h.attitude h.finite
  refine ⟨d, ?_, h2⟩
  unfold AR.getAttitude
  rw [h.initialized, h1]
  rfl

end
end AR

open AR

section
variable [ScalarLawful F]
variable {s s0 s' : AR F} {a b : ARInit F} {g : Gyrometer F} {gx gy gz p q r n : F}

/-! ### C46: initialisation -/

/-- C46: the first `init` of a filter succeeds exactly when the twelve parameters of the gyrometer and
the four components of the quaternion are finite. -/
theorem C46_iff (h0 : AR.new = .ok s0) :
    (initWith a s0).1 = .ok () ↔
      (∀ x ∈ a.config.params, Finite x) ∧ Finite a.qw ∧ Finite a.qx ∧ Finite a.qy ∧ Finite a.qz := by
  obtain ⟨s1, e1, h⟩ := new_fresh (F := F)
  rw [h0] at e1
  obtain rfl := Except.ok.inj e1
  by_cases hc : ∀ x ∈ a.config.params, Finite x
  · obtain ⟨g, -, -, -, ⟨hf, v, hv, e⟩ | ⟨hf, v, y, hy, e⟩⟩ := h.init_run hc
    · rw [e]; exact ⟨fun _ => ⟨hc, hf⟩, fun _ => rfl⟩
    · rw [e]; exact ⟨fun e => (by cases e), fun e => absurd e.2 hf⟩
  · obtain ⟨e, g, e1, -⟩ := h.init_config hc
    rw [e1]
    exact ⟨fun e => (by cases e), fun e => absurd e.1 hc⟩

/-- C46: after a successful `init` the attitude is the given quaternion as it is, of norm 1 or not. -/
theorem C46_attitude (hs : Reachable s) (h : initWith a s = (.ok (), s')) :
    ∃ v, getAttitude s' = .ok v ∧ VecIs v 4 (seq4 a.qw a.qx a.qy a.qz) := by
  rcases hs.cases with hf | hf | ⟨f, hf⟩
  · by_cases hc : ∀ x ∈ a.config.params, Finite x
    · obtain ⟨g, hg1, hg2, -, ⟨hf, v, hv, e⟩ | ⟨hf, v, y, hy, e⟩⟩ := hf.init_run hc
      · rw [h] at e
        obtain rfl := congrArg Prod.snd e
        exact Ready.getAttitude ⟨rfl, hg1, hg2, hv, forall_lt_four.mpr hf⟩
      · rw [h] at e
        cases congrArg Prod.fst e
    · obtain ⟨e, g, e1, -⟩ := hf.init_config hc
      rw [h] at e1
      cases congrArg Prod.fst e1
  · rw [hf.init a] at h
    cases congrArg Prod.fst h
  · rw [Ready.init hf.initialized a] at h
    cases congrArg Prod.fst h

theorem AR.Stuck.leads (h : Stuck s) (hl : Leads s s') : s' = s := by
  induction hl with
  | refl => rfl
  | @step s' k _ ih =>
    subst ih
    cases k with
    | init b => show (initWith b s').2 = _; rw [h.init b]
    | update x y z => show (update x y z s').2 = _; rw [(unused h.initialized x y z).1]

/-- C46: an `init` that is refused although the parameters of the gyrometer are finite (because a
component of the quaternion is not) disables the filter for good: nothing that can be called later
changes anything, and every call fails. -/
theorem C46_permanent {e : AhrsError} (hs : Reachable s) (hc : ∀ x ∈ a.config.params, Finite x)
    (h : (initWith a s).1 = .error (.err e)) (he : e ≠ .ARFilterAlreadyInit)
    (hl : Leads (initWith a s).2 s') :
    s' = (initWith a s).2 ∧
    (∀ b, initWith b s' = (.error (.err .GyrAlreadyInit), s')) ∧
    (∀ x y z, update x y z s' = (.error (.err .ARFilterNotInit), s')) ∧
    getAttitude s' = .error (.err .ARFilterNotInit) := by
  have hst : Stuck (initWith a s).2 := by
    rcases hs.cases with hf | hf | ⟨f, hf⟩
    · obtain ⟨g, hg1, hg2, -, ⟨hf, v, hv, e⟩ | ⟨-, v, y, hy, e⟩⟩ := hf.init_run hc
      · rw [e] at h
        cases h
      · rw [e]
        exact ⟨hf.initialized, hg1, hg2⟩
    · rw [hf.init a]
      exact hf
    · rw [Ready.init hf.initialized a] at h
      cases h
      exact absurd rfl he
  have e := hst.leads hl
  rw [e]
  exact ⟨rfl, hst.init, fun x y z => (unused hst.initialized x y z).1,
    (unused hst.initialized (lit 0) (lit 0) (lit 0)).2⟩

/-- C46: such a refusal does occur: on a new filter, exactly when a component of the quaternion is not
finite. -/
theorem C46_refused (h0 : AR.new = .ok s0) (hc : ∀ x ∈ a.config.params, Finite x)
    (hq : ¬ (Finite a.qw ∧ Finite a.qx ∧ Finite a.qy ∧ Finite a.qz)) :
    ∃ y : F, ¬ Finite y ∧ (initWith a s0).1 = .error (.err (.LinalgError (valueErr y))) := by
  obtain ⟨s1, e1, h⟩ := new_fresh (F := F)
  rw [h0] at e1
  obtain rfl := Except.ok.inj e1
  obtain ⟨g, -, -, -, ⟨hf, v, hv, e⟩ | ⟨hf, v, y, hy, e⟩⟩ := h.init_run hc
  · exact absurd hf hq
  · exact ⟨y, hy, by rw [e]⟩

/-- C46: an `init` refused because of the parameters of the gyrometer can be repeated: the next one
succeeds exactly when its arguments are finite. -/
theorem C46_retry {e : AhrsError} (hs : Reachable s) (hc : ¬ ∀ x ∈ a.config.params, Finite x)
    (h : (initWith a s).1 = .error (.err e)) (h1 : e ≠ .ARFilterAlreadyInit) (h2 : e ≠ .GyrAlreadyInit) :
    (initWith b (initWith a s).2).1 = .ok () ↔
      (∀ x ∈ b.config.params, Finite x) ∧ Finite b.qw ∧ Finite b.qx ∧ Finite b.qy ∧ Finite b.qz := by
  have hfr : Fresh (initWith a s).2 := by
    rcases hs.cases with hf | hf | ⟨f, hf⟩
    · obtain ⟨e, g, e1, h3⟩ := hf.init_config hc
      rw [e1]
      exact h3
    · rw [hf.init a] at h
      cases h
      exact absurd rfl h2
    · rw [Ready.init hf.initialized a] at h
      cases h
      exact absurd rfl h1
  by_cases hc : ∀ x ∈ b.config.params, Finite x
  · obtain ⟨g, -, -, -, ⟨hf, v, hv, e⟩ | ⟨hf, v, y, hy, e⟩⟩ := hfr.init_run hc
    · rw [e]; exact ⟨fun _ => ⟨hc, hf⟩, fun _ => rfl⟩
    · rw [e]; exact ⟨fun e => (by cases e), fun e => absurd e.2 hf⟩
  · obtain ⟨e, g, e1, -⟩ := hfr.init_config hc
    rw [e1]
    exact ⟨fun e => (by cases e), fun e => absurd e.1 hc⟩

/-- C46: once initialised, a filter refuses `init` and keeps its state. -/
theorem C46_once (hs : Started a s) : initWith b s = (.error (.err .ARFilterAlreadyInit), s) :=
  Ready.init hs.ready.1.choose_spec.initialized b

/-! ### C47: no drift -/

/-- C47: when the corrected rate has a norm that does not exceed `EPSILON`, an update is accepted and
leaves the attitude untouched, whatever the integration method, the step and the order. -/
theorem C47_still (hs : Started a s)
    (hu : Gyrometer.update gx gy gz s.gyr = (.ok (), g)) (hx : g.getX = .ok p) (hy : g.getY = .ok q)
    (hz : g.getZ = .ok r) {w : Vec F} (hw : VecIs w 3 (seq3 p q r)) (hn : w.calculateNorm = .ok n)
    (hsmall : (n >ᶠ EPSILON) = false) :
    ∃ s', update gx gy gz s = (.ok (), s') ∧ s'.attitude = s.attitude ∧
      getAttitude s' = getAttitude s := by
  obtain ⟨⟨f, h⟩, -⟩ := hs.ready
  obtain ⟨h1, h2, p', q', r', n', w', hx', hy', hz', hp, hq, hr, hw', hn'⟩ := h.readings hu
  obtain rfl := Except.ok.inj (hx.symm.trans hx')
  obtain rfl := Except.ok.inj (hy.symm.trans hy')
  obtain rfl := Except.ok.inj (hz.symm.trans hz')
  obtain ⟨t, v, -, -, e⟩ := h.update_run hu hx hy hz hp hq hr hw hn
  rw [hsmall] at e
  exact ⟨_, e, rfl, rfl⟩

/-- C47: a sample that the gyrometer rejects leaves the attitude untouched as well. -/
theorem C47_rejected (hs : Started a s) {e : Fail AhrsError}
    (hu : (Gyrometer.update gx gy gz s.gyr).1 = .error e) :
    (update gx gy gz s).1 = .error e ∧ (update gx gy gz s).2.attitude = s.attitude ∧
      getAttitude (update gx gy gz s).2 = getAttitude s := by
  obtain ⟨⟨f, h⟩, -⟩ := hs.ready
  rcases hr : Gyrometer.update gx gy gz s.gyr with ⟨e | ⟨⟩, g⟩
  · rw [hr] at hu
    cases hu
    rw [h.update_rejected hr]
    exact ⟨rfl, rfl, rfl⟩
  · rw [hr] at hu
    cases hu

/-! ### C50: methods that are not implemented -/

/-- C50: with `AdamsBashforth` and `RungeKutta` a rate above the threshold is answered by
`ARMethodError` and the attitude is left untouched. -/
theorem C50_unimplemented (hs : Started a s)
    (hm : a.method = .AdamsBashforth ∨ a.method = .RungeKutta)
    (hu : Gyrometer.update gx gy gz s.gyr = (.ok (), g)) (hx : g.getX = .ok p) (hy : g.getY = .ok q)
    (hz : g.getZ = .ok r) {w : Vec F} (hw : VecIs w 3 (seq3 p q r)) (hn : w.calculateNorm = .ok n)
    (hbig : (n >ᶠ EPSILON) = true) (hneg : Finite (Scalar.neg p) ∧ Finite (Scalar.neg q) ∧ Finite (Scalar.neg r)) :
    (update gx gy gz s).1 = .error (.err .ARMethodError) ∧
      getAttitude (update gx gy gz s).2 = getAttitude s := by
  obtain ⟨⟨f, h⟩, -, hm', -⟩ := hs.ready
  obtain ⟨h1, h2, p', q', r', n', w', hx', hy', hz', hp, hq, hr, hw', hn'⟩ := h.readings hu
  obtain rfl := Except.ok.inj (hx.symm.trans hx')
  obtain rfl := Except.ok.inj (hy.symm.trans hy')
  obtain rfl := Except.ok.inj (hz.symm.trans hz')
  obtain ⟨t, v, -, -, e⟩ := h.update_run hu hx hy hz hp hq hr hw hn
  rw [e, if_pos hbig, Op.liftM_bind_run]
  obtain ⟨m, em, -⟩ := omega_ok hp hq hr hneg.1 hneg.2.1 hneg.2.2
  have ea : advance t v s.attitude s.ts s.method s.order p q r n (f 0) (f 1) (f 2) (f 3) =
      .error (.err .ARMethodError) := by
    unfold advance
    rw [em, hm']
    rcases hm with hm | hm <;> rw [hm] <;> rfl
  rw [ea]
  exact ⟨rfl, rfl⟩

end
/-! ### Concrete cases -/

/-- The arguments of an `init` with unit calibration. -/
def AR.plain (qw qx qy qz : XQ) (m : NIM) (order : Nat) : ARInit XQ where
  qw := qw
  qx := qx
  qy := qy
  qz := qz
  config := .default
  ts := .fin (1 / 10)
  method := m
  order := order

/-- A case of `C46_permanent`: after an `init` with a NaN component, neither a correct `init` nor an
update nor a reading works. -/
example : (do
    let s ← (AR.new : Res AhrsError (AR XQ))
    let (r1, s1) := AR.initWith (AR.plain (.fin 1) .nan (.fin 0) (.fin 0) .Euler 1) s
    let (r2, s2) := AR.initWith (AR.plain (.fin 1) (.fin 0) (.fin 0) (.fin 0) .Euler 1) s1
    let (r3, s3) := AR.update (.fin 1) (.fin 2) (.fin 3) s2
    .ok (r1, r2, r3, AR.getAttitude s3 >>= fun _ => .ok ())) =
    (.ok (.error (.err (.LinalgError (.UtilsError .Nan))), .error (.err .GyrAlreadyInit),
      .error (.err .ARFilterNotInit), .error (.err .ARFilterNotInit)) :
      Res AhrsError (Res AhrsError Unit × Res AhrsError Unit × Res AhrsError Unit × Res AhrsError Unit)) := by
  decide +kernel

/-- A case of `C46_retry`, `C46_attitude` and `C46_once`: a rejected calibration, then a correct `init`,
then another. -/
example : (do
    let s ← (AR.new : Res AhrsError (AR XQ))
    let (r1, s1) := AR.initWith { AR.plain (.fin 1) (.fin 0) (.fin 0) (.fin 0) .Euler 1 with
      config := { GyrometerConfig.default with zy := .pinf } } s
    let (r2, s2) := AR.initWith (AR.plain (.fin 2) (.fin 3) (.fin 4) (.fin 5) .Euler 1) s1
    let (r3, s3) := AR.initWith (AR.plain (.fin 1) (.fin 0) (.fin 0) (.fin 0) .Euler 1) s2
    let v ← AR.getAttitude s3
    .ok (r1, r2, r3, [← liftL (v.getElement 0), ← liftL (v.getElement 1), ← liftL (v.getElement 2),
      ← liftL (v.getElement 3)])) =
    (.ok (.error (.err (.LinalgError (.UtilsError .Inf))), .ok (), .error (.err .ARFilterAlreadyInit),
      [.fin 2, .fin 3, .fin 4, .fin 5]) :
      Res AhrsError (Res AhrsError Unit × Res AhrsError Unit × Res AhrsError Unit × List XQ)) := by
  decide +kernel

/-- A case of `C47_still`, `C47_rejected` and `C50_unimplemented`: the sample below the threshold is
accepted, the NaN sample and the moving sample are refused, the attitude stays (2, 3, 4, 5). -/
example : (do
    let s ← (AR.new : Res AhrsError (AR XQ))
    let (r1, s1) := AR.initWith (AR.plain (.fin 2) (.fin 3) (.fin 4) (.fin 5) .RungeKutta 1) s
    let (r2, s2) := AR.update (.fin 0) (.fin (1 / 10 ^ 9)) (.fin 0) s1
    let (r3, s3) := AR.update (.fin 0) .nan (.fin 0) s2
    let (r4, s4) := AR.update (.fin 3) (.fin 0) (.fin 4) s3
    let v ← AR.getAttitude s4
    .ok ([r1, r2, r3, r4], [← liftL (v.getElement 0), ← liftL (v.getElement 1), ← liftL (v.getElement 2),
      ← liftL (v.getElement 3)])) =
    (.ok ([.ok (), .ok (), .error (.err (.LinalgError (.UtilsError .Nan))), .error (.err .ARMethodError)],
      [.fin 2, .fin 3, .fin 4, .fin 5]) : Res AhrsError (List (Res AhrsError Unit) × List XQ)) := by
  decide +kernel

end Verif
