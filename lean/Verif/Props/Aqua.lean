import Verif.Lib.Frame
import Verif.Props.Accelerometer
import Verif.Props.Magnetometer

/-
Claims about the AQUA filter that hold in every arithmetic: initialisation (C52), the role of the
gyrometer arguments (C53).
-/

set_option linter.unusedSectionVars false
set_option linter.unusedSimpArgs false

namespace Verif
open Scalar

variable {F : Type} [Scalar F]

namespace Aqua

theorem onAttitude_ok {m : Op LinalgError (Vec F) Unit} {s : Aqua F} {t : Vec F}
    (h : m s.attitude = (.ok (), t)) : onAttitude m s = (.ok (), { s with attitude := t }) := by
  unfold onAttitude; exact fieldOp_ok h
theorem onAttitude_err {m : Op LinalgError (Vec F) Unit} {s : Aqua F} {t : Vec F} {e : LinalgError}
    (h : m s.attitude = (.error (.err e), t)) :
    onAttitude m s = (.error (.err (.LinalgError e)), { s with attitude := t }) := by
  unfold onAttitude; exact fieldOp_err h
theorem onGyr_run {α : Type} {m : Op AhrsError (Gyrometer F) α} {s : Aqua F} {g : Gyrometer F}
    {r : Res AhrsError α} (h : m s.gyr = (r, g)) : onGyr m s = (r, { s with gyr := g }) := by
  unfold onGyr; rw [Op.zoom_run, h]
theorem onAcc_run {α : Type} {m : Op AhrsError (Accelerometer F) α} {s : Aqua F} {g : Accelerometer F}
    {r : Res AhrsError α} (h : m s.acc = (r, g)) : onAcc m s = (r, { s with acc := g }) := by
  unfold onAcc; rw [Op.zoom_run, h]
theorem onMag_run {α : Type} {m : Op AhrsError (Magnetometer F) α} {s : Aqua F} {g : Magnetometer F}
    {r : Res AhrsError α} (h : m s.mag = (r, g)) : onMag m s = (r, { s with mag := g }) := by
  unfold onMag; rw [Op.zoom_run, h]

/-- What an update does to a filter. -/
structure Step (s s' : Aqua F) : Prop where
  mode : s'.mode = s.mode
  ts : s'.ts = s.ts
  adaptive : s'.adaptive = s.adaptive
  beta : s'.beta = s.beta
  t1 : s'.t1 = s.t1
  t2 : s'.t2 = s.t2
  tAcc : s'.tAcc = s.tAcc
  tMag : s'.tMag = s.tMag
  g : s'.g = s.g
  h : s'.h = s.h
  initialized : s'.initialized = s.initialized
  alpha : s.adaptive = false → s'.alpha = s.alpha
  gyr : s.gyr.Reachable → s'.gyr.Reachable ∧ (s.gyr.initialized = true → s'.gyr.initialized = true) ∧
    s'.gyr.getConfig = s.gyr.getConfig
  acc : s.acc.Reachable → s'.acc.Reachable ∧ (s.acc.initialized = true → s'.acc.initialized = true) ∧
    s'.acc.getConfig = s.acc.getConfig
  mag : s.mag.Reachable → s'.mag.Reachable ∧ (s.mag.initialized = true → s'.mag.initialized = true) ∧
    s'.mag.getConfig = s.mag.getConfig
  attitude : s.attitude.Holds4 → s'.attitude.Holds4

theorem pre : Pre (Step (F := F)) where
  refl _ := ⟨rfl, rfl, rfl, rfl, rfl, rfl, rfl, rfl, rfl, rfl, rfl, fun _ => rfl, fun h => ⟨h, id, rfl⟩,
    fun h => ⟨h, id, rfl⟩, fun h => ⟨h, id, rfl⟩, id⟩
  trans h k := ⟨k.mode.trans h.mode, k.ts.trans h.ts, k.adaptive.trans h.adaptive,
    k.beta.trans h.beta, k.t1.trans h.t1, k.t2.trans h.t2, k.tAcc.trans h.tAcc, k.tMag.trans h.tMag,
    k.g.trans h.g, k.h.trans h.h, k.initialized.trans h.initialized,
    fun e => (k.alpha (h.adaptive.trans e)).trans (h.alpha e),
    fun e => ⟨(k.gyr (h.gyr e).1).1, fun i => (k.gyr (h.gyr e).1).2.1 ((h.gyr e).2.1 i),
      (k.gyr (h.gyr e).1).2.2.trans (h.gyr e).2.2⟩,
    fun e => ⟨(k.acc (h.acc e).1).1, fun i => (k.acc (h.acc e).1).2.1 ((h.acc e).2.1 i),
      (k.acc (h.acc e).1).2.2.trans (h.acc e).2.2⟩,
    fun e => ⟨(k.mag (h.mag e).1).1, fun i => (k.mag (h.mag e).1).2.1 ((h.mag e).2.1 i),
      (k.mag (h.mag e).1).2.2.trans (h.mag e).2.2⟩,
    fun e => k.attitude (h.attitude e)⟩

section
variable [ScalarLawful F]

theorem frame_gyr (x y z : F) : Op.Frame Step (onGyr (Gyrometer.update x y z)) := by
  intro s
  refine ⟨rfl, rfl, rfl, rfl, rfl, rfl, rfl, rfl, rfl, rfl, rfl, fun _ => rfl, fun hr => ?_,
    fun h => ⟨h, id, rfl⟩, fun h => ⟨h, id, rfl⟩, id⟩
  obtain ⟨g0, e0, hl⟩ := hr
  exact ⟨⟨g0, e0, .step (.update x y z) hl⟩,
    fun i => Gyrometer.call_initialized (.update x y z) (Gyrometer.Reachable.good ⟨g0, e0, hl⟩) i,
    C45_gyr_config ⟨g0, e0, hl⟩ x y z⟩

theorem frame_acc (x y z : F) : Op.Frame Step (onAcc (Accelerometer.update x y z)) := by
  intro s
  refine ⟨rfl, rfl, rfl, rfl, rfl, rfl, rfl, rfl, rfl, rfl, rfl, fun _ => rfl, fun h => ⟨h, id, rfl⟩,
    fun hr => ?_, fun h => ⟨h, id, rfl⟩, id⟩
  obtain ⟨g0, e0, hl⟩ := hr
  exact ⟨⟨g0, e0, .step (.update x y z) hl⟩,
    fun i => Accelerometer.call_initialized (.update x y z) (Accelerometer.Reachable.good ⟨g0, e0, hl⟩) i,
    C45_acc_config ⟨g0, e0, hl⟩ x y z⟩

theorem frame_mag (x y z : F) : Op.Frame Step (onMag (Magnetometer.update x y z)) := by
  intro s
  refine ⟨rfl, rfl, rfl, rfl, rfl, rfl, rfl, rfl, rfl, rfl, rfl, fun _ => rfl, fun h => ⟨h, id, rfl⟩,
    fun h => ⟨h, id, rfl⟩, fun hr => ?_, id⟩
  obtain ⟨g0, e0, hl⟩ := hr
  exact ⟨⟨g0, e0, .step (.update x y z) hl⟩,
    fun i => Magnetometer.call_initialized (.update x y z) (Magnetometer.Reachable.good ⟨g0, e0, hl⟩) i,
    C45_mag_config ⟨g0, e0, hl⟩ x y z⟩

theorem frame_attitude {α : Type} {m : Op LinalgError (Vec F) α} (hm : Keeps4 m) :
    Op.Frame Step (onAttitude m) := by
  intro s
  exact ⟨rfl, rfl, rfl, rfl, rfl, rfl, rfl, rfl, rfl, rfl, rfl, fun _ => rfl, fun h => ⟨h, id, rfl⟩,
    fun h => ⟨h, id, rfl⟩, fun h => ⟨h, id, rfl⟩, hm s.attitude⟩

theorem frame_updateMarg (aLocal mLocal accQuat magQuat : Vec F) (temp : Mat F) :
    Op.Frame Step (updateMarg aLocal mLocal accQuat magQuat temp) := by
  unfold updateMarg
  intro s
  rw [Op.get_bind']
  refine Op.Frame.at_lift_bind pre fun gyrQuat => ?_
  refine Op.Frame.at_lift_bind pre fun tg => ?_
  obtain ⟨temp', aGlobal⟩ := tg
  iterate 3 refine Op.Frame.at_lift_bind pre fun _ => ?_
  refine Op.Frame.at_lift_bind pre fun _ => ?_
  refine Op.Frame.at_bind pre ?_ fun _ => ?_
  · split
    · rename_i had
      refine Op.Frame.at_lift_bind pre fun _ => ?_
      exact ⟨rfl, rfl, rfl, rfl, rfl, rfl, rfl, rfl, rfl, rfl, rfl,
        fun h => absurd (had.symm.trans h) (by decide), fun h => ⟨h, id, rfl⟩, fun h => ⟨h, id, rfl⟩,
        fun h => ⟨h, id, rfl⟩, id⟩
    · exact pre.refl s
  · refine Op.Frame.bind pre (Op.Frame.get pre) fun self => ?_
    refine Op.Frame.bind pre (Op.Frame.lift pre _) fun _ => ?_
    refine Op.Frame.bind pre (frame_attitude (keeps4_mul _ _)) fun _ => ?_
    refine Op.Frame.bind pre (Op.Frame.get pre) fun self => ?_
    refine Op.Frame.bind pre (Op.Frame.lift pre _) fun tg => ?_
    obtain ⟨temp', mGlobal⟩ := tg
    iterate 5 refine Op.Frame.bind pre (Op.Frame.lift pre _) fun _ => ?_
    exact frame_attitude (keeps4_mul _ _)

theorem frame_updateAm (ax ay az : F) (mLocal accQuat magQuat : Vec F) (temp : Mat F) :
    Op.Frame Step (updateAm ax ay az mLocal accQuat magQuat temp) := by
  unfold updateAm
  refine Op.Frame.bind pre (Op.Frame.lift pre _) fun _ => ?_
  refine Op.Frame.bind pre (Op.Frame.lift pre _) fun tg => ?_
  obtain ⟨temp', mGlobal⟩ := tg
  iterate 3 refine Op.Frame.bind pre (Op.Frame.lift pre _) fun _ => ?_
  exact frame_attitude (keeps4_mul _ _)

theorem frame_updateGyr (gx gy gz : Option F) : Op.Frame Step (updateGyr gx gy gz) := by
  unfold updateGyr
  split
  · exact frame_gyr _ _ _
  · exact Op.Frame.fail pre _
  · exact Op.Frame.fail pre _

/-- An update, successful or not, changes only the attitude, the sensors' readings and — if adaptive —
the gain. -/
theorem frame_update (gx gy gz : Option F) (ax ay az mx my mz : F) :
    Op.Frame Step (update gx gy gz ax ay az mx my mz) := by
  unfold update
  refine Op.Frame.bind pre (Op.Frame.get pre) fun self => Op.Frame.ite (Op.Frame.fail pre _) ?_
  refine Op.Frame.bind pre ?_ fun _ => ?_
  · split
    · exact frame_updateGyr _ _ _
    · exact Op.Frame.pure pre _
  refine Op.Frame.bind pre (frame_acc _ _ _) fun _ => ?_
  refine Op.Frame.bind pre (frame_mag _ _ _) fun _ => ?_
  refine Op.Frame.bind pre (Op.Frame.get pre) fun self => ?_
  iterate 5 refine Op.Frame.bind pre (Op.Frame.lift pre _) fun _ => ?_
  refine Op.Frame.bind pre (Op.Frame.lift pre _) fun t => ?_
  obtain ⟨ax, ay, az⟩ := t
  iterate 8 refine Op.Frame.bind pre (Op.Frame.lift pre _) fun _ => ?_
  refine Op.Frame.bind pre ?_ fun _ => frame_attitude keeps4_normalize
  split
  · exact frame_updateMarg _ _ _ _ _
  · exact frame_updateAm _ _ _ _ _ _ _

/-! ### Initialisation -/

/-- Nothing has been tried yet. -/
structure Fresh (s : Aqua F) : Prop where
  initialized : s.initialized = false
  attitude : s.attitude = Vec.new
  gyr : s.gyr.Reachable
  acc : s.acc.Reachable
  mag : s.mag.Reachable
  gyr_initialized : s.gyr.initialized = false
  acc_initialized : s.acc.initialized = false
  mag_initialized : s.mag.initialized = false
  g : s.g = lit (981 / 100)
  h : s.h = lit 48

/-- An `init` has failed. -/
structure Stuck (s : Aqua F) : Prop where
  initialized : s.initialized = false
  attitude : s.attitude.initialized = true

/-- The filter is initialised. -/
structure Ready (s : Aqua F) : Prop where
  initialized : s.initialized = true
  gyr : s.gyr.Reachable
  acc : s.acc.Reachable
  mag : s.mag.Reachable
  gyr_initialized : s.mode = .MARG → s.gyr.initialized = true
  acc_initialized : s.acc.initialized = true
  mag_initialized : s.mag.initialized = true
  attitude : s.attitude.Holds4

theorem new_fresh : ∃ s0 : Aqua F, Aqua.new = .ok s0 ∧ Fresh s0 := by
  obtain ⟨g0, e, hi, hr⟩ := C44_gyr_new (F := F)
  obtain ⟨a0, ea, hai, har⟩ := C44_acc_new (F := F)
  obtain ⟨m0, em, hmi, hmr⟩ := C44_mag_new (F := F)
  exact ⟨_, by unfold Aqua.new; rw [e, ea, em]; rfl, ⟨rfl, rfl, hr, har, hmr, hi, hai, hmi, rfl, rfl⟩⟩

theorem gyr_init {g : Gyrometer F} (hg : g.Reachable) (hi : g.initialized = false)
    (c : GyrometerConfig F) :
    ((∀ x ∈ c.params, Finite x) ∧ ∃ g', Gyrometer.init c g = (.ok (), g') ∧ g'.Reachable ∧
      g'.initialized = true ∧ g'.getConfig = .ok c) ∨
    (¬ (∀ x ∈ c.params, Finite x) ∧ ∃ e g', Gyrometer.init c g = (.error (.err e), g')) := by
  obtain ⟨g0, e0, hl⟩ := hg
  have hg : g.Reachable := ⟨g0, e0, hl⟩
  have h1 := C44_gyr_init (c := c) hg
  have hp := C66_gyr_no_panic hg (.init c)
  change (Gyrometer.init c g).1 ≠ _ at hp
  have hr : (Gyrometer.init c g).2.Reachable := ⟨g0, e0, .step (.init c) hl⟩
  rcases he : Gyrometer.init c g with ⟨(e | _) | ⟨⟩, g'⟩
  · right
    refine ⟨fun hf => ?_, e, g', rfl⟩
    have := h1.1.mpr ⟨hi, hf⟩
    rw [he] at this
    cases this
  · rw [he] at hp
    exact absurd rfl hp
  · left
    rw [he] at h1 hr
    exact ⟨(h1.1.mp rfl).2, g', rfl, hr, h1.2.2 rfl, C42_gyr_init hg he⟩

theorem acc_init {g : Accelerometer F} (hg : g.Reachable) (hi : g.initialized = false)
    (c : AccelerometerConfig F) :
    ((∀ x ∈ c.params, Finite x) ∧ ∃ g', Accelerometer.init c g = (.ok (), g') ∧ g'.Reachable ∧
      g'.initialized = true ∧ g'.getConfig = .ok c) ∨
    (¬ (∀ x ∈ c.params, Finite x) ∧ ∃ e g', Accelerometer.init c g = (.error (.err e), g')) := by
  obtain ⟨g0, e0, hl⟩ := hg
  have hg : g.Reachable := ⟨g0, e0, hl⟩
  have h1 := C44_acc_init (c := c) hg
  have hp := C66_acc_no_panic hg (.init c)
  change (Accelerometer.init c g).1 ≠ _ at hp
  have hr : (Accelerometer.init c g).2.Reachable := ⟨g0, e0, .step (.init c) hl⟩
  rcases he : Accelerometer.init c g with ⟨(e | _) | ⟨⟩, g'⟩
  · right
    refine ⟨fun hf => ?_, e, g', rfl⟩
    have := h1.1.mpr ⟨hi, hf⟩
    rw [he] at this
    cases this
  · rw [he] at hp
    exact absurd rfl hp
  · left
    rw [he] at h1 hr
    exact ⟨(h1.1.mp rfl).2, g', rfl, hr, h1.2.2 rfl, C42_acc_init hg he⟩

theorem mag_init {g : Magnetometer F} (hg : g.Reachable) (hi : g.initialized = false)
    (c : MagnetometerConfig F) :
    ((∀ x ∈ c.params, Finite x) ∧ ∃ g', Magnetometer.init c g = (.ok (), g') ∧ g'.Reachable ∧
      g'.initialized = true ∧ g'.getConfig = .ok c) ∨
    (¬ (∀ x ∈ c.params, Finite x) ∧ ∃ e g', Magnetometer.init c g = (.error (.err e), g')) := by
  obtain ⟨g0, e0, hl⟩ := hg
  have hg : g.Reachable := ⟨g0, e0, hl⟩
  have h1 := C44_mag_init (c := c) hg
  have hp := C66_mag_no_panic hg (.init c)
  change (Magnetometer.init c g).1 ≠ _ at hp
  have hr : (Magnetometer.init c g).2.Reachable := ⟨g0, e0, .step (.init c) hl⟩
  rcases he : Magnetometer.init c g with ⟨(e | _) | ⟨⟩, g'⟩
  · right
    refine ⟨fun hf => ?_, e, g', rfl⟩
    have := h1.1.mpr ⟨hi, hf⟩
    rw [he] at this
    cases this
  · rw [he] at hp
    exact absurd rfl hp
  · left
    rw [he] at h1 hr
    exact ⟨(h1.1.mp rfl).2, g', rfl, hr, h1.2.2 rfl, C42_mag_init hg he⟩

/-- The sensors part of `init`. -/
def initSensors (a : AquaInit F) : Op AhrsError (Aqua F) Unit :=
  match a.mode with
  | .MARG =>
    match a.gyrometerConfig with
    | none => Op.fail .NoGyroconfig
    | some config => do
      onGyr (Gyrometer.init config)
      onAcc (Accelerometer.init a.accelerometerConfig)
      onMag (Magnetometer.init a.magnetometerConfig)
  | .AM => do
    onAcc (Accelerometer.init a.accelerometerConfig)
    onMag (Magnetometer.init a.magnetometerConfig)

/-- The arguments of the sensors are accepted. -/
def SensorsValid (a : AquaInit F) : Prop :=
  (a.mode = .MARG → ∃ c, a.gyrometerConfig = some c ∧ ∀ x ∈ c.params, Finite x) ∧
  (∀ x ∈ a.accelerometerConfig.params, Finite x) ∧ (∀ x ∈ a.magnetometerConfig.params, Finite x)

theorem initAccMag {s : Aqua F} (ha : s.acc.Reachable) (hm : s.mag.Reachable)
    (hai : s.acc.initialized = false) (hmi : s.mag.initialized = false) (a : AquaInit F) :
    (((∀ x ∈ a.accelerometerConfig.params, Finite x) ∧ (∀ x ∈ a.magnetometerConfig.params, Finite x)) ∧
      ∃ a' m', (do
          onAcc (Accelerometer.init a.accelerometerConfig)
          onMag (Magnetometer.init a.magnetometerConfig) : Op AhrsError (Aqua F) Unit) s =
          (.ok (), { s with acc := a', mag := m' }) ∧ a'.Reachable ∧ m'.Reachable ∧
        a'.initialized = true ∧ m'.initialized = true ∧ a'.getConfig = .ok a.accelerometerConfig ∧
        m'.getConfig = .ok a.magnetometerConfig) ∨
    (¬ ((∀ x ∈ a.accelerometerConfig.params, Finite x) ∧ (∀ x ∈ a.magnetometerConfig.params, Finite x)) ∧
      ∃ e a' m', (do
          onAcc (Accelerometer.init a.accelerometerConfig)
          onMag (Magnetometer.init a.magnetometerConfig) : Op AhrsError (Aqua F) Unit) s =
          (.error (.err e), { s with acc := a', mag := m' })) := by
  rcases acc_init ha hai a.accelerometerConfig with ⟨h1, a', e1, h2, h3, h4⟩ | ⟨h1, e, a', e1⟩
  · rcases mag_init hm hmi a.magnetometerConfig with ⟨k1, m', f1, k2, k3, k4⟩ | ⟨k1, e, m', f1⟩
    · refine .inl ⟨⟨h1, k1⟩, a', m', ?_, h2, k2, h3, k3, h4, k4⟩
      rw [Op.bind_ok (onAcc_run e1), onMag_run (s := { s with acc := a' }) f1]
    · refine .inr ⟨fun h => k1 h.2, e, a', m', ?_⟩
      rw [Op.bind_ok (onAcc_run e1), onMag_run (s := { s with acc := a' }) f1]
  · refine .inr ⟨fun h => h1 h.1, e, a', s.mag, ?_⟩
    rw [Op.bind_err (onAcc_run e1)]

theorem initSensors_run {s : Aqua F} (hg : s.gyr.Reachable) (ha : s.acc.Reachable)
    (hm : s.mag.Reachable) (hgi : s.gyr.initialized = false) (hai : s.acc.initialized = false)
    (hmi : s.mag.initialized = false) (a : AquaInit F) :
    (SensorsValid a ∧ ∃ g' a' m', initSensors a s = (.ok (), { s with gyr := g', acc := a', mag := m' }) ∧
      g'.Reachable ∧ a'.Reachable ∧ m'.Reachable ∧ (a.mode = .MARG → g'.initialized = true) ∧
      a'.initialized = true ∧ m'.initialized = true ∧
      (a.mode = .MARG → ∃ c, a.gyrometerConfig = some c ∧ g'.getConfig = .ok c) ∧
      a'.getConfig = .ok a.accelerometerConfig ∧ m'.getConfig = .ok a.magnetometerConfig) ∨
    (¬ SensorsValid a ∧ ∃ e g' a' m',
      initSensors a s = (.error (.err e), { s with gyr := g', acc := a', mag := m' })) := by
  unfold initSensors
  cases hmode : a.mode with
  | MARG =>
    cases hc : a.gyrometerConfig with
    | none =>
      refine .inr ⟨fun h => ?_, .NoGyroconfig, s.gyr, s.acc, s.mag, rfl⟩
      obtain ⟨c, h, -⟩ := h.1 hmode
      rw [hc] at h
      cases h
    | some c =>
      simp only
      rcases gyr_init hg hgi c with ⟨h1, g', e1, h2, h3, h4⟩ | ⟨h1, e, g', e1⟩
      · rw [Op.bind_ok (onGyr_run e1)]
        rcases initAccMag (s := { s with gyr := g' }) ha hm hai hmi a with
          ⟨⟨k1, k2⟩, a', m', f, l1, l2, l3, l4, l5, l6⟩ | ⟨k, e, a', m', f⟩
        · exact .inl ⟨⟨fun _ => ⟨c, hc, h1⟩, k1, k2⟩, g', a', m', f, h2, l1, l2, fun _ => h3, l3, l4,
            fun _ => ⟨c, rfl, h4⟩, l5, l6⟩
        · exact .inr ⟨fun h => k h.2, e, g', a', m', f⟩
      · refine .inr ⟨fun h => ?_, e, g', s.acc, s.mag, ?_⟩
        · obtain ⟨c', h, h'⟩ := h.1 hmode
          rw [hc] at h
          obtain rfl := Option.some.inj h
          exact h1 h'
        · rw [Op.bind_err (onGyr_run e1)]
  | AM =>
    simp only
    rcases initAccMag ha hm hai hmi a with ⟨⟨k1, k2⟩, a', m', f, l1, l2, l3, l4, l5, l6⟩ | ⟨k, e, a', m', f⟩
    · exact .inl ⟨⟨fun h => absurd (hmode.symm.trans h) (by decide), k1, k2⟩, s.gyr, a', m', f, hg, l1, l2,
        fun h => absurd h (by decide), l3, l4, fun h => absurd h (by decide), l5, l6⟩
    · exact .inr ⟨fun h => k h.2, e, s.gyr, a', m', f⟩

theorem identity_run : ∃ v : Vec F, Quat.fillIdentity (Vec.zeros 4) = (.ok (), v) ∧
    VecIs v 4 (seq4 (lit 1) (lit 0) (lit 0) (lit 0)) := by
  have hz := Vec.zeros_is (F := F) (n := 4) (by omega) (by omega)
  unfold Quat.fillIdentity
  exact Quat.fillq_ok hz ScalarLawful.one_finite ScalarLawful.zero_finite ScalarLawful.zero_finite
    ScalarLawful.zero_finite

/-- The attitude after an accepted `init`. -/
def startQuat (a : AquaInit F) : Nat → F :=
  seq4 (a.qw.getD (lit 1)) (a.qx.getD (lit 0)) (a.qy.getD (lit 0)) (a.qz.getD (lit 0))

/-- The settings of an initialised filter. -/
structure Settings (a : AquaInit F) (s : Aqua F) : Prop where
  mode : s.mode = a.mode
  ts : s.ts = a.ts
  adaptive : s.adaptive = a.adaptive
  beta : s.beta = a.beta
  t1 : s.t1 = a.t1
  t2 : s.t2 = a.t2
  tAcc : s.tAcc = a.tAcc
  tMag : s.tMag = a.tMag
  g : s.g = a.g.getD (lit (981 / 100))
  h : s.h = a.h.getD (lit 48)
  alpha : a.adaptive = false → s.alpha = a.alpha

theorem Fresh.init {s : Aqua F} (h : Fresh s) (a : AquaInit F) :
    (a.Valid ∧ ∃ s', Aqua.init a s = (.ok (), s') ∧ Ready s' ∧ Settings a s' ∧ s'.alpha = a.alpha ∧
      VecIs s'.attitude 4 (startQuat a) ∧
      (a.mode = .MARG → ∃ c, a.gyrometerConfig = some c ∧ s'.getGyrometerConfig = .ok c) ∧
      s'.getAccelerometerConfig = .ok a.accelerometerConfig ∧
      s'.getMagnetometerConfig = .ok a.magnetometerConfig) ∨
    (¬ a.Valid ∧ ∃ e s', Aqua.init a s = (.error (.err e), s') ∧ Stuck s') := by
  have e1 : Vec.init 4 s.attitude = (.ok (), (Vec.zeros 4 : Vec F)) := by rw [h.attitude]; rfl
  obtain ⟨v, e2, hv⟩ := identity_run (F := F)
  have start : Aqua.init a s = (initSensors a >>= fun _ =>
      (liftM (initQuaternion a.qw a.qx a.qy a.qz) : Op AhrsError (Aqua F) _) >>= fun quat =>
      (match quat with
        | some (qw, qx, qy, qz) => onAttitude (Quat.fillq qw qx qy qz)
        | none => pure () : Op AhrsError (Aqua F) Unit) >>= fun _ =>
      Op.modify fun self =>
        { self with
          mode := a.mode, ts := a.ts, adaptive := a.adaptive, alpha := a.alpha, beta := a.beta,
          t1 := a.t1, t2 := a.t2, tAcc := a.tAcc, tMag := a.tMag, g := a.g.getD self.g,
          h := a.h.getD self.h, initialized := true }) { s with attitude := v } := by
    unfold Aqua.init
    rw [Op.get_bind, if_neg (by rw [h.initialized]; decide), Op.bind_ok (onAttitude_ok e1),
      Op.bind_ok (onAttitude_ok (s := { s with attitude := Vec.zeros 4 }) e2)]
    rfl
  rw [start]
  rcases initSensors_run (s := { s with attitude := v }) h.gyr h.acc h.mag h.gyr_initialized
    h.acc_initialized h.mag_initialized a with
    ⟨hv1, g', a', m', e3, r1, r2, r3, i1, i2, i3, c1, c2, c3⟩ | ⟨hv1, e, g', a', m', e3⟩
  · rw [Op.bind_ok e3]
    have done : ∀ (w : Vec F), VecIs w 4 (startQuat a) → (∀ i, i < 4 → Finite (startQuat a i)) →
        ∀ s' : Aqua F, s' = ({ s with
          attitude := w, gyr := g', acc := a', mag := m'
          mode := a.mode, ts := a.ts, adaptive := a.adaptive, alpha := a.alpha, beta := a.beta,
          t1 := a.t1, t2 := a.t2, tAcc := a.tAcc, tMag := a.tMag, g := a.g.getD s.g,
          h := a.h.getD s.h, initialized := true } : Aqua F) →
        Ready s' ∧ Settings a s' ∧ s'.alpha = a.alpha ∧ VecIs s'.attitude 4 (startQuat a) ∧
        (a.mode = .MARG → ∃ c, a.gyrometerConfig = some c ∧ s'.getGyrometerConfig = .ok c) ∧
        s'.getAccelerometerConfig = .ok a.accelerometerConfig ∧
        s'.getMagnetometerConfig = .ok a.magnetometerConfig := by
      rintro w hw hf s' rfl
      exact ⟨⟨rfl, r1, r2, r3, i1, i2, i3, ⟨_, hw, hf⟩⟩,
        ⟨rfl, rfl, rfl, rfl, rfl, rfl, rfl, rfl, by rw [← h.g], by rw [← h.h], fun _ => rfl⟩, rfl, hw, c1, c2, c3⟩
    by_cases hall : ∃ w x y z, a.qw = some w ∧ a.qx = some x ∧ a.qy = some y ∧ a.qz = some z
    · obtain ⟨w, x, y, z, hw, hx, hy, hz⟩ := hall
      have hst := Quat.storeAll_stores (w := w) (x := x) (y := y) (z := z) hv
      rw [← Quat.fillq_eq hv] at hst
      have hq : startQuat a = seq4 w x y z := by unfold startQuat; rw [hw, hx, hy, hz]; rfl
      have hi : initQuaternion a.qw a.qx a.qy a.qz = .ok (some (w, x, y, z)) := by
        rw [hw, hx, hy, hz]; rfl
      rw [hi, Op.liftOk_bind]
      simp only
      rcases hst.cases with ⟨hf, e4⟩ | ⟨k, hk, hf, hb, e4⟩
      · left
        obtain ⟨f1, f2, f3, f4⟩ := forall_lt_four.mp hf
        refine ⟨⟨hv1.1, hv1.2.1, hv1.2.2, .inr ⟨w, x, y, z, hw, hx, hy, hz, f1, f2, f3, f4⟩⟩, _, ?_,
          done (v.overwrite 4 (seq4 w x y z)) (hq ▸ hv.overwrite _) (hq ▸ hf) _ rfl⟩
        rw [Op.bind_ok (onAttitude_ok (s := { s with attitude := v, gyr := g', acc := a', mag := m' }) e4)]
        rfl
      · right
        refine ⟨fun hva => ?_, .LinalgError (valueErr (seq4 w x y z k)),
          { s with attitude := v.overwrite k (seq4 w x y z), gyr := g', acc := a', mag := m' }, ?_,
          ⟨h.initialized, hv.init⟩⟩
        · rcases hva.quat with ⟨h0, -⟩ | ⟨w', x', y', z', hw', hx', hy', hz', f1, f2, f3, f4⟩
          · rw [h0] at hw; cases hw
          · rw [hw] at hw'; rw [hx] at hx'; rw [hy] at hy'; rw [hz] at hz'
            obtain rfl := Option.some.inj hw'
            obtain rfl := Option.some.inj hx'
            obtain rfl := Option.some.inj hy'
            obtain rfl := Option.some.inj hz'
            exact hb ((forall_lt_four (P := fun i => Finite (seq4 w x y z i))).mpr ⟨f1, f2, f3, f4⟩ k hk)
        · rw [Op.bind_err (onAttitude_err (s := { s with attitude := v, gyr := g', acc := a', mag := m' }) e4)]
    · by_cases hnone : a.qw = none ∧ a.qx = none ∧ a.qy = none ∧ a.qz = none
      · left
        have hq : startQuat a = seq4 (lit 1) (lit 0) (lit 0) (lit 0) := by
          unfold startQuat; rw [hnone.1, hnone.2.1, hnone.2.2.1, hnone.2.2.2]; rfl
        have hi : initQuaternion a.qw a.qx a.qy a.qz = .ok none := by
          rw [hnone.1, hnone.2.1, hnone.2.2.1, hnone.2.2.2]; rfl
        rw [hi, Op.liftOk_bind]
        refine ⟨⟨hv1.1, hv1.2.1, hv1.2.2, .inl hnone⟩, _, rfl, done v (hq ▸ hv) (hq ▸ forall_lt_four.mpr
          ⟨ScalarLawful.one_finite, ScalarLawful.zero_finite, ScalarLawful.zero_finite,
            ScalarLawful.zero_finite⟩) _ rfl⟩
      · right
        have hi : initQuaternion a.qw a.qx a.qy a.qz = .error (.err .InvalidInitQuaternion) := by
          unfold initQuaternion
          split
          · rename_i h1 h2 h3 h4
            exact absurd ⟨_, _, _, _, h1, h2, h3, h4⟩ hall
          · rename_i h1 h2 h3 h4
            exact absurd ⟨h1, h2, h3, h4⟩ hnone
          · rfl
        rw [hi, Op.liftErr_bind]
        refine ⟨fun hva => ?_, _, _, rfl, ⟨h.initialized, hv.init⟩⟩
        rcases hva.quat with h0 | ⟨w', x', y', z', hw', hx', hy', hz', -⟩
        · exact hnone h0
        · exact hall ⟨_, _, _, _, hw', hx', hy', hz'⟩
  · right
    refine ⟨fun hva => hv1 ⟨hva.gyr, hva.acc, hva.mag⟩, e, _, Op.bind_err e3 _, ⟨h.initialized, hv.init⟩⟩

theorem Stuck.init {s : Aqua F} (h : Stuck s) (a : AquaInit F) :
    Aqua.init a s = (.error (.err (.LinalgError .AlreadyInit)), s) := by
  have e : Vec.init 4 s.attitude = (.error (.err .AlreadyInit), s.attitude) := by
    unfold Vec.init
    rw [Op.get_bind, h.attitude]
    rfl
  unfold Aqua.init
  rw [Op.get_bind, if_neg (by rw [h.initialized]; decide), Op.bind_err (onAttitude_err e)]

theorem unused {s : Aqua F} (hi : s.initialized = false) (gx gy gz : Option F) (ax ay az mx my mz : F) :
    update gx gy gz ax ay az mx my mz s = (.error (.err .AquaFilterNotInit), s) ∧
      getAttitude s = .error (.err .AquaFilterNotInit) := by
  constructor
  · unfold update; rw [Op.get_bind, hi]; rfl
  · unfold getAttitude; rw [hi]; rfl

theorem Ready.init {s : Aqua F} (h : s.initialized = true) (a : AquaInit F) :
    Aqua.init a s = (.error (.err .AquaFilterAlreadyInit), s) := by
  unfold Aqua.init
  rw [Op.get_bind, h]
  rfl

theorem Ready.step {s s' : Aqua F} (h : Ready s) (k : Step s s') : Ready s' :=
  ⟨k.initialized.trans h.initialized, (k.gyr h.gyr).1, (k.acc h.acc).1, (k.mag h.mag).1,
    fun hm => (k.gyr h.gyr).2.1 (h.gyr_initialized (k.mode.symm.trans hm)),
    (k.acc h.acc).2.1 h.acc_initialized, (k.mag h.mag).2.1 h.mag_initialized, k.attitude h.attitude⟩

theorem Settings.step {s s' : Aqua F} {a : AquaInit F} (h : Settings a s) (k : Step s s') : Settings a s' :=
  ⟨k.mode.trans h.mode, k.ts.trans h.ts, k.adaptive.trans h.adaptive, k.beta.trans h.beta,
    k.t1.trans h.t1, k.t2.trans h.t2, k.tAcc.trans h.tAcc, k.tMag.trans h.tMag, k.g.trans h.g,
    k.h.trans h.h, fun e => (k.alpha (h.adaptive.trans e)).trans (h.alpha e)⟩

/-- The three setters. -/
theorem setGyr_run (c : GyrometerConfig F) (s : Aqua F) :
    (setGyrometerConfig c s).2 = { s with gyr := (Gyrometer.setConfig c s.gyr).2 } := rfl
theorem setAcc_run (c : AccelerometerConfig F) (s : Aqua F) :
    (setAccelerometerConfig c s).2 = { s with acc := (Accelerometer.setConfig c s.acc).2 } := rfl
theorem setMag_run (c : MagnetometerConfig F) (s : Aqua F) :
    (setMagnetometerConfig c s).2 = { s with mag := (Magnetometer.setConfig c s.mag).2 } := rfl

theorem gyr_set {g : Gyrometer F} (c : GyrometerConfig F) (hg : g.Reachable) :
    (Gyrometer.setConfig c g).2.Reachable ∧
      (g.initialized = true → (Gyrometer.setConfig c g).2.initialized = true) ∧
      (g.initialized = false → (Gyrometer.setConfig c g).2 = g) := by
  obtain ⟨g0, e0, hl⟩ := hg
  exact ⟨⟨g0, e0, .step (.setConfig c) hl⟩,
    fun i => Gyrometer.call_initialized (.setConfig c) (Gyrometer.Reachable.good ⟨g0, e0, hl⟩) i,
    fun i => by rw [(C44_gyr_unused (c := c) (x := lit 0) (y := lit 0) (z := lit 0) i).1]⟩
theorem acc_set {g : Accelerometer F} (c : AccelerometerConfig F) (hg : g.Reachable) :
    (Accelerometer.setConfig c g).2.Reachable ∧
      (g.initialized = true → (Accelerometer.setConfig c g).2.initialized = true) ∧
      (g.initialized = false → (Accelerometer.setConfig c g).2 = g) := by
  obtain ⟨g0, e0, hl⟩ := hg
  exact ⟨⟨g0, e0, .step (.setConfig c) hl⟩,
    fun i => Accelerometer.call_initialized (.setConfig c) (Accelerometer.Reachable.good ⟨g0, e0, hl⟩) i,
    fun i => by rw [(C44_acc_unused (c := c) (x := lit 0) (y := lit 0) (z := lit 0) i).1]⟩
theorem mag_set {g : Magnetometer F} (c : MagnetometerConfig F) (hg : g.Reachable) :
    (Magnetometer.setConfig c g).2.Reachable ∧
      (g.initialized = true → (Magnetometer.setConfig c g).2.initialized = true) ∧
      (g.initialized = false → (Magnetometer.setConfig c g).2 = g) := by
  obtain ⟨g0, e0, hl⟩ := hg
  exact ⟨⟨g0, e0, .step (.setConfig c) hl⟩,
    fun i => Magnetometer.call_initialized (.setConfig c) (Magnetometer.Reachable.good ⟨g0, e0, hl⟩) i,
    fun i => by rw [(C44_mag_unused (c := c) (x := lit 0) (y := lit 0) (z := lit 0) i).1]⟩

/-- Calls on an initialised filter keep it initialised and keep its settings. -/
theorem Ready.call {s : Aqua F} (h : Ready s) (k : AquaCall F) : Ready (Aqua.call k s).2 ∧
    ∀ a, Settings a s → Settings a (Aqua.call k s).2 := by
  cases k with
  | init b =>
    show Ready (Aqua.init b s).2 ∧ ∀ a, Settings a s → Settings a (Aqua.init b s).2
    rw [Ready.init h.initialized b]
    exact ⟨h, fun _ k => k⟩
  | setGyr c =>
    show Ready (setGyrometerConfig c s).2 ∧ ∀ a, Settings a s → Settings a (setGyrometerConfig c s).2
    rw [setGyr_run]
    obtain ⟨h1, h2, -⟩ := gyr_set c h.gyr
    exact ⟨⟨h.initialized, h1, h.acc, h.mag, fun e => h2 (h.gyr_initialized e), h.acc_initialized,
      h.mag_initialized, h.attitude⟩, fun a k => ⟨k.mode, k.ts, k.adaptive, k.beta, k.t1, k.t2, k.tAcc,
      k.tMag, k.g, k.h, k.alpha⟩⟩
  | setAcc c =>
    show Ready (setAccelerometerConfig c s).2 ∧ ∀ a, Settings a s → Settings a (setAccelerometerConfig c s).2
    rw [setAcc_run]
    obtain ⟨h1, h2, -⟩ := acc_set c h.acc
    exact ⟨⟨h.initialized, h.gyr, h1, h.mag, h.gyr_initialized, h2 h.acc_initialized,
      h.mag_initialized, h.attitude⟩, fun a k => ⟨k.mode, k.ts, k.adaptive, k.beta, k.t1, k.t2, k.tAcc,
      k.tMag, k.g, k.h, k.alpha⟩⟩
  | setMag c =>
    show Ready (setMagnetometerConfig c s).2 ∧ ∀ a, Settings a s → Settings a (setMagnetometerConfig c s).2
    rw [setMag_run]
    obtain ⟨h1, h2, -⟩ := mag_set c h.mag
    exact ⟨⟨h.initialized, h.gyr, h.acc, h1, h.gyr_initialized, h.acc_initialized,
      h2 h.mag_initialized, h.attitude⟩, fun a k => ⟨k.mode, k.ts, k.adaptive, k.beta, k.t1, k.t2, k.tAcc,
      k.tMag, k.g, k.h, k.alpha⟩⟩
  | update gx gy gz ax ay az mx my mz =>
    have k := frame_update gx gy gz ax ay az mx my mz s
    exact ⟨h.step k, fun a st => st.step k⟩

theorem Stuck.call {s : Aqua F} (h : Stuck s) (k : AquaCall F) : Stuck (Aqua.call k s).2 := by
  cases k with
  | init b =>
    show Stuck (Aqua.init b s).2
    rw [h.init b]
    exact h
  | setGyr c => exact ⟨h.initialized, h.attitude⟩
  | setAcc c => exact ⟨h.initialized, h.attitude⟩
  | setMag c => exact ⟨h.initialized, h.attitude⟩
  | update gx gy gz ax ay az mx my mz =>
    show Stuck (update gx gy gz ax ay az mx my mz s).2
    rw [(unused h.initialized gx gy gz ax ay az mx my mz).1]
    exact h

theorem Stuck.leads {s s' : Aqua F} (h : Stuck s) (hl : Leads s s') : Stuck s' := by
  induction hl with
  | refl => exact h
  | step k _ ih => exact ih.call k

theorem Reachable.cases {s : Aqua F} (h : Reachable s) : Fresh s ∨ Stuck s ∨ Ready s := by
  obtain ⟨s0, e0, hl⟩ := h
  obtain ⟨s1, e1, h1⟩ := new_fresh (F := F)
  rw [e0] at e1
  obtain rfl := Except.ok.inj e1
  induction hl with
  | refl => exact .inl h1
  | @step s k _ ih =>
    rcases ih with h | h | h
    · cases k with
      | init a =>
        rcases h.init a with ⟨-, s', e, h2, -⟩ | ⟨-, e, s', e1, h2⟩
        · exact .inr (.inr (by rw [show (Aqua.call (.init a) s).2 = s' from congrArg Prod.snd e]; exact h2))
        · exact .inr (.inl (by rw [show (Aqua.call (.init a) s).2 = s' from congrArg Prod.snd e1]; exact h2))
      | setGyr c =>
        left
        show Fresh (setGyrometerConfig c s).2
        rw [setGyr_run, (gyr_set c h.gyr).2.2 h.gyr_initialized]
        exact h
      | setAcc c =>
        left
        show Fresh (setAccelerometerConfig c s).2
        rw [setAcc_run, (acc_set c h.acc).2.2 h.acc_initialized]
        exact h
      | setMag c =>
        left
        show Fresh (setMagnetometerConfig c s).2
        rw [setMag_run, (mag_set c h.mag).2.2 h.mag_initialized]
        exact h
      | update gx gy gz ax ay az mx my mz =>
        left
        show Fresh (update gx gy gz ax ay az mx my mz s).2
        rw [(unused h.initialized gx gy gz ax ay az mx my mz).1]
        exact h
    · exact .inr (.inl (h.call k))
    · exact .inr (.inr (h.call k).1)

theorem Started.ready {s : Aqua F} {a : AquaInit F} (h : Started a s) : Ready s ∧ Settings a s := by
  obtain ⟨s0, s1, h0, e, hl⟩ := h
  have hstart : Ready s1 ∧ Settings a s1 := by
    rcases h0.cases with h | h | h
    · rcases h.init a with ⟨-, s', e', h2, h3, -⟩ | ⟨-, e', s', e1, h2⟩
      · rw [e] at e'
        obtain rfl := congrArg Prod.snd e'
        exact ⟨h2, h3⟩
      · rw [e] at e1
        cases congrArg Prod.fst e1
    · rw [h.init a] at e
      cases congrArg Prod.fst e
    · rw [Ready.init h.initialized a] at e
      cases congrArg Prod.fst e
  induction hl with
  | refl => exact hstart
  | step k _ ih => exact ⟨(ih.1.call k).1, (ih.1.call k).2 a ih.2⟩

theorem Ready.getAttitude {s : Aqua F} (h : Ready s) {f : Nat → F} (hf : VecIs s.attitude 4 f) :
    ∃ v, Aqua.getAttitude s = .ok v ∧ VecIs v 4 f := by
  obtain ⟨f', hv', hfin⟩ := h.attitude
  have he : ∀ i, i < 4 → f i = f' i := fun i hi => by
    have h1 := hf.elem (by omega) hi
    have h2 := hv'.elem (by omega) hi
    exact h1.symm.trans h2
  obtain ⟨d, h1, h2⟩ := Vec.duplicate_ok hf fun i hi => he i hi ▸ hfin i hi
  refine ⟨d, ?_, h2⟩
  unfold Aqua.getAttitude
  rw [h.initialized, h1]
  rfl

end
end Aqua

open Aqua

section
variable [ScalarLawful F]
variable {s s0 s' : Aqua F} {a b : AquaInit F}

/-! ### C52: initialisation -/

/-- C52: the first `init` of a filter succeeds exactly when its arguments are valid. -/
theorem C52_iff (h0 : Aqua.new = .ok s0) : (Aqua.init a s0).1 = .ok () ↔ a.Valid := by
  obtain ⟨s1, e1, h⟩ := new_fresh (F := F)
  rw [h0] at e1
  obtain rfl := Except.ok.inj e1
  rcases h.init a with ⟨hv, s', e, -⟩ | ⟨hv, e, s', e1, -⟩
  · rw [e]
    exact ⟨fun _ => hv, fun _ => rfl⟩
  · rw [e1]
    exact ⟨fun h => (by cases h), fun h => absurd h hv⟩

/-- C52: after a successful `init` the filter shows the given quaternion, by default the identity, and
the given sensor configurations. -/
theorem C52_attitude (hs : Reachable s) (h : Aqua.init a s = (.ok (), s')) :
    (∃ v, getAttitude s' = .ok v ∧ VecIs v 4 (seq4 (a.qw.getD (lit 1)) (a.qx.getD (lit 0))
      (a.qy.getD (lit 0)) (a.qz.getD (lit 0)))) ∧
    (a.mode = .MARG → ∃ c, a.gyrometerConfig = some c ∧ s'.getGyrometerConfig = .ok c) ∧
    s'.getAccelerometerConfig = .ok a.accelerometerConfig ∧
    s'.getMagnetometerConfig = .ok a.magnetometerConfig := by
  rcases hs.cases with hf | hf | hf
  · rcases hf.init a with ⟨-, s1, e, h1, -, -, h2, h3⟩ | ⟨-, e, s1, e1, -⟩
    · rw [h] at e
      obtain rfl := congrArg Prod.snd e
      exact ⟨h1.getAttitude h2, h3⟩
    · rw [h] at e1
      cases congrArg Prod.fst e1
  · rw [hf.init a] at h
    cases congrArg Prod.fst h
  · rw [Ready.init hf.initialized a] at h
    cases congrArg Prod.fst h

/-- C52: after an `init` that failed for any reason other than being a second one, every `init`, every
update and every reading of the attitude fails, whatever is tried in between. -/
theorem C52_permanent {e : Fail AhrsError} (hs : Reachable s) (h : (Aqua.init a s).1 = .error e)
    (he : e ≠ .err .AquaFilterAlreadyInit) (hl : Leads (Aqua.init a s).2 s') :
    (∀ b, Aqua.init b s' = (.error (.err (.LinalgError .AlreadyInit)), s')) ∧
    (∀ gx gy gz ax ay az mx my mz, update gx gy gz ax ay az mx my mz s' =
      (.error (.err .AquaFilterNotInit), s')) ∧
    getAttitude s' = .error (.err .AquaFilterNotInit) := by
  have hst : Stuck (Aqua.init a s).2 := by
    rcases hs.cases with hf | hf | hf
    · rcases hf.init a with ⟨-, s1, e1, -⟩ | ⟨-, e2, s1, e1, h1⟩
      · rw [e1] at h
        cases h
      · rw [e1]
        exact h1
    · rw [hf.init a]
      exact hf
    · rw [Ready.init hf.initialized a] at h
      exact absurd (Except.error.inj h).symm he
  have h2 := hst.leads hl
  exact ⟨fun b => h2.init b, fun gx gy gz ax ay az mx my mz =>
    (unused h2.initialized gx gy gz ax ay az mx my mz).1,
    (unused h2.initialized none none none (lit 0) (lit 0) (lit 0) (lit 0) (lit 0) (lit 0)).2⟩

/-- C52: a filter that was initialised stays so; another `init` is refused and changes nothing. -/
theorem C52_once (hs : Started a s) : Aqua.init b s = (.error (.err .AquaFilterAlreadyInit), s) :=
  Ready.init hs.ready.1.initialized b

/-! ### C53: the gyrometer arguments -/

/-- C53: the MARG mode refuses a sample without angular rates. -/
theorem C53_missing (hs : Started a s) (hm : a.mode = .MARG) (ax ay az mx my mz : F) :
    update none none none ax ay az mx my mz s = (.error (.err .NoGyroRawMeasurements), s) := by
  obtain ⟨h, k⟩ := hs.ready
  unfold update
  rw [Op.get_bind, if_neg (by rw [h.initialized]; decide), k.mode, hm]
  rfl

/-- C53: the MARG mode refuses a sample with some but not all angular rates. -/
theorem C53_incomplete (hs : Started a s) (hm : a.mode = .MARG) {gx gy gz : Option F}
    (h1 : ¬ (gx = none ∧ gy = none ∧ gz = none))
    (h2 : ¬ ∃ x y z, gx = some x ∧ gy = some y ∧ gz = some z) (ax ay az mx my mz : F) :
    update gx gy gz ax ay az mx my mz s = (.error (.err .InvalidGyroRawMeasurements), s) := by
  obtain ⟨h, k⟩ := hs.ready
  have e : updateGyr gx gy gz s = (.error (.err .InvalidGyroRawMeasurements), s) := by
    unfold updateGyr
    split
    · exact absurd ⟨_, _, _, rfl, rfl, rfl⟩ h2
    · exact absurd ⟨rfl, rfl, rfl⟩ h1
    · rfl
  unfold update
  rw [Op.get_bind, if_neg (by rw [h.initialized]; decide), k.mode, hm]
  simp only
  rw [Op.bind_err e]

end

theorem liftM_assoc {ε σ α β γ : Type} (r : Res ε α) (f : α → Res ε β) (g : β → Op ε σ γ) :
    ((liftM (r >>= f) : Op ε σ β) >>= g) = ((liftM r : Op ε σ α) >>= fun a => (liftM (f a) : Op ε σ β) >>= g) := by
  funext s
  rcases r with e | a <;> rfl

theorem liftM_ok {ε σ α γ : Type} (a : α) (g : α → Op ε σ γ) :
    ((liftM (Except.ok a : Res ε α) : Op ε σ α) >>= g) = g a := rfl

namespace Aqua

/-- The vectors computed from the corrected readings before the modes part: the acceleration, its
components divided by the norm, the normalised field and three blank objects. -/
def sensed (x y z mx my mz : F) : Res AhrsError (Vec F × (F × F × F) × Vec F × Vec F × Vec F × Mat F) := do
  let aLocal ← vector3 x y z
  let aNorm ← liftL aLocal.calculateNorm
  let n ← (if aNorm >ᶠ EPSILON then do
      let x ← liftL (aLocal.getElement 0)
      let y ← liftL (aLocal.getElement 1)
      let z ← liftL (aLocal.getElement 2)
      .ok (x /ᶠ aNorm, y /ᶠ aNorm, z /ᶠ aNorm)
    else .ok (x, y, z) : Res AhrsError (F × F × F))
  let mLocal ← vector3 mx my mz
  let mLocal ← liftL (exec mLocal Vec.normalize)
  let accQuat ← liftL (exec Vec.new (Vec.init 4))
  let magQuat ← liftL (exec Vec.new (Vec.init 4))
  let temp ← liftL (exec Mat.new (Mat.init 3 1))
  .ok (aLocal, n, mLocal, accQuat, magQuat, temp)

section
variable [ScalarLawful F] {s : Aqua F} {gx gy gz : Option F} {ax ay az mx my mz p q r u v w : F}
  {A : Accelerometer F} {M : Magnetometer F} {G : Gyrometer F}

/-- An update in the AM mode whose samples are accepted. -/
theorem Ready.am_run (h : Ready s) (hmode : s.mode = .AM)
    (ha : Accelerometer.update ax ay az s.acc = (.ok (), A))
    (hm : Magnetometer.update mx my mz s.mag = (.ok (), M)) (h1 : A.getX = .ok p) (h2 : A.getY = .ok q)
    (h3 : A.getZ = .ok r) (h4 : M.getX = .ok u) (h5 : M.getY = .ok v) (h6 : M.getZ = .ok w) :
    Aqua.update gx gy gz ax ay az mx my mz s =
      ((liftM (sensed p q r u v w) : Op AhrsError (Aqua F) _) >>= fun t =>
        updateAm t.2.1.1 t.2.1.2.1 t.2.1.2.2 t.2.2.1 t.2.2.2.1 t.2.2.2.2.1 t.2.2.2.2.2 >>= fun _ =>
        onAttitude Vec.normalize) { s with acc := A, mag := M } := by
  unfold Aqua.update
  rw [Op.get_bind, if_neg (by rw [h.initialized]; decide), hmode]
  simp only
  rw [Op.bind_ok (show (pure () : Op AhrsError (Aqua F) Unit) s = (.ok (), s) from rfl),
    Op.bind_ok (onAcc_run ha), Op.bind_ok (onMag_run (s := { s with acc := A }) hm), Op.get_bind]
  unfold sensed
  simp only [h1, h2, h3, h4, h5, h6, liftM_assoc, liftM_ok, hmode]

/-- An update in the MARG mode whose samples are accepted. -/
theorem Ready.marg_run {x y z : F} (h : Ready s) (hmode : s.mode = .MARG)
    (hg : Gyrometer.update x y z s.gyr = (.ok (), G))
    (ha : Accelerometer.update ax ay az s.acc = (.ok (), A))
    (hm : Magnetometer.update mx my mz s.mag = (.ok (), M)) (h1 : A.getX = .ok p) (h2 : A.getY = .ok q)
    (h3 : A.getZ = .ok r) (h4 : M.getX = .ok u) (h5 : M.getY = .ok v) (h6 : M.getZ = .ok w) :
    Aqua.update (some x) (some y) (some z) ax ay az mx my mz s =
      ((liftM (sensed p q r u v w) : Op AhrsError (Aqua F) _) >>= fun t =>
        updateMarg t.1 t.2.2.1 t.2.2.2.1 t.2.2.2.2.1 t.2.2.2.2.2 >>= fun _ =>
        onAttitude Vec.normalize) { s with gyr := G, acc := A, mag := M } := by
  unfold Aqua.update
  rw [Op.get_bind, if_neg (by rw [h.initialized]; decide), hmode]
  simp only [updateGyr]
  rw [Op.bind_ok (onGyr_run hg), Op.bind_ok (onAcc_run (s := { s with gyr := G }) ha),
    Op.bind_ok (onMag_run (s := { s with gyr := G, acc := A }) hm), Op.get_bind]
  unfold sensed
  simp only [h1, h2, h3, h4, h5, h6, liftM_assoc, liftM_ok, hmode]

theorem exec_lift_same {ε σ α : Type} {s t : σ} {r : Res ε α} {f : α → Op ε σ Unit}
    (h : ∀ a, exec s (f a) = exec t (f a)) :
    exec s ((liftM r : Op ε σ α) >>= f) = exec t ((liftM r : Op ε σ α) >>= f) := by
  rcases r with e | a
  · rfl
  · exact h a

/-- The product does not depend on what it overwrites. -/
theorem mul_same {s t : Vec F} (hs : s.Holds4) (ht : t.Holds4) (a b : Vec F) :
    exec s (Quat.mul a b) = exec t (Quat.mul a b) := by
  obtain ⟨f, hs, -⟩ := hs
  obtain ⟨g, ht, -⟩ := ht
  have start : ∀ {v : Vec F} {f : Nat → F}, VecIs v 4 f → exec v (Quat.mul a b) = exec v (do
      if !(← Quat.isQuaternion a) then Op.fail .InvalidSize
      else if !(← Quat.isQuaternion b) then Op.fail .InvalidSize
      else do
        let qw1 ← a.getElement 0
        let qx1 ← a.getElement 1
        let qy1 ← a.getElement 2
        let qz1 ← a.getElement 3
        let qw2 ← b.getElement 0
        let qx2 ← b.getElement 1
        let qy2 ← b.getElement 2
        let qz2 ← b.getElement 3
        Quat.storeAll (qw1 *ᶠ qw2 -ᶠ qx1 *ᶠ qx2 -ᶠ qy1 *ᶠ qy2 -ᶠ qz1 *ᶠ qz2)
          (qw1 *ᶠ qx2 +ᶠ qx1 *ᶠ qw2 -ᶠ qz1 *ᶠ qy2 +ᶠ qy1 *ᶠ qz2)
          (qw1 *ᶠ qy2 +ᶠ qz1 *ᶠ qx2 +ᶠ qw2 *ᶠ qy1 -ᶠ qx1 *ᶠ qz2)
          (qw1 *ᶠ qz2 -ᶠ qy1 *ᶠ qx2 +ᶠ qx1 *ᶠ qy2 +ᶠ qw2 *ᶠ qz1) : Op LinalgError (Vec F) Unit) := by
    intro v f hv
    unfold Quat.mul exec
    rw [Op.get_bind, Quat.isQuaternion_eq hv, Op.liftOk_bind]
    rfl
  rw [start hs, start ht]
  refine exec_lift_same fun b1 => ?_
  split
  · rfl
  refine exec_lift_same fun b2 => ?_
  split
  · rfl
  iterate 8 refine exec_lift_same fun _ => ?_
  exact Quat.storeAll_same hs ht

/-- The two partial quaternions of the AM mode. -/
def amQuats (ax ay az : F) (mLocal accQuat magQuat : Vec F) (temp : Mat F) :
    Res AhrsError (Vec F × Vec F) := do
  let (qw, qx, qy, qz) := accQuaternion ax ay az
  let accQuat ← liftL (exec accQuat (Quat.fillq qw qx qy qz))
  let t ← toGlobal temp accQuat mLocal
  let lx ← liftL (t.2.getElement 0)
  let ly ← liftL (t.2.getElement 1)
  let gamma := lx *ᶠ lx +ᶠ ly *ᶠ ly
  let (qw, qx, qy, qz) :=
    if lx ≥ᶠ lit 0 then magQuaternionPos lx ly gamma else magQuaternionNeg lx ly gamma
  let magQuat ← liftL (exec magQuat (Quat.fillq qw qx qy qz))
  .ok (accQuat, magQuat)

theorem updateAm_eq (ax ay az : F) (mLocal accQuat magQuat : Vec F) (temp : Mat F) :
    updateAm ax ay az mLocal accQuat magQuat temp =
      ((liftM (amQuats ax ay az mLocal accQuat magQuat temp) : Op AhrsError (Aqua F) _) >>= fun t =>
        onAttitude (Quat.mul t.1 t.2)) := by
  unfold amQuats updateAm
  simp only [liftM_assoc, liftM_ok]

/-- Both partial quaternions from the corrected readings. -/
def amBoth (p q r u v w : F) : Res AhrsError (Vec F × Vec F) := do
  let t ← sensed p q r u v w
  amQuats t.2.1.1 t.2.1.2.1 t.2.1.2.2 t.2.2.1 t.2.2.2.1 t.2.2.2.2.1 t.2.2.2.2.2

/-- Storing a product and normalising it. -/
def finish (a b : Vec F) : Op AhrsError (Aqua F) Unit := do
  onAttitude (Quat.mul a b)
  onAttitude Vec.normalize

theorem Ready.am_eq (h : Ready s) (hmode : s.mode = .AM)
    (ha : Accelerometer.update ax ay az s.acc = (.ok (), A))
    (hm : Magnetometer.update mx my mz s.mag = (.ok (), M)) (h1 : A.getX = .ok p) (h2 : A.getY = .ok q)
    (h3 : A.getZ = .ok r) (h4 : M.getX = .ok u) (h5 : M.getY = .ok v) (h6 : M.getZ = .ok w) :
    Aqua.update gx gy gz ax ay az mx my mz s =
      ((liftM (amBoth p q r u v w) : Op AhrsError (Aqua F) _) >>= fun t => finish t.1 t.2)
        { s with acc := A, mag := M } := by
  rw [h.am_run hmode ha hm h1 h2 h3 h4 h5 h6]
  unfold amBoth finish
  simp only [updateAm_eq, liftM_assoc]
  rw [Op.liftM_bind_run, Op.liftM_bind_run]
  rcases sensed p q r u v w with e | t
  · rfl
  · simp only
    rw [Op.liftM_bind_run, Op.bind_run, Op.liftM_bind_run]
    rcases amQuats t.2.1.1 t.2.1.2.1 t.2.1.2.2 t.2.2.1 t.2.2.2.1 t.2.2.2.2.1 t.2.2.2.2.2 with e | t
    · rfl
    · rfl

theorem finish_run (a b : Vec F) (s : Aqua F) : finish a b s =
    (liftL ((Quat.mul a b >>= fun _ => Vec.normalize) s.attitude).1,
      { s with attitude := ((Quat.mul a b >>= fun _ => Vec.normalize) s.attitude).2 }) := by
  have e : finish a b = fieldOp (fun t : Aqua F => t.attitude) (fun v t => { t with attitude := v })
      (Quat.mul a b >>= fun _ => Vec.normalize) :=
    fieldOp_bind (get := fun t : Aqua F => t.attitude) (put := fun v t => { t with attitude := v })
      (m' := fun _ => Vec.normalize) (fun _ _ => rfl) (fun _ _ _ => rfl)
  rw [e, fieldOp, Op.zoom_run, Op.mapErr_run]

theorem finish_exec {s s' : Aqua F} {a b : Vec F} (h : finish a b s = (.ok (), s')) :
    ∃ v, exec s.attitude (Quat.mul a b >>= fun _ => Vec.normalize) = .ok v ∧
      s' = { s with attitude := v } := by
  rw [finish_run] at h
  rcases hr : (Quat.mul a b >>= fun _ => Vec.normalize) s.attitude with ⟨(e | _) | ⟨⟩, v⟩
  · rw [hr] at h
    cases congrArg Prod.fst h
  · rw [hr] at h
    cases congrArg Prod.fst h
  · rw [hr] at h
    exact ⟨v, exec_ok hr, (congrArg Prod.snd h).symm⟩

theorem exec_finish {s : Aqua F} {a b v : Vec F}
    (h : exec s.attitude (Quat.mul a b >>= fun _ => Vec.normalize) = .ok v) :
    finish a b s = (.ok (), { s with attitude := v }) := by
  obtain ⟨⟨⟩, h⟩ := exec_eq_ok h
  rw [finish_run, h]
  rfl

theorem exec_bind {ε σ : Type} (s : σ) (m : Op ε σ Unit) (k : Op ε σ Unit) :
    exec s (m >>= fun _ => k) = (exec s m >>= fun t => exec t k) := by
  unfold exec
  rw [Op.bind_run]
  rcases m s with ⟨e | a, t⟩ <;> rfl

/-- An accepted AM update tells that both samples were accepted. -/
theorem Ready.am_accepted {t : Aqua F} (h : Ready s) (hmode : s.mode = .AM)
    (hu : Aqua.update gx gy gz ax ay az mx my mz s = (.ok (), t)) :
    ∃ A M, Accelerometer.update ax ay az s.acc = (.ok (), A) ∧
      Magnetometer.update mx my mz s.mag = (.ok (), M) := by
  unfold Aqua.update at hu
  rw [Op.get_bind, if_neg (by rw [h.initialized]; decide), hmode] at hu
  simp only at hu
  rw [Op.bind_ok (show (pure () : Op AhrsError (Aqua F) Unit) s = (.ok (), s) from rfl)] at hu
  rcases ha : Accelerometer.update ax ay az s.acc with ⟨e | ⟨⟩, A⟩
  · rw [Op.bind_err (onAcc_run ha)] at hu
    cases congrArg Prod.fst hu
  · rw [Op.bind_ok (onAcc_run ha)] at hu
    rcases hm : Magnetometer.update mx my mz s.mag with ⟨e | ⟨⟩, M⟩
    · rw [Op.bind_err (onMag_run (s := { s with acc := A }) hm)] at hu
      cases congrArg Prod.fst hu
    · exact ⟨A, M, rfl, rfl⟩

end
end Aqua

section
variable [ScalarLawful F] {s s' t : Aqua F} {a b : AquaInit F}

/-- C53: in the AM mode an update uses neither the angular rates nor the attitude before: two filters
whose accelerometers and magnetometers are configured alike reach the same attitude from the same
samples. -/
theorem C53_am (hs : Started a s) (hs' : Started b s') (ha : a.mode = .AM) (hb : b.mode = .AM)
    {c : AccelerometerConfig F} {d : MagnetometerConfig F} (hc : s.getAccelerometerConfig = .ok c)
    (hc' : s'.getAccelerometerConfig = .ok c) (hd : s.getMagnetometerConfig = .ok d)
    (hd' : s'.getMagnetometerConfig = .ok d) {gx gy gz gx' gy' gz' : Option F} {ax ay az mx my mz : F}
    (hu : update gx gy gz ax ay az mx my mz s = (.ok (), t)) :
    ∃ t', update gx' gy' gz' ax ay az mx my mz s' = (.ok (), t') ∧ getAttitude t' = getAttitude t := by
  obtain ⟨h, k⟩ := hs.ready
  obtain ⟨h', k'⟩ := hs'.ready
  obtain ⟨A, M, ea, em⟩ := h.am_accepted (k.mode.trans ha) hu
  have ea' : (Accelerometer.update ax ay az s'.acc).1 = .ok () :=
    (C43_acc_iff h'.acc hc').mpr ((C43_acc_iff h.acc hc).mp (by rw [ea]))
  have em' : (Magnetometer.update mx my mz s'.mag).1 = .ok () :=
    (C43_mag_iff h'.mag hd').mpr ((C43_mag_iff h.mag hd).mp (by rw [em]))
  have ea2 : Accelerometer.update ax ay az s'.acc = (.ok (), (Accelerometer.update ax ay az s'.acc).2) := by
    exact Prod.ext ea' rfl
  have em2 : Magnetometer.update mx my mz s'.mag = (.ok (), (Magnetometer.update mx my mz s'.mag).2) := by
    exact Prod.ext em' rfl
  obtain ⟨-, a1, a2, a3, -⟩ := C43_acc_formula h.acc hc ea
  obtain ⟨-, b1, b2, b3, -⟩ := C43_acc_formula h'.acc hc' ea2
  obtain ⟨-, m1, m2, m3, -⟩ := C43_mag_formula h.mag hd em
  obtain ⟨-, n1, n2, n3, -⟩ := C43_mag_formula h'.mag hd' em2
  rw [h.am_eq (k.mode.trans ha) ea em a1 a2 a3 m1 m2 m3] at hu
  rw [h'.am_eq (k'.mode.trans hb) ea2 em2 b1 b2 b3 n1 n2 n3]
  generalize amBoth (F := F) _ _ _ _ _ _ = both at hu ⊢
  rcases both with e | ⟨q1, q2⟩
  · cases congrArg Prod.fst hu
  · rw [Op.liftOk_bind] at hu ⊢
    obtain ⟨v, e1, rfl⟩ := finish_exec hu
    have e2 : exec s'.attitude (Quat.mul q1 q2 >>= fun _ => Vec.normalize) = .ok v := by
      rw [exec_bind] at e1 ⊢
      rw [mul_same h'.attitude h.attitude]
      exact e1
    refine ⟨_, exec_finish (s := { s' with acc := _, mag := _ }) (by exact e2), ?_⟩
    unfold getAttitude
    simp only [h.initialized, h'.initialized]

end
/-! ### Concrete cases -/

/-- The arguments of an `init` with unit calibration. -/
def Aqua.plain (mode : AquaMode) (qw qx : Option XQ) : AquaInit XQ where
  mode := mode
  qw := qw
  qx := qx
  qy := qx
  qz := qx
  gyrometerConfig := some .default
  accelerometerConfig := .default
  magnetometerConfig := .default
  ts := .fin (1 / 100)
  adaptive := false
  alpha := .fin (1 / 2)
  beta := .fin (1 / 2)
  t1 := .fin (1 / 10)
  t2 := .fin (1 / 5)
  tAcc := .fin (9 / 10)
  tMag := .fin (9 / 10)
  g := none
  h := none

/-- A case of `C52_iff`, `C52_attitude` and `C52_once`. -/
example : (do
    let s ← (Aqua.new : Res AhrsError (Aqua XQ))
    let (r1, s1) := Aqua.init (Aqua.plain .MARG (some (.fin 2)) (some (.fin 3))) s
    let (r2, s2) := Aqua.init (Aqua.plain .AM none none) s1
    let v ← Aqua.getAttitude s2
    .ok ([r1, r2], [← liftL (v.getElement 0), ← liftL (v.getElement 1), ← liftL (v.getElement 2),
      ← liftL (v.getElement 3)])) =
    (.ok ([.ok (), .error (.err .AquaFilterAlreadyInit)], [.fin 2, .fin 3, .fin 3, .fin 3]) :
      Res AhrsError (List (Res AhrsError Unit) × List XQ)) := by
  decide +kernel

/-- A case of `C52_permanent`: after an `init` with half a quaternion, or without a gyrometer configuration
in the MARG mode, nothing works any more. -/
example : (do
    let s ← (Aqua.new : Res AhrsError (Aqua XQ))
    let (r1, s1) := Aqua.init (Aqua.plain .AM (some (.fin 1)) none) s
    let (r2, s2) := Aqua.init (Aqua.plain .AM none none) s1
    let (r3, s3) := Aqua.update none none none (.fin 0) (.fin 0) (.fin (-1)) (.fin 1) (.fin 0) (.fin 0) s2
    let (r4, s4) := Aqua.init { Aqua.plain .MARG none none with gyrometerConfig := none } s
    let (r5, _) := Aqua.init (Aqua.plain .MARG none none) s4
    .ok [r1, r2, r3, Aqua.getAttitude s3 >>= fun _ => .ok (), r4, r5]) =
    (.ok [.error (.err .InvalidInitQuaternion), .error (.err (.LinalgError .AlreadyInit)),
      .error (.err .AquaFilterNotInit), .error (.err .AquaFilterNotInit), .error (.err .NoGyroconfig),
      .error (.err (.LinalgError .AlreadyInit))] : Res AhrsError (List (Res AhrsError Unit))) := by
  decide +kernel

/-- A case of `C53_missing` and `C53_incomplete`; the AM case is in `Verif.Props.AquaCases`. -/
example : (do
    let s ← (Aqua.new : Res AhrsError (Aqua XQ))
    let (r1, s1) := Aqua.init (Aqua.plain .MARG none none) s
    let (r2, s2) := Aqua.update none none none (.fin 0) (.fin 0) (.fin (-1)) (.fin 1) (.fin 0) (.fin 0) s1
    let (r3, _) := Aqua.update (some (.fin 1)) none (some (.fin 2)) (.fin 0) (.fin 0) (.fin (-1)) (.fin 1) (.fin 0)
      (.fin 0) s2
    .ok [r1, r2, r3]) =
    (.ok [.ok (), .error (.err .NoGyroRawMeasurements), .error (.err .InvalidGyroRawMeasurements)] :
      Res AhrsError (List (Res AhrsError Unit))) := by
  decide +kernel

end Verif
