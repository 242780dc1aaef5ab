import Verif.Props.AquaAngles

/-
AQUA: the adaptive gain (C127).
-/

set_option linter.unusedSectionVars false

namespace Verif
open Scalar Finset

namespace Aqua

section
variable {F : Type} [Scalar F]

/-- The same filter with a constant gain. -/
def fixedGain (γ : F) (s : Aqua F) : Aqua F := { s with adaptive := false, alpha := γ }

/-- A method does the same to a filter and to the one with a constant gain. -/
def Alike {α : Type} (γ : F) (s : Aqua F) (m : Op AhrsError (Aqua F) α) : Prop :=
  m (fixedGain γ s) = ((m s).1, fixedGain γ (m s).2) ∧ (s.alpha = γ → (m s).2.alpha = γ)

theorem Alike.bind {α β : Type} {γ : F} {s : Aqua F} {m : Op AhrsError (Aqua F) α} {f : α → Op AhrsError (Aqua F) β}
    (h : Alike γ s m) (k : ∀ a s', m s = (.ok a, s') → Alike γ s' (f a)) : Alike γ s (m >>= f) := by
  unfold Alike at *
  obtain ⟨h1, h2⟩ := h
  rw [Op.bind_run, Op.bind_run, h1]
  rcases e : m s with ⟨e' | a, s'⟩
  · rw [e] at h2
    exact ⟨rfl, h2⟩
  · rw [e] at h2
    exact ⟨(k a s' e).1, fun h => (k a s' e).2 (h2 h)⟩

theorem Alike.res {α : Type} {γ : F} {s : Aqua F} (r : Res AhrsError α) : Alike γ s (liftM r : Op AhrsError (Aqua F) α) := by
  rcases r with e | a <;> exact ⟨rfl, id⟩

theorem Alike.lift {α β : Type} {γ : F} {s : Aqua F} {r : Res AhrsError α} {f : α → Op AhrsError (Aqua F) β}
    (k : ∀ a, r = .ok a → Alike γ s (f a)) : Alike γ s ((liftM r : Op AhrsError (Aqua F) α) >>= f) := by
  rcases r with e | a
  · exact ⟨rfl, id⟩
  · exact k a rfl

theorem Alike.gyr {α : Type} {γ : F} {s : Aqua F} (m : Op AhrsError (Gyrometer F) α) : Alike γ s (onGyr m) := ⟨rfl, id⟩
theorem Alike.acc {α : Type} {γ : F} {s : Aqua F} (m : Op AhrsError (Accelerometer F) α) : Alike γ s (onAcc m) := ⟨rfl, id⟩
theorem Alike.mag {α : Type} {γ : F} {s : Aqua F} (m : Op AhrsError (Magnetometer F) α) : Alike γ s (onMag m) := ⟨rfl, id⟩
theorem Alike.att {α : Type} {γ : F} {s : Aqua F} (m : Op LinalgError (Vec F) α) : Alike γ s (onAttitude m) := ⟨rfl, id⟩

theorem Alike.fail {α : Type} {γ : F} {s : Aqua F} (e : AhrsError) : Alike γ s (Op.fail e : Op AhrsError (Aqua F) α) := ⟨rfl, id⟩

theorem Alike.tail {γ : F} {s : Aqua F} (mL mQ : Vec F) (T : Mat F) : Alike γ s (margTail mL mQ T) := by
  unfold margTail
  unfold Alike
  rw [Op.get_bind, Op.get_bind]
  exact Alike.lift (s := s) (r := margMag s.attitude s.beta s.tMag mL mQ T) (f := fun u => onAttitude (Quat.mul u.2 u.1))
    fun u _ => Alike.att _

theorem Alike.marg {γ : F} {s : Aqua F} {aL mL aQ mQ : Vec F} {T : Mat F} (h : newGain s aL = .ok γ) :
    Alike γ s (updateMarg aL mL aQ mQ T) := by
  unfold Alike
  rw [updateMarg_eq, updateMarg_eq, h, show newGain (fixedGain γ s) aL = .ok γ from rfl,
    show margAcc (fixedGain γ s) aL aQ T = margAcc s aL aQ T from rfl]
  rcases margAcc s aL aQ T with e | t
  · exact ⟨rfl, id⟩
  · have k : Alike γ { s with alpha := γ } ((liftM (interpolate t.2.2 γ s.tAcc) : Op AhrsError (Aqua F) _) >>= fun accI =>
        onAttitude (Quat.mul t.1 accI) >>= fun _ => margTail mL mQ t.2.1) :=
      Alike.lift fun u _ => Alike.bind (Alike.att _) fun _ _ _ => Alike.tail _ _ _
    exact ⟨k.1, fun _ => k.2 rfl⟩

/-- The acceleration is taken with the gain `γ`. -/
def GainIs (γ : F) (s : Aqua F) (ax ay az : F) : Prop :=
  ∀ A p q r v, Accelerometer.update ax ay az s.acc = (.ok (), A) → A.getX = .ok p → A.getY = .ok q → A.getZ = .ok r →
    vector3 p q r = .ok v → newGain s v = .ok γ

theorem Alike.update {γ : F} {s : Aqua F} {gx gy gz : Option F} {ax ay az mx my mz : F} (hmode : s.mode = .MARG)
    (h : GainIs γ s ax ay az) : Alike γ s (update gx gy gz ax ay az mx my mz) := by
  unfold Aqua.update

  unfold Alike
  rw [Op.get_bind, Op.get_bind, show (fixedGain γ s).initialized = s.initialized from rfl, show (fixedGain γ s).mode = s.mode from rfl, hmode]
  by_cases hi : (!s.initialized) = true
  · rw [if_pos hi]; exact ⟨rfl, id⟩
  rw [if_neg hi]
  refine Alike.bind (s := s) (m := updateGyr gx gy gz) ?_ fun _ s1 e1 => Alike.bind (Alike.acc _) fun _ s2 e2 =>
    Alike.bind (Alike.mag _) fun _ s3 e3 => ?_
  · unfold updateGyr
    split <;> exact ⟨rfl, id⟩
  have hs1 : s1.acc = s.acc ∧ s1.mode = s.mode ∧ s1.adaptive = s.adaptive ∧ s1.alpha = s.alpha ∧ s1.t1 = s.t1 ∧ s1.t2 = s.t2 ∧ s1.g = s.g := by
    unfold updateGyr at e1
    split at e1
    · obtain rfl := congrArg Prod.snd e1
      exact ⟨rfl, rfl, rfl, rfl, rfl, rfl, rfl⟩
    · cases congrArg Prod.fst e1
    · cases congrArg Prod.fst e1
  unfold Alike
  rw [Op.get_bind, Op.get_bind]
  have hA : Accelerometer.update ax ay az s.acc = (.ok (), s3.acc) := by
    obtain rfl := congrArg Prod.snd e3
    obtain rfl := congrArg Prod.snd e2
    rw [← hs1.1]
    exact Prod.ext (show (onAcc (Accelerometer.update ax ay az) s1).1 = _ from congrArg Prod.fst e2) rfl
  have hs3 : s3.mode = s1.mode ∧ s3.adaptive = s1.adaptive ∧ s3.alpha = s1.alpha ∧ s3.t1 = s1.t1 ∧ s3.t2 = s1.t2 ∧ s3.g = s1.g := by
    obtain rfl := congrArg Prod.snd e3
    obtain rfl := congrArg Prod.snd e2
    exact ⟨rfl, rfl, rfl, rfl, rfl, rfl⟩
  refine Alike.lift (s := s3) fun p k1 => Alike.lift fun q k2 => Alike.lift fun r k3 => Alike.lift fun v k4 => Alike.lift fun n k5 =>
    Alike.lift fun t k6 => ?_
  obtain ⟨x, y, z⟩ := t
  refine Alike.lift fun mx _ => Alike.lift fun my _ => Alike.lift fun mz _ => Alike.lift fun mL _ => Alike.lift fun mL _ =>
    Alike.lift fun aQ _ => Alike.lift fun mQ _ => Alike.lift fun T _ => ?_
  rw [show (fixedGain γ s3).mode = .MARG from hs3.1.trans (hs1.2.1.trans hmode)]
  refine Alike.bind (Alike.marg ?_) fun _ _ _ => Alike.att _
  rw [← h _ _ _ _ _ hA k1 k2 k3 k4]
  unfold newGain calculateAdaptativeGain
  obtain ⟨-, h1, h2, h3, h4, h5⟩ := hs3
  obtain ⟨-, -, i1, i2, i3, i4, i5⟩ := hs1
  rw [h1, h2, h3, h4, h5, i1, i2, i3, i4, i5]


/-- An update either stops at the readings or comes to the corrections. -/
theorem update_cases {s : Aqua F} {gx gy gz : Option F} {ax ay az mx my mz : F} (hmode : s.mode = .MARG) :
    (∃ e G A M, update gx gy gz ax ay az mx my mz s = (.error e, { s with gyr := G, acc := A, mag := M })) ∨
    ∃ G A M p q r v mL aQ mQ T, Accelerometer.update ax ay az s.acc = (.ok (), A) ∧ A.getX = .ok p ∧ A.getY = .ok q ∧
      A.getZ = .ok r ∧ vector3 p q r = .ok v ∧ update gx gy gz ax ay az mx my mz s =
        (updateMarg v mL aQ mQ T >>= fun _ => onAttitude Vec.normalize) { s with gyr := G, acc := A, mag := M } := by
  obtain ⟨s, rfl⟩ : ∃ s', s = { s' with mode := .MARG } := ⟨s, by rw [← hmode]⟩
  clear hmode
  unfold Aqua.update
  rw [Op.get_bind]
  simp only
  by_cases hi : (!s.initialized) = true
  · rw [if_pos hi]
    exact Or.inl ⟨_, s.gyr, s.acc, s.mag, rfl⟩
  rw [if_neg hi]
  rw [Op.bind_run]
  obtain ⟨e1, G, hG⟩ : ∃ e1 G, updateGyr gx gy gz { s with mode := .MARG } = (e1, { s with mode := .MARG, gyr := G }) := by
    unfold updateGyr
    split
    · exact ⟨_, _, rfl⟩
    · exact ⟨_, s.gyr, rfl⟩
    · exact ⟨_, s.gyr, rfl⟩
  rw [hG]
  rcases e1 with e | ⟨⟩
  · exact Or.inl ⟨e, G, s.acc, s.mag, rfl⟩
  simp only
  rw [Op.bind_run]
  rcases hA : Accelerometer.update ax ay az s.acc with ⟨e2, A⟩
  rw [show onAcc (Accelerometer.update ax ay az) { s with mode := .MARG, gyr := G } = (e2, { s with mode := .MARG, gyr := G, acc := A }) by
    unfold onAcc Op.zoom
    rw [hA]]
  rcases e2 with e | ⟨⟩
  · exact Or.inl ⟨e, G, A, s.mag, rfl⟩
  simp only
  rw [Op.bind_run]
  rcases hM : Magnetometer.update mx my mz s.mag with ⟨e3, M⟩
  rw [show onMag (Magnetometer.update mx my mz) { s with mode := .MARG, gyr := G, acc := A } = (e3, { s with mode := .MARG, gyr := G, acc := A, mag := M }) by
    unfold onMag Op.zoom
    rw [hM]]
  rcases e3 with e | ⟨⟩
  · exact Or.inl ⟨e, G, A, M, rfl⟩
  simp only
  rw [Op.get_bind]
  have stop : ∀ {α : Type} (r : Res AhrsError α) (f : α → Op AhrsError (Aqua F) Unit),
      (∃ e, ((liftM r : Op AhrsError (Aqua F) α) >>= f) { s with mode := .MARG, gyr := G, acc := A, mag := M } =
        (.error e, { s with mode := .MARG, gyr := G, acc := A, mag := M })) ∨
      ∃ a, r = .ok a ∧ ((liftM r : Op AhrsError (Aqua F) α) >>= f) { s with mode := .MARG, gyr := G, acc := A, mag := M } =
        f a { s with mode := .MARG, gyr := G, acc := A, mag := M } := fun r f => by
    rcases r with e | a
    · exact Or.inl ⟨e, rfl⟩
    · exact Or.inr ⟨a, rfl, rfl⟩
  obtain ⟨e, h⟩ | ⟨p, k1, h⟩ := stop A.getX _ <;> rw [h]
  · exact Or.inl ⟨e, G, A, M, rfl⟩
  obtain ⟨e, h⟩ | ⟨q, k2, h⟩ := stop A.getY _ <;> rw [h]
  · exact Or.inl ⟨e, G, A, M, rfl⟩
  obtain ⟨e, h⟩ | ⟨r, k3, h⟩ := stop A.getZ _ <;> rw [h]
  · exact Or.inl ⟨e, G, A, M, rfl⟩
  obtain ⟨e, h⟩ | ⟨v, k4, h⟩ := stop (vector3 p q r) _ <;> rw [h]
  · exact Or.inl ⟨e, G, A, M, rfl⟩
  obtain ⟨e, h⟩ | ⟨n, -, h⟩ := stop (liftL v.calculateNorm) _ <;> rw [h]
  · exact Or.inl ⟨e, G, A, M, rfl⟩
  obtain ⟨e, h⟩ | ⟨⟨x, y, z⟩, -, h⟩ := stop (if n >ᶠ EPSILON then do
        let x ← liftL (v.getElement 0)
        let y ← liftL (v.getElement 1)
        let z ← liftL (v.getElement 2)
        .ok (x /ᶠ n, y /ᶠ n, z /ᶠ n)
      else .ok (p, q, r) : Res AhrsError (F × F × F)) _ <;> rw [h]
  · exact Or.inl ⟨e, G, A, M, rfl⟩
  simp only
  obtain ⟨e, h⟩ | ⟨x, -, h⟩ := stop M.getX _ <;> rw [h]
  · exact Or.inl ⟨e, G, A, M, rfl⟩
  obtain ⟨e, h⟩ | ⟨y, -, h⟩ := stop M.getY _ <;> rw [h]
  · exact Or.inl ⟨e, G, A, M, rfl⟩
  obtain ⟨e, h⟩ | ⟨z, -, h⟩ := stop M.getZ _ <;> rw [h]
  · exact Or.inl ⟨e, G, A, M, rfl⟩
  obtain ⟨e, h⟩ | ⟨m, -, h⟩ := stop (vector3 x y z) _ <;> rw [h]
  · exact Or.inl ⟨e, G, A, M, rfl⟩
  obtain ⟨e, h⟩ | ⟨mL, -, h⟩ := stop (liftL (exec m Vec.normalize)) _ <;> rw [h]
  · exact Or.inl ⟨e, G, A, M, rfl⟩
  obtain ⟨e, h⟩ | ⟨aQ, -, h⟩ := stop (liftL (exec (Vec.new (F := F)) (Vec.init 4))) _ <;> rw [h]
  · exact Or.inl ⟨e, G, A, M, rfl⟩
  obtain ⟨e, h⟩ | ⟨mQ, -, h⟩ := stop (liftL (exec (Vec.new (F := F)) (Vec.init 4))) _ <;> rw [h]
  · exact Or.inl ⟨e, G, A, M, rfl⟩
  obtain ⟨e, h⟩ | ⟨T, -, h⟩ := stop (liftL (exec (Mat.new (F := F)) (Mat.init 3 1))) _ <;> rw [h]
  · exact Or.inl ⟨e, G, A, M, rfl⟩
  exact Or.inr ⟨G, A, M, p, q, r, v, mL, aQ, mQ, T, rfl, k1, k2, k3, k4, rfl⟩

/-- A gain outside the unit interval is refused. -/
theorem interpolate_out {w : Vec F} {γ t : F} (h : ¬((lit 0 ≤ᶠ γ) = true ∧ (γ ≤ᶠ lit 1) = true)) (v : Vec F) :
    interpolate w γ t ≠ .ok v := by
  intro hv
  unfold interpolate at hv
  split at hv
  · cases hv
  obtain ⟨a, -, hv⟩ := AR.bind_inv hv
  obtain ⟨b, -, hv⟩ := AR.bind_inv hv
  obtain ⟨c, -, hv⟩ := AR.bind_inv hv
  obtain ⟨d, -, hv⟩ := AR.bind_inv hv
  split at hv
  · obtain ⟨x, e, hv⟩ := AR.bind_inv hv
    unfold exec at e
    rw [(C32_alpha c b w γ h).1] at e
    cases e
  · unfold exec at hv
    rw [(C32_alpha c b w γ h).2] at hv
    cases hv

/-- With a gain outside the unit interval an update fails and leaves the attitude. -/
theorem update_out {s : Aqua F} {γ : F} {gx gy gz : Option F} {ax ay az mx my mz : F} (hmode : s.mode = .MARG)
    (hg : GainIs γ s ax ay az) (h : ¬((lit 0 ≤ᶠ γ) = true ∧ (γ ≤ᶠ lit 1) = true)) :
    ∃ e s', update gx gy gz ax ay az mx my mz s = (.error e, s') ∧ s'.attitude = s.attitude ∧ (s.alpha = γ → s'.alpha = γ) := by
  obtain ⟨e, G, A, M, k⟩ | ⟨G, A, M, p, q, r, v, mL, aQ, mQ, T, k1, k2, k3, k4, k5, k⟩ := update_cases (gx := gx) (gy := gy)
    (gz := gz) (ax := ax) (ay := ay) (az := az) (mx := mx) (my := my) (mz := mz) hmode
  · exact ⟨e, _, k, rfl, id⟩
  · rw [k, Op.bind_run, updateMarg_eq, show newGain { s with gyr := G, acc := A, mag := M } v = .ok γ from hg _ _ _ _ _ k1 k2 k3 k4 k5]
    rcases margAcc { s with gyr := G, acc := A, mag := M } v aQ T with e | t
    · exact ⟨e, _, rfl, rfl, id⟩
    · simp only [liftM_ok]
      rw [modify_bind']
      rcases hI : interpolate t.2.2 γ s.tAcc with e | w
      · exact ⟨e, _, rfl, rfl, fun _ => rfl⟩
      · exact absurd hI (interpolate_out h w)

/-- A successful update stores the gain. -/
theorem update_alpha {s s' : Aqua F} {γ : F} {gx gy gz : Option F} {ax ay az mx my mz : F} (hmode : s.mode = .MARG)
    (hg : GainIs γ s ax ay az) (h : update gx gy gz ax ay az mx my mz s = (.ok (), s')) : s'.alpha = γ := by
  obtain ⟨e, G, A, M, k⟩ | ⟨G, A, M, p, q, r, v, mL, aQ, mQ, T, k1, k2, k3, k4, k5, k⟩ := update_cases (gx := gx) (gy := gy)
    (gz := gz) (ax := ax) (ay := ay) (az := az) (mx := mx) (my := my) (mz := mz) hmode
  · rw [k] at h
    cases congrArg Prod.fst h
  · have hn : newGain { s with gyr := G, acc := A, mag := M } v = .ok γ := hg _ _ _ _ _ k1 k2 k3 k4 k5
    obtain ⟨s1, hs1⟩ : ∃ s1, s1 = { s with gyr := G, acc := A, mag := M } := ⟨_, rfl⟩
    rw [← hs1] at hn k
    have hm : (updateMarg v mL aQ mQ T s1).1 = .ok () → (updateMarg v mL aQ mQ T s1).2.alpha = γ := by
      rw [updateMarg_eq, hn]
      rcases margAcc s1 v aQ T with e | t
      · intro h
        cases h
      · intro _
        have k : Alike γ { s1 with alpha := γ } ((liftM (interpolate t.2.2 γ s1.tAcc) : Op AhrsError (Aqua F) _) >>= fun accI =>
            onAttitude (Quat.mul t.1 accI) >>= fun _ => margTail mL mQ t.2.1) :=
          Alike.lift fun u _ => Alike.bind (Alike.att _) fun _ _ _ => Alike.tail _ _ _
        exact k.2 rfl
    rw [k, Op.bind_run] at h
    rcases e : updateMarg v mL aQ mQ T s1 with ⟨e' | a, s2⟩
    · rw [e] at h
      cases congrArg Prod.fst h
    · rw [e] at h hm
      have := (Alike.att (s := s2) (γ := γ) (Vec.normalize (F := F))).2 (hm rfl)
      have h' : onAttitude Vec.normalize s2 = (.ok (), s') := h
      rw [h'] at this
      exact this

/-- The relative deviation of the norm of the acceleration that is read is at most the first threshold. -/
def Calm (i : AquaInit F) (ca : AccelerometerConfig F) (ax ay az : F) : Prop :=
  ∀ p q r v n, Accelerometer.Reads ca ax ay az p q r → VecIs v 3 (seq3 p q r) → v.calculateNorm = .ok n →
    (Scalar.abs ((n -ᶠ i.g.getD (lit (981 / 100))) /ᶠ i.g.getD (lit (981 / 100))) ≤ᶠ i.t1) = true

/-- The relative deviation of the norm of the acceleration that is read reaches the second threshold, and exceeds the first. -/
def Wild (i : AquaInit F) (ca : AccelerometerConfig F) (ax ay az : F) : Prop :=
  ∀ p q r v n, Accelerometer.Reads ca ax ay az p q r → VecIs v 3 (seq3 p q r) → v.calculateNorm = .ok n →
    (Scalar.abs ((n -ᶠ i.g.getD (lit (981 / 100))) /ᶠ i.g.getD (lit (981 / 100))) ≤ᶠ i.t1) = false ∧
    (Scalar.abs ((n -ᶠ i.g.getD (lit (981 / 100))) /ᶠ i.g.getD (lit (981 / 100))) <ᶠ i.t2) = false

variable [ScalarLawful F] {i : AquaInit F} {s : Aqua F} {ca : AccelerometerConfig F}

theorem vector3_ok {x y z : F} (hx : Finite x) (hy : Finite y) (hz : Finite z) :
    ∃ v : Vec F, vector3 x y z = .ok v ∧ VecIs v 3 (seq3 x y z) := by
  obtain ⟨v1, v2, v3, e1, e2, e3, h⟩ := AR.vector3 hx hy hz
  refine ⟨v3, ?_, h⟩
  unfold vector3
  simp only [Vec.init_new (F := F) (n := 3) (by omega) (by omega), e1, e2, e3, Res.mapErr_ok, Res.ok_bind]


theorem Calm.gain {ax ay az : F} (h : Calm i ca ax ay az) (hr : Ready s) (hk : Settings i s)
    (hca : s.getAccelerometerConfig = .ok ca) (ht : (i.t2 ≤ᶠ i.t1) = false) : GainIs s.alpha s ax ay az := by
  intro A p q r v e h1 h2 h3 hv
  have hR : Accelerometer.Reads ca ax ay az p q r := ⟨s.acc, A, hr.acc, hca, e, h1, h2, h3⟩
  obtain ⟨-, l1, l2, l3, -⟩ := C43_acc_formula hr.acc hca e
  obtain ⟨-, -, k1, k2, k3⟩ := (C43_acc_iff hr.acc hca).mp (congrArg Prod.fst e)
  obtain rfl := Except.ok.inj (l1.symm.trans h1)
  obtain rfl := Except.ok.inj (l2.symm.trans h2)
  obtain rfl := Except.ok.inj (l3.symm.trans h3)
  obtain ⟨v', e', hv'⟩ := vector3_ok k1.2.2 k2.2.2 k3.2.2
  rw [hv] at e'
  obtain rfl := Except.ok.inj e'
  unfold newGain
  rcases s.adaptive
  · rfl
  · obtain ⟨n, hn⟩ : ∃ n, v.calculateNorm = .ok n := by
      rw [Vec.calculateNorm_eq hv']
      split <;> exact ⟨_, rfl⟩
    have := h _ _ _ v n hR hv' hn
    simp only [if_true]
    unfold calculateAdaptativeGain
    rw [hk.t2, hk.t1, hk.g, ht, hn]
    show (Except.ok (if _ then _ else _) : Res AhrsError F) = _
    rw [this]
    rfl

theorem Wild.gain {ax ay az : F} (h : Wild i ca ax ay az) (hr : Ready s) (hk : Settings i s)
    (hca : s.getAccelerometerConfig = .ok ca) (had : i.adaptive = true) (ht : (i.t2 ≤ᶠ i.t1) = false) : GainIs (lit 0) s ax ay az := by
  intro A p q r v e h1 h2 h3 hv
  have hR : Accelerometer.Reads ca ax ay az p q r := ⟨s.acc, A, hr.acc, hca, e, h1, h2, h3⟩
  obtain ⟨-, l1, l2, l3, -⟩ := C43_acc_formula hr.acc hca e
  obtain ⟨-, -, k1, k2, k3⟩ := (C43_acc_iff hr.acc hca).mp (congrArg Prod.fst e)
  obtain rfl := Except.ok.inj (l1.symm.trans h1)
  obtain rfl := Except.ok.inj (l2.symm.trans h2)
  obtain rfl := Except.ok.inj (l3.symm.trans h3)
  obtain ⟨v', e', hv'⟩ := vector3_ok k1.2.2 k2.2.2 k3.2.2
  rw [hv] at e'
  obtain rfl := Except.ok.inj e'
  obtain ⟨n, hn⟩ : ∃ n, v.calculateNorm = .ok n := by
    rw [Vec.calculateNorm_eq hv']
    split <;> exact ⟨_, rfl⟩
  obtain ⟨x1, x2⟩ := h _ _ _ v n hR hv' hn
  unfold newGain calculateAdaptativeGain
  simp only [hk.adaptive.trans had, if_true, hk.t1, hk.t2, hk.g, ht, hn, Res.mapErr_ok, Res.ok_bind, Bool.false_eq_true, if_false, x1, x2,
    Bool.and_false]

theorem last_bind {α : Type} {γ : F} {s : Aqua F} {m : Op AhrsError (Aqua F) α} {f g : α → Op AhrsError (Aqua F) Unit}
    (k : ∀ a s', (f a s').1 = .ok () → g a s' = (.ok (), fixedGain γ (f a s').2) ∧ (f a s').2.alpha = γ)
    (h : ((m >>= f) s).1 = .ok ()) : (m >>= g) s = (.ok (), fixedGain γ ((m >>= f) s).2) ∧ ((m >>= f) s).2.alpha = γ := by
  revert h
  rw [Op.bind_run, Op.bind_run]
  rcases m s with ⟨e | a, s'⟩
  · intro h
    cases h
  · exact k a s'

theorem init_fixed (a : AquaInit F) (s : Aqua F) (h : (init a s).1 = .ok ()) :
    init { a with adaptive := false } s = (.ok (), fixedGain a.alpha (init a s).2) ∧ (init a s).2.alpha = a.alpha := by
  unfold init at h ⊢
  refine last_bind (fun self s h => ?_) h
  rcases hi : self.initialized
  · rw [hi] at h
    exact last_bind (fun _ s h => last_bind (fun _ s h => last_bind (fun _ s h => last_bind (fun _ s h =>
      last_bind (fun _ s h => ⟨rfl, rfl⟩) h) h) h) h) h
  · rw [hi] at h
    cases h

/-- C127: an adaptive MARG filter and one with a constant gain that have been initialised alike, in every arithmetic. As long
as the deviation of every acceleration is at most the first threshold, which is below the second one, they give the same
answers and the same attitudes, whatever the readings, valid or not. -/
theorem C127_same {s0 : Aqua F} {S S' : ℕ → Aqua F} {y : ℕ → Readings F} (h0 : Reachable s0) (hi : init i s0 = (.ok (), S 0))
    (hi' : init { i with adaptive := false } s0 = (.ok (), S' 0)) (hmode : i.mode = .MARG) (ht : (i.t2 ≤ᶠ i.t1) = false)
    (hS : ∀ j, S (j + 1) = (take (y j) (S j)).2) (hS' : ∀ j, S' (j + 1) = (take (y j) (S' j)).2)
    (hc : ∀ j, Calm i i.accelerometerConfig (y j).ax (y j).ay (y j).az) (j : ℕ) :
    (take (y j) (S j)).1 = (take (y j) (S' j)).1 ∧ getAttitude (S j) = getAttitude (S' j) := by
  have hs : Started i (S 0) := ⟨s0, S 0, h0, hi, .refl _⟩
  obtain ⟨-, -, hca, -⟩ := C52_attitude h0 hi
  have key : ∀ j, Ready (S j) ∧ Settings i (S j) ∧ (S j).getAccelerometerConfig = .ok i.accelerometerConfig ∧
      (S j).alpha = i.alpha ∧ S' j = fixedGain i.alpha (S j) := by
    intro j
    induction j with
    | zero =>
      obtain ⟨k1, k2⟩ := init_fixed i s0 (congrArg Prod.fst hi)
      rw [hi', hi] at k1
      rw [hi] at k2
      exact ⟨hs.ready.1, hs.ready.2, hca, k2, congrArg Prod.snd k1⟩
    | succ j ih =>
      obtain ⟨h1, h2, h3, h4, h5⟩ := ih
      have hg := (hc j).gain h1 h2 h3 ht
      rw [h4] at hg
      obtain ⟨k1, k2⟩ := Alike.update (gx := some (y j).gx) (gy := some (y j).gy) (gz := some (y j).gz) (mx := (y j).mx)
        (my := (y j).my) (mz := (y j).mz) (h2.mode.trans hmode) hg
      have hstep := frame_update (some (y j).gx) (some (y j).gy) (some (y j).gz) (y j).ax (y j).ay (y j).az (y j).mx (y j).my (y j).mz (S j)
      rw [hS, hS', h5]
      exact ⟨h1.step hstep, h2.step hstep, (hstep.acc h1.acc).2.2.trans h3, k2 h4, congrArg Prod.snd k1⟩
  obtain ⟨h1, h2, h3, h4, h5⟩ := key j
  have hg := (hc j).gain h1 h2 h3 ht
  rw [h4] at hg
  obtain ⟨k1, -⟩ := Alike.update (gx := some (y j).gx) (gy := some (y j).gy) (gz := some (y j).gz) (mx := (y j).mx)
    (my := (y j).my) (mz := (y j).mz) (h2.mode.trans hmode) hg
  rw [h5]
  exact ⟨(congrArg Prod.fst k1).symm, rfl⟩

theorem last_bind_gain {α : Type} {γ : F} {s : Aqua F} {m : Op AhrsError (Aqua F) α} {f g : α → Op AhrsError (Aqua F) Unit}
    (k : ∀ a s', (f a s').1 = .ok () → g a s' = (.ok (), fixedGain γ (f a s').2))
    (h : ((m >>= f) s).1 = .ok ()) : (m >>= g) s = (.ok (), fixedGain γ ((m >>= f) s).2) := by
  revert h
  rw [Op.bind_run, Op.bind_run]
  rcases m s with ⟨e | a, s'⟩
  · intro h
    cases h
  · exact k a s'

theorem init_gain (a : AquaInit F) (γ : F) (s : Aqua F) (h : (init a s).1 = .ok ()) :
    init { a with adaptive := false, alpha := γ } s = (.ok (), fixedGain γ (init a s).2) := by
  unfold init at h ⊢
  refine last_bind_gain (fun self s h => ?_) h
  rcases hi : self.initialized
  · rw [hi] at h
    exact last_bind_gain (fun _ s h => last_bind_gain (fun _ s h => last_bind_gain (fun _ s h => last_bind_gain (fun _ s h =>
      last_bind_gain (fun _ s h => rfl) h) h) h) h) h
  · rw [hi] at h
    cases h

/-- C127: an adaptive MARG filter whose first acceleration deviates by the second threshold or more, in every arithmetic. If
that update succeeds, the filter gives the same answers and the same attitudes as one with the constant gain 0, whatever the
readings, as long as no deviation lies between the thresholds: the tilt is never corrected. -/
theorem C127_off {s0 : Aqua F} {S S' : ℕ → Aqua F} {y : ℕ → Readings F} (h0 : Reachable s0) (hi : init i s0 = (.ok (), S 0))
    (hi' : init { i with adaptive := false, alpha := lit 0 } s0 = (.ok (), S' 0)) (hmode : i.mode = .MARG) (had : i.adaptive = true)
    (ht : (i.t2 ≤ᶠ i.t1) = false)
    (hS : ∀ j, S (j + 1) = (take (y j) (S j)).2) (hS' : ∀ j, S' (j + 1) = (take (y j) (S' j)).2)
    (h1 : Wild i i.accelerometerConfig (y 0).ax (y 0).ay (y 0).az) (hok : (take (y 0) (S 0)).1 = .ok ())
    (hc : ∀ j, Calm i i.accelerometerConfig (y j).ax (y j).ay (y j).az ∨ Wild i i.accelerometerConfig (y j).ax (y j).ay (y j).az)
    (j : ℕ) : (take (y j) (S j)).1 = (take (y j) (S' j)).1 ∧ getAttitude (S j) = getAttitude (S' j) := by
  have hs : Started i (S 0) := ⟨s0, S 0, h0, hi, .refl _⟩
  obtain ⟨-, -, hca, -⟩ := C52_attitude h0 hi
  have e0 : S' 0 = fixedGain (lit 0) (S 0) := by
    have k := init_gain i (lit 0) s0 (congrArg Prod.fst hi)
    rw [hi', hi] at k
    exact congrArg Prod.snd k
  have g0 := h1.gain hs.ready.1 hs.ready.2 hca had ht
  have key : ∀ j, Ready (S (j + 1)) ∧ Settings i (S (j + 1)) ∧ (S (j + 1)).getAccelerometerConfig = .ok i.accelerometerConfig ∧
      (S (j + 1)).alpha = lit 0 ∧ S' (j + 1) = fixedGain (lit 0) (S (j + 1)) := by
    intro j
    induction j with
    | zero =>
      have k1 := (Alike.update (gx := some (y 0).gx) (gy := some (y 0).gy) (gz := some (y 0).gz) (mx := (y 0).mx)
        (my := (y 0).my) (mz := (y 0).mz) (hs.ready.2.mode.trans hmode) g0).1
      have hstep := frame_update (some (y 0).gx) (some (y 0).gy) (some (y 0).gz) (y 0).ax (y 0).ay (y 0).az (y 0).mx (y 0).my (y 0).mz (S 0)
      have k2 := update_alpha (hs.ready.2.mode.trans hmode) g0 (s' := S 1) (Prod.ext hok (hS 0).symm)
      refine ⟨?_, ?_, ?_, k2, ?_⟩
      · rw [hS]; exact hs.ready.1.step hstep
      · rw [hS]; exact hs.ready.2.step hstep
      · rw [hS]; exact (hstep.acc hs.ready.1.acc).2.2.trans hca
      · rw [hS, hS', e0]; exact congrArg Prod.snd k1
    | succ j ih =>
      obtain ⟨h1, h2, h3, h4, h5⟩ := ih
      have hg : GainIs (lit 0) (S (j + 1)) (y (j + 1)).ax (y (j + 1)).ay (y (j + 1)).az := by
        rcases hc (j + 1) with hc | hc
        · have hg := hc.gain h1 h2 h3 ht
          rwa [h4] at hg
        · exact hc.gain h1 h2 h3 had ht
      obtain ⟨k1, k2⟩ := Alike.update (gx := some (y (j + 1)).gx) (gy := some (y (j + 1)).gy) (gz := some (y (j + 1)).gz)
        (mx := (y (j + 1)).mx) (my := (y (j + 1)).my) (mz := (y (j + 1)).mz) (h2.mode.trans hmode) hg
      have hstep := frame_update (some (y (j + 1)).gx) (some (y (j + 1)).gy) (some (y (j + 1)).gz) (y (j + 1)).ax (y (j + 1)).ay
        (y (j + 1)).az (y (j + 1)).mx (y (j + 1)).my (y (j + 1)).mz (S (j + 1))
      rw [hS, hS', h5]
      exact ⟨h1.step hstep, h2.step hstep, (hstep.acc h1.acc).2.2.trans h3, k2 h4, congrArg Prod.snd k1⟩
  rcases j with _ | j
  · rw [e0]
    have k1 := (Alike.update (gx := some (y 0).gx) (gy := some (y 0).gy) (gz := some (y 0).gz) (mx := (y 0).mx)
      (my := (y 0).my) (mz := (y 0).mz) (hs.ready.2.mode.trans hmode) g0).1
    exact ⟨(congrArg Prod.fst k1).symm, rfl⟩
  · obtain ⟨h1, h2, h3, h4, h5⟩ := key j
    have hg : GainIs (lit 0) (S (j + 1)) (y (j + 1)).ax (y (j + 1)).ay (y (j + 1)).az := by
      rcases hc (j + 1) with hc | hc
      · have hg := hc.gain h1 h2 h3 ht
        rwa [h4] at hg
      · exact hc.gain h1 h2 h3 had ht
    obtain ⟨k1, -⟩ := Alike.update (gx := some (y (j + 1)).gx) (gy := some (y (j + 1)).gy) (gz := some (y (j + 1)).gz)
      (mx := (y (j + 1)).mx) (my := (y (j + 1)).my) (mz := (y (j + 1)).mz) (h2.mode.trans hmode) hg
    rw [h5]
    exact ⟨(congrArg Prod.fst k1).symm, rfl⟩

end

section
variable {F : Type} [Scalar F] [R : Rounded F]

/-- The relative deviation of the norm in binary32. -/
theorem deviation_acc {n g : F} {N : ℝ} (hn : Finite n) (hN : |⟪n⟫ - N| ≤ 10 / 2 ^ 24 * N) (hg : Finite g)
    (g0 : 1 / 1000 ≤ ⟪g⟫) (g1 : ⟪g⟫ ≤ 2 ^ 60) (N0 : 0 ≤ N) (N1 : N ≤ 2 ^ 61) :
    Apx (Scalar.abs ((n -ᶠ g) /ᶠ g)) (|N - ⟪g⟫| / ⟪g⟫) ((1 + N / ⟪g⟫) / 10 ^ 6) := by
  have hη := rη_pos
  have hη' := rη_le
  obtain ⟨G, hG⟩ : ∃ G, G = ⟪g⟫ := ⟨_, rfl⟩
  rw [← hG] at g0 g1 ⊢
  have G0 : 0 < G := by linarith
  have k1 : Apx (n -ᶠ g) (N - G) (12 / 2 ^ 24 * (N + G)) := by
    refine (Apx.sub (B := N + G) ⟨hn, hN⟩ (hG ▸ Apx.exact hg) ?_ ?_).mono ?_
    · rw [abs_le]
      exact ⟨by linarith, by linarith⟩
    · norm_num at *
      linarith
    · norm_num at *
      linarith
  have c0 : 0 ≤ N / G := by positivity
  have c1 : N / G ≤ 2 ^ 61 * 1000 := by
    rw [div_le_iff₀ G0]
    nlinarith
  have e : (N + G) / G = 1 + N / G := by field_simp; ring
  have k2 : Apx ((n -ᶠ g) /ᶠ g) ((N - G) / G) ((1 + N / G) / 10 ^ 6) := by
    refine (Apx.div (m := G) (c := 1 + N / G) (E := 12 / 2 ^ 24 * (1 + N / G)) k1 (hG ▸ Apx.exact hg) le_rfl G0 ?_ ?_ ?_).mono ?_
    · rw [abs_div, abs_of_pos G0, ← e]
      gcongr
      rw [abs_le]
      exact ⟨by linarith, by linarith⟩
    · rw [mul_zero, add_zero, sub_zero, mul_assoc, ← e, div_mul_cancel₀ _ G0.ne']
    · norm_num at *
      linarith
    · norm_num at *
      linarith
  refine ⟨R.abs_finite k2.1, ?_⟩
  rw [R.abs_val k2.1, ← abs_of_pos G0, ← abs_div]
  rw [abs_of_pos G0]
  exact (abs_abs_sub_abs_le _ _).trans k2.2

theorem acc_deviation {ca : AccelerometerConfig F} {ax ay az x y z p q r n g : F} {v : Vec F} (hr : Accelerometer.Reads ca ax ay az x y z)
    {N : ℝ} (hN : N = norm3 ![⟪x⟫, ⟪y⟫, ⟪z⟫]) (N0 : 10001 / 10 ^ 8 < N) (N1 : N ≤ 2 ^ 61) (hg : Finite g) (g0 : 1 / 1000 ≤ ⟪g⟫)
    (g1 : ⟪g⟫ ≤ 2 ^ 60) (hR : Accelerometer.Reads ca ax ay az p q r) (hv : VecIs v 3 (seq3 p q r)) (hn : v.calculateNorm = .ok n) :
    Apx (Scalar.abs ((n -ᶠ g) /ᶠ g)) (|N - ⟪g⟫| / ⟪g⟫) ((1 + N / ⟪g⟫) / 10 ^ 6) := by
  have hf := hR.finite
  obtain ⟨c, c', h1, h2, h3, h4, h5, h6⟩ := hR
  obtain ⟨c2, k3, k4, k5, k6⟩ := hr.all h1 h2
  rw [h3] at k3
  obtain rfl := congrArg Prod.snd k3
  obtain rfl := Except.ok.inj (h4.symm.trans k4)
  obtain rfl := Except.ok.inj (h5.symm.trans k5)
  obtain rfl := Except.ok.inj (h6.symm.trans k6)
  have e : (norm2 3 fun i => ⟪seq3 p q r i⟫) = N := by
    rw [← norm_vval, hN, ← norm_pureQ]
    rfl
  obtain ⟨n', e', h | h | h⟩ := norm_cases hv (forall_lt_three.mpr hf)
  · rw [e] at h
    have : (2 : ℝ) ^ 61 ≤ 2 ^ 63 := by norm_num
    linarith [h.2]
  · rw [e] at h
    linarith [h.2.2]
  · rw [e] at h
    rw [hn] at e'
    obtain rfl := Except.ok.inj e'
    exact deviation_acc h.1 h.2.2.2.2 hg g0 g1 (by linarith) N1

/-- C127: when the norm of the acceleration deviates from the reference by less than the first threshold, with a margin of a
millionth of their sum, the filter takes the acceleration for undisturbed, in binary32. -/
theorem C127_calm {i : AquaInit F} {ca : AccelerometerConfig F} {ax ay az x y z : F} (hr : Accelerometer.Reads ca ax ay az x y z)
    {N G : ℝ} (hN : N = norm3 ![⟪x⟫, ⟪y⟫, ⟪z⟫]) (N0 : 10001 / 10 ^ 8 < N) (N1 : N ≤ 2 ^ 61)
    (hg : Finite (i.g.getD (lit (981 / 100)))) (hG : G = ⟪i.g.getD (lit (981 / 100))⟫) (g0 : 1 / 1000 ≤ G) (g1 : G ≤ 2 ^ 60)
    (ht : Finite i.t1) (h : |N - G| + (N + G) / 10 ^ 6 ≤ ⟪i.t1⟫ * G) : Calm i ca ax ay az := by
  intro p q r v n hR hv hn
  have k := acc_deviation hr hN N0 N1 hg (hG ▸ g0) (hG ▸ g1) hR hv hn
  rw [← hG] at k
  have G0 : 0 < G := by linarith
  refine (R.le_val k.1 ht).mpr ?_
  have := (abs_le.mp k.2).2
  have e : |N - G| / G + (1 + N / G) / 10 ^ 6 = (|N - G| + (N + G) / 10 ^ 6) / G := by
    field_simp
    ring
  have : (|N - G| + (N + G) / 10 ^ 6) / G ≤ ⟪i.t1⟫ := by
    rw [div_le_iff₀ G0]
    exact h
  linarith

/-- C127: in binary32, an acceleration whose norm `N` differs from the reference `G` by `t2 G` or more, with a margin. -/
theorem C127_wild {i : AquaInit F} {ca : AccelerometerConfig F} {ax ay az x y z : F} (hr : Accelerometer.Reads ca ax ay az x y z)
    {N G : ℝ} (hN : N = norm3 ![⟪x⟫, ⟪y⟫, ⟪z⟫]) (N0 : 10001 / 10 ^ 8 < N) (N1 : N ≤ 2 ^ 61)
    (hg : Finite (i.g.getD (lit (981 / 100)))) (hG : G = ⟪i.g.getD (lit (981 / 100))⟫) (g0 : 1 / 1000 ≤ G) (g1 : G ≤ 2 ^ 60)
    (ht1 : Finite i.t1) (ht2 : Finite i.t2) (ht : ⟪i.t1⟫ < ⟪i.t2⟫) (h : ⟪i.t2⟫ * G + (N + G) / 10 ^ 6 ≤ |N - G|) :
    Wild i ca ax ay az := by
  intro p q r v n hR hv hn
  have k := acc_deviation hr hN N0 N1 hg (hG ▸ g0) (hG ▸ g1) hR hv hn
  rw [← hG] at k
  have G0 : 0 < G := by linarith
  have := (abs_le.mp k.2).1
  have e : |N - G| / G - (1 + N / G) / 10 ^ 6 = (|N - G| - (N + G) / 10 ^ 6) / G := by
    field_simp
    ring
  have : ⟪i.t2⟫ ≤ (|N - G| - (N + G) / 10 ^ 6) / G := by
    rw [le_div_iff₀ G0]
    linarith
  constructor
  · rw [Bool.eq_false_iff]
    intro h
    have := (R.le_val k.1 ht1).mp h
    linarith
  · rw [Bool.eq_false_iff]
    intro h
    have := (R.lt_val k.1 ht2).mp h
    linarith

/-- C127: in binary32, an adaptive MARG filter and one with a constant gain that have been initialised alike give the same
answers and the same attitudes as long as the norm `N` of every acceleration differs from the reference `G` by at most
`t1 G`, less a margin of a millionth of `N + G`. -/
theorem C127_twin {i : AquaInit F} {s0 : Aqua F} {S S' : ℕ → Aqua F} {y : ℕ → Readings F} {N : ℕ → ℝ} {G : ℝ} (h0 : Reachable s0)
    (hi : init i s0 = (.ok (), S 0)) (hi' : init { i with adaptive := false } s0 = (.ok (), S' 0)) (hmode : i.mode = .MARG)
    (hS : ∀ j, S (j + 1) = (take (y j) (S j)).2) (hS' : ∀ j, S' (j + 1) = (take (y j) (S' j)).2)
    (hr : ∀ j, ∃ p q r, Accelerometer.Reads i.accelerometerConfig (y j).ax (y j).ay (y j).az p q r ∧ N j = norm3 ![⟪p⟫, ⟪q⟫, ⟪r⟫])
    (N0 : ∀ j, 10001 / 10 ^ 8 < N j) (N1 : ∀ j, N j ≤ 2 ^ 61)
    (hg : Finite (i.g.getD (lit (981 / 100)))) (hG : G = ⟪i.g.getD (lit (981 / 100))⟫) (g0 : 1 / 1000 ≤ G) (g1 : G ≤ 2 ^ 60)
    (ht1 : Finite i.t1) (ht2 : Finite i.t2) (ht : ⟪i.t1⟫ < ⟪i.t2⟫)
    (h : ∀ j, |N j - G| + (N j + G) / 10 ^ 6 ≤ ⟪i.t1⟫ * G) (j : ℕ) :
    (take (y j) (S j)).1 = (take (y j) (S' j)).1 ∧ getAttitude (S j) = getAttitude (S' j) := by
  refine C127_same h0 hi hi' hmode ?_ hS hS' (fun j => ?_) j
  · rw [Bool.eq_false_iff]
    intro h
    have := (R.le_val ht2 ht1).mp h
    linarith
  · obtain ⟨p, q, r, hr, e⟩ := hr j
    exact C127_calm hr e (N0 j) (N1 j) hg hG g0 g1 ht1 (h j)

/-- The gain after an acceleration whose deviation lies strictly between the thresholds is negative. -/
theorem gain_neg {γ t e : F} (hγ : Finite γ) (γ0 : 1 / 10 ^ 6 ≤ ⟪γ⟫) (γ1 : ⟪γ⟫ ≤ 1) (ht : Finite t) (t0 : 1 / 10 ^ 6 ≤ ⟪t⟫)
    (t1 : ⟪t⟫ ≤ 1) (he : Finite e) (h : ⟪t⟫ + 1 / 10 ^ 6 ≤ ⟪e⟫) (e1 : ⟪e⟫ ≤ 2 ^ 80) :
    Finite (γ *ᶠ (t -ᶠ e) /ᶠ t) ∧ ⟪γ *ᶠ (t -ᶠ e) /ᶠ t⟫ < 0 := by
  have hη := rη_pos
  have hη' := rη_le
  obtain ⟨E, hE⟩ : ∃ E, E = ⟪e⟫ - ⟪t⟫ := ⟨_, rfl⟩
  have E0 : 1 / 10 ^ 6 ≤ E := by linarith
  have E1 : E ≤ 2 ^ 80 := by linarith
  have k1 : Apx (t -ᶠ e) (-E) (E / 10 ^ 6) := by
    refine Apx.mono (show Apx (t -ᶠ e) (-E) _ from (show ⟪t⟫ - ⟪e⟫ = -E by linarith) ▸
      Apx.sub (B := E) (Apx.exact ht) (Apx.exact he) ?_ ?_) ?_
    · norm_num at *
      linarith
    · rw [show ⟪t⟫ - ⟪e⟫ = -E by linarith, abs_neg, abs_of_pos (lt_of_lt_of_le (by norm_num) E0)]
    · norm_num at *
      linarith
  have a1 := abs_le.mp k1.2
  have m1 : ⟪γ⟫ * ⟪t -ᶠ e⟫ ≤ -(8 / 10 ^ 13) := by
    have : 1 / 10 ^ 6 * (9 / 10 ^ 7) ≤ ⟪γ⟫ * (-⟪t -ᶠ e⟫) := mul_le_mul γ0 (by norm_num at *; linarith) (by norm_num) (by linarith)
    norm_num at *
    linarith
  have m2 : -(2 ^ 81) ≤ ⟪γ⟫ * ⟪t -ᶠ e⟫ := by
    have : ⟪γ⟫ * (-⟪t -ᶠ e⟫) ≤ 1 * 2 ^ 81 := mul_le_mul γ1 (by norm_num at *; linarith) (by norm_num at *; linarith) (by norm_num)
    norm_num at *
    linarith
  have f1 := R.mul_finite hγ k1.1 (by rw [abs_of_nonpos (by norm_num at *; linarith)]; norm_num at *; linarith)
  have b1 := abs_le.mp (R.mul_near hγ k1.1 f1).bound
  obtain ⟨M, hM⟩ : ∃ M, M = ⟪γ⟫ * ⟪t -ᶠ e⟫ := ⟨_, rfl⟩
  rw [← hM] at m1 m2 b1
  rw [abs_of_nonpos (show M ≤ 0 by norm_num at *; linarith)] at b1
  obtain ⟨P, hP⟩ : ∃ P, P = ⟪γ *ᶠ (t -ᶠ e)⟫ := ⟨_, rfl⟩
  rw [← hP] at b1
  have t0' : 0 < ⟪t⟫ := lt_of_lt_of_le (by norm_num) t0
  have P1 : P ≤ -(7 / 10 ^ 13) := by norm_num at *; linarith
  have P2 : -(2 ^ 82) ≤ P := by norm_num at *; linarith
  have q1 : P / ⟪t⟫ ≤ -(7 / 10 ^ 13) := by
    rw [div_le_iff₀ t0']
    nlinarith
  have q2 : -(2 ^ 103) ≤ P / ⟪t⟫ := by
    rw [le_div_iff₀ t0']
    norm_num at *
    linarith
  have f2 := R.div_finite f1 ht t0'.ne' (by rw [← hP, abs_of_nonpos (by norm_num at *; linarith)]; norm_num at *; linarith)
  have b2 := abs_le.mp (R.div_near f1 ht t0'.ne' f2).bound
  rw [← hP, abs_of_nonpos (show P / ⟪t⟫ ≤ 0 by norm_num at *; linarith)] at b2
  refine ⟨f2, ?_⟩
  generalize P / ⟪t⟫ = Q at *
  norm_num at *
  linarith

theorem interpolate_refused {w : Vec F} {h : Nat → F} (hw : VecIs w 4 h) {γ t : F} (ht : Finite t) (t0 : 0 ≤ ⟪t⟫) (t1 : ⟪t⟫ ≤ 1)
    (hγ : Finite γ) (γ0 : ⟪γ⟫ < 0) : interpolate w γ t = .error (.err (.LinalgError .InvalidAlpha)) := by
  have hin : Utils.inRange t (lit 0) (lit 1) = true := by
    unfold Utils.inRange
    rw [Bool.and_eq_true]
    exact ⟨(R.le_val R.zero_finite ht).mpr (by rw [R.zero_val]; exact t0), (R.le_val ht R.one_finite).mpr (by rw [R.one_val]; exact t1)⟩
  have hout : ¬((lit 0 ≤ᶠ γ) = true ∧ (γ ≤ᶠ lit 1) = true) := fun h => by
    have := (R.le_val R.zero_finite hγ).mp h.1
    rw [R.zero_val] at this
    linarith
  have hq : Quat.getQw w = .ok (h 0) :=
    Quat.getQw_eq (hw.congr (g := seq4 (h 0) (h 1) (h 2) (h 3)) (forall_lt_four.mpr ⟨rfl, rfl, rfl, rfl⟩))
  obtain ⟨d, e, -⟩ := identity_run (F := F)
  have e1 : exec (Vec.zeros 4 : Vec F) Quat.fillIdentity = .ok d := by
    unfold exec
    rw [e]
  obtain ⟨k1, k2⟩ := C32_alpha (Vec.zeros 4 : Vec F) d w γ hout
  unfold interpolate
  simp only [hin, Bool.not_true, Bool.false_eq_true, if_false,
    Vec.init_new (F := F) (n := 4) (by omega) (by omega), e1, Res.mapErr_ok, Res.ok_bind, hq]
  split
  · rw [exec_err k1]
    rfl
  · rw [exec_err k2]
    rfl

/-- C127: in binary32, the first acceleration whose deviation lies strictly between the thresholds, with a margin, makes the
update of an adaptive MARG filter fail with `InvalidAlpha`, and no update succeeds afterwards as long as the deviations are
at most the first threshold: the attitude stays what it was. -/
theorem C127_stuck [Halves F] {i : AquaInit F} {s0 : Aqua F} {S : ℕ → Aqua F} {y : ℕ → Readings F} {cg : GyrometerConfig F}
    (h0 : Reachable s0) (hi : init i s0 = (.ok (), S 0)) (had : i.adaptive = true) (hcg : i.gyrometerConfig = some cg)
    (hS : ∀ j, S (j + 1) = (take (y j) (S j)).2) {k : ℕ} {ω : Quaternion ℝ} {a m : Fin 3 → ℝ}
    (hr : (y k).Moving { i with adaptive := false } cg i.accelerometerConfig i.magnetometerConfig ω a m)
    (hα : 1 / 10 ^ 6 ≤ ⟪i.alpha⟫) {N G : ℝ} (hN : N = norm3 a) (hg : Finite (i.g.getD (lit (981 / 100))))
    (hG : G = ⟪i.g.getD (lit (981 / 100))⟫) (g0 : 1 / 1000 ≤ G) (g1 : G ≤ 2 ^ 60) (ht1 : Finite i.t1) (ht2 : Finite i.t2)
    (t0 : 1 / 10 ^ 6 ≤ ⟪i.t1⟫) (t1 : ⟪i.t1⟫ ≤ 1) (h1 : ⟪i.t1⟫ * G + 2 * (N + G) / 10 ^ 6 ≤ |N - G|)
    (h2 : |N - G| + (N + G) / 10 ^ 6 < ⟪i.t2⟫ * G)
    (hc : ∀ j, j ≠ k → Calm i i.accelerometerConfig (y j).ax (y j).ay (y j).az)
    (hA : ShowsF (S k) fun f => 1 / 2 ≤ ‖qval f‖ ∧ ‖qval f‖ ≤ 2 ∧ unrot (predQ (qval f) ω ⟪i.ts⟫) a 2 ≤ -(N / 2)) :
    (take (y k) (S k)).1 = .error (.err (.LinalgError .InvalidAlpha)) ∧
      ∀ j, k < j → (∃ e, (take (y j) (S j)).1 = .error e) ∧ getAttitude (S j) = getAttitude (S k) := by
  have hs : Started i (S 0) := ⟨s0, S 0, h0, hi, .refl _⟩
  obtain ⟨-, hcg', hca, hcm⟩ := C52_attitude h0 hi
  obtain ⟨c, e, hcg'⟩ := hcg' hr.mode
  rw [hcg] at e
  obtain rfl := Option.some.inj e
  have G0 : 0 < G := by linarith
  have n0 := hr.acc_norm.1
  have n1 := hr.acc_norm.2
  rw [← hN] at n0 n1
  have eG : (1 + N / G) = (N + G) / G := by
    field_simp
    ring
  have hlow : ⟪i.t1⟫ + 2 * ((1 + N / G) / 10 ^ 6) ≤ |N - G| / G := by
    rw [eG, le_div_iff₀ G0]
    have : (⟪i.t1⟫ + 2 * ((N + G) / G / 10 ^ 6)) * G = ⟪i.t1⟫ * G + 2 * (N + G) / 10 ^ 6 := by field_simp
    linarith
  have hhigh : |N - G| / G + (1 + N / G) / 10 ^ 6 < ⟪i.t2⟫ := by
    rw [eG]
    have : |N - G| / G + (N + G) / G / 10 ^ 6 = (|N - G| + (N + G) / 10 ^ 6) / G := by field_simp
    rw [this, div_lt_iff₀ G0]
    exact h2
  have c0 : 0 ≤ N / G := div_nonneg (by linarith) G0.le
  have ht : (i.t2 ≤ᶠ i.t1) = false := by
    rw [Bool.eq_false_iff]
    intro h
    have := (R.le_val ht2 ht1).mp h
    linarith
  -- the filter after the calm samples
  have key : ∀ j, j ≤ k → Ready (S j) ∧ Settings i (S j) ∧ (S j).getGyrometerConfig = .ok cg ∧
      (S j).getAccelerometerConfig = .ok i.accelerometerConfig ∧ (S j).getMagnetometerConfig = .ok i.magnetometerConfig ∧
      (S j).alpha = i.alpha := by
    intro j
    induction j with
    | zero =>
      intro _
      have k2 := (init_fixed i s0 (congrArg Prod.fst hi)).2
      rw [hi] at k2
      exact ⟨hs.ready.1, hs.ready.2, hcg', hca, hcm, k2⟩
    | succ j ih =>
      intro hj
      obtain ⟨k1, k2, k3, k4, k5, k6⟩ := ih (by omega)
      have hg' := (hc j (by omega)).gain k1 k2 k4 ht
      rw [k6] at hg'
      have l := (Alike.update (gx := some (y j).gx) (gy := some (y j).gy) (gz := some (y j).gz) (mx := (y j).mx)
        (my := (y j).my) (mz := (y j).mz) (k2.mode.trans hr.mode) hg').2 k6
      have hstep := frame_update (some (y j).gx) (some (y j).gy) (some (y j).gz) (y j).ax (y j).ay (y j).az (y j).mx (y j).my (y j).mz (S j)
      rw [hS]
      exact ⟨k1.step hstep, k2.step hstep, (hstep.gyr k1.gyr).2.2.trans k3, (hstep.acc k1.acc).2.2.trans k4,
        (hstep.mag k1.mag).2.2.trans k5, l⟩
  obtain ⟨k1, k2, k3, k4, k5, k6⟩ := key k le_rfl
  obtain ⟨p, q, r, hgr, hω⟩ := hr.rate
  obtain ⟨x, y', z, har, ha⟩ := hr.acc
  obtain ⟨u, v, w, hmr, hm⟩ := hr.field
  obtain ⟨Gy, eg, gg1, gg2, gg3⟩ := hgr.all k1.gyr k3
  obtain ⟨A, ea, a1, a2, a3⟩ := har.all k1.acc k4
  obtain ⟨M, em, b1, b2, b3⟩ := hmr.all k1.mag k5
  obtain ⟨va, fa, e, hv, hf, hq1, hq2, hq3⟩ := hA
  obtain ⟨f, j1, j2⟩ := k1.attitude
  obtain ⟨va', j3, j4⟩ := k1.getAttitude j1
  rw [e] at j3
  obtain rfl := Except.ok.inj j3
  have hqf : qval f = qval fa := by
    have hfe : ∀ j, j < 4 → f j = fa j := fun j hj => Except.ok.inj ((j4.get j hj).symm.trans (hv.get j hj))
    unfold qval
    rw [hfe 0 (by omega), hfe 1 (by omega), hfe 2 (by omega), hfe 3 (by omega)]
  have nA : ‖vval (seq3 x y' z)‖ = N := by
    rw [hN, ← norm_pureQ, ha]
    rfl
  have nM : ‖vval (seq3 u v w)‖ = norm3 m := by
    rw [← norm_pureQ, hm]
    rfl
  obtain ⟨n2, n', aL, mL, e1, l1, -, -, -, l2, l3, l4, l5⟩ := sensed_acc (forall_lt_three.mpr har.finite)
    (forall_lt_three.mpr hmr.finite) (by rw [nA]; exact n0) (by rw [nA]; exact n1.trans (by norm_num)) (by rw [nM]; exact hr.field_norm.1)
    (by rw [nM]; exact hr.field_norm.2)
  have hω0 : ω.re = 0 := by rw [hω]; rfl
  obtain ⟨gq, T', aq, gg, F1, hh, em1, c1, c2, c3, c4, c5, c6, c7, -⟩ :=
    margAcc_acc (s := { S k with gyr := Gy, acc := A, mag := M }) (T := Mat.zeros 3 1) (qa := Vec.zeros 4)
      (P := predQ (qval f) ω ⟪(S k).ts⟫) j1 j2 gg1 gg2 gg3 hgr.finite.1 hgr.finite.2.1
      hgr.finite.2.2 (k2.ts ▸ hr.ts.1) hω hr.rate_norm.1 (by rw [k2.ts]; exact hr.rate_norm.2)
      (by rw [k2.ts]; exact hr.ts.2.trans (by norm_num)) (hqf ▸ hq1) (hqf ▸ hq2)
      l1 (forall_lt_three.mpr har.finite) (Vec.zeros_is (F := F) (n := 4) (by omega) (by omega))
      (Mat.zeros_is (by omega) (by omega) (by omega) (by omega)) rfl
      (predQ_unit (lt_of_lt_of_le (by norm_num [epsilon]) (hqf ▸ hq1)) hω0) ha hN (by norm_num at n0 ⊢; linarith) n1
      (by rw [hqf, k2.ts]; exact hq3) rfl
  obtain ⟨n, hn⟩ : ∃ n, aL.calculateNorm = .ok n := by
    rw [Vec.calculateNorm_eq l1]
    split <;> exact ⟨_, rfl⟩
  have hdev := acc_deviation har (by rw [hN, ha]) n0 n1 hg (hG ▸ g0) (hG ▸ g1) har l1 hn
  rw [← hG] at hdev
  obtain ⟨ev, hev⟩ : ∃ ev, ev = Scalar.abs ((n -ᶠ i.g.getD (lit (981 / 100))) /ᶠ i.g.getD (lit (981 / 100))) := ⟨_, rfl⟩
  rw [← hev] at hdev
  obtain ⟨d1, d2⟩ := abs_le.mp hdev.2
  have hset := hr.settings i.alpha (by simp)
  have hneg := gain_neg hset.1 hα hset.2.2 ht1 t0 t1 hdev.1 (by norm_num at *; linarith) (by
    have : N / G ≤ 2 ^ 61 * 1000 := by
      rw [div_le_iff₀ G0]
      nlinarith
    have : |N - G| / G ≤ 1 + N / G := by
      rw [eG]
      gcongr
      rw [abs_le]
      exact ⟨by linarith, by linarith⟩
    norm_num at *
    linarith)
  obtain ⟨γ, hγ⟩ : ∃ γ, γ = i.alpha *ᶠ (i.t1 -ᶠ ev) /ᶠ i.t1 := ⟨_, rfl⟩
  rw [← hγ] at hneg
  have hgain : newGain { S k with gyr := Gy, acc := A, mag := M } aL = .ok γ := by
    have x1 : (i.t1 <ᶠ ev) = true := (R.lt_val ht1 hdev.1).mpr (by norm_num at *; linarith)
    have x2 : (ev <ᶠ i.t2) = true := (R.lt_val hdev.1 ht2).mpr (by linarith)
    have x3 : (ev ≤ᶠ i.t1) = false := by
      rw [Bool.eq_false_iff]
      intro h
      have := (R.le_val hdev.1 ht1).mp h
      norm_num at *
      linarith
    unfold newGain calculateAdaptativeGain
    simp only [k2.adaptive.trans had, if_true, k2.t1, k2.t2, k2.g, ht, hn, Res.mapErr_ok, Res.ok_bind, Bool.false_eq_true, if_false, k6,
      ← hev, x1, x2, x3, Bool.and_true, ← hγ]
  have hout : ¬((lit 0 ≤ᶠ γ) = true ∧ (γ ≤ᶠ lit 1) = true) := fun h => by
    have := (R.le_val R.zero_finite hneg.1).mp h.1
    rw [R.zero_val] at this
    linarith [hneg.2]
  have htA := hr.settings i.tAcc (by simp)
  have hrun : take (y k) (S k) = (.error (.err (.LinalgError .InvalidAlpha)), { S k with gyr := Gy, acc := A, mag := M, alpha := γ }) := by
    unfold take
    rw [k1.marg_run (k2.mode.trans hr.mode) eg ea em a1 a2 a3 b1 b2 b3, e1, liftM_ok]
    simp only
    rw [Op.bind_run, updateMarg_eq, em1, liftM_ok, hgain, liftM_ok, modify_bind']
    simp only
    rw [k2.tAcc, interpolate_refused c6 htA.1 htA.2.1 htA.2.2 hneg.1 hneg.2]
    rfl
  refine ⟨congrArg Prod.fst hrun, ?_⟩
  have after : ∀ d, Ready (S (k + 1 + d)) ∧ Settings i (S (k + 1 + d)) ∧
      (S (k + 1 + d)).getAccelerometerConfig = .ok i.accelerometerConfig ∧ (S (k + 1 + d)).alpha = γ ∧
      (S (k + 1 + d)).attitude = (S k).attitude := by
    intro d
    induction d with
    | zero =>
      have hstep := frame_update (some (y k).gx) (some (y k).gy) (some (y k).gz) (y k).ax (y k).ay (y k).az (y k).mx (y k).my (y k).mz (S k)
      have e2 : S (k + 1) = { S k with gyr := Gy, acc := A, mag := M, alpha := γ } := (hS k).trans (congrArg Prod.snd hrun)
      rw [add_zero]
      refine ⟨hS k ▸ k1.step hstep, hS k ▸ k2.step hstep, ?_, by rw [e2], by rw [e2]⟩
      rw [hS k]
      exact (hstep.acc k1.acc).2.2.trans k4
    | succ d ih =>
      obtain ⟨x1, x2, x3, x4, x5⟩ := ih
      have hg' := (hc (k + 1 + d) (by omega)).gain x1 x2 x3 ht
      rw [x4] at hg'
      obtain ⟨e, s', z1, z2, z3⟩ := update_out (gx := some (y (k + 1 + d)).gx) (gy := some (y (k + 1 + d)).gy)
        (gz := some (y (k + 1 + d)).gz) (mx := (y (k + 1 + d)).mx) (my := (y (k + 1 + d)).my) (mz := (y (k + 1 + d)).mz)
        (x2.mode.trans hr.mode) hg' hout
      have hstep := frame_update (some (y (k + 1 + d)).gx) (some (y (k + 1 + d)).gy) (some (y (k + 1 + d)).gz) (y (k + 1 + d)).ax
        (y (k + 1 + d)).ay (y (k + 1 + d)).az (y (k + 1 + d)).mx (y (k + 1 + d)).my (y (k + 1 + d)).mz (S (k + 1 + d))
      rw [z1] at hstep
      rw [show k + 1 + (d + 1) = (k + 1 + d) + 1 by omega, hS,
        show (take (y (k + 1 + d)) (S (k + 1 + d))).2 = s' from congrArg Prod.snd z1]
      exact ⟨x1.step hstep, x2.step hstep, (hstep.acc x1.acc).2.2.trans x3, z3 x4, z2.trans x5⟩
  intro j hj
  obtain ⟨d, rfl⟩ : ∃ d, j = k + 1 + d := ⟨j - (k + 1), by omega⟩
  obtain ⟨x1, x2, x3, x4, x5⟩ := after d
  have hg' := (hc (k + 1 + d) (by omega)).gain x1 x2 x3 ht
  rw [x4] at hg'
  obtain ⟨e, s', z1, -⟩ := update_out (gx := some (y (k + 1 + d)).gx) (gy := some (y (k + 1 + d)).gy)
    (gz := some (y (k + 1 + d)).gz) (mx := (y (k + 1 + d)).mx) (my := (y (k + 1 + d)).my) (mz := (y (k + 1 + d)).mz)
    (x2.mode.trans hr.mode) hg' hout
  refine ⟨⟨e, congrArg Prod.fst z1⟩, ?_⟩
  unfold getAttitude
  rw [x1.initialized, k1.initialized, x5]

end
end Aqua

open Aqua

/-- The arguments of an adaptive `init`. -/
def Aqua.adaptG : AquaInit F32 := { Aqua.margG with adaptive := true }

/-- An adaptive filter that has just been initialised. -/
theorem adapt_init {s0 : Aqua F32} (e0 : Aqua.new = .ok s0) : Aqua.init Aqua.adaptG s0 = (.ok (), (Aqua.init Aqua.adaptG s0).2) :=
  Prod.ext ((C52_iff (a := Aqua.adaptG) e0).mpr
    ⟨fun _ => by decide +kernel, by decide +kernel, by decide +kernel, .inl ⟨rfl, rfl, rfl, rfl⟩⟩) rfl

/-- What an accelerometer with the default settings reads. -/
theorem reads_acc {z : F32} (hz : z = lit (-1) ∨ z = lit (-37 / 32) ∨ z = lit (-3 / 2)) :
    Accelerometer.Reads (.default : AccelerometerConfig F32) (lit 0) (lit 0) z (lit 0) (lit 0) z := by
  obtain ⟨s0, e0, -⟩ := Aqua.new_fresh (F := F32)
  have hi := adapt_init e0
  obtain ⟨-, -, hc, -⟩ := C52_attitude ⟨s0, e0, .refl _⟩ hi
  have hs : Aqua.Started Aqua.adaptG (Aqua.init Aqua.adaptG s0).2 := ⟨s0, _, ⟨s0, e0, .refl _⟩, hi, .refl _⟩
  have hr := hs.ready.1
  generalize (Aqua.init Aqua.adaptG s0).2 = s at *
  have e : Accelerometer.update (lit 0) (lit 0) z s.acc = (.ok (), (Accelerometer.update (lit 0) (lit 0) z s.acc).2) :=
    Prod.ext ((C43_acc_iff hr.acc hc).mpr (by rcases hz with rfl | rfl | rfl <;> decide +kernel)) rfl
  obtain ⟨-, k1, k2, k3, -⟩ := C43_acc_formula hr.acc hc e
  exact ⟨s.acc, _, hr.acc, hc, e, k1.trans (by rcases hz with rfl | rfl | rfl <;> decide +kernel),
    k2.trans (by rcases hz with rfl | rfl | rfl <;> decide +kernel), k3.trans (by rcases hz with rfl | rfl | rfl <;> decide +kernel)⟩

theorem adapt_vals : ⟪(lit 0 : F32)⟫ = 0 ∧ ⟪(lit 1 : F32)⟫ = 1 ∧ ⟪(lit (-1) : F32)⟫ = -1 ∧ ⟪(lit (-37 / 32) : F32)⟫ = -37 / 32 ∧
    ⟪Aqua.adaptG.t1⟫ = 1 / 8 ∧ ⟪Aqua.adaptG.t2⟫ = 1 / 4 ∧
    Finite Aqua.adaptG.t1 ∧ Finite Aqua.adaptG.t2 := by
  refine ⟨?_, ?_, ?_, ?_, ?_, ?_, by decide +kernel, by decide +kernel⟩
  · rw [val_lit (by decide +kernel)]; norm_num
  · rw [val_lit (by decide +kernel)]; norm_num
  · rw [val_lit (by decide +kernel)]; norm_num
  · rw [val_lit (by decide +kernel)]; norm_num
  · show ⟪(lit (1 / 8) : F32)⟫ = _
    rw [val_lit (by decide +kernel)]; norm_num
  · show ⟪(lit (1 / 4) : F32)⟫ = _
    rw [val_lit (by decide +kernel)]; norm_num

theorem norm3_z (z : ℝ) : norm3 ![0, 0, z] = |z| := by
  rw [norm3]
  show √((0 : ℝ) ^ 2 + 0 ^ 2 + z ^ 2) = _
  rw [← Real.sqrt_sq_eq_abs]
  norm_num

/-- The acceleration (0, 0, -1) is calm when the reference is 1. -/
theorem adapt_calm : Calm Aqua.adaptG .default (lit 0) (lit 0) (lit (-1)) := by
  obtain ⟨l0, l1, l2, -, t1, t2, f1, -⟩ := adapt_vals
  exact C127_calm (N := 1) (G := 1) (reads_acc (.inl rfl)) (by rw [l0, l2, norm3_z]; norm_num) (by norm_num) (by norm_num)
    (by decide +kernel) l1.symm (by norm_num) (by norm_num) f1 (by rw [t1]; norm_num)

/-- The hypotheses of `C127_twin` hold for the readings of `C120_track`: the adaptive filter stays aligned as well. -/
example : ∃ S : ℕ → Aqua F32, Aqua.Started Aqua.adaptG (S 0) ∧ (∀ j, S (j + 1) = (take (Aqua.swings j) (S j)).2) ∧ ∀ j,
    (take (Aqua.swings j) (S j)).1 = .ok () ∧
      ShowsF (S j) fun f => NearUnit f ∧ Aligned (unitOf (qval f)) ![0, 0, -1] (dir (Aqua.swing j)) (1 / 50) (3 / 20) := by
  obtain ⟨s0, S', e0, hi', hS', h⟩ := swing_filter
  have hR : Aqua.Reachable s0 := ⟨s0, e0, .refl _⟩
  have hi := adapt_init e0
  obtain ⟨S, S0, S1⟩ : ∃ S : ℕ → Aqua F32, S 0 = (Aqua.init Aqua.adaptG s0).2 ∧ ∀ j, S (j + 1) = (take (Aqua.swings j) (S j)).2 :=
    ⟨fun j => Nat.rec (Aqua.init Aqua.adaptG s0).2 (fun j s => (take (Aqua.swings j) s).2) j, rfl, fun _ => rfl⟩
  rw [← S0] at hi
  refine ⟨S, ⟨s0, _, hR, hi, .refl _⟩, S1, fun j => ?_⟩
  obtain ⟨l0, l1, l2, -, t1, t2, f1, f2⟩ := adapt_vals
  obtain ⟨k1, k2⟩ := C127_twin (N := fun _ => 1) hR hi (S' := S') hi' rfl S1 hS'
    (fun j => ⟨lit 0, lit 0, lit (-1), reads_acc (.inl rfl), by rw [l0, l2, norm3_z]; norm_num⟩) (fun _ => by norm_num) (fun _ => by norm_num)
    (by decide +kernel) l1.symm (by norm_num) (by norm_num) f1 f2 (by rw [t1, t2]; norm_num) (fun _ => by rw [t1]; norm_num) j
  obtain ⟨h1, w, f, g2, g3⟩ := h j
  exact ⟨k1.trans h1, w, f, k2.trans g2, g3⟩

/-- The readings of an example: the first acceleration is a sixth too large. -/
def Aqua.jolt (j : ℕ) : Aqua.Readings F32 :=
  if j = 0 then ⟨lit 0, lit 0, lit 0, lit 0, lit 0, lit (-37 / 32), lit 1596, lit 160, lit 1203⟩ else Aqua.swings j

/-- The hypotheses of `C127_stuck` hold for readings whose first acceleration is a sixth too large. -/
example : ∃ S : ℕ → Aqua F32, Aqua.Started Aqua.adaptG (S 0) ∧ (∀ j, S (j + 1) = (take (Aqua.jolt j) (S j)).2) ∧
    ∀ j, (∃ e, (take (Aqua.jolt j) (S j)).1 = .error e) ∧ getAttitude (S j) = getAttitude (S 0) := by
  obtain ⟨s0, e0, -⟩ := Aqua.new_fresh (F := F32)
  have hR : Aqua.Reachable s0 := ⟨s0, e0, .refl _⟩
  have hi := adapt_init e0
  obtain ⟨S, S0, S1⟩ : ∃ S : ℕ → Aqua F32, S 0 = (Aqua.init Aqua.adaptG s0).2 ∧ ∀ j, S (j + 1) = (take (Aqua.jolt j) (S j)).2 :=
    ⟨fun j => Nat.rec (Aqua.init Aqua.adaptG s0).2 (fun j s => (take (Aqua.jolt j) s).2) j, rfl, fun _ => rfl⟩
  rw [← S0] at hi
  have hs : Aqua.Started Aqua.adaptG (S 0) := ⟨s0, _, hR, hi, .refl _⟩
  obtain ⟨⟨v, hv, hv'⟩, hcg, hc, hd⟩ := C52_attitude hR hi
  obtain ⟨c', hc', hcg⟩ := hcg rfl
  obtain rfl := Option.some.inj hc'
  have hr := hs.ready.1
  obtain ⟨l0, l1, l2, l3, t1, t2, f1, f2⟩ := adapt_vals
  have rg : Gyrometer.Reads (.default : GyrometerConfig F32) (lit 0) (lit 0) (lit 0) (lit 0) (lit 0) (lit 0) := by
    have e : Gyrometer.update (lit 0) (lit 0) (lit 0) (S 0).gyr =
        (.ok (), (Gyrometer.update (lit 0) (lit 0) (lit 0) (S 0).gyr).2) :=
      Prod.ext ((C43_gyr_iff hr.gyr hcg).mpr (by decide +kernel)) rfl
    obtain ⟨-, k1, k2, k3, -⟩ := C43_gyr_formula hr.gyr hcg e
    exact ⟨(S 0).gyr, _, hr.gyr, hcg, e, k1.trans (by decide +kernel), k2.trans (by decide +kernel), k3.trans (by decide +kernel)⟩
  have rm : Magnetometer.Reads (.default : MagnetometerConfig F32) (lit 1596) (lit 160) (lit 1203) (lit 1596) (lit 160)
      (lit 1203) := by
    have e : Magnetometer.update (lit 1596) (lit 160) (lit 1203) (S 0).mag =
        (.ok (), (Magnetometer.update (lit 1596) (lit 160) (lit 1203) (S 0).mag).2) :=
      Prod.ext ((C43_mag_iff hr.mag hd).mpr (by decide +kernel)) rfl
    obtain ⟨-, k1, k2, k3, -⟩ := C43_mag_formula hr.mag hd e
    exact ⟨(S 0).mag, _, hr.mag, hd, e, k1.trans (by decide +kernel), k2.trans (by decide +kernel), k3.trans (by decide +kernel)⟩
  have l4 : ⟪(lit 1596 : F32)⟫ = 1596 := by rw [val_lit (by decide +kernel)]; norm_num
  have l5 : ⟪(lit 160 : F32)⟫ = 160 := by rw [val_lit (by decide +kernel)]; norm_num
  have l6 : ⟪(lit 1203 : F32)⟫ = 1203 := by rw [val_lit (by decide +kernel)]; norm_num
  have l7 : ⟪(lit (1 / 2) : F32)⟫ = 1 / 2 := by rw [val_lit (by decide +kernel)]; norm_num
  have l8 : ⟪(lit (7 / 8) : F32)⟫ = 7 / 8 := by rw [val_lit (by decide +kernel)]; norm_num
  have l9 : ⟪Aqua.adaptG.ts⟫ = 1 / 128 := by
    show ⟪(lit (1 / 128) : F32)⟫ = _
    rw [val_lit (by decide +kernel)]; norm_num
  have nm : 2000 ≤ norm3 ![1596, 160, 1203] ∧ norm3 ![1596, 160, 1203] ≤ 2010 := by
    unfold norm3
    exact ⟨Real.le_sqrt_of_sq_le (by simp; norm_num), Real.sqrt_le_iff.mpr ⟨by norm_num, by simp; norm_num⟩⟩
  have na : norm3 ![0, 0, -37 / 32] = 37 / 32 := by rw [norm3_z]; norm_num
  have q0 : mkQ (0 : ℝ) 0 0 0 = 0 := rfl
  have hmov : (Aqua.jolt 0).Moving { Aqua.adaptG with adaptive := false } .default .default .default 0 ![0, 0, -37 / 32]
      ![1596, 160, 1203] := by
    refine ⟨rfl, rfl, ?_, by show 0 < ⟪(lit (1 / 2) : F32)⟫; rw [l7]; norm_num, ⟨by decide +kernel, by rw [l9]; norm_num [abs_of_pos]⟩,
      ⟨_, _, _, rg, by rw [l0, q0]⟩, by rw [norm_zero]; norm_num, ⟨lit 0, lit 0, lit (-37 / 32), reads_acc (.inr (.inl rfl)), by rw [l0, l3]⟩, by rw [na]; norm_num,
      ⟨_, _, _, rm, by rw [l4, l5, l6]⟩, by constructor <;> linarith [nm.1, nm.2]⟩
    intro b hb
    simp only [List.mem_cons, List.not_mem_nil, or_false] at hb
    rcases hb with rfl | rfl | rfl | rfl
    · exact ⟨by decide +kernel, by show _ ≤ ⟪(lit (1 / 2) : F32)⟫ ∧ ⟪(lit (1 / 2) : F32)⟫ ≤ _; rw [l7]; norm_num⟩
    · exact ⟨by decide +kernel, by show _ ≤ ⟪(lit (1 / 2) : F32)⟫ ∧ ⟪(lit (1 / 2) : F32)⟫ ≤ _; rw [l7]; norm_num⟩
    · exact ⟨by decide +kernel, by show _ ≤ ⟪(lit (7 / 8) : F32)⟫ ∧ ⟪(lit (7 / 8) : F32)⟫ ≤ _; rw [l8]; norm_num⟩
    · exact ⟨by decide +kernel, by show _ ≤ ⟪(lit (7 / 8) : F32)⟫ ∧ ⟪(lit (7 / 8) : F32)⟫ ≤ _; rw [l8]; norm_num⟩
  obtain ⟨k1, k2⟩ := C127_stuck (k := 0) hR hi rfl rfl S1 hmov (by show _ ≤ ⟪(lit (1 / 2) : F32)⟫; rw [l7]; norm_num) na.symm
    (by decide +kernel) l1.symm (by norm_num) (by norm_num) f1 f2 (by rw [t1]; norm_num) (by rw [t1]; norm_num)
    (by rw [t1]; norm_num [abs_of_pos]) (by rw [t2]; norm_num [abs_of_pos]) (fun j hj => by
      unfold jolt
      rw [if_neg hj]
      exact adapt_calm) (by
      refine ⟨v, _, hv, hv', forall_lt_four.mpr ⟨?_, ?_, ?_, ?_⟩, ?_⟩
      · exact (by decide +kernel : Finite (lit 1 : F32))
      · exact (by decide +kernel : Finite (lit 0 : F32))
      · exact (by decide +kernel : Finite (lit 0 : F32))
      · exact (by decide +kernel : Finite (lit 0 : F32))
      · have e : qval (seq4 (lit 1 : F32) (lit 0) (lit 0) (lit 0)) = 1 := by
          show mkQ ⟪(lit 1 : F32)⟫ ⟪(lit 0 : F32)⟫ ⟪(lit 0 : F32)⟫ ⟪(lit 0 : F32)⟫ = 1
          rw [l0, l1]
          rfl
        have n1 : ‖(1 : Quaternion ℝ)‖ = 1 := norm_one (map_one _)
        have u1 : ∀ u : Fin 3 → ℝ, unrot 1 u = u := fun u => pureQ_inj ((unrot_eq n1 u).trans (by simp))
        show 1 / 2 ≤ ‖qval (seq4 (lit 1 : F32) (lit 0) (lit 0) (lit 0))‖ ∧ ‖qval (seq4 (lit 1 : F32) (lit 0) (lit 0) (lit 0))‖ ≤ 2 ∧
          unrot (predQ (qval (seq4 (lit 1 : F32) (lit 0) (lit 0) (lit 0))) 0 _) _ 2 ≤ _
        rw [e, predQ_rest n1, u1, n1]
        refine ⟨by norm_num, by norm_num, ?_⟩
        show (-37 / 32 : ℝ) ≤ _
        norm_num)
  refine ⟨S, hs, S1, fun j => ?_⟩
  rcases Nat.eq_zero_or_pos j with rfl | hj
  · exact ⟨⟨_, k1⟩, rfl⟩
  · exact k2 j hj

/-- The readings of an example: the first acceleration is half as large again. -/
def Aqua.bump (j : ℕ) : Aqua.Readings F32 :=
  if j = 0 then ⟨lit 0, lit 0, lit 0, lit 0, lit 0, lit (-3 / 2), lit 1596, lit 160, lit 1203⟩ else Aqua.swings j

theorem bump_ok {s0 : Aqua F32} (e0 : Aqua.new = .ok s0) : (take (Aqua.bump 0) (Aqua.init Aqua.adaptG s0).2).1 = .ok () := by
  have k : (match (Aqua.new : Res AhrsError (Aqua F32)) with
    | .ok s0 => (match (take (Aqua.bump 0) (Aqua.init Aqua.adaptG s0).2).1 with | .ok _ => true | _ => false)
    | _ => false) = true := by decide +kernel
  rw [e0] at k
  simp only at k
  split at k
  · assumption
  · cases k

/-- The hypotheses of `C127_off` hold for readings whose first acceleration is half as large again. -/
example : ∃ S S' : ℕ → Aqua F32, Aqua.Started Aqua.adaptG (S 0) ∧ Aqua.Started { Aqua.margG with alpha := lit 0 } (S' 0) ∧
    (∀ j, S (j + 1) = (take (Aqua.bump j) (S j)).2) ∧ (∀ j, S' (j + 1) = (take (Aqua.bump j) (S' j)).2) ∧
    ∀ j, (take (Aqua.bump j) (S j)).1 = (take (Aqua.bump j) (S' j)).1 ∧ getAttitude (S j) = getAttitude (S' j) := by
  obtain ⟨s0, e0, -⟩ := Aqua.new_fresh (F := F32)
  have hR : Aqua.Reachable s0 := ⟨s0, e0, .refl _⟩
  have hi := adapt_init e0
  have hi' := init_gain Aqua.adaptG (lit 0) s0 (congrArg Prod.fst hi)
  have hok := bump_ok e0
  obtain ⟨S, S0, S1⟩ : ∃ S : ℕ → Aqua F32, S 0 = (Aqua.init Aqua.adaptG s0).2 ∧ ∀ j, S (j + 1) = (take (Aqua.bump j) (S j)).2 :=
    ⟨fun j => Nat.rec (Aqua.init Aqua.adaptG s0).2 (fun j s => (take (Aqua.bump j) s).2) j, rfl, fun _ => rfl⟩
  obtain ⟨S', S0', S1'⟩ : ∃ S : ℕ → Aqua F32, S 0 = fixedGain (lit 0) (Aqua.init Aqua.adaptG s0).2 ∧
      ∀ j, S (j + 1) = (take (Aqua.bump j) (S j)).2 :=
    ⟨fun j => Nat.rec (fixedGain (lit 0) (Aqua.init Aqua.adaptG s0).2) (fun j s => (take (Aqua.bump j) s).2) j, rfl, fun _ => rfl⟩
  rw [← S0'] at hi'
  rw [← S0] at hi hok
  obtain ⟨l0, l1, -, -, t1, t2, f1, f2⟩ := adapt_vals
  have l3 : ⟪(lit (-3 / 2) : F32)⟫ = -3 / 2 := by rw [val_lit (by decide +kernel)]; norm_num
  have hw : Wild Aqua.adaptG .default (lit 0) (lit 0) (lit (-3 / 2)) :=
    C127_wild (N := 3 / 2) (G := 1) (reads_acc (.inr (.inr rfl))) (by rw [l0, l3, norm3_z]; norm_num) (by norm_num) (by norm_num)
      (by decide +kernel) l1.symm (by norm_num) (by norm_num) f1 f2 (by rw [t1, t2]; norm_num) (by rw [t2]; norm_num [abs_of_pos])
  refine ⟨S, S', ⟨s0, _, hR, hi, .refl _⟩, ⟨s0, _, hR, hi', .refl _⟩, S1, S1', ?_⟩
  refine C127_off hR hi hi' rfl rfl (by decide +kernel) S1 S1' hw hok fun j => ?_
  unfold bump
  split
  · exact .inr hw
  · exact .inl adapt_calm

end Verif
