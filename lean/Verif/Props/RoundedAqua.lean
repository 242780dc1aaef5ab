import Verif.Grid
import Verif.Props.RoundedAmStep
import Verif.Props.AquaMarg

/-
C90: the attitude of the AQUA filter in binary32.
-/

set_option linter.unusedSectionVars false
set_option linter.unusedSimpArgs false

namespace Verif
open Scalar

variable {F : Type} [Scalar F] [R : Rounded F]

namespace Aqua

/-- Whatever state a successful run ends in has a property. -/
def Ends (P : Aqua F → Prop) (m : Op AhrsError (Aqua F) Unit) : Prop :=
  ∀ s, Ready s → ∀ s', m s = (.ok (), s') → P s'

theorem Ends.bind {P : Aqua F → Prop} {α : Type} {m : Op AhrsError (Aqua F) α} {k : α → Op AhrsError (Aqua F) Unit}
    (hm : Op.Frame Step m) (hk : ∀ a, Ends P (k a)) : Ends P (m >>= k) := by
  intro s hs s' h
  rw [Op.bind_run] at h
  have h1 := hm s
  rcases hr : m s with ⟨e | a, t⟩
  · rw [hr] at h
    cases congrArg Prod.fst h
  · rw [hr] at h h1
    exact hk a t (hs.step h1) s' h

theorem ends_normalize : Ends (fun s : Aqua F => ShowsF s fun f => Null f ∨ NearUnit f) (onAttitude Vec.normalize) := by
  intro s hs s' h
  obtain ⟨f, hf, hfin⟩ := hs.attitude
  obtain ⟨w, g, e, hw, hg, hc, -⟩ := Verif.normalize_quat hf hfin
  rw [onAttitude_ok e] at h
  obtain rfl := congrArg Prod.snd h
  have hr : Ready { s with attitude := w } :=
    ⟨hs.initialized, hs.gyr, hs.acc, hs.mag, hs.gyr_initialized, hs.acc_initialized, hs.mag_initialized, g, hw, hg⟩
  obtain ⟨v, k1, k2⟩ := hr.getAttitude hw
  exact ⟨v, g, k1, k2, hg, hc⟩

theorem ends_update (gx gy gz : Option F) (ax ay az mx my mz : F) :
    Ends (fun s : Aqua F => ShowsF s fun f => Null f ∨ NearUnit f) (update gx gy gz ax ay az mx my mz) := by
  unfold update
  refine Ends.bind (Op.Frame.get pre) fun self => ?_
  split
  · intro s _ s' h
    cases congrArg Prod.fst h
  refine Ends.bind ?_ fun _ => ?_
  · split
    · exact frame_updateGyr _ _ _
    · exact Op.Frame.pure pre _
  refine Ends.bind (frame_acc _ _ _) fun _ => ?_
  refine Ends.bind (frame_mag _ _ _) fun _ => ?_
  refine Ends.bind (Op.Frame.get pre) fun self => ?_
  iterate 5 refine Ends.bind (Op.Frame.lift pre _) fun _ => ?_
  refine Ends.bind (Op.Frame.lift pre _) fun t => ?_
  obtain ⟨ax, ay, az⟩ := t
  iterate 8 refine Ends.bind (Op.Frame.lift pre _) fun _ => ?_
  refine Ends.bind ?_ fun _ => ends_normalize
  split
  · exact frame_updateMarg _ _ _ _ _
  · exact frame_updateAm _ _ _ _ _ _ _

/-! ### A lost attitude -/

/-- A vector of four zeros (of either sign). -/
def NullV (v : Vec F) : Prop := ∃ f, VecIs v 4 f ∧ (∀ i, i < 4 → Finite (f i)) ∧ Null f

theorem NullV.holds {v : Vec F} (h : NullV v) : v.Holds4 := by
  obtain ⟨f, h1, h2, -⟩ := h
  exact ⟨f, h1, h2⟩

/-- Storing zeros into a vector of zeros. -/
theorem nullV_stores {v : Vec F} {f g : Nat → F} {out : Res LinalgError Unit × Vec F} (h : v.Stores 4 g out)
    (hv : VecIs v 4 f) (hf : ∀ i, i < 4 → Finite (f i)) (hn : Null f) (hg : ∀ i, i < 4 → Finite (g i) → ⟪g i⟫ = 0) :
    NullV out.2 := by
  rcases h.cases with ⟨h1, rfl⟩ | ⟨k, hk, h1, -, rfl⟩
  · exact ⟨g, hv.overwrite g, h1, fun i hi => hg i hi (h1 i hi)⟩
  · refine ⟨fun i => if i < k then g i else f i, ?_, fun i hi => ?_, fun i hi => ?_⟩
    · rw [vecIs_iff]
      refine ⟨hv.pos, hv.le, hv.init, hv.rows_eq, fun i h4 hi => ?_⟩
      simp only [Vec.overwrite]
      rw [hv.elem h4 hi]
    · dsimp only
      split
      · rename_i h
        exact h1 i h
      · exact hf i hi
    · dsimp only
      split
      · rename_i h
        exact hg i hi (h1 i h)
      · exact hn i hi

variable [G : Grid F]

theorem nullV_normalize {v : Vec F} (h : NullV v) : ∃ w, v.normalize = (.ok (), w) ∧ NullV w := by
  obtain ⟨f, h1, h2, h3⟩ := h
  obtain ⟨w, g, e, hw, hg, -, hn, -⟩ := Verif.normalize_quat h1 h2
  exact ⟨w, e, g, hw, hg, hn (by rw [norm_null h3]; norm_num)⟩

/-- The product with a quaternion of zeros. -/
theorem nullV_mul {a b v : Vec F} (ha : NullV a) (hb : b.Holds4) (hv : NullV v) : NullV (Quat.mul a b v).2 := by
  obtain ⟨f, ha, hf, hn⟩ := ha
  obtain ⟨g, hb, hg⟩ := hb
  obtain ⟨x, hv, hx, hxn⟩ := hv
  have hz : ∀ i j, i < 4 → j < 4 → Finite (f i *ᶠ g j) ∧ ⟪f i *ᶠ g j⟫ = 0 := fun i j hi hj =>
    mul_val_zero (hf i hi) (hg j hj) (by rw [hn i hi, zero_mul])
  have hz' : ∀ i j, i < 4 → j < 4 → Finite (g j *ᶠ f i) ∧ ⟪g j *ᶠ f i⟫ = 0 := fun i j hi hj =>
    mul_val_zero (hg j hj) (hf i hi) (by rw [hn i hi, mul_zero])
  have hadd : ∀ {x y : F}, Finite x ∧ ⟪x⟫ = 0 → Finite y ∧ ⟪y⟫ = 0 → Finite (x +ᶠ y) ∧ ⟪x +ᶠ y⟫ = 0 := fun h k =>
    add_val_zero h.1 k.1 (by rw [h.2, k.2, add_zero])
  have hsub : ∀ {x y : F}, Finite x ∧ ⟪x⟫ = 0 → Finite y ∧ ⟪y⟫ = 0 → Finite (x -ᶠ y) ∧ ⟪x -ᶠ y⟫ = 0 := fun h k =>
    sub_val_zero h.1 k.1 (by rw [h.2, k.2, sub_zero])
  unfold Quat.mul
  simp only [Op.get_bind, Quat.isQuaternion_eq hv, Quat.isQuaternion_eq ha, Quat.isQuaternion_eq hb, Op.liftOk_bind,
    ha.get 0 (by omega), ha.get 1 (by omega), ha.get 2 (by omega), ha.get 3 (by omega),
    hb.get 0 (by omega), hb.get 1 (by omega), hb.get 2 (by omega), hb.get 3 (by omega), decide_true, Bool.not_true,
    Bool.false_eq_true, if_false]
  refine nullV_stores (Quat.storeAll_stores hv) hv hx hxn (forall_lt_four.mpr ⟨fun _ => ?_, fun _ => ?_, fun _ => ?_, fun _ => ?_⟩)
  · exact (hsub (hsub (hsub (hz 0 0 (by omega) (by omega)) (hz 1 1 (by omega) (by omega))) (hz 2 2 (by omega) (by omega)))
      (hz 3 3 (by omega) (by omega))).2
  · exact (hadd (hsub (hadd (hz 0 1 (by omega) (by omega)) (hz 1 0 (by omega) (by omega))) (hz 3 2 (by omega) (by omega)))
      (hz 2 3 (by omega) (by omega))).2
  · exact (hsub (hadd (hadd (hz 0 2 (by omega) (by omega)) (hz 3 1 (by omega) (by omega))) (hz' 2 0 (by omega) (by omega)))
      (hz 1 3 (by omega) (by omega))).2
  · exact (hadd (hadd (hsub (hz 0 3 (by omega) (by omega)) (hz 2 1 (by omega) (by omega))) (hz 1 2 (by omega) (by omega)))
      (hz' 3 0 (by omega) (by omega))).2

/-- The sum of zeros. -/
theorem sumUp_null {t : Nat → F} {n : Nat} (h : ∀ i, i < n → Finite (t i) ∧ ⟪t i⟫ = 0) :
    Finite (sumUp n t) ∧ ⟪sumUp n t⟫ = 0 := by
  induction n with
  | zero => exact ⟨R.zero_finite, R.zero_val⟩
  | succ n ih =>
    have h1 := ih fun i hi => h i (by omega)
    have h2 := h n (by omega)
    exact add_val_zero h1.1 h2.1 (by rw [h1.2, h2.2, add_zero])

theorem predict_null {s : Aqua F} {v : Vec F} (hn : NullV s.attitude) (ht : Finite s.ts) (h : predict s = .ok v) : NullV v := by
  obtain ⟨f, hf, hfin, hnull⟩ := hn
  have h3 := Vec.zeros_is (F := F) (n := 3) (by omega) (by omega)
  have h4 := Vec.zeros_is (F := F) (n := 4) (by omega) (by omega)
  unfold predict at h
  obtain ⟨p, -, h⟩ := AR.bind_inv h
  obtain ⟨q, -, h⟩ := AR.bind_inv h
  obtain ⟨r, -, h⟩ := AR.bind_inv h
  obtain ⟨w0, e, h⟩ := AR.bind_inv h
  rw [Vec.init_new (F := F) (n := 3) (by omega) (by omega)] at e
  obtain rfl := Except.ok.inj e
  obtain ⟨w1, e, h⟩ := AR.bind_inv h
  obtain ⟨hp, rfl⟩ := h3.exec_set_inv (by omega) (AR.liftL_ok e)
  replace h3 := h3.put 0 p
  obtain ⟨w2, e, h⟩ := AR.bind_inv h
  obtain ⟨hq, rfl⟩ := h3.exec_set_inv (by omega) (AR.liftL_ok e)
  replace h3 := h3.put 1 q
  obtain ⟨w3, e, h⟩ := AR.bind_inv h
  obtain ⟨hr, rfl⟩ := h3.exec_set_inv (by omega) (AR.liftL_ok e)
  replace h3 := h3.put 2 r
  obtain ⟨m, em, hm⟩ := AR.omega_ok hp hq hr (R.neg_finite hp) (R.neg_finite hq) (R.neg_finite hr)
  rw [em] at h
  simp only [Res.mapErr_ok, Res.ok_bind] at h
  obtain ⟨m', e, h⟩ := AR.bind_inv h
  obtain ⟨hm1, hm'⟩ := Mat.exec_stores_inv (Mat.mulByScalarInPlace_stores hm) hm (AR.liftL_ok e)
  obtain ⟨c, ec, hc⟩ := Vec.convertToMatrix_ok hf hfin
  rw [ec] at h
  simp only [Res.mapErr_ok, Res.ok_bind] at h
  obtain ⟨d, e, h⟩ := AR.bind_inv h
  obtain ⟨-, hd⟩ := Mat.mulNew_inv hm' hc (AR.liftL_ok e)
  have hd0 : ∀ i, i < 4 → Finite (sumUp 4 (Mat.cellTerm (fun i j => AR.omegaEntry p q r i j *ᶠ lit (1 / 2)) (fun i _ => f i) i 0)) ∧
      ⟪sumUp 4 (Mat.cellTerm (fun i j => AR.omegaEntry p q r i j *ᶠ lit (1 / 2)) (fun i _ => f i) i 0)⟫ = 0 := fun i hi =>
    sumUp_null fun l hl => mul_val_zero (hm1 i l hi hl) (hfin l hl) (by rw [hnull l hl, mul_zero])
  obtain ⟨δ, eδ, hδ⟩ := Mat.colToVector_ok hd (show 0 < 1 by omega) fun i hi => (hd0 i hi).1
  rw [eδ] at h
  simp only [Res.mapErr_ok, Res.ok_bind] at h
  obtain ⟨δ', e, h⟩ := AR.bind_inv h
  obtain ⟨-, hδ'⟩ := Vec.exec_stores_inv (Vec.mulByScalarInPlace_stores hδ) hδ (AR.liftL_ok e)
  rw [Vec.init_new (F := F) (n := 4) (by omega) (by omega)] at h
  simp only [Res.mapErr_ok, Res.ok_bind] at h
  obtain ⟨x, e, h⟩ := AR.bind_inv h
  obtain ⟨hx1, hx⟩ := Vec.exec_stores_inv (Vec.add_stores h4 hf hδ') h4 (AR.liftL_ok e)
  have hxn : NullV x := ⟨_, hx, hx1, fun i hi => by
    have k := mul_val_zero (hd0 i hi).1 ht (by rw [(hd0 i hi).2, zero_mul])
    exact (add_val_zero (hfin i hi) k.1 (by rw [hnull i hi, k.2, add_zero])).2⟩
  obtain ⟨y, ey, hy⟩ := nullV_normalize hxn
  have := (exec_ok ey).symm.trans (AR.liftL_ok h)
  obtain rfl := Except.ok.inj this
  exact hy

theorem keeps4_for {m : Nat → Op LinalgError (Vec F) Unit} (h : ∀ i, Keeps4 (m i)) (lo hi : Nat) : Keeps4 (forRange lo hi m) := by
  unfold forRange
  generalize hi - lo = n
  induction n generalizing lo with
  | zero => exact Op.Frame.pure pre4 _
  | succ n ih => exact Op.Frame.bind pre4 (h lo) fun _ => ih (lo + 1)

theorem keeps4_set (i : Nat) (x : F) : Keeps4 (Vec.setElement i x) := by
  rintro v ⟨f, hv, hf⟩
  by_cases hi : i < 4
  · rw [Vec.setElement_eq hv.init (by rw [hv.rows_eq]; exact hi) hi]
    split
    · rename_i hx
      refine ⟨_, hv.put i x, fun j hj => ?_⟩
      show Finite (if j = i then x else f j)
      split
      · exact hx
      · exact hf j hj
    · exact ⟨f, hv, hf⟩
  · have : (Vec.setElement i x v).2 = v := by
      unfold Vec.setElement
      simp only [hv.init, hv.rows_eq, Bool.not_true, Bool.false_eq_true, if_false, Op.get_bind']
      rw [Op.liftM_bind_run]
      rcases isValidValueL x with e | u
      · rfl
      dsimp only
      rw [Op.liftM_bind_run]
      rw [show isValidRow i 4 = fail .InvalidRow from if_pos (by omega)]
    rw [this]
    exact ⟨f, hv, hf⟩

theorem keeps4_add (a b : Vec F) : Keeps4 (Vec.add a b) := by
  unfold Vec.add
  refine Op.Frame.bind pre4 (Op.Frame.get pre4) fun s => ?_
  refine Op.Frame.bind pre4 (Op.Frame.lift pre4 _) fun b1 => Op.Frame.ite (Op.Frame.fail pre4 _) ?_
  refine Op.Frame.bind pre4 (Op.Frame.lift pre4 _) fun b2 => Op.Frame.ite (Op.Frame.fail pre4 _) ?_
  refine keeps4_for (fun i => ?_) _ _
  iterate 2 refine Op.Frame.bind pre4 (Op.Frame.lift pre4 _) fun _ => ?_
  exact keeps4_set _ _

theorem keeps4_lerp (a b : Vec F) (x : F) : Keeps4 (Vec.lerp a b x) := by
  unfold Vec.lerp
  refine Op.Frame.ite (Op.Frame.fail pre4 _) ?_
  refine Op.Frame.bind pre4 (Op.Frame.get pre4) fun s => ?_
  refine Op.Frame.bind pre4 (Op.Frame.lift pre4 _) fun b1 => Op.Frame.ite (Op.Frame.fail pre4 _) ?_
  refine Op.Frame.bind pre4 (Op.Frame.lift pre4 _) fun b2 => Op.Frame.ite (Op.Frame.fail pre4 _) ?_
  iterate 8 refine Op.Frame.bind pre4 (Op.Frame.lift pre4 _) fun _ => ?_
  exact keeps4_add _ _

theorem keeps4_slerp (a b : Vec F) (x : F) : Keeps4 (Vec.slerp a b x) := by
  unfold Vec.slerp
  refine Op.Frame.ite (Op.Frame.fail pre4 _) ?_
  refine Op.Frame.bind pre4 (Op.Frame.get pre4) fun s => ?_
  refine Op.Frame.bind pre4 (Op.Frame.lift pre4 _) fun b1 => Op.Frame.ite (Op.Frame.fail pre4 _) ?_
  refine Op.Frame.bind pre4 (Op.Frame.lift pre4 _) fun b2 => Op.Frame.ite (Op.Frame.fail pre4 _) ?_
  iterate 9 refine Op.Frame.bind pre4 (Op.Frame.lift pre4 _) fun _ => ?_
  exact keeps4_add _ _

theorem keeps4_exec {m : Op LinalgError (Vec F) Unit} (h : Keeps4 m) {v w : Vec F} (hv : v.Holds4)
    (e : Verif.exec v m = .ok w) : w.Holds4 := by
  obtain ⟨_, e⟩ := exec_eq_ok e
  have := h v hv
  rw [e] at this
  exact this

theorem zeros4 : (Vec.zeros (F := F) 4).Holds4 :=
  ⟨_, Vec.zeros_is (by omega) (by omega), fun _ _ => R.zero_finite⟩

theorem interpolate_holds {v w : Vec F} {x t : F} (h : interpolate v x t = .ok w) : w.Holds4 := by
  unfold interpolate at h
  split at h
  · cases h
  rw [Vec.init_new (F := F) (n := 4) (by omega) (by omega)] at h
  simp only [Res.mapErr_ok, Res.ok_bind] at h
  obtain ⟨i, -, h⟩ := AR.bind_inv h
  obtain ⟨q, -, h⟩ := AR.bind_inv h
  split at h
  · obtain ⟨u, e, h⟩ := AR.bind_inv h
    exact keeps4_exec keeps4_normalize (keeps4_exec (keeps4_lerp _ _ _) zeros4 (AR.liftL_ok e)) (AR.liftL_ok h)
  · exact keeps4_exec (keeps4_slerp _ _ _) zeros4 (AR.liftL_ok h)

/-- A null attitude stays null. -/
structure Lost (s s' : Aqua F) : Prop where
  step : Step s s'
  null : s.mode = .MARG → Finite s.ts → NullV s.attitude → NullV s'.attitude

theorem preLost : Pre (Lost (F := F)) where
  refl s := ⟨pre.refl s, fun _ _ h => h⟩
  trans h k := ⟨pre.trans h.step k.step, fun a b c => k.null (h.step.mode.trans a) (by rw [h.step.ts]; exact b) (h.null a b c)⟩

theorem lost_same {s s' : Aqua F} (h : Step s s') (e : s'.attitude = s.attitude) : Lost s s' :=
  ⟨h, fun _ _ k => by rw [e]; exact k⟩

theorem lost_updateMarg (aL mL aQ mQ : Vec F) (T : Mat F) :
    Op.Frame Lost (updateMarg aL mL aQ mQ T) := by
  intro s
  refine ⟨frame_updateMarg aL mL aQ mQ T s, fun _ ht hn => ?_⟩
  rw [updateMarg_eq, Op.liftM_bind_run]
  rcases e1 : margAcc s aL aQ T with e | ⟨gq, T', w⟩
  · exact hn
  have hgq : NullV gq := by
    unfold margAcc at e1
    obtain ⟨g', k1, e1⟩ := AR.bind_inv e1
    have k2 := predict_null hn ht k1
    iterate 4 obtain ⟨_, -, e1⟩ := AR.bind_inv e1
    dsimp only at e1
    obtain ⟨_, -, e1⟩ := AR.bind_inv e1
    cases e1
    exact k2
  dsimp only
  rw [Op.liftM_bind_run]
  rcases newGain s aL with e | al
  · exact hn
  dsimp only
  rw [modify_bind', Op.liftM_bind_run]
  rcases e3 : interpolate w al s.tAcc with e | ai
  · exact hn
  have hai := interpolate_holds e3
  dsimp only
  have h1 : NullV (onAttitude (Quat.mul gq ai) { s with alpha := al }).2.attitude := nullV_mul hgq hai hn
  rw [Op.bind_run]
  generalize onAttitude (Quat.mul gq ai) { s with alpha := al } = o at h1 ⊢
  obtain ⟨e | _, t⟩ := o
  · exact h1
  dsimp only at h1 ⊢
  unfold margTail
  rw [Op.get_bind', Op.liftM_bind_run]
  rcases e4 : margMag t.attitude t.beta t.tMag mL mQ T' with e | ⟨mi, c⟩
  · exact h1
  have h2 : mi.Holds4 ∧ NullV c := by
    unfold margMag at e4
    iterate 3 obtain ⟨_, -, e4⟩ := AR.bind_inv e4
    dsimp only at e4
    obtain ⟨_, -, e4⟩ := AR.bind_inv e4
    obtain ⟨i, k1, e4⟩ := AR.bind_inv e4
    obtain ⟨f, k2, k3, k4⟩ := h1
    obtain ⟨d, k5, k6⟩ := Vec.duplicate_ok k2 k3
    rw [k5] at e4
    cases e4
    exact ⟨interpolate_holds k1, f, k6, k3, k4⟩
  exact nullV_mul h2.2 h2.1 h1

theorem lost_update (gx gy gz : Option F) (ax ay az mx my mz : F) :
    Op.Frame Lost (update gx gy gz ax ay az mx my mz) := by
  unfold update
  refine Op.Frame.bind preLost (Op.Frame.get preLost) fun self => Op.Frame.ite (Op.Frame.fail preLost _) ?_
  refine Op.Frame.bind preLost ?_ fun _ => ?_
  · split
    · unfold updateGyr
      split
      · exact fun s => lost_same (frame_gyr _ _ _ s) rfl
      · exact Op.Frame.fail preLost _
      · exact Op.Frame.fail preLost _
    · exact Op.Frame.pure preLost _
  refine Op.Frame.bind preLost (fun s => lost_same (frame_acc _ _ _ s) rfl) fun _ => ?_
  refine Op.Frame.bind preLost (fun s => lost_same (frame_mag _ _ _ s) rfl) fun _ => ?_
  intro t
  rw [Op.get_bind']
  iterate 5 refine Op.Frame.at_lift_bind preLost fun _ => ?_
  refine Op.Frame.at_lift_bind preLost fun u => ?_
  obtain ⟨ax, ay, az⟩ := u
  iterate 5 refine Op.Frame.at_lift_bind preLost fun _ => ?_
  rw [Vec.init_new (F := F) (n := 4) (by omega) (by omega)]
  simp only [Res.mapErr_ok, Op.liftOk_bind]
  refine Op.Frame.at_lift_bind preLost fun _ => ?_
  refine Op.Frame.at_bind preLost ?_ fun _ => fun s => ⟨frame_attitude keeps4_normalize s, fun _ _ hn => ?_⟩
  · cases hm : t.mode with
    | MARG => exact lost_updateMarg _ _ _ _ _ t
    | AM =>
      exact ⟨frame_updateAm _ _ _ _ _ _ _ t, fun h => absurd (hm.symm.trans h) (by decide)⟩
  · obtain ⟨w, e, hw⟩ := nullV_normalize hn
    rw [onAttitude_ok e]
    exact hw

end Aqua

section
open Aqua
variable {s s' : Aqua F} {i : AquaInit F}

/-- C90: every successful update of the AQUA filter, in either mode and whatever happened before, leaves a
quaternion that is finite and has norm 1 up to one in a million, or is zero. -/
theorem C90_update (hs : Started i s) {gx gy gz : Option F} {ax ay az mx my mz : F}
    (h : update gx gy gz ax ay az mx my mz s = (.ok (), s')) : ShowsF s' fun f => Null f ∨ NearUnit f :=
  ends_update gx gy gz ax ay az mx my mz s hs.ready.1 s' h

/-- C90: a null attitude is permanent in the MARG mode: no later call, whatever its arguments and its outcome,
changes it. -/
theorem C90_lost [Grid F] (hs : Started i s) (hm : i.mode = .MARG) (ht : Finite i.ts) (h : ShowsF s Null)
    (hl : Leads s s') : ShowsF s' Null := by
  suffices key : Started i s' ∧ NullV s'.attitude by
    obtain ⟨hst, f, hv, hf, hn⟩ := key
    obtain ⟨v, e, k⟩ := hst.ready.1.getAttitude hv
    exact ⟨v, f, e, k, hf, hn⟩
  induction hl with
  | refl =>
    refine ⟨hs, ?_⟩
    obtain ⟨v, f, e, hv, hf, hn⟩ := h
    obtain ⟨f', k1, k2⟩ := hs.ready.1.attitude
    obtain ⟨v', k3, k4⟩ := hs.ready.1.getAttitude k1
    rw [e] at k3
    obtain rfl := Except.ok.inj k3
    exact ⟨f', k1, k2, fun j hj => by
      have h1 := hv.elem (i := j) (by omega) hj
      have h2 := k4.elem (i := j) (by omega) hj
      rw [← h2, h1]
      exact hn j hj⟩
  | @step t k hl ih =>
    obtain ⟨hst, hn⟩ := ih
    obtain ⟨hr, hk⟩ := hst.ready
    refine ⟨?_, ?_⟩
    · obtain ⟨s0', s1', h0', e', hl'⟩ := hst
      exact ⟨s0', s1', h0', e', .step k hl'⟩
    · cases k with
      | init b =>
        show NullV (Aqua.init b t).2.attitude
        rw [Ready.init hr.initialized b]
        exact hn
      | setGyr c => exact hn
      | setAcc c => exact hn
      | setMag c => exact hn
      | update gx gy gz ax ay az mx my mz =>
        exact (lost_update gx gy gz ax ay az mx my mz t).null (hk.mode.trans hm) (by rw [hk.ts]; exact ht) hn

end

/-- The MARG filter of the next theorem: all the parameters are ordinary. -/
def Aqua.lossyF : AquaInit F32 := { Aqua.plainF .MARG with tMag := lit (1 / 2) }

/-- The components of the attitude of the filter `Aqua.lossyF` after one update. -/
def Aqua.lossyRun (g : F32) : Res AhrsError (List F32) := do
  let s ← Aqua.new
  let s ← exec s (Aqua.init Aqua.lossyF)
  let s ← exec s (Aqua.update (some g) (some (lit 0)) (some (lit 0)) (lit 0) (lit 0) (lit (-1)) (lit 0) (lit 1) (lit 0))
  let v ← s.getAttitude
  (List.range 4).mapM fun i => (v.getElement i).mapErr .LinalgError

theorem Aqua.lossy (g : F32) {a b c d : F32} (h : Aqua.lossyRun g = .ok [a, b, c, d]) :
    ∃ s s', Aqua.Started Aqua.lossyF s ∧
      Aqua.update (some g) (some (lit 0)) (some (lit 0)) (lit 0) (lit 0) (lit (-1)) (lit 0) (lit 1) (lit 0) s = (.ok (), s') ∧
      Aqua.ShowsF s' fun f => f 0 = a ∧ f 1 = b ∧ f 2 = c ∧ f 3 = d := by
  unfold Aqua.lossyRun at h
  obtain ⟨s0, e0, h⟩ := AR.bind_inv h
  obtain ⟨s, e1, h⟩ := AR.bind_inv h
  obtain ⟨s', e2, h⟩ := AR.bind_inv h
  obtain ⟨v, e3, h⟩ := AR.bind_inv h
  obtain ⟨_, e1⟩ := exec_eq_ok e1
  obtain ⟨_, e2⟩ := exec_eq_ok e2
  have hs : Aqua.Started Aqua.lossyF s := ⟨s0, s, ⟨s0, e0, .refl _⟩, e1, .refl _⟩
  have hl := Aqua.Leads.step (.update (some g) (some (lit 0)) (some (lit 0)) (lit 0) (lit 0) (lit (-1)) (lit 0) (lit 1) (lit 0))
    (Aqua.Leads.refl s)
  have hs' : Aqua.Started Aqua.lossyF s' := ⟨s0, s, ⟨s0, e0, .refl _⟩, e1, by
    have : s' = (Aqua.update (some g) (some (lit 0)) (some (lit 0)) (lit 0) (lit 0) (lit (-1)) (lit 0) (lit 1) (lit 0) s).2 := by rw [e2]
    rw [this]; exact hl⟩
  obtain ⟨f, k1, k2⟩ := hs'.ready.1.attitude
  obtain ⟨w, k3, k4⟩ := hs'.ready.1.getAttitude k1
  rw [e3] at k3
  obtain rfl := Except.ok.inj k3
  refine ⟨s, s', hs, e2, v, f, e3, k4, k2, ?_⟩
  have hj : ∀ j, j < 4 → v.getElement j = .ok (f j) := fun j hj => k4.get j hj
  simp [List.range, List.range.loop, List.mapM_cons, hj, Res.mapErr_ok, Res.ok_bind] at h
  simpa using h

/-- C90: `C54_unit` does not carry over to binary32: a MARG filter that starts at the identity, given a rate of 2 ^ 120
about one axis, gravity straight down and a horizontal field, accepts the update and ends with the zero
quaternion, and stays there. -/
theorem C90_overflow : ∃ s s', Aqua.Started Aqua.lossyF s ∧
    Aqua.update (some (lit (2 ^ 120))) (some (lit 0)) (some (lit 0)) (lit 0) (lit 0) (lit (-1)) (lit 0) (lit 1) (lit 0) s = (.ok (), s') ∧
    Aqua.ShowsF s' Null ∧ ∀ s'', Aqua.Leads s' s'' → Aqua.ShowsF s'' Null := by
  obtain ⟨s, s', hs, e, v, f, k1, k2, k3, k4⟩ := Aqua.lossy (lit (2 ^ 120)) (a := lit 0) (b := lit 0) (c := lit 0) (d := lit 0)
    (by decide +kernel)
  have hn : Aqua.ShowsF s' Null := ⟨v, f, k1, k2, k3, fun j hj => by
    have : f j = lit 0 := by
      obtain rfl | rfl | rfl | rfl : j = 0 ∨ j = 1 ∨ j = 2 ∨ j = 3 := by omega
      exacts [k4.1, k4.2.1, k4.2.2.1, k4.2.2.2]
    rw [this]
    exact Rounded.zero_val⟩
  refine ⟨s, s', hs, e, hn, fun s'' hl => ?_⟩
  have hs' : Aqua.Started Aqua.lossyF s' := by
    obtain ⟨s0, s1, h0, h1, hl⟩ := hs
    refine ⟨s0, s1, h0, h1, ?_⟩
    have : s' = (Aqua.update (some (lit (2 ^ 120))) (some (lit 0)) (some (lit 0)) (lit 0) (lit 0) (lit (-1)) (lit 0) (lit 1) (lit 0) s).2 := by
      rw [e]
    rw [this]
    exact hl.step (.update _ _ _ _ _ _ _ _ _)
  exact C90_lost hs' rfl (by decide +kernel) hn hl

/-- The hypotheses of `C90_update` hold for the same filter without rotation, and the attitude is then not null. -/
example : ∃ s s', Aqua.Started Aqua.lossyF s ∧
    Aqua.update (some (lit 0)) (some (lit 0)) (some (lit 0)) (lit 0) (lit 0) (lit (-1)) (lit 0) (lit 1) (lit 0) s = (.ok (), s') ∧
    Aqua.ShowsF s' fun f => NearUnit f ∧ f 3 = lit (6420363 / 16777216) := by
  obtain ⟨s, s', hs, e, v, f, k1, k2, k3, k4⟩ := Aqua.lossy (lit 0) (a := lit (15500127 / 16777216)) (b := lit 0) (c := lit 0)
    (d := lit (6420363 / 16777216)) (by decide +kernel)
  obtain ⟨v', f', l1, l2, l3, l4⟩ := C90_update hs e
  rw [k1] at l1
  obtain rfl := Except.ok.inj l1
  have h3 : f' 3 = lit (6420363 / 16777216) :=
    (Except.ok.inj ((l2.get 3 (by omega)).symm.trans (k2.get 3 (by omega)))).trans k4.2.2.2
  refine ⟨s, s', hs, e, v, f', k1, l2, l3, l4.resolve_left fun hn => ?_, h3⟩
  have := hn 3 (by omega)
  rw [h3, val_lit (by decide +kernel)] at this
  norm_num at this

end Verif
