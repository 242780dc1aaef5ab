import Verif.Props.AquaStep

/-
Concrete runs that meet the hypotheses of the claims on the AQUA filter, in exact real arithmetic
(C53, C54, C55, C56, C69, C70, C71).
-/

set_option linter.unusedSectionVars false
set_option linter.unusedSimpArgs false

namespace Verif
open Scalar
namespace Aqua

@[local simp] theorem at_two (x y z : ℝ) : (![x, y, z] : Fin 3 → ℝ) 2 = z := rfl

/-- Sensors with unit scale, no cross-axis terms and no bias. -/
def plainG : GyrometerConfig ℝ := ⟨1, 1, 1, 0, 0, 0, 0, 0, 0, 0, 0, 0⟩
def plainA : AccelerometerConfig ℝ := ⟨1, 1, 1, 0, 0, 0, 0, 0, 0, 0, 0, 0⟩
def plainM : MagnetometerConfig ℝ := ⟨1, 1, 1, 0, 0, 0, 0, 0, 0, 0, 0, 0⟩

theorem plainA_correct (x y z : ℝ) : plainA.correct x y z = ![x, y, z] := by
  simp [plainA, AccelerometerConfig.correct]
theorem plainM_correct (x y z : ℝ) : plainM.correct x y z = ![x, y, z] := by
  simp [plainM, MagnetometerConfig.correct]
theorem plainG_rate (x y z : ℝ) : plainG.rate x y z = mkQ 0 x y z := by
  simp [plainG, GyrometerConfig.rate]

/-- Arguments of `init`. -/
noncomputable def args (mode : AquaMode) (adaptive : Bool) (α β : ℝ) (A : Quaternion ℝ) : AquaInit XR where
  mode := mode
  qw := some (.fin A.re)
  qx := some (.fin A.imI)
  qy := some (.fin A.imJ)
  qz := some (.fin A.imK)
  gyrometerConfig := some plainG.fin
  accelerometerConfig := plainA.fin
  magnetometerConfig := plainM.fin
  ts := .fin (1 / 2)
  adaptive := adaptive
  alpha := .fin α
  beta := .fin β
  t1 := .fin (1 / 10)
  t2 := .fin (1 / 5)
  tAcc := .fin (9 / 10)
  tMag := .fin (1 / 2)
  g := none
  h := none

theorem args_valid (mode : AquaMode) (adaptive : Bool) (α β : ℝ) (A : Quaternion ℝ) :
    (args mode adaptive α β A).Valid where
  gyr := fun _ => ⟨_, rfl, by
    intro x hx
    simp only [GyrometerConfig.params, List.mem_cons, List.not_mem_nil, or_false] at hx
    rcases hx with rfl | rfl | rfl | rfl | rfl | rfl | rfl | rfl | rfl | rfl | rfl | rfl <;> exact Ext.finite_fin _⟩
  acc := by
    intro x hx
    simp only [args, AccelerometerConfig.params, List.mem_cons, List.not_mem_nil, or_false] at hx
    rcases hx with rfl | rfl | rfl | rfl | rfl | rfl | rfl | rfl | rfl | rfl | rfl | rfl <;> exact Ext.finite_fin _
  mag := by
    intro x hx
    simp only [args, MagnetometerConfig.params, List.mem_cons, List.not_mem_nil, or_false] at hx
    rcases hx with rfl | rfl | rfl | rfl | rfl | rfl | rfl | rfl | rfl | rfl | rfl | rfl <;> exact Ext.finite_fin _
  quat := Or.inr ⟨_, _, _, _, rfl, rfl, rfl, rfl, Ext.finite_fin _, Ext.finite_fin _, Ext.finite_fin _,
    Ext.finite_fin _⟩

/-- A filter fresh from `init`. -/
theorem started (mode : AquaMode) (adaptive : Bool) (α β : ℝ) (A : Quaternion ℝ) : ∃ s0 s, Reachable s0 ∧
    Aqua.init (args mode adaptive α β A) s0 = (.ok (), s) ∧ Started (args mode adaptive α β A) s ∧ Shows s A ∧
    (mode = .MARG → s.getGyrometerConfig = .ok plainG.fin) ∧ s.getAccelerometerConfig = .ok plainA.fin ∧
    s.getMagnetometerConfig = .ok plainM.fin := by
  obtain ⟨s0, e0, -⟩ := new_fresh (F := XR)
  have h0 : Reachable s0 := ⟨s0, e0, .refl _⟩
  have hi : Aqua.init (args mode adaptive α β A) s0 = (.ok (), (Aqua.init (args mode adaptive α β A) s0).2) :=
    Prod.ext ((C52_iff e0).mpr (args_valid mode adaptive α β A)) rfl
  obtain ⟨⟨v, hv, hv1⟩, hg, ha, hm⟩ := C52_attitude h0 hi
  refine ⟨s0, _, h0, hi, ⟨s0, _, h0, hi, .refl _⟩, ⟨v, hv, ?_⟩, ?_, ha, hm⟩
  · exact hv1
  · intro hmode
    obtain ⟨c, hc, hc'⟩ := hg hmode
    obtain rfl := Option.some.inj hc
    exact hc'

theorem leads_update {s t : Aqua XR} {r : Res AhrsError Unit} {gx gy gz : Option XR} {ax ay az mx my mz : XR}
    (h : Aqua.update gx gy gz ax ay az mx my mz s = (r, t)) : Leads s t := by
  have := Leads.step (.update gx gy gz ax ay az mx my mz) (Leads.refl s)
  rw [Aqua.call, h] at this
  exact this

/-! ### The AM mode -/

/-- C53, C54, C69: an AM update that succeeds, from a level frame: the acceleration `(3/5, 0, -4/5)` and the
field `(1, 2, 3)`; another filter whose attitude was moved by an earlier update, and which is handed angular
rates, shows the same afterwards. -/
example : ∃ s s1 t t1 Q, Started (args .AM false 1 1 1) s ∧ Started (args .AM false 1 1 1) s1 ∧
    (¬ Shows s1 1) ∧
    Aqua.update none none none (.fin (3 / 5)) (.fin 0) (.fin (-4 / 5)) (.fin 1) (.fin 2) (.fin 3) s = (.ok (), t) ∧
    Aqua.update (some (.fin 1)) none none (.fin (3 / 5)) (.fin 0) (.fin (-4 / 5)) (.fin 1) (.fin 2) (.fin 3) s1 =
      (.ok (), t1) ∧ Shows t Q ∧ Shows t1 Q ∧ ‖Q‖ = 1 := by
  obtain ⟨s0, s, h0, hi, hs, h1, -, ha, hm⟩ := started .AM false 1 1 1
  have hn : epsilon ℝ < norm3 (plainA.correct (3 / 5) 0 (-4 / 5)) := by
    rw [plainA_correct]
    have : norm3 ![3 / 5, 0, -4 / 5] = 1 := by
      unfold norm3
      rw [Real.sqrt_eq_one]
      norm_num [Matrix.cons_val_one, Matrix.cons_val_two]
    rw [this]
    exact AR.eps_lt_one
  have hm1 : epsilon ℝ < norm3 (plainM.correct 1 2 3) := by
    rw [plainM_correct]
    refine AR.eps_lt_one.trans_le ?_
    unfold norm3
    rw [Real.one_le_sqrt]
    norm_num [Matrix.cons_val_one, Matrix.cons_val_two]
  have hne : ¬ ∃ c : ℝ, plainM.correct 1 2 3 = c • plainA.correct (3 / 5) 0 (-4 / 5) := by
    rintro ⟨c, hc⟩
    rw [plainM_correct, plainA_correct] at hc
    have := congrFun hc 1
    norm_num at this
  obtain ⟨t, Q, e, hQ, hQ1, hQa, -⟩ := C69_align hs rfl ha hm none none none hn hm1 hne
  have hst : Started (args .AM false 1 1 1) t := ⟨s0, s, h0, hi, leads_update e⟩
  have hstep := frame_update (none : Option XR) none none (.fin (3 / 5)) (.fin 0) (.fin (-4 / 5)) (.fin 1) (.fin 2)
      (.fin 3) s
  rw [e] at hstep
  have ha' : t.getAccelerometerConfig = .ok plainA.fin := (hstep.acc hs.ready.1.acc).2.2.trans ha
  have hm' : t.getMagnetometerConfig = .ok plainM.fin := (hstep.mag hs.ready.1.mag).2.2.trans hm
  obtain ⟨t', e', h'⟩ := C53_am hs hst rfl rfl ha ha' hm hm' (gx' := some (.fin 1)) (gy' := none) (gz' := none) e
  refine ⟨s, t, t, t', Q, hs, hst, ?_, e, e', hQ, ?_, hQ1⟩
  · intro h
    obtain rfl := shows_inj hQ h
    rw [star_one, one_mul, mul_one, plainA_correct] at hQa
    have := congrArg (fun q : Quaternion ℝ => q.imI) hQa
    norm_num [pureQ] at this
  · obtain ⟨v, hv, hv1⟩ := hQ
    exact ⟨v, h'.trans hv, hv1⟩

/-- C69: a field along the acceleration is refused. -/
example : ∃ s, Started (args .AM false 1 1 1) s ∧
    (Aqua.update none none none (.fin (3 / 5)) (.fin 0) (.fin (-4 / 5)) (.fin 3) (.fin 0) (.fin (-4)) s).1 =
      .error (.err (.LinalgError (.UtilsError .Nan))) := by
  obtain ⟨s0, s, h0, hi, hs, h1, -, ha, hm⟩ := started .AM false 1 1 1
  refine ⟨s, hs, C69_refused hs rfl ha hm none none none ?_ (Or.inr ⟨5, ?_⟩)⟩
  · rw [plainA_correct]
    have : norm3 ![3 / 5, 0, -4 / 5] = 1 := by
      unfold norm3
      rw [Real.sqrt_eq_one]
      norm_num [Matrix.cons_val_one, Matrix.cons_val_two]
    rw [this]
    exact AR.eps_lt_one
  · rw [plainM_correct, plainA_correct]
    ext j
    fin_cases j <;> norm_num

/-! ### The MARG mode -/

theorem fixed_args {α β : ℝ} (hα : 0 ≤ α ∧ α ≤ 1) (hβ : 0 ≤ β ∧ β ≤ 1) (A : Quaternion ℝ) :
    AquaInit.Fixed (args .MARG false α β A) (1 / 2) α β (9 / 10) (1 / 2) :=
  ⟨rfl, rfl, rfl, rfl, rfl, rfl, rfl, hα, hβ, by norm_num, by norm_num⟩

theorem unitOf_mk {w x y z n : ℝ} (h : w ^ 2 + x ^ 2 + y ^ 2 + z ^ 2 = n ^ 2) (hn : 1 ≤ n) :
    unitOf (mkQ w x y z) = mkQ (w / n) (x / n) (y / n) (z / n) := by
  have h1 : ‖mkQ w x y z‖ = n := by
    rw [quat_norm, normSq_mkQ, h, Real.sqrt_sq (by linarith)]
  unfold unitOf
  rw [h1, if_pos (AR.eps_lt_one.trans_le hn), mkQ_smul]
  simp only [div_eq_inv_mul]

theorem dir_one {u : Fin 3 → ℝ} (h : norm3 u = 1) : dir u = u := by
  unfold dir
  rw [h]
  funext k
  simp [AR.eps_lt_one]

theorem magPos_one {x y w : ℝ} (h : x * x + y * y = 1) (hw : 2 * w ^ 2 = 1 + x) (h0 : 0 < w) :
    magPos x y = mkQ w 0 0 (y / (2 * w)) := by
  have h2 : (√2 : ℝ) ≠ 0 := by positivity
  have e : √(1 + x) = √2 * w := by
    rw [← hw, Real.sqrt_mul (by norm_num), Real.sqrt_sq h0.le]
  unfold magPos
  rw [h, Real.sqrt_one, mul_one, mul_one, e, mul_div_cancel_left₀ _ h2, ← mul_assoc,
    Real.mul_self_sqrt (by norm_num)]

theorem inter_zero_mk {t : ℝ} {Q : Quaternion ℝ} (h : -1 < Q.re) (h' : t < Q.re ∨ Q.re < 1) : Inter 0 t Q 1 := by
  by_cases ht : t < Q.re
  · refine Or.inl ⟨ht, ?_⟩
    unfold lerpQ
    rw [sub_zero, one_smul, zero_smul, add_zero, unitOf_unit (norm_one (by simp))]
  · have h1 := h'.resolve_left ht
    refine Or.inr ⟨not_lt.mp ht, h, h1, ?_⟩
    have hs : Real.sin (Real.arccos Q.re) ≠ 0 := by
      rw [Real.sin_arccos]
      exact (Real.sqrt_pos.mpr (by nlinarith)).ne'
    unfold slerpQ
    rw [sub_zero, one_mul, div_self hs, zero_mul, Real.sin_zero, zero_div, zero_smul, one_smul, add_zero]

theorem inter_one_mk {t : ℝ} {Q : Quaternion ℝ} (hQ : ‖Q‖ = 1) (ht : t < Q.re) : Inter 1 t Q Q := by
  refine Or.inl ⟨ht, ?_⟩
  unfold lerpQ
  rw [sub_self, zero_smul, zero_add, one_smul, unitOf_unit hQ]

/-- A turn about the third axis, seen level. -/
noncomputable def turning : Sample := ⟨![0, 0, 3], ![0, 0, -1], ![1, 0, 0]⟩

theorem turning_rate : turning.rate plainG = mkQ 0 0 0 3 := plainG_rate _ _ _
theorem turning_acc : turning.acc plainA = ![0, 0, -1] := plainA_correct _ _ _
theorem turning_field : turning.field plainM = ![1, 0, 0] := plainM_correct _ _ _

theorem turned : predQ 1 (mkQ 0 0 0 3) (1 / 2) = mkQ (4 / 5) 0 0 (3 / 5) := by
  have e : (1 + ((1 : ℝ) / 2 / 2) • (1 * mkQ 0 0 0 3) : Quaternion ℝ) = mkQ 1 0 0 (3 / 4) := by
    apply Quaternion.ext <;> simp [Quaternion.re_one, Quaternion.imI_one, Quaternion.imJ_one, Quaternion.imK_one]
    norm_num
  unfold predQ
  rw [e, unitOf_mk (n := 5 / 4) (by norm_num) (by norm_num)]
  norm_num

theorem turned_field : unrot (mkQ (4 / 5) 0 0 (3 / 5)) (dir ![1, 0, 0]) = ![7 / 25, -24 / 25, 0] := by
  rw [dir_one (by unfold norm3; simp)]
  funext k
  fin_cases k <;> norm_num [unrot, dcmOf, tbl]

theorem turned_down (z : ℝ) : unrot (mkQ (4 / 5) 0 0 (3 / 5)) ![0, 0, z] = ![0, 0, z] := by
  funext k
  fin_cases k <;> norm_num [unrot, dcmOf, tbl]

theorem accQ_down : accQ ![0, 0, -1] = 1 := by
  unfold accQ
  rw [if_pos (by norm_num), ← mkQ_one]
  norm_num

theorem turned_heading : magPos (7 / 25) (-24 / 25) = mkQ (4 / 5) 0 0 (-3 / 5) := by
  rw [magPos_one (w := 4 / 5) (by norm_num) (by norm_num) (by norm_num)]
  norm_num

theorem turning_step {β : ℝ} {J : Quaternion ℝ} (h : Inter β (1 / 2) (mkQ (4 / 5) 0 0 (-3 / 5)) J) :
    StepTo 1 (turning.rate plainG) (turning.acc plainA) (turning.field plainM) (1 / 2) 0 β (9 / 10) (1 / 2) 1 J := by
  constructor
  · rw [turning_rate, turned, turning_acc, turned_down, accQ_down]
    exact inter_zero_mk (by rw [Quaternion.re_one]; norm_num) (Or.inl (by rw [Quaternion.re_one]; norm_num))
  · rw [turning_rate, turned, mul_one, turning_field, turned_field]
    have := Real.sqrt_nonneg ((7 : ℝ) / 25 * (7 / 25) + -24 / 25 * (-24 / 25))
    show 0 < √((7 : ℝ) / 25 * (7 / 25) + -24 / 25 * (-24 / 25)) + 7 / 25
    linarith
  · rw [turning_rate, turned, mul_one, turning_field, turned_field]
    show Inter β (1 / 2) (magPos (7 / 25) (-24 / 25)) J
    rw [turned_heading]
    exact h

theorem heading_unit : ‖(mkQ (4 / 5) 0 0 (-3 / 5) : Quaternion ℝ)‖ = 1 := norm_one (by rw [normSq_mkQ]; norm_num)
theorem turn_unit : ‖(mkQ (4 / 5) 0 0 (3 / 5) : Quaternion ℝ)‖ = 1 := norm_one (by rw [normSq_mkQ]; norm_num)

/-- C54, C70: without gains the filter integrates the rate. -/
example : ∃ s s', Started (args .MARG false 0 0 1) s ∧ Shows s 1 ∧ feed turning s = (.ok (), s') ∧
    Shows s' (mkQ (4 / 5) 0 0 (3 / 5)) := by
  obtain ⟨s0, s, h0, hi, hs, h1, hg, ha, hm⟩ := started .MARG false 0 0 1
  obtain ⟨s', e, h⟩ := fixed_ok hs (fixed_args (by norm_num) (by norm_num) 1) h1 (hg rfl) ha hm (turning_step
    (inter_zero_mk (by norm_num) (Or.inl (by norm_num))))
  refine ⟨s, s', hs, h1, e, ?_⟩
  rw [turning_rate, turned, mul_one, mul_one, unitOf_unit turn_unit] at h
  exact h

/-- C70: with full gain for the field the same turn is undone, because the field did not turn. -/
example : ∃ s s', Started (args .MARG false 0 1 1) s ∧ Shows s 1 ∧ feed turning s = (.ok (), s') ∧ Shows s' 1 := by
  obtain ⟨s0, s, h0, hi, hs, h1, hg, ha, hm⟩ := started .MARG false 0 1 1
  obtain ⟨s', e, h⟩ := fixed_ok hs (fixed_args (by norm_num) (by norm_num) 1) h1 (hg rfl) ha hm (turning_step
    (inter_one_mk heading_unit (by norm_num)))
  refine ⟨s, s', hs, h1, e, ?_⟩
  have e1 : (mkQ (4 / 5) 0 0 (3 / 5) * mkQ (4 / 5) 0 0 (-3 / 5) : Quaternion ℝ) = 1 := by
    apply Quaternion.ext <;> simp [Quaternion.re_mul, Quaternion.imI_mul, Quaternion.imJ_mul, Quaternion.imK_mul,
      Quaternion.re_one, Quaternion.imI_one, Quaternion.imJ_one, Quaternion.imK_one] <;> norm_num
  rw [turning_rate, turned, mul_one, e1, unitOf_unit (norm_one (by simp))] at h
  exact h

/-- C70: a turned attitude that agrees with both sensors is kept, whatever the gains. -/
example : ∃ s s', Started (args .MARG false (1 / 2) (1 / 3) (mkQ (4 / 5) 0 0 (3 / 5))) s ∧
    feed ⟨![0, 0, 0], ![0, 0, -981 / 100], ![7 / 25, 24 / 25, 1]⟩ s = (.ok (), s') ∧
    Shows s' (mkQ (4 / 5) 0 0 (3 / 5)) := by
  obtain ⟨s0, s, h0, hi, hs, h1, hg, ha, hm⟩ := started .MARG false (1 / 2) (1 / 3) (mkQ (4 / 5) 0 0 (3 / 5))
  obtain ⟨s', e, h⟩ := C70_fixed (y := ⟨![0, 0, 0], ![0, 0, -981 / 100], ![7 / 25, 24 / 25, 1]⟩) (x := 1) (z := 1)
    (n := 981 / 100) hs (fixed_args (by norm_num) (by norm_num) _) h1 turn_unit (hg rfl) ha hm (by norm_num)
    (by norm_num) ((plainG_rate _ _ _).trans (Quaternion.ext _ _ rfl rfl rfl rfl))
    (by
      rw [show Sample.acc plainA _ = _ from plainA_correct _ _ _]
      apply Quaternion.ext <;> simp [pureQ, Quaternion.re_mul, Quaternion.imI_mul, Quaternion.imJ_mul,
        Quaternion.imK_mul] <;> norm_num)
    (by norm_num)
    (by
      rw [show Sample.field plainM _ = _ from plainM_correct _ _ _]
      apply Quaternion.ext <;> simp [pureQ, Quaternion.re_mul, Quaternion.imI_mul, Quaternion.imJ_mul,
        Quaternion.imK_mul] <;> norm_num)
    (by norm_num)
    (by
      rw [show Sample.field plainM _ = _ from plainM_correct _ _ _]
      refine AR.eps_lt_one.trans_le ?_
      unfold norm3
      rw [Real.one_le_sqrt]
      norm_num [Matrix.cons_val_one, Matrix.cons_val_two])
  exact ⟨s, s', hs, e, h⟩

/-- C54: a filter started with the zero quaternion accepts samples and stays at zero. -/
example : ∃ s s', Started (args .MARG false 0 0 0) s ∧ Shows s 0 ∧
    feed ⟨![0, 0, 3], ![0, 0, -1], ![0, 1, 0]⟩ s = (.ok (), s') ∧ Shows s' 0 := by
  obtain ⟨s0, s, h0, hi, hs, h1, hg, ha, hm⟩ := started .MARG false 0 0 0
  have z0 : unrot 0 ![0, 0, -1] = ![0, 0, -1] := by
    funext k
    fin_cases k <;> norm_num [unrot, dcmOf, tbl, Quaternion.re_zero, Quaternion.imI_zero, Quaternion.imJ_zero,
      Quaternion.imK_zero]
  have z1 : unrot 0 (dir ![0, 1, 0]) = ![0, 1, 0] := by
    rw [dir_one (by unfold norm3; simp)]
    funext k
    fin_cases k <;> norm_num [unrot, dcmOf, tbl, Quaternion.re_zero, Quaternion.imI_zero, Quaternion.imJ_zero,
      Quaternion.imK_zero]
  have z2 : magPos 0 1 = mkQ (√(1 / 2)) 0 0 (1 / (2 * √(1 / 2))) := by
    refine magPos_one (by norm_num) ?_ (Real.sqrt_pos.mpr (by norm_num))
    rw [Real.sq_sqrt (by norm_num)]
    norm_num
  have z3 : 1 / 2 < √(1 / 2 : ℝ) := by
    rw [Real.lt_sqrt (by norm_num)]
    norm_num
  obtain ⟨s', e, h⟩ := fixed_ok (I := 1) (J := 1) (y := ⟨![0, 0, 3], ![0, 0, -1], ![0, 1, 0]⟩) hs
    (fixed_args (by norm_num) (by norm_num) 0) h1 (hg rfl) ha hm (by
    rw [show Sample.acc plainA _ = _ from plainA_correct _ _ _, show Sample.field plainM _ = _ from plainM_correct _ _ _]
    constructor
    · rw [predQ_zero]
      show Inter _ _ (accQ (unrot 0 ![0, 0, -1])) _
      rw [z0, accQ_down]
      exact inter_zero_mk (by rw [Quaternion.re_one]; norm_num) (Or.inl (by rw [Quaternion.re_one]; norm_num))
    · rw [predQ_zero, mul_one]
      show 0 < √(unrot 0 (dir ![0, 1, 0]) 0 * unrot 0 (dir ![0, 1, 0]) 0 + unrot 0 (dir ![0, 1, 0]) 1 *
        unrot 0 (dir ![0, 1, 0]) 1) + unrot 0 (dir ![0, 1, 0]) 0
      rw [z1]
      norm_num
    · rw [predQ_zero, mul_one]
      show Inter _ _ (magPos (unrot 0 (dir ![0, 1, 0]) 0) (unrot 0 (dir ![0, 1, 0]) 1)) _
      rw [z1]
      show Inter _ _ (magPos 0 1) _
      rw [z2]
      exact inter_zero_mk (show -1 < √(1 / 2 : ℝ) by linarith) (Or.inl z3))
  refine ⟨s, s', hs, h1, e, ?_⟩
  rw [predQ_zero, zero_mul, zero_mul, unitOf_zero] at h
  exact h

/-- C71: an acceleration of norm above 1 is overshot: with full gain the filter turns from the identity to
`(4/5, 0, -3/5, 0)`, from where the acceleration is not vertical. -/
example : ∃ s s', Started (args .MARG false 1 0 1) s ∧ Shows s 1 ∧
    feed ⟨![0, 0, 0], ![6, 0, -7], ![0, 1, 0]⟩ s = (.ok (), s') ∧ Shows s' (mkQ (4 / 5) 0 (-3 / 5) 0) ∧
    ¬ ∃ Q w, Shows s' Q ∧ star Q * pureQ ![6, 0, -7] * Q = mkQ 0 0 0 w := by
  obtain ⟨s0, s, h0, hi, hs, h1, hg, ha, hm⟩ := started .MARG false 1 0 1
  have n1 : ‖(1 : Quaternion ℝ)‖ = 1 := norm_one (by simp)
  have hr : Sample.rate plainG ⟨![0, 0, 0], ![6, 0, -7], ![0, 1, 0]⟩ = 0 :=
    (plainG_rate _ _ _).trans (Quaternion.ext _ _ rfl rfl rfl rfl)
  have e4 : √(4 : ℝ) = 2 := by
    rw [show (4 : ℝ) = 2 ^ 2 by norm_num, Real.sqrt_sq (by norm_num)]
  have hq : accQ ![6, 0, -7] = mkQ 2 0 (-3 / 2) 0 := by
    unfold accQ
    rw [if_pos (by norm_num)]
    norm_num [e4]
  have hI : Inter 1 (9 / 10) (accQ ![6, 0, -7]) (mkQ (4 / 5) 0 (-3 / 5) 0) := by
    rw [hq]
    refine Or.inl ⟨by norm_num, ?_⟩
    unfold lerpQ
    rw [sub_self, zero_smul, zero_add, one_smul, unitOf_mk (n := 5 / 2) (by norm_num) (by norm_num)]
    norm_num
  have u1 : unrot 1 ![6, 0, -7] = ![6, 0, -7] := by
    funext k
    fin_cases k <;> norm_num [unrot, dcmOf, tbl, Quaternion.re_one, Quaternion.imI_one, Quaternion.imJ_one,
      Quaternion.imK_one]
  have z1 : unrot (mkQ (4 / 5) 0 (-3 / 5) 0) (dir ![0, 1, 0]) = ![0, 1, 0] := by
    rw [dir_one (by unfold norm3; simp)]
    funext k
    fin_cases k <;> norm_num [unrot, dcmOf, tbl]
  have z2 : magPos 0 1 = mkQ (√(1 / 2)) 0 0 (1 / (2 * √(1 / 2))) := by
    refine magPos_one (by norm_num) ?_ (Real.sqrt_pos.mpr (by norm_num))
    rw [Real.sq_sqrt (by norm_num)]
    norm_num
  have z3 : 1 / 2 < √(1 / 2 : ℝ) := by
    rw [Real.lt_sqrt (by norm_num)]
    norm_num
  have hf := fixed_args (show (0 : ℝ) ≤ 1 ∧ (1 : ℝ) ≤ 1 by norm_num) (show (0 : ℝ) ≤ 0 ∧ (0 : ℝ) ≤ 1 by norm_num) 1
  obtain ⟨s', e, h⟩ := fixed_ok (I := mkQ (4 / 5) 0 (-3 / 5) 0) (J := 1)
    (y := ⟨![0, 0, 0], ![6, 0, -7], ![0, 1, 0]⟩) hs hf h1 (hg rfl) ha hm (by
    rw [show Sample.acc plainA _ = _ from plainA_correct _ _ _, show Sample.field plainM _ = _ from plainM_correct _ _ _,
      hr]
    constructor
    · rw [predQ_rest n1]
      show Inter _ _ (accQ (unrot 1 ![6, 0, -7])) _
      rw [u1]
      exact hI
    · rw [predQ_rest n1, one_mul]
      show 0 < √(unrot _ (dir ![0, 1, 0]) 0 * unrot _ (dir ![0, 1, 0]) 0 + unrot _ (dir ![0, 1, 0]) 1 *
        unrot _ (dir ![0, 1, 0]) 1) + unrot _ (dir ![0, 1, 0]) 0
      rw [z1]
      norm_num
    · rw [predQ_rest n1, one_mul]
      show Inter _ _ (magPos (unrot _ (dir ![0, 1, 0]) 0) (unrot _ (dir ![0, 1, 0]) 1)) _
      rw [z1]
      show Inter _ _ (magPos 0 1) _
      rw [z2]
      exact inter_zero_mk (show -1 < √(1 / 2 : ℝ) by linarith) (Or.inl z3))
  refine ⟨s, s', hs, h1, e, ?_, ?_⟩
  · rw [hr, predQ_rest n1, one_mul, mul_one, unitOf_unit (norm_one (by rw [normSq_mkQ]; norm_num))] at h
    exact h
  · have ea : Sample.acc plainA ⟨![0, 0, 0], ![6, 0, -7], ![0, 1, 0]⟩ = ![6, 0, -7] := plainA_correct _ _ _
    have := C71_iff hs hf h1 n1 (hg rfl) ha hm hr (p := 6) (q := 0) (r := -7)
      (by rw [ea, star_one, one_mul, mul_one]; rfl) (by norm_num)
      (by rw [show (1 - -7 : ℝ) / 2 = 4 by norm_num, e4]; norm_num) e
    rw [ea] at this
    rw [this]
    rintro (h | ⟨h, -⟩)
    · have := congrArg (· ^ 2) h
      simp only [norm3_sq] at this
      norm_num [Matrix.cons_val_one, Matrix.cons_val_two] at this
    · norm_num at h

/-! ### The adaptive gain -/

/-- A sample whose acceleration is `k` times the reference. -/
noncomputable def pulled (k : ℝ) : Sample := ⟨![0, 0, 3], ![0, 0, -(k * (981 / 100))], ![1, 0, 0]⟩

theorem pulled_error {k : ℝ} (h : 1 / 10 ≤ k) : (pulled k).error plainA (981 / 100) = |k - 1| := by
  have hn : norm3 (plainA.correct ((pulled k).a 0) ((pulled k).a 1) ((pulled k).a 2)) = k * (981 / 100) := by
    rw [plainA_correct]
    show norm3 ![0, 0, -(k * (981 / 100))] = _
    unfold norm3
    rw [show (![0, 0, -(k * (981 / 100))] : Fin 3 → ℝ) 0 ^ 2 + (![0, 0, -(k * (981 / 100))] : Fin 3 → ℝ) 1 ^ 2 +
      (![0, 0, -(k * (981 / 100))] : Fin 3 → ℝ) 2 ^ 2 = (k * (981 / 100)) ^ 2 by simp]
    exact Real.sqrt_sq (by linarith)
  have he := eps_lt_half
  unfold Sample.error
  rw [hn, if_neg (by linarith), show k * (981 / 100) - 981 / 100 = (k - 1) * (981 / 100 : ℝ) by ring, abs_mul,
    mul_div_assoc, div_self (by norm_num), mul_one]

/-- C55: after one sample 15 per cent above the reference the filter refuses that sample and every later one
of the right size. -/
example : ∃ s0 s, Reachable s0 ∧ Aqua.init (args .MARG true (1 / 2) 0 1) s0 = (.ok (), s) ∧
    (feed (pulled (23 / 20)) (feeds s [pulled 1])).1 = .error (.err (.LinalgError .InvalidAlpha)) ∧
    (feed (pulled 1) (feeds s [pulled 1, pulled (23 / 20), pulled 1])).1 =
      .error (.err (.LinalgError .InvalidAlpha)) := by
  obtain ⟨s0, s, h0, hi, hs, h1, hg, ha, hm⟩ := started .MARG true (1 / 2) 0 1
  have e1 : (pulled 1).error plainA (981 / 100) ≤ 1 / 10 := by rw [pulled_error (by norm_num)]; norm_num
  have e2 : (pulled (23 / 20)).error plainA (981 / 100) = 3 / 20 := by
    rw [pulled_error (by norm_num), abs_of_pos (by norm_num)]
    norm_num
  have hl : ∀ x ∈ [pulled 1], x.error plainA (981 / 100) ≤ 1 / 10 := by
    intro x hx
    rw [List.mem_singleton] at hx
    rw [hx]
    exact e1
  have hγ : (args .MARG true (1 / 2) 0 1).g.getD (lit (981 / 100)) = .fin (981 / 100 : ℝ) := by
    show (lit (981 / 100) : XR) = _
    rw [Ext.lit_eq]
    norm_num
  have := C55_stuck (d := plainA) (u := 1 / 10) (v := 1 / 5) (γ := 981 / 100) (τ := 1 / 2) (α := 1 / 2) (t := 9 / 10)
    (b := 0) h0 hi rfl rfl rfl rfl (by norm_num) (by norm_num) hγ (by norm_num) rfl rfl (by norm_num) rfl rfl
    (by norm_num) (by norm_num) rfl (by norm_num) (by norm_num) (l := [pulled 1]) (l' := [pulled 1])
    (x := pulled (23 / 20)) (y := pulled 1) hl (by rw [e2]; norm_num) (by rw [e2]; norm_num) hl e1
  exact ⟨s0, s, h0, hi, this⟩

theorem pulled_rate (k : ℝ) : (pulled k).rate plainG = mkQ 0 0 0 3 := plainG_rate _ _ _
theorem pulled_acc (k : ℝ) : (pulled k).acc plainA = ![0, 0, -(k * (981 / 100))] := plainA_correct _ _ _
theorem pulled_field (k : ℝ) : (pulled k).field plainM = ![1, 0, 0] := plainM_correct _ _ _

theorem pulled_step {k : ℝ} (hk : 1 ≤ k) : StepTo 1 ((pulled k).rate plainG) ((pulled k).acc plainA)
    ((pulled k).field plainM) (1 / 2) 0 1 (9 / 10) (1 / 2) 1 (mkQ (4 / 5) 0 0 (-3 / 5)) := by
  have hs := turning_step (inter_one_mk (t := 1 / 2) heading_unit (by norm_num))
  rw [turning_rate, turning_field] at hs
  rw [pulled_rate, pulled_field, pulled_acc]
  refine ⟨?_, hs.ahead, hs.mag⟩
  rw [turned, turned_down]
  have hre : 1 ≤ (accQ ![0, 0, -(k * (981 / 100))]).re := by
    unfold accQ
    rw [if_pos (by rw [at_two]; linarith)]
    show 1 ≤ √((1 - -(k * (981 / 100))) / 2)
    rw [Real.one_le_sqrt]
    linarith
  exact inter_zero_mk (by linarith) (Or.inl (by linarith))

/-- An update of a filter whose adaptive gain is 0. -/
theorem pulled_ok {i : AquaInit XR} {s : Aqua XR} {c k : ℝ} (hi : i = args .MARG true (1 / 2) 1 1) (hs : Started i s)
    (h1 : Shows s 1) (hg : s.getGyrometerConfig = .ok plainG.fin) (ha : s.getAccelerometerConfig = .ok plainA.fin)
    (hm : s.getMagnetometerConfig = .ok plainM.fin) (hc : Adaptive i plainA (1 / 10) (1 / 5) (981 / 100) (1 / 2) s c) (hk : 1 ≤ k)
    (hz : c * gainFactor (1 / 10) (1 / 5) ((pulled k).error plainA (981 / 100)) = 0) :
    ∃ s', feed (pulled k) s = (.ok (), s') ∧ Shows s' 1 := by
  subst hi
  obtain ⟨s1, hrun, j1, j2, j3⟩ := marg_feed hs rfl h1 hg ha hm (pulled k)
  have hA : gainX s1 (.fin (shown ((pulled k).acc plainA))) = .fin 0 := by
    have e : gainX s1 (.fin (shown ((pulled k).acc plainA))) = gainX s (.fin (shown ((pulled k).acc plainA))) := by
      unfold gainX
      rw [j2.t1, j2.t2, j2.g, j3, hc.settings.t1, hc.settings.t2, hc.settings.g]
    rw [e, hc.gain]
    exact congrArg Ext.fin hz
  have e12 : (s1.t2 ≤ᶠ s1.t1) = false := by
    rw [j2.t1, j2.t2]
    show ((.fin (1 / 5) : XR) ≤ᶠ .fin (1 / 10)) = false
    rw [Ext.le_fin]
    norm_num
  have had : s1.adaptive = true := j2.adaptive
  obtain ⟨r1, r2, r3⟩ := hrun.succeeds (fun _ => e12) j2.ts (by rw [had, if_pos rfl, hA]) j2.beta j2.tAcc j2.tMag
    (by norm_num) (by norm_num) (by norm_num) (by norm_num) (pulled_step hk)
  refine ⟨_, Prod.ext r1 rfl, shows_of (r2.trans j1) ?_⟩
  have e1 : (mkQ (4 / 5) 0 0 (3 / 5) * mkQ (4 / 5) 0 0 (-3 / 5) : Quaternion ℝ) = 1 := by
    apply Quaternion.ext <;> simp [Quaternion.re_mul, Quaternion.imI_mul, Quaternion.imJ_mul, Quaternion.imK_mul,
      Quaternion.re_one, Quaternion.imI_one, Quaternion.imJ_one, Quaternion.imK_one] <;> norm_num
  rw [pulled_rate, turned, mul_one, e1, unitOf_unit (norm_one (by simp))] at r3
  exact r3

/-- C56: after one sample at twice the reference the gain is 0, and two later samples that differ in the
acceleration are accepted with the same effect. -/
example : ∃ s0 s s1 s2, Reachable s0 ∧ Aqua.init (args .MARG true (1 / 2) 1 1) s0 = (.ok (), s) ∧
    feed (pulled 1) (feeds s [pulled 2]) = (.ok (), s1) ∧ feed (pulled (3 / 2)) (feeds s [pulled 2]) = (.ok (), s2) ∧
    Shows s1 1 ∧ Shows s2 1 := by
  obtain ⟨s0, s, h0, hi, hs, h1, hg, ha, hm⟩ := started .MARG true (1 / 2) 1 1
  have e2 : gainFactor (1 / 10) (1 / 5) ((pulled 2).error plainA (981 / 100)) = 0 := by
    rw [pulled_error (by norm_num)]
    norm_num [gainFactor]
  have hγ : (args .MARG true (1 / 2) 1 1).g.getD (lit (981 / 100)) = .fin (981 / 100 : ℝ) := by
    show (lit (981 / 100) : XR) = _
    rw [Ext.lit_eq]
    norm_num
  have hA := adaptive_init (d := plainA) (u := 1 / 10) (v := 1 / 5) (γ := 981 / 100) (τ := 1 / 2) (α := 1 / 2)
    h0 hi rfl rfl rfl rfl (by norm_num) (by norm_num) hγ (by norm_num) rfl rfl rfl
  obtain ⟨t, e, ht⟩ := pulled_ok rfl hs h1 (hg rfl) ha hm hA (k := 2) (by norm_num) (by rw [e2, mul_zero])
  have hA' := hA.next (pulled 2)
  have hst : Started (args .MARG true (1 / 2) 1 1) t := ⟨s0, s, h0, hi, leads_update e⟩
  have hf : feeds s [pulled 2] = t := by
    show (feed (pulled 2) s).2 = t
    rw [e]
  rw [e, e2, mul_zero] at hA'
  have hstep := frame_update (some (.fin ((pulled 2).g 0) : XR)) (some (.fin ((pulled 2).g 1)))
    (some (.fin ((pulled 2).g 2))) (.fin ((pulled 2).a 0)) (.fin ((pulled 2).a 1)) (.fin ((pulled 2).a 2))
    (.fin ((pulled 2).m 0)) (.fin ((pulled 2).m 1)) (.fin ((pulled 2).m 2)) s
  have e' := e
  unfold feed at e'
  rw [e'] at hstep
  have ha' : t.getAccelerometerConfig = .ok plainA.fin := (hstep.acc hs.ready.1.acc).2.2.trans ha
  have hm' : t.getMagnetometerConfig = .ok plainM.fin := (hstep.mag hs.ready.1.mag).2.2.trans hm
  have hg' : t.getGyrometerConfig = .ok plainG.fin := (hstep.gyr hs.ready.1.gyr).2.2.trans (hg rfl)
  obtain ⟨s1, e1, k1⟩ := pulled_ok rfl hst ht hg' ha' hm' hA' (k := 1) (by norm_num) (by rw [zero_mul])
  obtain ⟨s2, e2, k2⟩ := pulled_ok rfl hst ht hg' ha' hm' hA' (k := 3 / 2) (by norm_num) (by rw [zero_mul])
  refine ⟨s0, s, s1, s2, h0, hi, ?_, ?_, k1, k2⟩
  · rw [hf, e1]
  · rw [hf, e2]

end Aqua
end Verif
