import Verif.Props.RoundedMargParts

/-
One update of the MARG mode of the AQUA filter in binary32 (C111).
-/

set_option linter.unusedSectionVars false

namespace Verif
open Scalar Finset

variable {F : Type} [Scalar F] [R : Rounded F]

theorem Gyrometer.Reads.finite [ScalarLawful F] {c : GyrometerConfig F} {x y z p q r : F} (h : Gyrometer.Reads c x y z p q r) :
    Finite p ∧ Finite q ∧ Finite r := by
  obtain ⟨g0, g0', h1, h2, h3, h4, h5, h6⟩ := h
  obtain ⟨-, l1, l2, l3, -⟩ := C43_gyr_formula h1 h2 h3
  obtain ⟨-, -, k1, k2, k3⟩ := (C43_gyr_iff h1 h2).mp (congrArg Prod.fst h3)
  obtain rfl := Except.ok.inj (l1.symm.trans h4)
  obtain rfl := Except.ok.inj (l2.symm.trans h5)
  obtain rfl := Except.ok.inj (l3.symm.trans h6)
  exact ⟨k1.2.2, k2.2.2, k3.2.2⟩

theorem norm_pureQ (a : Fin 3 → ℝ) : ‖pureQ a‖ = norm3 a := by
  rw [pureQ, norm_mkQ, norm3]
  congr 1
  ring

namespace Aqua

theorem onAttitude_execF {s : Aqua F} {m : Op LinalgError (Vec F) Unit} {w : Vec F} (h : exec s.attitude m = .ok w) :
    onAttitude m s = (.ok (), { s with attitude := w }) := by
  obtain ⟨⟨⟩, h'⟩ := exec_eq_ok h
  exact onAttitude_ok h'

theorem weight_le {α l d : ℝ} (a0 : 0 ≤ α) (a1 : α ≤ 1) (l0 : 7 / 10 ≤ l) (hd : d = 1 - α + α * l) :
    0 ≤ α * l / d ∧ α * l / d ≤ 1 := by
  have hal : 0 ≤ α * l := mul_nonneg a0 (by linarith)
  have hd0 : 0 < d := by
    rcases a0.eq_or_lt with h | h
    · rw [hd, ← h]; norm_num
    · have := mul_pos h (show 0 < l by linarith)
      linarith
  refine ⟨div_nonneg hal hd0.le, ?_⟩
  rw [div_le_iff₀ hd0]
  linarith

theorem acc_quot {x : ℝ} (x0 : 0 ≤ x) (x1 : x ≤ 1) :
    (96 / 10 ^ 6 * x + 102 / 10 ^ 8) / (1 - (96 / 10 ^ 6 * x + 102 / 10 ^ 8)) + 2 / 10 ^ 6 ≤ 961 / 10 ^ 7 * x + 31 / 10 ^ 7 := by
  have : (96 / 10 ^ 6 * x + 102 / 10 ^ 8) / (1 - (96 / 10 ^ 6 * x + 102 / 10 ^ 8)) ≤ 961 / 10 ^ 7 * x + 11 / 10 ^ 7 := by
    norm_num
    rw [div_le_iff₀ (by linarith)]
    nlinarith
  norm_num at this ⊢
  linarith

theorem last_quot {x b c : ℝ} (hx : x ≤ 35 / 10 ^ 5 * b + 962 / 10 ^ 7 * c + 133 / 10 ^ 7) (h0 : 0 ≤ b) (h1 : b ≤ 100) (c0 : 0 ≤ c)
    (c1 : c ≤ 1) : x / (1 - x) + 2 / 10 ^ 6 ≤ 2 / 10 ^ 5 + 10 / 10 ^ 5 * c + 37 / 10 ^ 5 * b := by
  have : x / (1 - x) ≤ 37 / 10 ^ 5 * b + 10 / 10 ^ 5 * c + 18 / 10 ^ 6 := by
    norm_num at hx ⊢
    rw [div_le_iff₀ (by linarith)]
    have : (37 / 100000 * b + 1 / 10000 * c + 9 / 500000) * x ≤ (37 / 100000 * b + 1 / 10000 * c + 9 / 500000) * (352 / 10000) :=
      mul_le_mul_of_nonneg_left (by linarith) (by linarith)
    linarith
  norm_num at this ⊢
  linarith

set_option maxHeartbeats 1000000 in
/-- The second half of an update in the MARG mode. -/
theorem marg_core [Halves F] [ScalarLawful F] {s : Aqua F} {f k fa fm : Nat → F} {F0 : Nat → Nat → F} {p q r x y z : F}
    {va vm qa qm : Vec F} {T : Mat F}
    (hA : VecIs s.attitude 4 f) (hf : ∀ i, i < 4 → Finite (f i)) (h1 : s.gyr.getX = .ok p) (h2 : s.gyr.getY = .ok q)
    (h3 : s.gyr.getZ = .ok r) (hp : Finite p) (hq : Finite q) (hr : Finite r) (had : s.adaptive = false)
    (hts : Finite s.ts) {ω P B : Quaternion ℝ}
    (hω : ω = mkQ 0 ⟪p⟫ ⟪q⟫ ⟪r⟫) (hN : ‖ω‖ ≤ 2 ^ 63) (hb : ‖ω‖ * |⟪s.ts⟫| ≤ 2 ^ 60) (hb' : |⟪s.ts⟫| ≤ 2 ^ 100)
    (k1 : 1 / 2 ≤ ‖qval f‖) (k2 : ‖qval f‖ ≤ 2) (hva : VecIs va 3 (seq3 x y z)) (hfa : ∀ i, i < 3 → Finite (seq3 x y z i))
    (hqa : VecIs qa 4 fa) (hT : MatIs T 3 1 F0) (hP : P = predQ (qval f) ω ⟪s.ts⟫) {a : Fin 3 → ℝ}
    (ha : a = ![⟪x⟫, ⟪y⟫, ⟪z⟫]) {n l : ℝ} (hn : n = norm3 a) (n0 : 1 / 10 ^ 4 ≤ n) (n1 : n ≤ 2 ^ 61)
    (hg : unrot P a 2 ≤ -(n / 2)) (hl : l = √((1 - unrot P a 2) / 2))
    (hα : Finite s.alpha) (a0 : 0 ≤ ⟪s.alpha⟫) (a1 : ⟪s.alpha⟫ ≤ 1)
    (ht : Finite s.tAcc) (t0 : 0 ≤ ⟪s.tAcc⟫) (t1 : ⟪s.tAcc⟫ ≤ 1) (htl : ⟪s.tAcc⟫ ≤ (1 - 1 / 10 ^ 4) * l)
    (hB : B = P * lerpQ ⟪s.alpha⟫ (accQ (unrot P a))) {m : Fin 3 → ℝ} {h : ℝ} (hvm : VecIs vm 3 k)
    (hk : ∀ i, i < 3 → Finite (k i)) (nk : |‖vval k‖ - 1| ≤ 1 / 10 ^ 6) (dk : ‖vval k - pureQ (dir m)‖ ≤ 7 / 4 / 10 ^ 6)
    (hqm : VecIs qm 4 fm) (hβ : Finite s.beta) (b0 : 0 ≤ ⟪s.beta⟫) (b1 : ⟪s.beta⟫ ≤ 1)
    (hu : Finite s.tMag) (u0 : 0 ≤ ⟪s.tMag⟫)
    (u1 : ⟪s.tMag⟫ ≤ 1) (hh : 1 / 100 ≤ h) (hm1 : ‖pureQ (dir m)‖ = 1) (hlx : h ≤ unrot B (dir m) 0)
    (hur : ⟪s.tMag⟫ + 24 / 10 ^ 5 / h ≤ (magPos (unrot B (dir m) 0) (unrot B (dir m) 1)).re) :
    ∃ w g, (updateMarg va vm qa qm T >>= fun _ => onAttitude Vec.normalize) s = (.ok (), { s with attitude := w }) ∧
      VecIs w 4 g ∧ (∀ i, i < 4 → Finite (g i)) ∧ NearUnit g ∧
      ‖qval g - unitOf (B * lerpQ ⟪s.beta⟫ (magPos (unrot B (dir m) 0) (unrot B (dir m) 1)))‖ ≤
        2 / 10 ^ 5 + 10 / 10 ^ 5 * (⟪s.alpha⟫ * l / (1 - ⟪s.alpha⟫ + ⟪s.alpha⟫ * l)) + 37 / 10 ^ 5 * (⟪s.beta⟫ / h) ∧
      ⟪s.tAcc⟫ < (accQ (unrot P a)).re ∧ ⟪s.tMag⟫ < (magPos (unrot B (dir m) 0) (unrot B (dir m) 1)).re := by
  have hω0 : ω.re = 0 := by rw [hω]; rfl
  have hP1 : ‖P‖ = 1 := by
    rw [hP]
    exact predQ_unit (lt_of_lt_of_le (by norm_num [epsilon]) k1) hω0
  obtain ⟨v, T', w, g, F1, hh', e1, c1, c2, c3, c4, c5, c6, c7, c8, c9, c10, c11, c12⟩ :=
    margAcc_acc hA hf h1 h2 h3 hp hq hr hts hω hN hb hb' k1 k2 hva hfa hqa hT hP hP1 ha hn n0 n1 hg hl
  obtain ⟨w1, i1, e2, i2, i3, i4, i5, i6, i7⟩ := interp_acc (Q := accQ (unrot P a)) (r := l) (δ := 96 / 10 ^ 6)
    (d := 1 - ⟪s.alpha⟫ + ⟪s.alpha⟫ * l) c6 c7 hα a0 a1 ht t0 t1 c9 c11 c12 c10 c8 (by norm_num)
    (by norm_num at htl ⊢; linarith) rfl
  obtain ⟨x0, x1⟩ := weight_le a0 a1 c11 (rfl : 1 - ⟪s.alpha⟫ + ⟪s.alpha⟫ * l = _)
  rw [show ⟪s.alpha⟫ * (96 / 10 ^ 6 * l) / (1 - ⟪s.alpha⟫ + ⟪s.alpha⟫ * l) =
    96 / 10 ^ 6 * (⟪s.alpha⟫ * l / (1 - ⟪s.alpha⟫ + ⟪s.alpha⟫ * l)) by ring] at i5
  generalize ⟪s.alpha⟫ * l / (1 - ⟪s.alpha⟫ + ⟪s.alpha⟫ * l) = x' at *
  have i5' := i5.trans (acc_quot x0 x1)
  have hHold : s.attitude.Holds4 := ⟨f, hA, hf⟩
  obtain ⟨b, fb, e3, j1, j2, j3, j4⟩ := product_acc hHold c1 i2 c2 i3 c3 i4 (by norm_num) (by norm_num) hP1 c4 i5'
  rw [← hB] at j4
  have hB1 : ‖B‖ = 1 := by rw [hB, norm_mul, hP1, i6, one_mul]
  obtain ⟨w2, d, g2, e4, m1, m2, m3, m4, m5, m6, m7⟩ := margMag_acc (T := T') (qm := qm) j1 j2 (j3.trans (by norm_num))
    (j4.trans (by norm_num; linarith)) hB1 hvm hk nk dk hqm c5 hβ b0 b1 hu u0 u1 hh hm1 hlx hur
  have hHold2 : b.Holds4 := ⟨fb, j1, j2⟩
  obtain ⟨c, fc, e5, o1, o2, -, o4⟩ := product_acc hHold2 m1 m2 j2 m3 j3 m4 (by norm_num) (by norm_num) hB1 j4 m5
  have h0 : 0 < h := by linarith
  have q0 : 0 ≤ ⟪s.beta⟫ / h := by positivity
  have q1 : ⟪s.beta⟫ / h ≤ 100 := by
    rw [div_le_iff₀ h0]
    linarith
  generalize hJ : lerpQ ⟪s.beta⟫ (magPos (unrot B (dir m) 0) (unrot B (dir m) 1)) = J at *
  have hX : ‖B * J‖ = 1 := by rw [norm_mul, hB1, m6, one_mul]
  have o5 : ‖qval fc - B * J‖ ≤ (35 / 10 ^ 5 * (⟪s.beta⟫ / h) + 962 / 10 ^ 7 * x' + 133 / 10 ^ 7) * 1 := by
    refine o4.trans ?_
    norm_num
    linarith
  obtain ⟨w3, g3, e6, r1, r2, r3, r4⟩ := normalize_rel o1 o2 (by norm_num) hX.symm.le (by rw [hX]; norm_num) o5 (by
    norm_num
    linarith)
  refine ⟨w3, g3, ?_, r1, r2, r3, r4.trans (last_quot le_rfl q0 q1 x0 x1), i7, m7⟩
  rw [Op.bind_run, updateMarg_eq, e1, liftM_ok]
  have hng : newGain s va = .ok s.alpha := by
    unfold newGain
    rw [had]
    rfl
  rw [hng, liftM_ok, modify_bind']
  simp only
  rw [e2, liftM_ok, Op.bind_ok (onAttitude_execF (s := s) e3)]
  unfold margTail
  rw [Op.get_bind']
  simp only
  rw [e4, liftM_ok]
  simp only
  rw [onAttitude_execF (s := { s with attitude := b }) e5]
  simp only
  exact onAttitude_ok (s := { s with attitude := c }) e6

end Aqua

open Aqua
variable {s : Aqua F} {i : AquaInit F}

/-- C111: one update in the MARG mode in binary32, with settings between 0 and 1 and a constant gain, from an attitude
`A` of norm between 1/2 and 2. `P` is the attitude predicted exactly from `A` and the rate, `I` the exact correction of
the tilt and `J` the exact correction of the heading. When the acceleration seen from `P` is within 60 degrees of the
negative third axis, the field seen from `P I` has a component of at least `h` along the first axis, and both
corrections are above the thresholds of linear interpolation, with a margin, the update succeeds and the attitude is a
unit quaternion up to one in a million that differs from `P I J` by at most `2e-5 + 10e-5 λ + 37e-5 β / h`, where `λ ≤ 1`
is the weight of the acceleration in the interpolation. -/
theorem C111_step [Halves F] [ScalarLawful F] (hs : Started i s) (hmode : i.mode = .MARG) (had : i.adaptive = false)
    {cg : GyrometerConfig F} {c : AccelerometerConfig F} {d : MagnetometerConfig F}
    (hcg : s.getGyrometerConfig = .ok cg) (hc : s.getAccelerometerConfig = .ok c) (hd : s.getMagnetometerConfig = .ok d)
    {gx gy gz ax ay az mx my mz p q r x y z u v w : F} (hgr : Gyrometer.Reads cg gx gy gz p q r)
    (har : Accelerometer.Reads c ax ay az x y z) (hmr : Magnetometer.Reads d mx my mz u v w)
    {A : Quaternion ℝ} (hA : ShowsF s fun f => qval f = A) (k1 : 1 / 2 ≤ ‖A‖) (k2 : ‖A‖ ≤ 2)
    (hset : ∀ b ∈ [i.alpha, i.beta, i.tAcc, i.tMag], Finite b ∧ 0 ≤ ⟪b⟫ ∧ ⟪b⟫ ≤ 1) (hts : Finite i.ts)
    {ω P B : Quaternion ℝ} {a m : Fin 3 → ℝ} {n l h : ℝ} (hω : ω = mkQ 0 ⟪p⟫ ⟪q⟫ ⟪r⟫) (hN : ‖ω‖ ≤ 2 ^ 63)
    (hb : ‖ω‖ * |⟪i.ts⟫| ≤ 2 ^ 60) (hb' : |⟪i.ts⟫| ≤ 2 ^ 100) (ha : a = ![⟪x⟫, ⟪y⟫, ⟪z⟫]) (hn : n = norm3 a)
    (n0 : 10001 / 10 ^ 8 < n) (n1 : n ≤ 2 ^ 61) (hm : m = ![⟪u⟫, ⟪v⟫, ⟪w⟫]) (m0 : 10001 / 10 ^ 8 < norm3 m)
    (m1 : norm3 m ≤ 2 ^ 63) (hP : P = predQ A ω ⟪i.ts⟫) (hg : unrot P a 2 ≤ -(n / 2))
    (hl : l = √((1 - unrot P a 2) / 2)) (htl : ⟪i.tAcc⟫ ≤ (1 - 1 / 10 ^ 4) * l)
    (hB : B = P * lerpQ ⟪i.alpha⟫ (accQ (unrot P a))) (hh : 1 / 100 ≤ h) (hlx : h ≤ unrot B (dir m) 0)
    (hur : ⟪i.tMag⟫ + 24 / 10 ^ 5 / h ≤ (magPos (unrot B (dir m) 0) (unrot B (dir m) 1)).re) :
    ∃ I J s', StepTo A ω a m ⟪i.ts⟫ ⟪i.alpha⟫ ⟪i.beta⟫ ⟪i.tAcc⟫ ⟪i.tMag⟫ I J ∧
      update (some gx) (some gy) (some gz) ax ay az mx my mz s = (.ok (), s') ∧
      ShowsF s' fun f => NearUnit f ∧ ‖qval f - unitOf (P * I * J)‖ ≤
        2 / 10 ^ 5 + 10 / 10 ^ 5 * (⟪i.alpha⟫ * l / (1 - ⟪i.alpha⟫ + ⟪i.alpha⟫ * l)) + 37 / 10 ^ 5 * (⟪i.beta⟫ / h) := by
  obtain ⟨hr, k⟩ := hs.ready
  obtain ⟨G, eg, g1, g2, g3⟩ := hgr.all hr.gyr hcg
  obtain ⟨S, ea, a1, a2, a3⟩ := har.all hr.acc hc
  obtain ⟨M, em, b1, b2, b3⟩ := hmr.all hr.mag hd
  obtain ⟨va, fa, e, hv, hf, hq⟩ := hA
  obtain ⟨f, j1, j2⟩ := hr.attitude
  obtain ⟨va', j3, j4⟩ := hr.getAttitude j1
  rw [e] at j3
  obtain rfl := Except.ok.inj j3
  have hqf : qval f = A := by
    have hfe : ∀ j, j < 4 → f j = fa j := fun j hj => Except.ok.inj ((j4.get j hj).symm.trans (hv.get j hj))
    rw [← hq]
    unfold qval
    rw [hfe 0 (by omega), hfe 1 (by omega), hfe 2 (by omega), hfe 3 (by omega)]
  have nA : ‖vval (seq3 x y z)‖ = n := by
    rw [hn, ← norm_pureQ, ha]
    rfl
  have nM : ‖vval (seq3 u v w)‖ = norm3 m := by
    rw [← norm_pureQ, hm]
    rfl
  obtain ⟨n2, n', aL, mL, e1, l1, -, -, -, l2, l3, l4, l5⟩ := sensed_acc (forall_lt_three.mpr har.finite)
    (forall_lt_three.mpr hmr.finite) (by rw [nA]; exact n0) (by rw [nA]; exact n1.trans (by norm_num)) (by rw [nM]; exact m0)
    (by rw [nM]; exact m1)
  have hme : epsilon ℝ < norm3 m := lt_trans (by norm_num [epsilon]) m0
  have hdir : ‖vval (seq3 u v w)‖⁻¹ • vval (seq3 u v w) = pureQ (dir m) := by
    rw [nM]
    unfold vval pureQ dir
    simp only [if_pos hme]
    rw [mkQ_smul, hm]
    simp [div_eq_inv_mul, seq3]
  rw [hdir] at l5
  have hm1 : ‖pureQ (dir m)‖ = 1 := by
    rw [← hdir, norm_smul, norm_inv, norm_norm, inv_mul_cancel₀ (by rw [nM]; linarith)]
  obtain ⟨z1, z2, z3, z4⟩ : (Finite i.alpha ∧ 0 ≤ ⟪i.alpha⟫ ∧ ⟪i.alpha⟫ ≤ 1) ∧ (Finite i.beta ∧ 0 ≤ ⟪i.beta⟫ ∧ ⟪i.beta⟫ ≤ 1) ∧
      (Finite i.tAcc ∧ 0 ≤ ⟪i.tAcc⟫ ∧ ⟪i.tAcc⟫ ≤ 1) ∧ (Finite i.tMag ∧ 0 ≤ ⟪i.tMag⟫ ∧ ⟪i.tMag⟫ ≤ 1) :=
    ⟨hset _ (by simp), hset _ (by simp), hset _ (by simp), hset _ (by simp)⟩
  have q1 := k.alpha had
  have q2 := k.beta
  have q3 := k.tAcc
  have q4 := k.tMag
  have q5 := k.ts
  rw [← q1] at z1 hB ⊢
  rw [← q2] at z2 ⊢
  rw [← q3] at z3 htl ⊢
  rw [← q4] at z4 hur ⊢
  rw [← q5] at hts hb hb' hP ⊢
  have h0 : 0 < h := by linarith
  obtain ⟨t, g, e2, r1, r2, r3, r4, r5, r6⟩ := marg_core (s := { s with gyr := G, acc := S, mag := M })
    (T := Mat.zeros 3 1) j1 j2 g1 g2 g3 hgr.finite.1 hgr.finite.2.1 hgr.finite.2.2 (k.adaptive.trans had) hts hω hN hb hb'
    (hqf ▸ k1) (hqf ▸ k2) l1 (forall_lt_three.mpr har.finite) (Vec.zeros_is (F := F) (n := 4) (by omega) (by omega))
    (Mat.zeros_is (by omega) (by omega) (by omega) (by omega)) (hqf ▸ hP) ha hn
    (by norm_num at n0 ⊢; linarith) n1 hg hl z1.1 z1.2.1 z1.2.2 z3.1 z3.2.1 z3.2.2 htl hB l2 l3 l4 l5
    (Vec.zeros_is (F := F) (n := 4) (by omega) (by omega)) z2.1 z2.2.1 z2.2.2 z4.1 z4.2.1 z4.2.2 hh hm1 hlx hur
  obtain ⟨v', e5, h5⟩ := Vec.duplicate_ok r1 r2
  refine ⟨lerpQ ⟪s.alpha⟫ (accQ (unrot P a)), lerpQ ⟪s.beta⟫ (magPos (unrot B (dir m) 0) (unrot B (dir m) 1)),
    { s with gyr := G, acc := S, mag := M, attitude := t }, ⟨?_, ?_, ?_⟩, ?_, v', g, ?_, h5, r2, r3, ?_⟩
  · rw [← hP]
    exact Or.inl ⟨r5, rfl⟩
  · rw [← hP, ← hB]
    have := Real.sqrt_nonneg (unrot B (dir m) 0 * unrot B (dir m) 0 + unrot B (dir m) 1 * unrot B (dir m) 1)
    linarith
  · rw [← hP, ← hB]
    exact Or.inl ⟨r6, rfl⟩
  · rw [hr.marg_run (k.mode.trans hmode) eg ea em a1 a2 a3 b1 b2 b3, e1, liftM_ok]
    exact e2
  · unfold getAttitude
    simp only [hr.initialized, e5]
    rfl
  · rw [← hB]
    exact r4

/-! ### A concrete case -/

/-- The arguments of an `init` in the MARG mode. -/
def Aqua.margF : AquaInit F32 :=
  { Aqua.plainF .MARG with ts := lit (1 / 128), tAcc := lit (7 / 8), tMag := lit (7 / 8) }

/-- Turning about the first axis. -/
theorem unrot_first {q : Quaternion ℝ} (hq : ‖q‖ = 1) (h1 : q.imJ = 0) (h2 : q.imK = 0) (u : Fin 3 → ℝ) :
    unrot q u 0 = u 0 ∧ unrot q u 1 ^ 2 ≤ u 1 ^ 2 + u 2 ^ 2 ∧
      |unrot q u 2 - u 2| ≤ 2 * q.imI ^ 2 * |u 2| + 2 * |q.imI| * |u 1| := by
  have hs : q.re ^ 2 + q.imI ^ 2 = 1 := by
    have := quat_norm_sq q
    rw [hq, h1, h2] at this
    linarith
  have e := unrot_eq hq u
  have e0 : unrot q u 0 = u 0 := by
    have := congrArg (fun q : Quaternion ℝ => q.imI) e
    simp [pureQ, h1, h2] at this
    rw [this]
    linear_combination u 0 * hs
  have e2 : unrot q u 2 - u 2 = -(2 * q.imI ^ 2 * u 2) - 2 * q.re * q.imI * u 1 := by
    have := congrArg (fun q : Quaternion ℝ => q.imK) e
    simp [pureQ, h1, h2] at this
    rw [this]
    linear_combination u 2 * hs
  refine ⟨e0, ?_, ?_⟩
  · have := unrot_norm (normSq_of_norm hq) u
    have h3 := norm3_sq (unrot q u)
    rw [this, norm3_sq, e0] at h3
    nlinarith [sq_nonneg (unrot q u 2)]
  · rw [e2]
    refine (abs_sub _ _).trans ?_
    rw [abs_neg, abs_mul, abs_mul (2 * q.re * q.imI), abs_mul (2 * q.re), abs_mul 2 q.re]
    have hr : |q.re| ≤ 1 := (abs_re_le q).trans hq.le
    rw [abs_of_nonneg (show 0 ≤ 2 * q.imI ^ 2 by positivity), abs_of_pos (show (0 : ℝ) < 2 by norm_num)]
    have := mul_le_mul_of_nonneg_right hr (mul_nonneg (abs_nonneg q.imI) (abs_nonneg (u 1)))
    linarith

theorem unitOf_smul (b : Quaternion ℝ) : ∃ c : ℝ, unitOf b = c • b ∧ (1 ≤ ‖b‖ → |c| ≤ 1) := by
  unfold unitOf
  split
  · refine ⟨‖b‖⁻¹, rfl, fun h => ?_⟩
    rw [abs_of_nonneg (by positivity)]
    exact inv_le_one_of_one_le₀ h
  · exact ⟨0, by rw [zero_smul], fun _ => by norm_num⟩

theorem magPos_ahead {x y : ℝ} (hx : 4 / 5 ≤ x) (h : x * x + y * y ≤ 1) : 9 / 10 ≤ (magPos x y).re := by
  show 9 / 10 ≤ √(x * x + y * y + x * √(x * x + y * y)) / √(2 * (x * x + y * y))
  have h0 : 0 < x * x + y * y := by nlinarith [mul_self_nonneg y]
  generalize x * x + y * y = N at *
  have h1 : N ≤ √N := Real.le_sqrt_of_sq_le (by nlinarith)
  rw [← Real.sqrt_div' _ (by linarith)]
  refine Real.le_sqrt_of_sq_le ?_
  rw [le_div_iff₀ (by linarith)]
  nlinarith

/-- The hypotheses of `C111_step` hold for the rate (1, 0, 0), the acceleration (0, 1/2, -1) and the field (4, 3, 0). -/
example : ∃ s s' I J, Aqua.Started Aqua.margF s ∧
    StepTo 1 (mkQ 0 1 0 0) ![0, 1 / 2, -1] ![4, 3, 0] (1 / 128) (1 / 2) (1 / 2) (7 / 8) (7 / 8) I J ∧
    Aqua.update (some (lit 1)) (some (lit 0)) (some (lit 0)) (lit 0) (lit (1 / 2)) (lit (-1)) (lit 4) (lit 3) (lit 0) s =
      (.ok (), s') ∧
    Aqua.ShowsF s' fun f => NearUnit f ∧
      ‖qval f - unitOf (predQ 1 (mkQ 0 1 0 0) (1 / 128) * I * J)‖ ≤ 36 / 10 ^ 5 := by
  obtain ⟨s0, e0, -⟩ := Aqua.new_fresh (F := F32)
  have h := (C52_iff (a := Aqua.margF) e0).mpr
    ⟨fun _ => by decide +kernel, by decide +kernel, by decide +kernel, .inl ⟨rfl, rfl, rfl, rfl⟩⟩
  have hR : Aqua.Reachable s0 := ⟨s0, e0, .refl _⟩
  have hi : Aqua.init Aqua.margF s0 = (.ok (), (Aqua.init Aqua.margF s0).2) := Prod.ext h rfl
  have hs : Aqua.Started Aqua.margF (Aqua.init Aqua.margF s0).2 := ⟨s0, _, hR, hi, .refl _⟩
  obtain ⟨⟨v, hv, hv'⟩, hcg, hc, hd⟩ := C52_attitude hR hi
  obtain ⟨c', hc', hcg⟩ := hcg rfl
  obtain rfl := Option.some.inj hc'
  have hr := hs.ready.1
  generalize (Aqua.init Aqua.margF s0).2 = s at *
  have rg : Gyrometer.Reads (.default : GyrometerConfig F32) (lit 1) (lit 0) (lit 0) (lit 1) (lit 0) (lit 0) := by
    have e : Gyrometer.update (lit 1) (lit 0) (lit 0) s.gyr =
        (.ok (), (Gyrometer.update (lit 1) (lit 0) (lit 0) s.gyr).2) :=
      Prod.ext ((C43_gyr_iff hr.gyr hcg).mpr (by decide +kernel)) rfl
    obtain ⟨-, k1, k2, k3, -⟩ := C43_gyr_formula hr.gyr hcg e
    exact ⟨s.gyr, _, hr.gyr, hcg, e, k1.trans (by decide +kernel), k2.trans (by decide +kernel), k3.trans (by decide +kernel)⟩
  have ra : Accelerometer.Reads (.default : AccelerometerConfig F32) (lit 0) (lit (1 / 2)) (lit (-1)) (lit 0) (lit (1 / 2))
      (lit (-1)) := by
    have e : Accelerometer.update (lit 0) (lit (1 / 2)) (lit (-1)) s.acc =
        (.ok (), (Accelerometer.update (lit 0) (lit (1 / 2)) (lit (-1)) s.acc).2) :=
      Prod.ext ((C43_acc_iff hr.acc hc).mpr (by decide +kernel)) rfl
    obtain ⟨-, k1, k2, k3, -⟩ := C43_acc_formula hr.acc hc e
    exact ⟨s.acc, _, hr.acc, hc, e, k1.trans (by decide +kernel), k2.trans (by decide +kernel), k3.trans (by decide +kernel)⟩
  have rm : Magnetometer.Reads (.default : MagnetometerConfig F32) (lit 4) (lit 3) (lit 0) (lit 4) (lit 3) (lit 0) := by
    have e : Magnetometer.update (lit 4) (lit 3) (lit 0) s.mag =
        (.ok (), (Magnetometer.update (lit 4) (lit 3) (lit 0) s.mag).2) :=
      Prod.ext ((C43_mag_iff hr.mag hd).mpr (by decide +kernel)) rfl
    obtain ⟨-, k1, k2, k3, -⟩ := C43_mag_formula hr.mag hd e
    exact ⟨s.mag, _, hr.mag, hd, e, k1.trans (by decide +kernel), k2.trans (by decide +kernel), k3.trans (by decide +kernel)⟩
  have l0 : ⟪(lit 0 : F32)⟫ = 0 := by rw [val_lit (by decide +kernel)]; norm_num
  have l1 : ⟪(lit 1 : F32)⟫ = 1 := by rw [val_lit (by decide +kernel)]; norm_num
  have l1' : ⟪(lit (-1) : F32)⟫ = -1 := by rw [val_lit (by decide +kernel)]; norm_num
  have l2 : ⟪(lit (1 / 2) : F32)⟫ = 1 / 2 := by rw [val_lit (by decide +kernel)]; norm_num
  have l3 : ⟪(lit 3 : F32)⟫ = 3 := by rw [val_lit (by decide +kernel)]; norm_num
  have l4 : ⟪(lit 4 : F32)⟫ = 4 := by rw [val_lit (by decide +kernel)]; norm_num
  have lt : ⟪(Aqua.margF).ts⟫ = 1 / 128 := by
    show ⟪(lit (1 / 128) : F32)⟫ = _
    rw [val_lit (by decide +kernel)]; norm_num
  have la : ⟪(Aqua.margF).alpha⟫ = 1 / 2 := l2
  have lb : ⟪(Aqua.margF).beta⟫ = 1 / 2 := l2
  have lc : ⟪(Aqua.margF).tAcc⟫ = 7 / 8 := by
    show ⟪(lit (7 / 8) : F32)⟫ = _
    rw [val_lit (by decide +kernel)]; norm_num
  have ld : ⟪(Aqua.margF).tMag⟫ = 7 / 8 := lc
  have hA : ShowsF s fun f => qval f = 1 := by
    refine ⟨v, _, hv, hv', forall_lt_four.mpr ⟨?_, ?_, ?_, ?_⟩, ?_⟩
    · exact (by decide +kernel : Finite (lit 1 : F32))
    · exact (by decide +kernel : Finite (lit 0 : F32))
    · exact (by decide +kernel : Finite (lit 0 : F32))
    · exact (by decide +kernel : Finite (lit 0 : F32))
    · show mkQ ⟪(lit 1 : F32)⟫ ⟪(lit 0 : F32)⟫ ⟪(lit 0 : F32)⟫ ⟪(lit 0 : F32)⟫ = 1
      rw [l0, l1]
      rfl
  -- the exact quantities
  have nω : ‖mkQ (0 : ℝ) 1 0 0‖ = 1 := by rw [norm_mkQ]; norm_num
  have n1 : ‖(1 : Quaternion ℝ)‖ = 1 := norm_one (map_one _)
  obtain ⟨P, hP⟩ : ∃ P, P = predQ 1 (mkQ 0 1 0 0) (1 / 128) := ⟨_, rfl⟩
  have hP1 : ‖P‖ = 1 := by
    rw [hP]
    exact predQ_unit (by rw [n1]; norm_num [epsilon]) rfl
  obtain ⟨p1, p2, p3⟩ : P.imJ = 0 ∧ P.imK = 0 ∧ |P.imI| ≤ 1 / 256 := by
    obtain ⟨c, hc, hc1⟩ := unitOf_smul (1 + ((1 / 128 : ℝ) / 2) • (1 * mkQ 0 1 0 0))
    have hc1 := hc1 (by
      rw [one_mul]
      exact AR.one_le_norm_step rfl _)
    have e : P = c • (1 + ((1 / 128 : ℝ) / 2) • (1 * mkQ 0 1 0 0)) := by rw [hP]; exact hc
    rw [e]
    refine ⟨by simp [Quaternion.imJ_one], by simp [Quaternion.imK_one], ?_⟩
    have : (c • (1 + ((1 / 128 : ℝ) / 2) • (1 * mkQ 0 1 0 0)) : Quaternion ℝ).imI = c * (1 / 256) := by
      simp [Quaternion.imI_one]
      exact Or.inl (by norm_num)
    rw [this, abs_mul, abs_of_pos (show (0 : ℝ) < 1 / 256 by norm_num)]
    linarith
  obtain ⟨a, ha⟩ : ∃ a : Fin 3 → ℝ, a = ![0, 1 / 2, -1] := ⟨_, rfl⟩
  obtain ⟨m, hm⟩ : ∃ m : Fin 3 → ℝ, m = ![4, 3, 0] := ⟨_, rfl⟩
  have a0 : a 0 = 0 := by rw [ha]; rfl
  have a1 : a 1 = 1 / 2 := by rw [ha]; rfl
  have a2 : a 2 = -1 := by rw [ha]; rfl
  have nm : norm3 m = 5 := by
    rw [norm3, hm]
    show √((4 : ℝ) ^ 2 + 3 ^ 2 + 0 ^ 2) = 5
    rw [show (4 : ℝ) ^ 2 + 3 ^ 2 + 0 ^ 2 = 5 ^ 2 by norm_num, Real.sqrt_sq (by norm_num)]
  have na : 1 ≤ norm3 a ∧ norm3 a ≤ 112 / 100 := by
    rw [norm3, a0, a1, a2]
    exact ⟨Real.le_sqrt_of_sq_le (by norm_num), Real.sqrt_le_iff.mpr (by norm_num)⟩
  obtain ⟨u0, -, u2⟩ := unrot_first hP1 p1 p2 a
  have hg2 : unrot P a 2 ≤ -(9 / 10) := by
    have := (abs_le.mp u2).2
    rw [a1, a2, abs_neg, abs_one, abs_of_pos (show (0 : ℝ) < 1 / 2 by norm_num)] at this
    have h2 : P.imI ^ 2 ≤ 1 / 256 := by
      rw [← sq_abs]
      nlinarith [abs_nonneg P.imI]
    linarith
  have hl : 9 / 10 ≤ √((1 - unrot P a 2) / 2) := Real.le_sqrt_of_sq_le (by linarith)
  obtain ⟨B, hB⟩ : ∃ B, B = P * lerpQ (1 / 2) (accQ (unrot P a)) := ⟨_, rfl⟩
  have hQ : accQ (unrot P a) = mkQ √((1 - unrot P a 2) / 2) (unrot P a 1 / (2 * √((1 - unrot P a 2) / 2))) 0 0 := by
    unfold accQ
    rw [if_pos (by linarith), u0, a0]
    simp
  have hI1 : ‖lerpQ (1 / 2) (accQ (unrot P a))‖ = 1 := by
    refine unitOf_norm (lt_of_lt_of_le ?_ (abs_re_le _))
    refine lt_of_lt_of_le ?_ (le_abs_self _)
    rw [hQ]
    generalize √((1 - unrot P a 2) / 2) = l at *
    simp [Quaternion.re_one]
    norm_num [epsilon]
    linarith
  have hB1 : ‖B‖ = 1 := by rw [hB, norm_mul, hP1, hI1, one_mul]
  obtain ⟨q1, q2⟩ : B.imJ = 0 ∧ B.imK = 0 := by
    obtain ⟨c, hc, -⟩ := unitOf_smul ((1 - (1 / 2 : ℝ)) • 1 + (1 / 2 : ℝ) • accQ (unrot P a))
    rw [hB, lerpQ, hc, hQ]
    simp [p1, p2, Quaternion.imJ_one, Quaternion.imK_one]
  obtain ⟨w0, w1, -⟩ := unrot_first hB1 q1 q2 (dir m)
  have hme : epsilon ℝ < norm3 m := by rw [nm]; norm_num [epsilon]
  have d0 : dir m 0 = 4 / 5 := by
    unfold dir
    rw [if_pos hme, nm, hm]
    rfl
  have d1 : dir m 1 = 3 / 5 := by
    unfold dir
    rw [if_pos hme, nm, hm]
    rfl
  have d2 : dir m 2 = 0 := by
    unfold dir
    rw [if_pos hme, nm, hm]
    exact zero_div _
  rw [d1, d2] at w1
  rw [d0] at w0
  obtain ⟨I, J, s', k1, k2, k3⟩ := C111_step (A := 1) (ω := mkQ 0 1 0 0) (P := P) (B := B) (a := a) (m := m) (n := norm3 a)
    (h := 4 / 5) hs rfl rfl hcg hc hd rg ra rm hA (by rw [n1]; norm_num) (by rw [n1]; norm_num)
    (by
      intro b hb
      simp only [List.mem_cons, List.not_mem_nil, or_false] at hb
      rcases hb with rfl | rfl | rfl | rfl
      · exact ⟨by decide +kernel, by rw [la]; norm_num, by rw [la]; norm_num⟩
      · exact ⟨by decide +kernel, by rw [lb]; norm_num, by rw [lb]; norm_num⟩
      · exact ⟨by decide +kernel, by rw [lc]; norm_num, by rw [lc]; norm_num⟩
      · exact ⟨by decide +kernel, by rw [ld]; norm_num, by rw [ld]; norm_num⟩)
    (by decide +kernel) (by rw [l0, l1]) (by rw [nω]; norm_num) (by rw [nω, lt]; norm_num [abs_of_pos])
    (by rw [lt]; norm_num [abs_of_pos]) (by rw [ha, l0, l2, l1']) rfl (by norm_num; linarith) (by norm_num; linarith)
    (by rw [hm, l4, l3, l0]) (by rw [nm]; norm_num) (by rw [nm]; norm_num) (by rw [lt]; exact hP) (by linarith)
    rfl (by rw [lc]; linarith) (by rw [la]; exact hB) (by norm_num) w0.ge
    (by
      rw [ld]
      refine le_trans ?_ (magPos_ahead w0.ge (by rw [w0]; nlinarith))
      norm_num)
  rw [lt, la, lb, lc, ld, ha, hm] at k1
  have hw := (weight_le (α := 1 / 2) (by norm_num) (by norm_num) (show 7 / 10 ≤ √((1 - unrot P a 2) / 2) by linarith) rfl).2
  rw [la, lb] at k3
  generalize (1 / 2 : ℝ) * √((1 - unrot P a 2) / 2) / (1 - 1 / 2 + 1 / 2 * √((1 - unrot P a 2) / 2)) = w at *
  rw [hP] at k3
  obtain ⟨v', f, k4, k5, k6, k7, k8⟩ := k3
  refine ⟨s, s', I, J, hs, k1, k2, v', f, k4, k5, k6, k7, k8.trans ?_⟩
  norm_num
  linarith

end Verif
