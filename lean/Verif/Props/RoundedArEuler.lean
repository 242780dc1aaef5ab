import Mathlib.Analysis.SpecialFunctions.Trigonometric.ArctanDeriv
import Mathlib.Analysis.Calculus.Deriv.MeanValue
import Verif.Props.RoundedTrack
import Verif.Props.RoundedExtract

/-
The AR filter with Euler's method in binary32 (C106).
-/

set_option linter.unusedSectionVars false

namespace Verif
open Scalar Finset

variable {F : Type} [Scalar F] [R : Rounded F]

/-- A rate component times half of the step. -/
theorem euler_rate [H : Halves F] {x t : F} {N : ℝ} (hx : Finite x) (ht : Finite t) (hN : N ≤ 2 ^ 63) (hxN : |⟪x⟫| ≤ N)
    (hb : N * |⟪t⟫| ≤ 2 ^ 60) (hb' : |⟪t⟫| ≤ 2 ^ 100) :
    Finite (lit (1 / 2) *ᶠ t) ∧ Finite (x *ᶠ (lit (1 / 2) *ᶠ t)) ∧
      |⟪x *ᶠ (lit (1 / 2) *ᶠ t)⟫ - ⟪x⟫ * (⟪t⟫ / 2)| ≤ 201 / 100 / 2 ^ 24 * (N * |⟪t⟫| / 2) + 1 / 10 ^ 25 := by
  have hη := rη_pos
  have hη' := rη_le
  have hN0 : 0 ≤ N := (abs_nonneg _).trans hxN
  have ht0 := abs_nonneg ⟪t⟫
  have v2 : ⟪(lit (1 / 2) : F)⟫ = 1 / 2 := sub_eq_zero.mp (abs_eq_zero.mp (le_antisymm H.half.2 (abs_nonneg _)))
  have e1 : |1 / 2 * ⟪t⟫| = |⟪t⟫| / 2 := by rw [abs_mul, abs_of_pos (a := (1 / 2 : ℝ)) (by norm_num)]; ring
  have f1 : Finite (lit (1 / 2) *ᶠ t) := R.mul_finite H.half.1 ht (by
    rw [v2, e1]
    norm_num at hb' ⊢
    linarith)
  have h1 := (R.mul_near H.half.1 ht f1).bound
  rw [v2, e1] at h1
  have hh := le_of_dist e1.le h1
  generalize hk : ⟪lit (1 / 2) *ᶠ t⟫ = k at *
  have h2 : |⟪x⟫ * k - ⟪x⟫ * (⟪t⟫ / 2)| ≤ N * (|⟪t⟫| / 2 / 16777216 + rη) := by
    rw [show ⟪x⟫ * k - ⟪x⟫ * (⟪t⟫ / 2) = ⟪x⟫ * (k - 1 / 2 * ⟪t⟫) by ring, abs_mul]
    gcongr
  have h3 : |⟪x⟫ * k| ≤ N * (|⟪t⟫| / 2 + (|⟪t⟫| / 2 / 16777216 + rη)) := by
    rw [abs_mul]
    gcongr
  have h4 : N * rη ≤ 1 / 10 ^ 26 := by
    calc N * rη ≤ 2 ^ 63 * (1 / 2 ^ 150) := by
          gcongr
          unfold rη
          exact le_rfl
      _ ≤ _ := by norm_num
  have hX0 : 0 ≤ N * |⟪t⟫| := by positivity
  have f2 : Finite (x *ᶠ (lit (1 / 2) *ᶠ t)) := R.mul_finite hx f1 (by
    rw [hk]
    refine h3.trans ?_
    norm_num at hb h4 ⊢
    linarith)
  have h5 := (R.mul_near hx f1 f2).bound
  rw [hk] at h5
  have h6 := h5.trans (b := |⟪x⟫ * k| / 16777216 + rη)
    (c := N * (|⟪t⟫| / 2 + (|⟪t⟫| / 2 / 16777216 + rη)) / 16777216 + rη) (by linarith)
  refine ⟨f1, f2, (dist_trans h6 h2).trans ?_⟩
  norm_num at hb h4 hη' ⊢
  linarith

/-- The sum of two quaternions, component by component. -/
theorem quat_add_acc {f g : Nat → F} (hf : ∀ i, i < 4 → Finite (f i)) (hg : ∀ i, i < 4 → Finite (g i)) {S : ℝ}
    (hS : ‖qval f + qval g‖ ≤ S) (hb : S ≤ 2 ^ 126) :
    (∀ i, i < 4 → Finite (f i +ᶠ g i)) ∧
      ‖qval (fun i => f i +ᶠ g i) - (qval f + qval g)‖ ≤ 2 * (S / 16777216 + rη) := by
  have hη := rη_pos
  have c : ∀ i, i < 4 → |⟪f i⟫ + ⟪g i⟫| ≤ S := by
    intro i hi
    refine le_trans ?_ hS
    have e : ‖qval f + qval g‖ = norm2 4 (fun i => ⟪f i⟫ + ⟪g i⟫) := by
      rw [show qval f + qval g = mkQ (⟪f 0⟫ + ⟪g 0⟫) (⟪f 1⟫ + ⟪g 1⟫) (⟪f 2⟫ + ⟪g 2⟫) (⟪f 3⟫ + ⟪g 3⟫) by
        ext <;> simp [qval], norm_mkQ, norm2]
      simp [Finset.sum_range_succ]
    rw [e, norm2]
    refine Real.abs_le_sqrt ?_
    exact Finset.single_le_sum (f := fun i => (⟪f i⟫ + ⟪g i⟫) ^ 2) (fun _ _ => sq_nonneg _) (Finset.mem_range.mpr hi)
  have d : ∀ i, i < 4 → Finite (f i +ᶠ g i) ∧ |⟪f i +ᶠ g i⟫ - (⟪f i⟫ + ⟪g i⟫)| ≤ S / 16777216 + rη := by
    intro i hi
    have hc := c i hi
    have h1 := R.add_finite (hf i hi) (hg i hi) (hc.trans (hb.trans (by norm_num)))
    refine ⟨h1, ((R.add_near (hf i hi) (hg i hi) h1).bound).trans ?_⟩
    gcongr
  refine ⟨fun i hi => (d i hi).1, norm_le_two ?_ ?_ ?_ ?_⟩
  · exact (d 0 (by omega)).2
  · exact (d 1 (by omega)).2
  · exact (d 2 (by omega)).2
  · exact (d 3 (by omega)).2

namespace AR
variable {s s' : AR F} {f : Nat → F} {a : ARInit F} {gx gy gz p q r : F}

/-- The components of Euler's method before normalisation. -/
theorem euler_acc [H : Halves F] {t : Mat F} {w att : Vec F} {ts n : F} {order : Nat}
    (hw : VecIs w 3 (seq3 p q r)) (ha : VecIs att 4 f)
    (hf : ∀ i, i < 4 → Finite (f i)) (hp : Finite p) (hq : Finite q) (hr : Finite r) (hts : Finite ts)
    {ω : Quaternion ℝ} (hω : ω = mkQ 0 ⟪p⟫ ⟪q⟫ ⟪r⟫) (hN' : ‖ω‖ ≤ 2 ^ 63)
    (hb : ‖ω‖ * |⟪ts⟫| ≤ 2 ^ 60) (hb' : |⟪ts⟫| ≤ 2 ^ 100) (h2 : ‖qval f‖ ≤ 2) :
    ∃ x : F × F × F × F, advance t w att ts .Euler order p q r n (f 0) (f 1) (f 2) (f 3) = .ok x ∧
      (Finite x.1 ∧ Finite x.2.1 ∧ Finite x.2.2.1 ∧ Finite x.2.2.2) ∧
      ‖mkQ ⟪x.1⟫ ⟪x.2.1⟫ ⟪x.2.2.1⟫ ⟪x.2.2.2⟫ - (1 + (⟪ts⟫ / 2) • ω) * qval f‖ ≤
        (21 / 10 / 2 ^ 24 + 305 / 10 / 2 ^ 24 * (‖ω‖ * |⟪ts⟫| / 2)) * ‖qval f‖ + 1 / 10 ^ 22 := by
  have hη := rη_pos
  have hη' := rη_le
  have hn2 : ‖ω‖ ^ 2 = ⟪p⟫ ^ 2 + ⟪q⟫ ^ 2 + ⟪r⟫ ^ 2 := by
    rw [hω, norm_mkQ, Real.sq_sqrt (by positivity)]
    ring
  have hN0 := norm_nonneg ω
  have xN : ∀ {x : ℝ}, x ^ 2 ≤ ‖ω‖ ^ 2 → |x| ≤ ‖ω‖ := fun hx => abs_le_of_sq_le_sq hx hN0
  have bp := xN (x := ⟪p⟫) (by rw [hn2]; nlinarith [sq_nonneg ⟪q⟫, sq_nonneg ⟪r⟫])
  have bq := xN (x := ⟪q⟫) (by rw [hn2]; nlinarith [sq_nonneg ⟪p⟫, sq_nonneg ⟪r⟫])
  have br := xN (x := ⟪r⟫) (by rw [hn2]; nlinarith [sq_nonneg ⟪p⟫, sq_nonneg ⟪q⟫])
  have b0 : |⟪(lit 0 : F)⟫| ≤ ‖ω‖ := by rw [R.zero_val, abs_zero]; exact hN0
  obtain ⟨fh, c0, d0⟩ := euler_rate R.zero_finite hts hN' b0 hb hb'
  obtain ⟨-, c1, d1⟩ := euler_rate hp hts hN' bp hb hb'
  obtain ⟨-, c2, d2⟩ := euler_rate hq hts hN' bq hb hb'
  obtain ⟨-, c3, d3⟩ := euler_rate hr hts hN' br hb hb'
  obtain ⟨m, e1, hm⟩ := omega_ok hp hq hr (R.neg_finite hp) (R.neg_finite hq) (R.neg_finite hr)
  have e2 : exec w (Vec.reinit 4) = .ok { w with rows := 4 } :=
    exec_ok ((C07_vec w 4).2.1 hw.init (by omega) (by omega))
  have hw2 : VecIs { w with rows := 4 } 4 (fun i => if h : i < 4 then w.elements ⟨i, h⟩ else lit 0) := by
    rw [vecIs_iff]
    exact ⟨by omega, by omega, hw.init, rfl, fun i h4 hi => by simp [h4]⟩
  obtain ⟨v1, e3, h3⟩ := Quat.fillq_ok hw2 R.zero_finite hp hq hr
  obtain ⟨v2, e4, h4⟩ := Vec.exec_of_stores (Vec.mulByScalarInPlace_stores (x := lit (1 / 2) *ᶠ ts) h3) h3
    (forall_lt_four.mpr ⟨c0, c1, c2, c3⟩)
  set W : Nat → F := fun i => seq4 (lit 0) p q r i *ᶠ (lit (1 / 2) *ᶠ ts) with hW
  have hWf : ∀ i, i < 4 → Finite (W i) := forall_lt_four.mpr ⟨c0, c1, c2, c3⟩
  have hX0 : 0 ≤ ‖ω‖ * |⟪ts⟫| := by positivity
  have hv : ‖(⟪ts⟫ / 2) • ω‖ = ‖ω‖ * |⟪ts⟫| / 2 := by
    rw [norm_smul, Real.norm_eq_abs, abs_div, abs_two]
    ring
  generalize hXd : ‖ω‖ * |⟪ts⟫| = X at *
  -- the scaled rate
  have dW : ‖qval W - (⟪ts⟫ / 2) • ω‖ ≤ 2 * (201 / 100 / 2 ^ 24 * (X / 2) + 1 / 10 ^ 25) := by
    rw [hω]
    refine norm_le_two ?_ ?_ ?_ ?_
    · have := d0
      rw [R.zero_val, zero_mul] at this
      simpa [qval, hW, seq4] using this
    · have := d1
      rw [mul_comm ⟪p⟫] at this
      simpa [qval, hW, seq4] using this
    · have := d2
      rw [mul_comm ⟪q⟫] at this
      simpa [qval, hW, seq4] using this
    · have := d3
      rw [mul_comm ⟪r⟫] at this
      simpa [qval, hW, seq4] using this
  set u := (⟪ts⟫ / 2) • ω with hu
  have nW : ‖qval W‖ ≤ 10001 / 10000 * (X / 2) + 1 / 10 ^ 24 := by
    have := norm_sub_norm_le (qval W) u
    norm_num at dW ⊢
    linarith
  have hq0 := norm_nonneg (qval f)
  -- the product
  have hbig : ‖qval W‖ * ‖qval f‖ ≤ 2 ^ 126 := by
    calc ‖qval W‖ * ‖qval f‖ ≤ 2 ^ 61 * 2 := by
          refine mul_le_mul ?_ h2 hq0 (by norm_num)
          norm_num at nW hb ⊢
          linarith
      _ ≤ _ := by norm_num
  obtain ⟨dl, D, e5, h5, h5f, h5n⟩ := C79_mul h4 ha hWf hf hbig
  have e6 : exec (Vec.zeros 4 : Vec F) (Quat.mul v2 att) = .ok dl := by
    rw [C34_agree (Vec.zeros_is (by omega) (by omega)) h4 ha, e5]
  have p1 : ‖qval W‖ * ‖qval f‖ ≤ (10001 / 10000 * (X / 2) + 1 / 10 ^ 24) * ‖qval f‖ := by gcongr
  have p2 : ‖qval W * qval f - u * qval f‖ ≤ 2 * (201 / 100 / 2 ^ 24 * (X / 2) + 1 / 10 ^ 25) * ‖qval f‖ := by
    rw [← sub_mul, norm_mul]
    gcongr
  have hXq : 0 ≤ X * ‖qval f‖ := by positivity
  have p3 : ‖qval D - u * qval f‖ ≤ 282 / 10 / 2 ^ 24 * (X / 2) * ‖qval f‖ + 1 / 10 ^ 23 := by
    refine (norm_sub_le_norm_sub_add_norm_sub _ (qval W * qval f) _).trans ?_
    norm_num at h5n p1 p2 ⊢
    linarith
  -- the sum
  have p4 : ‖qval f + qval D‖ ≤ ‖qval f‖ + 10001 / 10000 * (X / 2) * ‖qval f‖ + 1 / 10 ^ 23 := by
    have t1 := norm_add_le (qval f) (qval D)
    have t2 := norm_sub_norm_le (qval D) (u * qval f)
    rw [norm_mul, hv] at t2
    norm_num at p3 t1 t2 ⊢
    linarith
  obtain ⟨k1, k2⟩ := quat_add_acc hf h5f p4 (by
    have : X * ‖qval f‖ ≤ 2 ^ 60 * 2 := mul_le_mul hb h2 hq0 (by norm_num)
    norm_num at this ⊢
    linarith)
  refine ⟨(f 0 +ᶠ D 0, f 1 +ᶠ D 1, f 2 +ᶠ D 2, f 3 +ᶠ D 3), ?_, forall_lt_four.mp k1, ?_⟩
  · unfold advance eulerStep
    simp only [e1, e2, exec_ok e3, e4, e6, Res.mapErr_ok, Res.ok_bind, reduceCtorEq, or_self, if_true, if_false,
      Vec.init_new (F := F) (n := 4) (by omega) (by omega), Quat.getQw_eq h5.four,
      Quat.getQx_eq h5.four, Quat.getQy_eq h5.four, Quat.getQz_eq h5.four]
  · have t3 : ‖qval f + qval D - (1 + u) * qval f‖ = ‖qval D - u * qval f‖ := by
      congr 1
      rw [add_mul, one_mul]
      abel
    refine (norm_sub_le_norm_sub_add_norm_sub _ (qval f + qval D) _).trans ?_
    rw [t3]
    have k2' : ‖mkQ ⟪f 0 +ᶠ D 0⟫ ⟪f 1 +ᶠ D 1⟫ ⟪f 2 +ᶠ D 2⟫ ⟪f 3 +ᶠ D 3⟫ - (qval f + qval D)‖ ≤ _ := k2
    norm_num at k2' p3 hη' ⊢
    linarith

/-- What Euler's method does in binary32. -/
theorem Ready.euler [H : Halves F] (h : Ready s f) (hm : s.method = .Euler) (hts : Finite s.ts)
    {c : GyrometerConfig F} (hc : Gyrometer.getConfig s.gyr = .ok c) (hr : Gyrometer.Reads c gx gy gz p q r)
    (h1 : 1 / 2 ≤ ‖qval f‖) (h2 : ‖qval f‖ ≤ 2) (hN : ‖mkQ 0 ⟪p⟫ ⟪q⟫ ⟪r⟫‖ ≤ 2 ^ 63)
    (hb : ‖mkQ 0 ⟪p⟫ ⟪q⟫ ⟪r⟫‖ * |⟪s.ts⟫| ≤ 2 ^ 60) (hb' : |⟪s.ts⟫| ≤ 2 ^ 100) :
    (AR.update gx gy gz s).1 = .ok () ∧
      ((AR.update gx gy gz s).2.attitude = s.attitude ∧ ‖mkQ 0 ⟪p⟫ ⟪q⟫ ⟪r⟫‖ ≤ 10001 / 10 ^ 8 ∨
       9999 / 10 ^ 8 ≤ ‖mkQ 0 ⟪p⟫ ⟪q⟫ ⟪r⟫‖ ∧ ∃ f', Ready (AR.update gx gy gz s).2 f' ∧ NearUnit f' ∧
        ‖qval f' - ‖(1 + (⟪s.ts⟫ / 2) • mkQ 0 ⟪p⟫ ⟪q⟫ ⟪r⟫) * qval f‖⁻¹ •
          ((1 + (⟪s.ts⟫ / 2) • mkQ 0 ⟪p⟫ ⟪q⟫ ⟪r⟫) * qval f)‖ ≤ 6 / 10 ^ 6) := by
  obtain ⟨g, n, t, v, w, g1, g2, g3, hp, hq, hr, hw, hn, ht, hv, e⟩ := h.run hc hr
  obtain ⟨n', hn', fn, hcase⟩ := C77_norm hw (forall_lt_three.mpr ⟨hp, hq, hr⟩) (by rw [norm_rate]; exact hN)
  obtain rfl := Except.ok.inj (hn.symm.trans hn')
  rw [norm_rate] at hcase
  have heps := eps_bounds (F := F)
  rw [e]
  by_cases hmov : (n >ᶠ EPSILON) = true
  · have hgt := (R.lt_val eps_fin fn).mp hmov
    rw [if_pos hmov]
    rcases hcase with ⟨h0, -⟩ | ⟨hlo, hacc⟩
    · rw [h0] at hgt
      norm_num at heps
      linarith [heps.1]
    · generalize hωd : mkQ 0 ⟪p⟫ ⟪q⟫ ⟪r⟫ = ω at *
      obtain ⟨x, ex, hx, hxe⟩ := euler_acc (t := t) (n := n) (order := s.order) hv h.attitude h.finite hp hq hr hts
        hωd.symm hN hb hb' h2
      rw [← hm] at ex
      rw [Op.liftM_bind_run, ex]
      have hR := h.gyr_set g1 g2
      have hre : ω.re = 0 := by rw [← hωd, mkQ_re]
      set X := (1 + (⟪s.ts⟫ / 2) • ω) * qval f with hX
      have hv' : ‖(⟪s.ts⟫ / 2) • ω‖ = ‖ω‖ * |⟪s.ts⟫| / 2 := by
        rw [norm_smul, Real.norm_eq_abs, abs_div, abs_two]
        ring
      have hq0 : 0 < ‖qval f‖ := by linarith
      have hstep := one_le_norm_step hre (⟪s.ts⟫ / 2)
      have hstep' : ‖ω‖ * |⟪s.ts⟫| / 2 ≤ ‖(1 + (⟪s.ts⟫ / 2) • ω : Quaternion ℝ)‖ := by
        rw [← hv', quat_norm, quat_norm]
        refine Real.sqrt_le_sqrt ?_
        rw [Quaternion.normSq_def', Quaternion.normSq_def']
        simp only [Quaternion.re_smul, Quaternion.imI_smul, Quaternion.imJ_smul, Quaternion.imK_smul, Quaternion.re_add,
          Quaternion.imI_add, Quaternion.imJ_add, Quaternion.imK_add, hre, mul_zero, smul_eq_mul]
        change _ ≤ ((1 : ℝ) + 0) ^ 2 + (0 + _) ^ 2 + (0 + _) ^ 2 + (0 + _) ^ 2
        simp only [zero_add]
        linarith
      have hup : ‖(1 + (⟪s.ts⟫ / 2) • ω : Quaternion ℝ)‖ ≤ 1 + ‖ω‖ * |⟪s.ts⟫| / 2 := by
        refine (norm_add_le _ _).trans ?_
        rw [hv', norm_one]
      have hXn : ‖X‖ = ‖(1 + (⟪s.ts⟫ / 2) • ω : Quaternion ℝ)‖ * ‖qval f‖ := by rw [hX, norm_mul]
      generalize ‖(1 + (⟪s.ts⟫ / 2) • ω : Quaternion ℝ)‖ = M at *
      generalize hxd : mkQ ⟪x.1⟫ ⟪x.2.1⟫ ⟪x.2.2.1⟫ ⟪x.2.2.2⟫ = x' at *
      have hX0 : 0 ≤ ‖ω‖ * |⟪s.ts⟫| := by positivity
      generalize ‖ω‖ * |⟪s.ts⟫| = K at *
      have hXlo : 1 / 2 ≤ ‖X‖ := by rw [hXn]; nlinarith
      have rel : ‖x' - X‖ ≤ 19475 / 10 ^ 10 * ‖X‖ := by
        refine hxe.trans ?_
        have : (21 / 10 / 2 ^ 24 + 305 / 10 / 2 ^ 24 * (K / 2)) * ‖qval f‖ ≤ 326 / 10 / 2 ^ 24 * ‖X‖ := by
          rw [hXn, ← mul_assoc]
          refine mul_le_mul_of_nonneg_right ?_ hq0.le
          norm_num
          linarith
        norm_num at this hXlo ⊢
        linarith
      have dn := abs_le.mp ((abs_norm_sub_norm_le x' X).trans rel)
      have hXhi : ‖X‖ ≤ 2 ^ 62 := by
        rw [hXn]
        calc M * ‖qval f‖ ≤ 2 ^ 61 * 2 := by
              refine mul_le_mul ?_ h2 hq0.le (by norm_num)
              norm_num at hb ⊢
              linarith
          _ ≤ _ := by norm_num
      obtain ⟨f', k1, k2, k3, k4⟩ := hR.store_unit x hx (by
        rw [hxd]
        norm_num at dn ⊢
        linarith [dn.1]) (by
        rw [hxd]
        norm_num at dn hXhi ⊢
        linarith [dn.2])
      rw [hxd] at k4
      refine ⟨k1, .inr ⟨hlo, f', k2, k3, ?_⟩⟩
      have nd := normalised_dist (x := x') (y := X) (norm_pos_iff.mp (by norm_num at dn; linarith [dn.1]))
        (norm_pos_iff.mp (by linarith))
      have nd2 : 2 * ‖x' - X‖ / ‖X‖ ≤ 2 * (19475 / 10 ^ 10) := by
        rw [div_le_iff₀ (by linarith)]
        linarith
      have := norm_sub_le_norm_sub_add_norm_sub (qval f') (‖x'‖⁻¹ • x') (‖X‖⁻¹ • X)
      norm_num at this nd nd2 k4 ⊢
      linarith
  · rw [if_neg hmov]
    refine ⟨rfl, .inl ⟨rfl, ?_⟩⟩
    have hle : ⟪n⟫ ≤ ⟪(EPSILON : F)⟫ := not_lt.mp fun hc => hmov ((R.lt_val eps_fin fn).mpr hc)
    rcases hcase with ⟨-, h0⟩ | ⟨-, hacc⟩
    · exact h0
    · have := (abs_le.mp hacc).1
      norm_num at this heps ⊢
      linarith [heps.2]

end AR

open AR
variable {s s' : AR F} {a : ARInit F} {gx gy gz p q r : F}

/-- C106: one update of Euler's method in binary32, from an attitude `A` of norm between 1/2 and 2, with a rate
between 1.0001e-4 and `2⁶³`: it succeeds, and the new attitude is a unit quaternion up to one in a million that differs
by at most `6e-6` from the exact step of Euler's method, normalised. -/
theorem C106_step [Halves F] (hs : Started a s) (hm : a.method = .Euler) (hts : Finite a.ts)
    {A : Quaternion ℝ} (hA : ShowsF s fun f => qval f = A) (h1 : 1 / 2 ≤ ‖A‖) (h2 : ‖A‖ ≤ 2)
    (hr : Gyrometer.Reads a.config gx gy gz p q r) {ω Y : Quaternion ℝ} (hω : ω = mkQ 0 ⟪p⟫ ⟪q⟫ ⟪r⟫)
    (hlo : 10001 / 10 ^ 8 < ‖ω‖) (hhi : ‖ω‖ ≤ 2 ^ 63) (hb : ‖ω‖ * |⟪a.ts⟫| ≤ 2 ^ 60) (hb' : |⟪a.ts⟫| ≤ 2 ^ 100)
    (hY : Y = A + (⟪a.ts⟫ / 2) • (ω * A)) :
    ∃ s', update gx gy gz s = (.ok (), s') ∧ ShowsF s' fun f => NearUnit f ∧ ‖qval f - ‖Y‖⁻¹ • Y‖ ≤ 6 / 10 ^ 6 := by
  obtain ⟨⟨f, hf⟩, e1, e2, -, e4⟩ := hs.ready
  have hA' : qval f = A := hA.ready hf fun f g h hf => by
    rw [← hf]
    unfold qval
    rw [h 0 (by omega), h 1 (by omega), h 2 (by omega), h 3 (by omega)]
  have hY' : Y = (1 + (⟪a.ts⟫ / 2) • ω) * A := by rw [hY, add_mul, one_mul, smul_mul_assoc]
  subst hA' hω
  rw [hY']
  rw [← e1] at hb hb' hts ⊢
  obtain ⟨k1, k2⟩ := hf.euler (e2.trans hm) hts e4 hr h1 h2 hhi hb hb'
  refine ⟨(update gx gy gz s).2, Prod.ext k1 rfl, ?_⟩
  rcases k2 with ⟨-, k2⟩ | ⟨-, f', k2, k3, k4⟩
  · exact absurd hlo (not_lt.mpr k2)
  · exact k2.showsF ⟨k3, k4⟩

/-! ### A sequence of samples -/

/-- A unit step of Euler's method. -/
noncomputable def eulerUnit (v : Quaternion ℝ) : Quaternion ℝ := ‖1 + v‖⁻¹ • (1 + v)

/-- The attitude after a sequence of samples when each one multiplies it on the left by `S` of half the angle turned. -/
noncomputable def GyrometerConfig.walk (c : GyrometerConfig F) (S : Quaternion ℝ → Quaternion ℝ) (τ : ℝ) :
    Quaternion ℝ → List (F × F × F) → Quaternion ℝ
  | A, [] => A
  | A, x :: l => c.walk S τ (S ((τ / 2) • c.rateOf x) * A) l

theorem one_le_norm {v : Quaternion ℝ} (hv : v.re = 0) : 1 ≤ ‖1 + v‖ := by
  have := one_le_norm_step hv 1
  rwa [one_smul] at this

theorem one_add_ne {v : Quaternion ℝ} (hv : v.re = 0) : 1 + v ≠ 0 :=
  norm_pos_iff.mp (lt_of_lt_of_le one_pos (one_le_norm hv))

theorem norm_eulerUnit {v : Quaternion ℝ} (hv : v.re = 0) : ‖eulerUnit v‖ = 1 := by
  have := one_le_norm hv
  unfold eulerUnit
  rw [norm_smul, norm_inv, norm_norm]
  exact inv_mul_cancel₀ (by positivity)

theorem eulerUnit_dist {v w : Quaternion ℝ} (hv : v.re = 0) (hw : w.re = 0) :
    ‖eulerUnit v - eulerUnit w‖ ≤ 2 * ‖v - w‖ := by
  have h1 := one_le_norm hw
  refine (normalised_dist (one_add_ne hv) (one_add_ne hw)).trans ?_
  rw [add_sub_add_left_eq_sub, div_le_iff₀ (by linarith)]
  nlinarith [norm_nonneg (v - w)]

/-- One sample. -/
theorem AR.euler_track_step [Halves F] (hs : Started a s) (hm : a.method = .Euler) (hts : Finite a.ts) {B C : ℝ}
    (hC : a.config.UpTo C) (h1 : B ≤ 2 ^ 126) (h2 : C ≤ 2 ^ 98) (h3 : C * B ≤ 2 ^ 60) (h4 : C * B * |⟪a.ts⟫| ≤ 2 ^ 57)
    (h5 : |⟪a.ts⟫| ≤ 2 ^ 57)
    {A : Quaternion ℝ} {E : ℝ}
    (hA : ShowsF s fun f => NearUnit f ∧ ‖qval f - A‖ ≤ E) {x : F × F × F} (hx : a.config.Within B x) :
    ∃ s', update x.1 x.2.1 x.2.2 s = (.ok (), s') ∧ Started a s' ∧ ShowsF s' fun f => NearUnit f ∧
      ‖qval f - eulerUnit ((⟪a.ts⟫ / 2) • a.config.rateOf x) * A‖ ≤
        E + (7 / 10 ^ 6 + 101 / 10 ^ 6 * |⟪a.ts⟫| + 5 / 10 ^ 6 * (C * B * |⟪a.ts⟫|)) := by
  obtain ⟨⟨f, hf⟩, e1, e2, -, e4⟩ := hs.ready
  obtain ⟨hA1, hA2⟩ : NearUnit f ∧ ‖qval f - A‖ ≤ E := hA.ready hf fun f g h hf => by
    have : qval g = qval f := by
      unfold qval
      rw [h 0 (by omega), h 1 (by omega), h 2 (by omega), h 3 (by omega)]
    unfold NearUnit at hf ⊢
    rw [this]
    exact hf
  obtain ⟨p, q, r, hr, d1, d2⟩ := GyrometerConfig.reads hf.gyr e4 hx hC h1 h2 h3
  generalize hωd : a.config.rateOf x = ω at *
  have hω0 : ω.re = 0 := by rw [← hωd]; rfl
  have hu := abs_le.mp hA1
  have hCB : 0 ≤ C * B := by
    have := norm_nonneg ω
    nlinarith
  rw [← e1] at h4 h5 hts ⊢
  generalize hψd : mkQ 0 ⟪p⟫ ⟪q⟫ ⟪r⟫ = ψ at *
  have hψ0 : ψ.re = 0 := by rw [← hψd]; rfl
  have dψ : ‖ψ‖ ≤ 526 / 100 * (C * B) + 1 / 10 ^ 14 := by
    have := norm_sub_norm_le ψ ω
    norm_num at d1 ⊢
    linarith
  generalize hτ : |⟪s.ts⟫| = T at *
  have hT0 : 0 ≤ T := by rw [← hτ]; positivity
  have hturn : ‖ψ‖ * T ≤ 526 / 100 * (C * B * T) + 1 / 10 ^ 14 * T := by
    have := mul_le_mul_of_nonneg_right dψ hT0
    linarith
  have hcl := hf.euler (gx := x.1) (gy := x.2.1) (gz := x.2.2) (e2.trans hm) hts e4 hr
    (by norm_num at hu; linarith [hu.1]) (by norm_num at hu; linarith [hu.2])
    (by rw [hψd]; norm_num at h3 dψ ⊢; linarith) (by rw [hψd, hτ]; norm_num at h4 h5 hturn ⊢; linarith)
    (by rw [hτ]; exact h5.trans (by norm_num))
  rw [hψd] at hcl
  obtain ⟨k1, k2⟩ := hcl
  refine ⟨(update x.1 x.2.1 x.2.2 s).2, Prod.ext k1 rfl, hs.step _ _ _, ?_⟩
  have hv0 : ((⟪s.ts⟫ / 2) • ω).re = 0 := by simp [hω0]
  have hw0 : ((⟪s.ts⟫ / 2) • ψ).re = 0 := by simp [hψ0]
  have hdist : ‖(⟪s.ts⟫ / 2) • ψ - (⟪s.ts⟫ / 2) • ω‖ ≤ T / 2 * (4 / 10 ^ 6 * (C * B) + 1 / 10 ^ 14) := by
    rw [← smul_sub, norm_smul, Real.norm_eq_abs, abs_div, hτ]
    norm_num only [abs_two]
    norm_num at d1 ⊢
    gcongr
  have hsize : ‖(⟪s.ts⟫ / 2) • ψ‖ = T / 2 * ‖ψ‖ := by rw [norm_smul, Real.norm_eq_abs, abs_div, hτ, abs_two]
  generalize (⟪s.ts⟫ / 2) • ω = v at *
  generalize (⟪s.ts⟫ / 2) • ψ = w at *
  have hdist' : ‖eulerUnit w - eulerUnit v‖ ≤ 2 * (T / 2 * (4 / 10 ^ 6 * (C * B) + 1 / 10 ^ 14)) :=
    (eulerUnit_dist hw0 hv0).trans (by gcongr)
  have hq1 : ‖qval f‖ ≤ 1001 / 1000 := by
    norm_num at hu ⊢
    linarith [hu.2]
  -- the effect of the readings and of the previous deviation
  have hprev : ∀ y : Quaternion ℝ, ‖y - eulerUnit v * A‖ ≤
      ‖y - eulerUnit w * qval f‖ + 2 * (T / 2 * (4 / 10 ^ 6 * (C * B) + 1 / 10 ^ 14)) * (1001 / 1000) + E := by
    intro y
    have t1 := norm_sub_le_norm_sub_add_norm_sub y (eulerUnit w * qval f) (eulerUnit v * A)
    have t2 := norm_sub_le_norm_sub_add_norm_sub (eulerUnit w * qval f) (eulerUnit v * qval f) (eulerUnit v * A)
    rw [← sub_mul, ← mul_sub, norm_mul, norm_mul, norm_eulerUnit hv0, one_mul] at t2
    have t3 : ‖eulerUnit w - eulerUnit v‖ * ‖qval f‖ ≤
        2 * (T / 2 * (4 / 10 ^ 6 * (C * B) + 1 / 10 ^ 14)) * (1001 / 1000) := by gcongr
    linarith
  have hCBT : 0 ≤ C * B * T := by positivity
  rcases k2 with ⟨k2, k3⟩ | ⟨-, f', k2, k3, k4⟩
  · -- the sample is below the threshold
    obtain ⟨f2, hf2⟩ := hf.update x.1 x.2.1 x.2.2
    obtain ⟨v', ev, hv'⟩ := hf.getAttitude
    refine ⟨v', f, (getAttitude_congr k2 (hf2.initialized.trans hf.initialized.symm)).trans ev, hv', hf.finite, hA1, ?_⟩
    refine (hprev _).trans ?_
    have h' : ‖qval f - eulerUnit w * qval f‖ ≤ 2 * (T / 2 * (10001 / 10 ^ 8)) * (1001 / 1000) := by
      have e0 : eulerUnit (0 : Quaternion ℝ) = 1 := by unfold eulerUnit; simp
      have e : qval f - eulerUnit w * qval f = (eulerUnit 0 - eulerUnit w) * qval f := by
        rw [e0, sub_mul, one_mul]
      rw [e, norm_mul]
      refine mul_le_mul ?_ hq1 (norm_nonneg _) (by positivity)
      refine (eulerUnit_dist rfl hw0).trans ?_
      rw [zero_sub, norm_neg, hsize]
      gcongr
    norm_num at h' ⊢
    linarith
  · refine k2.showsF ⟨k3, (hprev _).trans ?_⟩
    have hn0 : 0 < ‖qval f‖ := by
      norm_num at hu
      linarith [hu.1]
    have h1w := one_le_norm hw0
    have e5 : ‖(1 + w) * qval f‖⁻¹ • ((1 + w) * qval f) = eulerUnit w * (‖qval f‖⁻¹ • qval f) := by
      unfold eulerUnit
      rw [norm_mul, mul_inv, smul_mul_smul_comm]
    rw [e5] at k4
    have h' : ‖eulerUnit w * (‖qval f‖⁻¹ • qval f) - eulerUnit w * qval f‖ ≤ 1 / 10 ^ 6 := by
      rw [← mul_sub, norm_mul, norm_eulerUnit hw0, one_mul,
        show ‖qval f‖⁻¹ • qval f - qval f = (‖qval f‖⁻¹ - 1) • qval f by rw [sub_smul, one_smul],
        norm_smul, Real.norm_eq_abs]
      have : |‖qval f‖⁻¹ - 1| * ‖qval f‖ = |1 - ‖qval f‖| := by
        rw [show ‖qval f‖⁻¹ - 1 = (1 - ‖qval f‖) / ‖qval f‖ by field_simp, abs_div, abs_of_pos hn0]
        field_simp
      rw [this, abs_sub_comm]
      exact hA1
    have h2 := norm_sub_le_norm_sub_add_norm_sub (qval f') (eulerUnit w * (‖qval f‖⁻¹ • qval f)) (eulerUnit w * qval f)
    norm_num at h' k4 h2 ⊢
    linarith

/-- C106: Euler's method in binary32 over any list of finite samples within `B` of the biases (coefficients up to `C`):
every update succeeds, and after `k` samples the attitude has norm 1 up to one in a million and is within
`E + k · (7e-6 + 1.01e-4 |τ| + 5e-6 C B |τ|)` of what the exact normalised Euler steps make of `A`. -/
theorem C106_track [Halves F] (hs : Started a s) (hm : a.method = .Euler) (hts : Finite a.ts) {B C : ℝ}
    (hC : a.config.UpTo C) (h1 : B ≤ 2 ^ 126) (h2 : C ≤ 2 ^ 98) (h3 : C * B ≤ 2 ^ 60) (h4 : C * B * |⟪a.ts⟫| ≤ 2 ^ 57)
    (h5 : |⟪a.ts⟫| ≤ 2 ^ 57) {A : Quaternion ℝ} {E : ℝ}
    (hA : ShowsF s fun f => NearUnit f ∧ ‖qval f - A‖ ≤ E) (l : List (F × F × F))
    (hl : ∀ x ∈ l, a.config.Within B x) :
    ∃ s', feed l s = (.ok (), s') ∧ Started a s' ∧ ShowsF s' fun f => NearUnit f ∧
      ‖qval f - a.config.walk (fun v => ‖1 + v‖⁻¹ • (1 + v)) ⟪a.ts⟫ A l‖ ≤
        E + l.length * (7 / 10 ^ 6 + 101 / 10 ^ 6 * |⟪a.ts⟫| + 5 / 10 ^ 6 * (C * B * |⟪a.ts⟫|)) := by
  induction l generalizing s A E with
  | nil => exact ⟨s, rfl, hs, by simpa [GyrometerConfig.walk] using hA⟩
  | cons x l ih =>
    obtain ⟨s1, e1, k1, k2⟩ := euler_track_step hs hm hts hC h1 h2 h3 h4 h5 hA (hl x (by simp))
    obtain ⟨s2, e2, k3, k4⟩ := ih k1 k2 fun y hy => hl y (by simp [hy])
    refine ⟨s2, ?_, k3, ?_⟩
    · unfold feed
      rw [Op.bind_ok e1]
      exact e2
    · obtain ⟨v, f, a1, a2, a3, a4, a5⟩ := k4
      refine ⟨v, f, a1, a2, a3, a4, ?_⟩
      rw [GyrometerConfig.walk]
      refine a5.trans (le_of_eq ?_)
      rw [List.length_cons]
      push_cast
      ring

/-! ### Euler's method and the rotation -/

theorem sub_arctan_le {x : ℝ} (hx : 0 ≤ x) : |Real.arctan x - x| ≤ x ^ 3 / 3 := by
  have d : ∀ y : ℝ, HasDerivAt (fun y => Real.arctan y - y + y ^ 3 / 3) (1 / (1 + y ^ 2) - 1 + y ^ 2) y := fun y => by
    have := ((Real.hasDerivAt_arctan y).sub (hasDerivAt_id y)).add ((hasDerivAt_pow 3 y).div_const 3)
    refine this.congr_deriv ?_
    norm_num
  have m : Monotone (fun y => Real.arctan y - y + y ^ 3 / 3) := by
    refine monotone_of_deriv_nonneg (fun y => (d y).differentiableAt) fun y => ?_
    rw [(d y).deriv]
    have : 1 / (1 + y ^ 2) - 1 + y ^ 2 = y ^ 4 / (1 + y ^ 2) := by
      have : (1 + y ^ 2 : ℝ) ≠ 0 := by positivity
      field_simp
      ring
    rw [this]
    positivity
  have h := m hx
  have h2 : Real.arctan x ≤ x := by
    have h0 := Real.arctan_nonneg.mpr hx
    have := Real.le_tan h0 (Real.arctan_lt_pi_div_two x)
    rwa [Real.tan_arctan] at this
  simp only [Real.arctan_zero] at h
  rw [abs_le]
  constructor
  · linarith
  · have : 0 ≤ x ^ 3 := by positivity
    linarith

/-- A unit step of Euler's method is a rotation by an angle that is too small. -/
theorem eulerUnit_eq {v : Quaternion ℝ} (hv : v.re = 0) (h0 : v ≠ 0) :
    eulerUnit v = NormedSpace.exp ((Real.arctan ‖v‖ / ‖v‖) • v) := by
  have hn : 0 < ‖v‖ := norm_pos_iff.mpr h0
  have hr := rotation_eq hv hn.ne' (2 * (Real.arctan ‖v‖ / ‖v‖))
  rw [mul_div_cancel_left₀ _ (two_ne_zero)] at hr
  rw [← hr, show ‖v‖ * (2 * (Real.arctan ‖v‖ / ‖v‖)) / 2 = Real.arctan ‖v‖ by field_simp, Real.cos_arctan, Real.sin_arctan]
  have hN : ‖1 + v‖ = √(1 + ‖v‖ ^ 2) := by
    rw [quat_norm, quat_norm, Real.sq_sqrt (by rw [Quaternion.normSq_def']; positivity)]
    congr 1
    rw [Quaternion.normSq_def', Quaternion.normSq_def', Quaternion.re_add, Quaternion.imI_add, Quaternion.imJ_add,
      Quaternion.imK_add, hv]
    change ((1 : ℝ) + 0) ^ 2 + (0 + _) ^ 2 + (0 + _) ^ 2 + (0 + _) ^ 2 = _
    ring
  unfold eulerUnit
  rw [hN]
  have hs : 0 < √(1 + ‖v‖ ^ 2) := Real.sqrt_pos.mpr (by positivity)
  generalize √(1 + ‖v‖ ^ 2) = S at *
  ext
  · rw [Quaternion.re_smul, Quaternion.re_add, hv, mkQ_re]
    change S⁻¹ • ((1 : ℝ) + 0) = _
    simp
  · rw [Quaternion.imI_smul, Quaternion.imI_add, mkQ_imI]
    change S⁻¹ • ((0 : ℝ) + _) = _
    simp
    field_simp
  · rw [Quaternion.imJ_smul, Quaternion.imJ_add, mkQ_imJ]
    change S⁻¹ • ((0 : ℝ) + _) = _
    simp
    field_simp
  · rw [Quaternion.imK_smul, Quaternion.imK_add, mkQ_imK]
    change S⁻¹ • ((0 : ℝ) + _) = _
    simp
    field_simp

theorem eulerUnit_exp {v : Quaternion ℝ} (hv : v.re = 0) : ‖eulerUnit v - NormedSpace.exp v‖ ≤ ‖v‖ ^ 3 / 3 := by
  by_cases h0 : v = 0
  · subst h0
    unfold eulerUnit
    simp
  · have hn : 0 < ‖v‖ := norm_pos_iff.mpr h0
    rw [eulerUnit_eq hv h0]
    refine (exp_dist (by simp [hv]) hv).trans ?_
    rw [show (Real.arctan ‖v‖ / ‖v‖) • v - v = (Real.arctan ‖v‖ / ‖v‖ - 1) • v by rw [sub_smul, one_smul], norm_smul,
      Real.norm_eq_abs, show Real.arctan ‖v‖ / ‖v‖ - 1 = (Real.arctan ‖v‖ - ‖v‖) / ‖v‖ by field_simp, abs_div,
      abs_of_pos hn, div_mul_cancel₀ _ hn.ne']
    exact sub_arctan_le hn.le

/-- C106: the exact Euler steps fall behind the rotation with the rates taken in the fixed frame by at most
`h³ / 3` per sample, where `h` bounds half of the angle turned. -/
theorem C106_lag {c : GyrometerConfig F} {τ h : ℝ} {A A' : Quaternion ℝ} {E : ℝ} (hA : ‖A - A'‖ ≤ E) (hA1 : ‖A'‖ = 1)
    (l : List (F × F × F)) (hl : ∀ x ∈ l, ‖(τ / 2) • c.rateOf x‖ ≤ h) :
    ‖c.walk (fun v => ‖1 + v‖⁻¹ • (1 + v)) τ A l - c.walk NormedSpace.exp τ A' l‖ ≤ E + l.length * (h ^ 3 / 3) := by
  induction l generalizing A A' E with
  | nil => simpa [GyrometerConfig.walk] using hA
  | cons x l ih =>
    have hx := hl x (by simp)
    have h0 : ((τ / 2) • c.rateOf x).re = 0 := by
      have : (c.rateOf x).re = 0 := rfl
      simp [this]
    generalize hv : (τ / 2) • c.rateOf x = v at *
    have step : ‖eulerUnit v * A - NormedSpace.exp v * A'‖ ≤ E + h ^ 3 / 3 := by
      have t := norm_sub_le_norm_sub_add_norm_sub (eulerUnit v * A) (eulerUnit v * A') (NormedSpace.exp v * A')
      rw [← mul_sub, ← sub_mul, norm_mul, norm_mul, norm_eulerUnit h0, hA1, one_mul, mul_one] at t
      have t2 := eulerUnit_exp h0
      have t3 : ‖v‖ ^ 3 ≤ h ^ 3 := pow_le_pow_left₀ (norm_nonneg _) hx 3
      linarith
    have := ih step (by rw [norm_mul, norm_exp_pure h0, hA1, one_mul]) fun y hy => hl y (by simp [hy])
    rw [GyrometerConfig.walk, GyrometerConfig.walk, hv]
    refine this.trans (le_of_eq ?_)
    rw [List.length_cons]
    push_cast
    ring

/-! ### A concrete case -/

/-- A filter at the identity with Euler's method, default configuration and a step of a hundredth of a second. -/
def AR.plainE : ARInit F32 where
  qw := lit 1
  qx := lit 0
  qy := lit 0
  qz := lit 0
  config := .default
  ts := lit (1 / 100)
  method := .Euler
  order := 1

theorem AR.plainE_ts : Finite (lit (1 / 100) : F32) ∧ |⟪(lit (1 / 100) : F32)⟫| ≤ 11 / 1000 := by
  have e : (lit (1 / 100) : F32) = ⟨.fin (10737418 / 1073741824)⟩ := by decide +kernel
  refine ⟨by decide +kernel, ?_⟩
  show |F32.toReal (lit (1 / 100) : F32)| ≤ _
  rw [e, F32.toReal_fin]
  norm_num [abs_le]

theorem AR.plainE_started : ∃ s, Started plainE s ∧ ShowsF s fun f => NearUnit f ∧ ‖qval f - 1‖ ≤ 0 := by
  obtain ⟨s0, e0, -⟩ := AR.new_fresh (F := F32)
  have h := (C46_iff (a := AR.plainE) e0).mpr (by
    show _ ∧ Finite (lit 1 : F32) ∧ Finite (lit 0 : F32) ∧ Finite (lit 0 : F32) ∧ Finite (lit 0 : F32)
    refine ⟨?_, by decide +kernel⟩
    show ∀ x ∈ (GyrometerConfig.default : GyrometerConfig F32).params, Finite x
    decide +kernel)
  have hs : AR.Started AR.plainE (AR.initWith AR.plainE s0).2 :=
    ⟨s0, _, ⟨s0, e0, .refl _⟩, Prod.ext h rfl, .refl _⟩
  refine ⟨_, hs, ?_⟩
  obtain ⟨v, e1, hv⟩ := C46_attitude ⟨s0, e0, .refl _⟩ (Prod.ext h rfl : AR.initWith AR.plainE s0 = (.ok (), _))
  have hq : qval (seq4 plainE.qw plainE.qx plainE.qy plainE.qz) = 1 := by
    show mkQ ⟪(lit 1 : F32)⟫ ⟪(lit 0 : F32)⟫ ⟪(lit 0 : F32)⟫ ⟪(lit 0 : F32)⟫ = 1
    rw [Rounded.one_val, Rounded.zero_val]
    rfl
  refine ⟨v, _, e1, hv, ?_, ?_, ?_⟩
  · exact forall_lt_four.mpr ⟨Rounded.one_finite, Rounded.zero_finite, Rounded.zero_finite, Rounded.zero_finite⟩
  · unfold NearUnit
    rw [hq]
    simp
  · rw [hq]
    simp

/-- Two hundred samples: the attitude stays within two thousandths of the rotation. -/
example : ∃ s s', Started plainE s ∧
    feed ((List.replicate 100 [((lit 1, lit 0, lit 0) : F32 × F32 × F32), (lit 0, lit 2, lit 0)]).flatten) s =
      (.ok (), s') ∧
    ShowsF s' fun f => NearUnit f ∧
      ‖qval f - plainE.config.walk NormedSpace.exp ⟪plainE.ts⟫ 1
        ((List.replicate 100 [((lit 1, lit 0, lit 0) : F32 × F32 × F32), (lit 0, lit 2, lit 0)]).flatten)‖ ≤ 2 / 1000 := by
  obtain ⟨s, hs, hA⟩ := plainE_started
  have v0 := Rounded.zero_val (F := F32)
  have v1 := Rounded.one_val (F := F32)
  have v2 := Rounded.two_val (F := F32)
  have w0 := Rounded.zero_finite (F := F32)
  have w1 := Rounded.one_finite (F := F32)
  have w2 := Rounded.two_finite (F := F32)
  obtain ⟨t1, t2⟩ := plainE_ts
  have hmem : ∀ x ∈ (List.replicate 100 [((lit 1, lit 0, lit 0) : F32 × F32 × F32), (lit 0, lit 2, lit 0)]).flatten,
      x = (lit 1, lit 0, lit 0) ∨ x = (lit 0, lit 2, lit 0) := by
    intro x hx
    rw [List.mem_flatten] at hx
    obtain ⟨l, hl, hx⟩ := hx
    rw [(List.mem_replicate.mp hl).2] at hx
    simpa using hx
  have hlen : ((List.replicate 100 [((lit 1, lit 0, lit 0) : F32 × F32 × F32), (lit 0, lit 2, lit 0)]).flatten).length = 200 := by
    rw [List.length_flatten, List.map_replicate, List.sum_replicate]
    rfl
  generalize (List.replicate 100 [((lit 1, lit 0, lit 0) : F32 × F32 × F32), (lit 0, lit 2, lit 0)]).flatten = l at *
  obtain ⟨s', k1, -, k2⟩ := C106_track (B := 2) (C := 1) hs rfl t1 (by
      intro k hk
      have : k = lit 1 ∨ k = lit 0 := by
        simp [plainE, GyrometerConfig.default] at hk
        tauto
      rcases this with rfl | rfl
      · rw [v1]; norm_num
      · rw [v0]; norm_num)
    (by norm_num) (by norm_num) (by norm_num)
    (by
      show 1 * 2 * |⟪(lit (1 / 100) : F32)⟫| ≤ 2 ^ 57
      norm_num at t2 ⊢
      linarith)
    (by
      show |⟪(lit (1 / 100) : F32)⟫| ≤ 2 ^ 57
      refine t2.trans ?_
      norm_num)
    hA l (by
      intro x hx
      have b0 : ⟪plainE.config.xBias⟫ = 0 ∧ ⟪plainE.config.yBias⟫ = 0 ∧ ⟪plainE.config.zBias⟫ = 0 := ⟨v0, v0, v0⟩
      unfold GyrometerConfig.Within
      rw [b0.1, b0.2.1, b0.2.2]
      rcases hmem x hx with rfl | rfl
      · simp [v0, v1, w0, w1]
      · simp [v0, v2, w0, w2])
  have lag := C106_lag (F := F32) (c := plainE.config) (τ := ⟪plainE.ts⟫) (h := 11 / 1000) (A := 1) (A' := 1) (E := 0) (by simp)
    (by simp) l (by
      intro x hx
      have hr : ‖plainE.config.rateOf x‖ ≤ 2 := by
        rcases hmem x hx with rfl | rfl <;>
        · simp only [GyrometerConfig.rateOf, GyrometerConfig.real, GyrometerConfig.rate, plainE, GyrometerConfig.default,
            v0, v1, v2]
          rw [norm_mkQ, Real.sqrt_le_left (by norm_num)]
          norm_num
      rw [norm_smul, Real.norm_eq_abs, abs_div, abs_two]
      have : |⟪plainE.ts⟫| / 2 * ‖plainE.config.rateOf x‖ ≤ 11 / 1000 / 2 * 2 :=
        mul_le_mul (by have := t2; show |⟪(lit (1 / 100) : F32)⟫| / 2 ≤ _; linarith) hr (norm_nonneg _) (by norm_num)
      linarith)
  refine ⟨s, s', hs, k1, ?_⟩
  obtain ⟨v, f, a1, a2, a3, a4, a5⟩ := k2
  refine ⟨v, f, a1, a2, a3, a4, ?_⟩
  rw [hlen] at a5 lag
  have t3 : |⟪plainE.ts⟫| ≤ 11 / 1000 := t2
  have t := norm_sub_le_norm_sub_add_norm_sub (qval f) (plainE.config.walk (fun v => ‖1 + v‖⁻¹ • (1 + v)) ⟪plainE.ts⟫ 1 l)
    (plainE.config.walk NormedSpace.exp ⟪plainE.ts⟫ 1 l)
  generalize plainE.config.walk (fun v => ‖1 + v‖⁻¹ • (1 + v)) ⟪plainE.ts⟫ 1 l = W at *
  norm_num at a5 lag t3 ⊢
  linarith

end Verif
