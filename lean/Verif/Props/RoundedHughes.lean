import Verif.Props.RoundedSarabandi

/-
`hughes` and `chiaverini` on the matrix of a quaternion, in binary32 (C103).
-/

set_option linter.unusedSectionVars false
set_option linter.unusedSimpArgs false

namespace Verif
open Scalar Finset

variable {F : Type} [Scalar F] [R : Rounded F] [H : Halves F]

/-! ### Clipping and signs -/

theorem clip_min {d lo hi : F} {X a b e : ℝ} (hd : Apx d X e) (hl : Apx lo a 0) (hh : Apx hi b 0) (ha : a ≤ X)
    (hab : a ≤ b) : Apx (Utils.clip d lo hi) (min X b) e ∧ a ≤ ⟪Utils.clip d lo hi⟫ := by
  have h1 : ⟪lo⟫ = a := by have := hl.2; rw [abs_nonpos_iff] at this; linarith
  have h2 : ⟪hi⟫ = b := by have := hh.2; rw [abs_nonpos_iff] at this; linarith
  obtain ⟨d1, d2⟩ := abs_le.mp hd.2
  have m1 := min_le_left X b
  have m2 := min_le_right X b
  have m3 : a ≤ min X b := le_min ha hab
  unfold Utils.clip
  by_cases c1 : (d <ᶠ lo) = true
  · rw [if_pos c1]
    rw [R.lt_val hd.1 hl.1, h1] at c1
    exact ⟨⟨hl.1, by rw [h1, abs_le]; constructor <;> linarith⟩, h1.ge⟩
  · rw [if_neg c1]
    rw [R.lt_val hd.1 hl.1, h1, not_lt] at c1
    by_cases c2 : (hi <ᶠ d) = true
    · rw [if_pos c2]
      rw [R.lt_val hh.1 hd.1, h2] at c2
      refine ⟨⟨hh.1, ?_⟩, by linarith⟩
      rcases min_cases X b with ⟨h, h'⟩ | ⟨h, h'⟩ <;> rw [h2, h, abs_le] <;> constructor <;> linarith
    · rw [if_neg c2]
      rw [R.lt_val hh.1 hd.1, h2, not_lt] at c2
      refine ⟨⟨hd.1, ?_⟩, c1⟩
      rcases min_cases X b with ⟨h, h'⟩ | ⟨h, h'⟩ <;> rw [h, abs_le] <;> constructor <;> linarith

theorem clip_acc {d lo hi : F} {X a b e : ℝ} (hd : Apx d X e) (hl : Apx lo a 0) (hh : Apx hi b 0) (ha : a ≤ X)
    (hb : X ≤ b) : Apx (Utils.clip d lo hi) X e ∧ a ≤ ⟪Utils.clip d lo hi⟫ := by
  have := clip_min hd hl hh ha (ha.trans hb)
  rwa [min_eq_left hb] at this

theorem sign_acc {d : F} (hd : Finite d) : Apx (Utils.sign d) (signR ⟪d⟫) 0 := by
  unfold Utils.sign signR
  have p : (lit 0 <ᶠ d) = true ↔ 0 < ⟪d⟫ := by rw [R.lt_val R.zero_finite hd, R.zero_val]
  have n : (d <ᶠ lit 0) = true ↔ ⟪d⟫ < 0 := by rw [R.lt_val hd R.zero_finite, R.zero_val]
  by_cases h1 : 0 < ⟪d⟫
  · rw [if_pos (p.mpr h1), if_pos h1]
    exact Apx.one
  rw [if_neg (mt p.mp h1), if_neg h1]
  by_cases h2 : ⟪d⟫ < 0
  · rw [if_pos (n.mpr h2), if_pos h2]
    exact H.neg_one
  rw [if_neg (mt n.mp h2), if_neg h2]
  exact Apx.zero

theorem abs_signR (x : ℝ) : |signR x| ≤ 1 := by
  unfold signR
  split
  · norm_num
  · split <;> norm_num

/-! ### The real part -/

/-- The real part of both functions. -/
theorem real_acc {t : F} {w e : ℝ} (ht : Apx t (4 * w ^ 2 - 1) e) (he0 : 0 ≤ e) (he : e ≤ 2 / 10 ^ 5) (hw : 1 / 100 ≤ |w|)
    (hw1 : |w| ≤ 1001 / 1000) :
    Apx (lit (1 / 2) *ᶠ Scalar.sqrt (lit 1 +ᶠ t)) |w| ((e / 7 + 3 / 10 ^ 7) * |w|⁻¹) ∧
    Apx (lit (1 / 2) *ᶠ Scalar.sqrt (t +ᶠ lit 1)) |w| ((e / 7 + 3 / 10 ^ 7) * |w|⁻¹) := by
  have hη := rη_le
  norm_num at hη he
  have hpp : |w| ^ 2 = w ^ 2 := sq_abs w
  have p0 := sq_nonneg w
  have p1 : w ^ 2 ≤ 1003 / 1000 := by rw [← hpp]; nlinarith
  have p2 : 1 / 10000 ≤ w ^ 2 := by rw [← hpp]; nlinarith
  have hw0 : 0 < |w| := by linarith
  have key : ∀ {y : F}, Apx y ((2 * |w|) ^ 2) (e + 3 / 10 ^ 7) →
      Apx (lit (1 / 2) *ᶠ Scalar.sqrt y) |w| ((e / 7 + 3 / 10 ^ 7) * |w|⁻¹) := by
    intro y hy
    have i0 : |w|⁻¹ ≤ 100 := inv_le_of_inv_le₀ (by norm_num) (by linarith)
    have i1 : 99 / 100 ≤ |w|⁻¹ := le_inv_of_le_inv₀ hw0 (by linarith)
    have iw : |w|⁻¹ * |w| = 1 := inv_mul_cancel₀ hw0.ne'
    generalize |w|⁻¹ = I at *
    have i2 : e * (99 / 100) ≤ e * I := mul_le_mul_of_nonneg_left i1 he0
    have i3 : e * I ≤ 2 / 1000 := by nlinarith
    have e2 := hy.sqrt (E := (e + 3 / 10 ^ 7) / (38 / 10) * I) (by linarith) (by rw [mul_pow, hpp]; norm_num; linarith) (by
      rw [show (e + 3 / 10 ^ 7) / (38 / 10) * I * (19 / 10 * (2 * |w|)) = (e + 3 / 10 ^ 7) * (I * |w|) by ring, iw, mul_one])
    have e3 := e2.half (e' := (e / 7 + 3 / 10 ^ 7) * I) (by rw [abs_of_nonneg (by linarith)]; linarith) (by
      norm_num; linarith) (by
      norm_num
      linarith)
    rw [show 1 / 2 * (2 * |w|) = |w| by ring] at e3
    exact e3
  constructor
  · refine key ?_
    have := Apx.one.add ht (B := 402 / 100) (by rw [abs_le]; constructor <;> linarith) (by norm_num; linarith)
    rw [show 1 + (4 * w ^ 2 - 1) = (2 * |w|) ^ 2 by rw [mul_pow, hpp]; ring] at this
    exact this.mono (by norm_num; linarith)
  · refine key ?_
    have := ht.add Apx.one (B := 402 / 100) (by rw [abs_le]; constructor <;> linarith) (by norm_num; linarith)
    rw [show 4 * w ^ 2 - 1 + 1 = (2 * |w|) ^ 2 by rw [mul_pow, hpp]; ring] at this
    exact this.mono (by norm_num; linarith)

/-! ### `hughes` -/

/-- A component of the vector part. -/
theorem hughes_comp {d n : F} {w x : ℝ} (hd : Apx d (-(4 * (w * x))) (23 / 10 ^ 7)) (hn : Apx n |w| (175 / 10 ^ 8 * |w|⁻¹))
    (hw : 1 / 100 ≤ |w|) (hw1 : |w| ≤ 1001 / 1000) (hx : |x| ≤ 1001 / 1000) :
    Apx (lit (1 / 4) *ᶠ d /ᶠ n) (if 0 < w then -x else x) (3 / 10 ^ 6 / w ^ 2) := by
  have hη := rη_le
  norm_num at hη
  have hw0 : 0 < |w| := by linarith
  have hpp : |w| ^ 2 = w ^ 2 := sq_abs w
  have hx0 := abs_nonneg x
  have hwx : |w| * |x| ≤ 1003 / 1000 := by nlinarith
  have e1 : Apx (lit (1 / 4) *ᶠ d) (-(w * x)) (7 / 10 ^ 7) := by
    have := H.quarter.mul hd (A := 1 / 4) (B := 402 / 100) (by norm_num [abs_of_pos]) (by
      rw [abs_neg, abs_mul, abs_mul, abs_of_pos (by norm_num : (0 : ℝ) < 4)]; linarith) (by norm_num)
    rw [show 1 / 4 * -(4 * (w * x)) = -(w * x) by ring] at this
    exact this.mono (by norm_num; linarith)
  have ev : -(w * x) / |w| = if 0 < w then -x else x := by
    split
    · next h => rw [abs_of_pos h]; field_simp
    · next h =>
      have : w ≠ 0 := by rintro rfl; simp at hw0
      rw [abs_of_nonpos (not_lt.mp h)]; field_simp
  have i0 : |w|⁻¹ ≤ 100 := inv_le_of_inv_le₀ (by norm_num) (by linarith)
  have i1 : 99 / 100 ≤ |w|⁻¹ := le_inv_of_le_inv₀ hw0 (by linarith)
  have iw : |w|⁻¹ * |w| = 1 := inv_mul_cancel₀ hw0.ne'
  rw [show 3 / 10 ^ 6 / w ^ 2 = 3 / 10 ^ 6 * |w|⁻¹ ^ 2 by rw [← hpp, inv_pow]; ring]
  generalize |w|⁻¹ = I at *
  have hb : I ≤ 10000 * |w| := by nlinarith
  have e2 := e1.div hn (m := |w|) (c := 1001 / 1000) (E := 28 / 10 ^ 7 * I ^ 2) le_rfl (by
    norm_num; linarith) (by
    rw [ev]; split
    · rwa [abs_neg]
    · exact hx) (by
    have h1 : 28 / 10 ^ 7 * I ^ 2 * (|w| - 175 / 10 ^ 8 * I) ≥ 28 / 10 ^ 7 * I ^ 2 * (98 / 100 * |w|) := by
      apply mul_le_mul_of_nonneg_left _ (by positivity)
      norm_num
      linarith
    have h2 : 28 / 10 ^ 7 * I ^ 2 * (98 / 100 * |w|) = 28 / 10 ^ 7 * (98 / 100) * I := by
      linear_combination 28 / 10 ^ 7 * (98 / 100) * I * iw
    rw [h2] at h1
    refine le_trans ?_ h1
    norm_num
    linarith) (by
    have : I ^ 2 ≤ 100 ^ 2 := by gcongr
    norm_num at this ⊢
    linarith)
  rw [ev] at e2
  refine e2.mono ?_
  have i2 : 98 / 100 ≤ I ^ 2 := by nlinarith
  norm_num
  linarith

theorem near_components {f : Nat → F} (hn : NearUnit f) : ∀ i, i < 4 → |⟪f i⟫| ≤ 1001 / 1000 := by
  have hN := (abs_le.mp (sq_near hn)).2
  have h0 := sq_nonneg ⟪f 0⟫
  have h1 := sq_nonneg ⟪f 1⟫
  have h2 := sq_nonneg ⟪f 2⟫
  have h3 := sq_nonneg ⟪f 3⟫
  norm_num at hN
  refine forall_lt_four.mpr ⟨?_, ?_, ?_, ?_⟩ <;> refine abs_le_of_sq_le_sq ?_ (by norm_num) <;> norm_num <;> linarith

section
variable {s a : Vec F} {f g : Nat → F} {m : Mat F} {D : Nat → Nat → F}

theorem hughes_eq' (hs : VecIs s 4 g) (hm : MatIs m 3 3 D) {t n : F} (ht : Utils.clip (sumUp 3 fun i => D i i) (lit (-1)) (lit 3) = t)
    (tf : Finite t) (h3 : ¬Close t (lit 3) EPSILON) (hn : lit (1 / 2) *ᶠ Scalar.sqrt (lit 1 +ᶠ t) = n) (nf : Finite n)
    (h0 : ¬Close n (lit 0) EPSILON) :
    Quat.hughes m s = Quat.storeAll n (lit (1 / 4) *ᶠ (D 1 2 -ᶠ D 2 1) /ᶠ n) (lit (1 / 4) *ᶠ (D 2 0 -ᶠ D 0 2) /ᶠ n)
      (lit (1 / 4) *ᶠ (D 0 1 -ᶠ D 1 0) /ᶠ n) s := by
  unfold Quat.hughes
  simp only [Op.get_bind', Quat.isQuaternion_eq hs, Op.liftOk_bind', decide_true, Bool.not_true,
    Bool.false_eq_true, if_false, Mat.trace_eq hm, ht, allcloseL_eq tf H.three.1, h3, decide_false, hn,
    allcloseL_eq nf R.zero_finite, h0,
    hm.get 0 1 (by omega) (by omega), hm.get 0 2 (by omega) (by omega),
    hm.get 1 0 (by omega) (by omega), hm.get 1 2 (by omega) (by omega),
    hm.get 2 0 (by omega) (by omega), hm.get 2 1 (by omega) (by omega)]

/-- C103: in binary32, from the matrix of a quaternion of norm one up to one in a million `hughes` returns
the conjugate, with the sign that makes the real part positive.  The error is at most three in a million
divided by the square of the real part. -/
theorem C103_hughes (hs : VecIs s 4 g) (ha : VecIs a 4 f) (hf : ∀ i, i < 4 → Finite (f i)) (hn : NearUnit f)
    (hw : 1 / 100 ≤ |⟪f 0⟫|) (hv : 12 / 10 ^ 5 ≤ 4 * (1 - ⟪f 0⟫ ^ 2)) :
    ∃ m r h, Quat.convertToDcm a = .ok m ∧ Quat.hughes m s = (.ok (), r) ∧ VecIs r 4 h ∧
      (∀ i, i < 4 → Finite (h i)) ∧ |⟪h 0⟫ - (|⟪f 0⟫|)| ≤ 3 / 10 ^ 6 / ⟪f 0⟫ ^ 2 ∧
      ∀ i, 0 < i → i < 4 → |⟪h i⟫ - (if 0 < ⟪f 0⟫ then -⟪f i⟫ else ⟪f i⟫)| ≤ 3 / 10 ^ 6 / ⟪f 0⟫ ^ 2 := by
  obtain ⟨m, D, e, hm, S⟩ := dcm_sums ha hf hn
  have hη := rη_le
  norm_num at hη
  have hc := near_components hn
  have hw1 := hc 0 (by omega)
  have sq0 := sq_nonneg ⟪f 0⟫
  have hpp : |⟪f 0⟫| ^ 2 = ⟪f 0⟫ ^ 2 := sq_abs _
  obtain ⟨e1, e2⟩ := eps_bounds (F := F)
  norm_num at e1 e2 hv
  have ht := (clip_acc S.trace H.neg_one H.three (by linarith) (by linarith)).1
  have hw0 : 0 < |⟪f 0⟫| := by linarith
  have iw : |⟪f 0⟫|⁻¹ * |⟪f 0⟫| = 1 := inv_mul_cancel₀ hw0.ne'
  have i0 : 0 < |⟪f 0⟫|⁻¹ := inv_pos.mpr hw0
  have i1 : 99 / 100 ≤ |⟪f 0⟫|⁻¹ := le_inv_of_le_inv₀ hw0 (by linarith)
  have hb : |⟪f 0⟫|⁻¹ ≤ 10000 * |⟪f 0⟫| := by nlinarith
  have hr := (real_acc ht (by norm_num) (by norm_num) hw hw1).1.mono (e' := 175 / 10 ^ 8 * |⟪f 0⟫|⁻¹)
    (by norm_num; linarith)
  have c3 : ¬Close (Utils.clip (sumUp 3 fun i => D i i) (lit (-1)) (lit 3)) (lit 3) EPSILON := by
    have := ht.sub H.three (B := 401 / 100) (by rw [abs_le]; constructor <;> linarith) (by norm_num)
    unfold Close
    rw [R.le_val (R.abs_finite this.1) eps_fin, R.abs_val this.1, not_le]
    have h1 := (abs_le.mp this.2).2
    refine lt_of_lt_of_le ?_ (neg_le_abs _)
    norm_num at h1
    linarith
  have c0 : ¬Close (lit (1 / 2) *ᶠ Scalar.sqrt (lit 1 +ᶠ Utils.clip (sumUp 3 fun i => D i i) (lit (-1)) (lit 3))) (lit 0) EPSILON := by
    have := (hr.mono (e' := 175 / 10000 * |⟪f 0⟫|) (by norm_num; linarith)).sub Apx.zero (B := 1001 / 1000) (by rw [sub_zero, abs_abs]; exact hw1) (by norm_num; linarith)
    unfold Close
    rw [R.le_val (R.abs_finite this.1) eps_fin, R.abs_val this.1, not_le]
    have h1 := (abs_le.mp this.2).1
    refine lt_of_lt_of_le ?_ (le_abs_self _)
    norm_num at h1
    linarith
  have q1 := hughes_comp S.wx' hr hw hw1 (hc 1 (by omega))
  have q2 := hughes_comp S.wy' hr hw hw1 (hc 2 (by omega))
  have q3 := hughes_comp S.wz' hr hw hw1 (hc 3 (by omega))
  obtain ⟨r, e3, h⟩ := Quat.storeAll_ok hs hr.1 q1.1 q2.1 q3.1
  refine ⟨m, r, _, e, by rw [hughes_eq' hs hm rfl ht.1 c3 rfl hr.1 c0, e3], h, forall_lt_four.mpr ⟨hr.1, q1.1, q2.1, q3.1⟩,
    hr.2.trans ?_, fun i h0 hi => ?_⟩
  · rw [show 3 / 10 ^ 6 / ⟪f 0⟫ ^ 2 = 3 / 10 ^ 6 * |⟪f 0⟫|⁻¹ ^ 2 by rw [← hpp, inv_pow]; ring]
    have : 99 / 100 * |⟪f 0⟫|⁻¹ ≤ |⟪f 0⟫|⁻¹ ^ 2 := by rw [sq]; exact mul_le_mul_of_nonneg_right i1 i0.le
    norm_num at this ⊢
    linarith
  · interval_cases i
    · exact q1.2
    · exact q2.2
    · exact q3.2

/-- C103: a rotation by a small angle is replaced by the identity, exactly. -/
theorem C103_small_angle (hs : VecIs s 4 g) (ha : VecIs a 4 f) (hf : ∀ i, i < 4 → Finite (f i)) (hn : NearUnit f)
    (hv : 4 * (1 - ⟪f 0⟫ ^ 2) ≤ 8 / 10 ^ 5) :
    ∃ m r, Quat.convertToDcm a = .ok m ∧ Quat.hughes m s = (.ok (), r) ∧ VecIs r 4 (seq4 (lit 1) (lit 0) (lit 0) (lit 0)) := by
  obtain ⟨m, D, e, hm, S⟩ := dcm_sums ha hf hn
  have hη := rη_le
  norm_num at hη
  obtain ⟨e1, e2⟩ := eps_bounds (F := F)
  have hN := (abs_le.mp (sq_near hn)).2
  have h1 := sq_nonneg ⟪f 1⟫
  have h2 := sq_nonneg ⟪f 2⟫
  have h3 := sq_nonneg ⟪f 3⟫
  norm_num at e1 e2 hv hN
  have ht := (clip_min S.trace H.neg_one H.three (by linarith) (by norm_num)).1
  have c3 : Close (Utils.clip (sumUp 3 fun i => D i i) (lit (-1)) (lit 3)) (lit 3) EPSILON := by
    have m2 := min_le_right (4 * ⟪f 0⟫ ^ 2 - 1) 3
    have m3 : 3 - 1 / 12500 ≤ min (4 * ⟪f 0⟫ ^ 2 - 1) 3 := le_min (by linarith) (by norm_num)
    generalize min (4 * ⟪f 0⟫ ^ 2 - 1) 3 = M at *
    have := ht.sub H.three (B := 1 / 10) (by rw [abs_le]; constructor <;> linarith) (by norm_num)
    unfold Close
    rw [R.le_val (R.abs_finite this.1) eps_fin, R.abs_val this.1]
    obtain ⟨h1, h2⟩ := abs_le.mp this.2
    norm_num at h1 h2
    rw [abs_le]
    constructor <;> linarith
  obtain ⟨r, e3, h⟩ := Quat.fillq_ok hs (w := (lit 1 : F)) R.one_finite R.zero_finite R.zero_finite R.zero_finite
  refine ⟨m, r, e, ?_, h⟩
  rw [← e3]
  unfold Quat.hughes
  simp only [Op.get_bind', Quat.isQuaternion_eq hs, Op.liftOk_bind', decide_true, Bool.not_true,
    Bool.false_eq_true, if_false, if_true, Mat.trace_eq hm, allcloseL_eq ht.1 H.three.1, c3]

/-! ### `chiaverini` -/

/-- A component of the vector part, before normalisation. -/
theorem chi_comp {s c : F} {w x : ℝ} (hs : Apx s (4 * (w * x)) (23 / 10 ^ 7)) (hc : Apx c (4 * x ^ 2 - 1) (60 / 10 ^ 7))
    (hx : x ^ 2 ≤ 1 / 2) (hw : 1 / 100 ≤ |w|) :
    Apx (lit (1 / 2) *ᶠ Utils.sign s *ᶠ Scalar.sqrt (Utils.clip c (lit (-1)) (lit 1) +ᶠ lit 1)) (if 0 < w then x else -x)
      (14 / 10 ^ 4) := by
  have hη := rη_le
  norm_num at hη
  have x0 := sq_nonneg x
  have hx1 : |x| ≤ 71 / 100 := abs_le_of_sq_le_sq (by norm_num; linarith) (by norm_num)
  have hxx := abs_nonneg x
  obtain ⟨k1, k2⟩ := clip_acc hc H.neg_one Apx.one (by linarith) (by linarith)
  have k3 := k1.add Apx.one (B := 2) (by rw [abs_le]; constructor <;> linarith) (by norm_num)
  have k4 : 0 ≤ ⟪Utils.clip c (lit (-1)) (lit 1) +ᶠ lit 1⟫ := R.add_nonneg k1.1 R.one_finite k3.1 (by
    rw [R.one_val]; linarith)
  generalize Utils.clip c (lit (-1)) (lit 1) +ᶠ lit 1 = y at *
  rw [show 4 * x ^ 2 - 1 + 1 = (2 * |x|) ^ 2 by rw [mul_pow, sq_abs]; ring] at k3
  have k5 : |√⟪y⟫ - 2 * (|x|)| ≤ 249 / 10 ^ 5 := by
    have := sqrt_sub_sqrt k4 (sq_nonneg (2 * |x|))
    rw [Real.sqrt_sq (by positivity)] at this
    refine this.trans (Real.sqrt_le_iff.mpr ⟨by norm_num, k3.2.trans ?_⟩)
    norm_num
    linarith
  have k6 : Apx (Scalar.sqrt y) (2 * |x|) (2491 / 10 ^ 6) := by
    refine ⟨R.sqrt_finite k3.1 k4, (dist_trans (R.sqrt_near k3.1 k4) k5).trans ?_⟩
    have := (abs_le.mp k5).2
    rw [show ru = 1 / 16777216 by unfold ru; norm_num]
    norm_num at this ⊢
    linarith
  have k7 := H.half.mul (sign_acc hs.1) (A := 1 / 2) (B := 1) (by norm_num [abs_of_pos]) (abs_signR _) (by norm_num)
  have k8 := (k7.mono (e' := 1 / 10 ^ 7) (by norm_num; linarith)).mul k6 (A := 1 / 2) (B := 142 / 100) (by
    rw [abs_mul, abs_of_pos (by norm_num : (0 : ℝ) < 1 / 2)]
    have := abs_signR ⟪s⟫
    linarith) (by rw [abs_of_nonneg (by positivity)]; linarith) (by norm_num)
  rw [show 1 / 2 * signR ⟪s⟫ * (2 * |x|) = signR ⟪s⟫ * |x| by ring] at k8
  refine k8.of_eq (d := 12 / 10 ^ 5) ?_ (by norm_num; linarith)
  obtain ⟨s1, s2⟩ := abs_le.mp hs.2
  by_cases h1 : 23 / 10 ^ 7 < 4 * (w * x)
  · have : signR ⟪s⟫ = 1 := by rw [signR, if_pos (by linarith)]
    rw [this, one_mul]
    norm_num at h1
    split
    · next h =>
      rw [abs_of_pos (a := x) (by by_contra hn; nlinarith)]; norm_num
    · next h =>
      rw [abs_of_neg (a := x) (by by_contra hn; nlinarith)]; norm_num
  by_cases h2 : 4 * (w * x) < -(23 / 10 ^ 7)
  · have : signR ⟪s⟫ = -1 := by rw [signR, if_neg (by linarith), if_pos (by linarith)]
    rw [this, neg_one_mul]
    norm_num at h2
    split
    · next h =>
      rw [abs_of_neg (a := x) (by by_contra hn; nlinarith)]; norm_num
    · next h =>
      rw [abs_of_pos (a := x) (by by_contra hn; nlinarith)]; norm_num
  have h3 : |w| * |x| ≤ 23 / 10 ^ 7 / 4 := by
    rw [← abs_mul, abs_le]
    constructor <;> linarith
  have h4 : |x| ≤ 6 / 10 ^ 5 := by norm_num at h3 ⊢; nlinarith
  have h5 : |signR ⟪s⟫ * (|x|)| ≤ 6 / 10 ^ 5 := by
    rw [abs_mul, abs_abs]
    have := abs_signR ⟪s⟫
    nlinarith
  refine (abs_sub _ _).trans ?_
  have h6 : |if 0 < w then x else -x| = |x| := by split; rfl; exact abs_neg x
  rw [h6]
  norm_num at h4 h5 ⊢
  linarith

theorem chiaverini_eq' (hs : VecIs s 4 g) (hm : MatIs m 3 3 D) :
    Quat.chiaverini m s = (Quat.storeAll
      (lit (1 / 2) *ᶠ Scalar.sqrt (Utils.clip (sumUp 3 fun i => D i i) (lit (-1)) (lit 3) +ᶠ lit 1))
      (lit (1 / 2) *ᶠ Utils.sign (D 2 1 -ᶠ D 1 2) *ᶠ Scalar.sqrt (Utils.clip (D 0 0 -ᶠ D 1 1 -ᶠ D 2 2) (lit (-1)) (lit 1) +ᶠ lit 1))
      (lit (1 / 2) *ᶠ Utils.sign (D 0 2 -ᶠ D 2 0) *ᶠ Scalar.sqrt (Utils.clip (D 1 1 -ᶠ D 2 2 -ᶠ D 0 0) (lit (-1)) (lit 1) +ᶠ lit 1))
      (lit (1 / 2) *ᶠ Utils.sign (D 1 0 -ᶠ D 0 1) *ᶠ Scalar.sqrt (Utils.clip (D 2 2 -ᶠ D 0 0 -ᶠ D 1 1) (lit (-1)) (lit 1) +ᶠ lit 1))
      >>= fun _ => Vec.normalize) s := by
  unfold Quat.chiaverini
  simp only [Op.get_bind', Quat.isQuaternion_eq hs, Op.liftOk_bind', decide_true, Bool.not_true,
    Bool.false_eq_true, if_false, Mat.trace_eq hm, hm.get 0 0 (by omega) (by omega),
    hm.get 0 1 (by omega) (by omega), hm.get 0 2 (by omega) (by omega),
    hm.get 1 0 (by omega) (by omega), hm.get 1 1 (by omega) (by omega),
    hm.get 1 2 (by omega) (by omega), hm.get 2 0 (by omega) (by omega),
    hm.get 2 1 (by omega) (by omega), hm.get 2 2 (by omega) (by omega)]

/-- Normalising a quaternion near one of norm one. -/
theorem unit_near {p u : Nat → ℝ} (hu : |norm2 4 u - 1| ≤ 1 / 10 ^ 6) (h : ∀ i, i < 4 → |p i - u i| ≤ 14 / 10 ^ 4) :
    |norm2 4 p - 1| ≤ 29 / 10 ^ 4 ∧ ∀ i, i < 4 → |p i / norm2 4 p - u i| ≤ 45 / 10 ^ 4 := by
  have e1 : norm2 4 p = ‖mkQ (p 0) (p 1) (p 2) (p 3)‖ := by
    rw [norm_mkQ, norm2]; simp only [Finset.sum_range_succ, Finset.sum_range_zero, zero_add]
  have e2 : norm2 4 u = ‖mkQ (u 0) (u 1) (u 2) (u 3)‖ := by
    rw [norm_mkQ, norm2]; simp only [Finset.sum_range_succ, Finset.sum_range_zero, zero_add]
  have k : |norm2 4 p - norm2 4 u| ≤ 28 / 10 ^ 4 := by
    rw [e1, e2]
    refine (abs_norm_sub_norm_le _ _).trans ?_
    have : mkQ (p 0) (p 1) (p 2) (p 3) - mkQ (u 0) (u 1) (u 2) (u 3) = mkQ (p 0 - u 0) (p 1 - u 1) (p 2 - u 2) (p 3 - u 3) := rfl
    rw [this, norm_mkQ]
    refine Real.sqrt_le_iff.mpr ⟨by norm_num, ?_⟩
    have z : ∀ i, i < 4 → (p i - u i) ^ 2 ≤ (14 / 10 ^ 4) ^ 2 := fun i hi =>
      sq_le_sq' (abs_le.mp (h i hi)).1 (abs_le.mp (h i hi)).2
    have z0 := z 0 (by omega)
    have z1 := z 1 (by omega)
    have z2 := z 2 (by omega)
    have z3 := z 3 (by omega)
    norm_num at z0 z1 z2 z3 ⊢
    linarith
  have k1 : |norm2 4 p - 1| ≤ 29 / 10 ^ 4 := (dist_trans k hu).trans (by norm_num)
  refine ⟨k1, fun i hi => ?_⟩
  obtain ⟨n1, n2⟩ := abs_le.mp k1
  have n0 : 0 < norm2 4 p := by norm_num at n1; linarith
  have h1 : |p i / norm2 4 p - p i| ≤ 29 / 10 ^ 4 := by
    rw [show p i / norm2 4 p - p i = p i / norm2 4 p * (1 - norm2 4 p) by field_simp, abs_mul, abs_sub_comm 1]
    have h2 : |p i / norm2 4 p| ≤ 1 := by
      rw [abs_div, abs_of_pos n0, div_le_one n0]
      unfold norm2
      exact Real.abs_le_sqrt (Finset.single_le_sum (f := fun i => p i ^ 2) (fun j _ => sq_nonneg _) (Finset.mem_range.mpr hi))
    calc _ ≤ 1 * |norm2 4 p - 1| := by gcongr
      _ ≤ _ := by rw [one_mul]; exact k1
  exact (dist_trans h1 (h i hi)).trans (by norm_num)

/-- C103: in binary32, from the matrix of a quaternion of norm one up to one in a million whose real part is
not below a hundredth and whose vector components do not exceed `1/√2`, `chiaverini` returns the quaternion
or its negative.  The result has norm one up to one in a million; its components are only within a
two-hundredth, since the square root of a rounding error enters. -/
theorem C103_chiaverini (hs : VecIs s 4 g) (ha : VecIs a 4 f) (hf : ∀ i, i < 4 → Finite (f i)) (hn : NearUnit f)
    (hw : 1 / 100 ≤ |⟪f 0⟫|) (hv : ∀ i, 0 < i → i < 4 → ⟪f i⟫ ^ 2 ≤ 1 / 2) :
    ∃ m r h, Quat.convertToDcm a = .ok m ∧ Quat.chiaverini m s = (.ok (), r) ∧ VecIs r 4 h ∧
      (∀ i, i < 4 → Finite (h i)) ∧ NearUnit h ∧
      ∀ i, i < 4 → |⟪h i⟫ - (if 0 < ⟪f 0⟫ then ⟪f i⟫ else -⟪f i⟫)| ≤ 1 / 200 := by
  obtain ⟨m, D, e, hm, S⟩ := dcm_sums ha hf hn
  have hc := near_components hn
  have hw1 := hc 0 (by omega)
  have sq0 := sq_nonneg ⟪f 0⟫
  have hw0 : 0 < |⟪f 0⟫| := by linarith
  have hpp : |⟪f 0⟫| ^ 2 = ⟪f 0⟫ ^ 2 := sq_abs _
  have hN := (abs_le.mp (sq_near hn)).2
  have y1 := sq_nonneg ⟪f 1⟫
  have y2 := sq_nonneg ⟪f 2⟫
  have y3 := sq_nonneg ⟪f 3⟫
  have tr : Apx (Utils.clip (sumUp 3 fun i => D i i) (lit (-1)) (lit 3)) (4 * ⟪f 0⟫ ^ 2 - 1) (2 / 10 ^ 5) := by
    refine (clip_min S.trace H.neg_one H.three (by linarith) (by norm_num)).1.of_eq (d := 9 / 10 ^ 6) ?_ (by norm_num)
    norm_num at hN
    rcases min_cases (4 * ⟪f 0⟫ ^ 2 - 1) 3 with ⟨h, h'⟩ | ⟨h, h'⟩ <;> rw [h, abs_le] <;> constructor <;> norm_num <;> linarith
  have hr := (real_acc tr (by norm_num) (by norm_num) hw hw1).2
  have q1 := chi_comp S.wx S.x1 (hv 1 (by omega) (by omega)) hw
  have q2 := chi_comp S.wy S.y1 (hv 2 (by omega) (by omega)) hw
  have q3 := chi_comp S.wz S.z1 (hv 3 (by omega) (by omega)) hw
  have q0 : Apx (lit (1 / 2) *ᶠ Scalar.sqrt (Utils.clip (sumUp 3 fun i => D i i) (lit (-1)) (lit 3) +ᶠ lit 1))
      (if 0 < ⟪f 0⟫ then ⟪f 0⟫ else -⟪f 0⟫) (14 / 10 ^ 4) := by
    have i0 : |⟪f 0⟫|⁻¹ ≤ 100 := inv_le_of_inv_le₀ (by norm_num) (by linarith)
    have hr' := hr.mono (e' := 14 / 10 ^ 4) (by norm_num; linarith)
    have : |⟪f 0⟫| = if 0 < ⟪f 0⟫ then ⟪f 0⟫ else -⟪f 0⟫ := by
      split
      · next h => exact abs_of_pos h
      · next h => exact abs_of_nonpos (not_lt.mp h)
    rwa [this] at hr'
  obtain ⟨t, e1, h1⟩ := Quat.storeAll_ok hs q0.1 q1.1 q2.1 q3.1
  have hfin := forall_lt_four (P := fun i => Finite (seq4 _ _ _ _ i)) |>.mpr ⟨q0.1, q1.1, q2.1, q3.1⟩
  have hval : ∀ i, i < 4 → |⟪seq4 _ _ _ _ i⟫ - (if 0 < ⟪f 0⟫ then ⟪f i⟫ else -⟪f i⟫)| ≤ 14 / 10 ^ 4 :=
    forall_lt_four.mpr ⟨q0.2, q1.2, q2.2, q3.2⟩
  have hn' : |‖qval f‖ - 1| ≤ 1 / 10 ^ 6 := hn
  have hu : |norm2 4 (fun i => if 0 < ⟪f 0⟫ then ⟪f i⟫ else -⟪f i⟫) - 1| ≤ 1 / 10 ^ 6 := by
    rw [norm_qval] at hn'
    unfold norm2 at hn' ⊢
    split
    · exact hn'
    · simpa only [neg_sq] using hn'
  obtain ⟨u1, u2⟩ := unit_near (p := fun i => ⟪seq4 _ _ _ _ i⟫) hu hval
  obtain ⟨r, h, e2, h2, hf2, h4⟩ := C77_normalize h1 hfin
  refine ⟨m, r, h, e, by rw [chiaverini_eq' hs hm, Op.bind_ok e1, e2], h2, hf2, ?_⟩
  obtain ⟨u3, u4⟩ := abs_le.mp u1
  rcases h4 with ⟨_, h5⟩ | ⟨h4, h5, _, _⟩
  · exfalso
    norm_num at u3 u4 h5
    rcases h5 with h5 | h5 <;> linarith
  · refine ⟨?_, fun i hi => (dist_trans (h5 i hi) (u2 i hi)).trans (by norm_num)⟩
    unfold NearUnit
    rwa [norm_qval]

end

end Verif
