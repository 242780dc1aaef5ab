import Verif.Props.Rotation

/-
Quaternions from rotation matrices (C38, C39, C40).
-/

set_option linter.unusedSectionVars false
set_option linter.unusedSimpArgs false

namespace Verif
open Scalar Finset

/-! ### Scalar helpers in exact arithmetic -/

noncomputable def clipR (x a b : ℝ) : ℝ := if x < a then a else if b < x then b else x
noncomputable def signR (x : ℝ) : ℝ := if 0 < x then 1 else if x < 0 then -1 else 0

theorem clip_fin (x a b : ℝ) :
    Utils.clip (.fin x : XR) (.fin a) (.fin b) = .fin (clipR x a b) := by
  unfold Utils.clip clipR
  simp only [Ext.lt_fin, decide_eq_true_eq]
  split
  · rfl
  · split <;> rfl

theorem lit_neg_one : (lit (-1) : XR) = .fin (-1) := by rw [Ext.lit_eq]; norm_num
theorem lit_two : (lit 2 : XR) = .fin 2 := by rw [Ext.lit_eq]; norm_num
theorem lit_three : (lit 3 : XR) = .fin 3 := by rw [Ext.lit_eq]; norm_num
theorem lit_half : (lit (1 / 2) : XR) = .fin (1 / 2) := by rw [Ext.lit_eq]; norm_num
theorem lit_quarter : (lit (1 / 4) : XR) = .fin (1 / 4) := by rw [Ext.lit_eq]; norm_num

theorem sign_fin (x : ℝ) : Utils.sign (.fin x : XR) = .fin (signR x) := by
  unfold Utils.sign signR
  simp only [Ext.lit_zero, Ext.lit_one, lit_neg_one, Ext.lt_fin, decide_eq_true_eq]
  split
  · rfl
  · split <;> rfl

theorem sqrtR {x : ℝ} (h : 0 ≤ x) : Scalar.sqrt (.fin x : XR) = .fin √x := Ext.sqrt_fin h

theorem clipR_id {x a b : ℝ} (h1 : a ≤ x) (h2 : x ≤ b) : clipR x a b = x := by
  rw [clipR, if_neg (not_lt.mpr h1), if_neg (not_lt.mpr h2)]

theorem le_clipR {x a b : ℝ} (h : a ≤ b) : a ≤ clipR x a b := by
  unfold clipR
  split
  · exact le_refl _
  · split <;> linarith

theorem trace_fin {m : Mat XR} {D : Nat → Nat → ℝ} (hm : MatIs m 3 3 (fun i j => .fin (D i j))) :
    m.trace = .ok (.fin (D 0 0 + D 1 1 + D 2 2)) := by
  rw [Mat.trace_eq hm, sumUp_fin]
  simp [Finset.sum_range_succ]

section
variable {a s : Vec XR} {q : Quaternion ℝ} {f : Nat → XR} {m : Mat XR} {D : Nat → Nat → ℝ}

/-- The relations between the entries of the matrix of a unit quaternion. -/
theorem dcmOf_unit (h : Quaternion.normSq q = 1) :
    dcmOf q 0 0 + dcmOf q 1 1 + dcmOf q 2 2 = 4 * q.re ^ 2 - 1 ∧
    dcmOf q 0 0 - dcmOf q 1 1 - dcmOf q 2 2 = 4 * q.imI ^ 2 - 1 ∧
    dcmOf q 1 1 - dcmOf q 2 2 - dcmOf q 0 0 = 4 * q.imJ ^ 2 - 1 ∧
    dcmOf q 2 2 - dcmOf q 0 0 - dcmOf q 1 1 = 4 * q.imK ^ 2 - 1 ∧
    dcmOf q 2 1 - dcmOf q 1 2 = 4 * (q.re * q.imI) ∧
    dcmOf q 0 2 - dcmOf q 2 0 = 4 * (q.re * q.imJ) ∧
    dcmOf q 1 0 - dcmOf q 0 1 = 4 * (q.re * q.imK) ∧
    dcmOf q 0 1 + dcmOf q 1 0 = 4 * (q.imI * q.imJ) ∧
    dcmOf q 2 0 + dcmOf q 0 2 = 4 * (q.imI * q.imK) ∧
    dcmOf q 1 2 + dcmOf q 2 1 = 4 * (q.imJ * q.imK) := by
  have hs := unit_sum h
  simp only [dcmOf, tbl, List.getD_cons_zero, List.getD_cons_succ]
  refine ⟨?_, ?_, ?_, ?_, ?_, ?_, ?_, ?_, ?_, ?_⟩ <;> first | linear_combination hs | linear_combination -hs | linear_combination 0 * hs | linear_combination 3 * hs | linear_combination (-3) * hs

theorem unit_sq (h : Quaternion.normSq q = 1) :
    q.re ^ 2 + q.imI ^ 2 + q.imJ ^ 2 + q.imK ^ 2 = 1 := by
  have := unit_sum h; nlinarith

/-! ### C38 -/

/-- The four numbers `chiaverini` computes before normalising. -/
noncomputable def chiR (D : Nat → Nat → ℝ) : Nat → ℝ :=
  seq4 (1 / 2 * √(clipR (D 0 0 + D 1 1 + D 2 2) (-1) 3 + 1))
    (1 / 2 * signR (D 2 1 - D 1 2) * √(clipR (D 0 0 - D 1 1 - D 2 2) (-1) 1 + 1))
    (1 / 2 * signR (D 0 2 - D 2 0) * √(clipR (D 1 1 - D 2 2 - D 0 0) (-1) 1 + 1))
    (1 / 2 * signR (D 1 0 - D 0 1) * √(clipR (D 2 2 - D 0 0 - D 1 1) (-1) 1 + 1))

theorem chiaverini_eq (hs : VecIs s 4 f) (hm : MatIs m 3 3 (fun i j => .fin (D i j))) :
    Quat.chiaverini m s = (Quat.storeAll (.fin (chiR D 0)) (.fin (chiR D 1)) (.fin (chiR D 2))
      (.fin (chiR D 3)) >>= fun _ => Vec.normalize) s := by
  have p3 : ∀ x : ℝ, 0 ≤ clipR x (-1) 3 + 1 := fun x => by
    have := le_clipR (x := x) (a := -1) (b := 3) (by norm_num); linarith
  have p1 : ∀ x : ℝ, 0 ≤ clipR x (-1) 1 + 1 := fun x => by
    have := le_clipR (x := x) (a := -1) (b := 1) (by norm_num); linarith
  have q3 : ∀ x : ℝ, (lit (1 / 2) : XR) *ᶠ Scalar.sqrt (Utils.clip (.fin x) (lit (-1)) (lit 3) +ᶠ lit 1)
      = .fin (1 / 2 * √(clipR x (-1) 3 + 1)) := fun x => by
    rw [lit_neg_one, lit_three, lit_half, Ext.lit_one, clip_fin, Ext.add_fin, sqrtR (p3 x),
      Ext.mul_fin]
  have q1 : ∀ x y : ℝ, (lit (1 / 2) : XR) *ᶠ Utils.sign (.fin y) *ᶠ
      Scalar.sqrt (Utils.clip (.fin x) (lit (-1)) (lit 1) +ᶠ lit 1)
      = .fin (1 / 2 * signR y * √(clipR x (-1) 1 + 1)) := fun x y => by
    rw [lit_neg_one, lit_half, Ext.lit_one, clip_fin, sign_fin, Ext.add_fin, sqrtR (p1 x),
      Ext.mul_fin, Ext.mul_fin]
  unfold Quat.chiaverini
  simp only [Op.get_bind', Quat.isQuaternion_eq hs, Op.liftOk_bind', decide_true, Bool.not_true,
    Bool.false_eq_true, if_false, trace_fin hm, hm.get 0 0 (by omega) (by omega),
    hm.get 0 1 (by omega) (by omega), hm.get 0 2 (by omega) (by omega),
    hm.get 1 0 (by omega) (by omega), hm.get 1 1 (by omega) (by omega),
    hm.get 1 2 (by omega) (by omega), hm.get 2 0 (by omega) (by omega),
    hm.get 2 1 (by omega) (by omega), hm.get 2 2 (by omega) (by omega), Ext.sub_fin, q3, q1, chiR, seq4]

theorem chiaverini_run (hs : VecIs s 4 f) (hm : MatIs m 3 3 (fun i j => .fin (D i j))) :
    ∃ r, Quat.chiaverini m s = (.ok (), r) ∧
      VecIs r 4 (fun i => .fin (if epsilon ℝ < norm2 4 (chiR D) then chiR D i / norm2 4 (chiR D)
        else 0)) := by
  rw [chiaverini_eq hs hm]
  generalize chiR D = c
  obtain ⟨t, e1, h1⟩ := Quat.storeAll_ok (w := .fin (c 0)) (x := .fin (c 1))
    (y := .fin (c 2)) (z := .fin (c 3)) hs (by simp) (by simp) (by simp) (by simp)
  have h1' : VecIs t 4 (fun i => .fin (c i)) :=
    h1.congr (forall_lt_four.mpr ⟨rfl, rfl, rfl, rfl⟩)
  obtain ⟨r, e2, h2⟩ := normalize_run h1'
  exact ⟨r, by rw [Op.bind_ok e1, e2], h2⟩

theorem signR_abs {w x : ℝ} (hw : 0 < w) : signR (4 * (w * x)) * |x| = x := by
  unfold signR
  rcases lt_trichotomy x 0 with h | h | h
  · rw [if_neg (by nlinarith), if_pos (by nlinarith), abs_of_neg h]; ring
  · subst h; simp
  · rw [if_pos (by positivity), abs_of_pos h, one_mul]

theorem signR_neg (x : ℝ) : signR (-x) = -signR x := by
  unfold signR
  rcases lt_trichotomy x 0 with h | h | h
  · rw [if_pos (by linarith), if_neg (by linarith), if_pos h]; ring
  · subst h; simp
  · rw [if_neg (by linarith), if_pos (by linarith), if_pos h]

theorem sqrt_four_sq (x : ℝ) : √(4 * x ^ 2 - 1 + 1) = 2 * |x| := by
  rw [show 4 * x ^ 2 - 1 + 1 = (2 * x) ^ 2 by ring, Real.sqrt_sq_eq_abs, abs_mul, abs_two]

/-- A component after `chiaverini`'s clipping: magnitude at most `1/√2`. -/
noncomputable def capR (x : ℝ) : ℝ := if x ^ 2 ≤ 1 / 2 then |x| else √(1 / 2)

theorem chi_cap (x : ℝ) : 1 / 2 * √(clipR (4 * x ^ 2 - 1) (-1) 1 + 1) = capR x := by
  unfold capR
  split
  · next h =>
    rw [clipR_id (by nlinarith [sq_nonneg x]) (by linarith), sqrt_four_sq]; ring
  · next h =>
    rw [clipR, if_neg (by nlinarith [sq_nonneg x]), if_pos (by linarith)]
    rw [show (1 : ℝ) + 1 = 2 ^ 2 * (1 / 2) by norm_num, Real.sqrt_mul (by norm_num),
      Real.sqrt_sq (by norm_num)]
    ring

theorem chiR_unit (h : Quaternion.normSq q = 1) (i : Nat) (hi : i < 4) : chiR (dcmOf q) i =
    seq4 |q.re| (signR (4 * (q.re * q.imI)) * capR q.imI) (signR (4 * (q.re * q.imJ)) * capR q.imJ)
      (signR (4 * (q.re * q.imK)) * capR q.imK) i := by
  have hu := unit_sq h
  obtain ⟨h1, h2, h3, h4, h5, h6, h7, _⟩ := dcmOf_unit h
  unfold chiR
  rw [h1, h2, h3, h4, h5, h6, h7, ← chi_cap, ← chi_cap, ← chi_cap,
    clipR_id (show -1 ≤ 4 * q.re ^ 2 - 1 by nlinarith [sq_nonneg q.re]) (by nlinarith),
    sqrt_four_sq]
  revert i
  rw [forall_lt_four]
  refine ⟨?_, ?_, ?_, ?_⟩ <;> simp only [seq4] <;> ring

theorem quat_of_cells {r : Vec XR} {c : Nat → ℝ} (hr : VecIs r 4 (fun i => .fin (c i)))
    (p : Quaternion ℝ) (h0 : c 0 = p.re) (h1 : c 1 = p.imI) (h2 : c 2 = p.imJ) (h3 : c 3 = p.imK) :
    QuatIs r p :=
  QuatIs.of p (VecIs.four hr) h0 h1 h2 h3

theorem eps_lt_one : epsilon ℝ < 1 := by norm_num [epsilon]

/-- C38: from the matrix of a unit quaternion that is not a half turn and whose vector components do
not exceed `1/√2`, `chiaverini` recovers it, with the sign that makes the real part positive. -/
theorem C38_chiaverini (hs : VecIs s 4 f) (ha : QuatIs a q) (hq : Quaternion.normSq q = 1)
    (hw : q.re ≠ 0) (hx : q.imI ^ 2 ≤ 1 / 2) (hy : q.imJ ^ 2 ≤ 1 / 2) (hz : q.imK ^ 2 ≤ 1 / 2) :
    ∃ m r, Quat.convertToDcm a = .ok m ∧ Quat.chiaverini m s = (.ok (), r) ∧
      QuatIs r (if 0 < q.re then q else -q) := by
  have hu := unit_sq hq
  obtain ⟨m, e, hm⟩ := dcm_run ha
  obtain ⟨r, e2, hr⟩ := chiaverini_run hs hm
  refine ⟨m, r, e, e2, ?_⟩
  have hc : ∀ i, i < 4 → chiR (dcmOf q) i =
      seq4 (if 0 < q.re then q else -q).re (if 0 < q.re then q else -q).imI
        (if 0 < q.re then q else -q).imJ (if 0 < q.re then q else -q).imK i := by
    intro i hi
    rw [chiR_unit hq i hi, capR, capR, capR, if_pos hx, if_pos hy, if_pos hz]
    by_cases h : 0 < q.re
    · rw [if_pos h, signR_abs h, signR_abs h, signR_abs h, abs_of_pos h]
    · have h' : 0 < -q.re := by
        rcases lt_or_gt_of_ne hw with h1 | h1
        · linarith
        · exact absurd h1 h
      have k : ∀ x : ℝ, signR (4 * (q.re * x)) * |x| = -x := fun x => by
        have := signR_abs (x := x) h'
        rw [show 4 * (-q.re * x) = -(4 * (q.re * x)) by ring, signR_neg] at this
        linarith
      rw [if_neg h, k, k, k, abs_of_neg (by linarith), Quaternion.re_neg, Quaternion.imI_neg,
        Quaternion.imJ_neg, Quaternion.imK_neg]
  have hn : norm2 4 (chiR (dcmOf q)) = 1 := by
    rw [norm2_congr (fun i hi => hc i hi), norm2]
    rw [show ∑ i ∈ range 4, seq4 (if 0 < q.re then q else -q).re (if 0 < q.re then q else -q).imI
        (if 0 < q.re then q else -q).imJ (if 0 < q.re then q else -q).imK i ^ 2 = 1 from ?_,
      Real.sqrt_one]
    simp only [Finset.sum_range_succ, Finset.sum_range_zero, seq4, zero_add]
    split
    · exact hu
    · simp only [Quaternion.re_neg, Quaternion.imI_neg, Quaternion.imJ_neg, Quaternion.imK_neg]
      linarith
  have hr' : VecIs r 4 (fun i => .fin (chiR (dcmOf q) i)) := hr.congr fun i _ => by
    rw [hn, if_pos eps_lt_one, div_one]
  exact quat_of_cells hr' _ (hc 0 (by omega)) (hc 1 (by omega)) (hc 2 (by omega)) (hc 3 (by omega))

/-- C38: for every half turn it returns the zero quaternion, and reports success. -/
theorem C38_half_turn (hs : VecIs s 4 f) (ha : QuatIs a q) (hq : Quaternion.normSq q = 1)
    (hw : q.re = 0) :
    ∃ m r, Quat.convertToDcm a = .ok m ∧ Quat.chiaverini m s = (.ok (), r) ∧ QuatIs r 0 := by
  obtain ⟨m, e, hm⟩ := dcm_run ha
  obtain ⟨r, e2, hr⟩ := chiaverini_run hs hm
  have hc : ∀ i, i < 4 → chiR (dcmOf q) i = 0 := by
    intro i hi
    rw [chiR_unit hq i hi, hw]
    revert i
    rw [forall_lt_four]
    simp [seq4, signR]
  refine ⟨m, r, e, e2, quat_of_cells hr 0 ?_ ?_ ?_ ?_⟩ <;>
    rw [hc _ (by omega)] <;> simp <;> rfl

/-- C38: for a unit quaternion with a vector component beyond `1/√2`, other than a half turn, the
result is a unit quaternion of another rotation. -/
theorem C38_wrong (hs : VecIs s 4 f) (ha : QuatIs a q) (hq : Quaternion.normSq q = 1)
    (hw : q.re ≠ 0) (hx : 1 / 2 < q.imI ^ 2 ∨ 1 / 2 < q.imJ ^ 2 ∨ 1 / 2 < q.imK ^ 2) :
    ∃ m r p, Quat.convertToDcm a = .ok m ∧ Quat.chiaverini m s = (.ok (), r) ∧ QuatIs r p ∧
      Quaternion.normSq p = 1 ∧ p ≠ q ∧ p ≠ -q ∧ Quat.convertToDcm r ≠ .ok m := by
  have hu := unit_sq hq
  obtain ⟨m, e, hm⟩ := dcm_run ha
  obtain ⟨r, e2, hr⟩ := chiaverini_run hs hm
  have hpos : 0 < q.re ^ 2 := by positivity
  have cap_sq : ∀ x : ℝ, capR x ^ 2 = if x ^ 2 ≤ 1 / 2 then x ^ 2 else 1 / 2 := fun x => by
    unfold capR
    split
    · rw [sq_abs]
    · rw [Real.sq_sqrt (by norm_num)]
  have sgn_sq : ∀ x : ℝ, (signR (4 * (q.re * x)) * capR x) ^ 2 = capR x ^ 2 := fun x => by
    unfold signR
    split
    · ring
    · split
      · ring
      · next h1 h2 =>
        have h0 : x = 0 := by
          have : q.re * x = 0 := by linarith
          exact (mul_eq_zero.mp this).resolve_left hw
        rw [cap_sq, h0]; simp
  set N := norm2 4 (chiR (dcmOf q)) with hN
  have hN2 : N ^ 2 = q.re ^ 2 + capR q.imI ^ 2 + capR q.imJ ^ 2 + capR q.imK ^ 2 := by
    rw [hN, norm2_congr (fun i hi => chiR_unit hq i hi), norm2,
      Real.sq_sqrt (Finset.sum_nonneg fun i _ => sq_nonneg _)]
    simp only [Finset.sum_range_succ, Finset.sum_range_zero, seq4, zero_add, sgn_sq, sq_abs]
  have hNn : 0 ≤ N := norm2_nonneg _ _
  have hN1 : N ^ 2 < 1 ∧ 1 / 4 < N ^ 2 := by
    rw [hN2, cap_sq, cap_sq, cap_sq]
    have := sq_nonneg q.imI
    have := sq_nonneg q.imJ
    have := sq_nonneg q.imK
    rcases hx with h | h | h
    · rw [if_neg (by linarith), if_pos (by linarith), if_pos (by linarith)]
      constructor <;> linarith
    · rw [if_pos (by linarith), if_neg (by linarith), if_pos (by linarith)]
      constructor <;> linarith
    · rw [if_pos (by linarith), if_pos (by linarith), if_neg (by linarith)]
      constructor <;> linarith
  have hlt : N < 1 := by nlinarith
  have hgt : epsilon ℝ < N := by
    have : 1 / 2 < N := by nlinarith
    have : epsilon ℝ < 1 / 2 := by norm_num [epsilon]
    linarith
  have hN0 : 0 < N := lt_trans Linalg.eps_pos hgt
  have hr' : VecIs r 4 (fun i => .fin (chiR (dcmOf q) i / N)) := hr.congr fun i _ => by
    rw [if_pos hgt]
  set p := mkQ (chiR (dcmOf q) 0 / N) (chiR (dcmOf q) 1 / N) (chiR (dcmOf q) 2 / N)
    (chiR (dcmOf q) 3 / N) with hp
  have hrp : QuatIs r p := quat_of_cells hr' p rfl rfl rfl rfl
  have hp1 : Quaternion.normSq p = 1 := by
    rw [hp, normSq_mkQ]
    have : N ^ 2 = chiR (dcmOf q) 0 ^ 2 + chiR (dcmOf q) 1 ^ 2 + chiR (dcmOf q) 2 ^ 2 +
        chiR (dcmOf q) 3 ^ 2 := by
      rw [hN, norm2,
      Real.sq_sqrt (Finset.sum_nonneg fun i _ => sq_nonneg _)]
      simp only [Finset.sum_range_succ, Finset.sum_range_zero, zero_add]
    field_simp
    rw [this]
  have hre : p.re = |q.re| / N := by
    rw [hp, mkQ_re, chiR_unit hq 0 (by omega)]; rfl
  have hbig : |q.re| < p.re := by
    rw [hre, lt_div_iff₀ hN0]
    nlinarith [abs_pos.mpr hw]
  have n1 : p ≠ q := by
    intro h
    rw [h] at hbig
    exact absurd hbig (not_lt.mpr (le_abs_self _))
  have n2 : p ≠ -q := by
    intro h
    rw [h, Quaternion.re_neg] at hbig
    exact absurd hbig (not_lt.mpr (neg_le_abs _))
  refine ⟨m, r, p, e, e2, hrp, hp1, n1, n2, fun h => ?_⟩
  rcases C36_faithful ha hrp hq hp1 e h with h | h
  · exact n1 h
  · exact n2 h

/-! ### C39 -/

theorem hughes_eq (hs : VecIs s 4 f) (hm : MatIs m 3 3 (fun i j => .fin (D i j))) {t : ℝ}
    (ht : clipR (D 0 0 + D 1 1 + D 2 2) (-1) 3 = t) (h3 : ¬ |t - 3| ≤ epsilon ℝ)
    (hn : ¬ |1 / 2 * √(1 + t) - 0| ≤ epsilon ℝ) :
    Quat.hughes m s = Quat.storeAll (.fin (1 / 2 * √(1 + t)))
      (.fin (1 / 4 * (D 1 2 - D 2 1) / (1 / 2 * √(1 + t))))
      (.fin (1 / 4 * (D 2 0 - D 0 2) / (1 / 2 * √(1 + t))))
      (.fin (1 / 4 * (D 0 1 - D 1 0) / (1 / 2 * √(1 + t)))) s := by
  have hp : 0 ≤ 1 + t := by
    have := le_clipR (x := D 0 0 + D 1 1 + D 2 2) (a := -1) (b := 3) (by norm_num); linarith
  have hne : 1 / 2 * √(1 + t) ≠ 0 := by
    intro h
    rw [h] at hn
    simp at hn
    exact absurd hn (not_lt.mpr Linalg.eps_pos.le)
  unfold Quat.hughes
  simp only [Op.get_bind', Quat.isQuaternion_eq hs, Op.liftOk_bind', decide_true, Bool.not_true,
    Bool.false_eq_true, if_false, trace_fin hm, lit_neg_one, lit_three, clip_fin, ht, allclose_fin, h3,
    decide_false, lit_half, lit_quarter, Ext.lit_one, Ext.lit_zero, Ext.add_fin, sqrtR hp, Ext.mul_fin, hn,
    hm.get 0 1 (by omega) (by omega), hm.get 0 2 (by omega) (by omega),
    hm.get 1 0 (by omega) (by omega), hm.get 1 2 (by omega) (by omega),
    hm.get 2 0 (by omega) (by omega), hm.get 2 1 (by omega) (by omega), Ext.sub_fin,
    Ext.div_fin _ hne]

/-- C39: from the matrix of a unit quaternion `hughes` returns the conjugate, up to sign: the rotation
is inverted.  The real part must exceed the threshold, and so must four times the square of the
vector part. -/
theorem C39_hughes (hs : VecIs s 4 f) (ha : QuatIs a q) (hq : Quaternion.normSq q = 1)
    (hw : epsilon ℝ < |q.re|) (hv : epsilon ℝ < 4 * (1 - q.re ^ 2)) :
    ∃ m r, Quat.convertToDcm a = .ok m ∧ Quat.hughes m s = (.ok (), r) ∧
      QuatIs r (if 0 < q.re then star q else -star q) := by
  have hu := unit_sq hq
  have he := Linalg.eps_pos (K := ℝ)
  obtain ⟨m, e, hm⟩ := dcm_run ha
  obtain ⟨h1, _, _, _, h5, h6, h7, _⟩ := dcmOf_unit hq
  have ht : clipR (dcmOf q 0 0 + dcmOf q 1 1 + dcmOf q 2 2) (-1) 3 = 4 * q.re ^ 2 - 1 := by
    rw [h1, clipR_id (by nlinarith [sq_nonneg q.re]) (by nlinarith)]
  have hsq : 1 / 2 * √(1 + (4 * q.re ^ 2 - 1)) = |q.re| := by
    rw [add_comm, sqrt_four_sq]; ring
  have e2 := hughes_eq hs hm ht (by rw [abs_of_neg (by linarith)]; linarith)
    (by rw [hsq, sub_zero, abs_abs]; exact not_le.mpr hw)
  rw [hsq] at e2
  obtain ⟨r, e3, hr⟩ := Quat.storeAll_ok hs (w := .fin |q.re|)
    (x := .fin (1 / 4 * (dcmOf q 1 2 - dcmOf q 2 1) / |q.re|))
    (y := .fin (1 / 4 * (dcmOf q 2 0 - dcmOf q 0 2) / |q.re|))
    (z := .fin (1 / 4 * (dcmOf q 0 1 - dcmOf q 1 0) / |q.re|))
    (Ext.finite_fin _) (Ext.finite_fin _) (Ext.finite_fin _) (Ext.finite_fin _)
  refine ⟨m, r, e, by rw [e2, e3], ?_⟩
  have k5 : dcmOf q 1 2 - dcmOf q 2 1 = -(4 * (q.re * q.imI)) := by linarith
  have k6 : dcmOf q 2 0 - dcmOf q 0 2 = -(4 * (q.re * q.imJ)) := by linarith
  have k7 : dcmOf q 0 1 - dcmOf q 1 0 = -(4 * (q.re * q.imK)) := by linarith
  rw [k5, k6, k7] at hr
  have hne : q.re ≠ 0 := by
    intro h; rw [h, abs_zero] at hw; linarith
  by_cases h : 0 < q.re
  · rw [if_pos h]
    rw [abs_of_pos h] at hr
    refine QuatIs.of _ hr (by simp) ?_ ?_ ?_ <;> simp <;> field_simp
  · have hneg : q.re < 0 := lt_of_le_of_ne (not_lt.mp h) hne
    rw [if_neg h]
    rw [abs_of_neg hneg] at hr
    refine QuatIs.of _ hr (by simp) ?_ ?_ ?_ <;> simp <;> field_simp

/-- C39: a rotation by a small angle is replaced by the identity. -/
theorem C39_small_angle (hs : VecIs s 4 f) (ha : QuatIs a q) (hq : Quaternion.normSq q = 1)
    (hv : 4 * (1 - q.re ^ 2) ≤ epsilon ℝ) :
    ∃ m r, Quat.convertToDcm a = .ok m ∧ Quat.hughes m s = (.ok (), r) ∧ QuatIs r 1 := by
  have hu := unit_sq hq
  obtain ⟨m, e, hm⟩ := dcm_run ha
  obtain ⟨h1, _⟩ := dcmOf_unit hq
  have ht : clipR (dcmOf q 0 0 + dcmOf q 1 1 + dcmOf q 2 2) (-1) 3 = 4 * q.re ^ 2 - 1 := by
    rw [h1, clipR_id (by nlinarith [sq_nonneg q.re]) (by nlinarith)]
  have h3 : |4 * q.re ^ 2 - 1 - 3| ≤ epsilon ℝ := by
    rw [abs_of_nonpos (by nlinarith)]; linarith
  obtain ⟨r, e2, hr⟩ := Quat.fillq_ok (w := .fin 1) (x := .fin 0) (y := .fin 0) (z := .fin 0) hs
    (by simp) (by simp) (by simp) (by simp)
  refine ⟨m, r, e, ?_, QuatIs.of _ hr rfl rfl rfl rfl⟩
  rw [← e2]
  unfold Quat.hughes
  simp only [Op.get_bind', Quat.isQuaternion_eq hs, Op.liftOk_bind', decide_true, Bool.not_true,
    Bool.false_eq_true, if_false, if_true, trace_fin hm, lit_neg_one, lit_three, clip_fin, ht,
    allclose_fin, h3, Ext.lit_one, Ext.lit_zero]

/-! ### C40 -/

theorem sarabandiComponent_eq {x eta : ℝ} (he : eta < 3) :
    Quat.sarabandiComponent (.fin eta : XR) (.fin (4 * x ^ 2 - 1)) (.fin (16 * (x ^ 2 * (1 - x ^ 2)))) =
      .fin |x| := by
  unfold Quat.sarabandiComponent
  rw [Ext.lt_fin, Ext.lit_one, lit_three, lit_half]
  by_cases h : eta < 4 * x ^ 2 - 1
  · rw [if_pos (decide_eq_true h), Ext.add_fin, sqrtR (by nlinarith [sq_nonneg x]), Ext.mul_fin,
      add_comm, sqrt_four_sq]
    congr 1; ring
  · have hd : 0 < 3 - (4 * x ^ 2 - 1) := by linarith
    have h1 : 1 - x ^ 2 ≠ 0 := by intro h0; apply hd.ne'; linarith
    rw [if_neg (by simpa using h), Ext.sub_fin, Ext.div_fin _ hd.ne',
      show 16 * (x ^ 2 * (1 - x ^ 2)) / (3 - (4 * x ^ 2 - 1)) = (2 * x) ^ 2 by
        rw [div_eq_iff hd.ne']; ring, sqrtR (by positivity), Ext.mul_fin, Real.sqrt_sq_eq_abs,
      abs_mul, abs_two]
    congr 1; ring

theorem sarabandi_eq (hs : VecIs s 4 f) (hm : MatIs m 3 3 (fun i j => .fin (D i j))) (eta : Option XR) :
    Quat.sarabandi m eta s = Quat.storeAll
      (Quat.sarabandiComponent (eta.getD (.fin 0)) (.fin (D 0 0 + D 1 1 + D 2 2))
        (.fin ((D 2 1 - D 1 2) * (D 2 1 - D 1 2) + (D 0 2 - D 2 0) * (D 0 2 - D 2 0) +
          (D 1 0 - D 0 1) * (D 1 0 - D 0 1))))
      (Quat.sarabandiComponent (eta.getD (.fin 0)) (.fin (D 0 0 - D 1 1 - D 2 2))
        (.fin ((D 2 1 - D 1 2) * (D 2 1 - D 1 2) + (D 0 1 + D 1 0) * (D 0 1 + D 1 0) +
          (D 2 0 + D 0 2) * (D 2 0 + D 0 2))))
      (Quat.sarabandiComponent (eta.getD (.fin 0)) (.fin (-D 0 0 + D 1 1 - D 2 2))
        (.fin ((D 0 2 - D 2 0) * (D 0 2 - D 2 0) + (D 0 1 + D 1 0) * (D 0 1 + D 1 0) +
          (D 1 2 + D 2 1) * (D 1 2 + D 2 1))))
      (Quat.sarabandiComponent (eta.getD (.fin 0)) (.fin (-D 0 0 - D 1 1 + D 2 2))
        (.fin ((D 1 0 - D 0 1) * (D 1 0 - D 0 1) + (D 2 0 + D 0 2) * (D 2 0 + D 0 2) +
          (D 1 2 + D 2 1) * (D 1 2 + D 2 1)))) s := by
  unfold Quat.sarabandi
  simp only [Op.get_bind', Quat.isQuaternion_eq hs, Op.liftOk_bind', decide_true, Bool.not_true,
    Bool.false_eq_true, if_false, hm.get 0 0 (by omega) (by omega),
    hm.get 0 1 (by omega) (by omega), hm.get 0 2 (by omega) (by omega),
    hm.get 1 0 (by omega) (by omega), hm.get 1 1 (by omega) (by omega),
    hm.get 1 2 (by omega) (by omega), hm.get 2 0 (by omega) (by omega),
    hm.get 2 1 (by omega) (by omega), hm.get 2 2 (by omega) (by omega), Ext.sub_fin, Ext.add_fin,
    Ext.neg_fin, Ext.mul_fin, Ext.lit_zero]

/-- C40: from the matrix of a unit quaternion `sarabandi`, with the default threshold or any threshold
below 3, returns the absolute values of the components. -/
theorem C40_sarabandi (hs : VecIs s 4 f) (ha : QuatIs a q) (hq : Quaternion.normSq q = 1)
    (eta : Option ℝ) (he : ∀ x, eta = some x → x < 3) :
    ∃ m r, Quat.convertToDcm a = .ok m ∧
      Quat.sarabandi m (eta.map Ext.fin) s = (.ok (), r) ∧
      QuatIs r (mkQ |q.re| |q.imI| |q.imJ| |q.imK|) := by
  have hu := unit_sq hq
  obtain ⟨m, e, hm⟩ := dcm_run ha
  obtain ⟨h1, h2, h3, h4, h5, h6, h7, h8, h9, h10⟩ := dcmOf_unit hq
  have h3' : -dcmOf q 0 0 + dcmOf q 1 1 - dcmOf q 2 2 = 4 * q.imJ ^ 2 - 1 := by linarith
  have h4' : -dcmOf q 0 0 - dcmOf q 1 1 + dcmOf q 2 2 = 4 * q.imK ^ 2 - 1 := by linarith
  have e2 := sarabandi_eq hs hm (eta.map Ext.fin)
  obtain ⟨x, hx, hx3⟩ : ∃ x : ℝ, (eta.map Ext.fin).getD (.fin 0 : XR) = .fin x ∧ x < 3 := by
    rcases eta with _ | x
    · exact ⟨0, rfl, by norm_num⟩
    · exact ⟨x, rfl, he x rfl⟩
  rw [h1, h2, h3', h4', h5, h6, h7, h8, h9, h10, hx] at e2
  have n0 : 4 * (q.re * q.imI) * (4 * (q.re * q.imI)) + 4 * (q.re * q.imJ) * (4 * (q.re * q.imJ)) +
      4 * (q.re * q.imK) * (4 * (q.re * q.imK)) = 16 * (q.re ^ 2 * (1 - q.re ^ 2)) := by
    linear_combination (16 * q.re ^ 2) * hu
  have n1 : 4 * (q.re * q.imI) * (4 * (q.re * q.imI)) + 4 * (q.imI * q.imJ) * (4 * (q.imI * q.imJ)) +
      4 * (q.imI * q.imK) * (4 * (q.imI * q.imK)) = 16 * (q.imI ^ 2 * (1 - q.imI ^ 2)) := by
    linear_combination (16 * q.imI ^ 2) * hu
  have n2 : 4 * (q.re * q.imJ) * (4 * (q.re * q.imJ)) + 4 * (q.imI * q.imJ) * (4 * (q.imI * q.imJ)) +
      4 * (q.imJ * q.imK) * (4 * (q.imJ * q.imK)) = 16 * (q.imJ ^ 2 * (1 - q.imJ ^ 2)) := by
    linear_combination (16 * q.imJ ^ 2) * hu
  have n3 : 4 * (q.re * q.imK) * (4 * (q.re * q.imK)) + 4 * (q.imI * q.imK) * (4 * (q.imI * q.imK)) +
      4 * (q.imJ * q.imK) * (4 * (q.imJ * q.imK)) = 16 * (q.imK ^ 2 * (1 - q.imK ^ 2)) := by
    linear_combination (16 * q.imK ^ 2) * hu
  rw [n0, n1, n2, n3, sarabandiComponent_eq hx3, sarabandiComponent_eq hx3,
    sarabandiComponent_eq hx3, sarabandiComponent_eq hx3] at e2
  obtain ⟨r, e3, hr⟩ := Quat.storeAll_ok hs (w := .fin |q.re|) (x := .fin |q.imI|) (y := .fin |q.imJ|)
    (z := .fin |q.imK|) (Ext.finite_fin _) (Ext.finite_fin _) (Ext.finite_fin _) (Ext.finite_fin _)
  exact ⟨m, r, e, by rw [e2, e3], QuatIs.of _ hr rfl rfl rfl rfl⟩

/-- C40: so a quaternion with two components of opposite signs is turned into another rotation. -/
theorem C40_wrong (hs : VecIs s 4 f) (ha : QuatIs a q) (hq : Quaternion.normSq q = 1)
    (hw : 0 < q.re) (hx : q.imI < 0 ∨ q.imJ < 0 ∨ q.imK < 0) :
    ∃ m r, Quat.convertToDcm a = .ok m ∧ Quat.sarabandi m none s = (.ok (), r) ∧
      Quat.convertToDcm r ≠ .ok m := by
  obtain ⟨m, r, e, e2, hr⟩ := C40_sarabandi hs ha hq none (by simp)
  refine ⟨m, r, e, e2, fun h => ?_⟩
  have hn : Quaternion.normSq (mkQ |q.re| |q.imI| |q.imJ| |q.imK|) = 1 := by
    rw [normSq_mkQ]; simp only [sq_abs]; exact unit_sq hq
  rcases C36_faithful ha hr hq hn e h with h | h
  · have h1 := congrArg QuaternionAlgebra.imI h
    have h2 := congrArg QuaternionAlgebra.imJ h
    have h3 := congrArg QuaternionAlgebra.imK h
    simp only [mkQ_imI, mkQ_imJ, mkQ_imK] at h1 h2 h3
    rcases hx with h | h | h
    · exact absurd (h1 ▸ abs_nonneg q.imI) (not_le.mpr h)
    · exact absurd (h2 ▸ abs_nonneg q.imJ) (not_le.mpr h)
    · exact absurd (h3 ▸ abs_nonneg q.imK) (not_le.mpr h)
  · have h1 := congrArg QuaternionAlgebra.re h
    rw [Quaternion.re_neg] at h1
    simp only [mkQ_re] at h1
    have := abs_nonneg q.re
    linarith

end

/-- A case of `C38_chiaverini`, `C39_hughes` and `C40_wrong`. -/
example : Quaternion.normSq (mkQ (1 / 2) (1 / 2) (-1 / 2) (1 / 2) : Quaternion ℝ) = 1 ∧
    ((1 / 2 : ℝ)) ^ 2 ≤ 1 / 2 ∧ epsilon ℝ < |(1 / 2 : ℝ)| ∧ epsilon ℝ < 4 * (1 - (1 / 2 : ℝ) ^ 2) := by
  rw [normSq_mkQ]; norm_num [epsilon, abs_of_pos]

/-- A case of `C38_wrong`: a rotation by about 106 degrees around the first axis. -/
example : Quaternion.normSq (mkQ (3 / 5) (4 / 5) 0 0 : Quaternion ℝ) = 1 ∧
    1 / 2 < (4 / 5 : ℝ) ^ 2 := by
  rw [normSq_mkQ]; norm_num

/-- A case of `C38_half_turn`. -/
example : Quaternion.normSq (mkQ 0 (3 / 5) 0 (4 / 5) : Quaternion ℝ) = 1 := by
  rw [normSq_mkQ]; norm_num

/-- A case of `C39_small_angle` that is not the identity. -/
example : Quaternion.normSq (mkQ (40000 ^ 2 - 1) (2 * 40000) 0 0 : Quaternion ℝ) =
    (40000 ^ 2 + 1) ^ 2 ∧
    4 * (1 - ((40000 ^ 2 - 1) / (40000 ^ 2 + 1) : ℝ) ^ 2) ≤ epsilon ℝ := by
  rw [normSq_mkQ]; norm_num [epsilon]

end Verif
