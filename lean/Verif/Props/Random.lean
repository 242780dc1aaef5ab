import Mathlib.Analysis.Real.Pi.Bounds
import Verif.Props.AquaMarg

/-
Claims about `generate_random_attitudes` (C61).
-/

set_option linter.unusedSectionVars false
set_option linter.unusedSimpArgs false

namespace Verif
open Scalar Finset

namespace Ahrs
section
variable {F : Type} [Scalar F]

/-- C61: the result does not depend on the random source, unless that draws `u64::MAX`. -/
theorem C61_source {d d' : Nat → Nat} (h : ∀ k, d k < 2 ^ 64 - 1) (h' : ∀ k, d' k < 2 ^ 64 - 1)
    (number : Nat) :
    (generateRandomAttitudes d number : Res LinalgError (Mat F)) = generateRandomAttitudes d' number := by
  have e : (randomStep d : Nat → RandState F → _) = randomStep d' := by
    funext n st
    unfold randomStep randomTarget
    simp only [Nat.div_eq_of_lt (h _), Nat.div_eq_of_lt (h' _)]
  unfold generateRandomAttitudes
  rw [e]

/-- C61: only one to four attitudes can be asked for, although the argument is a `u8`. -/
theorem C61_number (d : Nat → Nat) (number : Nat) :
    (4 < number → (generateRandomAttitudes d number : Res LinalgError (Mat F)) =
      .error (.err .ColsNumberOverflow)) ∧
    (number = 0 → (generateRandomAttitudes d number : Res LinalgError (Mat F)) =
      .error (.err .ColsNumberNull)) := by
  constructor
  · intro h
    unfold generateRandomAttitudes isValidColsNumber
    rw [if_pos (show number > N_MAX from h)]; rfl
  · rintro rfl; rfl

end

/-- The largest step, `PI / 64` with the library's `PI`. -/
noncomputable def maxStep : ℝ := (3141592653589793 / 1000000000000000) / 64

/-- The scalar product of two sequences of four numbers. -/
def dot4 (x y : Nat → ℝ) : ℝ := ∑ i ∈ range 4, x i * y i

/-- A move from `P` towards `T`, all the way when they are at most `maxStep` apart. -/
noncomputable def moveTo (P T : Nat → ℝ) (i : Nat) : ℝ :=
  if maxStep < Real.arccos (dot4 P T) then
    (Real.sin (Real.arccos (dot4 P T) - maxStep) * P i + Real.sin maxStep * T i) /
      Real.sin (Real.arccos (dot4 P T))
  else T i

theorem maxStep_pos : 0 < maxStep := by unfold maxStep; norm_num
theorem maxStep_lt : maxStep < 1 / 10 := by unfold maxStep; norm_num
theorem maxStep_eq : (PI : XR) /ᶠ lit 64 = .fin maxStep := by
  unfold PI maxStep
  rw [Ext.lit_eq, Ext.lit_eq, Ext.div_fin _ (by norm_num)]
  push_cast; rfl

theorem seq4_of (x : Nat → ℝ) {v : Vec XR} (h : VecIs v 4 fun i => .fin (x i)) :
    VecIs v 4 (seq4 (.fin (x 0)) (.fin (x 1)) (.fin (x 2)) (.fin (x 3))) :=
  h.congr (forall_lt_four.mpr ⟨rfl, rfl, rfl, rfl⟩)

/-- One iteration, in exact arithmetic. -/
theorem step_run {d : Nat → Nat} {n number : Nat} (hn : n < number) {T P : Nat → ℝ} {A : Nat → Nat → ℝ}
    {st : RandState XR}
    (hT : (randomTarget (d (3 * n)) (d (3 * n + 1)) (d (3 * n + 2)) : XR × XR × XR × XR) =
      (.fin (T 0), .fin (T 1), .fin (T 2), .fin (T 3)))
    (hP : VecIs st.previous 4 fun i => .fin (P i)) (hA : MatIs st.attitudes 4 number fun i j => .fin (A i j))
    (h1 : -1 < dot4 P T) (h2 : dot4 P T ≤ 1) :
    ∃ st', randomStep d n st = .ok st' ∧ VecIs st'.previous 4 (fun i => .fin (moveTo P T i)) ∧
      MatIs st'.attitudes 4 number (fun i j => .fin (if j = n then moveTo P T i else A i j)) := by
  have hz := Vec.zeros_is (F := XR) (n := 4) (by omega) (by omega)
  obtain ⟨v, ev, hv⟩ := Quat.fillq_ok hz (Ext.finite_fin (T 0)) (Ext.finite_fin (T 1))
    (Ext.finite_fin (T 2)) (Ext.finite_fin (T 3))
  have hv' : VecIs v 4 fun i => .fin (T i) :=
    hv.congr (forall_lt_four.mpr ⟨rfl, rfl, rfl, rfl⟩)
  have ed : ∑ i ∈ range 4, T i * P i = dot4 P T := sum_congr rfl fun i _ => mul_comm _ _
  have eac : Scalar.acos (.fin (dot4 P T) : XR) = .fin (Real.arccos (dot4 P T)) := Ext.acos_fin ⟨h1.le, h2⟩
  have habs : Scalar.abs (.fin (Real.arccos (dot4 P T)) : XR) = .fin (Real.arccos (dot4 P T)) := by
    rw [Ext.abs_fin, if_pos (Real.arccos_nonneg _)]
  -- storing a column
  have store : ∀ (x : Nat → ℝ), ∃ m1, exec st.attitudes (Mat.setElement 0 n (.fin (x 0))) = .ok m1 ∧
      ∃ m2, exec m1 (Mat.setElement 1 n (.fin (x 1))) = .ok m2 ∧
      ∃ m3, exec m2 (Mat.setElement 2 n (.fin (x 2))) = .ok m3 ∧
      ∃ m4, exec m3 (Mat.setElement 3 n (.fin (x 3))) = .ok m4 ∧
        MatIs m4 4 number (fun i j => .fin (if j = n then x i else A i j)) := by
    intro x
    obtain ⟨m1, e1, k1⟩ := hA.exec_put (x 0) (i := 0) (j := n) (by omega) hn
    obtain ⟨m2, e2, k2⟩ := k1.exec_put (x 1) (i := 1) (j := n) (by omega) hn
    obtain ⟨m3, e3, k3⟩ := k2.exec_put (x 2) (i := 2) (j := n) (by omega) hn
    obtain ⟨m4, e4, k4⟩ := k3.exec_put (x 3) (i := 3) (j := n) (by omega) hn
    refine ⟨m1, e1, m2, e2, m3, e3, m4, e4, k4.congr fun i j hi _ => ?_⟩
    congr 1
    by_cases hj : j = n
    · subst hj
      have : i = 0 ∨ i = 1 ∨ i = 2 ∨ i = 3 := by omega
      rcases this with rfl | rfl | rfl | rfl <;> simp
    · simp [hj]
  by_cases hc : maxStep < Real.arccos (dot4 P T)
  · have hθ : 0 < Real.arccos (dot4 P T) := maxStep_pos.trans hc
    have hlt : dot4 P T < 1 := by
      rcases h2.lt_or_eq with h | h
      · exact h
      · rw [h, Real.arccos_one] at hθ; exact absurd hθ (lt_irrefl _)
    have ha0 : 0 ≤ maxStep / Real.arccos (dot4 P T) := by
      exact div_nonneg maxStep_pos.le hθ.le
    have ha1 : maxStep / Real.arccos (dot4 P T) ≤ 1 := (div_le_one hθ).mpr hc.le
    obtain ⟨hsin, s', es, hs⟩ := slerp_run hz hP hv' ha0 ha1 (show -1 < ∑ i ∈ range 4, P i * T i ∧ _ from ⟨h1, hlt⟩)
      (θ := Real.arccos (dot4 P T)) rfl
    have hs' : VecIs s' 4 fun i => .fin (moveTo P T i) := by
      refine hs.congr fun i _ => ?_
      unfold moveTo
      rw [if_pos hc]
      congr 4
      · field_simp
      · field_simp
    obtain ⟨p', ep, hp⟩ := Vec.exec_of_stores (Vec.copyFrom_stores hP hs') hP (fun i _ => Ext.finite_fin _)
    obtain ⟨m1, e1, m2, e2, m3, e3, m4, e4, hm⟩ := store (moveTo P T)
    refine ⟨⟨m4, p'⟩, ?_, hp, hm⟩
    have q := seq4_of _ hs'
    unfold randomStep
    simp only [hT, Vec.init_new (F := XR) (n := 4) (by omega) (by omega), Res.ok_bind, exec_ok ev,
      dot_fin hv' hP, ed, eac, habs, maxStep_eq, Ext.lt_fin, hc, decide_true, if_true, Ext.div_fin _ hθ.ne',
      exec_ok es, Quat.getQw_eq q, Quat.getQx_eq q, Quat.getQy_eq q, Quat.getQz_eq q, ep, e1, e2, e3, e4]
  · have em : ∀ i, moveTo P T i = T i := fun i => by unfold moveTo; rw [if_neg hc]
    obtain ⟨p', ep, hp⟩ := Vec.exec_of_stores (Vec.copyFrom_stores hP hv') hP (fun i _ => Ext.finite_fin _)
    obtain ⟨m1, e1, m2, e2, m3, e3, m4, e4, hm⟩ := store T
    refine ⟨⟨m4, p'⟩, ?_, hp.congr fun i _ => by rw [em], hm.congr fun i j _ _ => by rw [em]⟩
    unfold randomStep
    simp only [hT, Vec.init_new (F := XR) (n := 4) (by omega) (by omega), Res.ok_bind, exec_ok ev,
      dot_fin hv' hP, ed, eac, habs, maxStep_eq, Ext.lt_fin, hc, decide_false, Bool.false_eq_true, if_false,
      ep, e1, e2, e3, e4]

/-- The target of one iteration, in exact arithmetic. -/
noncomputable def target (d1 d2 d3 : Nat) : Nat → ℝ :=
  let u1 : ℝ := (d1 / (2 ^ 64 - 1) : Nat)
  let t1 : ℝ := 2 * (3141592653589793 / 1000000000000000) * (d2 / (2 ^ 64 - 1) : Nat)
  let t2 : ℝ := 2 * (3141592653589793 / 1000000000000000) * (d3 / (2 ^ 64 - 1) : Nat)
  seq4 (√u1 * Real.cos t2) (√(1 - u1) * Real.sin t1) (√(1 - u1) * Real.cos t1) (√u1 * Real.sin t2)

theorem quotient {d : Nat} (h : d < 2 ^ 64) : d / (2 ^ 64 - 1) = 0 ∨ d / (2 ^ 64 - 1) = 1 := by omega

theorem target_eq {d1 : Nat} (d2 d3 : Nat) (h : d1 < 2 ^ 64) :
    (randomTarget d1 d2 d3 : XR × XR × XR × XR) =
      (.fin (target d1 d2 d3 0), .fin (target d1 d2 d3 1), .fin (target d1 d2 d3 2), .fin (target d1 d2 d3 3)) := by
  have hu : (0 : ℝ) ≤ 1 - ((d1 / (2 ^ 64 - 1) : Nat) : ℝ) := by
    rcases quotient h with h | h <;> rw [h] <;> norm_num
  have e1 : ∀ x : ℝ, Scalar.cos (.fin x : XR) = .fin (Real.cos x) := fun _ => rfl
  have e2 : ∀ x : ℝ, Scalar.sin (.fin x : XR) = .fin (Real.sin x) := fun _ => rfl
  have e3 : ∀ x : ℝ, 0 ≤ x → Scalar.sqrt (.fin x : XR) = .fin (√x) := fun _ h => Ext.sqrt_fin h
  unfold randomTarget PI
  simp only [Ext.lit_eq, Ext.mul_fin, Ext.sub_fin, e1, e2, Rat.cast_natCast, Rat.cast_one, e3 _ hu,
    e3 _ (Nat.cast_nonneg _)]
  unfold target
  simp only [seq4]
  push_cast
  rfl

/-- What every attitude of the sequence has in common. -/
structure Upright (x : Nat → ℝ) : Prop where
  unit : dot4 x x = 1
  w : 0 ≤ x 0
  y : 0 ≤ x 2
  some : 0 < x 0 + x 2

theorem cos_two_pi' : 0 < Real.cos (2 * (3141592653589793 / 1000000000000000)) := by
  have h : |2 * Real.pi - 2 * (3141592653589793 / 1000000000000000)| < 1 := by
    have h1 := Real.pi_gt_d6
    have h2 := Real.pi_lt_d6
    rw [abs_lt]; constructor <;> linarith
  have e : Real.cos (2 * (3141592653589793 / 1000000000000000)) =
      Real.cos (2 * Real.pi - 2 * (3141592653589793 / 1000000000000000)) := by
    rw [Real.cos_two_pi_sub]
  rw [e]
  obtain ⟨h1, h2⟩ := abs_lt.mp h
  exact Real.cos_pos_of_mem_Ioo ⟨by linarith [Real.pi_gt_three], by linarith [Real.pi_gt_three]⟩

theorem target_upright {d1 d2 d3 : Nat} (h1 : d1 < 2 ^ 64) (h2 : d2 < 2 ^ 64) (h3 : d3 < 2 ^ 64) :
    Upright (target d1 d2 d3) := by
  have hc := cos_two_pi'
  have hs := Real.sin_sq_add_cos_sq (2 * (3141592653589793 / 1000000000000000))
  unfold target
  rcases quotient h1 with e1 | e1 <;> rcases quotient h2 with e2 | e2 <;> rcases quotient h3 with e3 | e3 <;>
    rw [e1, e2, e3] <;>
    refine ⟨?_, ?_, ?_, ?_⟩ <;> simp [dot4, sum_range_succ, seq4, hc.le] <;> first | exact hc | nlinarith

/-- Unit vectors of this kind are never opposite. -/
theorem Upright.dot {x y : Nat → ℝ} (hx : Upright x) (hy : Upright y) : -1 < dot4 x y ∧ dot4 x y ≤ 1 := by
  have a := hx.unit
  have b := hy.unit
  simp only [dot4, sum_range_succ, sum_range_zero, zero_add] at a b ⊢
  constructor
  · by_contra hcon
    push Not at hcon
    have h0 : (x 0 + y 0) ^ 2 + (x 1 + y 1) ^ 2 + (x 2 + y 2) ^ 2 + (x 3 + y 3) ^ 2 ≤ 0 := by nlinarith
    have h1 : x 0 + y 0 = 0 := by nlinarith [sq_nonneg (x 0 + y 0), sq_nonneg (x 1 + y 1), sq_nonneg (x 2 + y 2), sq_nonneg (x 3 + y 3)]
    have h2 : x 2 + y 2 = 0 := by nlinarith [sq_nonneg (x 0 + y 0), sq_nonneg (x 1 + y 1), sq_nonneg (x 2 + y 2), sq_nonneg (x 3 + y 3)]
    have := hx.some
    have := hx.w; have := hx.y; have := hy.w; have := hy.y
    linarith
  · nlinarith [sq_nonneg (x 0 - y 0), sq_nonneg (x 1 - y 1), sq_nonneg (x 2 - y 2), sq_nonneg (x 3 - y 3)]

/-- A move keeps the kind and is at most `maxStep` long. -/
theorem Upright.move {P T : Nat → ℝ} (hP : Upright P) (hT : Upright T) :
    Upright (moveTo P T) ∧ Real.cos maxStep ≤ dot4 P (moveTo P T) := by
  obtain ⟨h1, h2⟩ := hP.dot hT
  by_cases hc : maxStep < Real.arccos (dot4 P T)
  · have hpos := maxStep_pos
    set θ := Real.arccos (dot4 P T) with hθ
    have hcos : dot4 P T = Real.cos θ := by rw [hθ, Real.cos_arccos h1.le h2]
    have hpi : θ < Real.pi := by
      rcases (Real.arccos_le_pi (dot4 P T)).lt_or_eq with h | h
      · exact h
      · rw [← hθ] at h; rw [h, Real.cos_pi] at hcos; linarith
    have hsin : 0 < Real.sin θ := Real.sin_pos_of_pos_of_lt_pi (hpos.trans hc) hpi
    have hs1 : 0 < Real.sin (θ - maxStep) := Real.sin_pos_of_pos_of_lt_pi (by linarith) (by linarith)
    have hs2 : 0 < Real.sin maxStep := Real.sin_pos_of_pos_of_lt_pi hpos (by linarith)
    have em : ∀ i, moveTo P T i = (Real.sin (θ - maxStep) * P i + Real.sin maxStep * T i) / Real.sin θ :=
      fun i => by unfold moveTo; rw [if_pos hc]
    have a := hP.unit
    have b := hT.unit
    have e : Real.sin (θ - maxStep) = Real.sin θ * Real.cos maxStep - Real.cos θ * Real.sin maxStep :=
      Real.sin_sub _ _
    have c1 := Real.sin_sq_add_cos_sq θ
    have c2 := Real.sin_sq_add_cos_sq maxStep
    refine ⟨⟨?_, ?_, ?_, ?_⟩, ?_⟩
    · simp only [dot4, em, sum_range_succ, sum_range_zero, zero_add] at a b hcos ⊢
      have : ∀ i, (Real.sin (θ - maxStep) * P i + Real.sin maxStep * T i) / Real.sin θ *
          ((Real.sin (θ - maxStep) * P i + Real.sin maxStep * T i) / Real.sin θ) =
          (Real.sin (θ - maxStep) * P i + Real.sin maxStep * T i) ^ 2 / Real.sin θ ^ 2 := fun i => by
        rw [div_mul_div_comm, sq, sq]
      simp only [this]
      rw [← add_div, ← add_div, ← add_div, div_eq_one_iff_eq (by positivity)]
      have k : (Real.sin (θ - maxStep) * P 0 + Real.sin maxStep * T 0) ^ 2 +
          (Real.sin (θ - maxStep) * P 1 + Real.sin maxStep * T 1) ^ 2 +
          (Real.sin (θ - maxStep) * P 2 + Real.sin maxStep * T 2) ^ 2 +
          (Real.sin (θ - maxStep) * P 3 + Real.sin maxStep * T 3) ^ 2 =
          Real.sin (θ - maxStep) ^ 2 + 2 * Real.sin (θ - maxStep) * Real.sin maxStep * Real.cos θ +
            Real.sin maxStep ^ 2 := by
        linear_combination Real.sin (θ - maxStep) ^ 2 * a + Real.sin maxStep ^ 2 * b +
          2 * Real.sin (θ - maxStep) * Real.sin maxStep * hcos
      rw [k, e]
      linear_combination Real.sin θ ^ 2 * c2 - Real.sin maxStep ^ 2 * c1
    · rw [em]; exact div_nonneg (add_nonneg (mul_nonneg hs1.le hP.w) (mul_nonneg hs2.le hT.w)) hsin.le
    · rw [em]; exact div_nonneg (add_nonneg (mul_nonneg hs1.le hP.y) (mul_nonneg hs2.le hT.y)) hsin.le
    · rw [em, em, ← add_div]
      refine div_pos ?_ hsin
      have p1 := mul_pos hs1 hP.some
      have p2 := mul_pos hs2 hT.some
      nlinarith
    · refine le_of_eq ?_
      simp only [dot4, em, sum_range_succ, sum_range_zero, zero_add] at a b hcos ⊢
      have k : P 0 * ((Real.sin (θ - maxStep) * P 0 + Real.sin maxStep * T 0) / Real.sin θ) +
          P 1 * ((Real.sin (θ - maxStep) * P 1 + Real.sin maxStep * T 1) / Real.sin θ) +
          P 2 * ((Real.sin (θ - maxStep) * P 2 + Real.sin maxStep * T 2) / Real.sin θ) +
          P 3 * ((Real.sin (θ - maxStep) * P 3 + Real.sin maxStep * T 3) / Real.sin θ) =
          (Real.sin (θ - maxStep) + Real.sin maxStep * Real.cos θ) / Real.sin θ := by
        rw [eq_div_iff hsin.ne']
        field_simp
        linear_combination Real.sin (θ - maxStep) * a + Real.sin maxStep * hcos
      rw [k, e, eq_div_iff hsin.ne']
      ring
  · have em : moveTo P T = T := funext fun i => by unfold moveTo; rw [if_neg hc]
    rw [em]
    refine ⟨hT, ?_⟩
    push Not at hc
    have := Real.cos_le_cos_of_nonneg_of_le_pi (Real.arccos_nonneg (dot4 P T))
      (by linarith [maxStep_lt, Real.pi_gt_three]) hc
    rwa [Real.cos_arccos h1.le h2] at this

/-- The attitudes of the sequence: `attitude d n` is the one before iteration `n`. -/
noncomputable def attitude (d : Nat → Nat) : Nat → Nat → ℝ
  | 0 => seq4 1 0 0 0
  | n + 1 => moveTo (attitude d n) (target (d (3 * n)) (d (3 * n + 1)) (d (3 * n + 2)))

theorem attitude_upright {d : Nat → Nat} (h : ∀ k, d k < 2 ^ 64) : ∀ n, Upright (attitude d n)
  | 0 => ⟨by simp [dot4, sum_range_succ, attitude, seq4], by simp [attitude, seq4], by simp [attitude, seq4],
      by simp [attitude, seq4]⟩
  | n + 1 => ((attitude_upright h n).move (target_upright (h _) (h _) (h _))).1

theorem generate_run {d : Nat → Nat} (h : ∀ k, d k < 2 ^ 64) {number : Nat} (h1 : 1 ≤ number) (h4 : number ≤ 4) :
    ∃ A : Mat XR, generateRandomAttitudes d number = .ok A ∧
      MatIs A 4 number fun i n => .fin (attitude d (n + 1) i) := by
  obtain ⟨p, ep, hp⟩ := Aqua.identity_fin
  have hv : isValidColsNumber number = .ok () := by
    unfold isValidColsNumber N_MAX
    rw [if_neg (by omega), if_neg (by omega)]
  obtain ⟨st, es, -, hm⟩ := foldRange_inv (randomStep d)
    (fun n st => VecIs (F := XR) st.previous 4 (fun i => .fin (attitude d n i)) ∧
      MatIs st.attitudes 4 number fun i j => .fin (if j < n then attitude d (j + 1) i else 0))
    0 number (by omega) ⟨Mat.zeros 4 number, p⟩
    ⟨hp, (Mat.zeros_is (by omega) (by omega) h1 h4).congr fun i j _ _ => by simp⟩
    (by
      rintro n st - hn ⟨k1, k2⟩
      have hT := target_upright (h (3 * n)) (h (3 * n + 1)) (h (3 * n + 2))
      obtain ⟨a1, a2⟩ := (attitude_upright h n).dot hT
      obtain ⟨st', e, b1, b2⟩ := step_run hn (target_eq _ _ (h (3 * n))) k1 k2 a1 a2
      refine ⟨st', e, b1, b2.congr fun i j _ _ => ?_⟩
      congr 1
      by_cases hj : j = n
      · subst hj; simp [attitude]
      · have : j < n + 1 ↔ j < n := by omega
        simp only [hj, if_false, this])
  refine ⟨st.attitudes, ?_, hm.congr fun i j _ hj => by rw [if_pos hj]⟩
  unfold generateRandomAttitudes
  simp only [hv, Res.ok_bind, Mat.init_new (F := XR) (r := 4) (by omega) (by omega) h1 h4,
    Vec.init_new (F := XR) (n := 4) (by omega) (by omega), ep, es]

/-- C61: whatever the random source, one to four attitudes are produced, each a unit quaternion at an
angle of at most `PI / 64` from the one before, the first from the identity. -/
theorem C61_unit {d : Nat → Nat} (h : ∀ k, d k < 2 ^ 64) {number : Nat} (h1 : 1 ≤ number) (h4 : number ≤ 4) :
    ∃ (A : Mat XR) (x : Nat → Nat → ℝ), generateRandomAttitudes d number = .ok A ∧
      MatIs A 4 number (fun i n => .fin (x n i)) ∧
      (∀ n, n < number → ∑ i ∈ range 4, x n i ^ 2 = 1) ∧
      Real.cos maxStep ≤ x 0 0 ∧
      ∀ n, n + 1 < number → Real.cos maxStep ≤ ∑ i ∈ range 4, x n i * x (n + 1) i := by
  obtain ⟨A, e, hA⟩ := generate_run h h1 h4
  refine ⟨A, fun n => attitude d (n + 1), e, hA, fun n _ => ?_, ?_, fun n _ => ?_⟩
  · rw [← (attitude_upright h (n + 1)).unit]
    exact sum_congr rfl fun i _ => sq _
  · have := ((attitude_upright h 0).move (target_upright (h 0) (h 1) (h 2))).2
    simpa [dot4, sum_range_succ, attitude, seq4] using this
  · exact ((attitude_upright h (n + 1)).move (target_upright (h _) (h _) (h _))).2

/-- C61: unless the source draws `u64::MAX`, attitude number `n` is the rotation about `y` by
`(n + 1)·PI/32`: nothing about the sequence is random. -/
theorem C61_values {d : Nat → Nat} (h : ∀ k, d k < 2 ^ 64 - 1) {number : Nat} (h1 : 1 ≤ number)
    (h4 : number ≤ 4) :
    ∃ A : Mat XR, generateRandomAttitudes d number = .ok A ∧
      MatIs A 4 number fun i n => .fin (seq4 (Real.cos ((n + 1) * maxStep)) 0 (Real.sin ((n + 1) * maxStep)) 0 i) := by
  obtain ⟨A, e, hA⟩ := generate_run (fun k => (h k).trans (by omega)) h1 h4
  have hT : ∀ n, target (d (3 * n)) (d (3 * n + 1)) (d (3 * n + 2)) = seq4 0 0 1 0 := by
    intro n
    unfold target
    simp only [Nat.div_eq_of_lt (h _)]
    simp
  have key : ∀ n : Nat, n ≤ 4 → attitude d n = seq4 (Real.cos (n * maxStep)) 0 (Real.sin (n * maxStep)) 0 := by
    intro n hn
    induction n with
    | zero => simp [attitude]
    | succ n ih =>
      have hpi := Real.pi_gt_three
      have hm := maxStep_pos
      have hm' := maxStep_lt
      have hn' : (n : ℝ) ≤ 3 := by exact_mod_cast (show n ≤ 3 by omega)
      have hlt : (n : ℝ) * maxStep ≤ 3 / 10 := by nlinarith
      have h0 : 0 ≤ (n : ℝ) * maxStep := by positivity
      have ed : dot4 (seq4 (Real.cos (n * maxStep)) 0 (Real.sin (n * maxStep)) 0) (seq4 0 0 1 0) =
          Real.sin (n * maxStep) := by
        simp [dot4, sum_range_succ, seq4]
      have ea : Real.arccos (Real.sin (n * maxStep)) = Real.pi / 2 - n * maxStep := by
        rw [← Real.cos_pi_div_two_sub, Real.arccos_cos (by linarith) (by linarith)]
      rw [attitude, hT, ih (by omega)]
      funext i
      have hc : maxStep < Real.pi / 2 - n * maxStep := by linarith
      have hs : Real.cos (n * maxStep) ≠ 0 :=
        (Real.cos_pos_of_mem_Ioo ⟨by linarith, by linarith⟩).ne'
      have e1 : Real.pi / 2 - n * maxStep - maxStep = Real.pi / 2 - (n * maxStep + maxStep) := by ring
      have e2 : ((n + 1 : ℕ) : ℝ) * maxStep = n * maxStep + maxStep := by push_cast; ring
      unfold moveTo
      rw [ed, ea, if_pos hc, Real.sin_pi_div_two_sub, e1, Real.sin_pi_div_two_sub, e2]
      rcases i with _ | _ | _ | _ | i
      · simp only [seq4]; field_simp; ring
      · simp only [seq4]; simp
      · simp only [seq4]
        rw [div_eq_iff hs, Real.sin_add, Real.cos_add]
        have := Real.sin_sq_add_cos_sq ((n : ℝ) * maxStep)
        linear_combination - Real.sin maxStep * this
      · simp only [seq4]; simp
      · simp only [seq4]; simp
  refine ⟨A, e, hA.congr fun i n _ hn => ?_⟩
  rw [key (n + 1) (by omega)]
  push_cast
  rfl

/-- Sources of both kinds exist: a constant one, whose third attitude is a rotation about `y`, and one
that draws `u64::MAX` every time. -/
example : ∃ A : Mat XR, generateRandomAttitudes (fun _ => 12345678901234567890) 4 = .ok A ∧
    A.getElement 0 2 = .ok (.fin (Real.cos (3 * maxStep))) ∧
    A.getElement 2 2 = .ok (.fin (Real.sin (3 * maxStep))) := by
  obtain ⟨A, e, hA⟩ := C61_values (d := fun _ => 12345678901234567890) (fun _ => by norm_num)
    (show 1 ≤ 4 by omega) (by omega)
  have e3 : ((2 : ℕ) : ℝ) + 1 = 3 := by norm_num
  refine ⟨A, e, ?_, ?_⟩
  · rw [hA.get 0 2 (by omega) (by omega), e3]; rfl
  · rw [hA.get 2 2 (by omega) (by omega), e3]; rfl
example : ∃ (A : Mat XR) (x : Nat → Nat → ℝ), generateRandomAttitudes (fun _ => 2 ^ 64 - 1) 3 = .ok A ∧
    MatIs A 4 3 (fun i n => .fin (x n i)) ∧ Real.cos maxStep ≤ x 0 0 := by
  obtain ⟨A, x, e, h1, -, h2, -⟩ := C61_unit (d := fun _ => 2 ^ 64 - 1) (fun _ => by norm_num)
    (show 1 ≤ 3 by omega) (by omega)
  exact ⟨A, x, e, h1, h2⟩

end Ahrs
end Verif
