import Verif.Props.RoundedTestRun

/-
C133: what the test of `open_ahrs/src/lib.rs` prints in binary32, up to the AR filter.
-/

set_option linter.unusedSectionVars false
set_option linter.unusedSimpArgs false

namespace Verif
open Scalar Finset Quaternion

variable {F : Type} [Scalar F] [R : Rounded F]

namespace AhrsTest
open Ahrs (maxStep)

/-- Column `n` of a table with three rows is near `(a, b, c)`. -/
def Col32 (G : Mat F) (n : Nat) (a b c e : ℝ) : Prop :=
  ∀ i, i < 3 → ∃ x, G.getElement i n = .ok x ∧ Apx x (seq3 a b c i) e

/-- The inclination of the field of the test. -/
noncomputable def incl : ℝ := 35 * (174533 / 10000000)

theorem lit_apx [L : Literals F] (q : ℚ) (hq : |(q : ℝ)| ≤ 100) : Apx (lit q : F) q (|(q : ℝ)| / 16777216 + rη) := by
  obtain ⟨h1, h2⟩ := L.lit_near q (hq.trans (by norm_num))
  exact ⟨h1, h2.bound⟩

/-- The acceleration and the field of the test. -/
theorem globals32 [Trig F] [L : Literals F] : ∃ (va vm : Vec F) (fa fm : Nat → F),
    exec (Vec.zeros 4) (Quat.fillq (lit 0) (lit 0) (lit 0) (lit (-981 / 100))) = .ok va ∧
    exec (Vec.zeros 4) (Quat.fillq (lit 0) (lit 48 *ᶠ Scalar.cos (lit 35 *ᶠ lit (174533 / 10000000) : F)) (lit 0)
      (Scalar.neg (lit 48) *ᶠ Scalar.sin (lit 35 *ᶠ lit (174533 / 10000000)))) = .ok vm ∧
    VecIs va 4 fa ∧ VecIs vm 4 fm ∧ (∀ i, i < 4 → Finite (fa i)) ∧ (∀ i, i < 4 → Finite (fm i)) ∧
    ‖qval fa - mkQ 0 0 0 (-981 / 100)‖ ≤ 1 / 10 ^ 6 ∧
    ‖qval fm - mkQ 0 (48 * Real.cos incl) 0 (-48 * Real.sin incl)‖ ≤ 6 / 10 ^ 5 := by
  have hη := rη_le
  have z : Apx (lit 0 : F) 0 0 := Apx.zero
  have g : Apx (lit (-981 / 100) : F) (-981 / 100) (7 / 10 ^ 7) := by
    have := lit_apx (F := F) (-981 / 100) (by norm_num [abs_le])
    rw [show (((-981 / 100 : ℚ)) : ℝ) = -981 / 100 by norm_num] at this
    refine this.mono ?_
    rw [show |(-981 / 100 : ℝ)| = 981 / 100 by rw [abs_of_neg (by norm_num)]; norm_num]
    norm_num at hη ⊢
    linarith
  have i1 : Apx (lit 35 : F) 35 0 := ⟨(L.lit_near 35 (by norm_num)).1, by
    rw [show ⟪(lit 35 : F)⟫ = 35 by exact_mod_cast L.lit_int 35 (by norm_num)]; simp⟩
  have i2 : Apx (lit 48 : F) 48 0 := ⟨(L.lit_near 48 (by norm_num)).1, by
    rw [show ⟪(lit 48 : F)⟫ = 48 by exact_mod_cast L.lit_int 48 (by norm_num)]; simp⟩
  have i3 : Apx (lit (174533 / 10000000) : F) (174533 / 10000000) (2 / 10 ^ 9) := by
    have := lit_apx (F := F) (174533 / 10000000) (by norm_num [abs_le])
    rw [show (((174533 / 10000000 : ℚ)) : ℝ) = 174533 / 10000000 by norm_num] at this
    refine this.mono ?_
    rw [show |(174533 / 10000000 : ℝ)| = 174533 / 10000000 by rw [abs_of_pos (by norm_num)]]
    norm_num at hη ⊢
    linarith
  have i4 : Apx (lit 35 *ᶠ lit (174533 / 10000000) : F) incl (2 / 10 ^ 7) := by
    refine (i1.mul i3 (A := 35) (B := 174533 / 10000000) (by norm_num) (by norm_num [abs_le]) (by norm_num)).mono ?_
    norm_num at hη ⊢
    linarith
  have c1 := Ahrs.cos_lin (M := 5 / 10 ^ 7) i4 (by norm_num)
  have c2 := Ahrs.sin_lin (M := 5 / 10 ^ 7) i4 (by norm_num)
  have d1 : Apx (lit 48 *ᶠ Scalar.cos (lit 35 *ᶠ lit (174533 / 10000000) : F)) (48 * Real.cos incl) (3 / 10 ^ 5) := by
    refine (i2.mul c1 (A := 48) (B := 1) (by norm_num) (Real.abs_cos_le_one _) (by norm_num)).mono ?_
    norm_num at hη ⊢
    linarith
  have d2 : Apx (Scalar.neg (lit 48) *ᶠ Scalar.sin (lit 35 *ᶠ lit (174533 / 10000000) : F)) (-48 * Real.sin incl) (3 / 10 ^ 5) := by
    refine (i2.neg.mul c2 (A := 48) (B := 1) (by norm_num [abs_le]) (Real.abs_sin_le_one _) (by norm_num)).mono ?_
    norm_num at hη ⊢
    linarith
  obtain ⟨va, ea, ha⟩ := Quat.fillq_ok (F := F) (Vec.zeros_is (n := 4) (by omega) (by omega)) z.1 z.1 z.1 g.1
  obtain ⟨vm, em, hm⟩ := Quat.fillq_ok (F := F) (Vec.zeros_is (n := 4) (by omega) (by omega)) z.1 d1.1 z.1 d2.1
  refine ⟨va, vm, _, _, exec_ok ea, exec_ok em, ha, hm, forall_lt_four.mpr ⟨z.1, z.1, z.1, g.1⟩,
    forall_lt_four.mpr ⟨z.1, d1.1, z.1, d2.1⟩, ?_, ?_⟩
  · simp only [qval, seq4, R.zero_val]
    rw [show mkQ 0 0 0 ⟪(lit (-981 / 100) : F)⟫ - mkQ (0 : ℝ) 0 0 (-981 / 100) =
      mkQ 0 0 0 (⟪(lit (-981 / 100) : F)⟫ - -981 / 100) by apply Quaternion.ext <;> simp, norm_mkQ]
    have := g.2
    rw [show (0 : ℝ) ^ 2 + 0 ^ 2 + 0 ^ 2 + (⟪(lit (-981 / 100) : F)⟫ - -981 / 100) ^ 2 = (⟪(lit (-981 / 100) : F)⟫ - -981 / 100) ^ 2 by ring,
      Real.sqrt_sq_eq_abs]
    exact this.trans (by norm_num)
  · simp only [qval, seq4, R.zero_val]
    have e1 := d1.2
    have e2 := d2.2
    generalize ⟪lit 48 *ᶠ Scalar.cos (lit 35 *ᶠ lit (174533 / 10000000) : F)⟫ = p at e1 ⊢
    generalize ⟪Scalar.neg (lit 48) *ᶠ Scalar.sin (lit 35 *ᶠ lit (174533 / 10000000) : F)⟫ = q at e2 ⊢
    rw [show mkQ 0 p 0 q - mkQ (0 : ℝ) (48 * Real.cos incl) 0 (-48 * Real.sin incl) =
      mkQ 0 (p - 48 * Real.cos incl) 0 (q - -48 * Real.sin incl) by apply Quaternion.ext <;> simp, norm_mkQ]
    refine Real.sqrt_le_iff.mpr ⟨by norm_num, ?_⟩
    have k1 := sq_le_sq' (abs_le.mp e1).1 (abs_le.mp e1).2
    have k2 := sq_le_sq' (abs_le.mp e2).1 (abs_le.mp e2).2
    norm_num at k1 k2 ⊢
    linarith

theorem Col32.of {G : Mat F} {k n : Nat} {g : Nat → Nat → F} (hG : MatIs G 3 k g) (hn : n < k) (hf : ∀ i, i < 3 → Finite (g i n))
    {a b c e : ℝ} (h : ‖col3 g n - mkQ 0 a b c‖ ≤ e) : Col32 G n a b c e := by
  have e0 : 0 ≤ e := (norm_nonneg _).trans h
  have hN : (⟪g 0 n⟫ - a) ^ 2 + (⟪g 1 n⟫ - b) ^ 2 + (⟪g 2 n⟫ - c) ^ 2 ≤ e ^ 2 := by
    have : ‖col3 g n - mkQ 0 a b c‖ ^ 2 = (⟪g 0 n⟫ - a) ^ 2 + (⟪g 1 n⟫ - b) ^ 2 + (⟪g 2 n⟫ - c) ^ 2 := by
      rw [quat_norm_sq]
      simp [col3]
    rw [← this]
    gcongr
  refine forall_lt_three.mpr ⟨⟨_, hG.get 0 n (by omega) hn, hf 0 (by omega), ?_⟩, ⟨_, hG.get 1 n (by omega) hn, hf 1 (by omega), ?_⟩,
    ⟨_, hG.get 2 n (by omega) hn, hf 2 (by omega), ?_⟩⟩
  · exact abs_le_of_sq_le_sq (by simp only [seq3]; nlinarith [sq_nonneg (⟪g 1 n⟫ - b), sq_nonneg (⟪g 2 n⟫ - c)]) e0
  · exact abs_le_of_sq_le_sq (by simp only [seq3]; nlinarith [sq_nonneg (⟪g 0 n⟫ - a), sq_nonneg (⟪g 2 n⟫ - c)]) e0
  · exact abs_le_of_sq_le_sq (by simp only [seq3]; nlinarith [sq_nonneg (⟪g 1 n⟫ - b), sq_nonneg (⟪g 0 n⟫ - a)]) e0

/-- A sensor turned about the second axis. -/
theorem seen32 {w q : Quaternion ℝ} {θ p r e E : ℝ} {v : Quaternion ℝ} (hq : q = mkQ 0 p 0 r) (hw : ‖w - q‖ ≤ e)
    (hv : ‖v - vec3 (yQ θ * w * star (yQ θ))‖ ≤ E) :
    ‖v - mkQ 0 (p * Real.cos (2 * θ) + r * Real.sin (2 * θ)) 0 (-p * Real.sin (2 * θ) + r * Real.cos (2 * θ))‖ ≤ E + e := by
  have e1 : mkQ 0 (p * Real.cos (2 * θ) + r * Real.sin (2 * θ)) 0 (-p * Real.sin (2 * θ) + r * Real.cos (2 * θ)) =
      vec3 (yQ θ * q * star (yQ θ)) := by rw [hq, seen_y]; rfl
  rw [e1]
  refine (norm_sub_le_norm_sub_add_norm_sub _ (vec3 (yQ θ * w * star (yQ θ))) _).trans (add_le_add hv ?_)
  rw [← vec3_sub, ← sub_mul, ← mul_sub]
  refine (vec3_norm _).trans ?_
  rw [norm_mul, norm_mul, norm_star, yQ_norm, one_mul, mul_one]
  exact hw

theorem seen_acc (θ : ℝ) : mkQ 0 (0 * Real.cos (2 * θ) + (-981 / 100) * Real.sin (2 * θ)) 0
    (-0 * Real.sin (2 * θ) + (-981 / 100) * Real.cos (2 * θ)) =
      mkQ 0 (-(981 / 100) * Real.sin (2 * θ)) 0 (-(981 / 100) * Real.cos (2 * θ)) := by
  apply Quaternion.ext <;> simp <;> ring

theorem seen_mag (ι θ : ℝ) : mkQ 0 (48 * Real.cos ι * Real.cos (2 * θ) + (-48 * Real.sin ι) * Real.sin (2 * θ)) 0
    (-(48 * Real.cos ι) * Real.sin (2 * θ) + (-48 * Real.sin ι) * Real.cos (2 * θ)) =
      mkQ 0 (48 * Real.cos (ι + 2 * θ)) 0 (-(48 * Real.sin (ι + 2 * θ))) := by
  rw [Real.cos_add, Real.sin_add]
  apply Quaternion.ext <;> simp <;> ring

theorem attE_small {n : Nat} (hn : n < 4) : attE n ≤ 5 / 10 ^ 4 := by
  have : (7 / 2 : ℝ) ^ (n + 1) ≤ (7 / 2) ^ 4 := pow_le_pow_right₀ (by norm_num) (by omega)
  unfold attE
  norm_num at this ⊢
  linarith

/-- The test up to the sensors. -/
theorem setup32 [Trig F] [Acos F] [Arcs F] [Wraps F] [Literals F] {d : Nat → Nat} (hd : ∀ k, d k < 2 ^ 64 - 1) :
    ∃ (va vm : Vec F) (A AE : Mat F) (s : Sim F) (x G C M : Nat → Nat → F),
      exec (Vec.zeros 4) (Quat.fillq (lit 0) (lit 0) (lit 0) (lit (-981 / 100))) = .ok va ∧
      exec (Vec.zeros 4) (Quat.fillq (lit 0) (lit 48 *ᶠ Scalar.cos (lit 35 *ᶠ lit (174533 / 10000000) : F)) (lit 0)
        (Scalar.neg (lit 48) *ᶠ Scalar.sin (lit 35 *ᶠ lit (174533 / 10000000)))) = .ok vm ∧
      Ahrs.generateRandomAttitudes d 4 = .ok A ∧ eulerTable A 4 = .ok AE ∧ simulate A va vm (lit (1 / 100)) 3 = .ok s ∧
      (∀ n : Nat, n < 4 → Col32 AE n 0 (2 * ((n + 1) * maxStep) * (572958 / 10000)) 0 (287 * attE n + 2 / 10 ^ 4)) ∧
      MatIs A 4 4 x ∧ (∀ i, i < 4 → Finite (x i 0)) ∧ ‖colF x 0 - yQ maxStep‖ ≤ 8 / 10 ^ 6 ∧
      MatIs s.gyr 3 3 G ∧ MatIs s.acc 3 3 C ∧ MatIs s.mag 3 3 M ∧
      ∀ n : Nat, n < 3 → (∀ i, i < 3 → Finite (G i n) ∧ Finite (C i n) ∧ Finite (M i n)) ∧
        ‖col3 G n - mkQ 0 0 (200 * Real.sin maxStep) 0‖ ≤ 105 / 10 ^ 4 * (7 / 2) ^ n ∧
        ‖col3 C n - mkQ 0 (-(981 / 100) * Real.sin (2 * ((n + 1) * maxStep))) 0
          (-(981 / 100) * Real.cos (2 * ((n + 1) * maxStep)))‖ ≤ 3 / 10 ^ 4 * (7 / 2) ^ n ∧
        ‖col3 M n - mkQ 0 (48 * Real.cos (incl + 2 * ((n + 1) * maxStep))) 0
          (-(48 * Real.sin (incl + 2 * ((n + 1) * maxStep))))‖ ≤ 151 / 10 ^ 5 * (7 / 2) ^ n := by
  obtain ⟨va, vm, fa, fm, ea, em, ha, hm, Fa, Fm, da, dm⟩ := globals32 (F := F)
  obtain ⟨a1, a2⟩ : 9 ≤ ‖qval fa‖ ∧ ‖qval fa‖ ≤ 982 / 100 := by
    have h := abs_norm_sub_norm_le (qval fa) (mkQ 0 0 0 (-981 / 100))
    have e : ‖(mkQ 0 0 0 (-981 / 100) : Quaternion ℝ)‖ = 981 / 100 := by
      rw [norm_mkQ, show (0 : ℝ) ^ 2 + 0 ^ 2 + 0 ^ 2 + (-981 / 100) ^ 2 = (981 / 100) ^ 2 by norm_num]
      exact Real.sqrt_sq (by norm_num)
    rw [e] at h
    obtain ⟨l, r⟩ := abs_le.mp (h.trans da)
    norm_num at l r
    constructor <;> linarith
  obtain ⟨m1, m2⟩ : 9 ≤ ‖qval fm‖ ∧ ‖qval fm‖ ≤ 4801 / 100 := by
    have h := abs_norm_sub_norm_le (qval fm) (mkQ 0 (48 * Real.cos incl) 0 (-48 * Real.sin incl))
    have e : ‖(mkQ 0 (48 * Real.cos incl) 0 (-48 * Real.sin incl) : Quaternion ℝ)‖ = 48 := by
      rw [norm_mkQ, show (0 : ℝ) ^ 2 + (48 * Real.cos incl) ^ 2 + 0 ^ 2 + (-48 * Real.sin incl) ^ 2 = 48 ^ 2 by
        linear_combination 48 ^ 2 * Real.sin_sq_add_cos_sq incl]
      exact Real.sqrt_sq (by norm_num)
    rw [e] at h
    obtain ⟨l, r⟩ := abs_le.mp (h.trans dm)
    norm_num at l r
    constructor <;> linarith
  obtain ⟨A, s, x, G, C, M, eA, hx, hb, eS, hG, hC, hM, hs⟩ := sim32 hd ha hm Fa Fm (a2.trans (by norm_num)) (m2.trans (by norm_num))
    (by linarith) (by linarith)
  obtain ⟨AE, g, eE, hg, hge⟩ := eulerTable32 (a := fun n => (n + 1) * maxStep) (δ := attE) hx (fun i j hi hj => (hb j hj).1 i hi)
    (fun n hn => (hb n hn).2) (fun n hn => ⟨(attE_small hn).trans (by norm_num), by
      obtain ⟨l, u⟩ := maxStep_bounds
      have hn4 : (n : ℝ) ≤ 3 := by exact_mod_cast (by omega : n ≤ 3)
      constructor
      · have : 0 < maxStep := by linarith
        positivity
      · nlinarith⟩)
  refine ⟨va, vm, A, AE, s, x, G, C, M, ea, em, eA, eE, eS, fun n hn i hi => ⟨_, hg.get i n hi hn, hge n hn i hi⟩, hx, (hb 0 (by omega)).1, ?_,
    hG, hC, hM, fun n hn => ?_⟩
  · have := (hb 0 (by omega)).2.1
    norm_num [attE] at this ⊢
    exact this
  · obtain ⟨k1, k2, k3, k4⟩ := hs n hn
    refine ⟨k1, k2, ?_, ?_⟩
    · have h := seen32 (p := 0) (r := -981 / 100) rfl da k3
      rw [seen_acc] at h
      refine h.trans ?_
      have t1 : (1 : ℝ) ≤ (7 / 2) ^ n := one_le_pow₀ (by norm_num)
      generalize ((7 / 2 : ℝ)) ^ n = t at *
      norm_num at a2 ⊢
      nlinarith
    · have h := seen32 (p := 48 * Real.cos incl) (r := -48 * Real.sin incl) rfl dm k4
      rw [seen_mag] at h
      refine h.trans ?_
      have t1 : (1 : ℝ) ≤ (7 / 2) ^ n := one_le_pow₀ (by norm_num)
      generalize ((7 / 2 : ℝ)) ^ n = t at *
      norm_num at m2 ⊢
      nlinarith

theorem sigma_bounds : 0 ≤ Real.arctan (Real.sin maxStep) ∧ Real.arctan (Real.sin maxStep) ≤ maxStep := by
  obtain ⟨l, u⟩ := maxStep_bounds
  have hs := Real.sin_nonneg_of_nonneg_of_le_pi (x := maxStep) (by linarith) (by linarith [Real.pi_gt_three])
  exact ⟨Real.arctan_nonneg.mpr hs, (arctan_le hs).trans (Real.sin_le (by linarith))⟩

/-- The angles of a table of attitudes. -/
theorem QTab.angles [Arcs F] [Wraps F] [Literals F] {T : Mat F} {k : Nat} {a δ : Nat → ℝ} (h : QTab T k k a δ)
    (hδ : ∀ n, n < k → δ n ≤ 1 / 100 ∧ 0 ≤ a n ∧ a n ≤ 1 / 5) :
    ∃ E, eulerTable T k = .ok E ∧ ∀ n, n < k → Col32 E n 0 (2 * a n * (572958 / 10000)) 0 (287 * δ n + 2 / 10 ^ 4) := by
  obtain ⟨X, hX, hb⟩ := h
  obtain ⟨E, g, eE, hg, hge⟩ := eulerTable32 hX (fun i j hi hj => (hb j hj).1 i hi) (fun n hn => (hb n hn).2) hδ
  exact ⟨E, eE, fun n hn i hi => ⟨_, hg.get i n hi hn, hge n hn i hi⟩⟩

/-- C133: what the test of the crate does in binary32 up to the AR filter, whatever the generator draws except
`u64::MAX`. The four true attitudes are printed as rotations about the second axis by `2 (n + 1)` times the maximal
step, in degrees; the three simulated readings are the rate `200 sin(step)` about the second axis, gravity and the
field turned with the sensor; and the AR filter, started at the first attitude, succeeds at every update and its angles
are printed as a rotation about the second axis that grows by `2 arctan(sin(step))` per update. All up to the stated
errors, which grow by 7/2 per sample. -/
theorem C133_ar [Trig F] [Acos F] [Arcs F] [Wraps F] [Halves F] [Literals F] {d : Nat → Nat} (hd : ∀ k, d k < 2 ^ 64 - 1) :
    ∃ (va vm : Vec F) (A AE T TE : Mat F) (s : Sim F),
      exec (Vec.zeros 4) (Quat.fillq (lit 0) (lit 0) (lit 0) (lit (-981 / 100))) = .ok va ∧
      exec (Vec.zeros 4) (Quat.fillq (lit 0) (lit 48 *ᶠ Scalar.cos (lit 35 *ᶠ lit (174533 / 10000000) : F)) (lit 0)
        (Scalar.neg (lit 48) *ᶠ Scalar.sin (lit 35 *ᶠ lit (174533 / 10000000)))) = .ok vm ∧
      Ahrs.generateRandomAttitudes d 4 = .ok A ∧ eulerTable A 4 = .ok AE ∧ simulate A va vm (lit (1 / 100)) 3 = .ok s ∧
      runAr A s.gyr (lit (1 / 100)) 3 = .ok T ∧ eulerTable T 3 = .ok TE ∧
      (∀ n : Nat, n < 4 → Col32 AE n 0 (2 * ((n + 1) * maxStep) * (572958 / 10000)) 0
        (287 * (32 / 10 ^ 7 * ((7 / 2) ^ (n + 1) - 1)) + 2 / 10 ^ 4)) ∧
      ∀ n : Nat, n < 3 → Col32 s.gyr n 0 (200 * Real.sin maxStep) 0 (105 / 10 ^ 4 * (7 / 2) ^ n) ∧
        Col32 s.acc n (-(981 / 100) * Real.sin (2 * ((n + 1) * maxStep))) 0
          (-(981 / 100) * Real.cos (2 * ((n + 1) * maxStep))) (3 / 10 ^ 4 * (7 / 2) ^ n) ∧
        Col32 s.mag n (48 * Real.cos (35 * (174533 / 10000000) + 2 * ((n + 1) * maxStep))) 0
          (-(48 * Real.sin (35 * (174533 / 10000000) + 2 * ((n + 1) * maxStep)))) (151 / 10 ^ 5 * (7 / 2) ^ n) ∧
        Col32 TE n 0 (2 * (maxStep + (n + 1) * Real.arctan (Real.sin maxStep)) * (572958 / 10000)) 0
          (287 * (5 / 10 ^ 5 * (7 / 2) ^ (n + 1)) + 2 / 10 ^ 4) := by
  obtain ⟨va, vm, A, AE, s, x, G, C, M, ea, em, eA, eE, eS, hE, hx, fx, h0, hG, hC, hM, hs⟩ := setup32 (F := F) hd
  obtain ⟨T, eT, hT⟩ := runAr32 hx fx h0 hG fun n hn => ⟨fun i hi => ((hs n hn).1 i hi).1, (hs n hn).2.1⟩
  obtain ⟨TE, eTE, hTE⟩ := hT.angles fun n hn => by
    obtain ⟨l, u⟩ := maxStep_bounds
    obtain ⟨s0, s1⟩ := sigma_bounds
    have hn2 : (n : ℝ) ≤ 2 := by exact_mod_cast (by omega : n ≤ 2)
    have hn0 : (0 : ℝ) ≤ n := Nat.cast_nonneg n
    have t : (7 / 2 : ℝ) ^ (n + 1) ≤ (7 / 2) ^ 3 := pow_le_pow_right₀ (by norm_num) (by omega)
    have m1 : ((n : ℝ) + 1) * Real.arctan (Real.sin maxStep) ≤ 3 * maxStep := mul_le_mul (by linarith) s1 s0 (by norm_num)
    refine ⟨?_, ?_, by linarith⟩
    · norm_num at t ⊢
      linarith
    · have : 0 < maxStep := by linarith
      positivity
  exact ⟨va, vm, A, AE, T, TE, s, ea, em, eA, eE, eS, eT, eTE, hE, fun n hn => ⟨.of hG hn (fun i hi => ((hs n hn).1 i hi).1) (hs n hn).2.1,
    .of hC hn (fun i hi => ((hs n hn).1 i hi).2.1) (hs n hn).2.2.1, .of hM hn (fun i hi => ((hs n hn).1 i hi).2.2) (hs n hn).2.2.2, hTE n hn⟩⟩

end AhrsTest

/-! ### A concrete case -/

/-- binary32 with accurate elementary functions. -/
def F32W : Type := F32

open Classical in
noncomputable instance : Scalar F32W :=
  F32.withLibm (fun x => if Finite x then F32.ofReal (Real.sin x.toReal) else ⟨.nan⟩)
    (fun x => if Finite x then F32.ofReal (Real.cos x.toReal) else ⟨.nan⟩)
    (fun x => if Finite x ∧ |x.toReal| ≤ 1 then F32.ofReal (Real.arccos x.toReal) else ⟨.nan⟩)
    (fun x => if Finite x ∧ |x.toReal| ≤ 1 then F32.ofReal (Real.arcsin x.toReal) else ⟨.nan⟩) Scalar.exp
    (fun y x => if Finite y ∧ Finite x then F32.ofReal (Complex.arg ⟨x.toReal, y.toReal⟩) else ⟨.nan⟩) Scalar.pow
noncomputable instance : Rounded F32W := F32.withLibm_rounded ..

instance : Trig F32W where
  cos_finite {x} hx := Trig.cos_finite (F := F32T) (x := x) hx
  sin_finite {x} hx := Trig.sin_finite (F := F32T) (x := x) hx
  cos_near {x} hx := Trig.cos_near (F := F32T) (x := x) hx
  sin_near {x} hx := Trig.sin_near (F := F32T) (x := x) hx

instance : Acos F32W where
  acos_near {x} hx h1 := Acos.acos_near (F := F32S) (x := x) hx h1

instance : Arcs F32W where
  asin_near {x} hx h1 := Arcs.asin_near (F := F32A) (x := x) hx h1
  asin_nan {x} hx h1 := Arcs.asin_nan (F := F32A) (x := x) hx h1
  atan2_near {y x} hy hx := Arcs.atan2_near (F := F32A) (y := y) (x := x) hy hx

open Classical in
instance : Wraps F32W where
  atan2_le {y x} hy hx := by
    show |F32.toReal (if Finite (y : F32) ∧ Finite (x : F32) then F32.ofReal (Complex.arg ⟨F32.toReal x, F32.toReal y⟩) else ⟨.nan⟩)| ≤ 4
    rw [if_pos ⟨hy, hx⟩]
    have hp := Real.pi_lt_d2
    have ha := Complex.abs_arg_le_pi ⟨F32.toReal x, F32.toReal y⟩
    norm_num at hp
    obtain ⟨-, k2⟩ := F32.ofReal_near_four (y := Complex.arg ⟨F32.toReal x, F32.toReal y⟩) (by linarith)
    refine (le_of_dist ha k2).trans ?_
    norm_num
    linarith

instance : Literals F32W where
  lit_near q hq := Literals.lit_near (F := F32) q hq
  lit_int n hn := Literals.lit_int (F := F32) n hn

instance : Halves F32W where
  half := Halves.half (F := F32)
  quarter := Halves.quarter (F := F32)
  three := Halves.three (F := F32)
  neg_one := Halves.neg_one (F := F32)
  div_nonneg {x y} hx hy := Halves.div_nonneg (F := F32) (x := x) (y := y) hx hy

instance : ScalarLawful F32W :=
  ⟨ScalarLawful.zero_finite (F := F32), ScalarLawful.one_finite (F := F32), ScalarLawful.eps_finite (F := F32)⟩

namespace AhrsTest

/-- With one source of draws: the last pitch the AR filter shows is 22.4 degrees up to one degree. -/
example : ∃ (A T TE : Mat F32W) (s : Sim F32W) (va vm : Vec F32W) (x : F32W),
    Ahrs.generateRandomAttitudes (fun _ => 12345678901234567890) 4 = .ok A ∧ simulate A va vm (lit (1 / 100)) 3 = .ok s ∧
    runAr A s.gyr (lit (1 / 100)) 3 = .ok T ∧ eulerTable T 3 = .ok TE ∧ TE.getElement 1 2 = .ok x ∧ |⟪x⟫ - 224 / 10| ≤ 1 := by
  obtain ⟨va, vm, A, AE, T, TE, s, -, -, eA, -, eS, eT, eTE, -, h⟩ := C133_ar (F := F32W) (d := fun _ => 12345678901234567890)
    (fun _ => by norm_num)
  obtain ⟨x, ex, -, hx⟩ := (h 2 (by omega)).2.2.2 1 (by omega)
  refine ⟨A, T, TE, s, va, vm, x, eA, eS, eT, eTE, ex, ?_⟩
  simp only [seq3] at hx
  have hs := shortfall.2
  have hs' := sigma_bounds.2
  obtain ⟨l, u⟩ := maxStep_bounds
  refine (dist_trans hx (b := 2 / 10) ?_).trans (by norm_num)
  push_cast
  rw [abs_le]
  constructor <;> linarith

end AhrsTest
end Verif
