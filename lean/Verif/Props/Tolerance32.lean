import Verif.Monotone
import Verif.Props.Predicates
import Verif.Props.RoundedLup
import Verif.Lib.Quat

/-
What the tolerance tests decide in binary32 (C128).
-/

namespace Verif
open Scalar

namespace F32

/-- A finite number of the format, as every operation delivers it. -/
def IsNumber (x : F32) : Prop := Finite x ∧ fl x.val = x

instance (x : F32) : Decidable (IsNumber x) := by unfold IsNumber; infer_instance

theorem isNumber_iff {x : F32} : IsNumber x ↔ ∃ q, x = ⟨.fin q⟩ ∧ round q = .fin q := by
  constructor
  · rintro ⟨h, e⟩
    obtain ⟨q, rfl⟩ := finite_iff.mp h
    exact ⟨q, rfl, congrArg F32.val e⟩
  · rintro ⟨q, rfl, e⟩
    exact ⟨finite_iff.mpr ⟨q, rfl⟩, congrArg F32.mk e⟩

theorem roundPos_pos {x : ℚ} (h0 : 0 < x) (h : round x = .fin x) : roundPos x = x ∧ x < pow2 128 := by
  unfold round at h
  rw [if_neg h0.ne', if_pos h0] at h
  split at h
  · rename_i h1
    have := Ext.fin.inj h
    rw [this] at h1
    exact ⟨this, h1⟩
  · cases h

theorem round_of_pos {x : ℚ} (h0 : 0 < x) (h : roundPos x = x) (h1 : x < pow2 128) : round x = .fin x := by
  unfold round
  rw [if_neg h0.ne', if_pos h0, h, if_pos h1]

theorem round_neg {x y : ℚ} (h : round x = .fin y) : round (-x) = .fin (-y) := by
  unfold round at h ⊢
  rcases lt_trichotomy x 0 with h0 | rfl | h0
  · rw [if_neg h0.ne, if_neg h0.not_gt] at h
    rw [if_neg (by linarith), if_pos (by linarith)]
    split at h
    · rename_i h1
      rw [if_pos h1, ← Ext.fin.inj h, neg_neg]
    · cases h
  · rw [if_pos rfl] at h
    rw [← Ext.fin.inj h, neg_zero, if_pos rfl]
  · rw [if_neg h0.ne', if_pos h0] at h
    rw [if_neg (by linarith), if_neg (by linarith), neg_neg]
    split at h
    · rename_i h1
      rw [if_pos h1, ← Ext.fin.inj h]
    · cases h

theorem round_abs {x : ℚ} (h : round x = .fin x) : round |x| = .fin |x| := by
  rcases abs_cases x with ⟨e, -⟩ | ⟨e, -⟩ <;> rw [e]
  · exact h
  · exact round_neg h

theorem roundPos_idem {x : ℚ} (hx : 0 < x) : roundPos (roundPos x) = roundPos x := by
  obtain ⟨n, hn⟩ : ∃ n, n = nearest (x / ulp x) := ⟨_, rfl⟩
  have u0 := ulp_pos x
  have n0 : 0 ≤ n := hn ▸ nearest_nonneg (by positivity)
  have n1 : n ≤ 2 ^ 24 := by
    have h2 : x / ulp x ≤ ((2 ^ 24 : ℤ) : ℚ) := by
      rw [div_le_iff₀ u0]
      push_cast
      exact (lt_ulp hx).le
    have := nearest_mono h2
    rwa [nearest_int, ← hn] at this
  have e : roundPos x = n * 2 ^ max (expo x - 23) (-149) := by rw [← ulp_eq, hn]; rfl
  rw [e]
  rcases eq_or_lt_of_le n0 with h | h
  · rw [← h]
    simp [roundPos]
    left
    exact nearest_int 0
  · rcases eq_or_lt_of_le n1 with h' | h'
    · have : ((n : ℤ) : ℚ) * 2 ^ max (expo x - 23) (-149) = ((2 ^ 23 : ℤ) : ℚ) * 2 ^ (max (expo x - 23) (-149) + 1) := by
        rw [h', zpow_add₀ (by norm_num)]
        norm_num
        ring
      rw [this]
      exact roundPos_mul (by norm_num) (by norm_num) (by have := le_max_right (expo x - 23) (-149); omega)
    · exact roundPos_mul h h' (le_max_right _ _)

theorem round_idem {x y : ℚ} (h : round x = .fin y) : round y = .fin y := by
  have key : ∀ {x y : ℚ}, 0 < x → round x = .fin y → round y = .fin y := by
    intro x y h0 h
    unfold round at h
    rw [if_neg h0.ne', if_pos h0] at h
    split at h
    · rename_i h1
      have e := Ext.fin.inj h
      rw [← e]
      rcases eq_or_lt_of_le (roundPos_nonneg h0) with h2 | h2
      · rw [← h2]; rfl
      · exact round_of_pos h2 (roundPos_idem h0) h1
    · cases h
  rcases lt_trichotomy x 0 with h0 | rfl | h0
  · have := round_neg (key (by linarith : 0 < -x) (round_neg h))
    rwa [neg_neg] at this
  · unfold round at h
    rw [if_pos rfl] at h
    rw [← Ext.fin.inj h]
    rfl
  · exact key h0 h

/-- Every finite result is a number of the format. -/
theorem fl_number {z : Ext ℚ} (h : Finite (fl z)) : IsNumber (fl z) := by
  rcases z with q | _ | _ | _
  · obtain ⟨y, hy⟩ := finite_iff.mp h
    have e : round q = .fin y := congrArg F32.val hy
    rw [hy]
    exact isNumber_iff.mpr ⟨y, rfl, round_idem e⟩
  all_goals exact absurd h (by decide +kernel)

/-- A result is not larger than a number that the exact result does not exceed. -/
theorem round_le {z d : ℚ} (hd : round d = .fin d) (h : |z| ≤ d) : ∃ y, round z = .fin y ∧ |y| ≤ d := by
  have key : ∀ {z : ℚ}, 0 < z → z ≤ d → ∃ y, round z = .fin y ∧ |y| ≤ d := by
    intro z z0 h
    obtain ⟨k1, k2⟩ := roundPos_pos (z0.trans_le h) hd
    have hm := roundPos_mono z0 h
    rw [k1] at hm
    refine ⟨roundPos z, ?_, ?_⟩
    · unfold round
      rw [if_neg z0.ne', if_pos z0, if_pos (hm.trans_lt k2)]
    · rwa [abs_of_nonneg (roundPos_nonneg z0)]
  rcases lt_trichotomy z 0 with h0 | rfl | h0
  · obtain ⟨y, k1, k2⟩ := key (z := -z) (by linarith) (by rwa [abs_of_neg h0] at h)
    refine ⟨-y, ?_, by rwa [abs_neg]⟩
    have := round_neg k1
    rwa [neg_neg] at this
  · exact ⟨0, rfl, by rwa [abs_zero] at *⟩
  · exact key h0 (by rwa [abs_of_pos h0] at h)

/-- A result is not smaller than a number that the exact result reaches. -/
theorem le_round {z d y : ℚ} (d0 : 0 < d) (hd : round d = .fin d) (h : d ≤ |z|) (hz : round z = .fin y) : d ≤ |y| := by
  have key : ∀ {z y : ℚ}, d ≤ z → round z = .fin y → d ≤ |y| := by
    intro z y h hz
    have z0 := d0.trans_le h
    have hm := roundPos_mono d0 h
    rw [(roundPos_pos d0 hd).1] at hm
    unfold round at hz
    rw [if_neg z0.ne', if_pos z0] at hz
    split at hz
    · rw [← Ext.fin.inj hz]
      exact hm.trans (le_abs_self _)
    · cases hz
  rcases abs_cases z with ⟨e, -⟩ | ⟨e, -⟩ <;> rw [e] at h
  · exact key h hz
  · have := key h (round_neg hz)
    rwa [abs_neg] at this

/-- The difference of two numbers is exact when they are near each other. -/
theorem round_sub {x y : ℚ} (hx : round x = .fin x) (hy : round y = .fin y) (h : 2 * |x - y| ≤ |x|) : round (x - y) = .fin (x - y) := by
  have key : ∀ {x y : ℚ}, 0 < y → y < x → x ≤ 2 * y → round x = .fin x → round y = .fin y → round (x - y) = .fin (x - y) := by
    intro x y y0 h1 h2 hx hy
    obtain ⟨k1, k2⟩ := roundPos_pos (y0.trans h1) hx
    exact round_of_pos (by linarith) (roundPos_sub y0 k1 (roundPos_pos y0 hy).1 h1 h2) (by linarith)
  have pos : ∀ {x y : ℚ}, 0 < x → round x = .fin x → round y = .fin y → 2 * |x - y| ≤ x → round (x - y) = .fin (x - y) := by
    intro x y x0 hx hy h
    rcases lt_trichotomy x y with h1 | rfl | h1
    · rw [abs_of_neg (by linarith)] at h
      have := round_neg (key x0 h1 (by linarith) hy hx)
      rwa [neg_sub] at this
    · rw [sub_self]; rfl
    · rw [abs_of_pos (by linarith)] at h
      exact key (by linarith) h1 (by linarith) hx hy
  rcases lt_trichotomy x 0 with h0 | rfl | h0
  · rw [abs_of_neg h0] at h
    have := round_neg (pos (x := -x) (y := -y) (by linarith) (round_neg hx) (round_neg hy)
      (by rw [show -x - -y = -(x - y) by ring, abs_neg]; exact h))
    rwa [show -(-x - -y) = x - y by ring] at this
  · have : |0 - y| ≤ 0 := by rw [abs_zero] at h; linarith
    have : 0 - y = 0 := abs_nonpos_iff.mp this
    rw [this]; rfl
  · rw [abs_of_pos h0] at h
    exact pos h0 hx hy h

/-- A number is a multiple of the smallest number, and a large one of a larger power of two. -/
theorem number_mul {x : ℚ} (h : round x = .fin x) {m : ℤ} (hm : m ≤ -149 ∨ (2 : ℚ) ^ (m + 23) ≤ |x|) : ∃ k : ℤ, x = k * 2 ^ m := by
  have key : ∀ {x : ℚ}, 0 < x → round x = .fin x → (m ≤ -149 ∨ (2 : ℚ) ^ (m + 23) ≤ x) → ∃ k : ℤ, x = k * 2 ^ m := by
    intro x h0 h hm
    obtain ⟨n, hn⟩ := mul_ulp (roundPos_pos h0 h).1
    have hm' : m ≤ max (expo x - 23) (-149) := by
      rcases hm with hm | hm
      · exact hm.trans (le_max_right _ _)
      · have h1 := lt_pow2_expo h0
        rw [pow2_eq] at h1
        have := (zpow_lt_zpow_iff_right₀ (by norm_num : (1 : ℚ) < 2)).mp (hm.trans_lt h1)
        exact le_trans (by omega) (le_max_left _ _)
    rw [ulp_eq] at hn
    obtain ⟨j, hj⟩ := Int.eq_ofNat_of_zero_le (show 0 ≤ max (expo x - 23) (-149) - m by omega)
    refine ⟨n * 2 ^ j, ?_⟩
    rw [show max (expo x - 23) (-149) = (j : ℤ) + m by omega, zpow_add₀ (by norm_num)] at hn
    push_cast
    rw [zpow_natCast] at hn
    linarith
  rcases lt_trichotomy x 0 with h0 | rfl | h0
  · rw [abs_of_neg h0] at hm
    obtain ⟨k, hk⟩ := key (by linarith : 0 < -x) (round_neg h) hm
    exact ⟨-k, by push_cast; linarith⟩
  · exact ⟨0, by simp⟩
  · rw [abs_of_pos h0] at hm
    exact key h0 h hm

/-- A small multiple of the smallest number is a number. -/
theorem round_small {k : ℤ} (h : |k| < 2 ^ 24) : round (k * 2 ^ (-149 : ℤ)) = .fin (k * 2 ^ (-149 : ℤ)) := by
  have key : ∀ {k : ℤ}, 0 < k → k < 2 ^ 24 → round (k * 2 ^ (-149 : ℤ)) = .fin (k * 2 ^ (-149 : ℤ)) := by
    intro k h0 h1
    have kp : (0 : ℚ) < k := by exact_mod_cast h0
    have hk : (k : ℚ) < 2 ^ 24 := by exact_mod_cast h1
    refine round_of_pos (by positivity) (roundPos_mul h0 h1 le_rfl) ?_
    rw [pow2_eq]
    norm_num at hk ⊢
    linarith
  rcases lt_trichotomy k 0 with h0 | rfl | h0
  · have := round_neg (key (k := -k) (by omega) (by rwa [abs_of_neg h0] at h))
    push_cast at this
    rwa [neg_mul, neg_neg] at this
  · simp; rfl
  · exact key h0 (by rwa [abs_of_pos h0] at h)

end F32

open F32

theorem abs_ite (z : ℚ) : (if 0 ≤ z then z else -z) = |z| := by
  split
  · rw [abs_of_nonneg ‹_›]
  · rw [abs_of_neg (not_le.mp ‹_›)]

theorem close32 {x y d : ℚ} : Close (⟨.fin x⟩ : F32) ⟨.fin y⟩ ⟨.fin d⟩ ↔ ∃ z, F32.round (x - y) = .fin z ∧ |z| ≤ d := by
  unfold Close
  rw [F32.sub_eq]
  show (Scalar.le (Scalar.abs (F32.round (x - y)) : Ext ℚ) (.fin d) = true) ↔ _
  rcases F32.round (x - y) with z | _ | _ | _
  · constructor
    · intro h
      rw [Ext.abs_fin, Ext.le_fin, abs_ite] at h
      exact ⟨z, rfl, of_decide_eq_true h⟩
    · rintro ⟨z', e, h⟩
      obtain rfl := Ext.fin.inj e
      rw [Ext.abs_fin, Ext.le_fin, abs_ite]
      exact decide_eq_true h
  all_goals
    constructor
    · intro h; cases h
    · rintro ⟨_, e, -⟩; cases e

section
variable {x y d : F32}

theorem abs_val (a b : ℚ) : |F32.toReal ⟨.fin a⟩ - F32.toReal ⟨.fin b⟩| = ((|a - b| : ℚ) : ℝ) := by
  rw [F32.toReal_fin, F32.toReal_fin]; push_cast; rfl

/-- Numbers that differ by at most the tolerance pass the test. -/
theorem close_of_le (hx : Finite x) (hy : Finite y) (hd : F32.IsNumber d) (h : |⟪x⟫ - ⟪y⟫| ≤ ⟪d⟫) : Close x y d := by
  obtain ⟨a, rfl⟩ := F32.finite_iff.mp hx
  obtain ⟨b, rfl⟩ := F32.finite_iff.mp hy
  obtain ⟨e, rfl, he⟩ := F32.isNumber_iff.mp hd
  have h' : |a - b| ≤ e := by
    have k : |F32.toReal ⟨.fin a⟩ - F32.toReal ⟨.fin b⟩| ≤ F32.toReal ⟨.fin e⟩ := h
    rw [abs_val, F32.toReal_fin] at k
    exact_mod_cast k
  exact close32.mpr (F32.round_le he h')

/-- Numbers that pass the test differ by little more than the tolerance. -/
theorem le_of_close (hx : Finite x) (hy : Finite y) (hd : Finite d) (h : Close x y d) :
    |⟪x⟫ - ⟪y⟫| ≤ ⟪d⟫ + ⟪d⟫ / 2 ^ 23 + 1 / 2 ^ 149 := by
  obtain ⟨a, rfl⟩ := F32.finite_iff.mp hx
  obtain ⟨b, rfl⟩ := F32.finite_iff.mp hy
  obtain ⟨e, rfl⟩ := F32.finite_iff.mp hd
  obtain ⟨z, h1, h2⟩ := close32.mp h
  have hz : |z - (a - b)| ≤ |a - b| / 2 ^ 24 + 1 / 2 ^ 150 := by
    rcases F32.round_cases (a - b) with ⟨y, k1, k2, -⟩ | ⟨k1, -⟩ | ⟨k1, -⟩
    · rw [k1] at h1
      rwa [Ext.fin.inj h1] at k2
    · rw [k1] at h1; cases h1
    · rw [k1] at h1; cases h1
  have h3 : |a - b| ≤ |z| + |z - (a - b)| := by
    have := abs_sub_abs_le_abs_sub (a - b) z
    rw [abs_sub_comm (a - b) z] at this
    linarith
  have h4 : |a - b| ≤ e + e / 2 ^ 23 + 1 / 2 ^ 149 := by
    have k0 := abs_nonneg z
    obtain ⟨t, ht⟩ : ∃ t, t = |a - b| := ⟨_, rfl⟩
    rw [← ht] at hz h3 ⊢
    obtain ⟨w, hw⟩ : ∃ w, w = |z| := ⟨_, rfl⟩
    rw [← hw] at h2 h3 k0
    clear h1 ht hw
    norm_num at *
    linarith
  show |F32.toReal ⟨.fin a⟩ - F32.toReal ⟨.fin b⟩| ≤ F32.toReal ⟨.fin e⟩ + F32.toReal ⟨.fin e⟩ / 2 ^ 23 + 1 / 2 ^ 149
  rw [abs_val, F32.toReal_fin]
  have : ((|a - b| : ℚ) : ℝ) ≤ ((e + e / 2 ^ 23 + 1 / 2 ^ 149 : ℚ) : ℝ) := Rat.cast_le.mpr h4
  push_cast at this ⊢
  exact this

/-- When one of the numbers is three times the tolerance the test is exact. -/
theorem close_iff (hx : F32.IsNumber x) (hy : F32.IsNumber y) (hd : F32.IsNumber d) (h : 3 * ⟪d⟫ ≤ |⟪x⟫|) :
    Close x y d ↔ |⟪x⟫ - ⟪y⟫| ≤ ⟪d⟫ := by
  refine ⟨fun hc => ?_, close_of_le hx.1 hy.1 hd⟩
  obtain ⟨a, rfl, ha⟩ := F32.isNumber_iff.mp hx
  obtain ⟨b, rfl, hb⟩ := F32.isNumber_iff.mp hy
  obtain ⟨e, rfl, he⟩ := F32.isNumber_iff.mp hd
  obtain ⟨z, h1, h2⟩ := close32.mp hc
  have h' : 3 * e ≤ |a| := by
    have k : 3 * F32.toReal ⟨.fin e⟩ ≤ |F32.toReal ⟨.fin a⟩| := h
    rw [F32.toReal_fin, F32.toReal_fin] at k
    exact_mod_cast k
  show |F32.toReal ⟨.fin a⟩ - F32.toReal ⟨.fin b⟩| ≤ F32.toReal ⟨.fin e⟩
  rw [abs_val, F32.toReal_fin]
  have e0 : 0 ≤ e := (abs_nonneg z).trans h2
  by_cases hn : 2 * |a - b| ≤ |a|
  · have k := F32.round_sub ha hb hn
    rw [k] at h1
    rw [← Ext.fin.inj h1] at h2
    exact_mod_cast h2
  · exfalso
    have hlt : 3 / 2 * e < |a - b| := by linarith [not_le.mp hn]
    have hup := le_of_close hx.1 hy.1 hd.1 hc
    have hup' : |a - b| ≤ e + e / 2 ^ 23 + 1 / 2 ^ 149 := by
      have k : |F32.toReal ⟨.fin a⟩ - F32.toReal ⟨.fin b⟩| ≤ F32.toReal ⟨.fin e⟩ + F32.toReal ⟨.fin e⟩ / 2 ^ 23 + 1 / 2 ^ 149 := hup
      rw [abs_val, F32.toReal_fin] at k
      have : ((|a - b| : ℚ) : ℝ) ≤ ((e + e / 2 ^ 23 + 1 / 2 ^ 149 : ℚ) : ℝ) := by
        push_cast at k ⊢
        exact k
      exact Rat.cast_le.mp this
    by_cases hs : 1 / 2 ^ 140 ≤ e
    · obtain ⟨t, ht⟩ : ∃ t, t = |a - b| := ⟨_, rfl⟩
      rw [← ht] at hlt hup'
      clear h1 h2 hn ht h' hup hc h hx hy hd ha hb he
      norm_num at *
      linarith
    · obtain ⟨n, hn1⟩ := F32.number_mul ha (m := -149) (.inl le_rfl)
      obtain ⟨m, hm1⟩ := F32.number_mul hb (m := -149) (.inl le_rfl)
      have hk : a - b = ((n - m : ℤ) : ℚ) * 2 ^ (-149 : ℤ) := by
        rw [hn1, hm1]
        push_cast
        ring
      have hsm : |n - m| < 2 ^ 24 := by
        have hu : (0 : ℚ) < 2 ^ (-149 : ℤ) := by positivity
        have k1 : |((n - m : ℤ) : ℚ)| * 2 ^ (-149 : ℤ) < 2 ^ 24 * 2 ^ (-149 : ℤ) := by
          have k2 : |a - b| = |((n - m : ℤ) : ℚ)| * 2 ^ (-149 : ℤ) := by rw [hk, abs_mul, abs_of_pos hu]
          rw [← k2]
          obtain ⟨t, ht⟩ : ∃ t, t = |a - b| := ⟨_, rfl⟩
          rw [← ht] at hup' ⊢
          have hs := not_le.mp hs
          clear k2 hk hn1 hm1 h1 h2 hn ht h' hup hc h hx hy hd ha hb he hlt
          norm_num at *
          linarith
        have k3 := lt_of_mul_lt_mul_right k1 hu.le
        exact_mod_cast k3
      have k := F32.round_small hsm
      rw [← hk, h1] at k
      rw [Ext.fin.inj k] at h2
      linarith

/-- The tolerance of the library, as binary32 stores it. -/
theorem eps_number : F32.IsNumber (EPSILON : F32) := by decide +kernel

/-- A number and zero. -/
theorem close_zero32 (hx : F32.IsNumber x) (hd : F32.IsNumber d) : Close x (lit 0) d ↔ |⟪x⟫| ≤ ⟪d⟫ := by
  have h0 : ⟪(lit 0 : F32)⟫ = 0 := Rounded.zero_val
  have hz : (lit 0 : F32) = ⟨.fin 0⟩ := by decide +kernel
  refine ⟨fun h => ?_, fun h => close_of_le hx.1 Rounded.zero_finite hd (by rwa [h0, sub_zero])⟩
  obtain ⟨a, rfl, ha⟩ := F32.isNumber_iff.mp hx
  obtain ⟨e, rfl, he⟩ := F32.isNumber_iff.mp hd
  rw [hz] at h
  obtain ⟨z, h1, h2⟩ := close32.mp h
  rw [sub_zero, ha] at h1
  rw [← Ext.fin.inj h1] at h2
  show |F32.toReal ⟨.fin a⟩| ≤ F32.toReal ⟨.fin e⟩
  rw [F32.toReal_fin, F32.toReal_fin]
  exact_mod_cast h2

/-- From 1024 on numbers that pass the test of the library are equal. -/
theorem close_large (hx : F32.IsNumber x) (hy : F32.IsNumber y) (h : 1024 ≤ |⟪x⟫|) (h' : 1024 ≤ |⟪y⟫|) :
    Close x y EPSILON ↔ ⟪x⟫ = ⟪y⟫ := by
  have he : (EPSILON : F32) = ⟨.fin (13743895 / 2 ^ 37)⟩ := by decide +kernel
  constructor
  · intro hc
    obtain ⟨a, rfl, ha⟩ := F32.isNumber_iff.mp hx
    obtain ⟨b, rfl, hb⟩ := F32.isNumber_iff.mp hy
    rw [he] at hc
    obtain ⟨z, h1, h2⟩ := close32.mp hc
    have k1 : 1024 ≤ |a| := by
      have k : 1024 ≤ |F32.toReal ⟨.fin a⟩| := h
      rw [F32.toReal_fin] at k
      exact_mod_cast k
    have k2 : 1024 ≤ |b| := by
      have k : 1024 ≤ |F32.toReal ⟨.fin b⟩| := h'
      rw [F32.toReal_fin] at k
      exact_mod_cast k
    obtain ⟨n, hn⟩ := F32.number_mul ha (m := -13) (.inr (by norm_num; exact k1))
    obtain ⟨m, hm⟩ := F32.number_mul hb (m := -13) (.inr (by norm_num; exact k2))
    by_cases hnm : n = m
    · rw [← hnm, ← hn] at hm
      rw [hm]
    · exfalso
      have k3 : (1 : ℚ) ≤ |((n - m : ℤ) : ℚ)| := by
        have : 1 ≤ |n - m| := Int.one_le_abs (by omega)
        exact_mod_cast this
      have k4 : a - b = ((n - m : ℤ) : ℚ) * 2 ^ (-13 : ℤ) := by
        rw [hn, hm]
        push_cast
        ring
      have k5 : (1 : ℚ) / 2 ^ 13 ≤ |a - b| := by
        rw [k4, abs_mul, abs_of_pos (by positivity : (0 : ℚ) < 2 ^ (-13 : ℤ))]
        norm_num at k3 ⊢
        linarith
      have k6 := F32.le_round (by norm_num) (by decide +kernel) k5 h1
      have := k6.trans h2
      norm_num at this
  · intro e
    refine close_of_le hx.1 hy.1 eps_number ?_
    rw [e, sub_self, abs_zero]
    exact (by
      rw [he]
      show (0 : ℝ) ≤ F32.toReal ⟨.fin _⟩
      rw [F32.toReal_fin]
      norm_num)

end

section
variable {d : F32} {r c n : Nat}

/-- C128: `is_equal_to` for matrices in binary32. It accepts every pair of matrices whose elements differ by at most the
tolerance; the elements of matrices that it accepts differ by little more; and when the elements of one matrix are at least
three times the tolerance it is exact. -/
theorem C128_mat {v w : Mat F32} {f g : Nat → Nat → F32} (hv : MatIs v r c f) (hw : MatIs w r c g)
    (hf : ∀ i j, i < r → j < c → F32.IsNumber (f i j)) (hg : ∀ i j, i < r → j < c → F32.IsNumber (g i j)) (hd : F32.IsNumber d) :
    ((∀ i j, i < r → j < c → |⟪f i j⟫ - ⟪g i j⟫| ≤ ⟪d⟫) → v.isEqualTo w d = .ok true) ∧
    (v.isEqualTo w d = .ok true → ∀ i j, i < r → j < c → |⟪f i j⟫ - ⟪g i j⟫| ≤ ⟪d⟫ + ⟪d⟫ / 2 ^ 23 + 1 / 2 ^ 149) ∧
    ((∀ i j, i < r → j < c → 3 * ⟪d⟫ ≤ |⟪f i j⟫|) →
      (v.isEqualTo w d = .ok true ↔ ∀ i j, i < r → j < c → |⟪f i j⟫ - ⟪g i j⟫| ≤ ⟪d⟫)) := by
  obtain ⟨b, hb, hb'⟩ := C19_mat hv hw (fun i j hi hj => (hf i j hi hj).1) (fun i j hi hj => (hg i j hi hj).1) d
  have key : v.isEqualTo w d = .ok true ↔ ∀ i j, i < r → j < c → Close (f i j) (g i j) d := by
    rw [hb]
    constructor
    · intro h
      exact (hb'.mp (Except.ok.inj h)).2.2
    · intro h
      rw [hb'.mpr ⟨rfl, rfl, h⟩]
  refine ⟨fun h => key.mpr fun i j hi hj => close_of_le (hf i j hi hj).1 (hg i j hi hj).1 hd (h i j hi hj),
    fun h i j hi hj => le_of_close (hf i j hi hj).1 (hg i j hi hj).1 hd.1 (key.mp h i j hi hj), fun h3 => ?_⟩
  rw [key]
  exact ⟨fun h i j hi hj => (close_iff (hf i j hi hj) (hg i j hi hj) hd (h3 i j hi hj)).mp (h i j hi hj),
    fun h i j hi hj => (close_iff (hf i j hi hj) (hg i j hi hj) hd (h3 i j hi hj)).mpr (h i j hi hj)⟩

/-- C128: `is_equal_to` for vectors and quaternions in binary32. -/
theorem C128_vec {v w : Vec F32} {f g : Nat → F32} (hv : VecIs v n f) (hw : VecIs w n g)
    (hf : ∀ i, i < n → F32.IsNumber (f i)) (hg : ∀ i, i < n → F32.IsNumber (g i)) (hd : F32.IsNumber d) :
    ((∀ i, i < n → |⟪f i⟫ - ⟪g i⟫| ≤ ⟪d⟫) → v.isEqualTo w d = .ok true) ∧
    (v.isEqualTo w d = .ok true → ∀ i, i < n → |⟪f i⟫ - ⟪g i⟫| ≤ ⟪d⟫ + ⟪d⟫ / 2 ^ 23 + 1 / 2 ^ 149) ∧
    ((∀ i, i < n → 3 * ⟪d⟫ ≤ |⟪f i⟫|) → (v.isEqualTo w d = .ok true ↔ ∀ i, i < n → |⟪f i⟫ - ⟪g i⟫| ≤ ⟪d⟫)) := by
  obtain ⟨b, hb, hb'⟩ := C19_vec hv hw (fun i hi => (hf i hi).1) (fun i hi => (hg i hi).1) d
  have key : v.isEqualTo w d = .ok true ↔ ∀ i, i < n → Close (f i) (g i) d := by
    rw [hb]
    constructor
    · intro h
      exact (hb'.mp (Except.ok.inj h)).2
    · intro h
      rw [hb'.mpr ⟨rfl, h⟩]
  refine ⟨fun h => key.mpr fun i hi => close_of_le (hf i hi).1 (hg i hi).1 hd (h i hi),
    fun h i hi => le_of_close (hf i hi).1 (hg i hi).1 hd.1 (key.mp h i hi), fun h3 => ?_⟩
  rw [key]
  exact ⟨fun h i hi => (close_iff (hf i hi) (hg i hi) hd (h3 i hi)).mp (h i hi),
    fun h i hi => (close_iff (hf i hi) (hg i hi) hd (h3 i hi)).mpr (h i hi)⟩

/-- C128: from 1024 on the tolerance 0.0001 has no effect: matrices with such elements are accepted exactly when they are
equal. -/
theorem C128_large {v w : Mat F32} {f g : Nat → Nat → F32} (hv : MatIs v r c f) (hw : MatIs w r c g)
    (hf : ∀ i j, i < r → j < c → F32.IsNumber (f i j) ∧ 1024 ≤ |⟪f i j⟫|)
    (hg : ∀ i j, i < r → j < c → F32.IsNumber (g i j) ∧ 1024 ≤ |⟪g i j⟫|) :
    v.isEqualTo w EPSILON = .ok true ↔ ∀ i j, i < r → j < c → ⟪f i j⟫ = ⟪g i j⟫ := by
  obtain ⟨b, hb, hb'⟩ := C19_mat hv hw (fun i j hi hj => (hf i j hi hj).1.1) (fun i j hi hj => (hg i j hi hj).1.1) EPSILON
  rw [hb]
  constructor
  · intro h i j hi hj
    exact (close_large (hf i j hi hj).1 (hg i j hi hj).1 (hf i j hi hj).2 (hg i j hi hj).2).mp
      ((hb'.mp (Except.ok.inj h)).2.2 i j hi hj)
  · intro h
    rw [hb'.mpr ⟨rfl, rfl, fun i j hi hj =>
      (close_large (hf i j hi hj).1 (hg i j hi hj).1 (hf i j hi hj).2 (hg i j hi hj).2).mpr (h i j hi hj)⟩]

/-- C128: `is_symmetric` in binary32. Off the diagonal, elements below 1024 are compared with the tolerance, and exactly from
0.0004 on; when all elements off the diagonal are at least 1024 only a matrix that equals its transpose is accepted. -/
theorem C128_symmetric {v : Mat F32} {f : Nat → Nat → F32} (hv : MatIs v n n f)
    (hf : ∀ i j, i < n → j < n → F32.IsNumber (f i j)) :
    ((∀ i j, i < n → j < n → |⟪f i j⟫ - ⟪f j i⟫| ≤ ⟪(EPSILON : F32)⟫) → v.isSymmetric = .ok true) ∧
    (v.isSymmetric = .ok true → ∀ i j, i < n → j < n → |⟪f i j⟫ - ⟪f j i⟫| ≤ 100001 / 10 ^ 9) ∧
    ((∀ i j, i < n → j < n → i ≠ j → 4 / 10000 ≤ |⟪f i j⟫|) →
      (v.isSymmetric = .ok true ↔ ∀ i j, i < n → j < n → |⟪f i j⟫ - ⟪f j i⟫| ≤ ⟪(EPSILON : F32)⟫)) ∧
    ((∀ i j, i < n → j < n → i ≠ j → 1024 ≤ |⟪f i j⟫|) →
      (v.isSymmetric = .ok true ↔ ∀ i j, i < n → j < n → ⟪f i j⟫ = ⟪f j i⟫)) := by
  obtain ⟨b, hb, hb'⟩ := C19_symmetric hv fun i j hi hj => (hf i j hi hj).1
  have he : ⟪(EPSILON : F32)⟫ = 13743895 / 2 ^ 37 := by
    have : (EPSILON : F32) = ⟨.fin (13743895 / 2 ^ 37)⟩ := by decide +kernel
    rw [this]
    show F32.toReal ⟨.fin _⟩ = _
    rw [F32.toReal_fin]
    norm_num
  have e0 : 0 ≤ ⟪(EPSILON : F32)⟫ := by rw [he]; norm_num
  have key : v.isSymmetric = .ok true ↔ ∀ i j, i < n → j < n → Close (f i j) (f j i) EPSILON := by
    rw [hb]
    constructor
    · intro h
      exact (hb'.mp (Except.ok.inj h)).2
    · intro h
      rw [hb'.mpr ⟨rfl, h⟩]
  have hdiag : ∀ i, i < n → Close (f i i) (f i i) EPSILON := fun i hi =>
    close_of_le (hf i i hi hi).1 (hf i i hi hi).1 eps_number (by rw [sub_self, abs_zero]; exact e0)
  refine ⟨fun h => key.mpr fun i j hi hj => close_of_le (hf i j hi hj).1 (hf j i hj hi).1 eps_number (h i j hi hj),
    fun h i j hi hj => ?_, fun h4 => ?_, fun h4 => ?_⟩
  · have := le_of_close (hf i j hi hj).1 (hf j i hj hi).1 eps_number.1 (key.mp h i j hi hj)
    rw [he] at this
    refine this.trans ?_
    norm_num
  · rw [key]
    constructor
    · intro h i j hi hj
      rcases eq_or_ne i j with rfl | hij
      · rw [sub_self, abs_zero]; exact e0
      · refine (close_iff (hf i j hi hj) (hf j i hj hi) eps_number ?_).mp (h i j hi hj)
        refine le_trans ?_ (h4 i j hi hj hij)
        rw [he]
        norm_num
    · intro h i j hi hj
      exact close_of_le (hf i j hi hj).1 (hf j i hj hi).1 eps_number (h i j hi hj)
  · rw [key]
    constructor
    · intro h i j hi hj
      rcases eq_or_ne i j with rfl | hij
      · rfl
      · exact (close_large (hf i j hi hj) (hf j i hj hi) (h4 i j hi hj hij) (h4 j i hj hi hij.symm)).mp (h i j hi hj)
    · intro h i j hi hj
      refine close_of_le (hf i j hi hj).1 (hf j i hj hi).1 eps_number ?_
      rw [h i j hi hj, sub_self, abs_zero]
      exact e0

/-- C128: the triangularity tests on square matrices are exact in binary32, with the stored value of the tolerance. -/
theorem C128_triangular {v : Mat F32} {f : Nat → Nat → F32} (hv : MatIs v n n f)
    (hf : ∀ i j, i < n → j < n → F32.IsNumber (f i j)) :
    (v.isUpperTriangular = .ok true ↔ ∀ i j, i < n → j < i → |⟪f i j⟫| ≤ ⟪(EPSILON : F32)⟫) ∧
    (v.isLowerTriangular = .ok true ↔ ∀ i j, j < n → i < j → |⟪f i j⟫| ≤ ⟪(EPSILON : F32)⟫) := by
  obtain ⟨⟨b, hb, hb'⟩, b2, hb2, hb2'⟩ := C20_square hv fun i j hi hj => (hf i j hi hj).1
  constructor
  · rw [hb]
    constructor
    · intro h i j hi hij
      exact (close_zero32 (hf i j hi (hij.trans hi)) eps_number).mp (hb'.mp (Except.ok.inj h) i j hi (hij.trans hi) hij)
    · intro h
      rw [hb'.mpr fun i j hi hj hij => (close_zero32 (hf i j hi hj) eps_number).mpr (h i j hi hij)]
  · rw [hb2]
    constructor
    · intro h i j hj hij
      exact (close_zero32 (hf i j (hij.trans hj) hj) eps_number).mp (hb2'.mp (Except.ok.inj h) i j (hij.trans hj) hj hij)
    · intro h
      rw [hb2'.mpr fun i j hi hj hij => (close_zero32 (hf i j hi hj) eps_number).mpr (h i j hj hij)]

theorem toReal_rat {x : F32} {a : ℚ} (h : x.val = .fin a) : ⟪x⟫ = (a : ℝ) := by
  obtain ⟨v⟩ := x
  obtain rfl : v = .fin a := h
  show F32.toReal ⟨.fin a⟩ = _
  rw [F32.toReal_fin]

theorem eps32 : ⟪(EPSILON : F32)⟫ = 13743895 / 2 ^ 37 := by
  have := toReal_rat (x := (EPSILON : F32)) (a := 13743895 / 2 ^ 37) (by decide +kernel)
  rw [this]
  norm_num

/-- A number and one. -/
theorem close_one32 {x : F32} (hx : F32.IsNumber x) : Close x (lit 1) EPSILON ↔ |⟪x⟫ - 1| ≤ ⟪(EPSILON : F32)⟫ := by
  have h1 : ⟪(lit 1 : F32)⟫ = 1 := by
    rw [toReal_rat (x := (lit 1 : F32)) (a := 1) (by decide +kernel)]
    norm_num
  have n1 : F32.IsNumber (lit 1 : F32) := by decide +kernel
  refine ⟨fun h => ?_, fun h => close_of_le hx.1 n1.1 eps_number (by rwa [h1])⟩
  have k := le_of_close hx.1 n1.1 eps_number.1 h
  rw [h1] at k
  have k' : |⟪x⟫ - 1| ≤ 1 / 2 := k.trans (by rw [eps32]; norm_num)
  have := (close_iff hx n1 eps_number (by
    rw [eps32]
    have := (abs_le.mp k').1
    exact le_trans (by linarith) (le_abs_self _))).mp h
  rwa [h1] at this

/-- C128: the quaternion predicates in binary32 are exact for the stored tolerance. -/
theorem C128_quaternion {v : Vec F32} {f : Nat → F32} (hv : VecIs v 4 f) (hf : ∀ i, i < 4 → F32.IsNumber (f i)) :
    (∃ b, Quat.isReal v = .ok b ∧ (b = true ↔ ∀ i, 1 ≤ i → i < 4 → |⟪f i⟫| ≤ ⟪(EPSILON : F32)⟫)) ∧
    (∃ b, Quat.isPure v = .ok b ∧ (b = true ↔ |⟪f 0⟫| ≤ ⟪(EPSILON : F32)⟫)) ∧
    (∃ b, Quat.isIdentity v = .ok b ∧ (b = true ↔ |⟪f 0⟫ - 1| ≤ ⟪(EPSILON : F32)⟫ ∧
      ∀ i, 1 ≤ i → i < 4 → |⟪f i⟫| ≤ ⟪(EPSILON : F32)⟫)) := by
  have hq := Quat.isQuaternion_eq hv
  have hv0 := hv.get 0 (by norm_num)
  have z0 : Finite (lit 0 : F32) := Rounded.zero_finite
  have z1 : Finite (lit 1 : F32) := by decide +kernel
  obtain ⟨b, hb, hb'⟩ := allRange_prop (lo := 1) (hi := 4) (P := fun i => |⟪f i⟫| ≤ ⟪(EPSILON : F32)⟫)
    (body := fun row => (do allcloseL (← v.getElement row) (lit 0) EPSILON : Res LinalgError Bool)) fun i _ hi => by
      simp only [hv.get i hi, Res.ok_bind]
      obtain ⟨b, h1, h2⟩ := allcloseL_prop (hf i hi).1 z0 (EPSILON : F32)
      exact ⟨b, h1, h2.trans (close_zero32 (hf i hi) eps_number)⟩
  refine ⟨⟨b, ?_, hb'⟩, ?_, ?_⟩
  · unfold Quat.isReal
    rw [hq]
    simpa using hb
  · refine ⟨decide (Close (f 0) (lit 0) EPSILON), ?_, ?_⟩
    · unfold Quat.isPure
      rw [hq]
      simp [hv0, allcloseL_eq (hf 0 (by norm_num)).1 z0]
      split <;> simp_all
    · rw [decide_eq_true_iff, close_zero32 (hf 0 (by norm_num)) eps_number]
  · by_cases h : Close (f 0) (lit 1) EPSILON
    · refine ⟨b, ?_, ?_⟩
      · unfold Quat.isIdentity
        rw [hq]
        simpa [hv0, allcloseL_eq (hf 0 (by norm_num)).1 z1, h] using hb
      · rw [hb', and_iff_right ((close_one32 (hf 0 (by norm_num))).mp h)]
    · refine ⟨false, ?_, ?_⟩
      · unfold Quat.isIdentity
        rw [hq]
        simp [hv0, allcloseL_eq (hf 0 (by norm_num)).1 z1, h]
      · rw [← close_one32 (hf 0 (by norm_num))]
        simp [h]

/-- C128, a case: the stored tolerance is accepted, the next number is not. -/
example : Quat.isPure (Vec.of 4 fun i => (lit ([1 / 10000, 1, 2, 3].getD i 0) : F32)) = .ok true ∧
    Quat.isPure (Vec.of 4 fun i => (lit ([13743896 / 2 ^ 37, 1, 2, 3].getD i 0) : F32)) = .ok false ∧
    Quat.isIdentity (Vec.of 4 fun i => (lit ([1 + 838 / 2 ^ 23, 1 / 10000, 0, 0].getD i 0) : F32)) = .ok true ∧
    Quat.isIdentity (Vec.of 4 fun i => (lit ([1 + 839 / 2 ^ 23, 1 / 10000, 0, 0].getD i 0) : F32)) = .ok false := by
  decide +kernel

/-- C128, the additional part of the bound is needed: two vectors of numbers that `is_equal_to` accepts although they differ by
more than the tolerance. -/
theorem C128_slack : ∃ (v w : Vec F32) (f g : Nat → F32), VecIs v 2 f ∧ VecIs w 2 g ∧
    (∀ i, i < 2 → F32.IsNumber (f i) ∧ F32.IsNumber (g i)) ∧ v.isEqualTo w (lit 1) = .ok true ∧
    ⟪(lit 1 : F32)⟫ < |⟪f 0⟫ - ⟪g 0⟫| := by
  refine ⟨Vec.of 2 fun _ => lit 1, Vec.of 2 fun i => if i = 0 then lit (-1 / 2 ^ 25) else lit 1, _, _,
    Vec.of_is _ (by norm_num) (by norm_num), Vec.of_is _ (by norm_num) (by norm_num), ?_, by decide +kernel, ?_⟩
  · decide +kernel
  · have h1 : ⟪(lit 1 : F32)⟫ = ((1 : ℚ) : ℝ) := toReal_rat (by decide +kernel)
    have h2 : ⟪(lit (-1 / 2 ^ 25) : F32)⟫ = ((-1 / 2 ^ 25 : ℚ) : ℝ) := toReal_rat (by decide +kernel)
    simp only [if_true]
    rw [h1, h2]
    norm_num [abs_of_pos]

/-- C128, a case: two matrices of elements from 1 on that differ by less than the tolerance. -/
example : (Mat.of 2 2 fun i j => (lit (1 + i + j) : F32)).isEqualTo
    (Mat.of 2 2 fun i j => (lit (1 + i + j + if i = 0 then 1 / 2 ^ 14 else 0) : F32)) EPSILON = .ok true := by
  have he : ⟪(EPSILON : F32)⟫ = ((13743895 / 2 ^ 37 : ℚ) : ℝ) := toReal_rat (by decide +kernel)
  refine (C128_mat (r := 2) (c := 2) (Mat.of_is _ (by norm_num) (by norm_num) (by norm_num) (by norm_num))
    (Mat.of_is _ (by norm_num) (by norm_num) (by norm_num) (by norm_num)) ?_ ?_ eps_number).1 ?_
  · intro i j hi hj
    interval_cases i <;> interval_cases j <;> decide +kernel
  · intro i j hi hj
    interval_cases i <;> interval_cases j <;> decide +kernel
  · have key : ∀ a : ℚ, a ∈ [1, 2, 3] → ⟪(lit a : F32)⟫ = ((a : ℚ) : ℝ) := by
      intro a ha
      simp only [List.mem_cons, List.not_mem_nil, or_false] at ha
      rcases ha with rfl | rfl | rfl <;> exact toReal_rat (by decide +kernel)
    have key' : ∀ a : ℚ, a ∈ [1 + 1 / 2 ^ 14, 2 + 1 / 2 ^ 14] → ⟪(lit a : F32)⟫ = ((a : ℚ) : ℝ) := by
      intro a ha
      simp only [List.mem_cons, List.not_mem_nil, or_false] at ha
      rcases ha with rfl | rfl <;> exact toReal_rat (by decide +kernel)
    intro i j hi hj
    rw [he]
    interval_cases i <;> interval_cases j <;> norm_num at key key' ⊢ <;> simp only [key, key'] <;> norm_num [abs_of_nonneg, abs_of_neg]

/-- C128, a case: the elements 1024 and 1024 + 2⁻¹³, one unit in the last place apart, already make a matrix asymmetric. -/
example : (fmat [[0, 1024], [1024 + 1 / 2 ^ 13, 0]]).isSymmetric = .ok false ∧
    (fmat [[0, 1023], [1023 + 1 / 2 ^ 14, 0]]).isSymmetric = .ok true := by decide +kernel

/-- C128, a case: the hypotheses of the part about large elements hold for that matrix. -/
example : ¬ (fmat [[0, 1024], [1024 + 1 / 2 ^ 13, 0]]).isSymmetric = .ok true := by
  have h1 : ⟪(lit 1024 : F32)⟫ = ((1024 : ℚ) : ℝ) := toReal_rat (by decide +kernel)
  have h2 : ⟪(lit (1024 + 1 / 2 ^ 13) : F32)⟫ = ((1024 + 1 / 2 ^ 13 : ℚ) : ℝ) := toReal_rat (by decide +kernel)
  have hm : MatIs (fmat [[0, 1024], [1024 + 1 / 2 ^ 13, 0]]) 2 2 _ := Mat.of_is _ (by norm_num) (by norm_num) (by norm_num) (by norm_num)
  rw [(C128_symmetric hm ?_).2.2.2 ?_]
  · intro h
    have := h 0 1 (by norm_num) (by norm_num)
    change ⟪(lit 1024 : F32)⟫ = ⟪(lit (1024 + 1 / 2 ^ 13) : F32)⟫ at this
    rw [h1, h2] at this
    norm_num at this
  · intro i j hi hj
    change i < 2 at hi
    change j < 2 at hj
    interval_cases i <;> interval_cases j <;> decide +kernel
  · intro i j hi hj hij
    interval_cases i <;> interval_cases j <;> first | exact absurd rfl hij | skip
    · show 1024 ≤ |⟪(lit 1024 : F32)⟫|
      rw [h1]; norm_num
    · show 1024 ≤ |⟪(lit (1024 + 1 / 2 ^ 13) : F32)⟫|
      rw [h2]; norm_num [abs_of_pos]

/-- C128, a case: below the diagonal the stored tolerance itself is accepted, the next number is not. -/
example : (fmat [[1, 2], [1 / 10000, 3]]).isUpperTriangular = .ok true ∧
    (fmat [[1, 2], [13743896 / 2 ^ 37, 3]]).isUpperTriangular = .ok false ∧
    (fmat [[1, -(1 / 10000)], [7, 3]]).isLowerTriangular = .ok true := by decide +kernel

end
end Verif
