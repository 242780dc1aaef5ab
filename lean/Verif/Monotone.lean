import Verif.Literals

/-
Rounding to binary32 is monotone, and the difference of two numbers that are near each other is exact (Sterbenz).
-/

namespace Verif
open Scalar

namespace F32

/-- The exponent is not too small. -/
theorem lt_pow2_expo {x : ℚ} (hx : 0 < x) : x < pow2 (expo x + 1) := by
  unfold expo
  dsimp only
  split
  · rw [pow2_eq]
    have h1 : x.num.natAbs < 2 ^ (Nat.log2 x.num.natAbs + 1) := Nat.lt_log2_self
    have h2 : 2 ^ Nat.log2 x.den ≤ x.den := Nat.log2_self_le x.den_nz
    have hx' : x = (x.num.natAbs : ℚ) / x.den := by
      conv_lhs => rw [← Rat.num_div_den x]
      congr 1
      have : ((x.num.natAbs : ℤ) : ℚ) = (x.num : ℚ) := by
        rw [Int.natAbs_of_nonneg (Rat.num_pos.mpr hx).le]
      rw [← this, Int.cast_natCast]
    have e1 : (2 : ℚ) ^ ((Nat.log2 x.num.natAbs : ℤ) - (Nat.log2 x.den : ℤ) + 1) =
        (2 ^ (Nat.log2 x.num.natAbs + 1) : ℚ) / 2 ^ Nat.log2 x.den := by
      rw [show ((Nat.log2 x.num.natAbs : ℤ) - (Nat.log2 x.den : ℤ) + 1) =
        ((Nat.log2 x.num.natAbs + 1 : ℕ) : ℤ) - (Nat.log2 x.den : ℤ) by push_cast; ring, zpow_sub₀ (by norm_num)]
      simp only [zpow_natCast]
    rw [e1]
    have h1' : (x.num.natAbs : ℚ) < 2 ^ (Nat.log2 x.num.natAbs + 1) := by exact_mod_cast h1
    have h2' : (2 ^ Nat.log2 x.den : ℚ) ≤ x.den := by exact_mod_cast h2
    calc x = (x.num.natAbs : ℚ) / x.den := hx'
      _ ≤ (x.num.natAbs : ℚ) / 2 ^ Nat.log2 x.den := by gcongr
      _ < _ := by gcongr
  · rename_i h
    rw [sub_add_cancel]
    exact not_le.mp h

theorem expo_lt {x : ℚ} (hx : 0 < x) {t : ℤ} (h : x < 2 ^ t) : expo x < t := by
  have h1 := pow2_expo_le hx
  rw [pow2_eq] at h1
  exact (zpow_lt_zpow_iff_right₀ (by norm_num : (1 : ℚ) < 2)).mp (h1.trans_lt h)

theorem nearest_mono {x y : ℚ} (h : x ≤ y) : nearest x ≤ nearest y := by
  rcases eq_or_lt_of_le h with rfl | h
  · exact le_rfl
  by_contra hc
  have h1 : nearest y + 1 ≤ nearest x := not_le.mp hc
  have h2 : (nearest y : ℚ) + 1 ≤ nearest x := by exact_mod_cast h1
  have h3 := (abs_le.mp (nearest_err x)).2
  have h4 := (abs_le.mp (nearest_err y)).1
  linarith

theorem ulp_eq (x : ℚ) : ulp x = 2 ^ max (expo x - 23) (-149) := by
  unfold ulp
  rw [pow2_eq]

/-- A number is less than `2²⁴` units in the last place. -/
theorem lt_ulp {x : ℚ} (hx : 0 < x) : x < 2 ^ 24 * ulp x := by
  have h := lt_pow2_expo hx
  rw [pow2_eq] at h
  rw [ulp_eq]
  calc x < 2 ^ (expo x + 1) := h
    _ ≤ 2 ^ (24 + max (expo x - 23) (-149)) := zpow_le_zpow_right₀ (by norm_num) (by have := le_max_left (expo x - 23) (-149); omega)
    _ = _ := by rw [zpow_add₀ (by norm_num)]; norm_num

theorem expo_mono {x y : ℚ} (hx : 0 < x) (h : x ≤ y) : expo x ≤ expo y := by
  have h1 := lt_pow2_expo (hx.trans_le h)
  rw [pow2_eq] at h1
  have := expo_lt hx (h.trans_lt h1)
  omega

/-- Rounding is monotone. -/
theorem roundPos_mono {x y : ℚ} (hx : 0 < x) (h : x ≤ y) : roundPos x ≤ roundPos y := by
  have hy := hx.trans_le h
  have he := expo_mono hx h
  have ux := ulp_pos x
  have uy := ulp_pos y
  by_cases hu : ulp x = ulp y
  · unfold roundPos
    rw [hu]
    have : nearest (x / ulp y) ≤ nearest (y / ulp y) := nearest_mono (by gcongr)
    have : (nearest (x / ulp y) : ℚ) ≤ nearest (y / ulp y) := by exact_mod_cast this
    gcongr
  · have hm : max (expo x - 23) (-149) + 1 ≤ max (expo y - 23) (-149) := by
      have h1 : max (expo x - 23) (-149) ≤ max (expo y - 23) (-149) := max_le_max_right _ (by omega)
      rcases eq_or_lt_of_le h1 with e | e
      · rw [ulp_eq, ulp_eq, e] at hu
        exact absurd rfl hu
      · omega
    have hM : max (expo y - 23) (-149) = expo y - 23 := by
      rcases max_cases (expo y - 23) (-149) with ⟨e, -⟩ | ⟨e, -⟩
      · exact e
      · have := le_max_right (expo x - 23) (-149)
        omega
    have n1 : nearest (x / ulp x) ≤ 2 ^ 24 := by
      have h2 : x / ulp x ≤ ((2 ^ 24 : ℤ) : ℚ) := by
        rw [div_le_iff₀ ux]
        push_cast
        exact (lt_ulp hx).le
      have := nearest_mono h2
      rwa [nearest_int] at this
    have n2 : 2 ^ 23 ≤ nearest (y / ulp y) := by
      have h2 : ((2 ^ 23 : ℤ) : ℚ) ≤ y / ulp y := by
        rw [le_div_iff₀ uy, ulp_eq, hM]
        push_cast
        have h3 := pow2_expo_le hy
        rw [pow2_eq] at h3
        calc (2 : ℚ) ^ 23 * 2 ^ (expo y - 23) = 2 ^ ((23 : ℤ) + (expo y - 23)) := by rw [zpow_add₀ (by norm_num)]; norm_num
          _ = 2 ^ expo y := by congr 1; ring
          _ ≤ y := h3
      have := nearest_mono h2
      rwa [nearest_int] at this
    have n1' : (nearest (x / ulp x) : ℚ) ≤ 2 ^ 24 := by exact_mod_cast n1
    have n2' : (2 : ℚ) ^ 23 ≤ nearest (y / ulp y) := by exact_mod_cast n2
    have hu2 : 2 * ulp x ≤ ulp y := by
      rw [ulp_eq, ulp_eq]
      calc (2 : ℚ) * 2 ^ max (expo x - 23) (-149) = 2 ^ (max (expo x - 23) (-149) + 1) := by
            rw [zpow_add₀ (by norm_num)]; norm_num; ring
        _ ≤ _ := zpow_le_zpow_right₀ (by norm_num) hm
    unfold roundPos
    calc (nearest (x / ulp x) : ℚ) * ulp x ≤ 2 ^ 24 * ulp x := by gcongr
      _ = 2 ^ 23 * (2 * ulp x) := by ring
      _ ≤ 2 ^ 23 * ulp y := by gcongr
      _ ≤ _ := by gcongr

/-- A small multiple of a power of two is representable. -/
theorem roundPos_mul {k e : ℤ} (k0 : 0 < k) (k1 : k < 2 ^ 24) (he : -149 ≤ e) : roundPos (k * 2 ^ e) = k * 2 ^ e := by
  have kp : (0 : ℚ) < k := by exact_mod_cast k0
  have hz : (0 : ℚ) < k * 2 ^ e := by positivity
  have hk : (k : ℚ) < 2 ^ 24 := by exact_mod_cast k1
  have h1 : (k : ℚ) * 2 ^ e < 2 ^ (24 + e) := by
    rw [zpow_add₀ (by norm_num)]
    norm_num
    norm_num at hk
    gcongr
  have h2 := expo_lt hz h1
  obtain ⟨m, hm⟩ : ∃ m, m = max (expo ((k : ℚ) * 2 ^ e) - 23) (-149) := ⟨_, rfl⟩
  have h3 : m ≤ e := by
    rw [hm]
    exact max_le (by omega) he
  obtain ⟨j, hj⟩ := Int.eq_ofNat_of_zero_le (show 0 ≤ e - m by omega)
  unfold roundPos
  rw [ulp_eq, ← hm]
  have e1 : (k : ℚ) * 2 ^ e / 2 ^ m = ((k * 2 ^ j : ℤ) : ℚ) := by
    push_cast
    rw [mul_div_assoc, ← zpow_sub₀ (by norm_num), hj]
    simp
  rw [e1, nearest_int, ← e1]
  field_simp

/-- A number that rounding leaves alone is a multiple of its unit in the last place. -/
theorem mul_ulp {x : ℚ} (h : roundPos x = x) : ∃ n : ℤ, x = n * ulp x := ⟨_, h.symm⟩

/-- The difference of two positive numbers, one at most twice the other, is exact. -/
theorem roundPos_sub {x y : ℚ} (hy : 0 < y) (hx : roundPos x = x) (hy' : roundPos y = y) (h1 : y < x) (h2 : x ≤ 2 * y) :
    roundPos (x - y) = x - y := by
  have x0 := hy.trans h1
  obtain ⟨n, hn⟩ := mul_ulp hx
  obtain ⟨m, hm⟩ := mul_ulp hy'
  have he := expo_mono hy h1.le
  obtain ⟨a, ha⟩ : ∃ a, a = max (expo x - 23) (-149) := ⟨_, rfl⟩
  obtain ⟨b, hb⟩ : ∃ b, b = max (expo y - 23) (-149) := ⟨_, rfl⟩
  have hab : b ≤ a := by
    rw [ha, hb]
    exact max_le_max_right _ (by omega)
  obtain ⟨j, hj⟩ := Int.eq_ofNat_of_zero_le (show 0 ≤ a - b by omega)
  have u0 := ulp_pos y
  have hl := lt_ulp hy
  rw [ulp_eq, ← ha] at hn
  rw [ulp_eq, ← hb] at hm u0 hl
  have hn' : x = ((n * 2 ^ j : ℤ) : ℚ) * 2 ^ b := by
    rw [hn, show a = (j : ℤ) + b by omega, zpow_add₀ (by norm_num)]
    push_cast
    rw [zpow_natCast]
    ring
  obtain ⟨k, hk⟩ : ∃ k, k = n * 2 ^ j - m := ⟨_, rfl⟩
  have e : x - y = (k : ℚ) * 2 ^ b := by
    rw [hk]
    push_cast
    push_cast at hn'
    conv_lhs => rw [hn', hm]
    ring
  have kq : (k : ℚ) ≤ m := by
    have : (k : ℚ) * 2 ^ b ≤ m * 2 ^ b := by rw [← e, ← hm]; linarith
    exact le_of_mul_le_mul_right this u0
  have mq : (m : ℚ) < 2 ^ 24 := by
    have : (m : ℚ) * 2 ^ b < 2 ^ 24 * 2 ^ b := by rw [← hm]; exact hl
    exact lt_of_mul_lt_mul_right this u0.le
  have kp : (0 : ℚ) < k := by
    have : (0 : ℚ) * 2 ^ b < k * 2 ^ b := by rw [← e, zero_mul]; linarith
    exact lt_of_mul_lt_mul_right this u0.le
  rw [e]
  exact roundPos_mul (by exact_mod_cast kp) (by have := kq.trans_lt mq; exact_mod_cast this) (by rw [hb]; exact le_max_right _ _)

end F32
end Verif
