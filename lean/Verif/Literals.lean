import Verif.Rounded

/-
Two more laws of IEEE 754 binary32: a literal of moderate size is rounded to nearest, and a small integer is exact.
-/

namespace Verif
open Scalar

/-- Literals are rounded to nearest; integers below `2²⁴` are exact. -/
class Literals (F : Type) [Scalar F] [R : Rounded F] : Prop where
  lit_near : ∀ q : ℚ, |(q : ℝ)| ≤ 2 ^ 127 → Finite (lit q : F) ∧ Near ⟪(lit q : F)⟫ q
  lit_int : ∀ n : ℤ, |n| < 2 ^ 24 → ⟪(lit (n : ℚ) : F)⟫ = n

namespace F32

theorem nearest_int (n : ℤ) : nearest (n : ℚ) = n := by
  have h : Rat.floor (n : ℚ) = n := Rat.floor_intCast n
  unfold nearest
  simp [h]

theorem roundPos_int {n : ℤ} (h0 : 0 < n) (h1 : n < 2 ^ 24) : roundPos (n : ℚ) = n := by
  obtain ⟨m, rfl⟩ := Int.eq_ofNat_of_zero_le h0.le
  have hm : m ≠ 0 := by rintro rfl; exact absurd h0 (by simp)
  have hlog : Nat.log2 m ≤ 23 := by
    have : m < 2 ^ 24 := by exact_mod_cast h1
    have := (Nat.log2_lt hm).mpr this
    omega
  have he : expo (((m : ℤ) : ℚ)) = (Nat.log2 m : ℤ) := by
    have hle : pow2 (Nat.log2 m : ℤ) ≤ (m : ℚ) := by
      rw [pow2_eq, zpow_natCast]
      exact_mod_cast Nat.log2_self_le hm
    unfold expo
    have hn : (((m : ℤ) : ℚ)).num.natAbs = m := by simp
    have hd : (((m : ℤ) : ℚ)).den = 1 := by simp
    rw [hn, hd]
    have h1 : Nat.log2 1 = 0 := by decide
    simp only [h1, Nat.cast_zero, sub_zero]
    rw [if_pos (by exact_mod_cast hle)]
  have hu : ulp (((m : ℤ) : ℚ)) = 1 / 2 ^ (23 - Nat.log2 m) := by
    unfold ulp
    rw [he, pow2_eq, max_eq_left (by omega)]
    rw [show ((Nat.log2 m : ℤ) - 23) = -((23 - Nat.log2 m : ℕ) : ℤ) by omega, zpow_neg, zpow_natCast, one_div]
  unfold roundPos
  rw [hu]
  rw [show (((m : ℤ) : ℚ)) / (1 / 2 ^ (23 - Nat.log2 m)) = (((m : ℤ) * 2 ^ (23 - Nat.log2 m) : ℤ) : ℚ) by push_cast; field_simp]
  rw [nearest_int]
  push_cast
  field_simp

theorem lit_int (n : ℤ) (h : |n| < 2 ^ 24) : fl (.fin (n : ℚ)) = ⟨.fin (n : ℚ)⟩ := by
  have hb : (2 : ℚ) ^ 24 < pow2 128 := by rw [pow2_eq]; norm_num
  have ha := abs_lt.mp h
  show (⟨round (n : ℚ)⟩ : F32) = _
  unfold round
  rcases lt_trichotomy n 0 with h0 | h0 | h0
  · have k1 : ¬(n : ℚ) = 0 := by exact_mod_cast h0.ne
    have k2 : ¬(0 : ℚ) < (n : ℚ) := by exact_mod_cast h0.le.not_gt
    have e : roundPos (-(n : ℚ)) = -(n : ℚ) := by
      have := roundPos_int (n := -n) (by omega) (by omega)
      push_cast at this
      exact this
    have k3 : -(n : ℚ) < pow2 128 := by
      have : (-(n : ℚ)) < 2 ^ 24 := by exact_mod_cast (show -n < 2 ^ 24 by omega)
      linarith
    rw [if_neg k1, if_neg k2, e, if_pos k3, neg_neg]
  · subst h0
    simp
  · have k1 : ¬(n : ℚ) = 0 := by exact_mod_cast h0.ne'
    have k2 : (0 : ℚ) < (n : ℚ) := by exact_mod_cast h0
    have k3 : (n : ℚ) < pow2 128 := by
      have : (n : ℚ) < 2 ^ 24 := by exact_mod_cast (show n < 2 ^ 24 by omega)
      linarith
    rw [if_neg k1, if_pos k2, roundPos_int h0 ha.2, if_pos k3]

instance : Literals F32 where
  lit_near q hq := ⟨(fl_fin q).2.1 hq, ((fl_fin q).1 ((fl_fin q).2.1 hq)).1⟩
  lit_int n hn := by
    show toReal (fl (.fin (n : ℚ))) = _
    rw [lit_int n hn, toReal_fin]
    push_cast
    rfl

end F32
end Verif
