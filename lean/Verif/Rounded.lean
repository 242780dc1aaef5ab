import Mathlib.Analysis.Real.Sqrt
import Mathlib.Data.Nat.Log
import Mathlib.Algebra.Order.Floor.Ring
import Mathlib.Tactic.Linarith
import Mathlib.Tactic.Positivity
import Verif.F32

/-
What IEEE 754 says about the accuracy of binary32 operations, as laws on `Scalar`.  They hold for the
instance `F32`, whatever its libm functions are.
-/

namespace Verif
open Scalar

/-- The round-off unit of binary32, `2⁻²⁴`. -/
noncomputable def ru : ℝ := 1 / 2 ^ 24
/-- Half the smallest subnormal number, `2⁻¹⁵⁰`. -/
noncomputable def rη : ℝ := 1 / 2 ^ 150

/-- `x` is the rounded value of `y`. -/
def Near (x y : ℝ) : Prop := |x - y| ≤ ru * |y| + rη

/-- Positive infinity. -/
def PosInf {F : Type} [Scalar F] (x : F) : Prop :=
  isNaN x = false ∧ isInf x = true ∧ (lit 0 <ᶠ x) = true

/-- Laws of IEEE 754 arithmetic in binary32 with rounding to nearest.  `val x` is the real number that
the finite value `x` stands for.  Nothing is said about NaN, about negative infinity, or about the
functions of libm other than `sqrtf`. -/
class Rounded (F : Type) [Scalar F] where
  val : F → ℝ
  zero_finite : Finite (lit 0 : F)
  zero_val : val (lit 0) = 0
  one_finite : Finite (lit 1 : F)
  one_val : val (lit 1) = 1
  two_finite : Finite (lit 2 : F)
  two_val : val (lit 2) = 2
  eps_finite : Finite (lit (1 / 10000) : F)
  eps_val : Near (val (lit (1 / 10000))) (1 / 10000)
  /-- A finite result is the rounded exact result, and has its sign. -/
  add_near : ∀ {x y : F}, Finite x → Finite y → Finite (x +ᶠ y) → Near (val (x +ᶠ y)) (val x + val y)
  sub_near : ∀ {x y : F}, Finite x → Finite y → Finite (x -ᶠ y) → Near (val (x -ᶠ y)) (val x - val y)
  mul_near : ∀ {x y : F}, Finite x → Finite y → Finite (x *ᶠ y) → Near (val (x *ᶠ y)) (val x * val y)
  div_near : ∀ {x y : F}, Finite x → Finite y → val y ≠ 0 → Finite (x /ᶠ y) →
    Near (val (x /ᶠ y)) (val x / val y)
  add_nonneg : ∀ {x y : F}, Finite x → Finite y → Finite (x +ᶠ y) → 0 ≤ val x + val y → 0 ≤ val (x +ᶠ y)
  mul_nonneg : ∀ {x y : F}, Finite x → Finite y → Finite (x *ᶠ y) → 0 ≤ val x * val y → 0 ≤ val (x *ᶠ y)
  /-- There is no overflow up to `2¹²⁷`. -/
  add_finite : ∀ {x y : F}, Finite x → Finite y → |val x + val y| ≤ 2 ^ 127 → Finite (x +ᶠ y)
  sub_finite : ∀ {x y : F}, Finite x → Finite y → |val x - val y| ≤ 2 ^ 127 → Finite (x -ᶠ y)
  mul_finite : ∀ {x y : F}, Finite x → Finite y → |val x * val y| ≤ 2 ^ 127 → Finite (x *ᶠ y)
  div_finite : ∀ {x y : F}, Finite x → Finite y → val y ≠ 0 → |val x / val y| ≤ 2 ^ 127 → Finite (x /ᶠ y)
  /-- Finite results are below `2¹²⁸`. -/
  add_lt : ∀ {x y : F}, Finite x → Finite y → Finite (x +ᶠ y) → |val (x +ᶠ y)| < 2 ^ 128
  mul_lt : ∀ {x y : F}, Finite x → Finite y → Finite (x *ᶠ y) → |val (x *ᶠ y)| < 2 ^ 128
  /-- The square root is rounded correctly and does not overflow. -/
  sqrt_finite : ∀ {x : F}, Finite x → 0 ≤ val x → Finite (Scalar.sqrt x)
  sqrt_near : ∀ {x : F}, Finite x → 0 ≤ val x → |val (Scalar.sqrt x) - √(val x)| ≤ ru * √(val x)
  neg_finite : ∀ {x : F}, Finite x → Finite (Scalar.neg x)
  neg_val : ∀ {x : F}, Finite x → val (Scalar.neg x) = -val x
  abs_finite : ∀ {x : F}, Finite x → Finite (Scalar.abs x)
  abs_val : ∀ {x : F}, Finite x → val (Scalar.abs x) = |val x|
  lt_val : ∀ {x y : F}, Finite x → Finite y → ((x <ᶠ y) = true ↔ val x < val y)
  le_val : ∀ {x y : F}, Finite x → Finite y → ((x ≤ᶠ y) = true ↔ val x ≤ val y)
  /-- Overflow of a product or sum that is not negative gives positive infinity. -/
  mul_inf : ∀ {x y : F}, Finite x → Finite y → 0 ≤ val x * val y → ¬Finite (x *ᶠ y) → PosInf (x *ᶠ y)
  add_inf : ∀ {x y : F}, Finite x → Finite y → 0 ≤ val x + val y → ¬Finite (x +ᶠ y) → PosInf (x +ᶠ y)
  /-- Arithmetic with positive infinity. -/
  inf_add : ∀ {x y : F}, PosInf x → Finite y ∨ PosInf y → PosInf (x +ᶠ y)
  fin_add_inf : ∀ {x y : F}, Finite x → PosInf y → PosInf (x +ᶠ y)
  sqrt_inf : ∀ {x : F}, PosInf x → PosInf (Scalar.sqrt x)
  div_inf : ∀ {x y : F}, Finite x → PosInf y → Finite (x /ᶠ y) ∧ val (x /ᶠ y) = 0
  inf_le : ∀ {x y : F}, PosInf x → Finite y → (x ≤ᶠ y) = false
  lt_inf : ∀ {x y : F}, Finite x → PosInf y → (x <ᶠ y) = true

/-- The real number that a finite f32 stands for. -/
scoped notation "⟪" x "⟫" => Rounded.val x

instance (priority := low) {F : Type} [Scalar F] [R : Rounded F] : ScalarLawful F :=
  ⟨R.zero_finite, R.one_finite, R.eps_finite⟩

theorem ru_pos : 0 < ru := by unfold ru; positivity
theorem rη_pos : 0 < rη := by unfold rη; positivity
theorem Near.refl (x : ℝ) : Near x x := by
  unfold Near
  rw [sub_self, abs_zero]
  have := ru_pos; have := rη_pos
  positivity

namespace F32

theorem pow2_eq (e : ℤ) : pow2 e = (2 : ℚ) ^ e := by
  unfold pow2
  split
  · rename_i h
    obtain ⟨n, rfl⟩ := Int.eq_ofNat_of_zero_le h
    simp
  · rename_i h
    obtain ⟨n, hn⟩ := Int.eq_ofNat_of_zero_le (show 0 ≤ -e by omega)
    rw [show e = -(n : ℤ) by omega]
    simp

theorem pow2_pos (e : ℤ) : 0 < pow2 e := by rw [pow2_eq]; positivity

/-- The exponent is not too large. -/
theorem pow2_expo_le {x : ℚ} (hx : 0 < x) : pow2 (expo x) ≤ x := by
  unfold expo
  dsimp only
  split
  · assumption
  · rw [pow2_eq]
    have hn : x.num.natAbs ≠ 0 := by
      have := Rat.num_pos.mpr hx
      omega
    have h1 : 2 ^ Nat.log2 x.num.natAbs ≤ x.num.natAbs := Nat.log2_self_le hn
    have h2 : x.den < 2 ^ (Nat.log2 x.den + 1) := Nat.lt_log2_self
    have hx' : x = (x.num.natAbs : ℚ) / x.den := by
      conv_lhs => rw [← Rat.num_div_den x]
      congr 1
      have : ((x.num.natAbs : ℤ) : ℚ) = (x.num : ℚ) := by
        rw [Int.natAbs_of_nonneg (Rat.num_pos.mpr hx).le]
      rw [← this, Int.cast_natCast]
    have e1 : (2 : ℚ) ^ ((Nat.log2 x.num.natAbs : ℤ) - (Nat.log2 x.den : ℤ) - 1) =
        (2 ^ Nat.log2 x.num.natAbs : ℚ) / 2 ^ (Nat.log2 x.den + 1) := by
      rw [show ((Nat.log2 x.num.natAbs : ℤ) - (Nat.log2 x.den : ℤ) - 1) =
        (Nat.log2 x.num.natAbs : ℤ) - ((Nat.log2 x.den + 1 : ℕ) : ℤ) by push_cast; ring, zpow_sub₀ (by norm_num)]
      simp only [zpow_natCast]
    rw [e1, hx']
    have hd : (0 : ℚ) < x.den := by exact_mod_cast x.den_pos
    have h1' : (2 ^ Nat.log2 x.num.natAbs : ℚ) ≤ x.num.natAbs := by exact_mod_cast h1
    have h2' : (x.den : ℚ) ≤ 2 ^ (Nat.log2 x.den + 1) := by exact_mod_cast h2.le
    have e2 : ((x.num.natAbs : ℚ) / x.den).num.natAbs = x.num.natAbs := by rw [← hx']
    have e3 : ((x.num.natAbs : ℚ) / x.den).den = x.den := by rw [← hx']
    rw [e2, e3]
    exact div_le_div₀ (by positivity) h1' hd h2'

theorem nearest_err (x : ℚ) : |(nearest x : ℚ) - x| ≤ 1 / 2 := by
  unfold nearest
  have h1 := Int.floor_le x
  have h2 := Int.lt_floor_add_one x
  rw [show x.floor = ⌊x⌋ from rfl]
  dsimp only
  split
  · rw [abs_le]; constructor <;> linarith
  · split
    · push_cast; rw [abs_le]; constructor <;> linarith
    · split
      · rw [abs_le]; constructor <;> linarith
      · push_cast; rw [abs_le]; constructor <;> linarith

theorem nearest_nonneg {x : ℚ} (hx : 0 ≤ x) : 0 ≤ nearest x := by
  have : 0 ≤ x.floor := Int.floor_nonneg.mpr hx
  unfold nearest
  dsimp only
  split
  · exact this
  · split
    · omega
    · split <;> omega

theorem ulp_pos (x : ℚ) : 0 < ulp x := pow2_pos _

theorem ulp_le {x : ℚ} (hx : 0 < x) : ulp x / 2 ≤ x / 2 ^ 24 + 1 / 2 ^ 150 := by
  unfold ulp
  rcases max_cases (expo x - 23) (-149) with ⟨h, _⟩ | ⟨h, _⟩
  · rw [h]
    have h1 := pow2_expo_le hx
    have : pow2 (expo x - 23) = pow2 (expo x) / 2 ^ 23 := by
      rw [pow2_eq, pow2_eq, zpow_sub₀ (by norm_num)]
      norm_num
    rw [this]
    have : (0 : ℚ) < 1 / 2 ^ 150 := by positivity
    have : pow2 (expo x) / 2 ^ 23 / 2 = pow2 (expo x) / 2 ^ 24 := by rw [div_div]; norm_num
    rw [this]
    have : pow2 (expo x) / 2 ^ 24 ≤ x / 2 ^ 24 := by gcongr
    linarith
  · rw [h]
    have e : pow2 (-149) / 2 = 1 / 2 ^ 150 := by rw [pow2_eq]; norm_num
    rw [e]
    have : 0 < x / 2 ^ 24 := by positivity
    linarith

theorem roundPos_err {x : ℚ} (hx : 0 < x) : |roundPos x - x| ≤ x / 2 ^ 24 + 1 / 2 ^ 150 := by
  unfold roundPos
  have h := nearest_err (x / ulp x)
  have hu := ulp_pos x
  have e : (nearest (x / ulp x) : ℚ) * ulp x - x = ((nearest (x / ulp x) : ℚ) - x / ulp x) * ulp x := by
    field_simp
  rw [e, abs_mul, abs_of_pos hu]
  calc _ ≤ 1 / 2 * ulp x := by gcongr
    _ = ulp x / 2 := by ring
    _ ≤ _ := ulp_le hx

theorem roundPos_nonneg {x : ℚ} (hx : 0 < x) : 0 ≤ roundPos x := by
  unfold roundPos
  have h1 := ulp_pos x
  have : 0 ≤ nearest (x / ulp x) := nearest_nonneg (by positivity)
  have : (0 : ℚ) ≤ nearest (x / ulp x) := by exact_mod_cast this
  positivity

/-- Rounding: the result is near, has the sign, and is infinite only for large numbers. -/
theorem round_cases (x : ℚ) :
    (∃ y, round x = .fin y ∧ |y - x| ≤ |x| / 2 ^ 24 + 1 / 2 ^ 150 ∧ (0 ≤ x → 0 ≤ y) ∧ |y| < 2 ^ 128) ∨
    (round x = .pinf ∧ 2 ^ 127 < x) ∨ (round x = .ninf ∧ x < -2 ^ 127) := by
  have hp : pow2 128 = 2 ^ 128 := by rw [pow2_eq]; norm_num
  unfold round
  split
  · rename_i h
    left
    exact ⟨0, rfl, by rw [h]; norm_num, fun _ => le_refl _, by norm_num⟩
  · split
    · rename_i h0
      split
      · rename_i h1
        exact .inl ⟨_, rfl, by rw [abs_of_pos h0]; exact roundPos_err h0, fun _ => roundPos_nonneg h0,
          by rw [abs_of_nonneg (roundPos_nonneg h0), ← hp]; exact h1⟩
      · rename_i h1
        refine .inr (.inl ⟨rfl, ?_⟩)
        rw [hp] at h1
        have := (abs_le.mp (roundPos_err h0)).2
        by_contra hc
        have : x / 2 ^ 24 ≤ 2 ^ 127 / 2 ^ 24 := by gcongr; exact not_lt.mp hc
        norm_num at this h1 hc ⊢
        linarith
    · rename_i hne h0
      have hx : 0 < -x := by
        rcases lt_trichotomy x 0 with h | h | h
        · linarith
        · exact absurd h hne
        · exact absurd h h0
      split
      · rename_i h1
        refine .inl ⟨_, rfl, ?_, fun h => by linarith, by
          rw [abs_neg, abs_of_nonneg (roundPos_nonneg hx), ← hp]; exact h1⟩
        have := roundPos_err hx
        rw [← abs_neg, show -(-roundPos (-x) - x) = roundPos (-x) - -x by ring,
          show |x| = -x by rw [abs_of_neg (by linarith)]]
        exact this
      · rename_i h1
        refine .inr (.inr ⟨rfl, ?_⟩)
        rw [hp] at h1
        have := (abs_le.mp (roundPos_err hx)).2
        by_contra hc
        have : -x / 2 ^ 24 ≤ 2 ^ 127 / 2 ^ 24 := by gcongr; linarith [not_lt.mp hc]
        norm_num at this h1 hc ⊢
        linarith

theorem sqrtPos_err {x : ℚ} (hx : 0 < x) : |((sqrtPos x : ℚ) : ℝ) - √(x : ℝ)| ≤ √(x : ℝ) / 2 ^ 24 := by
  unfold sqrtPos
  dsimp only
  set s := pow2 (expo x / 2 - 23) with hs
  set t := x / (s * s) with ht
  set n := Nat.sqrt t.floor.toNat with hn
  have spos : (0 : ℚ) < s := pow2_pos _
  have tpos : 0 < t := by positivity
  have fl0 : 0 ≤ t.floor := Int.floor_nonneg.mpr tpos.le
  have flt : ((t.floor.toNat : ℕ) : ℚ) = ((t.floor : ℤ) : ℚ) := by
    have : ((t.floor.toNat : ℕ) : ℤ) = t.floor := Int.toNat_of_nonneg fl0
    exact_mod_cast this
  have n1 : ((n * n : ℕ) : ℚ) ≤ t := by
    have h : n * n ≤ t.floor.toNat := Nat.sqrt_le _
    have : ((n * n : ℕ) : ℚ) ≤ ((t.floor.toNat : ℕ) : ℚ) := by exact_mod_cast h
    rw [flt] at this
    exact this.trans (Int.floor_le t)
  have n2 : t < ((n + 1 : ℕ) : ℚ) * ((n + 1 : ℕ) : ℚ) := by
    have h : t.floor.toNat < (n + 1) * (n + 1) := Nat.lt_succ_sqrt _
    have h' : t.floor.toNat + 1 ≤ (n + 1) * (n + 1) := h
    have : ((t.floor.toNat + 1 : ℕ) : ℚ) ≤ (((n + 1) * (n + 1) : ℕ) : ℚ) := by exact_mod_cast h'
    have h3 := Int.lt_floor_add_one t
    push_cast at this flt ⊢
    rw [flt] at this
    exact lt_of_lt_of_le h3 this
  -- the exact root in units of `s`
  have sR : (0 : ℝ) < (s : ℝ) := by exact_mod_cast spos
  have tR : (0 : ℝ) < (t : ℝ) := by exact_mod_cast tpos
  have hroot : √(x : ℝ) = √(t : ℝ) * s := by
    have : (x : ℝ) = (t : ℝ) * ((s : ℝ) * s) := by
      have : x = t * (s * s) := by rw [ht]; field_simp
      exact_mod_cast this
    rw [this, Real.sqrt_mul tR.le, Real.sqrt_mul_self sR.le]
  have n1' : (n : ℝ) ≤ √(t : ℝ) := by
    apply Real.le_sqrt_of_sq_le
    rw [sq]
    exact_mod_cast n1
  have n2' : √(t : ℝ) < n + 1 := by
    rw [Real.sqrt_lt' (by positivity), sq]
    exact_mod_cast n2
  -- half a unit is small
  have half : (s : ℝ) / 2 ≤ √(x : ℝ) / 2 ^ 24 := by
    have h1 : pow2 (expo x / 2) * pow2 (expo x / 2) ≤ x := by
      refine le_trans ?_ (pow2_expo_le hx)
      rw [pow2_eq, pow2_eq, ← zpow_add₀ (by norm_num)]
      exact zpow_le_zpow_right₀ (by norm_num) (by omega)
    have h2 : ((pow2 (expo x / 2) : ℚ) : ℝ) ≤ √(x : ℝ) := by
      apply Real.le_sqrt_of_sq_le
      rw [sq]
      exact_mod_cast h1
    have h3 : (s : ℝ) = ((pow2 (expo x / 2) : ℚ) : ℝ) / 2 ^ 23 := by
      have : s = pow2 (expo x / 2) / 2 ^ 23 := by
        rw [hs, pow2_eq, pow2_eq, zpow_sub₀ (by norm_num)]
        norm_num
      rw [this]
      push_cast
      rfl
    rw [h3, div_div]
    have : (2 : ℝ) ^ 23 * 2 = 2 ^ 24 := by norm_num
    rw [this]
    gcongr
  refine le_trans ?_ half
  rw [hroot]
  split
  · rename_i h
    have h' : √(t : ℝ) ≤ n + 1 / 2 := by
      rw [Real.sqrt_le_left (by positivity)]
      have : (t : ℝ) ≤ ((n * n + n + 1 / 4 : ℚ) : ℝ) := Rat.cast_le.mpr h
      push_cast at this
      nlinarith
    push_cast
    rw [← sub_mul, abs_mul, abs_of_pos sR, show (s : ℝ) / 2 = 1 / 2 * s by ring]
    gcongr
    rw [abs_le]; constructor <;> linarith
  · rename_i h
    have h' : (n : ℝ) + 1 / 2 ≤ √(t : ℝ) := by
      apply Real.le_sqrt_of_sq_le
      have : ((n * n + n + 1 / 4 : ℚ) : ℝ) < t := Rat.cast_lt.mpr (not_le.mp h)
      push_cast at this
      nlinarith
    push_cast
    rw [← sub_mul, abs_mul, abs_of_pos sR, show (s : ℝ) / 2 = 1 / 2 * s by ring]
    gcongr
    rw [abs_le]; constructor <;> linarith

/-- The number that a finite value stands for. -/
noncomputable def toReal (x : F32) : ℝ :=
  match x.val with
  | .fin q => (q : ℝ)
  | _ => 0

theorem finite_iff {x : F32} : Finite x ↔ ∃ q, x = ⟨.fin q⟩ := by
  constructor
  · intro h
    obtain ⟨q, hq⟩ := Ext.finite_iff.mp (show Finite x.val from h)
    exact ⟨q, by cases x; cases hq; rfl⟩
  · rintro ⟨q, rfl⟩
    exact ⟨rfl, rfl⟩

theorem posInf_iff {x : F32} : PosInf x ↔ x = ⟨.pinf⟩ := by
  have h0 : (lit 0 : F32) = ⟨.fin 0⟩ := by decide +kernel
  constructor
  · rintro ⟨_, h, h'⟩
    rcases x with ⟨q | _ | _ | _⟩
    · cases h
    · rfl
    · rw [h0] at h'; cases h'
    · cases h
  · rintro rfl
    exact ⟨rfl, rfl, by rw [h0]; rfl⟩

theorem toReal_fin (q : ℚ) : toReal ⟨.fin q⟩ = (q : ℝ) := rfl

theorem near_of {x y : ℚ} (h : |y - x| ≤ |x| / 2 ^ 24 + 1 / 2 ^ 150) : Near (y : ℝ) (x : ℝ) := by
  unfold Near ru rη
  have : ((|y - x| : ℚ) : ℝ) ≤ ((|x| / 2 ^ 24 + 1 / 2 ^ 150 : ℚ) : ℝ) := Rat.cast_le.mpr h
  push_cast at this
  linarith

/-- Everything about a rounded result. -/
theorem fl_fin (x : ℚ) :
    (Finite (fl (.fin x)) → Near (toReal (fl (.fin x))) (x : ℝ) ∧ ((0 : ℝ) ≤ x → 0 ≤ toReal (fl (.fin x))) ∧
      |toReal (fl (.fin x))| < 2 ^ 128) ∧
    (|(x : ℝ)| ≤ 2 ^ 127 → Finite (fl (.fin x))) ∧
    ((0 : ℝ) ≤ x → ¬Finite (fl (.fin x)) → PosInf (fl (.fin x))) := by
  show (Finite (⟨round x⟩ : F32) → Near (toReal ⟨round x⟩) (x : ℝ) ∧ ((0 : ℝ) ≤ x → 0 ≤ toReal ⟨round x⟩) ∧
      |toReal ⟨round x⟩| < 2 ^ 128) ∧
    (|(x : ℝ)| ≤ 2 ^ 127 → Finite (⟨round x⟩ : F32)) ∧
    ((0 : ℝ) ≤ x → ¬Finite (⟨round x⟩ : F32) → PosInf (⟨round x⟩ : F32))
  rcases round_cases x with ⟨y, h, h1, h2, h3⟩ | ⟨h, h1⟩ | ⟨h, h1⟩
  · rw [h]
    refine ⟨fun _ => ⟨near_of h1, fun h0 => ?_, ?_⟩, fun _ => finite_iff.mpr ⟨y, rfl⟩,
      fun _ hn => absurd (finite_iff.mpr ⟨y, rfl⟩) hn⟩
    · have : 0 ≤ x := by exact_mod_cast h0
      show (0 : ℝ) ≤ (y : ℝ)
      exact_mod_cast h2 this
    · show |(y : ℝ)| < 2 ^ 128
      exact_mod_cast h3
  · rw [h]
    refine ⟨fun hf => (by cases hf.2), fun hx => ?_, fun _ _ => posInf_iff.mpr rfl⟩
    have : (2 : ℝ) ^ 127 < (x : ℝ) := by exact_mod_cast h1
    have := (abs_le.mp hx).2
    linarith
  · rw [h]
    refine ⟨fun hf => (by cases hf.2), fun hx => ?_, fun h0 _ => ?_⟩
    · have : (x : ℝ) < -2 ^ 127 := by exact_mod_cast h1
      have := (abs_le.mp hx).1
      linarith
    · have : (x : ℝ) < -2 ^ 127 := by exact_mod_cast h1
      norm_num at this
      linarith

theorem add_eq (x y : ℚ) : (⟨.fin x⟩ : F32) +ᶠ ⟨.fin y⟩ = fl (.fin (x + y)) := rfl
theorem sub_eq (x y : ℚ) : (⟨.fin x⟩ : F32) -ᶠ ⟨.fin y⟩ = fl (.fin (x - y)) := by
  show fl (Scalar.sub (.fin x : Ext ℚ) (.fin y)) = _
  rw [Ext.sub_fin]
theorem mul_eq (x y : ℚ) : (⟨.fin x⟩ : F32) *ᶠ ⟨.fin y⟩ = fl (.fin (x * y)) := rfl
theorem div_eq (x : ℚ) {y : ℚ} (h : y ≠ 0) : (⟨.fin x⟩ : F32) /ᶠ ⟨.fin y⟩ = fl (.fin (x / y)) := by
  show fl (Scalar.div (.fin x : Ext ℚ) (.fin y)) = _
  rw [Ext.div_fin _ h]
theorem sqrt_eq {x : ℚ} (h : 0 ≤ x) : Scalar.sqrt (⟨.fin x⟩ : F32) = ⟨.fin (if x = 0 then 0 else sqrtPos x)⟩ := by
  show (⟨sqrt (.fin x)⟩ : F32) = _
  unfold sqrt
  dsimp only
  rw [if_neg (not_lt.mpr h)]
  split <;> rfl

theorem val_ne {y : ℚ} (h : toReal ⟨.fin y⟩ ≠ 0) : y ≠ 0 := by
  rintro rfl
  exact h (by simp [toReal_fin])

/-- binary32 obeys the laws. -/
noncomputable instance : Rounded F32 where
  val := toReal
  zero_finite := by decide +kernel
  zero_val := by
    rw [show (lit 0 : F32) = ⟨.fin 0⟩ by decide +kernel, toReal_fin]
    simp
  one_finite := by decide +kernel
  one_val := by
    rw [show (lit 1 : F32) = ⟨.fin 1⟩ by decide +kernel, toReal_fin]
    simp
  two_finite := by decide +kernel
  two_val := by
    rw [show (lit 2 : F32) = ⟨.fin 2⟩ by decide +kernel, toReal_fin]
    simp
  eps_finite := by decide +kernel
  eps_val := by
    have h := ((fl_fin (1 / 10000)).1 (by decide +kernel)).1
    push_cast at h
    exact h
  add_near := by
    intro x y hx hy hf
    obtain ⟨x, rfl⟩ := finite_iff.mp hx
    obtain ⟨y, rfl⟩ := finite_iff.mp hy
    rw [add_eq] at hf ⊢
    have := ((fl_fin _).1 hf).1
    push_cast at this
    exact this
  sub_near := by
    intro x y hx hy hf
    obtain ⟨x, rfl⟩ := finite_iff.mp hx
    obtain ⟨y, rfl⟩ := finite_iff.mp hy
    rw [sub_eq] at hf ⊢
    have := ((fl_fin _).1 hf).1
    push_cast at this
    exact this
  mul_near := by
    intro x y hx hy hf
    obtain ⟨x, rfl⟩ := finite_iff.mp hx
    obtain ⟨y, rfl⟩ := finite_iff.mp hy
    rw [mul_eq] at hf ⊢
    have := ((fl_fin _).1 hf).1
    push_cast at this
    exact this
  div_near := by
    intro x y hx hy h0 hf
    obtain ⟨x, rfl⟩ := finite_iff.mp hx
    obtain ⟨y, rfl⟩ := finite_iff.mp hy
    rw [div_eq _ (val_ne h0)] at hf ⊢
    have := ((fl_fin _).1 hf).1
    push_cast at this
    exact this
  add_nonneg := by
    intro x y hx hy hf h0
    obtain ⟨x, rfl⟩ := finite_iff.mp hx
    obtain ⟨y, rfl⟩ := finite_iff.mp hy
    rw [add_eq] at hf ⊢
    exact ((fl_fin _).1 hf).2.1 (by push_cast; exact h0)
  mul_nonneg := by
    intro x y hx hy hf h0
    obtain ⟨x, rfl⟩ := finite_iff.mp hx
    obtain ⟨y, rfl⟩ := finite_iff.mp hy
    rw [mul_eq] at hf ⊢
    exact ((fl_fin _).1 hf).2.1 (by push_cast; exact h0)
  add_finite := by
    intro x y hx hy h
    obtain ⟨x, rfl⟩ := finite_iff.mp hx
    obtain ⟨y, rfl⟩ := finite_iff.mp hy
    rw [add_eq]
    exact (fl_fin _).2.1 (by push_cast; exact h)
  sub_finite := by
    intro x y hx hy h
    obtain ⟨x, rfl⟩ := finite_iff.mp hx
    obtain ⟨y, rfl⟩ := finite_iff.mp hy
    rw [sub_eq]
    exact (fl_fin _).2.1 (by push_cast; exact h)
  mul_finite := by
    intro x y hx hy h
    obtain ⟨x, rfl⟩ := finite_iff.mp hx
    obtain ⟨y, rfl⟩ := finite_iff.mp hy
    rw [mul_eq]
    exact (fl_fin _).2.1 (by push_cast; exact h)
  div_finite := by
    intro x y hx hy h0 h
    obtain ⟨x, rfl⟩ := finite_iff.mp hx
    obtain ⟨y, rfl⟩ := finite_iff.mp hy
    rw [div_eq _ (val_ne h0)]
    exact (fl_fin _).2.1 (by push_cast; exact h)
  add_lt := by
    intro x y hx hy hf
    obtain ⟨x, rfl⟩ := finite_iff.mp hx
    obtain ⟨y, rfl⟩ := finite_iff.mp hy
    exact ((fl_fin _).1 hf).2.2
  mul_lt := by
    intro x y hx hy hf
    obtain ⟨x, rfl⟩ := finite_iff.mp hx
    obtain ⟨y, rfl⟩ := finite_iff.mp hy
    exact ((fl_fin _).1 hf).2.2
  sqrt_finite := by
    intro x hx h0
    obtain ⟨x, rfl⟩ := finite_iff.mp hx
    have h0' : 0 ≤ x := by exact_mod_cast (show (0 : ℝ) ≤ (x : ℝ) from h0)
    rw [sqrt_eq h0']
    exact finite_iff.mpr ⟨_, rfl⟩
  sqrt_near := by
    intro x hx h0
    obtain ⟨x, rfl⟩ := finite_iff.mp hx
    have h0' : 0 ≤ x := by exact_mod_cast (show (0 : ℝ) ≤ (x : ℝ) from h0)
    rw [sqrt_eq h0']
    split
    · rename_i h
      subst h
      simp [toReal_fin]
    · rename_i h
      have := sqrtPos_err (lt_of_le_of_ne h0' (Ne.symm h))
      rw [toReal_fin, toReal_fin]
      unfold ru
      linarith
  neg_finite := by
    intro x hx
    obtain ⟨x, rfl⟩ := finite_iff.mp hx
    exact finite_iff.mpr ⟨_, rfl⟩
  neg_val := by
    intro x hx
    obtain ⟨x, rfl⟩ := finite_iff.mp hx
    show (((-x : ℚ)) : ℝ) = -(x : ℝ)
    push_cast
    rfl
  abs_finite := by
    intro x hx
    obtain ⟨x, rfl⟩ := finite_iff.mp hx
    exact finite_iff.mpr ⟨_, rfl⟩
  abs_val := by
    intro x hx
    obtain ⟨x, rfl⟩ := finite_iff.mp hx
    show ((if 0 ≤ x then x else -x : ℚ) : ℝ) = |(x : ℝ)|
    split
    · rename_i h
      rw [abs_of_nonneg (by exact_mod_cast h)]
    · rename_i h
      rw [abs_of_neg (by exact_mod_cast not_le.mp h)]
      push_cast
      rfl
  lt_val := by
    intro x y hx hy
    obtain ⟨x, rfl⟩ := finite_iff.mp hx
    obtain ⟨y, rfl⟩ := finite_iff.mp hy
    show decide (x < y) = true ↔ (x : ℝ) < (y : ℝ)
    rw [decide_eq_true_iff]
    exact Rat.cast_lt.symm
  le_val := by
    intro x y hx hy
    obtain ⟨x, rfl⟩ := finite_iff.mp hx
    obtain ⟨y, rfl⟩ := finite_iff.mp hy
    show decide (x ≤ y) = true ↔ (x : ℝ) ≤ (y : ℝ)
    rw [decide_eq_true_iff]
    exact Rat.cast_le.symm
  mul_inf := by
    intro x y hx hy h hf
    obtain ⟨x, rfl⟩ := finite_iff.mp hx
    obtain ⟨y, rfl⟩ := finite_iff.mp hy
    rw [mul_eq] at hf ⊢
    exact (fl_fin _).2.2 (by push_cast; exact h) hf
  add_inf := by
    intro x y hx hy h hf
    obtain ⟨x, rfl⟩ := finite_iff.mp hx
    obtain ⟨y, rfl⟩ := finite_iff.mp hy
    rw [add_eq] at hf ⊢
    exact (fl_fin _).2.2 (by push_cast; exact h) hf
  inf_add := by
    intro x y hx hy
    rw [posInf_iff] at hx
    subst hx
    rw [posInf_iff]
    rcases hy with hy | hy
    · obtain ⟨y, rfl⟩ := finite_iff.mp hy; rfl
    · rw [posInf_iff] at hy; subst hy; rfl
  fin_add_inf := by
    intro x y hx hy
    rw [posInf_iff] at hy
    subst hy
    rw [posInf_iff]
    obtain ⟨x, rfl⟩ := finite_iff.mp hx; rfl
  sqrt_inf := by
    intro x hx
    rw [posInf_iff] at hx
    subst hx
    rw [posInf_iff]
    rfl
  div_inf := by
    intro x y hx hy
    rw [posInf_iff] at hy
    subst hy
    obtain ⟨x, rfl⟩ := finite_iff.mp hx
    have : (⟨.fin x⟩ : F32) /ᶠ ⟨.pinf⟩ = ⟨.fin 0⟩ := rfl
    rw [this]
    exact ⟨⟨rfl, rfl⟩, by simp [toReal_fin]⟩
  inf_le := by
    intro x y hx hy
    rw [posInf_iff] at hx
    subst hx
    obtain ⟨y, rfl⟩ := finite_iff.mp hy
    rfl
  lt_inf := by
    intro x y hx hy
    rw [posInf_iff] at hy
    subst hy
    obtain ⟨x, rfl⟩ := finite_iff.mp hx
    rfl

/-- binary32 with any mathematical library: only `sqrtf` is required to be correct. -/
@[reducible] noncomputable def withLibm (sin cos acos asin exp : F32 → F32) (atan2 pow : F32 → F32 → F32) :
    Scalar F32 :=
  { (inferInstance : Scalar F32) with
    sin := sin, cos := cos, acos := acos, asin := asin, exp := exp, atan2 := atan2, pow := pow }

/-- The laws do not depend on the library. -/
@[reducible] noncomputable def withLibm_rounded (sin cos acos asin exp : F32 → F32) (atan2 pow : F32 → F32 → F32) :
    @Rounded F32 (withLibm sin cos acos asin exp atan2 pow) :=
  let r : Rounded F32 := inferInstance
  @Rounded.mk F32 (withLibm sin cos acos asin exp atan2 pow) toReal
    r.zero_finite r.zero_val r.one_finite r.one_val r.two_finite r.two_val r.eps_finite
    r.eps_val r.add_near r.sub_near r.mul_near r.div_near r.add_nonneg r.mul_nonneg
    r.add_finite r.sub_finite r.mul_finite r.div_finite r.add_lt r.mul_lt r.sqrt_finite r.sqrt_near r.neg_finite
    r.neg_val r.abs_finite r.abs_val r.lt_val r.le_val r.mul_inf r.add_inf r.inf_add
    r.fin_add_inf r.sqrt_inf r.div_inf r.inf_le r.lt_inf

end F32
end Verif
