import Verif.Props.RoundedDcm

/-
The AM mode of the AQUA filter in binary32 (C89).
-/

set_option linter.unusedSectionVars false

namespace Verif
open Scalar Finset

variable {F : Type} [Scalar F] [R : Rounded F]

/-! ### Propagation of errors -/

/-- `x` is finite and within `e` of `X`. -/
def Apx (x : F) (X e : ℝ) : Prop := Finite x ∧ |⟪x⟫ - X| ≤ e

theorem Apx.mono {x : F} {X e e' : ℝ} (h : Apx x X e) (he : e ≤ e') : Apx x X e' := ⟨h.1, h.2.trans he⟩

theorem Apx.exact {x : F} (h : Finite x) : Apx x ⟪x⟫ 0 := ⟨h, by simp⟩

theorem Apx.le {x : F} {X e B : ℝ} (h : Apx x X e) (hX : |X| ≤ B) : |⟪x⟫| ≤ B + e := le_of_dist hX h.2

theorem le_big {t : ℝ} (h : t ≤ 2 ^ 100) : t ≤ 2 ^ 127 := h.trans (by norm_num)

theorem Apx.add {x y : F} {X Y a b B : ℝ} (hx : Apx x X a) (hy : Apx y Y b) (hB : |X + Y| ≤ B)
    (hbig : B + (a + b) ≤ 2 ^ 100) : Apx (x +ᶠ y) (X + Y) (a + b + (B + (a + b)) / 16777216 + rη) := by
  have e : |⟪x⟫ + ⟪y⟫ - (X + Y)| ≤ a + b := by
    rw [add_sub_add_comm]
    exact (abs_add_le _ _).trans (add_le_add hx.2 hy.2)
  have h := le_of_dist hB e
  have f := R.add_finite hx.1 hy.1 (le_big (h.trans hbig))
  have e2 := (R.add_near hx.1 hy.1 f).bound
  refine ⟨f, (dist_trans e2 e).trans ?_⟩
  linarith

theorem Apx.sub {x y : F} {X Y a b B : ℝ} (hx : Apx x X a) (hy : Apx y Y b) (hB : |X - Y| ≤ B)
    (hbig : B + (a + b) ≤ 2 ^ 100) : Apx (x -ᶠ y) (X - Y) (a + b + (B + (a + b)) / 16777216 + rη) := by
  have e : |⟪x⟫ - ⟪y⟫ - (X - Y)| ≤ a + b := by
    rw [sub_sub_sub_comm]
    exact (abs_sub _ _).trans (add_le_add hx.2 hy.2)
  have h := le_of_dist hB e
  have f := R.sub_finite hx.1 hy.1 (le_big (h.trans hbig))
  have e2 := (R.sub_near hx.1 hy.1 f).bound
  refine ⟨f, (dist_trans e2 e).trans ?_⟩
  linarith

theorem Apx.mul {x y : F} {X Y a b A B : ℝ} (hx : Apx x X a) (hy : Apx y Y b) (hA : |X| ≤ A) (hB : |Y| ≤ B)
    (hbig : A * B + (A * b + a * (B + b)) ≤ 2 ^ 100) :
    Apx (x *ᶠ y) (X * Y) (A * b + a * (B + b) + (A * B + (A * b + a * (B + b))) / 16777216 + rη) := by
  have ha : 0 ≤ a := (abs_nonneg _).trans hx.2
  have hb : 0 ≤ b := (abs_nonneg _).trans hy.2
  have hA0 : 0 ≤ A := (abs_nonneg _).trans hA
  have hB0 : 0 ≤ B := (abs_nonneg _).trans hB
  have e : |⟪x⟫ * ⟪y⟫ - X * Y| ≤ A * b + a * (B + b) := by
    rw [show ⟪x⟫ * ⟪y⟫ - X * Y = X * (⟪y⟫ - Y) + (⟪x⟫ - X) * ⟪y⟫ by ring]
    refine (abs_add_le _ _).trans ?_
    rw [abs_mul, abs_mul]
    have h1 := hy.le hB
    have h2 := hx.2
    have h3 := hy.2
    gcongr
  have hXY : |X * Y| ≤ A * B := by rw [abs_mul]; gcongr
  have h := le_of_dist hXY e
  have f := R.mul_finite hx.1 hy.1 (le_big (h.trans hbig))
  have e2 := (R.mul_near hx.1 hy.1 f).bound
  refine ⟨f, (dist_trans e2 e).trans ?_⟩
  linarith

/-- A quotient of perturbed numbers. -/
theorem quot_dist {x y X Y a b m c : ℝ} (hx : |x - X| ≤ a) (hy : |y - Y| ≤ b) (hm : m ≤ Y) (hb : b < m)
    (hc : |X / Y| ≤ c) : |x / y - X / Y| ≤ (a + c * b) / (m - b) := by
  have hb0 : 0 ≤ b := (abs_nonneg _).trans hy
  have hY : 0 < Y := by linarith
  have hy1 : m - b ≤ y := by linarith [(abs_le.mp hy).1]
  have hy0 : 0 < y := by linarith
  have e : x / y - X / Y = ((x - X) - X / Y * (y - Y)) / y := by
    field_simp
    ring
  have h : |(x - X) - X / Y * (y - Y)| ≤ a + c * b := by
    refine (abs_sub _ _).trans ?_
    rw [abs_mul]
    have := (abs_nonneg _).trans hc
    gcongr
  rw [e, abs_div, abs_of_pos hy0]
  have h0 := (abs_nonneg _).trans h
  gcongr

theorem Apx.div {x y : F} {X Y a b m c E : ℝ} (hx : Apx x X a) (hy : Apx y Y b) (hm : m ≤ Y) (hb : b < m)
    (hc : |X / Y| ≤ c) (hE : a + c * b ≤ E * (m - b)) (hbig : c + E ≤ 2 ^ 100) :
    Apx (x /ᶠ y) (X / Y) (E + (c + E) / 16777216 + rη) := by
  have e : |⟪x⟫ / ⟪y⟫ - X / Y| ≤ E := (quot_dist hx.2 hy.2 hm hb hc).trans (by
    rw [div_le_iff₀ (by linarith)]
    exact hE)
  have hy0 : 0 < ⟪y⟫ := by linarith [(abs_le.mp hy.2).1]
  have h := le_of_dist hc e
  have f := R.div_finite hx.1 hy.1 hy0.ne' (le_big (h.trans hbig))
  have e2 := (R.div_near hx.1 hy.1 hy0.ne' f).bound
  refine ⟨f, (dist_trans e2 e).trans ?_⟩
  linarith

/-- The square root of a perturbed square. -/
theorem sqrt_dist {x Y a : ℝ} (hY : 0 < Y) (hx : |x - Y ^ 2| ≤ a) (ha : a ≤ Y ^ 2 / 10) :
    |√x - Y| ≤ a / (19 / 10 * Y) := by
  have hx0 : 81 / 100 * Y ^ 2 ≤ x := by
    have := (abs_le.mp hx).1
    have := sq_nonneg Y
    linarith
  have hx1 : 0 ≤ x := (by positivity : 0 ≤ 81 / 100 * Y ^ 2).trans hx0
  have hs : 9 / 10 * Y ≤ √x := by
    refine Real.le_sqrt_of_sq_le ?_
    linarith [show (9 / 10 * Y) ^ 2 = 81 / 100 * Y ^ 2 by ring]
  rw [le_div_iff₀ (by positivity)]
  have e : (√x - Y) * (√x + Y) = x - Y ^ 2 := by
    have := Real.sq_sqrt hx1
    linear_combination this
  calc |√x - Y| * (19 / 10 * Y) ≤ |√x - Y| * (√x + Y) := by gcongr; linarith
    _ = |x - Y ^ 2| := by rw [← e, abs_mul, abs_of_nonneg (show 0 ≤ √x + Y by linarith)]
    _ ≤ a := hx

theorem Apx.sqrt {x : F} {Y a E : ℝ} (hx : Apx x (Y ^ 2) a) (hY : 0 < Y) (ha : a ≤ Y ^ 2 / 10)
    (hE : a ≤ E * (19 / 10 * Y)) : Apx (Scalar.sqrt x) Y (E + (Y + E) / 16777216) := by
  have hx0 : 0 ≤ ⟪x⟫ := by
    have := (abs_le.mp hx.2).1
    have := sq_nonneg Y
    linarith
  have e : |√⟪x⟫ - Y| ≤ E := (sqrt_dist hY hx.2 ha).trans (by
    rw [div_le_iff₀ (by positivity)]
    exact hE)
  have h := R.sqrt_near hx.1 hx0
  have hu : ru = 1 / 16777216 := by unfold ru; norm_num
  have h2 := le_of_dist (le_of_eq (abs_of_pos hY)) e
  rw [abs_of_nonneg (Real.sqrt_nonneg _)] at h2
  refine ⟨R.sqrt_finite hx.1 hx0, (dist_trans h e).trans ?_⟩
  rw [hu]
  linarith

theorem Apx.neg {x : F} {X a : ℝ} (hx : Apx x X a) : Apx (Scalar.neg x) (-X) a := by
  refine ⟨R.neg_finite hx.1, ?_⟩
  rw [R.neg_val hx.1, show -⟪x⟫ - -X = -(⟪x⟫ - X) by ring, abs_neg]
  exact hx.2

theorem Apx.two : Apx (lit 2 : F) 2 0 := ⟨R.two_finite, by rw [R.two_val]; simp⟩
theorem Apx.one : Apx (lit 1 : F) 1 0 := ⟨R.one_finite, by rw [R.one_val]; simp⟩
theorem Apx.zero : Apx (lit 0 : F) 0 0 := ⟨R.zero_finite, by rw [R.zero_val]; simp⟩

namespace Aqua

/-! ### The quaternion of the acceleration -/

/-- Half of `1 + c` under the root, and a quotient by it. -/
theorem half_acc {t : F} {c : ℝ} (ht : Apx t (1 + c) (113 / 10 ^ 8)) (h0 : 0 ≤ c) (h1 : c ≤ 1) :
    Apx (Scalar.sqrt (t /ᶠ lit 2)) √((1 + c) / 2) (55 / 10 ^ 8) ∧
      ∀ {y : F} {Y : ℝ}, Apx y Y (1 / 10 ^ 6) → |Y| ≤ 1 →
        Apx (y /ᶠ (lit 2 *ᶠ Scalar.sqrt (t /ᶠ lit 2))) (Y / (2 * √((1 + c) / 2))) (141 / 10 ^ 8) := by
  have hη := rη_pos
  have hη' := rη_le
  norm_num at hη'
  have hl2 : √((1 + c) / 2) ^ 2 = (1 + c) / 2 := Real.sq_sqrt (by linarith)
  have hl1 : 7071 / 10000 ≤ √((1 + c) / 2) := Real.le_sqrt_of_sq_le (by norm_num; linarith)
  have hl3 : √((1 + c) / 2) ≤ 1 := Real.sqrt_le_one.mpr (by linarith)
  have a1 : Apx (t /ᶠ lit 2) ((1 + c) / 2) (63 / 10 ^ 8) := by
    refine (ht.div Apx.two (m := 2) (c := 1) (E := 565 / 10 ^ 9) le_rfl (by norm_num) ?_ (by norm_num) (by norm_num)).mono ?_
    · rw [abs_of_nonneg (by linarith)]
      linarith
    · norm_num
      linarith
  rw [← hl2] at a1
  generalize √((1 + c) / 2) = l at *
  have a2 : Apx (Scalar.sqrt (t /ᶠ lit 2)) l (55 / 10 ^ 8) := by
    refine (a1.sqrt (E := 47 / 10 ^ 8) (by linarith) ?_ ?_).mono ?_
    · nlinarith
    · linarith
    · linarith
  refine ⟨a2, fun {y Y} hy hY => ?_⟩
  have a3 : Apx (lit 2 *ᶠ Scalar.sqrt (t /ᶠ lit 2)) (2 * l) (125 / 10 ^ 8) := by
    refine (Apx.two.mul a2 (A := 2) (B := 1) (by norm_num) ?_ (by norm_num)).mono ?_
    · rw [abs_of_nonneg (by linarith)]
      exact hl3
    · norm_num
      linarith
  refine (hy.div a3 (m := 14142 / 10000) (c := 7072 / 10000) (E := 134 / 10 ^ 8) (by linarith) (by norm_num) ?_
    (by norm_num) (by norm_num)).mono ?_
  · rw [abs_div, abs_of_pos (show 0 < 2 * l by linarith), div_le_iff₀ (by linarith)]
    linarith
  · norm_num
    linarith

/-- The components of a 4-tuple as a quaternion. -/
noncomputable def quadQ (p : F × F × F × F) : Quaternion ℝ := mkQ ⟪p.1⟫ ⟪p.2.1⟫ ⟪p.2.2.1⟫ ⟪p.2.2.2⟫

def Finite4 (p : F × F × F × F) : Prop := Finite p.1 ∧ Finite p.2.1 ∧ Finite p.2.2.1 ∧ Finite p.2.2.2

/-- The partial quaternion from a direction that is nearly known. -/
theorem acc_acc {x y z : F} {g : Fin 3 → ℝ} (hg : norm3 g = 1) (hx : Apx x (g 0) (1 / 10 ^ 6)) (hy : Apx y (g 1) (1 / 10 ^ 6))
    (hz : Apx z (g 2) (1 / 10 ^ 6)) (hs : ⟪z⟫ < 0 ↔ g 2 < 0) :
    Finite4 (accQuaternion x y z) ∧ ‖quadQ (accQuaternion x y z) - accQ g‖ ≤ 282 / 10 ^ 8 := by
  have hη := rη_pos
  have hη' := rη_le
  norm_num at hη'
  have hs3 : g 0 ^ 2 + g 1 ^ 2 + g 2 ^ 2 = 1 := by rw [← norm3_sq, hg]; norm_num
  have le1 : ∀ {t : ℝ}, t ^ 2 ≤ 1 → |t| ≤ 1 := fun h => by
    rw [← abs_one]
    exact sq_le_sq.mp (by simpa using h)
  have g0 : |g 0| ≤ 1 := le1 (by nlinarith [sq_nonneg (g 1), sq_nonneg (g 2)])
  have g1 : |g 1| ≤ 1 := le1 (by nlinarith [sq_nonneg (g 0), sq_nonneg (g 2)])
  have g2 : |g 2| ≤ 1 := le1 (by nlinarith [sq_nonneg (g 0), sq_nonneg (g 1)])
  have g0' : |-g 0| ≤ 1 := by rwa [abs_neg]
  have e0 : ∀ {t : F} {T : ℝ}, Apx t T (55 / 10 ^ 8) → |⟪t⟫ - T| ≤ 141 / 10 ^ 8 := fun h => h.2.trans (by norm_num)
  have z0 : |⟪(lit 0 : F)⟫ - 0| ≤ 141 / 10 ^ 8 := by rw [R.zero_val]; norm_num
  unfold accQuaternion accQ
  by_cases h : g 2 < 0
  · have hlt : (z <ᶠ lit 0) = true := (R.lt_val hz.1 R.zero_finite).mpr (by rw [R.zero_val]; exact hs.mpr h)
    rw [if_pos hlt, if_pos h]
    have ht : Apx (lit 1 -ᶠ z) (1 + -g 2) (113 / 10 ^ 8) := by
      rw [← sub_eq_add_neg]
      refine (Apx.one.sub hz (B := 2) ?_ (by norm_num)).mono ?_
      · rw [abs_le] at g2 ⊢
        constructor <;> linarith
      · norm_num
        linarith
    obtain ⟨k1, k2⟩ := half_acc ht (by linarith) (by linarith [(abs_le.mp g2).1])
    rw [← sub_eq_add_neg] at k1 k2
    have k3 := k2 hy g1
    have k4 := k2 hx.neg g0'
    refine ⟨⟨k1.1, k3.1, k4.1, R.zero_finite⟩, ?_⟩
    refine (norm_le_two (e := 141 / 10 ^ 8) ?_ ?_ ?_ ?_).trans (by norm_num)
    · simpa [quadQ] using e0 k1
    · simpa [quadQ] using k3.2
    · simpa [quadQ] using k4.2
    · simpa [quadQ] using z0
  · have hlt : ¬ (z <ᶠ lit 0) = true := by
      rw [R.lt_val hz.1 R.zero_finite, R.zero_val]
      exact fun h' => h (hs.mp h')
    rw [if_neg hlt, if_neg h]
    have ht : Apx (lit 1 +ᶠ z) (1 + g 2) (113 / 10 ^ 8) := by
      refine (Apx.one.add hz (B := 2) ?_ (by norm_num)).mono ?_
      · rw [abs_le] at g2 ⊢
        constructor <;> linarith
      · norm_num
        linarith
    obtain ⟨k1, k2⟩ := half_acc ht (by linarith) (by linarith [(abs_le.mp g2).2])
    have k3 := k2 hy g1
    have k4 := k2 hx.neg g0'
    refine ⟨⟨k3.1, k1.1, R.zero_finite, k4.1⟩, ?_⟩
    refine (norm_le_two (e := 141 / 10 ^ 8) ?_ ?_ ?_ ?_).trans (by norm_num)
    · simpa [quadQ] using k3.2
    · simpa [quadQ] using e0 k1
    · simpa [quadQ] using z0
    · simpa [quadQ] using k4.2

/-! ### The quaternion of the field -/

/-- The common part of the two forms: `c` is the absolute value of the first horizontal component, `k2` the
number under the root. -/
theorem mag_core {y gamma k2 : F} {r c : ℝ} (hr : 1 / 10 ^ 5 ≤ r) (hr1 : r ≤ 2) (hc0 : 0 ≤ c) (hcr : c ≤ r)
    (hy : Finite y) (hyr : |⟪y⟫| ≤ r) (hg : Apx gamma (r ^ 2) (21 / 10 / 16777216 * r ^ 2))
    (hk : Apx k2 (r ^ 2 + c * r) (77 / 10 / 16777216 * r ^ 2)) :
    Apx (Scalar.sqrt k2 /ᶠ Scalar.sqrt (lit 2 *ᶠ gamma)) (√(r ^ 2 + c * r) / √(2 * r ^ 2)) (9 / 16777216) ∧
      Apx (y /ᶠ (Scalar.sqrt (lit 2) *ᶠ Scalar.sqrt k2)) (⟪y⟫ / (√2 * √(r ^ 2 + c * r))) (9 / 16777216) := by
  have hη := rη_pos
  have hη' := rη_le
  norm_num at hη'
  have hr0 : 0 < r := lt_of_lt_of_le (by norm_num) hr
  have hrr : 1 / 10 ^ 10 ≤ r ^ 2 := by norm_num at hr ⊢; nlinarith
  norm_num at hrr
  have hrr4 : r ^ 2 ≤ 4 := by nlinarith
  have hcr2 : c * r ≤ r ^ 2 := by nlinarith
  have hcr0 : 0 ≤ c * r := by positivity
  -- the roots of the exact expressions
  have hK2 : √(r ^ 2 + c * r) ^ 2 = r ^ 2 + c * r := Real.sq_sqrt (by positivity)
  have hK1 : r ≤ √(r ^ 2 + c * r) := Real.le_sqrt_of_sq_le (by linarith)
  have hK3 : √(r ^ 2 + c * r) ≤ 14143 / 10000 * r := Real.sqrt_le_iff.mpr ⟨by positivity, by nlinarith⟩
  have hd2 : √(2 * r ^ 2) ^ 2 = 2 * r ^ 2 := Real.sq_sqrt (by positivity)
  have hd1 : 14142 / 10000 * r ≤ √(2 * r ^ 2) := Real.le_sqrt_of_sq_le (by nlinarith)
  have hd3 : √(2 * r ^ 2) ≤ 14143 / 10000 * r := Real.sqrt_le_iff.mpr ⟨by positivity, by nlinarith⟩
  have ht2 : √(2 : ℝ) ^ 2 = 2 := Real.sq_sqrt (by norm_num)
  have ht1 : 14142 / 10000 ≤ √(2 : ℝ) := Real.le_sqrt_of_sq_le (by norm_num)
  have ht3 : √(2 : ℝ) ≤ 14143 / 10000 := Real.sqrt_le_iff.mpr ⟨by norm_num, by norm_num⟩
  -- the computed ones
  have ad : Apx (lit 2 *ᶠ gamma) (2 * r ^ 2) (63 / 10 / 16777216 * r ^ 2) := by
    refine (Apx.two.mul hg (A := 2) (B := r ^ 2) (by norm_num) (le_of_eq (abs_of_nonneg (by positivity))) ?_).mono ?_
    · norm_num
      linarith
    · linarith
  have at_ : Apx (Scalar.sqrt (lit 2 : F)) √2 (15 / 10 / 16777216) := by
    have h2 : Apx (lit 2 : F) (√2 ^ 2) 0 := by rw [ht2]; exact Apx.two
    refine (h2.sqrt (E := 0) (by linarith) (by positivity) (by simp)).mono ?_
    linarith
  rw [← hK2] at hk
  rw [← hd2] at ad
  generalize √(r ^ 2 + c * r) = K at *
  generalize √(2 * r ^ 2) = d at *
  generalize √(2 : ℝ) = t at *
  have ak : Apx (Scalar.sqrt k2) K (55 / 10 / 16777216 * r) := by
    refine (hk.sqrt (E := 406 / 100 / 16777216 * r) (by linarith) ?_ ?_).mono ?_
    · nlinarith
    · nlinarith
    · linarith
  have ad' : Apx (Scalar.sqrt (lit 2 *ᶠ gamma)) d (39 / 10 / 16777216 * r) := by
    refine (ad.sqrt (E := 24 / 10 / 16777216 * r) (by linarith) ?_ ?_).mono ?_
    · nlinarith
    · nlinarith
    · linarith
  constructor
  · refine (ak.div ad' (m := 14142 / 10000 * r) (c := 10001 / 10000) (E := 67 / 10 / 16777216) hd1 (by linarith) ?_ ?_
      (by norm_num)).mono ?_
    · rw [abs_div, abs_of_pos (show 0 < d by linarith), abs_of_pos (show 0 < K by linarith), div_le_iff₀ (by linarith)]
      linarith
    · linarith
    · norm_num
      linarith
  · have am : Apx (Scalar.sqrt (lit 2) *ᶠ Scalar.sqrt k2) (t * K) (13 / 16777216 * r) := by
      refine (at_.mul ak (A := 14143 / 10000) (B := 14143 / 10000 * r) ?_ ?_ ?_).mono ?_
      · rw [abs_of_nonneg (by linarith)]
        exact ht3
      · rw [abs_of_nonneg (by linarith)]
        exact hK3
      · norm_num
        linarith
      · linarith
    have hm : 14142 / 10000 * r ≤ t * K := by
      have : 14142 / 10000 * r ≤ 14142 / 10000 * K := by linarith
      have h2 : 14142 / 10000 * K ≤ t * K := by
        have : 0 ≤ K := by linarith
        gcongr
      linarith
    refine ((Apx.exact hy).div am (m := 14142 / 10000 * r) (c := 7072 / 10000) (E := 66 / 10 / 16777216) hm (by linarith) ?_ ?_
      (by norm_num)).mono ?_
    · rw [abs_div, abs_of_pos (show 0 < t * K by linarith), div_le_iff₀ (by linarith)]
      linarith
    · linarith
    · norm_num
      linarith

/-- The heading quaternion for a horizontal field that is not tiny. -/
theorem mag_acc {x y : F} (hx : Finite x) (hy : Finite y) {r : ℝ} (hrd : r = √(⟪x⟫ * ⟪x⟫ + ⟪y⟫ * ⟪y⟫)) (hr : 1 / 10 ^ 5 ≤ r)
    (hr1 : r ≤ 2) :
    Finite4 (if x ≥ᶠ lit 0 then magQuaternionPos x y (x *ᶠ x +ᶠ y *ᶠ y) else magQuaternionNeg x y (x *ᶠ x +ᶠ y *ᶠ y)) ∧
      ‖quadQ (if x ≥ᶠ lit 0 then magQuaternionPos x y (x *ᶠ x +ᶠ y *ᶠ y) else magQuaternionNeg x y (x *ᶠ x +ᶠ y *ᶠ y)) -
        (if 0 ≤ ⟪x⟫ then magPos ⟪x⟫ ⟪y⟫ else magNeg ⟪x⟫ ⟪y⟫)‖ ≤ 108 / 10 ^ 8 := by
  have hη := rη_pos
  have hη' := rη_le
  norm_num at hη'
  have x0 := mul_self_nonneg ⟪x⟫
  have y0 := mul_self_nonneg ⟪y⟫
  have hr0 : 0 < r := lt_of_lt_of_le (by norm_num) hr
  have hr2 : r ^ 2 = ⟪x⟫ * ⟪x⟫ + ⟪y⟫ * ⟪y⟫ := by rw [hrd, Real.sq_sqrt (by linarith)]
  have hrr : 1 / 10 ^ 10 ≤ r ^ 2 := by norm_num at hr ⊢; nlinarith
  norm_num at hrr
  have hrr4 : r ^ 2 ≤ 4 := by nlinarith
  have hxr : |⟪x⟫| ≤ r := abs_le_of_sq_le_sq (by nlinarith) hr0.le
  have hyr : |⟪y⟫| ≤ r := abs_le_of_sq_le_sq (by nlinarith) hr0.le
  -- the square
  have ag : Apx (x *ᶠ x +ᶠ y *ᶠ y) (r ^ 2) (21 / 10 / 16777216 * r ^ 2) := by
    obtain ⟨f, e⟩ := pair_acc false hx hy hx hy (A := r ^ 2) (by norm_num; linarith)
      (by rw [abs_of_nonneg x0, abs_of_nonneg y0, hr2])
    simp only [addsub, sgn, Bool.false_eq_true, if_false, one_mul, ← hr2] at f e
    refine ⟨f, e.trans ?_⟩
    linarith
  have as : Apx (Scalar.sqrt (x *ᶠ x +ᶠ y *ᶠ y)) r (22 / 10 / 16777216 * r) := by
    refine (ag.sqrt (E := 1106 / 1000 / 16777216 * r) hr0 (by linarith) (by linarith)).mono ?_
    linarith
  have ap : Apx (x *ᶠ Scalar.sqrt (x *ᶠ x +ᶠ y *ᶠ y)) (⟪x⟫ * r) (33 / 10 / 16777216 * r ^ 2) := by
    refine ((Apx.exact hx).mul as (A := r) (B := r) hxr (le_of_eq (abs_of_pos hr0)) ?_).mono ?_
    · norm_num
      nlinarith
    · nlinarith
  have big : (2 : ℝ) ^ 100 = 1267650600228229401496703205376 := by norm_num
  have hxr' := abs_le.mp hxr
  have z0 : |⟪(lit 0 : F)⟫ - 0| ≤ 9 / 16777216 := by rw [R.zero_val]; norm_num
  have h2r : r * r = r ^ 2 := (sq r).symm
  by_cases h : 0 ≤ ⟪x⟫
  · have hge : (x ≥ᶠ lit 0) = true := (R.le_val R.zero_finite hx).mpr (by rw [R.zero_val]; exact h)
    rw [if_pos hge, if_pos h]
    have hk : Apx (x *ᶠ x +ᶠ y *ᶠ y +ᶠ x *ᶠ Scalar.sqrt (x *ᶠ x +ᶠ y *ᶠ y)) (r ^ 2 + ⟪x⟫ * r) (77 / 10 / 16777216 * r ^ 2) := by
      refine (ag.add ap (B := 2 * r ^ 2) ?_ (by rw [big]; linarith)).mono ?_
      · rw [abs_of_nonneg (by positivity)]
        nlinarith
      · linarith
    obtain ⟨k1, k2⟩ := mag_core hr hr1 h hxr'.2 hy hyr ag hk
    unfold magQuaternionPos magPos
    rw [← hr2, Real.sqrt_sq hr0.le]
    refine ⟨⟨k1.1, R.zero_finite, R.zero_finite, k2.1⟩, ?_⟩
    refine (norm_le_two (e := 9 / 16777216) ?_ ?_ ?_ ?_).trans (by norm_num)
    · simpa [quadQ] using k1.2
    · simpa [quadQ] using z0
    · simpa [quadQ] using z0
    · simpa [quadQ] using k2.2
  · have hge : ¬ (x ≥ᶠ lit 0) = true := by
      rw [R.le_val R.zero_finite hx, R.zero_val]
      exact h
    rw [if_neg hge, if_neg h]
    have h := not_le.mp h
    have hk : Apx (x *ᶠ x +ᶠ y *ᶠ y -ᶠ x *ᶠ Scalar.sqrt (x *ᶠ x +ᶠ y *ᶠ y)) (r ^ 2 + -⟪x⟫ * r) (77 / 10 / 16777216 * r ^ 2) := by
      rw [neg_mul, ← sub_eq_add_neg]
      refine (ag.sub ap (B := 2 * r ^ 2) ?_ (by rw [big]; linarith)).mono ?_
      · rw [abs_of_nonneg (by nlinarith)]
        nlinarith
      · linarith
    obtain ⟨k1, k2⟩ := mag_core hr hr1 (neg_nonneg.mpr h.le) (by linarith [hxr'.1]) hy hyr ag hk
    rw [neg_mul, ← sub_eq_add_neg] at k1 k2
    unfold magQuaternionNeg magNeg
    rw [← hr2, Real.sqrt_sq hr0.le]
    refine ⟨⟨k2.1, R.zero_finite, R.zero_finite, k1.1⟩, ?_⟩
    refine (norm_le_two (e := 9 / 16777216) ?_ ?_ ?_ ?_).trans (by norm_num)
    · simpa [quadQ] using k2.2
    · simpa [quadQ] using z0
    · simpa [quadQ] using z0
    · simpa [quadQ] using k1.2

end Aqua
end Verif
