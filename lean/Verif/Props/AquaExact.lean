import Verif.Props.Aqua
import Verif.Props.ArExact
import Verif.Props.Rotation

/-
Claims about the AQUA filter in exact arithmetic: unit attitudes (C54), the adaptive gain (C55, C56),
what an AM update computes (C69).
-/

set_option linter.unusedSectionVars false
set_option linter.unusedSimpArgs false

namespace Verif
open Scalar

/-- The corrected acceleration. -/
def AccelerometerConfig.correct (d : AccelerometerConfig ℝ) (x y z : ℝ) : Fin 3 → ℝ :=
  ![d.xScale * (x - d.xBias) + d.yx * (y - d.yBias) + d.zx * (z - d.zBias),
    d.xy * (x - d.xBias) + d.yScale * (y - d.yBias) + d.zy * (z - d.zBias),
    d.xz * (x - d.xBias) + d.yz * (y - d.yBias) + d.zScale * (z - d.zBias)]

/-- The corrected magnetic field. -/
def MagnetometerConfig.correct (d : MagnetometerConfig ℝ) (x y z : ℝ) : Fin 3 → ℝ :=
  ![d.xScale * (x - d.xBias) + d.xy * (y - d.yBias) + d.yx * (z - d.zBias),
    d.xz * (x - d.xBias) + d.yScale * (y - d.yBias) + d.zx * (z - d.zBias),
    d.yz * (x - d.xBias) + d.zy * (y - d.yBias) + d.zScale * (z - d.zBias)]

/-- The Euclidean norm. -/
noncomputable def norm3 (u : Fin 3 → ℝ) : ℝ := √(u 0 ^ 2 + u 1 ^ 2 + u 2 ^ 2)

/-- `star q u q`, the vector `u` seen from the frame turned by `q`. -/
noncomputable def backBy (q : Quaternion ℝ) (u : Fin 3 → ℝ) : Fin 3 → ℝ := rotBy (star q) u

theorem norm3_sq (u : Fin 3 → ℝ) : norm3 u ^ 2 = u 0 ^ 2 + u 1 ^ 2 + u 2 ^ 2 :=
  Real.sq_sqrt (by positivity)

theorem norm3_nonneg (u : Fin 3 → ℝ) : 0 ≤ norm3 u := Real.sqrt_nonneg _

theorem norm3_eq (u : Fin 3 → ℝ) : norm2 3 (seq3 (u 0) (u 1) (u 2)) = norm3 u := by
  simp [norm2, norm3, Finset.sum_range_succ, seq3]

namespace Aqua

/-- The partial quaternion the filter forms from a gravity direction. -/
noncomputable def accQ (g : Fin 3 → ℝ) : Quaternion ℝ :=
  if g 2 < 0 then
    mkQ √((1 - g 2) / 2) (g 1 / (2 * √((1 - g 2) / 2))) (-g 0 / (2 * √((1 - g 2) / 2))) 0
  else
    mkQ (g 1 / (2 * √((1 + g 2) / 2))) √((1 + g 2) / 2) 0 (-g 0 / (2 * √((1 + g 2) / 2)))

theorem accQ_normSq (g : Fin 3 → ℝ) (h : norm3 g = 1) : Quaternion.normSq (accQ g) = 1 := by
  have hs : g 0 ^ 2 + g 1 ^ 2 + g 2 ^ 2 = 1 := by rw [← norm3_sq, h]; norm_num
  unfold accQ
  split
  · rename_i hg
    have hp : 0 < (1 - g 2) / 2 := by linarith
    have hp' : 1 - g 2 ≠ 0 := by linarith
    rw [normSq_mkQ, div_pow, div_pow, mul_pow, Real.sq_sqrt hp.le]
    field_simp
    linear_combination hs
  · rename_i hg
    have hp : 0 < (1 + g 2) / 2 := by linarith
    have hp' : 1 + g 2 ≠ 0 := by linarith
    rw [normSq_mkQ, div_pow, div_pow, mul_pow, Real.sq_sqrt hp.le]
    field_simp
    linear_combination hs

/-- Whatever the vector, the partial quaternion has norm at least √½. -/
theorem accQ_large (g : Fin 3 → ℝ) : 1 / 2 ≤ Quaternion.normSq (accQ g) := by
  unfold accQ
  split
  · rename_i hg
    have hp : 0 < (1 - g 2) / 2 := by linarith
    rw [normSq_mkQ, Real.sq_sqrt hp.le]
    have h1 := sq_nonneg (g 1 / (2 * √((1 - g 2) / 2)))
    have h2 := sq_nonneg (-g 0 / (2 * √((1 - g 2) / 2)))
    linarith
  · rename_i hg
    have hp : 0 < (1 + g 2) / 2 := by linarith
    rw [normSq_mkQ, Real.sq_sqrt hp.le]
    have h1 := sq_nonneg (g 1 / (2 * √((1 + g 2) / 2)))
    have h2 := sq_nonneg (-g 0 / (2 * √((1 + g 2) / 2)))
    linarith

/-- Seen from the frame of the partial quaternion, the direction points along the negative third axis. -/
theorem accQ_back (g : Fin 3 → ℝ) (h : norm3 g = 1) :
    star (accQ g) * pureQ g * accQ g = mkQ 0 0 0 (-1) := by
  have hs : g 0 ^ 2 + g 1 ^ 2 + g 2 ^ 2 = 1 := by rw [← norm3_sq, h]; norm_num
  unfold accQ pureQ
  split
  · rename_i hg
    have hp : 0 < (1 - g 2) / 2 := by linarith
    have hl : 0 < √((1 - g 2) / 2) := Real.sqrt_pos.mpr hp
    have hl2 : √((1 - g 2) / 2) ^ 2 = (1 - g 2) / 2 := Real.sq_sqrt hp.le
    generalize √((1 - g 2) / 2) = l at *
    have hz : g 2 = 1 - 2 * l ^ 2 := by linarith
    rw [hz] at hs ⊢
    apply Quaternion.ext <;> simp [Quaternion.re_mul, Quaternion.imI_mul, Quaternion.imJ_mul,
      Quaternion.imK_mul] <;> field_simp
    · ring
    · linear_combination -g 0 * hs
    · linear_combination -g 1 * hs
    · linear_combination (-1 - 2 * l ^ 2) * hs
  · rename_i hg
    have hp : 0 < (1 + g 2) / 2 := by linarith
    have hl : 0 < √((1 + g 2) / 2) := Real.sqrt_pos.mpr hp
    have hl2 : √((1 + g 2) / 2) ^ 2 = (1 + g 2) / 2 := Real.sq_sqrt hp.le
    generalize √((1 + g 2) / 2) = l at *
    have hz : g 2 = 2 * l ^ 2 - 1 := by linarith
    rw [hz] at hs ⊢
    apply Quaternion.ext <;> simp [Quaternion.re_mul, Quaternion.imI_mul, Quaternion.imJ_mul,
      Quaternion.imK_mul] <;> field_simp
    · ring
    · linear_combination -g 0 * hs
    · linear_combination g 1 * hs
    · linear_combination (-1 - 2 * l ^ 2) * hs

/-- A quaternion about the third axis whose half angle is that of a horizontal direction. -/
theorem heading {c s x y z r : ℝ} (hr : 0 < r) (hrr : r ^ 2 = x * x + y * y)
    (h1 : c ^ 2 = (r + x) / (2 * r)) (h2 : s ^ 2 = (r - x) / (2 * r)) (h3 : c * s = y / (2 * r)) :
    Quaternion.normSq (mkQ c 0 0 s) = 1 ∧
      star (mkQ c 0 0 s) * mkQ 0 x y z * mkQ c 0 0 s = mkQ 0 r 0 z := by
  have k1 : c ^ 2 + s ^ 2 = 1 := by rw [h1, h2]; field_simp; ring
  have k2 : c ^ 2 - s ^ 2 = x / r := by rw [h1, h2]; field_simp; ring
  have k3 : 2 * (c * s) = y / r := by rw [h3]; field_simp
  have k4 : x / r * x + y / r * y = r := by field_simp; linear_combination -hrr
  have k5 : x / r * y - y / r * x = 0 := by ring
  constructor
  · rw [normSq_mkQ]
    linear_combination k1
  · apply Quaternion.ext <;> simp [Quaternion.re_mul, Quaternion.imI_mul, Quaternion.imJ_mul,
      Quaternion.imK_mul]
    · ring
    · linear_combination x * k2 + y * k3 + k4
    · linear_combination y * k2 - x * k3 + k5
    · linear_combination z * k1

/-- The heading quaternion of the MARG mode, and of the AM mode for a field ahead. -/
noncomputable def magPos (x y : ℝ) : Quaternion ℝ :=
  mkQ (√(x * x + y * y + x * √(x * x + y * y)) / √(2 * (x * x + y * y))) 0 0
    (y / (√2 * √(x * x + y * y + x * √(x * x + y * y))))

/-- The heading quaternion of the AM mode for a field behind. -/
noncomputable def magNeg (x y : ℝ) : Quaternion ℝ :=
  mkQ (y / (√2 * √(x * x + y * y - x * √(x * x + y * y)))) 0 0
    (√(x * x + y * y - x * √(x * x + y * y)) / √(2 * (x * x + y * y)))

theorem root {x y : ℝ} : (√(x * x + y * y)) ^ 2 = x * x + y * y := Real.sq_sqrt (by nlinarith [sq_nonneg x, sq_nonneg y])

theorem magPos_spec {x y : ℝ} (h : 0 < √(x * x + y * y) + x) (z : ℝ) :
    Quaternion.normSq (magPos x y) = 1 ∧
      star (magPos x y) * mkQ 0 x y z * magPos x y = mkQ 0 √(x * x + y * y) 0 z := by
  have hrr := root (x := x) (y := y)
  have hr : 0 < √(x * x + y * y) := by
    rcases (Real.sqrt_nonneg (x * x + y * y)).lt_or_eq with h' | h'
    · exact h'
    · rw [← h'] at hrr h
      nlinarith [sq_nonneg x, sq_nonneg y]
  unfold magPos
  have e2 : √(2 * (x * x + y * y)) = √2 * √(x * x + y * y) := Real.sqrt_mul (by norm_num) _
  have ht : √(2 : ℝ) ^ 2 = 2 := Real.sq_sqrt (by norm_num)
  have ht0 : 0 < √(2 : ℝ) := Real.sqrt_pos.mpr (by norm_num)
  rw [e2]
  generalize √(x * x + y * y) = r at *
  rw [← hrr]
  have hk : 0 < r ^ 2 + x * r := by nlinarith
  have hk2 : √(r ^ 2 + x * r) ^ 2 = r ^ 2 + x * r := Real.sq_sqrt hk.le
  have hk0 : 0 < √(r ^ 2 + x * r) := Real.sqrt_pos.mpr hk
  generalize √(r ^ 2 + x * r) = k at *
  generalize √(2 : ℝ) = t at *
  refine heading hr hrr ?_ ?_ ?_
  · rw [div_pow, mul_pow, hk2, ht]
    field_simp
  · rw [div_pow, mul_pow, hk2, ht]
    have : r ^ 2 + x * r = r * (r + x) := by ring
    rw [this]
    have hx : r + x ≠ 0 := h.ne'
    field_simp
    linear_combination -hrr
  · field_simp
    rw [ht]
    ring

theorem magNeg_spec {x y : ℝ} (h : x < 0) (z : ℝ) :
    Quaternion.normSq (magNeg x y) = 1 ∧
      star (magNeg x y) * mkQ 0 x y z * magNeg x y = mkQ 0 √(x * x + y * y) 0 z := by
  have hrr := root (x := x) (y := y)
  have hr : 0 < √(x * x + y * y) := Real.sqrt_pos.mpr (by nlinarith [sq_nonneg y])
  unfold magNeg
  have e2 : √(2 * (x * x + y * y)) = √2 * √(x * x + y * y) := Real.sqrt_mul (by norm_num) _
  have ht : √(2 : ℝ) ^ 2 = 2 := Real.sq_sqrt (by norm_num)
  have ht0 : 0 < √(2 : ℝ) := Real.sqrt_pos.mpr (by norm_num)
  rw [e2]
  generalize √(x * x + y * y) = r at *
  rw [← hrr]
  have hk : 0 < r ^ 2 - x * r := by nlinarith
  have hk2 : √(r ^ 2 - x * r) ^ 2 = r ^ 2 - x * r := Real.sq_sqrt hk.le
  have hk0 : 0 < √(r ^ 2 - x * r) := Real.sqrt_pos.mpr hk
  generalize √(r ^ 2 - x * r) = k at *
  generalize √(2 : ℝ) = t at *
  refine heading hr hrr ?_ ?_ ?_
  · rw [div_pow, mul_pow, hk2, ht]
    have : r ^ 2 - x * r = r * (r - x) := by ring
    rw [this]
    have hx : r - x ≠ 0 := by linarith
    field_simp
    linear_combination -hrr
  · rw [div_pow, mul_pow, hk2, ht]
    field_simp
  · field_simp
    rw [ht]

/-! ### The filter's steps on numbers -/

theorem two_fin : (lit 2 : XR) = .fin 2 := by rw [Ext.lit_eq]; norm_num

theorem comps_pair {q : Quaternion ℝ} {p : XR × XR × XR × XR} (h : p = AR.comps q) :
    p.1 = .fin q.re ∧ p.2.1 = .fin q.imI ∧ p.2.2.1 = .fin q.imJ ∧ p.2.2.2 = .fin q.imK := by
  subst h; exact ⟨rfl, rfl, rfl, rfl⟩

theorem accQuaternion_fin (g : Fin 3 → ℝ) :
    accQuaternion (.fin (g 0) : XR) (.fin (g 1)) (.fin (g 2)) = AR.comps (accQ g) := by
  unfold accQuaternion accQ
  rw [Ext.lit_zero, Ext.lt_fin, two_fin, Ext.lit_one]
  by_cases h : g 2 < 0
  · have hp : 0 < (1 - g 2) / 2 := by linarith
    have hl : 2 * √((1 - g 2) / 2) ≠ 0 := by have := Real.sqrt_pos.mpr hp; positivity
    rw [if_pos (decide_eq_true h), if_pos h]
    rw [Ext.sub_fin, Ext.div_fin _ two_ne_zero, Ext.sqrt_fin hp.le]
    simp only [Ext.mul_fin, Ext.neg_fin]
    rw [show (Elementary.sqrt ((1 - g 2) / 2) : ℝ) = √((1 - g 2) / 2) from rfl, Ext.div_fin _ hl,
      Ext.div_fin _ hl]
    rfl
  · have hp : 0 < (1 + g 2) / 2 := by linarith
    have hl : 2 * √((1 + g 2) / 2) ≠ 0 := by have := Real.sqrt_pos.mpr hp; positivity
    rw [if_neg (by simpa using h), if_neg h]
    rw [Ext.add_fin, Ext.div_fin _ two_ne_zero, Ext.sqrt_fin hp.le]
    simp only [Ext.mul_fin, Ext.neg_fin]
    rw [show (Elementary.sqrt ((1 + g 2) / 2) : ℝ) = √((1 + g 2) / 2) from rfl, Ext.div_fin _ hl,
      Ext.div_fin _ hl]
    rfl

theorem magQuaternionPos_fin {x y : ℝ} (h : 0 < √(x * x + y * y) + x) :
    magQuaternionPos (.fin x : XR) (.fin y) (.fin (x * x + y * y)) = AR.comps (magPos x y) := by
  have hrr := root (x := x) (y := y)
  have hr : 0 < √(x * x + y * y) := by
    rcases (Real.sqrt_nonneg (x * x + y * y)).lt_or_eq with h' | h'
    · exact h'
    · rw [← h'] at hrr h
      nlinarith [sq_nonneg x, sq_nonneg y]
  have hg : 0 < x * x + y * y := Real.sqrt_pos.mp hr
  have hk : 0 < x * x + y * y + x * √(x * x + y * y) := by nlinarith
  have hk0 := Real.sqrt_pos.mpr hk
  have h2 : 0 < √(2 * (x * x + y * y)) := Real.sqrt_pos.mpr (by linarith)
  have ht0 : 0 < √(2 : ℝ) := Real.sqrt_pos.mpr (by norm_num)
  have s1 : (Elementary.sqrt (x * x + y * y) : ℝ) = √(x * x + y * y) := rfl
  have s2 : ∀ t : ℝ, Elementary.sqrt t = √t := fun _ => rfl
  unfold magQuaternionPos magPos
  rw [two_fin, Ext.lit_zero, Ext.sqrt_fin hg.le, s1, Ext.mul_fin, Ext.mul_fin, Ext.add_fin,
    Ext.sqrt_fin hk.le, Ext.sqrt_fin (show (0 : ℝ) ≤ 2 by norm_num), Ext.sqrt_fin (by linarith),
    Ext.mul_fin, s2, s2, s2, Ext.div_fin _ h2.ne', Ext.div_fin _ (mul_pos ht0 hk0).ne']
  rfl

theorem magQuaternionNeg_fin {x y : ℝ} (h : x < 0) :
    magQuaternionNeg (.fin x : XR) (.fin y) (.fin (x * x + y * y)) = AR.comps (magNeg x y) := by
  have hrr := root (x := x) (y := y)
  have hg : 0 < x * x + y * y := by nlinarith [sq_nonneg y]
  have hr : 0 < √(x * x + y * y) := Real.sqrt_pos.mpr hg
  have hk : 0 < x * x + y * y - x * √(x * x + y * y) := by nlinarith
  have hk0 := Real.sqrt_pos.mpr hk
  have h2 : 0 < √(2 * (x * x + y * y)) := Real.sqrt_pos.mpr (by linarith)
  have ht0 : 0 < √(2 : ℝ) := Real.sqrt_pos.mpr (by norm_num)
  have s2 : ∀ t : ℝ, Elementary.sqrt t = √t := fun _ => rfl
  unfold magQuaternionNeg magNeg
  rw [two_fin, Ext.lit_zero, Ext.sqrt_fin hg.le, s2, Ext.mul_fin, Ext.mul_fin, Ext.sub_fin,
    Ext.sqrt_fin hk.le, Ext.sqrt_fin (show (0 : ℝ) ≤ 2 by norm_num), Ext.sqrt_fin (by linarith),
    Ext.mul_fin, s2, s2, s2, Ext.div_fin _ h2.ne', Ext.div_fin _ (mul_pos ht0 hk0).ne']
  rfl

/-- A field straight behind, or none: the last component is not a number. -/
theorem magQuaternionPos_bad {x y : ℝ} (h : √(x * x + y * y) + x ≤ 0) :
    ¬ Finite (magQuaternionPos (.fin x : XR) (.fin y) (.fin (x * x + y * y))).2.2.2 := by
  have hrr := root (x := x) (y := y)
  have hr := Real.sqrt_nonneg (x * x + y * y)
  have hy : y = 0 := by
    have : y ^ 2 = 0 := le_antisymm (by nlinarith) (sq_nonneg y)
    exact pow_eq_zero_iff two_ne_zero |>.mp this
  have hx : x ≤ 0 := by linarith
  subst hy
  have e : √(x * x + 0 * 0) = -x := by
    rw [show x * x + 0 * 0 = (-x) ^ 2 by ring, Real.sqrt_sq (by linarith)]
  have s2 : ∀ t : ℝ, Elementary.sqrt t = √t := fun _ => rfl
  have hg : 0 ≤ x * x + 0 * 0 := by nlinarith
  have hz : x * x + 0 * 0 + x * -x = 0 := by ring
  unfold magQuaternionPos
  simp only
  rw [two_fin, Ext.sqrt_fin hg, s2, e, Ext.mul_fin, Ext.add_fin, hz, Ext.sqrt_fin (by norm_num),
    Ext.sqrt_fin le_rfl, Ext.mul_fin, s2, s2, Real.sqrt_zero, mul_zero]
  exact Ext.div_zero 0

/-- A vector as the rows of the transposed direction cosine matrix see it. -/
def unrot (q : Quaternion ℝ) (u : Fin 3 → ℝ) : Fin 3 → ℝ := fun i =>
  dcmOf q 0 i * u 0 + dcmOf q 1 i * u 1 + dcmOf q 2 i * u 2

theorem unrot_unit {q : Quaternion ℝ} (h : Quaternion.normSq q = 1) (u : Fin 3 → ℝ) :
    pureQ (unrot q u) = star q * pureQ u * q := by
  have hs := unit_sum h
  apply Quaternion.ext <;> simp [pureQ, unrot, dcmOf, tbl, Quaternion.re_mul, Quaternion.imI_mul,
    Quaternion.imJ_mul, Quaternion.imK_mul]
  · ring
  · ring
  · linear_combination -u 1 * hs
  · linear_combination -u 2 * hs

theorem toGlobal_fin {T : Mat XR} {f : Nat → Nat → XR} {a v : Vec XR} {q : Quaternion ℝ} {u : Fin 3 → ℝ}
    (hT : MatIs T 3 1 f) (ha : QuatIs a q) (hv : Vec3Is v u) :
    ∃ T' w g, toGlobal T a v = .ok (T', w) ∧ MatIs T' 3 1 g ∧ Vec3Is w (unrot q u) := by
  obtain ⟨m, e1, h1⟩ := dcm_run ha
  obtain ⟨m', e2, h2⟩ := Mat.exec_transpose h1 fun _ _ _ _ => Ext.finite_fin _
  obtain ⟨c, e3, h3⟩ := Vec.convertToMatrix_ok hv (forall_lt_three.mpr ⟨Ext.finite_fin _,
    Ext.finite_fin _, Ext.finite_fin _⟩)
  have h3' : MatIs c 3 1 (fun i _ => .fin (seq3 (u 0) (u 1) (u 2) i)) :=
    h3.congr fun i j hi _ => by
      revert i; exact forall_lt_three.mpr ⟨rfl, rfl, rfl⟩
  have hs : ∀ i j l, sumUp l (Mat.cellTerm (fun i j => Ext.fin (dcmOf q j i))
      (fun i _ => Ext.fin (seq3 (u 0) (u 1) (u 2) i)) i j) =
      .fin (∑ t ∈ Finset.range l, dcmOf q t i * seq3 (u 0) (u 1) (u 2) t) := by
    intro i j l
    rw [← sumUp_fin]
    rfl
  have e4 := Mat.mul_ok h2 h3' hT fun i j l _ _ _ => by rw [hs]; exact Ext.finite_fin _
  have h4 := hT.overwrite fun i j => sumUp 3 (Mat.cellTerm (fun i j => Ext.fin (dcmOf q j i))
      (fun i _ => Ext.fin (seq3 (u 0) (u 1) (u 2) i)) i j)
  obtain ⟨w, e5, h5⟩ := Mat.colToVector_ok h4 (show 0 < 1 by omega) fun i _ => by
    rw [hs]; exact Ext.finite_fin _
  refine ⟨_, w, _, ?_, h4, h5.congr ?_⟩
  · unfold toGlobal
    simp only [e1, e2, e3, exec_ok e4, e5, Res.mapErr_ok, Res.ok_bind]
  · refine forall_lt_three.mpr ⟨?_, ?_, ?_⟩ <;> rw [hs] <;>
      simp [Finset.sum_range_succ, seq3, unrot]

theorem vector3_fin (u : Fin 3 → ℝ) :
    ∃ v : Vec XR, vector3 (.fin (u 0)) (.fin (u 1)) (.fin (u 2)) = .ok v ∧ Vec3Is v u := by
  obtain ⟨v1, v2, v3, e1, e2, e3, h⟩ := AR.vector3 (F := XR) (Ext.finite_fin (u 0))
    (Ext.finite_fin (u 1)) (Ext.finite_fin (u 2))
  refine ⟨v3, ?_, h⟩
  unfold vector3
  simp only [Vec.init_new (F := XR) (n := 3) (by omega) (by omega), e1, e2, e3, Res.mapErr_ok, Res.ok_bind]

theorem norm_fin3 {v : Vec XR} {u : Fin 3 → ℝ} (h : Vec3Is v u) :
    v.calculateNorm = .ok (.fin (if norm3 u ≤ epsilon ℝ then 0 else norm3 u)) := by
  have h' : VecIs v 3 (fun i => .fin (seq3 (u 0) (u 1) (u 2) i)) :=
    h.congr (forall_lt_three.mpr ⟨rfl, rfl, rfl⟩)
  rw [C31_norm h', norm3_eq]

/-- The direction of a vector, or zero for a short one. -/
noncomputable def dir (u : Fin 3 → ℝ) : Fin 3 → ℝ :=
  fun i => if epsilon ℝ < norm3 u then u i / norm3 u else 0

/-- The direction of a vector, or the vector itself for a short one. -/
noncomputable def dirOr (u : Fin 3 → ℝ) : Fin 3 → ℝ :=
  fun i => if epsilon ℝ < norm3 u then u i / norm3 u else u i

theorem normalize_fin3 {v : Vec XR} {u : Fin 3 → ℝ} (h : Vec3Is v u) :
    ∃ w, exec v Vec.normalize = .ok w ∧ Vec3Is w (dir u) := by
  have h' : VecIs v 3 (fun i => .fin (seq3 (u 0) (u 1) (u 2) i)) :=
    h.congr (forall_lt_three.mpr ⟨rfl, rfl, rfl⟩)
  obtain ⟨w, e, hw⟩ := normalize_run h'
  rw [norm3_eq] at hw
  exact ⟨w, exec_ok e, hw.congr (forall_lt_three.mpr ⟨rfl, rfl, rfl⟩)⟩

theorem dir_norm {u : Fin 3 → ℝ} (h : epsilon ℝ < norm3 u) : norm3 (dir u) = 1 := by
  have hp := Linalg.eps_pos.trans h
  have := norm3_sq u
  unfold norm3 dir
  simp only [if_pos h, div_pow]
  rw [← add_div, ← add_div, ← this, div_self (by positivity), Real.sqrt_one]

theorem dirOr_eq {u : Fin 3 → ℝ} (h : epsilon ℝ < norm3 u) : dirOr u = dir u := by
  funext i
  simp only [dirOr, dir, if_pos h]

theorem dir_smul {u : Fin 3 → ℝ} (h : epsilon ℝ < norm3 u) : pureQ u = norm3 u • pureQ (dir u) := by
  have hp := (Linalg.eps_pos.trans h).ne'
  unfold pureQ dir
  rw [mkQ_smul]
  simp only [if_pos h, mul_zero]
  congr 1 <;> field_simp

/-- The vectors computed from the corrected readings. -/
theorem sensed_fin (a m : Fin 3 → ℝ) : ∃ va vm qa qm T,
    sensed (.fin (a 0) : XR) (.fin (a 1)) (.fin (a 2)) (.fin (m 0)) (.fin (m 1)) (.fin (m 2)) =
      .ok (va, (.fin (dirOr a 0), .fin (dirOr a 1), .fin (dirOr a 2)), vm, qa, qm, T) ∧
    Vec3Is va a ∧ Vec3Is vm (dir m) ∧ QuatIs qa 0 ∧ QuatIs qm 0 ∧ MatIs T 3 1 (fun _ _ => .fin 0) := by
  obtain ⟨va, e1, h1⟩ := vector3_fin a
  obtain ⟨vm, e2, h2⟩ := vector3_fin m
  obtain ⟨vm', e3, h3⟩ := normalize_fin3 h2
  have hz : QuatIs (Vec.zeros 4 : Vec XR) 0 :=
    (Vec.zeros_is (F := XR) (n := 4) (by omega) (by omega)).congr
      (forall_lt_four.mpr ⟨Ext.lit_zero, Ext.lit_zero, Ext.lit_zero, Ext.lit_zero⟩)
  refine ⟨va, vm', Vec.zeros 4, Vec.zeros 4, Mat.zeros 3 1, ?_, h1, h3, hz, hz,
    Mat.zeros_fin (by omega) (by omega) (by omega) (by omega)⟩
  have he := Linalg.eps_pos (K := ℝ)
  have h10 : va.getElement 0 = .ok (.fin (a 0)) := h1.get 0 (by omega)
  have h11 : va.getElement 1 = .ok (.fin (a 1)) := h1.get 1 (by omega)
  have h12 : va.getElement 2 = .ok (.fin (a 2)) := h1.get 2 (by omega)
  unfold sensed
  simp only [e1, e2, e3, norm_fin3 h1, Res.mapErr_ok, Res.ok_bind, h10, h11, h12,
    Vec.init_new (F := XR) (n := 4) (by omega) (by omega),
    Mat.init_new (F := XR) (r := 3) (c := 1) (by omega) (by omega) (by omega) (by omega), Ext.epsilon_eq,
    Ext.lt_fin]
  by_cases h : norm3 a ≤ epsilon ℝ
  · rw [if_pos h]
    simp only [not_lt.mpr he.le, decide_false, Bool.false_eq_true, if_false, dirOr, if_neg (not_lt.mpr h),
      Res.ok_bind]
  · have h' := not_le.mp h
    have hne := (he.trans h').ne'
    rw [if_neg h, Ext.div_fin _ hne, Ext.div_fin _ hne, Ext.div_fin _ hne]
    simp only [h', decide_true, if_true, dirOr, Res.ok_bind]

theorem fill_fin {v : Vec XR} {f : Nat → XR} (h : VecIs v 4 f) (q : Quaternion ℝ) :
    ∃ w, exec v (Quat.fillq (.fin q.re) (.fin q.imI) (.fin q.imJ) (.fin q.imK)) = .ok w ∧ QuatIs w q := by
  obtain ⟨w, e, hw⟩ := Quat.fillq_ok h (Ext.finite_fin q.re) (Ext.finite_fin q.imI)
    (Ext.finite_fin q.imJ) (Ext.finite_fin q.imK)
  exact ⟨w, exec_ok e, hw⟩

/-- The global field an AM update computes. -/
noncomputable def amField (a m : Fin 3 → ℝ) : Fin 3 → ℝ := unrot (accQ (dirOr a)) (dir m)

/-- The heading quaternion of an AM update. -/
noncomputable def magQ (l : Fin 3 → ℝ) : Quaternion ℝ :=
  if 0 ≤ l 0 then magPos (l 0) (l 1) else magNeg (l 0) (l 1)

theorem amBoth_fin (a m : Fin 3 → ℝ) (h : amField a m 0 ≠ 0 ∨ amField a m 1 ≠ 0) : ∃ v w,
    amBoth (.fin (a 0) : XR) (.fin (a 1)) (.fin (a 2)) (.fin (m 0)) (.fin (m 1)) (.fin (m 2)) = .ok (v, w) ∧
    QuatIs v (accQ (dirOr a)) ∧ QuatIs w (magQ (amField a m)) := by
  obtain ⟨va, vm, qa, qm, T, e, h1, h2, h3, h4, h5⟩ := sensed_fin a m
  obtain ⟨v, e1, hv⟩ := fill_fin h3 (accQ (dirOr a))
  obtain ⟨T', l, g, e2, -, hl⟩ := toGlobal_fin h5 hv h2
  obtain ⟨w, e3, hw⟩ := fill_fin h4 (magQ (amField a m))
  refine ⟨v, w, ?_, hv, hw⟩
  have l0 : l.getElement 0 = .ok (.fin (amField a m 0)) := hl.get 0 (by omega)
  have l1 : l.getElement 1 = .ok (.fin (amField a m 1)) := hl.get 1 (by omega)
  unfold amBoth amQuats
  simp only [e, Res.ok_bind, accQuaternion_fin (dirOr a), AR.comps, e1, Res.mapErr_ok, e2, l0, l1,
    Ext.mul_fin, Ext.add_fin, Ext.lit_zero, Ext.le_fin]
  generalize amField a m = L at *
  unfold magQ at e3
  by_cases h0 : 0 ≤ L 0
  · rw [if_pos h0] at e3
    have hp : 0 < √(L 0 * L 0 + L 1 * L 1) + L 0 := by
      have hg : 0 < L 0 * L 0 + L 1 * L 1 := by
        rcases h with h | h
        · have := mul_self_pos.mpr h; nlinarith [mul_self_nonneg (L 1)]
        · have := mul_self_pos.mpr h; nlinarith [mul_self_nonneg (L 0)]
      linarith [Real.sqrt_pos.mpr hg]
    simp only [h0, decide_true, if_true, magQuaternionPos_fin hp, AR.comps, e3, Res.mapErr_ok, Res.ok_bind]
  · rw [if_neg h0] at e3
    simp only [h0, decide_false, Bool.false_eq_true, if_false, magQuaternionNeg_fin (not_le.mp h0), AR.comps, e3, Res.mapErr_ok, Res.ok_bind]

theorem amBoth_bad (a m : Fin 3 → ℝ) (h0 : amField a m 0 = 0) (h1 : amField a m 1 = 0) :
    amBoth (.fin (a 0) : XR) (.fin (a 1)) (.fin (a 2)) (.fin (m 0)) (.fin (m 1)) (.fin (m 2)) =
      .error (.err (.LinalgError (.UtilsError .Nan))) := by
  obtain ⟨va, vm, qa, qm, T, e, k1, k2, k3, k4, k5⟩ := sensed_fin a m
  obtain ⟨v, e1, hv⟩ := fill_fin k3 (accQ (dirOr a))
  obtain ⟨T', l, g, e2, -, hl⟩ := toGlobal_fin k5 hv k2
  have l0 : l.getElement 0 = .ok (.fin (amField a m 0)) := hl.get 0 (by omega)
  have l1 : l.getElement 1 = .ok (.fin (amField a m 1)) := hl.get 1 (by omega)
  rw [h0] at l0
  rw [h1] at l1
  have hq : magQuaternionPos (.fin 0 : XR) (.fin 0) (.fin 0) = (.nan, .fin 0, .fin 0, .nan) := by
    have s0 : Scalar.sqrt (.fin 0 : XR) = .fin 0 := by
      rw [Ext.sqrt_fin le_rfl]
      exact congrArg _ Real.sqrt_zero
    have s2 : Scalar.sqrt (.fin 2 : XR) = .fin √2 := by rw [Ext.sqrt_fin (by norm_num)]; rfl
    have d0 : (.fin 0 : XR) /ᶠ .fin 0 = .nan := by
      show Ext.div _ _ = _
      simp [Ext.div]
    unfold magQuaternionPos
    simp only [two_fin, Ext.mul_fin, Ext.add_fin, s0, s2, mul_zero, add_zero, d0, Ext.lit_zero]
  have hst := Quat.storeAll_stores (w := (.nan : XR)) (x := .fin 0) (y := .fin 0) (z := .nan) k4
  rw [← Quat.fillq_eq k4] at hst
  have hbad := hst.2 0 (by omega) (fun i hi => by omega) (fun h => by cases h.1)
  unfold amBoth amQuats
  simp only [e, Res.ok_bind, accQuaternion_fin (dirOr a), AR.comps, e1, Res.mapErr_ok, e2, l0, l1,
    Ext.mul_fin, Ext.add_fin, Ext.lit_zero, Ext.le_fin, le_refl, decide_true, if_true, mul_zero, add_zero,
    hq]
  rw [exec_err hbad]
  rfl

end Aqua

theorem Accelerometer.fin_inj {d d' : AccelerometerConfig ℝ} (h : d.fin = d'.fin) : d = d' := by
  obtain ⟨⟩ := d
  obtain ⟨⟩ := d'
  simp only [AccelerometerConfig.fin, Accelerometer.ofParam, AccelerometerConfig.mk.injEq, Ext.fin_inj] at h
  simp only [AccelerometerConfig.mk.injEq]
  exact h

theorem Magnetometer.fin_inj {d d' : MagnetometerConfig ℝ} (h : d.fin = d'.fin) : d = d' := by
  obtain ⟨⟩ := d
  obtain ⟨⟩ := d'
  simp only [MagnetometerConfig.fin, Magnetometer.ofParam, MagnetometerConfig.mk.injEq, Ext.fin_inj] at h
  simp only [MagnetometerConfig.mk.injEq]
  exact h

namespace Aqua
variable {s s' : Aqua XR} {i : AquaInit XR} {d : AccelerometerConfig ℝ} {e : MagnetometerConfig ℝ}

theorem acc_sample {g : Accelerometer XR} (hg : g.Reachable) (hi : g.initialized = true)
    (hc : g.getConfig = .ok d.fin) (x y z : ℝ) :
    ∃ A, Accelerometer.update (.fin x) (.fin y) (.fin z) g = (.ok (), A) ∧
      A.getX = .ok (.fin (d.correct x y z 0)) ∧ A.getY = .ok (.fin (d.correct x y z 1)) ∧
      A.getZ = .ok (.fin (d.correct x y z 2)) := by
  obtain ⟨d', A, h1, h⟩ := C43_acc_exact hg hi x y z
  rw [hc] at h1
  obtain rfl := Accelerometer.fin_inj (Except.ok.inj h1)
  exact ⟨A, h⟩

theorem mag_sample {g : Magnetometer XR} (hg : g.Reachable) (hi : g.initialized = true)
    (hc : g.getConfig = .ok e.fin) (x y z : ℝ) :
    ∃ A, Magnetometer.update (.fin x) (.fin y) (.fin z) g = (.ok (), A) ∧
      A.getX = .ok (.fin (e.correct x y z 0)) ∧ A.getY = .ok (.fin (e.correct x y z 1)) ∧
      A.getZ = .ok (.fin (e.correct x y z 2)) := by
  obtain ⟨d', A, h1, h⟩ := C43_mag_exact hg hi x y z
  rw [hc] at h1
  obtain rfl := Magnetometer.fin_inj (Except.ok.inj h1)
  exact ⟨A, h⟩

/-- Accepted samples are numbers, and so are the corrected ones. -/
theorem acc_accepted {g A : Accelerometer XR} {x y z : XR} (hg : g.Reachable) (hi : g.initialized = true)
    (h : Accelerometer.update x y z g = (.ok (), A)) :
    ∃ a : Fin 3 → ℝ, A.getX = .ok (.fin (a 0)) ∧ A.getY = .ok (.fin (a 1)) ∧ A.getZ = .ok (.fin (a 2)) := by
  obtain ⟨d, -, hc, -⟩ := C43_acc_exact hg hi 0 0 0
  obtain ⟨⟨f1, f2, f3⟩, -⟩ := (C43_acc_iff hg hc).mp (congrArg Prod.fst h)
  obtain ⟨x, rfl⟩ := Ext.finite_iff.mp f1
  obtain ⟨y, rfl⟩ := Ext.finite_iff.mp f2
  obtain ⟨z, rfl⟩ := Ext.finite_iff.mp f3
  obtain ⟨A', e, h'⟩ := acc_sample hg hi hc x y z
  rw [h] at e
  obtain rfl := congrArg Prod.snd e
  exact ⟨_, h'⟩

theorem mag_accepted {g A : Magnetometer XR} {x y z : XR} (hg : g.Reachable) (hi : g.initialized = true)
    (h : Magnetometer.update x y z g = (.ok (), A)) :
    ∃ a : Fin 3 → ℝ, A.getX = .ok (.fin (a 0)) ∧ A.getY = .ok (.fin (a 1)) ∧ A.getZ = .ok (.fin (a 2)) := by
  obtain ⟨d, -, hc, -⟩ := C43_mag_exact hg hi 0 0 0
  obtain ⟨⟨f1, f2, f3⟩, -⟩ := (C43_mag_iff hg hc).mp (congrArg Prod.fst h)
  obtain ⟨x, rfl⟩ := Ext.finite_iff.mp f1
  obtain ⟨y, rfl⟩ := Ext.finite_iff.mp f2
  obtain ⟨z, rfl⟩ := Ext.finite_iff.mp f3
  obtain ⟨A', e, h'⟩ := mag_sample hg hi hc x y z
  rw [h] at e
  obtain rfl := congrArg Prod.snd e
  exact ⟨_, h'⟩

/-- Seen through the API, the attitude of the filter is the quaternion `q`. -/
def Shows (s : Aqua XR) (q : Quaternion ℝ) : Prop := ∃ v, getAttitude s = .ok v ∧ QuatIs v q

theorem shows_of {q : Quaternion ℝ} (hi : s.initialized = true) (h : QuatIs s.attitude q) : Shows s q := by
  obtain ⟨d, h1, h2⟩ := Vec.duplicate_ok h (forall_lt_four.mpr ⟨Ext.finite_fin _, Ext.finite_fin _,
    Ext.finite_fin _, Ext.finite_fin _⟩)
  refine ⟨d, ?_, h2⟩
  unfold getAttitude
  rw [hi, h1]
  rfl

/-- The quaternion after normalisation. -/
noncomputable def unitOf (b : Quaternion ℝ) : Quaternion ℝ := if epsilon ℝ < ‖b‖ then ‖b‖⁻¹ • b else 0

theorem normalize_quat {v : Vec XR} {b : Quaternion ℝ} (h : QuatIs v b) :
    ∃ w, Vec.normalize v = (.ok (), w) ∧ QuatIs w (unitOf b) := by
  have h' : VecIs v 4 (fun i => .fin (seq4 b.re b.imI b.imJ b.imK i)) :=
    h.congr (forall_lt_four.mpr ⟨rfl, rfl, rfl, rfl⟩)
  obtain ⟨w, e, hw⟩ := normalize_run h'
  have hn : norm2 4 (seq4 b.re b.imI b.imJ b.imK) = ‖b‖ := by
    rw [quat_norm, norm2, Quaternion.normSq_def']
    simp [Finset.sum_range_succ, seq4]
  rw [hn] at hw
  refine ⟨w, e, hw.congr (forall_lt_four.mpr ?_)⟩
  unfold unitOf
  by_cases hb : epsilon ℝ < ‖b‖
  · simp [hb, seq4, div_eq_inv_mul]
  · simp only [if_neg hb]
    exact ⟨rfl, rfl, rfl, rfl⟩

theorem unitOf_norm {b : Quaternion ℝ} (h : epsilon ℝ < ‖b‖) : ‖unitOf b‖ = 1 := by
  unfold unitOf
  rw [if_pos h, norm_smul, norm_inv, norm_norm, inv_mul_cancel₀ (Linalg.eps_pos.trans h).ne']

theorem unitOf_unit {b : Quaternion ℝ} (h : ‖b‖ = 1) : unitOf b = b := AR.normalised h

theorem mul_fin {s a b : Vec XR} {q p : Quaternion ℝ} (hs : s.Holds4) (ha : QuatIs a q) (hb : QuatIs b p) :
    ∃ v, exec s (Quat.mul a b) = .ok v ∧ QuatIs v (q * p) := by
  obtain ⟨f, hs, -⟩ := hs
  rw [C34_agree hs ha hb]
  exact C34_hamilton ha hb

theorem finish_fin {a b : Vec XR} {q p : Quaternion ℝ} (hs : s.attitude.Holds4) (ha : QuatIs a q)
    (hb : QuatIs b p) :
    ∃ v, finish a b s = (.ok (), { s with attitude := v }) ∧ QuatIs v (unitOf (q * p)) := by
  obtain ⟨v, e, hv⟩ := mul_fin hs ha hb
  obtain ⟨w, e2, hw⟩ := normalize_quat hv
  refine ⟨w, exec_finish ?_, hw⟩
  rw [exec_bind, e]
  exact exec_ok e2

/-- An AM update with accepted samples. -/
theorem Ready.am_fin (h : Ready s) (hmode : s.mode = .AM) {gx gy gz : Option XR} {ax ay az mx my mz : XR}
    {A : Accelerometer XR} {M : Magnetometer XR} {a m : Fin 3 → ℝ}
    (ha : Accelerometer.update ax ay az s.acc = (.ok (), A))
    (hm : Magnetometer.update mx my mz s.mag = (.ok (), M)) (h1 : A.getX = .ok (.fin (a 0)))
    (h2 : A.getY = .ok (.fin (a 1))) (h3 : A.getZ = .ok (.fin (a 2))) (h4 : M.getX = .ok (.fin (m 0)))
    (h5 : M.getY = .ok (.fin (m 1))) (h6 : M.getZ = .ok (.fin (m 2))) :
    ((amField a m 0 ≠ 0 ∨ amField a m 1 ≠ 0) ∧
      ∃ s', Aqua.update gx gy gz ax ay az mx my mz s = (.ok (), s') ∧
        Shows s' (unitOf (accQ (dirOr a) * magQ (amField a m)))) ∨
    (amField a m 0 = 0 ∧ amField a m 1 = 0 ∧
      ∃ s', Aqua.update gx gy gz ax ay az mx my mz s =
        (.error (.err (.LinalgError (.UtilsError .Nan))), s')) := by
  rw [h.am_eq hmode ha hm h1 h2 h3 h4 h5 h6]
  by_cases hf : amField a m 0 ≠ 0 ∨ amField a m 1 ≠ 0
  · left
    obtain ⟨v, w, e, hv, hw⟩ := amBoth_fin a m hf
    rw [e, Op.liftOk_bind]
    obtain ⟨u, e2, hu⟩ := finish_fin (s := { s with acc := A, mag := M }) h.attitude hv hw
    exact ⟨hf, _, e2, shows_of h.initialized hu⟩
  · right
    push Not at hf
    rw [amBoth_bad a m hf.1 hf.2]
    exact ⟨hf.1, hf.2, _, rfl⟩

theorem magQ_spec {l : Fin 3 → ℝ} (h : l 0 ≠ 0 ∨ l 1 ≠ 0) :
    Quaternion.normSq (magQ l) = 1 ∧
      star (magQ l) * pureQ l * magQ l = mkQ 0 √(l 0 * l 0 + l 1 * l 1) 0 (l 2) := by
  have hg : 0 < l 0 * l 0 + l 1 * l 1 := by
    rcases h with h | h
    · have := mul_self_pos.mpr h; nlinarith [mul_self_nonneg (l 1)]
    · have := mul_self_pos.mpr h; nlinarith [mul_self_nonneg (l 0)]
  unfold magQ pureQ
  split
  · exact magPos_spec (by linarith [Real.sqrt_pos.mpr hg]) (l 2)
  · exact magNeg_spec (by linarith) (l 2)

theorem norm_one {q : Quaternion ℝ} (h : Quaternion.normSq q = 1) : ‖q‖ = 1 := by
  rw [quat_norm, h, Real.sqrt_one]

theorem eps_lt_half : epsilon ℝ < 1 / 2 := by unfold epsilon; norm_num

theorem norm_large {q : Quaternion ℝ} (h : 1 / 2 ≤ Quaternion.normSq q) : epsilon ℝ < ‖q‖ := by
  rw [quat_norm]
  refine Real.lt_sqrt_of_sq_lt (lt_of_lt_of_le ?_ h)
  nlinarith [eps_lt_half, Linalg.eps_pos (K := ℝ)]

end Aqua

open Aqua
section
variable {s s' : Aqua XR} {i : AquaInit XR} {d : AccelerometerConfig ℝ} {e : MagnetometerConfig ℝ}

/-- C54: every successful AM update leaves a unit quaternion, whatever the samples. -/
theorem C54_am (hs : Started i s) (hm : i.mode = .AM) {gx gy gz : Option XR} {ax ay az mx my mz : XR}
    (h : Aqua.update gx gy gz ax ay az mx my mz s = (.ok (), s')) : ∃ Q, Shows s' Q ∧ ‖Q‖ = 1 := by
  obtain ⟨hr, k⟩ := hs.ready
  have hmode := k.mode.trans hm
  obtain ⟨A, M, e1, e2⟩ := hr.am_accepted hmode h
  obtain ⟨a, a1, a2, a3⟩ := acc_accepted hr.acc hr.acc_initialized e1
  obtain ⟨m, m1, m2, m3⟩ := mag_accepted hr.mag hr.mag_initialized e2
  rcases hr.am_fin hmode e1 e2 a1 a2 a3 m1 m2 m3 (gx := gx) (gy := gy) (gz := gz) with
    ⟨hf, s1, e3, h1⟩ | ⟨-, -, s1, e3⟩
  · rw [h] at e3
    obtain rfl := congrArg Prod.snd e3
    refine ⟨_, h1, unitOf_norm ?_⟩
    rw [norm_mul, norm_one (magQ_spec hf).1, mul_one]
    exact norm_large (accQ_large _)
  · rw [h] at e3
    cases congrArg Prod.fst e3

/-! ### C69: what an AM update computes -/

theorem Aqua.third_axis {q : Quaternion ℝ} (hi : q.imI = 0) (hj : q.imJ = 0)
    (h : Quaternion.normSq q = 1) (z : ℝ) : star q * mkQ 0 0 0 z * q = mkQ 0 0 0 z := by
  have hs := unit_sum h
  rw [hi, hj] at hs
  apply Quaternion.ext <;> simp [Quaternion.re_mul, Quaternion.imI_mul, Quaternion.imJ_mul,
    Quaternion.imK_mul, hi, hj]
  · ring
  · linear_combination z * hs

theorem Aqua.magQ_im (l : Fin 3 → ℝ) : (magQ l).imI = 0 ∧ (magQ l).imJ = 0 := by
  unfold magQ
  split
  · exact ⟨rfl, rfl⟩
  · exact ⟨rfl, rfl⟩

theorem Aqua.star_mul_self {q : Quaternion ℝ} (h : Quaternion.normSq q = 1) : star q * q = 1 := by
  rw [Quaternion.star_mul_self, h]; rfl

theorem Aqua.self_mul_star {q : Quaternion ℝ} (h : Quaternion.normSq q = 1) : q * star q = 1 := by
  rw [Quaternion.self_mul_star, h]; rfl

theorem Aqua.pureQ_smul (c : ℝ) (u : Fin 3 → ℝ) : pureQ (c • u) = c • pureQ u := by
  unfold pureQ
  rw [mkQ_smul]
  simp

/-- The horizontal field vanishes exactly when the field is a multiple of the acceleration. -/
theorem Aqua.field_zero {a m : Fin 3 → ℝ} (ha : epsilon ℝ < norm3 a) (hm : epsilon ℝ < norm3 m) :
    (amField a m 0 = 0 ∧ amField a m 1 = 0) ↔ ∃ c : ℝ, m = c • a := by
  have hna := (Linalg.eps_pos.trans ha).ne'
  have hnm := (Linalg.eps_pos.trans hm).ne'
  have hd := dir_norm ha
  have hu := accQ_normSq (dir a) hd
  have hb := accQ_back (dir a) hd
  have hl : pureQ (amField a m) = star (accQ (dir a)) * pureQ (dir m) * accQ (dir a) := by
    unfold amField
    rw [dirOr_eq ha]
    exact unrot_unit hu _
  have e1 := self_mul_star hu
  have e2 := star_mul_self hu
  generalize accQ (dir a) = q at *
  have ham := dir_smul ha
  have hmm := dir_smul hm
  constructor
  · rintro ⟨h0, h1⟩
    refine ⟨-(norm3 m * amField a m 2) / norm3 a, pureQ_inj ?_⟩
    have h2 : pureQ (amField a m) = (-(amField a m 2)) • mkQ 0 0 0 (-1) := by
      rw [mkQ_smul]
      unfold pureQ
      rw [h0, h1]
      simp
    rw [pureQ_smul, hmm, ham]
    have h3 : pureQ (dir m) = (-(amField a m 2)) • pureQ (dir a) := by
      have : q * (star q * pureQ (dir m) * q) * star q = q * ((-(amField a m 2)) • (star q * pureQ (dir a) * q)) * star q := by
        rw [← hl, h2, hb]
      simp only [mul_smul_comm, smul_mul_assoc, ← mul_assoc, e1, one_mul] at this
      simpa only [mul_assoc, e1, mul_one] using this
    rw [h3, smul_smul, smul_smul]
    congr 1
    field_simp
  · rintro ⟨c, hc⟩
    have h3 : pureQ (dir m) = (c * norm3 a / norm3 m) • pureQ (dir a) := by
      have : norm3 m • pureQ (dir m) = (c * norm3 a) • pureQ (dir a) := by
        rw [← hmm, hc, pureQ_smul, ham, smul_smul]
      have h4 := congrArg (fun t => (norm3 m)⁻¹ • t) this
      simp only [smul_smul, inv_mul_cancel₀ hnm, one_smul] at h4
      rw [h4]
      congr 1
      field_simp
    have h4 : pureQ (amField a m) = (c * norm3 a / norm3 m) • mkQ 0 0 0 (-1) := by
      rw [hl, h3, mul_smul_comm, smul_mul_assoc, hb]
    rw [mkQ_smul] at h4
    have h5 := congrArg (·.imI) h4
    have h6 := congrArg (·.imJ) h4
    simp [pureQ] at h5 h6
    exact ⟨h5, h6⟩

/-- The attitude an AM update computes. -/
theorem Aqua.am_align {a m : Fin 3 → ℝ} (ha : epsilon ℝ < norm3 a) (hm : epsilon ℝ < norm3 m)
    (hf : amField a m 0 ≠ 0 ∨ amField a m 1 ≠ 0) :
    ∃ Q : Quaternion ℝ, unitOf (accQ (dirOr a) * magQ (amField a m)) = Q ∧ ‖Q‖ = 1 ∧
      star Q * pureQ a * Q = mkQ 0 0 0 (-norm3 a) ∧
      ∃ x z, 0 < x ∧ star Q * pureQ m * Q = mkQ 0 x 0 z := by
  have hd := dir_norm ha
  have hu := accQ_normSq (dir a) hd
  have hb := accQ_back (dir a) hd
  have hl : pureQ (amField a m) = star (accQ (dir a)) * pureQ (dir m) * accQ (dir a) := by
    unfold amField
    rw [dirOr_eq ha]
    exact unrot_unit hu _
  obtain ⟨k1, k2⟩ := magQ_spec hf
  obtain ⟨i1, i2⟩ := magQ_im (amField a m)
  rw [dirOr_eq ha]
  have hn : ‖accQ (dir a) * magQ (amField a m)‖ = 1 := by
    rw [norm_mul, norm_one hu, norm_one k1, one_mul]
  refine ⟨accQ (dir a) * magQ (amField a m), unitOf_unit hn, hn, ?_, ?_⟩
  · have : star (accQ (dir a) * magQ (amField a m)) * pureQ a * (accQ (dir a) * magQ (amField a m)) =
        norm3 a • (star (magQ (amField a m)) * (star (accQ (dir a)) * pureQ (dir a) * accQ (dir a)) *
          magQ (amField a m)) := by
      rw [dir_smul ha, star_mul]
      simp only [mul_smul_comm, smul_mul_assoc, mul_assoc]
    rw [this, hb, third_axis i1 i2 k1, mkQ_smul]
    simp
  · have : star (accQ (dir a) * magQ (amField a m)) * pureQ m * (accQ (dir a) * magQ (amField a m)) =
        norm3 m • (star (magQ (amField a m)) * (star (accQ (dir a)) * pureQ (dir m) * accQ (dir a)) *
          magQ (amField a m)) := by
      rw [dir_smul hm, star_mul]
      simp only [mul_smul_comm, smul_mul_assoc, mul_assoc]
    rw [this, ← hl, k2, mkQ_smul]
    have hg : 0 < amField a m 0 * amField a m 0 + amField a m 1 * amField a m 1 := by
      rcases hf with h | h
      · have := mul_self_pos.mpr h; nlinarith [mul_self_nonneg (amField a m 1)]
      · have := mul_self_pos.mpr h; nlinarith [mul_self_nonneg (amField a m 0)]
    refine ⟨norm3 m * √(amField a m 0 * amField a m 0 + amField a m 1 * amField a m 1),
      norm3 m * amField a m 2, ?_, by simp⟩
    have := Real.sqrt_pos.mpr hg
    have := Linalg.eps_pos.trans hm
    positivity

/-- C69: an AM update with numbers, an acceleration and a field above the threshold, neither a multiple
of the other, succeeds; seen from the attitude reached, the acceleration points along the negative third
axis and the horizontal part of the field along the positive first axis. -/
theorem C69_align (hs : Started i s) (hmode : i.mode = .AM) (hd : s.getAccelerometerConfig = .ok d.fin)
    (he : s.getMagnetometerConfig = .ok e.fin) (gx gy gz : Option XR) {ax ay az mx my mz : ℝ}
    (ha : epsilon ℝ < norm3 (d.correct ax ay az)) (hm : epsilon ℝ < norm3 (e.correct mx my mz))
    (hne : ¬ ∃ c : ℝ, e.correct mx my mz = c • d.correct ax ay az) :
    ∃ s' Q, Aqua.update gx gy gz (.fin ax) (.fin ay) (.fin az) (.fin mx) (.fin my) (.fin mz) s = (.ok (), s') ∧
      Shows s' Q ∧ ‖Q‖ = 1 ∧
      star Q * pureQ (d.correct ax ay az) * Q = mkQ 0 0 0 (-norm3 (d.correct ax ay az)) ∧
      ∃ x z, 0 < x ∧ star Q * pureQ (e.correct mx my mz) * Q = mkQ 0 x 0 z := by
  obtain ⟨hr, k⟩ := hs.ready
  obtain ⟨A, e1, a1, a2, a3⟩ := acc_sample hr.acc hr.acc_initialized hd ax ay az
  obtain ⟨M, e2, m1, m2, m3⟩ := mag_sample hr.mag hr.mag_initialized he mx my mz
  rcases hr.am_fin (k.mode.trans hmode) e1 e2 a1 a2 a3 m1 m2 m3 (gx := gx) (gy := gy) (gz := gz) with
    ⟨hf, s1, e3, h1⟩ | ⟨h0, h1, -⟩
  · obtain ⟨Q, hQ, h2⟩ := am_align ha hm hf
    rw [hQ] at h1
    exact ⟨s1, Q, e3, h1, h2⟩
  · exact absurd ((field_zero ha hm).mp ⟨h0, h1⟩) hne

/-- C69: a field that is below the threshold or a multiple of the acceleration makes the update fail. -/
theorem C69_refused (hs : Started i s) (hmode : i.mode = .AM) (hd : s.getAccelerometerConfig = .ok d.fin)
    (he : s.getMagnetometerConfig = .ok e.fin) (gx gy gz : Option XR) {ax ay az mx my mz : ℝ}
    (ha : epsilon ℝ < norm3 (d.correct ax ay az))
    (hne : norm3 (e.correct mx my mz) ≤ epsilon ℝ ∨ ∃ c : ℝ, e.correct mx my mz = c • d.correct ax ay az) :
    (Aqua.update gx gy gz (.fin ax) (.fin ay) (.fin az) (.fin mx) (.fin my) (.fin mz) s).1 =
      .error (.err (.LinalgError (.UtilsError .Nan))) := by
  obtain ⟨hr, k⟩ := hs.ready
  obtain ⟨A, e1, a1, a2, a3⟩ := acc_sample hr.acc hr.acc_initialized hd ax ay az
  obtain ⟨M, e2, m1, m2, m3⟩ := mag_sample hr.mag hr.mag_initialized he mx my mz
  rcases hr.am_fin (k.mode.trans hmode) e1 e2 a1 a2 a3 m1 m2 m3 (gx := gx) (gy := gy) (gz := gz) with
    ⟨hf, -⟩ | ⟨-, -, s1, e3⟩
  · exfalso
    rcases le_or_gt (norm3 (e.correct mx my mz)) (epsilon ℝ) with h | h
    · have hz : ∀ j, amField (d.correct ax ay az) (e.correct mx my mz) j = 0 := fun j => by
        simp [amField, unrot, dir, if_neg (not_lt.mpr h)]
      rcases hf with h | h
      · exact h (hz 0)
      · exact h (hz 1)
    · obtain ⟨h0, h1⟩ := (field_zero ha h).mpr (hne.resolve_left (not_le.mpr h))
      rcases hf with h | h
      · exact h h0
      · exact h h1
  · rw [e3]

/-- C69: those two conditions determine the attitude up to its sign. -/
theorem C69_unique {P Q : Quaternion ℝ} {a m : Fin 3 → ℝ} {n x z x' z' : ℝ} (hP : ‖P‖ = 1) (hQ : ‖Q‖ = 1)
    (hn : 0 < n) (hx : 0 < x) (hx' : 0 < x') (h1 : star P * pureQ a * P = mkQ 0 0 0 (-n))
    (h2 : star Q * pureQ a * Q = mkQ 0 0 0 (-n)) (h3 : star P * pureQ m * P = mkQ 0 x 0 z)
    (h4 : star Q * pureQ m * Q = mkQ 0 x' 0 z') : P = Q ∨ P = -Q := by
  have sq : ∀ {q : Quaternion ℝ}, ‖q‖ = 1 → Quaternion.normSq q = 1 := fun h => by
    rw [Quaternion.normSq_eq_norm_mul_self, h, one_mul]
  have p1 := star_mul_self (sq hP)
  have q2 := self_mul_star (sq hQ)
  -- the quotient of the two
  obtain ⟨S, hS⟩ : ∃ S, S = star Q * P := ⟨_, rfl⟩
  have hP' : P = Q * S := by rw [hS, ← mul_assoc, q2, one_mul]
  have hS1 : Quaternion.normSq S = 1 := by
    rw [hS, map_mul, Quaternion.normSq_star, sq hQ, sq hP, one_mul]
  have k1 : star S * mkQ 0 0 0 (-n) * S = mkQ 0 0 0 (-n) := by
    rw [← h2]
    conv_rhs => rw [h2, ← h1]
    rw [hP', star_mul]
    simp only [mul_assoc]
  have k2 : star S * mkQ 0 x' 0 z' * S = mkQ 0 x 0 z := by
    rw [← h3, ← h4, hP', star_mul]
    simp only [mul_assoc]
  have hs := unit_sum hS1
  have c1 := congrArg (·.imK) k1
  have c2 := congrArg (·.imI) k2
  have c3 := congrArg (·.imJ) k2
  simp [Quaternion.re_mul, Quaternion.imI_mul, Quaternion.imJ_mul, Quaternion.imK_mul] at c1 c2 c3
  have hxy : S.imI * S.imI + S.imJ * S.imJ = 0 := by
    have : n * (S.imI * S.imI + S.imJ * S.imJ) = 0 := by nlinarith
    exact (mul_eq_zero.mp this).resolve_left hn.ne'
  have hI : S.imI = 0 := by nlinarith [mul_self_nonneg S.imI, mul_self_nonneg S.imJ]
  have hJ : S.imJ = 0 := by nlinarith [mul_self_nonneg S.imI, mul_self_nonneg S.imJ]
  rw [hI, hJ] at c2 c3 hs
  have hz : S.re * S.imK = 0 := by
    have : x' * (S.re * S.imK) = 0 := by nlinarith
    exact (mul_eq_zero.mp this).resolve_left hx'.ne'
  have hK : S.imK = 0 := by
    rcases mul_eq_zero.mp hz with h | h
    · exfalso
      rw [h] at c2 hs
      nlinarith
    · exact h
  rw [hK] at hs
  have hre : S.re = 1 ∨ S.re = -1 := by
    have : (S.re - 1) * (S.re + 1) = 0 := by nlinarith
    rcases mul_eq_zero.mp this with h | h
    · left; linarith
    · right; linarith
  rcases hre with h | h
  · left
    have : S = 1 := by
      apply Quaternion.ext
      · exact h
      · exact hI
      · exact hJ
      · exact hK
    rw [hP', this, mul_one]
  · right
    have : S = -1 := by
      apply Quaternion.ext
      · exact h
      · exact hI.trans neg_zero.symm
      · exact hJ.trans neg_zero.symm
      · exact hK.trans neg_zero.symm
    rw [hP', this, mul_neg, mul_one]

end
end Verif
