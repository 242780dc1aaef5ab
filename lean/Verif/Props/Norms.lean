import Mathlib.Analysis.InnerProductSpace.PiL2
import Verif.Lib.Lup
import Verif.Props.Predicates

/-
Norms, normalisation (C31) and interpolation (C32) in exact real arithmetic.
-/

set_option linter.unusedSectionVars false
set_option linter.unusedSimpArgs false

namespace Verif
open Scalar Finset

/-- The Euclidean norm of the first `n` values of `x`. -/
noncomputable def norm2 (n : Nat) (x : Nat → ℝ) : ℝ := √(∑ i ∈ range n, x i ^ 2)

/-- It is the norm of Mathlib's Euclidean space. -/
theorem norm2_eq (n : Nat) (x : Nat → ℝ) :
    norm2 n x = ‖(WithLp.toLp 2 (fun i : Fin n => x i) : EuclideanSpace ℝ (Fin n))‖ := by
  rw [EuclideanSpace.norm_eq, norm2, Finset.sum_range]
  simp

theorem norm2_nonneg (n : Nat) (x : Nat → ℝ) : 0 ≤ norm2 n x := Real.sqrt_nonneg _

theorem norm2_sq (n : Nat) (x : Nat → ℝ) : norm2 n x ^ 2 = ∑ i ∈ range n, x i ^ 2 :=
  Real.sq_sqrt (Finset.sum_nonneg fun _ _ => sq_nonneg _)

theorem norm2_congr {n : Nat} {x y : Nat → ℝ} (h : ∀ i, i < n → x i = y i) :
    norm2 n x = norm2 n y := by
  unfold norm2
  rw [Finset.sum_congr rfl fun i hi => by rw [h i (Finset.mem_range.mp hi)]]

theorem norm2_div (n : Nat) (x : Nat → ℝ) {c : ℝ} (hc : 0 < c) :
    norm2 n (fun i => x i / c) = norm2 n x / c := by
  unfold norm2
  simp only [div_pow]
  rw [← Finset.sum_div, Real.sqrt_div (Finset.sum_nonneg fun _ _ => sq_nonneg _),
    Real.sqrt_sq hc.le]

theorem sqrt_sumUp_sq (n : Nat) (x : Nat → ℝ) :
    Scalar.sqrt (sumUp n fun i => (.fin (x i) : XR) *ᶠ .fin (x i)) = .fin (norm2 n x) := by
  simp only [Ext.mul_fin]
  rw [sumUp_fin, Ext.sqrt_fin (Finset.sum_nonneg fun i _ => mul_self_nonneg _)]
  simp only [norm2, sq]
  rfl

section
variable {v : Vec XR} {n : Nat} {x : Nat → ℝ}

/-- C31: `calculate_norm` is the Euclidean norm, cut to 0 when it is at most the threshold. -/
theorem C31_norm (hv : VecIs v n (fun i => .fin (x i))) :
    v.calculateNorm = .ok (.fin (if norm2 n x ≤ epsilon ℝ then 0 else norm2 n x)) := by
  rw [Vec.calculateNorm_eq hv, sqrt_sumUp_sq, Ext.epsilon_eq, Ext.le_fin, Ext.lit_zero]
  by_cases h : norm2 n x ≤ epsilon ℝ
  · rw [if_pos (decide_eq_true h), if_pos h]
  · rw [if_neg (by simpa using h), if_neg h]

/-- `normalize`, as a function of the contents. -/
theorem normalize_run (hv : VecIs v n (fun i => .fin (x i))) :
    ∃ w, v.normalize = (.ok (), w) ∧
      VecIs w n (fun i => .fin (if epsilon ℝ < norm2 n x then x i / norm2 n x else 0)) := by
  have he := Linalg.eps_pos (K := ℝ)
  obtain ⟨w, h1, h2⟩ := Vec.run_of_stores (Vec.normalize_stores hv (C31_norm hv)) hv (fun i hi => by
    rw [Ext.epsilon_eq, Ext.lt_fin]
    by_cases h : norm2 n x ≤ epsilon ℝ
    · rw [if_pos h, if_neg (by simpa using he.le)]; simp
    · have h' := not_le.mp h
      rw [if_neg h, if_pos (decide_eq_true h'), Ext.div_fin _ (by linarith)]; simp)
  refine ⟨w, h1, h2.congr fun i hi => ?_⟩
  rw [Ext.epsilon_eq, Ext.lt_fin]
  by_cases h : norm2 n x ≤ epsilon ℝ
  · rw [if_pos h, if_neg (by simpa using he.le), if_neg (not_lt.mpr h), Ext.lit_zero]
  · have h' := not_le.mp h
    rw [if_neg h, if_pos (decide_eq_true h'), Ext.div_fin _ (by linarith), if_pos h']

/-- C31: a vector longer than the threshold is scaled to norm 1, keeping its direction. -/
theorem C31_normalize (hv : VecIs v n (fun i => .fin (x i))) (h : epsilon ℝ < norm2 n x) :
    ∃ w y, v.normalize = (.ok (), w) ∧ VecIs w n (fun i => .fin (y i)) ∧ norm2 n y = 1 ∧
      ∀ i, i < n → norm2 n x * y i = x i := by
  obtain ⟨w, h1, h2⟩ := normalize_run hv
  have hpos : 0 < norm2 n x := lt_trans Linalg.eps_pos h
  refine ⟨w, fun i => x i / norm2 n x, h1, h2.congr fun i _ => by rw [if_pos h], ?_, fun i _ => ?_⟩
  · rw [norm2_div n x hpos, div_self hpos.ne']
  · field_simp

/-- C31: a shorter vector is replaced by zero. -/
theorem C31_normalize_small (hv : VecIs v n (fun i => .fin (x i))) (h : norm2 n x ≤ epsilon ℝ) :
    ∃ w, v.normalize = (.ok (), w) ∧ VecIs w n (fun _ => .fin 0) := by
  obtain ⟨w, h1, h2⟩ := normalize_run hv
  exact ⟨w, h1, h2.congr fun i _ => by rw [if_neg (not_lt.mpr h)]⟩

end

/-- The vector (3, 4) has norm 5 and is normalised to (3/5, 4/5). -/
example : ∃ w y, (Vec.of 2 (fun i => (.fin (if i = 0 then 3 else 4) : XR))).normalize = (.ok (), w) ∧
    VecIs w 2 (fun i => .fin (y i)) ∧ norm2 2 y = 1 ∧
    ∀ i, i < 2 → norm2 2 (fun i => if i = 0 then 3 else 4) * y i = if i = 0 then 3 else 4 := by
  refine C31_normalize (Vec.of_is _ (by decide) (by decide)) ?_
  have : norm2 2 (fun i => if i = 0 then 3 else 4) = 5 := by
    rw [norm2, Finset.sum_range_succ, Finset.sum_range_one]
    rw [show ((if 0 = 0 then (3 : ℝ) else 4) ^ 2 + (if 1 = 0 then (3 : ℝ) else 4) ^ 2) = 5 ^ 2 by
      norm_num]
    exact Real.sqrt_sq (by norm_num)
  rw [this]; unfold epsilon; norm_num
example : (Vec.of 2 (fun i => (.fin (if i = 0 then 3 else 4) : XQ))).calculateNorm = .ok (.fin 5) := by
  decide +kernel

/-! ### Interpolation -/

/-- C32: the range of `alpha` is tested before anything else, in every arithmetic. -/
theorem C32_alpha {F : Type} [Scalar F] (s v w : Vec F) (alpha : F)
    (h : ¬ ((lit 0 ≤ᶠ alpha) = true ∧ (alpha ≤ᶠ lit 1) = true)) :
    Vec.lerp v w alpha s = (.error (.err .InvalidAlpha), s) ∧
    Vec.slerp v w alpha s = (.error (.err .InvalidAlpha), s) := by
  have : Utils.inRange alpha (lit 0) (lit 1) = false := by
    unfold Utils.inRange
    cases h1 : lit 0 ≤ᶠ alpha <;> cases h2 : alpha ≤ᶠ lit 1 <;> simp_all
  constructor
  · unfold Vec.lerp; simp [this, Op.fail]
  · unfold Vec.slerp; simp [this, Op.fail]

theorem inRange_ok {F : Type} [Scalar F] {alpha : F} (h0 : (lit 0 ≤ᶠ alpha) = true)
    (h1 : (alpha ≤ᶠ lit 1) = true) : Utils.inRange alpha (lit 0) (lit 1) = true := by
  unfold Utils.inRange; simp [h0, h1]

theorem Vec.exec_copy {F : Type} [Scalar F] {v : Vec F} {n : Nat} {f : Nat → F} (hv : VecIs v n f)
    (hf : ∀ i, i < n → Finite (f i)) :
    ∃ d, exec (Vec.zeros n) (Vec.copyFrom v) = .ok d ∧ VecIs d n f :=
  Vec.exec_of_stores (Vec.copyFrom_stores (Vec.zeros_is hv.pos hv.le) hv)
    (Vec.zeros_is hv.pos hv.le) hf

/-- The common part of `lerp` and `slerp`. -/
theorem interp_ok {F : Type} [Scalar F] {s v w : Vec F} {n : Nat} {f0 f g : Nat → F} {c d : F}
    (hs : VecIs s n f0) (hv : VecIs v n f) (hw : VecIs w n g) (hf : ∀ i, i < n → Finite (f i))
    (hg : ∀ i, i < n → Finite (g i)) (h1 : ∀ i, i < n → Finite (f i *ᶠ c))
    (h2 : ∀ i, i < n → Finite (g i *ᶠ d))
    (h3 : ∀ i, i < n → Finite ((f i *ᶠ c) +ᶠ (g i *ᶠ d))) :
    ∃ s', (do
      let v1 ← exec Vec.new (Vec.init n)
      let v1 ← exec v1 (Vec.copyFrom v)
      let v2 ← exec Vec.new (Vec.init n)
      let v2 ← exec v2 (Vec.copyFrom w)
      let v1 ← exec v1 (Vec.mulByScalarInPlace c)
      let v2 ← exec v2 (Vec.mulByScalarInPlace d)
      Vec.add v1 v2 : Op LinalgError (Vec F) Unit) s = (.ok (), s') ∧
      VecIs s' n (fun i => (f i *ᶠ c) +ᶠ (g i *ᶠ d)) := by
  obtain ⟨v1, e1, hv1⟩ := Vec.exec_copy hv hf
  obtain ⟨w1, e2, hw1⟩ := Vec.exec_copy hw hg
  obtain ⟨v2, e3, hv2⟩ := Vec.exec_of_stores (Vec.mulByScalarInPlace_stores hv1) hv1 h1
  obtain ⟨w2, e4, hw2⟩ := Vec.exec_of_stores (Vec.mulByScalarInPlace_stores hw1) hw1 h2
  simp only [Vec.init_new hv.pos hv.le, e1, e2, e3, e4, Op.liftOk_bind]
  exact Vec.run_of_stores (Vec.add_stores hs hv2 hw2) hs h3

section
variable {s v w : Vec XR} {n : Nat} {f0 : Nat → XR} {x y : Nat → ℝ} {α : ℝ}

theorem alpha_fin : ((lit 0 ≤ᶠ (.fin α : XR)) = true ∧ ((.fin α : XR) ≤ᶠ lit 1) = true) ↔
    0 ≤ α ∧ α ≤ 1 := by
  rw [Ext.lit_zero, Ext.lit_one, Ext.le_fin, Ext.le_fin]; simp

/-- C32: in exact arithmetic `lerp` is the convex combination; it is not scaled to norm 1. -/
theorem C32_lerp (hs : VecIs s n f0) (hv : VecIs v n (fun i => .fin (x i)))
    (hw : VecIs w n (fun i => .fin (y i))) (h0 : 0 ≤ α) (h1 : α ≤ 1) :
    ∃ s', Vec.lerp v w (.fin α) s = (.ok (), s') ∧
      VecIs s' n (fun i => .fin ((1 - α) * x i + α * y i)) := by
  obtain ⟨a0, a1⟩ := alpha_fin.mpr ⟨h0, h1⟩
  unfold Vec.lerp
  simp only [inRange_ok a0 a1, Bool.not_true, Bool.false_eq_true, if_false, Op.get_bind,
    hs.sameSize hv, hs.sameSize hw, hs.rows, Op.liftOk_bind]
  obtain ⟨s', e, h⟩ := interp_ok (c := lit 1 -ᶠ .fin α) (d := .fin α) hs hv hw
    (fun i _ => Ext.finite_fin _) (fun i _ => Ext.finite_fin _) (fun i _ => by simp)
    (fun i _ => by simp) (fun i _ => by simp)
  refine ⟨s', e, h.congr fun i _ => ?_⟩
  simp; ring

/-- C32: the end points of `lerp`. -/
theorem C32_lerp_ends (hs : VecIs s n f0) (hv : VecIs v n (fun i => .fin (x i)))
    (hw : VecIs w n (fun i => .fin (y i))) :
    (∃ s', Vec.lerp v w (.fin 0) s = (.ok (), s') ∧ VecIs s' n (fun i => .fin (x i))) ∧
    (∃ s', Vec.lerp v w (.fin 1) s = (.ok (), s') ∧ VecIs s' n (fun i => .fin (y i))) := by
  obtain ⟨s', h1, h2⟩ := C32_lerp hs hv hw (le_refl 0) zero_le_one
  obtain ⟨s'', h3, h4⟩ := C32_lerp hs hv hw (zero_le_one) (le_refl 1)
  exact ⟨⟨s', h1, h2.congr fun i _ => by simp⟩, ⟨s'', h3, h4.congr fun i _ => by simp⟩⟩

theorem dot_fin (hv : VecIs v n (fun i => .fin (x i))) (hw : VecIs w n (fun i => .fin (y i))) :
    v.dotProduct w = .ok (.fin (∑ i ∈ range n, x i * y i)) := by
  rw [Vec.dotProduct_eq hv hw]
  simp only [Ext.mul_fin]
  rw [sumUp_fin]

theorem norm2_one {n : Nat} {x : Nat → ℝ} (h : norm2 n x = 1) : ∑ i ∈ range n, x i ^ 2 = 1 := by
  rw [← norm2_sq, h]; norm_num

/-- Two unit vectors that are neither equal nor opposite are at an angle strictly between 0 and
`π`. -/
theorem dot_lt {n : Nat} {x y : Nat → ℝ} (hx : norm2 n x = 1) (hy : norm2 n y = 1)
    (hne : ∃ i, i < n ∧ x i ≠ y i) (hno : ∃ i, i < n ∧ x i ≠ - y i) :
    -1 < ∑ i ∈ range n, x i * y i ∧ ∑ i ∈ range n, x i * y i < 1 := by
  have hx := norm2_one hx
  have hy := norm2_one hy
  constructor
  · obtain ⟨k, hk, hkne⟩ := hno
    have h : 0 < ∑ i ∈ range n, (x i + y i) ^ 2 :=
      Finset.sum_pos' (fun i _ => sq_nonneg _) ⟨k, Finset.mem_range.mpr hk, by
        have : x k + y k ≠ 0 := fun h => hkne (by linarith)
        positivity⟩
    have : ∑ i ∈ range n, (x i + y i) ^ 2 =
        ∑ i ∈ range n, x i ^ 2 + 2 * ∑ i ∈ range n, x i * y i + ∑ i ∈ range n, y i ^ 2 := by
      rw [Finset.mul_sum, ← Finset.sum_add_distrib, ← Finset.sum_add_distrib]
      exact Finset.sum_congr rfl fun i _ => by ring
    linarith
  · obtain ⟨k, hk, hkne⟩ := hne
    have h : 0 < ∑ i ∈ range n, (x i - y i) ^ 2 :=
      Finset.sum_pos' (fun i _ => sq_nonneg _) ⟨k, Finset.mem_range.mpr hk, by
        have : x k - y k ≠ 0 := fun h => hkne (by linarith)
        positivity⟩
    have : ∑ i ∈ range n, (x i - y i) ^ 2 =
        ∑ i ∈ range n, x i ^ 2 - 2 * ∑ i ∈ range n, x i * y i + ∑ i ∈ range n, y i ^ 2 := by
      rw [Finset.mul_sum, ← Finset.sum_sub_distrib, ← Finset.sum_add_distrib]
      exact Finset.sum_congr rfl fun i _ => by ring
    linarith

/-- `slerp` as a function of the contents, for vectors whose dot product is strictly between -1
and 1. -/
theorem slerp_run (hs : VecIs s n f0) (hv : VecIs v n (fun i => .fin (x i)))
    (hw : VecIs w n (fun i => .fin (y i))) (h0 : 0 ≤ α) (h1 : α ≤ 1)
    (hd : -1 < ∑ i ∈ range n, x i * y i ∧ ∑ i ∈ range n, x i * y i < 1) {θ : ℝ}
    (hθ : θ = Real.arccos (∑ i ∈ range n, x i * y i)) :
    0 < Real.sin θ ∧ ∃ s', Vec.slerp v w (.fin α) s = (.ok (), s') ∧
      VecIs s' n (fun i => .fin ((Real.sin ((1 - α) * θ) * x i + Real.sin (α * θ) * y i) /
        Real.sin θ)) := by
  have hsin : 0 < Real.sin θ := by
    rw [hθ, Real.sin_arccos]
    exact Real.sqrt_pos.mpr (by nlinarith [hd.1, hd.2])
  refine ⟨hsin, ?_⟩
  obtain ⟨a0, a1⟩ := alpha_fin.mpr ⟨h0, h1⟩
  have e1 : Scalar.acos (.fin (∑ i ∈ range n, x i * y i) : XR) = .fin θ := by
    rw [Ext.acos_fin ⟨hd.1.le, hd.2.le⟩, hθ]; rfl
  have esin : ∀ t : ℝ, Scalar.sin (.fin t : XR) = .fin (Real.sin t) := fun _ => rfl
  unfold Vec.slerp
  simp only [inRange_ok a0 a1, Bool.not_true, Bool.false_eq_true, if_false, Op.get_bind,
    hs.sameSize hv, hs.sameSize hw, hs.rows, Op.liftOk_bind, dot_fin hv hw, e1]
  simp only [Ext.lit_one, Ext.sub_fin, Ext.mul_fin, esin, Ext.div_fin _ hsin.ne']
  obtain ⟨s', e, h⟩ := interp_ok (c := .fin (Real.sin ((1 - α) * θ) / Real.sin θ))
    (d := .fin (Real.sin (α * θ) / Real.sin θ)) hs hv hw
    (fun i _ => Ext.finite_fin _) (fun i _ => Ext.finite_fin _) (fun i _ => by simp)
    (fun i _ => by simp) (fun i _ => by simp)
  refine ⟨s', e, h.congr fun i _ => ?_⟩
  simp; ring

/-- C32: `slerp` of unit vectors that are neither equal nor opposite is a unit vector, for every
admissible `alpha`. -/
theorem C32_slerp (hs : VecIs s n f0) (hv : VecIs v n (fun i => .fin (x i)))
    (hw : VecIs w n (fun i => .fin (y i))) (h0 : 0 ≤ α) (h1 : α ≤ 1) (hx : norm2 n x = 1)
    (hy : norm2 n y = 1) (hne : ∃ i, i < n ∧ x i ≠ y i) (hno : ∃ i, i < n ∧ x i ≠ - y i) :
    ∃ s' z, Vec.slerp v w (.fin α) s = (.ok (), s') ∧ VecIs s' n (fun i => .fin (z i)) ∧
      norm2 n z = 1 ∧
      ∑ i ∈ range n, x i * z i = Real.cos (α * Real.arccos (∑ i ∈ range n, x i * y i)) := by
  have hd := dot_lt hx hy hne hno
  obtain ⟨hsin, s', e, h⟩ := slerp_run hs hv hw h0 h1 hd rfl
  set θ := Real.arccos (∑ i ∈ range n, x i * y i) with hθ
  have hcos : ∑ i ∈ range n, x i * y i = Real.cos θ := by
    rw [hθ, Real.cos_arccos hd.1.le hd.2.le]
  have hX := norm2_one hx
  have hY := norm2_one hy
  set A := (1 - α) * θ with hA
  set B := α * θ with hB
  have hAB : θ = A + B := by rw [hA, hB]; ring
  have hsc := Real.sin_sq_add_cos_sq A
  have hsc' := Real.sin_sq_add_cos_sq B
  refine ⟨s', _, e, h, ?_, ?_⟩
  · rw [norm2_div n _ hsin, norm2]
    have : ∑ i ∈ range n, (Real.sin A * x i + Real.sin B * y i) ^ 2 = Real.sin θ ^ 2 := by
      have e1 : ∑ i ∈ range n, (Real.sin A * x i + Real.sin B * y i) ^ 2 =
          Real.sin A ^ 2 * ∑ i ∈ range n, x i ^ 2 +
          2 * Real.sin A * Real.sin B * ∑ i ∈ range n, x i * y i +
          Real.sin B ^ 2 * ∑ i ∈ range n, y i ^ 2 := by
        rw [Finset.mul_sum, Finset.mul_sum, Finset.mul_sum, ← Finset.sum_add_distrib,
          ← Finset.sum_add_distrib]
        exact Finset.sum_congr rfl fun i _ => by ring
      rw [e1, hX, hY, hcos, hAB, Real.sin_add, Real.cos_add]
      have hcA : Real.cos A ^ 2 = 1 - Real.sin A ^ 2 := by linarith
      have hcB : Real.cos B ^ 2 = 1 - Real.sin B ^ 2 := by linarith
      ring_nf
      rw [hcA, hcB]
      ring
    rw [this, Real.sqrt_sq hsin.le, div_self hsin.ne']
  · have e1 : ∑ i ∈ range n, x i * ((Real.sin A * x i + Real.sin B * y i) / Real.sin θ) =
        (Real.sin A * ∑ i ∈ range n, x i ^ 2 + Real.sin B * ∑ i ∈ range n, x i * y i) /
          Real.sin θ := by
      rw [Finset.mul_sum, Finset.mul_sum, ← Finset.sum_add_distrib, Finset.sum_div]
      exact Finset.sum_congr rfl fun i _ => by ring
    rw [e1, hX, hcos, div_eq_iff hsin.ne', hAB, Real.sin_add, Real.cos_add]
    have hcB : Real.cos B ^ 2 = 1 - Real.sin B ^ 2 := by linarith
    ring_nf
    rw [hcB]
    ring

/-- C32: the end points of `slerp`. -/
theorem C32_slerp_ends (hs : VecIs s n f0) (hv : VecIs v n (fun i => .fin (x i)))
    (hw : VecIs w n (fun i => .fin (y i))) (hx : norm2 n x = 1)
    (hy : norm2 n y = 1) (hne : ∃ i, i < n ∧ x i ≠ y i) (hno : ∃ i, i < n ∧ x i ≠ - y i) :
    (∃ s', Vec.slerp v w (.fin 0) s = (.ok (), s') ∧ VecIs s' n (fun i => .fin (x i))) ∧
    (∃ s', Vec.slerp v w (.fin 1) s = (.ok (), s') ∧ VecIs s' n (fun i => .fin (y i))) := by
  have hd := dot_lt hx hy hne hno
  obtain ⟨hsin, s', h1, h2⟩ := slerp_run hs hv hw (le_refl 0) zero_le_one hd rfl
  obtain ⟨_, s'', h3, h4⟩ := slerp_run hs hv hw (zero_le_one) (le_refl 1) hd rfl
  refine ⟨⟨s', h1, h2.congr fun i _ => ?_⟩, ⟨s'', h3, h4.congr fun i _ => ?_⟩⟩
  · simp; field_simp
  · simp; field_simp

/-- A division by zero is not finite, and neither is a multiple of it. -/
theorem mul_not_finite (a b : ℝ) : ¬ Finite ((.fin a : XR) *ᶠ ((.fin b : XR) /ᶠ .fin 0)) := by
  have e : ((.fin b : XR) /ᶠ .fin 0) = if b = 0 then .nan else if 0 ≤ b then .pinf else .ninf := by
    show Ext.div (.fin b) (.fin 0) = _
    simp [Ext.div, Ext.infOf]
  rw [e, Ext.finite_iff]
  rintro ⟨c, hc⟩
  split at hc
  · cases hc
  · split at hc
    · have : Ext.mul (.fin a) .pinf = .fin c := hc
      simp only [Ext.mul, Ext.infOf] at this
      split at this
      · cases this
      · split at this <;> cases this
    · have : Ext.mul (.fin a) .ninf = .fin c := hc
      simp only [Ext.mul, Ext.infOf] at this
      split at this
      · cases this
      · split at this <;> cases this

theorem mul_nan (x : XR) : x *ᶠ .nan = .nan := by cases x <;> rfl

/-- `slerp` fails when the scalar product is not strictly between -1 and 1. -/
theorem slerp_fails (hs : VecIs s n f0) (hv : VecIs v n (fun i => .fin (x i)))
    (hw : VecIs w n (fun i => .fin (y i))) (h0 : 0 ≤ α) (h1 : α ≤ 1)
    (hd : ∑ i ∈ range n, x i * y i ≤ -1 ∨ 1 ≤ ∑ i ∈ range n, x i * y i) :
    ∃ e, Vec.slerp v w (.fin α) s = (.error (.err (.UtilsError e)), s) := by
  obtain ⟨a0, a1⟩ := alpha_fin.mpr ⟨h0, h1⟩
  have esin : ∀ t : ℝ, Scalar.sin (.fin t : XR) = .fin (Real.sin t) := fun _ => rfl
  obtain ⟨v1, e2, hv1⟩ := Vec.exec_copy hv (fun i _ => Ext.finite_fin _)
  obtain ⟨w1, e3, hw1⟩ := Vec.exec_copy hw (fun i _ => Ext.finite_fin _)
  generalize hdd : ∑ i ∈ range n, x i * y i = d at hd
  have hst := fun c : XR => Vec.mulByScalarInPlace_stores (x := c) hv1
  -- the first factor is not a number
  have hbad : ∀ a : ℝ, ¬ Finite ((.fin a : XR) *ᶠ (Scalar.sin ((lit 1 -ᶠ .fin α) *ᶠ Scalar.acos (.fin d)) /ᶠ
      Scalar.sin (Scalar.acos (.fin d)))) := by
    intro a
    by_cases hr : -1 ≤ d ∧ d ≤ 1
    · have e1 : Scalar.acos (.fin d : XR) = .fin (Real.arccos d) := Ext.acos_fin hr
      have hsin : Real.sin (Real.arccos d) = 0 := by
        rcases hd with h | h
        · rw [le_antisymm h hr.1]; simp
        · rw [le_antisymm hr.2 h]; simp
      rw [e1, Ext.lit_one, Ext.sub_fin, Ext.mul_fin, esin, esin, hsin]
      exact mul_not_finite _ _
    · have e1 : Scalar.acos (.fin d : XR) = .nan := by
        show Ext.onUnit _ (.fin d) = _
        simp only [Ext.onUnit, if_neg hr]
      rw [e1, mul_nan]
      intro h
      cases h.1
  unfold Vec.slerp
  simp only [inRange_ok a0 a1, Bool.not_true, Bool.false_eq_true, if_false, Op.get_bind,
    hs.sameSize hv, hs.sameSize hw, hs.rows, Op.liftOk_bind, dot_fin hv hw, hdd]
  simp only [e2, e3, Op.liftOk_bind, Vec.init_new hv.pos hv.le]
  rcases (hst _).cases with ⟨hf, _⟩ | ⟨k, hk, _, _, e4⟩
  · exact absurd (hf 0 hv.pos) (hbad _)
  · rw [exec_err e4]
    exact ⟨_, rfl⟩

/-- C32: `slerp` of a unit vector with itself or with its opposite always fails, on a value that is
not finite, and leaves the target unchanged. -/
theorem C32_slerp_parallel (hs : VecIs s n f0) (hv : VecIs v n (fun i => .fin (x i)))
    (hw : VecIs w n (fun i => .fin (y i))) (h0 : 0 ≤ α) (h1 : α ≤ 1) (hx : norm2 n x = 1)
    (hxy : (∀ i, i < n → y i = x i) ∨ (∀ i, i < n → y i = - x i)) :
    ∃ e, Vec.slerp v w (.fin α) s = (.error (.err (.UtilsError e)), s) := by
  have hX := norm2_one hx
  refine slerp_fails hs hv hw h0 h1 ?_
  rcases hxy with h | h
  · right
    rw [← hX]
    exact (Finset.sum_congr rfl fun i hi => by rw [h i (Finset.mem_range.mp hi)]; ring).le
  · left
    rw [← hX, ← Finset.sum_neg_distrib]
    exact (Finset.sum_congr rfl fun i hi => by rw [h i (Finset.mem_range.mp hi)]; ring).le

end

/-- The unit vectors (1, 0) and (3/5, 4/5). -/
example : ∃ s' z, Vec.slerp (Vec.of 2 (fun i => .fin (if i = 0 then 1 else 0)))
      (Vec.of 2 (fun i => .fin (if i = 0 then 3 / 5 else 4 / 5))) (.fin (1 / 3))
      (Vec.zeros 2 : Vec XR) = (.ok (), s') ∧ VecIs s' 2 (fun i => .fin (z i)) ∧ norm2 2 z = 1 ∧
      ∑ i ∈ range 2, (if i = 0 then 1 else 0) * z i = Real.cos (1 / 3 * Real.arccos
        (∑ i ∈ range 2, (if i = 0 then 1 else 0) * (if i = 0 then 3 / 5 else 4 / 5))) := by
  refine C32_slerp (Vec.zeros_is (by decide) (by decide)) (Vec.of_is _ (by decide) (by decide))
    (Vec.of_is _ (by decide) (by decide)) (by norm_num) (by norm_num) ?_ ?_ ⟨0, by decide, by norm_num⟩
    ⟨0, by decide, by norm_num⟩
  · simp [norm2, Finset.sum_range_succ]
  · rw [norm2, Finset.sum_range_succ, Finset.sum_range_one]
    norm_num

/-- The midpoint of two unit vectors computed by `lerp` has squared norm 4/5, not 1. -/
example : (exec (Vec.zeros 2) (Vec.lerp (Vec.of 2 (fun i => .fin (if i = 0 then 1 else 0)))
      (Vec.of 2 (fun i => .fin (if i = 0 then 3 / 5 else 4 / 5))) (.fin (1 / 2) : XQ)) >>=
      fun m => m.dotProduct m) = .ok (.fin (4 / 5)) := by decide +kernel

end Verif
