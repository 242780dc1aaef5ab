import Verif.Props.RoundedSo3
import Verif.Props.RoundedChol
import Verif.Props.Tolerance32
import Verif.Props.LupRefused

/-
C129: the test for positive definite matrices and the success of `chol` in binary32.
-/

set_option linter.unusedSectionVars false
set_option linter.unusedSimpArgs false

namespace Verif
open Scalar Finset Rounded

section
variable {F : Type} [Scalar F] [R : Rounded F] {a : Mat F} {A : Nat → Nat → F}

omit R in
/-- `det` of a 2×2 matrix from its factors. -/
theorem det2_tail (ha : MatIs a 2 2 A) {lu : Mat F} {p : Vec Nat} {π : Nat → Nat} {f : Nat → Nat → F}
    (h : Linalg.lup a = .ok (lu, p)) (hl : MatIs lu 2 2 f) (hp : U8Is p 2 π) (hπ : PermOn 2 π) {x : F}
    (hx : lit 1 *ᶠ f (π 0) 0 *ᶠ f (π 1) 1 = x) :
    a.det = .ok (if π 0 = 0 then x else Scalar.neg x) := by
  unfold Mat.det
  simp only [Mat.isSquare_eq ha, Res.ok_bind, decide_true, Bool.not_true, Bool.false_eq_true, if_false,
    h, ha.rows_eq, foldRange_two]
  have k0 := hπ.lt 0 (by omega)
  have k1 := hπ.lt 1 (by omega)
  have i01 := hπ.inj 0 1 (by omega) (by omega)
  simp only [hp.get 0 (by omega), hp.get 1 (by omega), Res.ok_bind,
    hl.get _ _ k0 (show 0 < 2 by omega), hl.get _ _ k1 (show 1 < 2 by omega), hx]
  by_cases h0 : π 0 = 0
  · have h1 : π 1 = 1 := by
      rcases (show π 1 = 0 ∨ π 1 = 1 by omega) with h | h
      · exact absurd (i01 (h0.trans h.symm)) (by omega)
      · exact h
    simp [h0, h1, Res.ok_bind]
  · have h1 : π 1 ≠ 1 := by
      intro h
      exact absurd (i01 (by omega)) (by omega)
    simp [h0, h1, Res.ok_bind]

/-- `det` of a 2×2 matrix of finite numbers. -/
theorem det2_run (ha : MatIs a 2 2 A) (hfin : ∀ i j, i < 2 → j < 2 → Finite (A i j)) {q k : Nat}
    (hq : (q = 0 ∧ k = 1 ∧ ⟪A 1 0⟫ ≤ ⟪A 0 0⟫) ∨ (q = 1 ∧ k = 0 ∧ ⟪A 0 0⟫ < ⟪A 1 0⟫)) :
    (|⟪A q 0⟫| < ⟪(EPSILON : F)⟫ → a.det = .error (.err .Singular)) ∧
    (⟪(EPSILON : F)⟫ ≤ |⟪A q 0⟫| → Finite (A k 0 /ᶠ A q 0) → Finite (left1 A q k 1) →
      a.det = .ok (if q = 0 then lit 1 *ᶠ A q 0 *ᶠ left1 A q k 1 else Scalar.neg (lit 1 *ᶠ A q 0 *ᶠ left1 A q k 1))) := by
  obtain ⟨l, p, hl, hp, e⟩ := Linalg.lup_start_run ha hfin
  have hπ : PermOn 2 (fun i => i) := ⟨fun _ h => h, fun _ _ _ _ h => h⟩
  have e1 : Linalg.lupPivot l p 0 2 = .ok q := by
    rw [Linalg.lupPivot_last_val (s := 0) hl hp hπ hfin]
    rcases hq with ⟨rfl, rfl, h⟩ | ⟨rfl, rfl, h⟩
    · rw [if_neg (not_lt.mpr h)]
    · rw [if_pos h]
  have hq' : q < 2 := by omega
  have hsing : Linalg.lup a = .error (.err .Singular) → a.det = .error (.err .Singular) := fun h => by
    unfold Mat.det
    simp only [Mat.isSquare_eq ha, Res.ok_bind, decide_true, Bool.not_true, Bool.false_eq_true, if_false, h]
    rfl
  have e' : Linalg.lup a = Linalg.lupStep 2 2 0 (l, p) := by
    rw [e]
    exact foldFrom_one _ _ _
  rcases Linalg.lupStep_run hl hp hπ hfin (s := 0) (by omega) e1 hq' with ⟨h1, h2⟩ | ⟨h1, h2⟩
  · exact ⟨fun _ => hsing (by rw [e', h2]), fun h => absurd h (not_le.mpr h1)⟩
  refine ⟨fun h => absurd h1 (not_le.mpr h), fun _ f1 f2 => ?_⟩
  have hk : (if 1 = q then 0 else 1) = k := by
    rcases hq with ⟨rfl, rfl, h⟩ | ⟨rfl, rfl, h⟩ <;> simp
  obtain ⟨st1, e2⟩ := h2 (fun i h h' => by
      obtain rfl : i = 1 := by omega
      rw [hk]; exact f1) (fun i b h h' hb hb' => by
      obtain rfl : i = 1 := by omega
      obtain rfl : b = 1 := by omega
      rw [hk]; exact f2)
  obtain ⟨_, g, hl1, hp1, hπ1, ga, gb, gfin⟩ := Linalg.lupStep_val hl hp hπ hfin (s := 0) (by omega) e1 hq' e2
  obtain ⟨l1, p1⟩ := st1
  dsimp only at hl1 hp1
  have r0 := ga 0 0 le_rfl (by omega)
  have r1 := gb 1 1 (by omega) (by omega)
  rw [hk] at r1
  simp only [show ¬ (1 < 0) by omega, show ¬ ((1 : Nat) = 0) by omega, if_false] at r1
  have := det2_tail ha (e'.trans e2) hl1 hp1 hπ1 (x := lit 1 *ᶠ A q 0 *ᶠ left1 A q k 1) (by
    rcases hq with ⟨rfl, rfl, h⟩ | ⟨rfl, rfl, h⟩ <;> simp at r0 r1 ⊢ <;> rw [r0, r1] <;> rfl)
  rw [this]
  rcases hq with ⟨rfl, rfl, h⟩ | ⟨rfl, rfl, h⟩ <;> simp

/-- The elimination and the product of the pivots, for real numbers. -/
theorem det2_acc {p x y z L m v P d : ℝ} (hp : 9 / 10 ^ 5 ≤ |p|) (bp : |p| ≤ 2 ^ 40) (by' : |y| ≤ 2 ^ 40)
    (hL : |L - x / p| ≤ ru * |x / p| + rη) (hm : |m - y * L| ≤ ru * |y * L| + rη) (hv : |v - (z - m)| ≤ ru * |z - m| + rη)
    (hP : |P - p| ≤ ru * |p| + rη) (hd : |d - P * v| ≤ ru * |P * v| + rη) :
    |d - (p * z - y * x)| ≤ 7 / 2 ^ 24 * (|p * z| + |y * x|) + 1 / 2 ^ 60 := by
  have u0 := ru_pos
  have h0 := rη_pos
  have ue : ru = 1 / 16777216 := by unfold ru; norm_num
  have he : rη ≤ 1 / 2 ^ 150 := le_refl _
  have p0 : p ≠ 0 := by
    rintro rfl
    rw [abs_zero] at hp
    norm_num at hp
  -- the multiplier
  have k1 : |p * L - x| ≤ ru * |x| + rη * |p| := by
    have e1 : p * L - x = p * (L - x / p) := by field_simp
    have e2 : |p| * |x / p| = |x| := by rw [← abs_mul]; congr 1; field_simp
    rw [e1, abs_mul]
    calc |p| * |L - x / p| ≤ |p| * (ru * |x / p| + rη) := by gcongr
      _ = ru * (|p| * |x / p|) + rη * |p| := by ring
      _ = _ := by rw [e2]
  have k2 : |p * L| ≤ |x| + (ru * |x| + rη * |p|) := by
    have := abs_sub_abs_le_abs_sub (p * L) x
    linarith
  have k3 : |p * m - y * x| ≤ (2 * ru + ru * ru) * |y * x| + rη * (|p| + 2 * (|p| * |y|)) := by
    have e1 : p * m - y * x = p * (m - y * L) + y * (p * L - x) := by ring
    have e2 : |p| * |y * L| = |y| * |p * L| := by rw [abs_mul, abs_mul]; ring
    have e3 : |y| * |p * L| ≤ |y| * (|x| + (ru * |x| + rη * |p|)) := by gcongr
    have e4 : |p * (m - y * L)| ≤ ru * (|y| * (|x| + (ru * |x| + rη * |p|))) + rη * |p| := by
      rw [abs_mul]
      calc |p| * |m - y * L| ≤ |p| * (ru * |y * L| + rη) := by gcongr
        _ = ru * (|p| * |y * L|) + rη * |p| := by ring
        _ = ru * (|y| * |p * L|) + rη * |p| := by rw [e2]
        _ ≤ _ := by gcongr
    have e5 : |y * (p * L - x)| ≤ |y| * (ru * |x| + rη * |p|) := by
      rw [abs_mul]; gcongr
    have e6 := abs_add_le (p * (m - y * L)) (y * (p * L - x))
    rw [← e1] at e6
    have e7 : |y * x| = |y| * |x| := abs_mul _ _
    have e8 : ru * (rη * (|p| * |y|)) ≤ rη * (|p| * |y|) := by
      have : 0 ≤ rη * (|p| * |y|) := by positivity
      rw [ue]; linarith
    rw [e7]
    nlinarith
  obtain ⟨S, hS⟩ : ∃ S, S = |p| + 2 * (|p| * |y|) := ⟨_, rfl⟩
  have bS : S ≤ 2 ^ 82 := by
    have : |p| * |y| ≤ 2 ^ 40 * 2 ^ 40 := by gcongr
    rw [hS]
    norm_num at this bp ⊢
    linarith
  have S0 : 0 ≤ S := by rw [hS]; positivity
  rw [← hS] at k3
  have pS : |p| ≤ S := by
    rw [hS]
    have : 0 ≤ |p| * |y| := by positivity
    linarith
  have k4 : |p * m| ≤ |y * x| + ((2 * ru + ru * ru) * |y * x| + rη * S) := by
    have := abs_sub_abs_le_abs_sub (p * m) (y * x)
    linarith
  have k5 : |p * v - (p * z - p * m)| ≤ ru * (|p * z| + |p * m|) + rη * S := by
    have e1 : p * v - (p * z - p * m) = p * (v - (z - m)) := by ring
    have e2 : |p| * |z - m| ≤ |p * z| + |p * m| := by
      rw [← abs_mul, mul_sub]
      exact abs_sub _ _
    rw [e1, abs_mul]
    calc |p| * |v - (z - m)| ≤ |p| * (ru * |z - m| + rη) := by gcongr
      _ = ru * (|p| * |z - m|) + rη * |p| := by ring
      _ ≤ _ := by gcongr
  obtain ⟨X, hX⟩ : ∃ X, X = |y * x| := ⟨_, rfl⟩
  obtain ⟨Z, hZ⟩ : ∃ Z, Z = |p * z| := ⟨_, rfl⟩
  have X0 : 0 ≤ X := by rw [hX]; positivity
  have Z0 : 0 ≤ Z := by rw [hZ]; positivity
  have kX := abs_sub (p * z) (y * x)
  rw [← hX, ← hZ] at kX ⊢
  rw [← hX] at k3 k4
  rw [← hZ] at k5
  obtain ⟨E, hE⟩ : ∃ E, E = rη * S := ⟨_, rfl⟩
  have E0 : 0 ≤ E := by rw [hE]; positivity
  have bE : E ≤ 1 / 2 ^ 68 := by
    rw [hE]
    calc rη * S ≤ 1 / 2 ^ 150 * 2 ^ 82 := by gcongr
      _ = _ := by norm_num
  rw [← hE] at k3 k4 k5
  have k6 : |p * v - (p * z - y * x)| ≤ 31 / 10 * ru * (Z + X) + 3 * E := by
    have e1 : p * v - (p * z - y * x) = (p * v - (p * z - p * m)) - (p * m - y * x) := by ring
    have e2 := abs_sub (p * v - (p * z - p * m)) (p * m - y * x)
    rw [← e1] at e2
    rw [ue] at *
    linarith
  have k7 : |p * v| ≤ 11 / 10 * (Z + X) + 3 * E := by
    have := abs_sub_abs_le_abs_sub (p * v) (p * z - y * x)
    rw [ue] at *
    linarith
  have k8 : |P * v - p * v| ≤ 2 * ru * |p * v| := by
    have e1 : |P - p| ≤ 2 * ru * |p| := by
      refine hP.trans ?_
      have : rη ≤ ru * |p| := by
        rw [ue]
        refine he.trans ?_
        norm_num at hp ⊢
        linarith
      linarith
    have e2 : P * v - p * v = (P - p) * v := by ring
    rw [e2, abs_mul, abs_mul]
    calc |P - p| * |v| ≤ 2 * ru * |p| * |v| := by gcongr
      _ = _ := by ring
  have k9 : |P * v| ≤ |p * v| + 2 * ru * |p * v| := by
    have := abs_sub_abs_le_abs_sub (P * v) (p * v)
    linarith
  have e1 : d - (p * z - y * x) = (d - P * v) + (P * v - p * v) + (p * v - (p * z - y * x)) := by ring
  have e2 := abs_add_le ((d - P * v) + (P * v - p * v)) (p * v - (p * z - y * x))
  have e3 := abs_add_le (d - P * v) (P * v - p * v)
  rw [← e1] at e2
  rw [ue] at k6 k8 k9 hd
  norm_num at he bE ⊢
  linarith

theorem eps_low : 9 / 10 ^ 5 ≤ ⟪(EPSILON : F)⟫ := by
  have h : Near ⟪(EPSILON : F)⟫ (1 / 10000) := R.eps_val
  unfold Near ru rη at h
  have := (abs_le.mp h).1
  rw [abs_of_pos (by norm_num)] at this
  norm_num at this ⊢
  linarith

/-- The pivot and the other row. -/
theorem pivot2 (A : Nat → Nat → F) : ∃ q k, ((q = 0 ∧ k = 1 ∧ ⟪A 1 0⟫ ≤ ⟪A 0 0⟫) ∨ (q = 1 ∧ k = 0 ∧ ⟪A 0 0⟫ < ⟪A 1 0⟫)) ∧
    ⟪A q 0⟫ = max ⟪A 0 0⟫ ⟪A 1 0⟫ := by
  rcases le_or_gt ⟪A 1 0⟫ ⟪A 0 0⟫ with h | h
  · exact ⟨0, 1, .inl ⟨rfl, rfl, h⟩, (max_eq_left h).symm⟩
  · exact ⟨1, 0, .inr ⟨rfl, rfl, h⟩, (max_eq_right h.le).symm⟩

/-- C129: `det` of a 2×2 matrix of binary32 numbers up to 2⁴⁰ fails exactly when the larger element, with sign, of the first
column is below the threshold in magnitude, and is otherwise accurate. -/
theorem C129_det (ha : MatIs a 2 2 A) (hfin : ∀ i j, i < 2 → j < 2 → Finite (A i j))
    (hb : ∀ i j, i < 2 → j < 2 → |⟪A i j⟫| ≤ 2 ^ 40) :
    (|max ⟪A 0 0⟫ ⟪A 1 0⟫| < ⟪(EPSILON : F)⟫ → a.det = .error (.err .Singular)) ∧
    (⟪(EPSILON : F)⟫ ≤ |max ⟪A 0 0⟫ ⟪A 1 0⟫| → ∃ d, a.det = .ok d ∧ Finite d ∧
      |⟪d⟫ - (⟪A 0 0⟫ * ⟪A 1 1⟫ - ⟪A 0 1⟫ * ⟪A 1 0⟫)| ≤
        7 / 2 ^ 24 * (|⟪A 0 0⟫ * ⟪A 1 1⟫| + |⟪A 0 1⟫ * ⟪A 1 0⟫|) + 1 / 2 ^ 60) := by
  obtain ⟨q, k, hq, hm⟩ := pivot2 A
  obtain ⟨h1, h2⟩ := det2_run ha hfin hq
  rw [← hm]
  refine ⟨h1, fun hge => ?_⟩
  have q2 : q < 2 := by omega
  have k2 : k < 2 := by omega
  have hp : 9 / 10 ^ 5 ≤ |⟪A q 0⟫| := eps_low.trans hge
  have p0 : ⟪A q 0⟫ ≠ 0 := by
    intro h
    rw [h, abs_zero] at hp
    norm_num at hp
  have fp := hfin q 0 q2 (by omega)
  have fx := hfin k 0 k2 (by omega)
  have fy := hfin q 1 q2 (by omega)
  have fz := hfin k 1 k2 (by omega)
  have bp := hb q 0 q2 (by omega)
  have bx := hb k 0 k2 (by omega)
  have by' := hb q 1 q2 (by omega)
  have bz := hb k 1 k2 (by omega)
  have ue : ru = 1 / 16777216 := by unfold ru; norm_num
  have he : rη ≤ 1 := by unfold rη; norm_num
  have h0 := rη_pos
  -- the multiplier
  have b1 : |⟪A k 0⟫ / ⟪A q 0⟫| ≤ 2 ^ 54 := by
    rw [abs_div, div_le_iff₀ (abs_pos.mpr p0)]
    calc |⟪A k 0⟫| ≤ 2 ^ 40 := bx
      _ ≤ 2 ^ 54 * (9 / 10 ^ 5) := by norm_num
      _ ≤ _ := by gcongr
  have f1 : Finite (A k 0 /ᶠ A q 0) := R.div_finite fx fp p0 (b1.trans (by norm_num))
  have n1 := R.div_near fx fp p0 f1
  obtain ⟨l, hl⟩ : ∃ l, l = A k 0 /ᶠ A q 0 := ⟨_, rfl⟩
  rw [← hl] at f1 n1
  have near_abs : ∀ {x y B : ℝ}, |x - y| ≤ ru * |y| + rη → |y| ≤ B → 1 ≤ B → |x| ≤ 3 * B := by
    intro x y B h1 h2 h3
    have := abs_sub_abs_le_abs_sub x y
    rw [ue] at h1
    linarith
  have b2 : |⟪l⟫| ≤ 3 * 2 ^ 54 := near_abs n1 b1 (by norm_num)
  have b3 : |⟪A q 1⟫ * ⟪l⟫| ≤ 2 ^ 40 * (3 * 2 ^ 54) := by rw [abs_mul]; gcongr
  have f2 : Finite (A q 1 *ᶠ l) := R.mul_finite fy f1 (b3.trans (by norm_num))
  have n2 := R.mul_near fy f1 f2
  have b4 := near_abs n2 b3 (by norm_num)
  obtain ⟨m, hm'⟩ : ∃ m, m = A q 1 *ᶠ l := ⟨_, rfl⟩
  rw [← hm'] at f2 n2 b4
  have b5 : |⟪A k 1⟫ - ⟪m⟫| ≤ 2 ^ 40 + 3 * (2 ^ 40 * (3 * 2 ^ 54)) := (abs_sub _ _).trans (by linarith)
  have f3 : Finite (A k 1 -ᶠ m) := R.sub_finite fz f2 (b5.trans (by norm_num))
  have n3 := R.sub_near fz f2 f3
  have b6 := near_abs n3 b5 (by norm_num)
  have hleft : left1 A q k 1 = A k 1 -ᶠ m := by rw [hm', hl]; rfl
  obtain ⟨v, hv⟩ : ∃ v, v = A k 1 -ᶠ m := ⟨_, rfl⟩
  rw [← hv] at f3 n3 b6 hleft
  have b7 : |⟪(lit 1 : F)⟫ * ⟪A q 0⟫| ≤ 2 ^ 40 := by rw [R.one_val, one_mul]; exact bp
  have f4 : Finite (lit 1 *ᶠ A q 0) := R.mul_finite R.one_finite fp (b7.trans (by norm_num))
  have n4 := R.mul_near R.one_finite fp f4
  rw [R.one_val, one_mul] at n4
  have fv := f3
  -- the last product is small because the multiplier has the pivot as denominator
  have key : ∀ {D : ℝ}, |D - ⟪lit 1 *ᶠ A q 0⟫ * ⟪v⟫| ≤ ru * |⟪lit 1 *ᶠ A q 0⟫ * ⟪v⟫| + rη →
      |D - (⟪A q 0⟫ * ⟪A k 1⟫ - ⟪A q 1⟫ * ⟪A k 0⟫)| ≤
        7 / 2 ^ 24 * (|⟪A q 0⟫ * ⟪A k 1⟫| + |⟪A q 1⟫ * ⟪A k 0⟫|) + 1 / 2 ^ 60 := fun h =>
    det2_acc hp bp by' n1 n2 n3 n4 h
  have b8 : |⟪lit 1 *ᶠ A q 0⟫ * ⟪v⟫| ≤ 2 ^ 127 := by
    have e1 := key (D := ⟪lit 1 *ᶠ A q 0⟫ * ⟪v⟫) (by rw [sub_self, abs_zero]; have := ru_pos; positivity)
    have e2 : |⟪A q 0⟫ * ⟪A k 1⟫| ≤ 2 ^ 40 * 2 ^ 40 := by rw [abs_mul]; gcongr
    have e3 : |⟪A q 1⟫ * ⟪A k 0⟫| ≤ 2 ^ 40 * 2 ^ 40 := by rw [abs_mul]; gcongr
    have e4 := abs_sub_abs_le_abs_sub (⟪lit 1 *ᶠ A q 0⟫ * ⟪v⟫) (⟪A q 0⟫ * ⟪A k 1⟫ - ⟪A q 1⟫ * ⟪A k 0⟫)
    have e5 := abs_sub (⟪A q 0⟫ * ⟪A k 1⟫) (⟪A q 1⟫ * ⟪A k 0⟫)
    norm_num [-abs_mul] at e1 e2 e3 ⊢
    linarith
  have f5 : Finite (lit 1 *ᶠ A q 0 *ᶠ v) := R.mul_finite f4 fv b8
  have n5 := key (R.mul_near f4 fv f5)
  have hdet := h2 hge (hl ▸ f1) (by rw [hleft]; exact fv)
  rw [hleft] at hdet
  rcases hq with ⟨rfl, rfl, h⟩ | ⟨rfl, rfl, h⟩
  · exact ⟨_, hdet, f5, n5⟩
  · refine ⟨_, hdet, R.neg_finite f5, ?_⟩
    rw [if_neg (by omega), R.neg_val f5]
    rw [show -⟪lit 1 *ᶠ A 1 0 *ᶠ v⟫ - (⟪A 0 0⟫ * ⟪A 1 1⟫ - ⟪A 0 1⟫ * ⟪A 1 0⟫) =
      -(⟪lit 1 *ᶠ A 1 0 *ᶠ v⟫ - (⟪A 1 0⟫ * ⟪A 0 1⟫ - ⟪A 1 1⟫ * ⟪A 0 0⟫)) by ring, abs_neg]
    rw [mul_comm ⟪A 0 0⟫ ⟪A 1 1⟫, mul_comm ⟪A 0 1⟫ ⟪A 1 0⟫, add_comm |⟪A 1 1⟫ * ⟪A 0 0⟫|]
    exact n5

end

section
variable {a : Mat F32} {n : Nat} {A : Nat → Nat → F32}

/-- The test on one leading block. -/
def minorTest (a : Mat F32) (k : Nat) : Res LinalgError Bool := do
  let tmp ← exec Mat.new (Mat.init (k + 1) (k + 1))
  let tmp ← exec tmp (forRange 0 (k + 1) fun row =>
    forRange 0 (k + 1) fun col => do
      Mat.setElement row col (← a.getElement row col) : Op LinalgError (Mat F32) Unit)
  let d ← tmp.det
  .ok (!(d <ᶠ lit 0))

theorem posDef_eq (ha : MatIs a n n A) (hs : a.isSymmetric = .ok true) :
    a.isPositiveDefinite = allRange 0 n (minorTest a) := by
  unfold Mat.isPositiveDefinite
  rw [hs, Res.ok_bind, ha.rows_eq]
  rfl

theorem minorTest_eq (ha : MatIs a n n A) (hfin : ∀ i j, i < n → j < n → Finite (A i j)) {k : Nat} (hk : k < n) :
    ∃ b, MatIs b (k + 1) (k + 1) A ∧ minorTest a k = (b.det >>= fun d => .ok (!(d <ᶠ (lit 0 : F32)))) := by
  have hz : MatIs (Mat.zeros (k + 1) (k + 1) : Mat F32) (k + 1) (k + 1) _ :=
    Mat.zeros_is (by omega) (by have := ha.rle; omega) (by omega) (by have := ha.rle; omega)
  obtain ⟨b, e, hb⟩ : ∃ b, exec (Mat.zeros (k + 1) (k + 1)) (forRange 0 (k + 1) fun row =>
      forRange 0 (k + 1) fun col => do
        Mat.setElement row col (← a.getElement row col) : Op LinalgError (Mat F32) Unit) =
        .ok b ∧ MatIs b (k + 1) (k + 1) A :=
    Mat.exec_of_stores (Mat.stores_of_loop hz.init hz.rows_eq hz.cols_eq hz.rle hz.cle
      fun i j hi hj => by simp [ha.get i j (by omega) (by omega)]) hz
      (fun i j hi hj => hfin i j (by omega) (by omega))
  refine ⟨b, hb, ?_⟩
  unfold minorTest
  rw [Mat.init_new (by omega) (by have := ha.rle; omega) (by omega) (by have := ha.rle; omega),
    Res.ok_bind, e, Res.ok_bind]

/-- One column of `chol` when the results are finite. -/
theorem cholColumn_run (ha : MatIs a n n A) {l : Mat F32} {L : Nat → Nat → F32} {c : Nat} (hc : c < n) (hl : MatIs l n n L)
    (hz : L c c = lit 0) (X : Nat → F32) (hX : ∀ i, i < n → Finite (X i))
    (hXc : X c = Scalar.sqrt (A c c -ᶠ sumUp c fun k => L c k *ᶠ L c k))
    (hXl : ∀ i, c < i → i < n → X i = (lit 1 /ᶠ X c) *ᶠ (A i c -ᶠ sumUp c fun k => L i k *ᶠ L c k))
    (hXu : ∀ i, i < c → X i = (lit 1 /ᶠ EPSILON) *ᶠ (A i c -ᶠ sumUp c fun k => L i k *ᶠ L c k)) :
    ∃ l', a.cholColumn c l = .ok l' ∧ MatIs l' n n (fun i j => if j = c then X i else L i j) := by
  unfold Mat.cholColumn
  rw [rowDot_f hl hc hc hc.le, Res.ok_bind, hl.get c c hc hc, Res.ok_bind, hz,
    if_pos (show ((lit 0 : F32) <ᶠ EPSILON) = true by decide +kernel)]
  obtain ⟨l1, e1, hl1⟩ := hl.exec_set (x := (EPSILON : F32)) hc hc (by decide +kernel)
  rw [e1, Res.ok_bind, ha.rows_eq]
  have key := foldRange_inv (ε := LinalgError) (fun row (l : Mat F32) => do
      let s2 ← foldRange 0 c
        (fun k (s : F32) => do .ok (s +ᶠ ((← l.getElement row k) *ᶠ (← l.getElement c k)))) (lit 0)
      if row = c then
        exec l (Mat.setElement row c (Scalar.sqrt ((← a.getElement row c) -ᶠ sumUp c fun k => L c k *ᶠ L c k)))
      else
        exec l (Mat.setElement row c
          ((lit 1 /ᶠ (← l.getElement c c)) *ᶠ ((← a.getElement row c) -ᶠ s2))))
    (fun m (l : Mat F32) => MatIs l n n (fun i j => if j = c then (if i < m then X i else if i = c then EPSILON else L i c) else L i j))
    0 n (Nat.zero_le _) l1 (hl1.congr fun i j hi hj => by
      by_cases hj : j = c
      · subst hj
        by_cases hi' : i = j <;> simp [hi']
      · simp [hj]) ?_
  · obtain ⟨l', e, h⟩ := key
    refine ⟨l', e, h.congr fun i j hi hj => ?_⟩
    simp [hi]
  · intro row l _ hrow hI
    have hdot : sumUp c (fun k => (if k = c then (if row < row then X row else if row = c then EPSILON else L row c) else L row k) *ᶠ
        (if k = c then (if c < row then X c else if c = c then EPSILON else L c c) else L c k)) =
        sumUp c fun k => L row k *ᶠ L c k := sumUp_congr fun k hk => by rw [if_neg (by omega), if_neg (by omega)]
    rw [rowDot_f hI hrow hc hc.le, Res.ok_bind, hdot]
    have hput : ∀ x : F32, x = X row → ∃ l', exec l (Mat.setElement row c x) = .ok l' ∧
        MatIs l' n n (fun i j => if j = c then (if i < row + 1 then X i else if i = c then EPSILON else L i c) else L i j) := by
      rintro x rfl
      obtain ⟨l', e, h⟩ := hI.exec_set hrow hc (hX row hrow)
      refine ⟨l', e, h.congr fun i j _ _ => ?_⟩
      by_cases hj : j = c
      · by_cases hi : i = row
        · simp [hj, hi]
        · have : i < row + 1 ↔ i < row := by omega
          simp [hj, hi, this]
      · simp [hj]
    by_cases hrc : row = c
    · subst hrc
      rw [if_pos rfl, ha.get row row hrow hrow, Res.ok_bind]
      exact hput _ hXc.symm
    · rw [if_neg hrc, hI.get c c hc hc, Res.ok_bind, if_pos rfl, ha.get row c hrow hc, Res.ok_bind]
      refine hput _ ?_
      rcases lt_or_gt_of_ne hrc with h | h
      · rw [if_neg (by omega), if_pos rfl, hXu row h]
      · rw [if_pos h, hXl row h hrow]

/-- One times a number. -/
theorem one_mul32 {x : F32} (hx : F32.IsNumber x) : lit 1 *ᶠ x = x := by
  obtain ⟨a, rfl, ha⟩ := F32.isNumber_iff.mp hx
  have h1 : (lit 1 : F32) = ⟨.fin 1⟩ := by decide +kernel
  rw [h1]
  show F32.fl (Scalar.mul (Ext.fin 1) (Ext.fin a)) = _
  have : Scalar.mul (Ext.fin (1 : ℚ)) (Ext.fin a) = Ext.fin a := by
    show Ext.fin (1 * a) = _
    rw [one_mul]
  rw [this]
  show (⟨F32.round a⟩ : F32) = _
  rw [ha]

/-- `det` of one element. -/
theorem det1_run (ha : MatIs a 1 1 A) (hx : F32.IsNumber (A 0 0)) : a.det = .ok (A 0 0) := by
  have hfin : ∀ i j, i < 1 → j < 1 → Finite (A i j) := fun i j hi hj => by
    obtain rfl : i = 0 := by omega
    obtain rfl : j = 0 := by omega
    exact hx.1
  obtain ⟨l, p, hl, hp, e⟩ := Linalg.lup_start_run ha hfin
  have e' : Linalg.lup a = .ok (l, p) := e
  unfold Mat.det
  simp only [Mat.isSquare_eq ha, Res.ok_bind, decide_true, Bool.not_true, Bool.false_eq_true, if_false,
    e', ha.rows_eq]
  unfold foldRange
  rw [show (1 - 0) = 0 + 1 from rfl, foldFrom_one, foldFrom_one]
  simp only [hp.get 0 (by omega), hl.get 0 0 (by omega) (by omega), Res.ok_bind, one_mul32 hx]
  rfl

theorem test_first (ha : MatIs a n n A) (hfin : ∀ i j, i < n → j < n → Finite (A i j)) (hn : 0 < n) (hx : F32.IsNumber (A 0 0)) :
    minorTest a 0 = .ok (decide (0 ≤ ⟪A 0 0⟫)) := by
  obtain ⟨b, hb, e⟩ := minorTest_eq ha hfin hn
  rw [e, det1_run hb hx, Res.ok_bind]
  congr 1
  have h := Rounded.lt_val hx.1 (Rounded.zero_finite (F := F32))
  rw [Rounded.zero_val] at h
  by_cases h0 : 0 ≤ ⟪A 0 0⟫
  · rw [decide_eq_true h0, Bool.not_eq_true', ← Bool.not_eq_true, h]
    exact not_lt.mpr h0
  · rw [decide_eq_false h0, Bool.not_eq_false', h]
    exact not_le.mp h0

/-- C129: `is_positive_definite` on a 2×2 matrix of binary32 numbers up to 2⁴⁰ that passes `is_symmetric`: `false` if the first
element is negative; otherwise `Singular` if the larger element of the first column is below the threshold; otherwise the sign of
the determinant decides, when it is not lost in rounding. -/
theorem C129_two (ha : MatIs a 2 2 A) (hnum : ∀ i j, i < 2 → j < 2 → F32.IsNumber (A i j))
    (hb : ∀ i j, i < 2 → j < 2 → |⟪A i j⟫| ≤ 2 ^ 40) (hs : a.isSymmetric = .ok true) :
    (⟪A 0 0⟫ < 0 → a.isPositiveDefinite = .ok false) ∧
    (0 ≤ ⟪A 0 0⟫ → max ⟪A 0 0⟫ ⟪A 1 0⟫ < ⟪(EPSILON : F32)⟫ → a.isPositiveDefinite = .error (.err .Singular)) ∧
    (0 ≤ ⟪A 0 0⟫ → ⟪(EPSILON : F32)⟫ ≤ max ⟪A 0 0⟫ ⟪A 1 0⟫ →
      7 / 2 ^ 24 * (|⟪A 0 0⟫ * ⟪A 1 1⟫| + |⟪A 0 1⟫ * ⟪A 1 0⟫|) + 1 / 2 ^ 60 ≤ ⟪A 0 0⟫ * ⟪A 1 1⟫ - ⟪A 0 1⟫ * ⟪A 1 0⟫ →
      a.isPositiveDefinite = .ok true) ∧
    (0 ≤ ⟪A 0 0⟫ → ⟪(EPSILON : F32)⟫ ≤ max ⟪A 0 0⟫ ⟪A 1 0⟫ →
      ⟪A 0 0⟫ * ⟪A 1 1⟫ - ⟪A 0 1⟫ * ⟪A 1 0⟫ < -(7 / 2 ^ 24 * (|⟪A 0 0⟫ * ⟪A 1 1⟫| + |⟪A 0 1⟫ * ⟪A 1 0⟫|) + 1 / 2 ^ 60) →
      a.isPositiveDefinite = .ok false) := by
  have hfin : ∀ i j, i < 2 → j < 2 → Finite (A i j) := fun i j hi hj => (hnum i j hi hj).1
  have t0 := test_first ha hfin (by omega) (hnum 0 0 (by omega) (by omega))
  obtain ⟨b, hb1, e1⟩ := minorTest_eq ha hfin (show 1 < 2 by omega)
  obtain ⟨d1, d2⟩ := C129_det hb1 hfin hb
  rw [posDef_eq ha hs]
  have lt0 : ∀ {d : F32}, Finite d → ((d <ᶠ lit 0) = true ↔ ⟪d⟫ < 0) := fun hd => by
    have h := Rounded.lt_val hd (Rounded.zero_finite (F := F32))
    rwa [Rounded.zero_val] at h
  refine ⟨fun h0 => ?_, fun h0 h1 => ?_, fun h0 h1 h2 => ?_, fun h0 h1 h2 => ?_⟩
  · exact allRange_false _ 0 2 0 (le_refl _) (by omega) (fun i _ hi => by omega) (by rw [t0, decide_eq_false (not_le.mpr h0)])
  all_goals
    rw [decide_eq_true h0] at t0
    have hpos : 0 ≤ max ⟪A 0 0⟫ ⟪A 1 0⟫ := le_trans h0 (le_max_left _ _)
    rw [abs_of_nonneg hpos] at d1 d2
  · exact allRange_error _ 0 2 1 _ (by omega) (by omega)
      (fun i _ hi => by obtain rfl : i = 0 := by omega
                        exact t0) (by rw [e1, d1 h1]; rfl)
  · obtain ⟨d, hd, fd, nd⟩ := d2 h1
    have : 0 ≤ ⟪d⟫ := by
      have := (abs_le.mp nd).1
      linarith
    rw [hd, Res.ok_bind] at e1
    rw [allRange_eq _ (fun _ => true) 0 2 fun i _ hi => ?_]
    · simp
    · obtain rfl | rfl : i = 0 ∨ i = 1 := by omega
      · exact t0
      · rw [e1]
        congr 1
        rw [Bool.not_eq_true', ← Bool.not_eq_true, lt0 fd]
        exact not_lt.mpr this
  · obtain ⟨d, hd, fd, nd⟩ := d2 h1
    have : ⟪d⟫ < 0 := by
      have := (abs_le.mp nd).2
      linarith
    rw [hd, Res.ok_bind] at e1
    exact allRange_false _ 0 2 1 (by omega) (by omega)
      (fun i _ hi => by obtain rfl : i = 0 := by omega
                        exact t0) (by rw [e1, (lt0 fd).mpr this]; rfl)

/-- The factor of the second row, for real numbers: `r` is the root of the first element. -/
theorem chol2_acc {r b s g t w v : ℝ} (r0 : 1 / 200 ≤ r) (r1 : r ≤ 2 ^ 20) (hb : |b| / r ≤ 2 ^ 20)
    (hs : |s - r| ≤ ru * r) (hg : |g - 1 / s| ≤ ru * |1 / s| + rη) (ht : |t - g * b| ≤ ru * |g * b| + rη)
    (hw : |w - t * t| ≤ ru * |t * t| + rη) (hv : |v - w| ≤ ru * |w| + rη) :
    |t| ≤ 2 ^ 21 ∧ v ≤ (|b| / r) ^ 2 * (1 + 14 / 2 ^ 24) + 1 / 2 ^ 100 := by
  have u0 := ru_pos
  have h0 := rη_pos
  have ue : ru = 1 / 16777216 := by unfold ru; norm_num
  have he : rη ≤ 1 / 2 ^ 150 := le_refl _
  have rp : 0 < r := by linarith
  have s1 : r * (1 - ru) ≤ s := by
    have := (abs_le.mp hs).1
    linarith
  have sp : 0 < s := by
    refine lt_of_lt_of_le ?_ s1
    rw [ue]
    have : 0 < r * (1 - 1 / 16777216) := by positivity
    linarith
  have g1 : 1 / s ≤ 1 / r * (1 + 11 / 10 * ru) := by
    rw [div_le_iff₀ sp]
    have e : 1 / r * (1 + 11 / 10 * ru) * (r * (1 - ru)) ≤ 1 / r * (1 + 11 / 10 * ru) * s := by gcongr
    have e2 : 1 / r * (1 + 11 / 10 * ru) * (r * (1 - ru)) = (1 + 11 / 10 * ru) * (1 - ru) := by field_simp
    rw [e2] at e
    refine le_trans ?_ e
    rw [ue]
    norm_num
  have ir : 1 / 2 ^ 20 ≤ 1 / r := one_div_le_one_div_of_le rp r1
  have g2 : |g| ≤ 1 / r * (1 + 22 / 10 * ru) := by
    have e1 := abs_sub_abs_le_abs_sub g (1 / s)
    have e2 : |1 / s| = 1 / s := abs_of_pos (by positivity)
    rw [e2] at e1 hg
    rw [ue] at g1 hg ⊢
    norm_num at he
    have ir' : (1 : ℝ) / 1048576 ≤ 1 / r := le_trans (by norm_num) ir
    obtain ⟨q, hq⟩ : ∃ q, q = 1 / r := ⟨_, rfl⟩
    obtain ⟨k, hk⟩ : ∃ k, k = 1 / s := ⟨_, rfl⟩
    rw [← hq, ← hk] at g1
    rw [← hk] at e1 hg
    rw [← hq] at ir' ⊢
    linarith
  obtain ⟨B, hB⟩ : ∃ B, B = |b| / r := ⟨_, rfl⟩
  have B0 : 0 ≤ B := by rw [hB]; positivity
  rw [← hB] at hb ⊢
  have t1 : |g * b| ≤ B * (1 + 22 / 10 * ru) := by
    rw [abs_mul]
    calc |g| * |b| ≤ 1 / r * (1 + 22 / 10 * ru) * |b| := by gcongr
      _ = B * (1 + 22 / 10 * ru) := by rw [hB]; ring
  have t2 : |t| ≤ B * (1 + 33 / 10 * ru) + rη := by
    have e1 := abs_sub_abs_le_abs_sub t (g * b)
    rw [ue] at t1 ht ⊢
    linarith
  have t3 : t * t ≤ B ^ 2 * (1 + 7 * ru) + 2 ^ 23 * rη := by
    have e1 : t * t ≤ (B * (1 + 33 / 10 * ru) + rη) * (B * (1 + 33 / 10 * ru) + rη) := by
      rw [← abs_mul_abs_self t]
      exact mul_le_mul t2 t2 (abs_nonneg _) (le_trans (abs_nonneg _) t2)
    have e2 : (B * (1 + 33 / 10 * ru) + rη) * (B * (1 + 33 / 10 * ru) + rη) =
        B ^ 2 * (1 + 33 / 10 * ru) ^ 2 + 2 * (B * (1 + 33 / 10 * ru)) * rη + rη * rη := by ring
    have e3 : (1 + 33 / 10 * ru) ^ 2 ≤ 1 + 7 * ru := by rw [ue]; norm_num
    have e4 : B ^ 2 * (1 + 33 / 10 * ru) ^ 2 ≤ B ^ 2 * (1 + 7 * ru) := by gcongr
    have e5 : 2 * (B * (1 + 33 / 10 * ru)) * rη ≤ 2 * (2 ^ 20 * 2) * rη := by
      gcongr
      rw [ue]; norm_num
    have e6 : rη * rη ≤ 1 * rη := by
      gcongr
      exact he.trans (by norm_num)
    norm_num at e5 ⊢
    linarith
  refine ⟨?_, ?_⟩
  · rw [ue] at t2
    norm_num at he hb ⊢
    linarith
  · have w1 : w ≤ t * t * (1 + ru) + rη := by
      have := (abs_le.mp hw).2
      rw [abs_of_nonneg (mul_self_nonneg t)] at this
      linarith
    have w0 : |w| ≤ t * t * (1 + ru) + rη := by
      have e1 := abs_sub_abs_le_abs_sub w (t * t)
      rw [abs_of_nonneg (mul_self_nonneg t)] at e1 hw
      linarith
    have v1 : v ≤ t * t * (1 + 3 * ru) + 3 * rη := by
      have := (abs_le.mp hv).2
      have q0 := mul_self_nonneg t
      obtain ⟨q, hq⟩ : ∃ q, q = t * t := ⟨_, rfl⟩
      rw [← hq] at w1 w0 q0 ⊢
      rw [ue] at w1 w0 this ⊢
      linarith
    have v2 : t * t * (1 + 3 * ru) ≤ (B ^ 2 * (1 + 7 * ru) + 2 ^ 23 * rη) * (1 + 3 * ru) := by gcongr
    have B2 := sq_nonneg B
    obtain ⟨q, hq⟩ : ∃ q, q = B ^ 2 := ⟨_, rfl⟩
    rw [← hq] at v2 B2 ⊢
    rw [ue] at v1 v2
    norm_num at he ⊢
    linarith

/-- A number minus zero. -/
theorem sub_zero32 {x : F32} (hx : F32.IsNumber x) : x -ᶠ lit 0 = x := by
  obtain ⟨a, rfl, ha⟩ := F32.isNumber_iff.mp hx
  have h1 : (lit 0 : F32) = ⟨.fin 0⟩ := by decide +kernel
  rw [h1]
  show F32.fl (Scalar.sub (Ext.fin a) (Ext.fin 0)) = _
  have : Scalar.sub (Ext.fin a) (Ext.fin (0 : ℚ)) = Ext.fin a := by
    rw [Ext.sub_fin, sub_zero]
  rw [this]
  show (⟨F32.round a⟩ : F32) = _
  rw [ha]

/-- C129: `chol` in binary32 succeeds on every symmetric 2×2 matrix whose first element is at least the threshold and whose
determinant exceeds a millionth of the product of the diagonal. -/
theorem C129_chol (ha : MatIs a 2 2 A) (hnum : ∀ i j, i < 2 → j < 2 → F32.IsNumber (A i j))
    (hb : ∀ i j, i < 2 → j < 2 → |⟪A i j⟫| ≤ 2 ^ 40) (hs : ⟪A 0 1⟫ = ⟪A 1 0⟫) (h0 : ⟪(EPSILON : F32)⟫ ≤ ⟪A 0 0⟫)
    (hd : ⟪A 0 0⟫ * ⟪A 1 1⟫ / 2 ^ 20 + 1 / 2 ^ 40 ≤ ⟪A 0 0⟫ * ⟪A 1 1⟫ - ⟪A 1 0⟫ ^ 2) :
    a.isPositiveDefinite = .ok true ∧ ∃ l, a.chol = .ok l := by
  have hfin : ∀ i j, i < 2 → j < 2 → Finite (A i j) := fun i j hi hj => (hnum i j hi hj).1
  have ep := eps_low (F := F32)
  have a0 : 0 < ⟪A 0 0⟫ := lt_of_lt_of_le (by norm_num) (ep.trans h0)
  have hsq : 0 ≤ ⟪A 1 0⟫ ^ 2 := sq_nonneg _
  have hD : 0 < ⟪A 0 0⟫ * ⟪A 1 1⟫ := by
    norm_num at hd
    linarith
  have d0 : 0 < ⟪A 1 1⟫ := by
    by_contra h
    have := mul_nonpos_of_nonneg_of_nonpos a0.le (not_lt.mp h)
    linarith
  have hsym : a.isSymmetric = .ok true := by
    refine (C128_symmetric ha hnum).1 fun i j hi hj => ?_
    have e0 : 0 ≤ ⟪(EPSILON : F32)⟫ := le_trans (by norm_num) ep
    obtain rfl | rfl : i = 0 ∨ i = 1 := by omega
    · obtain rfl | rfl : j = 0 ∨ j = 1 := by omega
      · rw [sub_self, abs_zero]; exact e0
      · rw [hs, sub_self, abs_zero]; exact e0
    · obtain rfl | rfl : j = 0 ∨ j = 1 := by omega
      · rw [hs, sub_self, abs_zero]; exact e0
      · rw [sub_self, abs_zero]; exact e0
  have hpd : a.isPositiveDefinite = .ok true := by
    refine (C129_two ha hnum hb hsym).2.2.1 a0.le (h0.trans (le_max_left _ _)) ?_
    rw [hs, ← sq, abs_of_pos hD, abs_of_nonneg hsq]
    norm_num at hd ⊢
    linarith
  refine ⟨hpd, ?_⟩
  -- the real quantities
  obtain ⟨r, hr⟩ : ∃ r, r = √⟪A 0 0⟫ := ⟨_, rfl⟩
  have rr : r * r = ⟪A 0 0⟫ := by rw [hr]; exact Real.mul_self_sqrt a0.le
  have rp : 0 < r := by rw [hr]; exact Real.sqrt_pos.mpr a0
  have r0 : 1 / 200 ≤ r := by
    rw [hr]
    refine Real.le_sqrt_of_sq_le ?_
    have := ep.trans h0
    norm_num at this ⊢
    linarith
  have b00 := hb 0 0 (by omega) (by omega)
  have b10 := hb 1 0 (by omega) (by omega)
  have b11 := hb 1 1 (by omega) (by omega)
  have b01 := hb 0 1 (by omega) (by omega)
  have r1 : r ≤ 2 ^ 20 := by
    rw [hr]
    refine Real.sqrt_le_iff.mpr ⟨by norm_num, ?_⟩
    have := (le_abs_self _).trans b00
    norm_num at this ⊢
    linarith
  have hB2 : (|⟪A 1 0⟫| / r) ^ 2 = ⟪A 1 0⟫ ^ 2 / ⟪A 0 0⟫ := by
    rw [div_pow, sq_abs, sq r, rr]
  have hle : ⟪A 1 0⟫ ^ 2 / ⟪A 0 0⟫ + ⟪A 1 1⟫ / 2 ^ 20 + 1 / 2 ^ 80 ≤ ⟪A 1 1⟫ := by
    have e1 : ⟪A 1 0⟫ ^ 2 + ⟪A 0 0⟫ * (⟪A 1 1⟫ / 2 ^ 20) + ⟪A 0 0⟫ * (1 / 2 ^ 80) ≤ ⟪A 0 0⟫ * ⟪A 1 1⟫ := by
      have : ⟪A 0 0⟫ * (1 / 2 ^ 80) ≤ 2 ^ 40 * (1 / 2 ^ 80) := by
        gcongr
        exact (le_abs_self _).trans b00
      norm_num at this hd ⊢
      linarith
    have e2 : ⟪A 1 0⟫ ^ 2 / ⟪A 0 0⟫ + ⟪A 1 1⟫ / 2 ^ 20 + 1 / 2 ^ 80 =
        (⟪A 1 0⟫ ^ 2 + ⟪A 0 0⟫ * (⟪A 1 1⟫ / 2 ^ 20) + ⟪A 0 0⟫ * (1 / 2 ^ 80)) / ⟪A 0 0⟫ := by field_simp
    rw [e2, div_le_iff₀ a0]
    linarith
  have hq0 : 0 ≤ ⟪A 1 0⟫ ^ 2 / ⟪A 0 0⟫ := by positivity
  have hB : |⟪A 1 0⟫| / r ≤ 2 ^ 20 := by
    refine abs_le_of_sq_le_sq' (b := 2 ^ 20) ?_ (by norm_num) |>.2
    rw [hB2]
    have := (le_abs_self _).trans b11
    norm_num at this hle ⊢
    linarith
  have ue : ru = 1 / 16777216 := by unfold ru; norm_num
  have he : rη ≤ 1 / 2 ^ 150 := le_refl _
  have h00 := rη_pos
  have near_abs : ∀ {x y B : ℝ}, |x - y| ≤ ru * |y| + rη → |y| ≤ B → 1 ≤ B → |x| ≤ 2 * B := by
    intro x y B h1 h2 h3
    have := abs_sub_abs_le_abs_sub x y
    rw [ue] at h1
    norm_num at he
    linarith
  -- the first column
  have fs : Finite (Scalar.sqrt (A 0 0)) := Rounded.sqrt_finite (hfin 0 0 (by omega) (by omega)) a0.le
  have ns := Rounded.sqrt_near (hfin 0 0 (by omega) (by omega)) a0.le
  rw [← hr] at ns
  obtain ⟨s, hsd⟩ : ∃ s, s = Scalar.sqrt (A 0 0) := ⟨_, rfl⟩
  rw [← hsd] at fs ns
  have s1 : 1 / 400 ≤ ⟪s⟫ := by
    have := (abs_le.mp ns).1
    rw [ue] at this
    linarith
  have s2 : ⟪s⟫ ≤ 2 ^ 21 := by
    have := (abs_le.mp ns).2
    rw [ue] at this
    norm_num at r1 ⊢
    linarith
  have sne : ⟪s⟫ ≠ 0 := by
    intro h
    rw [h] at s1
    norm_num at s1
  have bg : |⟪(lit 1 : F32)⟫ / ⟪s⟫| ≤ 400 := by
    rw [Rounded.one_val, abs_div, abs_one, abs_of_nonneg (by linarith), div_le_iff₀ (by linarith)]
    linarith
  have fg : Finite ((lit 1 : F32) /ᶠ s) := Rounded.div_finite Rounded.one_finite fs sne (bg.trans (by norm_num))
  have ng := Rounded.div_near Rounded.one_finite fs sne fg
  have bg' := near_abs ng bg (by norm_num)
  rw [Rounded.one_val] at ng
  obtain ⟨g, hgd⟩ : ∃ g, g = (lit 1 : F32) /ᶠ s := ⟨_, rfl⟩
  rw [← hgd] at fg ng bg'
  have fb := hfin 1 0 (by omega) (by omega)
  have bt : |⟪g⟫ * ⟪A 1 0⟫| ≤ 2 * 400 * 2 ^ 40 := by rw [abs_mul]; gcongr
  have ft : Finite (g *ᶠ A 1 0) := Rounded.mul_finite fg fb (bt.trans (by norm_num))
  have nt := Rounded.mul_near fg fb ft
  obtain ⟨t, htd⟩ : ∃ t, t = g *ᶠ A 1 0 := ⟨_, rfl⟩
  rw [← htd] at ft nt
  have bt0 := near_abs nt bt (by norm_num)
  have bw0 : |⟪t⟫ * ⟪t⟫| ≤ (2 * (2 * 400 * 2 ^ 40)) * (2 * (2 * 400 * 2 ^ 40)) := by rw [abs_mul]; gcongr
  have fw : Finite (t *ᶠ t) := Rounded.mul_finite ft ft (bw0.trans (by norm_num))
  have nw := Rounded.mul_near ft ft fw
  have bw := near_abs nw bw0 (by norm_num)
  obtain ⟨w, hwd⟩ : ∃ w, w = t *ᶠ t := ⟨_, rfl⟩
  rw [← hwd] at fw nw bw
  have z0 : Finite (lit 0 : F32) := Rounded.zero_finite
  have bv0 : |⟪(lit 0 : F32)⟫ + ⟪w⟫| ≤ 2 * (2 * (2 * 400 * 2 ^ 40) * (2 * (2 * 400 * 2 ^ 40))) := by
    rw [Rounded.zero_val, zero_add]; exact bw
  have fv : Finite (lit 0 +ᶠ w) := Rounded.add_finite z0 fw (bv0.trans (by norm_num))
  have nv := Rounded.add_near z0 fw fv
  have bv := near_abs nv bv0 (by norm_num)
  rw [Rounded.zero_val, zero_add] at nv
  obtain ⟨v, hvd⟩ : ∃ v, v = lit 0 +ᶠ w := ⟨_, rfl⟩
  rw [← hvd] at fv nv bv
  obtain ⟨t1, v1⟩ := chol2_acc r0 r1 hB ns ng nt nw nv
  rw [hB2] at v1
  have fd := hfin 1 1 (by omega) (by omega)
  have gap : 1 / 2 ^ 90 ≤ ⟪A 1 1⟫ - ⟪v⟫ := by
    norm_num at v1 hle ⊢
    linarith
  have bd : |⟪A 1 1⟫ - ⟪v⟫| ≤ 2 ^ 40 + 2 * (2 * (2 * (2 * 400 * 2 ^ 40) * (2 * (2 * 400 * 2 ^ 40)))) :=
    (abs_sub _ _).trans (by linarith)
  have fe : Finite (A 1 1 -ᶠ v) := Rounded.sub_finite fd fv (bd.trans (by norm_num))
  have ne := Rounded.sub_near fd fv fe
  have e0 : 0 ≤ ⟪A 1 1 -ᶠ v⟫ := by
    have h := (abs_le.mp ne).1
    rw [abs_of_nonneg (le_trans (by norm_num) gap), ue] at h
    norm_num at gap he
    linarith
  have fx : Finite (Scalar.sqrt (A 1 1 -ᶠ v)) := Rounded.sqrt_finite fe e0
  -- the element above the diagonal
  have bst : |⟪s⟫ * ⟪t⟫| ≤ 2 ^ 21 * 2 ^ 21 := by
    rw [abs_mul, abs_of_nonneg (by linarith : (0 : ℝ) ≤ ⟪s⟫)]; gcongr
  have fst' : Finite (s *ᶠ t) := Rounded.mul_finite fs ft (bst.trans (by norm_num))
  have bst' := near_abs (Rounded.mul_near fs ft fst') bst (by norm_num)
  have bo0 : |⟪(lit 0 : F32)⟫ + ⟪s *ᶠ t⟫| ≤ 2 * (2 ^ 21 * 2 ^ 21) := by
    rw [Rounded.zero_val, zero_add]; exact bst'
  have fo : Finite (lit 0 +ᶠ (s *ᶠ t)) := Rounded.add_finite z0 fst' (bo0.trans (by norm_num))
  have bo := near_abs (Rounded.add_near z0 fst' fo) bo0 (by norm_num)
  have fb' := hfin 0 1 (by omega) (by omega)
  have bp0 : |⟪A 0 1⟫ - ⟪lit 0 +ᶠ (s *ᶠ t)⟫| ≤ 2 ^ 40 + 2 * (2 * (2 ^ 21 * 2 ^ 21)) := (abs_sub _ _).trans (by linarith)
  have fp : Finite (A 0 1 -ᶠ (lit 0 +ᶠ (s *ᶠ t))) := Rounded.sub_finite fb' fo (bp0.trans (by norm_num))
  have bp := near_abs (Rounded.sub_near fb' fo fp) bp0 (by norm_num)
  have fi : Finite ((lit 1 : F32) /ᶠ EPSILON) := by decide +kernel
  have bi : |⟪(lit 1 : F32) /ᶠ EPSILON⟫| ≤ 20002 := by
    have hne : ⟪(EPSILON : F32)⟫ ≠ 0 := by intro h; rw [h] at ep; norm_num at ep
    have h1 : |⟪(lit 1 : F32)⟫ / ⟪(EPSILON : F32)⟫| ≤ 10001 := by
      rw [eps32, Rounded.one_val]
      norm_num
    have := near_abs (Rounded.div_near (Rounded.one_finite (F := F32)) (Rounded.eps_finite (F := F32)) hne fi) h1 (by norm_num)
    exact this.trans (by norm_num)
  have fy : Finite (((lit 1 : F32) /ᶠ EPSILON) *ᶠ (A 0 1 -ᶠ (lit 0 +ᶠ (s *ᶠ t)))) := by
    refine Rounded.mul_finite fi fp ?_
    rw [abs_mul]
    exact (mul_le_mul bi bp (abs_nonneg _) (by norm_num)).trans (by norm_num)
  -- the program
  have hz : MatIs (Mat.zeros 2 2 : Mat F32) 2 2 _ := Mat.zeros_of ha
  obtain ⟨l1, e1, hl1⟩ := cholColumn_run ha (c := 0) (by omega) hz rfl (fun i => if i = 0 then s else t)
    (fun i _ => by split <;> assumption)
    (by
      rw [if_pos rfl, hsd]
      show _ = Scalar.sqrt (A 0 0 -ᶠ lit 0)
      rw [sub_zero32 (hnum 0 0 (by omega) (by omega))])
    (fun i h1 h2 => by
      obtain rfl : i = 1 := by omega
      rw [if_neg (by omega), if_pos rfl, htd, hgd]
      show _ = (lit 1 /ᶠ s) *ᶠ (A 1 0 -ᶠ lit 0)
      rw [sub_zero32 (hnum 1 0 (by omega) (by omega))])
    (fun i h => by omega)
  obtain ⟨l2, e2, -⟩ := cholColumn_run ha (c := 1) (by omega) hl1 rfl
    (fun i => if i = 0 then ((lit 1 : F32) /ᶠ EPSILON) *ᶠ (A 0 1 -ᶠ (lit 0 +ᶠ (s *ᶠ t))) else Scalar.sqrt (A 1 1 -ᶠ v))
    (fun i _ => by split <;> assumption)
    (by
      rw [if_neg (by omega), hvd, hwd]
      rfl)
    (fun i h1 h2 => by omega)
    (fun i h => by
      obtain rfl : i = 0 := by omega
      rfl)
  refine ⟨l2, ?_⟩
  unfold Mat.chol
  rw [hpd, Res.ok_bind, ha.rows_eq, ha.cols_eq]
  simp only [Bool.not_true, Bool.false_eq_true, if_false]
  rw [Mat.init_of ha, Res.ok_bind, foldRange_two, e1, Res.ok_bind, e2]


/-- A matrix with a refused leading block passes neither the test nor `chol`. -/
theorem posDef_refused (ha : MatIs a n n A) (hfin : ∀ i j, i < n → j < n → Finite (A i j)) {k : Nat} (hk : k < n)
    (h : ∀ b : Mat F32, MatIs b (k + 1) (k + 1) A → Refused b) :
    a.isPositiveDefinite ≠ .ok true ∧ ∀ l, a.chol ≠ .ok l := by
  have key : a.isPositiveDefinite ≠ .ok true := by
    intro he
    have hs : a.isSymmetric = .ok true := by
      unfold Mat.isPositiveDefinite at he
      obtain ⟨b, e, he⟩ := Res.bind_eq_ok.mp he
      cases b
      · cases he
      · exact e
    rw [posDef_eq ha hs] at he
    rcases allRange_cases (minorTest a) n with ⟨-, hall⟩ | ⟨i, hi, -, hne, e⟩
    · obtain ⟨b, hb, e⟩ := minorTest_eq ha hfin hk
      have := hall k hk
      rw [e] at this
      obtain ⟨d, hd, -⟩ := Res.bind_eq_ok.mp this
      exact (h b hb).2.1 d hd
    · exact hne (e ▸ he)
  refine ⟨key, fun l he => ?_⟩
  unfold Mat.chol at he
  obtain ⟨b, e, he⟩ := Res.bind_eq_ok.mp he
  cases b
  · cases he
  · exact key e

/-- C129: in binary32, a matrix of size 2 or more whose first element is below `EPSILON` in absolute value
and whose next element down is below `EPSILON` passes neither the test nor `chol`, however positive
definite it is. -/
theorem C129_small (ha : MatIs a n n A) (hfin : ∀ i j, i < n → j < n → Finite (A i j)) (hn : 2 ≤ n)
    (h0 : |⟪A 0 0⟫| < ⟪(EPSILON : F32)⟫) (h1 : ⟪A 1 0⟫ < ⟪(EPSILON : F32)⟫) :
    a.isPositiveDefinite ≠ .ok true ∧ ∀ l, a.chol ≠ .ok l := by
  refine posDef_refused ha hfin (k := 1) (by omega) fun b hb => C107_first32 hb (by omega) (fun i hi => ?_)
    ⟨0, by omega, (abs_lt.mp h0).1⟩
  obtain rfl | rfl : i = 0 ∨ i = 1 := by omega
  · exact (abs_lt.mp h0).2
  · exact h1

/-- C129: in binary32, a matrix whose leading 3×3 block couples its first two rows by a negative element
and leaves the third on its own passes neither the test nor `chol`. -/
theorem C129_block (ha : MatIs a n n A) (hfin : ∀ i j, i < n → j < n → Finite (A i j)) (hn : 3 ≤ n)
    (h00 : 0 < ⟪A 0 0⟫) (h10 : ⟪A 1 0⟫ ≤ -(⟪A 0 0⟫ / 2 ^ 100)) (h20 : ⟪A 2 0⟫ = 0) (h21 : ⟪A 2 1⟫ = 0)
    (h01 : |⟪A 0 1⟫| ≤ 2 ^ 40) :
    a.isPositiveDefinite ≠ .ok true ∧ ∀ l, a.chol ≠ .ok l :=
  posDef_refused ha hfin (k := 2) (by omega) fun _ hb => C107_block32 hb h00 h10 h20 h21 h01


/-- C129, a case: the matrix of rows (2, 1) and (1, 2) passes the test and has a factor. -/
example : (fmat [[2, 1], [1, 2]]).isPositiveDefinite = .ok true ∧ ∃ l, (fmat [[2, 1], [1, 2]]).chol = .ok l := by
  have h1 : ⟪(lit 1 : F32)⟫ = ((1 : ℚ) : ℝ) := toReal_rat (by decide +kernel)
  have h2 : ⟪(lit 2 : F32)⟫ = ((2 : ℚ) : ℝ) := toReal_rat (by decide +kernel)
  have hm : MatIs (fmat [[2, 1], [1, 2]]) 2 2 _ := Mat.of_is _ (by norm_num) (by norm_num) (by norm_num) (by norm_num)
  refine C129_chol hm ?_ ?_ rfl ?_ ?_
  · intro i j hi hj
    change i < 2 at hi
    change j < 2 at hj
    interval_cases i <;> interval_cases j <;> decide +kernel
  · intro i j hi hj
    change i < 2 at hi
    change j < 2 at hj
    interval_cases i <;> interval_cases j
    · change |⟪(lit 2 : F32)⟫| ≤ _; rw [h2]; norm_num
    · change |⟪(lit 1 : F32)⟫| ≤ _; rw [h1]; norm_num
    · change |⟪(lit 1 : F32)⟫| ≤ _; rw [h1]; norm_num
    · change |⟪(lit 2 : F32)⟫| ≤ _; rw [h2]; norm_num
  · change _ ≤ ⟪(lit 2 : F32)⟫
    rw [eps32, h2]; norm_num
  · change ⟪(lit 2 : F32)⟫ * ⟪(lit 2 : F32)⟫ / 2 ^ 20 + 1 / 2 ^ 40 ≤ ⟪(lit 2 : F32)⟫ * ⟪(lit 2 : F32)⟫ - ⟪(lit 1 : F32)⟫ ^ 2
    rw [h1, h2]; norm_num

/-- C129, cases of the four outcomes of the test, and of a first element that is exchanged for a larger one below it. -/
example : (fmat [[-1, 0], [0, 1]]).isPositiveDefinite = .ok false ∧
    (fmat [[1 / 2 ^ 14, 0], [0, 1]]).isPositiveDefinite = .error (.err .Singular) ∧
    (fmat [[2, 1], [1, 2]]).isPositiveDefinite = .ok true ∧
    (fmat [[1, 2], [2, 1]]).isPositiveDefinite = .ok false ∧
    (fmat [[1, 2], [2, 5]]).isPositiveDefinite = .ok true ∧
    (fmat [[1 / 2 ^ 14, 1], [1, 2 ^ 15]]).isPositiveDefinite = .ok true := by decide +kernel

/-- C129, a case: the hypotheses of the last two outcomes hold for concrete matrices. -/
example : (fmat [[1, 2], [2, 1]]).isPositiveDefinite = .ok false ∧ (fmat [[1, 2], [2, 5]]).isPositiveDefinite = .ok true := by
  have h1 : ⟪(lit 1 : F32)⟫ = ((1 : ℚ) : ℝ) := toReal_rat (by decide +kernel)
  have h2 : ⟪(lit 2 : F32)⟫ = ((2 : ℚ) : ℝ) := toReal_rat (by decide +kernel)
  have h5 : ⟪(lit 5 : F32)⟫ = ((5 : ℚ) : ℝ) := toReal_rat (by decide +kernel)
  have hm : MatIs (fmat [[1, 2], [2, 1]]) 2 2 _ := Mat.of_is _ (by norm_num) (by norm_num) (by norm_num) (by norm_num)
  have hm' : MatIs (fmat [[1, 2], [2, 5]]) 2 2 _ := Mat.of_is _ (by norm_num) (by norm_num) (by norm_num) (by norm_num)
  refine ⟨(C129_two hm ?_ ?_ (by decide +kernel)).2.2.2 ?_ ?_ ?_, (C129_two hm' ?_ ?_ (by decide +kernel)).2.2.1 ?_ ?_ ?_⟩
  · intro i j hi hj
    change i < 2 at hi
    change j < 2 at hj
    interval_cases i <;> interval_cases j <;> decide +kernel
  · intro i j hi hj
    change i < 2 at hi
    change j < 2 at hj
    interval_cases i <;> interval_cases j
    · change |⟪(lit 1 : F32)⟫| ≤ _; rw [h1]; norm_num
    · change |⟪(lit 2 : F32)⟫| ≤ _; rw [h2]; norm_num
    · change |⟪(lit 2 : F32)⟫| ≤ _; rw [h2]; norm_num
    · change |⟪(lit 1 : F32)⟫| ≤ _; rw [h1]; norm_num
  · change 0 ≤ ⟪(lit 1 : F32)⟫
    rw [h1]; norm_num
  · change _ ≤ max ⟪(lit 1 : F32)⟫ ⟪(lit 2 : F32)⟫
    rw [eps32, h1, h2]; norm_num
  · change ⟪(lit 1 : F32)⟫ * ⟪(lit 1 : F32)⟫ - ⟪(lit 2 : F32)⟫ * ⟪(lit 2 : F32)⟫ < -(7 / 2 ^ 24 * (|⟪(lit 1 : F32)⟫ * ⟪(lit 1 : F32)⟫| +
      |⟪(lit 2 : F32)⟫ * ⟪(lit 2 : F32)⟫|) + 1 / 2 ^ 60)
    rw [h1, h2]; norm_num
  · intro i j hi hj
    change i < 2 at hi
    change j < 2 at hj
    interval_cases i <;> interval_cases j <;> decide +kernel
  · intro i j hi hj
    change i < 2 at hi
    change j < 2 at hj
    interval_cases i <;> interval_cases j
    · change |⟪(lit 1 : F32)⟫| ≤ _; rw [h1]; norm_num
    · change |⟪(lit 2 : F32)⟫| ≤ _; rw [h2]; norm_num
    · change |⟪(lit 2 : F32)⟫| ≤ _; rw [h2]; norm_num
    · change |⟪(lit 5 : F32)⟫| ≤ _; rw [h5]; norm_num
  · change 0 ≤ ⟪(lit 1 : F32)⟫
    rw [h1]; norm_num
  · change _ ≤ max ⟪(lit 1 : F32)⟫ ⟪(lit 2 : F32)⟫
    rw [eps32, h1, h2]; norm_num
  · change 7 / 2 ^ 24 * (|⟪(lit 1 : F32)⟫ * ⟪(lit 5 : F32)⟫| + |⟪(lit 2 : F32)⟫ * ⟪(lit 2 : F32)⟫|) + 1 / 2 ^ 60 ≤
      ⟪(lit 1 : F32)⟫ * ⟪(lit 5 : F32)⟫ - ⟪(lit 2 : F32)⟫ * ⟪(lit 2 : F32)⟫
    rw [h1, h2, h5]; norm_num

/-- C129, a case: the covariance `10⁻⁵` times the identity of size 3 has no factor. -/
example : (fmat [[1 / 2 ^ 17, 0, 0], [0, 1 / 2 ^ 17, 0], [0, 0, 1 / 2 ^ 17]]).isPositiveDefinite ≠ .ok true ∧
    ∀ l, (fmat [[1 / 2 ^ 17, 0, 0], [0, 1 / 2 ^ 17, 0], [0, 0, 1 / 2 ^ 17]]).chol ≠ .ok l := by
  have h1 : ⟪(lit (1 / 2 ^ 17) : F32)⟫ = ((1 / 2 ^ 17 : ℚ) : ℝ) := toReal_rat (by decide +kernel)
  have hm : MatIs (fmat [[1 / 2 ^ 17, 0, 0], [0, 1 / 2 ^ 17, 0], [0, 0, 1 / 2 ^ 17]]) 3 3 _ :=
    Mat.of_is _ (by norm_num) (by norm_num) (by norm_num) (by norm_num)
  refine C129_small hm ?_ (by norm_num) ?_ ?_
  · intro i j hi hj
    change i < 3 at hi
    change j < 3 at hj
    interval_cases i <;> interval_cases j <;> decide +kernel
  · change |⟪(lit (1 / 2 ^ 17) : F32)⟫| < _
    rw [h1, eps32]; norm_num [abs_of_pos]
  · change ⟪(lit 0 : F32)⟫ < _
    rw [Rounded.zero_val, eps32]; norm_num

/-- C129, a case: the covariance of rows (2, -1, 0), (-1, 2, 0) and (0, 0, 2) has no factor. -/
example : (fmat [[2, -1, 0], [-1, 2, 0], [0, 0, 2]]).isPositiveDefinite ≠ .ok true ∧
    ∀ l, (fmat [[2, -1, 0], [-1, 2, 0], [0, 0, 2]]).chol ≠ .ok l := by
  have h1 : ⟪(lit (-1) : F32)⟫ = ((-1 : ℚ) : ℝ) := toReal_rat (by decide +kernel)
  have h2 : ⟪(lit 2 : F32)⟫ = ((2 : ℚ) : ℝ) := toReal_rat (by decide +kernel)
  have hm : MatIs (fmat [[2, -1, 0], [-1, 2, 0], [0, 0, 2]]) 3 3 _ :=
    Mat.of_is _ (by norm_num) (by norm_num) (by norm_num) (by norm_num)
  refine C129_block hm ?_ (by norm_num) ?_ ?_ Rounded.zero_val Rounded.zero_val ?_
  · intro i j hi hj
    change i < 3 at hi
    change j < 3 at hj
    interval_cases i <;> interval_cases j <;> decide +kernel
  · change 0 < ⟪(lit 2 : F32)⟫
    rw [h2]; norm_num
  · change ⟪(lit (-1) : F32)⟫ ≤ -(⟪(lit 2 : F32)⟫ / 2 ^ 100)
    rw [h1, h2]; norm_num
  · change |⟪(lit (-1) : F32)⟫| ≤ _
    rw [h1]; norm_num

end
end Verif
