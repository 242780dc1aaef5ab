import Verif.Props.RoundedSo3

/-
Which rotations `det`, `is_orthogonal` and `is_so_n` accept in binary32 (C134).
-/

set_option linter.unusedSectionVars false
set_option linter.unusedSimpArgs false
set_option linter.unusedVariables false

namespace Verif
open Scalar Finset Rounded

section
variable {F : Type} [Scalar F] [R : Rounded F] {a : Mat F} {A : Nat → Nat → F} {q i j : Nat}

/-- The second pivot is too small. -/
theorem det3_side (ha : MatIs a 3 3 A) (hfin : ∀ i j, i < 3 → j < 3 → Finite (A i j))
    (hb : ∀ i j, i < 3 → j < 3 → |⟪A i j⟫| ≤ 1001 / 1000)
    (hq : (q = 0 ∧ i = 1 ∧ j = 2) ∨ (q = 1 ∧ i = 0 ∧ j = 2) ∨ (q = 2 ∧ i = 1 ∧ j = 0))
    (hmax : ∀ k, k < 3 → ⟪A k 0⟫ ≤ ⟪A q 0⟫) (hfirst : ∀ k, k < q → ⟪A k 0⟫ < ⟪A q 0⟫)
    (hp : ⟪(EPSILON : F)⟫ ≤ |⟪A q 0⟫|) {s : Nat}
    (hs : (s = i ∧ ⟪left1 A q j 1⟫ ≤ ⟪A i 0 /ᶠ A q 0⟫) ∨ (s = j ∧ ⟪A i 0 /ᶠ A q 0⟫ < ⟪left1 A q j 1⟫))
    (hsm : |⟪left1 A q s 1⟫| < ⟪(EPSILON : F)⟫) : a.det = .error (.err .Singular) := by
  obtain ⟨-, h2⟩ := det3_run ha hfin hq hmax hfirst
  obtain ⟨el, eu⟩ := eps_bounds (F := F)
  have hq3 : q < 3 := by omega
  have hx0 : 0 < |⟪A q 0⟫| := by norm_num at el; linarith
  have hxP : |⟪A q 0⟫| * (1 / |⟪A q 0⟫|) = 1 := by field_simp
  have hP : 999 / 1000 ≤ 1 / |⟪A q 0⟫| := by
    rw [le_div_iff₀ hx0]
    have := hb q 0 hq3 (by omega)
    linarith
  have hP' : 1 / |⟪A q 0⟫| ≤ 20000 := by
    rw [div_le_iff₀ hx0]
    norm_num at el
    linarith
  have key : ∀ k c, k < 3 → c < 3 → _ := fun k c hk hc => elim_step (hfin q 0 hq3 (by omega)) (hfin q c hq3 hc)
    (hfin k 0 hk (by omega)) (hfin k c hk hc) hP hP' hxP (hb q c hq3 hc) (hb k 0 hk (by omega)) (hb k c hk hc)
  obtain ⟨s', t, hst, h3⟩ := h2 hp fun k hk _ =>
    ⟨(key k 1 hk (by omega)).1, (key k 1 hk (by omega)).2.1, (key k 2 hk (by omega)).2.1⟩
  obtain rfl : s' = s := by
    rcases hst with ⟨u, -, v⟩ | ⟨u, -, v⟩ <;> rcases hs with ⟨u', v'⟩ | ⟨u', v'⟩
    · omega
    · exact absurd v' (not_lt.mpr v)
    · exact absurd v (not_lt.mpr v')
    · omega
  rcases h3 with ⟨-, h⟩ | ⟨h, -⟩
  · exact h
  · exact absurd hsm (not_lt.mpr h)

/-- The first comparison of the second pivot search. -/
theorem pivot_cmp (hfin : ∀ i j, i < 3 → j < 3 → Finite (A i j))
    (hb : ∀ i j, i < 3 → j < 3 → |⟪A i j⟫| ≤ 1001 / 1000) (hq : q < 3) (hi : i < 3)
    (hp : 99999 / 10 ^ 9 ≤ ⟪A q 0⟫) :
    |⟪A i 0 /ᶠ A q 0⟫ * ⟪A q 0⟫ - ⟪A i 0⟫| ≤ 2 / 10 ^ 7 ∧
    |⟪left1 A q i 1⟫ * ⟪A q 0⟫ - (⟪A q 0⟫ * ⟪A i 1⟫ - ⟪A q 1⟫ * ⟪A i 0⟫)| ≤ 3 / 10 ^ 7 := by
  have hp0 : 0 < ⟪A q 0⟫ := by norm_num at hp; linarith
  have hx0 : 0 < |⟪A q 0⟫| := abs_pos.mpr hp0.ne'
  have hxP : |⟪A q 0⟫| * (1 / |⟪A q 0⟫|) = 1 := by field_simp
  have hP : 999 / 1000 ≤ 1 / |⟪A q 0⟫| := by
    rw [le_div_iff₀ hx0]
    have := hb q 0 hq (by omega)
    linarith
  have hP' : 1 / |⟪A q 0⟫| ≤ 20000 := by
    rw [div_le_iff₀ hx0, abs_of_pos hp0]
    norm_num at hp
    linarith
  obtain ⟨f1, f2, e2, -, -⟩ := elim_step (hfin q 0 hq (by omega)) (hfin q 1 hq (by omega)) (hfin i 0 hi (by omega))
    (hfin i 1 hi (by omega)) hP hP' hxP (hb q 1 hq (by omega)) (hb i 0 hi (by omega)) (hb i 1 hi (by omega))
  have e1 := (R.div_near (hfin i 0 hi (by omega)) (hfin q 0 hq (by omega)) hp0.ne' f1).bound
  have hη := rη_le
  have hbi := hb i 0 hi (by omega)
  have hbq := hb q 0 hq (by omega)
  rw [abs_of_pos hp0] at e2 hbq
  change |⟪left1 A q i 1⟫ - _| ≤ _ at e2
  constructor
  · rw [show ⟪A i 0 /ᶠ A q 0⟫ * ⟪A q 0⟫ - ⟪A i 0⟫ = (⟪A i 0 /ᶠ A q 0⟫ - ⟪A i 0⟫ / ⟪A q 0⟫) * ⟪A q 0⟫ by field_simp,
      abs_mul, abs_of_pos hp0]
    have h3 : |⟪A i 0⟫ / ⟪A q 0⟫| * ⟪A q 0⟫ = |⟪A i 0⟫| := by rw [abs_div, abs_of_pos hp0]; field_simp
    have h4 := mul_le_mul_of_nonneg_right e1 hp0.le
    refine h4.trans ?_
    rw [add_mul, div_mul_eq_mul_div, h3]
    have h5 : rη * ⟪A q 0⟫ ≤ 1 / 10 ^ 45 * (1001 / 1000) := mul_le_mul hη hbq hp0.le (by norm_num)
    norm_num at h5 ⊢
    linarith
  · rw [show ⟪left1 A q i 1⟫ * ⟪A q 0⟫ - (⟪A q 0⟫ * ⟪A i 1⟫ - ⟪A q 1⟫ * ⟪A i 0⟫) =
      (⟪left1 A q i 1⟫ - (⟪A i 1⟫ - ⟪A q 1⟫ * (⟪A i 0⟫ / ⟪A q 0⟫))) * ⟪A q 0⟫ by field_simp, abs_mul, abs_of_pos hp0]
    refine (mul_le_mul_of_nonneg_right e2 hp0.le).trans ?_
    rw [mul_assoc, div_mul_cancel₀ _ hp0.ne']
    norm_num

/-- C134: the determinant of a 3×3 matrix, the pivot of the first column being row `q`, and `i`, `j` the two other rows
in the order in which the program meets them.  The program compares the quotient of row `i` with what is left of row `j`,
takes the one or the other row on the outcome, and refuses the matrix if what is left of that row is small. -/
theorem C134_det (ha : MatIs a 3 3 A) (hfin : ∀ i j, i < 3 → j < 3 → Finite (A i j))
    (hb : ∀ i j, i < 3 → j < 3 → |⟪A i j⟫| ≤ 1001 / 1000)
    (hq : (q = 0 ∧ i = 1 ∧ j = 2) ∨ (q = 1 ∧ i = 0 ∧ j = 2) ∨ (q = 2 ∧ i = 1 ∧ j = 0))
    (hmax : ∀ k, k < 3 → ⟪A k 0⟫ ≤ ⟪A q 0⟫) (hfirst : ∀ k, k < q → ⟪A k 0⟫ < ⟪A q 0⟫)
    (hp : 100001 / 10 ^ 9 ≤ ⟪A q 0⟫) {s : Nat}
    (hs : (s = j ∧ ⟪A i 0⟫ + 1 / 10 ^ 6 ≤ ⟪A q 0⟫ * ⟪A j 1⟫ - ⟪A q 1⟫ * ⟪A j 0⟫) ∨
      (s = i ∧ ⟪A q 0⟫ * ⟪A j 1⟫ - ⟪A q 1⟫ * ⟪A j 0⟫ + 1 / 10 ^ 6 ≤ ⟪A i 0⟫)) :
    (|⟪A q 0⟫ * ⟪A s 1⟫ - ⟪A q 1⟫ * ⟪A s 0⟫| + 1 / 10 ^ 6 ≤ 9999 / 10 ^ 8 * ⟪A q 0⟫ → a.det = .error (.err .Singular)) ∧
    (102 / 10 ^ 6 ≤ |⟪A q 0⟫ * ⟪A s 1⟫ - ⟪A q 1⟫ * ⟪A s 0⟫| → ∃ d, a.det = .ok d ∧ Finite d ∧
      |⟪d⟫ - (Matrix.of fun i j : Fin 3 => ⟪A i j⟫).det| ≤ 80 / 2 ^ 24 / ⟪A q 0⟫) := by
  obtain ⟨el, eu⟩ := eps_bounds (F := F)
  have hp0 : 0 < ⟪A q 0⟫ := by norm_num at hp; linarith
  have hq3 : q < 3 := by omega
  have hi3 : i < 3 := by omega
  have hj3 : j < 3 := by omega
  have hpe : ⟪(EPSILON : F)⟫ ≤ |⟪A q 0⟫| := by rw [abs_of_pos hp0]; norm_num at eu hp; linarith
  have hp' : 99999 / 10 ^ 9 ≤ ⟪A q 0⟫ := by norm_num at hp ⊢; linarith
  obtain ⟨c1, -⟩ := pivot_cmp hfin hb hq3 hi3 hp'
  obtain ⟨-, c2⟩ := pivot_cmp hfin hb hq3 hj3 hp'
  have hs' : (s = i ∧ ⟪left1 A q j 1⟫ ≤ ⟪A i 0 /ᶠ A q 0⟫) ∨ (s = j ∧ ⟪A i 0 /ᶠ A q 0⟫ < ⟪left1 A q j 1⟫) := by
    rw [abs_le] at c1 c2
    rcases hs with ⟨rfl, h⟩ | ⟨rfl, h⟩
    · refine .inr ⟨rfl, lt_of_mul_lt_mul_right ?_ hp0.le⟩
      norm_num at c1 c2 h ⊢
      linarith [c1.2, c2.1]
    · refine .inl ⟨rfl, le_of_mul_le_mul_right ?_ hp0⟩
      norm_num at c1 c2 h ⊢
      linarith [c1.1, c2.2]
  have hs3 : s < 3 := by omega
  constructor
  · intro h
    refine det3_side ha hfin hb hq hmax hfirst hpe hs' ?_
    obtain ⟨-, c3⟩ := pivot_cmp hfin hb hq3 hs3 hp'
    have h1 : |⟪left1 A q s 1⟫| * ⟪A q 0⟫ ≤ 9999 / 10 ^ 8 * ⟪A q 0⟫ := by
      have := abs_sub_abs_le_abs_sub (⟪left1 A q s 1⟫ * ⟪A q 0⟫) (⟪A q 0⟫ * ⟪A s 1⟫ - ⟪A q 1⟫ * ⟪A s 0⟫)
      rw [abs_mul ⟪left1 A q s 1⟫, abs_of_pos hp0] at this
      norm_num at c3 h ⊢
      linarith
    have h2 := le_of_mul_le_mul_right h1 hp0
    norm_num at h2 el
    linarith
  · intro h
    rcases det3_acc ha hfin hb hq hmax hfirst with ⟨h1, -⟩ | ⟨-, s', hs1, ⟨h2, -⟩ | ⟨d, h2, h3, h4⟩⟩
    · exact absurd h1 (not_lt.mpr hpe)
    · exfalso
      obtain rfl : s' = s := by
        rcases hs1 with ⟨u, v⟩ | ⟨u, v⟩ <;> rcases hs' with ⟨u', v'⟩ | ⟨u', v'⟩
        · omega
        · exact absurd v' (not_lt.mpr v)
        · exact absurd v (not_lt.mpr v')
        · omega
      norm_num at h h2
      linarith
    · rw [abs_of_pos hp0] at h4
      exact ⟨d, h2, h3, h4⟩

/-- What the elimination leaves in a row of zeros. -/
theorem left1_tiny (hfin : ∀ i j, i < 3 → j < 3 → Finite (A i j))
    (hb : ∀ i j, i < 3 → j < 3 → |⟪A i j⟫| ≤ 1001 / 1000) (hq : q < 3) (hp : 99999 / 10 ^ 9 ≤ ⟪A q 0⟫)
    (h0 : |⟪A 2 0⟫| ≤ 1 / 2 ^ 120) (h1 : |⟪A 2 1⟫| ≤ 1 / 2 ^ 120) : |⟪left1 A q 2 1⟫| ≤ 1 / 2 ^ 90 := by
  have hp0 : 0 < ⟪A q 0⟫ := by norm_num at hp; linarith
  have hx0 : 0 < |⟪A q 0⟫| := abs_pos.mpr hp0.ne'
  have hxP : |⟪A q 0⟫| * (1 / |⟪A q 0⟫|) = 1 := by field_simp
  have hP : 999 / 1000 ≤ 1 / |⟪A q 0⟫| := by
    rw [le_div_iff₀ hx0]
    have := hb q 0 hq (by omega)
    linarith
  have hP' : 1 / |⟪A q 0⟫| ≤ 20000 := by
    rw [div_le_iff₀ hx0, abs_of_pos hp0]
    norm_num at hp
    linarith
  obtain ⟨f1, f2, -, -, b2⟩ := elim_step (hfin q 0 hq (by omega)) (hfin q 1 hq (by omega)) (hfin 2 0 (by omega) (by omega))
    (hfin 2 1 (by omega) (by omega)) hP hP' hxP (hb q 1 hq (by omega)) (hb 2 0 (by omega) (by omega))
    (hb 2 1 (by omega) (by omega))
  have hη := rη_eq
  have hL : |⟪A 2 0⟫ / ⟪A q 0⟫| ≤ 1 / 2 ^ 105 := by
    rw [abs_div, div_le_iff₀ hx0, abs_of_pos hp0]
    norm_num at h0 hp ⊢
    linarith
  have e1 := (R.div_near (hfin 2 0 (by omega) (by omega)) (hfin q 0 hq (by omega)) hp0.ne' f1).bound
  have b1 : |⟪A 2 0 /ᶠ A q 0⟫| ≤ 1 / 2 ^ 104 := by
    have := abs_sub_abs_le_abs_sub ⟪A 2 0 /ᶠ A q 0⟫ (⟪A 2 0⟫ / ⟪A q 0⟫)
    norm_num [hη] at e1 hL ⊢
    linarith
  have b3 := mul_le_of (hb q 1 hq (by omega)) b1
  have f3 : Finite (A q 1 *ᶠ (A 2 0 /ᶠ A q 0)) := R.mul_finite (hfin q 1 hq (by omega)) f1 (b3.trans (by norm_num))
  have e3 := (R.mul_near (hfin q 1 hq (by omega)) f1 f3).bound
  have b4 : |⟪A q 1 *ᶠ (A 2 0 /ᶠ A q 0)⟫| ≤ 1 / 2 ^ 103 := by
    have := abs_sub_abs_le_abs_sub ⟪A q 1 *ᶠ (A 2 0 /ᶠ A q 0)⟫ (⟪A q 1⟫ * ⟪A 2 0 /ᶠ A q 0⟫)
    rw [abs_mul ⟪A q 1⟫] at this
    norm_num [hη] at e3 b3 ⊢
    linarith
  have e4 := (R.sub_near (hfin 2 1 (by omega) (by omega)) f3 f2).bound
  have t1 := abs_sub ⟪A 2 1⟫ ⟪A q 1 *ᶠ (A 2 0 /ᶠ A q 0)⟫
  have t2 := abs_sub_abs_le_abs_sub ⟪A 2 1 -ᶠ (A q 1 *ᶠ (A 2 0 /ᶠ A q 0))⟫ (⟪A 2 1⟫ - ⟪A q 1 *ᶠ (A 2 0 /ᶠ A q 0)⟫)
  change |⟪A 2 1 -ᶠ (A q 1 *ᶠ (A 2 0 /ᶠ A q 0))⟫| ≤ _
  norm_num [hη] at e4 t1 t2 b4 h1 ⊢
  linarith

/-- A matrix whose last row begins with two zeros: the signs of the two other elements of the first column decide. -/
theorem det3_yaw (ha : MatIs a 3 3 A) (hfin : ∀ i j, i < 3 → j < 3 → Finite (A i j))
    (hb : ∀ i j, i < 3 → j < 3 → |⟪A i j⟫| ≤ 1001 / 1000)
    (h0 : |⟪A 2 0⟫| ≤ 1 / 2 ^ 120) (h1 : |⟪A 2 1⟫| ≤ 1 / 2 ^ 120) :
    ((⟪A 0 0⟫ ≤ -(1 / 10 ^ 6) ∨ ⟪A 1 0⟫ ≤ -(1 / 10 ^ 6)) → a.det = .error (.err .Singular)) ∧
    (1 / 10 ^ 6 ≤ ⟪A 0 0⟫ → 1 / 10 ^ 6 ≤ ⟪A 1 0⟫ → 2 / 10 ^ 4 ≤ max ⟪A 0 0⟫ ⟪A 1 0⟫ →
      102 / 10 ^ 6 ≤ |⟪A 0 0⟫ * ⟪A 1 1⟫ - ⟪A 0 1⟫ * ⟪A 1 0⟫| → a.det ≠ .error (.err .Singular)) := by
  obtain ⟨el, eu⟩ := eps_bounds (F := F)
  obtain ⟨q, i, j, hq, hmax, hfirst⟩ := first_max (fun k => ⟪A k 0⟫)
  have m0 := hmax 0 (by omega)
  have m1 := hmax 1 (by omega)
  have m2 := hmax 2 (by omega)
  have h0' := abs_le.mp h0
  have two : (1 : ℝ) / 2 ^ 120 ≤ 1 / 10 ^ 30 := by norm_num
  -- row 2 is not the pivot, unless all is small
  have big : ⟪(EPSILON : F)⟫ ≤ ⟪A q 0⟫ → 99999 / 10 ^ 9 ≤ ⟪A q 0⟫ ∧ ((q = 0 ∧ i = 1 ∧ j = 2) ∨ (q = 1 ∧ i = 0 ∧ j = 2)) := fun h => by
    refine ⟨el.trans h, ?_⟩
    rcases hq with h' | h' | ⟨rfl, -, -⟩
    · exact .inl h'
    · exact .inr h'
    · exfalso
      norm_num at el h0' two
      linarith [h0'.2]
  -- the comparison
  have cmp : ⟪(EPSILON : F)⟫ ≤ ⟪A q 0⟫ → (⟪A i 0⟫ ≤ -(1 / 10 ^ 6) → ⟪A i 0 /ᶠ A q 0⟫ < ⟪left1 A q j 1⟫ ∧ |⟪left1 A q j 1⟫| < ⟪(EPSILON : F)⟫) ∧
      (1 / 10 ^ 6 ≤ ⟪A i 0⟫ → ⟪left1 A q j 1⟫ ≤ ⟪A i 0 /ᶠ A q 0⟫) := fun h => by
    obtain ⟨hp, hq'⟩ := big h
    have hp0 : 0 < ⟪A q 0⟫ := by norm_num at hp; linarith
    have hj : j = 2 := by omega
    subst hj
    obtain ⟨c1, -⟩ := pivot_cmp hfin hb (q := q) (i := i) (by omega) (by omega) hp
    have c2 := left1_tiny hfin hb (q := q) (by omega) hp h0 h1
    have hbq := (abs_le.mp (hb q 0 (by omega) (by omega))).2
    have two' : (1 : ℝ) / 2 ^ 90 ≤ 1 / 10 ^ 20 := by norm_num
    have c2' := abs_le.mp c2
    rw [abs_le] at c1
    have c4 : |⟪left1 A q 2 1⟫ * ⟪A q 0⟫| ≤ 1 / 10 ^ 19 := by
      rw [abs_mul, abs_of_pos hp0]
      have := mul_le_mul (c2.trans two') hbq hp0.le (by norm_num)
      norm_num at this ⊢
      linarith
    rw [abs_le] at c4
    refine ⟨fun h' => ⟨lt_of_mul_lt_mul_right ?_ hp0.le, ?_⟩, fun h' => le_of_mul_le_mul_right ?_ hp0⟩
    · norm_num at c1 c4 h' ⊢
      linarith [c1.2, c4.1]
    · norm_num at c2 el two' ⊢
      linarith
    · norm_num at c1 c4 h' ⊢
      linarith [c1.1, c4.2]
  constructor
  · intro hneg
    by_cases hp : |⟪A q 0⟫| < ⟪(EPSILON : F)⟫
    · exact (det3_run ha hfin hq hmax hfirst).1 hp
    have hp := not_lt.mp hp
    have hp1 : ⟪(EPSILON : F)⟫ ≤ ⟪A q 0⟫ := by
      rcases le_abs.mp hp with h | h
      · exact h
      · exfalso
        norm_num at el h0' two
        linarith [h0'.1]
    have hi : ⟪A i 0⟫ ≤ -(1 / 10 ^ 6) := by
      obtain ⟨hb', ⟨rfl, rfl, rfl⟩ | ⟨rfl, rfl, rfl⟩⟩ := big hp1
      · refine hneg.resolve_left fun h => ?_
        norm_num at h hb'
        linarith
      · refine hneg.resolve_right fun h => ?_
        norm_num at h hb'
        linarith
    obtain ⟨u, v⟩ := (cmp hp1).1 hi
    exact det3_side ha hfin hb hq hmax hfirst hp (.inr ⟨rfl, u⟩) v
  · intro g0 g1 g2 g3 hd
    have hp1 : ⟪(EPSILON : F)⟫ ≤ ⟪A q 0⟫ := by
      have := max_le m0 m1
      norm_num at eu g2
      rcases g2 with g2 | g2 <;> linarith
    obtain ⟨hb', hq'⟩ := big hp1
    have hp0 : 0 < ⟪A q 0⟫ := by norm_num at hb'; linarith
    have hi : 1 / 10 ^ 6 ≤ ⟪A i 0⟫ := by
      rcases hq' with ⟨rfl, rfl, rfl⟩ | ⟨rfl, rfl, rfl⟩
      · exact g1
      · exact g0
    have hv := (cmp hp1).2 hi
    rcases det3_acc ha hfin hb hq hmax hfirst with ⟨h1, -⟩ | ⟨-, s', hs1, ⟨h2, -⟩ | ⟨d, h2, h3, h4⟩⟩
    · rw [abs_of_pos hp0] at h1
      exact absurd h1 (not_lt.mpr hp1)
    · rcases hs1 with ⟨rfl, -⟩ | ⟨-, v⟩
      · have : 102 / 10 ^ 6 ≤ |⟪A q 0⟫ * ⟪A s' 1⟫ - ⟪A q 1⟫ * ⟪A s' 0⟫| := by
          rcases hq' with ⟨rfl, rfl, rfl⟩ | ⟨rfl, rfl, rfl⟩
          · exact g3
          · rw [← abs_neg]
            refine g3.trans (le_of_eq ?_)
            congr 1
            ring
        norm_num at this h2
        linarith
      · exact absurd v (not_lt.mpr hv)
    · rw [h2] at hd
      cases hd

/-- `convert_to_dcm` with four of its elements written out. -/
theorem dcm_yaw_entries {a : Vec F} {f : Nat → F} (ha : VecIs a 4 f) (hf : ∀ i, i < 4 → Finite (f i))
    (hn : ‖qval f‖ ≤ 2 ^ 60) :
    ∃ m D, Quat.convertToDcm a = .ok m ∧ MatIs m 3 3 D ∧ (∀ i j, i < 3 → j < 3 → Finite (D i j) ∧
      |⟪D i j⟫ - dcmOf (qval f) i j| ≤ 9 / 2 ^ 24 * (1 + ‖qval f‖ ^ 2)) ∧
      D 2 0 = lit 2 *ᶠ (f 1 *ᶠ f 3 -ᶠ f 0 *ᶠ f 2) ∧ D 2 1 = lit 2 *ᶠ (f 0 *ᶠ f 1 +ᶠ f 2 *ᶠ f 3) ∧
      D 0 1 = lit 2 *ᶠ (f 1 *ᶠ f 2 -ᶠ f 0 *ᶠ f 3) ∧ D 1 0 = lit 2 *ᶠ (f 1 *ᶠ f 2 +ᶠ f 0 *ᶠ f 3) := by
  obtain ⟨hw, hx, hy, hz⟩ := forall_lt_four.mp hf
  have ha' : VecIs a 4 (seq4 (f 0) (f 1) (f 2) (f 3)) := ha.congr (forall_lt_four.mpr ⟨rfl, rfl, rfl, rfl⟩)
  have hN : ‖qval f‖ ^ 2 = ⟪f 0⟫ ^ 2 + ⟪f 1⟫ ^ 2 + ⟪f 2⟫ ^ 2 + ⟪f 3⟫ ^ 2 := by
    rw [qval, norm_mkQ, Real.sq_sqrt (by positivity)]
  have hA : ‖qval f‖ ^ 2 ≤ 2 ^ 124 := by
    calc ‖qval f‖ ^ 2 ≤ (2 ^ 60) ^ 2 := pow_le_pow_left₀ (norm_nonneg _) hn 2
      _ ≤ _ := by norm_num
  generalize hAd : ‖qval f‖ ^ 2 = A at *
  have hA0 : 0 ≤ A := by rw [← hAd]; positivity
  have hη := rη_pos
  have hη' := rη_le
  -- off the diagonal
  have off : ∀ (b : Bool) {x0 x1 y0 y1 : F}, Finite x0 → Finite x1 → Finite y0 → Finite y1 →
      ⟪x0⟫ ^ 2 + ⟪x1⟫ ^ 2 + ⟪y0⟫ ^ 2 + ⟪y1⟫ ^ 2 = A →
      Finite (lit 2 *ᶠ addsub b (x0 *ᶠ y0) (x1 *ᶠ y1)) ∧
      |⟪lit 2 *ᶠ addsub b (x0 *ᶠ y0) (x1 *ᶠ y1)⟫ - 2 * (⟪x0⟫ * ⟪y0⟫ + sgn b * (⟪x1⟫ * ⟪y1⟫))| ≤
        9 / 2 ^ 24 * (1 + A) := by
    intro b x0 x1 y0 y1 h0 h1 h2 h3 hs
    have k : |⟪x0⟫ * ⟪y0⟫| + |⟪x1⟫ * ⟪y1⟫| ≤ A := by
      have k1 : |⟪x0⟫ * ⟪y0⟫| ≤ ⟪x0⟫ ^ 2 + ⟪y0⟫ ^ 2 := by
        rw [abs_le]
        constructor <;> nlinarith [sq_nonneg (⟪x0⟫ - ⟪y0⟫), sq_nonneg (⟪x0⟫ + ⟪y0⟫)]
      have k2 : |⟪x1⟫ * ⟪y1⟫| ≤ ⟪x1⟫ ^ 2 + ⟪y1⟫ ^ 2 := by
        rw [abs_le]
        constructor <;> nlinarith [sq_nonneg (⟪x1⟫ - ⟪y1⟫), sq_nonneg (⟪x1⟫ + ⟪y1⟫)]
      linarith
    obtain ⟨u1, u2⟩ := twice_acc b h0 h1 h2 h3 hA k
    refine ⟨u1, u2.trans ?_⟩
    norm_num at hη' ⊢
    linarith
  have diag : ∀ {x y : F}, Finite x → Finite y → ⟪x⟫ ^ 2 + ⟪y⟫ ^ 2 ≤ A →
      Finite (lit 1 -ᶠ lit 2 *ᶠ (x *ᶠ x +ᶠ y *ᶠ y)) ∧
      |⟪lit 1 -ᶠ lit 2 *ᶠ (x *ᶠ x +ᶠ y *ᶠ y)⟫ - (1 - 2 * (⟪x⟫ * ⟪x⟫ + ⟪y⟫ * ⟪y⟫))| ≤ 9 / 2 ^ 24 * (1 + A) := by
    intro x y h0 h1 hs
    refine one_sub_acc h0 h1 h0 h1 hA ?_
    rw [abs_of_nonneg (mul_self_nonneg _), abs_of_nonneg (mul_self_nonneg _), ← sq, ← sq]
    exact hs
  have c00 := first_acc hw hx hy hz hA (le_of_eq hN.symm)
  have c01 := off true hx hw hy hz (by linarith)
  have c02 := off false hx hw hz hy (by linarith)
  have c10 := off false hx hw hy hz (by linarith)
  have c11 := diag hx hz (by nlinarith [sq_nonneg ⟪f 0⟫, sq_nonneg ⟪f 2⟫])
  have c12 := off true hy hw hz hx (by linarith)
  have c20 := off true hx hw hz hy (by linarith)
  have c21 := off false hw hy hx hz (by linarith)
  have c22 := diag hx hy (by nlinarith [sq_nonneg ⟪f 0⟫, sq_nonneg ⟪f 3⟫])
  simp only [addsub, sgn, Bool.false_eq_true, if_true, if_false, one_mul, neg_mul, ← sub_eq_add_neg] at c01 c02 c10 c12 c20 c21
  have h0 := Mat.zeros_is (F := F) (r := 3) (c := 3) (by omega) (by omega) (by omega) (by omega)
  obtain ⟨m1, e1, h1⟩ := h0.exec_set (i := 0) (j := 0) (by omega) (by omega) c00.1
  obtain ⟨m2, e2, h2⟩ := h1.exec_set (i := 0) (j := 1) (by omega) (by omega) c01.1
  obtain ⟨m3, e3, h3⟩ := h2.exec_set (i := 0) (j := 2) (by omega) (by omega) c02.1
  obtain ⟨m4, e4, h4⟩ := h3.exec_set (i := 1) (j := 0) (by omega) (by omega) c10.1
  obtain ⟨m5, e5, h5⟩ := h4.exec_set (i := 1) (j := 1) (by omega) (by omega) c11.1
  obtain ⟨m6, e6, h6⟩ := h5.exec_set (i := 1) (j := 2) (by omega) (by omega) c12.1
  obtain ⟨m7, e7, h7⟩ := h6.exec_set (i := 2) (j := 0) (by omega) (by omega) c20.1
  obtain ⟨m8, e8, h8⟩ := h7.exec_set (i := 2) (j := 1) (by omega) (by omega) c21.1
  obtain ⟨m9, e9, h9⟩ := h8.exec_set (i := 2) (j := 2) (by omega) (by omega) c22.1
  refine ⟨m9, _, ?_, h9, ?_, rfl, rfl, rfl, rfl⟩
  · unfold Quat.convertToDcm
    simp only [Mat.init_new (F := F) (r := 3) (c := 3) (by omega) (by omega) (by omega) (by omega),
      Res.ok_bind, Quat.getQw_eq ha', Quat.getQx_eq ha', Quat.getQy_eq ha', Quat.getQz_eq ha', e1, e2, e3, e4, e5,
      e6, e7, e8, e9]
  · intro i j hi hj
    rcases i with _ | _ | _ | i <;> [skip; skip; skip; omega] <;>
      rcases j with _ | _ | _ | j <;> first | omega | skip
    · exact c00
    · exact c01
    · exact c02
    · exact c10
    · exact c11
    · exact c12
    · exact c20
    · exact c21
    · exact c22

/-- C134: turns about the vertical.  The matrix of the quaternion `(w, 0, 0, z)` of norm 1 within 10⁻⁶ has a
determinant, and is a rotation to `is_so_n`, when `w² - z²` and `2 w z` are both positive; when one of them is negative,
whatever needs the determinant fails with `Singular`. -/
theorem C134_heading {v : Vec F} {f : Nat → F} (hv : VecIs v 4 f) (hf : ∀ i, i < 4 → Finite (f i)) (hn : NearUnit f)
    (hx : ⟪f 1⟫ = 0) (hy : ⟪f 2⟫ = 0) :
    ∃ m, Quat.convertToDcm v = .ok m ∧
      ((⟪f 0⟫ ^ 2 - ⟪f 3⟫ ^ 2 ≤ -(1 / 10 ^ 5) ∨ 2 * ⟪f 0⟫ * ⟪f 3⟫ ≤ -(1 / 10 ^ 5)) →
        m.det = .error (.err .Singular) ∧ m.isSoN = .error (.err .Singular) ∧
        m.isOrthogonal = .error (.err .Singular) ∧ m.log = .error (.err .Singular) ∧
        Mat.logInPlace m = (.error (.err .Singular), m) ∧ Mat.adjugateInPlace m = (.error (.err .Singular), m)) ∧
      (1 / 10 ^ 5 ≤ ⟪f 0⟫ ^ 2 - ⟪f 3⟫ ^ 2 → 1 / 10 ^ 5 ≤ 2 * ⟪f 0⟫ * ⟪f 3⟫ →
        m.isSoN = .ok true ∧ m.isOrthogonal = .ok true) := by
  have hn' := abs_le.mp hn
  obtain ⟨m, D, e, hm, hD, e20, e21, -⟩ := dcm_yaw_entries hv hf (by norm_num at hn' ⊢; linarith [hn'.2])
  obtain ⟨m', D', e', hm', hfin', hg, hpos, -⟩ := C122_dcm hv hf hn
  obtain rfl : m' = m := by rw [e] at e'; cases e'; rfl
  have hDD : ∀ i j, i < 3 → j < 3 → D' i j = D i j := fun i j hi hj => Except.ok.inj ((hm'.get i j hi hj).symm.trans (hm.get i j hi hj))
  have hfin : ∀ i j, i < 3 → j < 3 → Finite (D i j) := fun i j hi hj => (hD i j hi hj).1
  have hg : ∀ i j, i < 3 → j < 3 → |∑ k ∈ range 3, ⟪D i k⟫ * ⟪D j k⟫ - if i = j then 1 else 0| ≤ 4 / 10 ^ 5 := fun i j hi hj => by
    have := hg i j hi hj
    rw [Finset.sum_congr rfl fun k hk => by rw [hDD i k hi (Finset.mem_range.mp hk), hDD j k hj (Finset.mem_range.mp hk)]] at this
    exact this.trans (by norm_num)
  have hdet : 0 < det3 D := by
    change 0 < det3 D' at hpos
    rw [det3_eq] at hpos ⊢
    rw [hDD 0 0 (by omega) (by omega), hDD 0 1 (by omega) (by omega), hDD 0 2 (by omega) (by omega),
      hDD 1 0 (by omega) (by omega), hDD 1 1 (by omega) (by omega), hDD 1 2 (by omega) (by omega),
      hDD 2 0 (by omega) (by omega), hDD 2 1 (by omega) (by omega), hDD 2 2 (by omega) (by omega)] at hpos
    exact hpos
  have hb := elem_le (n := 3) (A := D) (e := 4 / 10 ^ 5) (by norm_num) hg
  obtain ⟨fw, f1, f2, f3⟩ := forall_lt_four.mp hf
  have hη := rη_eq
  have h20 : |⟪D 2 0⟫| ≤ 1 / 2 ^ 120 := by
    have := (twice_acc true f1 fw f3 f2 (A := 0) (by norm_num) (by rw [hx, hy]; simp)).2
    simp only [addsub, sgn, if_true, hx, hy] at this
    rw [e20]
    norm_num [hη] at this ⊢
    linarith
  have h21 : |⟪D 2 1⟫| ≤ 1 / 2 ^ 120 := by
    have := (twice_acc false fw f2 f1 f3 (A := 0) (by norm_num) (by rw [hx, hy]; simp)).2
    simp only [addsub, sgn, Bool.false_eq_true, if_false, hx, hy] at this
    rw [e21]
    norm_num [hη] at this ⊢
    linarith
  have hN : ‖qval f‖ ^ 2 = ⟪f 0⟫ ^ 2 + ⟪f 3⟫ ^ 2 := by
    rw [qval, norm_mkQ, Real.sq_sqrt (by positivity), hx, hy]
    ring
  have hδ : |‖qval f‖ ^ 2 - 1| ≤ 201 / 10 ^ 8 := by
    norm_num at hn'
    rw [abs_le]
    constructor <;> norm_num <;> nlinarith [hn'.1, hn'.2, norm_nonneg (qval f)]
  have he : ∀ i j, i < 3 → j < 3 → |⟪D i j⟫ - dcmOf (qval f) i j| ≤ 108 / 10 ^ 8 := fun i j hi hj => by
    refine (hD i j hi hj).2.trans ?_
    have := (abs_le.mp hδ).2
    norm_num at this ⊢
    linarith
  have d00 := he 0 0 (by omega) (by omega)
  have d10 := he 1 0 (by omega) (by omega)
  simp only [dcmOf, tbl, qval, mkQ, List.getD_cons_zero, List.getD_cons_succ, hx, hy, mul_zero, zero_mul, add_zero, zero_add,
    sub_zero, zero_sub] at d00 d10
  obtain ⟨k1, k2⟩ := det3_yaw hm hfin hb h20 h21
  rw [abs_le] at d00 d10
  rw [hN, abs_le] at hδ
  refine ⟨m', e, fun h => ?_, fun g0 g1 => ?_⟩
  · have hS : m'.det = .error (.err .Singular) := by
      refine k1 ?_
      rcases h with h | h
      · refine .inl ?_
        norm_num at d00 h ⊢
        linarith [d00.2]
      · refine .inr ?_
        norm_num at d10 h ⊢
        linarith [d10.2]
    have s1 : m'.isSoN = .error (.err .Singular) := by unfold Mat.isSoN; rw [hS]; rfl
    refine ⟨hS, s1, by unfold Mat.isOrthogonal; rw [hS]; rfl, by unfold Mat.log; rw [s1]; rfl, ?_, ?_⟩
    · unfold Mat.logInPlace
      simp only [Op.get_bind, s1]
      rfl
    · unfold Mat.adjugateInPlace
      simp only [Op.get_bind, s1]
      rfl
  · -- the larger of the two is more than a half
    have hbig : ∀ q, q < 3 → (∀ k, k < 3 → ⟪D k 0⟫ ≤ ⟪D q 0⟫) → 1 / 2 ≤ ⟪D q 0⟫ := fun q hq hmax => by
      have m0 := hmax 0 (by omega)
      have m1 := hmax 1 (by omega)
      by_contra hlt
      have hlt := not_le.mp hlt
      have c1 : ⟪f 0⟫ ^ 2 - ⟪f 3⟫ ^ 2 ≤ 51 / 100 := by norm_num at d00; linarith [d00.1]
      have c2 : 2 * ⟪f 0⟫ * ⟪f 3⟫ ≤ 51 / 100 := by norm_num at d10; linarith [d10.1]
      have c3 : (⟪f 0⟫ ^ 2 - ⟪f 3⟫ ^ 2) ^ 2 + (2 * ⟪f 0⟫ * ⟪f 3⟫) ^ 2 = (⟪f 0⟫ ^ 2 + ⟪f 3⟫ ^ 2) ^ 2 := by ring
      have c4 : 9 / 10 ≤ ⟪f 0⟫ ^ 2 + ⟪f 3⟫ ^ 2 := by norm_num at hδ; linarith [hδ.1]
      generalize ⟪f 0⟫ ^ 2 + ⟪f 3⟫ ^ 2 = n at *
      generalize ⟪f 0⟫ ^ 2 - ⟪f 3⟫ ^ 2 = C at *
      generalize 2 * ⟪f 0⟫ * ⟪f 3⟫ = S at *
      norm_num at g0 g1
      nlinarith
    obtain ⟨q, i, j, hq, hmax, -⟩ := first_max (fun k => ⟪D k 0⟫)
    have hq2 := hbig q (by omega) hmax
    have hns : m'.det ≠ .error (.err .Singular) := by
      refine k2 ?_ ?_ ?_ ?_
      · norm_num at d00 g0 ⊢
        linarith [d00.1]
      · norm_num at d10 g1 ⊢
        linarith [d10.1]
      · rcases hq with ⟨rfl, -, -⟩ | ⟨rfl, -, -⟩ | ⟨rfl, -, -⟩
        · refine le_max_of_le_left ?_
          norm_num
          linarith
        · refine le_max_of_le_right ?_
          norm_num
          linarith
        · have := (abs_le.mp h20).2
          norm_num at this
          linarith
      · -- the matrix has a last row of (0, 0, c), so that the minor times c is the determinant
        have hd := near_det3 (e := 4 / 10 ^ 5) (by norm_num) hg
        have e1 : det3 D = ⟪D 2 2⟫ * (⟪D 0 0⟫ * ⟪D 1 1⟫ - ⟪D 0 1⟫ * ⟪D 1 0⟫) - ⟪D 2 1⟫ * (⟪D 0 0⟫ * ⟪D 1 2⟫ - ⟪D 0 2⟫ * ⟪D 1 0⟫)
            + ⟪D 2 0⟫ * (⟪D 0 1⟫ * ⟪D 1 2⟫ - ⟪D 0 2⟫ * ⟪D 1 1⟫) := by rw [det3_eq]; ring
        have b : ∀ k l, k < 3 → l < 3 → |⟪D 0 k⟫ * ⟪D 1 l⟫ - ⟪D 0 l⟫ * ⟪D 1 k⟫| ≤ 201 / 100 := fun k l hk hl => by
          have m1 := mul_le_of (hb 0 k (by omega) hk) (hb 1 l (by omega) hl)
          have m2 := mul_le_of (hb 0 l (by omega) hl) (hb 1 k (by omega) hk)
          rw [abs_le] at *
          norm_num at m1 m2 ⊢
          constructor <;> linarith [m1.1, m1.2, m2.1, m2.2]
        have n1 := mul_le_of h21 (b 0 2 (by omega) (by omega))
        have n2 := mul_le_of h20 (b 1 2 (by omega) (by omega))
        have n3 := mul_le_of (hb 2 2 (by omega) (by omega)) (le_refl |⟪D 0 0⟫ * ⟪D 1 1⟫ - ⟪D 0 1⟫ * ⟪D 1 0⟫|)
        rw [abs_of_pos hdet] at hd
        rw [abs_le] at hd n1 n2 n3
        norm_num at hd n1 n2 n3 ⊢
        linarith [hd.1, n1.1, n1.2, n2.1, n2.2, n3.1, n3.2]
    rcases C122_accept hm hfin hg (fun q hq hmax => by have := hbig q hq hmax; rw [abs_of_pos (by linarith)]; linarith) with
      ⟨h1, -⟩ | ⟨h1, h2⟩
    · exfalso
      obtain ⟨q, hq, -, ⟨h3, -⟩ | ⟨d, h3, h4, -⟩⟩ := C122_det hm hfin hb
      · exact hns h3
      · obtain ⟨b, e4, -, -⟩ := mulT_run hm hfin (fun i j hi hj => (hb i j hi hj).trans (by norm_num))
        obtain ⟨s1, -⟩ := soN_of h3 h4 hm.rows_eq e4
        rw [s1] at h1
        cases h1
    · refine ⟨h2.trans ?_, h1⟩
      rw [decide_eq_true]
      exact hdet

/-- C134: the same by the angle, for a quaternion within 10⁻⁷ of that of a turn by `θ` about the vertical: headings
between 0 and 90 degrees pass, all others are refused, up to 2·10⁻⁵ in the sine and the cosine. -/
theorem C134_angle {v : Vec F} {f : Nat → F} {θ : ℝ} (hv : VecIs v 4 f) (hf : ∀ i, i < 4 → Finite (f i))
    (h0 : |⟪f 0⟫ - Real.cos (θ / 2)| ≤ 1 / 10 ^ 7) (h3 : |⟪f 3⟫ - Real.sin (θ / 2)| ≤ 1 / 10 ^ 7)
    (hx : ⟪f 1⟫ = 0) (hy : ⟪f 2⟫ = 0) :
    ((Real.cos θ ≤ -(2 / 10 ^ 5) ∨ Real.sin θ ≤ -(2 / 10 ^ 5)) →
      (Quat.convertToDcm v >>= fun m => m.isSoN) = .error (.err .Singular)) ∧
    (2 / 10 ^ 5 ≤ Real.cos θ → 2 / 10 ^ 5 ≤ Real.sin θ →
      (Quat.convertToDcm v >>= fun m => m.isSoN) = .ok true) := by
  have hc : Real.cos θ = Real.cos (θ / 2) ^ 2 - Real.sin (θ / 2) ^ 2 := by
    rw [← Real.cos_two_mul', mul_div_cancel₀ θ (by norm_num)]
  have hs : Real.sin θ = 2 * Real.cos (θ / 2) * Real.sin (θ / 2) := by
    rw [mul_right_comm, ← Real.sin_two_mul, mul_div_cancel₀ θ (by norm_num)]
  have hsq := Real.sin_sq_add_cos_sq (θ / 2)
  have c1 := Real.abs_cos_le_one (θ / 2)
  have s1 := Real.abs_sin_le_one (θ / 2)
  generalize Real.cos (θ / 2) = c at *
  generalize Real.sin (θ / 2) = s at *
  have m1 := mul_le_of h0 c1
  have m2 := mul_le_of h3 s1
  have m3 := mul_le_of h0 s1
  have m4 := mul_le_of h3 c1
  have m5 := mul_le_of h0 h0
  have m6 := mul_le_of h3 h3
  have m7 := mul_le_of h0 h3
  rw [abs_le] at m1 m2 m3 m4 m5 m6 m7
  have hN : ‖qval f‖ ^ 2 = ⟪f 0⟫ ^ 2 + ⟪f 3⟫ ^ 2 := by
    rw [qval, norm_mkQ, Real.sq_sqrt (by positivity), hx, hy]
    ring
  have hN1 : |‖qval f‖ ^ 2 - 1| ≤ 5 / 10 ^ 7 := by
    rw [hN, abs_le]
    norm_num at m1 m2 m5 m6 ⊢
    constructor <;> linarith [m1.1, m1.2, m2.1, m2.2, m5.1, m5.2, m6.1, m6.2]
  have hn : NearUnit f := by
    have hN0 := norm_nonneg (qval f)
    unfold NearUnit
    clear * - hN1 hN0
    rw [show ‖qval f‖ ^ 2 - 1 = (‖qval f‖ - 1) * (‖qval f‖ + 1) by ring, abs_mul, abs_of_pos (show 0 < ‖qval f‖ + 1 by linarith)] at hN1
    have := mul_le_mul_of_nonneg_left (show 1 ≤ ‖qval f‖ + 1 by linarith) (abs_nonneg (‖qval f‖ - 1))
    norm_num at hN1 ⊢
    linarith
  have eC : |⟪f 0⟫ ^ 2 - ⟪f 3⟫ ^ 2 - Real.cos θ| ≤ 1 / 10 ^ 6 := by
    rw [hc, abs_le]
    norm_num at m1 m2 m5 m6 ⊢
    constructor <;> linarith [m1.1, m1.2, m2.1, m2.2, m5.1, m5.2, m6.1, m6.2]
  have eS : |2 * ⟪f 0⟫ * ⟪f 3⟫ - Real.sin θ| ≤ 1 / 10 ^ 6 := by
    rw [hs, abs_le]
    norm_num at m3 m4 m7 ⊢
    constructor <;> linarith [m3.1, m3.2, m4.1, m4.2, m7.1, m7.2]
  obtain ⟨m, e, r1, r2⟩ := C134_heading hv hf hn hx hy
  rw [e, Res.ok_bind]
  rw [abs_le] at eC eS
  refine ⟨fun h => (r1 ?_).2.1, fun g0 g1 => (r2 ?_ ?_).1⟩
  · rcases h with h | h
    · refine .inl ?_
      norm_num at eC h ⊢
      linarith [eC.2]
    · refine .inr ?_
      norm_num at eS h ⊢
      linarith [eS.2]
  · norm_num at eC g0 ⊢
    linarith [eC.1]
  · norm_num at eS g1 ⊢
    linarith [eS.1]

end

/-! ### Cases -/

/-- The hypotheses of `C134_det`: the second row is the pivot, the first row comes next. -/
example : ∃ d, (fmat exS).det = .ok d ∧ Finite d ∧
    |⟪d⟫ - (Matrix.of fun i j : Fin 3 => ⟪(lit (tbl exS i j) : F32)⟫).det| ≤ 80 / 2 ^ 24 / ⟪(lit (tbl exS 1 0) : F32)⟫ := by
  have v := exS_val
  refine (C134_det (q := 1) (i := 0) (j := 2) (s := 0) exS_is exS_fin (fun i j hi hj => ?_) (.inr (.inl ⟨rfl, rfl, rfl⟩))
    (fun k hk => ?_) (fun k hk => ?_) ?_ (.inr ⟨rfl, ?_⟩)).2 ?_
  · rw [v i j hi hj]
    rcases (show i = 0 ∨ i = 1 ∨ i = 2 by omega) with rfl | rfl | rfl <;>
      rcases (show j = 0 ∨ j = 1 ∨ j = 2 by omega) with rfl | rfl | rfl <;> norm_num [tbl, exS, abs_le]
  · rw [v k 0 hk (by omega), v 1 0 (by omega) (by omega)]
    rcases (show k = 0 ∨ k = 1 ∨ k = 2 by omega) with rfl | rfl | rfl <;> norm_num [tbl, exS]
  · rw [v k 0 (by omega) (by omega), v 1 0 (by omega) (by omega)]
    rcases (show k = 0 by omega) with rfl
    norm_num [tbl, exS]
  · rw [v 1 0 (by omega) (by omega)]
    norm_num [tbl, exS]
  · rw [v 1 0 (by omega) (by omega), v 2 1 (by omega) (by omega), v 1 1 (by omega) (by omega), v 2 0 (by omega) (by omega),
      v 0 0 (by omega) (by omega)]
    norm_num [tbl, exS]
  · rw [v 1 0 (by omega) (by omega), v 0 1 (by omega) (by omega), v 1 1 (by omega) (by omega), v 0 0 (by omega) (by omega)]
    norm_num [tbl, exS, le_abs]

/-- Turns by about 74 and 106 degrees: the first passes, the second is refused. -/
def exH (b : Bool) : List ℚ := if b then [13421773 / 2 ^ 24, 0, 0, 10066330 / 2 ^ 24] else [10066330 / 2 ^ 24, 0, 0, 13421773 / 2 ^ 24]

theorem exH_val (b : Bool) : ∀ i, i < 4 → ⟪(lit ((exH b).getD i 0) : F32)⟫ = (((exH b).getD i 0 : ℚ) : ℝ) := by
  have : ∀ b, ∀ i, i < 4 → F32.fl (.fin ((exH b).getD i 0)) = ⟨.fin ((exH b).getD i 0)⟩ := by decide +kernel
  exact fun i hi => lit_val _ (this b i hi)

theorem exH_fin (b : Bool) : ∀ i, i < 4 → Finite (lit ((exH b).getD i 0) : F32) := by
  have : ∀ b, ∀ i, i < 4 → Finite (lit ((exH b).getD i 0) : F32) := by decide +kernel
  exact this b

theorem exH_is (b : Bool) : VecIs (fvec (exH b)) 4 (fun i => (lit ((exH b).getD i 0) : F32)) := by
  cases b
  · exact fvec_is [10066330 / 2 ^ 24, 0, 0, 13421773 / 2 ^ 24] rfl
  · exact fvec_is [13421773 / 2 ^ 24, 0, 0, 10066330 / 2 ^ 24] rfl

/-- The hypotheses of `C134_angle`, on either side. -/
example : (Quat.convertToDcm (fvec (exH true)) >>= fun m => m.isSoN) = .ok true := by
  have v := exH_val true
  have hs : Real.sin (Real.arccos (4 / 5)) = 3 / 5 := by
    rw [Real.sin_arccos, show (1 - (4 / 5) ^ 2 : ℝ) = (3 / 5) ^ 2 by norm_num, Real.sqrt_sq (by norm_num)]
  have hc : Real.cos (Real.arccos (4 / 5)) = 4 / 5 := Real.cos_arccos (by norm_num) (by norm_num)
  refine (C134_angle (θ := 2 * Real.arccos (4 / 5)) (exH_is true) (exH_fin true) ?_ ?_ ?_ ?_).2 ?_ ?_
  · rw [v 0 (by omega), mul_div_cancel_left₀ _ (by norm_num), hc]
    norm_num [exH, abs_le]
  · rw [v 3 (by omega), mul_div_cancel_left₀ _ (by norm_num), hs]
    norm_num [exH, abs_le]
  · rw [v 1 (by omega)]
    norm_num [exH]
  · rw [v 2 (by omega)]
    norm_num [exH]
  · rw [Real.cos_two_mul, hc]
    norm_num
  · rw [Real.sin_two_mul, hc, hs]
    norm_num

example : (Quat.convertToDcm (fvec (exH false)) >>= fun m => m.isSoN) = .error (.err .Singular) := by
  have v := exH_val false
  have hs : Real.sin (Real.arccos (3 / 5)) = 4 / 5 := by
    rw [Real.sin_arccos, show (1 - (3 / 5) ^ 2 : ℝ) = (4 / 5) ^ 2 by norm_num, Real.sqrt_sq (by norm_num)]
  have hc : Real.cos (Real.arccos (3 / 5)) = 3 / 5 := Real.cos_arccos (by norm_num) (by norm_num)
  refine (C134_angle (θ := 2 * Real.arccos (3 / 5)) (exH_is false) (exH_fin false) ?_ ?_ ?_ ?_).1 (.inl ?_)
  · rw [v 0 (by omega), mul_div_cancel_left₀ _ (by norm_num), hc]
    norm_num [exH, abs_le]
  · rw [v 3 (by omega), mul_div_cancel_left₀ _ (by norm_num), hs]
    norm_num [exH, abs_le]
  · rw [v 1 (by omega)]
    norm_num [exH]
  · rw [v 2 (by omega)]
    norm_num [exH]
  · rw [Real.cos_two_mul, hc]
    norm_num

/-- The same by evaluation, and the four quarters: 30, 120, 210 and 300 degrees. -/
example : (Quat.convertToDcm (fvec [16205546 / 16777216, 0, 0, 4342223 / 16777216]) >>= fun m => m.isSoN) = .ok true ∧
    (Quat.convertToDcm (fvec [1 / 2, 0, 0, 29058991 / 33554432]) >>= fun m => m.isSoN) = .error (.err .Singular) ∧
    (Quat.convertToDcm (fvec [-4342223 / 16777216, 0, 0, 16205546 / 16777216]) >>= fun m => m.isSoN) = .error (.err .Singular) ∧
    (Quat.convertToDcm (fvec [-29058991 / 33554432, 0, 0, 1 / 2]) >>= fun m => m.isSoN) = .error (.err .Singular) := by
  decide +kernel

end Verif
