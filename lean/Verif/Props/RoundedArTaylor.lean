import Verif.Props.RoundedArEuler
import Verif.Props.ArShake
import Verif.Literals

/-
The AR filter with the Taylor series in binary32 (C114).
-/

set_option linter.unusedSectionVars false

namespace Verif
open Scalar Finset

/-- What is assumed of `powf` for the exponents of the filter: below `2¹²⁶` a finite result, within two units in the last
place (of a normal number, or of a subnormal one) of the exact power. -/
class Powers (F : Type) [Scalar F] [Rounded F] : Prop where
  pow_near : ∀ {x : F} {n : ℕ}, Finite x → 1 ≤ n → n ≤ 20 → |⟪x⟫| ^ n ≤ 2 ^ 126 → Finite (Scalar.pow x (lit (n : ℚ))) ∧
    |⟪Scalar.pow x (lit (n : ℚ))⟫ - ⟪x⟫ ^ n| ≤ |⟪x⟫| ^ n / 2 ^ 22 + 1 / 2 ^ 148

variable {F : Type} [Scalar F] [R : Rounded F]

/-- A power of a perturbed argument. -/
theorem pow_acc [P : Powers F] {o : F} {y X d : ℝ} {n : ℕ} (ho : Apx o y d) (hy : |y| ≤ X) (hX : X ≤ 1) (hd : d ≤ 1 / 10 ^ 6)
    (h1 : 1 ≤ n) (h2 : n ≤ 20) :
    Apx (Scalar.pow o (lit (n : ℚ))) (y ^ n) (10001 / 10000 * (n * d + (X + d) / 2 ^ 22) + 1 / 10 ^ 44) := by
  have hd0 : 0 ≤ d := (abs_nonneg _).trans ho.2
  have hX0 : 0 ≤ X := (abs_nonneg _).trans hy
  have hole := ho.le hy
  have hM : X + d ≤ 1 + 1 / 10 ^ 6 := by linarith
  have hpw : ∀ k ≤ 20, (1 + 1 / 10 ^ 6 : ℝ) ^ k ≤ 10001 / 10000 := fun k hk =>
    (pow_le_pow_right₀ (by norm_num) hk).trans (by norm_num)
  obtain ⟨m, rfl⟩ : ∃ m, n = m + 1 := ⟨n - 1, by omega⟩
  have hmax : max |⟪o⟫| |y| ^ m ≤ 10001 / 10000 := by
    refine (pow_le_pow_left₀ (le_max_of_le_left (abs_nonneg _)) (max_le (hole.trans hM) ?_) m).trans (hpw m (by omega))
    norm_num
    linarith
  have hp : |⟪o⟫| ^ (m + 1) ≤ 10001 / 10000 * (X + d) := by
    rw [pow_succ]
    refine mul_le_mul ?_ hole (abs_nonneg _) (by norm_num)
    exact (pow_le_pow_left₀ (abs_nonneg _) (le_max_left _ |y|) m).trans hmax
  have hdist : |⟪o⟫ ^ (m + 1) - y ^ (m + 1)| ≤ 10001 / 10000 * ((m + 1 : ℕ) * d) := by
    refine (abs_pow_sub_pow_le _ _ _).trans ?_
    rw [Nat.add_sub_cancel]
    calc |⟪o⟫ - y| * ((m + 1 : ℕ) : ℝ) * max |⟪o⟫| |y| ^ m ≤ d * ((m + 1 : ℕ) : ℝ) * (10001 / 10000) := by
          have := ho.2
          gcongr
      _ = _ := by ring
  obtain ⟨k1, k2⟩ := P.pow_near ho.1 h1 h2 (hp.trans (by norm_num at hM ⊢; linarith))
  refine ⟨k1, (dist_trans k2 hdist).trans ?_⟩
  norm_num at hp ⊢
  linarith

/-- The coefficient of a term. -/
theorem coef_acc [L : Literals F] {n : ℕ} (h2 : n ≤ 20) :
    Apx (lit 1 /ᶠ lit ((Nat.factorial n : ℕ) : ℚ) : F) (1 / (Nat.factorial n : ℝ))
      (2001 / 1000 / 2 ^ 24 * (1 / (Nat.factorial n : ℝ)) + 1 / 10 ^ 45) := by
  have hη := rη_pos
  have hη' := rη_le
  have g1 : (1 : ℝ) ≤ (Nat.factorial n : ℝ) := by exact_mod_cast Nat.factorial_pos n
  have g2 : (Nat.factorial n : ℝ) ≤ 2 ^ 62 := by
    have : Nat.factorial n ≤ Nat.factorial 20 := Nat.factorial_le h2
    have h3 : Nat.factorial 20 ≤ 2 ^ 62 := by decide +kernel
    exact_mod_cast this.trans h3
  obtain ⟨l1, l2⟩ := L.lit_near ((Nat.factorial n : ℕ) : ℚ) (by
    push_cast
    rw [abs_of_nonneg (by positivity)]
    exact g2.trans (by norm_num))
  have l3 := l2.bound
  push_cast at l3
  rw [abs_of_nonneg (a := (Nat.factorial n : ℝ)) (by positivity)] at l3
  generalize (Nat.factorial n : ℝ) = G at *
  have g0 : 0 < G := by linarith
  have hG : G * (1 / G) = 1 := by field_simp
  have hG1 : 1 / G ≤ 1 := by rw [div_le_one g0]; exact g1
  have hG0 : 0 < 1 / G := by positivity
  refine (Apx.one.div (c := 1 / G) (E := 10001 / 10000 / 2 ^ 24 * (1 / G)) ⟨l1, l3⟩ le_rfl ?_ ?_ ?_ ?_).mono ?_
  · norm_num at hη' ⊢
    linarith
  · rw [abs_of_pos hG0]
  · generalize 1 / G = K at *
    have e1 : 10001 / 10000 / 2 ^ 24 * K * (G - (G / 16777216 + rη)) =
        10001 / 10000 / 2 ^ 24 * (1 - 1 / 16777216 - rη * K) := by linear_combination (10001 / 10000 / 2 ^ 24 * (1 - 1 / 16777216) : ℝ) * hG
    have e2 : 0 + K * (G / 16777216 + rη) = 1 / 16777216 + rη * K := by linear_combination (1 / 16777216 : ℝ) * hG
    have e3 : rη * K ≤ rη * 1 := by gcongr
    rw [e1, e2]
    norm_num at hη' ⊢
    linarith
  · generalize 1 / G = K at *
    norm_num
    linarith
  · generalize 1 / G = K at *
    norm_num at hη' ⊢
    linarith

/-- A term of the series. -/
theorem term_acc [P : Powers F] [L : Literals F] {o : F} {y X d : ℝ} {n : ℕ} (ho : Apx o y d) (hy : |y| ≤ X) (hX : X ≤ 1)
    (hd : d ≤ 1 / 10 ^ 6) (h1 : 1 ≤ n) (h2 : n ≤ 20) :
    Finite (Scalar.pow o (lit (n : ℚ))) ∧
    Apx (Scalar.pow o (lit (n : ℚ)) *ᶠ (lit 1 /ᶠ lit ((Nat.factorial n : ℕ) : ℚ))) (y ^ n / (Nat.factorial n : ℝ))
      ((1001 / 1000 * (n * d) + 71 / 10 / 2 ^ 24 * (X + d)) * (1 / (Nat.factorial n : ℝ)) + 1 / 10 ^ 43) := by
  have hη := rη_pos
  have hη' := rη_le
  have hd0 : 0 ≤ d := (abs_nonneg _).trans ho.2
  have hX0 : 0 ≤ X := (abs_nonneg _).trans hy
  have p := pow_acc ho hy hX hd h1 h2
  have c := coef_acc (F := F) h2
  refine ⟨p.1, ?_⟩
  have hA : |y ^ n| ≤ X := by
    rw [abs_pow]
    exact (pow_le_of_le_one (abs_nonneg _) (hy.trans hX) (by omega)).trans hy
  have g1 : 1 / (Nat.factorial n : ℝ) ≤ 1 := by
    rw [div_le_one (by positivity)]
    exact_mod_cast Nat.factorial_pos n
  have g0 : 0 < 1 / (Nat.factorial n : ℝ) := by positivity
  have e : y ^ n / (Nat.factorial n : ℝ) = y ^ n * (1 / (Nat.factorial n : ℝ)) := by ring
  rw [e]
  have hn : (n : ℝ) ≤ 20 := by exact_mod_cast h2
  have hnd : (n : ℝ) * d ≤ 20 * d := by gcongr
  have hnd0 : 0 ≤ (n : ℝ) * d := by positivity
  generalize 1 / (Nat.factorial n : ℝ) = g at *
  generalize hQ : (n : ℝ) * d = Q at *
  obtain ⟨a, ha⟩ : ∃ a : ℝ, a = 10001 / 10000 * (Q + (X + d) / 2 ^ 22) + 1 / 10 ^ 44 := ⟨_, rfl⟩
  obtain ⟨b, hb⟩ : ∃ b : ℝ, b = 2001 / 1000 / 2 ^ 24 * g + 1 / 10 ^ 45 := ⟨_, rfl⟩
  rw [← ha] at p
  rw [← hb] at c
  have a0 : 0 ≤ a := by rw [ha]; positivity
  have b0 : 0 ≤ b := by rw [hb]; positivity
  have a1 : a ≤ 1 / 1000 := by rw [ha]; norm_num at hd ⊢; linarith
  have b1 : b ≤ 1 / 10 ^ 6 := by rw [hb]; norm_num; linarith
  have key : X * b + a * (g + b) ≤ (10003 / 10000 * Q + 605 / 100 / 2 ^ 24 * (X + d)) * g + 2 / 10 ^ 44 := by
    have e1 : X * b = 2001 / 1000 / 2 ^ 24 * (X * g) + X * (1 / 10 ^ 45) := by rw [hb]; ring
    have e2 : a * (g + b) = a * g * (1 + 2001 / 1000 / 2 ^ 24) + a * (1 / 10 ^ 45) := by rw [hb]; ring
    have e3 : a * g = 10001 / 10000 * (Q * g) + 10001 / 10000 / 2 ^ 22 * ((X + d) * g) + g * (1 / 10 ^ 44) := by rw [ha]; ring
    have p1 : 0 ≤ Q * g := by positivity
    have p2 : 0 ≤ X * g := by positivity
    have p3 : 0 ≤ d * g := by positivity
    rw [e1, e2, e3]
    linarith
  have p1 : 0 ≤ Q * g := by positivity
  have p2 : 0 ≤ X * g := by positivity
  have p3 : 0 ≤ d * g := by positivity
  have key0 : 0 ≤ X * b + a * (g + b) := by positivity
  have q1 : Q * g ≤ Q * 1 := by gcongr
  have q2 : X * g ≤ X * 1 := by gcongr
  have q3 : d * g ≤ d * 1 := by gcongr
  refine (p.mul c hA (abs_of_pos g0).le ?_).mono ?_
  · linarith
  · linarith

/-- The sums of the coefficients. -/
theorem fact_sums {k : ℕ} (hk : k ≤ 20) :
    ∑ n ∈ Icc 1 k, 1 / (Nat.factorial n : ℝ) ≤ 17183 / 10000 ∧ ∑ n ∈ Icc 1 k, (n : ℝ) * (1 / (Nat.factorial n : ℝ)) ≤ 27183 / 10000 := by
  have hsub : Icc 1 k ⊆ Icc 1 20 := Icc_subset_Icc_right hk
  constructor
  · refine (sum_le_sum_of_subset_of_nonneg hsub fun _ _ _ => by positivity).trans ?_
    simp only [sum_Icc_succ_top, Nat.le_add_left, Icc_self, sum_singleton]
    norm_num [Nat.factorial]
  · refine (sum_le_sum_of_subset_of_nonneg hsub fun _ _ _ => by positivity).trans ?_
    simp only [sum_Icc_succ_top, Nat.le_add_left, Icc_self, sum_singleton]
    norm_num [Nat.factorial]

namespace AR

/-- An entry of the matrix after `k` terms. -/
def entry (i o : F) : ℕ → F
  | 0 => i
  | k + 1 => entry i o k +ᶠ Scalar.pow o (lit ((k + 1 : ℕ) : ℚ)) *ᶠ (lit 1 /ᶠ lit ((Nat.factorial (k + 1) : ℕ) : ℚ))

theorem tail_succ (k : ℕ) (y : ℝ) : AR.tail (k + 1) y = AR.tail k y + y ^ (k + 1) / (Nat.factorial (k + 1) : ℝ) := by
  unfold AR.tail
  rw [sum_Icc_succ_top (by omega)]

theorem tail_size {k : ℕ} (hk : k ≤ 20) {y X : ℝ} (hy : |y| ≤ X) (hX : X ≤ 1) : |AR.tail k y| ≤ 17183 / 10000 * X := by
  have hX0 : 0 ≤ X := (abs_nonneg _).trans hy
  unfold AR.tail
  refine (abs_sum_le_sum_abs _ _).trans ?_
  calc ∑ n ∈ Icc 1 k, |y ^ n / (Nat.factorial n : ℝ)| ≤ ∑ n ∈ Icc 1 k, 1 / (Nat.factorial n : ℝ) * X := by
        refine sum_le_sum fun n hn => ?_
        have h1 : |y ^ n| ≤ X := by
          rw [abs_pow]
          exact (pow_le_of_le_one (abs_nonneg _) (hy.trans hX) (by have := (mem_Icc.mp hn).1; omega)).trans hy
        rw [abs_div, abs_of_pos (a := (Nat.factorial n : ℝ)) (by positivity), div_eq_mul_inv, one_div, mul_comm]
        gcongr
    _ ≤ _ := by
        rw [← sum_mul]
        gcongr
        exact (fact_sums hk).1

theorem entry_near [P : Powers F] [L : Literals F] {i o : F} {I J y X : ℝ} (hi : Apx i I 0) (hI : |I| ≤ J) (hJ : J ≤ 1)
    (ho : Apx o y (201 / 100 / 2 ^ 24 * X + 1 / 10 ^ 25)) (hy : |y| ≤ X) (hX : X ≤ 1) :
    ∀ k ≤ 20, Apx (entry i o k) (I + AR.tail k y)
      (X / 2 ^ 24 * (2015 / 1000 * ∑ n ∈ Icc 1 k, (n : ℝ) * (1 / (Nat.factorial n : ℝ)) +
        711 / 100 * ∑ n ∈ Icc 1 k, 1 / (Nat.factorial n : ℝ)) +
        k * ((100001 / 100000 * J + 173 / 100 * X) / 2 ^ 24 + 1 / 10 ^ 24)) := by
  have hη := rη_pos
  have hη' := rη_le
  have hX0 : 0 ≤ X := (abs_nonneg _).trans hy
  have hJ0 : 0 ≤ J := (abs_nonneg _).trans hI
  intro k
  induction k with
  | zero =>
    intro _
    refine hi.of_eq (d := 0) ?_ ?_
    · simp [AR.tail]
    · simp
  | succ k ih =>
    intro hk
    have h1 := ih (by omega)
    obtain ⟨-, h2⟩ := term_acc (n := k + 1) ho hy hX (by norm_num; linarith) (by omega) hk
    obtain ⟨s1, s2⟩ := fact_sums (k := k + 1) hk
    rw [sum_Icc_succ_top (by omega)] at s1 s2
    rw [sum_Icc_succ_top (by omega), sum_Icc_succ_top (by omega), tail_succ, ← add_assoc]
    have hB : |I + AR.tail k y + y ^ (k + 1) / (Nat.factorial (k + 1) : ℝ)| ≤ J + 17183 / 10000 * X := by
      rw [add_assoc, ← tail_succ]
      exact (abs_add_le _ _).trans (add_le_add hI (tail_size hk hy hX))
    have g0 : 0 < 1 / (Nat.factorial (k + 1) : ℝ) := by positivity
    have g1 : 1 / (Nat.factorial (k + 1) : ℝ) ≤ 1 := by
      rw [div_le_one (by positivity)]
      exact_mod_cast Nat.factorial_pos (k + 1)
    have g2 : ((k + 1 : ℕ) : ℝ) * (1 / (Nat.factorial (k + 1) : ℝ)) ≤ 1 := by
      rw [mul_one_div, div_le_one (by positivity)]
      exact_mod_cast Nat.self_le_factorial (k + 1)
    have g3 : 0 ≤ ((k + 1 : ℕ) : ℝ) * (1 / (Nat.factorial (k + 1) : ℝ)) := by positivity
    have A0 : 0 ≤ ∑ n ∈ Icc 1 k, (n : ℝ) * (1 / (Nat.factorial n : ℝ)) := sum_nonneg fun _ _ => by positivity
    have B0 : 0 ≤ ∑ n ∈ Icc 1 k, 1 / (Nat.factorial n : ℝ) := sum_nonneg fun _ _ => by positivity
    have hk' : (k : ℝ) ≤ 20 := by exact_mod_cast (show k ≤ 20 by omega)
    have hk0 : (0 : ℝ) ≤ k := by positivity
    have ek : ((k + 1 : ℕ) : ℝ) = k + 1 := by push_cast; rfl
    generalize hN : ((k + 1 : ℕ) : ℝ) * (1 / (Nat.factorial (k + 1) : ℝ)) = m at *
    obtain ⟨e2, he2⟩ : ∃ e2 : ℝ, e2 = X / 2 ^ 24 * (2013 / 1000 * m + 7101 / 1000 * (1 / (Nat.factorial (k + 1) : ℝ))) + 2 / 10 ^ 25 :=
      ⟨_, rfl⟩
    have h2' := h2.mono (e' := e2) (by
      rw [he2]
      have e : (1001 / 1000 * (((k + 1 : ℕ) : ℝ) * (201 / 100 / 2 ^ 24 * X + 1 / 10 ^ 25)) +
          71 / 10 / 2 ^ 24 * (X + (201 / 100 / 2 ^ 24 * X + 1 / 10 ^ 25))) * (1 / (Nat.factorial (k + 1) : ℝ)) =
          1001 / 1000 * (201 / 100 / 2 ^ 24 * X + 1 / 10 ^ 25) * m +
          71 / 10 / 2 ^ 24 * (X + (201 / 100 / 2 ^ 24 * X + 1 / 10 ^ 25)) * (1 / (Nat.factorial (k + 1) : ℝ)) := by
        rw [← hN]; ring
      rw [e]
      generalize 1 / (Nat.factorial (k + 1) : ℝ) = g at *
      have p1 : 0 ≤ X * m := by positivity
      have p2 : 0 ≤ X * g := by positivity
      linarith)
    generalize 1 / (Nat.factorial (k + 1) : ℝ) = g at *
    generalize ∑ n ∈ Icc 1 k, (n : ℝ) * (1 / (Nat.factorial n : ℝ)) = A at *
    generalize ∑ n ∈ Icc 1 k, 1 / (Nat.factorial n : ℝ) = B at *
    rw [ek]
    have q1 : X * m ≤ X * 1 := by gcongr
    have q2 : X * g ≤ X * 1 := by gcongr
    have q3 : X * (A + m) ≤ X * (27183 / 10000) := by gcongr
    have q4 : X * (B + g) ≤ X * (17183 / 10000) := by gcongr
    have q5 : k * J ≤ 20 * J := by gcongr
    have q6 : k * X ≤ 20 * X := by gcongr
    have q7 : 0 ≤ X * m := by positivity
    have q8 : 0 ≤ X * g := by positivity
    have q9 : 0 ≤ X * A := by positivity
    have q10 : 0 ≤ X * B := by positivity
    have q11 : 0 ≤ k * J := by positivity
    have q12 : 0 ≤ k * X := by positivity
    refine (h1.add h2' hB ?_).mono ?_
    · rw [he2]
      norm_num
      linarith
    · rw [he2]
      norm_num at hη' ⊢
      linarith

/-- An entry off the diagonal, and one on it. -/
theorem entry_off [P : Powers F] [L : Literals F] {o : F} {y X : ℝ}
    (ho : Apx o y (201 / 100 / 2 ^ 24 * X + 1 / 10 ^ 25)) (hy : |y| ≤ X) (hX : X ≤ 1) {k : ℕ} (hk : k ≤ 20) :
    Apx (entry (lit 0) o k) (AR.tail k y) ((177 / 10 + 173 / 100 * k) * (X / 2 ^ 24) + 1 / 10 ^ 22) := by
  have hX0 : 0 ≤ X := (abs_nonneg _).trans hy
  have h := entry_near (J := 0) Apx.zero (by simp) (by norm_num) ho hy hX k hk
  rw [zero_add] at h
  refine h.mono ?_
  obtain ⟨s1, s2⟩ := fact_sums hk
  have hk' : (k : ℝ) ≤ 20 := by exact_mod_cast hk
  generalize ∑ n ∈ Icc 1 k, (n : ℝ) * (1 / (Nat.factorial n : ℝ)) = A at *
  generalize ∑ n ∈ Icc 1 k, 1 / (Nat.factorial n : ℝ) = B at *
  have q3 : X * A ≤ X * (27183 / 10000) := by gcongr
  have q4 : X * B ≤ X * (17183 / 10000) := by gcongr
  norm_num
  linarith

theorem entry_diag [P : Powers F] [L : Literals F] {o : F} (ho : Apx o 0 (1 / 10 ^ 25)) {k : ℕ} (hk : k ≤ 20) :
    Apx (entry (lit 1) o k) 1 (100001 / 100000 * k / 2 ^ 24 + 1 / 10 ^ 22) := by
  have h := entry_near (J := 1) (X := 0) Apx.one (by simp) le_rfl (ho.mono (by norm_num)) (by simp) (by norm_num) k hk
  rw [AR.tail_zero, add_zero] at h
  refine h.mono ?_
  have hk' : (k : ℝ) ≤ 20 := by exact_mod_cast hk
  norm_num
  linarith

/-- The loop. -/
theorem taylor_runF {omega temp : Mat F} {S T : Nat → Nat → F} {order : Nat}
    (ho : MatIs omega 4 4 S) (ht : MatIs temp 4 4 T) (h : order ≤ 20)
    (hS : ∀ i j, i < 4 → j < 4 → Finite (S i j))
    (hp : ∀ (i j n : ℕ), i < 4 → j < 4 → 1 ≤ n → n ≤ 20 → Finite (Scalar.pow (S i j) (lit (n : ℚ))))
    (hm : ∀ (i j n : ℕ), i < 4 → j < 4 → 1 ≤ n → n ≤ 20 →
      Finite (Scalar.pow (S i j) (lit (n : ℚ)) *ᶠ (lit 1 /ᶠ lit ((Nat.factorial n : ℕ) : ℚ))))
    (he : ∀ i j n, i < 4 → j < 4 → n ≤ 20 → Finite (entry (T i j) (S i j) n)) :
    ∃ t', taylorLoop omega temp order = .ok t' ∧ MatIs t' 4 4 (fun i j => entry (T i j) (S i j) order) := by
  unfold taylorLoop
  obtain ⟨t', e, h'⟩ := foldRange_inv
    (fun n (temp : Mat F) => (do
      let s ← liftL omega.duplicate
      let s ← liftL (exec s (Mat.powerElements (lit n)))
      let factor ← (Utils.factorial F n : Res AhrsError Nat)
      let s ← liftL (exec s (Mat.mulByScalarInPlace (lit 1 /ᶠ lit factor)))
      liftL (exec temp (Mat.addInPlace s)) : Res AhrsError (Mat F)))
    (fun k temp => MatIs temp 4 4 (fun i j => entry (T i j) (S i j) (k - 1))) 1 (order + 1) (by omega)
    temp ht (fun k b h1 h2 hb => by
      obtain ⟨s, e1, hs⟩ := Mat.duplicate_ok ho hS
      obtain ⟨s1, e2, hs1⟩ := Mat.exec_of_stores (Mat.powerElements_stores (x := lit (k : ℚ)) hs) hs
        (fun i j hi hj => hp i j k hi hj h1 (by omega))
      obtain ⟨s2, e3, hs2⟩ := Mat.exec_of_stores (Mat.mulByScalarInPlace_stores (x := lit 1 /ᶠ lit ((Nat.factorial k : ℕ) : ℚ)) hs1) hs1
        (fun i j hi hj => hm i j k hi hj h1 (by omega))
      obtain ⟨m, rfl⟩ : ∃ m, k = m + 1 := ⟨k - 1, by omega⟩
      obtain ⟨t', e4, ht'⟩ := Mat.exec_of_stores (Mat.addInPlace_stores hb hs2) hb
        (fun i j hi hj => he i j (m + 1) hi hj (by omega))
      refine ⟨t', ?_, ht'⟩
      simp only [e1, e2, Res.mapErr_ok, Res.ok_bind, factorial_ok F (show m + 1 ≤ 20 by omega), e3, e4])
  exact ⟨t', e, h'⟩

end AR

/-- A row times a quaternion. -/
theorem row_near {a f : Nat → F} {m b e : Nat → ℝ} (ha : ∀ j, j < 4 → Apx (a j) (m j) (e j)) (hf : ∀ j, j < 4 → Finite (f j))
    (hb : ∀ j, j < 4 → |m j| ≤ b j) {S : ℝ} (hS : ∑ j ∈ range 4, (b j + e j) * |⟪f j⟫| ≤ S) (hS' : S ≤ 2 ^ 126) :
    (∀ k, k ≤ 4 → Finite (sumUp k fun j => a j *ᶠ f j)) ∧
      |⟪sumUp 4 fun j => a j *ᶠ f j⟫ - (m 0 * ⟪f 0⟫ + m 1 * ⟪f 1⟫ + m 2 * ⟪f 2⟫ + m 3 * ⟪f 3⟫)| ≤
        ∑ j ∈ range 4, e j * |⟪f j⟫| + 12 * (S / 16777216 + rη) := by
  have hsum : ∑ j ∈ range 4, |⟪a j⟫ * ⟪f j⟫| ≤ S := by
    refine (sum_le_sum fun j hj => ?_).trans hS
    rw [abs_mul]
    have := (ha j (mem_range.mp hj)).le (hb j (mem_range.mp hj))
    gcongr
  have key := dot_acc (n := 4) le_rfl (fun j hj => (ha j hj).1) hf (hsum.trans hS')
  refine ⟨fun k hk => (key k hk).1, ?_⟩
  have k4 := (key 4 le_rfl).2
  have hu : ru = 1 / 16777216 := by unfold ru; norm_num
  have e1 : |∑ j ∈ range 4, ⟪a j⟫ * ⟪f j⟫ - (m 0 * ⟪f 0⟫ + m 1 * ⟪f 1⟫ + m 2 * ⟪f 2⟫ + m 3 * ⟪f 3⟫)| ≤
      ∑ j ∈ range 4, e j * |⟪f j⟫| := by
    rw [show m 0 * ⟪f 0⟫ + m 1 * ⟪f 1⟫ + m 2 * ⟪f 2⟫ + m 3 * ⟪f 3⟫ = ∑ j ∈ range 4, m j * ⟪f j⟫ by
      simp only [sum_range_succ, sum_range_zero, zero_add], ← sum_sub_distrib]
    refine (abs_sum_le_sum_abs _ _).trans (sum_le_sum fun j hj => ?_)
    rw [← sub_mul, abs_mul]
    have := (ha j (mem_range.mp hj)).2
    gcongr
  refine (dist_trans k4 e1).trans ?_
  rw [hu]
  push_cast
  linarith

namespace AR
variable {s s' : AR F} {f : Nat → F} {a : ARInit F} {gx gy gz p q r : F}

/-- The exact matrix. -/
noncomputable def seriesCell (N : ℕ) (h : ℝ) (p q r : F) (i j : Nat) : ℝ :=
  if i = j then 1 else AR.tail N (⟪omegaEntry p q r i j⟫ * h)

/-- What it makes of a quaternion. -/
noncomputable def seriesStep (N : ℕ) (v A : Quaternion ℝ) : Quaternion ℝ :=
  mkQ (A.re + AR.tail N (-v.imI) * A.imI + AR.tail N (-v.imJ) * A.imJ + AR.tail N (-v.imK) * A.imK)
    (AR.tail N v.imI * A.re + A.imI + AR.tail N v.imK * A.imJ + AR.tail N (-v.imJ) * A.imK)
    (AR.tail N v.imJ * A.re + AR.tail N (-v.imK) * A.imI + A.imJ + AR.tail N v.imI * A.imK)
    (AR.tail N v.imK * A.re + AR.tail N v.imJ * A.imI + AR.tail N (-v.imI) * A.imJ + A.imK)

theorem seriesStep_eq (hp : Finite p) (hq : Finite q) (hr : Finite r) {N : ℕ} {h : ℝ} (x : Nat → ℝ) {M : Nat → ℝ}
    (hM : ∀ i, M i = seriesCell N h p q r i 0 * x 0 + seriesCell N h p q r i 1 * x 1 + seriesCell N h p q r i 2 * x 2 +
        seriesCell N h p q r i 3 * x 3) :
    mkQ (M 0) (M 1) (M 2) (M 3) = seriesStep N (h • mkQ 0 ⟪p⟫ ⟪q⟫ ⟪r⟫) (mkQ (x 0) (x 1) (x 2) (x 3)) := by
  have e1 := R.neg_val hp
  have e2 := R.neg_val hq
  have e3 := R.neg_val hr
  rw [hM, hM, hM, hM, mkQ_smul]
  unfold seriesStep seriesCell
  simp only [omegaEntry, seq4, e1, e2, e3, mkQ_re, mkQ_imI, mkQ_imJ, mkQ_imK, neg_mul, mul_comm h]
  norm_num

/-- The new components of the series before normalisation. -/
theorem series_acc [P : Powers F] [L : Literals F] [H : Halves F] {t : Mat F} {w att : Vec F} {ts n : F} {order : Nat}
    (hord : order ≤ 20)
    (ht : MatIs t 4 4 (fun i j => if i = j then lit 1 else lit 0)) (ha : VecIs att 4 f)
    (hf : ∀ i, i < 4 → Finite (f i)) (hp : Finite p) (hq : Finite q) (hr : Finite r) (hts : Finite ts)
    {ω : Quaternion ℝ} (hω : ω = mkQ 0 ⟪p⟫ ⟪q⟫ ⟪r⟫) (hN' : ‖ω‖ ≤ 2 ^ 63)
    (hb : ‖ω‖ * |⟪ts⟫| ≤ 1) (hb' : |⟪ts⟫| ≤ 2 ^ 100) (h2 : ‖qval f‖ ≤ 2) :
    ∃ x : F × F × F × F, advance t w att ts .TaylorSeries order p q r n (f 0) (f 1) (f 2) (f 3) = .ok x ∧
      (Finite x.1 ∧ Finite x.2.1 ∧ Finite x.2.2.1 ∧ Finite x.2.2.2) ∧
      ‖mkQ ⟪x.1⟫ ⟪x.2.1⟫ ⟪x.2.2.1⟫ ⟪x.2.2.2⟫ - seriesStep order ((⟪ts⟫ / 2) • ω) (qval f)‖ ≤
        (241 / 10 + 201 / 100 * order + (155 + 7 * order) * (‖ω‖ * |⟪ts⟫| / 2)) / 2 ^ 24 * ‖qval f‖ + 1 / 10 ^ 20 := by
  have hη := rη_pos
  have hη' := rη_le
  have hn2 : ‖ω‖ ^ 2 = ⟪p⟫ ^ 2 + ⟪q⟫ ^ 2 + ⟪r⟫ ^ 2 := by
    rw [hω, norm_mkQ, Real.sq_sqrt (by positivity)]
    ring
  have hN0 := norm_nonneg ω
  have xN : ∀ {x : ℝ}, x ^ 2 ≤ ‖ω‖ ^ 2 → |x| ≤ ‖ω‖ := fun hx => abs_le_of_sq_le_sq hx hN0
  have bp := xN (x := ⟪p⟫) (by rw [hn2]; nlinarith [sq_nonneg ⟪q⟫, sq_nonneg ⟪r⟫])
  have bq := xN (x := ⟪q⟫) (by rw [hn2]; nlinarith [sq_nonneg ⟪p⟫, sq_nonneg ⟪r⟫])
  have br := xN (x := ⟪r⟫) (by rw [hn2]; nlinarith [sq_nonneg ⟪p⟫, sq_nonneg ⟪q⟫])
  have fo : ∀ i j, i < 4 → j < 4 → Finite (omegaEntry p q r i j) ∧ |⟪omegaEntry p q r i j⟫| ≤ ‖ω‖ ∧
      (i = j → ⟪omegaEntry p q r i j⟫ = 0) := by
    have a0 := R.zero_finite
    have a1 := R.neg_finite hp
    have a2 := R.neg_finite hq
    have a3 := R.neg_finite hr
    intro i j hi hj
    revert i
    refine forall_lt_four.mpr ?_
    revert j
    refine forall_lt_four.mpr ?_
    simp [omegaEntry, seq4, R.neg_val hp, R.neg_val hq, R.neg_val hr, R.zero_val, a0, a1, a2, a3, hp, hq, hr, bp, bq, br]
  obtain ⟨m, e1, hm⟩ := omega_ok hp hq hr (R.neg_finite hp) (R.neg_finite hq) (R.neg_finite hr)
  set hh : F := lit (1 / 2) *ᶠ ts with hhd
  obtain ⟨X, hXd⟩ : ∃ X, X = ‖ω‖ * |⟪ts⟫| / 2 := ⟨_, rfl⟩
  have hX0 : 0 ≤ X := by rw [hXd]; positivity
  have hX1 : X ≤ 1 / 2 := by rw [hXd]; linarith
  have scaled : ∀ i j, i < 4 → j < 4 → Apx (omegaEntry p q r i j *ᶠ hh) (⟪omegaEntry p q r i j⟫ * (⟪ts⟫ / 2))
      (201 / 100 / 2 ^ 24 * X + 1 / 10 ^ 25) ∧ |⟪omegaEntry p q r i j⟫ * (⟪ts⟫ / 2)| ≤ X := fun i j hi hj => by
    obtain ⟨k1, k2, -⟩ := fo i j hi hj
    obtain ⟨-, d1, d2⟩ := euler_rate k1 hts hN' k2 (hb.trans (by norm_num)) hb'
    rw [← hXd] at d2
    refine ⟨⟨d1, d2⟩, ?_⟩
    rw [abs_mul, abs_div, abs_two, hXd, mul_div_assoc]
    gcongr
  have diag : ∀ i j, i < 4 → j < 4 → i = j → Apx (omegaEntry p q r i j *ᶠ hh) 0 (1 / 10 ^ 25) := fun i j hi hj hij => by
    obtain ⟨k1, -, k3⟩ := fo i j hi hj
    have hz : |⟪omegaEntry p q r i j⟫| ≤ 0 := by rw [k3 hij, abs_zero]
    obtain ⟨-, d1, d2⟩ := euler_rate k1 hts (by norm_num) hz (by norm_num) hb'
    rw [k3 hij] at d2
    simp only [zero_mul, zero_div, mul_zero, sub_zero, zero_add] at d2
    refine ⟨d1, ?_⟩
    rw [sub_zero]
    exact d2
  have X1 : X ≤ 1 := by linarith
  have cell : ∀ i j k, i < 4 → j < 4 → k ≤ 20 →
      Apx (entry (if i = j then lit 1 else lit 0) (omegaEntry p q r i j *ᶠ hh) k) (seriesCell k (⟪ts⟫ / 2) p q r i j)
        (if i = j then 100001 / 100000 * k / 2 ^ 24 + 1 / 10 ^ 22 else (177 / 10 + 173 / 100 * k) * (X / 2 ^ 24) + 1 / 10 ^ 22) := by
    intro i j k hi hj hk
    unfold seriesCell
    by_cases hij : i = j
    · rw [if_pos hij, if_pos hij, if_pos hij]
      exact entry_diag (diag i j hi hj hij) hk
    · rw [if_neg hij, if_neg hij, if_neg hij]
      exact entry_off (scaled i j hi hj).1 (scaled i j hi hj).2 X1 hk
  obtain ⟨m1, e2, hm1⟩ := Mat.exec_of_stores (Mat.mulByScalarInPlace_stores (x := hh) hm) hm fun i j hi hj => (scaled i j hi hj).1.1
  have small : 201 / 100 / 2 ^ 24 * X + 1 / 10 ^ 25 ≤ 1 / 10 ^ 6 := by norm_num; linarith
  obtain ⟨t1, e3, ht1⟩ := taylor_runF hm1 ht hord (fun i j hi hj => (scaled i j hi hj).1.1)
    (fun i j n hi hj h1 h2 => (term_acc (scaled i j hi hj).1 (scaled i j hi hj).2 X1 small h1 h2).1)
    (fun i j n hi hj h1 h2 => (term_acc (scaled i j hi hj).1 (scaled i j hi hj).2 X1 small h1 h2).2.1)
    (fun i j n hi hj h2 => (cell i j n hi hj h2).1)
  obtain ⟨v, e5, hv⟩ := Vec.convertToMatrix_ok ha hf
  have hord' : (order : ℝ) ≤ 20 := by exact_mod_cast hord
  have hord0 : (0 : ℝ) ≤ order := by positivity
  have hq0 := norm_nonneg (qval f)
  have nf : ‖qval f‖ = √(⟪f 0⟫ ^ 2 + ⟪f 1⟫ ^ 2 + ⟪f 2⟫ ^ 2 + ⟪f 3⟫ ^ 2) := norm_mkQ ..
  have c2 := cauchy4 1 1 1 1 ⟪f 0⟫ ⟪f 1⟫ ⟪f 2⟫ ⟪f 3⟫
  rw [← nf, show (1 : ℝ) ^ 2 + 1 ^ 2 + 1 ^ 2 + 1 ^ 2 = 2 ^ 2 by norm_num, Real.sqrt_sq (by norm_num)] at c2
  simp only [one_mul] at c2
  have ci : ∀ i, i < 4 → |⟪f i⟫| ≤ ‖qval f‖ := by
    intro i hi
    rw [nf]
    refine Real.abs_le_sqrt ?_
    revert i
    refine forall_lt_four.mpr ⟨?_, ?_, ?_, ?_⟩ <;>
      nlinarith [sq_nonneg ⟪f 0⟫, sq_nonneg ⟪f 1⟫, sq_nonneg ⟪f 2⟫, sq_nonneg ⟪f 3⟫]
  have hsplit : ∀ i, i < 4 → ∀ u v : ℝ, 0 ≤ u → 0 ≤ v →
      ∑ j ∈ range 4, (if i = j then u else v) * |⟪f j⟫| ≤ (u + 2 * v) * ‖qval f‖ := by
    intro i hi u v hu hv
    have h0 : ∀ j ∈ range 4, (if i = j then u else v) * |⟪f j⟫| ≤ (if i = j then u * |⟪f j⟫| else 0) + v * |⟪f j⟫| := by
      intro j _
      split
      · have := mul_nonneg hv (abs_nonneg ⟪f j⟫)
        linarith
      · linarith
    refine (sum_le_sum h0).trans ?_
    rw [sum_add_distrib, sum_ite_eq (range 4) i, if_pos (mem_range.mpr hi), ← mul_sum, add_mul]
    refine add_le_add (mul_le_mul_of_nonneg_left (ci i hi) hu) ?_
    rw [mul_comm 2 v, mul_assoc]
    refine mul_le_mul_of_nonneg_left ?_ hv
    simp only [sum_range_succ, sum_range_zero, zero_add]
    exact c2
  obtain ⟨ed, hed⟩ : ∃ ed : ℝ, ed = 100001 / 100000 * order / 2 ^ 24 + 1 / 10 ^ 22 := ⟨_, rfl⟩
  obtain ⟨eo, heo⟩ : ∃ eo : ℝ, eo = (177 / 10 + 173 / 100 * order) * (X / 2 ^ 24) + 1 / 10 ^ 22 := ⟨_, rfl⟩
  have ed0 : 0 ≤ ed := by rw [hed]; positivity
  have eo0 : 0 ≤ eo := by rw [heo]; positivity
  have row : ∀ i, i < 4 → _ := fun i hi =>
    row_near (a := fun j => entry (if i = j then lit 1 else lit 0) (omegaEntry p q r i j *ᶠ hh) order)
      (m := seriesCell order (⟪ts⟫ / 2) p q r i) (b := fun j => if i = j then 1 else 17183 / 10000 * X)
      (e := fun j => if i = j then ed else eo) (f := f) (S := (1 + ed + 2 * (17183 / 10000 * X + eo)) * ‖qval f‖)
      (fun j hj => by
        have := cell i j order hi hj hord
        rw [← hed, ← heo] at this
        exact this)
      hf (fun j hj => by
        unfold seriesCell
        by_cases hij : i = j
        · simp [hij]
        · rw [if_neg hij]
          simp only [hij, if_false]
          exact tail_size hord (scaled i j hi hj).2 X1)
      ((le_of_eq (sum_congr rfl fun j _ => by
        split <;> rfl)).trans (hsplit i hi (1 + ed) (17183 / 10000 * X + eo) (by positivity) (by positivity)))
      (by
        have : 1 + ed + 2 * (17183 / 10000 * X + eo) ≤ 5 := by
          rw [hed, heo]
          have : (order : ℝ) * X ≤ 20 * 1 := by gcongr
          norm_num
          linarith
        calc (1 + ed + 2 * (17183 / 10000 * X + eo)) * ‖qval f‖ ≤ 5 * 2 := by gcongr
          _ ≤ _ := by norm_num)
  obtain ⟨y, e6, hy⟩ := Mat.mulNew_ok ht1 hv fun i j l hi hj hl => (row i hi).1 (l + 1) (by omega)
  let Y : Nat → F := fun i => sumUp 4 fun j =>
    entry (if i = j then lit 1 else lit 0) (omegaEntry p q r i j *ᶠ hh) order *ᶠ f j
  refine ⟨(Y 0, Y 1, Y 2, Y 3), ?_, ⟨(row 0 (by omega)).1 4 le_rfl, (row 1 (by omega)).1 4 le_rfl, (row 2 (by omega)).1 4 le_rfl,
    (row 3 (by omega)).1 4 le_rfl⟩, ?_⟩
  · unfold advance matrixStep
    rw [e1]
    simp only [Res.mapErr_ok, Res.ok_bind, or_true, if_true, reduceCtorEq, if_false, ← hhd, e2, e3, e5, e6,
      hy.get 0 0 (by omega) (by omega),
      hy.get 1 0 (by omega) (by omega), hy.get 2 0 (by omega) (by omega), hy.get 3 0 (by omega) (by omega)]
    rfl
  · have hst : seriesStep order ((⟪ts⟫ / 2) • ω) (qval f) = seriesStep order ((⟪ts⟫ / 2) • mkQ 0 ⟪p⟫ ⟪q⟫ ⟪r⟫)
        (mkQ ⟪f 0⟫ ⟪f 1⟫ ⟪f 2⟫ ⟪f 3⟫) := by rw [hω]; rfl
    rw [hst, ← seriesStep_eq hp hq hr (fun i => ⟪f i⟫) (fun i => rfl)]
    refine (norm_le_two (e := (ed + 2 * eo) * ‖qval f‖ + 12 * ((1 + ed + 2 * (17183 / 10000 * X + eo)) * ‖qval f‖ / 16777216 + rη))
      ?_ ?_ ?_ ?_).trans ?_
    · exact (row 0 (by omega)).2.trans (add_le_add (hsplit 0 (by omega) ed eo ed0 eo0) le_rfl)
    · exact (row 1 (by omega)).2.trans (add_le_add (hsplit 1 (by omega) ed eo ed0 eo0) le_rfl)
    · exact (row 2 (by omega)).2.trans (add_le_add (hsplit 2 (by omega) ed eo ed0 eo0) le_rfl)
    · exact (row 3 (by omega)).2.trans (add_le_add (hsplit 3 (by omega) ed eo ed0 eo0) le_rfl)
    · have hK : 2 * (ed + 2 * eo) + 24 * (1 + ed + 2 * (17183 / 10000 * X + eo)) / 16777216 ≤
          (241 / 10 + 201 / 100 * order + (155 + 7 * order) * X) / 2 ^ 24 + 1 / 10 ^ 21 := by
        rw [hed, heo]
        have : 0 ≤ (order : ℝ) * X := by positivity
        norm_num
        linarith
      have hK' := mul_le_mul_of_nonneg_right hK hq0
      rw [← hXd]
      generalize (241 / 10 + 201 / 100 * (order : ℝ) + (155 + 7 * order) * X) / 2 ^ 24 = K at *
      norm_num at hK' hη' h2 ⊢
      linarith

/-- The series differs from its first term by its second one at most. -/
theorem tail_first {k : ℕ} (h1 : 1 ≤ k) (hk : k ≤ 20) {y : ℝ} (hy : |y| ≤ 1) : |AR.tail k y - y| ≤ 7183 / 10000 * y ^ 2 := by
  have e : AR.tail k y - y = ∑ n ∈ Icc 2 k, y ^ n / (Nat.factorial n : ℝ) := by
    unfold AR.tail
    have : Icc 1 k = insert 1 (Icc 2 k) := by
      ext n
      simp only [mem_Icc, mem_insert]
      omega
    rw [this, sum_insert (by simp)]
    simp
  have e2 : ∑ n ∈ Icc 1 k, 1 / (Nat.factorial n : ℝ) = 1 + ∑ n ∈ Icc 2 k, 1 / (Nat.factorial n : ℝ) := by
    have : Icc 1 k = insert 1 (Icc 2 k) := by
      ext n
      simp only [mem_Icc, mem_insert]
      omega
    rw [this, sum_insert (by simp)]
    simp
  rw [e]
  refine (abs_sum_le_sum_abs _ _).trans ?_
  calc ∑ n ∈ Icc 2 k, |y ^ n / (Nat.factorial n : ℝ)| ≤ ∑ n ∈ Icc 2 k, 1 / (Nat.factorial n : ℝ) * y ^ 2 := by
        refine sum_le_sum fun n hn => ?_
        have h2 := (mem_Icc.mp hn).1
        have h1 : |y ^ n| ≤ y ^ 2 := by
          rw [abs_pow, ← sq_abs y]
          exact pow_le_pow_of_le_one (abs_nonneg _) hy h2
        rw [abs_div, abs_of_pos (a := (Nat.factorial n : ℝ)) (by positivity), div_eq_mul_inv, one_div, mul_comm]
        gcongr
    _ ≤ _ := by
        rw [← sum_mul]
        gcongr
        have := (fact_sums hk).1
        linarith

theorem comp_le_norm (A : Quaternion ℝ) : |A.re| ≤ ‖A‖ ∧ |A.imI| ≤ ‖A‖ ∧ |A.imJ| ≤ ‖A‖ ∧ |A.imK| ≤ ‖A‖ := by
  rw [quat_norm, Quaternion.normSq_def']
  refine ⟨?_, ?_, ?_, ?_⟩ <;> refine Real.abs_le_sqrt ?_ <;>
    nlinarith [sq_nonneg A.re, sq_nonneg A.imI, sq_nonneg A.imJ, sq_nonneg A.imK]

/-- The exact step of the series is a first-order one up to `1.44 ‖v‖²`. -/
theorem series_first {N : ℕ} (h1 : 1 ≤ N) (hN : N ≤ 20) {v A : Quaternion ℝ} (hv : v.re = 0) (hv1 : ‖v‖ ≤ 1) :
    ‖seriesStep N v A - A * (1 + v)‖ ≤ 144 / 100 * ‖v‖ ^ 2 * ‖A‖ := by
  obtain ⟨-, b1, b2, b3⟩ := comp_le_norm v
  obtain ⟨a0, a1, a2, a3⟩ := comp_le_norm A
  have hn2 : v.imI ^ 2 + v.imJ ^ 2 + v.imK ^ 2 = ‖v‖ ^ 2 := by
    rw [quat_norm, Quaternion.normSq_def', hv, Real.sq_sqrt (by positivity)]
    ring
  have t : ∀ y : ℝ, |y| ≤ 1 → |AR.tail N y - y| ≤ 7183 / 10000 * y ^ 2 ∧ |AR.tail N (-y) + y| ≤ 7183 / 10000 * y ^ 2 := by
    intro y hy
    refine ⟨tail_first h1 hN hy, ?_⟩
    have := tail_first h1 hN (y := -y) (by rw [abs_neg]; exact hy)
    rw [sub_neg_eq_add, neg_sq] at this
    exact this
  obtain ⟨p1, p2⟩ := t v.imI (b1.trans hv1)
  obtain ⟨q1, q2⟩ := t v.imJ (b2.trans hv1)
  obtain ⟨r1, r2⟩ := t v.imK (b3.trans hv1)
  have three : ∀ {x y z X Y Z : ℝ}, |x| ≤ 7183 / 10000 * v.imI ^ 2 → |y| ≤ 7183 / 10000 * v.imJ ^ 2 →
      |z| ≤ 7183 / 10000 * v.imK ^ 2 → |X| ≤ ‖A‖ → |Y| ≤ ‖A‖ → |Z| ≤ ‖A‖ →
      |x * X + y * Y + z * Z| ≤ 72 / 100 * ‖v‖ ^ 2 * ‖A‖ := by
    intro x y z X Y Z hx hy hz hX hY hZ
    refine (abs_add_three _ _ _).trans ?_
    rw [abs_mul, abs_mul, abs_mul]
    have m1 : |x| * |X| ≤ 7183 / 10000 * v.imI ^ 2 * ‖A‖ := by gcongr
    have m2 : |y| * |Y| ≤ 7183 / 10000 * v.imJ ^ 2 * ‖A‖ := by gcongr
    have m3 : |z| * |Z| ≤ 7183 / 10000 * v.imK ^ 2 * ‖A‖ := by gcongr
    have e : 7183 / 10000 * v.imI ^ 2 * ‖A‖ + 7183 / 10000 * v.imJ ^ 2 * ‖A‖ + 7183 / 10000 * v.imK ^ 2 * ‖A‖ =
        7183 / 10000 * (‖v‖ ^ 2 * ‖A‖) := by rw [← hn2]; ring
    have : 0 ≤ ‖v‖ ^ 2 * ‖A‖ := by positivity
    linarith
  refine (norm_le_two (e := 72 / 100 * ‖v‖ ^ 2 * ‖A‖) ?_ ?_ ?_ ?_).trans (by linarith)
  · refine le_trans (le_of_eq (congrArg _root_.abs ?_)) (three p2 q2 r2 a1 a2 a3)
    simp only [seriesStep, Quaternion.re_sub, Quaternion.re_mul, Quaternion.re_add, Quaternion.imI_add, Quaternion.imJ_add,
      Quaternion.imK_add, Quaternion.re_one, Quaternion.imI_one, Quaternion.imJ_one, Quaternion.imK_one, mkQ_re, hv]
    ring
  · refine le_trans (le_of_eq (congrArg _root_.abs ?_)) (three p1 q2 r1 a0 a3 a2)
    simp only [seriesStep, Quaternion.imI_sub, Quaternion.imI_mul, Quaternion.re_add, Quaternion.imI_add, Quaternion.imJ_add,
      Quaternion.imK_add, Quaternion.re_one, Quaternion.imI_one, Quaternion.imJ_one, Quaternion.imK_one, mkQ_imI, hv]
    ring
  · refine le_trans (le_of_eq (congrArg _root_.abs ?_)) (three p1 q1 r2 a3 a0 a1)
    simp only [seriesStep, Quaternion.imJ_sub, Quaternion.imJ_mul, Quaternion.re_add, Quaternion.imI_add, Quaternion.imJ_add,
      Quaternion.imK_add, Quaternion.re_one, Quaternion.imI_one, Quaternion.imJ_one, Quaternion.imK_one, mkQ_imJ, hv]
    ring
  · refine le_trans (le_of_eq (congrArg _root_.abs ?_)) (three p2 q1 r1 a2 a1 a0)
    simp only [seriesStep, Quaternion.imK_sub, Quaternion.imK_mul, Quaternion.re_add, Quaternion.imI_add, Quaternion.imJ_add,
      Quaternion.imK_add, Quaternion.re_one, Quaternion.imI_one, Quaternion.imJ_one, Quaternion.imK_one, mkQ_imK, hv]
    ring

/-- The first order is exactly one step. -/
theorem series_one (v A : Quaternion ℝ) (hv : v.re = 0) : seriesStep 1 v A = A * (1 + v) := by
  have t : ∀ y : ℝ, AR.tail 1 y = y := fun y => by simp [AR.tail]
  ext <;> simp [seriesStep, t, Quaternion.re_mul, Quaternion.imI_mul, Quaternion.imJ_mul, Quaternion.imK_mul, Quaternion.re_one,
    Quaternion.imI_one, Quaternion.imJ_one, Quaternion.imK_one, hv] <;> ring

/-- What the Taylor series does in binary32. -/
theorem Ready.taylor [P : Powers F] [L : Literals F] [H : Halves F] (h : Ready s f) (hm : s.method = .TaylorSeries)
    (ho1 : 1 ≤ s.order) (ho : s.order ≤ 20) (hts : Finite s.ts)
    {c : GyrometerConfig F} (hc : Gyrometer.getConfig s.gyr = .ok c) (hr : Gyrometer.Reads c gx gy gz p q r)
    (h1 : 1 / 2 ≤ ‖qval f‖) (h2 : ‖qval f‖ ≤ 2) (hN : ‖mkQ 0 ⟪p⟫ ⟪q⟫ ⟪r⟫‖ ≤ 2 ^ 63)
    (hb : ‖mkQ 0 ⟪p⟫ ⟪q⟫ ⟪r⟫‖ * |⟪s.ts⟫| ≤ 1) (hb' : |⟪s.ts⟫| ≤ 2 ^ 100) :
    (AR.update gx gy gz s).1 = .ok () ∧
      ((AR.update gx gy gz s).2.attitude = s.attitude ∧ ‖mkQ 0 ⟪p⟫ ⟪q⟫ ⟪r⟫‖ ≤ 10001 / 10 ^ 8 ∨
       9999 / 10 ^ 8 ≤ ‖mkQ 0 ⟪p⟫ ⟪q⟫ ⟪r⟫‖ ∧ ∃ f', Ready (AR.update gx gy gz s).2 f' ∧ NearUnit f' ∧
        ‖qval f' - ‖seriesStep s.order ((⟪s.ts⟫ / 2) • mkQ 0 ⟪p⟫ ⟪q⟫ ⟪r⟫) (qval f)‖⁻¹ •
          seriesStep s.order ((⟪s.ts⟫ / 2) • mkQ 0 ⟪p⟫ ⟪q⟫ ⟪r⟫) (qval f)‖ ≤
          66 / 10 ^ 7 + 38 / 10 ^ 8 * s.order +
            (29 / 10 ^ 6 + 14 / 10 ^ 7 * s.order) * (‖mkQ 0 ⟪p⟫ ⟪q⟫ ⟪r⟫‖ * |⟪s.ts⟫| / 2)) := by
  obtain ⟨g, n, t, v, w, g1, g2, g3, hp, hq, hr, hw, hn, ht, hv, e⟩ := h.run hc hr
  obtain ⟨n', hn', fn, hcase⟩ := C77_norm hw (forall_lt_three.mpr ⟨hp, hq, hr⟩) (by rw [norm_rate]; exact hN)
  obtain rfl := Except.ok.inj (hn.symm.trans hn')
  rw [norm_rate] at hcase
  have heps := eps_bounds (F := F)
  rw [e]
  by_cases hmov : (n >ᶠ EPSILON) = true
  · have hgt := (R.lt_val eps_fin fn).mp hmov
    rw [if_pos hmov]
    rcases hcase with ⟨h0, -⟩ | ⟨hlo, hacc⟩
    · rw [h0] at hgt
      norm_num at heps
      linarith [heps.1]
    · generalize hωd : mkQ 0 ⟪p⟫ ⟪q⟫ ⟪r⟫ = ω at *
      obtain ⟨x, ex, hx, hxe⟩ := series_acc (t := t) (w := v) (n := n) ho ht h.attitude h.finite hp hq hr hts
        hωd.symm hN hb hb' h2
      rw [← hm] at ex
      rw [Op.liftM_bind_run, ex]
      have hR := h.gyr_set g1 g2
      have hre : ω.re = 0 := by rw [← hωd, mkQ_re]
      set X := seriesStep s.order ((⟪s.ts⟫ / 2) • ω) (qval f) with hX
      have hv' : ‖(⟪s.ts⟫ / 2) • ω‖ = ‖ω‖ * |⟪s.ts⟫| / 2 := by
        rw [norm_smul, Real.norm_eq_abs, abs_div, abs_two]
        ring
      have hq0 : 0 < ‖qval f‖ := by linarith
      have hstep := one_le_norm_step hre (⟪s.ts⟫ / 2)
      have hup : ‖(1 + (⟪s.ts⟫ / 2) • ω : Quaternion ℝ)‖ ≤ 1 + ‖ω‖ * |⟪s.ts⟫| / 2 := by
        refine (norm_add_le _ _).trans ?_
        rw [hv', norm_one]
      have hfirst := series_first (A := qval f) ho1 ho (v := (⟪s.ts⟫ / 2) • ω) (by simp [hre]) (by rw [hv']; linarith)
      rw [hv', ← hX] at hfirst
      have hK0 : 0 ≤ ‖ω‖ * |⟪s.ts⟫| := by positivity
      generalize ‖ω‖ * |⟪s.ts⟫| = K at *
      have hXY := abs_le.mp (abs_norm_sub_norm_le X (qval f * (1 + (⟪s.ts⟫ / 2) • ω)))
      rw [norm_mul] at hXY
      have hXlo : 64 / 100 * ‖qval f‖ ≤ ‖X‖ := by
        have m1 : ‖qval f‖ * 1 ≤ ‖qval f‖ * ‖(1 + (⟪s.ts⟫ / 2) • ω : Quaternion ℝ)‖ := by gcongr
        have m2 : 144 / 100 * (K / 2) ^ 2 * ‖qval f‖ ≤ 36 / 100 * ‖qval f‖ := by
          gcongr
          nlinarith
        linarith [hXY.1]
      have hXhi : ‖X‖ ≤ 4 := by
        have m1 : ‖qval f‖ * ‖(1 + (⟪s.ts⟫ / 2) • ω : Quaternion ℝ)‖ ≤ 2 * (3 / 2) := by
          refine mul_le_mul h2 (by linarith) (norm_nonneg _) (by norm_num)
        have m2 : 144 / 100 * (K / 2) ^ 2 * ‖qval f‖ ≤ 36 / 100 * 2 := by
          refine mul_le_mul ?_ h2 (norm_nonneg _) (by norm_num)
          nlinarith
        linarith [hXY.2]
      generalize hxd : mkQ ⟪x.1⟫ ⟪x.2.1⟫ ⟪x.2.2.1⟫ ⟪x.2.2.2⟫ = x' at *
      obtain ⟨e0, he0⟩ : ∃ e0 : ℝ, e0 = (241 / 10 + 201 / 100 * s.order + (155 + 7 * s.order) * (K / 2)) / 2 ^ 24 := ⟨_, rfl⟩
      rw [← he0] at hxe
      have ho' : (s.order : ℝ) ≤ 20 := by exact_mod_cast ho
      have ho0 : (0 : ℝ) ≤ s.order := by positivity
      have hoK : (s.order : ℝ) * K ≤ 20 * 1 := by gcongr
      have hoK0 : 0 ≤ (s.order : ℝ) * K := by positivity
      have e0s : e0 ≤ 1 / 10 ^ 4 := by
        rw [he0]
        norm_num
        linarith
      have e00 : 0 ≤ e0 := by rw [he0]; positivity
      have rel : ‖x' - X‖ ≤ (e0 / (64 / 100) + 1 / 10 ^ 19) * ‖X‖ := by
        refine hxe.trans ?_
        have m1 : e0 * ‖qval f‖ ≤ e0 * (‖X‖ / (64 / 100)) := by
          gcongr
          linarith
        norm_num at m1 ⊢
        linarith
      have rel' : ‖x' - X‖ ≤ 1 / 1000 * ‖X‖ := rel.trans (by
        gcongr
        norm_num at e0s ⊢
        linarith)
      have dn := abs_le.mp ((abs_norm_sub_norm_le x' X).trans rel')
      obtain ⟨f', k1, k2, k3, k4⟩ := hR.store_unit x hx (by
        rw [hxd]
        norm_num at dn ⊢
        linarith [dn.1]) (by
        rw [hxd]
        norm_num at dn hXhi ⊢
        linarith [dn.2])
      rw [hxd] at k4
      refine ⟨k1, .inr ⟨hlo, f', k2, k3, ?_⟩⟩
      have nd := normalised_dist (x := x') (y := X) (norm_pos_iff.mp (by norm_num at dn; linarith [dn.1]))
        (norm_pos_iff.mp (by linarith))
      have nd2 : 2 * ‖x' - X‖ / ‖X‖ ≤ 2 * (e0 / (64 / 100) + 1 / 10 ^ 19) := by
        rw [div_le_iff₀ (by linarith)]
        linarith
      have := norm_sub_le_norm_sub_add_norm_sub (qval f') (‖x'‖⁻¹ • x') (‖X‖⁻¹ • X)
      rw [he0] at nd2
      norm_num at this nd nd2 k4 ⊢
      linarith
  · rw [if_neg hmov]
    refine ⟨rfl, .inl ⟨rfl, ?_⟩⟩
    have hle : ⟪n⟫ ≤ ⟪(EPSILON : F)⟫ := not_lt.mp fun hc => hmov ((R.lt_val eps_fin fn).mpr hc)
    rcases hcase with ⟨-, h0⟩ | ⟨-, hacc⟩
    · exact h0
    · have := (abs_le.mp hacc).1
      norm_num at this heps ⊢
      linarith [heps.2]

/-- The step of the series as a matrix. -/
theorem series_matrix {N : ℕ} {h x y z : ℝ} {A : Quaternion ℝ} {W T : Matrix (Fin 4) (Fin 4) ℝ} {b : Fin 4 → ℝ}
    (hW : W = !![0, -x, -y, -z; x, 0, z, -y; y, -z, 0, x; z, y, -x, 0])
    (hT : ∀ k l, T k l = (if k = l then 1 else 0) + ∑ n ∈ Icc 1 N, (W k l * h) ^ n / Nat.factorial n)
    (hb : b = T.mulVec ![A.re, A.imI, A.imJ, A.imK]) :
    mkQ (b 0) (b 1) (b 2) (b 3) = seriesStep N (h • mkQ 0 x y z) A := by
  have t0 : AR.tail N 0 = 0 := by
    unfold AR.tail
    refine sum_eq_zero fun n hn => ?_
    rw [zero_pow (by have := (mem_Icc.mp hn).1; omega), zero_div]
  have hT' : ∀ k l, T k l = (if k = l then 1 else 0) + AR.tail N (W k l * h) := hT
  subst hb hW
  unfold seriesStep
  rw [mkQ_smul]
  simp only [Matrix.mulVec, dotProduct, Fin.sum_univ_four, hT', mkQ_imI, mkQ_imJ, mkQ_imK]
  simp [t0, mul_comm h]

end AR

open AR
variable {s s' : AR F} {a : ARInit F} {gx gy gz p q r : F}

/-- C114: one update with the Taylor series of order 1 to 20 in binary32, from an attitude `A` of norm between 1/2 and
2, with a rate above 1.0001e-4 and a turn of at most 1 rad: it succeeds, and the new attitude is a unit quaternion up to
one in a million that is within `6.6e-6 + 3.8e-7 N + (2.9e-5 + 1.4e-6 N) ‖ω‖ |τ| / 2` of the exact one: the normalised
product of `A` with the series taken entry by entry. -/
theorem C114_step [Powers F] [Literals F] [Halves F] (hs : Started a s) (hm : a.method = .TaylorSeries)
    (ho1 : 1 ≤ a.order) (ho : a.order ≤ 20) (hts : Finite a.ts)
    {A : Quaternion ℝ} (hA : ShowsF s fun f => qval f = A) (h1 : 1 / 2 ≤ ‖A‖) (h2 : ‖A‖ ≤ 2)
    (hr : Gyrometer.Reads a.config gx gy gz p q r) {ω Y : Quaternion ℝ} (hω : ω = mkQ 0 ⟪p⟫ ⟪q⟫ ⟪r⟫)
    (hlo : 10001 / 10 ^ 8 < ‖ω‖) (hhi : ‖ω‖ ≤ 2 ^ 63) (hb : ‖ω‖ * |⟪a.ts⟫| ≤ 1) (hb' : |⟪a.ts⟫| ≤ 2 ^ 100)
    {W T : Matrix (Fin 4) (Fin 4) ℝ} {b : Fin 4 → ℝ}
    (hW : W = !![0, -⟪p⟫, -⟪q⟫, -⟪r⟫; ⟪p⟫, 0, ⟪r⟫, -⟪q⟫; ⟪q⟫, -⟪r⟫, 0, ⟪p⟫; ⟪r⟫, ⟪q⟫, -⟪p⟫, 0])
    (hT : ∀ k l, T k l = (if k = l then 1 else 0) +
      ∑ n ∈ Icc 1 a.order, (W k l * (⟪a.ts⟫ / 2)) ^ n / Nat.factorial n)
    (hb2 : b = T.mulVec ![A.re, A.imI, A.imJ, A.imK]) (hY : Y = mkQ (b 0) (b 1) (b 2) (b 3)) :
    ∃ s', update gx gy gz s = (.ok (), s') ∧ ShowsF s' fun f => NearUnit f ∧ ‖qval f - ‖Y‖⁻¹ • Y‖ ≤
      66 / 10 ^ 7 + 38 / 10 ^ 8 * a.order + (29 / 10 ^ 6 + 14 / 10 ^ 7 * a.order) * (‖ω‖ * |⟪a.ts⟫| / 2) := by
  obtain ⟨⟨f, hf⟩, e1, e2, e3, e4⟩ := hs.ready
  have hA' : qval f = A := hA.ready hf fun f g h hf => by
    rw [← hf]
    unfold qval
    rw [h 0 (by omega), h 1 (by omega), h 2 (by omega), h 3 (by omega)]
  have hY' := hY.trans (series_matrix (A := A) hW hT hb2)
  subst hA' hω
  rw [hY']
  rw [← e1] at hb hb' hts ⊢
  rw [← e3] at ho1 ho ⊢
  obtain ⟨k1, k2⟩ := hf.taylor (e2.trans hm) ho1 ho hts e4 hr h1 h2 hhi hb hb'
  refine ⟨(update gx gy gz s).2, Prod.ext k1 rfl, ?_⟩
  rcases k2 with ⟨-, k2⟩ | ⟨-, f', k2, k3, k4⟩
  · exact absurd hlo (not_lt.mpr k2)
  · exact k2.showsF ⟨k3, k4⟩

/-- How far one exact step of the series is from the rotation. -/
theorem AR.series_turn {N : ℕ} (h1 : 1 ≤ N) (hN : N ≤ 20) {v A : Quaternion ℝ} (hv : v.re = 0) (hv1 : ‖v‖ ≤ 1 / 2)
    (hA : |‖A‖ - 1| ≤ 1 / 10 ^ 6) :
    ‖‖seriesStep N v A‖⁻¹ • seriesStep N v A - A * NormedSpace.exp v‖ ≤
      1 / 10 ^ 6 + (if N = 1 then 0 else 288 / 100 * ‖v‖ ^ 2) + 1000001 / 10 ^ 6 * (‖v‖ ^ 3 / 3) := by
  have hu := abs_le.mp hA
  have hA0 : 0 < ‖A‖ := by norm_num at hu; linarith [hu.1]
  have hv1' := one_le_norm hv
  have hE : A * (1 + v) ≠ 0 := mul_ne_zero (norm_pos_iff.mp hA0) (one_add_ne hv)
  have hEn : ‖A‖ ≤ ‖A * (1 + v)‖ := by
    rw [norm_mul]
    nlinarith
  have e5 : ‖A * (1 + v)‖⁻¹ • (A * (1 + v)) = (‖A‖⁻¹ • A) * eulerUnit v := by
    unfold eulerUnit
    rw [norm_mul, mul_inv, smul_mul_smul_comm]
  have d1 : ‖‖seriesStep N v A‖⁻¹ • seriesStep N v A - (‖A‖⁻¹ • A) * eulerUnit v‖ ≤ if N = 1 then 0 else 288 / 100 * ‖v‖ ^ 2 := by
    rw [← e5]
    by_cases h : N = 1
    · subst h
      rw [series_one v A hv]
      simp
    · rw [if_neg h]
      have hf := series_first (A := A) h1 hN hv (by linarith)
      have hS : seriesStep N v A ≠ 0 := by
        intro h0
        rw [h0, zero_sub, norm_neg] at hf
        have : ‖v‖ ^ 2 ≤ (1 / 2) ^ 2 := pow_le_pow_left₀ (norm_nonneg _) hv1 2
        have m2 : 144 / 100 * ‖v‖ ^ 2 * ‖A‖ ≤ 36 / 100 * ‖A‖ := by
          gcongr
          linarith
        linarith
      refine (normalised_dist hS hE).trans ?_
      rw [div_le_iff₀ (by linarith)]
      have : 144 / 100 * ‖v‖ ^ 2 * ‖A‖ ≤ 144 / 100 * ‖v‖ ^ 2 * ‖A * (1 + v)‖ := by gcongr
      linarith
  have d2 : ‖(‖A‖⁻¹ • A) * eulerUnit v - A * eulerUnit v‖ ≤ 1 / 10 ^ 6 := by
    rw [← sub_mul, norm_mul, norm_eulerUnit hv, mul_one,
      show ‖A‖⁻¹ • A - A = (‖A‖⁻¹ - 1) • A by rw [sub_smul, one_smul], norm_smul, Real.norm_eq_abs]
    have : |‖A‖⁻¹ - 1| * ‖A‖ = |1 - ‖A‖| := by
      rw [show ‖A‖⁻¹ - 1 = (1 - ‖A‖) / ‖A‖ by field_simp, abs_div, abs_of_pos hA0]
      field_simp
    rw [this, abs_sub_comm]
    exact hA
  have d3 : ‖A * eulerUnit v - A * NormedSpace.exp v‖ ≤ 1000001 / 10 ^ 6 * (‖v‖ ^ 3 / 3) := by
    rw [← mul_sub, norm_mul]
    have := eulerUnit_exp hv
    have h' : ‖A‖ ≤ 1000001 / 10 ^ 6 := by
      norm_num at hu ⊢
      linarith [hu.2]
    gcongr
  have t1 := norm_sub_le_norm_sub_add_norm_sub (‖seriesStep N v A‖⁻¹ • seriesStep N v A) ((‖A‖⁻¹ • A) * eulerUnit v)
    (A * NormedSpace.exp v)
  have t2 := norm_sub_le_norm_sub_add_norm_sub ((‖A‖⁻¹ • A) * eulerUnit v) (A * eulerUnit v) (A * NormedSpace.exp v)
  linarith

theorem AR.series_budget {w h δ N x y z g : ℝ} (hn0 : 0 ≤ w) (hw1 : w ≤ h + δ) (hh0 : 0 ≤ h) (hh : h ≤ 49 / 100) (hδ0 : 0 ≤ δ)
    (hδ1 : δ ≤ 1 / 1000) (ho' : N ≤ 20) (ho0 : 0 ≤ N) (c : Bool)
    (k4 : x ≤ 66 / 10 ^ 7 + 38 / 10 ^ 8 * N + (29 / 10 ^ 6 + 14 / 10 ^ 7 * N) * w)
    (turn : y ≤ 1 / 10 ^ 6 + (if c = true then 0 else 288 / 100 * w ^ 2) + 1000001 / 10 ^ 6 * (w ^ 3 / 3))
    (t : z ≤ x + y) (hg : g ≤ 1001 / 1000 * δ) :
    z + g ≤ 8 / 10 ^ 6 + 4 / 10 ^ 7 * N + 6 / 10 ^ 5 * h + (if c = true then 0 else 288 / 100 * h ^ 2) + 34 / 100 * h ^ 3 +
      43 / 10 * δ := by
  have p2 : w ^ 2 ≤ h ^ 2 + δ := by
    have h2 : w ^ 2 ≤ (h + δ) ^ 2 := pow_le_pow_left₀ hn0 hw1 2
    have e : (h + δ) ^ 2 = h ^ 2 + δ * (2 * h + δ) := by ring
    have : δ * (2 * h + δ) ≤ δ * 1 := mul_le_mul_of_nonneg_left (by linarith) hδ0
    linarith
  have p3 : w ^ 3 ≤ h ^ 3 + δ := by
    have h3 : w ^ 3 ≤ (h + δ) ^ 3 := pow_le_pow_left₀ hn0 hw1 3
    have e : (h + δ) ^ 3 = h ^ 3 + δ * (3 * h ^ 2 + 3 * h * δ + δ ^ 2) := by ring
    have q1 : h ^ 2 ≤ (49 / 100) ^ 2 := pow_le_pow_left₀ hh0 hh 2
    have q2 : h * δ ≤ 49 / 100 * (1 / 1000) := mul_le_mul hh hδ1 hδ0 (by norm_num)
    have q3 : δ ^ 2 ≤ (1 / 1000) ^ 2 := pow_le_pow_left₀ hδ0 hδ1 2
    have : 3 * h ^ 2 + 3 * h * δ + δ ^ 2 ≤ 1 := by linarith
    have : δ * (3 * h ^ 2 + 3 * h * δ + δ ^ 2) ≤ δ * 1 := by gcongr
    linarith
  have pif : (if c = true then 0 else 288 / 100 * w ^ 2) ≤ (if c = true then 0 else 288 / 100 * h ^ 2) + 288 / 100 * δ := by
    split <;> linarith
  have pr : (29 / 10 ^ 6 + 14 / 10 ^ 7 * N) * w ≤ 57 / 10 ^ 6 * (h + δ) := by
    refine mul_le_mul ?_ hw1 hn0 (by norm_num)
    norm_num
    linarith
  have : 0 ≤ h ^ 3 := by positivity
  generalize (if c = true then (0 : ℝ) else 288 / 100 * w ^ 2) = i1 at *
  generalize (if c = true then (0 : ℝ) else 288 / 100 * h ^ 2) = i2 at *
  norm_num at k4 turn pr ⊢
  linarith

/-- One sample. -/
theorem AR.taylor_track_step [Powers F] [Literals F] [Halves F] (hs : Started a s) (hm : a.method = .TaylorSeries)
    (ho1 : 1 ≤ a.order) (ho : a.order ≤ 20) (hts : Finite a.ts) {B C h : ℝ}
    (hC : a.config.UpTo C) (h1 : B ≤ 2 ^ 126) (h2 : C ≤ 2 ^ 98) (h3 : C * B ≤ 2 ^ 60) (h4 : C * B * |⟪a.ts⟫| ≤ 100)
    (h5 : |⟪a.ts⟫| ≤ 10 ^ 6) (hh : h ≤ 49 / 100)
    {A : Quaternion ℝ} {E : ℝ}
    (hA : ShowsF s fun f => NearUnit f ∧ ‖qval f - A‖ ≤ E) {x : F × F × F} (hx : a.config.Within B x)
    (hxh : ‖(⟪a.ts⟫ / 2) • a.config.rateOf x‖ ≤ h) :
    ∃ s', update x.1 x.2.1 x.2.2 s = (.ok (), s') ∧ Started a s' ∧ ShowsF s' fun f => NearUnit f ∧
      ‖qval f - A * NormedSpace.exp ((⟪a.ts⟫ / 2) • a.config.rateOf x)‖ ≤
        E + (8 / 10 ^ 6 + 4 / 10 ^ 7 * a.order + 6 / 10 ^ 5 * h + 51 / 10 ^ 6 * |⟪a.ts⟫| + 9 / 10 ^ 6 * (C * B * |⟪a.ts⟫|) +
          (if a.order = 1 then 0 else 288 / 100 * h ^ 2) + 34 / 100 * h ^ 3) := by
  obtain ⟨⟨f, hf⟩, e1, e2, e3, e4⟩ := hs.ready
  obtain ⟨hA1, hA2⟩ : NearUnit f ∧ ‖qval f - A‖ ≤ E := hA.ready hf fun f g h hf => by
    have : qval g = qval f := by
      unfold qval
      rw [h 0 (by omega), h 1 (by omega), h 2 (by omega), h 3 (by omega)]
    unfold NearUnit at hf ⊢
    rw [this]
    exact hf
  obtain ⟨p, q, r, hr, d1, d2⟩ := GyrometerConfig.reads hf.gyr e4 hx hC h1 h2 h3
  generalize hωd : a.config.rateOf x = ω at *
  have hω0 : ω.re = 0 := by rw [← hωd]; rfl
  have hu := abs_le.mp hA1
  have hCB : 0 ≤ C * B := by
    have := norm_nonneg ω
    nlinarith
  rw [← e1] at h4 h5 hts hxh ⊢
  rw [← e3] at ho1 ho ⊢
  generalize hψd : mkQ 0 ⟪p⟫ ⟪q⟫ ⟪r⟫ = ψ at *
  have hψ0 : ψ.re = 0 := by rw [← hψd]; rfl
  have dψ : ‖ψ‖ ≤ 526 / 100 * (C * B) + 1 / 10 ^ 14 := by
    have := norm_sub_norm_le ψ ω
    norm_num at d1 ⊢
    linarith
  generalize hτ : |⟪s.ts⟫| = T at *
  have hT0 : 0 ≤ T := by rw [← hτ]; positivity
  have hv0 : ((⟪s.ts⟫ / 2) • ω).re = 0 := by simp [hω0]
  have hw0 : ((⟪s.ts⟫ / 2) • ψ).re = 0 := by simp [hψ0]
  have hdist : ‖(⟪s.ts⟫ / 2) • ψ - (⟪s.ts⟫ / 2) • ω‖ ≤ T / 2 * (4 / 10 ^ 6 * (C * B) + 1 / 10 ^ 14) := by
    rw [← smul_sub, norm_smul, Real.norm_eq_abs, abs_div, hτ]
    norm_num only [abs_two]
    norm_num at d1 ⊢
    gcongr
  have hsize : ‖(⟪s.ts⟫ / 2) • ψ‖ = T / 2 * ‖ψ‖ := by rw [norm_smul, Real.norm_eq_abs, abs_div, hτ, abs_two]
  obtain ⟨δ, hδ⟩ : ∃ δ : ℝ, δ = T / 2 * (4 / 10 ^ 6 * (C * B) + 1 / 10 ^ 14) := ⟨_, rfl⟩
  rw [← hδ] at hdist
  have hCBT : 0 ≤ C * B * T := by positivity
  have hδ' : δ = 2 / 10 ^ 6 * (C * B * T) + 1 / 10 ^ 14 / 2 * T := by rw [hδ]; ring
  have hδ0 : 0 ≤ δ := (norm_nonneg _).trans hdist
  have hδ1 : δ ≤ 1 / 1000 := by
    rw [hδ']
    norm_num at h4 h5 ⊢
    linarith
  have hw1 : ‖(⟪s.ts⟫ / 2) • ψ‖ ≤ h + δ := by
    have := norm_sub_norm_le ((⟪s.ts⟫ / 2) • ψ) ((⟪s.ts⟫ / 2) • ω)
    linarith
  have hturn : ‖ψ‖ * T / 2 = ‖(⟪s.ts⟫ / 2) • ψ‖ := by rw [hsize]; ring
  have hcl := hf.taylor (gx := x.1) (gy := x.2.1) (gz := x.2.2) (e2.trans hm) ho1 ho hts e4 hr
    (by norm_num at hu; linarith [hu.1]) (by norm_num at hu; linarith [hu.2])
    (by rw [hψd]; norm_num at h3 dψ ⊢; linarith) (by rw [hψd, hτ]; linarith)
    (by rw [hτ]; exact h5.trans (by norm_num))
  rw [hψd, hτ, hturn] at hcl
  obtain ⟨k1, k2⟩ := hcl
  refine ⟨(update x.1 x.2.1 x.2.2 s).2, Prod.ext k1 rfl, hs.step _ _ _, ?_⟩
  generalize (⟪s.ts⟫ / 2) • ω = v at *
  generalize (⟪s.ts⟫ / 2) • ψ = w at *
  have hq1 : ‖qval f‖ ≤ 1001 / 1000 := by
    norm_num at hu ⊢
    linarith [hu.2]
  have hh0 : 0 ≤ h := (norm_nonneg _).trans hxh
  -- the effect of the readings and of the previous deviation
  have hprev : ∀ y : Quaternion ℝ, ‖y - A * NormedSpace.exp v‖ ≤
      ‖y - qval f * NormedSpace.exp w‖ + 1001 / 1000 * δ + E := by
    intro y
    have t1 := norm_sub_le_norm_sub_add_norm_sub y (qval f * NormedSpace.exp w) (A * NormedSpace.exp v)
    have t2 := norm_sub_le_norm_sub_add_norm_sub (qval f * NormedSpace.exp w) (qval f * NormedSpace.exp v)
      (A * NormedSpace.exp v)
    rw [← mul_sub, ← sub_mul, norm_mul, norm_mul, norm_exp_pure hv0, mul_one] at t2
    have t3 : ‖qval f‖ * ‖NormedSpace.exp w - NormedSpace.exp v‖ ≤ 1001 / 1000 * δ := by
      have := exp_dist hw0 hv0
      gcongr
      exact this.trans hdist
    linarith
  have hif : 0 ≤ if s.order = 1 then 0 else 288 / 100 * h ^ 2 := by split <;> positivity
  have ho0 : (0 : ℝ) ≤ s.order := by positivity
  rcases k2 with ⟨k2, k3⟩ | ⟨-, f', k2, k3, k4⟩
  · -- the sample is below the threshold
    obtain ⟨f2, hf2⟩ := hf.update x.1 x.2.1 x.2.2
    obtain ⟨v', ev, hv'⟩ := hf.getAttitude
    refine ⟨v', f, (getAttitude_congr k2 (hf2.initialized.trans hf.initialized.symm)).trans ev, hv', hf.finite, hA1, ?_⟩
    refine (hprev _).trans ?_
    have h' : ‖qval f - qval f * NormedSpace.exp w‖ ≤ 1001 / 1000 * (T / 2 * (10001 / 10 ^ 8)) := by
      have e : qval f - qval f * NormedSpace.exp w = qval f * (NormedSpace.exp 0 - NormedSpace.exp w) := by
        rw [NormedSpace.exp_zero, mul_sub, mul_one]
      rw [e, norm_mul]
      refine mul_le_mul hq1 ?_ (norm_nonneg _) (by positivity)
      refine (exp_dist rfl hw0).trans ?_
      rw [zero_sub, norm_neg, hsize]
      gcongr
    have : 0 ≤ h ^ 3 := by positivity
    rw [hδ']
    norm_num at h' ⊢
    linarith
  · refine k2.showsF ⟨k3, (hprev _).trans ?_⟩
    have turn := series_turn (A := qval f) ho1 ho hw0 (by linarith) hA1
    have t := norm_sub_le_norm_sub_add_norm_sub (qval f') (‖seriesStep s.order w (qval f)‖⁻¹ • seriesStep s.order w (qval f))
      (qval f * NormedSpace.exp w)
    have hn0 := norm_nonneg w
    have ho' : (s.order : ℝ) ≤ 20 := by exact_mod_cast ho
    have := AR.series_budget hn0 hw1 hh0 hh hδ0 hδ1 ho' ho0 (decide (s.order = 1)) (k4 := k4)
      (turn := by simpa only [decide_eq_true_eq] using turn) (t := t) (g := 1001 / 1000 * δ) (hg := le_rfl)
    simp only [decide_eq_true_eq] at this
    have h9 : 43 / 10 * δ ≤ 9 / 10 ^ 6 * (C * B * T) + 51 / 10 ^ 6 * T := by
      rw [hδ']
      clear * - hCBT hT0
      norm_num
      linarith
    clear * - this h9
    linarith

/-- C114: the Taylor series of order `N` (1 to 20) in binary32 over any list of finite samples within `B` of the biases
(coefficients up to `C`) whose half turns are at most `h ≤ 0.49`: every update succeeds, and after `k` samples the
attitude has norm 1 up to one in a million and is within
`E + k · (8e-6 + 4e-7 N + 6e-5 h + 5.1e-5 |τ| + 9e-6 C B |τ| + 2.88 h² + 0.34 h³)` of the exact attitude; the term in `h²`
is not there for order 1. -/
theorem C114_track [Powers F] [Literals F] [Halves F] (hs : Started a s) (hm : a.method = .TaylorSeries)
    (ho1 : 1 ≤ a.order) (ho : a.order ≤ 20) (hts : Finite a.ts) {B C h : ℝ}
    (hC : a.config.UpTo C) (h1 : B ≤ 2 ^ 126) (h2 : C ≤ 2 ^ 98) (h3 : C * B ≤ 2 ^ 60) (h4 : C * B * |⟪a.ts⟫| ≤ 100)
    (h5 : |⟪a.ts⟫| ≤ 10 ^ 6) (hh : h ≤ 49 / 100) {A : Quaternion ℝ} {E : ℝ}
    (hA : ShowsF s fun f => NearUnit f ∧ ‖qval f - A‖ ≤ E) (l : List (F × F × F))
    (hl : ∀ x ∈ l, a.config.Within B x ∧ ‖(⟪a.ts⟫ / 2) • a.config.rateOf x‖ ≤ h) :
    ∃ s', feed l s = (.ok (), s') ∧ Started a s' ∧ ShowsF s' fun f => NearUnit f ∧
      ‖qval f - a.config.path ⟪a.ts⟫ A l‖ ≤
        E + l.length * (8 / 10 ^ 6 + 4 / 10 ^ 7 * a.order + 6 / 10 ^ 5 * h + 51 / 10 ^ 6 * |⟪a.ts⟫| +
          9 / 10 ^ 6 * (C * B * |⟪a.ts⟫|) + (if a.order = 1 then 0 else 288 / 100 * h ^ 2) + 34 / 100 * h ^ 3) := by
  induction l generalizing s A E with
  | nil => exact ⟨s, rfl, hs, by simpa [GyrometerConfig.path] using hA⟩
  | cons x l ih =>
    obtain ⟨hx1, hx2⟩ := hl x (by simp)
    obtain ⟨s1, e1, k1, k2⟩ := taylor_track_step hs hm ho1 ho hts hC h1 h2 h3 h4 h5 hh hA hx1 hx2
    obtain ⟨s2, e2, k3, k4⟩ := ih k1 k2 fun y hy => hl y (by simp [hy])
    refine ⟨s2, ?_, k3, ?_⟩
    · unfold feed
      rw [Op.bind_ok e1]
      exact e2
    · obtain ⟨v, f, a1, a2, a3, a4, a5⟩ := k4
      refine ⟨v, f, a1, a2, a3, a4, ?_⟩
      rw [GyrometerConfig.path]
      refine a5.trans (le_of_eq ?_)
      rw [List.length_cons]
      push_cast
      ring

/-! ### Correctly rounded powers, and a concrete case -/

/-- binary32 with a correctly rounded `powf`. -/
instance : Powers F32 where
  pow_near {x n} hx h1 h2 hb := by
    obtain ⟨v⟩ := x
    cases v with
    | fin q =>
      have e : Scalar.pow (⟨.fin q⟩ : F32) (lit (n : ℚ)) = F32.fl (.fin (q ^ n)) := by
        show F32.fl (Scalar.pow (Ext.fin q : XQ) (F32.fl (.fin (n : ℚ))).val) = _
        have := F32.lit_int n (by rw [abs_of_nonneg (by omega)]; omega)
        rw [show ((n : ℤ) : ℚ) = (n : ℚ) by norm_cast] at this
        rw [this]
        congr 1
        show Ext.pow (.fin q) (.fin (n : ℚ)) = _
        have hn : (n : ℚ) ≠ 0 := by exact_mod_cast (by omega : n ≠ 0)
        show (if (n : ℚ) = 0 then (Ext.fin 1 : XQ) else if q = 0 then (if (n : ℚ) < 0 then .pinf else .fin 0)
          else if q < 0 ∧ Elementary.isInt (n : ℚ) = false then .nan else .fin (Elementary.pow q (n : ℚ))) = _
        rw [if_neg hn]
        by_cases h0 : q = 0
        · subst h0
          rw [if_pos rfl, if_neg (by simp), zero_pow (by omega)]
        · rw [if_neg h0, if_neg ?_]
          · show (Ext.fin (if (0 : ℚ) ≤ (n : ℚ) then q ^ ((n : ℚ).num.toNat) else _) : XQ) = _
            rw [if_pos (by positivity)]
            simp
          · rintro ⟨-, h⟩
            revert h
            show ¬(decide ((n : ℚ).den = 1) = false)
            simp
      rw [e]
      have hv : ⟪(⟨.fin q⟩ : F32)⟫ = (q : ℝ) := F32.toReal_fin q
      rw [hv] at hb ⊢
      have hb' : |((q ^ n : ℚ) : ℝ)| ≤ 2 ^ 126 := by
        push_cast
        rw [abs_pow]
        exact hb
      have hfin := (F32.fl_fin (q ^ n)).2.1 (hb'.trans (by norm_num))
      refine ⟨hfin, ?_⟩
      have := ((F32.fl_fin (q ^ n)).1 hfin).1
      unfold Near ru rη at this
      push_cast at this
      rw [abs_pow] at this
      refine this.trans ?_
      have : 0 ≤ |(q : ℝ)| ^ n := by positivity
      norm_num
      linarith
    | _ => exact absurd hx (by decide +kernel)

/-- A filter at the identity with the Taylor series of order 3, default configuration and a step of a hundredth of a
second. -/
def AR.plainS : ARInit F32 := { plainE with method := .TaylorSeries, order := 3 }

theorem AR.plainS_started : ∃ s, Started plainS s ∧ ShowsF s fun f => NearUnit f ∧ ‖qval f - 1‖ ≤ 0 := by
  obtain ⟨s0, e0, -⟩ := AR.new_fresh (F := F32)
  have h := (C46_iff (a := AR.plainS) e0).mpr (by
    show _ ∧ Finite (lit 1 : F32) ∧ Finite (lit 0 : F32) ∧ Finite (lit 0 : F32) ∧ Finite (lit 0 : F32)
    refine ⟨?_, by decide +kernel⟩
    show ∀ x ∈ (GyrometerConfig.default : GyrometerConfig F32).params, Finite x
    decide +kernel)
  have hs : AR.Started AR.plainS (AR.initWith AR.plainS s0).2 :=
    ⟨s0, _, ⟨s0, e0, .refl _⟩, Prod.ext h rfl, .refl _⟩
  refine ⟨_, hs, ?_⟩
  obtain ⟨v, e1, hv⟩ := C46_attitude ⟨s0, e0, .refl _⟩ (Prod.ext h rfl : AR.initWith AR.plainS s0 = (.ok (), _))
  have hq : qval (seq4 plainS.qw plainS.qx plainS.qy plainS.qz) = 1 := by
    show mkQ ⟪(lit 1 : F32)⟫ ⟪(lit 0 : F32)⟫ ⟪(lit 0 : F32)⟫ ⟪(lit 0 : F32)⟫ = 1
    rw [Rounded.one_val, Rounded.zero_val]
    rfl
  refine ⟨v, _, e1, hv, ?_, ?_, ?_⟩
  · exact forall_lt_four.mpr ⟨Rounded.one_finite, Rounded.zero_finite, Rounded.zero_finite, Rounded.zero_finite⟩
  · unfold NearUnit
    rw [hq]
    simp
  · rw [hq]
    simp

/-- The hypotheses of `C114_track` hold for it and the samples (1, 0, 0) and (0, 2, 0) in turn, ten times: the attitude
stays within eight thousandths of the rotation. -/
example : ∃ s s', Started plainS s ∧
    feed ((List.replicate 10 [((lit 1, lit 0, lit 0) : F32 × F32 × F32), (lit 0, lit 2, lit 0)]).flatten) s =
      (.ok (), s') ∧
    ShowsF s' fun f => NearUnit f ∧
      ‖qval f - plainS.config.path ⟪plainS.ts⟫ 1
        ((List.replicate 10 [((lit 1, lit 0, lit 0) : F32 × F32 × F32), (lit 0, lit 2, lit 0)]).flatten)‖ ≤ 8 / 1000 := by
  obtain ⟨s, hs, hA⟩ := plainS_started
  have v0 := Rounded.zero_val (F := F32)
  have v1 := Rounded.one_val (F := F32)
  have v2 := Rounded.two_val (F := F32)
  have w0 := Rounded.zero_finite (F := F32)
  have w1 := Rounded.one_finite (F := F32)
  have w2 := Rounded.two_finite (F := F32)
  obtain ⟨t1, t2⟩ := plainE_ts
  have hmem : ∀ x ∈ (List.replicate 10 [((lit 1, lit 0, lit 0) : F32 × F32 × F32), (lit 0, lit 2, lit 0)]).flatten,
      x = (lit 1, lit 0, lit 0) ∨ x = (lit 0, lit 2, lit 0) := by
    intro x hx
    rw [List.mem_flatten] at hx
    obtain ⟨l, hl, hx⟩ := hx
    rw [(List.mem_replicate.mp hl).2] at hx
    simpa using hx
  have hlen : ((List.replicate 10 [((lit 1, lit 0, lit 0) : F32 × F32 × F32), (lit 0, lit 2, lit 0)]).flatten).length = 20 := by
    rw [List.length_flatten, List.map_replicate, List.sum_replicate]
    rfl
  generalize (List.replicate 10 [((lit 1, lit 0, lit 0) : F32 × F32 × F32), (lit 0, lit 2, lit 0)]).flatten = l at *
  have t3 : |⟪plainS.ts⟫| ≤ 11 / 1000 := t2
  obtain ⟨s', k1, -, k2⟩ := C114_track (B := 2) (C := 1) (h := 11 / 1000) hs rfl (by decide) (by decide) t1 (by
      intro k hk
      have : k = lit 1 ∨ k = lit 0 := by
        simp [plainS, plainE, GyrometerConfig.default] at hk
        tauto
      rcases this with rfl | rfl
      · rw [v1]; norm_num
      · rw [v0]; norm_num)
    (by norm_num) (by norm_num) (by norm_num) (by linarith) (t3.trans (by norm_num)) (by norm_num)
    hA l (by
      intro x hx
      constructor
      · have b0 : ⟪plainS.config.xBias⟫ = 0 ∧ ⟪plainS.config.yBias⟫ = 0 ∧ ⟪plainS.config.zBias⟫ = 0 := ⟨v0, v0, v0⟩
        unfold GyrometerConfig.Within
        rw [b0.1, b0.2.1, b0.2.2]
        rcases hmem x hx with rfl | rfl
        · simp [v0, v1, w0, w1]
        · simp [v0, v2, w0, w2]
      · have hr : ‖plainS.config.rateOf x‖ ≤ 2 := by
          rcases hmem x hx with rfl | rfl <;>
          · simp only [GyrometerConfig.rateOf, GyrometerConfig.real, GyrometerConfig.rate, plainS, plainE,
              GyrometerConfig.default, v0, v1, v2]
            rw [norm_mkQ, Real.sqrt_le_left (by norm_num)]
            norm_num
        rw [norm_smul, Real.norm_eq_abs, abs_div, abs_two]
        have : |⟪plainS.ts⟫| / 2 * ‖plainS.config.rateOf x‖ ≤ 11 / 1000 / 2 * 2 :=
          mul_le_mul (by linarith) hr (norm_nonneg _) (by norm_num)
        linarith)
  refine ⟨s, s', hs, k1, ?_⟩
  obtain ⟨v, f, a1, a2, a3, a4, a5⟩ := k2
  refine ⟨v, f, a1, a2, a3, a4, a5.trans ?_⟩
  rw [hlen, show plainS.order = 3 from rfl]
  norm_num at t3 ⊢
  linarith

/-- The hypotheses of `C114_step` hold for it and the sample (1, 0, 0). -/
example : ∃ s p q r, Started plainS s ∧ ShowsF s (fun f => qval f = 1) ∧
    Gyrometer.Reads plainS.config (lit 1) (lit 0) (lit 0) p q r ∧ 10001 / 10 ^ 8 < ‖mkQ 0 ⟪p⟫ ⟪q⟫ ⟪r⟫‖ ∧
    ‖mkQ 0 ⟪p⟫ ⟪q⟫ ⟪r⟫‖ ≤ 2 ^ 63 ∧ ‖mkQ 0 ⟪p⟫ ⟪q⟫ ⟪r⟫‖ * |⟪plainS.ts⟫| ≤ 1 ∧ |⟪plainS.ts⟫| ≤ 2 ^ 100 := by
  obtain ⟨s, hs, hA⟩ := plainS_started
  have v0 := Rounded.zero_val (F := F32)
  have v1 := Rounded.one_val (F := F32)
  have w0 := Rounded.zero_finite (F := F32)
  have w1 := Rounded.one_finite (F := F32)
  obtain ⟨t1, t2⟩ := plainE_ts
  have t3 : |⟪plainS.ts⟫| ≤ 11 / 1000 := t2
  obtain ⟨⟨g, hg⟩, -, -, -, e4⟩ := hs.ready
  obtain ⟨p, q, r, hr, d1, -⟩ := GyrometerConfig.reads (B := 1) (C := 1) (x := ((lit 1, lit 0, lit 0) : F32 × F32 × F32))
    hg.gyr e4 (by
      have b0 : ⟪plainS.config.xBias⟫ = 0 ∧ ⟪plainS.config.yBias⟫ = 0 ∧ ⟪plainS.config.zBias⟫ = 0 := ⟨v0, v0, v0⟩
      unfold GyrometerConfig.Within
      rw [b0.1, b0.2.1, b0.2.2]
      simp [v0, v1, w0, w1]) (by
      intro k hk
      have : k = lit 1 ∨ k = lit 0 := by
        simp [plainS, plainE, GyrometerConfig.default] at hk
        tauto
      rcases this with rfl | rfl
      · rw [v1]; norm_num
      · rw [v0]; norm_num) (by norm_num) (by norm_num) (by norm_num)
  have hr1 : ‖plainS.config.rateOf ((lit 1, lit 0, lit 0) : F32 × F32 × F32)‖ = 1 := by
    simp only [GyrometerConfig.rateOf, GyrometerConfig.real, GyrometerConfig.rate, plainS, plainE, GyrometerConfig.default,
      v0, v1]
    rw [norm_mkQ]
    norm_num
  have hd := abs_le.mp ((abs_norm_sub_norm_le _ _).trans d1)
  rw [hr1] at hd
  have n1 : 9 / 10 ≤ ‖mkQ 0 ⟪p⟫ ⟪q⟫ ⟪r⟫‖ := by norm_num at hd; linarith [hd.1]
  have n2 : ‖mkQ 0 ⟪p⟫ ⟪q⟫ ⟪r⟫‖ ≤ 11 / 10 := by norm_num at hd; linarith [hd.2]
  have hk : ‖mkQ 0 ⟪p⟫ ⟪q⟫ ⟪r⟫‖ * |⟪plainS.ts⟫| ≤ 11 / 10 * (11 / 1000) := by gcongr
  refine ⟨s, p, q, r, hs, ?_, hr, by norm_num at n1 ⊢; linarith, n2.trans (by norm_num), by linarith, t3.trans (by norm_num)⟩
  obtain ⟨v, f, a1, a2, a3, -, a5⟩ := hA
  exact ⟨v, f, a1, a2, a3, sub_eq_zero.mp (norm_le_zero_iff.mp a5)⟩

end Verif
