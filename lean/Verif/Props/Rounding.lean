import Verif.Rounded
import Verif.Lib.Quat
import Verif.Props.Norms
import Verif.Props.MatrixOps

/-
Scalar products, norms and normalisation with the rounding and the overflow of binary32 (C76, C77).
The theorems hold for every arithmetic that obeys `Rounded`, that is for IEEE 754 binary32 with any
mathematical library whose `sqrtf` is correctly rounded.
-/

set_option linter.unusedSectionVars false

namespace Verif
open Scalar Finset

variable {F : Type} [Scalar F] [R : Rounded F]

theorem Near.bound {x y : ℝ} (h : Near x y) : |x - y| ≤ |y| / 16777216 + rη := by
  unfold Near ru at h
  norm_num at h
  linarith

theorem rη_le : rη ≤ 1 / 10 ^ 45 := by
  unfold rη
  norm_num

/-- One step of an accumulation. -/
theorem sum_step {s t r S T A : ℝ} {k : Nat} (hk : k ≤ 4) (hS : |S| ≤ A)
    (hs : |s - S| ≤ 3 * k * (ru * A + rη)) (ht : Near t T) (hr : Near r (s + t)) :
    |r - (S + T)| ≤ 3 * (k + 1) * (ru * (A + |T|) + rη) := by
  have hη := rη_pos
  have hA : 0 ≤ A := (abs_nonneg S).trans hS
  have hT := abs_nonneg T
  have hk' : (k : ℝ) ≤ 4 := by exact_mod_cast hk
  have hk0 : (0 : ℝ) ≤ k := Nat.cast_nonneg k
  have h1 := ht.bound
  have h2 := hr.bound
  have hu : ru = 1 / 16777216 := by unfold ru; norm_num
  rw [hu] at hs ⊢
  have e3 : |s + t| ≤ A + |T| + |s - S| + |t - T| := by
    have : s + t = (s - S) + (t - T) + (S + T) := by ring
    rw [this]
    have a1 := abs_add_le ((s - S) + (t - T)) (S + T)
    have a2 := abs_add_le (s - S) (t - T)
    have a3 := abs_add_le S T
    linarith
  have e4 : |r - (S + T)| ≤ |r - (s + t)| + |s - S| + |t - T| := by
    have : r - (S + T) = (r - (s + t)) + ((s - S) + (t - T)) := by ring
    rw [this]
    have a1 := abs_add_le (r - (s + t)) ((s - S) + (t - T))
    have a2 := abs_add_le (s - S) (t - T)
    linarith
  have e5 : 3 * (k : ℝ) * (1 / 16777216 * A + rη) ≤ 12 * (1 / 16777216 * A + rη) := by
    have : 0 ≤ 1 / 16777216 * A + rη := by positivity
    nlinarith
  have e6 : 3 * ((k : ℝ) + 1) * (1 / 16777216 * (A + |T|) + rη) ≥
      3 * k * (1 / 16777216 * A + rη) + 3 * (1 / 16777216 * (A + |T|) + rη) := by
    have : 0 ≤ 3 * (k : ℝ) * (1 / 16777216 * |T|) := by positivity
    nlinarith
  generalize 3 * (k : ℝ) * (1 / 16777216 * A + rη) = E at *
  linarith

section Dot
variable {n : Nat} {f g : Nat → F}

theorem abs_sum_le (k : Nat) (a b : Nat → ℝ) :
    |∑ i ∈ range k, a i * b i| ≤ ∑ i ∈ range k, |a i * b i| := Finset.abs_sum_le_sum_abs _ _

theorem dot_acc (hn : n ≤ 4) (hf : ∀ i, i < n → Finite (f i)) (hg : ∀ i, i < n → Finite (g i))
    (hA : ∑ i ∈ range n, |⟪f i⟫ * ⟪g i⟫| ≤ 2 ^ 126) :
    ∀ k, k ≤ n → Finite (sumUp k fun i => f i *ᶠ g i) ∧
      |⟪sumUp k fun i => f i *ᶠ g i⟫ - ∑ i ∈ range k, ⟪f i⟫ * ⟪g i⟫| ≤
        3 * k * (ru * ∑ i ∈ range k, |⟪f i⟫ * ⟪g i⟫| + rη) := by
  intro k
  induction k with
  | zero =>
    intro _
    refine ⟨R.zero_finite, ?_⟩
    rw [show (sumUp 0 fun i => f i *ᶠ g i) = lit 0 from rfl, R.zero_val]
    simp
  | succ k ih =>
    intro hk
    obtain ⟨h1, h2⟩ := ih (by omega)
    have hT : ∑ i ∈ range k, |⟪f i⟫ * ⟪g i⟫| + |⟪f k⟫ * ⟪g k⟫| ≤ 2 ^ 126 := by
      rw [← Finset.sum_range_succ]
      refine le_trans (Finset.sum_le_sum_of_subset_of_nonneg ?_ fun _ _ _ => abs_nonneg _) hA
      intro i hi
      rw [Finset.mem_range] at hi ⊢
      omega
    set A := ∑ i ∈ range k, |⟪f i⟫ * ⟪g i⟫| with hA'
    have hA0 : 0 ≤ A := Finset.sum_nonneg fun _ _ => abs_nonneg _
    have hS := abs_sum_le k (fun i => ⟪f i⟫) (fun i => ⟪g i⟫)
    have hp : Finite (f k *ᶠ g k) := R.mul_finite (hf k (by omega)) (hg k (by omega)) (by
      refine le_trans ?_ (show (2 : ℝ) ^ 126 ≤ 2 ^ 127 by norm_num)
      linarith)
    have hp' := R.mul_near (hf k (by omega)) (hg k (by omega)) hp
    have hk4 : (k : ℝ) ≤ 4 := by exact_mod_cast (show k ≤ 4 by omega)
    have hη := rη_pos
    have hη' := rη_le
    have hk0 : (0 : ℝ) ≤ k := Nat.cast_nonneg k
    have e5 : 3 * (k : ℝ) * (ru * A + rη) ≤ 12 * (ru * A + rη) := by
      have : 0 ≤ ru * A + rη := by have := ru_pos; positivity
      nlinarith
    have hu : ru = 1 / 16777216 := by unfold ru; norm_num
    have hfin : Finite (sumUp (k + 1) fun i => f i *ᶠ g i) := by
      refine R.add_finite h1 hp ?_
      have a1 := abs_add_le ⟪sumUp k fun i => f i *ᶠ g i⟫ ⟪f k *ᶠ g k⟫
      have a2 := abs_sub_abs_le_abs_sub ⟪sumUp k fun i => f i *ᶠ g i⟫ (∑ i ∈ range k, ⟪f i⟫ * ⟪g i⟫)
      have a3 := abs_sub_abs_le_abs_sub ⟪f k *ᶠ g k⟫ (⟪f k⟫ * ⟪g k⟫)
      have a4 := hp'.bound
      rw [hu] at h2 e5
      have hT0 := abs_nonneg (⟪f k⟫ * ⟪g k⟫)
      rw [show (2 : ℝ) ^ 126 = 85070591730234615865843651857942052864 by norm_num] at hT
      rw [show (2 : ℝ) ^ 127 = 170141183460469231731687303715884105728 by norm_num]
      norm_num at hη'
      linarith
    refine ⟨hfin, ?_⟩
    rw [Finset.sum_range_succ, Finset.sum_range_succ]
    push_cast
    exact sum_step (by omega) hS h2 hp' (R.add_near h1 hp hfin)

/-- C76: `dot_product` of finite vectors, in binary32: if the products do not get near the overflow
threshold it succeeds, and the error is a few units of round-off of the sum of the absolute products. -/
theorem C76_dot {v w : Vec F} (hv : VecIs v n f) (hw : VecIs w n g)
    (hf : ∀ i, i < n → Finite (f i)) (hg : ∀ i, i < n → Finite (g i))
    (hA : ∑ i ∈ range n, |⟪f i⟫ * ⟪g i⟫| ≤ 2 ^ 126) :
    ∃ r, v.dotProduct w = .ok r ∧ Finite r ∧
      |⟪r⟫ - ∑ i ∈ range n, ⟪f i⟫ * ⟪g i⟫| ≤
        3 * n / 2 ^ 24 * (∑ i ∈ range n, |⟪f i⟫ * ⟪g i⟫|) + 3 * n / 2 ^ 150 := by
  obtain ⟨h1, h2⟩ := dot_acc hv.le hf hg hA n le_rfl
  refine ⟨_, (C33_dot hv hw).1 rfl, h1, h2.trans (le_of_eq ?_)⟩
  unfold ru rη
  ring

/-- C76: the same for every element of a matrix product: it succeeds, and each element is the exact one
up to a few units of round-off of the sum of its absolute products. -/
theorem C76_mul {a b s : Mat F} {r k c : Nat} {A B f0 : Nat → Nat → F} (ha : MatIs a r k A)
    (hb : MatIs b k c B) (hs : MatIs s r c f0)
    (hA : ∀ i j, i < r → j < k → Finite (A i j)) (hB : ∀ i j, i < k → j < c → Finite (B i j))
    (hS : ∀ i j, i < r → j < c → ∑ t ∈ range k, |⟪A i t⟫ * ⟪B t j⟫| ≤ 2 ^ 126) :
    ∃ s' C, Mat.mul a b s = (.ok (), s') ∧ MatIs s' r c C ∧ ∀ i j, i < r → j < c → Finite (C i j) ∧
      |⟪C i j⟫ - ∑ t ∈ range k, ⟪A i t⟫ * ⟪B t j⟫| ≤
        3 * k / 2 ^ 24 * (∑ t ∈ range k, |⟪A i t⟫ * ⟪B t j⟫|) + 3 * k / 2 ^ 150 := by
  have key := fun i j (hi : i < r) (hj : j < c) =>
    dot_acc (f := A i) (g := fun t => B t j) ha.cle (fun t ht => hA i t hi ht)
      (fun t ht => hB t j ht hj) (hS i j hi hj)
  obtain ⟨h1, h2⟩ := C12_mul ha hb hs
  have hok := h1.mpr fun i j l hi hj hl => (key i j hi hj (l + 1) hl).1
  refine ⟨(Mat.mul a b s).2, _, Prod.ext hok rfl, h2 hok, fun i j hi hj => ?_⟩
  obtain ⟨k1, k2⟩ := key i j hi hj k le_rfl
  refine ⟨k1, k2.trans (le_of_eq ?_)⟩
  unfold ru rη
  ring

end Dot

section Norm
variable {n : Nat} {f : Nat → F}

/-- The sum of squares is infinite or accurate. -/
theorem sq_acc (hn : n ≤ 4) (hf : ∀ i, i < n → Finite (f i)) :
    ∀ k, k ≤ n → PosInf (sumUp k fun i => f i *ᶠ f i) ∨
      (Finite (sumUp k fun i => f i *ᶠ f i) ∧ 0 ≤ ⟪sumUp k fun i => f i *ᶠ f i⟫ ∧
        ⟪sumUp k fun i => f i *ᶠ f i⟫ < 2 ^ 128 ∧
        |⟪sumUp k fun i => f i *ᶠ f i⟫ - ∑ i ∈ range k, ⟪f i⟫ ^ 2| ≤
          3 * k * (ru * ∑ i ∈ range k, ⟪f i⟫ ^ 2 + rη)) := by
  intro k
  induction k with
  | zero =>
    intro _
    refine .inr ⟨R.zero_finite, ?_⟩
    rw [show (sumUp 0 fun i => f i *ᶠ f i) = lit 0 from rfl, R.zero_val]
    simp
  | succ k ih =>
    intro hk
    have hfk := hf k (by omega)
    have hsq : 0 ≤ ⟪f k⟫ * ⟪f k⟫ := mul_self_nonneg _
    have hp : Finite (f k *ᶠ f k) ∨ PosInf (f k *ᶠ f k) := by
      by_cases h : Finite (f k *ᶠ f k)
      · exact .inl h
      · exact .inr (R.mul_inf hfk hfk hsq h)
    rcases ih (by omega) with h | ⟨h1, h0, _, h2⟩
    · exact .inl (R.inf_add h hp)
    · rcases hp with hp | hp
      · by_cases hfin : Finite (sumUp (k + 1) fun i => f i *ᶠ f i)
        · right
          have hp0 := R.mul_nonneg hfk hfk hp hsq
          have hnn := R.add_nonneg h1 hp hfin (add_nonneg h0 hp0)
          refine ⟨hfin, hnn, lt_of_abs_lt (R.add_lt h1 hp hfin), ?_⟩
          rw [Finset.sum_range_succ]
          have hS : |∑ i ∈ range k, ⟪f i⟫ ^ 2| ≤ ∑ i ∈ range k, ⟪f i⟫ ^ 2 :=
            le_of_eq (abs_of_nonneg (Finset.sum_nonneg fun _ _ => sq_nonneg _))
          have := sum_step (by omega) hS h2 (R.mul_near hfk hfk hp) (R.add_near h1 hp hfin)
          rw [abs_of_nonneg hsq, ← sq] at this
          push_cast
          exact this
        · left
          have hp0 := R.mul_nonneg hfk hfk hp hsq
          exact R.add_inf h1 hp (add_nonneg h0 hp0) hfin
      · exact .inl (R.fin_add_inf h1 hp)

theorem norm2_add_le (n : Nat) (x y : Nat → ℝ) : norm2 n (fun i => x i + y i) ≤ norm2 n x + norm2 n y := by
  have h := norm_add_le (WithLp.toLp 2 (fun i : Fin n => x i) : EuclideanSpace ℝ (Fin n))
    (WithLp.toLp 2 (fun i : Fin n => y i))
  rw [← WithLp.toLp_add, ← norm2_eq, ← norm2_eq] at h
  rw [norm2_eq]
  exact h

theorem norm2_mono {n : Nat} {x y : Nat → ℝ} (h : ∀ i, i < n → |x i| ≤ y i) : norm2 n x ≤ norm2 n y := by
  unfold norm2
  refine Real.sqrt_le_sqrt (Finset.sum_le_sum fun i hi => ?_)
  have := h i (Finset.mem_range.mp hi)
  rw [← sq_abs]
  exact pow_le_pow_left₀ (abs_nonneg _) this 2

theorem norm2_smul (n : Nat) (x : Nat → ℝ) {c : ℝ} (hc : 0 ≤ c) :
    norm2 n (fun i => c * x i) = c * norm2 n x := by
  unfold norm2
  simp only [mul_pow]
  rw [← Finset.mul_sum, Real.sqrt_mul (sq_nonneg c), Real.sqrt_sq hc]

theorem norm2_abs (n : Nat) (x : Nat → ℝ) : norm2 n (fun i => |x i|) = norm2 n x := by
  unfold norm2
  simp only [sq_abs]

theorem norm2_const {n : Nat} (hn : n ≤ 4) {c : ℝ} (hc : 0 ≤ c) : norm2 n (fun _ => c) ≤ 2 * c := by
  unfold norm2
  rw [Finset.sum_const, Finset.card_range, nsmul_eq_mul]
  rw [Real.sqrt_le_left (by positivity)]
  have : (n : ℝ) ≤ 4 := by exact_mod_cast hn
  nlinarith [sq_nonneg c]

/-- Componentwise rounding changes the norm only a little. -/
theorem norm2_near {n : Nat} (hn : n ≤ 4) {x y : Nat → ℝ} (h : ∀ i, i < n → Near (x i) (y i)) :
    |norm2 n x - norm2 n y| ≤ ru * norm2 n y + 2 * rη := by
  have hu := ru_pos
  have hη := rη_pos
  have h1 : norm2 n (fun i => x i - y i) ≤ ru * norm2 n y + 2 * rη := by
    calc norm2 n (fun i => x i - y i) ≤ norm2 n (fun i => ru * |y i| + rη) := norm2_mono h
      _ ≤ norm2 n (fun i => ru * |y i|) + norm2 n (fun _ => rη) := norm2_add_le _ _ _
      _ = ru * norm2 n y + norm2 n (fun _ => rη) := by rw [norm2_smul _ _ hu.le, norm2_abs]
      _ ≤ _ := by have := norm2_const hn hη.le; linarith
  have h2 : norm2 n x ≤ norm2 n y + norm2 n (fun i => x i - y i) := by
    have := norm2_add_le n y (fun i => x i - y i)
    rwa [show (fun i => y i + (x i - y i)) = x by funext i; ring] at this
  have h3 : norm2 n y ≤ norm2 n x + norm2 n (fun i => x i - y i) := by
    have := norm2_add_le n x (fun i => y i - x i)
    rw [show (fun i => x i + (y i - x i)) = y by funext i; ring] at this
    have e : norm2 n (fun i => y i - x i) = norm2 n (fun i => x i - y i) := by
      rw [← norm2_abs n (fun i => y i - x i), ← norm2_abs n (fun i => x i - y i)]
      simp only [abs_sub_comm]
    rwa [e] at this
  rw [abs_le]
  constructor <;> linarith

theorem eps_fin : Finite (EPSILON : F) := R.eps_finite

/-- The threshold as a binary32 number. -/
theorem eps_bounds : 99999 / 10 ^ 9 ≤ ⟪(EPSILON : F)⟫ ∧ ⟪(EPSILON : F)⟫ ≤ 100001 / 10 ^ 9 := by
  have h := (show Near ⟪(EPSILON : F)⟫ (1 / 10000) from R.eps_val).bound
  have := rη_le
  rw [abs_le, abs_of_pos (by norm_num)] at h
  norm_num at h this ⊢
  constructor <;> linarith [h.1, h.2]

/-- The square root of the accurate sum of squares: real analysis. -/
theorem sqrt_acc {N s r : ℝ} {n : Nat} (hn : n ≤ 4) (hN : 0 ≤ N) (hs0 : 0 ≤ s)
    (hs : |s - N ^ 2| ≤ 3 * n * (ru * N ^ 2 + rη)) (hr : |r - √s| ≤ ru * √s) :
    1 / 20000 ≤ N ∨ 1 / 20000 ≤ r → |r - N| ≤ 10 / 2 ^ 24 * N := by
  have hu : ru = 1 / 16777216 := by unfold ru; norm_num
  have hη := rη_pos
  have hη' := rη_le
  norm_num at hη'
  have hn' : (n : ℝ) ≤ 4 := by exact_mod_cast hn
  have hn0 : (0 : ℝ) ≤ n := Nat.cast_nonneg n
  have hs' : |s - N ^ 2| ≤ 12 * (1 / 16777216 * N ^ 2 + rη) := by
    refine hs.trans ?_
    rw [hu]
    have : 0 ≤ 1 / 16777216 * N ^ 2 + rη := by positivity
    nlinarith
  rw [hu] at hr
  obtain ⟨r1, r2⟩ := abs_le.mp hr
  obtain ⟨s1, s2⟩ := abs_le.mp hs'
  have hq := Real.sq_sqrt hs0
  have hq0 := Real.sqrt_nonneg s
  set q := √s with hqdef
  intro hor
  have hN' : 1 / 21000 ≤ N := by
    rcases hor with h | h
    · linarith
    · by_contra hc
      have hc := not_le.mp hc
      have : q ^ 2 < (1 / 20001) ^ 2 := by nlinarith
      have : q < 1 / 20001 := by
        by_contra hc'
        nlinarith [not_lt.mp hc']
      linarith
  have hNsq : (1 / 21000) ^ 2 ≤ N ^ 2 := pow_le_pow_left₀ (by norm_num) hN' 2
  have e1 : |q ^ 2 - N ^ 2| ≤ 13 / 16777216 * N ^ 2 := by
    rw [hq]
    refine hs'.trans ?_
    norm_num at hNsq
    linarith
  obtain ⟨t1, t2⟩ := abs_le.mp e1
  have qN : N / 2 ≤ q := by
    by_contra hc
    have hc := not_le.mp hc
    nlinarith
  have e2 : |q - N| ≤ 26 / 3 / 16777216 * N := by
    have : |q - N| * (q + N) = |q ^ 2 - N ^ 2| := by
      rw [show q ^ 2 - N ^ 2 = (q - N) * (q + N) by ring, abs_mul, abs_of_nonneg (by linarith : 0 ≤ q + N)]
    have h3 : |q - N| * (3 / 2 * N) ≤ 13 / 16777216 * N ^ 2 := by
      calc _ ≤ |q - N| * (q + N) := by
            apply mul_le_mul_of_nonneg_left _ (abs_nonneg _); linarith
        _ ≤ _ := by rw [this]; exact e1
    have hNpos : 0 < N := by linarith
    have : |q - N| * (3 / 2) * N ≤ 13 / 16777216 * N * N := by nlinarith
    have := le_of_mul_le_mul_right this hNpos
    linarith
  obtain ⟨u1, u2⟩ := abs_le.mp e2
  rw [abs_le]
  norm_num at u1 u2 r1 r2 ⊢
  constructor <;> linarith

/-- What `calculate_norm` returns on a finite vector: infinity, or a number near the norm, or 0. -/
theorem norm_cases {v : Vec F} (hv : VecIs v n f) (hf : ∀ i, i < n → Finite (f i)) :
    ∃ r, v.calculateNorm = .ok r ∧
      ((PosInf r ∧ 2 ^ 63 < norm2 n fun i => ⟪f i⟫) ∨
       (Finite r ∧ ⟪r⟫ = 0 ∧ (norm2 n fun i => ⟪f i⟫) ≤ 10001 / 10 ^ 8) ∨
       (Finite r ∧ ⟪(EPSILON : F)⟫ < ⟪r⟫ ∧ 9999 / 10 ^ 8 ≤ (norm2 n fun i => ⟪f i⟫) ∧
        (norm2 n fun i => ⟪f i⟫) ≤ 1001 / 1000 * 2 ^ 64 ∧
        |⟪r⟫ - norm2 n fun i => ⟪f i⟫| ≤ 10 / 2 ^ 24 * norm2 n fun i => ⟪f i⟫)) := by
  obtain ⟨e1, e2⟩ := eps_bounds (F := F)
  have hN := norm2_nonneg n (fun i => ⟪f i⟫)
  have hN2 := norm2_sq n (fun i => ⟪f i⟫)
  rw [Vec.calculateNorm_eq hv]
  rcases sq_acc hv.le hf n le_rfl with h | ⟨h1, h0, hlt, h2⟩
  · have h' := R.sqrt_inf h
    refine ⟨_, if_neg (by rw [R.inf_le h' eps_fin]; simp), .inl ⟨h', ?_⟩⟩
    by_contra hc
    have hc := not_lt.mp hc
    have hsum : ∑ i ∈ range n, |⟪f i⟫ * ⟪f i⟫| ≤ 2 ^ 126 := by
      have : ∑ i ∈ range n, |⟪f i⟫ * ⟪f i⟫| = ∑ i ∈ range n, ⟪f i⟫ ^ 2 :=
        Finset.sum_congr rfl fun i _ => by rw [abs_of_nonneg (mul_self_nonneg _), sq]
      rw [this, ← hN2]
      calc _ ≤ ((2 : ℝ) ^ 63) ^ 2 := pow_le_pow_left₀ hN hc 2
        _ = _ := by norm_num
    have := (dot_acc hv.le hf hf hsum n le_rfl).1
    have hi := h.2.1
    rw [this.2] at hi
    exact Bool.noConfusion hi
  · have hs := R.sqrt_near h1 h0
    have hfin := R.sqrt_finite h1 h0
    rw [← hN2] at h2
    have a1 := sqrt_acc hv.le hN h0 h2 hs
    set N := norm2 n (fun i => ⟪f i⟫) with hNdef
    set r := Scalar.sqrt (sumUp n fun i => f i *ᶠ f i) with hr
    by_cases hle : (r ≤ᶠ EPSILON) = true
    · refine ⟨_, if_pos hle, .inr (.inl ⟨R.zero_finite, R.zero_val, ?_⟩)⟩
      rw [R.le_val hfin eps_fin] at hle
      have hle : ⟪r⟫ ≤ ⟪(EPSILON : F)⟫ := hle
      by_contra hc
      have hc := not_le.mp hc
      have := a1 (.inl (by norm_num at hc ⊢; linarith))
      rw [abs_le] at this
      norm_num at this e2 hc
      linarith [this.1]
    · refine ⟨_, if_neg hle, .inr (.inr ?_)⟩
      rw [R.le_val hfin eps_fin] at hle
      have hgt : ⟪(EPSILON : F)⟫ < ⟪r⟫ := not_le.mp hle
      have b := a1 (.inr (by norm_num at e1 ⊢; linarith))
      refine ⟨hfin, hgt, ?_, ?_, b⟩
      · rw [abs_le] at b
        norm_num at b e1 ⊢
        linarith [b.2]
      · by_contra hc
        have hc := not_le.mp hc
        have h3 : (1001 / 1000 * 2 ^ 64 : ℝ) ^ 2 ≤ N ^ 2 := pow_le_pow_left₀ (by norm_num) hc.le 2
        have hu : ru = 1 / 16777216 := by unfold ru; norm_num
        have hη := rη_pos
        have hη' := rη_le
        have hn' : (n : ℝ) ≤ 4 := by exact_mod_cast hv.le
        have h4 : 3 * n * (ru * N ^ 2 + rη) ≤ 12 * (1 / 16777216 * N ^ 2 + rη) := by
          rw [hu]
          have : 0 ≤ 1 / 16777216 * N ^ 2 + rη := by positivity
          nlinarith
        have h5 := (abs_le.mp h2).1
        norm_num at h3 hη' hlt
        linarith

/-- C77: `calculate_norm` of a finite vector whose norm is at most `2⁶³`, in binary32: it succeeds with
a finite value, which is the Euclidean norm up to ten units of round-off, except that norms up to the
threshold (0.0001, give or take `10⁻⁸`) are cut to 0. -/
theorem C77_norm {v : Vec F} (hv : VecIs v n f) (hf : ∀ i, i < n → Finite (f i))
    (hle : (norm2 n fun i => ⟪f i⟫) ≤ 2 ^ 63) :
    ∃ r, v.calculateNorm = .ok r ∧ Finite r ∧
      (⟪r⟫ = 0 ∧ (norm2 n fun i => ⟪f i⟫) ≤ 10001 / 10 ^ 8 ∨
       9999 / 10 ^ 8 ≤ (norm2 n fun i => ⟪f i⟫) ∧
        |⟪r⟫ - norm2 n fun i => ⟪f i⟫| ≤ 10 / 2 ^ 24 * norm2 n fun i => ⟪f i⟫) := by
  obtain ⟨r, h, h1 | h2 | h3⟩ := norm_cases hv hf
  · exact absurd h1.2 (not_lt.mpr hle)
  · exact ⟨r, h, h2.1, .inl h2.2⟩
  · exact ⟨r, h, h3.1, .inr ⟨h3.2.2.1, h3.2.2.2.2⟩⟩

/-- C77: beyond `1.001 · 2⁶⁴` the squares overflow and the norm is infinite. -/
theorem C77_overflow {v : Vec F} (hv : VecIs v n f) (hf : ∀ i, i < n → Finite (f i))
    (hlt : 1001 / 1000 * 2 ^ 64 < norm2 n fun i => ⟪f i⟫) :
    ∃ r, v.calculateNorm = .ok r ∧ PosInf r := by
  obtain ⟨r, h, h1 | h2 | h3⟩ := norm_cases hv hf
  · exact ⟨r, h, h1.1⟩
  · have := h2.2.2
    norm_num at this hlt
    linarith
  · exact absurd h3.2.2.2.1 (not_le.mpr hlt)

/-- C77: `normalize` of a finite vector, in binary32, always succeeds.  The result is the zero vector,
or a vector of norm 1 up to one in a million, each of whose components is that of the exact unit vector
up to one in a million.  It is the zero vector for norms below the threshold and for norms so large that
their squares overflow. -/
theorem C77_normalize {v : Vec F} (hv : VecIs v n f) (hf : ∀ i, i < n → Finite (f i)) :
    ∃ w g, v.normalize = (.ok (), w) ∧ VecIs w n g ∧ (∀ i, i < n → Finite (g i)) ∧
      ((∀ i, i < n → ⟪g i⟫ = 0) ∧
          ((norm2 n fun i => ⟪f i⟫) ≤ 10001 / 10 ^ 8 ∨ 2 ^ 63 < norm2 n fun i => ⟪f i⟫) ∨
       |(norm2 n fun i => ⟪g i⟫) - 1| ≤ 1 / 10 ^ 6 ∧
        (∀ i, i < n → |⟪g i⟫ - ⟪f i⟫ / norm2 n fun i => ⟪f i⟫| ≤ 1 / 10 ^ 6) ∧
          9999 / 10 ^ 8 ≤ (norm2 n fun i => ⟪f i⟫) ∧
          (norm2 n fun i => ⟪f i⟫) ≤ 1001 / 1000 * 2 ^ 64) := by
  obtain ⟨r, h, h1⟩ := norm_cases hv hf
  have hst := Vec.normalize_stores hv h
  rcases h1 with ⟨h1, h2⟩ | ⟨h1, h2, h3⟩ | ⟨h1, h2, h3, h4, h5⟩
  · obtain ⟨w, e, hw⟩ := Vec.run_of_stores hst hv fun i hi => by
      rw [R.lt_inf eps_fin h1, if_pos rfl]
      exact (R.div_inf (hf i hi) h1).1
    refine ⟨w, _, e, hw.congr fun i hi => by rw [R.lt_inf eps_fin h1, if_pos rfl], fun i hi =>
      (R.div_inf (hf i hi) h1).1, .inl ⟨fun i hi => (R.div_inf (hf i hi) h1).2, .inr h2⟩⟩
  · have hno : ¬(r >ᶠ EPSILON) = true := by
      rw [R.lt_val eps_fin h1, h2]
      have := (eps_bounds (F := F)).1
      norm_num at this ⊢
      linarith
    obtain ⟨w, e, hw⟩ := Vec.run_of_stores hst hv fun i hi => by
      rw [if_neg hno]
      exact R.zero_finite
    exact ⟨w, _, e, hw.congr fun i hi => by rw [if_neg hno], fun i hi => R.zero_finite,
      .inl ⟨fun i hi => R.zero_val, .inl h3⟩⟩
  · set N := norm2 n (fun i => ⟪f i⟫) with hN
    have hyes : (r >ᶠ EPSILON) = true := (R.lt_val eps_fin h1).mpr h2
    have e1 := (eps_bounds (F := F)).1
    have hNpos : 0 < N := by norm_num at h3; linarith
    have hrpos : 0 < ⟪r⟫ := by norm_num at e1; linarith
    obtain ⟨b1, b2⟩ := abs_le.mp h5
    have hfi : ∀ i, i < n → |⟪f i⟫| ≤ N := fun i hi => by
      rw [← Real.sqrt_sq_eq_abs]
      exact Real.sqrt_le_sqrt (Finset.single_le_sum (f := fun i => ⟪f i⟫ ^ 2)
        (fun _ _ => sq_nonneg _) (Finset.mem_range.mpr hi))
    have hNr : N / ⟪r⟫ ≤ 1 + 11 / 16777216 := by
      rw [div_le_iff₀ hrpos]
      norm_num at b1
      linarith
    have hNr' : 1 - 11 / 16777216 ≤ N / ⟪r⟫ := by
      rw [le_div_iff₀ hrpos]
      norm_num at b2
      linarith
    have hquot : ∀ i, i < n → |⟪f i⟫ / ⟪r⟫| ≤ 2 := fun i hi => by
      rw [abs_div, abs_of_pos hrpos]
      calc _ ≤ N / ⟪r⟫ := by gcongr; exact hfi i hi
        _ ≤ 2 := by linarith
    have hfin : ∀ i, i < n → Finite (f i /ᶠ r) := fun i hi =>
      R.div_finite (hf i hi) h1 hrpos.ne' ((hquot i hi).trans (by norm_num))
    have hnear : ∀ i, i < n → Near ⟪f i /ᶠ r⟫ (⟪f i⟫ / ⟪r⟫) := fun i hi =>
      R.div_near (hf i hi) h1 hrpos.ne' (hfin i hi)
    obtain ⟨w, e, hw⟩ := Vec.run_of_stores hst hv fun i hi => by
      rw [if_pos hyes]
      exact hfin i hi
    have hη := rη_pos
    have hη' := rη_le
    have hu : ru = 1 / 16777216 := by unfold ru; norm_num
    refine ⟨w, _, e, hw.congr fun i hi => by rw [if_pos hyes], hfin, .inr ⟨?_, fun i hi => ?_, h3, h4⟩⟩
    · have := norm2_near hv.le hnear
      rw [norm2_div n _ hrpos, ← hN, hu] at this
      rw [abs_le] at this ⊢
      norm_num at hη' ⊢
      constructor <;> linarith [this.1, this.2]
    · have c1 := (hnear i hi).bound
      have c2 := hquot i hi
      have c3 : |⟪f i⟫ / ⟪r⟫ - ⟪f i⟫ / N| ≤ 11 / 16777216 := by
        have : ⟪f i⟫ / ⟪r⟫ - ⟪f i⟫ / N = (⟪f i⟫ / N) * (N / ⟪r⟫ - 1) := by
          field_simp
        rw [this, abs_mul]
        have d1 : |⟪f i⟫ / N| ≤ 1 := by
          rw [abs_div, abs_of_pos hNpos, div_le_one hNpos]
          exact hfi i hi
        have d2 : |N / ⟪r⟫ - 1| ≤ 11 / 16777216 := by
          rw [abs_le]; constructor <;> linarith
        exact (mul_le_mul d1 d2 (abs_nonneg _) zero_le_one).trans (by norm_num)
      have c4 := abs_sub_le ⟪f i /ᶠ r⟫ (⟪f i⟫ / ⟪r⟫) (⟪f i⟫ / N)
      norm_num at hη' ⊢
      linarith

/-- C78: `is_versor` in binary32: it accepts every quaternion whose norm is 1 up to `0.98 · 10⁻⁴`,
rejects every one that is further than `1.02 · 10⁻⁴` off, and fails on norms whose squares overflow. -/
theorem C78_versor {v : Vec F} (hv : VecIs v 4 f) (hf : ∀ i, i < 4 → Finite (f i)) :
    (|(norm2 4 fun i => ⟪f i⟫) - 1| ≤ 98 / 10 ^ 6 → Quat.isVersor v = .ok true) ∧
    (102 / 10 ^ 6 ≤ |(norm2 4 fun i => ⟪f i⟫) - 1| → (norm2 4 fun i => ⟪f i⟫) ≤ 2 ^ 63 →
      Quat.isVersor v = .ok false) ∧
    (1001 / 1000 * 2 ^ 64 < (norm2 4 fun i => ⟪f i⟫) →
      Quat.isVersor v = .error (.err (.UtilsError .Inf))) := by
  have hN := norm2_nonneg 4 (fun i => ⟪f i⟫)
  have hη := rη_pos
  have hη' := rη_le
  obtain ⟨e1, e2⟩ := eps_bounds (F := F)
  -- a finite norm
  have run : ∀ r, v.calculateNorm = .ok r → Finite r → (Finite (r -ᶠ lit 1)) →
      Quat.isVersor v = .ok (decide (|⟪r -ᶠ lit 1⟫| ≤ ⟪(EPSILON : F)⟫)) := by
    intro r hr hfin hs
    have hab := R.abs_finite hs
    have hcl : allcloseL r (lit 1) (EPSILON : F) = .ok (Scalar.abs (r -ᶠ lit 1) ≤ᶠ EPSILON) := by
      unfold allcloseL Utils.allclose Utils.isValidValue
      simp [hfin.1, hfin.2, R.one_finite.1, R.one_finite.2]
    have hle : (Scalar.abs (r -ᶠ lit 1) ≤ᶠ EPSILON) = decide (|⟪r -ᶠ lit 1⟫| ≤ ⟪(EPSILON : F)⟫) := by
      rw [Bool.eq_iff_iff, R.le_val hab eps_fin, R.abs_val hs, decide_eq_true_iff]
    unfold Quat.isVersor
    simp only [Quat.isQuaternion_eq hv, Res.ok_bind, decide_true, Bool.not_true, Bool.false_eq_true,
      if_false, hr, hcl, hle]
    by_cases h : |⟪r -ᶠ lit 1⟫| ≤ ⟪(EPSILON : F)⟫ <;> simp [h]
  have subs : ∀ r : F, Finite r → |⟪r⟫| ≤ 2 ^ 64 → Finite (r -ᶠ lit 1) ∧
      |⟪r -ᶠ lit 1⟫ - (⟪r⟫ - 1)| ≤ |⟪r⟫ - 1| / 16777216 + rη := by
    intro r hr hb
    have hfin : Finite (r -ᶠ lit 1) := R.sub_finite hr R.one_finite (by
      rw [R.one_val]
      have := abs_sub ⟪r⟫ 1
      norm_num at this hb ⊢
      linarith)
    have := (R.sub_near hr R.one_finite hfin).bound
    rw [R.one_val] at this
    exact ⟨hfin, this⟩
  obtain ⟨r, hr, hcase⟩ := norm_cases hv hf
  set N := norm2 4 (fun i => ⟪f i⟫) with hNdef
  refine ⟨fun h => ?_, fun h hle => ?_, fun h => ?_⟩
  · rcases hcase with ⟨h1, h2⟩ | ⟨h1, h2, h3⟩ | ⟨h1, h2, h3, h4, h5⟩
    · have := (abs_le.mp h).2
      norm_num at this h2
      linarith
    · have := (abs_le.mp h).1
      norm_num at this h3
      linarith
    · have a := abs_le.mp h
      have b := abs_le.mp h5
      norm_num at a b
      obtain ⟨s1, s2⟩ := subs r h1 (by rw [abs_le]; constructor <;> norm_num <;> linarith [b.1, b.2, a.1, a.2])
      rw [run r hr h1 s1]
      congr 1
      rw [decide_eq_true_iff]
      have c : |⟪r⟫ - 1| ≤ 993 / 10 ^ 7 := by
        rw [abs_le]; constructor <;> norm_num <;> linarith [b.1, b.2, a.1, a.2]
      have d := abs_sub_abs_le_abs_sub ⟪r -ᶠ lit 1⟫ (⟪r⟫ - 1)
      norm_num at c hη' e1
      linarith
  · rcases hcase with ⟨h1, h2⟩ | ⟨h1, h2, h3⟩ | ⟨h1, h2, h3, h4, h5⟩
    · exact absurd h2 (not_lt.mpr hle)
    · obtain ⟨s1, s2⟩ := subs r h1 (by rw [h2]; norm_num)
      rw [run r hr h1 s1]
      congr 1
      rw [decide_eq_false_iff_not, not_le]
      rw [h2] at s2
      have d := abs_sub_abs_le_abs_sub (0 - 1 : ℝ) ⟪r -ᶠ lit 1⟫
      rw [abs_sub_comm] at s2
      norm_num at s2 d e2 hη'
      linarith
    · have b := abs_le.mp h5
      norm_num at b hle
      obtain ⟨s1, s2⟩ := subs r h1 (by rw [abs_le]; constructor <;> norm_num <;> linarith [b.1, b.2])
      rw [run r hr h1 s1]
      congr 1
      rw [decide_eq_false_iff_not, not_le]
      have c : 1007 / 10 ^ 7 ≤ |⟪r⟫ - 1| := by
        rcases le_abs.mp h with h | h
        · refine le_trans ?_ (le_abs_self _)
          norm_num at h ⊢
          linarith [b.1]
        · refine le_trans ?_ (neg_le_abs _)
          norm_num at h ⊢
          linarith [b.2]
      have d := abs_sub_abs_le_abs_sub (⟪r⟫ - 1) ⟪r -ᶠ lit 1⟫
      rw [abs_sub_comm] at s2
      norm_num at c hη' e2
      linarith
  · rcases hcase with ⟨h1, h2⟩ | ⟨h1, h2, h3⟩ | ⟨h1, h2, h3, h4, h5⟩
    · unfold Quat.isVersor
      simp only [Quat.isQuaternion_eq hv, Res.ok_bind, decide_true, Bool.not_true, Bool.false_eq_true,
        if_false, hr]
      have : allcloseL r (lit 1) (EPSILON : F) = .error (.err (.UtilsError .Inf)) := by
        unfold allcloseL Utils.allclose Utils.isValidValue
        rw [h1.1, h1.2.1]
        rfl
      rw [this]
      rfl
    · norm_num at h h3
      linarith
    · exact absurd h4 (not_le.mpr h)

/-- C78: what `normalize` returns is a versor for `is_versor`, unless it is the zero vector. -/
theorem C78_normalize {v : Vec F} (hv : VecIs v 4 f) (hf : ∀ i, i < 4 → Finite (f i)) :
    ∃ w g, v.normalize = (.ok (), w) ∧ VecIs w 4 g ∧
      ((∃ i, i < 4 ∧ ⟪g i⟫ ≠ 0) → Quat.isVersor w = .ok true) ∧
      ((∀ i, i < 4 → ⟪g i⟫ = 0) → Quat.isVersor w = .ok false) := by
  obtain ⟨w, g, h1, h2, h3, h4⟩ := C77_normalize hv hf
  refine ⟨w, g, h1, h2, ?_⟩
  obtain ⟨k1, k2, -⟩ := C78_versor h2 h3
  rcases h4 with ⟨h4, -⟩ | ⟨h4, -⟩
  · have e : norm2 4 (fun i => ⟪g i⟫) = 0 := by
      rw [norm2, Finset.sum_eq_zero fun i hi => by rw [h4 i (Finset.mem_range.mp hi)]; norm_num,
        Real.sqrt_zero]
    exact ⟨fun ⟨i, hi, hne⟩ => absurd (h4 i hi) hne,
      fun _ => k2 (by rw [e]; norm_num) (by rw [e]; norm_num)⟩
  · refine ⟨fun _ => k1 (h4.trans (by norm_num)), fun h0 => ?_⟩
    rw [norm2, Finset.sum_eq_zero fun i hi => by rw [h0 i (Finset.mem_range.mp hi)]; norm_num,
      Real.sqrt_zero] at h4
    norm_num at h4

end Norm

/-! ### Concrete cases in binary32 -/

/-- A binary32 vector with the given rational contents. -/
def fvec (l : List ℚ) : Vec F32 := Vec.of l.length (fun i => (lit (l.getD i 0) : F32))

/-- The contents of a vector after a successful call. -/
def contents (n : Nat) (r : Res LinalgError Unit × Vec F32) : List F32 :=
  match r with
  | (.ok (), w) => (List.range n).map fun i => match w.getElement i with
    | .ok x => x
    | .error _ => ⟨.nan⟩
  | _ => []

/-- (3, 4): the norm is 5, and the normalised vector is (0.6, 0.8), rounded. -/
example : (fvec [3, 4]).calculateNorm = .ok (lit 5) ∧
    contents 2 (fvec [3, 4]).normalize = [lit (6 / 10), lit (8 / 10)] := by decide +kernel
/-- The hypotheses of the theorems hold for it. -/
example : ∃ w g, (fvec [3, 4]).normalize = (.ok (), w) ∧ VecIs w 2 g ∧
    |(norm2 2 fun i => ⟪g i⟫) - 1| ≤ 1 / 10 ^ 6 := by
  have hv : VecIs (fvec [3, 4]) 2 (fun i => lit (([3, 4] : List ℚ).getD i 0)) := Vec.of_is _ (by decide) (by decide)
  have e3 : ⟪(lit 3 : F32)⟫ = 3 := by
    rw [show (lit 3 : F32) = ⟨.fin 3⟩ by decide +kernel]
    show ((3 : ℚ) : ℝ) = 3
    norm_num
  have e4 : ⟪(lit 4 : F32)⟫ = 4 := by
    rw [show (lit 4 : F32) = ⟨.fin 4⟩ by decide +kernel]
    show ((4 : ℚ) : ℝ) = 4
    norm_num
  have hN : norm2 2 (fun i => ⟪(lit (([3, 4] : List ℚ).getD i 0) : F32)⟫) = 5 := by
    rw [norm2, Finset.sum_range_succ, Finset.sum_range_one]
    show √(⟪(lit 3 : F32)⟫ ^ 2 + ⟪(lit 4 : F32)⟫ ^ 2) = 5
    rw [e3, e4, show (3 : ℝ) ^ 2 + 4 ^ 2 = 5 ^ 2 by norm_num]
    exact Real.sqrt_sq (by norm_num)
  obtain ⟨w, g, h1, h2, h3, ⟨h4, h5⟩ | h4⟩ := C77_normalize hv (by decide +kernel)
  · rw [hN] at h5
    norm_num at h5
  · exact ⟨w, g, h1, h2, h4.1⟩
/-- A vector of length `2¹⁰⁰`: the norm is infinite and the normalised vector is 0, without an error. -/
example : (fvec [2 ^ 100, 0, 0, 0]).calculateNorm = .ok ⟨.pinf⟩ ∧
    contents 4 (fvec [2 ^ 100, 0, 0, 0]).normalize = [lit 0, lit 0, lit 0, lit 0] ∧
    Quat.isVersor (fvec [2 ^ 100, 0, 0, 0]) = .error (.err (.UtilsError .Inf)) := by decide +kernel
/-- The scalar product `0.1 · 10 + 1 · (-1)`, which is not 0 in exact arithmetic but is in binary32. -/
example : (fvec [1 / 10, 1]).dotProduct (fvec [10, -1]) = .ok (lit 0) ∧ (lit (1 / 10) : F32) ≠ ⟨.fin (1 / 10)⟩ := by
  decide +kernel

end Verif
