import Verif.Props.RoundedUpper

set_option linter.unusedSectionVars false
set_option linter.unusedSimpArgs false

/-!
# The trace, the Frobenius norm and the outer product in binary32

`trace`, `calculate_frobenius_norm` (`linalg/src/matrix.rs`) and `outer_product` (`linalg/src/vector.rs`).
The sums have up to 16 terms, so that the lemmas on dot products (up to 4 terms) do not suffice.
-/

namespace Verif
open Scalar Finset

variable {F : Type} [Scalar F] [R : Rounded F]

/-! ### Sums of up to 16 terms -/

theorem long_step {s x r S A : ℝ} {k : Nat} (hk : k ≤ 15) (hS : |S| ≤ A)
    (hs : |s - S| ≤ 2 * k * (ru * A + rη)) (hr : Near r (s + x)) :
    |r - (S + x)| ≤ 2 * (k + 1) * (ru * (A + |x|) + rη) := by
  have hη := rη_pos
  have hA : 0 ≤ A := (abs_nonneg S).trans hS
  have hx := abs_nonneg x
  have hk' : (k : ℝ) ≤ 15 := by exact_mod_cast hk
  have hk0 : (0 : ℝ) ≤ k := Nat.cast_nonneg k
  unfold Near at hr
  rw [Linalg.ru_eq] at *
  have e1 : |s + x| ≤ |s - S| + A + |x| := by
    have a1 := abs_add_le ((s - S) + S) x
    have a2 := abs_add_le (s - S) S
    rw [show s - S + S + x = s + x by ring] at a1
    linarith
  have e2 : |r - (S + x)| ≤ |r - (s + x)| + |s - S| := by
    have := abs_add_le (r - (s + x)) (s - S)
    rwa [show r - (s + x) + (s - S) = r - (S + x) by ring] at this
  have e3 : 2 * k * (1 / 2 ^ 24 * A + rη) ≤ 30 * (1 / 2 ^ 24 * A + rη) :=
    mul_le_mul_of_nonneg_right (by linarith) (by positivity)
  have e4 : 0 ≤ (k : ℝ) * |x| := by positivity
  norm_num at hr hs e1 e2 e3 e4 ⊢
  linarith

theorem long_sum {n : Nat} (hn : n ≤ 16) {x : Nat → F} (hx : ∀ i, i < n → Finite (x i))
    (hb : ∑ i ∈ range n, |⟪x i⟫| ≤ 2 ^ 126) : ∀ k, k ≤ n → Finite (sumUp k x) ∧
      |⟪sumUp k x⟫ - ∑ i ∈ range k, ⟪x i⟫| ≤ 2 * k * (ru * ∑ i ∈ range k, |⟪x i⟫| + rη) := by
  intro k
  induction k with
  | zero =>
    intro _
    refine ⟨R.zero_finite, ?_⟩
    rw [show sumUp 0 x = lit 0 from rfl, R.zero_val]
    simp
  | succ k ih =>
    intro hk
    obtain ⟨h1, h2⟩ := ih (by omega)
    have hxk := hx k (by omega)
    have hS : |∑ i ∈ range k, ⟪x i⟫| ≤ ∑ i ∈ range k, |⟪x i⟫| := Finset.abs_sum_le_sum_abs _ _
    have hle : ∑ i ∈ range (k + 1), |⟪x i⟫| ≤ 2 ^ 126 :=
      (Finset.sum_le_sum_of_subset_of_nonneg (Finset.range_subset_range.mpr hk) fun _ _ _ => abs_nonneg _).trans hb
    rw [Finset.sum_range_succ] at hle
    have hfin : Finite (sumUp k x +ᶠ x k) := by
      refine R.add_finite h1 hxk ?_
      have hk' : (k : ℝ) ≤ 16 := by exact_mod_cast (by omega : k ≤ 16)
      have hxn : 0 ≤ |⟪x k⟫| := abs_nonneg _
      have hA : 0 ≤ ∑ i ∈ range k, |⟪x i⟫| := Finset.sum_nonneg fun _ _ => abs_nonneg _
      have a1 := abs_add_le (⟪sumUp k x⟫ - ∑ i ∈ range k, ⟪x i⟫) (∑ i ∈ range k, ⟪x i⟫)
      rw [sub_add_cancel] at a1
      have a2 := abs_add_le ⟪sumUp k x⟫ ⟪x k⟫
      have a3 : 2 * k * (ru * ∑ i ∈ range k, |⟪x i⟫| + rη) ≤ 32 * (ru * ∑ i ∈ range k, |⟪x i⟫| + rη) := by
        have := rη_pos
        exact mul_le_mul_of_nonneg_right (by linarith) (add_nonneg (mul_nonneg (by rw [Linalg.ru_eq]; norm_num) hA) this.le)
      have h4 : rη ≤ 1 / 4 := by rw [rη_eq]; norm_num
      rw [Linalg.ru_eq] at a3 h2
      norm_num at a3 h2 h4 hle ⊢
      linarith
    refine ⟨hfin, ?_⟩
    rw [Finset.sum_range_succ, Finset.sum_range_succ]
    push_cast
    exact long_step (by omega) hS h2 (R.add_near h1 hxk hfin)

/-- A sum of numbers that are not negative is not negative. -/
theorem long_nonneg {n : Nat} {x : Nat → F} (hx : ∀ i, i < n → Finite (x i)) (h0 : ∀ i, i < n → 0 ≤ ⟪x i⟫)
    (hs : ∀ k, k ≤ n → Finite (sumUp k x)) : ∀ k, k ≤ n → 0 ≤ ⟪sumUp k x⟫ := by
  intro k
  induction k with
  | zero => intro _; exact (R.zero_val (F := F)).ge
  | succ k ih =>
    intro hk
    exact R.add_nonneg (hs k (by omega)) (hx k (by omega)) (hs (k + 1) hk) (add_nonneg (ih (by omega)) (h0 k (by omega)))

/-- Row by row is entry by entry. -/
theorem sum_rows (r : Nat) {c : Nat} (hc : 0 < c) (g : Nat → Nat → ℝ) :
    ∑ p ∈ range (r * c), g (p / c) (p % c) = ∑ i ∈ range r, ∑ j ∈ range c, g i j := by
  induction r with
  | zero => simp
  | succ r ih =>
    rw [Nat.succ_mul, Finset.sum_range_add, ih, Finset.sum_range_succ]
    congr 1
    refine Finset.sum_congr rfl fun j hj => ?_
    have hj := Finset.mem_range.mp hj
    rw [Nat.mul_comm r c, Nat.mul_add_div hc, Nat.div_eq_of_lt hj, Nat.mul_add_mod, Nat.mod_eq_of_lt hj, Nat.add_zero]

/-! ### The trace -/

/-- C138: the trace of a square matrix whose diagonal does not overflow is the exact sum up to rounding. -/
theorem C138_trace {a : Mat F} {n : Nat} {f : Nat → Nat → F} (ha : MatIs a n n f)
    (hf : ∀ i, i < n → Finite (f i i)) (hb : ∑ i ∈ range n, |⟪f i i⟫| ≤ 2 ^ 126) :
    ∃ t, a.trace = .ok t ∧ Finite t ∧
      |⟪t⟫ - ∑ i ∈ range n, ⟪f i i⟫| ≤ 8 / 2 ^ 24 * (∑ i ∈ range n, |⟪f i i⟫|) + 1 / 2 ^ 147 := by
  have hn := ha.rle
  obtain ⟨h1, h2⟩ := long_sum (x := fun i => f i i) (by omega) hf hb n le_rfl
  refine ⟨_, (C33_trace ha).1 rfl, h1, h2.trans ?_⟩
  have hA : 0 ≤ ∑ i ∈ range n, |⟪f i i⟫| := Finset.sum_nonneg fun _ _ => abs_nonneg _
  have hk : (n : ℝ) ≤ 4 := by exact_mod_cast hn
  have : 2 * n * (ru * ∑ i ∈ range n, |⟪f i i⟫| + rη) ≤ 8 * (ru * ∑ i ∈ range n, |⟪f i i⟫| + rη) :=
    mul_le_mul_of_nonneg_right (by linarith) (add_nonneg (mul_nonneg (by rw [Linalg.ru_eq]; norm_num) hA) rη_pos.le)
  rw [Linalg.ru_eq, rη_eq] at *
  norm_num at *
  linarith

/-! ### The Frobenius norm -/

/-- The square root of a perturbed square. -/
theorem sqrt_shift {s N c d : ℝ} (hs : 0 ≤ s) (hN : 0 ≤ N) (hc : 0 ≤ c) (hd : 0 ≤ d)
    (h : |s - N ^ 2| ≤ c * N ^ 2 + d ^ 2) : |√s - N| ≤ c * N + d := by
  have h0 := Real.sqrt_nonneg s
  have hsq := Real.sq_sqrt hs
  have hcN := mul_nonneg hc hN
  by_cases hlt : √s + N < d
  · rw [abs_le]; constructor <;> linarith
  · push Not at hlt
    by_contra hgt
    push Not at hgt
    have e : |s - N ^ 2| = |√s - N| * (√s + N) := by
      rw [show |√s - N| * (√s + N) = |√s - N| * |√s + N| by rw [abs_of_nonneg (add_nonneg h0 hN)], ← abs_mul]
      congr 1
      linear_combination -hsq
    rw [e] at h
    rcases (add_nonneg h0 hN).eq_or_lt with hz | hz
    · have h1 : √s = 0 := by linarith
      have h2 : N = 0 := by linarith
      rw [h1, h2] at hgt
      simp at hgt
      linarith
    · have h1 : (c * N + d) * (√s + N) < |√s - N| * (√s + N) := mul_lt_mul_of_pos_right hgt hz
      have h2 : d * d ≤ d * (√s + N) := mul_le_mul_of_nonneg_left hlt hd
      have h3 : c * N * N ≤ c * N * (√s + N) := mul_le_mul_of_nonneg_left (by linarith) hcN
      nlinarith

/-- C138: the Frobenius norm of a matrix whose norm is at most `2⁶²` is accurate, however small it is. -/
theorem C138_frobenius {a : Mat F} {r c : Nat} {f : Nat → Nat → F} (ha : MatIs a r c f)
    (hf : ∀ i j, i < r → j < c → Finite (f i j))
    (hb : √(∑ i ∈ range r, ∑ j ∈ range c, ⟪f i j⟫ ^ 2) ≤ 2 ^ 62) :
    ∃ t, a.calculateFrobeniusNorm = .ok t ∧ Finite t ∧
      |⟪t⟫ - √(∑ i ∈ range r, ∑ j ∈ range c, ⟪f i j⟫ ^ 2)| ≤
        36 / 2 ^ 24 * √(∑ i ∈ range r, ∑ j ∈ range c, ⟪f i j⟫ ^ 2) + 1 / 2 ^ 71 := by
  have hr := ha.rle
  have hc := ha.cle
  have hrc : r * c ≤ 16 := (Nat.mul_le_mul hr hc).trans (by norm_num)
  have hQ0 : 0 ≤ ∑ i ∈ range r, ∑ j ∈ range c, ⟪f i j⟫ ^ 2 :=
    Finset.sum_nonneg fun _ _ => Finset.sum_nonneg fun _ _ => sq_nonneg _
  have hsum := sum_rows r ha.cpos (fun i j => ⟪f i j⟫ ^ 2)
  have hN0 := Real.sqrt_nonneg (∑ i ∈ range r, ∑ j ∈ range c, ⟪f i j⟫ ^ 2)
  have hNQ := Real.sq_sqrt hQ0
  rw [← hsum] at hNQ hN0 hb ⊢
  generalize hNd : √(∑ p ∈ range (r * c), ⟪f (p / c) (p % c)⟫ ^ 2) = N at *
  generalize hyd : (fun p => f (p / c) (p % c)) = y at *
  have hye : ∀ p, f (p / c) (p % c) = y p := fun p => by rw [← hyd]
  have hfr := C33_frobenius ha
  simp only [hye] at hNQ hfr
  have hy : ∀ p, p < r * c → Finite (y p) := fun p hp => by
    rw [← hye]
    exact hf _ _ ((Nat.div_lt_iff_lt_mul ha.cpos).mpr hp) (Nat.mod_lt _ ha.cpos)
  generalize r * c = n at *
  have hN2 : N ^ 2 ≤ 2 ^ 124 := by
    calc N ^ 2 ≤ (2 ^ 62) ^ 2 := pow_le_pow_left₀ hN0 hb 2
      _ = 2 ^ 124 := by norm_num
  have hle : ∀ p, p < n → ⟪y p⟫ * ⟪y p⟫ ≤ N ^ 2 := fun p hp => by
    rw [hNQ, ← sq]
    exact Finset.single_le_sum (f := fun p => ⟪y p⟫ ^ 2) (fun _ _ => sq_nonneg _) (Finset.mem_range.mpr hp)
  have hpf : ∀ p, p < n → Finite (y p *ᶠ y p) := fun p hp => by
    refine R.mul_finite (hy p hp) (hy p hp) ?_
    rw [abs_of_nonneg (mul_self_nonneg _)]
    exact (hle p hp).trans (hN2.trans (by norm_num))
  have hp0 : ∀ p, p < n → 0 ≤ ⟪y p *ᶠ y p⟫ := fun p hp =>
    R.mul_nonneg (hy p hp) (hy p hp) (hpf p hp) (mul_self_nonneg _)
  have hpn : ∀ p, p < n → |⟪y p *ᶠ y p⟫ - ⟪y p⟫ ^ 2| ≤ ru * ⟪y p⟫ ^ 2 + rη := fun p hp => by
    have := R.mul_near (hy p hp) (hy p hp) (hpf p hp)
    unfold Near at this
    rwa [abs_of_nonneg (mul_self_nonneg ⟪y p⟫), ← sq] at this
  have hnr : (n : ℝ) ≤ 16 := by exact_mod_cast hrc
  have hη := rη_pos
  have hd : |∑ p ∈ range n, ⟪y p *ᶠ y p⟫ - N ^ 2| ≤ ru * N ^ 2 + 16 * rη := by
    rw [hNQ, ← Finset.sum_sub_distrib]
    refine (Finset.abs_sum_le_sum_abs _ _).trans ((Finset.sum_le_sum fun p hp => hpn p (Finset.mem_range.mp hp)).trans ?_)
    rw [Finset.sum_add_distrib, ← Finset.mul_sum, Finset.sum_const, Finset.card_range, nsmul_eq_mul]
    have := mul_le_mul_of_nonneg_right hnr hη.le
    linarith
  have habs : ∑ p ∈ range n, |⟪y p *ᶠ y p⟫| = ∑ p ∈ range n, ⟪y p *ᶠ y p⟫ :=
    Finset.sum_congr rfl fun p hp => abs_of_nonneg (hp0 p (Finset.mem_range.mp hp))
  have hN20 := sq_nonneg N
  have hP := (abs_le.mp hd).2
  have hη1 : rη = 1 / 2 ^ 150 := by rw [rη_eq]
  have hP0 : 0 ≤ ∑ p ∈ range n, ⟪y p *ᶠ y p⟫ := Finset.sum_nonneg fun p hp => hp0 p (Finset.mem_range.mp hp)
  have key := long_sum hrc hpf (by
    rw [habs]
    rw [Linalg.ru_eq, hη1] at hP
    norm_num at hP hN2 ⊢
    linarith)
  obtain ⟨k1, k2⟩ := key n le_rfl
  have k0 := long_nonneg hpf hp0 (fun k hk => (key k hk).1) n le_rfl
  rw [habs] at k2
  refine ⟨_, hfr, R.sqrt_finite k1 k0, ?_⟩
  have hn := R.sqrt_near k1 k0
  generalize (sumUp n fun p => y p *ᶠ y p) = s at *
  have k3 : 2 * n * (ru * ∑ p ∈ range n, ⟪y p *ᶠ y p⟫ + rη) ≤ 32 * (ru * ∑ p ∈ range n, ⟪y p *ᶠ y p⟫ + rη) :=
    mul_le_mul_of_nonneg_right (by linarith) (add_nonneg (mul_nonneg (by rw [Linalg.ru_eq]; norm_num) hP0) hη.le)
  have htot : |⟪s⟫ - N ^ 2| ≤ 34 / 2 ^ 24 * N ^ 2 + (1 / 2 ^ 72) ^ 2 := by
    have e := abs_add_le (⟪s⟫ - ∑ p ∈ range n, ⟪y p *ᶠ y p⟫) (∑ p ∈ range n, ⟪y p *ᶠ y p⟫ - N ^ 2)
    rw [sub_add_sub_cancel] at e
    rw [Linalg.ru_eq, hη1] at hd k2 k3 hP
    norm_num at hd k2 k3 hP ⊢
    linarith
  have hsh := sqrt_shift k0 hN0 (by norm_num) (by norm_num) htot
  have hsN := (abs_le.mp hsh).2
  have e := abs_add_le (⟪Scalar.sqrt s⟫ - √⟪s⟫) (√⟪s⟫ - N)
  rw [sub_add_sub_cancel] at e
  rw [Linalg.ru_eq] at hn
  norm_num at hn hsh hsN ⊢
  linarith

/-- Squares sum up to a finite number that is not negative or to infinity. -/
theorem squares_cases {n : Nat} {y : Nat → F} (hy : ∀ p, p < n → Finite (y p)) : ∀ k, k ≤ n →
    ((Finite (sumUp k fun p => y p *ᶠ y p) ∧ 0 ≤ ⟪sumUp k fun p => y p *ᶠ y p⟫) ∨
      PosInf (sumUp k fun p => y p *ᶠ y p)) ∧
    ∀ q, q < k → (2 : ℝ) ^ 65 ≤ |⟪y q⟫| → PosInf (sumUp k fun p => y p *ᶠ y p) := by
  intro k
  induction k with
  | zero => exact fun _ => ⟨.inl ⟨R.zero_finite, (R.zero_val (F := F)).ge⟩, fun q h => absurd h (Nat.not_lt_zero q)⟩
  | succ k ih =>
    intro hk
    obtain ⟨h1, h2⟩ := ih (by omega)
    have hyk := hy k (by omega)
    have hsq := mul_self_nonneg ⟪y k⟫
    have hp : Finite (y k *ᶠ y k) ∨ PosInf (y k *ᶠ y k) := by
      by_cases h : Finite (y k *ᶠ y k)
      · exact .inl h
      · exact .inr (R.mul_inf hyk hyk hsq h)
    have hinf : PosInf (y k *ᶠ y k) → PosInf (sumUp (k + 1) fun p => y p *ᶠ y p) := fun h => by
      rcases h1 with h1 | h1
      · exact R.fin_add_inf h1.1 h
      · exact R.inf_add h1 (.inr h)
    refine ⟨?_, fun q hq hb => ?_⟩
    · rcases h1 with ⟨h1, h0⟩ | h1
      · rcases hp with hp | hp
        · have hp0 := R.mul_nonneg hyk hyk hp hsq
          by_cases hfin : Finite (sumUp (k + 1) fun p => y p *ᶠ y p)
          · exact .inl ⟨hfin, R.add_nonneg h1 hp hfin (add_nonneg h0 hp0)⟩
          · exact .inr (R.add_inf h1 hp (add_nonneg h0 hp0) hfin)
        · exact .inr (hinf hp)
      · exact .inr (R.inf_add h1 hp)
    · rcases Nat.lt_succ_iff_lt_or_eq.mp hq with hq | rfl
      · exact R.inf_add (h2 q hq hb) hp
      · refine hinf (hp.resolve_left fun h => ?_)
        have a1 := R.mul_lt hyk hyk h
        have a2 := R.mul_near hyk hyk h
        unfold Near at a2
        have a3 : (2 : ℝ) ^ 130 ≤ |⟪y q⟫ * ⟪y q⟫| := by
          rw [abs_mul]
          calc (2 : ℝ) ^ 130 = 2 ^ 65 * 2 ^ 65 := by norm_num
            _ ≤ _ := mul_le_mul hb hb (by norm_num) (abs_nonneg _)
        have a4 := abs_sub_abs_le_abs_sub (⟪y q⟫ * ⟪y q⟫) ⟪y q *ᶠ y q⟫
        rw [abs_sub_comm] at a4
        rw [Linalg.ru_eq, rη_eq] at a2
        norm_num at a1 a2 a3 a4
        linarith

/-- C138: the Frobenius norm of finite entries always succeeds and is finite or infinite, not NaN; an
entry of at least `2⁶⁵` makes it infinite although the norm itself may be far below the largest number. -/
theorem C138_overflow {a : Mat F} {r c : Nat} {f : Nat → Nat → F} (ha : MatIs a r c f)
    (hf : ∀ i j, i < r → j < c → Finite (f i j)) :
    ∃ t, a.calculateFrobeniusNorm = .ok t ∧ (Finite t ∨ PosInf t) ∧
      ∀ i j, i < r → j < c → 2 ^ 65 ≤ |⟪f i j⟫| → PosInf t := by
  have hy : ∀ p, p < r * c → Finite (f (p / c) (p % c)) := fun p hp =>
    hf _ _ ((Nat.div_lt_iff_lt_mul ha.cpos).mpr hp) (Nat.mod_lt _ ha.cpos)
  obtain ⟨h1, h2⟩ := squares_cases hy (r * c) le_rfl
  refine ⟨_, C33_frobenius ha, ?_, fun i j hi hj hb => R.sqrt_inf (h2 (i * c + j) ?_ ?_)⟩
  · exact h1.imp (fun h => R.sqrt_finite h.1 h.2) R.sqrt_inf
  · calc i * c + j < i * c + c := by omega
      _ = (i + 1) * c := by ring
      _ ≤ r * c := Nat.mul_le_mul_right _ hi
  · rw [Nat.mul_comm i c, Nat.mul_add_div ha.cpos, Nat.div_eq_of_lt hj, Nat.mul_add_mod, Nat.mod_eq_of_lt hj, Nat.add_zero]
    exact hb

/-! ### The outer product -/

/-- C138: the outer product of two vectors, every product rounded once. -/
theorem C138_outer {v w : Vec F} {n m : Nat} {f g : Nat → F} (hv : VecIs v n f) (hw : VecIs w m g)
    (hf : ∀ i, i < n → Finite (f i)) (hg : ∀ j, j < m → Finite (g j))
    (hb : ∀ i j, i < n → j < m → |⟪f i⟫ * ⟪g j⟫| ≤ 2 ^ 127) :
    ∃ a h, v.outerProduct w = .ok a ∧ MatIs a n m h ∧ ∀ i j, i < n → j < m → Finite (h i j) ∧
      |⟪h i j⟫ - ⟪f i⟫ * ⟪g j⟫| ≤ 1 / 2 ^ 24 * |⟪f i⟫ * ⟪g j⟫| + 1 / 2 ^ 150 := by
  have hfin : ∀ i j, i < n → j < m → Finite (f i *ᶠ g j) := fun i j hi hj => R.mul_finite (hf i hi) (hg j hj) (hb i j hi hj)
  obtain ⟨a, e⟩ := (C33_outer hv hw).1.mpr hfin
  refine ⟨a, _, e, (C33_outer hv hw).2 a e, fun i j hi hj => ⟨hfin i j hi hj, ?_⟩⟩
  have := R.mul_near (hf i hi) (hg j hj) (hfin i j hi hj)
  unfold Near at this
  rw [Linalg.ru_eq, rη_eq] at this
  rw [show (1 : ℝ) / 2 ^ 24 = 1 / 16777216 by norm_num]
  exact this

/-! ### Examples -/

/-- The trace of ((1, 2), (2, 4)) is 5 and its Frobenius norm is 5, up to rounding. -/
example : (∃ t, (fmat [[1, 2], [2, 4]]).trace = .ok t ∧ |⟪t⟫ - 5| ≤ 1 / 10 ^ 5) ∧
    ∃ t, (fmat [[1, 2], [2, 4]]).calculateFrobeniusNorm = .ok t ∧ |⟪t⟫ - 5| ≤ 2 / 10 ^ 5 := by
  have h1 : ⟪(lit 1 : F32)⟫ = ((1 : ℚ) : ℝ) := toReal_rat (by decide +kernel)
  have h2 : ⟪(lit 2 : F32)⟫ = ((2 : ℚ) : ℝ) := toReal_rat (by decide +kernel)
  have h4 : ⟪(lit 4 : F32)⟫ = ((4 : ℚ) : ℝ) := toReal_rat (by decide +kernel)
  have hm : MatIs (fmat [[1, 2], [2, 4]]) 2 2 _ :=
    Mat.of_is _ (by norm_num) (by norm_num) (by norm_num) (by norm_num)
  have hfin : ∀ i j, i < 2 → j < 2 →
      Finite (lit (([[1, 2], [2, 4]] : List (List ℚ)).getD i [] |>.getD j 0) : F32) := by
    intro i j hi hj
    interval_cases i <;> interval_cases j <;> decide +kernel
  constructor
  · obtain ⟨t, e, -, h⟩ := C138_trace hm (fun i hi => hfin i i hi hi) (by
      simp [Finset.sum_range_succ, h1, h4]; norm_num)
    refine ⟨t, e, ?_⟩
    simp [Finset.sum_range_succ, h1, h4] at h
    norm_num at h ⊢
    linarith
  · have hs : √(∑ i ∈ range 2, ∑ j ∈ range 2,
        ⟪(lit (([[1, 2], [2, 4]] : List (List ℚ)).getD i [] |>.getD j 0) : F32)⟫ ^ 2) = 5 := by
      rw [show (5 : ℝ) = √(5 ^ 2) by rw [Real.sqrt_sq (by norm_num)]]
      congr 1
      simp [Finset.sum_range_succ, h1, h2, h4]
      norm_num
    obtain ⟨t, e, -, h⟩ := C138_frobenius hm hfin (by rw [hs]; norm_num)
    refine ⟨t, e, ?_⟩
    rw [hs] at h
    norm_num at h ⊢
    linarith

/-- The Frobenius norm of diag(2⁶⁵, 1) is infinite. -/
example : ∃ t, (fmat [[2 ^ 65, 0], [0, 1]]).calculateFrobeniusNorm = .ok t ∧ PosInf t := by
  have hm : MatIs (fmat [[2 ^ 65, 0], [0, 1]]) 2 2 _ :=
    Mat.of_is _ (by norm_num) (by norm_num) (by norm_num) (by norm_num)
  have h1 : ⟪(lit (2 ^ 65) : F32)⟫ = ((2 ^ 65 : ℚ) : ℝ) := toReal_rat (by decide +kernel)
  obtain ⟨t, e, -, h⟩ := C138_overflow hm (fun i j hi hj => by
    interval_cases i <;> interval_cases j <;> decide +kernel)
  refine ⟨t, e, h 0 0 (by norm_num) (by norm_num) ?_⟩
  show (2 : ℝ) ^ 65 ≤ |⟪(lit (2 ^ 65) : F32)⟫|
  rw [h1]
  norm_num

/-- The outer product of (1, 2) and (2, 4, 1) exists. -/
example : ∃ a h, (fvec [1, 2]).outerProduct (fvec [2, 4, 1]) = .ok a ∧ MatIs a 2 3 h ∧ |⟪h 1 1⟫ - 8| ≤ 1 / 10 ^ 6 := by
  have h1 : ⟪(lit 1 : F32)⟫ = ((1 : ℚ) : ℝ) := toReal_rat (by decide +kernel)
  have h2 : ⟪(lit 2 : F32)⟫ = ((2 : ℚ) : ℝ) := toReal_rat (by decide +kernel)
  have h4 : ⟪(lit 4 : F32)⟫ = ((4 : ℚ) : ℝ) := toReal_rat (by decide +kernel)
  have hv : VecIs (fvec [1, 2]) 2 _ := Vec.of_is _ (by norm_num) (by norm_num)
  have hw : VecIs (fvec [2, 4, 1]) 3 _ := Vec.of_is _ (by norm_num) (by norm_num)
  obtain ⟨a, h, e, hm, hk⟩ := C138_outer hv hw
    (fun i hi => by interval_cases i <;> decide +kernel) (fun i hi => by interval_cases i <;> decide +kernel)
    (fun i j hi hj => by interval_cases i <;> interval_cases j <;> simp [h1, h2, h4] <;> norm_num)
  refine ⟨a, h, e, hm, ?_⟩
  have := (hk 1 1 (by norm_num) (by norm_num)).2
  simp [h1, h2, h4] at this
  norm_num at this ⊢
  linarith

end Verif
