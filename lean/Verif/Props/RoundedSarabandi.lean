import Verif.Props.RoundedExtract

/-
`sarabandi` on the matrix of a quaternion, in binary32 (C103).
-/

set_option linter.unusedSectionVars false
set_option linter.unusedSimpArgs false

namespace Verif
open Scalar Finset

variable {F : Type} [Scalar F] [R : Rounded F] [H : Halves F]

/-! ### Square roots -/

theorem sqrt_sub_sqrt {a b : ℝ} (ha : 0 ≤ a) (hb : 0 ≤ b) : |√a - √b| ≤ √|a - b| := by
  have hs := Real.sqrt_nonneg a
  have ht := Real.sqrt_nonneg b
  refine Real.le_sqrt_of_sq_le ?_
  have e : a - b = (√a - √b) * (√a + √b) := by
    have h1 := Real.sq_sqrt ha
    have h2 := Real.sq_sqrt hb
    linear_combination h2 - h1
  rw [e, abs_mul, abs_of_nonneg (show 0 ≤ √a + √b by linarith), ← sq_abs, sq, abs_abs]
  have h : |√a - √b| ≤ √a + √b := abs_le.mpr ⟨by linarith, by linarith⟩
  exact mul_le_mul_of_nonneg_left h (abs_nonneg _)

/-- Half of a square root. -/
theorem Apx.half {t : F} {Y e e' : ℝ} (h : Apx t Y e) (hY : |Y| ≤ 3) (he : e ≤ 1)
    (he' : 1 / 2 * e + (3 / 2 + 1 / 2 * e) / 16777216 + 1 / 10 ^ 45 ≤ e') :
    Apx (lit (1 / 2) *ᶠ t) (1 / 2 * Y) e' := by
  refine (H.half.mul h (A := 1 / 2) (B := 3) (by norm_num [abs_of_pos]) hY (by norm_num; linarith)).mono ?_
  have hη := rη_le
  linarith

/-! ### `sarabandi` -/

/-- The second formula of `sarabandi` in real numbers: the square root of a quotient. -/
theorem quot_sqrt {P G V n g c : ℝ} (hP0 : 0 ≤ P) (hP : P ≤ 11 / 10) (hG : 17 / 10 ≤ G)
    (hV0 : 0 ≤ V) (hV : |V - P * G| ≤ 7 / 10 ^ 6) (hn : |n - V ^ 2| ≤ 1 / 10 ^ 6 * V ^ 2 + 1 / 10 ^ 40)
    (hg : |g - G ^ 2| ≤ 11 / 10 ^ 6) (hc : |c - n / g| ≤ 1 / 10 ^ 7 * (n / g) + 1 / 10 ^ 40) (hn0 : 0 ≤ n) :
    |√c - P| ≤ 12 / 10 ^ 6 := by
  obtain ⟨v1, v2⟩ := abs_le.mp hV
  obtain ⟨n1, n2⟩ := abs_le.mp hn
  obtain ⟨g1, g2⟩ := abs_le.mp hg
  obtain ⟨c1, c2⟩ := abs_le.mp hc
  have hGG : 289 / 100 ≤ G ^ 2 := by nlinarith
  have hg0 : 0 < g := by norm_num at g1; linarith
  have hG0 : 0 < G := by linarith
  -- `V` as a multiple of `G`
  have v3 : V ≤ G * (P + 42 / 10 ^ 7) := by nlinarith
  have v4 : G * (P - 42 / 10 ^ 7) ≤ V := by nlinarith
  -- `g` as a multiple of `G ^ 2`
  have g3 : G ^ 2 * (1 - 4 / 10 ^ 6) ≤ g := by norm_num at g1 ⊢; linarith
  have g4 : g ≤ G ^ 2 * (1 + 4 / 10 ^ 6) := by norm_num at g2 ⊢; linarith
  have hq0 : 0 ≤ n / g := by positivity
  have q1 : n / g ≤ (P + 42 / 10 ^ 7) ^ 2 * (1 + 6 / 10 ^ 6) + 1 / 10 ^ 39 := by
    rw [div_le_iff₀ hg0]
    have h1 : V ^ 2 ≤ G ^ 2 * (P + 42 / 10 ^ 7) ^ 2 := by
      rw [← mul_pow]
      exact pow_le_pow_left₀ hV0 v3 2
    have h2 : n ≤ (1 + 1 / 10 ^ 6) * (G ^ 2 * (P + 42 / 10 ^ 7) ^ 2) + 1 / 10 ^ 40 := by
      norm_num at n2 h1 ⊢
      linarith
    have h3 : G ^ 2 * (1 - 4 / 10 ^ 6) * ((P + 42 / 10 ^ 7) ^ 2 * (1 + 6 / 10 ^ 6) + 1 / 10 ^ 39) ≤
        g * ((P + 42 / 10 ^ 7) ^ 2 * (1 + 6 / 10 ^ 6) + 1 / 10 ^ 39) := by gcongr
    have h4 : 0 ≤ G ^ 2 * (P + 42 / 10 ^ 7) ^ 2 := by positivity
    rw [mul_comm _ g]
    refine h2.trans (le_trans ?_ h3)
    generalize (P + 42 / 10 ^ 7) ^ 2 = Q at *
    norm_num
    nlinarith
  have up : √c ≤ P + 12 / 10 ^ 6 := by
    refine Real.sqrt_le_iff.mpr ⟨by positivity, ?_⟩
    norm_num at q1 c2 ⊢
    nlinarith
  have lo : P - 12 / 10 ^ 6 ≤ √c := by
    rcases le_total P (12 / 10 ^ 6) with h | h
    · exact (sub_nonpos.mpr h).trans (Real.sqrt_nonneg _)
    · refine Real.le_sqrt_of_sq_le ?_
      have hp : 0 ≤ P - 42 / 10 ^ 7 := by norm_num at h ⊢; linarith
      have q2 : (P - 42 / 10 ^ 7) ^ 2 * (1 - 6 / 10 ^ 6) - 1 / 10 ^ 39 ≤ n / g := by
        rw [le_div_iff₀ hg0]
        have h1 : G ^ 2 * (P - 42 / 10 ^ 7) ^ 2 ≤ V ^ 2 := by
          rw [← mul_pow]
          exact pow_le_pow_left₀ (by positivity) v4 2
        have h2 : (1 - 1 / 10 ^ 6) * (G ^ 2 * (P - 42 / 10 ^ 7) ^ 2) - 1 / 10 ^ 40 ≤ n := by
          norm_num at n1 h1 ⊢
          linarith
        have h5 : 0 ≤ (P - 42 / 10 ^ 7) ^ 2 * (1 - 6 / 10 ^ 6) := by positivity
        have h3 : (P - 42 / 10 ^ 7) ^ 2 * (1 - 6 / 10 ^ 6) * g ≤
            (P - 42 / 10 ^ 7) ^ 2 * (1 - 6 / 10 ^ 6) * (G ^ 2 * (1 + 4 / 10 ^ 6)) := by gcongr
        have h4 : 0 ≤ G ^ 2 * (P - 42 / 10 ^ 7) ^ 2 := by positivity
        generalize (P - 42 / 10 ^ 7) ^ 2 = Q at *
        rw [sub_mul]
        norm_num at *
        nlinarith
      norm_num at q2 c1 h ⊢
      nlinarith
  rw [abs_le]
  constructor <;> linarith

/-- A sum of three squares. -/
theorem sq3_acc {a b c : F} (ha : Finite a) (hb : Finite b) (hc : Finite c) (ra : ⟪a⟫ * ⟪a⟫ ≤ 10) (rb : ⟪b⟫ * ⟪b⟫ ≤ 10)
    (rc : ⟪c⟫ * ⟪c⟫ ≤ 10) : Finite (a *ᶠ a +ᶠ b *ᶠ b +ᶠ c *ᶠ c) ∧ 0 ≤ ⟪a *ᶠ a +ᶠ b *ᶠ b +ᶠ c *ᶠ c⟫ ∧
      |⟪a *ᶠ a +ᶠ b *ᶠ b +ᶠ c *ᶠ c⟫ - (⟪a⟫ * ⟪a⟫ + ⟪b⟫ * ⟪b⟫ + ⟪c⟫ * ⟪c⟫)| ≤
        1 / 10 ^ 6 * (⟪a⟫ * ⟪a⟫ + ⟪b⟫ * ⟪b⟫ + ⟪c⟫ * ⟪c⟫) + 1 / 10 ^ 40 := by
  have hη := rη_le
  have hη0 := rη_pos
  norm_num at hη
  have big : (2 : ℝ) ^ 127 = 170141183460469231731687303715884105728 := by norm_num
  have aa := mul_self_nonneg ⟪a⟫
  have bb := mul_self_nonneg ⟪b⟫
  have cc := mul_self_nonneg ⟪c⟫
  have fa : Finite (a *ᶠ a) := R.mul_finite ha ha (by rw [abs_of_nonneg aa, big]; linarith)
  have fb : Finite (b *ᶠ b) := R.mul_finite hb hb (by rw [abs_of_nonneg bb, big]; linarith)
  have fc : Finite (c *ᶠ c) := R.mul_finite hc hc (by rw [abs_of_nonneg cc, big]; linarith)
  have ma := (R.mul_near ha ha fa).bound
  have mb := (R.mul_near hb hb fb).bound
  have mc := (R.mul_near hc hc fc).bound
  rw [abs_of_nonneg aa] at ma
  rw [abs_of_nonneg bb] at mb
  rw [abs_of_nonneg cc] at mc
  have ga := R.mul_nonneg ha ha fa aa
  have gb := R.mul_nonneg hb hb fb bb
  have gc := R.mul_nonneg hc hc fc cc
  generalize ⟪a⟫ * ⟪a⟫ = A at *
  generalize ⟪b⟫ * ⟪b⟫ = B at *
  generalize ⟪c⟫ * ⟪c⟫ = C at *
  generalize a *ᶠ a = x at *
  generalize b *ᶠ b = y at *
  generalize c *ᶠ c = z at *
  obtain ⟨ma1, ma2⟩ := abs_le.mp ma
  obtain ⟨mb1, mb2⟩ := abs_le.mp mb
  obtain ⟨mc1, mc2⟩ := abs_le.mp mc
  have fab : Finite (x +ᶠ y) := R.add_finite fa fb (by
    rw [abs_of_nonneg (add_nonneg ga gb), big]; linarith)
  have mab := (R.add_near fa fb fab).bound
  have gab := R.add_nonneg fa fb fab (add_nonneg ga gb)
  rw [abs_of_nonneg (add_nonneg ga gb)] at mab
  obtain ⟨mab1, mab2⟩ := abs_le.mp mab
  have fn : Finite (x +ᶠ y +ᶠ z) := R.add_finite fab fc (by
    rw [abs_of_nonneg (add_nonneg gab gc), big]; linarith)
  have mn := (R.add_near fab fc fn).bound
  have gn := R.add_nonneg fab fc fn (add_nonneg gab gc)
  rw [abs_of_nonneg (add_nonneg gab gc)] at mn
  obtain ⟨mn1, mn2⟩ := abs_le.mp mn
  refine ⟨fn, gn, ?_⟩
  rw [abs_le]
  constructor <;> norm_num <;> linarith

/-- The length of the exact numbers, and the length of the rounded ones. -/
theorem length_acc {a b c A B C p r s t G : ℝ} (hN : |p ^ 2 + r ^ 2 + s ^ 2 + t ^ 2 - 1| ≤ 21 / 10 ^ 7)
    (ha : |a - A| ≤ 23 / 10 ^ 7) (hb : |b - B| ≤ 23 / 10 ^ 7) (hc : |c - C| ≤ 23 / 10 ^ 7)
    (hA : A ^ 2 = 16 * (p ^ 2 * r ^ 2)) (hB : B ^ 2 = 16 * (p ^ 2 * s ^ 2)) (hC : C ^ 2 = 16 * (p ^ 2 * t ^ 2))
    (hp : |p| ≤ 502 / 1000) (hp2 : p ^ 2 ≤ 2501 / 10000) (hG : G ^ 2 = 4 * (1 - p ^ 2)) (hG1 : 17 / 10 ≤ G) :
    |√(a ^ 2 + b ^ 2 + c ^ 2) - 2 * |p| * G| ≤ 7 / 10 ^ 6 := by
  have hp0 := abs_nonneg p
  set U := √(A ^ 2 + B ^ 2 + C ^ 2) with hU
  have hU2 : U ^ 2 = 16 * (p ^ 2 * (r ^ 2 + s ^ 2 + t ^ 2)) := by
    rw [hU, Real.sq_sqrt (by positivity), hA, hB, hC]
    ring
  have k1 : |√(a ^ 2 + b ^ 2 + c ^ 2) - U| ≤ 4 / 10 ^ 6 := by
    have eV : √(a ^ 2 + b ^ 2 + c ^ 2) = ‖mkQ 0 a b c‖ := by rw [norm_mkQ]; congr 1; ring
    have eU : U = ‖mkQ 0 A B C‖ := by rw [norm_mkQ, hU]; congr 1; ring
    rw [eV, eU]
    refine (abs_norm_sub_norm_le _ _).trans ?_
    rw [mkQ_sub_three, norm_mkQ]
    refine Real.sqrt_le_iff.mpr ⟨by norm_num, ?_⟩
    have z1 := sq_le_sq' (abs_le.mp ha).1 (abs_le.mp ha).2
    have z2 := sq_le_sq' (abs_le.mp hb).1 (abs_le.mp hb).2
    have z3 := sq_le_sq' (abs_le.mp hc).1 (abs_le.mp hc).2
    norm_num at z1 z2 z3 ⊢
    linarith
  have k2 : |U - 2 * |p| * G| ≤ 3 / 10 ^ 6 := by
    set L := √(r ^ 2 + s ^ 2 + t ^ 2) with hL
    have hL2 : L ^ 2 = r ^ 2 + s ^ 2 + t ^ 2 := Real.sq_sqrt (by positivity)
    have hU3 : U = 4 * |p| * L := by
      have : U ^ 2 = (4 * |p| * L) ^ 2 := by rw [hU2, mul_pow, mul_pow, sq_abs, hL2]; ring
      exact (sq_eq_sq₀ (Real.sqrt_nonneg _) (by positivity)).mp this
    have hL1 : 8 / 10 ≤ L := Real.le_sqrt_of_sq_le (by
      have := (abs_le.mp hN).1
      norm_num at this ⊢
      linarith)
    have k3 : |2 * L - G| ≤ 26 / 10 ^ 7 := by
      have e : (2 * L - G) * (2 * L + G) = 4 * (p ^ 2 + r ^ 2 + s ^ 2 + t ^ 2 - 1) := by
        linear_combination 4 * hL2 - hG
      have h1 : |2 * L - G| * (2 * L + G) ≤ 84 / 10 ^ 7 := by
        rw [← abs_of_nonneg (show 0 ≤ 2 * L + G by linarith), ← abs_mul, e, abs_mul]
        norm_num at hN ⊢
        linarith
      have := abs_nonneg (2 * L - G)
      norm_num at h1 ⊢
      nlinarith
    rw [hU3, show 4 * |p| * L - 2 * |p| * G = 2 * |p| * (2 * L - G) by ring, abs_mul,
      abs_of_nonneg (by positivity)]
    have h2 := abs_nonneg (2 * L - G)
    calc 2 * |p| * |2 * L - G| ≤ 2 * (502 / 1000) * (26 / 10 ^ 7) := by gcongr
      _ ≤ _ := by norm_num
  refine (dist_trans k1 k2).trans (by norm_num)

/-- The first formula of `sarabandi`. -/
theorem sara_one {d : F} {p : ℝ} (hd : Apx d (4 * p ^ 2 - 1) (101 / 10 ^ 7)) (hp1 : |p| ≤ 1001 / 1000)
    (hp2 : 499 / 1000 ≤ |p|) : Apx (lit (1 / 2) *ᶠ Scalar.sqrt (lit 1 +ᶠ d)) |p| (1 / 10 ^ 5) := by
  have hη := rη_le
  norm_num at hη
  have hpp : |p| ^ 2 = p ^ 2 := sq_abs p
  have p0 := sq_nonneg p
  have p1 : p ^ 2 ≤ 1003 / 1000 := by rw [← hpp]; nlinarith
  have p2 : 249 / 1000 ≤ p ^ 2 := by rw [← hpp]; nlinarith
  have e1 : Apx (lit 1 +ᶠ d) ((2 * |p|) ^ 2) (104 / 10 ^ 7) := by
    have := Apx.one.add hd (B := 402 / 100) (by rw [abs_le]; constructor <;> linarith) (by norm_num)
    rw [show 1 + (4 * p ^ 2 - 1) = (2 * |p|) ^ 2 by rw [mul_pow, hpp]; ring] at this
    exact this.mono (by norm_num; linarith)
  have e2 := e1.sqrt (E := 55 / 10 ^ 7) (by linarith) (by rw [mul_pow, hpp]; norm_num; linarith)
    (by norm_num; linarith)
  have e3 := (e2.mono (e' := 58 / 10 ^ 7) (by norm_num; linarith)).half (e' := 1 / 10 ^ 5)
    (by rw [abs_of_nonneg (by linarith)]; linarith) (by norm_num) (by norm_num)
  rw [show 1 / 2 * (2 * |p|) = |p| by ring] at e3
  exact e3

/-- The division and the square root of the second formula of `sarabandi`. -/
theorem sara_two {n g : F} {P G V : ℝ} (hP0 : 0 ≤ P) (hP : P ≤ 11 / 10) (hG1 : 17 / 10 ≤ G) (hV0 : 0 ≤ V)
    (hVP : |V - P * G| ≤ 7 / 10 ^ 6) (fn : Finite n) (gn : 0 ≤ ⟪n⟫)
    (hn : |⟪n⟫ - V ^ 2| ≤ 1 / 10 ^ 6 * V ^ 2 + 1 / 10 ^ 40) (e1 : Apx g (G ^ 2) (11 / 10 ^ 6)) (nn : ⟪n⟫ ≤ 40) :
    Apx (lit (1 / 2) *ᶠ Scalar.sqrt (n /ᶠ g)) (1 / 2 * P) (1 / 10 ^ 5) := by
  have hη := rη_le
  have hη0 := rη_pos
  norm_num at hη
  have hGG : 289 / 100 ≤ G ^ 2 := by nlinarith
  have g2 : 2 ≤ ⟪g⟫ := by
    have := (abs_le.mp e1.2).1
    norm_num at this
    linarith
  have g0 : 0 < ⟪g⟫ := by linarith
  have qn : 0 ≤ ⟪n⟫ / ⟪g⟫ := by positivity
  have qn2 : ⟪n⟫ / ⟪g⟫ ≤ 40 := by
    rw [div_le_iff₀ g0]
    linarith
  have fq : Finite (n /ᶠ g) := R.div_finite fn e1.1 g0.ne' (by
    rw [abs_of_nonneg qn]
    norm_num
    linarith)
  have mq := (R.div_near fn e1.1 g0.ne' fq).bound
  rw [abs_of_nonneg qn] at mq
  have gq := H.div_nonneg fn e1.1 fq gn g0
  have key := quot_sqrt hP0 hP hG1 hV0 hVP hn e1.2 (mq.trans (by norm_num; linarith)) gn
  have ms := R.sqrt_near fq gq
  have e4 : Apx (Scalar.sqrt (n /ᶠ g)) P (13 / 10 ^ 6) := by
    refine ⟨R.sqrt_finite fq gq, (dist_trans ms key).trans ?_⟩
    have := (abs_le.mp key).2
    rw [show ru = 1 / 16777216 by unfold ru; norm_num]
    norm_num at this ⊢
    linarith
  exact e4.half (by rw [abs_of_nonneg hP0]; linarith) (by norm_num) (by norm_num)

theorem sara_cross {X p r : ℝ} (hX : X ^ 2 = 16 * (p ^ 2 * r ^ 2)) (hp : p ^ 2 ≤ 2501 / 10000) (hr : r ^ 2 ≤ 101 / 100) :
    |X| ≤ 3 := by
  refine abs_le_of_sq_le_sq ?_ (by norm_num)
  rw [hX]
  have := mul_le_mul hp hr (sq_nonneg r) (by norm_num)
  linarith

theorem sara_sq {a : F} {A : ℝ} (ha : Apx a A (23 / 10 ^ 7)) (hA : |A| ≤ 3) : ⟪a⟫ * ⟪a⟫ ≤ 10 := by
  have h1 := ha.le hA
  have h2 := abs_nonneg ⟪a⟫
  rw [← abs_mul_abs_self]
  norm_num at h1
  nlinarith

theorem sara_acc {d a b c : F} {p r s t A B C : ℝ} (hN : |p ^ 2 + r ^ 2 + s ^ 2 + t ^ 2 - 1| ≤ 21 / 10 ^ 7)
    (hd : Apx d (4 * p ^ 2 - 1) (101 / 10 ^ 7)) (ha : Apx a A (23 / 10 ^ 7)) (hb : Apx b B (23 / 10 ^ 7))
    (hc : Apx c C (23 / 10 ^ 7)) (hA : A ^ 2 = 16 * (p ^ 2 * r ^ 2)) (hB : B ^ 2 = 16 * (p ^ 2 * s ^ 2))
    (hC : C ^ 2 = 16 * (p ^ 2 * t ^ 2)) :
    Apx (Quat.sarabandiComponent (lit 0) d (a *ᶠ a +ᶠ b *ᶠ b +ᶠ c *ᶠ c)) |p| (1 / 10 ^ 5) := by
  have hη := rη_le
  norm_num at hη
  obtain ⟨n1, n2⟩ := abs_le.mp hN
  norm_num at n1 n2
  obtain ⟨d1, d2⟩ := abs_le.mp hd.2
  norm_num at d1 d2
  have p0 := sq_nonneg p
  have r0 := sq_nonneg r
  have s0 := sq_nonneg s
  have t0 := sq_nonneg t
  have hp := abs_nonneg p
  have hpp : |p| ^ 2 = p ^ 2 := sq_abs p
  have hp1 : |p| ≤ 1001 / 1000 := abs_le_of_sq_le_sq (by norm_num; linarith) (by norm_num)
  unfold Quat.sarabandiComponent
  by_cases h : (lit 0 <ᶠ d) = true
  · rw [if_pos h]
    rw [R.lt_val R.zero_finite hd.1, R.zero_val] at h
    refine sara_one hd hp1 ?_
    have : (499 / 1000) ^ 2 ≤ |p| ^ 2 := by rw [hpp]; norm_num; linarith
    exact le_of_sq_le_sq this hp
  · rw [if_neg h]
    rw [R.lt_val R.zero_finite hd.1, R.zero_val, not_lt] at h
    have hp2 : p ^ 2 ≤ 2501 / 10000 := by linarith
    have hp3 : |p| ≤ 502 / 1000 := abs_le_of_sq_le_sq (by norm_num; linarith) (by norm_num)
    set G := √(4 * (1 - p ^ 2)) with hG
    have hG2 : G ^ 2 = 4 * (1 - p ^ 2) := Real.sq_sqrt (by linarith)
    have hG1 : 17 / 10 ≤ G := Real.le_sqrt_of_sq_le (by norm_num; linarith)
    have e1 : Apx (lit 3 -ᶠ d) (G ^ 2) (11 / 10 ^ 6) := by
      have := H.three.sub hd (B := 401 / 100) (by rw [abs_le]; constructor <;> linarith) (by norm_num)
      rw [show 3 - (4 * p ^ 2 - 1) = G ^ 2 by rw [hG2]; ring] at this
      exact this.mono (by norm_num; linarith)
    have ra := sara_sq ha (sara_cross hA hp2 (by linarith))
    have rb := sara_sq hb (sara_cross hB hp2 (by linarith))
    have rc := sara_sq hc (sara_cross hC hp2 (by linarith))
    obtain ⟨fn, gn, hn⟩ := sq3_acc ha.1 hb.1 hc.1 ra rb rc
    have hVP := length_acc hN ha.2 hb.2 hc.2 hA hB hC hp3 hp2 hG2 hG1
    have hV2 : √(⟪a⟫ ^ 2 + ⟪b⟫ ^ 2 + ⟪c⟫ ^ 2) ^ 2 = ⟪a⟫ * ⟪a⟫ + ⟪b⟫ * ⟪b⟫ + ⟪c⟫ * ⟪c⟫ := by
      rw [Real.sq_sqrt (by positivity)]
      ring
    have nn : ⟪a *ᶠ a +ᶠ b *ᶠ b +ᶠ c *ᶠ c⟫ ≤ 40 := by
      have := (abs_le.mp hn).2
      norm_num at this
      linarith
    rw [← hV2] at hn
    have e5 := sara_two (by positivity) (by linarith) hG1 (Real.sqrt_nonneg _) hVP fn gn hn e1 nn
    rw [show 1 / 2 * (2 * |p|) = |p| by ring] at e5
    exact e5

theorem sarabandi_eq' {s : Vec F} {f : Nat → F} {m : Mat F} {D : Nat → Nat → F} (hs : VecIs s 4 f) (hm : MatIs m 3 3 D) :
    Quat.sarabandi m none s = Quat.storeAll
      (Quat.sarabandiComponent (lit 0) (D 0 0 +ᶠ D 1 1 +ᶠ D 2 2)
        ((D 2 1 -ᶠ D 1 2) *ᶠ (D 2 1 -ᶠ D 1 2) +ᶠ (D 0 2 -ᶠ D 2 0) *ᶠ (D 0 2 -ᶠ D 2 0) +ᶠ
          (D 1 0 -ᶠ D 0 1) *ᶠ (D 1 0 -ᶠ D 0 1)))
      (Quat.sarabandiComponent (lit 0) (D 0 0 -ᶠ D 1 1 -ᶠ D 2 2)
        ((D 2 1 -ᶠ D 1 2) *ᶠ (D 2 1 -ᶠ D 1 2) +ᶠ (D 0 1 +ᶠ D 1 0) *ᶠ (D 0 1 +ᶠ D 1 0) +ᶠ
          (D 2 0 +ᶠ D 0 2) *ᶠ (D 2 0 +ᶠ D 0 2)))
      (Quat.sarabandiComponent (lit 0) (Scalar.neg (D 0 0) +ᶠ D 1 1 -ᶠ D 2 2)
        ((D 0 2 -ᶠ D 2 0) *ᶠ (D 0 2 -ᶠ D 2 0) +ᶠ (D 0 1 +ᶠ D 1 0) *ᶠ (D 0 1 +ᶠ D 1 0) +ᶠ
          (D 1 2 +ᶠ D 2 1) *ᶠ (D 1 2 +ᶠ D 2 1)))
      (Quat.sarabandiComponent (lit 0) (Scalar.neg (D 0 0) -ᶠ D 1 1 +ᶠ D 2 2)
        ((D 1 0 -ᶠ D 0 1) *ᶠ (D 1 0 -ᶠ D 0 1) +ᶠ (D 2 0 +ᶠ D 0 2) *ᶠ (D 2 0 +ᶠ D 0 2) +ᶠ
          (D 1 2 +ᶠ D 2 1) *ᶠ (D 1 2 +ᶠ D 2 1))) s := by
  unfold Quat.sarabandi
  simp only [Op.get_bind', Quat.isQuaternion_eq hs, Op.liftOk_bind', decide_true, Bool.not_true,
    Bool.false_eq_true, if_false, hm.get 0 0 (by omega) (by omega),
    hm.get 0 1 (by omega) (by omega), hm.get 0 2 (by omega) (by omega),
    hm.get 1 0 (by omega) (by omega), hm.get 1 1 (by omega) (by omega),
    hm.get 1 2 (by omega) (by omega), hm.get 2 0 (by omega) (by omega),
    hm.get 2 1 (by omega) (by omega), hm.get 2 2 (by omega) (by omega), Option.getD_none]

/-- C103: in binary32, from the matrix of a quaternion of norm one up to one in a million `sarabandi`
returns the absolute values of the components, each up to one in a hundred thousand. -/
theorem C103_sarabandi {s a : Vec F} {f g : Nat → F} (hs : VecIs s 4 g) (ha : VecIs a 4 f)
    (hf : ∀ i, i < 4 → Finite (f i)) (hn : NearUnit f) :
    ∃ m r h, Quat.convertToDcm a = .ok m ∧ Quat.sarabandi m none s = (.ok (), r) ∧ VecIs r 4 h ∧
      ∀ i, i < 4 → Finite (h i) ∧ |⟪h i⟫ - (|⟪f i⟫|)| ≤ 1 / 10 ^ 5 := by
  obtain ⟨m, D, e, hm, S⟩ := dcm_sums ha hf hn
  have hN := sq_near hn
  have tr : ∀ {x : F} {X : ℝ}, Apx x X (60 / 10 ^ 7) → Apx x X (101 / 10 ^ 7) := fun h => h.mono (by norm_num)
  have cw := sara_acc hN S.trace' S.wx S.wy S.wz (by ring) (by ring) (by ring)
  have cx := sara_acc (p := ⟪f 1⟫) (r := ⟪f 0⟫) (s := ⟪f 2⟫) (t := ⟪f 3⟫)
    (by rw [show ⟪f 1⟫ ^ 2 + ⟪f 0⟫ ^ 2 + ⟪f 2⟫ ^ 2 + ⟪f 3⟫ ^ 2 - 1 = ⟪f 0⟫ ^ 2 + ⟪f 1⟫ ^ 2 + ⟪f 2⟫ ^ 2 + ⟪f 3⟫ ^ 2 - 1 by ring]
        exact hN) (tr S.x1) S.wx S.xy S.xz (by ring) (by ring) (by ring)
  have cy := sara_acc (p := ⟪f 2⟫) (r := ⟪f 0⟫) (s := ⟪f 1⟫) (t := ⟪f 3⟫)
    (by rw [show ⟪f 2⟫ ^ 2 + ⟪f 0⟫ ^ 2 + ⟪f 1⟫ ^ 2 + ⟪f 3⟫ ^ 2 - 1 = ⟪f 0⟫ ^ 2 + ⟪f 1⟫ ^ 2 + ⟪f 2⟫ ^ 2 + ⟪f 3⟫ ^ 2 - 1 by ring]
        exact hN) (tr S.y2) S.wy S.xy S.yz (by ring) (by ring) (by ring)
  have cz := sara_acc (p := ⟪f 3⟫) (r := ⟪f 0⟫) (s := ⟪f 1⟫) (t := ⟪f 2⟫)
    (by rw [show ⟪f 3⟫ ^ 2 + ⟪f 0⟫ ^ 2 + ⟪f 1⟫ ^ 2 + ⟪f 2⟫ ^ 2 - 1 = ⟪f 0⟫ ^ 2 + ⟪f 1⟫ ^ 2 + ⟪f 2⟫ ^ 2 + ⟪f 3⟫ ^ 2 - 1 by ring]
        exact hN) (tr S.z2) S.wz S.xz S.yz (by ring) (by ring) (by ring)
  obtain ⟨r, e2, hr⟩ := Quat.storeAll_ok hs cw.1 cx.1 cy.1 cz.1
  exact ⟨m, r, _, e, by rw [sarabandi_eq' hs hm, e2], hr, forall_lt_four.mpr ⟨cw, cx, cy, cz⟩⟩

end Verif
