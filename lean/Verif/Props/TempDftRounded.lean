import Verif.Literals
import Verif.Props.RoundedAm
import Verif.Props.RoundedTrack
import Verif.Props.TempDft

/-
The discrete Fourier transform of `temp/dsp` in binary32 (C93).
-/

set_option linter.unusedSectionVars false

namespace Verif
open Scalar Finset

instance : Literals F32T where
  lit_near q hq := Literals.lit_near (F := F32) q hq
  lit_int n hn := Literals.lit_int (F := F32) n hn

namespace TempDsp

variable {F : Type} [Scalar F] [R : Rounded F] [T : Trig F] [L : Literals F]

theorem lit_int_apx (n : ℤ) (h : |n| < 2 ^ 24) : Apx (lit (n : ℚ) : F) n 0 := by
  have h1 : |(((n : ℚ)) : ℝ)| ≤ 2 ^ 127 := by
    have : |(n : ℝ)| < 2 ^ 24 := by exact_mod_cast h
    push_cast
    have e : (2 : ℝ) ^ 24 ≤ 2 ^ 127 := by norm_num
    linarith
  exact ⟨(L.lit_near n h1).1, by rw [L.lit_int n h, sub_self, abs_zero]⟩

theorem lit_nat_apx (n : ℕ) (h : n < 2 ^ 24) : Apx (lit (n : ℚ) : F) n 0 := by
  have := lit_int_apx (F := F) n (by rw [abs_of_nonneg (Int.natCast_nonneg n)]; exact_mod_cast h)
  push_cast at this
  exact this

theorem pi_apx : Apx (PI : F) Real.pi (188 / 10 ^ 9) := by
  have h0 := Real.pi_gt_d20
  have h0' := Real.pi_lt_d20
  have hq : ((3141592653589793 / 1000000000000000 : ℚ) : ℝ) = piLit := by unfold piLit; push_cast; rfl
  obtain ⟨h1, h2⟩ := L.lit_near (3141592653589793 / 1000000000000000) (by rw [hq, piLit, abs_of_pos (by norm_num)]; norm_num)
  refine ⟨h1, ?_⟩
  have h3 := h2.bound
  rw [hq] at h3
  have h4 : |piLit| ≤ 31416 / 10000 := by rw [piLit, abs_of_pos (by norm_num)]; norm_num
  refine (dist_trans h3 pi_close).trans ?_
  have h5 := rη_le
  have h6 : |piLit| / 16777216 ≤ 31416 / 10000 / 16777216 := by gcongr
  norm_num at h5 h6 ⊢
  linarith

theorem angle_apx {k n : Nat} (hk : k ≤ 15) (hn : n ≤ 15) : Apx (angle k n : F) (-2 * Real.pi * k * n / 16) (27 / 10 ^ 6) := by
  have hp := Real.pi_lt_d2
  have hp0 := Real.pi_pos
  have h5 := rη_le
  have hk' : (k : ℝ) ≤ 15 := by exact_mod_cast hk
  have hn' : (n : ℝ) ≤ 15 := by exact_mod_cast hn
  have hk0 : (0 : ℝ) ≤ k := Nat.cast_nonneg _
  have hn0 : (0 : ℝ) ≤ n := Nat.cast_nonneg _
  have a0 : Apx (lit (-2) : F) (-2) 0 := by
    have := lit_int_apx (F := F) (-2) (by norm_num)
    push_cast at this
    exact this
  have a1 : Apx (lit (-2) *ᶠ PI : F) (-2 * Real.pi) (76 / 10 ^ 8) := by
    refine (a0.mul pi_apx (A := 2) (B := 315 / 100) (by norm_num) (by rw [abs_of_pos hp0]; linarith) (by norm_num)).mono ?_
    norm_num at h5 ⊢
    linarith
  have e1 : |-2 * Real.pi| = 2 * Real.pi := by rw [abs_mul, abs_of_pos hp0]; norm_num
  have a2 : Apx (lit (-2) *ᶠ PI *ᶠ lit k : F) (-2 * Real.pi * k) (171 / 10 ^ 7) := by
    refine (a1.mul (lit_nat_apx k (by omega)) (A := 63 / 10) (B := 15) (by rw [e1]; linarith) (by rw [abs_of_nonneg hk0]; exact hk')
      (by norm_num)).mono ?_
    norm_num at h5 ⊢
    linarith
  have e2 : |-2 * Real.pi * k| ≤ 945 / 10 := by
    rw [abs_mul, e1, abs_of_nonneg hk0]
    nlinarith
  have a3 : Apx (lit (-2) *ᶠ PI *ᶠ lit k *ᶠ lit n : F) (-2 * Real.pi * k * n) (342 / 10 ^ 6) := by
    refine (a2.mul (lit_nat_apx n (by omega)) (A := 945 / 10) (B := 15) e2 (by rw [abs_of_nonneg hn0]; exact hn') (by norm_num)).mono ?_
    norm_num at h5 ⊢
    linarith
  have a4 : Apx (lit (N_MAX : ℚ) : F) 16 0 := by
    have := lit_nat_apx (F := F) 16 (by norm_num)
    push_cast at this
    exact this
  have e3 : |-2 * Real.pi * k * n / 16| ≤ 90 := by
    rw [abs_div, abs_mul, abs_of_nonneg hn0, abs_of_pos (show (0 : ℝ) < 16 by norm_num)]
    have := abs_nonneg (-2 * Real.pi * k)
    rw [div_le_iff₀ (by norm_num)]
    nlinarith
  refine (a3.div a4 (m := 16) (c := 90) (E := 2138 / 10 ^ 8) le_rfl (by norm_num) e3 (by norm_num) (by norm_num)).mono ?_
  norm_num at h5 ⊢
  linarith

/-- A sum of up to sixteen perturbed terms. -/
theorem sum_apx {t : Nat → F} {X w : Nat → ℝ} {W : ℝ} (hw : ∀ i, 0 ≤ w i) (hX : ∀ i, |X i| ≤ w i)
    (ht : ∀ i, i < 16 → Apx (t i) (X i) (282 / 10 ^ 7 * w i + 4 * rη)) (hW : ∑ i ∈ range 16, w i = W) (hbig : W ≤ 2 ^ 90) :
    ∀ k, k ≤ 16 → Apx (sumUp k t) (∑ i ∈ range k, X i)
      (282 / 10 ^ 7 * (∑ i ∈ range k, w i) + k * (101 / 100 * W / 16777216 + 6 * rη)) := by
  have hη := rη_le
  have hη0 := rη_pos
  have hle : ∀ k, k ≤ 16 → ∑ i ∈ range k, w i ≤ W := fun k hk => by
    rw [← hW]
    exact sum_le_sum_of_subset_of_nonneg (range_mono hk) fun i _ _ => hw i
  have hW0 : 0 ≤ W := by rw [← hW]; exact sum_nonneg fun i _ => hw i
  intro k
  induction k with
  | zero =>
    intro _
    have e : sumUp 0 t = lit 0 := rfl
    rw [e]
    simp only [range_zero, sum_empty, Nat.cast_zero, mul_zero, zero_mul, add_zero]
    exact Apx.zero
  | succ k ih =>
    intro hk
    have h1 := ih (by omega)
    have h2 := ht k (by omega)
    have h3 := hle (k + 1) hk
    have hk' : (k : ℝ) ≤ 15 := by exact_mod_cast (show k ≤ 15 by omega)
    have hk0 : (0 : ℝ) ≤ k := Nat.cast_nonneg _
    rw [sum_range_succ] at h3
    have h4 : |∑ i ∈ range k, X i + X k| ≤ W := by
      refine (abs_add_le _ _).trans ((add_le_add (abs_sum_le_sum_abs _ _) (hX k)).trans ?_)
      exact (add_le_add (sum_le_sum fun i _ => hX i) le_rfl).trans h3
    have h5 : (k : ℝ) * (101 / 100 * W / 16777216 + 6 * rη) ≤ 15 * (101 / 100 * W / 16777216 + 6 * rη) := by
      have : 0 ≤ 101 / 100 * W / 16777216 + 6 * rη := by positivity
      gcongr
    have hbig' : W ≤ 1237940039285380274899124224 := by norm_num at hbig; exact hbig
    have h6 : 282 / 10 ^ 7 * (∑ i ∈ range k, w i) + 282 / 10 ^ 7 * w k ≤ 282 / 10 ^ 7 * W := by
      rw [← mul_add]
      gcongr
    have := (h1.add h2 (B := W) h4 (by norm_num at hη h5 h6 ⊢; linarith)).mono
      (e' := 282 / 10 ^ 7 * (∑ i ∈ range (k + 1), w i) + (k + 1 : ℕ) * (101 / 100 * W / 16777216 + 6 * rη)) (by
        rw [sum_range_succ]
        push_cast
        norm_num at hη h5 h6 ⊢
        linarith)
    rw [sum_range_succ]
    exact this

/-- The complex number in a `Complex`. -/
noncomputable def val (z : Complex F) : ℂ := ⟨⟪z.re⟫, ⟪z.im⟫⟩

variable {x : Fin N_MAX → Complex F}

/-- The exact angle. -/
noncomputable def theta (k n : Nat) : ℝ := -2 * Real.pi * k * n / 16

theorem trig_apx {k n : Nat} (hk : k ≤ 15) (hn : n ≤ 15) :
    Apx (Scalar.cos (angle k n : F)) (Real.cos (theta k n)) (28 / 10 ^ 6) ∧
    Apx (Scalar.sin (angle k n : F)) (Real.sin (theta k n)) (28 / 10 ^ 6) := by
  obtain ⟨h1, h2⟩ := angle_apx (F := F) hk hn
  refine ⟨⟨T.cos_finite h1, (cos_acc h1 h2).trans ?_⟩, ⟨T.sin_finite h1, (sin_acc h1 h2).trans ?_⟩⟩ <;> norm_num

/-- A finite number times a sine or cosine. -/
theorem prod_apx {a c : F} {C W : ℝ} (ha : Finite a) (hc : Apx c C (28 / 10 ^ 6)) (hC : |C| ≤ 1) (hW : |⟪a⟫| ≤ W) (hbig : W ≤ 2 ^ 90) :
    Apx (a *ᶠ c) (⟪a⟫ * C) (281 / 10 ^ 7 * |⟪a⟫| + rη) := by
  have h0 := abs_nonneg ⟪a⟫
  have hbig' : W ≤ 1237940039285380274899124224 := by norm_num at hbig; exact hbig
  refine ((Apx.exact ha).mul hc (A := |⟪a⟫|) (B := 1) le_rfl hC ?_).mono ?_
  · norm_num; linarith
  · norm_num; linarith

theorem pair_apx {a b c d : F} {C D W : ℝ} (ha : Finite a) (hb : Finite b) (hc : Apx c C (28 / 10 ^ 6)) (hd : Apx d D (28 / 10 ^ 6))
    (hC : |C| ≤ 1) (hD : |D| ≤ 1) (hW : |⟪a⟫| + |⟪b⟫| ≤ W) (hbig : W ≤ 2 ^ 90) :
    Apx (a *ᶠ c -ᶠ b *ᶠ d) (⟪a⟫ * C - ⟪b⟫ * D) (282 / 10 ^ 7 * (|⟪a⟫| + |⟪b⟫|) + 4 * rη) ∧
    Apx (a *ᶠ c +ᶠ b *ᶠ d) (⟪a⟫ * C + ⟪b⟫ * D) (282 / 10 ^ 7 * (|⟪a⟫| + |⟪b⟫|) + 4 * rη) := by
  have h0 := abs_nonneg ⟪a⟫
  have h1 := abs_nonneg ⟪b⟫
  have hη := rη_le
  have hη0 := rη_pos
  have hbig' : W ≤ 1237940039285380274899124224 := by norm_num at hbig; exact hbig
  have p1 := prod_apx ha hc hC (by linarith : |⟪a⟫| ≤ W) hbig
  have p2 := prod_apx hb hd hD (by linarith : |⟪b⟫| ≤ W) hbig
  have e1 : |⟪a⟫ * C| ≤ |⟪a⟫| := by rw [abs_mul]; nlinarith
  have e2 : |⟪b⟫ * D| ≤ |⟪b⟫| := by rw [abs_mul]; nlinarith
  constructor
  · refine (p1.sub p2 (B := |⟪a⟫| + |⟪b⟫|) ((abs_sub _ _).trans (by linarith)) ?_).mono ?_
    · norm_num at hη ⊢; linarith
    · norm_num at hη ⊢; linarith
  · refine (p1.add p2 (B := |⟪a⟫| + |⟪b⟫|) ((abs_add_le _ _).trans (by linarith)) ?_).mono ?_
    · norm_num at hη ⊢; linarith
    · norm_num at hη ⊢; linarith

/-- The weight of a sample. -/
noncomputable def wt (x : Fin N_MAX → Complex F) (n : Nat) : ℝ := if h : n < N_MAX then |⟪(x ⟨n, h⟩).re⟫| + |⟪(x ⟨n, h⟩).im⟫| else 0
/-- The exact terms. -/
noncomputable def exRe (x : Fin N_MAX → Complex F) (k n : Nat) : ℝ :=
  if h : n < N_MAX then ⟪(x ⟨n, h⟩).re⟫ * Real.cos (theta k n) - ⟪(x ⟨n, h⟩).im⟫ * Real.sin (theta k n) else 0
noncomputable def exIm (x : Fin N_MAX → Complex F) (k n : Nat) : ℝ :=
  if h : n < N_MAX then ⟪(x ⟨n, h⟩).re⟫ * Real.sin (theta k n) + ⟪(x ⟨n, h⟩).im⟫ * Real.cos (theta k n) else 0

theorem wt_nonneg (n : Nat) : 0 ≤ wt x n := by
  unfold wt; split <;> positivity

theorem rot_le {a b C D : ℝ} (hC : |C| ≤ 1) (hD : |D| ≤ 1) : |a * C - b * D| ≤ |a| + |b| ∧ |a * C + b * D| ≤ |a| + |b| := by
  have e1 : |a * C| ≤ |a| := by rw [abs_mul]; nlinarith [abs_nonneg a]
  have e2 : |b * D| ≤ |b| := by rw [abs_mul]; nlinarith [abs_nonneg b]
  exact ⟨(abs_sub _ _).trans (by linarith), (abs_add_le _ _).trans (by linarith)⟩

theorem ex_le (k n : Nat) : |exRe x k n| ≤ wt x n ∧ |exIm x k n| ≤ wt x n := by
  unfold exRe exIm wt
  split
  · exact ⟨(rot_le (Real.abs_cos_le_one _) (Real.abs_sin_le_one _)).1, (rot_le (Real.abs_sin_le_one _) (Real.abs_cos_le_one _)).2⟩
  · simp

theorem dft_parts (k : Fin N_MAX) : (ZMod.dft (N := 16) (fun n => val (x n)) k).re = ∑ n ∈ range 16, exRe x k n ∧
    (ZMod.dft (N := 16) (fun n => val (x n)) k).im = ∑ n ∈ range 16, exIm x k n := by
  have key : ∀ (c : ZMod 16 → ℂ) (k : ZMod 16),
      (ZMod.dft c k).re = ∑ n : ZMod 16, ((c n).re * Real.cos (theta k.val n.val) - (c n).im * Real.sin (theta k.val n.val)) ∧
      (ZMod.dft c k).im = ∑ n : ZMod 16, ((c n).re * Real.sin (theta k.val n.val) + (c n).im * Real.cos (theta k.val n.val)) := by
    intro c k
    rw [ZMod.dft_apply, _root_.Complex.re_sum, _root_.Complex.im_sum]
    constructor <;> refine sum_congr rfl fun n _ => ?_
    · rw [smul_eq_mul, char_eq, _root_.Complex.mul_re, _root_.Complex.exp_ofReal_mul_I_re, _root_.Complex.exp_ofReal_mul_I_im, theta]
      ring
    · rw [smul_eq_mul, char_eq, _root_.Complex.mul_im, _root_.Complex.exp_ofReal_mul_I_re, _root_.Complex.exp_ofReal_mul_I_im, theta]
      ring
  obtain ⟨h1, h2⟩ := key (fun n => val (x n)) k
  rw [h1, h2, ← Fin.sum_univ_eq_sum_range, ← Fin.sum_univ_eq_sum_range]
  have h3 : ∀ n : Fin N_MAX, exRe x k n = ⟪(x n).re⟫ * Real.cos (theta k n) - ⟪(x n).im⟫ * Real.sin (theta k n) := fun n => dif_pos n.2
  have h4 : ∀ n : Fin N_MAX, exIm x k n = ⟪(x n).re⟫ * Real.sin (theta k n) + ⟪(x n).im⟫ * Real.cos (theta k n) := fun n => dif_pos n.2
  constructor <;> refine sum_congr rfl fun n _ => ?_
  · exact (h3 n).symm
  · exact (h4 n).symm

theorem dft_rounded (hf : ∀ n, Finite (x n).re ∧ Finite (x n).im) {W : ℝ} (hW : ∑ n, (|⟪(x n).re⟫| + |⟪(x n).im⟫|) = W) (hbig : W ≤ 2 ^ 90)
    (k : Nat) (hk : k < N_MAX) :
    Row x k ∧ Apx (sumUp N_MAX (termRe x k)) (∑ n ∈ range 16, exRe x k n) (3 / 10 ^ 5 * W + 1 / 10 ^ 43) ∧
      Apx (sumUp N_MAX (termIm x k)) (∑ n ∈ range 16, exIm x k n) (3 / 10 ^ 5 * W + 1 / 10 ^ 43) := by
  have hk' : k ≤ 15 := by have : k < 16 := hk; omega
  have hw : ∑ n ∈ range 16, wt x n = W := by
    rw [← hW, ← Fin.sum_univ_eq_sum_range]
    exact sum_congr rfl fun n _ => dif_pos n.2
  have hW0 : 0 ≤ W := by rw [← hw]; exact sum_nonneg fun n _ => wt_nonneg n
  have hη := rη_le
  have hη0 := rη_pos
  have ht : ∀ n, n < 16 → Apx (termRe x k n) (exRe x k n) (282 / 10 ^ 7 * wt x n + 4 * rη) ∧
      Apx (termIm x k n) (exIm x k n) (282 / 10 ^ 7 * wt x n + 4 * rη) := by
    intro n hn
    have hn' : n < N_MAX := hn
    obtain ⟨h1, h2⟩ := trig_apx (F := F) hk' (show n ≤ 15 by omega)
    obtain ⟨f1, f2⟩ := hf ⟨n, hn'⟩
    have hle : |⟪(x ⟨n, hn'⟩).re⟫| + |⟪(x ⟨n, hn'⟩).im⟫| ≤ W := by
      rw [← hw]
      have := single_le_sum (f := wt x) (fun i _ => wt_nonneg i) (mem_range.mpr hn)
      rwa [wt, dif_pos hn'] at this
    unfold termRe termIm exRe exIm wt
    rw [dif_pos hn', dif_pos hn', dif_pos hn', dif_pos hn', dif_pos hn']
    exact ⟨(pair_apx f1 f2 h1 h2 (Real.abs_cos_le_one _) (Real.abs_sin_le_one _) hle hbig).1,
      (pair_apx f1 f2 h2 h1 (Real.abs_sin_le_one _) (Real.abs_cos_le_one _) hle hbig).2⟩
  have s1 := sum_apx (fun i => wt_nonneg i) (fun i => (ex_le k i).1) (fun i hi => (ht i hi).1) hw hbig 16 le_rfl
  have s2 := sum_apx (fun i => wt_nonneg i) (fun i => (ex_le k i).2) (fun i hi => (ht i hi).2) hw hbig 16 le_rfl
  have hb : 282 / 10 ^ 7 * (∑ i ∈ range 16, wt x i) + ((16 : ℕ) : ℝ) * (101 / 100 * W / 16777216 + 6 * rη) ≤ 3 / 10 ^ 5 * W + 1 / 10 ^ 43 := by
    rw [hw]
    push_cast
    norm_num at hη ⊢
    linarith
  refine ⟨⟨fun n hn => ?_, fun n hn => ?_, fun n => (hf n).1, fun n => (hf n).2, fun n hn => (ht n hn).1.1, fun n hn => (ht n hn).2.1,
    s1.1, s2.1⟩, s1.mono hb, s2.mono hb⟩
  · exact (trig_apx hk' (show n ≤ 15 by have : n < 16 := hn; omega)).1.1
  · exact (trig_apx hk' (show n ≤ 15 by have : n < 16 := hn; omega)).2.1

/-- C93: in binary32, with a sine and a cosine good to `2⁻²²`, the transform of finite samples of moderate size succeeds,
and both parts of every result are within `3·10⁻⁵` of the sum of the absolute values of those of the true transform. -/
theorem C93_dft (hf : ∀ n, Finite (x n).re ∧ Finite (x n).im) (hbig : ∑ n, (|⟪(x n).re⟫| + |⟪(x n).im⟫|) ≤ 2 ^ 90) :
    ∃ X, dftNaive x = .ok X ∧ ∀ k, Finite (X k).re ∧ Finite (X k).im ∧
      |⟪(X k).re⟫ - (ZMod.dft (N := 16) (fun n => val (x n)) k).re| ≤ 3 / 10 ^ 5 * (∑ n, (|⟪(x n).re⟫| + |⟪(x n).im⟫|)) + 1 / 10 ^ 43 ∧
      |⟪(X k).im⟫ - (ZMod.dft (N := 16) (fun n => val (x n)) k).im| ≤ 3 / 10 ^ 5 * (∑ n, (|⟪(x n).re⟫| + |⟪(x n).im⟫|)) + 1 / 10 ^ 43 := by
  refine ⟨_, dft_ok fun k hk => (dft_rounded hf rfl hbig k hk).1, fun k => ?_⟩
  obtain ⟨-, h1, h2⟩ := dft_rounded hf rfl hbig k k.2
  rw [(dft_parts k).1, (dft_parts k).2]
  exact ⟨h1.1, h2.1, h1.2, h2.2⟩

/-- The true transform of the signal of `main`. -/
noncomputable def spectrum : ZMod 16 → ℂ := fun k =>
  if k = 0 then 40 else if k = 4 then -8 + 8 * _root_.Complex.I else if k = 8 then -8 else if k = 12 then -8 - 8 * _root_.Complex.I else 0

theorem char4 : (ZMod.stdAddChar (4 : ZMod 16) : ℂ) = _root_.Complex.I := by
  rw [show (4 : ZMod 16) = ((4 : ℤ) : ZMod 16) from rfl, ZMod.stdAddChar_coe]
  refine Eq.trans ?_ _root_.Complex.exp_pi_div_two_mul_I
  congr 1
  push_cast
  ring

theorem char_n (n : ℕ) : (ZMod.stdAddChar ((n * 4 : ℕ) : ZMod 16) : ℂ) = _root_.Complex.I ^ n := by
  rw [Nat.cast_mul, ← nsmul_eq_mul, AddChar.map_nsmul_eq_pow]
  exact congrArg (· ^ n) char4

theorem dft_signal : ZMod.dft (fun n : ZMod 16 => ((signal.getD n.val 0 : ℚ) : ℂ)) = spectrum := by
  rw [← LinearEquiv.eq_symm_apply]
  funext k
  rw [ZMod.invDFT_apply]
  have key : ∑ j : ZMod 16, ZMod.stdAddChar (j * k) • spectrum j =
      40 + ZMod.stdAddChar (4 * k) * (-8 + 8 * _root_.Complex.I) + ZMod.stdAddChar (8 * k) * (-8) +
        ZMod.stdAddChar (12 * k) * (-8 - 8 * _root_.Complex.I) := by
    have h0 : ∀ j ∉ ({0, 4, 8, 12} : Finset (ZMod 16)), ZMod.stdAddChar (j * k) • spectrum j = 0 := by
      intro j hj
      have : spectrum j = 0 := by
        simp only [Finset.mem_insert, Finset.mem_singleton, not_or] at hj
        rw [spectrum, if_neg hj.1, if_neg hj.2.1, if_neg hj.2.2.1, if_neg hj.2.2.2]
      rw [this, smul_zero]
    rw [← Finset.sum_subset (Finset.subset_univ ({0, 4, 8, 12} : Finset (ZMod 16))) fun j _ hj => h0 j hj]
    have ne : ∀ a b : ZMod 16, a.val ≠ b.val → a ≠ b := fun a b h e => h (congrArg _ e)
    have e0 : spectrum 0 = 40 := if_pos rfl
    have e4 : spectrum 4 = -8 + 8 * _root_.Complex.I := by
      rw [spectrum, if_neg (by decide), if_pos rfl]
    have e8 : spectrum 8 = -8 := by
      rw [spectrum, if_neg (by decide), if_neg (by decide), if_pos rfl]
    have e12 : spectrum 12 = -8 - 8 * _root_.Complex.I := by
      rw [spectrum, if_neg (by decide), if_neg (by decide), if_neg (by decide), if_pos rfl]
    rw [Finset.sum_insert (by decide), Finset.sum_insert (by decide), Finset.sum_insert (by decide), Finset.sum_singleton, e0, e4, e8, e12]
    simp only [smul_eq_mul, zero_mul, AddChar.map_zero_eq_one, one_mul]
    ring
  rw [key]
  have h4 : ∀ n : ℕ, (ZMod.stdAddChar (4 * (n : ZMod 16)) : ℂ) = _root_.Complex.I ^ n := fun n => by
    rw [← char_n]; congr 1; push_cast; ring
  have h8 : ∀ n : ℕ, (ZMod.stdAddChar (8 * (n : ZMod 16)) : ℂ) = (_root_.Complex.I ^ n) ^ 2 := fun n => by
    rw [← pow_mul, ← char_n]; congr 1; push_cast; ring
  have h12 : ∀ n : ℕ, (ZMod.stdAddChar (12 * (n : ZMod 16)) : ℂ) = (_root_.Complex.I ^ n) ^ 3 := fun n => by
    rw [← pow_mul, ← char_n]; congr 1; push_cast; ring
  have hk : k = ((k.val : ℕ) : ZMod 16) := (ZMod.natCast_zmod_val k).symm
  have hlt := ZMod.val_lt k
  generalize k.val = m at hk hlt ⊢
  subst hk
  rw [h4, h8, h12]
  rw [_root_.Complex.I_pow_eq_pow_mod m, smul_eq_mul, show ((16 : ℕ) : ℂ) = 16 by norm_num, eq_inv_mul_iff_mul_eq₀ (by norm_num)]
  have v : ∀ j, j < 4 → 40 + _root_.Complex.I ^ j * (-8 + 8 * _root_.Complex.I) + (_root_.Complex.I ^ j) ^ 2 * -8 +
      (_root_.Complex.I ^ j) ^ 3 * (-8 - 8 * _root_.Complex.I) = 16 * (j + 1 : ℕ) := by
    intro j hj
    interval_cases j <;> apply _root_.Complex.ext <;> simp [pow_succ] <;> norm_num
  rw [v (m % 4) (Nat.mod_lt _ (by norm_num))]
  congr 1
  interval_cases m <;> simp [signal]

theorem mapM_ok {ε α β : Type} {f : α → Res ε β} {g : α → β} : ∀ l : List α, (∀ a ∈ l, f a = .ok (g a)) → l.mapM f = .ok (l.map g)
  | [], _ => rfl
  | a :: l, h => by
    rw [List.mapM_cons, h a (List.mem_cons_self ..), Res.ok_bind, mapM_ok l fun b hb => h b (List.mem_cons_of_mem _ hb)]
    rfl

/-- The list that is printed for an array of finite results. -/
theorem print_ok {X : Fin N_MAX → Complex F} (h : ∀ k, Finite (X k).re ∧ Finite (X k).im) :
    foldRange 0 N_MAX
      (fun i out => do
        let z ← (arrGet X i : Res Empty (Complex F))
        let re ← (unwrap z.getRealPart : Res Empty F)
        let im ← (unwrap z.getImaginaryPart : Res Empty F)
        .ok (out ++ [(i, re, im)])) [] = .ok (List.ofFn fun k : Fin N_MAX => (k.val, (X k).re, (X k).im)) := by
  have key := foldRange_ok (ε := Empty)
    (fun i out => do
        let z ← (arrGet X i : Res Empty (Complex F))
        let re ← (unwrap z.getRealPart : Res Empty F)
        let im ← (unwrap z.getImaginaryPart : Res Empty F)
        .ok (out ++ [(i, re, im)]))
    (fun i => (List.ofFn fun k : Fin N_MAX => (k.val, (X k).re, (X k).im)).take i) 0 N_MAX (Nat.zero_le _) fun i _ hi => by
      rw [arrGet, dif_pos hi]
      simp only [Res.ok_bind]
      rw [Complex.re_ok (h _).1, Complex.im_ok (h _).2]
      simp only [unwrap, Res.ok_bind]
      rw [List.take_succ_eq_append_getElem (by rw [List.length_ofFn]; exact hi), List.getElem_ofFn]
  refine Eq.trans key ?_
  rw [List.take_of_length_le (by rw [List.length_ofFn])]

/-- C93: in such a binary32 the program never panics and never prints the message of the failure; it prints sixteen results,
numbered in order, and both parts of each are within `2·10⁻³` of the true transform of its signal. -/
theorem C93_main : ∃ out : List (Nat × F × F), main F = .ok (.values out) ∧ out.length = 16 ∧
    ∀ k : Nat, (hk : k < out.length) → out[k].1 = k ∧ Finite out[k].2.1 ∧ Finite out[k].2.2 ∧
      |⟪out[k].2.1⟫ - (spectrum k).re| ≤ 2 / 1000 ∧ |⟪out[k].2.2⟫ - (spectrum k).im| ≤ 2 / 1000 := by
  have hv : ∀ q ∈ signal, Finite (lit q : F) ∧ ⟪(lit q : F)⟫ = (q : ℝ) := by
    have hn : ∀ n : ℕ, n < 2 ^ 24 → Finite (lit (n : ℚ) : F) ∧ ⟪(lit (n : ℚ) : F)⟫ = ((n : ℚ) : ℝ) := fun n hn => by
      obtain ⟨h1, h2⟩ := lit_nat_apx (F := F) n hn
      refine ⟨h1, ?_⟩
      have := abs_nonpos_iff.mp h2
      push_cast
      linarith
    intro q hq
    have : ∀ q ∈ signal, ∃ n ∈ List.range 5, q = (n : ℚ) := by decide +kernel
    obtain ⟨n, h1, rfl⟩ := this q hq
    have h1 := List.mem_range.mp h1
    exact hn n (by omega)
  have z0 := Rounded.zero_finite (F := F)
  have v0 := Rounded.zero_val (F := F)
  let x : Fin N_MAX → Complex F := fun i => (signal.map fun q => (⟨lit q, lit 0⟩ : Complex F)).getD i ⟨lit 0, lit 0⟩
  have hx : ∀ i, x i = ⟨lit (signal.getD i 0), lit 0⟩ := fun i => by
    show (signal.map fun q => (⟨lit q, lit 0⟩ : Complex F)).getD i ((fun q => (⟨lit q, lit 0⟩ : Complex F)) 0) = _
    have := i.2
    rw [List.getD_eq_getElem?_getD, List.getElem?_map, List.getD_eq_getElem?_getD]
    cases signal[i.val]? <;> rfl
  have hm : ∀ i : Fin N_MAX, signal.getD i 0 ∈ signal := by decide
  have hf : ∀ n, Finite (x n).re ∧ Finite (x n).im := fun n => by
    rw [hx]; exact ⟨(hv _ (hm n)).1, z0⟩
  have hr : ∀ n, ⟪(x n).re⟫ = ((signal.getD n 0 : ℚ) : ℝ) := fun n => by rw [hx]; exact (hv _ (hm n)).2
  have hi : ∀ n, ⟪(x n).im⟫ = 0 := fun n => by rw [hx]; exact v0
  have hS : ∑ n, (|⟪(x n).re⟫| + |⟪(x n).im⟫|) = 40 := by
    simp only [hr, hi, abs_zero, add_zero]
    have : ∀ n : Fin N_MAX, |((signal.getD n 0 : ℚ) : ℝ)| = ((|signal.getD n 0| : ℚ) : ℝ) := fun n => by push_cast; rfl
    simp only [this]
    rw [← Rat.cast_sum]
    have e : ∑ n : Fin N_MAX, |signal.getD n 0| = (40 : ℚ) := by decide +kernel
    rw [e]; norm_num
  have hval : (fun n => val (x n)) = fun n : ZMod 16 => ((signal.getD n.val 0 : ℚ) : ℂ) := by
    funext n
    apply _root_.Complex.ext
    · exact (hr n).trans (_root_.Complex.ratCast_re _).symm
    · exact (hi n).trans (_root_.Complex.ratCast_im _).symm
  obtain ⟨X, e, hX⟩ := C93_dft hf (by rw [hS]; norm_num)
  have hd : ∀ k : Fin N_MAX, ZMod.dft (N := 16) (fun n => val (x n)) k = spectrum k :=
    congrFun ((congrArg (ZMod.dft (N := 16)) hval).trans dft_signal)
  rw [hS] at hX
  refine ⟨List.ofFn fun k : Fin N_MAX => (k.val, (X k).re, (X k).im), ?_, by simp [N_MAX], fun k hk => ?_⟩
  · unfold main
    rw [mapM_ok (g := fun q => (⟨lit q, lit 0⟩ : Complex F)) signal fun q hq => by rw [Complex.new_ok (hv q hq).1 z0]; rfl]
    simp only [Res.ok_bind]
    have e' : dftNaive (fun i : Fin N_MAX => (signal.map fun q => (⟨lit q, lit 0⟩ : Complex F)).getD i ⟨lit 0, lit 0⟩) = .ok X := e
    rw [e']
    dsimp only
    rw [print_ok fun k => ⟨(hX k).1, (hX k).2.1⟩]
    rfl
  · have hk' : k < N_MAX := by simpa using hk
    obtain ⟨f1, f2, h1, h2⟩ := hX ⟨k, hk'⟩
    rw [hd] at h1 h2
    have hc : ((k : ℕ) : ZMod 16) = (⟨k, hk'⟩ : Fin N_MAX) := by
      have : ((⟨k, hk'⟩ : Fin 16) : ZMod 16) = ((⟨k, hk'⟩ : Fin 16).val : ZMod 16) := by
        exact (ZMod.natCast_zmod_val (n := 16) _).symm
      exact this.symm
    rw [List.getElem_ofFn, hc]
    refine ⟨rfl, f1, f2, h1.trans ?_, h2.trans ?_⟩ <;> norm_num

/-- C93, a case: sixteen samples `n + i` on a binary32 with a good sine and cosine; the first result is `120 + 16 i` up to
`5·10⁻³`. -/
example : ∃ X, dftNaive (fun n => (⟨lit n.val, lit 1⟩ : Complex F32T)) = .ok X ∧
    |⟪(X 0).re⟫ - 120| ≤ 5 / 1000 ∧ |⟪(X 0).im⟫ - 16| ≤ 5 / 1000 := by
  have h1 : ∀ n : Fin N_MAX, Finite (lit n.val : F32T) ∧ ⟪(lit n.val : F32T)⟫ = n.val := fun n => by
    obtain ⟨h1, h2⟩ := lit_nat_apx (F := F32T) n.val (lt_trans n.2 (by norm_num [N_MAX]))
    exact ⟨h1, sub_eq_zero.mp (abs_nonpos_iff.mp h2)⟩
  have v1 := Rounded.one_val (F := F32T)
  have w1 := Rounded.one_finite (F := F32T)
  obtain ⟨x, hx⟩ : ∃ x : Fin N_MAX → Complex F32T, ∀ n, x n = ⟨lit n.val, lit 1⟩ := ⟨_, fun _ => rfl⟩
  rw [← funext hx]
  have hs : ∑ n : Fin N_MAX, (|⟪(x n).re⟫| + |⟪(x n).im⟫|) = 136 := by
    simp only [hx, v1, (h1 _).2, abs_one]
    simp [Fin.sum_univ_succ]
    norm_num
  obtain ⟨X, e, hX⟩ := C93_dft (x := x) (fun n => by rw [hx]; exact ⟨(h1 n).1, w1⟩) (by rw [hs]; norm_num)
  obtain ⟨-, -, h2, h3⟩ := hX 0
  rw [hs, (dft_parts 0).1] at h2
  rw [hs, (dft_parts 0).2] at h3
  have t0 : ∀ n, theta 0 n = 0 := fun n => by simp [theta]
  have e1 : ∑ n ∈ range 16, exRe x ((0 : Fin N_MAX) : Nat) n = 120 := by
    rw [← Fin.sum_univ_eq_sum_range]
    rw [show (120 : ℝ) = ∑ n : Fin 16, (n.val : ℝ) by simp [Fin.sum_univ_succ]; norm_num]
    refine sum_congr rfl fun n _ => ?_
    rw [exRe, dif_pos n.2, hx]
    show ⟪(lit n.val : F32T)⟫ * Real.cos (theta 0 n) - ⟪(lit 1 : F32T)⟫ * Real.sin (theta 0 n) = _
    rw [t0, Real.cos_zero, Real.sin_zero, (h1 n).2]; ring
  have e2 : ∑ n ∈ range 16, exIm x ((0 : Fin N_MAX) : Nat) n = 16 := by
    rw [← Fin.sum_univ_eq_sum_range]
    rw [show (16 : ℝ) = ∑ n : Fin 16, (1 : ℝ) by simp]
    refine sum_congr rfl fun n _ => ?_
    rw [exIm, dif_pos n.2, hx]
    show ⟪(lit n.val : F32T)⟫ * Real.sin (theta 0 n) + ⟪(lit 1 : F32T)⟫ * Real.cos (theta 0 n) = _
    rw [t0, Real.cos_zero, Real.sin_zero, v1]; ring
  rw [e1] at h2
  rw [e2] at h3
  refine ⟨X, e, h2.trans ?_, h3.trans ?_⟩ <;> norm_num

/-- C93, a case: the program itself, with such a binary32; the fifth line is `-8 + 8 i` up to `2·10⁻³`. -/
example : ∃ out : List (Nat × F32T × F32T), main F32T = .ok (.values out) ∧ ∃ h : 4 < out.length,
    |⟪out[4].2.1⟫ + 8| ≤ 2 / 1000 ∧ |⟪out[4].2.2⟫ - 8| ≤ 2 / 1000 := by
  obtain ⟨out, e, hl, h⟩ := C93_main (F := F32T)
  have h4 : 4 < out.length := by omega
  obtain ⟨-, -, -, h1, h2⟩ := h 4 h4
  have hs : spectrum ((4 : ℕ) : ZMod 16) = -8 + 8 * _root_.Complex.I := by
    rw [spectrum, if_neg (by decide), if_pos (by decide)]
  rw [hs] at h1 h2
  refine ⟨out, e, h4, ?_, ?_⟩
  · simpa using h1
  · simpa using h2

end TempDsp
end Verif
