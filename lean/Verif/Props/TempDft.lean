import Mathlib.Analysis.Fourier.ZMod
import Mathlib.Analysis.Real.Pi.Bounds
import Mathlib.Analysis.SpecialFunctions.Trigonometric.Bounds
import Verif.Lib.Exact
import Verif.Props.TempDsp
import Verif.Props.RoundedAr

/-
Claims about the discrete Fourier transform of `temp/dsp` (C92).
-/

set_option linter.unusedSectionVars false
set_option linter.unusedSimpArgs false

namespace Verif
open Scalar

namespace TempDsp
open _root_.Verif.TempDsp.Complex

section
variable {F : Type} [Scalar F]

/-- The angle of the coefficient of sample `n` in result `k`. -/
def angle (k n : Nat) : F := lit (-2) *ᶠ PI *ᶠ lit k *ᶠ lit n /ᶠ lit N_MAX

/-- The real and the imaginary part of the product of sample `n` with its coefficient. -/
def termRe (x : Fin N_MAX → Complex F) (k n : Nat) : F :=
  if h : n < N_MAX then (x ⟨n, h⟩).re *ᶠ Scalar.cos (angle k n) -ᶠ (x ⟨n, h⟩).im *ᶠ Scalar.sin (angle k n) else lit 0
def termIm (x : Fin N_MAX → Complex F) (k n : Nat) : F :=
  if h : n < N_MAX then (x ⟨n, h⟩).re *ᶠ Scalar.sin (angle k n) +ᶠ (x ⟨n, h⟩).im *ᶠ Scalar.cos (angle k n) else lit 0

/-- Everything that is checked in the computation of result `k`. -/
structure Row (x : Fin N_MAX → Complex F) (k : Nat) : Prop where
  cos : ∀ n, n < N_MAX → Finite (Scalar.cos (angle k n : F))
  sin : ∀ n, n < N_MAX → Finite (Scalar.sin (angle k n : F))
  sample_re : ∀ n, Finite (x n).re
  sample_im : ∀ n, Finite (x n).im
  re : ∀ n, n < N_MAX → Finite (termRe x k n)
  im : ∀ n, n < N_MAX → Finite (termIm x k n)
  sum_re : Finite (sumUp N_MAX (termRe x k))
  sum_im : Finite (sumUp N_MAX (termIm x k))

theorem exec_inv {ε σ : Type} {m : Op ε σ Unit} {s s' : σ} (h : exec s m = .ok s') : m s = (.ok (), s') := by
  unfold exec at h
  rcases hr : m s with ⟨e | a, t⟩
  · rw [hr] at h; cases h
  · rw [hr] at h
    obtain rfl := Except.ok.inj h
    rfl

variable [ScalarLawful F]

theorem dup_inv {z w : Complex F} (h : z.duplicate = .ok w) : Finite z.re ∧ Finite z.im ∧ w = z := by
  by_cases hf : Finite z.re ∧ Finite z.im
  · rw [((C91_copy z z).1 hf.1 hf.2).2] at h
    exact ⟨hf.1, hf.2, (Except.ok.inj h).symm⟩
  · obtain ⟨e, -, he⟩ := (C91_copy z z).2 hf
    rw [he] at h
    cases h

theorem copy_inv {z s w : Complex F} (h : exec s (copyFrom z) = .ok w) : Finite z.re ∧ Finite z.im ∧ w = z := by
  replace h := exec_inv h
  by_cases hf : Finite z.re ∧ Finite z.im
  · rw [((C91_copy z s).1 hf.1 hf.2).1] at h
    exact ⟨hf.1, hf.2, (congrArg Prod.snd h).symm⟩
  · obtain ⟨e, he, -⟩ := (C91_copy z s).2 hf
    rw [he] at h
    cases congrArg Prod.fst h

theorem mul_inv {z w r : Complex F} (h : exec z (mulInPlace w) = .ok r) :
    r = ⟨z.re *ᶠ w.re -ᶠ z.im *ᶠ w.im, z.re *ᶠ w.im +ᶠ z.im *ᶠ w.re⟩ := by
  replace h := exec_inv h
  by_cases hf : Finite z.re ∧ Finite w.re ∧ Finite z.im ∧ Finite w.im
  · rw [((C91_mul z w z).1 hf.1 hf.2.1 hf.2.2.1 hf.2.2.2).2] at h
    exact (congrArg Prod.snd h).symm
  · obtain ⟨e, he⟩ := ((C91_mul z w z).2 hf).2
    rw [he] at h
    cases congrArg Prod.fst h

theorem add_inv {z s r : Complex F} (h : exec s (addInPlace z) = .ok r) :
    Finite z.re ∧ Finite z.im ∧ r = ⟨s.re +ᶠ z.re, s.im +ᶠ z.im⟩ := by
  replace h := exec_inv h
  by_cases h1 : Finite z.re
  · by_cases h2 : Finite z.im
    · rw [((C91_in_place z s).1 h1 h2).1] at h
      exact ⟨h1, h2, (congrArg Prod.snd h).symm⟩
    · obtain ⟨e, he, -⟩ := (C91_in_place z s).2.1 h1 h2
      rw [he] at h
      cases congrArg Prod.fst h
  · obtain ⟨e, he, -⟩ := (C91_in_place z s).2.2 h1
    rw [he] at h
    cases congrArg Prod.fst h

/-- What a successful transform returns, and what is then known to be finite. -/
theorem dft_inv {x X : Fin N_MAX → Complex F} (h : dftNaive x = .ok X) :
    ∀ k : Fin N_MAX, Row x k ∧ X k = ⟨sumUp N_MAX (termRe x k), sumUp N_MAX (termIm x k)⟩ := by
  unfold dftNaive at h
  rw [new_ok ScalarLawful.zero_finite ScalarLawful.zero_finite] at h
  simp only [Res.ok_bind] at h
  have := foldRange_inv_ok _ (fun i (X : Fin N_MAX → Complex F) => ∀ k : Fin N_MAX, k.val < i →
    Row x k ∧ X k = ⟨sumUp N_MAX (termRe x k), sumUp N_MAX (termIm x k)⟩) 0 N_MAX (Nat.zero_le _) _ X
    (fun k hk => absurd hk (Nat.not_lt_zero _)) ?_ h
  · exact fun k => this k k.2
  intro k X X' _ hk ih hb
  obtain ⟨sum, e1, hb⟩ := AR.bind_inv hb
  obtain ⟨Xk, e2, hb⟩ := AR.bind_inv hb
  obtain ⟨Xk', e3, hb'⟩ := AR.bind_inv hb
  obtain ⟨c1, c2, rfl⟩ := copy_inv e3
  unfold arrSet at hb'
  rw [if_pos hk] at hb'
  obtain rfl := Except.ok.inj hb'
  have key := foldRange_inv_ok _ (fun i (s : Complex F) =>
    (∀ n (hn : n < N_MAX), n < i → Finite (Scalar.cos (angle k n : F)) ∧ Finite (Scalar.sin (angle k n : F)) ∧
      Finite (x ⟨n, hn⟩).re ∧ Finite (x ⟨n, hn⟩).im ∧ Finite (termRe x k n) ∧ Finite (termIm x k n)) ∧
      s = ⟨sumUp i (termRe x k), sumUp i (termIm x k)⟩) 0 N_MAX (Nat.zero_le _) _ _
    ⟨fun n _ hn => absurd hn (Nat.not_lt_zero _), rfl⟩ ?_ e1
  · obtain ⟨k1, k2⟩ := key
    intro j hj
    dsimp only
    by_cases hjk : j.val = k
    · rw [if_pos hjk, hjk, k2]
      refine ⟨⟨fun n hn => (k1 n hn hn).1, fun n hn => (k1 n hn hn).2.1, fun n => (k1 n n.2 n.2).2.2.1,
        fun n => (k1 n n.2 n.2).2.2.2.1, fun n hn => (k1 n hn hn).2.2.2.2.1, fun n hn => (k1 n hn hn).2.2.2.2.2, ?_, ?_⟩, rfl⟩
      · rw [k2] at c1; exact c1
      · rw [k2] at c2; exact c2
    · rw [if_neg hjk]
      exact ih j (by omega)
  intro n s s' _ hn ⟨ih1, ih2⟩ hb
  obtain ⟨w, d1, hb⟩ := AR.bind_inv hb
  obtain ⟨xn, d2, hb⟩ := AR.bind_inv hb
  obtain ⟨t, d3, hb⟩ := AR.bind_inv hb
  obtain ⟨t', d4, hb'⟩ := AR.bind_inv hb
  obtain ⟨g1, g2⟩ := (C91_new _ _).1.mp ⟨w, d1⟩
  obtain ⟨g3, g4⟩ := (C91_new _ _).2 w d1
  rw [arrGet, dif_pos hn] at d2
  obtain rfl := Except.ok.inj d2
  obtain ⟨g5, g6, rfl⟩ := dup_inv d3
  obtain rfl := mul_inv d4
  obtain ⟨g7, g8, rfl⟩ := add_inv hb'
  rw [g3, g4] at g7 g8 ⊢
  have e1 : termRe x k n = (x ⟨n, hn⟩).re *ᶠ Scalar.cos (angle k n) -ᶠ (x ⟨n, hn⟩).im *ᶠ Scalar.sin (angle k n) := dif_pos hn
  have e2 : termIm x k n = (x ⟨n, hn⟩).re *ᶠ Scalar.sin (angle k n) +ᶠ (x ⟨n, hn⟩).im *ᶠ Scalar.cos (angle k n) := dif_pos hn
  refine ⟨fun m hm hmi => ?_, ?_⟩
  · by_cases hmn : m = n
    · subst hmn
      refine ⟨g1, g2, g5, g6, ?_, ?_⟩
      · rw [e1]; exact g7
      · rw [e2]; exact g8
    · exact ih1 m hm (by omega)
  · rw [ih2, sumUp, sumUp, e1, e2]
    rfl

/-- When everything that is checked is finite, the transform succeeds. -/
theorem dft_ok {x : Fin N_MAX → Complex F} (h : ∀ k, k < N_MAX → Row x k) :
    dftNaive x = .ok fun k => ⟨sumUp N_MAX (termRe x k), sumUp N_MAX (termIm x k)⟩ := by
  unfold dftNaive
  rw [new_ok ScalarLawful.zero_finite ScalarLawful.zero_finite]
  simp only [Res.ok_bind]
  have hfold := foldRange_inv (ε := UtilsError)
    (fun k (X : Fin N_MAX → Complex F) => do
      let sum ← foldRange 0 N_MAX
        (fun n sum => do
          let w ← Complex.new (Scalar.cos (lit (-2) *ᶠ PI *ᶠ lit k *ᶠ lit n /ᶠ lit N_MAX))
            (Scalar.sin (lit (-2) *ᶠ PI *ᶠ lit k *ᶠ lit n /ᶠ lit N_MAX))
          let temp ← arrGet x n
          let temp ← temp.duplicate
          let temp ← exec temp (Complex.mulInPlace w)
          exec sum (Complex.addInPlace temp)) ⟨lit 0, lit 0⟩
      let Xk ← arrGet X k
      let Xk ← exec Xk (Complex.copyFrom sum)
      arrSet X k Xk)
    (fun i (X : Fin N_MAX → Complex F) => ∀ k : Fin N_MAX, k.val < i →
      X k = ⟨sumUp N_MAX (termRe x k), sumUp N_MAX (termIm x k)⟩) 0 N_MAX (Nat.zero_le _) (fun _ => ⟨lit 0, lit 0⟩)
    (fun k hk => absurd hk (Nat.not_lt_zero _)) ?_
  · obtain ⟨X, e, hX⟩ := hfold
    refine e.trans (congrArg _ (funext fun k => hX k k.2))
  intro k X _ hk ih
  have hr := h k hk
  have key := foldRange_ok (ε := UtilsError)
    (fun n (sum : Complex F) => do
          let w ← Complex.new (Scalar.cos (lit (-2) *ᶠ PI *ᶠ lit k *ᶠ lit n /ᶠ lit N_MAX))
            (Scalar.sin (lit (-2) *ᶠ PI *ᶠ lit k *ᶠ lit n /ᶠ lit N_MAX))
          let temp ← arrGet x n
          let temp ← temp.duplicate
          let temp ← exec temp (Complex.mulInPlace w)
          exec sum (Complex.addInPlace temp))
    (fun i => ⟨sumUp i (termRe x k), sumUp i (termIm x k)⟩) 0 N_MAX (Nat.zero_le _) fun n _ hn => by
      have e1 : termRe x k n = (x ⟨n, hn⟩).re *ᶠ Scalar.cos (angle k n) -ᶠ (x ⟨n, hn⟩).im *ᶠ Scalar.sin (angle k n) := dif_pos hn
      have e2 : termIm x k n = (x ⟨n, hn⟩).re *ᶠ Scalar.sin (angle k n) +ᶠ (x ⟨n, hn⟩).im *ᶠ Scalar.cos (angle k n) := dif_pos hn
      have g7 := hr.re n hn
      have g8 := hr.im n hn
      rw [e1] at g7
      rw [e2] at g8
      have e0 : Complex.new (Scalar.cos (lit (-2) *ᶠ PI *ᶠ lit k *ᶠ lit n /ᶠ lit N_MAX : F))
          (Scalar.sin (lit (-2) *ᶠ PI *ᶠ lit k *ᶠ lit n /ᶠ lit N_MAX)) = .ok ⟨Scalar.cos (angle k n), Scalar.sin (angle k n)⟩ :=
        new_ok (hr.cos n hn) (hr.sin n hn)
      rw [e0, arrGet, dif_pos hn]
      simp only [Res.ok_bind]
      rw [((C91_copy _ ⟨lit 0, lit 0⟩).1 (hr.sample_re _) (hr.sample_im _)).2]
      simp only [Res.ok_bind]
      rw [exec_ok ((C91_mul (x ⟨n, hn⟩) ⟨Scalar.cos (angle k n), Scalar.sin (angle k n)⟩ ⟨lit 0, lit 0⟩).1 (hr.sample_re _) (hr.cos n hn)
        (hr.sample_im _) (hr.sin n hn)).2]
      simp only [Res.ok_bind]
      rw [exec_ok ((C91_in_place _ _).1 g7 g8).1, sumUp, sumUp, e1, e2]
  rw [show sumUp 0 (termRe x k) = lit 0 from rfl, show sumUp 0 (termIm x k) = lit 0 from rfl] at key
  refine ⟨fun j => if j.val = k then ⟨sumUp N_MAX (termRe x k), sumUp N_MAX (termIm x k)⟩ else X j, ?_, fun j hj => ?_⟩
  · rw [key]
    simp only [Res.ok_bind]
    rw [arrGet, dif_pos hk]
    simp only [Res.ok_bind]
    rw [exec_ok ((C91_copy _ _).1 hr.sum_re hr.sum_im).1]
    simp only [Res.ok_bind]
    rw [arrSet, if_pos hk]
  · by_cases hjk : j.val = k
    · dsimp only; rw [if_pos hjk, hjk]
    · dsimp only; rw [if_neg hjk]; exact ih j (by omega)

/-- C92: a transform that succeeds has read finite samples, and all its results can be read. -/
theorem C92_finite {x X : Fin N_MAX → Complex F} (h : dftNaive x = .ok X) (k : Fin N_MAX) :
    (Finite (x k).re ∧ Finite (x k).im) ∧ getRealPart (X k) = .ok (X k).re ∧ getImaginaryPart (X k) = .ok (X k).im := by
  obtain ⟨hr, e⟩ := dft_inv h k
  refine ⟨⟨hr.sample_re k, hr.sample_im k⟩, re_ok ?_, im_ok ?_⟩
  · rw [e]; exact hr.sum_re
  · rw [e]; exact hr.sum_im

end

section
variable {x : Fin N_MAX → Complex XR} {c : Fin N_MAX → ℂ}
open Finset

/-- The constant of the program. -/
noncomputable def piLit : ℝ := 3141592653589793 / 1000000000000000

theorem angle_fin (k n : Nat) : (angle k n : XR) = .fin (-2 * piLit * k * n / 16) := by
  unfold angle
  rw [show (PI : XR) = .fin piLit by
    show Ext.fin ((3141592653589793 / 1000000000000000 : ℚ) : ℝ) = _
    unfold piLit; push_cast; rfl]
  rw [show (lit (-2) : XR) = .fin (-2) by show Ext.fin ((-2 : ℚ) : ℝ) = _; push_cast; rfl]
  rw [show (lit (k : ℚ) : XR) = .fin (k : ℝ) by show Ext.fin (((k : ℚ)) : ℝ) = _; push_cast; rfl]
  rw [show (lit (n : ℚ) : XR) = .fin (n : ℝ) by show Ext.fin (((n : ℚ)) : ℝ) = _; push_cast; rfl]
  rw [show (lit (N_MAX : ℚ) : XR) = .fin (16 : ℝ) by show Ext.fin ((((16 : ℕ) : ℚ)) : ℝ) = _; push_cast; rfl]
  rw [Ext.mul_fin, Ext.mul_fin, Ext.mul_fin, Ext.div_fin _ (by norm_num)]

/-- The coefficients of the program in exact arithmetic. -/
noncomputable def coef (k n : Nat) : ℂ := _root_.Complex.exp (((-2 * piLit * k * n / 16 : ℝ) : ℂ) * _root_.Complex.I)

theorem term_fin (h : ∀ n, (x n).Is (c n)) (k : Nat) :
    termRe x k = (fun n => .fin (if h : n < N_MAX then (c ⟨n, h⟩ * coef k n).re else 0)) ∧
    termIm x k = (fun n => .fin (if h : n < N_MAX then (c ⟨n, h⟩ * coef k n).im else 0)) := by
  have e2 : ∀ θ : ℝ, Scalar.cos (.fin θ : XR) = .fin (Real.cos θ) := fun _ => rfl
  have e3 : ∀ θ : ℝ, Scalar.sin (.fin θ : XR) = .fin (Real.sin θ) := fun _ => rfl
  constructor
  · funext n
    unfold termRe
    split
    · rename_i hn
      rw [(h ⟨n, hn⟩).1, (h ⟨n, hn⟩).2, angle_fin, e2, e3, Ext.mul_fin, Ext.mul_fin, Ext.sub_fin, _root_.Complex.mul_re, coef,
        _root_.Complex.exp_ofReal_mul_I_re, _root_.Complex.exp_ofReal_mul_I_im]
    · exact Ext.lit_zero
  · funext n
    unfold termIm
    split
    · rename_i hn
      rw [(h ⟨n, hn⟩).1, (h ⟨n, hn⟩).2, angle_fin, e2, e3, Ext.mul_fin, Ext.mul_fin, Ext.add_fin, _root_.Complex.mul_im, coef,
        _root_.Complex.exp_ofReal_mul_I_re, _root_.Complex.exp_ofReal_mul_I_im]
    · exact Ext.lit_zero

/-- C92: in exact arithmetic the transform of finite samples succeeds, and is the sum that defines it, with the
program's value of π. -/
theorem C92_exact (h : ∀ n, (x n).Is (c n)) :
    ∃ X, dftNaive x = .ok X ∧ ∀ k, (X k).Is (∑ n, c n * _root_.Complex.exp
      (((-2 * (3141592653589793 / 1000000000000000) * k.val * n.val / 16 : ℝ) : ℂ) * _root_.Complex.I)) := by
  have hs : ∀ k, sumUp N_MAX (termRe x k) = .fin (∑ n : Fin N_MAX, c n * coef k n).re ∧
      sumUp N_MAX (termIm x k) = .fin (∑ n : Fin N_MAX, c n * coef k n).im := by
    intro k
    obtain ⟨h1, h2⟩ := term_fin h k
    rw [h1, h2, sumUp_fin, sumUp_fin, _root_.Complex.re_sum, _root_.Complex.im_sum]
    rw [← Fin.sum_univ_eq_sum_range, ← Fin.sum_univ_eq_sum_range]
    constructor <;> congr 1
  have hr : ∀ k, k < N_MAX → Row x k := fun k _ => by
    obtain ⟨h1, h2⟩ := term_fin h k
    obtain ⟨h3, h4⟩ := hs k
    refine ⟨fun n _ => ?_, fun n _ => ?_, fun n => ?_, fun n => ?_, fun n _ => ?_, fun n _ => ?_, ?_, ?_⟩
    · rw [angle_fin]; exact Ext.finite_fin _
    · rw [angle_fin]; exact Ext.finite_fin _
    · rw [(h n).1]; exact Ext.finite_fin _
    · rw [(h n).2]; exact Ext.finite_fin _
    · rw [h1]; exact Ext.finite_fin _
    · rw [h2]; exact Ext.finite_fin _
    · rw [h3]; exact Ext.finite_fin _
    · rw [h4]; exact Ext.finite_fin _
  exact ⟨_, dft_ok hr, fun k => hs k⟩

theorem exp_close (a b : ℝ) : ‖_root_.Complex.exp (a * _root_.Complex.I) - _root_.Complex.exp (b * _root_.Complex.I)‖ ≤ |a - b| := by
  have e : _root_.Complex.exp (a * _root_.Complex.I) - _root_.Complex.exp (b * _root_.Complex.I) =
      _root_.Complex.exp (b * _root_.Complex.I) * (_root_.Complex.exp (_root_.Complex.I * ((a - b : ℝ) : ℂ)) - 1) := by
    rw [mul_sub, ← _root_.Complex.exp_add, mul_one]
    congr 2
    push_cast; ring
  rw [e, norm_mul, _root_.Complex.norm_exp_ofReal_mul_I, one_mul]
  exact Real.norm_exp_I_mul_ofReal_sub_one_le

theorem pi_close : |piLit - Real.pi| ≤ 24 / 10 ^ 17 := by
  have h1 := Real.pi_gt_d20
  have h2 := Real.pi_lt_d20
  unfold piLit
  rw [abs_le]
  norm_num at h1 h2 ⊢
  constructor <;> linarith

theorem char_eq (j k : ZMod 16) : ZMod.stdAddChar (-(j * k)) =
    _root_.Complex.exp (((-2 * Real.pi * k.val * j.val / 16 : ℝ) : ℂ) * _root_.Complex.I) := by
  have hj : ((j.val : ℤ) : ZMod 16) = j := by
    push_cast
    exact ZMod.natCast_zmod_val j
  have hk : ((k.val : ℤ) : ZMod 16) = k := by
    push_cast
    exact ZMod.natCast_zmod_val k
  have e : -(j * k) = ((-((j.val : ℤ) * (k.val : ℤ)) : ℤ) : ZMod 16) := by
    rw [Int.cast_neg, Int.cast_mul, hj, hk]
  rw [e, ZMod.stdAddChar_coe]
  congr 1
  push_cast
  ring

theorem coef_close (k n : ZMod 16) : ‖coef k.val n.val - ZMod.stdAddChar (-(n * k))‖ ≤ 7 / 10 ^ 15 := by
  rw [char_eq, coef]
  refine (exp_close _ _).trans ?_
  have h1 : ((k.val : ℕ) : ℝ) ≤ 15 := by exact_mod_cast (show k.val ≤ 15 from by have := ZMod.val_lt k; omega)
  have h2 : ((n.val : ℕ) : ℝ) ≤ 15 := by exact_mod_cast (show n.val ≤ 15 from by have := ZMod.val_lt n; omega)
  have h3 : (0 : ℝ) ≤ k.val := Nat.cast_nonneg _
  have h4 : (0 : ℝ) ≤ n.val := Nat.cast_nonneg _
  rw [show (-2 * piLit * k.val * n.val / 16 - -2 * Real.pi * k.val * n.val / 16 : ℝ) =
    (piLit - Real.pi) * (-(k.val * n.val) / 8) by ring, abs_mul, abs_div, abs_neg, abs_mul, abs_of_nonneg h3, abs_of_nonneg h4]
  have h5 : (k.val : ℝ) * n.val ≤ 225 := by nlinarith
  have h6 := pi_close
  rw [abs_of_pos (show (0 : ℝ) < 8 by norm_num)]
  calc _ ≤ 24 / 10 ^ 17 * (225 / 8 : ℝ) := by gcongr
    _ ≤ _ := by norm_num

theorem dft_close (c : ZMod 16 → ℂ) (k : ZMod 16) :
    ‖(∑ n, c n * coef k.val n.val) - ZMod.dft c k‖ ≤ 7 / 10 ^ 15 * ∑ n, ‖c n‖ := by
  rw [ZMod.dft_apply, ← Finset.sum_sub_distrib, Finset.mul_sum]
  refine (norm_sum_le _ _).trans (Finset.sum_le_sum fun n _ => ?_)
  rw [smul_eq_mul, show c n * coef k.val n.val - ZMod.stdAddChar (-(n * k)) * c n =
    (coef k.val n.val - ZMod.stdAddChar (-(n * k))) * c n by ring, norm_mul]
  exact mul_le_mul_of_nonneg_right (coef_close k n) (norm_nonneg _)

/-- C92: in exact arithmetic the result is the discrete Fourier transform of Mathlib up to `7·10⁻¹⁵` of the sum of the moduli. -/
theorem C92_dft (h : ∀ n, (x n).Is (c n)) :
    ∃ (X : Fin N_MAX → Complex XR) (d : Fin N_MAX → ℂ), dftNaive x = .ok X ∧ (∀ k, (X k).Is (d k)) ∧
      ∀ k, ‖d k - ZMod.dft (N := 16) c k‖ ≤ 7 / 10 ^ 15 * ∑ n, ‖c n‖ := by
  obtain ⟨X, e, hX⟩ := C92_exact h
  refine ⟨X, _, e, hX, fun k => dft_close c k⟩

theorem norm_coef (k n : Nat) : ‖coef k n‖ = 1 := by
  rw [coef]
  exact _root_.Complex.norm_exp_ofReal_mul_I _

theorem norm_dft_le (c : ZMod 16 → ℂ) (k : ZMod 16) : ‖ZMod.dft c k‖ ≤ ∑ n, ‖c n‖ := by
  rw [ZMod.dft_apply]
  refine (norm_sum_le _ _).trans (Finset.sum_le_sum fun n _ => ?_)
  rw [smul_eq_mul, norm_mul, char_eq, _root_.Complex.norm_exp_ofReal_mul_I, one_mul]

theorem twice_close (c : ZMod 16 → ℂ) (k : ZMod 16) :
    ‖(∑ n : ZMod 16, (∑ m, c m * coef n.val m.val) * coef k.val n.val) - 16 * c (-k)‖ ≤ 3 / 10 ^ 13 * ∑ n, ‖c n‖ := by
  have hS : (0 : ℝ) ≤ ∑ n, ‖c n‖ := Finset.sum_nonneg fun _ _ => norm_nonneg _
  set E : ZMod 16 → ℂ := fun n => ∑ m, c m * coef n.val m.val with hE
  have h1 := dft_close E k
  have h2 : ∑ n, ‖E n‖ ≤ 16 * ∑ n, ‖c n‖ := by
    calc ∑ n, ‖E n‖ ≤ ∑ _n : ZMod 16, ∑ m, ‖c m‖ := Finset.sum_le_sum fun n _ => (norm_sum_le _ _).trans
          (Finset.sum_le_sum fun m _ => by rw [norm_mul, norm_coef, mul_one])
      _ = _ := by rw [Finset.sum_const, Finset.card_univ, ZMod.card, nsmul_eq_mul]; norm_num
  have h3 : ZMod.dft (ZMod.dft c) k = 16 * c (-k) := by
    rw [ZMod.dft_dft]
    simp
  have h4 : ‖ZMod.dft E k - ZMod.dft (ZMod.dft c) k‖ ≤ 16 * (7 / 10 ^ 15 * ∑ n, ‖c n‖) := by
    have e : ZMod.dft E k - ZMod.dft (ZMod.dft c) k = ZMod.dft (E - ZMod.dft c) k := by
      rw [map_sub]; rfl
    rw [e]
    refine (norm_dft_le _ _).trans ?_
    calc ∑ n, ‖(E - ZMod.dft c) n‖ ≤ ∑ _n : ZMod 16, 7 / 10 ^ 15 * ∑ n, ‖c n‖ := Finset.sum_le_sum fun n _ => dft_close c n
      _ = _ := by rw [Finset.sum_const, Finset.card_univ, ZMod.card, nsmul_eq_mul]; norm_num
  rw [h3] at h4
  have h5 := norm_sub_le_norm_sub_add_norm_sub (∑ n : ZMod 16, E n * coef k.val n.val) (ZMod.dft E k) (16 * c (-k))
  refine h5.trans ?_
  have h6 : ‖(∑ n : ZMod 16, E n * coef k.val n.val) - ZMod.dft E k‖ ≤ 7 / 10 ^ 15 * (16 * ∑ n, ‖c n‖) := h1.trans (by gcongr)
  linarith

/-- C92: in exact arithmetic the transform of the transform is sixteen times the reversed signal, up to `3·10⁻¹³` of
the sum of the moduli. -/
theorem C92_twice (h : ∀ n, (x n).Is (c n)) :
    ∃ (X Y : Fin N_MAX → Complex XR) (d : Fin N_MAX → ℂ), dftNaive x = .ok X ∧ dftNaive X = .ok Y ∧ (∀ k, (Y k).Is (d k)) ∧
      ∀ k : Fin N_MAX, ‖d k - 16 * c (-k)‖ ≤ 3 / 10 ^ 13 * ∑ n, ‖c n‖ := by
  obtain ⟨X, e, hX⟩ := C92_exact h
  obtain ⟨Y, e', hY⟩ := C92_exact hX
  exact ⟨X, Y, _, e, e', hY, fun k => twice_close c k⟩

/-- C92, a case: the samples `n + i`, whose first result is `120 + 16 i`; the transform of the transform exists. -/
example : (∃ X, dftNaive (fun n => (⟨.fin n.val, .fin 1⟩ : Complex XR)) = .ok X ∧ (X 0).Is (120 + 16 * _root_.Complex.I)) ∧
    ∃ (X Y : Fin N_MAX → Complex XR) (d : Fin N_MAX → ℂ), dftNaive (fun n => (⟨.fin n.val, .fin 1⟩ : Complex XR)) = .ok X ∧
      dftNaive X = .ok Y ∧ (Y 3).Is (d 3) ∧ ‖d 3 - 16 * (13 + _root_.Complex.I)‖ ≤ 1 / 10 ^ 10 := by
  have h : ∀ n : Fin N_MAX, (⟨.fin n.val, .fin 1⟩ : Complex XR).Is (n.val + _root_.Complex.I) := fun n => by
    refine ⟨?_, ?_⟩ <;> simp
  have hb : ∑ n : Fin N_MAX, ‖((n.val : ℂ) + _root_.Complex.I)‖ ≤ 136 := by
    calc ∑ n : Fin N_MAX, ‖((n.val : ℂ) + _root_.Complex.I)‖ ≤ ∑ n : Fin N_MAX, ((n.val : ℝ) + 1) :=
          sum_le_sum fun n _ => (norm_add_le _ _).trans (by rw [_root_.Complex.norm_natCast, _root_.Complex.norm_I])
      _ ≤ 136 := by simp [Fin.sum_univ_succ]; norm_num
  constructor
  · obtain ⟨X, e, hX⟩ := C92_exact h
    refine ⟨X, e, ?_⟩
    have h0 := hX 0
    have e0 : (∑ n : Fin N_MAX, ((n.val : ℂ) + _root_.Complex.I) * _root_.Complex.exp
      (((-2 * (3141592653589793 / 1000000000000000) * ((0 : Fin N_MAX).val : ℝ) * n.val / 16 : ℝ) : ℂ) * _root_.Complex.I)) =
        120 + 16 * _root_.Complex.I := by
      simp [Fin.sum_univ_succ]
      ring
    rw [e0] at h0
    exact h0
  · obtain ⟨X, Y, d, e1, e2, h1, h2⟩ := C92_twice h
    refine ⟨X, Y, d, e1, e2, h1 3, ?_⟩
    have h3 := h2 3
    have e3 : (((-3 : Fin N_MAX).val : ℕ) : ℂ) = 13 := by
      rw [show (-3 : Fin N_MAX).val = 13 from by decide]; norm_num
    rw [e3] at h3
    refine h3.trans ?_
    have : (3 : ℝ) / 10 ^ 13 * ∑ n : Fin N_MAX, ‖((n.val : ℂ) + _root_.Complex.I)‖ ≤ 3 / 10 ^ 13 * 136 := by gcongr
    refine this.trans (by norm_num)

end

/-- C92, a case: a sample that is not a number makes the transform fail. -/
example : ∀ X, dftNaive (fun n => if n = 3 then (⟨⟨.nan⟩, lit 0⟩ : Complex F32) else ⟨lit 1, lit 0⟩) ≠ .ok X := by
  intro X h
  have := (C92_finite h 3).1.1
  rw [if_pos rfl] at this
  revert this
  decide +kernel

end TempDsp
end Verif
