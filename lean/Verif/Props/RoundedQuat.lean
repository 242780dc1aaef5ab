import Verif.Props.Rounding
import Verif.Props.ArExact

/-
The quaternion product in binary32 (C79).
-/

set_option linter.unusedSectionVars false

namespace Verif
open Scalar Finset

variable {F : Type} [Scalar F] [R : Rounded F]

/-- The quaternion that four binary32 numbers stand for. -/
noncomputable def qval (f : Nat → F) : Quaternion ℝ := mkQ ⟪f 0⟫ ⟪f 1⟫ ⟪f 2⟫ ⟪f 3⟫

theorem norm_mkQ (w x y z : ℝ) : ‖mkQ w x y z‖ = √(w ^ 2 + x ^ 2 + y ^ 2 + z ^ 2) := by
  rw [quat_norm, Quaternion.normSq_def']
  rfl

theorem norm_qval (f : Nat → F) : ‖qval f‖ = norm2 4 (fun i => ⟪f i⟫) := by
  unfold qval
  rw [norm_mkQ, norm2]
  simp only [Finset.sum_range_succ, Finset.sum_range_zero, zero_add]

/-- Addition or subtraction. -/
def addsub (b : Bool) (x y : F) : F := if b then x -ᶠ y else x +ᶠ y
def sgn (b : Bool) : ℝ := if b then -1 else 1

theorem step_acc (b : Bool) {s x y : F} {S A : ℝ} {k : Nat} (hk : k ≤ 3) (hs : Finite s)
    (hx : Finite x) (hy : Finite y) (hS : |S| ≤ A) (he : |⟪s⟫ - S| ≤ 3 * k * (ru * A + rη))
    (hA : A + |⟪x⟫ * ⟪y⟫| ≤ 2 ^ 126) :
    Finite (addsub b s (x *ᶠ y)) ∧ |S + sgn b * (⟪x⟫ * ⟪y⟫)| ≤ A + |⟪x⟫ * ⟪y⟫| ∧
      |⟪addsub b s (x *ᶠ y)⟫ - (S + sgn b * (⟪x⟫ * ⟪y⟫))| ≤
        3 * (k + 1 : ℕ) * (ru * (A + |⟪x⟫ * ⟪y⟫|) + rη) := by
  have hA0 : 0 ≤ A := (abs_nonneg S).trans hS
  have hT0 := abs_nonneg (⟪x⟫ * ⟪y⟫)
  have hη := rη_pos
  have hη' := rη_le
  have hk0 : (0 : ℝ) ≤ k := Nat.cast_nonneg k
  have hk3 : (k : ℝ) ≤ 3 := by exact_mod_cast hk
  have hu : ru = 1 / 16777216 := by unfold ru; norm_num
  have hp : Finite (x *ᶠ y) := R.mul_finite hx hy (by
    refine le_trans ?_ (show (2 : ℝ) ^ 126 ≤ 2 ^ 127 by norm_num)
    linarith)
  have hp' := R.mul_near hx hy hp
  have hb : |sgn b * (⟪x⟫ * ⟪y⟫)| = |⟪x⟫ * ⟪y⟫| := by
    unfold sgn
    cases b <;> simp [abs_mul]
  have hpb : Near (sgn b * ⟪x *ᶠ y⟫) (sgn b * (⟪x⟫ * ⟪y⟫)) := by
    unfold Near at hp' ⊢
    rw [hb, ← mul_sub, abs_mul]
    unfold sgn
    cases b <;> simpa using hp'
  have e5 : 3 * (k : ℝ) * (ru * A + rη) ≤ 9 * (ru * A + rη) := by
    have : 0 ≤ ru * A + rη := by have := ru_pos; positivity
    nlinarith
  have hval : |⟪s⟫ + sgn b * ⟪x *ᶠ y⟫| ≤ 2 ^ 127 := by
    have a1 := abs_add_le ⟪s⟫ (sgn b * ⟪x *ᶠ y⟫)
    have a2 := abs_sub_abs_le_abs_sub ⟪s⟫ S
    have a3 := abs_sub_abs_le_abs_sub (sgn b * ⟪x *ᶠ y⟫) (sgn b * (⟪x⟫ * ⟪y⟫))
    have a4 := hpb.bound
    rw [hb] at a3 a4
    rw [hu] at he e5
    rw [show (2 : ℝ) ^ 126 = 85070591730234615865843651857942052864 by norm_num] at hA
    rw [show (2 : ℝ) ^ 127 = 170141183460469231731687303715884105728 by norm_num]
    norm_num at hη'
    linarith
  have hfin : Finite (addsub b s (x *ᶠ y)) ∧ Near ⟪addsub b s (x *ᶠ y)⟫ (⟪s⟫ + sgn b * ⟪x *ᶠ y⟫) := by
    cases b
    · rw [show sgn false * ⟪x *ᶠ y⟫ = ⟪x *ᶠ y⟫ by simp [sgn]] at hval ⊢
      have := R.add_finite hs hp hval
      exact ⟨this, R.add_near hs hp this⟩
    · rw [show sgn true * ⟪x *ᶠ y⟫ = -⟪x *ᶠ y⟫ by simp [sgn], ← sub_eq_add_neg] at hval ⊢
      have := R.sub_finite hs hp hval
      exact ⟨this, R.sub_near hs hp this⟩
  refine ⟨hfin.1, ?_, ?_⟩
  · have := abs_add_le S (sgn b * (⟪x⟫ * ⟪y⟫))
    linarith
  · have := sum_step (by omega) hS he hpb hfin.2
    rw [hb] at this
    push_cast
    exact this

/-- Four products, added or subtracted from left to right. -/
theorem four_acc (b1 b2 b3 : Bool) {x0 x1 x2 x3 y0 y1 y2 y3 : F} (hx0 : Finite x0) (hx1 : Finite x1)
    (hx2 : Finite x2) (hx3 : Finite x3) (hy0 : Finite y0) (hy1 : Finite y1) (hy2 : Finite y2)
    (hy3 : Finite y3) {A : ℝ} (hA : A ≤ 2 ^ 126)
    (hS : |⟪x0⟫ * ⟪y0⟫| + |⟪x1⟫ * ⟪y1⟫| + |⟪x2⟫ * ⟪y2⟫| + |⟪x3⟫ * ⟪y3⟫| ≤ A) :
    Finite (addsub b3 (addsub b2 (addsub b1 (x0 *ᶠ y0) (x1 *ᶠ y1)) (x2 *ᶠ y2)) (x3 *ᶠ y3)) ∧
      |⟪addsub b3 (addsub b2 (addsub b1 (x0 *ᶠ y0) (x1 *ᶠ y1)) (x2 *ᶠ y2)) (x3 *ᶠ y3)⟫ -
        (⟪x0⟫ * ⟪y0⟫ + sgn b1 * (⟪x1⟫ * ⟪y1⟫) + sgn b2 * (⟪x2⟫ * ⟪y2⟫) + sgn b3 * (⟪x3⟫ * ⟪y3⟫))| ≤
        12 * (ru * A + rη) := by
  have n0 := abs_nonneg (⟪x0⟫ * ⟪y0⟫)
  have n1 := abs_nonneg (⟪x1⟫ * ⟪y1⟫)
  have n2 := abs_nonneg (⟪x2⟫ * ⟪y2⟫)
  have n3 := abs_nonneg (⟪x3⟫ * ⟪y3⟫)
  have hη := rη_pos
  have hu := ru_pos
  have h0 : Finite (x0 *ᶠ y0) := R.mul_finite hx0 hy0 (by
    refine le_trans ?_ (show (2 : ℝ) ^ 126 ≤ 2 ^ 127 by norm_num)
    linarith)
  have e0 : |⟪x0 *ᶠ y0⟫ - ⟪x0⟫ * ⟪y0⟫| ≤ 3 * (1 : ℕ) * (ru * |⟪x0⟫ * ⟪y0⟫| + rη) := by
    have := R.mul_near hx0 hy0 h0
    unfold Near at this
    have : 0 ≤ ru * |⟪x0⟫ * ⟪y0⟫| := by positivity
    push_cast
    linarith
  obtain ⟨h1, s1, e1⟩ := step_acc b1 (by omega) h0 hx1 hy1 le_rfl e0 (by linarith)
  obtain ⟨h2, s2, e2⟩ := step_acc b2 (by omega) h1 hx2 hy2 s1 e1 (by linarith)
  obtain ⟨h3, s3, e3⟩ := step_acc b3 (by omega) h2 hx3 hy3 s2 e2 (by linarith)
  refine ⟨h3, e3.trans ?_⟩
  push_cast
  nlinarith

theorem cauchy4 (a0 a1 a2 a3 b0 b1 b2 b3 : ℝ) :
    |a0 * b0| + |a1 * b1| + |a2 * b2| + |a3 * b3| ≤
      √(a0 ^ 2 + a1 ^ 2 + a2 ^ 2 + a3 ^ 2) * √(b0 ^ 2 + b1 ^ 2 + b2 ^ 2 + b3 ^ 2) := by
  rw [← Real.sqrt_mul (by positivity)]
  refine Real.le_sqrt_of_sq_le ?_
  simp only [abs_mul]
  have k : ∀ x : ℝ, x ^ 2 = |x| ^ 2 := fun x => (sq_abs x).symm
  rw [k a0, k a1, k a2, k a3, k b0, k b1, k b2, k b3]
  generalize |a0| = a0, |a1| = a1, |a2| = a2, |a3| = a3, |b0| = b0, |b1| = b1, |b2| = b2, |b3| = b3
  nlinarith [sq_nonneg (a0 * b1 - a1 * b0), sq_nonneg (a0 * b2 - a2 * b0), sq_nonneg (a0 * b3 - a3 * b0),
    sq_nonneg (a1 * b2 - a2 * b1), sq_nonneg (a1 * b3 - a3 * b1), sq_nonneg (a2 * b3 - a3 * b2)]

/-- C79: the quaternion product in binary32: for finite quaternions whose norms multiply to at most
`2¹²⁶` it succeeds, and the result is the Hamilton product up to `24 / 2²⁴` of the product of the norms. -/
theorem C79_mul {a b : Vec F} {f g : Nat → F} (ha : VecIs a 4 f) (hb : VecIs b 4 g)
    (hf : ∀ i, i < 4 → Finite (f i)) (hg : ∀ i, i < 4 → Finite (g i))
    (hA : ‖qval f‖ * ‖qval g‖ ≤ 2 ^ 126) :
    ∃ m h, Quat.mulNew a b = .ok m ∧ VecIs m 4 h ∧ (∀ i, i < 4 → Finite (h i)) ∧
      ‖qval h - qval f * qval g‖ ≤ 24 / 2 ^ 24 * (‖qval f‖ * ‖qval g‖) + 24 / 2 ^ 150 := by
  obtain ⟨f0, f1, f2, f3⟩ := forall_lt_four.mp hf
  obtain ⟨g0, g1, g2, g3⟩ := forall_lt_four.mp hg
  have hz := Vec.zeros_is (F := F) (n := 4) (by omega) (by omega)
  have nf : ‖qval f‖ = √(⟪f 0⟫ ^ 2 + ⟪f 1⟫ ^ 2 + ⟪f 2⟫ ^ 2 + ⟪f 3⟫ ^ 2) := norm_mkQ ..
  have ng : ‖qval g‖ = √(⟪g 0⟫ ^ 2 + ⟪g 1⟫ ^ 2 + ⟪g 2⟫ ^ 2 + ⟪g 3⟫ ^ 2) := norm_mkQ ..
  have bw := four_acc true true true f0 f1 f2 f3 g0 g1 g2 g3 hA (by
    rw [nf, ng]; exact cauchy4 ..)
  have bx := four_acc false true false f0 f1 f3 f2 g1 g0 g2 g3 hA (by
    rw [nf, ng]
    have := cauchy4 ⟪f 0⟫ ⟪f 1⟫ ⟪f 2⟫ ⟪f 3⟫ ⟪g 1⟫ ⟪g 0⟫ ⟪g 3⟫ ⟪g 2⟫
    rw [show ⟪g 1⟫ ^ 2 + ⟪g 0⟫ ^ 2 + ⟪g 3⟫ ^ 2 + ⟪g 2⟫ ^ 2 = ⟪g 0⟫ ^ 2 + ⟪g 1⟫ ^ 2 + ⟪g 2⟫ ^ 2 + ⟪g 3⟫ ^ 2 by ring] at this
    linarith)
  have by_ := four_acc false false true f0 f3 g0 f1 g2 g1 f2 g3 hA (by
    rw [nf, ng, mul_comm ⟪g 0⟫]
    have := cauchy4 ⟪f 0⟫ ⟪f 1⟫ ⟪f 2⟫ ⟪f 3⟫ ⟪g 2⟫ ⟪g 3⟫ ⟪g 0⟫ ⟪g 1⟫
    rw [show ⟪g 2⟫ ^ 2 + ⟪g 3⟫ ^ 2 + ⟪g 0⟫ ^ 2 + ⟪g 1⟫ ^ 2 = ⟪g 0⟫ ^ 2 + ⟪g 1⟫ ^ 2 + ⟪g 2⟫ ^ 2 + ⟪g 3⟫ ^ 2 by ring] at this
    linarith)
  have bz := four_acc true false false f0 f2 f1 g0 g3 g1 g2 f3 hA (by
    rw [nf, ng, mul_comm ⟪g 0⟫]
    have := cauchy4 ⟪f 0⟫ ⟪f 1⟫ ⟪f 2⟫ ⟪f 3⟫ ⟪g 3⟫ ⟪g 2⟫ ⟪g 1⟫ ⟪g 0⟫
    rw [show ⟪g 3⟫ ^ 2 + ⟪g 2⟫ ^ 2 + ⟪g 1⟫ ^ 2 + ⟪g 0⟫ ^ 2 = ⟪g 0⟫ ^ 2 + ⟪g 1⟫ ^ 2 + ⟪g 2⟫ ^ 2 + ⟪g 3⟫ ^ 2 by ring] at this
    linarith)
  simp only [addsub, Bool.false_eq_true, if_true, if_false, sgn] at bw bx by_ bz
  obtain ⟨m, e, hm⟩ := Quat.storeAll_ok hz bw.1 bx.1 by_.1 bz.1
  refine ⟨m, _, ?_, hm, forall_lt_four.mpr ⟨bw.1, bx.1, by_.1, bz.1⟩, ?_⟩
  · unfold Quat.mulNew
    simp only [Quat.isQuaternion_eq ha, Quat.isQuaternion_eq hb, Res.ok_bind, decide_true, Bool.not_true,
      Bool.false_eq_true, if_false, ha.get 0 (by omega), ha.get 1 (by omega), ha.get 2 (by omega),
      ha.get 3 (by omega), hb.get 0 (by omega), hb.get 1 (by omega), hb.get 2 (by omega),
      hb.get 3 (by omega), Vec.init_new (F := F) (n := 4) (by omega) (by omega)]
    exact exec_ok e
  · generalize hE : 12 * (ru * (‖qval f‖ * ‖qval g‖) + rη) = E at *
    have hE0 : 0 ≤ E := (abs_nonneg _).trans bw.2
    have hE' : 24 / 2 ^ 24 * (‖qval f‖ * ‖qval g‖) + 24 / 2 ^ 150 = 2 * E := by
      rw [← hE]
      unfold ru rη
      ring
    rw [hE', quat_norm, Quaternion.normSq_def']
    refine Real.sqrt_le_iff.mpr ⟨by positivity, ?_⟩
    have c0 := sq_le_sq' (abs_le.mp bw.2).1 (abs_le.mp bw.2).2
    have c1 := sq_le_sq' (abs_le.mp bx.2).1 (abs_le.mp bx.2).2
    have c2 := sq_le_sq' (abs_le.mp by_.2).1 (abs_le.mp by_.2).2
    have c3 := sq_le_sq' (abs_le.mp bz.2).1 (abs_le.mp bz.2).2
    simp only [qval, mkQ_re, mkQ_imI, mkQ_imJ, mkQ_imK, seq4, Quaternion.re_sub, Quaternion.imI_sub, Quaternion.imJ_sub,
      Quaternion.imK_sub, Quaternion.re_mul, Quaternion.imI_mul, Quaternion.imJ_mul, Quaternion.imK_mul]
    refine le_trans (le_of_eq ?_) ((add_le_add (add_le_add (add_le_add c0 c1) c2) c3).trans (le_of_eq ?_))
    · ring
    · ring

/-- A case: (1, 2, 3, 4)(5, 6, 7, 8), exact in binary32; the hypotheses of the theorem hold. -/
example : ((Quat.mulNew (fvec [1, 2, 3, 4]) (fvec [5, 6, 7, 8])) >>= fun m => .ok (contents 4 (.ok (), m))) =
    .ok [lit (-60), lit 12, lit 30, lit 24] := by decide +kernel
example : ∃ m h, Quat.mulNew (fvec [1, 2, 3, 4]) (fvec [5, 6, 7, 8]) = .ok m ∧ VecIs m 4 h ∧
    ‖qval h - mkQ 1 2 3 4 * mkQ 5 6 7 8‖ ≤ 24 / 2 ^ 24 * (‖mkQ (1 : ℝ) 2 3 4‖ * ‖mkQ (5 : ℝ) 6 7 8‖) + 24 / 2 ^ 150 := by
  have e : ∀ k : ℚ, F32.fl (.fin k) = ⟨.fin k⟩ → ⟪(lit k : F32)⟫ = (k : ℝ) := by
    intro k hk
    show F32.toReal (F32.fl (.fin k)) = _
    rw [hk]
    rfl
  have q1 : qval (fun i => (lit (([1, 2, 3, 4] : List ℚ).getD i 0) : F32)) = mkQ 1 2 3 4 := by
    unfold qval
    simp only [List.getD_cons_zero, List.getD_cons_succ]
    rw [e 1 (by decide +kernel), e 2 (by decide +kernel), e 3 (by decide +kernel), e 4 (by decide +kernel)]
    norm_num
  have q2 : qval (fun i => (lit (([5, 6, 7, 8] : List ℚ).getD i 0) : F32)) = mkQ 5 6 7 8 := by
    unfold qval
    simp only [List.getD_cons_zero, List.getD_cons_succ]
    rw [e 5 (by decide +kernel), e 6 (by decide +kernel), e 7 (by decide +kernel), e 8 (by decide +kernel)]
    norm_num
  have ha : VecIs (fvec [1, 2, 3, 4]) 4 _ := Vec.of_is (fun i => (lit (([1, 2, 3, 4] : List ℚ).getD i 0) : F32))
    (by decide) (by decide)
  have hb : VecIs (fvec [5, 6, 7, 8]) 4 _ := Vec.of_is (fun i => (lit (([5, 6, 7, 8] : List ℚ).getD i 0) : F32))
    (by decide) (by decide)
  have hf : ∀ i, i < 4 → Finite (lit (([1, 2, 3, 4] : List ℚ).getD i 0) : F32) := by decide +kernel
  have hg : ∀ i, i < 4 → Finite (lit (([5, 6, 7, 8] : List ℚ).getD i 0) : F32) := by decide +kernel
  obtain ⟨m, h, h1, h2, -, h3⟩ := C79_mul ha hb hf hg (by
    rw [q1, q2, norm_mkQ, norm_mkQ]
    have h1 : √((1 : ℝ) ^ 2 + 2 ^ 2 + 3 ^ 2 + 4 ^ 2) ≤ 30 := Real.sqrt_le_iff.mpr ⟨by norm_num, by norm_num⟩
    have h2 : √((5 : ℝ) ^ 2 + 6 ^ 2 + 7 ^ 2 + 8 ^ 2) ≤ 30 := Real.sqrt_le_iff.mpr ⟨by norm_num, by norm_num⟩
    calc _ ≤ (30 : ℝ) * 30 := by gcongr
      _ ≤ _ := by norm_num)
  rw [q1, q2] at h3
  exact ⟨m, h, h1, h2, h3⟩

end Verif
