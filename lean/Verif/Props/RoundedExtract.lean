import Verif.Props.RoundedAmStep
import Verif.Props.Extract

/-
The three ways back from a direction cosine matrix to a quaternion, in binary32 (C103).
-/

set_option linter.unusedSectionVars false
set_option linter.unusedSimpArgs false

namespace Verif
open Scalar Finset

/-- The literals of these functions are exact, and division respects signs. -/
class Halves (F : Type) [Scalar F] [Rounded F] : Prop where
  half : Apx (lit (1 / 2) : F) (1 / 2) 0
  quarter : Apx (lit (1 / 4) : F) (1 / 4) 0
  three : Apx (lit 3 : F) 3 0
  neg_one : Apx (lit (-1) : F) (-1) 0
  /-- A quotient has the sign of the exact one. -/
  div_nonneg : ∀ {x y : F}, Finite x → Finite y → Finite (x /ᶠ y) → 0 ≤ ⟪x⟫ → 0 < ⟪y⟫ → 0 ≤ ⟪x /ᶠ y⟫

theorem apx_lit {k : ℚ} (hk : F32.fl (.fin k) = ⟨.fin k⟩) : Apx (lit k : F32) (k : ℝ) 0 := by
  refine ⟨?_, by rw [val_lit hk]; simp⟩
  show Finite (F32.fl (.fin k))
  rw [hk]
  exact ⟨rfl, rfl⟩

instance : Halves F32 where
  half := by
    have := apx_lit (k := 1 / 2) (by decide +kernel)
    push_cast at this
    exact this
  quarter := by
    have := apx_lit (k := 1 / 4) (by decide +kernel)
    push_cast at this
    exact this
  three := by
    have := apx_lit (k := 3) (by decide +kernel)
    push_cast at this
    exact this
  neg_one := by
    have := apx_lit (k := -1) (by decide +kernel)
    push_cast at this
    exact this
  div_nonneg := by
    intro x y hx hy hf h0 h1
    obtain ⟨x, rfl⟩ := F32.finite_iff.mp hx
    obtain ⟨y, rfl⟩ := F32.finite_iff.mp hy
    have h0' : (0 : ℝ) ≤ x := h0
    have h1' : (0 : ℝ) < y := h1
    rw [F32.div_eq _ (F32.val_ne h1.ne')] at hf ⊢
    exact ((F32.fl_fin _).1 hf).2.1 (by push_cast; positivity)

variable {F : Type} [Scalar F] [R : Rounded F]

/-! ### The matrix of a quaternion of norm one up to one in a million -/

theorem dcm_entries (w x y z : ℝ) :
    dcmOf (mkQ w x y z) 0 0 = w ^ 2 + x ^ 2 - y ^ 2 - z ^ 2 ∧ dcmOf (mkQ w x y z) 0 1 = 2 * (x * y - w * z) ∧
    dcmOf (mkQ w x y z) 0 2 = 2 * (x * z + w * y) ∧ dcmOf (mkQ w x y z) 1 0 = 2 * (x * y + w * z) ∧
    dcmOf (mkQ w x y z) 1 1 = 1 - 2 * (x ^ 2 + z ^ 2) ∧ dcmOf (mkQ w x y z) 1 2 = 2 * (y * z - w * x) ∧
    dcmOf (mkQ w x y z) 2 0 = 2 * (x * z - w * y) ∧ dcmOf (mkQ w x y z) 2 1 = 2 * (w * x + y * z) ∧
    dcmOf (mkQ w x y z) 2 2 = 1 - 2 * (x ^ 2 + y ^ 2) := by
  simp only [dcmOf, tbl, List.getD_cons_zero, List.getD_cons_succ, mkQ_re, mkQ_imI, mkQ_imJ, mkQ_imK, sq, and_self]

theorem sq_near {f : Nat → F} (hn : NearUnit f) :
    |⟪f 0⟫ ^ 2 + ⟪f 1⟫ ^ 2 + ⟪f 2⟫ ^ 2 + ⟪f 3⟫ ^ 2 - 1| ≤ 21 / 10 ^ 7 := by
  have hn' : |‖qval f‖ - 1| ≤ 1 / 10 ^ 6 := hn
  have h : ‖qval f‖ ^ 2 = ⟪f 0⟫ ^ 2 + ⟪f 1⟫ ^ 2 + ⟪f 2⟫ ^ 2 + ⟪f 3⟫ ^ 2 := by
    rw [qval, norm_mkQ, Real.sq_sqrt (by positivity)]
  rw [← h]
  obtain ⟨h1, h2⟩ := abs_le.mp hn'
  rw [abs_le]
  constructor <;> nlinarith

/-- The sums and differences of entries that the three functions use. -/
structure Sums (D : Nat → Nat → F) (w x y z : ℝ) : Prop where
  trace : Apx (sumUp 3 fun i => D i i) (4 * w ^ 2 - 1) (101 / 10 ^ 7)
  trace' : Apx (D 0 0 +ᶠ D 1 1 +ᶠ D 2 2) (4 * w ^ 2 - 1) (101 / 10 ^ 7)
  x1 : Apx (D 0 0 -ᶠ D 1 1 -ᶠ D 2 2) (4 * x ^ 2 - 1) (60 / 10 ^ 7)
  y1 : Apx (D 1 1 -ᶠ D 2 2 -ᶠ D 0 0) (4 * y ^ 2 - 1) (60 / 10 ^ 7)
  z1 : Apx (D 2 2 -ᶠ D 0 0 -ᶠ D 1 1) (4 * z ^ 2 - 1) (60 / 10 ^ 7)
  y2 : Apx (Scalar.neg (D 0 0) +ᶠ D 1 1 -ᶠ D 2 2) (4 * y ^ 2 - 1) (60 / 10 ^ 7)
  z2 : Apx (Scalar.neg (D 0 0) -ᶠ D 1 1 +ᶠ D 2 2) (4 * z ^ 2 - 1) (60 / 10 ^ 7)
  wx : Apx (D 2 1 -ᶠ D 1 2) (4 * (w * x)) (23 / 10 ^ 7)
  wy : Apx (D 0 2 -ᶠ D 2 0) (4 * (w * y)) (23 / 10 ^ 7)
  wz : Apx (D 1 0 -ᶠ D 0 1) (4 * (w * z)) (23 / 10 ^ 7)
  wx' : Apx (D 1 2 -ᶠ D 2 1) (-(4 * (w * x))) (23 / 10 ^ 7)
  wy' : Apx (D 2 0 -ᶠ D 0 2) (-(4 * (w * y))) (23 / 10 ^ 7)
  wz' : Apx (D 0 1 -ᶠ D 1 0) (-(4 * (w * z))) (23 / 10 ^ 7)
  xy : Apx (D 0 1 +ᶠ D 1 0) (4 * (x * y)) (23 / 10 ^ 7)
  xz : Apx (D 2 0 +ᶠ D 0 2) (4 * (x * z)) (23 / 10 ^ 7)
  yz : Apx (D 1 2 +ᶠ D 2 1) (4 * (y * z)) (23 / 10 ^ 7)

theorem Apx.of_eq {x : F} {X Y e d e' : ℝ} (h : Apx x X e) (hd : |X - Y| ≤ d) (he : e + d ≤ e') : Apx x Y e' :=
  ⟨h.1, (dist_trans h.2 hd).trans he⟩

theorem two_mul_abs {a b N : ℝ} (h : a ^ 2 + b ^ 2 ≤ N) : |4 * (a * b)| ≤ 2 * N := by
  rw [abs_le]
  constructor <;> nlinarith [sq_nonneg (a - b), sq_nonneg (a + b)]

section
variable {D : Nat → Nat → F} {w x y z : ℝ}

theorem two_acc {a b : F} {A B : ℝ} (ha : Apx a A (108 / 10 ^ 8)) (hb : Apx b B (108 / 10 ^ 8)) :
    (|A + B| ≤ 21 / 10 → Apx (a +ᶠ b) (A + B) (2289 / 10 ^ 9)) ∧
    (|A - B| ≤ 21 / 10 → Apx (a -ᶠ b) (A - B) (2289 / 10 ^ 9)) := by
  have hη := rη_le
  norm_num at hη
  exact ⟨fun hB => (ha.add hb hB (by norm_num)).mono (by norm_num; linarith),
    fun hB => (ha.sub hb hB (by norm_num)).mono (by norm_num; linarith)⟩

theorem last_acc {a b : F} {A B : ℝ} (ha : Apx a A (2289 / 10 ^ 9)) (hb : Apx b B (108 / 10 ^ 8)) :
    (|A + B| ≤ 31 / 10 → Apx (a +ᶠ b) (A + B) (356 / 10 ^ 8)) ∧
    (|A - B| ≤ 31 / 10 → Apx (a -ᶠ b) (A - B) (356 / 10 ^ 8)) := by
  have hη := rη_le
  norm_num at hη
  exact ⟨fun hB => (ha.add hb hB (by norm_num)).mono (by norm_num; linarith),
    fun hB => (ha.sub hb hB (by norm_num)).mono (by norm_num; linarith)⟩

theorem trace_acc (hN : |w ^ 2 + x ^ 2 + y ^ 2 + z ^ 2 - 1| ≤ 21 / 10 ^ 7)
    (h00 : Apx (D 0 0) (w ^ 2 + x ^ 2 - y ^ 2 - z ^ 2) (108 / 10 ^ 8))
    (h11 : Apx (D 1 1) (1 - 2 * (x ^ 2 + z ^ 2)) (108 / 10 ^ 8))
    (h22 : Apx (D 2 2) (1 - 2 * (x ^ 2 + y ^ 2)) (108 / 10 ^ 8)) :
    Apx (sumUp 3 fun i => D i i) (4 * w ^ 2 - 1) (101 / 10 ^ 7) ∧
    Apx (D 0 0 +ᶠ D 1 1 +ᶠ D 2 2) (4 * w ^ 2 - 1) (101 / 10 ^ 7) := by
  have hη := rη_le
  norm_num at hη
  obtain ⟨n1, n2⟩ := abs_le.mp hN
  norm_num at n1 n2
  have w0 := sq_nonneg w
  have x0 := sq_nonneg x
  have y0 := sq_nonneg y
  have z0 := sq_nonneg z
  generalize w ^ 2 = W at *
  generalize x ^ 2 = X at *
  generalize y ^ 2 = Y at *
  generalize z ^ 2 = Z at *
  constructor
  · show Apx (((lit 0 +ᶠ D 0 0) +ᶠ D 1 1) +ᶠ D 2 2) _ _
    have t0 := (Apx.zero.add h00 (B := 11 / 10) (by rw [abs_le]; constructor <;> linarith) (by norm_num)).mono
      (e' := 1148 / 10 ^ 9) (by norm_num; linarith)
    have t1 := (t0.add h11 (B := 21 / 10) (by rw [abs_le]; constructor <;> linarith) (by norm_num)).mono
      (e' := 236 / 10 ^ 8) (by norm_num; linarith)
    have t2 := (t1.add h22 (B := 31 / 10) (by rw [abs_le]; constructor <;> linarith) (by norm_num)).mono
      (e' := 364 / 10 ^ 8) (by norm_num; linarith)
    exact t2.of_eq (d := 63 / 10 ^ 7) (by rw [abs_le]; constructor <;> norm_num <;> linarith) (by norm_num)
  · have t1 := (two_acc h00 h11).1 (by rw [abs_le]; constructor <;> linarith)
    have t2 := (last_acc t1 h22).1 (by rw [abs_le]; constructor <;> linarith)
    exact t2.of_eq (d := 63 / 10 ^ 7) (by rw [abs_le]; constructor <;> norm_num <;> linarith) (by norm_num)

theorem diag_acc (hN : |w ^ 2 + x ^ 2 + y ^ 2 + z ^ 2 - 1| ≤ 21 / 10 ^ 7)
    (h00 : Apx (D 0 0) (w ^ 2 + x ^ 2 - y ^ 2 - z ^ 2) (108 / 10 ^ 8))
    (h11 : Apx (D 1 1) (1 - 2 * (x ^ 2 + z ^ 2)) (108 / 10 ^ 8))
    (h22 : Apx (D 2 2) (1 - 2 * (x ^ 2 + y ^ 2)) (108 / 10 ^ 8)) :
    Apx (D 0 0 -ᶠ D 1 1 -ᶠ D 2 2) (4 * x ^ 2 - 1) (60 / 10 ^ 7) ∧
    Apx (D 1 1 -ᶠ D 2 2 -ᶠ D 0 0) (4 * y ^ 2 - 1) (60 / 10 ^ 7) ∧
    Apx (D 2 2 -ᶠ D 0 0 -ᶠ D 1 1) (4 * z ^ 2 - 1) (60 / 10 ^ 7) ∧
    Apx (Scalar.neg (D 0 0) +ᶠ D 1 1 -ᶠ D 2 2) (4 * y ^ 2 - 1) (60 / 10 ^ 7) ∧
    Apx (Scalar.neg (D 0 0) -ᶠ D 1 1 +ᶠ D 2 2) (4 * z ^ 2 - 1) (60 / 10 ^ 7) := by
  obtain ⟨n1, n2⟩ := abs_le.mp hN
  norm_num at n1 n2
  have w0 := sq_nonneg w
  have x0 := sq_nonneg x
  have y0 := sq_nonneg y
  have z0 := sq_nonneg z
  generalize w ^ 2 = W at *
  generalize x ^ 2 = X at *
  generalize y ^ 2 = Y at *
  generalize z ^ 2 = Z at *
  refine ⟨?_, ?_, ?_, ?_, ?_⟩
  · have t1 := (two_acc h00 h11).2 (by rw [abs_le]; constructor <;> linarith)
    have t2 := (last_acc t1 h22).2 (by rw [abs_le]; constructor <;> linarith)
    exact t2.of_eq (d := 21 / 10 ^ 7) (by rw [abs_le]; constructor <;> norm_num <;> linarith) (by norm_num)
  · have t1 := (two_acc h11 h22).2 (by rw [abs_le]; constructor <;> linarith)
    have t2 := (last_acc t1 h00).2 (by rw [abs_le]; constructor <;> linarith)
    exact t2.of_eq (d := 21 / 10 ^ 7) (by rw [abs_le]; constructor <;> norm_num <;> linarith) (by norm_num)
  · have t1 := (two_acc h22 h00).2 (by rw [abs_le]; constructor <;> linarith)
    have t2 := (last_acc t1 h11).2 (by rw [abs_le]; constructor <;> linarith)
    exact t2.of_eq (d := 21 / 10 ^ 7) (by rw [abs_le]; constructor <;> norm_num <;> linarith) (by norm_num)
  · have t1 := (two_acc h00.neg h11).1 (by rw [abs_le]; constructor <;> linarith)
    have t2 := (last_acc t1 h22).2 (by rw [abs_le]; constructor <;> linarith)
    exact t2.of_eq (d := 21 / 10 ^ 7) (by rw [abs_le]; constructor <;> norm_num <;> linarith) (by norm_num)
  · have t1 := (two_acc h00.neg h11).2 (by rw [abs_le]; constructor <;> linarith)
    have t2 := (last_acc t1 h22).1 (by rw [abs_le]; constructor <;> linarith)
    exact t2.of_eq (d := 21 / 10 ^ 7) (by rw [abs_le]; constructor <;> norm_num <;> linarith) (by norm_num)

/-- Two entries on both sides of the diagonal: with `p = a·b` and `q = c·d` they are `2(p + q)` and `2(p - q)`. -/
theorem cross_acc {s t : F} {p q : ℝ} (hs : Apx s (2 * (p + q)) (108 / 10 ^ 8)) (ht : Apx t (2 * (p - q)) (108 / 10 ^ 8))
    (hp : |4 * p| ≤ 21 / 10) (hq : |4 * q| ≤ 21 / 10) :
    Apx (s -ᶠ t) (4 * q) (23 / 10 ^ 7) ∧ Apx (t -ᶠ s) (-(4 * q)) (23 / 10 ^ 7) ∧
    Apx (s +ᶠ t) (4 * p) (23 / 10 ^ 7) ∧ Apx (t +ᶠ s) (4 * p) (23 / 10 ^ 7) := by
  refine ⟨?_, ?_, ?_, ?_⟩
  · have e : 2 * (p + q) - 2 * (p - q) = 4 * q := by ring
    have := (two_acc hs ht).2 (by rw [e]; exact hq)
    rw [e] at this
    exact this.mono (by norm_num)
  · have e : 2 * (p - q) - 2 * (p + q) = -(4 * q) := by ring
    have := (two_acc ht hs).2 (by rw [e, abs_neg]; exact hq)
    rw [e] at this
    exact this.mono (by norm_num)
  · have e : 2 * (p + q) + 2 * (p - q) = 4 * p := by ring
    have := (two_acc hs ht).1 (by rw [e]; exact hp)
    rw [e] at this
    exact this.mono (by norm_num)
  · have e : 2 * (p - q) + 2 * (p + q) = 4 * p := by ring
    have := (two_acc ht hs).1 (by rw [e]; exact hp)
    rw [e] at this
    exact this.mono (by norm_num)

theorem sums_of (hN : |w ^ 2 + x ^ 2 + y ^ 2 + z ^ 2 - 1| ≤ 21 / 10 ^ 7)
    (h : ∀ i j, i < 3 → j < 3 → Apx (D i j) (dcmOf (mkQ w x y z) i j) (108 / 10 ^ 8)) : Sums D w x y z := by
  obtain ⟨e00, e01, e02, e10, e11, e12, e20, e21, e22⟩ := dcm_entries w x y z
  have h00 := h 0 0 (by omega) (by omega)
  have h01 := h 0 1 (by omega) (by omega)
  have h02 := h 0 2 (by omega) (by omega)
  have h10 := h 1 0 (by omega) (by omega)
  have h11 := h 1 1 (by omega) (by omega)
  have h12 := h 1 2 (by omega) (by omega)
  have h20 := h 2 0 (by omega) (by omega)
  have h21 := h 2 1 (by omega) (by omega)
  have h22 := h 2 2 (by omega) (by omega)
  rw [e00] at h00; rw [e01] at h01; rw [e02] at h02; rw [e10] at h10; rw [e11] at h11
  rw [e12] at h12; rw [e20] at h20; rw [e21, add_comm] at h21; rw [e22] at h22
  obtain ⟨n1, n2⟩ := abs_le.mp hN
  norm_num at n1 n2
  have w0 := sq_nonneg w
  have x0 := sq_nonneg x
  have y0 := sq_nonneg y
  have z0 := sq_nonneg z
  have big : ∀ {a b : ℝ}, a ^ 2 + b ^ 2 ≤ 105 / 100 → |4 * (a * b)| ≤ 21 / 10 := fun h =>
    (two_mul_abs h).trans (by norm_num)
  have m1 := big (a := w) (b := x) (by linarith)
  have m2 := big (a := w) (b := y) (by linarith)
  have m3 := big (a := w) (b := z) (by linarith)
  have m4 := big (a := x) (b := y) (by linarith)
  have m5 := big (a := x) (b := z) (by linarith)
  have m6 := big (a := y) (b := z) (by linarith)
  obtain ⟨a1, a2⟩ := trace_acc hN h00 h11 h22
  obtain ⟨b1, b2, b3, b4, b5⟩ := diag_acc hN h00 h11 h22
  obtain ⟨c1, c2, c3, c4⟩ := cross_acc h21 h12 m6 m1
  obtain ⟨d1, d2, d3, d4⟩ := cross_acc h02 h20 m5 m2
  obtain ⟨g1, g2, g3, g4⟩ := cross_acc h10 h01 m4 m3
  exact ⟨a1, a2, b1, b2, b3, b4, b5, c1, d1, g1, c2, d2, g2, g4, d4, c4⟩

end

theorem dcm_sums {a : Vec F} {f : Nat → F} (ha : VecIs a 4 f) (hf : ∀ i, i < 4 → Finite (f i)) (hn : NearUnit f) :
    ∃ m D, Quat.convertToDcm a = .ok m ∧ MatIs m 3 3 D ∧ Sums D ⟪f 0⟫ ⟪f 1⟫ ⟪f 2⟫ ⟪f 3⟫ := by
  have hn' : |‖qval f‖ - 1| ≤ 1 / 10 ^ 6 := hn
  obtain ⟨n1, n2⟩ := abs_le.mp hn'
  have hn2 : ‖qval f‖ ^ 2 ≤ 1000003 / 1000000 := by nlinarith [norm_nonneg (qval f)]
  obtain ⟨m, D, e, hm, hD⟩ := C88_dcm ha hf (by norm_num at n2 ⊢; linarith)
  exact ⟨m, D, e, hm, sums_of (sq_near hn) fun i j hi hj => ⟨(hD i j hi hj).1, (hD i j hi hj).2.trans (by
    norm_num; linarith)⟩⟩

end Verif
