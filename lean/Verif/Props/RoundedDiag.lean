import Verif.Props.RoundedLr
import Verif.Props.RoundedDet

/-
C136: `lup`, `det`, `invert`, `is_positive_definite` and `chol` (linalg/src/linalg.rs:7-89,
linalg/src/matrix.rs:901-936, 1266-1300 and 1460-1560) in binary32 on upper triangular and on diagonal matrices.
-/

set_option linter.unusedSectionVars false
set_option linter.unusedSimpArgs false

namespace Verif
open Scalar Finset

variable {n : Nat} {a : Mat F32} {A : Nat → Nat → F32}

theorem mul_zero_right32 {x : F32} (hx : Finite x) : x *ᶠ lit 0 = lit 0 := by
  obtain ⟨q, rfl⟩ := F32.finite_iff.mp hx
  have h1 : (lit 0 : F32) = ⟨.fin 0⟩ := by decide +kernel
  rw [h1, F32.mul_eq, mul_zero]
  decide +kernel

theorem eps_pos32 : 0 < ⟪(EPSILON : F32)⟫ := lt_of_lt_of_le (by norm_num) (eps_low (F := F32))

/-- The pivot search when no row below exceeds the kept one. -/
theorem lupPivot_stay {lu : Mat F32} {p : Vec Nat} (hl : MatIs lu n n A) (hp : U8Is p n (fun i => i)) {s : Nat} (hs : s < n)
    (h : ∀ i, s < i → i < n → ¬ (A i s >ᶠ A s 0) = true) : Linalg.lupPivot lu p s n = .ok s := by
  unfold Linalg.lupPivot
  exact foldRange_ok (ε := LinalgError) _ (fun _ => s) (s + 1) n hs fun i h1 h2 => by
    simp only [hp.get i h2, Res.ok_bind, hl.get i s h2 hs, hp.get s hs, hl.get s 0 hs (by omega)]
    rw [if_neg (h i (by omega) h2)]

/-- One step on an upper triangular matrix. -/
theorem lupStep_stay {lu : Mat F32} {p : Vec Nat} (hl : MatIs lu n n A) (hp : U8Is p n (fun i => i))
    (hnum : ∀ i j, i < n → j < n → F32.IsNumber (A i j)) (hup : ∀ i j, j < i → i < n → A i j = lit 0) {s : Nat} (hs : s + 1 < n)
    (e : Linalg.lupPivot lu p s n = .ok s) :
    (|⟪A s s⟫| < ⟪(EPSILON : F32)⟫ ∧ Linalg.lupStep n n s (lu, p) = .error (.err .Singular)) ∨
    (⟪(EPSILON : F32)⟫ ≤ |⟪A s s⟫| ∧ ∃ lu' p', Linalg.lupStep n n s (lu, p) = .ok (lu', p') ∧ MatIs lu' n n A ∧
      U8Is p' n (fun i => i)) := by
  have hfin : ∀ i j, i < n → j < n → Finite (A i j) := fun i j hi hj => (hnum i j hi hj).1
  have hπ : PermOn n (fun i => i) := ⟨fun _ h => h, fun _ _ _ _ h => h⟩
  have hid : ∀ i : Nat, (if i = s then s else if i = s then s else i) = i := fun i => by
    by_cases h : i = s <;> simp [h]
  have hid' : ∀ i : Nat, (if i = s then s else i) = i := fun i => by
    by_cases h : i = s <;> simp [h]
  rcases Linalg.lupStep_run hl hp hπ hfin hs e (by omega) with h | ⟨h1, h2⟩
  · exact .inl h
  have hne : ⟪A s s⟫ ≠ 0 := by
    intro h0
    rw [h0, abs_zero] at h1
    exact absurd h1 (not_le.mpr eps_pos32)
  have hdiv : ∀ i, s < i → i < n → A i s /ᶠ A s s = lit 0 := fun i hi hin => by
    rw [hup i s hi hin]
    exact zero_div32 (hfin s s (by omega) (by omega)) hne
  have hsub : ∀ i b, s < i → i < n → s < b → b < n → A i b -ᶠ (A s b *ᶠ (A i s /ᶠ A s s)) = A i b := fun i b hi hin hb hbn => by
    rw [hdiv i hi hin, mul_zero_right32 (hfin s b (by omega) hbn), sub_zero32 (hnum i b hin hbn)]
  obtain ⟨⟨lu', p'⟩, e2⟩ := h2
    (fun i hi hin => by
      simp only [hid']
      rw [hdiv i hi hin]
      exact Rounded.zero_finite)
    (fun i b hi hin hb hbn => by
      simp only [hid']
      rw [hsub i b hi hin hb hbn]
      exact hfin i b hin hbn)
  obtain ⟨-, f', hl', hp', -, k1, k2, -⟩ := Linalg.lupStep_val hl hp hπ hfin hs e (by omega) e2
  refine .inr ⟨h1, lu', p', e2, hl'.congr fun i j hi hj => ?_, hp'.congr fun i _ => hid i⟩
  by_cases his : i ≤ s
  · have := k1 i j his hi
    simp only [hid] at this
    exact this
  · have := k2 i j (by omega) hi
    simp only [hid'] at this
    rw [this]
    by_cases hj1 : j < s
    · rw [if_pos hj1]
    · rw [if_neg hj1]
      by_cases hj2 : j = s
      · rw [if_pos hj2, hdiv i (by omega) hi, hj2, hup i s (by omega) hi]
      · rw [if_neg hj2, hsub i j (by omega) hi (by omega) hj]

/-- `lup` on an upper triangular matrix. -/
theorem lup_upper32 (ha : MatIs a n n A) (hn : 2 ≤ n) (hnum : ∀ i j, i < n → j < n → F32.IsNumber (A i j))
    (hup : ∀ i j, j < i → i < n → A i j = lit 0) :
    ((⟪(EPSILON : F32)⟫ ≤ ⟪A 0 0⟫ ∧ ∀ k, 0 < k → k + 1 < n → ⟪(EPSILON : F32)⟫ ≤ |⟪A k k⟫|) ∧
      ∃ lu p, Linalg.lup a = .ok (lu, p) ∧ MatIs lu n n A ∧ U8Is p n (fun i => i)) ∨
    (¬ (⟪(EPSILON : F32)⟫ ≤ ⟪A 0 0⟫ ∧ ∀ k, 0 < k → k + 1 < n → ⟪(EPSILON : F32)⟫ ≤ |⟪A k k⟫|) ∧
      Linalg.lup a = .error (.err .Singular)) := by
  have hfin : ∀ i j, i < n → j < n → Finite (A i j) := fun i j hi hj => (hnum i j hi hj).1
  have hz : ∀ i, 0 < i → i < n → ⟪A i 0⟫ = 0 := fun i h1 h2 => by
    rw [hup i 0 h1 h2, Rounded.zero_val]
  obtain ⟨l, p, hl, hp, e⟩ := Linalg.lup_start_run ha hfin
  have hπ : PermOn n (fun i => i) := ⟨fun _ h => h, fun _ _ _ _ h => h⟩
  have ep := eps_pos32
  -- the steps from 1 on
  have loop : ∀ len s l p, 1 ≤ s → s + len = n - 1 → MatIs l n n A → U8Is p n (fun i => i) →
      ((∀ k, s ≤ k → k + 1 < n → ⟪(EPSILON : F32)⟫ ≤ |⟪A k k⟫|) ∧
        ∃ lu p', foldFrom s len (Linalg.lupStep n n) (l, p) = .ok (lu, p') ∧ MatIs lu n n A ∧ U8Is p' n (fun i => i)) ∨
      ((∃ k, s ≤ k ∧ k + 1 < n ∧ |⟪A k k⟫| < ⟪(EPSILON : F32)⟫) ∧
        foldFrom s len (Linalg.lupStep n n) (l, p) = .error (.err .Singular)) := by
    intro len
    induction len with
    | zero =>
      intro s l p _ hs hl hp
      exact .inl ⟨fun k h1 h2 => by omega, l, p, rfl, hl, hp⟩
    | succ len ih =>
      intro s l p h1 hs hl hp
      have hk : Linalg.lupPivot l p s n = .ok s := lupPivot_stay hl hp (by omega) fun i hi hin => by
        rw [hup i s hi hin, hup s 0 (by omega) (by omega)]
        decide +kernel
      rw [foldFrom_succ]
      rcases lupStep_stay hl hp hnum hup (by omega) hk with ⟨k1, k2⟩ | ⟨k1, l', p', k2, k3, k4⟩
      · exact .inr ⟨⟨s, le_refl _, by omega, k1⟩, by rw [k2]; rfl⟩
      · rw [k2, Res.ok_bind]
        rcases ih (s + 1) l' p' (by omega) (by omega) k3 k4 with ⟨m1, m2⟩ | ⟨⟨k, m1, m2, m3⟩, m4⟩
        · refine .inl ⟨fun k hk hk' => ?_, m2⟩
          by_cases hks : k = s
          · rw [hks]; exact k1
          · exact m1 k (by omega) hk'
        · exact .inr ⟨⟨k, by omega, m2, m3⟩, m4⟩
  rw [e]
  unfold foldRange
  rw [show n - 1 - 0 = (n - 2) + 1 by omega, foldFrom_succ]
  by_cases h00 : ⟪(EPSILON : F32)⟫ ≤ ⟪A 0 0⟫
  · have hk : Linalg.lupPivot l p 0 n = .ok 0 := lupPivot_stay hl hp (by omega) fun i hi hin => by
      rw [Rounded.lt_val (hfin 0 0 (by omega) (by omega)) (hfin i 0 hin (by omega)), hz i hi hin]
      exact not_lt.mpr (ep.le.trans h00)
    rcases lupStep_stay hl hp hnum hup (by omega) hk with ⟨k1, -⟩ | ⟨-, l', p', k2, k3, k4⟩
    · exact absurd (h00.trans (le_abs_self _)) (not_le.mpr k1)
    · rw [k2, Res.ok_bind]
      rcases loop (n - 2) 1 l' p' (le_refl _) (by omega) k3 k4 with ⟨m1, m2⟩ | ⟨⟨k, m1, m2, m3⟩, m4⟩
      · exact .inl ⟨⟨h00, fun k hk hk' => m1 k hk hk'⟩, m2⟩
      · exact .inr ⟨fun h => absurd m3 (not_lt.mpr (h.2 k m1 m2)), m4⟩
  · refine .inr ⟨fun h => h00 h.1, ?_⟩
    obtain ⟨q, e1, hq, hmax, _⟩ := Linalg.lupPivot_zero_val hl hp hπ hfin (by omega)
    have hq1 := hmax 1 (by omega)
    rw [hz 1 (by omega) (by omega)] at hq1
    have hlt : |⟪A q 0⟫| < ⟪(EPSILON : F32)⟫ := by
      rw [abs_of_nonneg hq1]
      by_cases h : q = 0
      · rw [h]; exact not_le.mp h00
      · rw [hz q (by omega) hq]; exact ep
    rcases Linalg.lupStep_run hl hp hπ hfin (s := 0) (by omega) e1 hq with ⟨-, h2⟩ | ⟨h1, -⟩
    · rw [h2]; rfl
    · exact absurd h1 (not_le.mpr hlt)

/-- `det` when no rows are exchanged. -/
theorem det_stay (ha : MatIs a n n A) {lu : Mat F32} {p : Vec Nat} {f : Nat → Nat → F32} (h : Linalg.lup a = .ok (lu, p))
    (hl : MatIs lu n n f) (hp : U8Is p n (fun i => i)) : a.det = .ok (prodUp n fun k => f k k) := by
  unfold Mat.det
  simp only [Mat.isSquare_eq ha, Res.ok_bind, decide_true, Bool.not_true, Bool.false_eq_true, if_false,
    h, ha.rows_eq]
  rw [prodUp_fold (ε := LinalgError) (t := fun k => f k k) (fun i acc hi => by
    simp only [hp.get i hi, hl.get _ _ hi hi, Res.ok_bind]), Res.ok_bind]
  have h2 := foldRange_ok (ε := LinalgError)
    (fun row (col : Nat) => do
      if (← p.getElementU8 row) ≠ row then .ok (col + 1) else .ok col)
    (fun _ => 0) 0 n (Nat.zero_le _)
    (fun i _ hi => by simp only [hp.get i hi, Res.ok_bind]; simp)
  rw [h2, Res.ok_bind]
  rfl


/-- C136: in binary32 an upper triangular matrix of size 2 or more is factorised exactly when its first element is at least
`EPSILON`, with sign, and the others on the diagonal, except the last, are at least `EPSILON` in magnitude.  The factors are
then the matrix itself, without any rounding error, and `det` is the product of the diagonal up to `(n + 1)/2²⁴` and
underflow.  Otherwise `lup` and `det` report `Singular`, and `invert` leaves the matrix as it was. -/
theorem C136_upper (ha : MatIs a n n A) (hn : 2 ≤ n) (hnum : ∀ i j, i < n → j < n → F32.IsNumber (A i j))
    (hup : ∀ i j, j < i → i < n → A i j = lit 0) :
    ((⟪(EPSILON : F32)⟫ ≤ ⟪A 0 0⟫ ∧ ∀ k, 0 < k → k + 1 < n → ⟪(EPSILON : F32)⟫ ≤ |⟪A k k⟫|) →
      (∃ lu p, Linalg.lup a = .ok (lu, p) ∧ MatIs lu n n A ∧ ∀ i, i < n → p.getElementU8 i = .ok i) ∧
      ∃ d, a.det = .ok d ∧ (Finite d → |⟪d⟫ - ∏ k ∈ range n, ⟪A k k⟫| ≤
        (n + 1) / 2 ^ 24 * |∏ k ∈ range n, ⟪A k k⟫| + (n + 1) / 2 ^ 150 * ∏ k ∈ range n, (1 + |⟪A k k⟫|))) ∧
    (¬ (⟪(EPSILON : F32)⟫ ≤ ⟪A 0 0⟫ ∧ ∀ k, 0 < k → k + 1 < n → ⟪(EPSILON : F32)⟫ ≤ |⟪A k k⟫|) →
      Linalg.lup a = .error (.err .Singular) ∧ a.det = .error (.err .Singular) ∧
      Mat.invert a = (.error (.err .NotInversible), a)) := by
  rcases lup_upper32 ha hn hnum hup with ⟨hc, lu, p, e, hl, hp⟩ | ⟨hc, e⟩
  · refine ⟨fun _ => ⟨⟨lu, p, e, hl, fun i hi => hp.get i hi⟩, _, det_stay ha e hl hp, fun hf => ?_⟩, fun h => absurd hc h⟩
    have hu : 0 ≤ ru := by rw [Linalg.ru_eq]; norm_num
    have hη := rη_pos
    have hk : n ≤ 29 := by have := ha.rle; omega
    have c1 := pow_ru_le hk
    have c2 : (1 + ru) ^ n ≤ (1 + ru) ^ 4 := pow_le_pow_right₀ (by linarith) ha.rle
    have c3 : (1 + ru) ^ 4 ≤ 5 / 4 := by rw [Linalg.ru_eq]; norm_num
    have hn4 : (n : ℝ) ≤ 4 := by exact_mod_cast ha.rle
    have hn0 : (0 : ℝ) ≤ n := Nat.cast_nonneg _
    refine ((prodUp_near n _ hf).2).trans (add_le_add (by gcongr) ?_)
    have hpr := one_le_prod_abs (range n) fun k => ⟪A k k⟫
    have h3 : ((n : ℝ) + 1) / 2 ^ 150 = (n + 1) * rη := by rw [rη_eq]; ring
    rw [h3]
    gcongr
    have := c2.trans c3
    calc (n : ℝ) * (1 + ru) ^ n ≤ n * (5 / 4) := by gcongr
      _ ≤ _ := by linarith
  · refine ⟨fun h => absurd h hc, fun _ => ⟨e, ?_, ?_⟩⟩
    · unfold Mat.det
      simp only [Mat.isSquare_eq ha, Res.ok_bind, decide_true, Bool.not_true, Bool.false_eq_true, if_false, e]
      rfl
    · unfold Mat.invert
      simp only [Op.get_bind, Mat.isSquare_eq ha, Op.liftOk_bind, decide_true, Bool.not_true,
        Bool.false_eq_true, if_false, ha.rows_eq, Vec.init_new ha.rpos ha.rle]
      unfold Mat.orElseErr
      rw [e]
      rfl

/-! ### The inverse of a diagonal matrix -/

/-- Eliminations with zeros change nothing. -/
theorem solveElims_stay {lu : Mat F32} {p : Vec Nat} (hl : MatIs lu n n A) (hp : U8Is p n (fun i => i)) {x : Vec F32}
    {X : Nat → F32} (hx : VecIs x n X) (hX : ∀ i, i < n → F32.IsNumber (X i)) {row lo hi : Nat} (hr : row < n) (hh : hi ≤ n)
    (hlh : lo ≤ hi) (hz : ∀ c, lo ≤ c → c < hi → A row c = lit 0) :
    ∃ x', foldRange lo hi (fun col x => Linalg.solveElim lu p row col x) x = .ok x' ∧ VecIs x' n X := by
  refine foldRange_inv _ (fun _ (x : Vec F32) => VecIs x n X) lo hi hlh x hx ?_
  intro k x h1 h2 hI
  unfold Linalg.solveElim
  simp only [hp.get row hr, hl.get _ _ hr (show k < n by omega), hI.get row hr, hI.get k (by omega), Res.ok_bind]
  rw [hz k h1 h2, zero_mul32 (hX k (by omega)).1, sub_zero32 (hX row hr)]
  obtain ⟨x', h1, h2⟩ := hI.exec_set hr (hX row hr).1
  refine ⟨x', h1, h2.congr fun i _ => ?_⟩
  by_cases h : i = row <;> simp [h]

theorem div_number {x y : F32} (hx : Finite x) (hy : Finite y) (h1 : |⟪x⟫| ≤ 1) (h2 : ⟪(EPSILON : F32)⟫ < |⟪y⟫|) :
    F32.IsNumber (x /ᶠ y) := by
  have ep := eps_pos32
  have hy0 : ⟪y⟫ ≠ 0 := by
    intro h
    rw [h, abs_zero] at h2
    linarith
  have hf : Finite (x /ᶠ y) := by
    refine Rounded.div_finite hx hy hy0 ?_
    rw [abs_div, div_le_iff₀ (by linarith)]
    have := eps_low (F := F32)
    have h3 : (1 : ℝ) ≤ 2 ^ 127 * |⟪y⟫| := by
      have : (1 : ℝ) / 2 ^ 127 ≤ |⟪y⟫| := by norm_num at this ⊢; linarith
      rw [div_le_iff₀ (by positivity)] at this
      linarith
    linarith
  exact F32.fl_number hf

/-- `solve` with a diagonal matrix. -/
theorem solve_diag {lu : Mat F32} {p : Vec Nat} (hl : MatIs lu n n A) (hp : U8Is p n (fun i => i))
    (hnum : ∀ i j, i < n → j < n → F32.IsNumber (A i j)) (hdi : ∀ i j, i < n → j < n → i ≠ j → A i j = lit 0)
    {b : Vec F32} {B : Nat → F32} (hb : VecIs b n B) (hB : ∀ i, i < n → F32.IsNumber (B i) ∧ |⟪B i⟫| ≤ 1) :
    ((∀ k, k < n → ⟪(EPSILON : F32)⟫ < |⟪A k k⟫|) ∧
      ∃ x, Linalg.solve lu b p = .ok x ∧ VecIs x n (fun i => B i /ᶠ A i i)) ∨
    ((∃ k, k < n ∧ |⟪A k k⟫| ≤ ⟪(EPSILON : F32)⟫) ∧ Linalg.solve lu b p = .error (.err .Unsolvable)) := by
  have hfin : ∀ i j, i < n → j < n → Finite (A i j) := fun i j hi hj => (hnum i j hi hj).1
  unfold Linalg.solve
  simp only [Mat.isSquare_eq hl, Res.ok_bind, decide_true, Bool.not_true, Bool.false_eq_true, if_false, hl.rows,
    Vec.init_new hl.rpos hl.rle]
  obtain ⟨x1, e1, hx1⟩ := foldRange_inv (ε := LinalgError)
    (fun row (x : Vec F32) => do
        let x ← exec x (Vec.setElement row (← b.getElement (← p.getElementU8 row)))
        foldRange 0 row (fun col x => Linalg.solveElim lu p row col x) x)
    (fun m (x : Vec F32) => VecIs x n (fun i => if i < m then B i else lit 0)) 0 n (Nat.zero_le _) (Vec.zeros n)
    ((Vec.zeros_is hl.rpos hl.rle).congr fun i _ => by simp)
    (fun k x _ hk hI => by
      rw [hp.get k hk, Res.ok_bind, hb.get k hk, Res.ok_bind]
      obtain ⟨x', h1, h2⟩ := hI.exec_set hk (hB k hk).1.1
      rw [h1, Res.ok_bind]
      have h2' : VecIs x' n (fun i => if i < k + 1 then B i else lit 0) := h2.congr fun i _ => by
        by_cases h : i = k
        · simp [h]
        · have : i < k + 1 ↔ i < k := by omega
          simp [h, this]
      exact solveElims_stay hl hp h2' (fun i hi => by
        split
        · exact (hB i hi).1
        · decide +kernel) hk hk.le (Nat.zero_le _) (fun c _ hc => hdi k c hk (by omega) (by omega)))
  rw [e1, Res.ok_bind]
  have hx1' : VecIs x1 n (fun i => if n ≤ i then B i /ᶠ A i i else B i) := hx1.congr fun i hi => by
    rw [if_pos hi, if_neg (by omega)]
  clear e1 hx1
  -- the backward substitution
  have loop : ∀ len x, len ≤ n → VecIs x n (fun i => if len ≤ i then B i /ᶠ A i i else B i) →
      (∀ k, len ≤ k → k < n → ⟪(EPSILON : F32)⟫ < |⟪A k k⟫|) →
      ((∀ k, k < n → ⟪(EPSILON : F32)⟫ < |⟪A k k⟫|) ∧ ∃ x', foldFromRev 0 len (fun row (x : Vec F32) => do
          let x ← foldRange (row + 1) n (fun col x => Linalg.solveElim lu p row col x) x
          if Scalar.abs (← lu.getElement (← p.getElementU8 row) row) >ᶠ EPSILON then do
            let v := (← x.getElement row) /ᶠ (← lu.getElement (← p.getElementU8 row) row)
            exec x (Vec.setElement row v)
          else fail .Unsolvable) x = .ok x' ∧ VecIs x' n (fun i => B i /ᶠ A i i)) ∨
      ((∃ k, k < n ∧ |⟪A k k⟫| ≤ ⟪(EPSILON : F32)⟫) ∧ foldFromRev 0 len (fun row (x : Vec F32) => do
          let x ← foldRange (row + 1) n (fun col x => Linalg.solveElim lu p row col x) x
          if Scalar.abs (← lu.getElement (← p.getElementU8 row) row) >ᶠ EPSILON then do
            let v := (← x.getElement row) /ᶠ (← lu.getElement (← p.getElementU8 row) row)
            exec x (Vec.setElement row v)
          else fail .Unsolvable) x = .error (.err .Unsolvable)) := by
    intro len
    induction len with
    | zero =>
      intro x _ hx hk
      exact .inl ⟨fun k h => hk k (Nat.zero_le _) h, x, rfl, hx.congr fun i _ => by simp⟩
    | succ len ih =>
      intro x hle hx hk
      rw [foldFromRev_succ]
      simp only [Nat.zero_add]
      have hlen : len < n := by omega
      obtain ⟨x1, e1, hx1⟩ := solveElims_stay hl hp hx (fun i hi => by
        by_cases h : len + 1 ≤ i
        · rw [if_pos h]
          exact div_number (hB i hi).1.1 (hfin i i hi hi) (hB i hi).2 (hk i h hi)
        · rw [if_neg h]
          exact (hB i hi).1) hlen (le_refl n) (show len + 1 ≤ n by omega) (fun c h1 h2 => hdi len c hlen h2 (by omega))
      rw [e1, Res.ok_bind, hp.get len hlen, Res.ok_bind, hl.get len len hlen hlen, Res.ok_bind]
      have hiff : (Scalar.abs (A len len) >ᶠ EPSILON) = true ↔ ⟪(EPSILON : F32)⟫ < |⟪A len len⟫| := by
        rw [← Rounded.abs_val (hfin len len hlen hlen)]
        exact Rounded.lt_val Rounded.eps_finite (Rounded.abs_finite (hfin len len hlen hlen))
      by_cases hpv : ⟪(EPSILON : F32)⟫ < |⟪A len len⟫|
      · rw [if_pos (hiff.mpr hpv), hx1.get len hlen, Res.ok_bind, if_neg (by omega)]
        obtain ⟨x2, e2, hx2⟩ := hx1.exec_set hlen
          (div_number (hB len hlen).1.1 (hfin len len hlen hlen) (hB len hlen).2 hpv).1
        simp only [Res.ok_bind]
        rw [hl.get len len hlen hlen, Res.ok_bind, e2, Res.ok_bind]
        refine ih x2 (by omega) (hx2.congr fun i _ => ?_) (fun k h1 h2 => ?_)
        · by_cases h : i = len
          · simp [h]
          · have : len + 1 ≤ i ↔ len ≤ i := by omega
            simp [h, this]
        · by_cases h : k = len
          · rw [h]; exact hpv
          · exact hk k (by omega) h2
      · rw [if_neg (fun h => hpv (hiff.mp h))]
        exact .inr ⟨⟨len, hlen, not_lt.mp hpv⟩, rfl⟩
  exact loop n x1 (le_refl _) hx1' (fun k h1 h2 => by omega)

/-- The loop of `invert` on a diagonal matrix. -/
theorem invertLoop_diag {lu : Mat F32} {p : Vec Nat} (hl : MatIs lu n n A) (hp : U8Is p n (fun i => i))
    (hnum : ∀ i j, i < n → j < n → F32.IsNumber (A i j)) (hdi : ∀ i j, i < n → j < n → i ≠ j → A i j = lit 0)
    (hpv : ∀ k, k < n → ⟪(EPSILON : F32)⟫ < |⟪A k k⟫|) (len : Nat) :
    ∀ (row : Nat) (t : Vec F32) (s : Mat F32) (V : Nat → Nat → F32), row + len = n → VecIs t n (fun _ => lit 0) →
      MatIs s n n V → ∃ s', Mat.invertLoop lu p row len t s = (.ok (), s') ∧
        MatIs s' n n (fun i j => if i < row then V i j else if i = j then lit 1 /ᶠ A i i else lit 0) := by
  have hfin : ∀ i j, i < n → j < n → Finite (A i j) := fun i j hi hj => (hnum i j hi hj).1
  have ep := eps_pos32
  have hne : ∀ k, k < n → ⟪A k k⟫ ≠ 0 := fun k hk h => by
    have := hpv k hk
    rw [h, abs_zero] at this
    linarith
  have hone : ∀ i row : Nat, F32.IsNumber (if i = row then (lit 1 : F32) else lit 0) ∧
      |⟪if i = row then (lit 1 : F32) else lit 0⟫| ≤ 1 := fun i row => by
    split
    · exact ⟨by decide +kernel, by rw [Rounded.one_val]; norm_num⟩
    · exact ⟨by decide +kernel, by rw [Rounded.zero_val]; norm_num⟩
  induction len with
  | zero =>
    intro row t s V hrow _ hs
    exact ⟨s, rfl, hs.congr fun i j hi _ => by rw [if_pos (by omega)]⟩
  | succ len ih =>
    intro row t s V hrow ht hs
    have hr : row < n := by omega
    obtain ⟨t1, e1, ht1⟩ := ht.exec_set hr (Rounded.one_finite (F := F32))
    have ht1' : VecIs t1 n (fun i => if i = row then (lit 1 : F32) else lit 0) :=
      ht1.congr fun i _ => by by_cases h : i = row <;> simp [h]
    rcases solve_diag hl hp hnum hdi ht1' (fun i _ => hone i row) with ⟨-, x, e2, hx⟩ | ⟨⟨k, hk, hk'⟩, -⟩
    swap
    · exact absurd (hpv k hk) (not_lt.mpr hk')
    have hX : VecIs x n (fun i => if i = row then lit 1 /ᶠ A row row else lit 0) := hx.congr fun i hi => by
      by_cases h : i = row
      · simp [h]
      · simp only [h, if_false]
        exact zero_div32 (hfin i i hi hi) (hne i hi)
    have hXf : ∀ k, Finite (if k = row then lit 1 /ᶠ A row row else (lit 0 : F32)) := fun k => by
      split
      · exact (div_number Rounded.one_finite (hfin row row hr hr) (by rw [Rounded.one_val]; norm_num) (hpv row hr)).1
      · exact Rounded.zero_finite
    obtain ⟨t2, e3, ht2⟩ := ht1'.exec_set hr (Rounded.zero_finite (F := F32))
    obtain ⟨s1, e4, hs1⟩ := forRange_inv (ε := LinalgError)
      (fun col => do Mat.setElement row col (← (x.getElement col : Res LinalgError F32)))
      (fun k (m : Mat F32) => MatIs m n n (fun i j => if i = row ∧ j < k then (if j = row then lit 1 /ᶠ A row row else lit 0)
        else V i j))
      0 n (Nat.zero_le _) s (hs.congr fun i j _ _ => by simp)
      (fun k m _ hk hm => by
        refine ⟨_, by rw [hX.get k hk, Op.liftOk_bind]; exact hm.set_ok hr hk (hXf k), ?_⟩
        refine (hm.put row k hk _).congr fun i j _ _ => ?_
        by_cases hi : i = row
        · by_cases hj : j = k
          · simp [hi, hj]
          · have : j < k + 1 ↔ j < k := by omega
            simp [hi, hj, this]
        · simp [hi])
    obtain ⟨s2, e5, hs2⟩ := ih (row + 1) t2 s1 _ (by omega)
      (ht2.congr fun i _ => by by_cases h : i = row <;> simp [h]) hs1
    refine ⟨s2, ?_, hs2.congr fun i j hi hj => ?_⟩
    · unfold Mat.invertLoop
      rw [e1, Op.liftOk_bind]
      unfold Mat.orElseErr
      rw [e2, Res.mapErr_ok, Op.liftOk_bind, Op.get_bind, hs.cols_eq, Op.bind_ok e4, e3, Op.liftOk_bind]
      exact e5
    · by_cases h1 : i < row
      · have : i ≠ row := by omega
        have h2 : i < row + 1 := by omega
        simp [h1, this, h2]
      · by_cases h2 : i = row
        · subst h2
          by_cases h3 : i = j
          · subst h3; simp [hj]
          · have h4 : ¬ j = i := fun h => h3 h.symm
            simp [hj, h3, h4]
        · have h3 : ¬ i < row + 1 := by omega
          simp [h1, h3]

/-- C136: in binary32 a diagonal matrix of size 2 or more is inverted exactly when its first element exceeds `EPSILON`, with
sign, and the others exceed it in magnitude.  The result is diagonal, and its elements are the correctly rounded inverses.
Otherwise `invert` fails with `NotInversible` and leaves the matrix as it was. -/
theorem C136_invert (ha : MatIs a n n A) (hn : 2 ≤ n) (hnum : ∀ i j, i < n → j < n → F32.IsNumber (A i j))
    (hdi : ∀ i j, i < n → j < n → i ≠ j → A i j = lit 0) :
    ((⟪(EPSILON : F32)⟫ < ⟪A 0 0⟫ ∧ ∀ k, 0 < k → k < n → ⟪(EPSILON : F32)⟫ < |⟪A k k⟫|) →
      ∃ v V, Mat.invert a = (.ok (), v) ∧ MatIs v n n V ∧ (∀ i j, i < n → j < n → i ≠ j → V i j = lit 0) ∧
        ∀ k, k < n → V k k = lit 1 /ᶠ A k k ∧ |⟪V k k⟫ - 1 / ⟪A k k⟫| ≤ 1 / 2 ^ 24 * |1 / ⟪A k k⟫| + 1 / 2 ^ 150) ∧
    (¬ (⟪(EPSILON : F32)⟫ < ⟪A 0 0⟫ ∧ ∀ k, 0 < k → k < n → ⟪(EPSILON : F32)⟫ < |⟪A k k⟫|) →
      Mat.invert a = (.error (.err .NotInversible), a)) := by
  have hfin : ∀ i j, i < n → j < n → Finite (A i j) := fun i j hi hj => (hnum i j hi hj).1
  have hup : ∀ i j, j < i → i < n → A i j = lit 0 := fun i j h1 h2 => hdi i j h2 (by omega) (by omega)
  have ep := eps_pos32
  rcases lup_upper32 ha hn hnum hup with ⟨hc, lu, p, e, hl, hp⟩ | ⟨hc, e⟩
  swap
  · refine ⟨fun h => absurd ⟨h.1.le, fun k h1 h2 => (h.2 k h1 (by omega)).le⟩ hc, fun _ => ?_⟩
    exact ((C136_upper ha hn hnum hup).2 hc).2.2
  have hz : VecIs (Vec.zeros n) n (fun _ => (lit 0 : F32)) :=
    (Vec.zeros_is ha.rpos ha.rle).congr fun _ _ => by simp
  have heq : (⟪(EPSILON : F32)⟫ < ⟪A 0 0⟫ ∧ ∀ k, 0 < k → k < n → ⟪(EPSILON : F32)⟫ < |⟪A k k⟫|) ↔
      ∀ k, k < n → ⟪(EPSILON : F32)⟫ < |⟪A k k⟫| := by
    constructor
    · rintro ⟨h1, h2⟩ k hk
      by_cases h : k = 0
      · rw [h]; exact lt_of_lt_of_le h1 (le_abs_self _)
      · exact h2 k (by omega) hk
    · intro h
      refine ⟨?_, fun k _ hk => h k hk⟩
      have := h 0 (by omega)
      rwa [abs_of_pos (lt_of_lt_of_le ep hc.1)] at this
  rw [heq]
  constructor
  · intro hpv
    obtain ⟨s1, e1, hs1⟩ := invertLoop_diag hl hp hnum hdi hpv n 0 (Vec.zeros n) a A (by omega) hz ha
    have hfd : ∀ k, k < n → Finite ((lit 1 : F32) /ᶠ A k k) := fun k hk =>
      (div_number Rounded.one_finite (hfin k k hk hk) (by rw [Rounded.one_val]; norm_num) (hpv k hk)).1
    obtain ⟨s2, e2, hs2⟩ := Mat.transpose_ok hs1 (fun i j hi _ => by
      rw [if_neg (by omega)]
      split
      · exact hfd i hi
      · exact Rounded.zero_finite)
    refine ⟨s2, fun i j => if i = j then lit 1 /ᶠ A i i else lit 0, ?_, hs2.congr fun i j _ _ => ?_,
      fun i j _ _ h => if_neg h, fun k hk => ⟨if_pos rfl, ?_⟩⟩
    · unfold Mat.invert
      simp only [Op.get_bind, Mat.isSquare_eq ha, Op.liftOk_bind, decide_true, Bool.not_true,
        Bool.false_eq_true, if_false, ha.rows_eq, Vec.init_new ha.rpos ha.rle]
      unfold Mat.orElseErr
      rw [e, Res.mapErr_ok, Op.liftOk_bind]
      dsimp only
      rw [Op.bind_ok e1, e2]
    · rw [if_neg (by omega)]
      by_cases h : i = j
      · subst h; simp
      · have : ¬ j = i := fun h' => h h'.symm
        simp [h, this]
    · dsimp only
      rw [if_pos rfl]
      have hk0 : ⟪A k k⟫ ≠ 0 := fun h => by
        have := hpv k hk
        rw [h, abs_zero] at this
        linarith
      have := Rounded.div_near (Rounded.one_finite (F := F32)) (hfin k k hk hk) hk0 (hfd k hk)
      unfold Near at this
      rw [Rounded.one_val] at this
      refine this.trans (le_of_eq ?_)
      rw [rη_eq]
      rfl
  · intro hno
    unfold Mat.invert
    simp only [Op.get_bind, Mat.isSquare_eq ha, Op.liftOk_bind, decide_true, Bool.not_true,
      Bool.false_eq_true, if_false, ha.rows_eq, Vec.init_new ha.rpos ha.rle]
    unfold Mat.orElseErr
    rw [e, Res.mapErr_ok, Op.liftOk_bind]
    dsimp only
    obtain ⟨n', rfl⟩ : ∃ n', n = n' + 1 := ⟨n - 1, by omega⟩
    obtain ⟨t1, e1, ht1⟩ := hz.exec_set (Nat.zero_lt_succ n') (Rounded.one_finite (F := F32))
    have ht1' : VecIs t1 (n' + 1) (fun i => if i = 0 then (lit 1 : F32) else lit 0) :=
      ht1.congr fun i _ => by by_cases h : i = 0 <;> simp [h]
    rcases solve_diag hl hp hnum hdi ht1' (fun i _ => by
      by_cases h : i = 0
      · rw [if_pos h]; exact ⟨by decide +kernel, by rw [Rounded.one_val]; norm_num⟩
      · rw [if_neg h]; exact ⟨by decide +kernel, by rw [Rounded.zero_val]; norm_num⟩) with ⟨h, -⟩ | ⟨-, e2⟩
    · exact absurd h hno
    · have e3 : Mat.invertLoop lu p 0 (n' + 1) (Vec.zeros (n' + 1)) a = (.error (.err .NotInversible), a) := by
        unfold Mat.invertLoop
        rw [e1, Op.liftOk_bind]
        unfold Mat.orElseErr
        rw [e2]
        rfl
      rw [Op.bind_err e3]


/-! ### The test for positive definite matrices and `chol` -/

/-- `det` of a diagonal matrix of any size. -/
theorem det_diag (ha : MatIs a n n A) (hnum : ∀ i j, i < n → j < n → F32.IsNumber (A i j))
    (hdi : ∀ i j, i < n → j < n → i ≠ j → A i j = lit 0) (hd : ∀ k, k + 1 < n → ⟪(EPSILON : F32)⟫ ≤ ⟪A k k⟫) :
    a.det = .ok (prodUp n fun k => A k k) := by
  by_cases hn : n = 1
  · subst hn
    rw [det1_run ha (hnum 0 0 (by omega) (by omega))]
    show _ = Except.ok (lit 1 *ᶠ A 0 0)
    rw [one_mul32 (hnum 0 0 (by omega) (by omega))]
  · have h2 : 2 ≤ n := by have := ha.rpos; omega
    rcases lup_upper32 ha h2 hnum (fun i j h1 h3 => hdi i j h3 (by omega) (by omega)) with ⟨-, lu, p, e, hl, hp⟩ | ⟨h, -⟩
    · exact det_stay ha e hl hp
    · exact absurd ⟨hd 0 (by omega), fun k _ hk => (hd k hk).trans (le_abs_self _)⟩ h

/-- A product of elements of at least `EPSILON`, which may overflow. -/
theorem prodUp_large (m : Nat) (t : Nat → F32) (hm : m ≤ 4) (hf : ∀ k, k < m → Finite (t k))
    (h : ∀ k, k < m → ⟪(EPSILON : F32)⟫ ≤ ⟪t k⟫) :
    PosInf (prodUp m t) ∨ (Finite (prodUp m t) ∧ (9 / 100000 : ℝ) ^ m ≤ ⟪prodUp m t⟫) := by
  induction m with
  | zero => exact .inr ⟨Rounded.one_finite, by rw [pow_zero]; exact (Rounded.one_val (F := F32)).ge⟩
  | succ m ih =>
    have ht := h m (by omega)
    have hfm := hf m (by omega)
    have ep := eps_pos32
    rcases ih (by omega) (fun k hk => hf k (by omega)) (fun k hk => h k (by omega)) with hi | ⟨h1, h2⟩
    · left
      rw [prodUp, F32.posInf_iff.mp hi]
      obtain ⟨q, hq⟩ := F32.finite_iff.mp hfm
      rw [hq] at ht ⊢
      have hq0 : (0 : ℚ) < q := by
        have : (0 : ℝ) < (q : ℝ) := lt_of_lt_of_le ep ht
        exact_mod_cast this
      rw [F32.posInf_iff]
      show F32.fl (Ext.mul .pinf (.fin q)) = _
      simp [Ext.mul, Ext.infOf, hq0, hq0.le, hq0.ne', F32.fl]
    · have hp0 : (0 : ℝ) < (9 / 100000 : ℝ) ^ m := by positivity
      have hprod : 0 ≤ ⟪prodUp m t⟫ * ⟪t m⟫ := mul_nonneg (hp0.le.trans h2) (ep.le.trans ht)
      by_cases hfp : Finite (prodUp m t *ᶠ t m)
      · right
        refine ⟨hfp, ?_⟩
        have hn := (abs_le.mp (Rounded.mul_near h1 hfm hfp)).1
        rw [abs_of_nonneg hprod, rη_eq, show ru = 1 / 2 ^ 24 from rfl] at hn
        have hlow : (9 / 100000 : ℝ) ^ m * (99 / 1000000) ≤ ⟪prodUp m t⟫ * ⟪t m⟫ := by
          refine mul_le_mul h2 ?_ (by norm_num) (hp0.le.trans h2)
          have := eps32
          rw [eps32] at ht
          refine le_trans ?_ ht
          norm_num
        have hsm : (9 / 100000 : ℝ) ^ 4 ≤ (9 / 100000 : ℝ) ^ m :=
          pow_le_pow_of_le_one (by norm_num) (by norm_num) (by omega)
        rw [pow_succ]
        show _ ≤ ⟪prodUp m t *ᶠ t m⟫
        norm_num at hn hsm hlow ⊢
        nlinarith
      · exact .inl (Rounded.mul_inf h1 hfm hprod hfp)

/-- The test of one leading block of a diagonal matrix whose elements before are at least `EPSILON`. -/
theorem minorTest_diag (ha : MatIs a n n A) (hnum : ∀ i j, i < n → j < n → F32.IsNumber (A i j))
    (hdi : ∀ i j, i < n → j < n → i ≠ j → A i j = lit 0) {k : Nat} (hk : k < n)
    (hd : ∀ j, j < k → ⟪(EPSILON : F32)⟫ ≤ ⟪A j j⟫) :
    (0 ≤ ⟪A k k⟫ → minorTest a k = .ok true) ∧ (⟪A k k⟫ ≤ -(1 / 2 ^ 80) → minorTest a k = .ok false) := by
  have hfin : ∀ i j, i < n → j < n → Finite (A i j) := fun i j hi hj => (hnum i j hi hj).1
  obtain ⟨b, hb, e⟩ := minorTest_eq ha hfin hk
  have hdet := det_diag hb (fun i j hi hj => hnum i j (by omega) (by omega))
    (fun i j hi hj h => hdi i j (by omega) (by omega) h) (fun j hj => hd j (by omega))
  rw [e, hdet, Res.ok_bind]
  have hk4 : k ≤ 4 := by have := ha.rle; omega
  have hfk := hfin k k hk hk
  rw [prodUp]
  rcases prodUp_large k (fun j => A j j) hk4 (fun j hj => hfin j j (by omega) (by omega)) hd with hi | ⟨h1, h2⟩
  · rw [F32.posInf_iff.mp hi]
    obtain ⟨q, hq⟩ := F32.finite_iff.mp hfk
    rw [hq]
    have hval : ⟪(⟨.fin q⟩ : F32)⟫ = (q : ℝ) := rfl
    rw [hval]
    constructor
    · intro h
      have hq0 : (0 : ℚ) ≤ q := by exact_mod_cast h
      rcases eq_or_lt_of_le hq0 with h0 | h0
      · rw [← h0]
        decide +kernel
      · have : (⟨.pinf⟩ : F32) *ᶠ ⟨.fin q⟩ = ⟨.pinf⟩ := by
          show F32.fl (Ext.mul .pinf (.fin q)) = _
          simp [Ext.mul, Ext.infOf, h0, h0.le, h0.ne', F32.fl]
        rw [this]
        decide +kernel
    · intro h
      have h0 : q < 0 := by
        have : (q : ℝ) < 0 := lt_of_le_of_lt h (by norm_num)
        exact_mod_cast this
      have : (⟨.pinf⟩ : F32) *ᶠ ⟨.fin q⟩ = ⟨.ninf⟩ := by
        show F32.fl (Ext.mul .pinf (.fin q)) = _
        simp [Ext.mul, Ext.infOf, h0.not_ge, h0.ne, F32.fl]
      rw [this]
      decide +kernel
  · have hp0 : (0 : ℝ) < (9 / 100000 : ℝ) ^ k := by positivity
    have hP : 0 < ⟪prodUp k fun j => A j j⟫ := lt_of_lt_of_le hp0 h2
    have hz := Rounded.zero_finite (F := F32)
    constructor
    · intro h
      have hprod : 0 ≤ ⟪prodUp k fun j => A j j⟫ * ⟪A k k⟫ := mul_nonneg hP.le h
      by_cases hfp : Finite ((prodUp k fun j => A j j) *ᶠ A k k)
      · have := Rounded.mul_nonneg h1 hfk hfp hprod
        have hn : ¬ (((prodUp k fun j => A j j) *ᶠ A k k) <ᶠ (lit 0 : F32)) = true := by
          rw [Rounded.lt_val hfp hz, Rounded.zero_val]
          exact not_lt.mpr this
        rw [Bool.not_eq_true] at hn
        rw [hn]
        rfl
      · rw [F32.posInf_iff.mp (Rounded.mul_inf h1 hfk hprod hfp)]
        decide +kernel
    · intro h
      by_cases hfp : Finite ((prodUp k fun j => A j j) *ᶠ A k k)
      · have hn := (abs_le.mp (Rounded.mul_near h1 hfk hfp)).2
        have hprod : ⟪prodUp k fun j => A j j⟫ * ⟪A k k⟫ ≤ -((9 / 100000 : ℝ) ^ k * (1 / 2 ^ 80)) := by
          have := mul_le_mul h2 (show (1 : ℝ) / 2 ^ 80 ≤ -⟪A k k⟫ by linarith) (by norm_num) hP.le
          linarith
        have hsm : (9 / 100000 : ℝ) ^ 4 ≤ (9 / 100000 : ℝ) ^ k :=
          pow_le_pow_of_le_one (by norm_num) (by norm_num) hk4
        rw [abs_of_nonpos (hprod.trans (by have := hp0; norm_num)), rη_eq,
          show ru = 1 / 2 ^ 24 from rfl] at hn
        have : (((prodUp k fun j => A j j) *ᶠ A k k) <ᶠ (lit 0 : F32)) = true := by
          rw [Rounded.lt_val hfp hz, Rounded.zero_val]
          norm_num at hn hsm hprod ⊢
          linarith
        rw [this]
        rfl
      · obtain ⟨x, hx⟩ := F32.finite_iff.mp h1
        obtain ⟨q, hq⟩ := F32.finite_iff.mp hfk
        rw [hx] at hP hfp ⊢
        rw [hq] at h hfp ⊢
        have hx0 : 0 < x := by
          have : (0 : ℝ) < (x : ℝ) := hP
          exact_mod_cast this
        have hq0 : q < 0 := by
          have : (q : ℝ) < 0 := lt_of_le_of_lt h (by norm_num)
          exact_mod_cast this
        have hneg : x * q < 0 := mul_neg_of_pos_of_neg hx0 hq0
        rw [F32.mul_eq] at hfp ⊢
        have : F32.fl (.fin (x * q)) = ⟨.ninf⟩ := by
          show (⟨F32.round (x * q)⟩ : F32) = _
          have hfp' : ¬ Finite (⟨F32.round (x * q)⟩ : F32) := hfp
          unfold F32.round at hfp' ⊢
          rw [if_neg hneg.ne, if_neg hneg.not_gt] at hfp' ⊢
          split at hfp'
          · exact absurd (F32.finite_of_fin rfl) hfp'
          · rename_i h'
            rw [if_neg h']
        rw [this]
        decide +kernel

/-- C136: on a diagonal matrix in binary32 whose elements before the last are at least `EPSILON` and whose last one is not
negative, the test answers `true` and `chol` returns the diagonal matrix of the correctly rounded square roots. -/
theorem C136_chol (ha : MatIs a n n A) (hnum : ∀ i j, i < n → j < n → F32.IsNumber (A i j))
    (hdi : ∀ i j, i < n → j < n → i ≠ j → A i j = lit 0) (hd : ∀ k, k + 1 < n → ⟪(EPSILON : F32)⟫ ≤ ⟪A k k⟫)
    (hlast : 0 ≤ ⟪A (n - 1) (n - 1)⟫) :
    a.isPositiveDefinite = .ok true ∧
    ∃ l L, a.chol = .ok l ∧ MatIs l n n L ∧ (∀ i j, i < n → j < n → i ≠ j → L i j = lit 0) ∧
      ∀ k, k < n → |⟪L k k⟫ - √⟪A k k⟫| ≤ 1 / 2 ^ 24 * √⟪A k k⟫ := by
  have hfin : ∀ i j, i < n → j < n → Finite (A i j) := fun i j hi hj => (hnum i j hi hj).1
  have ep := eps_pos32
  have hpos : ∀ k, k < n → 0 ≤ ⟪A k k⟫ := fun k hk => by
    by_cases h : k + 1 < n
    · exact ep.le.trans (hd k h)
    · rw [show k = n - 1 by omega]; exact hlast
  have hsym : a.isSymmetric = .ok true := by
    refine (C128_symmetric ha hnum).1 fun i j hi hj => ?_
    by_cases h : i = j
    · rw [h, sub_self, abs_zero]; exact ep.le
    · rw [hdi i j hi hj h, hdi j i hj hi (Ne.symm h), sub_self, abs_zero]; exact ep.le
  have hpd : a.isPositiveDefinite = .ok true := by
    rw [posDef_eq ha hsym, allRange_eq _ (fun _ => true) 0 n fun i _ hi =>
      (minorTest_diag ha hnum hdi hi fun j hj => hd j (by omega)).1 (hpos i hi)]
    simp
  refine ⟨hpd, ?_⟩
  have hsq : ∀ k, k < n → Finite (Scalar.sqrt (A k k)) := fun k hk => Rounded.sqrt_finite (hfin k k hk hk) (hpos k hk)
  have hz0 := Rounded.zero_finite (F := F32)
  have hDf : ∀ i j, i < n → Finite (if i = j then Scalar.sqrt (A i i) else (lit 0 : F32)) := fun i j hi => by
    split
    · exact hsq i hi
    · exact hz0
  obtain ⟨l, e, hl⟩ := foldRange_inv (ε := LinalgError) (Mat.cholColumn a)
    (fun c (l : Mat F32) => MatIs l n n (fun i j => if j < c then (if i = j then Scalar.sqrt (A i i) else lit 0) else lit 0))
    0 n (Nat.zero_le _) (Mat.zeros n n) ((Mat.zeros_of ha).congr fun i j _ _ => by simp)
    (fun c l _ hc hI => by
      have hsum : ∀ i, i < n → (sumUp c fun k => (if k < c then (if i = k then Scalar.sqrt (A i i) else (lit 0 : F32)) else lit 0) *ᶠ
          (if k < c then (if c = k then Scalar.sqrt (A c c) else lit 0) else lit 0)) = lit 0 := fun i hi => by
        rw [← sumOn_zero]
        refine sumOn_null fun k hk => ?_
        rw [if_pos hk, if_pos hk, if_neg (show ¬ c = k by omega)]
        exact mul_zero_right32 (hDf i k hi)
      obtain ⟨l', e, h'⟩ := cholColumn_run ha hc hI (by simp) (fun i => if i = c then Scalar.sqrt (A c c) else lit 0)
        (fun i hi => by
          split
          · exact hsq c hc
          · exact hz0)
        (by rw [if_pos rfl, hsum c hc, sub_zero32 (hnum c c hc hc)])
        (fun i h1 h2 => by
          rw [if_neg (by omega), if_pos rfl, hsum i h2, hdi i c h2 hc (by omega), zero_sub_zero, mul_zero_right32]
          have hAc := hd c (by omega)
          have hs0 : (1 : ℝ) / 200 ≤ ⟪Scalar.sqrt (A c c)⟫ := by
            have hn := (abs_le.mp (Rounded.sqrt_near (hfin c c hc hc) (hpos c hc))).1
            have hr : (1 : ℝ) / 150 ≤ √⟪A c c⟫ := by
              refine Real.le_sqrt_of_sq_le ?_
              rw [eps32] at hAc
              refine le_trans ?_ hAc
              norm_num
            rw [show ru = 1 / 2 ^ 24 from rfl] at hn
            norm_num at hn hr ⊢
            linarith
          refine Rounded.div_finite Rounded.one_finite (hsq c hc) (by intro h; rw [h] at hs0; norm_num at hs0) ?_
          rw [Rounded.one_val, abs_of_nonneg (by positivity), div_le_iff₀ (by linarith)]
          norm_num at hs0 ⊢
          linarith)
        (fun i h => by
          rw [if_neg (by omega), hsum i (by omega), hdi i c (by omega) hc (by omega), zero_sub_zero, mul_zero_right32]
          decide +kernel)
      refine ⟨l', e, h'.congr fun i j _ _ => ?_⟩
      by_cases hj : j = c
      · subst hj
        by_cases hi : i = j
        · simp [hi]
        · simp [hi]
      · have : j < c + 1 ↔ j < c := by omega
        simp [hj, this])
  refine ⟨l, fun i j => if i = j then Scalar.sqrt (A i i) else lit 0, ?_, hl.congr fun i j _ hj => if_pos hj,
    fun i j _ _ h => if_neg h, fun k hk => ?_⟩
  · unfold Mat.chol
    rw [hpd, Res.ok_bind, ha.rows_eq, ha.cols_eq]
    simp only [Bool.not_true, Bool.false_eq_true, if_false]
    rw [Mat.init_of ha, Res.ok_bind, e]
  · dsimp only
    rw [if_pos rfl]
    exact Rounded.sqrt_near (hfin k k hk hk) (hpos k hk)

/-- C136: on a diagonal matrix in binary32 the first element below `EPSILON`, if it is not the last one, decides: with 0 or a
positive number the test fails with `Singular`, with a number of at most `-2⁻⁸⁰` (the last one included) it answers `false`. -/
theorem C136_test (ha : MatIs a n n A) (hnum : ∀ i j, i < n → j < n → F32.IsNumber (A i j))
    (hdi : ∀ i j, i < n → j < n → i ≠ j → A i j = lit 0) {k : Nat} (hk : k < n)
    (hd : ∀ j, j < k → ⟪(EPSILON : F32)⟫ ≤ ⟪A j j⟫) :
    (k + 1 < n → 0 ≤ ⟪A k k⟫ → ⟪A k k⟫ < ⟪(EPSILON : F32)⟫ →
      a.isPositiveDefinite = .error (.err .Singular) ∧ a.chol = .error (.err .Singular)) ∧
    (⟪A k k⟫ ≤ -(1 / 2 ^ 80) → a.isPositiveDefinite = .ok false ∧ a.chol = .error (.err .NotPositiveDefinite)) := by
  have hfin : ∀ i j, i < n → j < n → Finite (A i j) := fun i j hi hj => (hnum i j hi hj).1
  have ep := eps_pos32
  have hsym : a.isSymmetric = .ok true := by
    refine (C128_symmetric ha hnum).1 fun i j hi hj => ?_
    by_cases h : i = j
    · rw [h, sub_self, abs_zero]; exact ep.le
    · rw [hdi i j hi hj h, hdi j i hj hi (Ne.symm h), sub_self, abs_zero]; exact ep.le
  have hlow : ∀ i, i < k → minorTest a i = .ok true := fun i hi =>
    (minorTest_diag ha hnum hdi (by omega) fun j hj => hd j (by omega)).1 (ep.le.trans (hd i hi))
  have htest := minorTest_diag ha hnum hdi hk hd
  constructor
  · intro hk1 h0 hlt
    have hpd : a.isPositiveDefinite = .error (.err .Singular) := by
      rw [posDef_eq ha hsym]
      refine allRange_error _ 0 n (k + 1) _ (Nat.zero_le _) hk1 (fun i _ hi => ?_) ?_
      · by_cases h : i = k
        · rw [h]; exact htest.1 h0
        · exact hlow i (by omega)
      · obtain ⟨b, hb, e⟩ := minorTest_eq ha hfin hk1
        rw [e, ((C136_upper hb (by omega) (fun i j hi hj => hnum i j (by omega) (by omega))
          (fun i j h1 h2 => hdi i j (by omega) (by omega) (by omega))).2 fun h => ?_).2.1]
        · rfl
        · by_cases hk0 : k = 0
          · subst hk0
            exact absurd h.1 (not_le.mpr hlt)
          · have := h.2 k (by omega) (by omega)
            rw [abs_of_nonneg h0] at this
            exact absurd this (not_le.mpr hlt)
    refine ⟨hpd, ?_⟩
    unfold Mat.chol
    rw [hpd]
    rfl
  · intro hneg
    have hpd : a.isPositiveDefinite = .ok false := by
      rw [posDef_eq ha hsym]
      exact allRange_false _ 0 n k (Nat.zero_le _) hk (fun i _ hi => hlow i hi) (htest.2 hneg)
    refine ⟨hpd, ?_⟩
    unfold Mat.chol
    rw [hpd]
    rfl


/-- C136: a diagonal matrix with a negative element so small that its product with the other one underflows passes the test as
positive definite, and `chol` then fails on the square root of the negative number. -/
theorem C136_underflow : (fmat [[1 / 1000, 0], [0, -(1 / 2 ^ 149)]]).isPositiveDefinite = .ok true ∧
    (fmat [[1 / 1000, 0], [0, -(1 / 2 ^ 149)]]).chol.isOk = false := by decide +kernel

/-! ### Cases -/

/-- Beside `C136_upper`: an upper triangular matrix with a negative element and a zero at the end of its diagonal, and one with a
negative first element. -/
example : (∃ lu p, Linalg.lup (fmat [[2, 1, 3], [0, -1, 4], [0, 0, 0]]) = .ok (lu, p)) ∧
    (fmat [[-2, 1, 3], [0, 1, 4], [0, 0, 5]]).det = .error (.err .Singular) := by
  have h2 : ⟪(lit 2 : F32)⟫ = ((2 : ℚ) : ℝ) := toReal_rat (by decide +kernel)
  have hm2 : ⟪(lit (-2) : F32)⟫ = ((-2 : ℚ) : ℝ) := toReal_rat (by decide +kernel)
  have hm1 : ⟪(lit (-1) : F32)⟫ = ((-1 : ℚ) : ℝ) := toReal_rat (by decide +kernel)
  have hm : MatIs (fmat [[2, 1, 3], [0, -1, 4], [0, 0, 0]]) 3 3 _ :=
    Mat.of_is _ (by norm_num) (by norm_num) (by norm_num) (by norm_num)
  have hm' : MatIs (fmat [[-2, 1, 3], [0, 1, 4], [0, 0, 5]]) 3 3 _ :=
    Mat.of_is _ (by norm_num) (by norm_num) (by norm_num) (by norm_num)
  constructor
  · obtain ⟨lu, p, e, -⟩ := ((C136_upper hm (by omega)
      (fun i j hi hj => by
        change i < 3 at hi
        change j < 3 at hj
        interval_cases i <;> interval_cases j <;> decide +kernel)
      (fun i j hj hi => by
        change i < 3 at hi
        interval_cases i <;> interval_cases j <;> rfl)).1 ⟨by
          change _ ≤ ⟪(lit 2 : F32)⟫
          rw [eps32, h2]; norm_num, fun k h1 h2 => by
          obtain rfl : k = 1 := by omega
          change _ ≤ |⟪(lit (-1) : F32)⟫|
          rw [eps32, hm1]; norm_num⟩).1
    exact ⟨lu, p, e⟩
  · refine ((C136_upper hm' (by omega)
      (fun i j hi hj => by
        change i < 3 at hi
        change j < 3 at hj
        interval_cases i <;> interval_cases j <;> decide +kernel)
      (fun i j hj hi => by
        change i < 3 at hi
        interval_cases i <;> interval_cases j <;> rfl)).2 fun h => ?_).2.1
    have h0 : _ ≤ ⟪(lit (-2) : F32)⟫ := h.1
    rw [eps32, hm2] at h0
    norm_num at h0

/-- Beside `C136_invert` and `C136_chol`: a diagonal matrix of size 3. -/
example : (∃ v, Mat.invert (fmat [[2, 0, 0], [0, 3, 0], [0, 0, 5]]) = (.ok (), v)) ∧
    ∃ l, (fmat [[2, 0, 0], [0, 3, 0], [0, 0, 5]]).chol = .ok l := by
  have h2 : ⟪(lit 2 : F32)⟫ = ((2 : ℚ) : ℝ) := toReal_rat (by decide +kernel)
  have h3 : ⟪(lit 3 : F32)⟫ = ((3 : ℚ) : ℝ) := toReal_rat (by decide +kernel)
  have h5 : ⟪(lit 5 : F32)⟫ = ((5 : ℚ) : ℝ) := toReal_rat (by decide +kernel)
  have hm : MatIs (fmat [[2, 0, 0], [0, 3, 0], [0, 0, 5]]) 3 3 _ :=
    Mat.of_is _ (by norm_num) (by norm_num) (by norm_num) (by norm_num)
  have hnum : ∀ i j, i < 3 → j < 3 →
      F32.IsNumber (lit (([[2, 0, 0], [0, 3, 0], [0, 0, 5]] : List (List ℚ)).getD i [] |>.getD j 0)) := by
    intro i j hi hj
    interval_cases i <;> interval_cases j <;> decide +kernel
  have hdi : ∀ i j, i < 3 → j < 3 → i ≠ j →
      (lit (([[2, 0, 0], [0, 3, 0], [0, 0, 5]] : List (List ℚ)).getD i [] |>.getD j 0) : F32) = lit 0 := by
    intro i j hi hj h
    interval_cases i <;> interval_cases j <;> first | rfl | exact absurd rfl h
  constructor
  · obtain ⟨v, V, e, -⟩ := (C136_invert hm (by omega) hnum hdi).1 ⟨by
      change _ < ⟪(lit 2 : F32)⟫
      rw [eps32, h2]; norm_num, fun k k0 kn => by
      obtain rfl | rfl : k = 1 ∨ k = 2 := by omega
      · change _ < |⟪(lit 3 : F32)⟫|
        rw [eps32, h3]; norm_num
      · change _ < |⟪(lit 5 : F32)⟫|
        rw [eps32, h5]; norm_num⟩
    exact ⟨v, e⟩
  · obtain ⟨-, l, L, e, -⟩ := C136_chol hm hnum hdi (fun k kn => by
      obtain rfl | rfl : k = 0 ∨ k = 1 := by omega
      · change _ ≤ ⟪(lit 2 : F32)⟫
        rw [eps32, h2]; norm_num
      · change _ ≤ ⟪(lit 3 : F32)⟫
        rw [eps32, h3]; norm_num) (by
      change 0 ≤ ⟪(lit 5 : F32)⟫
      rw [h5]; norm_num)
    exact ⟨l, e⟩

/-- Beside `C136_test`: the two outcomes, at the second element. -/
example : (fmat [[2, 0, 0], [0, 0, 0], [0, 0, 5]]).isPositiveDefinite = .error (.err .Singular) ∧
    (fmat [[2, 0, 0], [0, -3, 0], [0, 0, 5]]).isPositiveDefinite = .ok false := by
  have h2 : ⟪(lit 2 : F32)⟫ = ((2 : ℚ) : ℝ) := toReal_rat (by decide +kernel)
  have h3 : ⟪(lit (-3) : F32)⟫ = ((-3 : ℚ) : ℝ) := toReal_rat (by decide +kernel)
  have hm : MatIs (fmat [[2, 0, 0], [0, 0, 0], [0, 0, 5]]) 3 3 _ :=
    Mat.of_is _ (by norm_num) (by norm_num) (by norm_num) (by norm_num)
  have hm' : MatIs (fmat [[2, 0, 0], [0, -3, 0], [0, 0, 5]]) 3 3 _ :=
    Mat.of_is _ (by norm_num) (by norm_num) (by norm_num) (by norm_num)
  constructor
  · refine ((C136_test hm
      (fun i j hi hj => by
        change i < 3 at hi
        change j < 3 at hj
        interval_cases i <;> interval_cases j <;> decide +kernel)
      (fun i j hi hj h => by
        change i < 3 at hi
        change j < 3 at hj
        interval_cases i <;> interval_cases j <;> first | rfl | exact absurd rfl h) (k := 1) (by omega) (fun j hj => by
        obtain rfl : j = 0 := by omega
        change _ ≤ ⟪(lit 2 : F32)⟫
        rw [eps32, h2]; norm_num)).1 (by omega) ?_ ?_).1
    · change 0 ≤ ⟪(lit 0 : F32)⟫
      rw [Rounded.zero_val]
    · change ⟪(lit 0 : F32)⟫ < _
      rw [Rounded.zero_val]; exact eps_pos32
  · refine ((C136_test hm'
      (fun i j hi hj => by
        change i < 3 at hi
        change j < 3 at hj
        interval_cases i <;> interval_cases j <;> decide +kernel)
      (fun i j hi hj h => by
        change i < 3 at hi
        change j < 3 at hj
        interval_cases i <;> interval_cases j <;> first | rfl | exact absurd rfl h) (k := 1) (by omega) (fun j hj => by
        obtain rfl : j = 0 := by omega
        change _ ≤ ⟪(lit 2 : F32)⟫
        rw [eps32, h2]; norm_num)).2 ?_).1
    change ⟪(lit (-3) : F32)⟫ ≤ _
    rw [h3]; norm_num

/-- Beside `C136_invert`: a matrix that is factorised but not inverted, its last element being at the threshold. -/
example : (fmat [[2, 0], [0, 1 / 10000]]).det.isOk = true ∧
    (Mat.invert (fmat [[2, 0], [0, 1 / 10000]])).1 = .error (.err .NotInversible) := by decide +kernel

end Verif
