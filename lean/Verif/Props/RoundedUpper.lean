import Verif.Props.RoundedDiag

set_option linter.unusedSectionVars false
set_option linter.unusedSimpArgs false

namespace Verif
open Scalar Finset

variable {n : Nat} {a : Mat F32} {A : Nat → Nat → F32}

/-! ### The inverse of an upper triangular matrix -/

/-- A rounded value is at most twice as large as a bound of the exact one. -/
theorem near_double {x y B : ℝ} (h : Near x y) (hy : |y| ≤ B) (hB : 1 ≤ B) : |x| ≤ 2 * B := by
  unfold Near at h
  have h1 : ru ≤ 1 / 4 := by rw [Linalg.ru_eq]; norm_num
  have h2 : rη ≤ 1 / 4 := by rw [rη_eq]; norm_num
  have h3 : ru * |y| ≤ 1 / 4 * B := mul_le_mul h1 hy (abs_nonneg _) (by norm_num)
  have h4 := abs_sub_abs_le_abs_sub x y
  linarith

/-- Eliminations of unknowns that are zero change nothing. -/
theorem solveElims_null {lu : Mat F32} {p : Vec Nat} (hl : MatIs lu n n A) (hp : U8Is p n (fun i => i))
    (hfin : ∀ i j, i < n → j < n → Finite (A i j)) {x : Vec F32} {X : Nat → F32} (hx : VecIs x n X) {row lo hi : Nat}
    (hr : row < n) (hh : hi ≤ n) (hlh : lo ≤ hi) (hX : F32.IsNumber (X row)) (hz : ∀ c, lo ≤ c → c < hi → X c = lit 0) :
    ∃ x', foldRange lo hi (fun col x => Linalg.solveElim lu p row col x) x = .ok x' ∧ VecIs x' n X := by
  refine foldRange_inv _ (fun _ (x : Vec F32) => VecIs x n X) lo hi hlh x hx ?_
  intro k x h1 h2 hI
  unfold Linalg.solveElim
  simp only [hp.get row hr, hl.get _ _ hr (show k < n by omega), hI.get row hr, hI.get k (by omega), Res.ok_bind]
  rw [hz k h1 h2, mul_zero_right32 (hfin row k hr (by omega)), sub_zero32 hX]
  obtain ⟨x', h1, h2⟩ := hI.exec_set hr hX.1
  refine ⟨x', h1, h2.congr fun i _ => ?_⟩
  by_cases h : i = row <;> simp [h]

/-- Eliminations of bounded unknowns with elements up to 256. -/
theorem solveElims_large {lu : Mat F32} {p : Vec Nat} (hl : MatIs lu n n A) (hp : U8Is p n (fun i => i))
    (hfin : ∀ i j, i < n → j < n → Finite (A i j)) (hb : ∀ i j, i < n → j < n → |⟪A i j⟫| ≤ 2 ^ 8) {x : Vec F32} {X : Nat → F32}
    (hx : VecIs x n X) {row : Nat} (hr : row < n) (hn : n ≤ 4) {S : ℝ} (hS : 1 ≤ S) (hS' : S ≤ 2 ^ 90) (hXr : Finite (X row))
    (hX1 : |⟪X row⟫| ≤ 1) (hz : ∀ c, row < c → c < n → Finite (X c) ∧ |⟪X c⟫| ≤ S) :
    ∃ x' v, foldRange (row + 1) n (fun col x => Linalg.solveElim lu p row col x) x = .ok x' ∧
      VecIs x' n (fun i => if i = row then v else X i) ∧ Finite v ∧ |⟪v⟫| ≤ 2 ^ 15 * S := by
  obtain ⟨x', e, v, h1, h2, h3⟩ := foldRange_inv (ε := LinalgError) (fun col x => Linalg.solveElim lu p row col x)
    (fun m (x : Vec F32) => ∃ v, VecIs x n (fun i => if i = row then v else X i) ∧ Finite v ∧
      |⟪v⟫| ≤ 2 ^ (9 + 2 * (m - (row + 1))) * S) (row + 1) n hr x
    ⟨X row, hx.congr fun i _ => by by_cases h : i = row <;> simp [h], hXr, by
      rw [Nat.sub_self]
      norm_num
      linarith⟩ (by
      rintro k x h1 h2 ⟨v, hI, hv, hvb⟩
      obtain ⟨hXk, hXb⟩ := hz k (by omega) h2
      have hkr : k ≠ row := by omega
      have hS0 : 0 ≤ S := by linarith
      have b1 : |⟪A row k⟫ * ⟪X k⟫| ≤ 2 ^ 8 * S := by
        rw [abs_mul]
        exact mul_le_mul (hb row k hr h2) hXb (abs_nonneg _) (by norm_num)
      have f1 : Finite (A row k *ᶠ X k) := Rounded.mul_finite (hfin row k hr h2) hXk (b1.trans (by norm_num at hS' ⊢; linarith))
      have b2 := near_double (Rounded.mul_near (hfin row k hr h2) hXk f1) b1 (by norm_num; linarith)
      have hm : k - (row + 1) ≤ 2 := by omega
      obtain ⟨m, hmd⟩ : ∃ m, m = k - (row + 1) := ⟨_, rfl⟩
      rw [← hmd] at hvb hm
      have hpw : (2 : ℝ) ^ 9 ≤ 2 ^ (9 + 2 * m) := pow_le_pow_right₀ (by norm_num) (by omega)
      have hpw' : (2 : ℝ) ^ (9 + 2 * m) ≤ 2 ^ 13 := pow_le_pow_right₀ (by norm_num) (by omega)
      have b3 : |⟪v⟫ - ⟪A row k *ᶠ X k⟫| ≤ 2 * 2 ^ (9 + 2 * m) * S := by
        refine (abs_sub _ _).trans ?_
        have := mul_le_mul_of_nonneg_right hpw hS0
        norm_num at b2 this ⊢
        linarith
      have b4 : 2 * 2 ^ (9 + 2 * m) * S ≤ 2 ^ 14 * S := by
        have := mul_le_mul_of_nonneg_right hpw' hS0
        norm_num at this ⊢
        linarith
      have f2 : Finite (v -ᶠ (A row k *ᶠ X k)) := Rounded.sub_finite hv f1 (b3.trans (b4.trans (by norm_num at hS' ⊢; linarith)))
      have b5 := near_double (Rounded.sub_near hv f1 f2) b3 (by
        have := mul_le_mul_of_nonneg_right hpw hS0
        norm_num at this ⊢
        linarith)
      obtain ⟨x', e, hx'⟩ := hI.exec_set hr f2
      refine ⟨x', ?_, v -ᶠ (A row k *ᶠ X k), hx'.congr fun i _ => by by_cases h : i = row <;> simp [h], f2, ?_⟩
      · unfold Linalg.solveElim
        simp only [hp.get row hr, hl.get _ _ hr h2, hI.get row hr, hI.get k h2, Res.ok_bind, hkr, if_true, if_false]
        exact e
      · rw [show k + 1 - (row + 1) = m + 1 by omega, show 9 + 2 * (m + 1) = 9 + 2 * m + 2 by omega, pow_add]
        refine b5.trans (le_of_eq ?_)
        ring)
  refine ⟨x', v, e, h1, h2, h3.trans ?_⟩
  have : (2 : ℝ) ^ (9 + 2 * (n - (row + 1))) ≤ 2 ^ 15 := pow_le_pow_right₀ (by norm_num) (by omega)
  gcongr

/-- `solve` with an upper triangular matrix and a column of the identity. -/
theorem solve_upper {lu : Mat F32} {p : Vec Nat} (hl : MatIs lu n n A) (hp : U8Is p n (fun i => i))
    (hnum : ∀ i j, i < n → j < n → F32.IsNumber (A i j)) (hb : ∀ i j, i < n → j < n → |⟪A i j⟫| ≤ 2 ^ 8)
    (hup : ∀ i j, j < i → i < n → A i j = lit 0) {row : Nat}
    {b : Vec F32} (hbv : VecIs b n (fun i => if i = row then lit 1 else lit 0)) :
    ((∀ k, k < n → ⟪(EPSILON : F32)⟫ < |⟪A k k⟫|) ∧
      ∃ x X, Linalg.solve lu b p = .ok x ∧ VecIs x n X ∧ (∀ i, i < n → Finite (X i)) ∧
        (∀ i, row < i → i < n → X i = lit 0) ∧ (row < n → X row = lit 1 /ᶠ A row row)) ∨
    ((∃ k, k < n ∧ |⟪A k k⟫| ≤ ⟪(EPSILON : F32)⟫) ∧ Linalg.solve lu b p = .error (.err .Unsolvable)) := by
  have hfin : ∀ i j, i < n → j < n → Finite (A i j) := fun i j hi hj => (hnum i j hi hj).1
  have hone : ∀ i : Nat, F32.IsNumber (if i = row then (lit 1 : F32) else lit 0) ∧
      |⟪if i = row then (lit 1 : F32) else lit 0⟫| ≤ 1 := fun i => by
    split
    · exact ⟨by decide +kernel, by rw [Rounded.one_val]; norm_num⟩
    · exact ⟨by decide +kernel, by rw [Rounded.zero_val]; norm_num⟩
  have ep := eps_pos32
  unfold Linalg.solve
  simp only [Mat.isSquare_eq hl, Res.ok_bind, decide_true, Bool.not_true, Bool.false_eq_true, if_false, hl.rows,
    Vec.init_new hl.rpos hl.rle]
  obtain ⟨x1, e1, hx1⟩ := foldRange_inv (ε := LinalgError)
    (fun row (x : Vec F32) => do
        let x ← exec x (Vec.setElement row (← b.getElement (← p.getElementU8 row)))
        foldRange 0 row (fun col x => Linalg.solveElim lu p row col x) x)
    (fun m (x : Vec F32) => VecIs x n (fun i => if i < m then (if i = row then lit 1 else lit 0) else lit 0)) 0 n (Nat.zero_le _)
    (Vec.zeros n)
    ((Vec.zeros_is hl.rpos hl.rle).congr fun i _ => by simp)
    (fun k x _ hk hI => by
      rw [hp.get k hk, Res.ok_bind, hbv.get k hk, Res.ok_bind]
      obtain ⟨x', h1, h2⟩ := hI.exec_set hk (hone k).1.1
      rw [h1, Res.ok_bind]
      have h2' : VecIs x' n (fun i => if i < k + 1 then (if i = row then lit 1 else lit 0) else lit 0) := h2.congr fun i _ => by
        by_cases h : i = k
        · simp [h]
        · have : i < k + 1 ↔ i < k := by omega
          simp [h, this]
      exact solveElims_stay hl hp h2' (fun i hi => by
        split
        · exact (hone i).1
        · decide +kernel) hk hk.le (Nat.zero_le _) (fun c _ hc => hup k c hc hk))
  rw [e1, Res.ok_bind]
  have loop : ∀ len x X, len ≤ n → VecIs x n X → (∀ i, i < len → X i = if i = row then lit 1 else lit 0) →
      (∀ i, len ≤ i → i < n → Finite (X i) ∧ |⟪X i⟫| ≤ 2 ^ (30 * (n - len))) →
      (∀ i, len ≤ i → row < i → i < n → X i = lit 0) → (len ≤ row → row < n → X row = lit 1 /ᶠ A row row) →
      (∀ k, len ≤ k → k < n → ⟪(EPSILON : F32)⟫ < |⟪A k k⟫|) →
      ((∀ k, k < n → ⟪(EPSILON : F32)⟫ < |⟪A k k⟫|) ∧ ∃ x' X', foldFromRev 0 len (fun row (x : Vec F32) => do
          let x ← foldRange (row + 1) n (fun col x => Linalg.solveElim lu p row col x) x
          if Scalar.abs (← lu.getElement (← p.getElementU8 row) row) >ᶠ EPSILON then do
            let v := (← x.getElement row) /ᶠ (← lu.getElement (← p.getElementU8 row) row)
            exec x (Vec.setElement row v)
          else fail .Unsolvable) x = .ok x' ∧ VecIs x' n X' ∧ (∀ i, i < n → Finite (X' i)) ∧
            (∀ i, row < i → i < n → X' i = lit 0) ∧ (row < n → X' row = lit 1 /ᶠ A row row)) ∨
      ((∃ k, k < n ∧ |⟪A k k⟫| ≤ ⟪(EPSILON : F32)⟫) ∧ foldFromRev 0 len (fun row (x : Vec F32) => do
          let x ← foldRange (row + 1) n (fun col x => Linalg.solveElim lu p row col x) x
          if Scalar.abs (← lu.getElement (← p.getElementU8 row) row) >ᶠ EPSILON then do
            let v := (← x.getElement row) /ᶠ (← lu.getElement (← p.getElementU8 row) row)
            exec x (Vec.setElement row v)
          else fail .Unsolvable) x = .error (.err .Unsolvable)) := by
    intro len
    induction len with
    | zero =>
      intro x X _ hx _ h2 h3 h4 h5
      exact .inl ⟨fun k h => h5 k (Nat.zero_le _) h, x, X, rfl, hx, fun i hi => (h2 i (Nat.zero_le _) hi).1,
        fun i h hi => h3 i (Nat.zero_le _) h hi, fun h => h4 (Nat.zero_le _) h⟩
    | succ len ih =>
      intro x X hle hx h1 h2 h3 h4 h5
      rw [foldFromRev_succ]
      simp only [Nat.zero_add]
      have hlen : len < n := by omega
      have hn4 : n ≤ 4 := hl.rle
      have hXl := h1 len (by omega)
      have hS : (1 : ℝ) ≤ 2 ^ (30 * (n - (len + 1))) := one_le_pow₀ (by norm_num)
      have hS' : (2 : ℝ) ^ (30 * (n - (len + 1))) ≤ 2 ^ 90 := pow_le_pow_right₀ (by norm_num) (by omega)
      -- the eliminations
      obtain ⟨x1, v, e1, hx1, hv, hvb, hv0⟩ : ∃ x1 v, foldRange (len + 1) n (fun col x => Linalg.solveElim lu p len col x) x = .ok x1 ∧
          VecIs x1 n (fun i => if i = len then v else X i) ∧ Finite v ∧ |⟪v⟫| ≤ 2 ^ 15 * 2 ^ (30 * (n - (len + 1))) ∧
          (row ≤ len → v = if len = row then lit 1 else lit 0) := by
        by_cases hrl : row ≤ len
        · obtain ⟨x1, e1, hx1⟩ := solveElims_null hl hp hfin hx hlen (le_refl n) (show len + 1 ≤ n by omega)
            (by rw [hXl]; exact (hone len).1) (fun c hc1 hc2 => h3 c hc1 (by omega) hc2)
          refine ⟨x1, X len, e1, hx1.congr fun i _ => by by_cases h : i = len <;> simp [h], ?_, ?_, fun _ => hXl⟩
          · rw [hXl]; exact (hone len).1.1
          · rw [hXl]
            refine (hone len).2.trans ?_
            norm_num at hS ⊢
            linarith
        · obtain ⟨x1, v, e1, hx1, hv, hvb⟩ := solveElims_large hl hp hfin hb hx hlen hn4 hS hS'
            (by rw [hXl]; exact (hone len).1.1) (by rw [hXl]; exact (hone len).2) (fun c hc1 hc2 => h2 c hc1 hc2)
          exact ⟨x1, v, e1, hx1, hv, hvb, fun h => absurd h hrl⟩
      rw [e1, Res.ok_bind, hp.get len hlen, Res.ok_bind, hl.get len len hlen hlen, Res.ok_bind]
      have hfl := hfin len len hlen hlen
      have hiff : (Scalar.abs (A len len) >ᶠ EPSILON) = true ↔ ⟪(EPSILON : F32)⟫ < |⟪A len len⟫| := by
        rw [← Rounded.abs_val hfl]
        exact Rounded.lt_val Rounded.eps_finite (Rounded.abs_finite hfl)
      by_cases hpv : ⟪(EPSILON : F32)⟫ < |⟪A len len⟫|
      · have hne : ⟪A len len⟫ ≠ 0 := by
          intro h
          rw [h, abs_zero] at hpv
          linarith
        have bq : |⟪v⟫ / ⟪A len len⟫| ≤ 2 ^ 29 * 2 ^ (30 * (n - (len + 1))) := by
          rw [abs_div, div_le_iff₀ (by linarith)]
          have h14 : (1 : ℝ) ≤ 2 ^ 14 * |⟪A len len⟫| := by
            rw [eps32] at hpv
            norm_num at hpv ⊢
            linarith
          have := mul_le_mul_of_nonneg_left h14 (show (0 : ℝ) ≤ 2 ^ 15 * 2 ^ (30 * (n - (len + 1))) by positivity)
          refine hvb.trans ((le_of_eq (mul_one _).symm).trans (this.trans (le_of_eq ?_)))
          norm_num
          ring
        have hf : Finite (v /ᶠ A len len) := Rounded.div_finite hv hfl hne (bq.trans (by norm_num at hS' ⊢; linarith))
        have bn := near_double (Rounded.div_near hv hfl hne hf) bq (by norm_num at hS ⊢; linarith)
        have bn' : |⟪v /ᶠ A len len⟫| ≤ 2 ^ (30 * (n - len)) := by
          refine bn.trans (le_of_eq ?_)
          rw [show 30 * (n - len) = 30 + 30 * (n - (len + 1)) by omega, pow_add]
          norm_num
          ring
        rw [if_pos (hiff.mpr hpv), hx1.get len hlen, Res.ok_bind, if_pos rfl]
        obtain ⟨x2, e2, hx2⟩ := hx1.exec_set hlen hf
        simp only [Res.ok_bind]
        rw [hl.get len len hlen hlen, Res.ok_bind, e2, Res.ok_bind]
        refine ih x2 (fun i => if i = len then v /ᶠ A len len else X i) (by omega) (hx2.congr fun i _ => ?_) (fun i hi => ?_)
          (fun i hi hin => ?_) (fun i hi hri hin => ?_) (fun hl1 hl2 => ?_) (fun k hk1 hk2 => ?_)
        · by_cases h : i = len <;> simp [h]
        · rw [if_neg (by omega)]; exact h1 i (by omega)
        · by_cases h : i = len
          · rw [if_pos h]; exact ⟨hf, bn'⟩
          · rw [if_neg h]
            obtain ⟨g1, g2⟩ := h2 i (by omega) hin
            exact ⟨g1, g2.trans (pow_le_pow_right₀ (by norm_num) (by omega))⟩
        · by_cases h : i = len
          · rw [if_pos h, hv0 (by omega), if_neg (by omega)]
            exact zero_div32 hfl hne
          · rw [if_neg h]; exact h3 i (by omega) hri hin
        · by_cases h : row = len
          · rw [if_pos h, hv0 (by omega), if_pos h.symm, h]
          · rw [if_neg h]; exact h4 (by omega) hl2
        · by_cases h : k = len
          · rw [h]; exact hpv
          · exact h5 k (by omega) hk2
      · rw [if_neg (fun h => hpv (hiff.mp h))]
        exact .inr ⟨⟨len, hlen, not_lt.mp hpv⟩, rfl⟩
  exact loop n x1 _ (le_refl _) hx1 (fun i hi => if_pos hi) (fun i h1 h2 => by omega) (fun i h1 _ h2 => by omega)
    (fun h1 h2 => by omega) (fun k h1 h2 => by omega)

/-- The loop of `invert` on an upper triangular matrix. -/
theorem invertLoop_upper {lu : Mat F32} {p : Vec Nat} (hl : MatIs lu n n A) (hp : U8Is p n (fun i => i))
    (hnum : ∀ i j, i < n → j < n → F32.IsNumber (A i j)) (hb : ∀ i j, i < n → j < n → |⟪A i j⟫| ≤ 2 ^ 8)
    (hup : ∀ i j, j < i → i < n → A i j = lit 0)
    (hpv : ∀ k, k < n → ⟪(EPSILON : F32)⟫ < |⟪A k k⟫|) (len : Nat) :
    ∀ (row : Nat) (t : Vec F32) (s : Mat F32) (V : Nat → Nat → F32), row + len = n → VecIs t n (fun _ => lit 0) →
      MatIs s n n V → ∃ s' V', Mat.invertLoop lu p row len t s = (.ok (), s') ∧ MatIs s' n n V' ∧
        (∀ i j, i < row → V' i j = V i j) ∧ (∀ i j, row ≤ i → i < n → j < n → Finite (V' i j)) ∧
        (∀ i j, row ≤ i → i < j → j < n → V' i j = lit 0) ∧ (∀ i, row ≤ i → i < n → V' i i = lit 1 /ᶠ A i i) := by
  induction len with
  | zero =>
    intro row t s V hrow _ hs
    exact ⟨s, V, rfl, hs, fun _ _ _ => rfl, fun i j h1 h2 _ => by omega, fun i j h1 h2 h3 => by omega, fun i h1 h2 => by omega⟩
  | succ len ih =>
    intro row t s V hrow ht hs
    have hr : row < n := by omega
    obtain ⟨t1, e1, ht1⟩ := ht.exec_set hr (Rounded.one_finite (F := F32))
    have ht1' : VecIs t1 n (fun i => if i = row then (lit 1 : F32) else lit 0) :=
      ht1.congr fun i _ => by by_cases h : i = row <;> simp [h]
    rcases solve_upper hl hp hnum hb hup ht1' with ⟨-, x, X, e2, hX, hXf, hX0, hX1⟩ | ⟨⟨k, hk, hk'⟩, -⟩
    swap
    · exact absurd (hpv k hk) (not_lt.mpr hk')
    obtain ⟨t2, e3, ht2⟩ := ht1'.exec_set hr (Rounded.zero_finite (F := F32))
    obtain ⟨s1, e4, hs1⟩ := forRange_inv (ε := LinalgError)
      (fun col => do Mat.setElement row col (← (x.getElement col : Res LinalgError F32)))
      (fun k (m : Mat F32) => MatIs m n n (fun i j => if i = row ∧ j < k then X j else V i j))
      0 n (Nat.zero_le _) s (hs.congr fun i j _ _ => by simp)
      (fun k m _ hk hm => by
        refine ⟨_, by rw [hX.get k hk, Op.liftOk_bind]; exact hm.set_ok hr hk (hXf k hk), ?_⟩
        refine (hm.put row k hk _).congr fun i j _ _ => ?_
        by_cases hi : i = row
        · by_cases hj : j = k
          · simp [hi, hj]
          · have : j < k + 1 ↔ j < k := by omega
            simp [hi, hj, this]
        · simp [hi])
    obtain ⟨s2, V', e5, hs2, g1, g2, g3, g4⟩ := ih (row + 1) t2 s1 _ (by omega)
      (ht2.congr fun i _ => by by_cases h : i = row <;> simp [h]) hs1
    have grow : ∀ j, j < n → V' row j = X j := fun j hj => by
      rw [g1 row j (by omega)]; simp [hj]
    refine ⟨s2, V', ?_, hs2, fun i j hi => ?_, fun i j hi hin hj => ?_, fun i j hi hij hj => ?_, fun i hi hin => ?_⟩
    · unfold Mat.invertLoop
      rw [e1, Op.liftOk_bind]
      unfold Mat.orElseErr
      rw [e2, Res.mapErr_ok, Op.liftOk_bind, Op.get_bind, hs.cols_eq, Op.bind_ok e4, e3, Op.liftOk_bind]
      exact e5
    · rw [g1 i j (by omega)]
      have : i ≠ row := by omega
      simp [this]
    · by_cases h : i = row
      · rw [h, grow j hj]; exact hXf j hj
      · exact g2 i j (by omega) hin hj
    · by_cases h : i = row
      · rw [h, grow j hj]; exact hX0 j (by omega) hj
      · exact g3 i j (by omega) hij hj
    · by_cases h : i = row
      · rw [h, grow row hr]; exact hX1 hr
      · exact g4 i (by omega) hin

/-- C136: in binary32 an upper triangular matrix of size 2 or more with elements up to 256 is inverted exactly when its first
element exceeds `EPSILON`, with sign, and the others on the diagonal exceed it in magnitude.  The result has exact zeros below
its diagonal and the correctly rounded inverses on it.  Otherwise `invert` fails with `NotInversible` and leaves the matrix
as it was. -/
theorem C136_upper_invert (ha : MatIs a n n A) (hn : 2 ≤ n) (hnum : ∀ i j, i < n → j < n → F32.IsNumber (A i j))
    (hb : ∀ i j, i < n → j < n → |⟪A i j⟫| ≤ 256) (hup : ∀ i j, j < i → i < n → A i j = lit 0) :
    ((⟪(EPSILON : F32)⟫ < ⟪A 0 0⟫ ∧ ∀ k, 0 < k → k < n → ⟪(EPSILON : F32)⟫ < |⟪A k k⟫|) →
      ∃ v V, Mat.invert a = (.ok (), v) ∧ MatIs v n n V ∧ (∀ i j, j < i → i < n → V i j = lit 0) ∧
        ∀ k, k < n → |⟪V k k⟫ - 1 / ⟪A k k⟫| ≤ 1 / 2 ^ 24 * |1 / ⟪A k k⟫| + 1 / 2 ^ 150) ∧
    (¬ (⟪(EPSILON : F32)⟫ < ⟪A 0 0⟫ ∧ ∀ k, 0 < k → k < n → ⟪(EPSILON : F32)⟫ < |⟪A k k⟫|) →
      Mat.invert a = (.error (.err .NotInversible), a)) := by
  have hfin : ∀ i j, i < n → j < n → Finite (A i j) := fun i j hi hj => (hnum i j hi hj).1
  have hb' : ∀ i j, i < n → j < n → |⟪A i j⟫| ≤ 2 ^ 8 := fun i j hi hj => (hb i j hi hj).trans (by norm_num)
  have ep := eps_pos32
  rcases lup_upper32 ha hn hnum hup with ⟨hc, lu, p, e, hl, hp⟩ | ⟨hc, e⟩
  swap
  · refine ⟨fun h => absurd ⟨h.1.le, fun k h1 h2 => (h.2 k h1 (by omega)).le⟩ hc, fun _ => ?_⟩
    exact ((C136_upper ha hn hnum hup).2 hc).2.2
  have hz : VecIs (Vec.zeros n) n (fun _ => (lit 0 : F32)) :=
    (Vec.zeros_is ha.rpos ha.rle).congr fun _ _ => by simp
  have heq : (⟪(EPSILON : F32)⟫ < ⟪A 0 0⟫ ∧ ∀ k, 0 < k → k < n → ⟪(EPSILON : F32)⟫ < |⟪A k k⟫|) ↔
      ∀ k, k < n → ⟪(EPSILON : F32)⟫ < |⟪A k k⟫| := by
    constructor
    · rintro ⟨h1, h2⟩ k hk
      by_cases h : k = 0
      · rw [h]; exact lt_of_lt_of_le h1 (le_abs_self _)
      · exact h2 k (by omega) hk
    · intro h
      refine ⟨?_, fun k _ hk => h k hk⟩
      have := h 0 (by omega)
      rwa [abs_of_pos (lt_of_lt_of_le ep hc.1)] at this
  rw [heq]
  constructor
  · intro hpv
    obtain ⟨s1, V, e1, hs1, -, g2, g3, g4⟩ := invertLoop_upper hl hp hnum hb' hup hpv n 0 (Vec.zeros n) a A (by omega) hz ha
    obtain ⟨s2, e2, hs2⟩ := Mat.transpose_ok hs1 (fun i j hi hj => g2 i j (Nat.zero_le _) hi hj)
    refine ⟨s2, fun i j => V j i, ?_, hs2, fun i j hj hi => g3 j i (Nat.zero_le _) hj hi, fun k hk => ?_⟩
    · unfold Mat.invert
      simp only [Op.get_bind, Mat.isSquare_eq ha, Op.liftOk_bind, decide_true, Bool.not_true,
        Bool.false_eq_true, if_false, ha.rows_eq, Vec.init_new ha.rpos ha.rle]
      unfold Mat.orElseErr
      rw [e, Res.mapErr_ok, Op.liftOk_bind]
      dsimp only
      rw [Op.bind_ok e1, e2]
    · dsimp only
      rw [g4 k (Nat.zero_le _) hk]
      have hk0 : ⟪A k k⟫ ≠ 0 := fun h => by
        have := hpv k hk
        rw [h, abs_zero] at this
        linarith
      have hfd := g2 k k (Nat.zero_le _) hk hk
      rw [g4 k (Nat.zero_le _) hk] at hfd
      have := Rounded.div_near (Rounded.one_finite (F := F32)) (hfin k k hk hk) hk0 hfd
      unfold Near at this
      rw [Rounded.one_val] at this
      refine this.trans (le_of_eq ?_)
      rw [rη_eq]
      rfl
  · intro hno
    unfold Mat.invert
    simp only [Op.get_bind, Mat.isSquare_eq ha, Op.liftOk_bind, decide_true, Bool.not_true,
      Bool.false_eq_true, if_false, ha.rows_eq, Vec.init_new ha.rpos ha.rle]
    unfold Mat.orElseErr
    rw [e, Res.mapErr_ok, Op.liftOk_bind]
    dsimp only
    obtain ⟨n', rfl⟩ : ∃ n', n = n' + 1 := ⟨n - 1, by omega⟩
    obtain ⟨t1, e1, ht1⟩ := hz.exec_set (Nat.zero_lt_succ n') (Rounded.one_finite (F := F32))
    have ht1' : VecIs t1 (n' + 1) (fun i => if i = 0 then (lit 1 : F32) else lit 0) :=
      ht1.congr fun i _ => by by_cases h : i = 0 <;> simp [h]
    rcases solve_upper hl hp hnum hb' hup ht1' with ⟨h, -⟩ | ⟨-, e2⟩
    · exact absurd h hno
    · have e3 : Mat.invertLoop lu p 0 (n' + 1) (Vec.zeros (n' + 1)) a = (.error (.err .NotInversible), a) := by
        unfold Mat.invertLoop
        rw [e1, Op.liftOk_bind]
        unfold Mat.orElseErr
        rw [e2]
        rfl
      rw [Op.bind_err e3]

/-- Beside `C136_upper_invert`: an upper triangular matrix of size 3 with a negative element on its diagonal. -/
example : ∃ v, Mat.invert (fmat [[2, 1, 3], [0, -1, 4], [0, 0, 5]]) = (.ok (), v) := by
  have h0 : ⟪(lit 0 : F32)⟫ = ((0 : ℚ) : ℝ) := toReal_rat (by decide +kernel)
  have h1 : ⟪(lit 1 : F32)⟫ = ((1 : ℚ) : ℝ) := toReal_rat (by decide +kernel)
  have h2 : ⟪(lit 2 : F32)⟫ = ((2 : ℚ) : ℝ) := toReal_rat (by decide +kernel)
  have h3 : ⟪(lit 3 : F32)⟫ = ((3 : ℚ) : ℝ) := toReal_rat (by decide +kernel)
  have h4 : ⟪(lit 4 : F32)⟫ = ((4 : ℚ) : ℝ) := toReal_rat (by decide +kernel)
  have h5 : ⟪(lit 5 : F32)⟫ = ((5 : ℚ) : ℝ) := toReal_rat (by decide +kernel)
  have hm1 : ⟪(lit (-1) : F32)⟫ = ((-1 : ℚ) : ℝ) := toReal_rat (by decide +kernel)
  have hm : MatIs (fmat [[2, 1, 3], [0, -1, 4], [0, 0, 5]]) 3 3 _ :=
    Mat.of_is _ (by norm_num) (by norm_num) (by norm_num) (by norm_num)
  obtain ⟨v, V, e, -⟩ := (C136_upper_invert hm (by omega)
    (fun i j hi hj => by
      change i < 3 at hi
      change j < 3 at hj
      interval_cases i <;> interval_cases j <;> decide +kernel)
    (fun i j hi hj => by
      change i < 3 at hi
      change j < 3 at hj
      interval_cases i <;> interval_cases j
      · change |⟪(lit 2 : F32)⟫| ≤ _; rw [h2]; norm_num
      · change |⟪(lit 1 : F32)⟫| ≤ _; rw [h1]; norm_num
      · change |⟪(lit 3 : F32)⟫| ≤ _; rw [h3]; norm_num
      · change |⟪(lit 0 : F32)⟫| ≤ _; rw [h0]; norm_num
      · change |⟪(lit (-1) : F32)⟫| ≤ _; rw [hm1]; norm_num
      · change |⟪(lit 4 : F32)⟫| ≤ _; rw [h4]; norm_num
      · change |⟪(lit 0 : F32)⟫| ≤ _; rw [h0]; norm_num
      · change |⟪(lit 0 : F32)⟫| ≤ _; rw [h0]; norm_num
      · change |⟪(lit 5 : F32)⟫| ≤ _; rw [h5]; norm_num)
    (fun i j hj hi => by
      change i < 3 at hi
      interval_cases i <;> interval_cases j <;> rfl)).1 ⟨by
        change _ < ⟪(lit 2 : F32)⟫
        rw [eps32, h2]; norm_num, fun k k1 k2 => by
        obtain rfl | rfl : k = 1 ∨ k = 2 := by omega
        · change _ < |⟪(lit (-1) : F32)⟫|
          rw [eps32, hm1]; norm_num
        · change _ < |⟪(lit 5 : F32)⟫|
          rw [eps32, h5]; norm_num⟩
  exact ⟨v, e⟩

end Verif
