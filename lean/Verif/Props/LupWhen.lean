import Verif.Props.Lup
import Verif.Props.Chol

/-
C107: when `lup`, `det` and `invert` succeed, in exact arithmetic over an arbitrary ordered field.
C22, C24 and C25 say what is computed when they succeed.
-/

set_option linter.unusedSectionVars false
set_option linter.unusedSimpArgs false

namespace Verif
open Scalar Finset

variable {K : Type} [Field K] [LinearOrder K] [IsStrictOrderedRing K] [Elementary K]
variable {n : Nat} {a : Mat (Ext K)} {A : Nat → Nat → K}

namespace Linalg
variable {π : Nat → Nat} {u : Nat → Nat → K}

/-- The packed factors and the pivot order during `lup`: element `j` of row `i` is `u i j`. -/
structure LupAt (n : Nat) (st : Mat (Ext K) × Vec Nat) (π : Nat → Nat) (u : Nat → Nat → K) : Prop where
  lu : MatIs st.1 n n (fun i j => .fin (u i j))
  p : U8Is st.2 n π
  perm : PermOn n π

/-- `lup` up to its main loop. -/
theorem lup_start (ha : MatIs a n n (fun i j => .fin (A i j))) :
    ∃ st, lup a = foldRange 0 (n - 1) (lupStep n n) st ∧ LupAt n st (fun i => i) A := by
  obtain ⟨l, e1, hl⟩ := Mat.exec_of_stores (Mat.copyFrom_stores (Mat.zeros_of ha) ha) (Mat.zeros_of ha)
    (fun i j _ _ => Ext.finite_fin (A i j))
  obtain ⟨p0, e2, hp0⟩ := Vec.init_newU8 ha.rpos ha.rle
  obtain ⟨p1, e3, hp1⟩ := foldRange_inv (ε := LinalgError)
    (fun row (p : Vec Nat) => exec p (Vec.setElementU8 row row))
    (fun k (p : Vec Nat) => U8Is p n (fun i => if i < k then i else 0)) 0 n (Nat.zero_le _) p0
    (hp0.congr fun i _ => by simp)
    (fun k p _ hk hI => by
      obtain ⟨p', h1, h2⟩ := hI.exec_set k hk
      refine ⟨p', h1, h2.congr fun i _ => ?_⟩
      by_cases h : i = k
      · simp [h]
      · have : i < k + 1 ↔ i < k := by omega
        simp [h, this])
  refine ⟨(l, p1), ?_, hl, hp1.congr fun i hi => by simp [hi], ⟨fun _ h => h, fun _ _ _ _ h => h⟩⟩
  unfold lup
  simp only [ha.rows, ha.cols, Res.ok_bind, Mat.init_of ha, e1, e2, e3, u8Sub_ok ha.rpos]

/-- In the first step the pivot is the first of the largest elements, with sign, of column 0. -/
theorem lupPivot_zero {st : Mat (Ext K) × Vec Nat} (h : LupAt n st π u) (hn : 0 < n) :
    ∃ q, lupPivot st.1 st.2 0 n = .ok q ∧ q < n ∧ (∀ i, i < n → u (π i) 0 ≤ u (π q) 0) ∧
      ∀ i, i < q → u (π i) 0 < u (π q) 0 := by
  unfold lupPivot
  obtain ⟨q, e, h1, h2, h3, h4⟩ := foldRange_inv (ε := LinalgError)
    (fun col rowMax => do
      if (← st.1.getElement (← st.2.getElementU8 col) 0) >ᶠ
          (← st.1.getElement (← st.2.getElementU8 rowMax) 0) then .ok col
      else .ok rowMax)
    (fun k (q : Nat) => q < n ∧ q < k ∧ (∀ i, i < k → u (π i) 0 ≤ u (π q) 0) ∧
      ∀ i, i < q → u (π i) 0 < u (π q) 0) (0 + 1) n hn 0
    ⟨hn, by omega, fun i hi => by obtain rfl : i = 0 := by omega
                                  exact le_refl _, fun i hi => by omega⟩
    (fun i q h1 h2 ⟨h3, h4, h5, h6⟩ => by
      simp only [h.p.get i h2, Res.ok_bind, h.lu.get _ _ (h.perm.lt i h2) hn, h.p.get q h3,
        h.lu.get _ _ (h.perm.lt q h3) hn]
      by_cases hlt : u (π q) 0 < u (π i) 0
      · rw [if_pos (by rw [Ext.lt_fin]; exact decide_eq_true hlt)]
        refine ⟨i, rfl, h2, by omega, fun j hj => ?_, fun j hj => ?_⟩
        · by_cases hji : j = i
          · rw [hji]
          · exact le_trans (h5 j (by omega)) (le_of_lt hlt)
        · exact lt_of_le_of_lt (h5 j hj) hlt
      · rw [if_neg (by rw [Ext.lt_fin]; simpa using hlt)]
        refine ⟨q, rfl, h3, by omega, fun j hj => ?_, h6⟩
        by_cases hji : j = i
        · rw [hji]; exact not_lt.mp hlt
        · exact h5 j (by omega))
  exact ⟨q, e, h1, h3, h4⟩

/-- If no later row exceeds the element of column 0 in row `s`, row `s` is kept. -/
theorem lupPivot_keep {st : Mat (Ext K) × Vec Nat} (h : LupAt n st π u) {s : Nat} (hs : s < n)
    (hle : ∀ i, s < i → i < n → u (π i) s ≤ u (π s) 0) : lupPivot st.1 st.2 s n = .ok s := by
  unfold lupPivot
  obtain ⟨q, e, rfl⟩ := foldRange_inv (ε := LinalgError)
    (fun col rowMax => do
      if (← st.1.getElement (← st.2.getElementU8 col) s) >ᶠ
          (← st.1.getElement (← st.2.getElementU8 rowMax) 0) then .ok col
      else .ok rowMax)
    (fun _ (q : Nat) => q = s) (s + 1) n hs s rfl
    (fun i q h1 h2 hq => by
      subst hq
      refine ⟨q, ?_, rfl⟩
      simp only [h.p.get i h2, Res.ok_bind, h.lu.get _ _ (h.perm.lt i h2) hs, h.p.get q hs,
        h.lu.get _ _ (h.perm.lt q hs) (show 0 < n by omega)]
      rw [if_neg (by rw [Ext.lt_fin]; simpa using hle i (by omega) h2)])
  exact e

/-- With two rows left there is one comparison, with column 0 of the row that is kept. -/
theorem lupPivot_last {st : Mat (Ext K) × Vec Nat} {s : Nat} (h : LupAt (s + 2) st π u) :
    lupPivot st.1 st.2 s (s + 2) = .ok (if u (π s) 0 < u (π (s + 1)) s then s + 1 else s) := by
  unfold lupPivot foldRange
  rw [show s + 2 - (s + 1) = 0 + 1 by omega, foldFrom_succ]
  simp only [h.p.get (s + 1) (by omega), Res.ok_bind,
    h.lu.get _ _ (h.perm.lt (s + 1) (by omega)) (show s < s + 2 by omega), h.p.get s (by omega),
    h.lu.get _ _ (h.perm.lt s (by omega)) (show 0 < s + 2 by omega)]
  by_cases hlt : u (π s) 0 < u (π (s + 1)) s
  · rw [if_pos (by rw [Ext.lt_fin]; exact decide_eq_true hlt), if_pos hlt]; rfl
  · rw [if_neg (by rw [Ext.lt_fin]; simpa using hlt), if_neg hlt]; rfl

/-- One step of the main loop with pivot `q`. -/
theorem lupStep_at {st : Mat (Ext K) × Vec Nat} (h : LupAt n st π u) {s q : Nat} (hs : s + 1 < n)
    (e1 : lupPivot st.1 st.2 s n = .ok q) (hq : q < n) :
    (|u (π q) s| < epsilon K ∧ lupStep n n s st = .error (.err .Singular)) ∨
    (epsilon K ≤ |u (π q) s| ∧ ∃ st' u', lupStep n n s st = .ok st' ∧
      LupAt n st' (fun i => if i = q then π s else if i = s then π q else π i) u' ∧
      ∀ i j, i < n → u' (if i = q then π s else if i = s then π q else π i) j =
        if i ≤ s then u (if i = q then π s else if i = s then π q else π i) j
        else if j < s then u (if i = q then π s else π i) j
        else if j = s then u (if i = q then π s else π i) s / u (π q) s
        else u (if i = q then π s else π i) j - u (π q) j *
          (u (if i = q then π s else π i) s / u (π q) s)) := by
  obtain ⟨lu, p⟩ := st
  have hsn : s < n := by omega
  obtain ⟨hl, hp, hπ⟩ := h
  dsimp only at hl hp e1
  obtain ⟨p', e2, hp'⟩ := lupSwap_ok hp hsn hq
  have hπ' := hπ.swap hsn hq
  have hs' : (if s = q then π s else if s = s then π q else π s) = π q := by
    by_cases hsq : s = q <;> simp [hsq]
  unfold lupStep
  have hps : p'.getElementU8 s = .ok (π q) := (hp'.get s hsn).trans (congrArg _ hs')
  simp only [e1, e2, Res.ok_bind, hps, hl.get _ _ (hπ.lt q hq) hsn, abs_lt_eps]
  by_cases hpiv : |u (π q) s| < epsilon K
  · exact Or.inl ⟨hpiv, by rw [if_pos (decide_eq_true hpiv)]⟩
  · have hne : u (π q) s ≠ 0 := fun h => hpiv (by rw [h, abs_zero]; exact eps_pos)
    obtain ⟨lu', e3, u', hl', h3, h4⟩ := lupElim_ok hl hp' hπ' hsn (by rw [hs']; exact hne)
    refine Or.inr ⟨not_lt.mp hpiv, (lu', p'), u', by rw [if_neg (by simpa using hpiv), e3]; rfl,
      ⟨hl', hp', hπ'⟩, fun i j hi => ?_⟩
    by_cases his : i ≤ s
    · rw [if_pos his]; exact h3 i j his hi
    · rw [if_neg his]
      have := h4 i j (by omega) hi
      rw [hs'] at this
      have hne : i ≠ s := by omega
      simp only [hne, if_false] at this ⊢
      exact this

end Linalg

/-! ### What follows from the outcome of `lup` -/

/-- `invert` fails when `lup` does. -/
theorem invert_of_singular (ha : MatIs a n n (fun i j => .fin (A i j)))
    (h : Linalg.lup a = .error (.err .Singular)) :
    Mat.invert a = (.error (.err .NotInversible), a) := by
  unfold Mat.invert
  simp only [Op.get_bind, Mat.isSquare_eq ha, Op.liftOk_bind, decide_true, Bool.not_true,
    Bool.false_eq_true, if_false, ha.rows_eq, Vec.init_new ha.rpos ha.rle]
  unfold Mat.orElseErr
  rw [h]
  rfl

theorem det_of_singular (ha : MatIs a n n (fun i j => .fin (A i j)))
    (h : Linalg.lup a = .error (.err .Singular)) : a.det = .error (.err .Singular) := by
  unfold Mat.det
  simp only [Mat.isSquare_eq ha, Res.ok_bind, decide_true, Bool.not_true, Bool.false_eq_true, if_false,
    h]
  rfl

/-- The final state of `lup` has the properties used for C22 to C25. -/
theorem lupInv_of_at (ha : MatIs a n n (fun i j => .fin (A i j))) {st : Mat (Ext K) × Vec Nat}
    {π : Nat → Nat} {u : Nat → Nat → K} (h : Linalg.lup a = .ok st) (hst : Linalg.LupAt n st π u) :
    ∃ ρ w, Linalg.LupInv n A (n - 1) st ρ w ∧ (∀ i, i < n → ρ i = π i) ∧
      ∀ i j, i < n → j < n → w i j = u i j := by
  rcases Linalg.lup_ok ha with h' | ⟨st', h', ρ, w, hI⟩
  · rw [h] at h'; cases h'
  · obtain rfl : st = st' := Except.ok.inj (h.symm.trans h')
    refine ⟨ρ, w, hI, fun i hi => ?_, fun i j hi hj => ?_⟩
    · exact Except.ok.inj ((hI.p.get i hi).symm.trans (hst.p.get i hi))
    · have := Except.ok.inj ((hI.lu.get i j hi hj).symm.trans (hst.lu.get i j hi hj))
      simpa using this

/-- After a successful `lup`, `invert` succeeds exactly when every pivot exceeds the threshold. -/
theorem invert_iff (ha : MatIs a n n (fun i j => .fin (A i j))) {st : Mat (Ext K) × Vec Nat}
    {π : Nat → Nat} {u : Nat → Nat → K} (h : Linalg.lup a = .ok st) (hst : Linalg.LupAt n st π u) :
    (Mat.invert a).1 = .ok () ↔ ∀ k, k < n → epsilon K < |u (π k) k| := by
  obtain ⟨ρ, w, hI, hρ, hw⟩ := lupInv_of_at ha h hst
  obtain ⟨lu, p⟩ := st
  have hk : (∀ k, k < n → epsilon K < |u (π k) k|) ↔ ∀ k, k < n → epsilon K < |w (ρ k) k| := by
    refine forall_congr' fun k => forall_congr' fun hk => ?_
    rw [hw _ _ (hI.perm.lt k hk) hk, hρ k hk]
  rw [hk]
  unfold Mat.invert
  simp only [Op.get_bind, Mat.isSquare_eq ha, Op.liftOk_bind, decide_true, Bool.not_true,
    Bool.false_eq_true, if_false, ha.rows_eq, Vec.init_new ha.rpos ha.rle]
  unfold Mat.orElseErr
  rw [h, Res.mapErr_ok, Op.liftOk_bind]
  dsimp only
  have hz : VecIs (Vec.zeros n) n (fun _ => (.fin 0 : Ext K)) :=
    (Vec.zeros_is ha.rpos ha.rle).congr fun _ _ => by simp
  by_cases hpv : ∀ k, k < n → epsilon K < |w (ρ k) k|
  · obtain ⟨s1, e1, V, hs1, _, hV⟩ := invertLoop_ok hI hpv n 0 (Vec.zeros n) a A (by omega) hz ha
    obtain ⟨s2, e2, hs2⟩ := Mat.transpose_ok hs1 (fun i j _ _ => Ext.finite_fin _)
    rw [Op.bind_ok e1, e2]
    exact ⟨fun _ => hpv, fun _ => rfl⟩
  · refine ⟨fun hh => ?_, fun hh => absurd hh hpv⟩
    exfalso
    push Not at hpv
    obtain ⟨k, hk, hk'⟩ := hpv
    obtain ⟨n', rfl⟩ : ∃ n', n = n' + 1 := ⟨n - 1, by have := ha.rpos; omega⟩
    obtain ⟨t1, e1, ht1⟩ := hz.exec_set (Nat.zero_lt_succ n') (Ext.finite_fin (1 : K))
    have ht1' : VecIs t1 (n' + 1) (fun i => .fin ((fun i : Nat => if i = 0 then (1 : K) else 0) i)) :=
      ht1.congr fun i _ => by by_cases h : i = 0 <;> simp [h]
    have e2 := (C23_outcome hI.lu hI.p hI.perm.lt ht1').1 ⟨k, hk, hk'⟩
    have e3 : Mat.invertLoop lu p 0 (n' + 1) (Vec.zeros (n' + 1)) a =
        (.error (.err .NotInversible), a) := by
      unfold Mat.invertLoop
      rw [Ext.lit_one, e1, Op.liftOk_bind]
      unfold Mat.orElseErr
      rw [e2]
      rfl
    rw [Op.bind_err e3] at hh
    cases hh

/-- The product of the pivots is the determinant up to sign. -/
theorem pivots_abs (ha : MatIs a n n (fun i j => .fin (A i j))) {st : Mat (Ext K) × Vec Nat}
    {π : Nat → Nat} {u : Nat → Nat → K} (h : Linalg.lup a = .ok st) (hst : Linalg.LupAt n st π u) :
    ∏ i : Fin n, |u (π i) i| = |(toMatrix n n A).det| := by
  obtain ⟨ρ, w, hI, hρ, hw⟩ := lupInv_of_at ha h hst
  have hd := det_lup hI
  have : ∏ i : Fin n, |u (π i) i| = ∏ i : Fin n, |w (ρ i) i| :=
    Finset.prod_congr rfl fun i _ => by rw [hw _ _ (hI.perm.lt i i.2) i.2, hρ i i.2]
  rw [this, ← Finset.abs_prod, ← hd, abs_mul]
  rcases Int.units_eq_one_or (Equiv.Perm.sign hI.perm.toPerm) with h | h <;> rw [h] <;> simp

/-! ### C107 -/

/-- The first step of `lup` on a matrix of size at least 2. -/
theorem lup_first (ha : MatIs a n n (fun i j => .fin (A i j))) (hn : 2 ≤ n) :
    ∃ st q, Linalg.lup a = foldRange 0 (n - 1) (Linalg.lupStep n n) st ∧
      Linalg.LupAt n st (fun i => i) A ∧ Linalg.lupPivot st.1 st.2 0 n = .ok q ∧ q < n ∧
      (∀ i, i < n → A i 0 ≤ A q 0) ∧ ∀ i, i < q → A i 0 < A q 0 := by
  obtain ⟨st, e, hst⟩ := Linalg.lup_start ha
  obtain ⟨q, h1, h2, h3, h4⟩ := Linalg.lupPivot_zero hst (by omega)
  exact ⟨st, q, e, hst, h1, h2, h3, h4⟩

/-- C107: at size 2 and above, a matrix whose first column has no element of at least `EPSILON` but
has one above `-EPSILON` is refused, whatever its determinant. -/
theorem C107_first (ha : MatIs a n n (fun i j => .fin (A i j))) (hn : 2 ≤ n)
    (hlt : ∀ i, i < n → A i 0 < epsilon K) (hex : ∃ i, i < n ∧ -epsilon K < A i 0) :
    Linalg.lup a = .error (.err .Singular) ∧ a.det = .error (.err .Singular) ∧
      Mat.invert a = (.error (.err .NotInversible), a) := by
  obtain ⟨st, q, e, hst, h1, h2, h3, h4⟩ := lup_first ha hn
  have h : Linalg.lup a = .error (.err .Singular) := by
    rw [e]
    unfold foldRange
    rw [show n - 1 - 0 = (n - 2) + 1 by omega, foldFrom_succ]
    rcases Linalg.lupStep_at hst (by omega) h1 h2 with ⟨_, e1⟩ | ⟨hge, _⟩
    · rw [e1]; rfl
    · obtain ⟨i, hi, hi'⟩ := hex
      have := h3 i hi
      exact absurd hge (not_le.mpr (abs_lt.mpr ⟨by linarith, hlt q h2⟩))
  exact ⟨h, det_of_singular ha h, invert_of_singular ha h⟩

/-- C107: at size 1 `lup` and `det` always succeed, and `invert` exactly when the element exceeds
`EPSILON` in magnitude. -/
theorem C107_one (ha : MatIs a 1 1 (fun i j => .fin (A i j))) :
    (∃ st, Linalg.lup a = .ok st) ∧ a.det = .ok (.fin (A 0 0)) ∧
      ((Mat.invert a).1 = .ok () ↔ epsilon K < |A 0 0|) := by
  obtain ⟨st, e, hst⟩ := Linalg.lup_start ha
  have h : Linalg.lup a = .ok st := e
  refine ⟨⟨st, h⟩, ?_, ?_⟩
  · rcases C25_det_small ha (by omega) with h' | h'
    · obtain ⟨lu, p⟩ := st
      obtain ⟨ρ, w, hI, _⟩ := lupInv_of_at ha h hst
      rw [det_eq ha h hI] at h'
      cases h'
    · rw [h', Matrix.det_fin_one]; rfl
  · rw [invert_iff ha h hst]
    exact ⟨fun h => h 0 (by omega), fun h k hk => by obtain rfl : k = 0 := by omega
                                                     exact h⟩

/-- The value of `det` once `lup` succeeds, up to size 3. -/
theorem det_of_lup (ha : MatIs a n n (fun i j => .fin (A i j))) (h3 : n ≤ 3)
    {st : Mat (Ext K) × Vec Nat} (h : Linalg.lup a = .ok st) :
    a.det = .ok (.fin (toMatrix n n A).det) := by
  rcases C25_det ha with ⟨_, h'⟩ | ⟨lu, p, _, σ, _, h'⟩
  · rw [h] at h'; cases h'
  · rw [h', if_neg]
    rintro ⟨h, _⟩
    omega

/-- C107: at size 2 the outcome is decided by the larger, with sign, of the two elements of the
first column. -/
theorem C107_two (ha : MatIs a 2 2 (fun i j => .fin (A i j))) :
    ((∃ st, Linalg.lup a = .ok st) ↔ epsilon K ≤ |max (A 0 0) (A 1 0)|) ∧
    a.det = (if epsilon K ≤ |max (A 0 0) (A 1 0)| then .ok (.fin (A 0 0 * A 1 1 - A 0 1 * A 1 0))
      else .error (.err .Singular)) ∧
    ((Mat.invert a).1 = .ok () ↔ epsilon K < |max (A 0 0) (A 1 0)| ∧
      epsilon K * |max (A 0 0) (A 1 0)| < |A 0 0 * A 1 1 - A 0 1 * A 1 0|) := by
  obtain ⟨st, q, e, hst, h1, h2, h3, h4⟩ := lup_first ha (by omega)
  have hm : A q 0 = max (A 0 0) (A 1 0) := by
    refine le_antisymm ?_ (max_le (h3 0 (by omega)) (h3 1 (by omega)))
    obtain rfl | rfl : q = 0 ∨ q = 1 := by omega
    · exact le_max_left _ _
    · exact le_max_right _ _
  have hd : (toMatrix 2 2 A).det = A 0 0 * A 1 1 - A 0 1 * A 1 0 := by
    rw [Matrix.det_fin_two]; rfl
  have e' : Linalg.lup a = Linalg.lupStep 2 2 0 st := by
    rw [e]
    unfold foldRange
    rw [show 2 - 1 - 0 = 0 + 1 by omega, foldFrom_succ]
    cases Linalg.lupStep 2 2 0 st <;> rfl
  rw [← hm]
  rcases Linalg.lupStep_at hst (by omega) h1 h2 with ⟨hlt, e1⟩ | ⟨hge, st', u', e1, hst', hu⟩
  · rw [e1] at e'
    refine ⟨?_, ?_, ?_⟩
    · rw [e']
      exact ⟨fun ⟨_, h⟩ => (by cases h), fun h => absurd hlt (not_lt.mpr h)⟩
    · rw [if_neg (not_le.mpr hlt)]; exact det_of_singular ha e'
    · rw [invert_of_singular ha e']
      exact ⟨fun h => (by cases h), fun h => absurd hlt (not_lt.mpr (le_of_lt h.1))⟩
  · rw [e1] at e'
    refine ⟨⟨fun _ => hge, fun _ => ⟨_, e'⟩⟩, ?_, ?_⟩
    · rw [if_pos hge, det_of_lup ha (by omega) e', hd]
    · rw [invert_iff ha e' hst']
      have hp := pivots_abs ha e' hst'
      rw [Fin.prod_univ_two, hd] at hp
      have hpos : 0 < |A q 0| := lt_of_lt_of_le Linalg.eps_pos hge
      have h0 := hu 0 0 (by omega)
      have hs' : (if (0 : Nat) = q then 0 else if (0 : Nat) = 0 then q else 0) = q := by
        by_cases h : (0 : Nat) = q <;> simp [h]
      simp only [le_refl, if_true] at h0 hs'
      rw [hs'] at h0
      have hp0 : u' (if (0 : Nat) = q then 0 else if (0 : Nat) = 0 then q else 0) 0 = A q 0 := by
        simp only [if_true]; rw [hs']; exact h0
      set w := u' (if (1 : Nat) = q then 0 else if (1 : Nat) = 0 then q else 1) 1 with hw
      have hp' : |A q 0| * |w| = |A 0 0 * A 1 1 - A 0 1 * A 1 0| := by
        rw [← hp, ← hp0]; rfl
      rw [← hp', mul_comm (epsilon K), mul_lt_mul_iff_right₀ hpos]
      constructor
      · intro h
        refine ⟨?_, h 1 (by omega)⟩
        rw [← hp0]; exact h 0 (by omega)
      · rintro ⟨h1, h2⟩ k hk
        obtain rfl | rfl : k = 0 ∨ k = 1 := by omega
        · rw [← hp0] at h1; exact h1
        · exact h2

/-- The second pivot of a 3×3 matrix after pivot row `q`: rows `i` and `j` remain, in this order, and
the element of row `j` is preferred when it exceeds the multiplier of row `i`. -/
def secondPivot (A : Nat → Nat → K) (q i j : Nat) : K :=
  if A i 0 / A q 0 < A j 1 - A q 1 * (A j 0 / A q 0) then A j 1 - A q 1 * (A j 0 / A q 0)
  else A i 1 - A q 1 * (A i 0 / A q 0)

/-- C107: at size 3, let `q` be the first row with the largest element, with sign, of column 0, and
let the other two rows be in the order left by the exchange of rows `0` and `q`.  The outcome is
decided by `A q 0` and by one of the two elements of column 1 that remain after the elimination of
column 0; which one depends on a comparison with an element of column 0. -/
theorem C107_three (ha : MatIs a 3 3 (fun i j => .fin (A i j))) {q i j : Nat}
    (hq : (q = 0 ∧ i = 1 ∧ j = 2) ∨ (q = 1 ∧ i = 0 ∧ j = 2) ∨ (q = 2 ∧ i = 1 ∧ j = 0))
    (hmax : ∀ k, k < 3 → A k 0 ≤ A q 0) (hfirst : ∀ k, k < q → A k 0 < A q 0) :
    ((∃ st, Linalg.lup a = .ok st) ↔
      epsilon K ≤ |A q 0| ∧ epsilon K ≤ |secondPivot A q i j|) ∧
    a.det = (if epsilon K ≤ |A q 0| ∧ epsilon K ≤ |secondPivot A q i j| then
      .ok (.fin (toMatrix 3 3 A).det) else .error (.err .Singular)) ∧
    ((Mat.invert a).1 = .ok () ↔ epsilon K < |A q 0| ∧ epsilon K < |secondPivot A q i j| ∧
      epsilon K * (|A q 0| * |secondPivot A q i j|) < |(toMatrix 3 3 A).det|) := by
  obtain ⟨st, q', e, hst, h1, h2, h3, h4⟩ := lup_first ha (by omega)
  have hq3 : q < 3 := by omega
  obtain rfl : q' = q := by
    rcases lt_trichotomy q' q with h | h | h
    · exact absurd (h3 q hq3) (not_le.mpr (hfirst _ h))
    · exact h
    · exact absurd (hmax q' h2) (not_le.mpr (h4 _ h))
  have e' : Linalg.lup a = (Linalg.lupStep 3 3 0 st >>= Linalg.lupStep 3 3 1) := by
    rw [e]
    unfold foldRange
    rw [show 3 - 1 - 0 = 1 + 1 by omega, foldFrom_succ]
    cases Linalg.lupStep 3 3 0 st with
    | error _ => rfl
    | ok s =>
      rw [Res.ok_bind, Res.ok_bind, show (1 : Nat) = 0 + 1 from rfl, foldFrom_succ]
      cases Linalg.lupStep 3 3 (0 + 1) s <;> rfl
  have hfail : Linalg.lup a = .error (.err .Singular) →
      ¬ (epsilon K ≤ |A q' 0| ∧ epsilon K ≤ |secondPivot A q' i j|) →
      ((∃ st, Linalg.lup a = .ok st) ↔
        epsilon K ≤ |A q' 0| ∧ epsilon K ≤ |secondPivot A q' i j|) ∧
      a.det = (if epsilon K ≤ |A q' 0| ∧ epsilon K ≤ |secondPivot A q' i j| then
        .ok (.fin (toMatrix 3 3 A).det) else .error (.err .Singular)) ∧
      ((Mat.invert a).1 = .ok () ↔ epsilon K < |A q' 0| ∧ epsilon K < |secondPivot A q' i j| ∧
        epsilon K * (|A q' 0| * |secondPivot A q' i j|) < |(toMatrix 3 3 A).det|) := by
    intro hs hn
    refine ⟨?_, ?_, ?_⟩
    · rw [hs]
      exact ⟨fun ⟨_, h⟩ => (by cases h), fun h => absurd h hn⟩
    · rw [if_neg hn]; exact det_of_singular ha hs
    · rw [invert_of_singular ha hs]
      exact ⟨fun h => (by cases h), fun h => absurd ⟨le_of_lt h.1, le_of_lt h.2.1⟩ hn⟩
  rcases Linalg.lupStep_at hst (by omega) h1 h2 with ⟨hlt, e1⟩ | ⟨hge, st', u', e1, hst', hu⟩
  · refine hfail (by rw [e', e1]; rfl) fun h => absurd hlt (not_lt.mpr h.1)
  set π' : Nat → Nat := fun k => if k = q' then 0 else if k = 0 then q' else k with hπ'
  have p0 : π' 0 = q' := by
    by_cases h : 0 = q' <;> simp [hπ', h]
  have p1 : π' 1 = i := by
    rcases hq with ⟨rfl, rfl, rfl⟩ | ⟨rfl, rfl, rfl⟩ | ⟨rfl, rfl, rfl⟩ <;> rfl
  have p2 : π' 2 = j := by
    rcases hq with ⟨rfl, rfl, rfl⟩ | ⟨rfl, rfl, rfl⟩ | ⟨rfl, rfl, rfl⟩ <;> rfl
  have hu0 : u' q' 0 = A q' 0 := by
    have := hu 0 0 (by omega)
    change u' (π' 0) 0 = if 0 ≤ 0 then A (π' 0) 0 else _ at this
    rw [p0] at this
    simpa using this
  have g1 : (if (1 : Nat) = q' then 0 else 1) = i := by
    rcases hq with ⟨rfl, rfl, rfl⟩ | ⟨rfl, rfl, rfl⟩ | ⟨rfl, rfl, rfl⟩ <;> rfl
  have g2 : (if (2 : Nat) = q' then 0 else 2) = j := by
    rcases hq with ⟨rfl, rfl, rfl⟩ | ⟨rfl, rfl, rfl⟩ | ⟨rfl, rfl, rfl⟩ <;> rfl
  have hm : u' i 0 = A i 0 / A q' 0 := by
    have := hu 1 0 (by omega)
    rw [g1] at this
    change u' (π' 1) 0 = _ at this
    rw [p1] at this
    simpa using this
  have hs1 : u' i 1 = A i 1 - A q' 1 * (A i 0 / A q' 0) := by
    have := hu 1 1 (by omega)
    rw [g1] at this
    change u' (π' 1) 1 = _ at this
    rw [p1] at this
    simpa using this
  have hs2 : u' j 1 = A j 1 - A q' 1 * (A j 0 / A q' 0) := by
    have := hu 2 1 (by omega)
    rw [g2] at this
    change u' (π' 2) 1 = _ at this
    rw [p2] at this
    simpa using this
  have hpl := Linalg.lupPivot_last (s := 1) hst'
  change Linalg.lupPivot st'.1 st'.2 1 3 = .ok (if u' (π' 1) 0 < u' (π' 2) 1 then 2 else 1) at hpl
  rw [p1, p2, hm, hs2] at hpl
  obtain ⟨r, hr, hr3, hrv, hr1⟩ : ∃ r, Linalg.lupPivot st'.1 st'.2 1 3 = .ok r ∧ r < 3 ∧
      u' (π' r) 1 = secondPivot A q' i j ∧ r ≠ 0 := by
    refine ⟨_, hpl, ?_, ?_, ?_⟩
    · split <;> omega
    · unfold secondPivot
      split
      · rw [p2, hs2]
      · rw [p1, hs1]
    · split <;> omega
  rcases Linalg.lupStep_at hst' (by omega) hr hr3 with ⟨hlt, e2⟩ | ⟨hge2, st2, u2, e2, hst2, hu2⟩
  · rw [show u' _ 1 = secondPivot A q' i j from hrv] at hlt
    exact hfail (by rw [e', e1, Res.ok_bind, e2]) fun h => absurd hlt (not_lt.mpr h.2)
  rw [show u' _ 1 = secondPivot A q' i j from hrv] at hge2
  have hl : Linalg.lup a = .ok st2 := by rw [e', e1, Res.ok_bind, e2]
  refine ⟨⟨fun _ => ⟨hge, hge2⟩, fun _ => ⟨_, hl⟩⟩, ?_, ?_⟩
  · rw [if_pos ⟨hge, hge2⟩, det_of_lup ha (by omega) hl]
  · rw [invert_iff ha hl hst2]
    have hp := pivots_abs ha hl hst2
    rw [Fin.prod_univ_three] at hp
    have hr0 : (0 : Nat) ≠ r := fun h => hr1 h.symm
    have k0 : u2 (if (0 : Nat) = r then π' 1 else if (0 : Nat) = 1 then π' r else π' 0) 0 = A q' 0 := by
      refine (hu2 0 0 (by omega)).trans ?_
      rw [if_pos (by omega), if_neg hr0, if_neg (by omega)]
      rw [p0, hu0]
    have k1 : u2 (if (1 : Nat) = r then π' 1 else if (1 : Nat) = 1 then π' r else π' 1) 1 =
        secondPivot A q' i j := by
      refine (hu2 1 1 (by omega)).trans ?_
      rw [if_pos (by omega)]
      by_cases h : 1 = r
      · rw [if_pos h]; rw [← hrv, ← h]
      · rw [if_neg h, if_pos rfl]; exact hrv
    change |u2 (if (0 : Nat) = r then π' 1 else if (0 : Nat) = 1 then π' r else π' 0) 0| *
      |u2 (if (1 : Nat) = r then π' 1 else if (1 : Nat) = 1 then π' r else π' 1) 1| *
      |u2 (if (2 : Nat) = r then π' 1 else if (2 : Nat) = 1 then π' r else π' 2) 2| = _ at hp
    rw [k0, k1] at hp
    have hpos : 0 < |A q' 0| * |secondPivot A q' i j| :=
      mul_pos (lt_of_lt_of_le Linalg.eps_pos hge) (lt_of_lt_of_le Linalg.eps_pos hge2)
    rw [← hp, mul_comm (epsilon K), mul_lt_mul_iff_right₀ hpos]
    constructor
    · intro h
      refine ⟨?_, ?_, h 2 (by omega)⟩
      · rw [← k0]; exact h 0 (by omega)
      · rw [← k1]; exact h 1 (by omega)
    · rintro ⟨h1, h2, h3⟩ k hk
      obtain rfl | rfl | rfl : k = 0 ∨ k = 1 ∨ k = 2 := by omega
      · rw [← k0] at h1; exact h1
      · rw [← k1] at h2; exact h2
      · exact h3

/-- C107: every 3×3 matrix with first column `(p, -r, 0)`, `p` and `r` positive, and last row
`(0, 0, c)` is refused by `lup`, `det` and `invert`, whatever the other elements are. -/
theorem C107_block (ha : MatIs a 3 3 (fun i j => .fin (A i j))) (h00 : 0 < A 0 0) (h10 : A 1 0 < 0)
    (h20 : A 2 0 = 0) (h21 : A 2 1 = 0) :
    Linalg.lup a = .error (.err .Singular) ∧ a.det = .error (.err .Singular) ∧
      Mat.invert a = (.error (.err .NotInversible), a) := by
  have h := C107_three ha (q := 0) (i := 1) (j := 2) (Or.inl ⟨rfl, rfl, rfl⟩)
    (fun k hk => by
      obtain rfl | rfl | rfl : k = 0 ∨ k = 1 ∨ k = 2 := by omega
      · exact le_refl _
      · linarith
      · linarith) (fun k hk => by omega)
  have hm : A 1 0 / A 0 0 < 0 := div_neg_of_neg_of_pos h10 h00
  have hs : secondPivot A 0 1 2 = 0 := by
    unfold secondPivot
    rw [h20, h21, zero_div, mul_zero, sub_zero, if_pos hm]
  have hn : ¬ (epsilon K ≤ |A 0 0| ∧ epsilon K ≤ |secondPivot A 0 1 2|) := by
    rw [hs, abs_zero]
    exact fun h => absurd h.2 (not_le.mpr Linalg.eps_pos)
  have hl : Linalg.lup a = .error (.err .Singular) := by
    rcases Linalg.lup_ok ha with h' | ⟨st, h', _⟩
    · exact h'
    · exact absurd (h.1.mp ⟨st, h'⟩) hn
  exact ⟨hl, det_of_singular ha hl, invert_of_singular ha hl⟩

/-- The main loop of `lup` on an upper triangular matrix, from step 1 on. -/
theorem lup_upper_loop {n : Nat} {A : Nat → Nat → K} (hup : ∀ i j, i < n → j < i → A i j = 0)
    (len : Nat) : ∀ s st, 1 ≤ s → s + len = n - 1 → Linalg.LupAt n st (fun i => i) A →
    ((∀ k, s ≤ k → k + 1 < n → epsilon K ≤ |A k k|) ∧
      ∃ st', foldFrom s len (Linalg.lupStep n n) st = .ok st' ∧ Linalg.LupAt n st' (fun i => i) A) ∨
    ((∃ k, s ≤ k ∧ k + 1 < n ∧ |A k k| < epsilon K) ∧
      foldFrom s len (Linalg.lupStep n n) st = .error (.err .Singular)) := by
  induction len with
  | zero =>
    intro s st _ hs hst
    exact Or.inl ⟨fun k h1 h2 => by omega, st, rfl, hst⟩
  | succ len ih =>
    intro s st h1 hs hst
    have hk : Linalg.lupPivot st.1 st.2 s n = .ok s :=
      Linalg.lupPivot_keep hst (by omega) fun i hi hin => by
        rw [hup i s hin hi, hup s 0 (by omega) (by omega)]
    rw [foldFrom_succ]
    rcases Linalg.lupStep_at hst (by omega) hk (by omega) with ⟨hlt, e1⟩ | ⟨hge, st', u', e1, hst', hu⟩
    · exact Or.inr ⟨⟨s, le_refl _, by omega, hlt⟩, by rw [e1]; rfl⟩
    · rw [e1, Res.ok_bind]
      have hid : ∀ i : Nat, (if i = s then s else if i = s then s else i) = i := fun i => by
        by_cases h : i = s <;> simp [h]
      have hid' : ∀ i : Nat, (if i = s then s else i) = i := fun i => by
        by_cases h : i = s <;> simp [h]
      have hA : Linalg.LupAt n st' (fun i => i) A := by
        refine ⟨hst'.lu.congr fun i j hi hj => ?_, hst'.p.congr fun i _ => hid i,
          ⟨fun _ h => h, fun _ _ _ _ h => h⟩⟩
        have := hu i j hi
        rw [hid, hid'] at this
        rw [this]
        by_cases his : i ≤ s
        · rw [if_pos his]
        · rw [if_neg his, hup i s hi (by omega), zero_div, mul_zero, sub_zero]
          by_cases hjs : j = s
          · subst hjs; simp [hup i j hi (by omega)]
          · simp [hjs]
      rcases ih (s + 1) st' (by omega) (by omega) hA with ⟨h2, h3⟩ | ⟨⟨k, h2, h3, h4⟩, h5⟩
      · refine Or.inl ⟨fun k hk hk' => ?_, h3⟩
        by_cases hks : k = s
        · rw [hks]; exact hge
        · exact h2 k (by omega) hk'
      · exact Or.inr ⟨⟨k, by omega, h3, h4⟩, h5⟩

/-- C107: an upper triangular matrix of size at least 2 can be factorised exactly when its first
element is at least `EPSILON`, with sign, and the others on the diagonal, except the last, are at
least `EPSILON` in magnitude.  The factors are then the matrix itself, and `det` is the product of the
diagonal. -/
theorem C107_upper (ha : MatIs a n n (fun i j => .fin (A i j))) (hn : 2 ≤ n)
    (hup : ∀ i j, i < n → j < i → A i j = 0) :
    ((∃ st, Linalg.lup a = .ok st) ↔
      epsilon K ≤ A 0 0 ∧ ∀ k, 0 < k → k + 1 < n → epsilon K ≤ |A k k|) ∧
    (∀ st, Linalg.lup a = .ok st → MatIs st.1 n n (fun i j => .fin (A i j)) ∧
      (∀ i, i < n → st.2.getElementU8 i = .ok i) ∧
      a.det = .ok (.fin (∏ i : Fin n, A i i))) ∧
    ((Mat.invert a).1 = .ok () ↔
      epsilon K < A 0 0 ∧ ∀ k, 0 < k → k < n → epsilon K < |A k k|) := by
  obtain ⟨st, q, e, hst, h1, h2, h3, h4⟩ := lup_first ha hn
  have hz : ∀ i, 0 < i → i < n → A i 0 = 0 := fun i hi hin => hup i 0 hin hi
  have key : (epsilon K ≤ A 0 0 ∧ (∀ k, 0 < k → k + 1 < n → epsilon K ≤ |A k k|) ∧
        ∃ st', Linalg.lup a = .ok st' ∧ Linalg.LupAt n st' (fun i => i) A) ∨
      (¬ (epsilon K ≤ A 0 0 ∧ ∀ k, 0 < k → k + 1 < n → epsilon K ≤ |A k k|) ∧
        Linalg.lup a = .error (.err .Singular)) := by
    by_cases hneg : A 0 0 < epsilon K
    · refine Or.inr ⟨fun h => absurd hneg (not_lt.mpr h.1), (C107_first ha hn (fun i hi => ?_)
        ⟨1, by omega, ?_⟩).1⟩
      · by_cases h : i = 0
        · rw [h]; exact hneg
        · rw [hz i (by omega) hi]; exact Linalg.eps_pos
      · rw [hz 1 (by omega) (by omega)]
        have := Linalg.eps_pos (K := K); linarith
    · have h00 : epsilon K ≤ A 0 0 := not_lt.mp hneg
      have hpos : 0 < A 0 0 := lt_of_lt_of_le Linalg.eps_pos h00
      obtain rfl : q = 0 := by
        by_contra hq
        have := h3 0 (by omega)
        rw [hz q (by omega) h2] at this
        linarith
      rw [e]
      unfold foldRange
      rw [show n - 1 - 0 = (n - 2) + 1 by omega, foldFrom_succ]
      rcases Linalg.lupStep_at hst (by omega) h1 h2 with ⟨hlt, e1⟩ | ⟨hge, st', u', e1, hst', hu⟩
      · exact absurd hlt (not_lt.mpr (le_trans h00 (le_abs_self _)))
      rw [e1, Res.ok_bind]
      have hid : ∀ i : Nat, (if i = 0 then 0 else if i = 0 then 0 else i) = i := fun i => by
        by_cases h : i = 0 <;> simp [h]
      have hid' : ∀ i : Nat, (if i = 0 then 0 else i) = i := fun i => by
        by_cases h : i = 0 <;> simp [h]
      have hA : Linalg.LupAt n st' (fun i => i) A := by
        refine ⟨hst'.lu.congr fun i j hi hj => ?_, hst'.p.congr fun i _ => hid i,
          ⟨fun _ h => h, fun _ _ _ _ h => h⟩⟩
        have := hu i j hi
        rw [hid, hid'] at this
        rw [this]
        by_cases his : i ≤ 0
        · rw [if_pos his]
        · rw [if_neg his, hup i 0 hi (by omega), zero_div, mul_zero, sub_zero]
          by_cases hjs : j = 0
          · subst hjs; simp [hup i 0 hi (by omega)]
          · simp [hjs]
      rcases lup_upper_loop hup (n - 2) 1 st' (le_refl _) (by omega) hA with
        ⟨h2, h3⟩ | ⟨⟨k, h2, h3, h4⟩, h5⟩
      · exact Or.inl ⟨h00, fun k hk hk' => h2 k hk hk', h3⟩
      · exact Or.inr ⟨fun h => absurd h4 (not_lt.mpr (h.2 k h2 h3)), h5⟩
  rcases key with ⟨h00, hd, st', hl, hst'⟩ | ⟨hno, hl⟩
  · refine ⟨⟨fun _ => ⟨h00, hd⟩, fun _ => ⟨_, hl⟩⟩, fun st2 h => ?_, ?_⟩
    · obtain rfl : st' = st2 := Except.ok.inj (hl.symm.trans h)
      refine ⟨hst'.lu, fun i hi => hst'.p.get i hi, ?_⟩
      obtain ⟨lu, p⟩ := st'
      obtain ⟨ρ, w, hI, hρ, hw⟩ := lupInv_of_at ha hl hst'
      rw [det_eq ha hl hI, if_neg, one_mul]
      · congr 2
        exact Finset.prod_congr rfl fun i _ => by rw [hρ i i.2, hw _ _ i.2 i.2]
      · rintro ⟨hne, _⟩
        refine hne ?_
        rw [Finset.card_eq_zero, Finset.filter_eq_empty_iff]
        intro i _ hi
        exact hi (Fin.ext (hρ i i.2))
    · rw [invert_iff ha hl hst']
      constructor
      · intro h
        refine ⟨?_, fun k _ hk => h k hk⟩
        have := h 0 (by omega)
        rwa [abs_of_pos (lt_of_lt_of_le Linalg.eps_pos h00)] at this
      · rintro ⟨h0, h1⟩ k hk
        by_cases hk0 : k = 0
        · rw [hk0]; exact lt_of_lt_of_le h0 (le_abs_self _)
        · exact h1 k (by omega) hk
  · refine ⟨?_, fun st' h => ?_, ?_⟩
    · rw [hl]
      exact ⟨fun ⟨_, h⟩ => (by cases h), fun h => absurd h hno⟩
    · rw [hl] at h; cases h
    · rw [invert_of_singular ha hl]
      exact ⟨fun h => (by cases h), fun h => absurd
        ⟨le_of_lt h.1, fun k hk hk' => le_of_lt (h.2 k hk (by omega))⟩ hno⟩

/-- C65: at size 2, on a matrix symmetric within tolerance, the answer in every case: `false` if the
first element is negative, otherwise `Singular` if the larger element of the first column is below
`EPSILON`, otherwise whether the determinant is not negative. -/
theorem C65_two (ha : MatIs a 2 2 (fun i j => .fin (A i j)))
    (hs : |A 0 1 - A 1 0| ≤ epsilon K) :
    a.isPositiveDefinite =
      if A 0 0 < 0 then .ok false
      else if max (A 0 0) (A 1 0) < epsilon K then .error (.err .Singular)
      else .ok (decide (0 ≤ A 0 0 * A 1 1 - A 0 1 * A 1 0)) := by
  have hs' : ∀ i j, i < 2 → j < 2 → |A i j - A j i| ≤ epsilon K := by
    intro i j hi hj
    have h0 : ∀ x : K, |x - x| ≤ epsilon K := fun x => by
      rw [sub_self, abs_zero]; exact le_of_lt Linalg.eps_pos
    obtain rfl | rfl : i = 0 ∨ i = 1 := by omega
    · obtain rfl | rfl : j = 0 ∨ j = 1 := by omega
      · exact h0 _
      · exact hs
    · obtain rfl | rfl : j = 0 ∨ j = 1 := by omega
      · rw [abs_sub_comm]; exact hs
      · exact h0 _
  rw [isPositiveDefinite_eq ha hs']
  obtain ⟨b0, hb0, e0⟩ := blockTest_eq ha (show 0 < 2 by omega)
  obtain ⟨b1, hb1, e1⟩ := blockTest_eq ha (show 1 < 2 by omega)
  rw [(C107_one hb0).2.1, Res.ok_bind, Ext.lt_fin] at e0
  rw [(C107_two hb1).2.1] at e1
  by_cases h0 : A 0 0 < 0
  · rw [if_pos h0]
    exact allRange_false _ 0 2 0 (le_refl _) (by omega) (fun i _ hi => by omega) (by rw [e0]; simp [h0])
  rw [if_neg h0]
  have h0' : blockTest a 0 = .ok true := by rw [e0]; simp [h0]
  have hpos : 0 ≤ max (A 0 0) (A 1 0) := le_trans (not_lt.mp h0) (le_max_left _ _)
  rw [abs_of_nonneg hpos] at e1
  by_cases h1 : max (A 0 0) (A 1 0) < epsilon K
  · rw [if_pos h1]
    rw [if_neg (not_le.mpr h1)] at e1
    exact allRange_error _ 0 2 1 _ (by omega) (by omega)
      (fun i _ hi => by obtain rfl : i = 0 := by omega
                        exact h0') e1
  rw [if_neg h1]
  rw [if_pos (not_lt.mp h1), Res.ok_bind, Ext.lt_fin] at e1
  by_cases hd : A 0 0 * A 1 1 - A 0 1 * A 1 0 < 0
  · rw [decide_eq_false (not_le.mpr hd)]
    exact allRange_false _ 0 2 1 (by omega) (by omega)
      (fun i _ hi => by obtain rfl : i = 0 := by omega
                        exact h0') (by rw [e1]; simp [hd])
  · rw [decide_eq_true (not_lt.mp hd)]
    rw [allRange_eq _ (fun _ => true) 0 2 fun i _ hi => ?_]
    · simp
    · obtain rfl | rfl : i = 0 ∨ i = 1 := by omega
      · exact h0'
      · rw [e1]; simp [hd]

/-- C65: at size 1 the answer is whether the element is not negative. -/
theorem C65_one (ha : MatIs a 1 1 (fun i j => .fin (A i j))) :
    a.isPositiveDefinite = .ok (decide (0 ≤ A 0 0)) := by
  rw [isPositiveDefinite_eq ha fun i j hi hj => by
    obtain rfl : i = j := by omega
    rw [sub_self, abs_zero]; exact le_of_lt Linalg.eps_pos]
  obtain ⟨b0, hb0, e0⟩ := blockTest_eq ha (show 0 < 1 by omega)
  rw [(C107_one hb0).2.1, Res.ok_bind, Ext.lt_fin] at e0
  by_cases h0 : A 0 0 < 0
  · rw [decide_eq_false (not_le.mpr h0)]
    exact allRange_false _ 0 1 0 (le_refl _) (by omega) (fun i _ hi => by omega) (by rw [e0]; simp [h0])
  · rw [decide_eq_true (not_lt.mp h0)]
    rw [allRange_eq _ (fun _ => true) 0 1 fun i _ hi => ?_]
    · simp
    · obtain rfl : i = 0 := by omega
      rw [e0]; simp [h0]

/-! ### Cases -/

/-- A covariance with two correlated axes. -/
def exCov : Mat XQ := Mat.of 3 3 fun i j => .fin (tbl [[2, -1, 0], [-1, 2, 0], [0, 0, 2]] i j)

/-- C107: a symmetric positive definite and strictly diagonally dominant matrix, with determinant 6,
on which `det`, `invert`, `is_positive_definite` and `chol` all fail. -/
theorem C107_covariance :
    MatIs exCov 3 3 (fun i j => .fin (tbl [[2, -1, 0], [-1, 2, 0], [0, 0, 2]] i j)) ∧
    (toMatrix 3 3 (tbl [[2, -1, 0], [-1, 2, 0], [0, 0, 2]] : Nat → Nat → ℚ)).det = 6 ∧
    (∀ x : Fin 3 → ℚ, x ≠ 0 →
      0 < dotProduct x ((toMatrix 3 3 (tbl [[2, -1, 0], [-1, 2, 0], [0, 0, 2]])).mulVec x)) ∧
    exCov.det = .error (.err .Singular) ∧
    (Mat.invert exCov).1 = .error (.err .NotInversible) ∧
    exCov.isPositiveDefinite = .error (.err .Singular) ∧
    (exCov.chol.isOk = false) := by
  have h := Mat.of_is (F := XQ) (fun i j => .fin (tbl [[2, -1, 0], [-1, 2, 0], [0, 0, 2]] i j))
    (show 0 < 3 by omega) (show 3 ≤ 4 by omega) (show 0 < 3 by omega) (show 3 ≤ 4 by omega)
  have hb := C107_block h (by norm_num [tbl]) (by norm_num [tbl]) (by norm_num [tbl])
    (by norm_num [tbl])
  refine ⟨h, by decide +kernel, fun x hx => ?_, hb.2.1, ?_, by decide +kernel, by decide +kernel⟩
  · have e : dotProduct x
        ((toMatrix 3 3 (tbl [[2, -1, 0], [-1, 2, 0], [0, 0, 2]] : Nat → Nat → ℚ)).mulVec x) =
        (x 0 - x 1) ^ 2 + x 0 ^ 2 + x 1 ^ 2 + 2 * x 2 ^ 2 := by
      simp [dotProduct, Matrix.mulVec, Fin.sum_univ_three, toMatrix, tbl]
      ring
    rw [e]
    by_contra hle
    refine hx ?_
    have h0 : x 0 = 0 := by nlinarith [sq_nonneg (x 0 - x 1), sq_nonneg (x 0), sq_nonneg (x 1), sq_nonneg (x 2)]
    have h1 : x 1 = 0 := by nlinarith [sq_nonneg (x 0 - x 1), sq_nonneg (x 0), sq_nonneg (x 1), sq_nonneg (x 2)]
    have h2 : x 2 = 0 := by nlinarith [sq_nonneg (x 0 - x 1), sq_nonneg (x 0), sq_nonneg (x 1), sq_nonneg (x 2)]
    funext i
    fin_cases i
    · exact h0
    · exact h1
    · exact h2
  · exact congrArg Prod.fst hb.2.2

/-- With a positive correlation the same operations succeed. -/
def exCovPos : Mat XQ := Mat.of 3 3 fun i j => .fin (tbl [[2, 1, 0], [1, 2, 0], [0, 0, 2]] i j)

example : exCovPos.det = .ok (.fin 6) ∧ (Mat.invert exCovPos).1 = .ok () ∧
    exCovPos.isPositiveDefinite = .ok true := by decide +kernel

/-- Each of the four outcomes of `C65_two`. -/
example : (Mat.of 2 2 fun i j => (.fin (tbl [[-1, 2], [2, 5]] i j) : XQ)).isPositiveDefinite = .ok false ∧
    (Mat.of 2 2 fun i j => (.fin (tbl [[0, -1], [-1, 5]] i j) : XQ)).isPositiveDefinite =
      .error (.err .Singular) ∧
    (Mat.of 2 2 fun i j => (.fin (tbl [[1, 2], [2, 3]] i j) : XQ)).isPositiveDefinite = .ok false ∧
    (Mat.of 2 2 fun i j => (.fin (tbl [[1, 2], [2, 5]] i j) : XQ)).isPositiveDefinite = .ok true := by
  decide +kernel

/-- The opposite of the identity, at every size from 2, is not inverted. -/
example (ha : MatIs a n n (fun i j => .fin (if i = j then (-1 : K) else 0))) (hn : 2 ≤ n) :
    Mat.invert a = (.error (.err .NotInversible), a) := by
  refine (C107_first ha hn (fun i _ => ?_) ⟨1, by omega, ?_⟩).2.2
  · by_cases h : i = 0
    · simp only [h, if_true]
      have := Linalg.eps_pos (K := K); linarith
    · simp only [h, if_false]; exact Linalg.eps_pos
  · simp only [one_ne_zero, if_false]
    have := Linalg.eps_pos (K := K); linarith

/-- `C107_two` on a matrix whose second row is the pivot row, and on one whose pivot is exactly the
threshold: `det` succeeds and `invert` does not. -/
example : (Mat.of 2 2 fun i j => (.fin (tbl [[1, 2], [3, 4]] i j) : XQ)).det = .ok (.fin (-2)) ∧
    (Mat.of 2 2 fun i j => (.fin (tbl [[1 / 10000, 0], [0, 1]] i j) : XQ)).det =
      .ok (.fin (1 / 10000)) ∧
    (Mat.invert (Mat.of 2 2 fun i j => (.fin (tbl [[1 / 10000, 0], [0, 1]] i j) : XQ))).1 =
      .error (.err .NotInversible) := by
  decide +kernel

/-- `C107_three` with each of the three rows as pivot row. -/
example : secondPivot (tbl [[5, 1, 0], [1, 2, 0], [0, 0, 2]] : Nat → Nat → ℚ) 0 1 2 = 9 / 5 ∧
    secondPivot (tbl [[1, 1, 0], [5, 2, 0], [0, 1, 2]] : Nat → Nat → ℚ) 1 0 2 = 1 ∧
    secondPivot (tbl [[1, 1, 0], [2, 2, 0], [5, 1, 2]] : Nat → Nat → ℚ) 2 1 0 = 4 / 5 := by
  decide +kernel

/-- `C107_upper` at size 4, with a negative element on the diagonal. -/
example : (Mat.invert (Mat.of 4 4 fun i j => (.fin (tbl
    [[2, 1, 3, 1], [0, -1, 4, 2], [0, 0, 3, 5], [0, 0, 0, -2]] i j) : XQ))).1 = .ok () := by
  decide +kernel

end Verif
