import Verif.Props.LrDefect

/-
What `lu_crout` (linalg/src/matrix.rs:1078-1145) computes in exact arithmetic, for every size (C27).  The variable `sum`
is set to 0 before each of the two inner loops over columns but not inside them, and the test of the pivot is the wrong
way round, so that it goes on only with pivots within the tolerance.
-/

set_option linter.unusedSectionVars false
set_option linter.unusedSimpArgs false

namespace Verif
open Scalar Finset

variable {K : Type} [Field K] [LinearOrder K] [IsStrictOrderedRing K] [Elementary K]
variable {a : Mat (Ext K)} {n : Nat} {A : Nat → Nat → K}

/-- What is left in `sum` when the row `i` of `U` begins. -/
def croutLeft (n : Nat) (L U : Nat → Nat → K) (i : Nat) : K :=
  ∑ q ∈ Ico i n, ∑ k ∈ range (i - 1), L q k * U k (i - 1)

/-- What is subtracted too much from the element (i, j) of `U`, `i ≤ j`. -/
def croutOver (n : Nat) (L U : Nat → Nat → K) (i j : Nat) : K :=
  croutLeft n L U i + ∑ q ∈ Ico i j, ∑ k ∈ range i, L i k * U k q

/-- What is subtracted too much from the element (i, j) of `L`, `j < i`. -/
def croutUnder (L U : Nat → Nat → K) (i j : Nat) : K := ∑ q ∈ Ico (j + 1) i, ∑ k ∈ range j, L q k * U k j

/-- The loop body of `lu_crout`. -/
def croutBody (a : Mat (Ext K)) (n : Nat) (row : Nat) (st : Mat (Ext K) × Mat (Ext K) × Ext K) :
    Res LinalgError (Mat (Ext K) × Mat (Ext K) × Ext K) := do
  let (l, u, sum) := st
  let (u, _) ← foldRange row n
    (fun col (st : Mat (Ext K) × Ext K) => do
      let (u, sum) := st
      let sum ← foldRange 0 col
        (fun k (sum : Ext K) => do
          .ok (sum +ᶠ ((← l.getElement row k) *ᶠ (← u.getElement k col)))) sum
      let element := (← a.getElement row col) -ᶠ sum
      let u ← exec u (Mat.setElement row col element)
      .ok (u, sum)) (u, sum)
  let (l, sum) ← foldRange (row + 1) n
    (fun col (st : Mat (Ext K) × Ext K) => do
      let (l, sum) := st
      let sum ← foldRange 0 col
        (fun k (sum : Ext K) => do
          .ok (sum +ᶠ ((← l.getElement col k) *ᶠ (← u.getElement k row)))) sum
      let uElement ← u.getElement row row
      if !(← allcloseL uElement (lit 0) EPSILON) then fail .Singular
      else do
        let element := ((← a.getElement col row) -ᶠ sum) /ᶠ uElement
        let l ← exec l (Mat.setElement col row element)
        .ok (l, sum)) (l, lit 0)
  .ok (l, u, sum)

/-- The sum of products of a row of `l` and a column of `u`, where only the first `c` of `m` terms count. -/
theorem crout_dot {l r : Mat (Ext K)} {F G : Nat → Nat → K} (hl : MatIs l n n (fun i j => .fin (F i j)))
    (hr : MatIs r n n (fun i j => .fin (G i j)))
    {L R : Nat → Nat → K} {i j m c : Nat} (hi : i < n) (hj : j < n) (hm : m ≤ n) (hc : c ≤ m)
    (h1 : ∀ k, k < c → F i k = L i k) (h2 : ∀ k, k < c → G k j = R k j)
    (h3 : ∀ k, c ≤ k → k < m → F i k * G k j = 0) (s : K) :
    foldRange 0 m (fun k (sum : Ext K) => do
      .ok (sum +ᶠ ((← l.getElement i k) *ᶠ (← r.getElement k j)))) (.fin s) =
      (.ok (.fin (s + ∑ k ∈ range c, L i k * R k j)) : Res LinalgError (Ext K)) := by
  rw [lr_dot (L := F) (R := G) hl hr hi hj hm (fun _ _ => rfl) (fun _ _ => rfl)]
  congr 3
  rw [← Finset.sum_subset (s₁ := range c) (fun x hx => by rw [Finset.mem_range] at *; omega)
    fun x hx hx' => by rw [Finset.mem_range] at *; exact h3 x (by omega) hx]
  refine Finset.sum_congr rfl fun k hk => ?_
  rw [Finset.mem_range] at hk
  rw [h1 k hk, h2 k hk]

/-- The row `c` of `U`. -/
theorem crout_row (ha : MatIs a n n (fun i j => .fin (A i j))) {L U : Nat → Nat → K} {c : Nat} (hc : c < n)
    (hup : ∀ j, j < c → U c j = 0)
    (hU : ∀ j, c ≤ j → j < n → ∑ k ∈ range c, L c k * U k j + U c j = A c j - croutOver n L U c j)
    {l u : Mat (Ext K)}
    (hl : MatIs l n n (fun i j => .fin (if j < c ∨ i ≤ j then L i j else 0)))
    (hu : MatIs u n n (fun i j => .fin (if i < c then U i j else 0))) :
    ∃ u' s', foldRange c n (fun col (st : Mat (Ext K) × Ext K) => do
      let (u, sum) := st
      let sum ← foldRange 0 col
        (fun k (sum : Ext K) => do
          .ok (sum +ᶠ ((← l.getElement c k) *ᶠ (← u.getElement k col)))) sum
      let element := (← a.getElement c col) -ᶠ sum
      let u ← exec u (Mat.setElement c col element)
      .ok (u, sum)) (u, .fin (croutLeft n L U c)) = .ok (u', s') ∧
      MatIs u' n n (fun i j => .fin (if i < c + 1 then U i j else 0)) := by
  obtain ⟨⟨u', s'⟩, h1, h2, h3⟩ := foldRange_inv (ε := LinalgError)
    (fun col (st : Mat (Ext K) × Ext K) => do
      let (u, sum) := st
      let sum ← foldRange 0 col
        (fun k (sum : Ext K) => do
          .ok (sum +ᶠ ((← l.getElement c k) *ᶠ (← u.getElement k col)))) sum
      let element := (← a.getElement c col) -ᶠ sum
      let u ← exec u (Mat.setElement c col element)
      .ok (u, sum))
    (fun p (st : Mat (Ext K) × Ext K) =>
      MatIs st.1 n n (fun i j => .fin (if i < c ∨ (i = c ∧ j < p) then U i j else 0)) ∧
      st.2 = .fin (croutOver n L U c p))
    c n hc.le (u, .fin (croutLeft n L U c))
    ⟨hu.congr fun i j _ _ => by
      by_cases hi : i < c
      · simp [hi]
      · by_cases hi' : i = c
        · by_cases hj : j < c
          · rw [if_neg hi, if_pos (Or.inr ⟨hi', hj⟩), hi', hup j hj]
          · rw [if_neg hi, if_neg (by omega)]
        · rw [if_neg hi, if_neg (by omega)],
      by simp [croutOver]⟩
    (fun p st hp1 hp2 hI => by
      obtain ⟨u, sum⟩ := st
      obtain ⟨hI, hs⟩ := hI
      dsimp only at hI hs
      subst hs
      dsimp only
      rw [crout_dot (L := L) (R := U) hl hI hc hp2 hp2.le hp1 (fun k hk => by simp [hk]) (fun k hk => by simp [hk])
        (fun k h1 h2 => by rw [if_neg (show ¬(k < c ∨ (k = c ∧ p < p)) by omega), mul_zero]), Res.ok_bind,
        ha.get c p hc hp2, Res.ok_bind, Ext.sub_fin]
      have e : A c p - (croutOver n L U c p + ∑ k ∈ range c, L c k * U k p) = U c p := by
        have := hU p hp1 hp2
        linear_combination -this
      rw [e]
      obtain ⟨u', h1, h2⟩ := hI.exec_put (U c p) hc hp2
      rw [h1, Res.ok_bind]
      refine ⟨_, rfl, h2.congr fun i j _ _ => ?_, ?_⟩
      · by_cases hi : i = c ∧ j = p
        · simp [hi.1, hi.2]
        · have : (i < c ∨ (i = c ∧ j < p + 1)) ↔ (i < c ∨ (i = c ∧ j < p)) := by omega
          simp only [hi, if_false, this]
      · dsimp only
        unfold croutOver
        rw [Finset.sum_Ico_succ_top hp1, add_assoc])
  refine ⟨u', s', h1, h2.congr fun i j _ hj => ?_⟩
  have : (i < c ∨ (i = c ∧ j < n)) ↔ i < c + 1 := by omega
  simp only [this]

/-- The column `c` of `L`. -/
theorem crout_col (ha : MatIs a n n (fun i j => .fin (A i j))) {L U : Nat → Nat → K} {c : Nat} (hc : c < n)
    (hL : ∀ i, c < i → i < n → ∑ k ∈ range c, L i k * U k c + L i c * U c c = A i c - croutUnder L U i c)
    (hp : c + 1 < n → U c c ≠ 0 ∧ |U c c| ≤ epsilon K) {l u : Mat (Ext K)}
    (hu : MatIs u n n (fun i j => .fin (if i < c + 1 then U i j else 0)))
    (hl : MatIs l n n (fun i j => .fin (if j < c ∨ i ≤ j then L i j else 0))) :
    ∃ l' s', foldRange (c + 1) n (fun col (st : Mat (Ext K) × Ext K) => do
      let (l, sum) := st
      let sum ← foldRange 0 col
        (fun k (sum : Ext K) => do
          .ok (sum +ᶠ ((← l.getElement col k) *ᶠ (← u.getElement k c)))) sum
      let uElement ← u.getElement c c
      if !(← allcloseL uElement (lit 0) EPSILON) then fail .Singular
      else do
        let element := ((← a.getElement col c) -ᶠ sum) /ᶠ uElement
        let l ← exec l (Mat.setElement col c element)
        .ok (l, sum)) (l, .fin 0) = .ok (l', s') ∧
      MatIs l' n n (fun i j => .fin (if j < c + 1 ∨ i ≤ j then L i j else 0)) ∧
      s' = .fin (croutLeft n L U (c + 1)) := by
  obtain ⟨⟨l', s'⟩, h1, h2, h3⟩ := foldRange_inv (ε := LinalgError)
    (fun col (st : Mat (Ext K) × Ext K) => do
      let (l, sum) := st
      let sum ← foldRange 0 col
        (fun k (sum : Ext K) => do
          .ok (sum +ᶠ ((← l.getElement col k) *ᶠ (← u.getElement k c)))) sum
      let uElement ← u.getElement c c
      if !(← allcloseL uElement (lit 0) EPSILON) then fail .Singular
      else do
        let element := ((← a.getElement col c) -ᶠ sum) /ᶠ uElement
        let l ← exec l (Mat.setElement col c element)
        .ok (l, sum))
    (fun p (st : Mat (Ext K) × Ext K) =>
      MatIs st.1 n n (fun i j => .fin (if j < c ∨ i ≤ j ∨ (j = c ∧ i < p) then L i j else 0)) ∧
      st.2 = .fin (croutUnder L U p c))
    (c + 1) n hc (l, .fin 0)
    ⟨hl.congr fun i j _ _ => by
      have : (j < c ∨ i ≤ j ∨ (j = c ∧ i < c + 1)) ↔ (j < c ∨ i ≤ j) := by omega
      simp only [this], by simp [croutUnder]⟩
    (fun p st hp1 hp2 hI => by
      obtain ⟨l, sum⟩ := st
      obtain ⟨hI, hs⟩ := hI
      dsimp only at hI hs
      subst hs
      dsimp only
      obtain ⟨hp0, hpe⟩ := hp (by omega)
      rw [crout_dot (L := L) (R := U) hI hu hp2 hc hp2.le (show c ≤ p by omega) (fun k hk => by simp [hk])
        (fun k hk => by simp [Nat.lt_succ_of_lt hk])
        (fun k h1 h2 => by
          rw [if_neg (show ¬(k < c ∨ p ≤ k ∨ (k = c ∧ p < p)) by omega), zero_mul]), Res.ok_bind,
        hu.get c c hc hc, Res.ok_bind]
      simp only [Nat.lt_succ_self, if_true, Ext.lit_zero, allclose_fin, Res.ok_bind, sub_zero, hpe, decide_true,
        Bool.not_true, Bool.false_eq_true, if_false]
      rw [ha.get p c hp2 hc, Res.ok_bind, Ext.sub_fin, Ext.div_fin _ hp0]
      have e : (A p c - (croutUnder L U p c + ∑ k ∈ range c, L p k * U k c)) / U c c = L p c := by
        rw [div_eq_iff hp0]
        have := hL p (by omega) hp2
        linear_combination -this
      rw [e]
      obtain ⟨l', h1, h2⟩ := hI.exec_put (L p c) hp2 hc
      rw [h1, Res.ok_bind]
      refine ⟨_, rfl, h2.congr fun i j _ _ => ?_, ?_⟩
      · by_cases hi : i = p ∧ j = c
        · simp [hi.1, hi.2]
        · have : (j < c ∨ i ≤ j ∨ (j = c ∧ i < p + 1)) ↔ (j < c ∨ i ≤ j ∨ (j = c ∧ i < p)) := by omega
          simp only [hi, if_false, this]
      · dsimp only
        unfold croutUnder
        rw [Finset.sum_Ico_succ_top hp1])
  refine ⟨l', s', h1, h2.congr fun i j hi _ => ?_, ?_⟩
  · have : (j < c ∨ i ≤ j ∨ (j = c ∧ i < n)) ↔ (j < c + 1 ∨ i ≤ j) := by omega
    simp only [this]
  · have := h3
    dsimp only at this
    rw [this]; simp [croutLeft, croutUnder]

/-- The factors that `lu_crout` works with are determined up to the row and column `m`. -/
structure CroutUpTo (n : Nat) (A L U : Nat → Nat → K) (m : Nat) : Prop where
  one : ∀ i, i < n → L i i = 1
  low : ∀ i j, i < j → j < n → L i j = 0
  up : ∀ i j, j < i → i < n → U i j = 0
  row : ∀ i, i < m → ∀ j, i ≤ j → j < n → ∑ k ∈ range i, L i k * U k j + U i j = A i j - croutOver n L U i j
  col : ∀ j, j < m → ∀ i, j < i → i < n →
    ∑ k ∈ range j, L i k * U k j + L i j * U j j = A i j - croutUnder L U i j
  piv : ∀ j, j < m → j + 1 < n → U j j ≠ 0 ∧ |U j j| ≤ epsilon K

/-- The first `m` passes of the loop. -/
theorem crout_loop (ha : MatIs a n n (fun i j => .fin (A i j))) {L U : Nat → Nat → K} {m : Nat} (hm : m ≤ n)
    (h : CroutUpTo n A L U m) {l u : Mat (Ext K)}
    (hl : MatIs l n n (fun i j => .fin (if i = j then 1 else 0))) (hu : MatIs u n n (fun _ _ => .fin 0)) :
    ∃ l' u', foldRange 0 m (croutBody a n) (l, u, .fin 0) = .ok (l', u', .fin (croutLeft n L U m)) ∧
      MatIs l' n n (fun i j => .fin (if j < m ∨ i ≤ j then L i j else 0)) ∧
      MatIs u' n n (fun i j => .fin (if i < m then U i j else 0)) := by
  obtain ⟨⟨l', u', s⟩, h1, h2, h3, h4⟩ := foldRange_inv (ε := LinalgError) (croutBody a n)
    (fun c (st : Mat (Ext K) × Mat (Ext K) × Ext K) =>
      MatIs st.1 n n (fun i j => .fin (if j < c ∨ i ≤ j then L i j else 0)) ∧
      MatIs st.2.1 n n (fun i j => .fin (if i < c then U i j else 0)) ∧
      st.2.2 = .fin (croutLeft n L U c))
    0 m (Nat.zero_le _) (l, u, .fin 0)
    ⟨hl.congr fun i j hin hjn => by
      by_cases hi : i = j
      · simp [hi, h.one j hjn]
      · by_cases hij : i ≤ j
        · simp [hi, hij, h.low i j (by omega) hjn]
        · simp [hi, hij],
      hu.congr fun i j _ _ => by simp, by simp [croutLeft]⟩
    (fun c st _ hc hI => by
      obtain ⟨l, u, s⟩ := st
      obtain ⟨h1, h2, h3⟩ := hI
      dsimp only at h1 h2 h3
      have hcn : c < n := by omega
      rw [h3]
      obtain ⟨u', s', e1, hu'⟩ := crout_row ha hcn (fun j hj => h.up c j hj hcn) (h.row c hc) h1 h2
      obtain ⟨l', s'', e2, hl', hs⟩ := crout_col ha hcn (h.col c hc) (h.piv c hc) hu' h1
      unfold croutBody
      dsimp only
      rw [e1, Res.ok_bind]
      dsimp only
      rw [Ext.lit_zero] at e2 ⊢
      rw [e2, Res.ok_bind]
      exact ⟨_, rfl, hl', hu', hs⟩)
  dsimp only at h2 h3 h4
  exact ⟨l', u', by rw [h1, h4], h2, h3⟩

/-- A pivot before the last one that is zero or above the tolerance makes `lu_crout` fail. -/
theorem crout_stuck (ha : MatIs a n n (fun i j => .fin (A i j))) {L U : Nat → Nat → K} {m : Nat} (hm : m + 1 < n)
    (h : CroutUpTo n A L U m)
    (hrow : ∀ j, m ≤ j → j < n → ∑ k ∈ range m, L m k * U k j + U m j = A m j - croutOver n L U m j)
    {l u : Mat (Ext K)}
    (hl : MatIs l n n (fun i j => .fin (if i = j then 1 else 0))) (hu : MatIs u n n (fun _ _ => .fin 0)) :
    (epsilon K < |U m m| → foldRange 0 n (croutBody a n) (l, u, .fin 0) = .error (.err .Singular)) ∧
    (U m m = 0 → ∃ e, (e = .Nan ∨ e = .Inf) ∧
      foldRange 0 n (croutBody a n) (l, u, .fin 0) = .error (.err (.UtilsError e))) := by
  obtain ⟨l1, u1, e1, hl1, hu1⟩ := crout_loop ha (by omega) h hl hu
  obtain ⟨u2, s2, e2, hu2⟩ := crout_row ha (L := L) (U := U) (c := m) (by omega)
    (fun j hj => h.up m j hj (by omega)) hrow hl1 hu1
  obtain ⟨d, hd⟩ : ∃ d, n - m = d + 1 := ⟨n - m - 1, by omega⟩
  have hd' : n - (m + 1) = (d - 1) + 1 := by omega
  have hdot := crout_dot (L := L) (R := U) hl1 hu2 (i := m + 1) (j := m) (m := m + 1) (c := m) hm (by omega)
    (by omega) (by omega) (fun k hk => by simp [hk]) (fun k hk => by simp [Nat.lt_succ_of_lt hk])
    (fun k h1 h2 => by rw [if_neg (show ¬(k < m ∨ m + 1 ≤ k) by omega), zero_mul]) 0
  constructor
  · intro hbig
    rw [foldRange_split _ 0 m n (by omega) (by omega), e1, Res.ok_bind]
    unfold foldRange
    rw [hd, foldFrom_succ]
    unfold croutBody
    dsimp only
    rw [e2, Res.ok_bind]
    dsimp only
    unfold foldRange at hdot ⊢
    rw [hd', foldFrom_succ]
    dsimp only
    rw [Ext.lit_zero, hdot, Res.ok_bind, hu2.get m m (by omega) (by omega), Res.ok_bind]
    simp only [Nat.lt_succ_self, if_true, allclose_fin, Res.ok_bind, sub_zero]
    rw [if_pos (by simpa using hbig)]
    rfl
  · intro hz
    obtain ⟨e, he, hbad⟩ := lr_put_bad hl1 (i := m + 1) (j := m) hm (by omega)
      (A (m + 1) m - (0 + ∑ k ∈ range m, L (m + 1) k * U k m))
    refine ⟨e, he, ?_⟩
    have hε : 0 < epsilon K := by unfold epsilon; positivity
    rw [foldRange_split _ 0 m n (by omega) (by omega), e1, Res.ok_bind]
    unfold foldRange
    rw [hd, foldFrom_succ]
    unfold croutBody
    dsimp only
    rw [e2, Res.ok_bind]
    dsimp only
    unfold foldRange at hdot ⊢
    rw [hd', foldFrom_succ]
    dsimp only
    rw [Ext.lit_zero, hdot, Res.ok_bind, hu2.get m m (by omega) (by omega), Res.ok_bind]
    simp only [Nat.lt_succ_self, if_true, allclose_fin, Res.ok_bind, sub_zero, hz, abs_zero]
    rw [if_neg (by simpa using hε.le), ha.get (m + 1) m hm (by omega), Res.ok_bind, Ext.sub_fin, hbad]
    rfl

/-- `lu_crout` up to its main loop. -/
theorem crout_main (ha : MatIs a n n (fun i j => .fin (A i j))) :
    ∃ l u, MatIs l n n (fun i j => .fin (if i = j then 1 else 0)) ∧ MatIs u n n (fun _ _ => .fin 0) ∧
      a.luCrout = (foldRange 0 n (croutBody a n) (l, u, .fin 0) >>= fun st => .ok (st.1, st.2.1)) := by
  obtain ⟨l0, el0, hl0⟩ := Mat.identity_fin (K := K) (Mat.zeros_of ha)
  have hu0 : MatIs (Mat.zeros n n : Mat (Ext K)) n n (fun _ _ => .fin 0) :=
    (Mat.zeros_of ha).congr fun _ _ _ _ => by simp
  refine ⟨l0, Mat.zeros n n, hl0, hu0, ?_⟩
  unfold Mat.luCrout
  simp only [Mat.isSquare_eq ha, Res.ok_bind, decide_true, Bool.not_true, Bool.false_eq_true, if_false,
    ha.rows_eq, Mat.init_of ha, el0]
  rw [← Ext.lit_zero]
  rfl

theorem crout_returns (ha : MatIs a n n (fun i j => .fin (A i j))) {L U : Nat → Nat → K}
    (h : CroutUpTo n A L U n) :
    ∃ l u, a.luCrout = .ok (l, u) ∧ MatIs l n n (fun i j => .fin (L i j)) ∧
      MatIs u n n (fun i j => .fin (U i j)) := by
  obtain ⟨l0, u0, hl0, hu0, e⟩ := crout_main ha
  obtain ⟨l, u, e1, hl, hu⟩ := crout_loop ha le_rfl h hl0 hu0
  rw [e, e1]
  exact ⟨l, u, rfl, hl.congr fun i j hi hj => by simp [hj], hu.congr fun i j hi hj => by simp [hi]⟩

theorem croutOver_congr {L U L' U' : Nat → Nat → K} {i j : Nat}
    (h1 : ∀ p k, k < i → L p k = L' p k) (h2 : ∀ k p, k < i → U k p = U' k p) :
    croutOver n L U i j = croutOver n L' U' i j := by
  unfold croutOver croutLeft
  congr 1
  · refine Finset.sum_congr rfl fun p _ => Finset.sum_congr rfl fun k hk => ?_
    rw [Finset.mem_range] at hk
    rw [h1 _ _ (by omega), h2 _ _ (by omega)]
  · refine Finset.sum_congr rfl fun p _ => Finset.sum_congr rfl fun k hk => ?_
    rw [Finset.mem_range] at hk
    rw [h1 _ _ hk, h2 _ _ hk]

theorem croutUnder_congr {L U L' U' : Nat → Nat → K} {i j : Nat}
    (h1 : ∀ p k, k < j → L p k = L' p k) (h2 : ∀ k p, k < j → U k p = U' k p) :
    croutUnder L U i j = croutUnder L' U' i j := by
  unfold croutUnder
  refine Finset.sum_congr rfl fun p _ => Finset.sum_congr rfl fun k hk => ?_
  rw [Finset.mem_range] at hk
  rw [h1 _ _ hk, h2 _ _ hk]

/-- The factors exist up to the first pivot that stops the code. -/
theorem crout_exists (n : Nat) (A : Nat → Nat → K) (m : Nat) (hm : m ≤ n) :
    (∃ L U, CroutUpTo n A L U m) ∨ ∃ k L U, k + 1 < n ∧ CroutUpTo n A L U k ∧
      (∀ j, k ≤ j → j < n → ∑ p ∈ range k, L k p * U p j + U k j = A k j - croutOver n L U k j) ∧
      (U k k = 0 ∨ epsilon K < |U k k|) := by
  induction m with
  | zero =>
    left
    refine ⟨fun i j => if i = j then 1 else 0, fun _ _ => 0, fun i _ => by simp, fun i j h _ => ?_, fun _ _ _ _ => rfl,
      fun i h => by omega, fun i h => by omega, fun i h => by omega⟩
    rw [if_neg (by omega)]
  | succ m ih =>
    rcases ih (by omega) with ⟨L, U, h⟩ | h
    swap
    · exact Or.inr h
    let U' : Nat → Nat → K := fun i j => if i = m then
      (if j < m then 0 else A m j - croutOver n L U m j - ∑ k ∈ range m, L m k * U k j) else U i j
    have hU' : ∀ k p, k < m → U' k p = U k p := fun k p hk => by
      simp only [U']; rw [if_neg (by omega)]
    have hrow' : ∀ i, i < m → ∀ j, i ≤ j → j < n →
        ∑ k ∈ range i, L i k * U' k j + U' i j = A i j - croutOver n L U' i j := fun i hi j h1 h2 => by
      rw [hU' i j hi, Finset.sum_congr rfl fun k hk => by rw [hU' k j (by rw [Finset.mem_range] at hk; omega)],
        croutOver_congr (L' := L) (U' := U) (fun _ _ _ => rfl) (fun k p hk => hU' k p (by omega))]
      exact h.row i hi j h1 h2
    have hcol' : ∀ j, j < m → ∀ i, j < i → i < n →
        ∑ k ∈ range j, L i k * U' k j + L i j * U' j j = A i j - croutUnder L U' i j :=
      fun j hj i h1 h2 => by
        rw [hU' j j hj, Finset.sum_congr rfl fun k hk => by rw [hU' k j (by rw [Finset.mem_range] at hk; omega)],
          croutUnder_congr (L' := L) (U' := U) (fun _ _ _ => rfl) (fun k p hk => hU' k p (by omega))]
        exact h.col j hj i h1 h2
    have hnew : ∀ j, m ≤ j → j < n → ∑ k ∈ range m, L m k * U' k j + U' m j = A m j - croutOver n L U' m j :=
      fun j h1 h2 => by
        rw [Finset.sum_congr rfl fun k hk => by rw [hU' k j (by rw [Finset.mem_range] at hk; omega)],
          croutOver_congr (L' := L) (U' := U) (fun _ _ _ => rfl) (fun k p hk => hU' k p hk)]
        simp only [U', if_true]
        rw [if_neg (by omega)]
        ring
    have hup' : ∀ i j, j < i → i < n → U' i j = 0 := fun i j h1 h2 => by
      simp only [U']
      by_cases hi : i = m
      · rw [if_pos hi, if_pos (by omega)]
      · rw [if_neg hi]; exact h.up i j h1 h2
    have hpiv' : ∀ j, j < m → j + 1 < n → U' j j ≠ 0 ∧ |U' j j| ≤ epsilon K := fun j h1 h2 => by
      rw [hU' j j h1]; exact h.piv j h1 h2
    by_cases hz : m + 1 < n ∧ (U' m m = 0 ∨ epsilon K < |U' m m|)
    · exact Or.inr ⟨m, L, U', hz.1, ⟨h.one, h.low, hup', hrow', hcol', hpiv'⟩, hnew, hz.2⟩
    have hz' : m + 1 < n → U' m m ≠ 0 ∧ |U' m m| ≤ epsilon K := fun h => by
      refine ⟨fun h' => hz ⟨h, Or.inl h'⟩, not_lt.mp fun h' => hz ⟨h, Or.inr h'⟩⟩
    left
    let L' : Nat → Nat → K := fun i j => if j = m ∧ m < i then
      (A i m - croutUnder L U' i m - ∑ k ∈ range m, L i k * U' k m) / U' m m else L i j
    have hL' : ∀ i j, j < m → L' i j = L i j := fun i j hj => by
      simp only [L']; rw [if_neg (by omega)]
    refine ⟨L', U', fun i hi => ?_, fun i j h1 h2 => ?_, hup', fun i hi j h1 h2 => ?_, fun j hj i h1 h2 => ?_,
      fun j h1 h2 => ?_⟩
    · simp only [L']; rw [if_neg (by omega)]; exact h.one i hi
    · simp only [L']; rw [if_neg (by omega)]; exact h.low i j h1 h2
    · rw [Finset.sum_congr rfl fun k hk => by rw [hL' i k (by rw [Finset.mem_range] at hk; omega)],
        croutOver_congr (L' := L) (U' := U') (fun p k hk => hL' p k (by omega)) (fun _ _ _ => rfl)]
      rcases Nat.lt_succ_iff_lt_or_eq.mp hi with hi | rfl
      · exact hrow' i hi j h1 h2
      · exact hnew j h1 h2
    · rw [Finset.sum_congr rfl fun k hk => by rw [hL' i k (by rw [Finset.mem_range] at hk; omega)],
        croutUnder_congr (L' := L) (U' := U') (fun p k hk => hL' p k (by omega)) (fun _ _ _ => rfl)]
      rcases Nat.lt_succ_iff_lt_or_eq.mp hj with hj | rfl
      · rw [hL' i j hj]
        exact hcol' j hj i h1 h2
      · have hp : U' j j ≠ 0 := (hz' (by omega)).1
        simp only [L']
        rw [if_pos ⟨trivial, h1⟩, div_mul_cancel₀ _ hp]
        ring
    · rcases Nat.lt_succ_iff_lt_or_eq.mp h1 with h1 | rfl
      · exact hpiv' j h1 h2
      · exact hz' h2

/-- The sum of a row of a lower and a column of an upper triangular matrix ends at the diagonal. -/
theorem tri_cut {f : Nat → K} {m n : Nat} (hm : m < n) (hk : ∀ k, m < k → k < n → f k = 0) :
    ∑ k ∈ range n, f k = ∑ k ∈ range m, f k + f m := by
  rw [← Finset.sum_range_succ]
  refine (Finset.sum_subset (fun x hx => ?_) fun x hx hx' => ?_).symm
  · rw [Finset.mem_range] at *; omega
  · rw [Finset.mem_range] at *; exact hk x (by omega) hx

/-- C27: the outcome of `lu_crout` for every size.  When every pivot before the last one is not zero but within the
tolerance, it returns a unit lower triangular `L` and an upper triangular `U` whose product differs from the matrix by
exactly the products that were left in the sums.  Otherwise it fails, with `Singular` (a pivot above the tolerance) or
with `Nan` or `Inf` (a zero pivot). -/
theorem C27_all_sizes (ha : MatIs a n n (fun i j => .fin (A i j))) :
    (∃ l u, a.luCrout = .ok (l, u) ∧ ∃ L U : Nat → Nat → K,
      MatIs l n n (fun i j => .fin (L i j)) ∧ MatIs u n n (fun i j => .fin (U i j)) ∧
      (∀ i, i < n → L i i = 1) ∧ (∀ i j, i < j → j < n → L i j = 0) ∧ (∀ i j, j < i → i < n → U i j = 0) ∧
      (∀ j, j + 1 < n → U j j ≠ 0 ∧ |U j j| ≤ epsilon K) ∧
      (∀ i j, j < i → i < n → ∑ k ∈ range n, L i k * U k j = A i j -
        ∑ q ∈ Ico (j + 1) i, ∑ k ∈ range j, L q k * U k j) ∧
      ∀ i j, i ≤ j → j < n → ∑ k ∈ range n, L i k * U k j = A i j -
        (∑ q ∈ Ico i n, ∑ k ∈ range (i - 1), L q k * U k (i - 1) + ∑ q ∈ Ico i j, ∑ k ∈ range i, L i k * U k q)) ∨
    a.luCrout = .error (.err .Singular) ∨
    ∃ e, (e = .Nan ∨ e = .Inf) ∧ a.luCrout = .error (.err (.UtilsError e)) := by
  rcases crout_exists n A n le_rfl with ⟨L, U, h⟩ | ⟨k, L, U, hk, h, hrow, hz⟩
  · left
    obtain ⟨l, u, e, hl, hu⟩ := crout_returns ha h
    refine ⟨l, u, e, L, U, hl, hu, h.one, h.low, h.up, fun j hj => h.piv j (by omega) hj, fun i j h1 h2 => ?_,
      fun i j h1 h2 => ?_⟩
    · rw [tri_cut (show j < n by omega) fun k h3 h4 => by rw [h.up k j h3 h4, mul_zero], h.col j (by omega) i h1 h2]
      rfl
    · rw [tri_cut (show i < n by omega) fun k h3 h4 => by rw [h.low i k h3 h4, zero_mul], h.one i (by omega), one_mul,
        h.row i (by omega) j h1 h2]
      rfl
  · right
    obtain ⟨l0, u0, hl0, hu0, e⟩ := crout_main ha
    obtain ⟨s1, s2⟩ := crout_stuck ha hk h hrow hl0 hu0
    rcases hz with hz | hz
    · right
      obtain ⟨e', he', h'⟩ := s2 hz
      rw [e, h']
      exact ⟨e', he', rfl⟩
    · left
      rw [e, s1 hz]
      rfl

/-- C27: triangular factors with non-zero pivots within the tolerance whose product has that defect are what `lu_crout`
returns. -/
theorem C27_returns (ha : MatIs a n n (fun i j => .fin (A i j))) {L U : Nat → Nat → K}
    (one : ∀ i, i < n → L i i = 1) (low : ∀ i j, i < j → j < n → L i j = 0)
    (up : ∀ i j, j < i → i < n → U i j = 0) (piv : ∀ j, j + 1 < n → U j j ≠ 0 ∧ |U j j| ≤ epsilon K)
    (below : ∀ i j, j < i → i < n → ∑ k ∈ range n, L i k * U k j = A i j -
        ∑ q ∈ Ico (j + 1) i, ∑ k ∈ range j, L q k * U k j)
    (above : ∀ i j, i ≤ j → j < n → ∑ k ∈ range n, L i k * U k j = A i j -
        (∑ q ∈ Ico i n, ∑ k ∈ range (i - 1), L q k * U k (i - 1) + ∑ q ∈ Ico i j, ∑ k ∈ range i, L i k * U k q)) :
    ∃ l u, a.luCrout = .ok (l, u) ∧ MatIs l n n (fun i j => .fin (L i j)) ∧
      MatIs u n n (fun i j => .fin (U i j)) := by
  refine crout_returns ha ⟨one, low, up, fun i hi j h1 h2 => ?_, fun j hj i h1 h2 => ?_, fun j _ => piv j⟩
  · have := above i j h1 h2
    rwa [tri_cut hi fun k h3 h4 => by rw [low i k h3 h4, zero_mul], one i hi, one_mul] at this
  · have := below i j h1 h2
    rwa [tri_cut hj fun k h3 h4 => by rw [up k j h3 h4, mul_zero]] at this

/-! ### Examples -/

def exCrL : Nat → Nat → ℚ := tbl [[1, 0, 0], [1, 1, 0], [0, 0, 1]]
def exCrU : Nat → Nat → ℚ := tbl [[1 / 10000, 1, 0], [0, 1 / 10000, -1], [0, 0, 1]]

example : ∃ l u, (Mat.of 3 3 fun i j =>
      (.fin (tbl [[1 / 10000, 1, 0], [1 / 10000, 10001 / 10000, 0], [0, 0, 1]] i j) : XQ)).luCrout = .ok (l, u) ∧
    MatIs l 3 3 (fun i j => .fin (exCrL i j)) ∧ MatIs u 3 3 (fun i j => .fin (exCrU i j)) := by
  refine C27_returns (K := ℚ) (Mat.of_is _ (by decide) (by decide) (by decide) (by decide)) ?_ ?_ ?_ ?_ ?_ ?_
  · decide +kernel
  · intro i j h1 h2
    have : i < 3 := by omega
    interval_cases j <;> interval_cases i <;> first | omega | decide +kernel
  · intro i j h1 h2
    have : j < 3 := by omega
    interval_cases j <;> interval_cases i <;> first | omega | decide +kernel
  · intro j h
    have : j < 2 := by omega
    interval_cases j <;> decide +kernel
  · intro i j h1 h2
    have : j < 3 := by omega
    interval_cases j <;> interval_cases i <;> first | omega | decide +kernel
  · intro i j h1 h2
    have : i < 3 := by omega
    interval_cases j <;> interval_cases i <;> first | omega | decide +kernel

/-- The three outcomes. -/
example : factorsAt (Mat.of 3 3 fun i j =>
      (.fin (tbl [[1 / 10000, 1, 0], [1 / 10000, 10001 / 10000, 0], [0, 0, 1]] i j) : XQ)).luCrout 1 2 =
    .ok (.fin (-1)) := by decide +kernel
example : factorsAt (Mat.of 3 3 fun i j =>
      (.fin (tbl [[1 / 10000, 1, 0], [1 / 10000, 2, 0], [0, 0, 1]] i j) : XQ)).luCrout 1 2 =
    .error (.err .Singular) := by decide +kernel
example : factorsAt (Mat.of 3 3 fun i j =>
      (.fin (tbl [[1 / 10000, 1, 0], [1 / 10000, 1, 0], [0, 0, 1]] i j) : XQ)).luCrout 1 2 =
    .error (.err (.UtilsError .Nan)) := by decide +kernel

end Verif
