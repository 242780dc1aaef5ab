import Verif.Props.CroutSmall
import Verif.Props.ArExact

/-
What `lr` (linalg/src/matrix.rs:991-1075) computes in exact arithmetic, for every size (C26).  The variable `sum` is
set to 0 before the loops and inside the second inner loop, but not inside the first one, so that element (i, j) of `R`
is computed with everything that was added up for the elements (i, i) ... (i, j - 1) as well.
-/

set_option linter.unusedSectionVars false
set_option linter.unusedSimpArgs false

namespace Verif
open Scalar Finset

variable {K : Type} [Field K] [LinearOrder K] [IsStrictOrderedRing K] [Elementary K]
variable {a : Mat (Ext K)} {n : Nat} {A : Nat → Nat → K}

/-- What is left in `sum` when the row `i` of `R` begins. -/
def lrLeft (n : Nat) (L R : Nat → Nat → K) (i : Nat) : K := ∑ k ∈ range (i - 1), L (n - 1) k * R k (i - 1)

/-- What is subtracted too much from the element (i, j), `i ≤ j`. -/
def lrExtra (n : Nat) (L R : Nat → Nat → K) (i j : Nat) : K :=
  lrLeft n L R i + ∑ p ∈ Ico i j, ∑ k ∈ range i, L i k * R k p

/-- The loop body of `lr`. -/
def lrBody (a : Mat (Ext K)) (n : Nat) (col : Nat) (st : Mat (Ext K) × Mat (Ext K) × Ext K) :
    Res LinalgError (Mat (Ext K) × Mat (Ext K) × Ext K) := do
  let (l, r, sum) := st
  let (r, sum) ← foldRange col n
    (fun j (st : Mat (Ext K) × Ext K) => do
      let (r, sum) := st
      let sum ← foldRange 0 col
        (fun k (sum : Ext K) => do
          .ok (sum +ᶠ ((← l.getElement col k) *ᶠ (← r.getElement k j)))) sum
      let element := (← a.getElement col j) -ᶠ sum
      let r ← exec r (Mat.setElement col j element)
      .ok (r, sum)) (r, sum)
  let rElement ← r.getElement col col
  let _ ← allcloseL rElement (lit 0) EPSILON
  let (l, sum) ← foldRange (col + 1) n
    (fun row (st : Mat (Ext K) × Ext K) => do
      let (l, _) := st
      let sum ← foldRange 0 col
        (fun k (sum : Ext K) => do
          .ok (sum +ᶠ ((← l.getElement row k) *ᶠ (← r.getElement k col)))) (lit 0)
      let element := ((← a.getElement row col) -ᶠ sum) /ᶠ rElement
      let l ← exec l (Mat.setElement row col element)
      .ok (l, sum)) (l, sum)
  .ok (l, r, sum)

/-- The sum of products of a row of `l` and a column of `r`. -/
theorem lr_dot {l r : Mat (Ext K)} {f g : Nat → Nat → Ext K} (hl : MatIs l n n f) (hr : MatIs r n n g)
    {L R : Nat → Nat → K} {i j m : Nat} (hi : i < n) (hj : j < n) (hm : m ≤ n)
    (h1 : ∀ k, k < m → f i k = .fin (L i k)) (h2 : ∀ k, k < m → g k j = .fin (R k j)) (s : K) :
    foldRange 0 m (fun k (sum : Ext K) => do
      .ok (sum +ᶠ ((← l.getElement i k) *ᶠ (← r.getElement k j)))) (.fin s) =
      (.ok (.fin (s + ∑ k ∈ range m, L i k * R k j)) : Res LinalgError (Ext K)) := by
  have := foldRange_ok (ε := LinalgError) (fun k (sum : Ext K) => do
      .ok (sum +ᶠ ((← l.getElement i k) *ᶠ (← r.getElement k j))))
    (fun m => (.fin (s + ∑ k ∈ range m, L i k * R k j) : Ext K)) 0 m (Nat.zero_le _)
    (fun k _ hk => by
      rw [hl.get i k hi (by omega), Res.ok_bind, hr.get k j (by omega) hj, Res.ok_bind, h1 k hk, h2 k hk]
      simp only [Ext.mul_fin, Ext.add_fin, Finset.sum_range_succ, add_assoc])
  simpa using this

/-- The row `c` of `R`. -/
theorem lr_row (ha : MatIs a n n (fun i j => .fin (A i j))) {L R : Nat → Nat → K} {c : Nat} (hc : c < n)
    (hup : ∀ j, j < c → R c j = 0)
    (hR : ∀ j, c ≤ j → j < n → ∑ k ∈ range c, L c k * R k j + R c j = A c j - lrExtra n L R c j)
    {l r : Mat (Ext K)} {f : Nat → Nat → Ext K} (hl : MatIs l n n f) (hf : ∀ k, k < c → f c k = .fin (L c k))
    (hr : MatIs r n n (fun i j => .fin (if i < c ∨ (i = 0 ∧ i < c + 1) then R i j else 0))) :
    ∃ r' s', foldRange c n (fun j (st : Mat (Ext K) × Ext K) => do
      let (r, sum) := st
      let sum ← foldRange 0 c
        (fun k (sum : Ext K) => do
          .ok (sum +ᶠ ((← l.getElement c k) *ᶠ (← r.getElement k j)))) sum
      let element := (← a.getElement c j) -ᶠ sum
      let r ← exec r (Mat.setElement c j element)
      .ok (r, sum)) (r, .fin (lrLeft n L R c)) = .ok (r', s') ∧
      MatIs r' n n (fun i j => .fin (if i < c + 1 then R i j else 0)) := by
  obtain ⟨⟨r', s'⟩, h1, h2, h3⟩ := foldRange_inv (ε := LinalgError)
    (fun j (st : Mat (Ext K) × Ext K) => do
      let (r, sum) := st
      let sum ← foldRange 0 c
        (fun k (sum : Ext K) => do
          .ok (sum +ᶠ ((← l.getElement c k) *ᶠ (← r.getElement k j)))) sum
      let element := (← a.getElement c j) -ᶠ sum
      let r ← exec r (Mat.setElement c j element)
      .ok (r, sum))
    (fun p (st : Mat (Ext K) × Ext K) =>
      MatIs st.1 n n (fun i j => .fin (if i < c ∨ (i = c ∧ (j < p ∨ c = 0)) then R i j else 0)) ∧
      st.2 = .fin (lrExtra n L R c p))
    c n hc.le (r, .fin (lrLeft n L R c))
    ⟨hr.congr fun i j _ _ => by
      by_cases hi : i < c
      · simp [hi]
      · by_cases hi' : i = c
        · subst hi'
          by_cases h0 : i = 0
          · simp [h0]
          · by_cases hj : j < i
            · simp [hj, h0, hup j hj]
            · simp [hj, h0]
        · rw [if_neg (by omega), if_neg (by omega)],
      by simp [lrExtra]⟩
    (fun p st hp1 hp2 hI => by
      obtain ⟨r, sum⟩ := st
      obtain ⟨hI, hs⟩ := hI
      dsimp only at hI hs
      subst hs
      dsimp only
      rw [lr_dot (L := L) (R := R) hl hI hc hp2 hc.le hf (fun k hk => by simp [hk]), Res.ok_bind,
        ha.get c p hc hp2, Res.ok_bind, Ext.sub_fin]
      have e : A c p - (lrExtra n L R c p + ∑ k ∈ range c, L c k * R k p) = R c p := by
        have := hR p hp1 hp2
        linear_combination -this
      rw [e]
      obtain ⟨r', h1, h2⟩ := hI.exec_put (R c p) hc hp2
      rw [h1, Res.ok_bind]
      refine ⟨_, rfl, h2.congr fun i j _ _ => ?_, ?_⟩
      · by_cases hi : i = c
        · by_cases hj : j = p
          · simp [hi, hj]
          · have : j < p + 1 ↔ j < p := by omega
            simp [hi, hj, this]
        · simp [hi]
      · dsimp only
        unfold lrExtra
        rw [Finset.sum_Ico_succ_top hp1, add_assoc])
  refine ⟨r', s', h1, h2.congr fun i j _ hj => ?_⟩
  have : (i < c ∨ (i = c ∧ (j < n ∨ c = 0))) ↔ i < c + 1 := by
    constructor
    · intro h; omega
    · intro h; omega
  simp only [this]

/-- The column `c` of `L`. -/
theorem lr_col (ha : MatIs a n n (fun i j => .fin (A i j))) {L R : Nat → Nat → K} {c : Nat} (hc : c < n)
    (hL : ∀ i, c < i → i < n → ∑ k ∈ range c, L i k * R k c + L i c * R c c = A i c) (hp : R c c ≠ 0)
    {l r : Mat (Ext K)} {g : Nat → Nat → Ext K} (hr : MatIs r n n g) (hg : ∀ k, k < c → g k c = .fin (R k c))
    (hl : MatIs l n n (fun i j => .fin (if j < c ∨ j = 0 ∨ i ≤ j then L i j else 0))) (s : Ext K) :
    ∃ l' s', foldRange (c + 1) n (fun row (st : Mat (Ext K) × Ext K) => do
      let (l, _) := st
      let sum ← foldRange 0 c
        (fun k (sum : Ext K) => do
          .ok (sum +ᶠ ((← l.getElement row k) *ᶠ (← r.getElement k c)))) (lit 0)
      let element := ((← a.getElement row c) -ᶠ sum) /ᶠ (.fin (R c c))
      let l ← exec l (Mat.setElement row c element)
      .ok (l, sum)) (l, s) = .ok (l', s') ∧
      MatIs l' n n (fun i j => .fin (if j < c + 1 ∨ j = 0 ∨ i ≤ j then L i j else 0)) ∧
      (c + 1 < n → s' = .fin (lrLeft n L R (c + 1))) := by
  obtain ⟨⟨l', s'⟩, h1, h2, h3⟩ := foldRange_inv (ε := LinalgError)
    (fun row (st : Mat (Ext K) × Ext K) => do
      let (l, _) := st
      let sum ← foldRange 0 c
        (fun k (sum : Ext K) => do
          .ok (sum +ᶠ ((← l.getElement row k) *ᶠ (← r.getElement k c)))) (lit 0)
      let element := ((← a.getElement row c) -ᶠ sum) /ᶠ (.fin (R c c))
      let l ← exec l (Mat.setElement row c element)
      .ok (l, sum))
    (fun p (st : Mat (Ext K) × Ext K) =>
      MatIs st.1 n n (fun i j => .fin (if j < c ∨ j = 0 ∨ i ≤ j ∨ (j = c ∧ i < p) then L i j else 0)) ∧
      (c + 1 < p → st.2 = .fin (∑ k ∈ range c, L (p - 1) k * R k c)))
    (c + 1) n hc (l, s)
    ⟨hl.congr fun i j _ _ => by
      have : (j < c ∨ j = 0 ∨ i ≤ j ∨ (j = c ∧ i < c + 1)) ↔ (j < c ∨ j = 0 ∨ i ≤ j) := by omega
      simp only [this], fun h => absurd h (lt_irrefl _)⟩
    (fun p st hp1 hp2 hI => by
      obtain ⟨l, sum⟩ := st
      obtain ⟨hI, hs⟩ := hI
      dsimp only at hI hs
      dsimp only
      rw [Ext.lit_zero, lr_dot (L := L) (R := R) hI hr hp2 hc hc.le (fun k hk => by simp [hk]) hg, Res.ok_bind,
        ha.get p c hp2 hc, Res.ok_bind, Ext.sub_fin, Ext.div_fin _ hp]
      have e : (A p c - (0 + ∑ k ∈ range c, L p k * R k c)) / R c c = L p c := by
        rw [div_eq_iff hp]
        have := hL p (by omega) hp2
        linear_combination -this
      rw [e]
      obtain ⟨l', h1, h2⟩ := hI.exec_put (L p c) hp2 hc
      rw [h1, Res.ok_bind]
      refine ⟨_, rfl, h2.congr fun i j _ _ => ?_, fun _ => by simp⟩
      by_cases hi : i = p ∧ j = c
      · simp [hi.1, hi.2]
      · have : (j < c ∨ j = 0 ∨ i ≤ j ∨ (j = c ∧ i < p + 1)) ↔ (j < c ∨ j = 0 ∨ i ≤ j ∨ (j = c ∧ i < p)) := by
          omega
        simp only [hi, if_false, this])
  refine ⟨l', s', h1, h2.congr fun i j hi _ => ?_, fun h => ?_⟩
  · have : (j < c ∨ j = 0 ∨ i ≤ j ∨ (j = c ∧ i < n)) ↔ (j < c + 1 ∨ j = 0 ∨ i ≤ j) := by omega
    simp only [this]
  · have := h3 h
    dsimp only at this
    rw [this]; simp [lrLeft]

/-- The factors that `lr` works with are determined up to the row and column `m`. -/
structure LrUpTo (n : Nat) (A L R : Nat → Nat → K) (m : Nat) : Prop where
  one : ∀ i, i < n → L i i = 1
  low : ∀ i j, i < j → j < n → L i j = 0
  up : ∀ i j, j < i → i < n → R i j = 0
  row : ∀ i, i < m → ∀ j, i ≤ j → j < n → ∑ k ∈ range i, L i k * R k j + R i j = A i j - lrExtra n L R i j
  col : ∀ j, j < m → ∀ i, j < i → i < n → ∑ k ∈ range j, L i k * R k j + L i j * R j j = A i j
  piv : ∀ j, j < m → j + 1 < n → R j j ≠ 0

theorem LrUpTo.mono {L R : Nat → Nat → K} {m m' : Nat} (h : LrUpTo n A L R m) (hm : m' ≤ m) : LrUpTo n A L R m' :=
  ⟨h.one, h.low, h.up, fun i hi => h.row i (by omega), fun j hj => h.col j (by omega), fun j hj => h.piv j (by omega)⟩

/-- The first `m` passes of the loop. -/
theorem lr_loop (ha : MatIs a n n (fun i j => .fin (A i j))) {L R : Nat → Nat → K} {m : Nat} (hm : m ≤ n)
    (hm1 : 1 ≤ m) (h : LrUpTo n A L R m) (hA : A 0 0 ≠ 0)
    {l r : Mat (Ext K)}
    (hl : MatIs l n n (fun i j => .fin (if j = 0 then A i 0 / A 0 0 else if i = j then 1 else 0)))
    (hr : MatIs r n n (fun i j => .fin (if i = 0 then A 0 j else 0))) :
    ∃ l' r' s, foldRange 0 m (lrBody a n) (l, r, .fin 0) = .ok (l', r', s) ∧
      MatIs l' n n (fun i j => .fin (if j < m ∨ j = 0 ∨ i ≤ j then L i j else 0)) ∧
      MatIs r' n n (fun i j => .fin (if i < m ∨ i = 0 then R i j else 0)) ∧
      (m < n → s = .fin (lrLeft n L R m)) := by
  have h0 : ∀ j, j < n → R 0 j = A 0 j := fun j hj => by
    have := h.row 0 (by omega) j (by omega) hj
    simpa [lrExtra, lrLeft] using this
  have hL0 : ∀ i, i < n → L i 0 = A i 0 / A 0 0 := fun i hi => by
    rcases Nat.eq_zero_or_pos i with rfl | hp
    · rw [h.one 0 hi, div_self hA]
    · rw [eq_div_iff hA, ← h0 0 (by omega)]
      simpa using h.col 0 (by omega) i hp hi
  obtain ⟨⟨l', r', s⟩, h1, h2, h3, h4⟩ := foldRange_inv (ε := LinalgError) (lrBody a n)
    (fun c (st : Mat (Ext K) × Mat (Ext K) × Ext K) =>
      MatIs st.1 n n (fun i j => .fin (if j < c ∨ j = 0 ∨ i ≤ j then L i j else 0)) ∧
      MatIs st.2.1 n n (fun i j => .fin (if i < c ∨ i = 0 then R i j else 0)) ∧
      (c < n → st.2.2 = .fin (lrLeft n L R c)))
    0 m (Nat.zero_le _) (l, r, .fin 0)
    ⟨hl.congr fun i j hin hjn => by
      by_cases hj : j = 0
      · simp [hj, hL0 i hin]
      · by_cases hi : i = j
        · simp [hi, hj, h.one j hjn]
        · by_cases hij : i ≤ j
          · simp [hj, hi, hij, h.low i j (by omega) hjn]
          · simp [hj, hi, hij],
      hr.congr fun i j _ hjn => by
        by_cases hi : i = 0
        · simp [hi, h0 j hjn]
        · simp [hi],
      fun _ => by simp [lrLeft]⟩
    (fun c st _ hc hI => by
      obtain ⟨l, r, s⟩ := st
      obtain ⟨h1, h2, h3⟩ := hI
      dsimp only at h1 h2 h3
      have hcn : c < n := by omega
      rw [h3 hcn]
      obtain ⟨r', s', e1, hr'⟩ := lr_row ha hcn (fun j hj => h.up c j hj hcn) (h.row c hc) h1
        (fun k hk => by simp [hk]) (h2.congr fun i j _ _ => by
          have : (i < c ∨ i = 0) ↔ (i < c ∨ (i = 0 ∧ i < c + 1)) := by omega
          simp only [this])
      unfold lrBody
      dsimp only
      rw [e1, Res.ok_bind]
      dsimp only
      rw [hr'.get c c hcn hcn, Res.ok_bind]
      simp only [Nat.lt_succ_self, if_true, Ext.lit_zero, allclose_fin, Res.ok_bind]
      by_cases hlast : c + 1 < n
      · obtain ⟨l', s'', e2, hl', hs⟩ := lr_col ha hcn (h.col c hc) (h.piv c hc hlast) hr'
          (fun k hk => by simp [Nat.lt_succ_of_lt hk]) h1 s'
        rw [Ext.lit_zero] at e2
        rw [e2, Res.ok_bind]
        refine ⟨_, rfl, hl', hr'.congr fun i j _ _ => ?_, hs⟩
        have : i < c + 1 ↔ (i < c + 1 ∨ i = 0) := by omega
        simp only [← this]
      · rw [foldRange_empty _ _ _ (by omega), Res.ok_bind]
        refine ⟨_, rfl, h1.congr fun i j hi hj => ?_, hr'.congr fun i j _ _ => ?_, fun h => absurd h hlast⟩
        · have : (j < c ∨ j = 0 ∨ i ≤ j) ↔ (j < c + 1 ∨ j = 0 ∨ i ≤ j) := by omega
          simp only [this]
        · have : i < c + 1 ↔ (i < c + 1 ∨ i = 0) := by omega
          simp only [← this])
  exact ⟨l', r', s, h1, h2, h3, h4⟩

/-- A value that is not finite is refused. -/
theorem lr_put_bad {l : Mat (Ext K)} {f : Nat → Nat → Ext K} (hl : MatIs l n n f) {i j : Nat} (hi : i < n)
    (hj : j < n) (x : K) :
    ∃ e, (e = .Nan ∨ e = .Inf) ∧
      exec l (Mat.setElement i j ((.fin x : Ext K) /ᶠ .fin 0)) = .error (.err (.UtilsError e)) := by
  have key : ∀ y : Ext K, ¬Finite y → ∃ e, (e = .Nan ∨ e = .Inf) ∧
      exec l (Mat.setElement i j y) = .error (.err (.UtilsError e)) := by
    intro y hy
    have := Mat.setElement_eq (x := y) hl.init (i := i) (j := j) (by rw [hl.rows_eq]; omega)
      (by rw [hl.cols_eq]; omega) (by
        have h1 := hl.cols_eq
        have h2 := hl.cle
        have : i * l.cols ≤ 3 * 4 := Nat.mul_le_mul (by omega) (by omega)
        omega)
    rw [if_neg hy] at this
    rcases y with y | _ | _ | _
    · exact absurd (Ext.finite_fin y) hy
    all_goals first
      | exact ⟨.Nan, Or.inl rfl, exec_err (s' := l) this⟩
      | exact ⟨.Inf, Or.inr rfl, exec_err (s' := l) this⟩
  exact key _ (fun h => Ext.div_zero _ h)

/-- A zero pivot before the last one makes `lr` fail. -/
theorem lr_stuck (ha : MatIs a n n (fun i j => .fin (A i j))) {L R : Nat → Nat → K} {m : Nat} (hm : m + 1 < n)
    (hm1 : 1 ≤ m) (h : LrUpTo n A L R m) (hA : A 0 0 ≠ 0)
    (hrow : ∀ j, m ≤ j → j < n → ∑ k ∈ range m, L m k * R k j + R m j = A m j - lrExtra n L R m j)
    (hz : R m m = 0) {l r : Mat (Ext K)}
    (hl : MatIs l n n (fun i j => .fin (if j = 0 then A i 0 / A 0 0 else if i = j then 1 else 0)))
    (hr : MatIs r n n (fun i j => .fin (if i = 0 then A 0 j else 0))) :
    ∃ e, (e = .Nan ∨ e = .Inf) ∧
      foldRange 0 n (lrBody a n) (l, r, .fin 0) = .error (.err (.UtilsError e)) := by
  obtain ⟨l1, r1, s1, e1, hl1, hr1, hs1⟩ := lr_loop ha (by omega) hm1 h hA hl hr
  obtain ⟨r2, s2, e2, hr2⟩ := lr_row ha (L := L) (R := R) (c := m) (by omega)
    (fun j hj => h.up m j hj (by omega)) hrow hl1
    (fun k hk => by simp [hk]) (hr1.congr fun i j _ _ => by
      have : (i < m ∨ i = 0) ↔ (i < m ∨ (i = 0 ∧ i < m + 1)) := by omega
      simp only [this])
  obtain ⟨e, he, hbad⟩ := lr_put_bad hl1 (i := m + 1) (j := m) hm (by omega)
    (A (m + 1) m - (0 + ∑ k ∈ range m, L (m + 1) k * R k m))
  refine ⟨e, he, ?_⟩
  rw [foldRange_split _ 0 m n (by omega) (by omega), e1, Res.ok_bind, hs1 (by omega)]
  obtain ⟨d, hd⟩ : ∃ d, n - m = d + 1 := ⟨n - m - 1, by omega⟩
  have hd' : n - (m + 1) = (d - 1) + 1 := by omega
  unfold foldRange
  rw [hd, foldFrom_succ]
  unfold lrBody
  dsimp only
  rw [e2, Res.ok_bind]
  dsimp only
  rw [hr2.get m m (by omega) (by omega), Res.ok_bind]
  simp only [Nat.lt_succ_self, if_true, Ext.lit_zero, allclose_fin, Res.ok_bind, hz]
  unfold foldRange
  rw [hd', foldFrom_succ]
  have hdot := lr_dot (L := L) (R := R) hl1 hr2 (i := m + 1) (j := m) (m := m) hm (by omega) (by omega)
    (fun k hk => by simp [hk]) (fun k hk => by simp [Nat.lt_succ_of_lt hk]) 0
  unfold foldRange at hdot
  dsimp only
  rw [hdot, Res.ok_bind, ha.get (m + 1) m hm (by omega), Res.ok_bind, Ext.sub_fin, hbad]
  rfl

/-- `lr` up to its main loop. -/
theorem lr_main (ha : MatIs a n n (fun i j => .fin (A i j))) (hA : A 0 0 ≠ 0) :
    ∃ l r, MatIs l n n (fun i j => .fin (if j = 0 then A i 0 / A 0 0 else if i = j then 1 else 0)) ∧
      MatIs r n n (fun i j => .fin (if i = 0 then A 0 j else 0)) ∧
      a.lr = (foldRange 0 n (lrBody a n) (l, r, .fin 0) >>= fun st => .ok (st.1, st.2.1)) := by
  obtain ⟨l0, el0, hl0⟩ := Mat.identity_fin (K := K) (Mat.zeros_of ha)
  have hr0 : MatIs (Mat.zeros n n : Mat (Ext K)) n n (fun _ _ => .fin 0) :=
    (Mat.zeros_of ha).congr fun _ _ _ _ => by simp
  obtain ⟨r1, er1, hr1⟩ := lr_first_row ha hr0
  obtain ⟨l1, el1, hl1⟩ := lr_first_col ha hl0 hr1 hA
  refine ⟨l1, r1, hl1, hr1, ?_⟩
  unfold Mat.lr
  simp only [Mat.isSquare_eq ha, Res.ok_bind, decide_true, Bool.not_true, Bool.false_eq_true, if_false,
    ha.rows_eq, Mat.init_of ha, el0, er1, el1]
  rw [← Ext.lit_zero]
  rfl

theorem lr_returns (ha : MatIs a n n (fun i j => .fin (A i j))) (hA : A 0 0 ≠ 0) {L R : Nat → Nat → K}
    (h : LrUpTo n A L R n) :
    ∃ l r, a.lr = .ok (l, r) ∧ MatIs l n n (fun i j => .fin (L i j)) ∧ MatIs r n n (fun i j => .fin (R i j)) := by
  obtain ⟨l0, r0, hl0, hr0, e⟩ := lr_main ha hA
  obtain ⟨l, r, s, e1, hl, hr, _⟩ := lr_loop ha le_rfl ha.rpos h hA hl0 hr0
  rw [e, e1]
  exact ⟨l, r, rfl, hl.congr fun i j hi hj => by simp [hj], hr.congr fun i j hi hj => by simp [hi]⟩

/-- Rows of `R` and columns of `L` beyond `i` do not matter for what is subtracted in row `i`. -/
theorem lrExtra_congr {L R L' R' : Nat → Nat → K} {i j : Nat}
    (h1 : ∀ p k, k < i → L p k = L' p k) (h2 : ∀ k p, k < i → R k p = R' k p) :
    lrExtra n L R i j = lrExtra n L' R' i j := by
  unfold lrExtra lrLeft
  congr 1
  · refine Finset.sum_congr rfl fun k hk => ?_
    rw [Finset.mem_range] at hk
    rw [h1 _ _ (by omega), h2 _ _ (by omega)]
  · refine Finset.sum_congr rfl fun p _ => Finset.sum_congr rfl fun k hk => ?_
    rw [Finset.mem_range] at hk
    rw [h1 _ _ hk, h2 _ _ hk]

/-- The factors exist up to the first zero pivot. -/
theorem lr_exists (n : Nat) (A : Nat → Nat → K) (m : Nat) (hm : m ≤ n) :
    (∃ L R, LrUpTo n A L R m) ∨ ∃ k L R, k + 1 < n ∧ LrUpTo n A L R k ∧
      (∀ j, k ≤ j → j < n → ∑ p ∈ range k, L k p * R p j + R k j = A k j - lrExtra n L R k j) ∧ R k k = 0 := by
  induction m with
  | zero =>
    left
    refine ⟨fun i j => if i = j then 1 else 0, fun _ _ => 0, fun i _ => by simp, fun i j h _ => ?_, fun _ _ _ _ => rfl,
      fun i h => by omega, fun i h => by omega, fun i h => by omega⟩
    rw [if_neg (by omega)]
  | succ m ih =>
    rcases ih (by omega) with ⟨L, R, h⟩ | h
    swap
    · exact Or.inr h
    let R' : Nat → Nat → K := fun i j => if i = m then
      (if j < m then 0 else A m j - lrExtra n L R m j - ∑ k ∈ range m, L m k * R k j) else R i j
    have hR' : ∀ k p, k < m → R' k p = R k p := fun k p hk => by
      simp only [R']; rw [if_neg (by omega)]
    have hrow' : ∀ i, i < m → ∀ j, i ≤ j → j < n →
        ∑ k ∈ range i, L i k * R' k j + R' i j = A i j - lrExtra n L R' i j := fun i hi j h1 h2 => by
      rw [hR' i j hi, Finset.sum_congr rfl fun k hk => by rw [hR' k j (by rw [Finset.mem_range] at hk; omega)],
        lrExtra_congr (L' := L) (R' := R) (fun _ _ _ => rfl) (fun k p hk => hR' k p (by omega))]
      exact h.row i hi j h1 h2
    have hcol' : ∀ j, j < m → ∀ i, j < i → i < n → ∑ k ∈ range j, L i k * R' k j + L i j * R' j j = A i j :=
      fun j hj i h1 h2 => by
        rw [hR' j j hj, Finset.sum_congr rfl fun k hk => by rw [hR' k j (by rw [Finset.mem_range] at hk; omega)]]
        exact h.col j hj i h1 h2
    have hnew : ∀ j, m ≤ j → j < n → ∑ k ∈ range m, L m k * R' k j + R' m j = A m j - lrExtra n L R' m j :=
      fun j h1 h2 => by
        rw [Finset.sum_congr rfl fun k hk => by rw [hR' k j (by rw [Finset.mem_range] at hk; omega)],
          lrExtra_congr (L' := L) (R' := R) (fun _ _ _ => rfl) (fun k p hk => hR' k p hk)]
        simp only [R', if_true]
        rw [if_neg (by omega)]
        ring
    have hup' : ∀ i j, j < i → i < n → R' i j = 0 := fun i j h1 h2 => by
      simp only [R']
      by_cases hi : i = m
      · rw [if_pos hi, if_pos (by omega)]
      · rw [if_neg hi]; exact h.up i j h1 h2
    have hpiv' : ∀ j, j < m → j + 1 < n → R' j j ≠ 0 := fun j h1 h2 => by
      rw [hR' j j h1]; exact h.piv j h1 h2
    by_cases hz : m + 1 < n ∧ R' m m = 0
    · exact Or.inr ⟨m, L, R', hz.1, ⟨h.one, h.low, hup', hrow', hcol', hpiv'⟩, hnew, hz.2⟩
    left
    let L' : Nat → Nat → K := fun i j => if j = m ∧ m < i then
      (A i m - ∑ k ∈ range m, L i k * R' k m) / R' m m else L i j
    have hL' : ∀ i j, j < m → L' i j = L i j := fun i j hj => by
      simp only [L']; rw [if_neg (by omega)]
    refine ⟨L', R', fun i hi => ?_, fun i j h1 h2 => ?_, hup', fun i hi j h1 h2 => ?_, fun j hj i h1 h2 => ?_,
      fun j h1 h2 => ?_⟩
    · simp only [L']; rw [if_neg (by omega)]; exact h.one i hi
    · simp only [L']; rw [if_neg (by omega)]; exact h.low i j h1 h2
    · rw [Finset.sum_congr rfl fun k hk => by rw [hL' i k (by rw [Finset.mem_range] at hk; omega)],
        lrExtra_congr (L' := L) (R' := R') (fun p k hk => hL' p k (by omega)) (fun _ _ _ => rfl)]
      rcases Nat.lt_succ_iff_lt_or_eq.mp hi with hi | rfl
      · exact hrow' i hi j h1 h2
      · exact hnew j h1 h2
    · rw [Finset.sum_congr rfl fun k hk => by rw [hL' i k (by rw [Finset.mem_range] at hk; omega)]]
      rcases Nat.lt_succ_iff_lt_or_eq.mp hj with hj | rfl
      · rw [hL' i j hj]
        exact hcol' j hj i h1 h2
      · have hp : R' j j ≠ 0 := fun h => hz ⟨by omega, h⟩
        simp only [L']
        rw [if_pos ⟨trivial, h1⟩, div_mul_cancel₀ _ hp]
        ring
    · rcases Nat.lt_succ_iff_lt_or_eq.mp h1 with h1 | rfl
      · exact hpiv' j h1 h2
      · exact fun h => hz ⟨h2, h⟩

/-- The product of the factors, from the recurrences. -/
theorem LrUpTo.product {L R : Nat → Nat → K} (h : LrUpTo n A L R n) {i j : Nat} (hi : i < n) (hj : j < n) :
    ∑ k ∈ range n, L i k * R k j = A i j - if i ≤ j then lrExtra n L R i j else 0 := by
  have cut : ∀ m, m < n → (∀ k, m < k → k < n → L i k * R k j = 0) →
      ∑ k ∈ range n, L i k * R k j = ∑ k ∈ range m, L i k * R k j + L i m * R m j := fun m hm hk => by
    rw [← Finset.sum_range_succ]
    refine (Finset.sum_subset (fun x hx => ?_) fun x hx hx' => ?_).symm
    · rw [Finset.mem_range] at *; omega
    · rw [Finset.mem_range] at *; exact hk x (by omega) hx
  by_cases hij : i ≤ j
  · rw [if_pos hij, cut i hi fun k h1 h2 => by rw [h.low i k h1 h2, zero_mul], h.one i hi, one_mul]
    exact h.row i hi j hij hj
  · rw [if_neg hij, sub_zero, cut j hj fun k h1 h2 => by rw [h.up k j h1 h2, mul_zero]]
    exact h.col j hj i (by omega) hi

theorem LrUpTo.of_product {L R : Nat → Nat → K} (one : ∀ i, i < n → L i i = 1)
    (low : ∀ i j, i < j → j < n → L i j = 0) (up : ∀ i j, j < i → i < n → R i j = 0)
    (piv : ∀ j, j + 1 < n → R j j ≠ 0)
    (h : ∀ i j, i < n → j < n → ∑ k ∈ range n, L i k * R k j = A i j - if i ≤ j then lrExtra n L R i j else 0) :
    LrUpTo n A L R n := by
  have cut : ∀ i j m, m < n → (∀ k, m < k → k < n → L i k * R k j = 0) →
      ∑ k ∈ range n, L i k * R k j = ∑ k ∈ range m, L i k * R k j + L i m * R m j := fun i j m hm hk => by
    rw [← Finset.sum_range_succ]
    refine (Finset.sum_subset (fun x hx => ?_) fun x hx hx' => ?_).symm
    · rw [Finset.mem_range] at *; omega
    · rw [Finset.mem_range] at *; exact hk x (by omega) hx
  refine ⟨one, low, up, fun i hi j h1 h2 => ?_, fun j hj i h1 h2 => ?_, fun j _ => piv j⟩
  · have := h i j hi h2
    rwa [if_pos h1, cut i j i hi fun k h1 h2 => by rw [low i k h1 h2, zero_mul], one i hi, one_mul] at this
  · have := h i j h2 hj
    rwa [if_neg (by omega), sub_zero, cut i j j hj fun k h1 h2 => by rw [up k j h1 h2, mul_zero]] at this

/-- C26: the outcome of `lr` for every size.  When no pivot before the last one is zero, it returns a unit lower
triangular `L` and an upper triangular `R`; the product `L * R` is the matrix below the diagonal, and on and above it
differs from the matrix by exactly the products that were left in the sum.  Otherwise it fails with `Nan` or `Inf`. -/
theorem C26_all_sizes (ha : MatIs a n n (fun i j => .fin (A i j))) (hA : A 0 0 ≠ 0) :
    (∃ l r, a.lr = .ok (l, r) ∧ ∃ L R : Nat → Nat → K,
      MatIs l n n (fun i j => .fin (L i j)) ∧ MatIs r n n (fun i j => .fin (R i j)) ∧
      (∀ i, i < n → L i i = 1) ∧ (∀ i j, i < j → j < n → L i j = 0) ∧ (∀ i j, j < i → i < n → R i j = 0) ∧
      (∀ j, j + 1 < n → R j j ≠ 0) ∧
      (∀ i j, j < i → i < n → ∑ k ∈ range n, L i k * R k j = A i j) ∧
      ∀ i j, i ≤ j → j < n → ∑ k ∈ range n, L i k * R k j = A i j -
        (∑ k ∈ range (i - 1), L (n - 1) k * R k (i - 1) + ∑ p ∈ Ico i j, ∑ k ∈ range i, L i k * R k p)) ∨
    ∃ e, (e = .Nan ∨ e = .Inf) ∧ a.lr = .error (.err (.UtilsError e)) := by
  rcases lr_exists n A n le_rfl with ⟨L, R, h⟩ | ⟨k, L, R, hk, h, hrow, hz⟩
  · left
    obtain ⟨l, r, e, hl, hr⟩ := lr_returns ha hA h
    refine ⟨l, r, e, L, R, hl, hr, h.one, h.low, h.up, fun j hj => h.piv j (by omega) hj, fun i j h1 h2 => ?_,
      fun i j h1 h2 => ?_⟩
    · rw [h.product h2 (by omega), if_neg (by omega), sub_zero]
    · rw [h.product (by omega) h2, if_pos h1]; rfl
  · right
    obtain ⟨l0, r0, hl0, hr0, e⟩ := lr_main ha hA
    have hk1 : 1 ≤ k := by
      rcases Nat.eq_zero_or_pos k with rfl | hp
      · have := hrow 0 le_rfl (by omega)
        simp [lrExtra, lrLeft, hz] at this
        exact absurd this.symm hA
      · exact hp
    obtain ⟨e', he', h'⟩ := lr_stuck ha hk hk1 h hA hrow hz hl0 hr0
    rw [e, h']
    exact ⟨e', he', rfl⟩

/-- C26: triangular factors with non-zero pivots whose product has that defect are what `lr` returns. -/
theorem C26_returns (ha : MatIs a n n (fun i j => .fin (A i j))) (hA : A 0 0 ≠ 0) {L R : Nat → Nat → K}
    (one : ∀ i, i < n → L i i = 1) (low : ∀ i j, i < j → j < n → L i j = 0)
    (up : ∀ i j, j < i → i < n → R i j = 0) (piv : ∀ j, j + 1 < n → R j j ≠ 0)
    (below : ∀ i j, j < i → i < n → ∑ k ∈ range n, L i k * R k j = A i j)
    (above : ∀ i j, i ≤ j → j < n → ∑ k ∈ range n, L i k * R k j = A i j -
        (∑ k ∈ range (i - 1), L (n - 1) k * R k (i - 1) + ∑ p ∈ Ico i j, ∑ k ∈ range i, L i k * R k p)) :
    ∃ l r, a.lr = .ok (l, r) ∧ MatIs l n n (fun i j => .fin (L i j)) ∧ MatIs r n n (fun i j => .fin (R i j)) := by
  refine lr_returns ha hA (LrUpTo.of_product one low up piv fun i j hi hj => ?_)
  by_cases h : i ≤ j
  · rw [if_pos h]; exact above i j h hj
  · rw [if_neg h, sub_zero]; exact below i j (by omega) hi

/-- C26: an upper triangular matrix is its own factor `R`, for every size. -/
theorem C26_upper (ha : MatIs a n n (fun i j => .fin (A i j))) (hA : A 0 0 ≠ 0)
    (hup : ∀ i j, j < i → i < n → A i j = 0) (hd : ∀ j, j + 1 < n → A j j ≠ 0) :
    ∃ l r, a.lr = .ok (l, r) ∧ MatIs l n n (fun i j => .fin (if i = j then 1 else 0)) ∧
      MatIs r n n (fun i j => .fin (A i j)) := by
  have hz : ∀ i j m, m ≤ i → ∑ k ∈ range m, (if i = k then (1 : K) else 0) * A k j = 0 := fun i j m hm =>
    Finset.sum_eq_zero fun k hk => by
      rw [Finset.mem_range] at hk
      rw [if_neg (by omega), zero_mul]
  have hs : ∀ i j, i < n → ∑ k ∈ range n, (if i = k then (1 : K) else 0) * A k j = A i j := fun i j hi => by
    simp [Finset.mem_range.mpr hi]
  refine C26_returns (L := fun i j => if i = j then 1 else 0) (R := A) ha hA (fun i _ => by simp)
    (fun i j h _ => by simp; omega) hup hd (fun i j _ hi => hs i j hi) fun i j hij hj => ?_
  rw [hs i j (by omega), hz (n - 1) (i - 1) (i - 1) (by omega),
    Finset.sum_eq_zero fun p _ => hz i p i le_rfl]
  ring

/-- C26: for size 3 the product of the factors is the matrix exactly when neither product that is left in the sum
counts. -/
theorem C26_three (ha : MatIs a 3 3 (fun i j => .fin (A i j))) (hA : A 0 0 ≠ 0)
    (h1 : A 0 0 * A 1 1 - A 0 1 * A 1 0 ≠ 0) :
    ∃ l r, a.lr = .ok (l, r) ∧ ∃ L R : Nat → Nat → K,
      MatIs l 3 3 (fun i j => .fin (L i j)) ∧ MatIs r 3 3 (fun i j => .fin (R i j)) ∧
      (toMatrix 3 3 L * toMatrix 3 3 R = toMatrix 3 3 A ↔ A 0 1 * A 1 0 = 0 ∧ A 0 1 * A 2 0 = 0) := by
  have key : ∃ L R : Nat → Nat → K, LrUpTo 3 A L R 3 ∧ L 1 0 * A 0 0 = A 1 0 ∧ L 2 0 * A 0 0 = A 2 0 ∧ R 0 1 = A 0 1 := by
    rcases lr_exists 3 A 3 le_rfl with ⟨L, R, h⟩ | ⟨k, L, R, hk, h, hrow, hz⟩
    · have r0 := fun j => h.row 0 (by omega) j (by omega)
      have c0 := h.col 0 (by omega)
      have e0 := r0 0 (by omega)
      have e1 := r0 1 (by omega)
      have e2 := c0 1 (by omega) (by omega)
      have e3 := c0 2 (by omega) (by omega)
      simp [lrExtra, lrLeft] at e0 e1 e2 e3
      rw [e0] at e2 e3
      exact ⟨L, R, h, e2, e3, e1⟩
    · exfalso
      have hk' : k = 0 ∨ k = 1 := by omega
      rcases hk' with rfl | rfl
      · have := hrow 0 le_rfl (by omega)
        simp [lrExtra, lrLeft, hz] at this
        exact hA this.symm
      · have r0 := fun j => h.row 0 (by omega) j (by omega)
        have e0 := r0 0 (by omega)
        have e1 := r0 1 (by omega)
        have e2 := h.col 0 (by omega) 1 (by omega) (by omega)
        have e3 := hrow 1 le_rfl (by omega)
        simp [lrExtra, lrLeft, hz] at e0 e1 e2 e3
        rw [e0] at e2
        rw [e1] at e3
        apply h1
        rw [← e3, ← e2]; ring
  obtain ⟨L, R, h, e1, e2, e3⟩ := key
  obtain ⟨l, r, e, hl, hr⟩ := lr_returns ha hA h
  refine ⟨l, r, e, L, R, hl, hr, ?_⟩
  rw [toMatrix_mul, toMatrix_inj]
  have hp := fun i j hi hj => h.product (i := i) (j := j) hi hj
  constructor
  · intro H
    have d1 := hp 1 2 (by omega) (by omega)
    have d2 := hp 2 2 (by omega) (by omega)
    rw [H 1 2 (by omega) (by omega)] at d1
    rw [H 2 2 (by omega) (by omega)] at d2
    simp [lrExtra, lrLeft, Finset.sum_Ico_succ_top] at d1 d2
    rw [← e1, ← e2, ← e3]
    constructor
    · linear_combination A 0 0 * d1
    · linear_combination A 0 0 * d2
  · rintro ⟨h1, h2⟩ i j hi hj
    have d1 : L 1 0 * R 0 1 = 0 := by
      rw [e3]
      apply mul_right_cancel₀ hA
      rw [zero_mul, ← h1, ← e1]; ring
    have d2 : L 2 0 * R 0 1 = 0 := by
      rw [e3]
      apply mul_right_cancel₀ hA
      rw [zero_mul, ← h2, ← e2]; ring
    rw [hp i j hi hj]
    have ci : i = 0 ∨ i = 1 ∨ i = 2 := by omega
    have cj : j = 0 ∨ j = 1 ∨ j = 2 := by omega
    rcases ci with rfl | rfl | rfl <;> rcases cj with rfl | rfl | rfl <;>
      simp [lrExtra, lrLeft, Finset.sum_Ico_succ_top, Finset.sum_range_succ, d1, d2]

/-- C26: below the diagonal, in the first row and at (1,1) the product is always the matrix. -/
theorem C26_where_right {l r : Mat (Ext K)} (ha : MatIs a n n (fun i j => .fin (A i j))) (h : a.lr = .ok (l, r))
    {i j : Nat} (hi : i < n) (hj : j < n) (hij : j < i ∨ i = 0 ∨ (i = 1 ∧ j = 1)) :
    ∃ L R : Nat → Nat → K, MatIs l n n (fun i j => .fin (L i j)) ∧ MatIs r n n (fun i j => .fin (R i j)) ∧
      ∑ k ∈ range n, L i k * R k j = A i j := by
  have hA : A 0 0 ≠ 0 := fun h0 => by rw [C26_lr_zero ha h0] at h; cases h
  rcases C26_all_sizes ha hA with ⟨l', r', e, L, R, hl, hr, _, _, _, _, hb, hab⟩ | ⟨e, _, h'⟩
  · rw [h] at e
    cases e
    refine ⟨L, R, hl, hr, ?_⟩
    rcases hij with hij | rfl | ⟨rfl, rfl⟩
    · exact hb i j hij hi
    · rw [hab 0 j (by omega) hj]; simp
    · rw [hab 1 1 le_rfl hj]; simp
  · rw [h'] at h; cases h

/-! ### Examples -/

/-- A matrix of size 4. -/
def exLrA : Nat → Nat → ℚ := tbl [[2, 1, 1, 1], [4, 5, 3, 2], [2, 4, 6, 1], [2, 1, 3, 7]]

def exLr4 : Mat XQ := Mat.of 4 4 fun i j => .fin (exLrA i j)

theorem exLr4_is : MatIs exLr4 4 4 (fun i j => .fin (exLrA i j)) :=
  Mat.of_is _ (by decide) (by decide) (by decide) (by decide)

def exLrL : Nat → Nat → ℚ := tbl [[1, 0, 0, 0], [2, 1, 0, 0], [1, 1, 1, 0], [1, 0, 2 / 5, 1]]
def exLrR : Nat → Nat → ℚ := tbl [[2, 1, 1, 1], [0, 3, -1, -4], [0, 0, 5, 3], [0, 0, 0, 19 / 5]]

example : (∃ l r, exLr4.lr = .ok (l, r) ∧ ∃ L R : Nat → Nat → ℚ,
      MatIs l 4 4 (fun i j => .fin (L i j)) ∧ MatIs r 4 4 (fun i j => .fin (R i j)) ∧
      (∀ i, i < 4 → L i i = 1) ∧ (∀ i j, i < j → j < 4 → L i j = 0) ∧ (∀ i j, j < i → i < 4 → R i j = 0) ∧
      (∀ j, j + 1 < 4 → R j j ≠ 0) ∧
      (∀ i j, j < i → i < 4 → ∑ k ∈ range 4, L i k * R k j = exLrA i j) ∧
      ∀ i j, i ≤ j → j < 4 → ∑ k ∈ range 4, L i k * R k j = exLrA i j -
        (∑ k ∈ range (i - 1), L (4 - 1) k * R k (i - 1) + ∑ p ∈ Ico i j, ∑ k ∈ range i, L i k * R k p)) ∨
    ∃ e, (e = .Nan ∨ e = .Inf) ∧ exLr4.lr = .error (.err (.UtilsError e)) :=
  C26_all_sizes exLr4_is (by decide +kernel)

/-- The four elements that come out wrong. -/
example : factorsAt exLr4.lr 1 2 = .ok (.fin (3 - 2)) ∧ factorsAt exLr4.lr 1 3 = .ok (.fin (2 - 4)) ∧
    factorsAt exLr4.lr 2 2 = .ok (.fin (6 - 1)) ∧ factorsAt exLr4.lr 2 3 = .ok (.fin (1 - 1)) ∧
    factorsAt exLr4.lr 3 3 = .ok (.fin (7 - 1)) := by decide +kernel

example : ∃ l r, exLr4.lr = .ok (l, r) ∧ MatIs l 4 4 (fun i j => .fin (exLrL i j)) ∧
    MatIs r 4 4 (fun i j => .fin (exLrR i j)) := by
  refine C26_returns exLr4_is (by decide +kernel) ?_ ?_ ?_ ?_ ?_ ?_
  · decide +kernel
  · intro i j h1 h2
    have : i < 4 := by omega
    interval_cases j <;> interval_cases i <;> first | omega | decide +kernel
  · intro i j h1 h2
    have : j < 4 := by omega
    interval_cases j <;> interval_cases i <;> first | omega | decide +kernel
  · intro j h
    have : j < 3 := by omega
    interval_cases j <;> decide +kernel
  · intro i j h1 h2
    have : j < 4 := by omega
    interval_cases j <;> interval_cases i <;> first | omega | decide +kernel
  · intro i j h1 h2
    have : i < 4 := by omega
    interval_cases j <;> interval_cases i <;> first | omega | decide +kernel

/-- A zero pivot. -/
example : factorsAt (Mat.of 3 3 fun i j => (.fin (tbl [[1, 2, 3], [1, 2, 4], [2, 1, 1]] i j) : XQ)).lr 0 0 =
    .error (.err (.UtilsError .Inf)) := by decide +kernel

example : ∃ l r, (Mat.of 3 3 fun i j => (.fin (tbl [[2, 1, 5], [0, 3, 7], [0, 0, 0]] i j) : XQ)).lr = .ok (l, r) ∧
    MatIs l 3 3 (fun i j => .fin (if i = j then 1 else 0)) ∧
    MatIs r 3 3 (fun i j => .fin (tbl [[2, 1, 5], [0, 3, 7], [0, 0, 0]] i j)) := by
  refine C26_upper (Mat.of_is _ (by decide) (by decide) (by decide) (by decide)) (by decide +kernel) ?_ ?_
  · intro i j h1 h2
    have : j < 3 := by omega
    interval_cases j <;> interval_cases i <;> first | omega | decide +kernel
  · intro j h
    have : j < 2 := by omega
    interval_cases j <;> decide +kernel

/-- A full matrix of size 3 for which the product is not the matrix. -/
example : ∃ l r, exLr.lr = .ok (l, r) ∧ ∃ L R : Nat → Nat → ℚ,
    MatIs l 3 3 (fun i j => .fin (L i j)) ∧ MatIs r 3 3 (fun i j => .fin (R i j)) ∧
    toMatrix 3 3 L * toMatrix 3 3 R ≠ toMatrix 3 3 (tbl [[1, 1, 1], [1, 2, 3], [1, 3, 6]]) := by
  obtain ⟨l, r, e, L, R, hl, hr, h⟩ := C26_three (A := tbl [[1, 1, 1], [1, 2, 3], [1, 3, 6]]) (a := exLr)
    (Mat.of_is _ (by decide) (by decide) (by decide) (by decide)) (by decide +kernel) (by decide +kernel)
  exact ⟨l, r, e, L, R, hl, hr, fun h' => absurd (h.mp h') (by decide +kernel)⟩

/-- A matrix with 0 at (0,1), for which it is. -/
example : ∃ l r, (Mat.of 3 3 fun i j => (.fin (tbl [[1, 0, 1], [1, 2, 3], [1, 3, 6]] i j) : XQ)).lr = .ok (l, r) ∧
    ∃ L R : Nat → Nat → ℚ,
    MatIs l 3 3 (fun i j => .fin (L i j)) ∧ MatIs r 3 3 (fun i j => .fin (R i j)) ∧
    toMatrix 3 3 L * toMatrix 3 3 R = toMatrix 3 3 (tbl [[1, 0, 1], [1, 2, 3], [1, 3, 6]]) := by
  obtain ⟨l, r, e, L, R, hl, hr, h⟩ := C26_three (K := ℚ) (A := tbl [[1, 0, 1], [1, 2, 3], [1, 3, 6]])
    (Mat.of_is _ (by decide) (by decide) (by decide) (by decide)) (by decide +kernel) (by decide +kernel)
  exact ⟨l, r, e, L, R, hl, hr, h.mpr (by decide +kernel)⟩

example : ∃ l r, exLr4.lr = .ok (l, r) ∧ ∃ L R : Nat → Nat → ℚ,
    MatIs l 4 4 (fun i j => .fin (L i j)) ∧ MatIs r 4 4 (fun i j => .fin (R i j)) ∧
      ∑ k ∈ range 4, L 3 k * R k 2 = exLrA 3 2 := by
  rcases C26_all_sizes exLr4_is (by decide +kernel) with ⟨l, r, e, _⟩ | ⟨e, he, h⟩
  · exact ⟨l, r, e, C26_where_right exLr4_is e (by decide) (by decide) (by decide)⟩
  · exfalso
    have : factorsAt exLr4.lr 0 0 = .ok (.fin 2) := by decide +kernel
    rw [h] at this
    cases this

end Verif
