import Verif.Props.Qr

/-
`chol` (C29) in exact real arithmetic.
-/

set_option linter.unusedSectionVars false
set_option linter.unusedSimpArgs false

namespace Verif
open Scalar Finset

variable {a l : Mat XR} {n : Nat} {A L : Nat → Nat → ℝ}

theorem inv_mul_fin {d x : ℝ} (h : Finite (((lit 1 : XR) /ᶠ .fin d) *ᶠ .fin x)) :
    d ≠ 0 ∧ ((lit 1 : XR) /ᶠ .fin d) *ᶠ .fin x = .fin (1 / d * x) := by
  have hd : d ≠ 0 := by
    rintro rfl
    rw [Ext.lit_one] at h
    have e : ((.fin 1 : XR) /ᶠ .fin 0) = .pinf := by
      show Ext.div (.fin 1) (.fin 0) = _
      simp [Ext.div, Ext.infOf]
    rw [e, Ext.finite_iff] at h
    obtain ⟨c, hc⟩ := h
    have e2 : (.pinf : XR) *ᶠ .fin x = Ext.mul .pinf (.fin x) := rfl
    rw [e2] at hc
    simp only [Ext.mul, Ext.infOf] at hc
    split at hc
    · cases hc
    · split at hc <;> cases hc
  exact ⟨hd, by rw [Ext.lit_one, Ext.div_fin _ hd, Ext.mul_fin]⟩

theorem sqrt_finite {x : ℝ} (h : Finite (Scalar.sqrt (.fin x : XR))) :
    0 ≤ x ∧ Scalar.sqrt (.fin x : XR) = .fin (Real.sqrt x) := by
  have hx : 0 ≤ x := by
    by_contra hx
    have e : Scalar.sqrt (.fin x : XR) = Ext.sqrt (.fin x) := rfl
    rw [e, Ext.finite_iff] at h
    obtain ⟨c, hc⟩ := h
    simp [Ext.sqrt, hx] at hc
  exact ⟨hx, Ext.sqrt_fin hx⟩

/-- The products of two rows of the columns already computed. -/
theorem rowDot_fin (hl : MatIs l n n (fun i j => .fin (L i j))) {r1 r2 c : Nat} (h1 : r1 < n)
    (h2 : r2 < n) (hc : c ≤ n) :
    foldRange 0 c (fun k (s : XR) => do
      .ok (s +ᶠ ((← l.getElement r1 k) *ᶠ (← l.getElement r2 k))) : Nat → XR → Res LinalgError XR)
      (lit 0) = .ok (.fin (∑ k ∈ range c, L r1 k * L r2 k)) := by
  rw [foldRange_sumUp (t := fun k => (.fin (L r1 k * L r2 k) : XR)), sumUp_fin]
  intro i acc hi
  rw [hl.get r1 i h1 (by omega), Res.ok_bind, hl.get r2 i h2 (by omega), Res.ok_bind, Ext.mul_fin]

/-- What has been computed when the first `c` columns are done. -/
structure CholInv (n : Nat) (A : Nat → Nat → ℝ) (c : Nat) (L : Nat → Nat → ℝ) : Prop where
  lower : ∀ i j, j < n → i < j → L i j = 0
  later : ∀ i j, c ≤ j → j < n → i < n → L i j = 0
  diag : ∀ i, i < n → 0 ≤ L i i
  prod : ∀ i j, j < c → j ≤ i → i < n → ∑ k ∈ range (j + 1), L i k * L j k = A i j

theorem CholInv.above {c : Nat} (h : CholInv n A c L) (hs : ∀ i j, i < n → j < n → A i j = A j i) {i c' : Nat}
    (hi : i < c') (hic : i < c) (hc : c' < n) : ∑ k ∈ range c', L i k * L c' k = A i c' := by
  obtain ⟨d, rfl⟩ : ∃ d, c' = i + 1 + d := ⟨c' - (i + 1), by omega⟩
  rw [Finset.sum_range_add, Finset.sum_eq_zero (s := range d), add_zero, hs i _ (by omega) hc,
    ← h.prod (i + 1 + d) i hic (by omega) hc]
  · exact Finset.sum_congr rfl fun k _ => mul_comm _ _
  · intro k hk
    have := Finset.mem_range.mp hk
    rw [h.lower i (i + 1 + k) (by omega) (by omega), zero_mul]

theorem cholColumn_inv (ha : MatIs a n n (fun i j => .fin (A i j)))
    (hs : ∀ i j, i < n → j < n → A i j = A j i) {c : Nat} (hc : c < n)
    (hl : MatIs l n n (fun i j => .fin (L i j))) (h : CholInv n A c L) {l' : Mat XR}
    (he : a.cholColumn c l = .ok l') :
    ∃ L' : Nat → Nat → ℝ, MatIs l' n n (fun i j => .fin (L' i j)) ∧ CholInv n A (c + 1) L' := by
  unfold Mat.cholColumn at he
  rw [rowDot_fin hl hc hc hc.le, Res.ok_bind, hl.get c c hc hc, Res.ok_bind,
    h.later c c (le_refl _) hc hc, Ext.epsilon_eq, Ext.lt_fin,
    if_pos (decide_eq_true Linalg.eps_pos)] at he
  obtain ⟨l1, e1, hl1⟩ := hl.exec_put (epsilon ℝ) hc hc
  rw [e1, Res.ok_bind, ha.rows_eq] at he
  set S : Nat → ℝ := fun i => ∑ k ∈ range c, L i k * L c k with hS
  have key := foldRange_inv_ok _ (fun m (l : Mat XR) => ∃ X : Nat → ℝ,
      MatIs l n n (fun i j => .fin (if j = c then X i else L i j)) ∧
      (∀ i, i < c → X i = 0) ∧ (c < m → 0 ≤ X c ∧ X c * X c = A c c - S c) ∧
      (∀ i, c < i → i < m → X i * X c = A i c - S i) ∧ (∀ i, c < i → m ≤ i → i < n → X i = 0) ∧
      (m ≤ c → X c = epsilon ℝ))
    0 n (Nat.zero_le _) l1 l' ⟨fun i => if i = c then epsilon ℝ else 0,
      hl1.congr fun i j hi hj => by
        by_cases hj : j = c
        · subst hj
          by_cases hi' : i = j
          · simp [hi']
          · simp [hi', h.later i j (le_refl _) hc hi]
        · simp [hj],
      fun i hi => if_neg (by omega), fun hm => by omega, fun i _ hi => by omega,
      fun i hi _ _ => if_neg (by omega), fun _ => if_pos rfl⟩ ?_ he
  · obtain ⟨X, hX, h1, h2, h3, _, _⟩ := key
    have h2 := h2 hc
    refine ⟨_, hX, fun i j hj hij => ?_, fun i j hj1 hj2 hi => ?_, fun i hi => ?_,
      fun i j hj hji hi => ?_⟩
    · by_cases hjc : j = c
      · subst hjc; simp [h1 i hij]
      · simp [hjc, h.lower i j hj hij]
    · rw [if_neg (by omega)]
      exact h.later i j (by omega) hj2 hi
    · by_cases hic : i = c
      · subst hic; simp [h2.1]
      · simp [hic, h.diag i hi]
    · by_cases hjc : j = c
      · subst hjc
        have e : ∑ k ∈ range j, (if k = j then X i else L i k) * (if k = j then X j else L j k) =
            S i := Finset.sum_congr rfl fun k hk => by
          have := Finset.mem_range.mp hk
          rw [if_neg (by omega), if_neg (by omega)]
        rw [Finset.sum_range_succ, e, if_pos rfl, if_pos rfl]
        by_cases hij : i = j
        · subst hij; rw [h2.2]; ring
        · rw [h3 i (by omega) hi]; ring
      · rw [← h.prod i j (by omega) hji hi]
        refine Finset.sum_congr rfl fun k hk => ?_
        have := Finset.mem_range.mp hk
        rw [if_neg (by omega), if_neg (by omega)]
  · intro row l l' _ hrow ⟨X, hX, h1, h2, h3, h4, h5⟩ e
    have hdot : ∀ r, r < n → ∑ k ∈ range c, (if k = c then X r else L r k) *
        (if k = c then X c else L c k) = S r := fun r _ => Finset.sum_congr rfl fun k hk => by
      have := Finset.mem_range.mp hk
      rw [if_neg (by omega), if_neg (by omega)]
    rw [rowDot_fin hX hrow hc hc.le, Res.ok_bind, hdot row hrow] at e
    have hput : ∀ x : ℝ, ∀ l', exec l (Mat.setElement row c (.fin x)) = .ok l' →
        MatIs l' n n (fun i j => .fin (if j = c then (if i = row then x else X i) else L i j)) := by
      intro x l' e
      refine (hX.exec_set_inv hrow hc e).2.congr fun i j _ _ => ?_
      by_cases hi : i = row <;> by_cases hj : j = c <;> simp [hi, hj]
    by_cases hrc : row = c
    · subst hrc
      rw [if_pos rfl, ha.get row row hrow hrow, Res.ok_bind, Ext.sub_fin] at e
      obtain ⟨h0, hv⟩ := sqrt_finite (hX.exec_set_inv hrow hc e).1
      rw [hv] at e
      refine ⟨_, hput _ _ e, fun i hi => ?_, fun _ => ?_, fun i hi1 hi2 => by omega,
        fun i hi1 hi2 hi3 => ?_, fun _ => by omega⟩
      · rw [if_neg (by omega)]; exact h1 i hi
      · rw [if_pos rfl]
        exact ⟨Real.sqrt_nonneg _, Real.mul_self_sqrt h0⟩
      · rw [if_neg (by omega)]; exact h4 i hi1 (by omega) hi3
    · rw [if_neg hrc, hX.get c c hc hc, Res.ok_bind, if_pos rfl, ha.get row c hrow hc, Res.ok_bind,
        Ext.sub_fin] at e
      obtain ⟨hd, hv⟩ := inv_mul_fin (hX.exec_set_inv hrow hc e).1
      rw [hv] at e
      refine ⟨_, hput _ _ e, fun i hi => ?_, fun hm => ?_, fun i hi1 hi2 => ?_,
        fun i hi1 hi2 hi3 => ?_, fun hm => ?_⟩
      · by_cases hir : i = row
        · subst hir
          rw [if_pos rfl, hS]
          dsimp only
          rw [h.above hs hi hi hc, sub_self, mul_zero]
        · rw [if_neg hir]; exact h1 i hi
      · rw [if_neg (by omega)]; exact h2 (by omega)
      · rw [if_neg (show c ≠ row by omega)]
        by_cases hir : i = row
        · subst hir
          rw [if_pos rfl]
          field_simp
        · rw [if_neg hir]; exact h3 i hi1 (by omega)
      · rw [if_neg (by omega)]; exact h4 i hi1 (by omega) hi3
      · rw [if_neg (by omega)]; exact h5 (by omega)

/-- C29: whenever `chol` succeeds on a symmetric matrix, its result is lower triangular with
non-negative diagonal, and its product with its transpose is the matrix. -/
theorem C29_chol (ha : MatIs a n n (fun i j => .fin (A i j)))
    (hs : ∀ i j, i < n → j < n → A i j = A j i) (he : a.chol = .ok l) :
    ∃ L : Nat → Nat → ℝ, MatIs l n n (fun i j => .fin (L i j)) ∧
      (∀ i j, i < j → j < n → L i j = 0) ∧ (∀ i, i < n → 0 ≤ L i i) ∧
      toMatrix n n L * (toMatrix n n L).transpose = toMatrix n n A := by
  unfold Mat.chol at he
  obtain ⟨b, _, he⟩ := Res.bind_eq_ok.mp he
  split at he
  · cases he
  rw [ha.rows_eq, ha.cols_eq, Mat.init_of ha, Res.ok_bind] at he
  have hz : MatIs (Mat.zeros n n) n n (fun _ _ => (.fin 0 : XR)) :=
    (Mat.zeros_of ha).congr fun _ _ _ _ => by simp
  obtain ⟨L, hL, h⟩ := foldRange_inv_ok _ (fun c (l : Mat XR) => ∃ L : Nat → Nat → ℝ,
    MatIs l n n (fun i j => .fin (L i j)) ∧ CholInv n A c L) 0 n (Nat.zero_le _) _ _
    ⟨fun _ _ => 0, hz, fun _ _ _ _ => rfl, fun _ _ _ _ _ => rfl, fun _ _ => le_refl _,
      fun _ j hj => by omega⟩
    (fun c l l' _ hc ⟨L, hL, h⟩ e => cholColumn_inv ha hs hc hL h e) he
  refine ⟨L, hL, fun i j hij hj => h.lower i j hj hij, h.diag, ?_⟩
  rw [toMatrix_transpose, toMatrix_mul, toMatrix_inj]
  have hcell : ∀ i j, i < n → j ≤ i → ∑ k ∈ range n, L i k * L j k = A i j := by
    intro i j hi hj
    rw [← h.prod i j (by omega) hj hi]
    symm
    refine Finset.sum_subset (fun k hk => ?_) fun k hk hk' => ?_
    · have := Finset.mem_range.mp hk
      exact Finset.mem_range.mpr (by omega)
    · have := Finset.mem_range.mp hk
      rw [h.lower j k this (by have := Finset.mem_range.not.mp hk'; omega), mul_zero]
  intro i j hi hj
  rcases le_total j i with hji | hij
  · exact hcell i j hi hji
  · rw [hs i j hi hj, ← hcell j i hj hij]
    exact Finset.sum_congr rfl fun k _ => mul_comm _ _

/-! ### Success -/

theorem cholColumn_ok (ha : MatIs a n n (fun i j => .fin (A i j))) {M : Nat → Nat → ℝ}
    (hlow : ∀ i j, i < j → j < n → M i j = 0) (hpos : ∀ i, i < n → 0 < M i i)
    (hA : ∀ i j, i < n → j < n → A i j = ∑ k ∈ range n, M i k * M j k) {c : Nat} (hc : c < n)
    (hl : MatIs l n n (fun i j => .fin (if j < c then M i j else 0))) :
    ∃ l', a.cholColumn c l = .ok l' ∧
      MatIs l' n n (fun i j => .fin (if j < c + 1 then M i j else 0)) := by
  unfold Mat.cholColumn
  obtain ⟨l1, e1, hl1⟩ := hl.exec_put (epsilon ℝ) hc hc
  rw [rowDot_fin hl hc hc hc.le, Res.ok_bind, hl.get c c hc hc, Res.ok_bind, if_neg (lt_irrefl _),
    Ext.epsilon_eq, Ext.lt_fin, if_pos (decide_eq_true Linalg.eps_pos), e1, Res.ok_bind, ha.rows_eq]
  have hcut : ∀ i, i < n → A i c = ∑ k ∈ range c, M i k * M c k + M i c * M c c := by
    intro i hi
    rw [hA i c hi hc, ← Finset.sum_range_succ (fun k => M i k * M c k)]
    symm
    refine Finset.sum_subset (fun k hk => ?_) fun k hk hk' => ?_
    · have := Finset.mem_range.mp hk
      exact Finset.mem_range.mpr (by omega)
    · have := Finset.mem_range.mp hk
      rw [hlow c k (by have := Finset.mem_range.not.mp hk'; omega) this, mul_zero]
  have hdot : ∀ r, ∑ k ∈ range c, (if k < c then M r k else 0) * (if k < c then M c k else 0) =
      ∑ k ∈ range c, M r k * M c k := fun r => Finset.sum_congr rfl fun k hk => by
    rw [if_pos (Finset.mem_range.mp hk), if_pos (Finset.mem_range.mp hk)]
  rw [hdot]
  refine Exists.imp (fun l' => And.imp_right fun h2 => MatIs.congr h2 ?_)
    (foldRange_inv _ (fun m (l : Mat XR) => MatIs l n n (fun i j => .fin (if j < c then M i j
      else if j = c then (if i < m then M i c else if i = c then epsilon ℝ else 0) else 0))) 0 n
      (Nat.zero_le _) l1 (hl1.congr fun i j _ _ => ?_) ?_)
  · intro i j hi hj
    by_cases h1 : j < c
    · have : j < c + 1 := by omega
      simp [h1, this]
    · by_cases h3 : j = c
      · subst h3; simp [hi]
      · have : ¬ j < c + 1 := by omega
        simp [h1, h3, this]
  · by_cases hj : j = c
    · subst hj
      by_cases hi : i = j <;> simp [hi]
    · by_cases hjc : j < c <;> simp [hj, hjc]
  · intro row l _ hrow hl
    have hput : ∀ l', exec l (Mat.setElement row c (.fin (M row c))) = .ok l' →
        MatIs l' n n (fun i j => .fin (if j < c then M i j
          else if j = c then (if i < row + 1 then M i c else if i = c then epsilon ℝ else 0) else 0)) := by
      intro l' e
      refine (hl.exec_set_inv hrow hc e).2.congr fun i j _ _ => ?_
      by_cases hj : j = c
      · subst hj
        by_cases hi : i = row
        · simp [hi]
        · have : i < row + 1 ↔ i < row := by omega
          simp [hi, this]
      · simp [hj]
    obtain ⟨l', e', _⟩ := hl.exec_put (M row c) hrow hc
    have hdot' : ∑ k ∈ range c, (if k < c then M row k else if k = c then
          (if row < row then M row c else if row = c then epsilon ℝ else 0) else 0) *
        (if k < c then M c k else if k = c then
          (if c < row then M c c else if c = c then epsilon ℝ else 0) else 0) =
        ∑ k ∈ range c, M row k * M c k := Finset.sum_congr rfl fun k hk => by
      rw [if_pos (Finset.mem_range.mp hk), if_pos (Finset.mem_range.mp hk)]
    refine ⟨l', ?_, hput l' e'⟩
    rw [rowDot_fin hl hrow hc hc.le, Res.ok_bind, hdot']
    by_cases hrc : row = c
    · subst hrc
      rw [if_pos rfl, ha.get row row hrow hrow, Res.ok_bind, Ext.sub_fin, hcut row hrow,
        add_sub_cancel_left, Ext.sqrt_fin (mul_self_nonneg _)]
      show exec l (Mat.setElement row row (.fin (Real.sqrt _))) = _
      rw [Real.sqrt_mul_self (hpos row hrow).le, e']
    · rw [if_neg hrc, hl.get c c hc hc, Res.ok_bind, if_neg (lt_irrefl _), if_pos rfl, if_pos rfl,
        ha.get row c hrow hc, Res.ok_bind, Ext.sub_fin, hcut row hrow, add_sub_cancel_left]
      by_cases hr : row < c
      · have hz := hlow row c hr hc
        rw [if_neg (by omega), Ext.lit_one, Ext.div_fin _ (ne_of_gt Linalg.eps_pos), Ext.mul_fin,
          hz, zero_mul, mul_zero]
        rw [hz] at e'
        exact e'
      · have hne := ne_of_gt (hpos c hc)
        rw [if_pos (by omega), Ext.lit_one, Ext.div_fin _ hne, Ext.mul_fin,
          show 1 / M c c * (M row c * M c c) = M row c by field_simp]
        exact e'

/-- C29: on a matrix `M Mᵀ` that passes the library's own test, `chol` succeeds and returns `M`, for
every lower triangular `M` with positive diagonal. -/
theorem C29_success (ha : MatIs a n n (fun i j => .fin (A i j))) (ht : a.isPositiveDefinite = .ok true)
    {M : Nat → Nat → ℝ} (hlow : ∀ i j, i < j → j < n → M i j = 0) (hpos : ∀ i, i < n → 0 < M i i)
    (hA : toMatrix n n M * (toMatrix n n M).transpose = toMatrix n n A) :
    ∃ l, a.chol = .ok l ∧ MatIs l n n (fun i j => .fin (M i j)) := by
  rw [toMatrix_transpose, toMatrix_mul, toMatrix_inj] at hA
  unfold Mat.chol
  rw [ht, Res.ok_bind]
  simp only [Bool.not_true, Bool.false_eq_true, if_false]
  rw [ha.rows_eq, ha.cols_eq, Mat.init_of ha, Res.ok_bind]
  obtain ⟨l, e, hl⟩ := foldRange_inv a.cholColumn
    (fun c (l : Mat XR) => MatIs l n n (fun i j => .fin (if j < c then M i j else 0))) 0 n
    (Nat.zero_le _) (Mat.zeros n n) ((Mat.zeros_of ha).congr fun _ _ _ _ => by simp)
    (fun c l _ hc hl => cholColumn_ok ha hlow hpos (fun i j hi hj => (hA i j hi hj).symm) hc hl)
  exact ⟨l, e, hl.congr fun i j _ hj => by rw [if_pos hj]⟩

/-- C29: a matrix that fails the test is refused. -/
theorem C29_refused {F : Type} [Scalar F] {a : Mat F} :
    (a.isSymmetric = .ok false → a.chol = .error (.err .NotSymetric)) ∧
    (a.isPositiveDefinite = .ok false → a.chol = .error (.err .NotPositiveDefinite)) := by
  constructor
  · intro h
    unfold Mat.chol Mat.isPositiveDefinite
    rw [h]
    rfl
  · intro h
    unfold Mat.chol
    rw [h]
    rfl

/-- Symmetric only within the library's tolerance. -/
def exNearly : Mat XQ := Mat.of 2 2 fun i j => .fin (tbl [[1, 1 / 20000], [0, 1]] i j)

/-- C29: on a matrix symmetric only within tolerance the result need not be lower triangular. -/
theorem C29_not_lower :
    exNearly.isSymmetric = .ok true ∧
    ∃ l, exNearly.chol = .ok l ∧ l.getElement 0 1 = .ok (.fin (1 / 2)) := by
  refine ⟨by decide +kernel, ?_⟩
  have h : (exNearly.chol >>= fun l => l.getElement 0 1) = .ok (.fin (1 / 2)) := by decide +kernel
  exact Res.bind_eq_ok.mp h

/-! ### The test for positive definiteness (C65) -/

section
variable {K : Type} [Field K] [LinearOrder K] [IsStrictOrderedRing K] [Elementary K]
variable {a : Mat (Ext K)} {n : Nat} {A : Nat → Nat → K}

/-- The test on one leading block: its determinant as computed by `det`. -/
def blockTest (a : Mat (Ext K)) (k : Nat) : Res LinalgError Bool := do
  let tmp ← exec Mat.new (Mat.init (k + 1) (k + 1))
  let tmp ← exec tmp (forRange 0 (k + 1) fun row =>
    forRange 0 (k + 1) fun col => do
      Mat.setElement row col (← a.getElement row col) : Op LinalgError (Mat (Ext K)) Unit)
  let d ← tmp.det
  .ok (!(d <ᶠ lit 0))

theorem isPositiveDefinite_eq (ha : MatIs a n n (fun i j => .fin (A i j)))
    (hs : ∀ i j, i < n → j < n → |A i j - A j i| ≤ epsilon K) :
    a.isPositiveDefinite = allRange 0 n (blockTest a) := by
  obtain ⟨b, e, hb⟩ := C19_symmetric ha (fun i j _ _ => Ext.finite_fin (A i j))
  have : b = true := by
    refine hb.mpr ⟨rfl, fun i j hi hj => ?_⟩
    have h1 := allclose_fin (A i j) (A j i)
    rw [allcloseL_eq (Ext.finite_fin _) (Ext.finite_fin _)] at h1
    exact of_decide_eq_true ((Except.ok.inj h1).trans (decide_eq_true (hs i j hi hj)))
  subst this
  unfold Mat.isPositiveDefinite
  rw [e, Res.ok_bind, ha.rows_eq]
  rfl

/-- The block the test looks at. -/
theorem blockTest_eq (ha : MatIs a n n (fun i j => .fin (A i j))) {k : Nat} (hk : k < n) :
    ∃ b, MatIs b (k + 1) (k + 1) (fun i j => .fin (A i j)) ∧
      blockTest a k = (b.det >>= fun d => .ok (!(d <ᶠ (.fin 0 : Ext K)))) := by
  have hz : MatIs (Mat.zeros (k + 1) (k + 1)) (k + 1) (k + 1) (fun _ _ => (.fin 0 : Ext K)) :=
    (Mat.zeros_is (by omega) (by have := ha.rle; omega) (by omega) (by have := ha.rle; omega)).congr
      fun _ _ _ _ => by simp
  obtain ⟨b, e, hb⟩ : ∃ b, exec (Mat.zeros (k + 1) (k + 1)) (forRange 0 (k + 1) fun row =>
      forRange 0 (k + 1) fun col => do
        Mat.setElement row col (← a.getElement row col) : Op LinalgError (Mat (Ext K)) Unit) =
        .ok b ∧ MatIs b (k + 1) (k + 1) (fun i j => .fin (A i j)) :=
    Mat.exec_of_stores (Mat.stores_of_loop hz.init hz.rows_eq hz.cols_eq hz.rle hz.cle
      fun i j hi hj => by simp [ha.get i j (by omega) (by omega)]) hz
      (fun i j _ _ => Ext.finite_fin (A i j))
  refine ⟨b, hb, ?_⟩
  unfold blockTest
  rw [Mat.init_new (by omega) (by have := ha.rle; omega) (by omega) (by have := ha.rle; omega),
    Res.ok_bind, e, Res.ok_bind, Ext.lit_zero]

/-- A loop of tests ends at the first one that is not passed. -/
theorem allRange_cases {ε : Type} (body : Nat → Res ε Bool) (n : Nat) :
    (allRange 0 n body = .ok true ∧ ∀ i, i < n → body i = .ok true) ∨
    ∃ k, k < n ∧ (∀ i, i < k → body i = .ok true) ∧ body k ≠ .ok true ∧
      allRange 0 n body = body k := by
  classical
  by_cases h : ∀ i, i < n → body i = .ok true
  · left
    refine ⟨?_, h⟩
    rw [allRange_eq body (fun _ => true) 0 n fun i _ hi => h i hi]
    simp
  · right
    have h' : ∃ k, k < n ∧ body k ≠ .ok true := by push Not at h; exact h
    obtain ⟨hk, hb⟩ := Nat.find_spec h'
    have hmin : ∀ i, i < Nat.find h' → body i = .ok true := fun i hi => by
      have := Nat.find_min h' hi
      by_contra hc
      exact this ⟨by omega, hc⟩
    refine ⟨Nat.find h', hk, hmin, hb, ?_⟩
    rcases hr : body (Nat.find h') with e | b
    · exact allRange_error body 0 n _ e (Nat.zero_le _) hk (fun i _ hi => hmin i hi) hr
    · rcases b with _ | _
      · exact allRange_false body 0 n _ (Nat.zero_le _) hk (fun i _ hi => hmin i hi) hr
      · exact absurd hr hb

/-- C65: up to size 3, on a matrix symmetric within tolerance, the test answers `true` only if all
leading minors are non-negative and `false` only if one is negative; otherwise it fails with
`Singular`. -/
theorem C65_small (ha : MatIs a n n (fun i j => .fin (A i j))) (h3 : n ≤ 3)
    (hs : ∀ i j, i < n → j < n → |A i j - A j i| ≤ epsilon K) :
    a.isPositiveDefinite = .error (.err .Singular) ∨
    (a.isPositiveDefinite = .ok true ∧ ∀ k, k < n → 0 ≤ (toMatrix (k + 1) (k + 1) A).det) ∨
    (a.isPositiveDefinite = .ok false ∧ ∃ k, k < n ∧ (toMatrix (k + 1) (k + 1) A).det < 0) := by
  rw [isPositiveDefinite_eq ha hs]
  have hblock : ∀ k, k < n → blockTest a k = .error (.err .Singular) ∨
      blockTest a k = .ok (!decide ((toMatrix (k + 1) (k + 1) A).det < 0)) := by
    intro k hk
    obtain ⟨b, hb, e⟩ := blockTest_eq ha hk
    rw [e]
    rcases C25_det_small hb (by omega) with h | h
    · left; rw [h]; rfl
    · right; rw [h, Res.ok_bind, Ext.lt_fin]
  rcases allRange_cases (blockTest a) n with ⟨h, hall⟩ | ⟨k, hk, _, hne, h⟩
  · refine Or.inr (Or.inl ⟨h, fun k hk => ?_⟩)
    rcases hblock k hk with h' | h'
    · rw [hall k hk] at h'; cases h'
    · rw [hall k hk] at h'
      simpa using Except.ok.inj h'
  · rw [h]
    rcases hblock k hk with h' | h'
    · exact Or.inl h'
    · rw [h'] at hne ⊢
      right; right
      by_cases hd : (toMatrix (k + 1) (k + 1) A).det < 0
      · exact ⟨by simp [hd], k, hk, hd⟩
      · simp [hd] at hne

/-- C65: a matrix that is not square, or not symmetric within tolerance, is refused. -/
theorem C65_asymmetric {a : Mat (Ext K)} {r c : Nat} {A : Nat → Nat → K}
    (ha : MatIs a r c (fun i j => .fin (A i j)))
    (hs : r ≠ c ∨ ∃ i j, i < r ∧ j < c ∧ epsilon K < |A i j - A j i|) :
    a.isPositiveDefinite = .error (.err .NotSymetric) := by
  obtain ⟨b, e, hb⟩ := C19_symmetric ha (fun i j _ _ => Ext.finite_fin (A i j))
  have : b = false := by
    rcases hb' : b with _ | _
    · rfl
    exfalso
    obtain ⟨h1, h2⟩ := hb.mp hb'
    rcases hs with hs | ⟨i, j, hi, hj, hs⟩
    · exact hs h1
    · have h3 := allclose_fin (A i j) (A j i)
      rw [allcloseL_eq (Ext.finite_fin _) (Ext.finite_fin _), decide_eq_true (h2 i j hi hj)] at h3
      exact absurd (of_decide_eq_true (Except.ok.inj h3).symm) (not_le.mpr hs)
  subst this
  unfold Mat.isPositiveDefinite
  rw [e]
  rfl

/-- The 2×2 case needs only the first column to be away from zero. -/
theorem posDef_two (ha : MatIs a 2 2 (fun i j => .fin (A i j))) (hs : A 0 1 = A 1 0)
    (h0 : epsilon K ≤ A 0 0) (h1 : epsilon K ≤ |A 1 0|) (hd : 0 ≤ A 0 0 * A 1 1 - A 0 1 * A 1 0) :
    a.isPositiveDefinite = .ok true := by
  have h00 : (0 : K) ≤ A 0 0 := le_trans Linalg.eps_pos.le h0
  have hsym : ∀ i j, i < 2 → j < 2 → |A i j - A j i| ≤ epsilon K := by
    intro i j hi hj
    have : A i j = A j i := by
      have hi : i = 0 ∨ i = 1 := by omega
      have hj : j = 0 ∨ j = 1 := by omega
      rcases hi with rfl | rfl <;> rcases hj with rfl | rfl
      · rfl
      · exact hs
      · exact hs.symm
      · rfl
    rw [this, sub_self, abs_zero]
    exact Linalg.eps_pos.le
  have hcol : ∀ i, i < 2 → epsilon K ≤ |A i 0| := by
    intro i hi
    have hi : i = 0 ∨ i = 1 := by omega
    rcases hi with rfl | rfl
    · rwa [abs_of_nonneg h00]
    · exact h1
  rw [isPositiveDefinite_eq ha hsym]
  have hblock : ∀ k, k < 2 → blockTest a k = .ok true := by
    intro k hk
    obtain ⟨b, hb, e⟩ := blockTest_eq ha hk
    rw [e]
    have hlup := Linalg.lup_two hb (by omega) (fun i hi => hcol i (by omega))
    rcases C25_det hb with ⟨_, h⟩ | ⟨lu, p, _, σ, _, h⟩
    · exact absurd h hlup
    · rw [h, if_neg fun h => by have := h.1; omega, Res.ok_bind, Ext.lt_fin]
      have hk : k = 0 ∨ k = 1 := by omega
      rcases hk with rfl | rfl
      · simp [toMatrix, h00]
      · rw [Matrix.det_fin_two]
        simp only [toMatrix, Fin.val_zero, Fin.val_one]
        simpa using hd
  rw [allRange_eq _ (fun _ => true) 0 2 fun i _ hi => hblock i hi]
  simp

end

/-- `[[4, 2], [2, 5]]`, the product of `[[2, 0], [1, 2]]` and its transpose. -/
example : ∃ l, (Mat.of 2 2 fun i j => (.fin (tbl [[4, 2], [2, 5]] i j) : XR)).chol = .ok l ∧
    MatIs l 2 2 (fun i j => .fin (tbl [[2, 0], [1, 2]] i j)) := by
  have ha := Mat.of_is (F := XR) (fun i j => .fin (tbl [[4, 2], [2, 5]] i j)) (r := 2) (c := 2)
    (by omega) (by omega) (by omega) (by omega)
  refine C29_success ha (posDef_two ha ?_ ?_ ?_ ?_) ?_ ?_ ?_
  · rfl
  · simp [tbl, epsilon]; norm_num
  · simp [tbl, epsilon]; norm_num
  · simp [tbl]; norm_num
  · intro i j hij hj
    obtain ⟨rfl, rfl⟩ : i = 0 ∧ j = 1 := by omega
    simp [tbl]
  · intro i hi
    have hi : i = 0 ∨ i = 1 := by omega
    rcases hi with rfl | rfl <;> simp [tbl]
  · rw [toMatrix_transpose, toMatrix_mul, toMatrix_inj]
    intro i j hi hj
    have hi : i = 0 ∨ i = 1 := by omega
    have hj : j = 0 ∨ j = 1 := by omega
    rcases hi with rfl | rfl <;> rcases hj with rfl | rfl <;>
      simp [tbl, Finset.sum_range_succ] <;> norm_num

/-- The product of `[[1,0,0,0],[3,1,0,0],[2,-3,2,0],[2,1,3,3]]` and its transpose. -/
def exPd : Mat XQ := Mat.of 4 4 fun i j =>
  .fin (tbl [[1, 3, 2, 2], [3, 10, 3, 7], [2, 3, 17, 7], [2, 7, 7, 23]] i j)

/-- C65: a positive definite matrix of size 4 that the test rejects, and `chol` with it. -/
theorem C65_rejects :
    toMatrix 4 4 (tbl [[1, 3, 2, 2], [3, 10, 3, 7], [2, 3, 17, 7], [2, 7, 7, 23]] : Nat → Nat → ℚ) =
      toMatrix 4 4 (tbl [[1, 0, 0, 0], [3, 1, 0, 0], [2, -3, 2, 0], [2, 1, 3, 3]]) *
        (toMatrix 4 4 (tbl [[1, 0, 0, 0], [3, 1, 0, 0], [2, -3, 2, 0], [2, 1, 3, 3]])).transpose ∧
    exPd.isPositiveDefinite = .ok false ∧ exPd.chol = .error (.err .NotPositiveDefinite) := by
  refine ⟨?_, by decide +kernel, ?_⟩
  · ext i j
    fin_cases i <;> fin_cases j <;> decide +kernel
  · exact C29_refused.2 (by decide +kernel)

/-- C65: a matrix with a zero leading minor passes the test. -/
theorem C65_accepts_semidefinite :
    (Mat.of 1 1 fun _ _ => (.fin 0 : XQ)).isPositiveDefinite = .ok true ∧
    (Mat.of 2 2 fun _ _ => (.fin 1 : XQ)).isPositiveDefinite = .ok true := by
  constructor <;> decide +kernel

/-- C65: a positive definite matrix whose corner is small is neither accepted nor rejected. -/
theorem C65_small_corner :
    (Mat.of 2 2 fun i j => (.fin (tbl [[1 / 20000, 0], [0, 1]] i j) : XQ)).isPositiveDefinite =
      .error (.err .Singular) := by decide +kernel

end Verif
