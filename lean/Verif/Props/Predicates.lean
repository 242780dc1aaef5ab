import Verif.Props.ElementWise

/-
Tolerance comparisons (C19) and triangularity tests (C20).
-/

set_option linter.unusedSectionVars false
set_option linter.unusedSimpArgs false

namespace Verif
open Scalar

variable {F : Type} [Scalar F]

/-- The closeness test of the library: `|x - y| <= d`. -/
def Close (x y d : F) : Prop := (Scalar.abs (x -ᶠ y) ≤ᶠ d) = true

instance (x y d : F) : Decidable (Close x y d) := by unfold Close; infer_instance

theorem allcloseL_eq {x y : F} (hx : Finite x) (hy : Finite y) (d : F) :
    allcloseL x y d = .ok (decide (Close x y d)) := by
  have : decide (Close x y d) = (Scalar.abs (x -ᶠ y) ≤ᶠ d) := by
    unfold Close; exact Bool.decide_coe _
  rw [this]
  unfold allcloseL Utils.allclose Utils.isValidValue
  simp [hx.1, hx.2, hy.1, hy.2, Res.mapErr]

theorem allcloseL_prop {x y : F} (hx : Finite x) (hy : Finite y) (d : F) :
    ∃ b, allcloseL x y d = .ok b ∧ (b = true ↔ Close x y d) :=
  ⟨_, allcloseL_eq hx hy d, by simp⟩

/-- A loop of tests decides the conjunction. -/
theorem allRange_prop {ε : Type} {body : Nat → Res ε Bool} {P : Nat → Prop} {lo hi : Nat}
    (h : ∀ i, lo ≤ i → i < hi → ∃ b, body i = .ok b ∧ (b = true ↔ P i)) :
    ∃ b, allRange lo hi body = .ok b ∧ (b = true ↔ ∀ i, lo ≤ i → i < hi → P i) := by
  classical
  have := allRange_eq body (fun i => decide (P i)) lo hi (fun i h1 h2 => by
    obtain ⟨b, e, hb⟩ := h i h1 h2
    rw [e]
    by_cases hp : P i
    · simp [hp, hb.mpr hp]
    · simp [hp]
      by_contra hc
      exact hp (hb.mp (by simpa using hc)))
  exact ⟨_, this, by simp⟩

/-- C19 for vectors. -/
theorem C19_vec {v w : Vec F} {n m : Nat} {f g : Nat → F} (hv : VecIs v n f) (hw : VecIs w m g)
    (hf : ∀ i, i < n → Finite (f i)) (hg : ∀ i, i < m → Finite (g i)) (d : F) :
    ∃ b, v.isEqualTo w d = .ok b ∧ (b = true ↔ n = m ∧ ∀ i, i < n → Close (f i) (g i) d) := by
  unfold Vec.isEqualTo
  by_cases h : n = m
  · subst h
    simp only [hv.sameSize hw, Res.ok_bind, Bool.not_true, Bool.false_eq_true, if_false, hv.rows_eq]
    obtain ⟨b, e, hb⟩ := allRange_prop (lo := 0) (hi := n) (P := fun i => Close (f i) (g i) d)
      (body := fun row => (do
        let element ← v.getElement row
        let otherElement ← w.getElement row
        allcloseL element otherElement d : Res LinalgError Bool)) fun i _ hi => by
        simp only [hv.get i hi, hw.get i hi, Res.ok_bind]
        exact allcloseL_prop (hf i hi) (hg i hi) d
    exact ⟨b, e, hb.trans (by simp)⟩
  · refine ⟨false, ?_, by simp [h]⟩
    simp [Vec.isSameSizeAs, hv.init, hw.init, hv.rows_eq, hw.rows_eq, h]

/-- C19 for matrices. -/
theorem C19_mat {v w : Mat F} {r c r' c' : Nat} {f g : Nat → Nat → F} (hv : MatIs v r c f)
    (hw : MatIs w r' c' g) (hf : ∀ i j, i < r → j < c → Finite (f i j))
    (hg : ∀ i j, i < r' → j < c' → Finite (g i j)) (d : F) :
    ∃ b, v.isEqualTo w d = .ok b ∧
      (b = true ↔ r = r' ∧ c = c' ∧ ∀ i j, i < r → j < c → Close (f i j) (g i j) d) := by
  unfold Mat.isEqualTo
  by_cases h : r = r' ∧ c = c'
  · obtain ⟨rfl, rfl⟩ := h
    simp only [hv.sameSize hw, Res.ok_bind, Bool.not_true, Bool.false_eq_true, if_false, hv.rows_eq,
      hv.cols_eq]
    obtain ⟨b, e, hb⟩ := allRange_prop (lo := 0) (hi := r)
      (P := fun i => ∀ j, 0 ≤ j → j < c → Close (f i j) (g i j) d)
      (body := fun row => allRange 0 c fun col => (do
        let element ← v.getElement row col
        let otherElement ← w.getElement row col
        allcloseL element otherElement d : Res LinalgError Bool)) fun i _ hi =>
        allRange_prop fun j _ hj => by
          simp only [hv.get i j hi hj, hw.get i j hi hj, Res.ok_bind]
          exact allcloseL_prop (hf i j hi hj) (hg i j hi hj) d
    exact ⟨b, e, hb.trans ⟨fun h => ⟨trivial, trivial, fun i j hi hj => h i (by omega) hi j (by omega) hj⟩,
      fun h i _ hi j _ hj => h.2.2 i j hi hj⟩⟩
  · refine ⟨false, ?_, by simp; intro h1 h2; exact absurd ⟨h1, h2⟩ h⟩
    have : r ≠ r' ∨ c ≠ c' := by by_contra hc; push Not at hc; exact h hc
    simp only [Mat.isSameSizeAs, hv.init, hw.init, hv.rows_eq, hw.rows_eq, hv.cols_eq, hw.cols_eq,
      this, Bool.not_true, Bool.or_self, Bool.false_eq_true, if_false, if_true, Res.ok_bind, Bool.not_false]

/-- C19: `is_symmetric`; a matrix that is not square is not symmetric. -/
theorem C19_symmetric {v : Mat F} {r c : Nat} {f : Nat → Nat → F} (hv : MatIs v r c f)
    (hf : ∀ i j, i < r → j < c → Finite (f i j)) :
    ∃ b, v.isSymmetric = .ok b ∧
      (b = true ↔ r = c ∧ ∀ i j, i < r → j < c → Close (f i j) (f j i) EPSILON) := by
  unfold Mat.isSymmetric
  rw [Mat.isSquare_eq hv, Res.ok_bind]
  by_cases h : r = c
  · subst h
    simp only [hv.rows_eq, hv.cols_eq, decide_true, Bool.not_true, Bool.false_eq_true, if_false]
    obtain ⟨b, e, hb⟩ := allRange_prop (lo := 0) (hi := r)
      (P := fun i => ∀ j, 0 ≤ j → j < r → Close (f i j) (f j i) EPSILON)
      (body := fun row => allRange 0 r fun col => (do
        allcloseL (← v.getElement row col) (← v.getElement col row) EPSILON : Res LinalgError Bool))
        fun i _ hi =>
        allRange_prop fun j _ hj => by
          simp only [hv.get i j hi hj, hv.get j i hj hi, Res.ok_bind]
          exact allcloseL_prop (hf i j hi hj) (hf j i hj hi) _
    exact ⟨b, e, hb.trans ⟨fun h => ⟨trivial, fun i j hi hj => h i (by omega) hi j (by omega) hj⟩,
      fun h i _ hi j _ hj => h.2 i j hi hj⟩⟩
  · exact ⟨false, by simp [h], by simp [h]⟩

/-- C19: comparing with an uninitialised object is an error. -/
theorem C19_uninit (v w : Mat F) (d : F) (h : v.isInitialized = false ∨ w.isInitialized = false) :
    v.isEqualTo w d = .error (.err .NotInit) := by
  have h : v.initialized = false ∨ w.initialized = false := h
  unfold Mat.isEqualTo Mat.isSameSizeAs
  have : (!v.initialized || !w.initialized) = true := by rcases h with h | h <;> simp [h]
  simp [this, fail]

/-! ### C20 -/

variable [ScalarLawful F]

theorem zeroF_finite : Finite (lit 0 : F) := ScalarLawful.zero_finite

/-- C20: `is_upper_triangular` on matrices with at most one row more than columns (in particular
square ones). -/
theorem C20_upper {m : Mat F} {r c : Nat} {f : Nat → Nat → F} (hm : MatIs m r c f)
    (hf : ∀ i j, i < r → j < c → Finite (f i j)) (h : r ≤ c + 1) :
    ∃ b, m.isUpperTriangular = .ok b ∧
      (b = true ↔ ∀ i j, i < r → j < i → Close (f i j) (lit 0) EPSILON) := by
  unfold Mat.isUpperTriangular
  rw [hm.rows_eq]
  obtain ⟨b, e, hb⟩ := allRange_prop (lo := 1) (hi := r)
    (P := fun i => ∀ j, 0 ≤ j → j < i → Close (f i j) (lit 0) EPSILON)
    (body := fun row => allRange 0 row fun col => (do
      allcloseL (← m.getElement row col) (lit 0) EPSILON : Res LinalgError Bool)) fun i _ hi =>
      allRange_prop fun j _ hj => by
        simp only [hm.get i j hi (by omega), Res.ok_bind]
        exact allcloseL_prop (hf i j hi (by omega)) zeroF_finite _
  exact ⟨b, e, hb.trans ⟨fun h i j hi hj => h i (by omega) hi j (by omega) hj,
    fun h i _ hi j _ hj => h i j hi hj⟩⟩

/-- C20: on taller matrices `is_upper_triangular` never returns `true`: it fails with `InvalidCol`
when the part it can read is zero, and returns `false` otherwise. -/
theorem C20_upper_tall {m : Mat F} {r c : Nat} {f : Nat → Nat → F} (hm : MatIs m r c f)
    (hf : ∀ i j, i < r → j < c → Finite (f i j)) (h : c + 1 < r) :
    ((∀ i j, i ≤ c + 1 → j < i → j < c → Close (f i j) (lit 0) EPSILON) →
      m.isUpperTriangular = .error (.err .InvalidCol)) ∧
    (¬ (∀ i j, i ≤ c + 1 → j < i → j < c → Close (f i j) (lit 0) EPSILON) →
      m.isUpperTriangular = .ok false) := by
  have hcell : ∀ i j, i < r → j < c → (do
      allcloseL (← m.getElement i j) (lit 0) EPSILON : Res LinalgError Bool) =
      .ok (decide (Close (f i j) (lit 0) EPSILON)) := by
    intro i j hi hj
    simp only [hm.get i j hi hj, Res.ok_bind]
    exact allcloseL_eq (hf i j hi hj) zeroF_finite _
  have hrow : ∀ i, i ≤ c → (∀ j, j < i → Close (f i j) (lit 0) EPSILON) → allRange 0 i (fun col => do
      allcloseL (← m.getElement i col) (lit 0) EPSILON : Nat → Res LinalgError Bool) = .ok true := by
    intro i hi hcl
    obtain ⟨b, e, hb⟩ := allRange_prop (lo := 0) (hi := i)
      (P := fun j => Close (f i j) (lit 0) EPSILON)
      (body := fun col => (do
        allcloseL (← m.getElement i col) (lit 0) EPSILON : Res LinalgError Bool)) fun j _ hj =>
        ⟨_, hcell i j (by omega) (by omega), by simp⟩
    rw [e, hb.mpr fun j _ hj => hcl j hj]
  unfold Mat.isUpperTriangular
  rw [hm.rows_eq]
  constructor
  · intro hc
    refine allRange_error _ 1 r (c + 1) _ (by omega) h (fun i _ hi => ?_) ?_
    · exact hrow i (by omega) fun j hj => hc i j (by omega) hj (by omega)
    · refine allRange_error _ 0 (c + 1) c _ (by omega) (by omega) (fun j _ hj => ?_) ?_
      · rw [hcell (c + 1) j h hj]
        congr 1
        simp only [decide_eq_true_eq]
        exact hc (c + 1) j (le_refl _) (by omega) hj
      · simp [Mat.getElement, hm.init, isValidRow, hm.rows_eq, isValidCol, hm.cols_eq,
          Nat.not_le.mpr h, fail]
  · intro hc
    classical
    have hex : ∃ i, i ≤ c + 1 ∧ ∃ j, j < i ∧ j < c ∧ ¬ Close (f i j) (lit 0) EPSILON := by
      push Not at hc
      obtain ⟨i, j, h1, h2, h3, h4⟩ := hc
      exact ⟨i, h1, j, h2, h3, h4⟩
    obtain ⟨hi, hex2⟩ := Nat.find_spec hex
    have hmin := fun k => @Nat.find_min _ _ hex k
    set i := Nat.find hex
    obtain ⟨hj1, hj2, hj3⟩ := Nat.find_spec hex2
    have hjmin := fun k => @Nat.find_min _ _ hex2 k
    set j := Nat.find hex2
    refine allRange_false _ 1 r i (by omega) (by omega) (fun k _ hk => ?_) ?_
    · refine hrow k (by omega) fun q hq => ?_
      by_contra hn
      exact hmin k hk ⟨by omega, q, hq, by omega, hn⟩
    · refine allRange_false _ 0 i j (by omega) hj1 (fun q _ hq => ?_) ?_
      · rw [hcell i q (by omega) (by omega)]
        congr 1
        simp only [decide_eq_true_eq]
        by_contra hn
        exact hjmin q hq ⟨by omega, by omega, hn⟩
      · rw [hcell i j (by omega) hj2]
        simp [hj3]

/-- C20: `is_lower_triangular` never looks at the last row. -/
theorem C20_lower {m : Mat F} {r c : Nat} {f : Nat → Nat → F} (hm : MatIs m r c f)
    (hf : ∀ i j, i < r → j < c → Finite (f i j)) :
    ∃ b, m.isLowerTriangular = .ok b ∧
      (b = true ↔ ∀ i j, i + 1 < r → i < j → j < c → Close (f i j) (lit 0) EPSILON) := by
  unfold Mat.isLowerTriangular
  have : u8Sub (ε := LinalgError) F m.rows 1 = .ok (r - 1) := by
    rw [hm.rows_eq]; exact u8Sub_ok hm.rpos
  rw [this, Res.ok_bind, hm.cols_eq]
  obtain ⟨b, e, hb⟩ := allRange_prop (lo := 0) (hi := r - 1)
    (P := fun i => ∀ j, i + 1 ≤ j → j < c → Close (f i j) (lit 0) EPSILON)
    (body := fun row => allRange (row + 1) c fun col => (do
      allcloseL (← m.getElement row col) (lit 0) EPSILON : Res LinalgError Bool)) fun i _ hi =>
      allRange_prop fun j _ hj => by
        simp only [hm.get i j (by omega) hj, Res.ok_bind]
        exact allcloseL_prop (hf i j (by omega) hj) zeroF_finite _
  exact ⟨b, e, hb.trans ⟨fun h i j hi hj hc => h i (by omega) (by omega) j hj hc,
    fun h i _ hi j hj hc => h i j (by omega) hj hc⟩⟩

/-- C20: on square matrices both tests are the definitions. -/
theorem C20_square {m : Mat F} {n : Nat} {f : Nat → Nat → F} (hm : MatIs m n n f)
    (hf : ∀ i j, i < n → j < n → Finite (f i j)) :
    (∃ b, m.isUpperTriangular = .ok b ∧
      (b = true ↔ ∀ i j, i < n → j < n → j < i → Close (f i j) (lit 0) EPSILON)) ∧
    (∃ b, m.isLowerTriangular = .ok b ∧
      (b = true ↔ ∀ i j, i < n → j < n → i < j → Close (f i j) (lit 0) EPSILON)) := by
  obtain ⟨b, h1, h2⟩ := C20_upper hm hf (by omega)
  obtain ⟨b', h3, h4⟩ := C20_lower hm hf
  refine ⟨⟨b, h1, h2.trans ⟨fun h i j hi _ hj => h i j hi hj, fun h i j hi hj => h i j hi (by omega) hj⟩⟩,
    b', h3, h4.trans ⟨fun h i j hi hj hlt => h i j (by omega) hlt hj,
      fun h i j hi hlt hj => h i j (by omega) hj hlt⟩⟩

/-! ### Concrete cases -/

/-- The matrix `[[1, 0, 0], [2, 3, 5]]`. -/
def exWide : Mat XQ :=
  { rows := 2, cols := 3, initialized := true,
    elements := ![.fin 1, .fin 0, .fin 0, .fin 2, .fin 3, .fin 5, .fin 0, .fin 0, .fin 0, .fin 0,
      .fin 0, .fin 0, .fin 0, .fin 0, .fin 0, .fin 0] }

/-- C20: a matrix with a 5 above the diagonal is accepted as lower triangular. -/
theorem C20_lower_wide :
    exWide.isLowerTriangular = .ok true ∧ exWide.getElement 1 2 = .ok (.fin 5) := by decide +kernel

/-- The zero matrix with 3 rows and 1 column makes `is_upper_triangular` fail. -/
example : (Mat.zeros 3 1 : Mat XQ).isUpperTriangular = .error (.err .InvalidCol) := by decide +kernel
example : exMat.isEqualTo exMat (.fin 0) = .ok true ∧ exVec.isEqualTo exVec (.fin 0) = .ok true ∧
    exMat.isSymmetric = .ok false ∧ exMat.isUpperTriangular = .ok false := by decide +kernel

end Verif
