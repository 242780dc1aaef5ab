import Verif.Ext
import Verif.Lib.MatStruct

/-
Initialisation (C04), element access (C05, C06), `reinit` (C07).
The hypotheses `rows ≤ 4`, `cols ≤ 4` hold for every reachable object (C01).
-/

set_option linter.unusedSectionVars false
set_option linter.unusedSimpArgs false

namespace Verif
open Scalar

/-! ### C04 -/

section
variable {T : Type}

/-- C04 for vectors of any element type. -/
theorem C04_vec (v : Vec T) (n : Nat) :
    ((Vec.init n v).1 = .ok () ↔ v.isInitialized = false ∧ 1 ≤ n ∧ n ≤ 4) ∧
    ((Vec.init n v).1 = .ok () → (Vec.init n v).2.getRows = .ok n ∧
      (Vec.init n v).2.isInitialized = true ∧ (Vec.init n v).2.elements = v.elements) ∧
    ((Vec.init n v).1 ≠ .ok () → (Vec.init n v).2 = v) ∧
    (v.isInitialized = true → (Vec.init n v).1 = .error (.err .AlreadyInit)) ∧
    (v.isInitialized = false → n > 4 → (Vec.init n v).1 = .error (.err .RowsNumberOverflow)) ∧
    (v.isInitialized = false → n = 0 → (Vec.init n v).1 = .error (.err .RowsNumberNull)) := by
  unfold Vec.isInitialized Vec.init isValidRowsNumber Vec.getRows M_MAX
  simp only [Op.get_bind]
  rcases Bool.dichotomy v.initialized with hi | hi
  · by_cases h4 : n > 4
    · simp [h4, hi]; omega
    · by_cases h0 : n = 0
      · simp [h0, hi]
      · simp [hi, h4, h0, hi]; omega
  · simp [hi, Op.fail]

end

variable {F : Type} [Scalar F]

/-- C04 for matrices: the row count is checked before the column count. -/
theorem C04_mat (m : Mat F) (r c : Nat) :
    ((Mat.init r c m).1 = .ok () ↔ m.isInitialized = false ∧ 1 ≤ r ∧ r ≤ 4 ∧ 1 ≤ c ∧ c ≤ 4) ∧
    ((Mat.init r c m).1 = .ok () → (Mat.init r c m).2.getRows = .ok r ∧
      (Mat.init r c m).2.getCols = .ok c ∧ (Mat.init r c m).2.isInitialized = true ∧
      (Mat.init r c m).2.elements = m.elements) ∧
    ((Mat.init r c m).1 ≠ .ok () → (Mat.init r c m).2 = m) ∧
    (m.isInitialized = true → (Mat.init r c m).1 = .error (.err .AlreadyInit)) ∧
    (m.isInitialized = false → r > 4 → (Mat.init r c m).1 = .error (.err .RowsNumberOverflow)) ∧
    (m.isInitialized = false → r = 0 → (Mat.init r c m).1 = .error (.err .RowsNumberNull)) ∧
    (m.isInitialized = false → 1 ≤ r → r ≤ 4 → c > 4 →
      (Mat.init r c m).1 = .error (.err .ColsNumberOverflow)) ∧
    (m.isInitialized = false → 1 ≤ r → r ≤ 4 → c = 0 →
      (Mat.init r c m).1 = .error (.err .ColsNumberNull)) := by
  unfold Mat.isInitialized Mat.init isValidRowsNumber isValidColsNumber Mat.getRows Mat.getCols
    M_MAX N_MAX
  simp only [Op.get_bind]
  rcases Bool.dichotomy m.initialized with hi | hi
  · by_cases h4 : r > 4
    · simp [h4, hi]; omega
    · by_cases h0 : r = 0
      · simp [h0, hi]
      · by_cases h4' : c > 4
        · simp [hi, h4, h0, h4', hi]; omega
        · by_cases h0' : c = 0
          · simp [hi, h4, h0, h0', hi]
          · simp [hi, h4, h0, h4', h0', hi]; omega
  · simp [hi, Op.fail]

example : (Vec.init 3 (Vec.new : Vec XQ)).1 = .ok () ∧ (Vec.init 5 (Vec.new : Vec XQ)).1 ≠ .ok () := by
  decide +kernel
example : (Mat.init 0 9 (Mat.new : Mat XQ)).1 = .error (.err .RowsNumberNull) := by decide +kernel

/-! ### C05 -/

/-- The result of `set_element` on an f32 vector: the tests and their order. -/
theorem C05_result (v : Vec F) (hv : v.rows ≤ 4) (i : Nat) (x : F) :
    (Vec.setElement i x v).1 =
      if v.isInitialized = false then .error (.err .NotInit)
      else if isNaN x = true then .error (.err (.UtilsError .Nan))
      else if isInf x = true then .error (.err (.UtilsError .Inf))
      else if i < v.rows then .ok () else .error (.err .InvalidRow) := by
  unfold Vec.setElement Vec.writeElement Vec.isInitialized isValidValueL Utils.isValidValue isValidRow
  simp only [Op.get_bind]
  rcases Bool.dichotomy v.initialized with hi | hi
  · simp [Op.fail, hi]
  · by_cases h1 : isNaN x = true
    · simp [hi, h1, Res.mapErr]
    · by_cases h2 : isInf x = true
      · simp [hi, h1, h2, Res.mapErr]
      · by_cases h3 : i < v.rows
        · simp [hi, h1, h2, h3, Res.mapErr, Nat.not_le.mpr h3, arrSet_ok v.elements x (show i < 4 by omega)]
        · simp [hi, h1, h2, h3, Res.mapErr, Nat.not_lt.mp h3]

/-- C05: success condition. -/
theorem C05_ok_iff (v : Vec F) (hv : v.rows ≤ 4) (i : Nat) (x : F) :
    (Vec.setElement i x v).1 = .ok () ↔ v.isInitialized = true ∧ Finite x ∧ i < v.rows := by
  rw [C05_result v hv]
  unfold Finite
  cases v.isInitialized
  · simp
  · by_cases h1 : isNaN x = true
    · simp [h1]
    · by_cases h2 : isInf x = true
      · simp [h1, h2]
      · by_cases h3 : i < v.rows <;> simp [h1, h2, h3]

/-- C05: after a successful write the value is read back, everything else is as before. -/
theorem C05_round_trip (v w : Vec F) (hv : v.rows ≤ 4) (i : Nat) (x : F)
    (h : Vec.setElement i x v = (.ok (), w)) :
    w.getElement i = .ok x ∧ (∀ j, j ≠ i → w.getElement j = v.getElement j) ∧
      w.getRows = v.getRows ∧ w.isInitialized = v.isInitialized := by
  obtain ⟨hi, hx, hr⟩ := (C05_ok_iff v hv i x).mp (by rw [h])
  have hi : v.initialized = true := hi
  have h4 : i < 4 := by omega
  rw [Vec.setElement_ok hi hr h4 hx] at h
  cases h
  refine ⟨?_, fun j hj => ?_, rfl, rfl⟩
  · rw [Vec.getElement_eq (by exact hi) (by exact hr) h4]
    simp [Vec.put]
  · unfold Vec.getElement Vec.readElement isValidRow arrGet
    simp [Vec.put, hj]

/-- C05: a failed write changes nothing. -/
theorem C05_fail (v : Vec F) (hv : v.rows ≤ 4) (i : Nat) (x : F)
    (h : (Vec.setElement i x v).1 ≠ .ok ()) : (Vec.setElement i x v).2 = v := by
  unfold Vec.setElement Vec.writeElement isValidRow at *
  simp only [Op.get_bind] at *
  rcases Bool.dichotomy v.initialized with hi | hi
  · simp [Op.fail, hi]
  · simp only [Bool.not_true, Bool.false_eq_true, if_false, isValidValueL_eq] at h ⊢
    by_cases hx : Finite x
    · by_cases h3 : i < v.rows
      · simp [hi, hx, h3, Nat.not_le.mpr h3, arrSet_ok v.elements x (show i < 4 by omega)] at h
      · simp [hi, hx, Nat.not_lt.mp h3]
    · simp [hi, hx]

/-- C05 for `u8` vectors, which have no finiteness test. -/
theorem C05_u8 (v : Vec Nat) (hv : v.rows ≤ 4) (i x : Nat) :
    ((Vec.setElementU8 i x v).1 =
      if v.isInitialized = false then .error (.err .NotInit)
      else if i < v.rows then .ok () else .error (.err .InvalidRow)) ∧
    ((Vec.setElementU8 i x v).1 = .ok () →
      (Vec.setElementU8 i x v).2.getElementU8 i = .ok x ∧
      (∀ j, j ≠ i → (Vec.setElementU8 i x v).2.getElementU8 j = v.getElementU8 j) ∧
      (Vec.setElementU8 i x v).2.getRows = v.getRows) ∧
    ((Vec.setElementU8 i x v).1 ≠ .ok () → (Vec.setElementU8 i x v).2 = v) := by
  rcases Bool.dichotomy v.initialized with hi | hi
  · unfold Vec.setElementU8 Vec.isInitialized
    simp [hi, Op.fail]
  · by_cases h3 : i < v.rows
    · have h4 : i < 4 := by omega
      rw [Vec.setElementU8_eq hi h3 h4]
      refine ⟨by simp [Vec.isInitialized, hi, h3], fun _ => ⟨?_, fun j hj => ?_, rfl⟩, by simp⟩
      · rw [Vec.getElementU8_eq (by exact hi) (by exact h3) h4]
        simp [Vec.put]
      · unfold Vec.getElementU8 Vec.readElement isValidRow arrGet
        simp [Vec.put, hj]
    · unfold Vec.setElementU8 Vec.isInitialized isValidRow
      simp [hi, h3, Nat.not_lt.mp h3]

/-- A vector `(5, 7)`, for examples. -/
def exVec : Vec XQ := { rows := 2, elements := ![.fin 5, .fin 7, .fin 0, .fin 0], initialized := true }

example : (Vec.setElement 1 (.fin 3) exVec).1 = .ok () ∧
    (Vec.setElement 1 (.fin 3) exVec).2.getElement 1 = .ok (.fin 3) ∧
    (Vec.setElement 1 (.fin 3) exVec).2.getElement 0 = .ok (.fin 5) ∧
    (Vec.setElement 2 .nan exVec).1 = .error (.err (.UtilsError .Nan)) := by decide +kernel

/-! ### C06 -/

/-- The result of `set_element` on a matrix: the tests and their order. -/
theorem C06_result (m : Mat F) (hr : m.rows ≤ 4) (hc : m.cols ≤ 4) (i j : Nat) (x : F) :
    (Mat.setElement i j x m).1 =
      if m.isInitialized = false then .error (.err .NotInit)
      else if isNaN x = true then .error (.err (.UtilsError .Nan))
      else if isInf x = true then .error (.err (.UtilsError .Inf))
      else if ¬ i < m.rows then .error (.err .InvalidRow)
      else if j < m.cols then .ok () else .error (.err .InvalidCol) := by
  unfold Mat.setElement Mat.isInitialized isValidValueL Utils.isValidValue isValidRow isValidCol
  simp only [Op.get_bind]
  rcases Bool.dichotomy m.initialized with hi | hi
  · simp [Op.fail, hi]
  · by_cases h1 : isNaN x = true
    · simp [hi, h1, Res.mapErr]
    · by_cases h2 : isInf x = true
      · simp [hi, h1, h2, Res.mapErr]
      · by_cases h3 : i < m.rows
        · by_cases h4 : j < m.cols
          · simp [hi, h1, h2, h3, h4, Res.mapErr, Nat.not_le.mpr h3, Nat.not_le.mpr h4, arrSet_ok m.elements x (Mat.index_lt h3 h4 hr hc)]
          · simp [hi, h1, h2, h3, h4, Res.mapErr, Nat.not_le.mpr h3, Nat.not_lt.mp h4]
        · simp [hi, h1, h2, h3, Res.mapErr, Nat.not_lt.mp h3]

/-- C06: success condition. -/
theorem C06_ok_iff (m : Mat F) (hr : m.rows ≤ 4) (hc : m.cols ≤ 4) (i j : Nat) (x : F) :
    (Mat.setElement i j x m).1 = .ok () ↔
      m.isInitialized = true ∧ Finite x ∧ i < m.rows ∧ j < m.cols := by
  rw [C06_result m hr hc]
  unfold Finite
  cases m.isInitialized
  · simp
  · by_cases h1 : isNaN x = true
    · simp [h1]
    · by_cases h2 : isInf x = true
      · simp [h1, h2]
      · by_cases h3 : i < m.rows <;> by_cases h4 : j < m.cols <;> simp [h1, h2, h3, h4]

/-- C06: the written cell reads back, no other cell is affected, nor is the shape. -/
theorem C06_round_trip (m w : Mat F) (hr : m.rows ≤ 4) (hc : m.cols ≤ 4) (i j : Nat) (x : F)
    (h : Mat.setElement i j x m = (.ok (), w)) :
    w.getElement i j = .ok x ∧
      (∀ p q, ¬ (p = i ∧ q = j) → w.getElement p q = m.getElement p q) ∧
      w.getRows = m.getRows ∧ w.getCols = m.getCols ∧ w.isInitialized = m.isInitialized := by
  obtain ⟨hi, hx, h3, h4⟩ := (C06_ok_iff m hr hc i j x).mp (by rw [h])
  have hi : m.initialized = true := hi
  have h16 := Mat.index_lt h3 h4 hr hc
  rw [Mat.setElement_eq hi h3 h4 h16, if_pos hx] at h
  cases h
  refine ⟨?_, fun p q hpq => ?_, rfl, rfl, rfl⟩
  · rw [Mat.getElement_eq (by exact hi) (by exact h3) (by exact h4) (by exact h16)]
    simp [Mat.put]
  · unfold Mat.getElement isValidRow isValidCol
    show (if (!m.initialized) = true then _ else _) = _
    by_cases hp : p < m.rows
    · by_cases hq : q < m.cols
      · have hne : p * m.cols + q ≠ i * m.cols + j := fun he => hpq (MatIs.idx_inj hq h4 he)
        simp [hi, hp, hq, arrGet, Mat.put, hne]
      · simp [hi, hp, hq, Mat.put, Nat.not_lt.mp hq]
    · simp [hi, hp, Mat.put, Nat.not_lt.mp hp]

/-- C06: a failed write changes nothing. -/
theorem C06_fail (m : Mat F) (hr : m.rows ≤ 4) (hc : m.cols ≤ 4) (i j : Nat) (x : F)
    (h : (Mat.setElement i j x m).1 ≠ .ok ()) : (Mat.setElement i j x m).2 = m := by
  unfold Mat.setElement isValidRow isValidCol at *
  simp only [Op.get_bind] at *
  rcases Bool.dichotomy m.initialized with hi | hi
  · simp [Op.fail, hi]
  · simp only [Bool.not_true, Bool.false_eq_true, if_false, isValidValueL_eq] at h ⊢
    by_cases hx : Finite x
    · by_cases h3 : i < m.rows
      · by_cases h4 : j < m.cols
        · simp [hi, hx, h3, h4, Nat.not_le.mpr h3, Nat.not_le.mpr h4, arrSet_ok m.elements x (Mat.index_lt h3 h4 hr hc)] at h
        · simp [hi, hx, h3, Nat.not_le.mpr h3, Nat.not_lt.mp h4]
      · simp [hi, hx, Nat.not_lt.mp h3]
    · simp [hi, hx]

/-- A 2×3 matrix with rows `(1, 2, 3)`, `(4, 5, 6)`, for examples. -/
def exMat : Mat XQ :=
  { rows := 2, cols := 3, initialized := true,
    elements := ![.fin 1, .fin 2, .fin 3, .fin 4, .fin 5, .fin 6, .fin 0, .fin 0,
      .fin 0, .fin 0, .fin 0, .fin 0, .fin 0, .fin 0, .fin 0, .fin 0] }

example : (Mat.setElement 1 0 (.fin 9) exMat).1 = .ok () ∧
    (Mat.setElement 1 0 (.fin 9) exMat).2.getElement 1 0 = .ok (.fin 9) ∧
    (Mat.setElement 1 0 (.fin 9) exMat).2.getElement 0 2 = .ok (.fin 3) ∧
    (Mat.setElement 2 0 (.fin 9) exMat).1 = .error (.err .InvalidRow) := by decide +kernel

/-! ### C07 -/

/-- C07 for vectors of any element type. -/
theorem C07_vec {T : Type} (v : Vec T) (n : Nat) :
    (v.isInitialized = false → Vec.reinit n v = (.error (.err .NotInit), v)) ∧
    (v.isInitialized = true → 1 ≤ n → n ≤ 4 →
      Vec.reinit n v = (.ok (), { v with rows := n })) ∧
    (v.isInitialized = true → n > 4 →
      Vec.reinit n v = (.error (.err .RowsNumberOverflow), { v with initialized := false })) ∧
    (v.isInitialized = true → n = 0 →
      Vec.reinit n v = (.error (.err .RowsNumberNull), { v with initialized := false })) := by
  unfold Vec.reinit Vec.init Vec.isInitialized isValidRowsNumber M_MAX
  simp only [Op.get_bind]
  rcases Bool.dichotomy v.initialized with hi | hi
  · simp [Op.fail, hi]
  · refine ⟨by simp [hi], fun _ h1 h4 => ?_, fun _ h4 => ?_, fun _ h0 => ?_⟩
    · simp [show ¬ n > 4 by omega, show n ≠ 0 by omega, hi]
    · simp [hi, h4]
    · simp [hi, h0]

/-- C07 for matrices. -/
theorem C07_mat (m : Mat F) (r c : Nat) :
    (m.isInitialized = false → Mat.reinit r c m = (.error (.err .NotInit), m)) ∧
    (m.isInitialized = true → 1 ≤ r → r ≤ 4 → 1 ≤ c → c ≤ 4 →
      Mat.reinit r c m = (.ok (), { m with rows := r, cols := c })) ∧
    (m.isInitialized = true → ¬ (1 ≤ r ∧ r ≤ 4 ∧ 1 ≤ c ∧ c ≤ 4) →
      ∃ e, (e = .RowsNumberOverflow ∨ e = .RowsNumberNull ∨ e = .ColsNumberOverflow ∨
          e = .ColsNumberNull) ∧
        Mat.reinit r c m = (.error (.err e), { m with initialized := false })) := by
  unfold Mat.reinit Mat.init Mat.isInitialized isValidRowsNumber isValidColsNumber M_MAX N_MAX
  simp only [Op.get_bind]
  rcases Bool.dichotomy m.initialized with hi | hi
  · simp [Op.fail, hi]
  · refine ⟨by simp [hi], fun _ h1 h4 h1' h4' => ?_, fun _ h => ?_⟩
    · simp [show ¬ r > 4 by omega, show r ≠ 0 by omega, show ¬ c > 4 by omega, show c ≠ 0 by omega, hi]
    · by_cases h4 : r > 4
      · exact ⟨_, Or.inl rfl, by simp [hi, h4]⟩
      · by_cases h0 : r = 0
        · exact ⟨_, Or.inr (Or.inl rfl), by simp [hi, h0]⟩
        · by_cases h4' : c > 4
          · exact ⟨_, Or.inr (Or.inr (Or.inl rfl)), by simp [hi, h4, h0, h4']⟩
          · have h0' : c = 0 := by omega
            exact ⟨_, Or.inr (Or.inr (Or.inr rfl)), by simp [hi, h4, h0, h4', h0']⟩

/-- C07: the buffer reappears in the new row-major layout. -/
theorem C07_layout (m : Mat F) (hm : m.isInitialized = true) (r c : Nat) (hr : 1 ≤ r) (hr4 : r ≤ 4)
    (hc : 1 ≤ c) (hc4 : c ≤ 4) (i j : Nat) (hi : i < r) (hj : j < c) (h16 : i * c + j < 16) :
    (Mat.reinit r c m).2.getElement i j = .ok (m.elements ⟨i * c + j, h16⟩) := by
  rw [(C07_mat m r c).2.1 hm hr hr4 hc hc4]
  exact Mat.getElement_eq (m := { m with rows := r, cols := c }) hm hi hj h16

/-- C07: after a failed `reinit` every element access fails until a successful `init`. -/
theorem C07_access (m : Mat F) (h : m.isInitialized = false) (i j : Nat) (x : F) :
    m.getElement i j = .error (.err .NotInit) ∧
      Mat.setElement i j x m = (.error (.err .NotInit), m) := by
  have h : m.initialized = false := h
  constructor
  · simp [Mat.getElement, h]
  · simp [Mat.setElement, h, Op.fail]

/-- C07: the vector counterpart of `C07_access`. -/
theorem C07_access_vec (v : Vec F) (h : v.isInitialized = false) (i : Nat) (x : F) :
    v.getElement i = .error (.err .NotInit) ∧
      Vec.setElement i x v = (.error (.err .NotInit), v) := by
  have h : v.initialized = false := h
  constructor
  · simp [Vec.getElement, h]
  · simp [Vec.setElement, h, Op.fail]

example : (Mat.reinit 3 2 exMat).1 = .ok () ∧
    (Mat.reinit 3 2 exMat).2.getElement 1 0 = .ok (.fin 3) ∧
    (Mat.reinit 3 5 exMat).1 = .error (.err .ColsNumberOverflow) ∧
    (Mat.reinit 3 5 exMat).2.getElement 0 0 = .error (.err .NotInit) := by decide +kernel

end Verif
