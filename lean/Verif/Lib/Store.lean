import Mathlib.Tactic.Ring
import Verif.Lib.SafeLinalg
import Verif.Spec.Views

/-
Run equations for element access and for loops that fill a vector or a matrix.
-/

set_option linter.unusedSectionVars false
set_option linter.unusedSimpArgs false

namespace Verif
open Scalar

variable {F : Type} [Scalar F]

theorem isValidValueL_eq (x : F) :
    isValidValueL x = if Finite x then .ok () else .error (.err (valueErr x)) := by
  unfold isValidValueL Utils.isValidValue valueErr
  by_cases h1 : isNaN x = true <;> by_cases h2 : isInf x = true <;>
    simp [Res.mapErr, fail, Finite, h1, h2]

theorem isValidRow_ok {i n : Nat} (h : i < n) : isValidRow i n = .ok () :=
  isValidRow_ok_iff.mpr h
theorem isValidCol_ok {i n : Nat} (h : i < n) : isValidCol i n = .ok () :=
  isValidCol_ok_iff.mpr h

namespace Vec

theorem getElement_eq {v : Vec F} {i : Nat} (hi : v.initialized = true) (h : i < v.rows)
    (h4 : i < 4) : v.getElement i = .ok (v.elements ⟨i, h4⟩) := by
  unfold getElement readElement
  simp [hi, isValidRow_ok h, arrGet_ok _ h4]

theorem getElementU8_eq {v : Vec Nat} {i : Nat} (hi : v.initialized = true) (h : i < v.rows)
    (h4 : i < 4) : v.getElementU8 i = .ok (v.elements ⟨i, h4⟩) := by
  unfold getElementU8 readElement
  simp [hi, isValidRow_ok h, arrGet_ok _ h4]

/-- Replace one element. -/
def put {T : Type} (i : Nat) (x : T) (v : Vec T) : Vec T :=
  { v with elements := fun j => if j.val = i then x else v.elements j }

theorem setElement_eq {v : Vec F} {i : Nat} {x : F} (hi : v.initialized = true) (h : i < v.rows)
    (h4 : i < 4) :
    setElement i x v = if Finite x then (.ok (), v.put i x)
      else (.error (.err (valueErr x)), v) := by
  unfold setElement writeElement
  simp only [Op.get_bind, hi, Bool.not_true, Bool.false_eq_true, if_false, isValidValueL_eq]
  split
  · simp [isValidRow_ok h, arrSet_ok _ _ h4, put]
  · simp

theorem setElement_ok {v : Vec F} {i : Nat} {x : F} (hi : v.initialized = true) (h : i < v.rows)
    (h4 : i < 4) (hx : Finite x) : setElement i x v = (.ok (), v.put i x) := by
  rw [setElement_eq hi h h4, if_pos hx]

theorem setElementU8_eq {v : Vec Nat} {i x : Nat} (hi : v.initialized = true) (h : i < v.rows)
    (h4 : i < 4) : setElementU8 i x v = (.ok (), v.put i x) := by
  unfold setElementU8 writeElement
  simp [hi, isValidRow_ok h, arrSet_ok _ _ h4, put]

@[simp] theorem put_rows {T : Type} (v : Vec T) (i : Nat) (x : T) : (v.put i x).rows = v.rows := rfl
@[simp] theorem put_init {T : Type} (v : Vec T) (i : Nat) (x : T) :
    (v.put i x).initialized = v.initialized := rfl
@[simp] theorem overwrite_rows (v : Vec F) (k : Nat) (g : Nat → F) :
    (v.overwrite k g).rows = v.rows := rfl
@[simp] theorem overwrite_init (v : Vec F) (k : Nat) (g : Nat → F) :
    (v.overwrite k g).initialized = v.initialized := rfl

theorem overwrite_zero (v : Vec F) (g : Nat → F) : v.overwrite 0 g = v := by
  simp [overwrite]

theorem overwrite_succ (v : Vec F) (k : Nat) (g : Nat → F) :
    (v.overwrite k g).put k (g k) = v.overwrite (k + 1) g := by
  unfold overwrite put
  congr 1; funext j
  by_cases h : j.val = k
  · simp [h]
  · have : j.val < k + 1 ↔ j.val < k := by omega
    simp [h, this]

theorem overwrite_congr (v : Vec F) (k : Nat) {g g' : Nat → F} (h : ∀ i, i < k → g i = g' i) :
    v.overwrite k g = v.overwrite k g' := by
  unfold overwrite
  congr 1; funext j
  split
  · exact h _ ‹_›
  · rfl

/-- The errors of a store loop. -/
def bads (g : Nat → F) (i : Nat) : Option (Fail LinalgError) :=
  if Finite (g i) then none else some (.err (valueErr (g i)))

theorem stores_of_loop {s : Vec F} {n : Nat} {g : Nat → F} {body : Nat → Op LinalgError (Vec F) Unit}
    (hi : s.initialized = true) (hn : n ≤ s.rows) (h4 : n ≤ 4)
    (hb : ∀ k, k < n → body k (s.overwrite k g) = setElement k (g k) (s.overwrite k g)) :
    s.Stores n g (forRange 0 n body s) := by
  have key := forRange_steps body (fun k => s.overwrite k g) (bads g) 0 n (Nat.zero_le _)
    (fun i _ h2 => by
      rw [hb i h2, setElement_eq (by exact hi) (by exact Nat.lt_of_lt_of_le h2 hn) (by omega)]
      unfold bads
      split <;> simp [overwrite_succ])
  rw [overwrite_zero] at key
  rw [key]
  constructor
  · intro h
    have : firstBad (bads g) 0 (n - 0) = none := by
      rw [firstBad_none_iff]
      intro i _ h2
      simp only [bads, h i (by omega), if_true]
    rw [this]
  · intro k hk h1 h2
    have : firstBad (bads g) 0 (n - 0) = some (k, .err (valueErr (g k))) := by
      rw [firstBad_some_iff]
      refine ⟨by omega, by omega, by simp [bads, h2], fun i _ hik => by simp [bads, h1 i hik]⟩
    rw [this]

theorem Stores.ok {s : Vec F} {n : Nat} {g : Nat → F} {out : Res LinalgError Unit × Vec F}
    (h : s.Stores n g out) (hf : ∀ i, i < n → Finite (g i)) : out = (.ok (), s.overwrite n g) :=
  h.1 hf

/-- `Stores` determines the outcome. -/
theorem Stores.cases {s : Vec F} {n : Nat} {g : Nat → F} {out : Res LinalgError Unit × Vec F}
    (h : s.Stores n g out) :
    ((∀ i, i < n → Finite (g i)) ∧ out = (.ok (), s.overwrite n g)) ∨
    ∃ k, k < n ∧ (∀ i, i < k → Finite (g i)) ∧ ¬ Finite (g k) ∧
      out = (.error (.err (valueErr (g k))), s.overwrite k g) := by
  by_cases hf : ∀ i, i < n → Finite (g i)
  · exact Or.inl ⟨hf, h.1 hf⟩
  · right
    push Not at hf
    have := Nat.find_spec hf
    refine ⟨Nat.find hf, this.1, fun i hi => ?_, this.2,
      h.2 _ this.1 (fun i hi => ?_) this.2⟩ <;>
    · by_contra hc
      exact Nat.find_min hf hi ⟨by omega, hc⟩

theorem Stores.congr {s : Vec F} {n : Nat} {g g' : Nat → F} {out : Res LinalgError Unit × Vec F}
    (h : s.Stores n g out) (hg : ∀ i, i < n → g i = g' i) : s.Stores n g' out := by
  constructor
  · intro hf
    rw [h.1 (fun i hi => by rw [hg i hi]; exact hf i hi), overwrite_congr s n hg]
  · intro k hk h1 h2
    rw [← hg k hk] at h2 ⊢
    rw [h.2 k hk (fun i hi => by rw [hg i (by omega)]; exact h1 i hi) h2,
      overwrite_congr s k (fun i hi => hg i (by omega))]

theorem Stores.unique {s : Vec F} {n : Nat} {g : Nat → F} {o1 o2 : Res LinalgError Unit × Vec F}
    (h1 : s.Stores n g o1) (h2 : s.Stores n g o2) : o1 = o2 := by
  rcases h1.cases with ⟨hf, e⟩ | ⟨k, hk, hf, hb, e⟩
  · rw [e, h2.1 hf]
  · rw [e, h2.2 k hk hf hb]

end Vec

theorem vecIs_iff {v : Vec F} {n : Nat} {f : Nat → F} : VecIs v n f ↔
    1 ≤ n ∧ n ≤ 4 ∧ v.initialized = true ∧ v.rows = n ∧
      ∀ i (h4 : i < 4), i < n → v.elements ⟨i, h4⟩ = f i := by
  constructor
  · rintro ⟨h1, h2, h3, h4⟩
    have hi : v.initialized = true := by
      by_contra hc
      simp [Vec.getRows, Bool.eq_false_iff.mpr hc, fail] at h3
    have hr : v.rows = n := by
      simpa [Vec.getRows, hi] using h3
    refine ⟨h1, h2, hi, hr, fun i hi4 hin => ?_⟩
    have := h4 i hin
    rw [Vec.getElement_eq hi (by omega) hi4] at this
    simpa using this
  · rintro ⟨h1, h2, hi, hr, h⟩
    refine ⟨h1, h2, by simp [Vec.getRows, hi, hr], fun i hin => ?_⟩
    rw [Vec.getElement_eq hi (by omega) (by omega), h]
    exact hin

theorem u8Is_iff {v : Vec Nat} {n : Nat} {f : Nat → Nat} : U8Is v n f ↔
    1 ≤ n ∧ n ≤ 4 ∧ v.initialized = true ∧ v.rows = n ∧
      ∀ i (h4 : i < 4), i < n → v.elements ⟨i, h4⟩ = f i := by
  constructor
  · rintro ⟨h1, h2, h3, h4⟩
    have hi : v.initialized = true := by
      by_contra hc
      simp [Vec.getRows, Bool.eq_false_iff.mpr hc, fail] at h3
    have hr : v.rows = n := by
      simpa [Vec.getRows, hi] using h3
    refine ⟨h1, h2, hi, hr, fun i hi4 hin => ?_⟩
    have := h4 i hin
    rw [Vec.getElementU8_eq hi (by omega) hi4] at this
    simpa using this
  · rintro ⟨h1, h2, hi, hr, h⟩
    refine ⟨h1, h2, by simp [Vec.getRows, hi, hr], fun i hin => ?_⟩
    rw [Vec.getElementU8_eq hi (by omega) (by omega), h]
    exact hin

namespace VecIs
variable {v w : Vec F} {n : Nat} {f g : Nat → F}

theorem init (h : VecIs v n f) : v.initialized = true := (vecIs_iff.mp h).2.2.1
theorem rows_eq (h : VecIs v n f) : v.rows = n := (vecIs_iff.mp h).2.2.2.1
theorem elem (h : VecIs v n f) {i : Nat} (h4 : i < 4) (hi : i < n) : v.elements ⟨i, h4⟩ = f i :=
  (vecIs_iff.mp h).2.2.2.2 i h4 hi

theorem congr (h : VecIs v n f) (hf : ∀ i, i < n → f i = g i) : VecIs v n g :=
  ⟨h.pos, h.le, h.rows, fun i hi => by rw [h.get i hi, hf i hi]⟩

theorem overwrite (h : VecIs v n f) (g : Nat → F) : VecIs (v.overwrite n g) n g := by
  rw [vecIs_iff]
  refine ⟨h.pos, h.le, h.init, h.rows_eq, fun i h4 hi => ?_⟩
  simp [Vec.overwrite, hi]

theorem put (h : VecIs v n f) (i : Nat) (x : F) :
    VecIs (v.put i x) n (fun j => if j = i then x else f j) := by
  rw [vecIs_iff]
  refine ⟨h.pos, h.le, h.init, h.rows_eq, fun j h4 hj => ?_⟩
  simp only [Vec.put]
  split
  · rfl
  · exact h.elem h4 hj

theorem set_ok (h : VecIs v n f) {i : Nat} {x : F} (hi : i < n) (hx : Finite x) :
    Vec.setElement i x v = (.ok (), v.put i x) :=
  Vec.setElement_ok h.init (by rw [h.rows_eq]; exact hi) (by have := h.le; omega) hx

theorem exec_set (h : VecIs v n f) {i : Nat} {x : F} (hi : i < n) (hx : Finite x) :
    ∃ v', exec v (Vec.setElement i x) = .ok v' ∧
      VecIs v' n (fun j => if j = i then x else f j) :=
  ⟨_, exec_ok (h.set_ok hi hx), h.put i x⟩

/-- A successful write inside a vector. -/
theorem exec_set_inv (h : VecIs v n f) {i : Nat} {x : F} (hi : i < n)
    (hr : exec v (Vec.setElement i x) = .ok w) :
    Finite x ∧ w = v.put i x := by
  obtain ⟨_, h1⟩ := exec_eq_ok hr
  rw [Vec.setElement_eq h.init (by rw [h.rows_eq]; exact hi) (by have := h.le; omega)] at h1
  split at h1
  · simp at h1; exact ⟨‹_›, h1.symm⟩
  · simp at h1

theorem sameSize (hv : VecIs v n f) (hw : VecIs w n g) : v.isSameSizeAs w = .ok true := by
  unfold Vec.isSameSizeAs
  simp [hv.init, hw.init, hv.rows_eq, hw.rows_eq]

end VecIs

namespace Mat

theorem idx_lt {i j r c : Nat} (hi : i < r) (hj : j < c) (hr : r ≤ 4) (hc : c ≤ 4) :
    i * c + j < 16 := Mat.index_lt hi hj hr hc

theorem getElement_eq {m : Mat F} {i j : Nat} (hi : m.initialized = true) (h : i < m.rows)
    (h' : j < m.cols) (h16 : i * m.cols + j < 16) :
    m.getElement i j = .ok (m.elements ⟨i * m.cols + j, h16⟩) := by
  unfold getElement
  simp [hi, isValidRow_ok h, isValidCol_ok h', arrGet_ok _ h16]

/-- Replace one element. -/
def put (i j : Nat) (x : F) (m : Mat F) : Mat F :=
  { m with elements := fun p => if p.val = i * m.cols + j then x else m.elements p }

theorem setElement_eq {m : Mat F} {i j : Nat} {x : F} (hi : m.initialized = true) (h : i < m.rows)
    (h' : j < m.cols) (h16 : i * m.cols + j < 16) :
    setElement i j x m = if Finite x then (.ok (), m.put i j x)
      else (.error (.err (valueErr x)), m) := by
  unfold setElement
  simp only [Op.get_bind, hi, Bool.not_true, Bool.false_eq_true, if_false, isValidValueL_eq]
  split
  · simp [isValidRow_ok h, isValidCol_ok h', arrSet_ok _ _ h16, put, hi]
  · simp

@[simp] theorem put_rows (v : Mat F) (i j : Nat) (x : F) : (v.put i j x).rows = v.rows := rfl
@[simp] theorem put_cols (v : Mat F) (i j : Nat) (x : F) : (v.put i j x).cols = v.cols := rfl
@[simp] theorem put_init (v : Mat F) (i j : Nat) (x : F) :
    (v.put i j x).initialized = v.initialized := rfl
@[simp] theorem overwrite_rows (v : Mat F) (k : Nat) (g : Nat → Nat → F) :
    (v.overwrite k g).rows = v.rows := rfl
@[simp] theorem overwrite_cols (v : Mat F) (k : Nat) (g : Nat → Nat → F) :
    (v.overwrite k g).cols = v.cols := rfl
@[simp] theorem overwrite_init (v : Mat F) (k : Nat) (g : Nat → Nat → F) :
    (v.overwrite k g).initialized = v.initialized := rfl

theorem overwrite_zero (v : Mat F) (g : Nat → Nat → F) : v.overwrite 0 g = v := by
  simp [overwrite]

theorem overwrite_succ (v : Mat F) (k : Nat) (g : Nat → Nat → F) :
    (v.overwrite k g).put (k / v.cols) (k % v.cols) (g (k / v.cols) (k % v.cols)) =
      v.overwrite (k + 1) g := by
  unfold overwrite put
  have hk : k / v.cols * v.cols + k % v.cols = k := Nat.div_add_mod' k v.cols
  simp only [hk]
  congr 1; funext j
  by_cases h : j.val = k
  · simp [h]
  · have : j.val < k + 1 ↔ j.val < k := by omega
    simp [h, this]

theorem overwrite_congr (v : Mat F) (k : Nat) {g g' : Nat → Nat → F}
    (h : ∀ p, p < k → g (p / v.cols) (p % v.cols) = g' (p / v.cols) (p % v.cols)) :
    v.overwrite k g = v.overwrite k g' := by
  unfold overwrite
  congr 1; funext j
  split
  · exact h _ ‹_›
  · rfl

theorem stores_of_loop {s : Mat F} {r c : Nat} {g : Nat → Nat → F}
    {body : Nat → Nat → Op LinalgError (Mat F) Unit}
    (hi : s.initialized = true) (hr : s.rows = r) (hc : s.cols = c) (hr4 : r ≤ 4) (hc4 : c ≤ 4)
    (hb : ∀ i j, i < r → j < c →
      body i j (s.overwrite (i * c + j) g) = setElement i j (g i j) (s.overwrite (i * c + j) g)) :
    s.Stores r c g (forRange 0 r (fun i => forRange 0 c (fun j => body i j)) s) := by
  rw [forRange_flatten]
  have hdiv : ∀ k, k < r * c → k / c < r ∧ k % c < c ∧ k / c * c + k % c = k := fun k hk => by
    have hc0 : 0 < c := by
      rcases Nat.eq_zero_or_pos c with h | h
      · subst h; simp at hk
      · exact h
    exact ⟨Nat.div_lt_of_lt_mul (by rw [Nat.mul_comm]; exact hk), Nat.mod_lt _ hc0,
      Nat.div_add_mod' k c⟩
  have key := forRange_steps (fun k => body (k / c) (k % c)) (fun k => s.overwrite k g)
    (Vec.bads fun k => g (k / c) (k % c)) 0 (r * c) (Nat.zero_le _)
    (fun k _ h2 => by
      obtain ⟨h3, h4, h5⟩ := hdiv k h2
      have := hb (k / c) (k % c) h3 h4
      rw [h5] at this
      rw [this, setElement_eq (by exact hi) (by simpa [hr] using h3) (by simpa [hc] using h4)
        (by simp only [overwrite_cols, hc]; exact index_lt h3 h4 hr4 hc4)]
      unfold Vec.bads
      have h6 := overwrite_succ s k g
      rw [hc] at h6
      split
      · rw [h6]
      · rfl)
  rw [overwrite_zero] at key
  rw [key]
  constructor
  · intro h
    have : firstBad (Vec.bads fun k => g (k / c) (k % c)) 0 (r * c - 0) = none := by
      rw [firstBad_none_iff]
      intro k _ h2
      obtain ⟨h3, h4, h5⟩ := hdiv k (by omega)
      simp only [Vec.bads, h _ _ h3 h4, if_true]
    rw [this]
  · intro i j hi' hj h1 h2
    have hk : i * c + j < r * c := by
      have : (i + 1) * c ≤ r * c := Nat.mul_le_mul_right _ hi'
      have h3 : (i + 1) * c = i * c + c := by ring
      omega
    have hdv : (i * c + j) / c = i := by
      rw [Nat.mul_comm, Nat.mul_add_div (by omega), Nat.div_eq_of_lt hj, Nat.add_zero]
    have hmd : (i * c + j) % c = j := by
      rw [Nat.mul_comm, Nat.mul_add_mod, Nat.mod_eq_of_lt hj]
    have : firstBad (Vec.bads fun k => g (k / c) (k % c)) 0 (r * c - 0) =
        some (i * c + j, .err (valueErr (g i j))) := by
      rw [firstBad_some_iff]
      refine ⟨by omega, by omega, by simp [Vec.bads, hdv, hmd, h2], fun k _ hik => ?_⟩
      obtain ⟨h3, h4, h5⟩ := hdiv k (by omega)
      have : Finite (g (k / c) (k % c)) := by
        refine h1 _ _ h3 h4 ?_
        rcases Nat.lt_trichotomy (k / c) i with h6 | h6 | h6
        · exact Or.inl h6
        · right; rw [h6] at h5; exact ⟨h6, by omega⟩
        · exfalso
          have : (i + 1) * c ≤ k / c * c := Nat.mul_le_mul_right _ h6
          have h7 : (i + 1) * c = i * c + c := by ring
          omega
      simp [Vec.bads, this]
    rw [this]

theorem Stores.ok {s : Mat F} {r c : Nat} {g : Nat → Nat → F} {out : Res LinalgError Unit × Mat F}
    (h : s.Stores r c g out) (hf : ∀ i j, i < r → j < c → Finite (g i j)) :
    out = (.ok (), s.overwrite (r * c) g) :=
  h.1 hf

/-- `Stores` determines the outcome. -/
theorem Stores.cases {s : Mat F} {r c : Nat} {g : Nat → Nat → F}
    {out : Res LinalgError Unit × Mat F} (h : s.Stores r c g out) :
    ((∀ i j, i < r → j < c → Finite (g i j)) ∧ out = (.ok (), s.overwrite (r * c) g)) ∨
    ∃ i j, i < r ∧ j < c ∧
      (∀ i' j', i' < r → j' < c → (i' < i ∨ i' = i ∧ j' < j) → Finite (g i' j')) ∧
      ¬ Finite (g i j) ∧
      out = (.error (.err (valueErr (g i j))), s.overwrite (i * c + j) g) := by
  by_cases hf : ∀ i j, i < r → j < c → Finite (g i j)
  · exact Or.inl ⟨hf, h.1 hf⟩
  · right
    classical
    push Not at hf
    -- the first bad row, then the first bad column in it
    have hi := Nat.find_spec hf
    have hj := Nat.find_spec hi
    refine ⟨Nat.find hf, Nat.find hi, hj.1, hj.2.1, ?_, hj.2.2,
      h.2 _ _ hj.1 hj.2.1 ?_ hj.2.2⟩ <;>
    · intro i' j' h1 h2 h3
      by_contra hc
      rcases h3 with h3 | ⟨h3, h4⟩
      · exact Nat.find_min hf h3 ⟨j', h1, h2, hc⟩
      · subst h3; exact Nat.find_min hi h4 ⟨h1, h2, hc⟩

theorem Stores.unique {s : Mat F} {r c : Nat} {g : Nat → Nat → F}
    {o1 o2 : Res LinalgError Unit × Mat F} (h1 : s.Stores r c g o1) (h2 : s.Stores r c g o2) :
    o1 = o2 := by
  rcases h1.cases with ⟨hf, e⟩ | ⟨i, j, hi, hj, hf, hb, e⟩
  · rw [e, h2.1 hf]
  · rw [e, h2.2 i j hi hj hf hb]

end Mat

theorem matIs_iff {m : Mat F} {r c : Nat} {f : Nat → Nat → F} : MatIs m r c f ↔
    1 ≤ r ∧ r ≤ 4 ∧ 1 ≤ c ∧ c ≤ 4 ∧ m.initialized = true ∧ m.rows = r ∧ m.cols = c ∧
      ∀ i j (h16 : i * c + j < 16), i < r → j < c → m.elements ⟨i * c + j, h16⟩ = f i j := by
  constructor
  · rintro ⟨h1, h2, h3, h4, h5, h6, h7⟩
    have hi : m.initialized = true := by
      by_contra hc
      simp [Mat.getRows, Bool.eq_false_iff.mpr hc, fail] at h5
    have hr : m.rows = r := by simpa [Mat.getRows, hi] using h5
    have hc : m.cols = c := by simpa [Mat.getCols, hi] using h6
    refine ⟨h1, h2, h3, h4, hi, hr, hc, fun i j h16 hir hjc => ?_⟩
    have := h7 i j hir hjc
    subst hc
    rw [Mat.getElement_eq hi (by omega) hjc h16] at this
    simpa using this
  · rintro ⟨h1, h2, h3, h4, hi, hr, hc, h⟩
    subst hc
    refine ⟨h1, h2, h3, h4, by simp [Mat.getRows, hi, hr], by simp [Mat.getCols, hi],
      fun i j hir hjc => ?_⟩
    rw [Mat.getElement_eq hi (by omega) hjc (Mat.index_lt hir hjc h2 h4), h]
    · exact hir
    · exact hjc

namespace MatIs
variable {m m' : Mat F} {r c : Nat} {f g : Nat → Nat → F}

theorem init (h : MatIs m r c f) : m.initialized = true := (matIs_iff.mp h).2.2.2.2.1
theorem rows_eq (h : MatIs m r c f) : m.rows = r := (matIs_iff.mp h).2.2.2.2.2.1
theorem cols_eq (h : MatIs m r c f) : m.cols = c := (matIs_iff.mp h).2.2.2.2.2.2.1
theorem elem (h : MatIs m r c f) {i j : Nat} (h16 : i * c + j < 16) (hi : i < r) (hj : j < c) :
    m.elements ⟨i * c + j, h16⟩ = f i j :=
  (matIs_iff.mp h).2.2.2.2.2.2.2 i j h16 hi hj

theorem congr (h : MatIs m r c f) (hf : ∀ i j, i < r → j < c → f i j = g i j) : MatIs m r c g :=
  ⟨h.rpos, h.rle, h.cpos, h.cle, h.rows, h.cols, fun i j hi hj => by
    rw [h.get i j hi hj, hf i j hi hj]⟩

theorem div_eq {c i j : Nat} (hj : j < c) : (i * c + j) / c = i := by
  rw [Nat.mul_comm, Nat.mul_add_div (by omega), Nat.div_eq_of_lt hj, Nat.add_zero]
theorem mod_eq {c i j : Nat} (hj : j < c) : (i * c + j) % c = j := by
  rw [Nat.mul_comm, Nat.mul_add_mod, Nat.mod_eq_of_lt hj]
theorem idx_lt_iff {r c i j : Nat} (hj : j < c) : i * c + j < r * c ↔ i < r := by
  constructor
  · intro h
    by_contra hc
    have : r * c ≤ i * c := Nat.mul_le_mul_right _ (by omega)
    omega
  · intro h
    have : (i + 1) * c ≤ r * c := Nat.mul_le_mul_right _ h
    have h3 : (i + 1) * c = i * c + c := by ring
    omega
theorem idx_inj {c i j i' j' : Nat} (hj : j < c) (hj' : j' < c) (h : i * c + j = i' * c + j') :
    i = i' ∧ j = j' := by
  constructor
  · rw [← div_eq (i := i) hj, h, div_eq hj']
  · rw [← mod_eq (i := i) hj, h, mod_eq hj']

theorem overwrite (h : MatIs m r c f) (g : Nat → Nat → F) :
    MatIs (m.overwrite (r * c) g) r c g := by
  rw [matIs_iff]
  refine ⟨h.rpos, h.rle, h.cpos, h.cle, h.init, h.rows_eq, h.cols_eq, fun i j h16 hi hj => ?_⟩
  simp only [Mat.overwrite, h.cols_eq, div_eq hj, mod_eq hj, (idx_lt_iff hj).mpr hi, if_true]

theorem put (h : MatIs m r c f) (i j : Nat) (hj : j < c) (x : F) :
    MatIs (m.put i j x) r c (fun i' j' => if i' = i ∧ j' = j then x else f i' j') := by
  rw [matIs_iff]
  refine ⟨h.rpos, h.rle, h.cpos, h.cle, h.init, h.rows_eq, h.cols_eq, fun i' j' h16 hi' hj' => ?_⟩
  simp only [Mat.put, h.cols_eq]
  by_cases hc : i' = i ∧ j' = j
  · obtain ⟨rfl, rfl⟩ := hc; simp
  · rw [if_neg hc, if_neg fun he => hc (idx_inj hj' hj he)]
    exact h.elem h16 hi' hj'

theorem set_ok (h : MatIs m r c f) {i j : Nat} {x : F} (hi : i < r) (hj : j < c) (hx : Finite x) :
    Mat.setElement i j x m = (.ok (), m.put i j x) := by
  rw [Mat.setElement_eq h.init (by rw [h.rows_eq]; exact hi) (by rw [h.cols_eq]; exact hj)
    (by rw [h.cols_eq]; exact Mat.index_lt hi hj h.rle h.cle), if_pos hx]

theorem exec_set (h : MatIs m r c f) {i j : Nat} {x : F} (hi : i < r) (hj : j < c)
    (hx : Finite x) :
    ∃ m', exec m (Mat.setElement i j x) = .ok m' ∧
      MatIs m' r c (fun i' j' => if i' = i ∧ j' = j then x else f i' j') :=
  ⟨_, exec_ok (h.set_ok hi hj hx), h.put i j hj x⟩

theorem exec_set_inv (h : MatIs m r c f) {i j : Nat} {x : F} (hi : i < r) (hj : j < c)
    (hr : exec m (Mat.setElement i j x) = .ok m') :
    Finite x ∧ MatIs m' r c (fun i' j' => if i' = i ∧ j' = j then x else f i' j') := by
  obtain ⟨_, h1⟩ := exec_eq_ok hr
  rw [Mat.setElement_eq h.init (by rw [h.rows_eq]; exact hi) (by rw [h.cols_eq]; exact hj)
    (by rw [h.cols_eq]; exact Mat.index_lt hi hj h.rle h.cle)] at h1
  split at h1
  · simp at h1; exact ⟨‹_›, h1 ▸ h.put i j hj x⟩
  · simp at h1

theorem sameSize (hv : MatIs m r c f) (hw : MatIs m' r c g) : m.isSameSizeAs m' = .ok true := by
  unfold Mat.isSameSizeAs
  simp [hv.init, hw.init, hv.rows_eq, hw.rows_eq, hv.cols_eq, hw.cols_eq]

end MatIs

end Verif
