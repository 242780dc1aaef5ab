import Verif.Lib.Safe

/-
Every linalg and quaternion function keeps the object invariants; panics are excluded except in the
cases listed as hypotheses.
-/

set_option linter.unusedSectionVars false

namespace Verif
open Scalar

section Arrays
variable {ε T : Type} {n : Nat}

theorem arrGet_ok (a : Fin n → T) {i : Nat} (h : i < n) : (arrGet a i : Res ε T) = .ok (a ⟨i, h⟩) := by
  simp [arrGet, h]
theorem arrSet_ok (a : Fin n → T) {i : Nat} (v : T) (h : i < n) :
    (arrSet a i v : Res ε _) = .ok (fun j => if j.val = i then v else a j) := by
  simp [arrSet, h]
end Arrays

section U8
variable {F : Type} [Scalar F] {ε : Type}

theorem u8Add_ok {a b : Nat} (h : a + b < 256) : (u8Add F a b : Res ε Nat) = .ok (a + b) := by
  simp [u8Add, h]
theorem u8Sub_ok {a b : Nat} (h : b ≤ a) : (u8Sub F a b : Res ε Nat) = .ok (a - b) := by
  simp [u8Sub, h]
theorem u8Add_safe {a b : Nat} (h : a + b < 256 ∨ Scalar.overflowChecks F = false) :
    Res.Safe (u8Add F a b : Res ε Nat) := by
  unfold u8Add
  by_cases h1 : a + b < 256
  · rw [if_pos h1]; exact trivial
  · rcases h with h | h
    · exact absurd h h1
    · rw [if_neg h1, h]; exact trivial
theorem u8Sub_safe {a b : Nat} (h : b ≤ a ∨ Scalar.overflowChecks F = false) :
    Res.Safe (u8Sub F a b : Res ε Nat) := by
  unfold u8Sub
  by_cases h1 : b ≤ a
  · rw [if_pos h1]; exact trivial
  · rcases h with h | h
    · exact absurd h h1
    · rw [if_neg h1, h]; exact trivial
end U8

section Common
variable {F : Type} [Scalar F]

theorem isValidRowsNumber_safe {n : Nat} : Res.Safe (isValidRowsNumber n) := by
  unfold isValidRowsNumber; safe
theorem isValidColsNumber_safe {n : Nat} : Res.Safe (isValidColsNumber n) := by
  unfold isValidColsNumber; safe
theorem isValidRow_safe {i n : Nat} : Res.Safe (isValidRow i n) := by
  unfold isValidRow; safe
theorem isValidCol_safe {i n : Nat} : Res.Safe (isValidCol i n) := by
  unfold isValidCol; safe
theorem isValidValueL_safe {x : F} : Res.Safe (isValidValueL x) := by
  unfold isValidValueL Utils.isValidValue; safe
theorem allcloseL_safe {x y d : F} : Res.Safe (allcloseL x y d) := by
  unfold allcloseL Utils.allclose Utils.isValidValue; safe

macro_rules | `(tactic| safe_lemma) => `(tactic| first
  | with_reducible exact isValidRowsNumber_safe
  | with_reducible exact isValidColsNumber_safe
  | with_reducible exact isValidRow_safe
  | with_reducible exact isValidCol_safe
  | with_reducible exact isValidValueL_safe
  | with_reducible exact allcloseL_safe)

theorem isValidRowsNumber_ok_iff {n : Nat} : isValidRowsNumber n = .ok () ↔ 1 ≤ n ∧ n ≤ 4 := by
  unfold isValidRowsNumber M_MAX
  constructor
  · intro h
    split at h
    · simp at h
    · split at h
      · simp at h
      · omega
  · rintro ⟨h1, h2⟩
    rw [if_neg (by omega), if_neg (by omega)]
theorem isValidColsNumber_ok_iff {n : Nat} : isValidColsNumber n = .ok () ↔ 1 ≤ n ∧ n ≤ 4 := by
  unfold isValidColsNumber N_MAX
  constructor
  · intro h
    split at h
    · simp at h
    · split at h
      · simp at h
      · omega
  · rintro ⟨h1, h2⟩
    rw [if_neg (by omega), if_neg (by omega)]
theorem isValidRow_ok_iff {i n : Nat} : isValidRow i n = .ok () ↔ i < n := by
  unfold isValidRow; split <;> simp <;> omega
theorem isValidCol_ok_iff {i n : Nat} : isValidCol i n = .ok () ↔ i < n := by
  unfold isValidCol; split <;> simp <;> omega
theorem isValidValueL_ok_iff {x : F} : isValidValueL x = .ok () ↔ Finite x := by
  unfold isValidValueL Utils.isValidValue Finite
  cases isNaN x <;> cases isInf x <;> simp [Res.mapErr]
end Common

namespace Vec
section Generic

theorem init_safe_aux {T : Type} [Inv (Vec T)] {n : Nat}
    (h : ∀ s : Vec T, Inv.inv s → 1 ≤ n → n ≤ 4 →
      Inv.inv ({ s with rows := n, initialized := true } : Vec T)) :
    Op.Safe (init n : Op LinalgError (Vec T) Unit) := by
  intro s hs
  unfold init
  unfold Op.SafeAt
  simp only [Op.get_bind]
  split
  · exact ⟨hs, trivial⟩
  · rw [Op.liftM_bind_run]
    have hv := isValidRowsNumber_safe (n := n)
    cases hr : isValidRowsNumber n with
    | error e => rw [hr] at hv; exact ⟨hs, hv⟩
    | ok u =>
      have := isValidRowsNumber_ok_iff.mp hr
      exact ⟨h s hs this.1 this.2, trivial⟩

theorem reinit_safe_aux {T : Type} [Inv (Vec T)] {n : Nat}
    (h : Op.Safe (init n : Op LinalgError (Vec T) Unit))
    (h2 : ∀ s : Vec T, Inv.inv s → Inv.inv ({ s with initialized := false } : Vec T)) :
    Op.Safe (reinit n : Op LinalgError (Vec T) Unit) := by
  unfold reinit
  refine Op.safe_bind Op.safe_get fun s hs => Op.safe_ite (fun _ => Op.safe_fail) fun _ => ?_
  exact Op.safe_bind (Op.safe_modify h2) fun _ _ => h

end Generic

section U8
theorem initU8_safe {n : Nat} : Op.Safe (init n : Op LinalgError (Vec Nat) Unit) :=
  init_safe_aux fun _ _ h1 h2 => ⟨h2, fun _ => h1⟩
theorem reinitU8_safe {n : Nat} : Op.Safe (reinit n : Op LinalgError (Vec Nat) Unit) :=
  reinit_safe_aux initU8_safe fun _ hs => ⟨hs.rows_le, fun h => by simp at h⟩
theorem newU8_inv : Inv.inv newU8 := ⟨by simp [newU8, newWith], fun h => by simp [newU8, newWith] at h⟩

theorem getRowsU8_safe {v : Vec Nat} : Res.Safe v.getRows := by
  unfold getRows; safe

theorem setElementU8_safe {i x : Nat} : Op.Safe (setElementU8 i x) := by
  intro s hs
  unfold setElementU8 Op.SafeAt
  simp only [Op.get_bind]
  split
  · exact ⟨hs, trivial⟩
  · rw [Op.liftM_bind_run]
    have hv := isValidRow_safe (i := i) (n := s.rows)
    cases hr : isValidRow i s.rows with
    | error e => rw [hr] at hv; exact ⟨hs, hv⟩
    | ok u =>
      have h1 := isValidRow_ok_iff.mp hr
      have h2 : i < 4 := lt_of_lt_of_le h1 hs.rows_le
      simp only [writeElement, Op.get_bind, arrSet_ok _ _ h2]
      exact ⟨⟨hs.rows_le, hs.rows_pos⟩, trivial⟩

theorem getElementU8_safe {v : Vec Nat} {i : Nat} (h : Inv.inv v) : Res.Safe (v.getElementU8 i) := by
  unfold getElementU8
  refine Res.safe_ite (fun _ => trivial) fun _ => ?_
  cases hr : isValidRow i v.rows with
  | error e => have := isValidRow_safe (i := i) (n := v.rows); rw [hr] at this; exact Res.safe_error_cast this
  | ok u =>
    have h1 := isValidRow_ok_iff.mp hr
    have h2 : i < 4 := lt_of_lt_of_le h1 h.rows_le
    simp only [Res.ok_bind, readElement, arrGet_ok _ h2]
    exact trivial
end U8

variable {F : Type} [Scalar F]

theorem init_safe {n : Nat} : Op.Safe (init n : Op LinalgError (Vec F) Unit) :=
  init_safe_aux fun _ hs h1 h2 => ⟨h2, fun _ => h1, hs.finite⟩
theorem reinit_safe {n : Nat} : Op.Safe (reinit n : Op LinalgError (Vec F) Unit) :=
  reinit_safe_aux init_safe fun _ hs => ⟨hs.rows_le, fun h => by simp at h, hs.finite⟩
theorem new_inv [ScalarLawful F] : Inv.inv (new : Vec F) :=
  ⟨by simp [new, newWith], fun h => by simp [new, newWith] at h, fun _ => ScalarLawful.zero_finite⟩

theorem getRows_safe {v : Vec F} : Res.Safe v.getRows := by
  unfold getRows; safe

theorem setElement_safe {i : Nat} {x : F} : Op.Safe (setElement i x) := by
  intro s hs
  unfold setElement Op.SafeAt
  simp only [Op.get_bind]
  split
  · exact ⟨hs, trivial⟩
  · rw [Op.liftM_bind_run]
    have hv := isValidValueL_safe (x := x)
    cases hr0 : isValidValueL x with
    | error e => rw [hr0] at hv; exact ⟨hs, hv⟩
    | ok u =>
      have hfin := isValidValueL_ok_iff.mp hr0
      simp only
      rw [Op.liftM_bind_run]
      have hv := isValidRow_safe (i := i) (n := s.rows)
      cases hr : isValidRow i s.rows with
      | error e => rw [hr] at hv; exact ⟨hs, hv⟩
      | ok u =>
        have h1 := isValidRow_ok_iff.mp hr
        have h2 : i < 4 := lt_of_lt_of_le h1 hs.rows_le
        simp only [writeElement, Op.get_bind, arrSet_ok _ _ h2]
        refine ⟨⟨hs.rows_le, hs.rows_pos, fun j => ?_⟩, trivial⟩
        show Finite (if _ then _ else _)
        split
        · exact hfin
        · exact hs.finite j

theorem getElement_safe {v : Vec F} {i : Nat} (h : Inv.inv v) : Res.Safe (v.getElement i) := by
  unfold getElement
  refine Res.safe_ite (fun _ => trivial) fun _ => ?_
  cases hr : isValidRow i v.rows with
  | error e => have := isValidRow_safe (i := i) (n := v.rows); rw [hr] at this; exact Res.safe_error_cast this
  | ok u =>
    have h1 := isValidRow_ok_iff.mp hr
    have h2 : i < 4 := lt_of_lt_of_le h1 h.rows_le
    simp only [Res.ok_bind, readElement, arrGet_ok _ h2]
    exact trivial

macro_rules | `(tactic| safe_lemma) => `(tactic| first
  | with_reducible exact Vec.getRowsU8_safe
  | with_reducible exact Vec.getRows_safe
  | with_reducible exact Vec.initU8_safe
  | with_reducible exact Vec.init_safe
  | with_reducible exact Vec.newU8_inv
  | with_reducible exact Vec.new_inv
  | with_reducible exact Vec.setElementU8_safe
  | with_reducible exact Vec.setElement_safe
  | with_reducible apply Vec.getElementU8_safe
  | with_reducible apply Vec.getElement_safe)

variable [ScalarLawful F]

theorem fill_safe {x : F} : Op.Safe (fill x) := by
  unfold fill; safe
macro_rules | `(tactic| safe_lemma) => `(tactic| with_reducible exact Vec.fill_safe)
theorem isSameSizeAs_safe {v w : Vec F} : Res.Safe (v.isSameSizeAs w) := by
  unfold isSameSizeAs; safe
macro_rules | `(tactic| safe_lemma) => `(tactic| with_reducible exact Vec.isSameSizeAs_safe)
theorem copyFrom_safe {v : Vec F} (hv : Inv.inv v) :
    Op.Safe (copyFrom v) := by
  unfold copyFrom; safe
macro_rules | `(tactic| safe_lemma) => `(tactic| with_reducible apply Vec.copyFrom_safe)
theorem isEqualTo_safe {v w : Vec F} {d : F} (hv : Inv.inv v) (hw : Inv.inv w) :
    Res.Safe (v.isEqualTo w d) := by
  unfold isEqualTo; safe
macro_rules | `(tactic| safe_lemma) => `(tactic| with_reducible apply Vec.isEqualTo_safe)
theorem duplicate_safe {v : Vec F} (hv : Inv.inv v) :
    Res.Safe v.duplicate := by
  unfold duplicate; safe
macro_rules | `(tactic| safe_lemma) => `(tactic| with_reducible apply Vec.duplicate_safe)
theorem add_safe {v w : Vec F} (hv : Inv.inv v) (hw : Inv.inv w) :
    Op.Safe (add v w) := by
  unfold add; safe
macro_rules | `(tactic| safe_lemma) => `(tactic| with_reducible apply Vec.add_safe)
theorem addInPlace_safe {v : Vec F} (hv : Inv.inv v) :
    Op.Safe (addInPlace v) := by
  unfold addInPlace; safe
macro_rules | `(tactic| safe_lemma) => `(tactic| with_reducible apply Vec.addInPlace_safe)
theorem addNew_safe {v w : Vec F} (hv : Inv.inv v) (hw : Inv.inv w) :
    Res.Safe (v.addNew w) := by
  unfold addNew; safe
macro_rules | `(tactic| safe_lemma) => `(tactic| with_reducible apply Vec.addNew_safe)
theorem sub_safe {v w : Vec F} (hv : Inv.inv v) (hw : Inv.inv w) :
    Op.Safe (sub v w) := by
  unfold sub; safe
macro_rules | `(tactic| safe_lemma) => `(tactic| with_reducible apply Vec.sub_safe)
theorem subInPlace_safe {v : Vec F} (hv : Inv.inv v) :
    Op.Safe (subInPlace v) := by
  unfold subInPlace; safe
macro_rules | `(tactic| safe_lemma) => `(tactic| with_reducible apply Vec.subInPlace_safe)
theorem subNew_safe {v w : Vec F} (hv : Inv.inv v) (hw : Inv.inv w) :
    Res.Safe (v.subNew w) := by
  unfold subNew; safe
macro_rules | `(tactic| safe_lemma) => `(tactic| with_reducible apply Vec.subNew_safe)
theorem addScalar_safe {v : Vec F} {x : F} (hv : Inv.inv v) :
    Op.Safe (addScalar v x) := by
  unfold addScalar; safe
macro_rules | `(tactic| safe_lemma) => `(tactic| with_reducible apply Vec.addScalar_safe)
theorem addScalarInPlace_safe {x : F}  :
    Op.Safe (addScalarInPlace x) := by
  unfold addScalarInPlace; safe
macro_rules | `(tactic| safe_lemma) => `(tactic| with_reducible apply Vec.addScalarInPlace_safe)
theorem addScalarNew_safe {v : Vec F} {x : F} (hv : Inv.inv v) :
    Res.Safe (v.addScalarNew x) := by
  unfold addScalarNew; safe
macro_rules | `(tactic| safe_lemma) => `(tactic| with_reducible apply Vec.addScalarNew_safe)
theorem subScalar_safe {v : Vec F} {x : F} (hv : Inv.inv v) :
    Op.Safe (subScalar v x) := by
  unfold subScalar; safe
macro_rules | `(tactic| safe_lemma) => `(tactic| with_reducible apply Vec.subScalar_safe)
theorem subScalarInPlace_safe {x : F}  :
    Op.Safe (subScalarInPlace x) := by
  unfold subScalarInPlace; safe
macro_rules | `(tactic| safe_lemma) => `(tactic| with_reducible apply Vec.subScalarInPlace_safe)
theorem subScalarNew_safe {v : Vec F} {x : F} (hv : Inv.inv v) :
    Res.Safe (v.subScalarNew x) := by
  unfold subScalarNew; safe
macro_rules | `(tactic| safe_lemma) => `(tactic| with_reducible apply Vec.subScalarNew_safe)
theorem mulByScalar_safe {v : Vec F} {x : F} (hv : Inv.inv v) :
    Op.Safe (mulByScalar v x) := by
  unfold mulByScalar; safe
macro_rules | `(tactic| safe_lemma) => `(tactic| with_reducible apply Vec.mulByScalar_safe)
theorem mulByScalarInPlace_safe {x : F}  :
    Op.Safe (mulByScalarInPlace x) := by
  unfold mulByScalarInPlace; safe
macro_rules | `(tactic| safe_lemma) => `(tactic| with_reducible apply Vec.mulByScalarInPlace_safe)
theorem mulByScalarNew_safe {v : Vec F} {x : F} (hv : Inv.inv v) :
    Res.Safe (v.mulByScalarNew x) := by
  unfold mulByScalarNew; safe
macro_rules | `(tactic| safe_lemma) => `(tactic| with_reducible apply Vec.mulByScalarNew_safe)
theorem calculateNorm_safe {v : Vec F} (hv : Inv.inv v) :
    Res.Safe v.calculateNorm := by
  unfold calculateNorm; safe
macro_rules | `(tactic| safe_lemma) => `(tactic| with_reducible apply Vec.calculateNorm_safe)
theorem normalize_safe : Op.Safe (normalize : Op LinalgError (Vec F) Unit) := by
  unfold normalize; safe
macro_rules | `(tactic| safe_lemma) => `(tactic| with_reducible exact Vec.normalize_safe)
theorem dotProduct_safe {v w : Vec F} (hv : Inv.inv v) (hw : Inv.inv w) :
    Res.Safe (v.dotProduct w) := by
  unfold dotProduct; safe
macro_rules | `(tactic| safe_lemma) => `(tactic| with_reducible apply Vec.dotProduct_safe)
theorem slerp_safe {v w : Vec F} {a : F} (hv : Inv.inv v) (hw : Inv.inv w) :
    Op.Safe (slerp v w a) := by
  unfold slerp; safe
macro_rules | `(tactic| safe_lemma) => `(tactic| with_reducible apply Vec.slerp_safe)
theorem lerp_safe {v w : Vec F} {a : F} (hv : Inv.inv v) (hw : Inv.inv w) :
    Op.Safe (lerp v w a) := by
  unfold lerp; safe
macro_rules | `(tactic| safe_lemma) => `(tactic| with_reducible apply Vec.lerp_safe)
theorem powerElements_safe {x : F}  :
    Op.Safe (powerElements x) := by
  unfold powerElements; safe
macro_rules | `(tactic| safe_lemma) => `(tactic| with_reducible apply Vec.powerElements_safe)
end Vec


namespace Mat
variable {F : Type} [Scalar F]

theorem init_safe {m n : Nat} : Op.Safe (init m n : Op LinalgError (Mat F) Unit) := by
  intro s hs
  unfold init Op.SafeAt
  simp only [Op.get_bind]
  split
  · exact ⟨hs, trivial⟩
  · rw [Op.liftM_bind_run]
    have hv := isValidRowsNumber_safe (n := m)
    cases hr : isValidRowsNumber m with
    | error e => rw [hr] at hv; exact ⟨hs, hv⟩
    | ok u =>
      have h1 := isValidRowsNumber_ok_iff.mp hr
      simp only
      rw [Op.liftM_bind_run]
      have hv := isValidColsNumber_safe (n := n)
      cases hr : isValidColsNumber n with
      | error e => rw [hr] at hv; exact ⟨hs, hv⟩
      | ok u =>
        have h2 := isValidColsNumber_ok_iff.mp hr
        exact ⟨⟨h1.2, h2.2, fun _ => h1.1, fun _ => h2.1, hs.finite⟩, trivial⟩

theorem reinit_safe {m n : Nat} : Op.Safe (reinit m n : Op LinalgError (Mat F) Unit) := by
  unfold reinit
  refine Op.safe_bind Op.safe_get fun s hs => Op.safe_ite (fun _ => Op.safe_fail) fun _ => ?_
  exact Op.safe_bind (Op.safe_modify fun s hs =>
    ⟨hs.rows_le, hs.cols_le, fun h => by simp at h, fun h => by simp at h, hs.finite⟩)
    fun _ _ => init_safe

theorem new_inv [ScalarLawful F] : Inv.inv (new : Mat F) :=
  ⟨by simp [new], by simp [new], fun h => by simp [new] at h, fun h => by simp [new] at h,
    fun _ => ScalarLawful.zero_finite⟩

theorem getRows_safe {v : Mat F} : Res.Safe v.getRows := by
  unfold getRows; safe
theorem getCols_safe {v : Mat F} : Res.Safe v.getCols := by
  unfold getCols; safe

theorem index_lt {i j r c : Nat} (hi : i < r) (hj : j < c) (hr : r ≤ 4) (hc : c ≤ 4) :
    i * c + j < 16 := by
  have : i * c + j < r * c := by
    calc i * c + j < i * c + c := by omega
      _ = (i + 1) * c := by ring
      _ ≤ r * c := Nat.mul_le_mul_right _ hi
  calc i * c + j < r * c := this
    _ ≤ 4 * 4 := Nat.mul_le_mul hr hc

theorem setElement_safe {i j : Nat} {x : F} : Op.Safe (setElement i j x) := by
  intro s hs
  unfold setElement Op.SafeAt
  simp only [Op.get_bind]
  split
  · exact ⟨hs, trivial⟩
  · rw [Op.liftM_bind_run]
    have hv := isValidValueL_safe (x := x)
    cases hr0 : isValidValueL x with
    | error e => rw [hr0] at hv; exact ⟨hs, hv⟩
    | ok u =>
      have hfin := isValidValueL_ok_iff.mp hr0
      simp only
      rw [Op.liftM_bind_run]
      have hv := isValidRow_safe (i := i) (n := s.rows)
      cases hr : isValidRow i s.rows with
      | error e => rw [hr] at hv; exact ⟨hs, hv⟩
      | ok u =>
        simp only
        rw [Op.liftM_bind_run]
        have hv := isValidCol_safe (i := j) (n := s.cols)
        cases hc : isValidCol j s.cols with
        | error e => rw [hc] at hv; exact ⟨hs, hv⟩
        | ok u =>
          have h2 := index_lt (isValidRow_ok_iff.mp hr) (isValidCol_ok_iff.mp hc) hs.rows_le hs.cols_le
          simp only [arrSet_ok _ _ h2]
          refine ⟨⟨hs.rows_le, hs.cols_le, hs.rows_pos, hs.cols_pos, fun k => ?_⟩, trivial⟩
          show Finite (if _ then _ else _)
          split
          · exact hfin
          · exact hs.finite k

theorem getElement_safe {v : Mat F} {i j : Nat} (h : Inv.inv v) : Res.Safe (v.getElement i j) := by
  unfold getElement
  refine Res.safe_ite (fun _ => trivial) fun _ => ?_
  cases hr : isValidRow i v.rows with
  | error e =>
    have := isValidRow_safe (i := i) (n := v.rows); rw [hr] at this; exact Res.safe_error_cast this
  | ok u =>
    cases hc : isValidCol j v.cols with
    | error e =>
      have := isValidCol_safe (i := j) (n := v.cols); rw [hc] at this
      exact Res.safe_error_cast this
    | ok u =>
      have h2 := index_lt (isValidRow_ok_iff.mp hr) (isValidCol_ok_iff.mp hc) h.rows_le h.cols_le
      simp only [Res.ok_bind, arrGet_ok _ h2]
      exact trivial

macro_rules | `(tactic| safe_lemma) => `(tactic| first
  | with_reducible exact Mat.getRows_safe
  | with_reducible exact Mat.getCols_safe
  | with_reducible exact Mat.init_safe
  | with_reducible exact Mat.new_inv
  | with_reducible exact Mat.setElement_safe
  | with_reducible apply Mat.getElement_safe)

variable [ScalarLawful F]

theorem setRow_safe {v : Vec F} {i : Nat} (hv : Inv.inv v) :
    Op.Safe (setRow v i) := by
  unfold setRow; safe
macro_rules | `(tactic| safe_lemma) => `(tactic| with_reducible apply Mat.setRow_safe)
theorem setCol_safe {v : Vec F} {i : Nat} (hv : Inv.inv v) :
    Op.Safe (setCol v i) := by
  unfold setCol; safe
macro_rules | `(tactic| safe_lemma) => `(tactic| with_reducible apply Mat.setCol_safe)
theorem getRow_safe {a : Mat F} {i : Nat} (ha : Inv.inv a) :
    Op.Safe (a.getRow i) := by
  unfold getRow; safe
macro_rules | `(tactic| safe_lemma) => `(tactic| with_reducible apply Mat.getRow_safe)
theorem getCol_safe {a : Mat F} {i : Nat} (ha : Inv.inv a) :
    Op.Safe (a.getCol i) := by
  unfold getCol; safe
macro_rules | `(tactic| safe_lemma) => `(tactic| with_reducible apply Mat.getCol_safe)
theorem rowToVector_safe {a : Mat F} {i : Nat} (ha : Inv.inv a) :
    Res.Safe (a.rowToVector i) := by
  unfold rowToVector; safe
macro_rules | `(tactic| safe_lemma) => `(tactic| with_reducible apply Mat.rowToVector_safe)
theorem colToVector_safe {a : Mat F} {i : Nat} (ha : Inv.inv a) :
    Res.Safe (a.colToVector i) := by
  unfold colToVector; safe
macro_rules | `(tactic| safe_lemma) => `(tactic| with_reducible apply Mat.colToVector_safe)
theorem fill_safe {x : F}  :
    Op.Safe (fill x) := by
  unfold fill; safe
macro_rules | `(tactic| safe_lemma) => `(tactic| with_reducible apply Mat.fill_safe)
theorem isSameSizeAs_safe {a b : Mat F}  :
    Res.Safe (a.isSameSizeAs b) := by
  unfold isSameSizeAs; safe
macro_rules | `(tactic| safe_lemma) => `(tactic| with_reducible apply Mat.isSameSizeAs_safe)
theorem isSquare_safe {a : Mat F}  :
    Res.Safe a.isSquare := by
  unfold isSquare; safe
macro_rules | `(tactic| safe_lemma) => `(tactic| with_reducible apply Mat.isSquare_safe)
theorem isEqualTo_safe {a b : Mat F} {d : F} (ha : Inv.inv a) (hb : Inv.inv b) :
    Res.Safe (a.isEqualTo b d) := by
  unfold isEqualTo; safe
macro_rules | `(tactic| safe_lemma) => `(tactic| with_reducible apply Mat.isEqualTo_safe)
theorem fillIdentity_safe : Op.Safe (fillIdentity : Op LinalgError (Mat F) Unit) := by
  unfold fillIdentity; safe
macro_rules | `(tactic| safe_lemma) => `(tactic| with_reducible exact Mat.fillIdentity_safe)
theorem copyFrom_safe {a : Mat F} (ha : Inv.inv a) :
    Op.Safe (copyFrom a) := by
  unfold copyFrom; safe
macro_rules | `(tactic| safe_lemma) => `(tactic| with_reducible apply Mat.copyFrom_safe)
theorem duplicate_safe {a : Mat F} (ha : Inv.inv a) :
    Res.Safe a.duplicate := by
  unfold duplicate; safe
macro_rules | `(tactic| safe_lemma) => `(tactic| with_reducible apply Mat.duplicate_safe)
theorem add_safe {a b : Mat F} (ha : Inv.inv a) (hb : Inv.inv b) :
    Op.Safe (add a b) := by
  unfold add; safe
macro_rules | `(tactic| safe_lemma) => `(tactic| with_reducible apply Mat.add_safe)
theorem addInPlace_safe {a : Mat F} (ha : Inv.inv a) :
    Op.Safe (addInPlace a) := by
  unfold addInPlace; safe
macro_rules | `(tactic| safe_lemma) => `(tactic| with_reducible apply Mat.addInPlace_safe)
theorem addNew_safe {a b : Mat F} (ha : Inv.inv a) (hb : Inv.inv b) :
    Res.Safe (a.addNew b) := by
  unfold addNew; safe
macro_rules | `(tactic| safe_lemma) => `(tactic| with_reducible apply Mat.addNew_safe)
theorem sub_safe {a b : Mat F} (ha : Inv.inv a) (hb : Inv.inv b) :
    Op.Safe (sub a b) := by
  unfold sub; safe
macro_rules | `(tactic| safe_lemma) => `(tactic| with_reducible apply Mat.sub_safe)
theorem subInPlace_safe {a : Mat F} (ha : Inv.inv a) :
    Op.Safe (subInPlace a) := by
  unfold subInPlace; safe
macro_rules | `(tactic| safe_lemma) => `(tactic| with_reducible apply Mat.subInPlace_safe)
theorem subNew_safe {a b : Mat F} (ha : Inv.inv a) (hb : Inv.inv b) :
    Res.Safe (a.subNew b) := by
  unfold subNew; safe
macro_rules | `(tactic| safe_lemma) => `(tactic| with_reducible apply Mat.subNew_safe)
theorem addScalar_safe {a : Mat F} {x : F} (ha : Inv.inv a) :
    Op.Safe (addScalar a x) := by
  unfold addScalar; safe
macro_rules | `(tactic| safe_lemma) => `(tactic| with_reducible apply Mat.addScalar_safe)
theorem addScalarInPlace_safe {x : F}  :
    Op.Safe (addScalarInPlace x) := by
  unfold addScalarInPlace; safe
macro_rules | `(tactic| safe_lemma) => `(tactic| with_reducible apply Mat.addScalarInPlace_safe)
theorem addScalarNew_safe {a : Mat F} {x : F} (ha : Inv.inv a) :
    Res.Safe (a.addScalarNew x) := by
  unfold addScalarNew; safe
macro_rules | `(tactic| safe_lemma) => `(tactic| with_reducible apply Mat.addScalarNew_safe)
theorem subScalar_safe {a : Mat F} {x : F} (ha : Inv.inv a) :
    Op.Safe (subScalar a x) := by
  unfold subScalar; safe
macro_rules | `(tactic| safe_lemma) => `(tactic| with_reducible apply Mat.subScalar_safe)
theorem subScalarInPlace_safe {x : F}  :
    Op.Safe (subScalarInPlace x) := by
  unfold subScalarInPlace; safe
macro_rules | `(tactic| safe_lemma) => `(tactic| with_reducible apply Mat.subScalarInPlace_safe)
theorem subScalarNew_safe {a : Mat F} {x : F} (ha : Inv.inv a) :
    Res.Safe (a.subScalarNew x) := by
  unfold subScalarNew; safe
macro_rules | `(tactic| safe_lemma) => `(tactic| with_reducible apply Mat.subScalarNew_safe)
theorem mulByScalarInPlace_safe {x : F}  :
    Op.Safe (mulByScalarInPlace x) := by
  unfold mulByScalarInPlace; safe
macro_rules | `(tactic| safe_lemma) => `(tactic| with_reducible apply Mat.mulByScalarInPlace_safe)
theorem powerElements_safe {x : F}  :
    Op.Safe (powerElements x) := by
  unfold powerElements; safe
macro_rules | `(tactic| safe_lemma) => `(tactic| with_reducible apply Mat.powerElements_safe)
theorem mulCell_safe {a b : Mat F} {i j k len : Nat} {x : F} (ha : Inv.inv a) (hb : Inv.inv b) :
    Op.Safe (mulCell a b i j k len x) := by
  induction len generalizing k x with
  | zero => unfold mulCell; safe
  | succ len ih => unfold mulCell; safe; exact ih
macro_rules | `(tactic| safe_lemma) => `(tactic| with_reducible apply Mat.mulCell_safe)
theorem mul_safe {a b : Mat F} (ha : Inv.inv a) (hb : Inv.inv b) :
    Op.Safe (mul a b) := by
  unfold mul; safe
macro_rules | `(tactic| safe_lemma) => `(tactic| with_reducible apply Mat.mul_safe)
theorem mulNew_safe {a b : Mat F} (ha : Inv.inv a) (hb : Inv.inv b) :
    Res.Safe (a.mulNew b) := by
  unfold mulNew; safe
macro_rules | `(tactic| safe_lemma) => `(tactic| with_reducible apply Mat.mulNew_safe)

theorem transpose_safe : Op.Safe (transpose : Op LinalgError (Mat F) Unit) := by
  unfold transpose
  refine Op.safe_bind Op.safe_get fun s hs => Op.safe_ite (fun _ => Op.safe_fail) fun hinit => ?_
  have hinit : s.initialized = true := by simpa using hinit
  safe
  rename_i t ht
  exact ⟨hs.cols_le, hs.rows_le, fun _ => hs.cols_pos hinit, fun _ => hs.rows_pos hinit, ht.finite⟩
macro_rules | `(tactic| safe_lemma) => `(tactic| with_reducible exact Mat.transpose_safe)

theorem transposeNew_safe {a : Mat F} (ha : Inv.inv a) : Res.Safe a.transposeNew := by
  unfold transposeNew; safe
macro_rules | `(tactic| safe_lemma) => `(tactic| with_reducible apply Mat.transposeNew_safe)
theorem trace_safe {a : Mat F} (ha : Inv.inv a) : Res.Safe a.trace := by
  unfold trace; safe
macro_rules | `(tactic| safe_lemma) => `(tactic| with_reducible apply Mat.trace_safe)
theorem isUpperTriangular_safe {a : Mat F} (ha : Inv.inv a) : Res.Safe a.isUpperTriangular := by
  unfold isUpperTriangular; safe
theorem isLowerTriangular_safe {a : Mat F} (ha : Inv.inv a)
    (h : a.rows ≠ 0 ∨ Scalar.overflowChecks F = false) : Res.Safe a.isLowerTriangular := by
  unfold isLowerTriangular
  refine Res.safe_bind (u8Sub_safe (h.imp_left fun h => Nat.one_le_iff_ne_zero.mpr h))
    fun last _ => ?_
  safe
theorem calculateFrobeniusNorm_safe {a : Mat F} (ha : Inv.inv a) :
    Res.Safe a.calculateFrobeniusNorm := by
  unfold calculateFrobeniusNorm; safe
theorem isSymmetric_safe {a : Mat F} (ha : Inv.inv a) : Res.Safe a.isSymmetric := by
  unfold isSymmetric; safe
macro_rules | `(tactic| safe_lemma) => `(tactic| with_reducible apply Mat.isSymmetric_safe)

theorem setRows_safe {n : Nat} : Op.Safe (setRows n : Op LinalgError (Mat F) Unit) := by
  intro s hs
  unfold setRows Op.SafeAt
  simp only [Op.get_bind]
  split
  · exact ⟨hs, trivial⟩
  split
  · exact ⟨hs, trivial⟩
  · rw [Op.liftM_bind_run]
    have hv := isValidRowsNumber_safe (n := n)
    cases hr : isValidRowsNumber n with
    | error e => rw [hr] at hv; exact ⟨hs, hv⟩
    | ok u =>
      have h1 := isValidRowsNumber_ok_iff.mp hr
      exact ⟨⟨h1.2, hs.cols_le, fun _ => h1.1, hs.cols_pos, hs.finite⟩, trivial⟩
macro_rules | `(tactic| safe_lemma) => `(tactic| with_reducible exact Mat.setRows_safe)

/-- Buffers of finite values. -/
local instance instInvBuffer : Inv (Fin 16 → F) := ⟨fun a => ∀ i, Finite (a i)⟩

theorem setCols_safe {n : Nat} : Op.Safe (setCols n : Op LinalgError (Mat F) Unit) := by
  intro s hs
  unfold setCols Op.SafeAt
  simp only [Op.get_bind]
  split
  · exact ⟨hs, trivial⟩
  split
  · exact ⟨hs, trivial⟩
  · rw [Op.liftM_bind_run]
    have hv := isValidColsNumber_safe (n := n)
    cases hr : isValidColsNumber n with
    | error e => rw [hr] at hv; exact ⟨hs, hv⟩
    | ok u =>
      have h1 := isValidColsNumber_ok_iff.mp hr
      simp only
      rw [Op.liftM_bind_run]
      have key : Res.Safe (foldRange 0 s.rows
          (fun row newElements =>
            foldRange 0 s.cols
              (fun col newElements => do
                arrSet newElements (row * n + col) (← arrGet s.elements (row * s.cols + col)))
              newElements)
          (fun _ => lit 0) : Res LinalgError (Fin 16 → F)) := by
        refine foldRange_safe (fun _ => ScalarLawful.zero_finite) fun row _ hrow b hb =>
          foldRange_safe hb fun col _ hcol b hb => ?_
        rw [arrGet_ok _ (index_lt hrow hcol hs.rows_le hs.cols_le), Res.ok_bind]
        have hrow4 : row ≤ 3 := by have := hs.rows_le; omega
        have hcol4 : col ≤ 3 := by have := hs.cols_le; omega
        have h16 : row * n + col < 16 := by
          have : row * n ≤ 3 * 4 := Nat.mul_le_mul hrow4 h1.2
          omega
        rw [arrSet_ok _ _ h16]
        intro j
        show Finite (if _ then _ else _)
        split
        · exact hs.finite _
        · exact hb j
      cases hf : (foldRange 0 s.rows
          (fun row newElements =>
            foldRange 0 s.cols
              (fun col newElements => do
                arrSet newElements (row * n + col) (← arrGet s.elements (row * s.cols + col)))
              newElements)
          (fun _ => lit 0) : Res LinalgError (Fin 16 → F)) with
      | error e => rw [hf] at key; exact ⟨hs, Res.safe_error_cast key⟩
      | ok a =>
        rw [hf] at key
        exact ⟨⟨hs.rows_le, h1.2, hs.rows_pos, fun _ => h1.1, key⟩, trivial⟩
macro_rules | `(tactic| safe_lemma) => `(tactic| with_reducible exact Mat.setCols_safe)

theorem addRow_safe {v : Vec F} {i : Nat} (hv : Inv.inv v)
    (hi : i + 1 < 256 ∨ Scalar.overflowChecks F = false) : Op.Safe (addRow v i) := by
  unfold addRow
  refine Op.safe_bind Op.safe_get fun s hs => Op.safe_bind (Op.safe_lift (u8Add_safe (Or.inl ?_))) ?_
  · have := hs.rows_le; omega
  intro rows _
  refine Op.safe_bind (Op.safe_lift isValidRowsNumber_safe) fun _ _ =>
    Op.safe_bind setRows_safe fun _ _ => ?_
  refine Op.safe_lift_bind (u8Add_safe hi) fun start hstart _ => ?_
  have hge : ∀ m, start ≤ m → 1 ≤ m ∨ Scalar.overflowChecks F = false := by
    intro m hm
    rcases hi with hi | hi
    · rw [u8Add_ok hi] at hstart; simp at hstart; left; omega
    · exact Or.inr hi
  refine Op.safe_bind Op.safe_get fun s hs => Op.safe_bind (forRangeRev_safe fun m hm _ =>
    forRange_safe fun col _ _ => Op.safe_bind Op.safe_get fun s hs =>
      Op.safe_bind (Op.safe_lift (u8Sub_safe (hge m hm))) fun _ _ => ?_) fun _ _ => setRow_safe hv
  safe

theorem addCol_safe {v : Vec F} {i : Nat} (hv : Inv.inv v)
    (hi : i + 1 < 256 ∨ Scalar.overflowChecks F = false) : Op.Safe (addCol v i) := by
  unfold addCol
  refine Op.safe_bind Op.safe_get fun s hs => Op.safe_bind (Op.safe_lift (u8Add_safe (Or.inl ?_))) ?_
  · have := hs.cols_le; omega
  intro cols _
  refine Op.safe_bind (Op.safe_lift isValidColsNumber_safe) fun _ _ =>
    Op.safe_bind setCols_safe fun _ _ => ?_
  refine Op.safe_lift_bind (u8Add_safe hi) fun start hstart _ => ?_
  have hge : ∀ m, start ≤ m → 1 ≤ m ∨ Scalar.overflowChecks F = false := by
    intro m hm
    rcases hi with hi | hi
    · rw [u8Add_ok hi] at hstart; simp at hstart; left; omega
    · exact Or.inr hi
  refine Op.safe_bind Op.safe_get fun s hs => Op.safe_bind (forRangeRev_safe fun m hm _ =>
    forRange_safe fun col _ _ => Op.safe_bind Op.safe_get fun s hs =>
      Op.safe_bind (Op.safe_lift (u8Sub_safe (hge m hm))) fun _ _ => ?_) fun _ _ => setCol_safe hv
  safe

theorem delRow_safeAt {i : Nat} (s : Mat F) (hs : Inv.inv s)
    (h : s.rows ≠ 0 ∨ Scalar.overflowChecks F = false) : Op.SafeAt (delRow i) s := by
  unfold delRow
  show Op.SafeAt (_ >>= _) s
  refine Op.safeAt_lift_bind hs (u8Sub_safe (h.imp_left fun h => Nat.one_le_iff_ne_zero.mpr h))
    fun rows hrows _ => Op.safeAt_lift_bind hs isValidRow_safe fun _ _ _ =>
    Op.safeAt_lift_bind hs isValidRowsNumber_safe fun _ hrows _ => ?_
  have h1 := isValidRowsNumber_ok_iff.mp hrows
  refine Op.safe_bind ?_ (fun v hv => ?_) s hs
  · safe
  refine Op.safe_bind ?_ (fun v hv => ?_)
  · safe
  refine Op.safe_bind ?_ (fun _ _ => Op.safe_bind (Op.safe_modify fun t ht => ?_) fun _ _ => ?_)
  · safe
  · exact ⟨h1.2, ht.cols_le, fun _ => h1.1, ht.cols_pos, ht.finite⟩
  · exact Op.safe_pure hv

theorem wrapI8_small {n : Nat} (h : n ≤ 4) : wrapI8 n = n := by
  unfold wrapI8; omega

theorem diag_safe {a : Mat F} {k : Option Int} (ha : Inv.inv a)
    (hk : ∀ j, k = some j → -128 ≤ j ∧ j ≤ 127) : Res.Safe (a.diag k) := by
  unfold diag
  have hr := ha.rows_le
  have hc := ha.cols_le
  have hk' : -128 ≤ k.getD 0 ∧ k.getD 0 ≤ 127 := by
    cases k with
    | none => simp
    | some j => exact hk j rfl
  simp only [wrapI8_small hr, wrapI8_small hc]
  generalize k.getD 0 = k at hk'
  have hlen : ∀ d, (if k ≥ 0 then do
        Except.ok (Utils.minInt a.rows (← i8Result F (a.cols - k)))
      else do
        Except.ok (Utils.minInt (← i8Result F (a.rows + k)) a.cols) : Res LinalgError Int) = .ok d →
      d ≤ 4 ∧ (k < 0 → d ≤ a.rows + k) ∧ (0 ≤ k → d ≤ a.cols - k) := by
    intro d hd
    split at hd
    · rw [i8Result, if_pos ⟨by omega, by omega⟩, Res.ok_bind] at hd
      simp only [Except.ok.injEq, Utils.minInt] at hd
      split at hd <;> omega
    · rw [i8Result, if_pos ⟨by omega, by omega⟩, Res.ok_bind] at hd
      simp only [Except.ok.injEq, Utils.minInt] at hd
      split at hd <;> omega
  refine Res.safe_bind_eq ?_ fun d hd _ => ?_
  · split
    · rw [i8Result, if_pos ⟨by omega, by omega⟩]; exact trivial
    · rw [i8Result, if_pos ⟨by omega, by omega⟩]; exact trivial
  · obtain ⟨h1, h2, h3⟩ := hlen d hd
    refine Res.safe_ite (fun _ => trivial) fun hpos => ?_
    refine Res.safe_bind (by safe) fun v hv => ?_
    refine foldRange_safe hv fun i _ hi v hv => ?_
    have hi' : (i : Int) < d := by omega
    refine Res.safe_bind ?_ fun row _ => Res.safe_bind ?_ fun col _ => by safe
    · refine Res.safe_ite (fun _ => trivial) fun hk0 => ?_
      rw [i8Result, if_pos ⟨by omega, by have := h2 (by omega); omega⟩]; exact trivial
    · refine Res.safe_ite (fun hk0 => ?_) fun _ => trivial
      rw [i8Result, if_pos ⟨by omega, by have := h3 hk0; omega⟩]; exact trivial

end Mat

namespace Vec
variable {F : Type} [Scalar F] [ScalarLawful F]

theorem outerProduct_safe {v w : Vec F} (hv : Inv.inv v) (hw : Inv.inv w) :
    Res.Safe (v.outerProduct w) := by
  unfold outerProduct; safe
macro_rules | `(tactic| safe_lemma) => `(tactic| with_reducible apply Vec.outerProduct_safe)
theorem convertToMatrix_safe {v : Vec F} (hv : Inv.inv v) : Res.Safe v.convertToMatrix := by
  unfold convertToMatrix; safe
macro_rules | `(tactic| safe_lemma) => `(tactic| with_reducible apply Vec.convertToMatrix_safe)
end Vec
end Verif
