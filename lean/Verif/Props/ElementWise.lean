import Verif.Props.Reachable
import Verif.Props.Elements

/-
Element-wise operations: C08 (vectors), C09 (matrices), C10 (scalars), C11 (failures), C63 (copies).
-/

set_option linter.unusedSectionVars false
set_option linter.unusedSimpArgs false

namespace Verif
open Scalar

variable {F : Type} [Scalar F]

/-! ### Every reachable initialised object has a view -/

theorem Reach.vec_view [ScalarLawful F] {v : Vec F} (h : Reach (.vec v))
    (hi : v.isInitialized = true) : ∃ f, VecIs v v.rows f ∧ ∀ i, Finite (f i) := by
  have hw : WFVec v := h.wf
  refine ⟨fun i => if h : i < 4 then v.elements ⟨i, h⟩ else lit 0, ?_, fun i => ?_⟩
  · rw [vecIs_iff]
    exact ⟨hw.rows_pos hi, hw.rows_le, hi, rfl, fun i h4 _ => by simp [h4]⟩
  · dsimp only
    split
    · exact hw.finite _
    · exact ScalarLawful.zero_finite

theorem Reach.mat_view [ScalarLawful F] {m : Mat F} (h : Reach (.mat m))
    (hi : m.isInitialized = true) : ∃ f, MatIs m m.rows m.cols f ∧ ∀ i j, Finite (f i j) := by
  have hw : WFMat m := h.wf
  refine ⟨fun i j => if h : i * m.cols + j < 16 then m.elements ⟨i * m.cols + j, h⟩ else lit 0, ?_,
    fun i j => ?_⟩
  · rw [matIs_iff]
    exact ⟨hw.rows_pos hi, hw.rows_le, hw.cols_pos hi, hw.cols_le, hi, rfl, rfl,
      fun i j h16 _ _ => by simp [h16]⟩
  · dsimp only
    split
    · exact hw.finite _
    · exact ScalarLawful.zero_finite

/-! ### The table of element-wise calls

`VecElem s n op f0 g`: the call `op` on the vector `s` (which has `n` elements `f0 i`) is meant to
store `g i` in position `i`. -/

inductive VecElem (s : Vec F) (n : Nat) (f0 : Nat → F) :
    Op LinalgError (Vec F) Unit → (Nat → F) → Prop where
  | fill (x) (hs : VecIs s n f0) : VecElem s n f0 (Vec.fill x) (fun _ => x)
  | copyFrom (v f) (hs : VecIs s n f0) (hv : VecIs v n f) : VecElem s n f0 (Vec.copyFrom v) f
  | add (v w f g) (hs : VecIs s n f0) (hv : VecIs v n f) (hw : VecIs w n g) :
      VecElem s n f0 (Vec.add v w) (fun i => f i +ᶠ g i)
  | addInPlace (w g) (hs : VecIs s n f0) (hw : VecIs w n g) :
      VecElem s n f0 (Vec.addInPlace w) (fun i => f0 i +ᶠ g i)
  | sub (v w f g) (hs : VecIs s n f0) (hv : VecIs v n f) (hw : VecIs w n g) :
      VecElem s n f0 (Vec.sub v w) (fun i => f i -ᶠ g i)
  | subInPlace (w g) (hs : VecIs s n f0) (hw : VecIs w n g) :
      VecElem s n f0 (Vec.subInPlace w) (fun i => f0 i -ᶠ g i)
  | addScalar (v f x) (hs : VecIs s n f0) (hv : VecIs v n f) :
      VecElem s n f0 (Vec.addScalar v x) (fun i => f i +ᶠ x)
  | addScalarInPlace (x) (hs : VecIs s n f0) :
      VecElem s n f0 (Vec.addScalarInPlace x) (fun i => f0 i +ᶠ x)
  | subScalar (v f x) (hs : VecIs s n f0) (hv : VecIs v n f) :
      VecElem s n f0 (Vec.subScalar v x) (fun i => f i -ᶠ x)
  | subScalarInPlace (x) (hs : VecIs s n f0) :
      VecElem s n f0 (Vec.subScalarInPlace x) (fun i => f0 i -ᶠ x)
  | mulByScalar (v f x) (hs : VecIs s n f0) (hv : VecIs v n f) :
      VecElem s n f0 (Vec.mulByScalar v x) (fun i => f i *ᶠ x)
  | mulByScalarInPlace (x) (hs : VecIs s n f0) :
      VecElem s n f0 (Vec.mulByScalarInPlace x) (fun i => f0 i *ᶠ x)
  | powerElements (x) (hs : VecIs s n f0) :
      VecElem s n f0 (Vec.powerElements x) (fun i => Scalar.pow (f0 i) x)

/-- Calls that allocate their result: `VecElemNew n call g`. -/
inductive VecElemNew (n : Nat) : Res LinalgError (Vec F) → (Nat → F) → Prop where
  | duplicate (v f) (hv : VecIs v n f) : VecElemNew n v.duplicate f
  | addNew (v w f g) (hv : VecIs v n f) (hw : VecIs w n g) :
      VecElemNew n (v.addNew w) (fun i => f i +ᶠ g i)
  | subNew (v w f g) (hv : VecIs v n f) (hw : VecIs w n g) :
      VecElemNew n (v.subNew w) (fun i => f i -ᶠ g i)
  | addScalarNew (v f x) (hv : VecIs v n f) : VecElemNew n (v.addScalarNew x) (fun i => f i +ᶠ x)
  | subScalarNew (v f x) (hv : VecIs v n f) : VecElemNew n (v.subScalarNew x) (fun i => f i -ᶠ x)
  | mulByScalarNew (v f x) (hv : VecIs v n f) :
      VecElemNew n (v.mulByScalarNew x) (fun i => f i *ᶠ x)

inductive MatElem (s : Mat F) (r c : Nat) (f0 : Nat → Nat → F) :
    Op LinalgError (Mat F) Unit → (Nat → Nat → F) → Prop where
  | fill (x) (hs : MatIs s r c f0) : MatElem s r c f0 (Mat.fill x) (fun _ _ => x)
  | fillIdentity (hs : MatIs s r c f0) (h : r = c) :
      MatElem s r c f0 Mat.fillIdentity (fun i j => if i = j then lit 1 else lit 0)
  | copyFrom (v f) (hs : MatIs s r c f0) (hv : MatIs v r c f) : MatElem s r c f0 (Mat.copyFrom v) f
  | add (v w f g) (hs : MatIs s r c f0) (hv : MatIs v r c f) (hw : MatIs w r c g) :
      MatElem s r c f0 (Mat.add v w) (fun i j => f i j +ᶠ g i j)
  | addInPlace (w g) (hs : MatIs s r c f0) (hw : MatIs w r c g) :
      MatElem s r c f0 (Mat.addInPlace w) (fun i j => f0 i j +ᶠ g i j)
  | sub (v w f g) (hs : MatIs s r c f0) (hv : MatIs v r c f) (hw : MatIs w r c g) :
      MatElem s r c f0 (Mat.sub v w) (fun i j => f i j -ᶠ g i j)
  | subInPlace (w g) (hs : MatIs s r c f0) (hw : MatIs w r c g) :
      MatElem s r c f0 (Mat.subInPlace w) (fun i j => f0 i j -ᶠ g i j)
  | addScalar (v f x) (hs : MatIs s r c f0) (hv : MatIs v r c f) :
      MatElem s r c f0 (Mat.addScalar v x) (fun i j => f i j +ᶠ x)
  | addScalarInPlace (x) (hs : MatIs s r c f0) :
      MatElem s r c f0 (Mat.addScalarInPlace x) (fun i j => f0 i j +ᶠ x)
  | subScalar (v f x) (hs : MatIs s r c f0) (hv : MatIs v r c f) :
      MatElem s r c f0 (Mat.subScalar v x) (fun i j => f i j -ᶠ x)
  | subScalarInPlace (x) (hs : MatIs s r c f0) :
      MatElem s r c f0 (Mat.subScalarInPlace x) (fun i j => f0 i j -ᶠ x)
  | mulByScalarInPlace (x) (hs : MatIs s r c f0) :
      MatElem s r c f0 (Mat.mulByScalarInPlace x) (fun i j => f0 i j *ᶠ x)
  | powerElements (x) (hs : MatIs s r c f0) :
      MatElem s r c f0 (Mat.powerElements x) (fun i j => Scalar.pow (f0 i j) x)

inductive MatElemNew (r c : Nat) : Res LinalgError (Mat F) → (Nat → Nat → F) → Prop where
  | duplicate (v f) (hv : MatIs v r c f) : MatElemNew r c v.duplicate f
  | addNew (v w f g) (hv : MatIs v r c f) (hw : MatIs w r c g) :
      MatElemNew r c (v.addNew w) (fun i j => f i j +ᶠ g i j)
  | subNew (v w f g) (hv : MatIs v r c f) (hw : MatIs w r c g) :
      MatElemNew r c (v.subNew w) (fun i j => f i j -ᶠ g i j)
  | addScalarNew (v f x) (hv : MatIs v r c f) :
      MatElemNew r c (v.addScalarNew x) (fun i j => f i j +ᶠ x)
  | subScalarNew (v f x) (hv : MatIs v r c f) :
      MatElemNew r c (v.subScalarNew x) (fun i j => f i j -ᶠ x)

theorem VecElem.stores {s : Vec F} {n : Nat} {f0 g : Nat → F} {op : Op LinalgError (Vec F) Unit}
    (h : VecElem s n f0 op g) : s.Stores n g (op s) := by
  cases h with
  | fill x hs => exact Vec.fill_stores hs
  | copyFrom v f hs hv => exact Vec.copyFrom_stores hs hv
  | add v w f g hs hv hw => exact Vec.add_stores hs hv hw
  | addInPlace w g hs hw => exact Vec.addInPlace_stores hs hw
  | sub v w f g hs hv hw => exact Vec.sub_stores hs hv hw
  | subInPlace w g hs hw => exact Vec.subInPlace_stores hs hw
  | addScalar v f x hs hv => exact Vec.addScalar_stores hs hv
  | addScalarInPlace x hs => exact Vec.addScalarInPlace_stores hs
  | subScalar v f x hs hv => exact Vec.subScalar_stores hs hv
  | subScalarInPlace x hs => exact Vec.subScalarInPlace_stores hs
  | mulByScalar v f x hs hv => exact Vec.mulByScalar_stores hs hv
  | mulByScalarInPlace x hs => exact Vec.mulByScalarInPlace_stores hs
  | powerElements x hs => exact Vec.powerElements_stores hs

theorem VecElem.target {s : Vec F} {n : Nat} {f0 g : Nat → F} {op : Op LinalgError (Vec F) Unit}
    (h : VecElem s n f0 op g) : VecIs s n f0 := by cases h <;> assumption

theorem VecElemNew.elem {n : Nat} {g : Nat → F} {call : Res LinalgError (Vec F)}
    (h : VecElemNew n call g) :
    ∃ (s : Vec F) (op : Op LinalgError (Vec F) Unit) (f0 : Nat → F),
      VecElem s n f0 op g ∧ call = exec s op := by
  have hz {v : Vec F} {f : Nat → F} (hv : VecIs v n f) := Vec.zeros_is (F := F) hv.pos hv.le
  cases h with
  | duplicate v f hv =>
    exact ⟨_, _, _, .copyFrom v g (hz hv) hv, by
      unfold Vec.duplicate
      rw [hv.rows_eq, Vec.init_new hv.pos hv.le, Res.ok_bind]⟩
  | addNew v w f g hv hw => exact ⟨_, _, _, .add v w f g (hz hv) hv hw, Vec.addNew_eq hv hw⟩
  | subNew v w f g hv hw => exact ⟨_, _, _, .sub v w f g (hz hv) hv hw, Vec.subNew_eq hv hw⟩
  | addScalarNew v f x hv => exact ⟨_, _, _, .addScalar v f x (hz hv) hv, Vec.addScalarNew_eq hv⟩
  | subScalarNew v f x hv => exact ⟨_, _, _, .subScalar v f x (hz hv) hv, Vec.subScalarNew_eq hv⟩
  | mulByScalarNew v f x hv =>
    exact ⟨_, _, _, .mulByScalar v f x (hz hv) hv, Vec.mulByScalarNew_eq hv⟩

theorem MatElem.stores {s : Mat F} {r c : Nat} {f0 g : Nat → Nat → F}
    {op : Op LinalgError (Mat F) Unit} (h : MatElem s r c f0 op g) : s.Stores r c g (op s) := by
  cases h with
  | fill x hs => exact Mat.fill_stores hs
  | fillIdentity hs h => subst h; exact Mat.fillIdentity_stores hs
  | copyFrom v f hs hv => exact Mat.copyFrom_stores hs hv
  | add v w f g hs hv hw => exact Mat.add_stores hs hv hw
  | addInPlace w g hs hw => exact Mat.addInPlace_stores hs hw
  | sub v w f g hs hv hw => exact Mat.sub_stores hs hv hw
  | subInPlace w g hs hw => exact Mat.subInPlace_stores hs hw
  | addScalar v f x hs hv => exact Mat.addScalar_stores hs hv
  | addScalarInPlace x hs => exact Mat.addScalarInPlace_stores hs
  | subScalar v f x hs hv => exact Mat.subScalar_stores hs hv
  | subScalarInPlace x hs => exact Mat.subScalarInPlace_stores hs
  | mulByScalarInPlace x hs => exact Mat.mulByScalarInPlace_stores hs
  | powerElements x hs => exact Mat.powerElements_stores hs

theorem MatElem.target {s : Mat F} {r c : Nat} {f0 g : Nat → Nat → F}
    {op : Op LinalgError (Mat F) Unit} (h : MatElem s r c f0 op g) : MatIs s r c f0 := by
  cases h <;> assumption

theorem MatElemNew.elem {r c : Nat} {g : Nat → Nat → F} {call : Res LinalgError (Mat F)}
    (h : MatElemNew r c call g) :
    ∃ (s : Mat F) (op : Op LinalgError (Mat F) Unit) (f0 : Nat → Nat → F),
      MatElem s r c f0 op g ∧ call = exec s op := by
  cases h with
  | duplicate v f hv =>
    exact ⟨_, _, _, .copyFrom v g (Mat.zeros_of hv) hv, by
      unfold Mat.duplicate
      rw [hv.rows_eq, hv.cols_eq, Mat.init_of hv, Res.ok_bind]⟩
  | addNew v w f g hv hw => exact ⟨_, _, _, .add v w f g (Mat.zeros_of hv) hv hw, Mat.addNew_eq hv hw⟩
  | subNew v w f g hv hw => exact ⟨_, _, _, .sub v w f g (Mat.zeros_of hv) hv hw, Mat.subNew_eq hv hw⟩
  | addScalarNew v f x hv =>
    exact ⟨_, _, _, .addScalar v f x (Mat.zeros_of hv) hv, Mat.addScalarNew_eq hv⟩
  | subScalarNew v f x hv =>
    exact ⟨_, _, _, .subScalar v f x (Mat.zeros_of hv) hv, Mat.subScalarNew_eq hv⟩

/-! ### C08, C10: success on vectors -/

/-- C08/C10: an element-wise call on a vector succeeds exactly when all results are finite, and then
stores exactly these results. -/
theorem C08_vec {s : Vec F} {n : Nat} {f0 g : Nat → F} {op : Op LinalgError (Vec F) Unit}
    (h : VecElem s n f0 op g) :
    ((op s).1 = .ok () ↔ ∀ i, i < n → Finite (g i)) ∧
    ((op s).1 = .ok () → VecIs (op s).2 n g) := by
  rcases h.stores.cases with ⟨hf, e⟩ | ⟨k, hk, _, hb, e⟩
  · rw [e]; exact ⟨⟨fun _ => hf, fun _ => rfl⟩, fun _ => h.target.overwrite g⟩
  · rw [e]; exact ⟨⟨fun h => by simp at h, fun h => absurd (h k hk) hb⟩, fun h => by simp at h⟩

/-- C08/C10: the allocating variants. -/
theorem C08_new {n : Nat} {g : Nat → F} {call : Res LinalgError (Vec F)} (h : VecElemNew n call g) :
    ((∃ r, call = .ok r) ↔ ∀ i, i < n → Finite (g i)) ∧ ∀ r, call = .ok r → VecIs r n g := by
  obtain ⟨s, op, f0, h', rfl⟩ := h.elem
  clear h
  rename' h' => h
  rcases h.stores.cases with ⟨hf, e⟩ | ⟨k, hk, _, hb, e⟩
  · rw [exec_ok e]
    exact ⟨⟨fun _ => hf, fun _ => ⟨_, rfl⟩⟩, fun r hr => by cases hr; exact h.target.overwrite g⟩
  · rw [exec_err e]
    exact ⟨⟨fun h => by simp at h, fun h => absurd (h k hk) hb⟩, fun r hr => by simp at hr⟩

/-- C08/C10: two calls that store the same values give the same result on any targets of the size
(so the plain, in-place and allocating variants agree, including on the reported error). -/
theorem C08_agree {s t : Vec F} {n : Nat} {f0 f1 g : Nat → F} {op op' : Op LinalgError (Vec F) Unit}
    (h : VecElem s n f0 op g) (h' : VecElem t n f1 op' g) : (op s).1 = (op' t).1 := by
  rcases h.stores.cases with ⟨hf, e⟩ | ⟨k, hk, hf, hb, e⟩
  · rw [e, h'.stores.1 hf]
  · rw [e, h'.stores.2 k hk hf hb]

theorem C08_agree_new {s : Vec F} {n : Nat} {f0 g : Nat → F} {op : Op LinalgError (Vec F) Unit}
    {call : Res LinalgError (Vec F)} (h : VecElem s n f0 op g) (h' : VecElemNew n call g) :
    (∀ e, call = .error e ↔ (op s).1 = .error e) := by
  obtain ⟨t, op', f1, h2, rfl⟩ := h'.elem
  intro e
  rw [C08_agree h h2]
  unfold exec
  generalize op' t = o
  obtain ⟨_ | _, _⟩ := o <;> simp

/-- C08: operands of different sizes are rejected without any change. -/
theorem C08_size {s v w : Vec F} {n m l : Nat} {f0 f g : Nat → F} (hs : VecIs s n f0)
    (hv : VecIs v m f) (hw : VecIs w l g) :
    (m ≠ n ∨ l ≠ n → Vec.add v w s = (.error (.err .NotSameSize), s) ∧
      Vec.sub v w s = (.error (.err .NotSameSize), s)) ∧
    (m ≠ n → Vec.addInPlace v s = (.error (.err .NotSameSize), s) ∧
      Vec.subInPlace v s = (.error (.err .NotSameSize), s) ∧
      s.addNew v = .error (.err .NotSameSize) ∧ s.subNew v = .error (.err .NotSameSize) ∧
      Vec.copyFrom v s = (.error (.err .NotSameSize), s) ∧
      (∀ x, Vec.addScalar v x s = (.error (.err .NotSameSize), s) ∧
        Vec.subScalar v x s = (.error (.err .NotSameSize), s) ∧
        Vec.mulByScalar v x s = (.error (.err .NotSameSize), s))) := by
  have e : ∀ {u : Vec F} {k : Nat} {f : Nat → F}, VecIs u k f →
      s.isSameSizeAs u = .ok (decide (k = n)) := by
    intro u k f hu
    unfold Vec.isSameSizeAs
    simp only [hs.init, hu.init, hs.rows_eq, hu.rows_eq, Bool.not_true, Bool.or_self,
      Bool.false_eq_true, if_false]
    by_cases hk : k = n
    · subst hk; simp
    · simp [hk, Ne.symm hk]
  constructor
  · intro h
    unfold Vec.add Vec.sub
    simp only [Op.get_bind, e hv, e hw, Op.liftOk_bind]
    by_cases h1 : m = n
    · have h2 : l ≠ n := h.resolve_left (by simp [h1])
      simp [h1, h2, Op.fail]
    · simp [h1, Op.fail]
  · intro h
    unfold Vec.addInPlace Vec.subInPlace Vec.addNew Vec.subNew Vec.copyFrom Vec.addScalar Vec.subScalar
      Vec.mulByScalar
    simp [e hv, h, Op.fail, fail]

/-! ### C09, C10: success on matrices -/

/-- C09/C10: an element-wise call on a matrix of any shape succeeds exactly when all results are
finite, and then stores exactly these results. -/
theorem C09_mat {s : Mat F} {r c : Nat} {f0 g : Nat → Nat → F} {op : Op LinalgError (Mat F) Unit}
    (h : MatElem s r c f0 op g) :
    ((op s).1 = .ok () ↔ ∀ i j, i < r → j < c → Finite (g i j)) ∧
    ((op s).1 = .ok () → MatIs (op s).2 r c g) := by
  rcases h.stores.cases with ⟨hf, e⟩ | ⟨i, j, hi, hj, _, hb, e⟩
  · rw [e]; exact ⟨⟨fun _ => hf, fun _ => rfl⟩, fun _ => h.target.overwrite g⟩
  · rw [e]; exact ⟨⟨fun h => by simp at h, fun h => absurd (h i j hi hj) hb⟩, fun h => by simp at h⟩

/-- C09/C10: the allocating variants. -/
theorem C09_new {r c : Nat} {g : Nat → Nat → F} {call : Res LinalgError (Mat F)}
    (h : MatElemNew r c call g) :
    ((∃ a, call = .ok a) ↔ ∀ i j, i < r → j < c → Finite (g i j)) ∧
      ∀ a, call = .ok a → MatIs a r c g := by
  obtain ⟨s, op, f0, h', rfl⟩ := h.elem
  clear h
  rename' h' => h
  rcases h.stores.cases with ⟨hf, e⟩ | ⟨i, j, hi, hj, _, hb, e⟩
  · rw [exec_ok e]
    exact ⟨⟨fun _ => hf, fun _ => ⟨_, rfl⟩⟩, fun r hr => by cases hr; exact h.target.overwrite g⟩
  · rw [exec_err e]
    exact ⟨⟨fun h => by simp at h, fun h => absurd (h i j hi hj) hb⟩, fun r hr => by simp at hr⟩

/-- C09/C10: variants agree, including on the reported error. -/
theorem C09_agree {s t : Mat F} {r c : Nat} {f0 f1 g : Nat → Nat → F}
    {op op' : Op LinalgError (Mat F) Unit}
    (h : MatElem s r c f0 op g) (h' : MatElem t r c f1 op' g) : (op s).1 = (op' t).1 := by
  rcases h.stores.cases with ⟨hf, e⟩ | ⟨i, j, hi, hj, hf, hb, e⟩
  · rw [e, h'.stores.1 hf]
  · rw [e, h'.stores.2 i j hi hj hf hb]

theorem C09_agree_new {s : Mat F} {r c : Nat} {f0 g : Nat → Nat → F}
    {op : Op LinalgError (Mat F) Unit} {call : Res LinalgError (Mat F)} (h : MatElem s r c f0 op g)
    (h' : MatElemNew r c call g) : (∀ e, call = .error e ↔ (op s).1 = .error e) := by
  obtain ⟨t, op', f1, h2, rfl⟩ := h'.elem
  intro e
  rw [C09_agree h h2]
  unfold exec
  generalize op' t = o
  obtain ⟨_ | _, _⟩ := o <;> simp

/-- C09: operands of different shapes are rejected without any change. -/
theorem C09_size {s v w : Mat F} {r c r' c' r'' c'' : Nat} {f0 f g : Nat → Nat → F}
    (hs : MatIs s r c f0) (hv : MatIs v r' c' f) (hw : MatIs w r'' c'' g) :
    (¬ (r' = r ∧ c' = c) ∨ ¬ (r'' = r ∧ c'' = c) →
      Mat.add v w s = (.error (.err .NotSameSize), s) ∧
      Mat.sub v w s = (.error (.err .NotSameSize), s)) ∧
    (¬ (r' = r ∧ c' = c) → Mat.addInPlace v s = (.error (.err .NotSameSize), s) ∧
      Mat.subInPlace v s = (.error (.err .NotSameSize), s) ∧
      s.addNew v = .error (.err .NotSameSize) ∧ s.subNew v = .error (.err .NotSameSize) ∧
      Mat.copyFrom v s = (.error (.err .NotSameSize), s) ∧
      (∀ x, Mat.addScalar v x s = (.error (.err .NotSameSize), s) ∧
        Mat.subScalar v x s = (.error (.err .NotSameSize), s))) := by
  have e : ∀ {u : Mat F} {k l : Nat} {f : Nat → Nat → F}, MatIs u k l f →
      s.isSameSizeAs u = .ok (decide (k = r ∧ l = c)) := by
    intro u k l f hu
    unfold Mat.isSameSizeAs
    simp only [hs.init, hu.init, hs.rows_eq, hu.rows_eq, hs.cols_eq, hu.cols_eq, Bool.not_true,
      Bool.or_self, Bool.false_eq_true, if_false]
    by_cases hk : k = r
    · by_cases hl : l = c
      · subst hk hl; simp
      · simp [hl, Ne.symm hl]
    · simp [hk, Ne.symm hk]
  constructor
  · intro h
    unfold Mat.add Mat.sub
    simp only [Op.get_bind, e hv, e hw, Op.liftOk_bind]
    by_cases h1 : r' = r ∧ c' = c
    · have h2 : ¬ (r'' = r ∧ c'' = c) := h.resolve_left (fun h => h h1)
      simp [h1, h2, Op.fail]
    · simp [h1, Op.fail]
  · intro h
    unfold Mat.addInPlace Mat.subInPlace Mat.addNew Mat.subNew Mat.copyFrom Mat.addScalar Mat.subScalar
    simp [e hv, h, Op.fail, fail]

/-! ### C10: objects that were never initialised -/

/-- C10: in-place scalar operations on a never-initialised vector do nothing and succeed. -/
theorem C10_fresh_vec (x : F) :
    Vec.addScalarInPlace x Vec.new = (.ok (), Vec.new) ∧
    Vec.subScalarInPlace x Vec.new = (.ok (), Vec.new) ∧
    Vec.mulByScalarInPlace x Vec.new = (.ok (), Vec.new) ∧
    Vec.powerElements x Vec.new = (.ok (), Vec.new) ∧
    Vec.fill x Vec.new = (.ok (), Vec.new) := by
  simp [Vec.addScalarInPlace, Vec.subScalarInPlace, Vec.mulByScalarInPlace, Vec.powerElements,
    Vec.fill, Vec.new, Vec.newWith, forRange_empty]

/-- C10: the same for matrices. -/
theorem C10_fresh_mat (x : F) :
    Mat.addScalarInPlace x Mat.new = (.ok (), Mat.new) ∧
    Mat.subScalarInPlace x Mat.new = (.ok (), Mat.new) ∧
    Mat.mulByScalarInPlace x Mat.new = (.ok (), Mat.new) ∧
    Mat.powerElements x Mat.new = (.ok (), Mat.new) ∧
    Mat.fill x Mat.new = (.ok (), Mat.new) := by
  simp [Mat.addScalarInPlace, Mat.subScalarInPlace, Mat.mulByScalarInPlace, Mat.powerElements,
    Mat.fill, Mat.new, forRange_empty]

/-! ### C11: failures -/

/-- C11 for vectors: a failing call reports the first offending result and has written exactly the
results before it. -/
theorem C11_vec {s : Vec F} {n : Nat} {f0 g : Nat → F} {op : Op LinalgError (Vec F) Unit}
    (h : VecElem s n f0 op g) {k : Nat} (hk : k < n) (hf : ∀ i, i < k → Finite (g i))
    (hb : ¬ Finite (g k)) :
    (op s).1 = .error (.err (.UtilsError (if isNaN (g k) then .Nan else .Inf))) ∧
    VecIs (op s).2 n (fun i => if i < k then g i else f0 i) ∧
    ∀ i, k ≤ i.val → (op s).2.elements i = s.elements i := by
  have e := h.stores.2 k hk hf hb
  have ht := vecIs_iff.mp h.target
  rw [e]
  refine ⟨rfl, ?_, fun i hi => ?_⟩
  · rw [vecIs_iff]
    refine ⟨ht.1, ht.2.1, ht.2.2.1, ht.2.2.2.1, fun i h4 hn => ?_⟩
    simp only [Vec.overwrite]
    split
    · rfl
    · exact ht.2.2.2.2 i h4 hn
  · simp only [Vec.overwrite]
    rw [if_neg (by omega)]

/-- C11 for matrices, in row-major order. -/
theorem C11_mat {s : Mat F} {r c : Nat} {f0 g : Nat → Nat → F} {op : Op LinalgError (Mat F) Unit}
    (h : MatElem s r c f0 op g) {i j : Nat} (hi : i < r) (hj : j < c)
    (hf : ∀ p q, p < r → q < c → (p < i ∨ p = i ∧ q < j) → Finite (g p q))
    (hb : ¬ Finite (g i j)) :
    (op s).1 = .error (.err (.UtilsError (if isNaN (g i j) then .Nan else .Inf))) ∧
    MatIs (op s).2 r c (fun p q => if p < i ∨ p = i ∧ q < j then g p q else f0 p q) ∧
    ∀ p, i * c + j ≤ p.val → (op s).2.elements p = s.elements p := by
  have e := h.stores.2 i j hi hj hf hb
  have ht := matIs_iff.mp h.target
  rw [e]
  refine ⟨rfl, ?_, fun p hp => ?_⟩
  · rw [matIs_iff]
    refine ⟨ht.1, ht.2.1, ht.2.2.1, ht.2.2.2.1, ht.2.2.2.2.1, ht.2.2.2.2.2.1, ht.2.2.2.2.2.2.1,
      fun p q h16 hp hq => ?_⟩
    have hc := h.target.cols_eq
    simp only [Mat.overwrite, hc]
    have : p * c + q < i * c + j ↔ p < i ∨ p = i ∧ q < j := by
      constructor
      · intro h
        rcases Nat.lt_trichotomy p i with h1 | h1 | h1
        · exact Or.inl h1
        · subst h1; exact Or.inr ⟨rfl, by omega⟩
        · have : (i + 1) * c ≤ p * c := Nat.mul_le_mul_right _ h1
          rw [Nat.add_mul] at this
          omega
      · rintro (h1 | ⟨rfl, h1⟩)
        · have : (p + 1) * c ≤ i * c := Nat.mul_le_mul_right _ h1
          rw [Nat.add_mul] at this
          omega
        · omega
    by_cases hlt : p * c + q < i * c + j
    · rw [if_pos hlt, if_pos (this.mp hlt), MatIs.div_eq hq, MatIs.mod_eq hq]
    · rw [if_neg hlt, if_neg (fun h => hlt (this.mpr h))]
      exact ht.2.2.2.2.2.2.2 p q h16 hp hq
  · simp only [Mat.overwrite]
    rw [if_neg (by omega)]

/-- C11 for the allocating variants: the error of the first offending result. -/
theorem C11_new {n : Nat} {g : Nat → F} {call : Res LinalgError (Vec F)} (h : VecElemNew n call g)
    {k : Nat} (hk : k < n) (hf : ∀ i, i < k → Finite (g i)) (hb : ¬ Finite (g k)) :
    call = .error (.err (.UtilsError (if isNaN (g k) then .Nan else .Inf))) := by
  obtain ⟨s, op, f0, h', rfl⟩ := h.elem
  clear h
  rename' h' => h
  exact exec_err (h.stores.2 k hk hf hb)

theorem C11_new_mat {r c : Nat} {g : Nat → Nat → F} {call : Res LinalgError (Mat F)}
    (h : MatElemNew r c call g) {i j : Nat} (hi : i < r) (hj : j < c)
    (hf : ∀ p q, p < r → q < c → (p < i ∨ p = i ∧ q < j) → Finite (g p q))
    (hb : ¬ Finite (g i j)) :
    call = .error (.err (.UtilsError (if isNaN (g i j) then .Nan else .Inf))) := by
  obtain ⟨s, op, f0, h', rfl⟩ := h.elem
  clear h
  rename' h' => h
  exact exec_err (h.stores.2 i j hi hj hf hb)

/-! ### C63 -/

/-- C63: `duplicate` of a reachable initialised vector succeeds and gives equal size and elements. -/
theorem C63_duplicate_vec [ScalarLawful F] {v : Vec F} (h : Reach (.vec v))
    (hi : v.isInitialized = true) :
    ∃ d, v.duplicate = .ok d ∧ d.isInitialized = true ∧ d.getRows = v.getRows ∧
      ∀ i, d.getElement i = v.getElement i := by
  obtain ⟨f, hv, hf⟩ := h.vec_view hi
  obtain ⟨d, h1, h2⟩ := Vec.duplicate_ok hv (fun i _ => hf i)
  refine ⟨d, h1, h2.init, by rw [h2.rows, hv.rows], fun i => ?_⟩
  by_cases hlt : i < v.rows
  · rw [h2.get i hlt, hv.get i hlt]
  · unfold Vec.getElement isValidRow
    have hv' : v.initialized = true := hi
    simp [h2.init, hv', h2.rows_eq, Nat.not_lt.mp hlt]

/-- C63: `duplicate` of a reachable initialised matrix succeeds and gives equal shape and elements. -/
theorem C63_duplicate_mat [ScalarLawful F] {m : Mat F} (h : Reach (.mat m))
    (hi : m.isInitialized = true) :
    ∃ d, m.duplicate = .ok d ∧ d.isInitialized = true ∧ d.getRows = m.getRows ∧
      d.getCols = m.getCols ∧ ∀ i j, d.getElement i j = m.getElement i j := by
  obtain ⟨f, hm, hf⟩ := h.mat_view hi
  obtain ⟨d, h1, h2⟩ := Mat.duplicate_ok hm (fun i j _ _ => hf i j)
  refine ⟨d, h1, h2.init, by rw [h2.rows, hm.rows], by rw [h2.cols, hm.cols], fun i j => ?_⟩
  have hi' : m.initialized = true := hi
  by_cases hr : i < m.rows
  · by_cases hc : j < m.cols
    · rw [h2.get i j hr hc, hm.get i j hr hc]
    · unfold Mat.getElement isValidRow isValidCol
      simp [h2.init, hi', h2.rows_eq, h2.cols_eq, hr, Nat.not_le.mpr hr, Nat.not_lt.mp hc]
  · unfold Mat.getElement isValidRow isValidCol
    simp [h2.init, hi', h2.rows_eq, h2.cols_eq, Nat.not_lt.mp hr]

/-- C63: `copy_from` between reachable initialised vectors succeeds exactly when the sizes agree. -/
theorem C63_copy_vec [ScalarLawful F] {v w : Vec F} (h : Reach (.vec v)) (h' : Reach (.vec w))
    (hi : v.isInitialized = true) (hi' : w.isInitialized = true) :
    ((Vec.copyFrom w v).1 = .ok () ↔ v.rows = w.rows) ∧
    (v.rows ≠ w.rows → Vec.copyFrom w v = (.error (.err .NotSameSize), v)) ∧
    (v.rows = w.rows → (Vec.copyFrom w v).2.getRows = w.getRows ∧
      ∀ i, i < w.rows → (Vec.copyFrom w v).2.getElement i = w.getElement i) := by
  obtain ⟨f, hv, hf⟩ := h.vec_view hi
  obtain ⟨g, hw, hg⟩ := h'.vec_view hi'
  have hne : v.rows ≠ w.rows → Vec.copyFrom w v = (.error (.err .NotSameSize), v) :=
    fun hn => ((C08_size hv hw hw).2 (Ne.symm hn)).2.2.2.2.1
  refine ⟨⟨fun hok => ?_, fun he => ?_⟩, hne, fun he => ?_⟩
  · by_contra hn
    rw [hne hn] at hok
    simp at hok
  · rw [he] at hv
    exact ((C08_vec (.copyFrom w g hv hw)).1).mpr fun i _ => hg i
  · rw [he] at hv
    have := C08_vec (.copyFrom w g hv hw)
    have h2 := this.2 (this.1.mpr fun i _ => hg i)
    exact ⟨by rw [h2.rows, hw.rows], fun i hlt => by rw [h2.get i hlt, hw.get i hlt]⟩

/-- C63: `copy_from` between reachable initialised matrices succeeds exactly when the shapes agree. -/
theorem C63_copy_mat [ScalarLawful F] {v w : Mat F} (h : Reach (.mat v)) (h' : Reach (.mat w))
    (hi : v.isInitialized = true) (hi' : w.isInitialized = true) :
    ((Mat.copyFrom w v).1 = .ok () ↔ v.rows = w.rows ∧ v.cols = w.cols) ∧
    (¬ (v.rows = w.rows ∧ v.cols = w.cols) → Mat.copyFrom w v = (.error (.err .NotSameSize), v)) ∧
    (v.rows = w.rows ∧ v.cols = w.cols → (Mat.copyFrom w v).2.getRows = w.getRows ∧
      (Mat.copyFrom w v).2.getCols = w.getCols ∧
      ∀ i j, i < w.rows → j < w.cols → (Mat.copyFrom w v).2.getElement i j = w.getElement i j) := by
  obtain ⟨f, hv, hf⟩ := h.mat_view hi
  obtain ⟨g, hw, hg⟩ := h'.mat_view hi'
  have hne : ¬ (v.rows = w.rows ∧ v.cols = w.cols) →
      Mat.copyFrom w v = (.error (.err .NotSameSize), v) :=
    fun hn => ((C09_size hv hw hw).2 (fun h => hn ⟨h.1.symm, h.2.symm⟩)).2.2.2.2.1
  refine ⟨⟨fun hok => ?_, fun he => ?_⟩, hne, fun he => ?_⟩
  · by_contra hn
    rw [hne hn] at hok
    simp at hok
  · rw [he.1, he.2] at hv
    exact ((C09_mat (.copyFrom w g hv hw)).1).mpr fun i j _ _ => hg i j
  · rw [he.1, he.2] at hv
    have := C09_mat (.copyFrom w g hv hw)
    have h2 := this.2 (this.1.mpr fun i j _ _ => hg i j)
    exact ⟨h2.rows.trans hw.rows.symm, h2.cols.trans hw.cols.symm,
      fun i j hr hc => by rw [h2.get i j hr hc, hw.get i j hr hc]⟩

/-! ### Concrete cases -/

theorem exVec_is : VecIs exVec 2 (fun i => if i = 0 then .fin 5 else .fin 7) where
  pos := by omega
  le := by omega
  rows := by decide +kernel
  get := by decide +kernel

theorem exMat_is : MatIs exMat 2 3 (fun i j => .fin (3 * i + j + 1 : Nat)) where
  rpos := by omega
  rle := by omega
  cpos := by omega
  cle := by omega
  rows := by decide +kernel
  cols := by decide +kernel
  get := by
    have : ∀ i, i < 2 → ∀ j, j < 3 → exMat.getElement i j = .ok (.fin (3 * i + j + 1 : Nat)) := by
      decide +kernel
    exact fun i j hi hj => this i hi j hj

/-- `(5, 7) + (5, 7)` in place. -/
example : (Vec.addInPlace exVec exVec).1 = .ok () ∧
    (Vec.addInPlace exVec exVec).2.getElement 1 = .ok (.fin 14) := by decide +kernel
example : ∃ f g, VecElem exVec 2 f (Vec.addInPlace exVec) g :=
  ⟨_, _, .addInPlace exVec _ exVec_is exVec_is⟩
example : ∃ f g, MatElem exMat 2 3 f (Mat.mulByScalarInPlace (.fin 3)) g :=
  ⟨_, _, .mulByScalarInPlace _ exMat_is⟩

/-- A failure at the first element: `5 + ∞`. -/
example : (Vec.addScalarInPlace Ext.pinf exVec).1 = .error (.err (.UtilsError .Inf)) ∧
    (Vec.addScalarInPlace Ext.pinf exVec).2.getElement 0 = .ok (.fin 5) := by decide +kernel

/-- A failure at the second element: `(2, 0)` raised to the power `-1`. -/
example :
    let v : Vec XQ := { rows := 2, elements := ![.fin 2, .fin 0, .fin 0, .fin 0], initialized := true }
    (Vec.powerElements (.fin (-1)) v).1 = .error (.err (.UtilsError .Inf)) ∧
    (Vec.powerElements (.fin (-1)) v).2.getElement 0 = .ok (.fin (1 / 2)) ∧
    (Vec.powerElements (.fin (-1)) v).2.getElement 1 = .ok (.fin 0) := by decide +kernel

end Verif
