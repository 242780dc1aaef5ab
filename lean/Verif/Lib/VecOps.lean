import Verif.Lib.Store

/-
What the vector operations compute, in terms of `VecIs` and `Vec.Stores`.
-/

set_option linter.unusedSectionVars false
set_option linter.unusedSimpArgs false

namespace Verif
open Scalar

variable {F : Type} [Scalar F]

theorem VecIs.get_overwrite {v : Vec F} {n k : Nat} {f g : Nat → F} (h : VecIs v n f) (hk : k < n) :
    (v.overwrite k g).getElement k = .ok (f k) := by
  have h4 : k < 4 := Nat.lt_of_lt_of_le hk h.le
  rw [Vec.getElement_eq (by exact h.init) (by simpa [h.rows_eq] using hk) h4]
  simp [Vec.overwrite, h.elem h4 hk]

/-- A fold that adds up terms. -/
theorem foldRange_sumUp {ε : Type} {n : Nat} {t : Nat → F} {body : Nat → F → Res ε F}
    (hb : ∀ i acc, i < n → body i acc = .ok (acc +ᶠ t i)) :
    foldRange 0 n body (lit 0) = .ok (sumUp n t) := by
  have := foldRange_ok body (fun k => sumUp k t) 0 n (Nat.zero_le _)
    (fun i _ hi => by rw [hb i _ hi]; rfl)
  exact this

namespace Vec

/-- A freshly initialised vector. -/
def zeros (n : Nat) : Vec F := { rows := n, elements := fun _ => lit 0, initialized := true }

theorem init_new {n : Nat} (h1 : 1 ≤ n) (h4 : n ≤ 4) :
    exec (Vec.new : Vec F) (Vec.init n) = .ok (zeros n) := by
  have : isValidRowsNumber n = .ok () := isValidRowsNumber_ok_iff.mpr ⟨h1, h4⟩
  unfold exec Vec.init
  simp [Vec.new, Vec.newWith, this, zeros]

theorem zeros_is {n : Nat} (h1 : 1 ≤ n) (h4 : n ≤ 4) : VecIs (zeros n : Vec F) n (fun _ => lit 0) := by
  rw [vecIs_iff]; exact ⟨h1, h4, rfl, rfl, fun _ _ _ => rfl⟩

theorem init_newU8 {n : Nat} (h1 : 1 ≤ n) (h4 : n ≤ 4) :
    ∃ p, exec Vec.newU8 (Vec.init n) = .ok p ∧ U8Is p n (fun _ => 0) := by
  have : isValidRowsNumber n = .ok () := isValidRowsNumber_ok_iff.mpr ⟨h1, h4⟩
  refine ⟨{ rows := n, elements := fun _ => 0, initialized := true }, ?_, ?_⟩
  · unfold exec Vec.init
    simp [Vec.newU8, Vec.newWith, this]
  · rw [u8Is_iff]; exact ⟨h1, h4, rfl, rfl, fun _ _ _ => rfl⟩

variable {s v w : Vec F} {n : Nat} {f f0 g : Nat → F}

theorem fill_stores {x : F} (hs : VecIs s n f0) : s.Stores n (fun _ => x) (fill x s) := by
  unfold fill
  simp only [Op.get_bind]
  rw [hs.rows_eq]
  exact stores_of_loop hs.init hs.rows_eq.ge hs.le fun k _ => rfl

theorem copyFrom_stores (hs : VecIs s n f0) (hv : VecIs v n f) :
    s.Stores n f (copyFrom v s) := by
  unfold copyFrom
  simp only [Op.get_bind, hs.sameSize hv, Op.liftOk_bind, Bool.not_true, Bool.false_eq_true, if_false]
  rw [hs.rows_eq]
  exact stores_of_loop hs.init hs.rows_eq.ge hs.le fun k hk => by
    simp [hv.get k hk]

theorem add_stores (hs : VecIs s n f0) (hv : VecIs v n f) (hw : VecIs w n g) :
    s.Stores n (fun i => f i +ᶠ g i) (add v w s) := by
  unfold add
  simp only [Op.get_bind, hs.sameSize hv, hs.sameSize hw, Op.liftOk_bind, Bool.not_true,
    Bool.false_eq_true, if_false]
  rw [hs.rows_eq]
  exact stores_of_loop hs.init hs.rows_eq.ge hs.le fun k hk => by
    simp [hv.get k hk, hw.get k hk]

theorem addInPlace_stores (hs : VecIs s n f) (hw : VecIs w n g) :
    s.Stores n (fun i => f i +ᶠ g i) (addInPlace w s) := by
  unfold addInPlace
  simp only [Op.get_bind, hs.sameSize hw, Op.liftOk_bind, Bool.not_true,
    Bool.false_eq_true, if_false]
  rw [hs.rows_eq]
  exact stores_of_loop hs.init hs.rows_eq.ge hs.le fun k hk => by
    simp [hs.get_overwrite hk, hw.get k hk]

theorem addNew_eq (hv : VecIs v n f) (hw : VecIs w n g) :
    v.addNew w = exec (zeros n) (add v w) := by
  unfold addNew
  simp [hv.sameSize hw, hv.rows_eq, init_new hv.pos hv.le]

theorem sub_stores (hs : VecIs s n f0) (hv : VecIs v n f) (hw : VecIs w n g) :
    s.Stores n (fun i => f i -ᶠ g i) (sub v w s) := by
  unfold sub
  simp only [Op.get_bind, hs.sameSize hv, hs.sameSize hw, Op.liftOk_bind, Bool.not_true,
    Bool.false_eq_true, if_false]
  rw [hs.rows_eq]
  exact stores_of_loop hs.init hs.rows_eq.ge hs.le fun k hk => by
    simp [hv.get k hk, hw.get k hk]

theorem subInPlace_stores (hs : VecIs s n f) (hw : VecIs w n g) :
    s.Stores n (fun i => f i -ᶠ g i) (subInPlace w s) := by
  unfold subInPlace
  simp only [Op.get_bind, hs.sameSize hw, Op.liftOk_bind, Bool.not_true,
    Bool.false_eq_true, if_false]
  rw [hs.rows_eq]
  exact stores_of_loop hs.init hs.rows_eq.ge hs.le fun k hk => by
    simp [hs.get_overwrite hk, hw.get k hk]

theorem subNew_eq (hv : VecIs v n f) (hw : VecIs w n g) :
    v.subNew w = exec (zeros n) (sub v w) := by
  unfold subNew
  simp [hv.sameSize hw, hv.rows_eq, init_new hv.pos hv.le]

theorem addScalar_stores {x : F} (hs : VecIs s n f0) (hv : VecIs v n f) :
    s.Stores n (fun i => f i +ᶠ x) (addScalar v x s) := by
  unfold addScalar
  simp only [Op.get_bind, hs.sameSize hv, Op.liftOk_bind, Bool.not_true,
    Bool.false_eq_true, if_false]
  rw [hs.rows_eq]
  exact stores_of_loop hs.init hs.rows_eq.ge hs.le fun k hk => by
    simp [hv.get k hk]

theorem addScalarInPlace_stores {x : F} (hs : VecIs s n f) :
    s.Stores n (fun i => f i +ᶠ x) (addScalarInPlace x s) := by
  unfold addScalarInPlace
  simp only [Op.get_bind]
  rw [hs.rows_eq]
  exact stores_of_loop hs.init hs.rows_eq.ge hs.le fun k hk => by
    simp [hs.get_overwrite hk]

theorem addScalarNew_eq {x : F} (hv : VecIs v n f) :
    v.addScalarNew x = exec (zeros n) (addScalar v x) := by
  unfold addScalarNew
  simp [hv.init, hv.rows_eq, init_new hv.pos hv.le]

theorem subScalar_stores {x : F} (hs : VecIs s n f0) (hv : VecIs v n f) :
    s.Stores n (fun i => f i -ᶠ x) (subScalar v x s) := by
  unfold subScalar
  simp only [Op.get_bind, hs.sameSize hv, Op.liftOk_bind, Bool.not_true,
    Bool.false_eq_true, if_false]
  rw [hs.rows_eq]
  exact stores_of_loop hs.init hs.rows_eq.ge hs.le fun k hk => by
    simp [hv.get k hk]

theorem subScalarInPlace_stores {x : F} (hs : VecIs s n f) :
    s.Stores n (fun i => f i -ᶠ x) (subScalarInPlace x s) := by
  unfold subScalarInPlace
  simp only [Op.get_bind]
  rw [hs.rows_eq]
  exact stores_of_loop hs.init hs.rows_eq.ge hs.le fun k hk => by
    simp [hs.get_overwrite hk]

theorem subScalarNew_eq {x : F} (hv : VecIs v n f) :
    v.subScalarNew x = exec (zeros n) (subScalar v x) := by
  unfold subScalarNew
  simp [hv.init, hv.rows_eq, init_new hv.pos hv.le]

theorem mulByScalar_stores {x : F} (hs : VecIs s n f0) (hv : VecIs v n f) :
    s.Stores n (fun i => f i *ᶠ x) (mulByScalar v x s) := by
  unfold mulByScalar
  simp only [Op.get_bind, hs.sameSize hv, Op.liftOk_bind, Bool.not_true,
    Bool.false_eq_true, if_false]
  rw [hs.rows_eq]
  exact stores_of_loop hs.init hs.rows_eq.ge hs.le fun k hk => by
    simp [hv.get k hk]

theorem mulByScalarInPlace_stores {x : F} (hs : VecIs s n f) :
    s.Stores n (fun i => f i *ᶠ x) (mulByScalarInPlace x s) := by
  unfold mulByScalarInPlace
  simp only [Op.get_bind]
  rw [hs.rows_eq]
  exact stores_of_loop hs.init hs.rows_eq.ge hs.le fun k hk => by
    simp [hs.get_overwrite hk]

theorem mulByScalarNew_eq {x : F} (hv : VecIs v n f) :
    v.mulByScalarNew x = exec (zeros n) (mulByScalar v x) := by
  unfold mulByScalarNew
  simp [hv.init, hv.rows_eq, init_new hv.pos hv.le]

theorem powerElements_stores {x : F} (hs : VecIs s n f) :
    s.Stores n (fun i => Scalar.pow (f i) x) (powerElements x s) := by
  unfold powerElements
  simp only [Op.get_bind]
  rw [hs.rows_eq]
  exact stores_of_loop hs.init hs.rows_eq.ge hs.le fun k hk => by
    simp [hs.get_overwrite hk]

/-- What `calculate_norm` returns. -/
theorem calculateNorm_eq (hv : VecIs v n f) :
    v.calculateNorm =
      if Scalar.sqrt (sumUp n fun i => f i *ᶠ f i) ≤ᶠ EPSILON then .ok (lit 0)
      else .ok (Scalar.sqrt (sumUp n fun i => f i *ᶠ f i)) := by
  unfold calculateNorm
  rw [hv.rows_eq, foldRange_sumUp (t := fun i => f i *ᶠ f i)]
  · rfl
  · intro i acc hi
    simp [hv.get i hi]

theorem dotProduct_eq (hv : VecIs v n f) (hw : VecIs w n g) :
    v.dotProduct w = .ok (sumUp n fun i => f i *ᶠ g i) := by
  unfold dotProduct
  simp only [hv.sameSize hw, Res.ok_bind, Bool.not_true, Bool.false_eq_true, if_false]
  rw [hv.rows_eq, foldRange_sumUp (t := fun i => f i *ᶠ g i)]
  intro i acc hi
  simp [hv.get i hi, hw.get i hi]

theorem normalize_stores {nrm : F} (hs : VecIs s n f) (hn : s.calculateNorm = .ok nrm) :
    s.Stores n (fun i => if nrm >ᶠ EPSILON then f i /ᶠ nrm else lit 0) (normalize s) := by
  unfold normalize
  simp only [Op.get_bind, hn, Op.liftOk_bind]
  split
  · rw [hs.rows_eq]
    exact stores_of_loop hs.init hs.rows_eq.ge hs.le fun k hk => by
      simp [hs.get_overwrite hk]
  · exact fill_stores hs

theorem exec_of_stores {m : Op LinalgError (Vec F) Unit} (h : s.Stores n g (m s))
    (hs : VecIs s n f0) (hg : ∀ i, i < n → Finite (g i)) :
    ∃ s', exec s m = .ok s' ∧ VecIs s' n g :=
  ⟨_, exec_ok (h.ok hg), hs.overwrite g⟩

theorem run_of_stores {m : Op LinalgError (Vec F) Unit} (h : s.Stores n g (m s))
    (hs : VecIs s n f0) (hg : ∀ i, i < n → Finite (g i)) :
    ∃ s', m s = (.ok (), s') ∧ VecIs s' n g :=
  ⟨_, h.ok hg, hs.overwrite g⟩

/-- A loop that stores and succeeded: the values were finite. -/
theorem exec_stores_inv {m : Op LinalgError (Vec F) Unit} {s' : Vec F} (h : s.Stores n g (m s))
    (hs : VecIs s n f0) (hr : exec s m = .ok s') :
    (∀ i, i < n → Finite (g i)) ∧ VecIs s' n g := by
  obtain ⟨_, h1⟩ := exec_eq_ok hr
  rcases h.cases with ⟨hf, e⟩ | ⟨k, _, _, _, e⟩
  · rw [h1] at e; simp at e
    exact ⟨hf, e ▸ hs.overwrite g⟩
  · rw [h1] at e; simp at e

theorem run_stores_inv {m : Op LinalgError (Vec F) Unit} {s' : Vec F} (h : s.Stores n g (m s))
    (hs : VecIs s n f0) (hr : m s = (.ok (), s')) :
    (∀ i, i < n → Finite (g i)) ∧ VecIs s' n g := by
  exact exec_stores_inv h hs (exec_ok hr)

theorem duplicate_ok (hv : VecIs v n f) (hf : ∀ i, i < n → Finite (f i)) :
    ∃ d, v.duplicate = .ok d ∧ VecIs d n f := by
  unfold duplicate
  rw [hv.rows_eq, init_new hv.pos hv.le, Res.ok_bind]
  exact exec_of_stores (copyFrom_stores (zeros_is hv.pos hv.le) hv) (zeros_is hv.pos hv.le) hf

end Vec
end Verif
