import Verif.Props.MatrixOps
import Verif.F32

/-
The element-wise calls one family at a time, without the table of `ElementWise`:
C08 (vectors), C09 (matrices), C10 (scalars); and what a failing product leaves behind (C12).
-/

namespace Verif
open Scalar

variable {F : Type} [Scalar F]

/-! ### C08 -/

/-- C08: `add`, `add_in_place` and `add_new` on vectors of the same size: one operation for each
element, success exactly when every result is finite, and the three agree. -/
theorem C08_add {s v w : Vec F} {n : Nat} {f0 f g : Nat → F} (hs : VecIs s n f0) (hv : VecIs v n f)
    (hw : VecIs w n g) :
    ((Vec.add v w s).1 = .ok () ↔ ∀ i, i < n → Finite (f i +ᶠ g i)) ∧
    ((Vec.add v w s).1 = .ok () → VecIs (Vec.add v w s).2 n (fun i => f i +ᶠ g i)) ∧
    (Vec.addInPlace w v).1 = (Vec.add v w s).1 ∧
    ((Vec.addInPlace w v).1 = .ok () → VecIs (Vec.addInPlace w v).2 n (fun i => f i +ᶠ g i)) ∧
    (∀ r, v.addNew w = .ok r → VecIs r n (fun i => f i +ᶠ g i)) ∧
    (∀ e, v.addNew w = .error e ↔ (Vec.add v w s).1 = .error e) :=
  have h := VecElem.add v w f g hs hv hw
  have h' := VecElem.addInPlace (s := v) w g hv hw
  have h'' := VecElemNew.addNew v w f g hv hw
  ⟨(C08_vec h).1, (C08_vec h).2, C08_agree h' h, (C08_vec h').2, (C08_new h'').2, C08_agree_new h h''⟩

/-- C08: `sub`, `sub_in_place` and `sub_new` on vectors of the same size: one operation for each
element, success exactly when every result is finite, and the three agree. -/
theorem C08_sub {s v w : Vec F} {n : Nat} {f0 f g : Nat → F} (hs : VecIs s n f0) (hv : VecIs v n f)
    (hw : VecIs w n g) :
    ((Vec.sub v w s).1 = .ok () ↔ ∀ i, i < n → Finite (f i -ᶠ g i)) ∧
    ((Vec.sub v w s).1 = .ok () → VecIs (Vec.sub v w s).2 n (fun i => f i -ᶠ g i)) ∧
    (Vec.subInPlace w v).1 = (Vec.sub v w s).1 ∧
    ((Vec.subInPlace w v).1 = .ok () → VecIs (Vec.subInPlace w v).2 n (fun i => f i -ᶠ g i)) ∧
    (∀ r, v.subNew w = .ok r → VecIs r n (fun i => f i -ᶠ g i)) ∧
    (∀ e, v.subNew w = .error e ↔ (Vec.sub v w s).1 = .error e) :=
  have h := VecElem.sub v w f g hs hv hw
  have h' := VecElem.subInPlace (s := v) w g hv hw
  have h'' := VecElemNew.subNew v w f g hv hw
  ⟨(C08_vec h).1, (C08_vec h).2, C08_agree h' h, (C08_vec h').2, (C08_new h'').2, C08_agree_new h h''⟩

/-! ### C09 -/

/-- C09: `add`, `add_in_place` and `add_new` on matrices of the same shape. -/
theorem C09_add {s v w : Mat F} {r c : Nat} {f0 f g : Nat → Nat → F} (hs : MatIs s r c f0)
    (hv : MatIs v r c f) (hw : MatIs w r c g) :
    ((Mat.add v w s).1 = .ok () ↔ ∀ i j, i < r → j < c → Finite (f i j +ᶠ g i j)) ∧
    ((Mat.add v w s).1 = .ok () → MatIs (Mat.add v w s).2 r c (fun i j => f i j +ᶠ g i j)) ∧
    (Mat.addInPlace w v).1 = (Mat.add v w s).1 ∧
    ((Mat.addInPlace w v).1 = .ok () →
      MatIs (Mat.addInPlace w v).2 r c (fun i j => f i j +ᶠ g i j)) ∧
    (∀ a, v.addNew w = .ok a → MatIs a r c (fun i j => f i j +ᶠ g i j)) ∧
    (∀ e, v.addNew w = .error e ↔ (Mat.add v w s).1 = .error e) :=
  have h := MatElem.add v w f g hs hv hw
  have h' := MatElem.addInPlace (s := v) w g hv hw
  have h'' := MatElemNew.addNew v w f g hv hw
  ⟨(C09_mat h).1, (C09_mat h).2, C09_agree h' h, (C09_mat h').2, (C09_new h'').2, C09_agree_new h h''⟩

/-- C09: `sub`, `sub_in_place` and `sub_new` on matrices of the same shape. -/
theorem C09_sub {s v w : Mat F} {r c : Nat} {f0 f g : Nat → Nat → F} (hs : MatIs s r c f0)
    (hv : MatIs v r c f) (hw : MatIs w r c g) :
    ((Mat.sub v w s).1 = .ok () ↔ ∀ i j, i < r → j < c → Finite (f i j -ᶠ g i j)) ∧
    ((Mat.sub v w s).1 = .ok () → MatIs (Mat.sub v w s).2 r c (fun i j => f i j -ᶠ g i j)) ∧
    (Mat.subInPlace w v).1 = (Mat.sub v w s).1 ∧
    ((Mat.subInPlace w v).1 = .ok () →
      MatIs (Mat.subInPlace w v).2 r c (fun i j => f i j -ᶠ g i j)) ∧
    (∀ a, v.subNew w = .ok a → MatIs a r c (fun i j => f i j -ᶠ g i j)) ∧
    (∀ e, v.subNew w = .error e ↔ (Mat.sub v w s).1 = .error e) :=
  have h := MatElem.sub v w f g hs hv hw
  have h' := MatElem.subInPlace (s := v) w g hv hw
  have h'' := MatElemNew.subNew v w f g hv hw
  ⟨(C09_mat h).1, (C09_mat h).2, C09_agree h' h, (C09_mat h').2, (C09_new h'').2, C09_agree_new h h''⟩

/-! ### C10 -/

/-- C10: `add_scalar`, `add_scalar_in_place` and `add_scalar_new` on a vector. -/
theorem C10_add_scalar_vec {s v : Vec F} {n : Nat} {f0 f : Nat → F} (x : F) (hs : VecIs s n f0)
    (hv : VecIs v n f) :
    ((Vec.addScalar v x s).1 = .ok () ↔ ∀ i, i < n → Finite (f i +ᶠ x)) ∧
    ((Vec.addScalar v x s).1 = .ok () → VecIs (Vec.addScalar v x s).2 n (fun i => f i +ᶠ x)) ∧
    (Vec.addScalarInPlace x v).1 = (Vec.addScalar v x s).1 ∧
    ((Vec.addScalarInPlace x v).1 = .ok () →
      VecIs (Vec.addScalarInPlace x v).2 n (fun i => f i +ᶠ x)) ∧
    (∀ r, v.addScalarNew x = .ok r → VecIs r n (fun i => f i +ᶠ x)) ∧
    (∀ e, v.addScalarNew x = .error e ↔ (Vec.addScalar v x s).1 = .error e) :=
  have h := VecElem.addScalar v f x hs hv
  have h' := VecElem.addScalarInPlace (s := v) x hv
  have h'' := VecElemNew.addScalarNew v f x hv
  ⟨(C08_vec h).1, (C08_vec h).2, C08_agree h' h, (C08_vec h').2, (C08_new h'').2, C08_agree_new h h''⟩

/-- C10: `sub_scalar`, `sub_scalar_in_place` and `sub_scalar_new` on a vector. -/
theorem C10_sub_scalar_vec {s v : Vec F} {n : Nat} {f0 f : Nat → F} (x : F) (hs : VecIs s n f0)
    (hv : VecIs v n f) :
    ((Vec.subScalar v x s).1 = .ok () ↔ ∀ i, i < n → Finite (f i -ᶠ x)) ∧
    ((Vec.subScalar v x s).1 = .ok () → VecIs (Vec.subScalar v x s).2 n (fun i => f i -ᶠ x)) ∧
    (Vec.subScalarInPlace x v).1 = (Vec.subScalar v x s).1 ∧
    ((Vec.subScalarInPlace x v).1 = .ok () →
      VecIs (Vec.subScalarInPlace x v).2 n (fun i => f i -ᶠ x)) ∧
    (∀ r, v.subScalarNew x = .ok r → VecIs r n (fun i => f i -ᶠ x)) ∧
    (∀ e, v.subScalarNew x = .error e ↔ (Vec.subScalar v x s).1 = .error e) :=
  have h := VecElem.subScalar v f x hs hv
  have h' := VecElem.subScalarInPlace (s := v) x hv
  have h'' := VecElemNew.subScalarNew v f x hv
  ⟨(C08_vec h).1, (C08_vec h).2, C08_agree h' h, (C08_vec h').2, (C08_new h'').2, C08_agree_new h h''⟩

/-- C10: `mul_by_scalar`, `mul_by_scalar_in_place` and `mul_by_scalar_new` on a vector. -/
theorem C10_mul_by_scalar_vec {s v : Vec F} {n : Nat} {f0 f : Nat → F} (x : F) (hs : VecIs s n f0)
    (hv : VecIs v n f) :
    ((Vec.mulByScalar v x s).1 = .ok () ↔ ∀ i, i < n → Finite (f i *ᶠ x)) ∧
    ((Vec.mulByScalar v x s).1 = .ok () → VecIs (Vec.mulByScalar v x s).2 n (fun i => f i *ᶠ x)) ∧
    (Vec.mulByScalarInPlace x v).1 = (Vec.mulByScalar v x s).1 ∧
    ((Vec.mulByScalarInPlace x v).1 = .ok () →
      VecIs (Vec.mulByScalarInPlace x v).2 n (fun i => f i *ᶠ x)) ∧
    (∀ r, v.mulByScalarNew x = .ok r → VecIs r n (fun i => f i *ᶠ x)) ∧
    (∀ e, v.mulByScalarNew x = .error e ↔ (Vec.mulByScalar v x s).1 = .error e) :=
  have h := VecElem.mulByScalar v f x hs hv
  have h' := VecElem.mulByScalarInPlace (s := v) x hv
  have h'' := VecElemNew.mulByScalarNew v f x hv
  ⟨(C08_vec h).1, (C08_vec h).2, C08_agree h' h, (C08_vec h').2, (C08_new h'').2, C08_agree_new h h''⟩

/-- C10: `add_scalar`, `add_scalar_in_place` and `add_scalar_new` on a matrix. -/
theorem C10_add_scalar_mat {s v : Mat F} {r c : Nat} {f0 f : Nat → Nat → F} (x : F) (hs : MatIs s r c f0)
    (hv : MatIs v r c f) :
    ((Mat.addScalar v x s).1 = .ok () ↔ ∀ i j, i < r → j < c → Finite (f i j +ᶠ x)) ∧
    ((Mat.addScalar v x s).1 = .ok () → MatIs (Mat.addScalar v x s).2 r c (fun i j => f i j +ᶠ x)) ∧
    (Mat.addScalarInPlace x v).1 = (Mat.addScalar v x s).1 ∧
    ((Mat.addScalarInPlace x v).1 = .ok () →
      MatIs (Mat.addScalarInPlace x v).2 r c (fun i j => f i j +ᶠ x)) ∧
    (∀ a, v.addScalarNew x = .ok a → MatIs a r c (fun i j => f i j +ᶠ x)) ∧
    (∀ e, v.addScalarNew x = .error e ↔ (Mat.addScalar v x s).1 = .error e) :=
  have h := MatElem.addScalar v f x hs hv
  have h' := MatElem.addScalarInPlace (s := v) x hv
  have h'' := MatElemNew.addScalarNew v f x hv
  ⟨(C09_mat h).1, (C09_mat h).2, C09_agree h' h, (C09_mat h').2, (C09_new h'').2, C09_agree_new h h''⟩

/-- C10: `sub_scalar`, `sub_scalar_in_place` and `sub_scalar_new` on a matrix. -/
theorem C10_sub_scalar_mat {s v : Mat F} {r c : Nat} {f0 f : Nat → Nat → F} (x : F) (hs : MatIs s r c f0)
    (hv : MatIs v r c f) :
    ((Mat.subScalar v x s).1 = .ok () ↔ ∀ i j, i < r → j < c → Finite (f i j -ᶠ x)) ∧
    ((Mat.subScalar v x s).1 = .ok () → MatIs (Mat.subScalar v x s).2 r c (fun i j => f i j -ᶠ x)) ∧
    (Mat.subScalarInPlace x v).1 = (Mat.subScalar v x s).1 ∧
    ((Mat.subScalarInPlace x v).1 = .ok () →
      MatIs (Mat.subScalarInPlace x v).2 r c (fun i j => f i j -ᶠ x)) ∧
    (∀ a, v.subScalarNew x = .ok a → MatIs a r c (fun i j => f i j -ᶠ x)) ∧
    (∀ e, v.subScalarNew x = .error e ↔ (Mat.subScalar v x s).1 = .error e) :=
  have h := MatElem.subScalar v f x hs hv
  have h' := MatElem.subScalarInPlace (s := v) x hv
  have h'' := MatElemNew.subScalarNew v f x hv
  ⟨(C09_mat h).1, (C09_mat h).2, C09_agree h' h, (C09_mat h').2, (C09_new h'').2, C09_agree_new h h''⟩

/-- C10: `mul_by_scalar_in_place` on a matrix, which has no other variant. -/
theorem C10_mul_by_scalar_mat {v : Mat F} {r c : Nat} {f : Nat → Nat → F} (x : F) (hv : MatIs v r c f) :
    ((Mat.mulByScalarInPlace x v).1 = .ok () ↔ ∀ i j, i < r → j < c → Finite (f i j *ᶠ x)) ∧
    ((Mat.mulByScalarInPlace x v).1 = .ok () →
      MatIs (Mat.mulByScalarInPlace x v).2 r c (fun i j => f i j *ᶠ x)) :=
  C09_mat (.mulByScalarInPlace x hv)

/-- C10: `power_elements` on a vector and on a matrix. -/
theorem C10_power {v : Vec F} {m : Mat F} {n r c : Nat} {f : Nat → F} {g : Nat → Nat → F} (x : F)
    (hv : VecIs v n f) (hm : MatIs m r c g) :
    ((Vec.powerElements x v).1 = .ok () ↔ ∀ i, i < n → Finite (Scalar.pow (f i) x)) ∧
    ((Vec.powerElements x v).1 = .ok () →
      VecIs (Vec.powerElements x v).2 n (fun i => Scalar.pow (f i) x)) ∧
    ((Mat.powerElements x m).1 = .ok () ↔ ∀ i j, i < r → j < c → Finite (Scalar.pow (g i j) x)) ∧
    ((Mat.powerElements x m).1 = .ok () →
      MatIs (Mat.powerElements x m).2 r c (fun i j => Scalar.pow (g i j) x)) :=
  ⟨(C08_vec (.powerElements x hv)).1, (C08_vec (.powerElements x hv)).2,
    (C09_mat (.powerElements x hm)).1, (C09_mat (.powerElements x hm)).2⟩

/-! ### C12 -/

/-- The first cells of a matrix, in row-major order, overwritten. -/
theorem MatIs.overwrite_before {s : Mat F} {r c : Nat} {f0 : Nat → Nat → F} (hs : MatIs s r c f0)
    (g : Nat → Nat → F) {i j : Nat} (hj : j < c) :
    MatIs (s.overwrite (i * c + j) g) r c
      (fun p q => if p < i ∨ p = i ∧ q < j then g p q else f0 p q) := by
  have ht := matIs_iff.mp hs
  rw [matIs_iff]
  refine ⟨ht.1, ht.2.1, ht.2.2.1, ht.2.2.2.1, ht.2.2.2.2.1, ht.2.2.2.2.2.1, ht.2.2.2.2.2.2.1,
    fun p q h16 hp hq => ?_⟩
  have hc := hs.cols_eq
  simp only [Mat.overwrite, hc]
  have : p * c + q < i * c + j ↔ p < i ∨ p = i ∧ q < j := by
    constructor
    · intro h
      rcases Nat.lt_trichotomy p i with h1 | h1 | h1
      · exact Or.inl h1
      · subst h1; exact Or.inr ⟨rfl, by omega⟩
      · have : (i + 1) * c ≤ p * c := Nat.mul_le_mul_right _ h1
        rw [Nat.add_mul] at this
        omega
    · rintro (h1 | ⟨rfl, h1⟩)
      · have : (p + 1) * c ≤ i * c := Nat.mul_le_mul_right _ h1
        rw [Nat.add_mul] at this
        omega
      · omega
  by_cases hlt : p * c + q < i * c + j
  · rw [if_pos hlt, if_pos (this.mp hlt), MatIs.div_eq hq, MatIs.mod_eq hq]
  · rw [if_neg hlt, if_neg (fun h => hlt (this.mpr h))]
    exact ht.2.2.2.2.2.2.2 p q h16 hp hq

/-- C12: a product that fails at the term `l` of the cell `(i, j)` has written the cells before it, has
left the last finite partial sum in this cell (nothing if `l = 0`), and has not touched the others. -/
theorem C12_fail_state {a b s : Mat F} {r k c : Nat} {f g f0 : Nat → Nat → F} (ha : MatIs a r k f)
    (hb : MatIs b k c g) (hs : MatIs s r c f0) {i j l : Nat} (hi : i < r) (hj : j < c) (hl : l < k)
    (hf : ∀ i' j' l', i' < r → j' < c → l' < k →
      (i' < i ∨ i' = i ∧ (j' < j ∨ j' = j ∧ l' < l)) →
      Finite (sumUp (l' + 1) fun t => f i' t *ᶠ g t j'))
    (hbad : ¬ Finite (sumUp (l + 1) fun t => f i t *ᶠ g t j)) :
    MatIs (Mat.mul a b s).2 r c (fun p q =>
      if p < i ∨ p = i ∧ q < j then sumUp k fun t => f p t *ᶠ g t q
      else if p = i ∧ q = j ∧ 0 < l then sumUp l fun t => f i t *ᶠ g t j else f0 p q) := by
  have e := Mat.mul_err ha hb hs hi hj hl hf hbad
  have ho := hs.overwrite_before (fun i j => sumUp k fun t => f i t *ᶠ g t j) (i := i) hj
  rw [e]
  dsimp only
  split
  · next h0 =>
    subst h0
    exact ho.congr fun p q _ _ => by simp
  · next h0 =>
    have hp := ho.put i j hj (sumUp l fun t => f i t *ᶠ g t j)
    refine hp.congr fun p q hp hq => ?_
    by_cases h1 : p = i ∧ q = j
    · obtain ⟨rfl, rfl⟩ := h1
      simp [Nat.pos_of_ne_zero h0]
    · simp [h1, show ¬ (p = i ∧ q = j ∧ 0 < l) from fun h => h1 ⟨h.1, h.2.1⟩]

/-! ### C17: the contents after a failed insertion -/

/-- C17: after a failed `add_row` the rows from `k` on are shifted, the row `k` is still what it was (twice
in the matrix), and beyond the end the new row shows what the buffer held before. -/
theorem C17_row_contents {s : Mat F} {v : Vec F} {r c n k : Nat} {f : Nat → Nat → F} {x : Nat → F}
    (hs : MatIs s r c f) (hv : VecIs v n x) (h4 : r < 4) (h255 : k < 255)
    (hf : ∀ i j, i < r → j < c → Finite (f i j)) (hx : ∀ j, j < n → Finite (x j))
    (hbad : n ≠ c ∨ r < k) :
    ∃ old : Nat → F, (∀ q (h : r * c + q < 16), q < c → old q = s.elements ⟨r * c + q, h⟩) ∧
      MatIs (Mat.addRow v k s).2 (r + 1) c (fun p q =>
        if k < p then f (p - 1) q else if p < r then f p q else old q) := by
  obtain ⟨f', hg, hff⟩ := Mat.grownRows_is hs (show r + 1 ≤ 4 by omega)
  refine ⟨f' r, fun q h hq => (hg.elem h (by omega) hq).symm, ?_⟩
  unfold Mat.addRow
  have hval : isValidRowsNumber (r + 1) = .ok () := isValidRowsNumber_ok_iff.mpr ⟨by omega, by omega⟩
  have hu : u8Add (ε := LinalgError) F s.rows 1 = .ok (r + 1) := by
    rw [hs.rows_eq]; exact u8Add_ok (by omega)
  have hu2 : u8Add (ε := LinalgError) F k 1 = .ok (k + 1) := u8Add_ok (by omega)
  simp only [Op.get_bind, hu, Op.liftOk_bind, hval]
  rw [Op.bind_ok (Mat.setRows_ok hs (by omega))]
  simp only [hu2, Op.liftOk_bind, Op.get_bind]
  have hshift : ∃ t, forRangeRev (k + 1) (r + 1) (fun m =>
        forRange 0 s.cols fun col => do
          let self ← Op.get
          let m' ← (u8Sub F m 1 : Res LinalgError Nat)
          Mat.setElement m col (← self.getElement m' col) : Nat → Op LinalgError (Mat F) Unit)
        { s with rows := r + 1 } = (.ok (), t) ∧ MatIs t (r + 1) c (fun p q =>
          if k < p then f (p - 1) q else if p < r then f p q else f' r q) := by
    by_cases hk : k < r + 1
    · obtain ⟨t, h1, h2⟩ := Mat.shiftDown_ok hg hk fun i j hi hj => by
        rw [hff i j (by omega) hj]; exact hf i j (by omega) hj
      rw [← hs.cols_eq] at h1
      refine ⟨t, h1, h2.congr fun p q hp hq => ?_⟩
      by_cases hkp : k < p
      · simp only [hkp, if_true]; exact hff _ _ (by omega) hq
      · simp only [hkp, if_false]
        split
        · exact hff _ _ (by assumption) hq
        · rw [show p = r by omega]
    · rw [forRangeRev_empty _ _ _ (by omega)]
      refine ⟨_, rfl, hg.congr fun p q hp hq => ?_⟩
      rw [if_neg (by omega)]
      split
      · exact hff _ _ (by assumption) hq
      · rw [show p = r by omega]
  obtain ⟨t, h1, h2⟩ := hshift
  rw [Op.bind_ok h1]
  have h3 := C14_set_row (i := k) h2 hv hx
  by_cases hn : n ≠ c
  · rw [h3.1 hn]; exact h2
  · rw [h3.2.1 (by simpa using hn) (by have := hbad.resolve_left hn; omega)]; exact h2

/-- C17: after a failed `add_col` the columns from `k` on are shifted and the column `k` is still what it was
(zero beyond the end). -/
theorem C17_col_contents {s : Mat F} [ScalarLawful F] {v : Vec F} {r c n k : Nat} {f : Nat → Nat → F}
    {x : Nat → F}
    (hs : MatIs s r c f) (hv : VecIs v n x) (h4 : c < 4) (h255 : k < 255)
    (hf : ∀ i j, i < r → j < c → Finite (f i j)) (hx : ∀ j, j < n → Finite (x j))
    (hbad : n ≠ r ∨ c < k) :
    MatIs (Mat.addCol v k s).2 r (c + 1) (fun p q =>
      if k < q then f p (q - 1) else if q < c then f p q else lit 0) := by
  obtain ⟨s1, hset, hg⟩ := Mat.setCols_ok hs (show c + 1 ≤ 4 by omega)
  unfold Mat.addCol
  have hval : isValidColsNumber (c + 1) = .ok () := isValidColsNumber_ok_iff.mpr ⟨by omega, by omega⟩
  have hu : u8Add (ε := LinalgError) F s.cols 1 = .ok (c + 1) := by
    rw [hs.cols_eq]; exact u8Add_ok (by omega)
  have hu2 : u8Add (ε := LinalgError) F k 1 = .ok (k + 1) := u8Add_ok (by omega)
  simp only [Op.get_bind, hu, Op.liftOk_bind, hval]
  rw [Op.bind_ok hset]
  simp only [hu2, Op.liftOk_bind, Op.get_bind]
  have hshift : ∃ t, forRangeRev (k + 1) (c + 1) (fun m =>
        forRange 0 s1.rows fun row => do
          let self ← Op.get
          let m' ← (u8Sub F m 1 : Res LinalgError Nat)
          Mat.setElement row m (← self.getElement row m') : Nat → Op LinalgError (Mat F) Unit)
        s1 = (.ok (), t) ∧ MatIs t r (c + 1) (fun p q =>
          if k < q then f p (q - 1) else if q < c then f p q else lit 0) := by
    by_cases hk : k < c + 1
    · obtain ⟨t, h1, h2⟩ := Mat.shiftRight_ok hg hk fun i j hi hj => by
        split
        · exact hf i j hi (by omega)
        · exact ScalarLawful.zero_finite
      rw [hg.rows_eq]
      refine ⟨t, h1, h2.congr fun p q hp hq => ?_⟩
      by_cases hkq : k < q
      · simp only [hkq, if_true]; rw [if_pos (by omega)]
      · simp only [hkq, if_false]
    · rw [forRangeRev_empty _ _ _ (by omega)]
      exact ⟨_, rfl, hg.congr fun p q hp hq => by rw [if_neg (show ¬ k < q by omega)]⟩
  obtain ⟨t, h1, h2⟩ := hshift
  rw [Op.bind_ok h1]
  have h3 := C14_set_col (j := k) h2 hv hx
  by_cases hn : n ≠ r
  · rw [h3.1 hn]; exact h2
  · rw [h3.2.1 (by simpa using hn) (by have := hbad.resolve_left hn; omega)]; exact h2

/-! ### Concrete cases: `(5, 7)` and the 2 × 3 matrix `(1, 2, 3; 4, 5, 6)` -/

example : (Vec.addInPlace exVec exVec).1 = (Vec.add exVec exVec exVec).1 ∧
    (Vec.add exVec exVec exVec).2.getElement 1 = .ok (.fin 14) :=
  ⟨(C08_add exVec_is exVec_is exVec_is).2.2.1, by decide +kernel⟩
example : (∀ e, exVec.subNew exVec = .error e ↔ (Vec.sub exVec exVec exVec).1 = .error e) ∧
    (Vec.sub exVec exVec exVec).2.getElement 1 = .ok (.fin 0) :=
  ⟨(C08_sub exVec_is exVec_is exVec_is).2.2.2.2.2, by decide +kernel⟩
example : (Mat.addInPlace exMat exMat).1 = (Mat.add exMat exMat exMat).1 ∧
    (Mat.add exMat exMat exMat).2.getElement 1 2 = .ok (.fin 12) :=
  ⟨(C09_add exMat_is exMat_is exMat_is).2.2.1, by decide +kernel⟩
example : (Mat.subScalarInPlace (.fin 2) exMat).1 = (Mat.subScalar exMat (.fin 2) exMat).1 ∧
    (Mat.subScalar exMat (.fin 2) exMat).2.getElement 1 2 = .ok (.fin 4) :=
  ⟨(C10_sub_scalar_mat _ exMat_is exMat_is).2.2.1, by decide +kernel⟩
example : (Vec.mulByScalarInPlace (.fin 2) exVec).1 = (Vec.mulByScalar exVec (.fin 2) exVec).1 ∧
    (Vec.mulByScalar exVec (.fin 2) exVec).2.getElement 0 = .ok (.fin 10) :=
  ⟨(C10_mul_by_scalar_vec _ exVec_is exVec_is).2.2.1, by decide +kernel⟩
/-- `x - ∞` is refused by all three variants. -/
example : (Vec.subScalar exVec Ext.pinf exVec).1 = .error (.err (.UtilsError .Inf)) ∧
    exVec.subScalarNew Ext.pinf = .error (.err (.UtilsError .Inf)) :=
  ⟨by decide +kernel, ((C10_sub_scalar_vec _ exVec_is exVec_is).2.2.2.2.2 _).2 (by decide +kernel)⟩

/-- `(5, 7)` inserted as a row of `(1, 2, 3; 4, 5, 6)`: refused, and the first row is doubled. -/
example : (Mat.addRow exVec 0 exMat).1 = .error (.err .InvalidSize) ∧
    (Mat.addRow exVec 0 exMat).2.getElement 0 2 = .ok (.fin 3) ∧
    (Mat.addRow exVec 0 exMat).2.getElement 1 2 = .ok (.fin 3) ∧
    (Mat.addRow exVec 0 exMat).2.getElement 2 2 = .ok (.fin 6) := by
  obtain ⟨old, -, h⟩ := C17_row_contents exMat_is exVec_is (k := 0) (by omega) (by omega)
    (fun i j _ _ => Ext.finite_fin _) (fun j _ => by split <;> exact Ext.finite_fin _) (Or.inl (by omega))
  refine ⟨by decide +kernel, ?_, ?_, ?_⟩
  · rw [h.get 0 2 (by omega) (by omega)]; norm_num
  · rw [h.get 1 2 (by omega) (by omega)]; norm_num
  · rw [h.get 2 2 (by omega) (by omega)]; norm_num
/-- The same vector inserted as a column too far right: a column of zeros appears. -/
example : (Mat.addCol exVec 9 exMat).1 = .error (.err .InvalidCol) ∧
    (Mat.addCol exVec 9 exMat).2.getElement 1 2 = .ok (.fin 6) ∧
    (Mat.addCol exVec 9 exMat).2.getElement 1 3 = .ok (.fin 0) := by
  have h := C17_col_contents exMat_is exVec_is (k := 9) (by omega) (by omega)
    (fun i j _ _ => Ext.finite_fin _) (fun j _ => by split <;> exact Ext.finite_fin _) (Or.inr (by omega))
  refine ⟨by decide +kernel, ?_, ?_⟩
  · rw [h.get 1 2 (by omega) (by omega)]; decide +kernel
  · rw [h.get 1 3 (by omega) (by omega)]; decide +kernel

/-- `(1, 10³⁰; 1, 10³⁰)` times itself in binary32: the second term of the cell `(0, 1)` overflows. The cell
before it is written, it keeps its first partial sum `10³⁰`, and the next row still holds what was there. -/
def bigEntry (_ j : Nat) : F32 := lit (if j = 0 then 1 else 10 ^ 30)
def bigMat : Mat F32 := Mat.of 2 2 bigEntry
theorem bigMat_is : MatIs bigMat 2 2 bigEntry := Mat.of_is _ (by omega) (by omega) (by omega) (by omega)

example : (Mat.mul bigMat bigMat (Mat.zeros 2 2)).1 = .error (.err (.UtilsError .Inf)) ∧
    (Mat.mul bigMat bigMat (Mat.zeros 2 2)).2.getElement 0 0 = .ok (lit (10 ^ 30)) ∧
    (Mat.mul bigMat bigMat (Mat.zeros 2 2)).2.getElement 0 1 = .ok (lit (10 ^ 30)) ∧
    (Mat.mul bigMat bigMat (Mat.zeros 2 2)).2.getElement 1 0 = .ok (lit 0) := by
  have hz : MatIs (Mat.zeros 2 2 : Mat F32) 2 2 _ := Mat.zeros_is (by omega) (by omega) (by omega) (by omega)
  have hf : ∀ i' j' l', i' < 2 → j' < 2 → l' < 2 → (i' < 0 ∨ i' = 0 ∧ (j' < 1 ∨ j' = 1 ∧ l' < 1)) →
      Finite (sumUp (l' + 1) fun t => bigEntry i' t *ᶠ bigEntry t j') := by
    intro i j l hi hj hl h
    obtain rfl : i = 0 := by omega
    obtain ⟨rfl, rfl⟩ | ⟨rfl, rfl⟩ | ⟨rfl, rfl⟩ : j = 0 ∧ l = 0 ∨ j = 0 ∧ l = 1 ∨ j = 1 ∧ l = 0 := by omega
    all_goals decide +kernel
  have hb : ¬ Finite (sumUp (1 + 1) fun t => bigEntry 0 t *ᶠ bigEntry t 1) := by decide +kernel
  have h := C12_fail_state bigMat_is bigMat_is hz (i := 0) (j := 1) (l := 1) (by omega) (by omega) (by omega) hf hb
  refine ⟨by decide +kernel, ?_, ?_, ?_⟩
  · rw [h.get 0 0 (by omega) (by omega)]; decide +kernel
  · rw [h.get 0 1 (by omega) (by omega)]; decide +kernel
  · rw [h.get 1 0 (by omega) (by omega)]; decide +kernel

end Verif
