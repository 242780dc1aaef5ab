import Verif.Lib.MatOps

/-
What the operations that move elements around compute, in terms of `MatIs` and `VecIs`.
-/

set_option linter.unusedSectionVars false
set_option linter.unusedSimpArgs false

namespace Verif
open Scalar

variable {F : Type} [Scalar F]

namespace Mat

variable {s a b : Mat F} {r c n : Nat} {f f0 g : Nat → Nat → F} {v : Vec F} {x : Nat → F}

/-! ### Transposition -/

/-- The inner loop of the in-place transposition. -/
theorem transposeInner {i : Nat} (hs : MatIs s n n (fun p q => if min p q < i then f q p else f p q))
    (hf : ∀ p q, p < n → q < n → Finite (f p q)) (hi : i < n) :
    ∃ s', forRange (i + 1) n (fun col => do
        let self ← Op.get
        let tempElement ← self.getElement i col
        setElement i col (← self.getElement col i)
        setElement col i tempElement : Nat → Op LinalgError (Mat F) Unit) s = (.ok (), s') ∧
      MatIs s' n n (fun p q => if min p q < i + 1 then f q p else f p q) := by
  obtain ⟨s', h1, h2⟩ := forRange_inv (ε := LinalgError) (fun col => do
        let self ← Op.get
        let tempElement ← self.getElement i col
        setElement i col (← self.getElement col i)
        setElement col i tempElement)
    (fun j t => MatIs t n n (fun p q => if min p q < i ∨ (min p q = i ∧ max p q < j)
      then f q p else f p q)) (i + 1) n (by omega) s
    (hs.congr fun p q hp hq => by
      by_cases h : min p q < i
      · simp [h]
      · by_cases h' : min p q = i ∧ max p q < i + 1
        · have : p = q := by omega
          subst this; simp
        · simp only [h, h', or_self, if_false])
    (fun j t hj hjn ht => by
      have g1 := ht.get i j hi hjn
      have g2 := ht.get j i hjn hi
      rw [if_neg (by omega)] at g1 g2
      have step1 := ht.set_ok hi hjn (hf j i hjn hi)
      have ht1 := ht.put i j hjn (f j i)
      have step2 := ht1.set_ok hjn hi (hf i j hi hjn)
      have ht2 := ht1.put j i hi (f i j)
      refine ⟨_, ?_, ht2.congr fun p q hp hq => ?_⟩
      · simp only [Op.get_bind, g1, g2, Op.liftOk_bind]
        rw [Op.bind_ok step1, step2]
      · by_cases e1 : p = j ∧ q = i
        · obtain ⟨rfl, rfl⟩ := e1
          rw [if_pos ⟨rfl, rfl⟩, if_pos (by omega)]
        · by_cases e2 : p = i ∧ q = j
          · obtain ⟨rfl, rfl⟩ := e2
            rw [if_neg e1, if_pos ⟨rfl, rfl⟩, if_pos (by omega)]
          · rw [if_neg e1, if_neg e2]
            by_cases e3 : min p q < i ∨ (min p q = i ∧ max p q < j)
            · rw [if_pos e3, if_pos (by omega)]
            · rw [if_neg e3, if_neg]
              rintro (h | ⟨h, h'⟩)
              · exact e3 (Or.inl h)
              · have : max p q = j := by omega
                rcases Nat.le_total p q with hpq | hpq
                · exact e2 ⟨by omega, by omega⟩
                · exact e1 ⟨by omega, by omega⟩)
  refine ⟨s', h1, h2.congr fun p q hp hq => ?_⟩
  by_cases h : min p q < i + 1
  · rw [if_pos h, if_pos (by omega)]
  · rw [if_neg h, if_neg (by omega)]

theorem transpose_ok (hs : MatIs s r c f) (hf : ∀ i j, i < r → j < c → Finite (f i j)) :
    ∃ s', transpose s = (.ok (), s') ∧ MatIs s' c r (fun i j => f j i) := by
  unfold transpose
  by_cases hrc : r = c
  · subst hrc
    simp only [Op.get_bind, hs.init, isSquare_eq hs, Op.liftOk_bind, decide_true, Bool.not_true,
      Bool.false_eq_true, if_false, if_true]
    rw [hs.rows_eq, hs.cols_eq]
    obtain ⟨s', h1, h2⟩ := forRange_inv (ε := LinalgError) (fun row =>
        forRange (row + 1) r fun col => do
          let self ← Op.get
          let tempElement ← self.getElement row col
          setElement row col (← self.getElement col row)
          setElement col row tempElement)
      (fun i t => MatIs t r r (fun p q => if min p q < i then f q p else f p q)) 0 r (by omega) s
      (hs.congr fun p q _ _ => by simp) (fun i t _ hi ht => transposeInner ht hf hi)
    exact ⟨s', h1, h2.congr fun p q hp hq => by rw [if_pos (by omega)]⟩
  · simp only [Op.get_bind, hs.init, isSquare_eq hs, Op.liftOk_bind, decide_eq_false hrc,
      Bool.not_true, Bool.false_eq_true, if_false]
    rw [hs.rows_eq, hs.cols_eq, init_new hs.cpos hs.cle hs.rpos hs.rle]
    simp only [Op.liftOk_bind]
    have hz : MatIs (zeros c r : Mat F) c r (fun _ _ => lit 0) := zeros_is hs.cpos hs.cle hs.rpos hs.rle
    obtain ⟨t, h1, h2⟩ := forRange_inv (ε := LinalgError) (fun row => forRange 0 c fun col => do
          setElement col row (← s.getElement row col))
      (fun i t => MatIs t c r (fun p q => if q < i then f q p else lit 0)) 0 r (by omega) (zeros c r)
      (hz.congr fun p q _ _ => by simp) (fun i t _ hi ht => by
        obtain ⟨t', h1, h2⟩ := forRange_inv (ε := LinalgError) (fun col => do
            setElement col i (← s.getElement i col))
          (fun j t => MatIs t c r (fun p q => if q < i ∨ (q = i ∧ p < j) then f q p else lit 0))
          0 c (by omega) t (ht.congr fun p q _ _ => by simp) (fun j t _ hj ht => by
            refine ⟨_, ?_, (ht.put j i hi (f i j)).congr fun p q hp hq => ?_⟩
            · simp only [hs.get i j hi hj, Op.liftOk_bind, ht.set_ok hj hi (hf i j hi hj)]
            · by_cases e : p = j ∧ q = i
              · obtain ⟨rfl, rfl⟩ := e
                rw [if_pos ⟨rfl, rfl⟩, if_pos (by omega)]
              · rw [if_neg e]
                by_cases e3 : q < i ∨ (q = i ∧ p < j)
                · rw [if_pos e3, if_pos (by omega)]
                · rw [if_neg e3, if_neg (by omega)])
        refine ⟨t', h1, h2.congr fun p q hp hq => ?_⟩
        by_cases h : q < i + 1
        · rw [if_pos h, if_pos (by omega)]
        · rw [if_neg h, if_neg (by omega)])
    rw [exec_ok h1]
    simp only [Op.liftOk_bind, Op.modify_bind]
    have hs' : ∃ f', MatIs ({ s with rows := c, cols := r } : Mat F) c r f' := by
      refine ⟨fun i j => if h : i * r + j < 16 then s.elements ⟨i * r + j, h⟩ else lit 0, ?_⟩
      rw [matIs_iff]
      refine ⟨hs.cpos, hs.cle, hs.rpos, hs.rle, hs.init, rfl, rfl, fun i j h16 _ _ => ?_⟩
      simp [h16]
    obtain ⟨f', hs'⟩ := hs'
    obtain ⟨s', h3, h4⟩ := run_of_stores (copyFrom_stores hs' h2) hs' (fun i j hi hj => by
      rw [if_pos hj]; exact hf j i hj hi)
    refine ⟨s', ?_, h4.congr fun p q hp hq => by rw [if_pos hq]⟩
    rw [← h3]

theorem transposeNew_ok (hs : MatIs s r c f) (hf : ∀ i j, i < r → j < c → Finite (f i j)) :
    ∃ t, s.transposeNew = .ok t ∧ MatIs t c r (fun i j => f j i) := by
  unfold transposeNew
  obtain ⟨d, h1, h2⟩ := duplicate_ok hs hf
  obtain ⟨t, h3, h4⟩ := transpose_ok h2 hf
  exact ⟨t, by rw [h1, Res.ok_bind, exec_ok h3], h4⟩

theorem exec_transpose (hs : MatIs s r c f) (hf : ∀ i j, i < r → j < c → Finite (f i j)) :
    ∃ t, exec s transpose = .ok t ∧ MatIs t c r (fun i j => f j i) := by
  obtain ⟨t, h3, h4⟩ := transpose_ok hs hf
  exact ⟨t, exec_ok h3, h4⟩

/-! ### Rows and columns -/

theorem setRow_ok {i : Nat} (hs : MatIs s r c f) (hv : VecIs v c x) (hi : i < r)
    (hx : ∀ j, j < c → Finite (x j)) :
    ∃ s', setRow v i s = (.ok (), s') ∧
      MatIs s' r c (fun p q => if p = i then x q else f p q) := by
  unfold setRow
  simp only [Op.get_bind, hv.rows, hs.cols_eq, Op.liftOk_bind, ne_eq, not_true, if_false]
  obtain ⟨s', h1, h2⟩ := forRange_inv (ε := LinalgError) (fun col => do
      setElement i col (← v.getElement col))
    (fun j t => MatIs t r c (fun p q => if p = i ∧ q < j then x q else f p q)) 0 c (by omega) s
    (hs.congr fun p q _ _ => by simp) (fun j t _ hj ht => by
      refine ⟨_, ?_, (ht.put i j hj (x j)).congr fun p q hp hq => ?_⟩
      · simp only [hv.get j hj, Op.liftOk_bind, ht.set_ok hi hj (hx j hj)]
      · by_cases e : p = i ∧ q = j
        · obtain ⟨rfl, rfl⟩ := e
          simp
        · rw [if_neg e]
          by_cases e3 : p = i ∧ q < j
          · rw [if_pos e3, if_pos (by omega)]
          · rw [if_neg e3, if_neg (by omega)])
  exact ⟨s', h1, h2.congr fun p q hp hq => by simp [hq]⟩

theorem setCol_ok {j : Nat} (hs : MatIs s r c f) (hv : VecIs v r x) (hj : j < c)
    (hx : ∀ i, i < r → Finite (x i)) :
    ∃ s', setCol v j s = (.ok (), s') ∧
      MatIs s' r c (fun p q => if q = j then x p else f p q) := by
  unfold setCol
  simp only [Op.get_bind, hv.rows, hs.rows_eq, Op.liftOk_bind, ne_eq, not_true, if_false]
  obtain ⟨s', h1, h2⟩ := forRange_inv (ε := LinalgError) (fun row => do
      setElement row j (← v.getElement row))
    (fun i t => MatIs t r c (fun p q => if q = j ∧ p < i then x p else f p q)) 0 r (by omega) s
    (hs.congr fun p q _ _ => by simp) (fun i t _ hi ht => by
      refine ⟨_, ?_, (ht.put i j hj (x i)).congr fun p q hp hq => ?_⟩
      · simp only [hv.get i hi, Op.liftOk_bind, ht.set_ok hi hj (hx i hi)]
      · by_cases e : p = i ∧ q = j
        · obtain ⟨rfl, rfl⟩ := e
          simp
        · rw [if_neg e]
          by_cases e3 : q = j ∧ p < i
          · rw [if_pos e3, if_pos (by omega)]
          · rw [if_neg e3, if_neg (by omega)])
  exact ⟨s', h1, h2.congr fun p q hp hq => by simp [hp]⟩

theorem getRow_stores {i : Nat} (ha : MatIs a r c f) (hv : VecIs v c x) (hi : i < r) :
    v.Stores c (fun j => f i j) (a.getRow i v) := by
  unfold getRow
  simp only [Op.get_bind, hv.rows, ha.cols_eq, Op.liftOk_bind, ne_eq, not_true, if_false]
  exact Vec.stores_of_loop hv.init hv.rows_eq.ge hv.le fun k hk => by simp [ha.get i k hi hk]

theorem getCol_stores {j : Nat} (ha : MatIs a r c f) (hv : VecIs v r x) (hj : j < c) :
    v.Stores r (fun i => f i j) (a.getCol j v) := by
  unfold getCol
  simp only [Op.get_bind, hv.rows, ha.rows_eq, Op.liftOk_bind, ne_eq, not_true, if_false]
  exact Vec.stores_of_loop hv.init hv.rows_eq.ge hv.le fun k hk => by simp [ha.get k j hk hj]

theorem rowToVector_ok {i : Nat} (ha : MatIs a r c f) (hi : i < r)
    (hf : ∀ j, j < c → Finite (f i j)) :
    ∃ v, a.rowToVector i = .ok v ∧ VecIs v c (fun j => f i j) := by
  unfold rowToVector
  rw [ha.cols_eq, Vec.init_new ha.cpos ha.cle, Res.ok_bind]
  have hz := Vec.zeros_is (F := F) ha.cpos ha.cle
  exact Vec.exec_of_stores (getRow_stores ha hz hi) hz hf

theorem colToVector_ok {j : Nat} (ha : MatIs a r c f) (hj : j < c)
    (hf : ∀ i, i < r → Finite (f i j)) :
    ∃ v, a.colToVector j = .ok v ∧ VecIs v r (fun i => f i j) := by
  unfold colToVector
  rw [ha.rows_eq, Vec.init_new ha.rpos ha.rle, Res.ok_bind]
  have hz := Vec.zeros_is (F := F) ha.rpos ha.rle
  exact Vec.exec_of_stores (getCol_stores ha hz hj) hz hf

/-! ### Insertion and deletion -/

theorem setRows_ok (hs : MatIs s r c f) (h4 : r + 1 ≤ 4) :
    setRows (r + 1) s = (.ok (), { s with rows := r + 1 }) := by
  unfold setRows
  have : isValidRowsNumber (r + 1) = .ok () := isValidRowsNumber_ok_iff.mpr ⟨by omega, h4⟩
  have h2 : r + 1 ≠ s.rows := by rw [hs.rows_eq]; omega
  simp [hs.init, this, h2]

/-- The matrix with one more row; the new row holds whatever the buffer contained. -/
theorem grownRows_is (hs : MatIs s r c f) (h4 : r + 1 ≤ 4) :
    ∃ f', MatIs ({ s with rows := r + 1 } : Mat F) (r + 1) c f' ∧
      ∀ i j, i < r → j < c → f' i j = f i j := by
  refine ⟨fun i j => if h : i * c + j < 16 then s.elements ⟨i * c + j, h⟩ else lit 0, ?_, ?_⟩
  · rw [matIs_iff]
    refine ⟨by omega, h4, hs.cpos, hs.cle, hs.init, rfl, hs.cols_eq, fun i j h16 _ _ => ?_⟩
    simp [h16]
  · intro i j hi hj
    have h16 := Mat.index_lt hi hj hs.rle hs.cle
    simp only [h16, dite_true, hs.elem h16 hi hj]

theorem shiftDown_ok {t : Mat F} {k : Nat} {f' : Nat → Nat → F} (ht : MatIs t n c f') (hk : k < n)
    (hf : ∀ i j, i < n - 1 → j < c → Finite (f' i j)) :
    ∃ t', forRangeRev (k + 1) n (fun m =>
        forRange 0 c fun col => do
          let self ← Op.get
          let m' ← (u8Sub F m 1 : Res LinalgError Nat)
          setElement m col (← self.getElement m' col) : Nat → Op LinalgError (Mat F) Unit) t =
        (.ok (), t') ∧
      MatIs t' n c (fun p q => if k < p then f' (p - 1) q else f' p q) := by
  obtain ⟨t', h1, h2⟩ := forRangeRev_inv (ε := LinalgError) (fun m =>
        forRange 0 c fun col => do
          let self ← Op.get
          let m' ← (u8Sub F m 1 : Res LinalgError Nat)
          setElement m col (← self.getElement m' col))
    (fun i u => MatIs u n c (fun p q => if i ≤ p then f' (p - 1) q else f' p q)) (k + 1) n (by omega) t
    (ht.congr fun p q hp hq => by rw [if_neg (by omega)]) (fun i u hi1 hi2 hu => by
      obtain ⟨u', h3, h4⟩ := forRange_inv (ε := LinalgError) (fun col => do
          let self ← Op.get
          let m' ← (u8Sub F i 1 : Res LinalgError Nat)
          setElement i col (← self.getElement m' col))
        (fun j u => MatIs u n c (fun p q => if i + 1 ≤ p ∨ (p = i ∧ q < j) then f' (p - 1) q
          else f' p q)) 0 c (by omega) u (hu.congr fun p q _ _ => by simp) (fun j u _ hj hu => by
          have g1 := hu.get (i - 1) j (by omega) hj
          rw [if_neg (by omega)] at g1
          refine ⟨_, ?_, (hu.put i j hj (f' (i - 1) j)).congr fun p q hp hq => ?_⟩
          · simp only [Op.get_bind, u8Sub_ok (show 1 ≤ i by omega), Op.liftOk_bind, g1,
              hu.set_ok hi2 hj (hf (i - 1) j (by omega) hj)]
          · by_cases e : p = i ∧ q = j
            · obtain ⟨rfl, rfl⟩ := e
              rw [if_pos ⟨rfl, rfl⟩, if_pos (by omega)]
            · rw [if_neg e]
              by_cases e3 : i + 1 ≤ p ∨ (p = i ∧ q < j)
              · rw [if_pos e3, if_pos (by omega)]
              · rw [if_neg e3, if_neg (by omega)])
      refine ⟨u', h3, h4.congr fun p q hp hq => ?_⟩
      by_cases e : i ≤ p
      · rw [if_pos e, if_pos (by omega)]
      · rw [if_neg e, if_neg (by omega)])
  exact ⟨t', h1, h2.congr fun p q hp hq => by
    by_cases e : k < p
    · rw [if_pos e, if_pos (by omega)]
    · rw [if_neg e, if_neg (by omega)]⟩

theorem addRow_ok {k : Nat} (hs : MatIs s r c f) (hv : VecIs v c x) (hk : k ≤ r) (h4 : r < 4)
    (hf : ∀ i j, i < r → j < c → Finite (f i j)) (hx : ∀ j, j < c → Finite (x j)) :
    ∃ s', addRow v k s = (.ok (), s') ∧
      MatIs s' (r + 1) c (fun p q => if p < k then f p q else if p = k then x q else f (p - 1) q) := by
  unfold addRow
  have hval : isValidRowsNumber (r + 1) = .ok () := isValidRowsNumber_ok_iff.mpr ⟨by omega, by omega⟩
  simp only [Op.get_bind, hs.rows_eq, u8Add_ok (show r + 1 < 256 by omega), Op.liftOk_bind, hval]
  rw [Op.bind_ok (setRows_ok hs (by omega))]
  simp only [u8Add_ok (show k + 1 < 256 by omega), Op.liftOk_bind, Op.get_bind]
  have hcc := hs.cols_eq
  obtain ⟨f', h1, h2⟩ := grownRows_is hs (by omega)
  obtain ⟨t, h3, h5⟩ := shiftDown_ok h1 (show k < r + 1 by omega) (fun i j hi hj => by
    rw [h2 i j (by omega) hj]; exact hf i j (by omega) hj)
  rw [← hcc] at h3
  rw [Op.bind_ok h3]
  obtain ⟨s', h6, h7⟩ := setRow_ok h5 hv (show k < r + 1 by omega) hx
  refine ⟨s', h6, h7.congr fun p q hp hq => ?_⟩
  by_cases e : p = k
  · simp [e]
  · by_cases e1 : k < p
    · simp only [e, e1, if_false, if_true, if_neg (show ¬ p < k by omega)]
      exact h2 _ _ (by omega) hq
    · simp only [e, e1, if_false, if_pos (show p < k by omega)]
      exact h2 _ _ (by omega) hq

theorem setCols_ok (hs : MatIs s r c f) (h4 : c + 1 ≤ 4) :
    ∃ s', setCols (c + 1) s = (.ok (), s') ∧
      MatIs s' r (c + 1) (fun p q => if q < c then f p q else lit 0) := by
  unfold setCols
  have hval : isValidColsNumber (c + 1) = .ok () := isValidColsNumber_ok_iff.mpr ⟨by omega, h4⟩
  have h2 : c + 1 ≠ s.cols := by rw [hs.cols_eq]; omega
  simp only [Op.get_bind, hs.init, Bool.not_true, Bool.false_eq_true, if_false, h2, hval,
    Op.liftOk_bind]
  rw [hs.rows_eq, hs.cols_eq]
  obtain ⟨el, h3, h5⟩ := foldRange_inv (ε := LinalgError) (fun row (newElements : Fin 16 → F) =>
        foldRange 0 c
          (fun col newElements => do
            arrSet newElements (row * (c + 1) + col) (← arrGet s.elements (row * c + col)))
          newElements)
    (fun i el => ∀ p q (h16 : p * (c + 1) + q < 16), p < r → q < c + 1 →
      el ⟨p * (c + 1) + q, h16⟩ = if p < i ∧ q < c then f p q else lit 0) 0 r (by omega)
    (fun _ => lit 0) (fun p q _ _ _ => by simp) (fun i el _ hi hel => by
      obtain ⟨el', h6, h7⟩ := foldRange_inv (ε := LinalgError) (fun col (newElements : Fin 16 → F) => do
            arrSet newElements (i * (c + 1) + col) (← arrGet s.elements (i * c + col)))
        (fun j el => ∀ p q (h16 : p * (c + 1) + q < 16), p < r → q < c + 1 →
          el ⟨p * (c + 1) + q, h16⟩ = if (p < i ∧ q < c) ∨ (p = i ∧ q < j) then f p q else lit 0)
        0 c (by omega) el (fun p q h16 hp hq => by rw [hel p q h16 hp hq]; simp)
        (fun j el _ hj hel => by
          have h16 : i * c + j < 16 := Mat.index_lt hi hj hs.rle hs.cle
          have h16' : i * (c + 1) + j < 16 := Mat.index_lt hi (by omega) hs.rle h4
          refine ⟨_, by rw [arrGet_ok _ h16, Res.ok_bind, arrSet_ok _ _ h16'], ?_⟩
          intro p q hpq hp hq
          by_cases e : p = i ∧ q = j
          · obtain ⟨rfl, rfl⟩ := e
            simp [hs.elem h16 hi hj]
          · rw [if_neg fun h => e (MatIs.idx_inj hq (by omega) h), hel p q hpq hp hq]
            by_cases e3 : (p < i ∧ q < c) ∨ (p = i ∧ q < j)
            · rw [if_pos e3, if_pos (by omega)]
            · rw [if_neg e3, if_neg (by omega)])
      refine ⟨el', h6, fun p q h16 hp hq => ?_⟩
      rw [h7 p q h16 hp hq]
      by_cases e : p < i + 1 ∧ q < c
      · rw [if_pos e, if_pos (by omega)]
      · rw [if_neg e, if_neg (by omega)])
  rw [Op.liftM_bind_run]
  rw [h3]
  refine ⟨{ s with cols := c + 1, elements := el }, rfl, ?_⟩
  rw [matIs_iff]
  refine ⟨hs.rpos, hs.rle, by omega, h4, hs.init, hs.rows_eq, rfl, fun i j h16 hi hj => ?_⟩
  refine (h5 i j h16 hi hj).trans ?_
  simp [hi]

theorem shiftRight_ok {t : Mat F} {k : Nat} {f' : Nat → Nat → F} (ht : MatIs t r n f') (hk : k < n)
    (hf : ∀ i j, i < r → j < n - 1 → Finite (f' i j)) :
    ∃ t', forRangeRev (k + 1) n (fun m =>
        forRange 0 r fun row => do
          let self ← Op.get
          let m' ← (u8Sub F m 1 : Res LinalgError Nat)
          setElement row m (← self.getElement row m') : Nat → Op LinalgError (Mat F) Unit) t =
        (.ok (), t') ∧
      MatIs t' r n (fun p q => if k < q then f' p (q - 1) else f' p q) := by
  obtain ⟨t', h1, h2⟩ := forRangeRev_inv (ε := LinalgError) (fun m =>
        forRange 0 r fun row => do
          let self ← Op.get
          let m' ← (u8Sub F m 1 : Res LinalgError Nat)
          setElement row m (← self.getElement row m'))
    (fun i u => MatIs u r n (fun p q => if i ≤ q then f' p (q - 1) else f' p q)) (k + 1) n (by omega) t
    (ht.congr fun p q hp hq => by rw [if_neg (by omega)]) (fun i u hi1 hi2 hu => by
      obtain ⟨u', h3, h4⟩ := forRange_inv (ε := LinalgError) (fun row => do
          let self ← Op.get
          let m' ← (u8Sub F i 1 : Res LinalgError Nat)
          setElement row i (← self.getElement row m'))
        (fun j u => MatIs u r n (fun p q => if i + 1 ≤ q ∨ (q = i ∧ p < j) then f' p (q - 1)
          else f' p q)) 0 r (by omega) u (hu.congr fun p q _ _ => by simp) (fun j u _ hj hu => by
          have g1 := hu.get j (i - 1) hj (by omega)
          rw [if_neg (by omega)] at g1
          refine ⟨_, ?_, (hu.put j i hi2 (f' j (i - 1))).congr fun p q hp hq => ?_⟩
          · simp only [Op.get_bind, u8Sub_ok (show 1 ≤ i by omega), Op.liftOk_bind, g1,
              hu.set_ok hj hi2 (hf j (i - 1) hj (by omega))]
          · by_cases e : p = j ∧ q = i
            · obtain ⟨rfl, rfl⟩ := e
              rw [if_pos ⟨rfl, rfl⟩, if_pos (by omega)]
            · rw [if_neg e]
              by_cases e3 : i + 1 ≤ q ∨ (q = i ∧ p < j)
              · rw [if_pos e3, if_pos (by omega)]
              · rw [if_neg e3, if_neg (by omega)])
      refine ⟨u', h3, h4.congr fun p q hp hq => ?_⟩
      by_cases e : i ≤ q
      · rw [if_pos e, if_pos (by omega)]
      · rw [if_neg e, if_neg (by omega)])
  exact ⟨t', h1, h2.congr fun p q hp hq => by
    by_cases e : k < q
    · rw [if_pos e, if_pos (by omega)]
    · rw [if_neg e, if_neg (by omega)]⟩

theorem addCol_ok {k : Nat} (hs : MatIs s r c f) (hv : VecIs v r x) (hk : k ≤ c) (h4 : c < 4)
    (hf : ∀ i j, i < r → j < c → Finite (f i j)) (hx : ∀ i, i < r → Finite (x i)) :
    ∃ s', addCol v k s = (.ok (), s') ∧
      MatIs s' r (c + 1) (fun p q => if q < k then f p q else if q = k then x p else f p (q - 1)) := by
  unfold addCol
  have hval : isValidColsNumber (c + 1) = .ok () := isValidColsNumber_ok_iff.mpr ⟨by omega, by omega⟩
  obtain ⟨t, h1, h2⟩ := setCols_ok hs (show c + 1 ≤ 4 by omega)
  simp only [Op.get_bind, hs.cols_eq, u8Add_ok (show c + 1 < 256 by omega), Op.liftOk_bind, hval]
  rw [Op.bind_ok h1]
  simp only [u8Add_ok (show k + 1 < 256 by omega), Op.liftOk_bind, Op.get_bind, h2.rows_eq]
  obtain ⟨u, h3, h5⟩ := shiftRight_ok h2 (show k < c + 1 by omega) (fun i j hi hj => by
    rw [if_pos (by omega)]; exact hf i j hi (by omega))
  rw [Op.bind_ok h3]
  obtain ⟨s', h6, h7⟩ := setCol_ok h5 hv (show k < c + 1 by omega) hx
  refine ⟨s', h6, h7.congr fun p q hp hq => ?_⟩
  by_cases e : q = k
  · simp [e]
  · by_cases e1 : k < q
    · simp only [e, e1, if_false, if_true, if_neg (show ¬ q < k by omega),
        if_pos (show q - 1 < c by omega)]
    · simp only [e, e1, if_false, if_pos (show q < k by omega), if_pos (show q < c by omega)]

theorem delRow_ok {k : Nat} (hs : MatIs s r c f) (hk : k < r) (h2 : 2 ≤ r)
    (hf : ∀ i j, i < r → j < c → Finite (f i j)) :
    ∃ s' d, delRow k s = (.ok d, s') ∧ VecIs d c (fun j => f k j) ∧
      MatIs s' (r - 1) c (fun p q => if p < k then f p q else f (p + 1) q) := by
  unfold delRow
  have hval : isValidRowsNumber (r - 1) = .ok () :=
    isValidRowsNumber_ok_iff.mpr ⟨by omega, by have := hs.rle; omega⟩
  simp only [Op.get_bind, hs.rows_eq, hs.cols_eq, u8Sub_ok (show 1 ≤ r by omega), Op.liftOk_bind,
    isValidRow_ok hk, hval, Vec.init_new hs.cpos hs.cle]
  have hz := Vec.zeros_is (F := F) hs.cpos hs.cle
  obtain ⟨d, h3, h4⟩ := foldRange_inv (ε := LinalgError) (fun col (d : Vec F) => do
      let element ← s.getElement k col
      exec d (Vec.setElement col element))
    (fun j d => VecIs d c (fun q => if q < j then f k q else lit 0)) 0 c (by omega) (Vec.zeros c)
    (hz.congr fun q _ => by simp) (fun j d _ hj hd => by
      obtain ⟨d', h5, h6⟩ := hd.exec_set hj (hf k j hk hj)
      refine ⟨d', by rw [hs.get k j hk hj, Res.ok_bind, h5], h6.congr fun q hq => ?_⟩
      by_cases e : q = j
      · subst e; simp
      · rw [if_neg e]
        by_cases e1 : q < j
        · rw [if_pos e1, if_pos (by omega)]
        · rw [if_neg e1, if_neg (by omega)])
  rw [Op.liftM_bind_run, h3]
  simp only
  obtain ⟨t, h5, h6⟩ := forRange_inv (ε := LinalgError) (fun oldRow =>
      forRange 0 c fun col => do
        let self ← Op.get
        let element ← self.getElement oldRow col
        setElement (oldRow - 1) col element)
    (fun i u => MatIs u r c (fun p q => if k ≤ p ∧ p + 1 < i then f (p + 1) q else f p q)) (k + 1) r
    (by omega) s (hs.congr fun p q _ _ => by rw [if_neg (by omega)]) (fun i u hi1 hi2 hu => by
      obtain ⟨u', h7, h8⟩ := forRange_inv (ε := LinalgError) (fun col => do
          let self ← Op.get
          let element ← self.getElement i col
          setElement (i - 1) col element)
        (fun j u => MatIs u r c (fun p q => if (k ≤ p ∧ p + 1 < i) ∨ (p + 1 = i ∧ q < j)
          then f (p + 1) q else f p q)) 0 c (by omega) u (hu.congr fun p q _ _ => by simp)
        (fun j u _ hj hu => by
          have g1 := hu.get i j hi2 hj
          rw [if_neg (by omega)] at g1
          refine ⟨_, ?_, (hu.put (i - 1) j hj (f i j)).congr fun p q hp hq => ?_⟩
          · simp only [Op.get_bind, g1, Op.liftOk_bind,
              hu.set_ok (show i - 1 < r by omega) hj (hf i j hi2 hj)]
          · by_cases e : p = i - 1 ∧ q = j
            · obtain ⟨rfl, rfl⟩ := e
              rw [if_pos ⟨rfl, rfl⟩, if_pos (by omega), show i - 1 + 1 = i by omega]
            · rw [if_neg e]
              by_cases e3 : (k ≤ p ∧ p + 1 < i) ∨ (p + 1 = i ∧ q < j)
              · rw [if_pos e3, if_pos (by omega)]
              · rw [if_neg e3, if_neg (by omega)])
      refine ⟨u', h7, h8.congr fun p q hp hq => ?_⟩
      by_cases e : k ≤ p ∧ p + 1 < i + 1
      · rw [if_pos e, if_pos (by omega)]
      · rw [if_neg e, if_neg (by omega)])
  rw [Op.bind_ok h5]
  refine ⟨{ t with rows := r - 1 }, d, rfl, h4.congr fun q hq => by simp [hq], ?_⟩
  have h6' := matIs_iff.mp (h6.congr (g := fun p q => if p < k ∨ p + 1 = r then f p q else f (p + 1) q)
    fun p q hp hq => by
      by_cases e : k ≤ p ∧ p + 1 < r
      · rw [if_pos e, if_neg (by omega)]
      · rw [if_neg e, if_pos (by omega)])
  rw [matIs_iff]
  refine ⟨by omega, by have := hs.rle; omega, hs.cpos, hs.cle, h6.init, rfl, h6.cols_eq,
    fun i j h16 hi hj => ?_⟩
  rw [h6'.2.2.2.2.2.2.2 i j h16 (by omega) hj]
  by_cases e : i < k
  · rw [if_pos (Or.inl e), if_pos e]
  · rw [if_neg (by omega), if_neg e]

/-! ### Reductions and predicates -/

theorem trace_eq (ha : MatIs a n n f) : a.trace = .ok (sumUp n fun i => f i i) := by
  unfold trace
  simp only [isSquare_eq ha, Res.ok_bind, decide_true, Bool.not_true, Bool.false_eq_true, if_false]
  rw [ha.rows_eq, ha.cols_eq]
  have : Utils.minU8 n n = n := by simp [Utils.minU8]
  rw [this]
  exact foldRange_sumUp fun i acc hi => by simp [ha.get i i hi hi]

end Mat

namespace Vec
variable {v w : Vec F} {n m : Nat} {x y : Nat → F}

theorem outerProduct_eq (hv : VecIs v n x) (hw : VecIs w m y) :
    ∃ o, (Mat.zeros n m : Mat F).Stores n m (fun i j => x i *ᶠ y j) o ∧
      v.outerProduct w = match o with
        | (.ok (), s') => .ok s'
        | (.error e, _) => .error e := by
  unfold outerProduct
  rw [hv.rows, hw.rows]
  simp only [Res.ok_bind, Mat.init_new hv.pos hv.le hw.pos hw.le]
  have hz := Mat.zeros_is (F := F) hv.pos hv.le hw.pos hw.le
  refine ⟨_, Mat.stores_of_loop hz.init hz.rows_eq hz.cols_eq hz.rle hz.cle
    (body := fun row col => do
      let element := (← v.getElement row) *ᶠ (← w.getElement col)
      Mat.setElement row col element) fun i j hi hj => by simp [hv.get i hi, hw.get j hj], ?_⟩
  unfold exec
  generalize (forRange 0 n _ : Op LinalgError (Mat F) Unit) (Mat.zeros n m) = o
  obtain ⟨_ | _, _⟩ := o <;> rfl

theorem outerProduct_ok (hv : VecIs v n x) (hw : VecIs w m y)
    (hf : ∀ i j, i < n → j < m → Finite (x i *ᶠ y j)) :
    ∃ a, v.outerProduct w = .ok a ∧ MatIs a n m (fun i j => x i *ᶠ y j) := by
  obtain ⟨o, h1, h2⟩ := outerProduct_eq hv hw
  rw [h1.ok hf] at h2
  exact ⟨_, h2, (Mat.zeros_is hv.pos hv.le hw.pos hw.le).overwrite _⟩

theorem convertToMatrix_ok (hv : VecIs v n x) (hf : ∀ i, i < n → Finite (x i)) :
    ∃ a, v.convertToMatrix = .ok a ∧ MatIs a n 1 (fun i _ => x i) := by
  unfold convertToMatrix
  rw [hv.rows]
  simp only [Res.ok_bind, Mat.init_new hv.pos hv.le (le_refl 1) (by omega)]
  have hz := Mat.zeros_is (F := F) hv.pos hv.le (le_refl 1) (show 1 ≤ 4 by omega)
  obtain ⟨a, h1, h2⟩ := Mat.setCol_ok hz hv (show 0 < 1 by omega) hf
  exact ⟨a, exec_ok h1, h2.congr fun p q hp hq => by simp [show q = 0 by omega]⟩

end Vec
end Verif
