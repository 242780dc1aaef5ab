import Verif.Props.ElementWise
import Verif.Lib.Exact

/-
Matrix multiplication (C12), transposition (C13), rows and columns (C14), insertion and deletion
(C15, C16, C17), diagonals (C18), products and reductions (C33).
-/

set_option linter.unusedSectionVars false
set_option linter.unusedSimpArgs false

namespace Verif
open Scalar Finset

variable {F : Type} [Scalar F]

/-! ### C12 -/

/-- C12: the product of conforming matrices for every arithmetic. -/
theorem C12_mul {a b s : Mat F} {r k c : Nat} {f g f0 : Nat → Nat → F} (ha : MatIs a r k f)
    (hb : MatIs b k c g) (hs : MatIs s r c f0) :
    ((Mat.mul a b s).1 = .ok () ↔
      ∀ i j l, i < r → j < c → l < k → Finite (sumUp (l + 1) fun t => f i t *ᶠ g t j)) ∧
    ((Mat.mul a b s).1 = .ok () →
      MatIs (Mat.mul a b s).2 r c (fun i j => sumUp k fun t => f i t *ᶠ g t j)) := by
  refine ⟨⟨fun h => ?_, fun h => ?_⟩, fun h => ?_⟩
  · exact (Mat.mul_inv ha hb hs (s' := (Mat.mul a b s).2) (by rw [← h])).1
  · rw [Mat.mul_ok ha hb hs h]
  · exact (Mat.mul_inv ha hb hs (s' := (Mat.mul a b s).2) (by rw [← h])).2

/-- C12: a failing product reports the first partial sum that is not finite; cells before it hold
their result. -/
theorem C12_fail {a b s : Mat F} {r k c : Nat} {f g f0 : Nat → Nat → F} (ha : MatIs a r k f)
    (hb : MatIs b k c g) (hs : MatIs s r c f0) {i j l : Nat} (hi : i < r) (hj : j < c) (hl : l < k)
    (hf : ∀ i' j' l', i' < r → j' < c → l' < k →
      (i' < i ∨ i' = i ∧ (j' < j ∨ j' = j ∧ l' < l)) →
      Finite (sumUp (l' + 1) fun t => f i' t *ᶠ g t j'))
    (hbad : ¬ Finite (sumUp (l + 1) fun t => f i t *ᶠ g t j)) :
    (Mat.mul a b s).1 = .error (.err (.UtilsError
      (if isNaN (sumUp (l + 1) fun t => f i t *ᶠ g t j) then .Nan else .Inf))) := by
  rw [Mat.mul_err ha hb hs hi hj hl hf hbad]
  rfl

/-- C12: non-conforming operands are rejected without any change. -/
theorem C12_size {a b s : Mat F} {r k k' c r' c' : Nat} {f g f0 : Nat → Nat → F}
    (ha : MatIs a r k f) (hb : MatIs b k' c g) (hs : MatIs s r' c' f0)
    (h : ¬ (k = k' ∧ r' = r ∧ c' = c)) :
    Mat.mul a b s = (.error (.err .InvalidSize), s) := by
  unfold Mat.mul
  simp only [Op.get_bind, ha.cols_eq, hb.rows_eq, ha.rows_eq, hb.cols_eq, hs.rows_eq, hs.cols_eq]
  rw [if_pos (by by_contra hc; push Not at hc; exact h ⟨hc.1, hc.2.1, hc.2.2⟩)]
  rfl

/-- C12: `mul_new` allocates the right shape and agrees with `mul` on every conforming target. -/
theorem C12_new {a b s : Mat F} {r k c : Nat} {f g f0 : Nat → Nat → F} (ha : MatIs a r k f)
    (hb : MatIs b k c g) (hs : MatIs s r c f0) :
    (∀ m, a.mulNew b = .ok m → MatIs m r c (fun i j => sumUp k fun t => f i t *ᶠ g t j)) ∧
    ((∃ m, a.mulNew b = .ok m) ↔ (Mat.mul a b s).1 = .ok ()) ∧
    (∀ e, a.mulNew b = .error e ↔ (Mat.mul a b s).1 = .error e) := by
  have hz : MatIs (Mat.zeros r c : Mat F) r c _ := Mat.zeros_is ha.rpos ha.rle hb.cpos hb.cle
  rw [Mat.mulNew_eq ha hb]
  by_cases hf : ∀ i j l, i < r → j < c → l < k → Finite (sumUp (l + 1) fun t => f i t *ᶠ g t j)
  · rw [exec_ok (Mat.mul_ok ha hb hz hf), Mat.mul_ok ha hb hs hf]
    exact ⟨fun m hm => by cases hm; exact hz.overwrite _, by simp, by simp⟩
  · classical
    -- the first offending partial sum, in the order of evaluation
    obtain ⟨N, hN⟩ : ∃ N, N < r * c * k ∧
        ¬ Finite (sumUp (N % k + 1) fun t => f (N / k / c) t *ᶠ g t (N / k % c)) := by
      push Not at hf
      obtain ⟨i, j, l, hi, hj, hl, hb⟩ := hf
      refine ⟨(i * c + j) * k + l, ?_, ?_⟩
      · have h1 : i * c + j < r * c := by
          have : (i + 1) * c ≤ r * c := Nat.mul_le_mul_right _ hi
          rw [Nat.add_mul] at this; omega
        have : (i * c + j + 1) * k ≤ r * c * k := Nat.mul_le_mul_right _ h1
        rw [Nat.add_mul] at this; omega
      · rw [MatIs.mod_eq hl, MatIs.div_eq hl, MatIs.mod_eq hj, MatIs.div_eq hj]; exact hb
    obtain ⟨hN, hmin⟩ : ∃ N, (N < r * c * k ∧
        ¬ Finite (sumUp (N % k + 1) fun t => f (N / k / c) t *ᶠ g t (N / k % c))) ∧
        ∀ M, M < N → Finite (sumUp (M % k + 1) fun t => f (M / k / c) t *ᶠ g t (M / k % c)) := by
      have hex : ∃ N, N < r * c * k ∧
        ¬ Finite (sumUp (N % k + 1) fun t => f (N / k / c) t *ᶠ g t (N / k % c)) := ⟨N, hN⟩
      refine ⟨Nat.find hex, Nat.find_spec hex, fun M hM => ?_⟩
      by_contra hc
      exact Nat.find_min hex hM ⟨lt_trans hM (Nat.find_spec hex).1, hc⟩
    obtain ⟨⟨hlt, hbad⟩, hmin⟩ := hmin
    obtain ⟨h1, h2, h3⟩ := Mat.divmod hlt
    obtain ⟨h4, h5, h6⟩ := Mat.divmod h1
    have hfirst : ∀ i' j' l', i' < r → j' < c → l' < k →
        (i' < hN / k / c ∨ i' = hN / k / c ∧ (j' < hN / k % c ∨ j' = hN / k % c ∧ l' < hN % k)) →
        Finite (sumUp (l' + 1) fun t => f i' t *ᶠ g t j') := by
      intro i' j' l' hi' hj' hl' ho
      have := hmin ((i' * c + j') * k + l') (by
        have key : i' * c + j' < hN / k ∨ i' * c + j' = hN / k ∧ l' < hN % k := by
          rcases ho with ho | ⟨ho, ho' | ⟨ho', hl⟩⟩
          · left
            have : (i' + 1) * c ≤ hN / k / c * c := Nat.mul_le_mul_right _ ho
            rw [Nat.add_mul] at this; omega
          · left; subst ho; omega
          · right; subst ho; exact ⟨by omega, hl⟩
        rcases key with h | ⟨h, h'⟩
        · have : (i' * c + j' + 1) * k ≤ hN / k * k := Nat.mul_le_mul_right _ h
          rw [Nat.add_mul] at this; omega
        · rw [h]; omega)
      rwa [MatIs.mod_eq hl', MatIs.div_eq hl', MatIs.mod_eq hj', MatIs.div_eq hj'] at this
    rw [exec_err (Mat.mul_err ha hb hz h4 h5 h2 hfirst hbad),
      Mat.mul_err ha hb hs h4 h5 h2 hfirst hbad]
    exact ⟨by simp, by simp, by simp⟩

/-- C12: `mul_new` on matrices whose inner dimensions differ. -/
theorem C12_new_size {a b : Mat F} {r k k' c : Nat} {f g : Nat → Nat → F} (ha : MatIs a r k f)
    (hb : MatIs b k' c g) (h : k ≠ k') : a.mulNew b = .error (.err .InvalidSize) := by
  have hz : MatIs (Mat.zeros r c : Mat F) r c _ := Mat.zeros_is ha.rpos ha.rle hb.cpos hb.cle
  unfold Mat.mulNew
  rw [ha.rows, hb.cols]
  simp only [Res.ok_bind, Mat.init_new ha.rpos ha.rle hb.cpos hb.cle]
  exact exec_err (C12_size ha hb hz (fun hc => h hc.1))

/-- C12 in exact arithmetic: `mul` succeeds and is the matrix product. -/
theorem C12_exact {a b s : Mat XR} {r k c : Nat} {A B : Nat → Nat → ℝ} {f0 : Nat → Nat → XR}
    (ha : MatIs a r k (fun i j => .fin (A i j))) (hb : MatIs b k c (fun i j => .fin (B i j)))
    (hs : MatIs s r c f0) :
    ∃ (m : Mat XR) (C : Nat → Nat → ℝ), Mat.mul a b s = (.ok (), m) ∧
      MatIs m r c (fun i j => .fin (C i j)) ∧ toMatrix r c C = toMatrix r k A * toMatrix k c B := by
  have e : ∀ i j l, (sumUp l fun t => (Ext.fin (A i t) : XR) *ᶠ .fin (B t j)) =
      .fin (∑ t ∈ range l, A i t * B t j) := fun i j l => by simp only [Ext.mul_fin, sumUp_fin]
  have h := C12_mul ha hb hs
  have hok : (Mat.mul a b s).1 = .ok () := h.1.mpr fun i j l _ _ _ => by rw [e]; exact Ext.finite_fin _
  refine ⟨_, fun i j => ∑ t ∈ range k, A i t * B t j, by rw [← hok], ?_, (toMatrix_mul ..).symm⟩
  exact (h.2 hok).congr fun i j _ _ => e i j k

/-! ### C13 -/

/-- C13: transposition of a matrix with finite elements. -/
theorem C13_transpose {m : Mat F} {r c : Nat} {f : Nat → Nat → F} (hm : MatIs m r c f)
    (hf : ∀ i j, i < r → j < c → Finite (f i j)) :
    ∃ t, Mat.transpose m = (.ok (), t) ∧ MatIs t c r (fun i j => f j i) ∧
      ∃ t', m.transposeNew = .ok t' ∧ MatIs t' c r (fun i j => f j i) := by
  obtain ⟨t, h1, h2⟩ := Mat.transpose_ok hm hf
  obtain ⟨t', h3, h4⟩ := Mat.transposeNew_ok hm hf
  exact ⟨t, h1, h2, t', h3, h4⟩

/-- C13: every reachable initialised matrix can be transposed, and doing it twice restores it. -/
theorem C13_reach [ScalarLawful F] {m : Mat F} (h : Reach (.mat m)) (hi : m.isInitialized = true) :
    ∃ t, Mat.transpose m = (.ok (), t) ∧ t.getRows = m.getCols ∧ t.getCols = m.getRows ∧
      (∀ i j, i < m.rows → j < m.cols → t.getElement j i = m.getElement i j) ∧
      ∃ u, Mat.transpose t = (.ok (), u) ∧ u.getRows = m.getRows ∧ u.getCols = m.getCols ∧
        ∀ i j, i < m.rows → j < m.cols → u.getElement i j = m.getElement i j := by
  obtain ⟨f, hm, hf⟩ := h.mat_view hi
  obtain ⟨t, h1, h2⟩ := Mat.transpose_ok hm fun i j _ _ => hf i j
  obtain ⟨u, h3, h4⟩ := Mat.transpose_ok h2 fun i j _ _ => hf j i
  refine ⟨t, h1, by rw [h2.rows, hm.cols], by rw [h2.cols, hm.rows], fun i j hr hc => ?_, u, h3,
    by rw [h4.rows, hm.rows], by rw [h4.cols, hm.cols], fun i j hr hc => ?_⟩
  · rw [h2.get j i hc hr, hm.get i j hr hc]
  · rw [h4.get i j hr hc, hm.get i j hr hc]

/-- C13: an uninitialised matrix is rejected. -/
theorem C13_uninit {m : Mat F} (h : m.isInitialized = false) :
    Mat.transpose m = (.error (.err .NotInit), m) := by
  have h : m.initialized = false := h
  simp [Mat.transpose, h, Op.fail]

/-! ### C14 -/

/-- C14: writing a row. -/
theorem C14_set_row {s : Mat F} {v : Vec F} {r c n i : Nat} {f : Nat → Nat → F} {x : Nat → F}
    (hs : MatIs s r c f) (hv : VecIs v n x) (hx : ∀ j, j < n → Finite (x j)) :
    (n ≠ c → Mat.setRow v i s = (.error (.err .InvalidSize), s)) ∧
    (n = c → ¬ i < r → Mat.setRow v i s = (.error (.err .InvalidRow), s)) ∧
    (n = c → i < r → ∃ s', Mat.setRow v i s = (.ok (), s') ∧
      MatIs s' r c (fun p q => if p = i then x q else f p q)) := by
  refine ⟨fun h => ?_, fun h hi => ?_, fun h hi => ?_⟩
  · unfold Mat.setRow
    simp [hv.rows, hs.cols_eq, Ne.symm h, Op.fail]
  · subst h
    unfold Mat.setRow
    simp only [Op.get_bind, hv.rows, Op.liftOk_bind, hs.cols_eq, ne_eq, not_true, if_false]
    refine forRange_fail _ (fun _ => s) 0 n 0 (le_refl _) (by have := hv.pos; omega) _ _
      (fun i _ h => by omega) ?_
    simp only [hv.get 0 (by have := hv.pos; omega), Op.liftOk_bind]
    unfold Mat.setElement
    simp [hs.init, isValidValueL_eq, hx 0 (by have := hv.pos; omega), isValidRow, hs.rows_eq,
      Nat.not_lt.mp hi]
  · subst h; exact Mat.setRow_ok hs hv hi hx

/-- C14: writing a column. -/
theorem C14_set_col {s : Mat F} {v : Vec F} {r c n j : Nat} {f : Nat → Nat → F} {x : Nat → F}
    (hs : MatIs s r c f) (hv : VecIs v n x) (hx : ∀ j, j < n → Finite (x j)) :
    (n ≠ r → Mat.setCol v j s = (.error (.err .InvalidSize), s)) ∧
    (n = r → ¬ j < c → Mat.setCol v j s = (.error (.err .InvalidCol), s)) ∧
    (n = r → j < c → ∃ s', Mat.setCol v j s = (.ok (), s') ∧
      MatIs s' r c (fun p q => if q = j then x p else f p q)) := by
  refine ⟨fun h => ?_, fun h hi => ?_, fun h hi => ?_⟩
  · unfold Mat.setCol
    simp [hv.rows, hs.rows_eq, Ne.symm h, Op.fail]
  · subst h
    unfold Mat.setCol
    simp only [Op.get_bind, hv.rows, Op.liftOk_bind, hs.rows_eq, ne_eq, not_true, if_false]
    refine forRange_fail _ (fun _ => s) 0 n 0 (le_refl _) (by have := hv.pos; omega) _ _
      (fun i _ h => by omega) ?_
    simp only [hv.get 0 (by have := hv.pos; omega), Op.liftOk_bind]
    unfold Mat.setElement
    have h0 : 0 < n := by have := hv.pos; omega
    simp [hs.init, isValidValueL_eq, hx 0 h0, isValidRow, isValidCol, hs.rows_eq, hs.cols_eq,
      Nat.not_lt.mp hi, h0.ne']
  · subst h; exact Mat.setCol_ok hs hv hi hx

/-- C14: reading a row into a vector of the right length, and as a new vector. -/
theorem C14_get_row {a : Mat F} {w : Vec F} {r c n i : Nat} {f : Nat → Nat → F} {y : Nat → F}
    (ha : MatIs a r c f) (hf : ∀ i j, i < r → j < c → Finite (f i j)) (hw : VecIs w n y) (hi : i < r) :
    (n ≠ c → a.getRow i w = (.error (.err .InvalidSize), w)) ∧
    (n = c → ∃ w', a.getRow i w = (.ok (), w') ∧ VecIs w' c (fun j => f i j)) ∧
    ∃ w', a.rowToVector i = .ok w' ∧ VecIs w' c (fun j => f i j) := by
  refine ⟨fun h => ?_, fun h => ?_, Mat.rowToVector_ok ha hi fun j hj => hf i j hi hj⟩
  · unfold Mat.getRow
    simp [hw.rows, ha.cols_eq, Ne.symm h, Op.fail]
  · subst h; exact Vec.run_of_stores (Mat.getRow_stores ha hw hi) hw fun j hj => hf i j hi hj

/-- C14: reading a column. -/
theorem C14_get_col {a : Mat F} {w : Vec F} {r c n j : Nat} {f : Nat → Nat → F} {y : Nat → F}
    (ha : MatIs a r c f) (hf : ∀ i j, i < r → j < c → Finite (f i j)) (hw : VecIs w n y) (hj : j < c) :
    (n ≠ r → a.getCol j w = (.error (.err .InvalidSize), w)) ∧
    (n = r → ∃ w', a.getCol j w = (.ok (), w') ∧ VecIs w' r (fun i => f i j)) ∧
    ∃ w', a.colToVector j = .ok w' ∧ VecIs w' r (fun i => f i j) := by
  refine ⟨fun h => ?_, fun h => ?_, Mat.colToVector_ok ha hj fun i hi => hf i j hi hj⟩
  · unfold Mat.getCol
    simp [hw.rows, ha.rows_eq, Ne.symm h, Op.fail]
  · subst h; exact Vec.run_of_stores (Mat.getCol_stores ha hw hj) hw fun i hi => hf i j hi hj

/-- C14: `set_row` followed by `row_to_vector` returns the written vector. -/
theorem C14_round_trip {s s' : Mat F} {v : Vec F} {r c i : Nat} {f : Nat → Nat → F} {x : Nat → F}
    (hs : MatIs s r c f) (hv : VecIs v c x)
    (hx : ∀ j, j < c → Finite (x j)) (hi : i < r) (h : Mat.setRow v i s = (.ok (), s')) :
    ∃ w, s'.rowToVector i = .ok w ∧ VecIs w c x := by
  obtain ⟨t, h1, h2⟩ := Mat.setRow_ok hs hv hi hx
  rw [h] at h1
  cases h1
  obtain ⟨w, h3, h4⟩ := Mat.rowToVector_ok h2 hi fun j hj => by simpa using hx j hj
  exact ⟨w, h3, h4.congr fun j _ => by simp⟩

theorem C14_round_trip_col {s s' : Mat F} {v : Vec F} {r c j : Nat} {f : Nat → Nat → F} {x : Nat → F}
    (hs : MatIs s r c f) (hv : VecIs v r x)
    (hx : ∀ j, j < r → Finite (x j)) (hj : j < c) (h : Mat.setCol v j s = (.ok (), s')) :
    ∃ w, s'.colToVector j = .ok w ∧ VecIs w r x := by
  obtain ⟨t, h1, h2⟩ := Mat.setCol_ok hs hv hj hx
  rw [h] at h1
  cases h1
  obtain ⟨w, h3, h4⟩ := Mat.colToVector_ok h2 hj fun i hi => by simpa using hx i hi
  exact ⟨w, h3, h4.congr fun j _ => by simp⟩

/-! ### C15 -/

/-- C15: row insertion. -/
theorem C15_add_row {s : Mat F} {v : Vec F} {r c k : Nat} {f : Nat → Nat → F} {x : Nat → F}
    (hs : MatIs s r c f) (hv : VecIs v c x) (hk : k ≤ r) (h4 : r < 4)
    (hf : ∀ i j, i < r → j < c → Finite (f i j)) (hx : ∀ j, j < c → Finite (x j)) :
    ∃ s', Mat.addRow v k s = (.ok (), s') ∧
      MatIs s' (r + 1) c (fun p q => if p < k then f p q else if p = k then x q else f (p - 1) q) :=
  Mat.addRow_ok hs hv hk h4 hf hx

/-- C15: column insertion. -/
theorem C15_add_col {s : Mat F} {v : Vec F} {r c k : Nat} {f : Nat → Nat → F} {x : Nat → F}
    (hs : MatIs s r c f) (hv : VecIs v r x) (hk : k ≤ c) (h4 : c < 4)
    (hf : ∀ i j, i < r → j < c → Finite (f i j)) (hx : ∀ i, i < r → Finite (x i)) :
    ∃ s', Mat.addCol v k s = (.ok (), s') ∧
      MatIs s' r (c + 1) (fun p q => if q < k then f p q else if q = k then x p else f p (q - 1)) :=
  Mat.addCol_ok hs hv hk h4 hf hx

/-! ### C16 -/

/-- C16: row deletion. -/
theorem C16_del_row {s : Mat F} {r c k : Nat} {f : Nat → Nat → F} (hs : MatIs s r c f) (hk : k < r)
    (h2 : 2 ≤ r) (hf : ∀ i j, i < r → j < c → Finite (f i j)) :
    ∃ s' d, Mat.delRow k s = (.ok d, s') ∧ VecIs d c (fun j => f k j) ∧
      MatIs s' (r - 1) c (fun p q => if p < k then f p q else f (p + 1) q) :=
  Mat.delRow_ok hs hk h2 hf

/-- C16: deleting an inserted row restores the matrix and returns the row. -/
theorem C16_inverse {s : Mat F} {v : Vec F} {r c k : Nat} {f : Nat → Nat → F} {x : Nat → F}
    (hs : MatIs s r c f) (hv : VecIs v c x) (hk : k ≤ r) (h4 : r < 4)
    (hf : ∀ i j, i < r → j < c → Finite (f i j)) (hx : ∀ j, j < c → Finite (x j)) :
    ∃ t u d, Mat.addRow v k s = (.ok (), t) ∧ Mat.delRow k t = (.ok d, u) ∧ VecIs d c x ∧
      MatIs u r c f := by
  obtain ⟨t, h1, h2⟩ := Mat.addRow_ok hs hv hk h4 hf hx
  obtain ⟨u, d, h3, h5, h6⟩ := Mat.delRow_ok h2 (show k < r + 1 by omega)
    (by have := hs.rpos; omega) (fun i j hi hj => by
      split
      · exact hf i j (by omega) hj
      · split
        · exact hx j hj
        · exact hf _ j (by omega) hj)
  refine ⟨t, u, d, h1, h3, h5.congr fun j _ => by simp, ?_⟩
  refine (h6 : MatIs u r c _).congr fun i j hi hj => ?_
  by_cases h : i < k
  · simp [h]
  · simp [h, show ¬ i + 1 < k by omega, show i + 1 ≠ k by omega]

/-- C16: a failing `del_row` changes nothing. -/
theorem C16_fail [ScalarLawful F] {m : Mat F} (h : Reach (.mat m)) (k : Nat)
    (hfail : ∀ d, (Mat.delRow k m).1 ≠ .ok d) : (Mat.delRow k m).2 = m := by
  by_cases hg : m.initialized = true ∧ k < m.rows ∧ 2 ≤ m.rows
  · obtain ⟨f, hm, hf⟩ := h.mat_view hg.1
    obtain ⟨s', d, h1, _⟩ := Mat.delRow_ok hm hg.2.1 hg.2.2 fun i j _ _ => hf i j
    exact absurd (by rw [h1]) (hfail d)
  · have hw : WFMat m := h.wf
    clear hfail
    unfold Mat.delRow
    simp only [Op.get_bind]
    by_cases h0 : 1 ≤ m.rows
    · have : u8Sub (ε := LinalgError) F m.rows 1 = .ok (m.rows - 1) := u8Sub_ok h0
      simp only [this, Op.liftOk_bind, isValidRow]
      by_cases h1 : k < m.rows
      · simp only [Nat.not_le.mpr h1, if_false, Op.liftOk_bind, ge_iff_le]
        have h4 := hw.rows_le
        by_cases h2 : 2 ≤ m.rows
        · have hi : m.initialized = false := by
            by_contra hc
            exact hg ⟨by simpa using hc, h1, h2⟩
          have hval : isValidRowsNumber (m.rows - 1) = .ok () :=
            isValidRowsNumber_ok_iff.mpr ⟨by omega, by omega⟩
          simp only [hval, Op.liftOk_bind]
          by_cases hc : 1 ≤ m.cols
          · simp only [Vec.init_new hc hw.cols_le, Op.liftOk_bind]
            have : ∀ v : Vec F, foldRange 0 m.cols (fun col (deletedRow : Vec F) => do
                let element ← m.getElement k col
                exec deletedRow (Vec.setElement col element)) v = .error (.err .NotInit) := by
              intro v
              obtain ⟨c', hc'⟩ : ∃ c', m.cols = c' + 1 := ⟨m.cols - 1, by omega⟩
              unfold foldRange
              rw [hc']
              simp [foldFrom_succ, Mat.getElement, hi, fail]
            simp [this]
          · have : exec (Vec.new : Vec F) (Vec.init m.cols) = .error (.err .RowsNumberNull) := by
              have : m.cols = 0 := by omega
              rw [this]
              rfl
            simp [this]
        · have hval : isValidRowsNumber (m.rows - 1) = .error (.err .RowsNumberNull) := by
            rw [show m.rows - 1 = 0 by omega]; rfl
          simp [hval]
      · simp [Nat.not_lt.mp h1]
    · have hz : m.rows = 0 := by omega
      have : u8Sub (ε := LinalgError) F m.rows 1 = .error .panic ∨
          ∃ x, u8Sub (ε := LinalgError) F m.rows 1 = .ok x := by
        rw [hz]
        unfold u8Sub
        simp only [Nat.not_le.mpr Nat.zero_lt_one, if_false]
        split
        · exact Or.inl rfl
        · exact Or.inr ⟨_, rfl⟩
      rcases this with h | ⟨x, h⟩
      · simp only [h]
        rfl
      · simp only [h, Op.liftOk_bind]
        simp [isValidRow, hz, fail]

/-! ### C17 -/

/-- C17: a failing row insertion below the maximum size still adds a row. -/
theorem C17_add_row {s : Mat F} {v : Vec F} {r c n k : Nat} {f : Nat → Nat → F} {x : Nat → F}
    (hs : MatIs s r c f) (hv : VecIs v n x) (h4 : r < 4) (h255 : k < 255)
    (hf : ∀ i j, i < r → j < c → Finite (f i j)) (hx : ∀ j, j < n → Finite (x j))
    (hbad : n ≠ c ∨ r < k) :
    ∃ s', Mat.addRow v k s =
        (.error (.err (if n ≠ c then .InvalidSize else .InvalidRow)), s') ∧
      s'.getRows = .ok (r + 1) ∧ s'.getCols = .ok c ∧ s'.isInitialized = true := by
  obtain ⟨f', hg, hff⟩ := Mat.grownRows_is hs (show r + 1 ≤ 4 by omega)
  unfold Mat.addRow
  have hval : isValidRowsNumber (r + 1) = .ok () := isValidRowsNumber_ok_iff.mpr ⟨by omega, by omega⟩
  have hu : u8Add (ε := LinalgError) F s.rows 1 = .ok (r + 1) := by
    rw [hs.rows_eq]; exact u8Add_ok (by omega)
  have hu2 : u8Add (ε := LinalgError) F k 1 = .ok (k + 1) := u8Add_ok (by omega)
  simp only [Op.get_bind, hu, Op.liftOk_bind, hval]
  rw [Op.bind_ok (Mat.setRows_ok hs (by omega))]
  simp only [hu2, Op.liftOk_bind, Op.get_bind]
  have hshift : ∃ t g, forRangeRev (k + 1) (r + 1) (fun m =>
        forRange 0 s.cols fun col => do
          let self ← Op.get
          let m' ← (u8Sub F m 1 : Res LinalgError Nat)
          Mat.setElement m col (← self.getElement m' col) : Nat → Op LinalgError (Mat F) Unit)
        { s with rows := r + 1 } = (.ok (), t) ∧ MatIs t (r + 1) c g := by
    by_cases hk : k < r + 1
    · obtain ⟨t, h1, h2⟩ := Mat.shiftDown_ok hg hk fun i j hi hj => by
        rw [hff i j (by omega) hj]; exact hf i j (by omega) hj
      rw [← hs.cols_eq] at h1
      exact ⟨t, _, h1, h2⟩
    · rw [forRangeRev_empty _ _ _ (by omega)]
      exact ⟨_, _, rfl, hg⟩
  obtain ⟨t, g, h1, h2⟩ := hshift
  rw [Op.bind_ok h1]
  have h3 := C14_set_row (i := k) h2 hv hx
  refine ⟨t, ?_, h2.rows, h2.cols, h2.init⟩
  by_cases hn : n ≠ c
  · rw [if_pos hn]; exact h3.1 hn
  · rw [if_neg hn]
    exact h3.2.1 (by simpa using hn) (by have := hbad.resolve_left hn; omega)

/-- C17: a failing column insertion below the maximum size still adds a column. -/
theorem C17_add_col {s : Mat F} [ScalarLawful F] {v : Vec F} {r c n k : Nat} {f : Nat → Nat → F}
    {x : Nat → F}
    (hs : MatIs s r c f) (hv : VecIs v n x) (h4 : c < 4) (h255 : k < 255)
    (hf : ∀ i j, i < r → j < c → Finite (f i j)) (hx : ∀ j, j < n → Finite (x j))
    (hbad : n ≠ r ∨ c < k) :
    ∃ s', Mat.addCol v k s =
        (.error (.err (if n ≠ r then .InvalidSize else .InvalidCol)), s') ∧
      s'.getRows = .ok r ∧ s'.getCols = .ok (c + 1) ∧ s'.isInitialized = true := by
  obtain ⟨s1, hset, hg⟩ := Mat.setCols_ok hs (show c + 1 ≤ 4 by omega)
  unfold Mat.addCol
  have hval : isValidColsNumber (c + 1) = .ok () := isValidColsNumber_ok_iff.mpr ⟨by omega, by omega⟩
  have hu : u8Add (ε := LinalgError) F s.cols 1 = .ok (c + 1) := by
    rw [hs.cols_eq]; exact u8Add_ok (by omega)
  have hu2 : u8Add (ε := LinalgError) F k 1 = .ok (k + 1) := u8Add_ok (by omega)
  simp only [Op.get_bind, hu, Op.liftOk_bind, hval]
  rw [Op.bind_ok hset]
  simp only [hu2, Op.liftOk_bind, Op.get_bind]
  have hshift : ∃ t g, forRangeRev (k + 1) (c + 1) (fun m =>
        forRange 0 s1.rows fun row => do
          let self ← Op.get
          let m' ← (u8Sub F m 1 : Res LinalgError Nat)
          Mat.setElement row m (← self.getElement row m') : Nat → Op LinalgError (Mat F) Unit)
        s1 = (.ok (), t) ∧ MatIs t r (c + 1) g := by
    by_cases hk : k < c + 1
    · obtain ⟨t, h1, h2⟩ := Mat.shiftRight_ok hg hk fun i j hi hj => by
        split
        · exact hf i j hi (by omega)
        · exact ScalarLawful.zero_finite
      rw [hg.rows_eq]
      exact ⟨t, _, h1, h2⟩
    · rw [forRangeRev_empty _ _ _ (by omega)]
      exact ⟨_, _, rfl, hg⟩
  obtain ⟨t, g, h1, h2⟩ := hshift
  rw [Op.bind_ok h1]
  have h3 := C14_set_col (j := k) h2 hv hx
  refine ⟨t, ?_, h2.rows, h2.cols, h2.init⟩
  by_cases hn : n ≠ r
  · rw [if_pos hn]; exact h3.1 hn
  · rw [if_neg hn]
    exact h3.2.1 (by simpa using hn) (by have := hbad.resolve_left hn; omega)

/-- C17: at the maximum size an insertion fails and changes nothing. -/
theorem C17_full {s : Mat F} {r c : Nat} {f : Nat → Nat → F} (hs : MatIs s r c f) (v : Vec F)
    (k : Nat) :
    (r = 4 → Mat.addRow v k s = (.error (.err .RowsNumberOverflow), s)) ∧
    (c = 4 → Mat.addCol v k s = (.error (.err .ColsNumberOverflow), s)) := by
  constructor
  · intro h
    have hu : u8Add (ε := LinalgError) F s.rows 1 = .ok 5 := by
      rw [hs.rows_eq, h]; exact u8Add_ok (by omega)
    simp [Mat.addRow, hu, isValidRowsNumber, M_MAX, fail]
  · intro h
    have hu : u8Add (ε := LinalgError) F s.cols 1 = .ok 5 := by
      rw [hs.cols_eq, h]; exact u8Add_ok (by omega)
    simp [Mat.addCol, hu, isValidColsNumber, N_MAX, fail]

/-! ### C18 -/

/-- C18: `diag` for every `i8` value of `k`. -/
theorem C18_diag {a : Mat F} {r c : Nat} {f : Nat → Nat → F} (ha : MatIs a r c f)
    (hf : ∀ i j, i < r → j < c → Finite (f i j)) (k : Int) (h1 : -128 ≤ k) (h2 : k ≤ 127)
    (len : Int) (hlen : len = if 0 ≤ k then min (r : Int) (c - k) else min (r + k) (c : Int)) :
    (len ≤ 0 → a.diag (some k) = .error (.err .InvalidDiagonalLength)) ∧
    (0 < len → ∃ v, a.diag (some k) = .ok v ∧
      VecIs v len.toNat (fun i => if 0 ≤ k then f i (i + k.toNat) else f (i + (-k).toNat) i)) := by
  have hr4 := ha.rle
  have hc4 := ha.cle
  have hr1 := ha.rpos
  have hc1 := ha.cpos
  have hmin : ∀ x y : Int, Utils.minInt x y = min x y := by
    intro x y; unfold Utils.minInt; split <;> omega
  have hlen' : (if k ≥ 0 then (do
        .ok (Utils.minInt (wrapI8 a.rows) (← i8Result F (wrapI8 a.cols - k))))
      else do
        .ok (Utils.minInt (← i8Result F (wrapI8 a.rows + k)) (wrapI8 a.cols)) : Res LinalgError Int) =
      .ok len := by
    rw [ha.rows_eq, ha.cols_eq, Mat.wrapI8_small ha.rle, Mat.wrapI8_small ha.cle, hlen]
    by_cases hk : 0 ≤ k
    · simp only [ge_iff_le, hk, if_true, i8Result]
      rw [if_pos (by omega)]
      simp [hmin]
    · simp only [ge_iff_le, hk, if_false, i8Result]
      rw [if_pos (by omega)]
      simp [hmin]
  unfold Mat.diag
  simp only [Option.getD_some]
  rw [hlen', Res.ok_bind]
  constructor
  · intro h
    rw [if_pos h]
  · intro h
    have hl4 : len ≤ 4 := by rw [hlen]; split <;> omega
    obtain ⟨n, rfl⟩ : ∃ n : Nat, len = n := ⟨len.toNat, by omega⟩
    rw [if_neg (by omega), show ((n : Int) % 256).toNat = n by omega,
      Vec.init_new (by omega) (by omega), Res.ok_bind, Int.toNat_natCast]
    obtain ⟨v, e, hv⟩ := foldRange_inv (ε := LinalgError)
      (fun i (vect : Vec F) => do
        let i : Int := i
        let row ← (if k ≥ 0 then .ok i else i8Result F (i - k) : Res LinalgError Int)
        let col ← (if k ≥ 0 then i8Result F (i + k) else .ok i : Res LinalgError Int)
        let element ← a.getElement (row % 256).toNat (col % 256).toNat
        exec vect (Vec.setElement (i % 256).toNat element))
      (fun t v => VecIs v n (fun i =>
        if i < t then (if 0 ≤ k then f i (i + k.toNat) else f (i + (-k).toNat) i) else lit 0))
      0 n (by omega) (Vec.zeros n)
      ((Vec.zeros_is (by omega) (by omega)).congr fun i _ => by simp)
      (fun i v _ hi hv => by
        have h256 : ((i : Int) % 256).toNat = i := by omega
        by_cases hk : 0 ≤ k
        · have e1 : i8Result (ε := LinalgError) F ((i : Int) + k) = .ok ((i : Int) + k) := by
            unfold i8Result
            rw [if_pos]
            rw [if_pos hk] at hlen
            omega
          have hb : i + k.toNat < c ∧ i < r := by rw [if_pos hk] at hlen; omega
          have h256' : (((i : Int) + k) % 256).toNat = i + k.toNat := by omega
          simp only [ge_iff_le, hk, if_true, Res.ok_bind, e1, h256, h256',
            ha.get i (i + k.toNat) hb.2 hb.1]
          obtain ⟨v', e, hv'⟩ := hv.exec_set (i := i) hi (hf i _ hb.2 hb.1)
          refine ⟨v', e, hv'.congr fun p _ => ?_⟩
          by_cases hp : p = i
          · subst hp; simp
          · by_cases hlt : p < i
            · simp [hk, hp, hlt, show p < i + 1 by omega]
            · simp [hp, hlt, show ¬ p < i + 1 by omega]
        · have e1 : i8Result (ε := LinalgError) F ((i : Int) - k) = .ok ((i : Int) - k) := by
            unfold i8Result
            rw [if_pos]
            rw [if_neg hk] at hlen
            omega
          have hb : i + (-k).toNat < r ∧ i < c := by rw [if_neg hk] at hlen; omega
          have h256' : (((i : Int) - k) % 256).toNat = i + (-k).toNat := by omega
          simp only [ge_iff_le, hk, if_false, Res.ok_bind, e1, h256, h256',
            ha.get (i + (-k).toNat) i hb.1 hb.2]
          obtain ⟨v', e, hv'⟩ := hv.exec_set (i := i) hi (hf _ i hb.1 hb.2)
          refine ⟨v', e, hv'.congr fun p _ => ?_⟩
          by_cases hp : p = i
          · subst hp; simp
          · by_cases hlt : p < i
            · simp [hk, hp, hlt, show p < i + 1 by omega]
            · simp [hp, hlt, show ¬ p < i + 1 by omega])
    exact ⟨v, e, hv.congr fun i hi => by simp [hi]⟩

/-- C18: without an argument `diag` extracts the main diagonal. -/
theorem C18_default (a : Mat F) : a.diag none = a.diag (some 0) := rfl

/-! ### C33 -/

/-- C33: the reductions, for every arithmetic. -/
theorem C33_dot {v w : Vec F} {n m : Nat} {f g : Nat → F} (hv : VecIs v n f) (hw : VecIs w m g) :
    (n = m → v.dotProduct w = .ok (sumUp n fun i => f i *ᶠ g i)) ∧
    (n ≠ m → v.dotProduct w = .error (.err .NotSameSize)) := by
  constructor
  · rintro rfl; exact Vec.dotProduct_eq hv hw
  · intro h
    unfold Vec.dotProduct Vec.isSameSizeAs
    simp [hv.init, hw.init, hv.rows_eq, hw.rows_eq, h, fail]

theorem C33_outer {v w : Vec F} {n m : Nat} {f g : Nat → F} (hv : VecIs v n f) (hw : VecIs w m g) :
    ((∃ a, v.outerProduct w = .ok a) ↔ ∀ i j, i < n → j < m → Finite (f i *ᶠ g j)) ∧
    ∀ a, v.outerProduct w = .ok a → MatIs a n m (fun i j => f i *ᶠ g j) := by
  obtain ⟨o, h1, h2⟩ := Vec.outerProduct_eq hv hw
  rcases h1.cases with ⟨hf, e⟩ | ⟨i, j, hi, hj, _, hb, e⟩
  · rw [e] at h2
    rw [h2]
    exact ⟨⟨fun _ => hf, fun _ => ⟨_, rfl⟩⟩, fun a ha => by
      cases ha; exact (Mat.zeros_is hv.pos hv.le hw.pos hw.le).overwrite _⟩
  · rw [e] at h2
    rw [h2]
    exact ⟨⟨by simp, fun h => absurd (h i j hi hj) hb⟩, by simp⟩

theorem C33_trace {a : Mat F} {r c : Nat} {f : Nat → Nat → F} (ha : MatIs a r c f) :
    (r = c → a.trace = .ok (sumUp r fun i => f i i)) ∧
    (r ≠ c → a.trace = .error (.err .NotSquare)) := by
  constructor
  · rintro rfl; exact Mat.trace_eq ha
  · intro h
    unfold Mat.trace
    simp [Mat.isSquare_eq ha, h, fail]

theorem C33_frobenius {a : Mat F} {r c : Nat} {f : Nat → Nat → F} (ha : MatIs a r c f) :
    a.calculateFrobeniusNorm = .ok (Scalar.sqrt
      (sumUp (r * c) fun p => f (p / c) (p % c) *ᶠ f (p / c) (p % c))) := by
  unfold Mat.calculateFrobeniusNorm
  rw [ha.rows_eq, ha.cols_eq]
  have := foldRange_ok (ε := LinalgError)
    (fun row acc => foldRange 0 c
      (fun col acc => do
        .ok (acc +ᶠ ((← a.getElement row col) *ᶠ (← a.getElement row col)))) acc)
    (fun i => sumUp (i * c) fun p => f (p / c) (p % c) *ᶠ f (p / c) (p % c)) 0 r (Nat.zero_le _)
    (fun i _ hi => by
      have := foldRange_ok (ε := LinalgError)
        (fun col acc => do
          .ok (acc +ᶠ ((← a.getElement i col) *ᶠ (← a.getElement i col))))
        (fun j => sumUp (i * c + j) fun p => f (p / c) (p % c) *ᶠ f (p / c) (p % c)) 0 c
        (Nat.zero_le _) (fun j _ hj => by
          simp only [ha.get i j hi hj, Res.ok_bind]
          rw [← Nat.add_assoc, sumUp, MatIs.div_eq hj, MatIs.mod_eq hj])
      rw [Nat.add_zero] at this
      rw [this, Nat.add_mul, Nat.one_mul])
  rw [Nat.zero_mul] at this
  rw [show sumUp 0 (fun p => f (p / c) (p % c) *ᶠ f (p / c) (p % c)) = (lit 0 : F) from rfl] at this
  rw [this]
  rfl

theorem C33_to_matrix {v : Vec F} {n : Nat} {f : Nat → F} (hv : VecIs v n f)
    (hf : ∀ i, i < n → Finite (f i)) :
    ∃ a, v.convertToMatrix = .ok a ∧ MatIs a n 1 (fun i _ => f i) :=
  Vec.convertToMatrix_ok hv hf

/-- C33 in exact arithmetic: scalar product, outer product, trace, Frobenius norm. -/
theorem C33_exact {v w : Vec XR} {m : Mat XR} {n p r : Nat} {a b : Nat → ℝ} {A : Nat → Nat → ℝ}
    (hv : VecIs v n (fun i => .fin (a i))) (hw : VecIs w p (fun i => .fin (b i)))
    (hm : MatIs m r r (fun i j => .fin (A i j))) :
    (n = p → v.dotProduct w = .ok (.fin (∑ i ∈ range n, a i * b i))) ∧
    (∃ o, v.outerProduct w = .ok o ∧ MatIs o n p (fun i j => .fin (a i * b j))) ∧
    m.trace = .ok (.fin (toMatrix r r A).trace) ∧
    m.calculateFrobeniusNorm =
      .ok (.fin (Real.sqrt (∑ i ∈ range r, ∑ j ∈ range r, A i j ^ 2))) := by
  refine ⟨fun h => ?_, ?_, ?_, ?_⟩
  · rw [(C33_dot hv hw).1 h]
    simp only [Ext.mul_fin, sumUp_fin]
  · obtain ⟨o, h1, h2⟩ := Vec.outerProduct_ok hv hw fun i j _ _ => by simp
    exact ⟨o, h1, h2.congr fun i j _ _ => by simp⟩
  · rw [(C33_trace hm).1 rfl, sumUp_fin, Matrix.trace, Finset.sum_range]
    rfl
  · rw [C33_frobenius hm]
    simp only [Ext.mul_fin, sumUp_fin]
    have : ∑ i ∈ range r, ∑ j ∈ range r, A i j ^ 2 =
        ∑ i ∈ range (r * r), A (i / r) (i % r) * A (i / r) (i % r) := by
      rw [Finset.sum_range (n := r * r)]
      have e := (finProdFinEquiv (m := r) (n := r)).sum_comp
        (fun i : Fin (r * r) => A (i.val / r) (i.val % r) * A (i.val / r) (i.val % r))
      rw [← e, Fintype.sum_prod_type, Finset.sum_range]
      refine Finset.sum_congr rfl fun i _ => ?_
      rw [Finset.sum_range]
      refine Finset.sum_congr rfl fun j _ => ?_
      have hv : (finProdFinEquiv (i, j) : Fin (r * r)).val = i.val * r + j.val := by
        simp [finProdFinEquiv]; ring
      rw [hv, MatIs.div_eq j.2, MatIs.mod_eq j.2]
      ring
    rw [← this, Ext.sqrt_fin (Finset.sum_nonneg fun i _ => Finset.sum_nonneg fun j _ => sq_nonneg _)]
    rfl

/-! ### Concrete cases -/

/-- A 3×2 matrix. -/
def exMat' : Mat XQ :=
  { rows := 3, cols := 2, initialized := true,
    elements := ![.fin 1, .fin 0, .fin 2, .fin 1, .fin 0, .fin 3, .fin 0, .fin 0,
      .fin 0, .fin 0, .fin 0, .fin 0, .fin 0, .fin 0, .fin 0, .fin 0] }

def exVec3 : Vec XQ := { rows := 3, elements := ![.fin 7, .fin 8, .fin 9, .fin 0], initialized := true }

example : exMat.mulNew exMat' >>= (fun m => m.getElement 1 1) = .ok (.fin 23) := by decide +kernel
example : (exMat.transposeNew >>= fun m => m.getElement 2 1) = .ok (.fin 6) := by decide +kernel
example : (Mat.setRow exVec3 1 exMat).1 = .ok () ∧
    (Mat.setRow exVec3 1 exMat).2.getElement 1 2 = .ok (.fin 9) := by decide +kernel
example : (Mat.addRow exVec3 1 exMat).1 = .ok () ∧
    (Mat.addRow exVec3 1 exMat).2.getElement 2 0 = .ok (.fin 4) ∧
    (Mat.addRow exVec3 1 exMat).2.getElement 1 0 = .ok (.fin 7) := by decide +kernel
example : (Mat.addCol exVec 0 exMat).1 = .ok () ∧
    (Mat.addCol exVec 0 exMat).2.getElement 1 0 = .ok (.fin 7) ∧
    (Mat.addCol exVec 0 exMat).2.getElement 1 3 = .ok (.fin 6) := by decide +kernel
example : (Mat.delRow 0 exMat).2.getElement 0 2 = .ok (.fin 6) := by decide +kernel
/-- Insertion beyond the end: an error, and one more row. -/
example : (Mat.addRow exVec3 3 exMat).1 = .error (.err .InvalidRow) ∧
    (Mat.addRow exVec3 3 exMat).2.getRows = .ok 3 := by decide +kernel
example : (exMat.diag (some 1) >>= fun v => v.getElement 1) = .ok (.fin 6) ∧
    (exMat.diag (some (-1)) >>= fun v => v.getRows) = .ok 1 ∧
    exMat.diag (some 3) >>= (fun v => v.getRows) = .error (.err .InvalidDiagonalLength) := by
  decide +kernel

end Verif
