import Verif.Lib.VecOps

/-
What the matrix operations compute, in terms of `MatIs` and `Mat.Stores`.
-/

set_option linter.unusedSectionVars false
set_option linter.unusedSimpArgs false

namespace Verif
open Scalar

variable {F : Type} [Scalar F]

/-- A loop whose first steps succeed and whose step `k` fails. -/
theorem forRange_fail {ε σ : Type} (body : Nat → Op ε σ Unit) (st : Nat → σ) (lo hi k : Nat)
    (h1 : lo ≤ k) (h2 : k < hi) (e : Fail ε) (s' : σ)
    (hok : ∀ i, lo ≤ i → i < k → body i (st i) = (.ok (), st (i + 1)))
    (hk : body k (st k) = (.error e, s')) : forRange lo hi body (st lo) = (.error e, s') := by
  unfold forRange
  obtain ⟨a, rfl⟩ : ∃ a, k = lo + a := ⟨k - lo, by omega⟩
  obtain ⟨b, hb⟩ : ∃ b, hi - lo = a + (b + 1) := ⟨hi - lo - a - 1, by omega⟩
  rw [hb, forFrom_add]
  have := forRange_ok body st lo (lo + a) (by omega) hok
  unfold forRange at this
  rw [Nat.add_sub_cancel_left] at this
  rw [Op.bind_ok this, forFrom_succ, Op.bind_err hk]

theorem MatIs.get_overwrite {m : Mat F} {r c i j : Nat} {f g : Nat → Nat → F} (h : MatIs m r c f)
    (hi : i < r) (hj : j < c) :
    (m.overwrite (i * c + j) g).getElement i j = .ok (f i j) := by
  have h16 : i * c + j < 16 := Mat.index_lt hi hj h.rle h.cle
  have hc := h.cols_eq
  rw [Mat.getElement_eq (by exact h.init) (by simpa [h.rows_eq] using hi)
    (by simpa [h.cols_eq] using hj) (by simpa [h.cols_eq] using h16)]
  simp only [Mat.overwrite, hc, lt_irrefl, if_false, h.elem h16 hi hj]

namespace Mat

/-- A freshly initialised matrix. -/
def zeros (r c : Nat) : Mat F :=
  { rows := r, cols := c, elements := fun _ => lit 0, initialized := true }

theorem init_new {r c : Nat} (h1 : 1 ≤ r) (h4 : r ≤ 4) (h1' : 1 ≤ c) (h4' : c ≤ 4) :
    exec (Mat.new : Mat F) (Mat.init r c) = .ok (zeros r c) := by
  have h : isValidRowsNumber r = .ok () := isValidRowsNumber_ok_iff.mpr ⟨h1, h4⟩
  have h' : isValidColsNumber c = .ok () := isValidColsNumber_ok_iff.mpr ⟨h1', h4'⟩
  unfold exec Mat.init
  simp [Mat.new, h, h', zeros]

theorem zeros_is {r c : Nat} (h1 : 1 ≤ r) (h4 : r ≤ 4) (h1' : 1 ≤ c) (h4' : c ≤ 4) :
    MatIs (zeros r c : Mat F) r c (fun _ _ => lit 0) := by
  rw [matIs_iff]; exact ⟨h1, h4, h1', h4', rfl, rfl, rfl, fun _ _ _ _ _ => rfl⟩

theorem init_of {m : Mat F} {r c : Nat} {f : Nat → Nat → F} (h : MatIs m r c f) :
    exec (Mat.new : Mat F) (Mat.init r c) = .ok (zeros r c) := init_new h.rpos h.rle h.cpos h.cle

theorem zeros_of {m : Mat F} {r c : Nat} {f : Nat → Nat → F} (h : MatIs m r c f) :
    MatIs (zeros r c : Mat F) r c (fun _ _ => lit 0) := zeros_is h.rpos h.rle h.cpos h.cle

variable {s a b : Mat F} {r c : Nat} {f f0 g : Nat → Nat → F}

theorem fill_stores {x : F} (hs : MatIs s r c f0) : s.Stores r c (fun _ _ => x) (fill x s) := by
  unfold fill
  simp only [Op.get_bind]
  rw [hs.rows_eq, hs.cols_eq]
  exact stores_of_loop hs.init hs.rows_eq hs.cols_eq hs.rle hs.cle fun i j _ _ => rfl

theorem copyFrom_stores (hs : MatIs s r c f0) (ha : MatIs a r c f) :
    s.Stores r c f (copyFrom a s) := by
  unfold copyFrom
  simp only [Op.get_bind, hs.sameSize ha, Op.liftOk_bind, Bool.not_true, Bool.false_eq_true, if_false]
  rw [hs.rows_eq, hs.cols_eq]
  exact stores_of_loop hs.init hs.rows_eq hs.cols_eq hs.rle hs.cle fun i j hi hj => by
    simp [ha.get i j hi hj]

theorem isSquare_eq (hs : MatIs s r c f) : s.isSquare = .ok (decide (r = c)) := by
  unfold isSquare
  simp only [hs.init, hs.rows_eq, hs.cols_eq]
  by_cases h : r = c <;> simp [h]

theorem fillIdentity_stores {n : Nat} (hs : MatIs s n n f0) :
    s.Stores n n (fun i j => if i = j then lit 1 else lit 0) (fillIdentity s) := by
  unfold fillIdentity
  simp only [Op.get_bind, isSquare_eq hs, Op.liftOk_bind, decide_true, Bool.not_true,
    Bool.false_eq_true, if_false]
  rw [hs.rows_eq, hs.cols_eq]
  exact stores_of_loop hs.init hs.rows_eq hs.cols_eq hs.rle hs.cle fun i j hi hj => by
    split <;> rfl

theorem add_stores (hs : MatIs s r c f0) (ha : MatIs a r c f) (hb : MatIs b r c g) :
    s.Stores r c (fun i j => f i j +ᶠ g i j) (add a b s) := by
  unfold add
  simp only [Op.get_bind, hs.sameSize ha, hs.sameSize hb, Op.liftOk_bind, Bool.not_true,
    Bool.false_eq_true, if_false]
  rw [hs.rows_eq, hs.cols_eq]
  exact stores_of_loop hs.init hs.rows_eq hs.cols_eq hs.rle hs.cle fun i j hi hj => by
    simp [ha.get i j hi hj, hb.get i j hi hj]

theorem addInPlace_stores (hs : MatIs s r c f) (hb : MatIs b r c g) :
    s.Stores r c (fun i j => f i j +ᶠ g i j) (addInPlace b s) := by
  unfold addInPlace
  simp only [Op.get_bind, hs.sameSize hb, Op.liftOk_bind, Bool.not_true,
    Bool.false_eq_true, if_false]
  rw [hs.rows_eq, hs.cols_eq]
  exact stores_of_loop hs.init hs.rows_eq hs.cols_eq hs.rle hs.cle fun i j hi hj => by
    simp [hs.get_overwrite hi hj, hb.get i j hi hj]

theorem addNew_eq (ha : MatIs a r c f) (hb : MatIs b r c g) :
    a.addNew b = exec (zeros r c) (add a b) := by
  unfold addNew
  simp [ha.sameSize hb, ha.rows_eq, ha.cols_eq, init_of ha]

theorem sub_stores (hs : MatIs s r c f0) (ha : MatIs a r c f) (hb : MatIs b r c g) :
    s.Stores r c (fun i j => f i j -ᶠ g i j) (sub a b s) := by
  unfold sub
  simp only [Op.get_bind, hs.sameSize ha, hs.sameSize hb, Op.liftOk_bind, Bool.not_true,
    Bool.false_eq_true, if_false]
  rw [hs.rows_eq, hs.cols_eq]
  exact stores_of_loop hs.init hs.rows_eq hs.cols_eq hs.rle hs.cle fun i j hi hj => by
    simp [ha.get i j hi hj, hb.get i j hi hj]

theorem subInPlace_stores (hs : MatIs s r c f) (hb : MatIs b r c g) :
    s.Stores r c (fun i j => f i j -ᶠ g i j) (subInPlace b s) := by
  unfold subInPlace
  simp only [Op.get_bind, hs.sameSize hb, Op.liftOk_bind, Bool.not_true,
    Bool.false_eq_true, if_false]
  rw [hs.rows_eq, hs.cols_eq]
  exact stores_of_loop hs.init hs.rows_eq hs.cols_eq hs.rle hs.cle fun i j hi hj => by
    simp [hs.get_overwrite hi hj, hb.get i j hi hj]

theorem subNew_eq (ha : MatIs a r c f) (hb : MatIs b r c g) :
    a.subNew b = exec (zeros r c) (sub a b) := by
  unfold subNew
  simp [ha.sameSize hb, ha.rows_eq, ha.cols_eq, init_of ha]

theorem addScalar_stores {x : F} (hs : MatIs s r c f0) (ha : MatIs a r c f) :
    s.Stores r c (fun i j => f i j +ᶠ x) (addScalar a x s) := by
  unfold addScalar
  simp only [Op.get_bind, hs.sameSize ha, Op.liftOk_bind, Bool.not_true,
    Bool.false_eq_true, if_false]
  rw [hs.rows_eq, hs.cols_eq]
  exact stores_of_loop hs.init hs.rows_eq hs.cols_eq hs.rle hs.cle fun i j hi hj => by
    simp [ha.get i j hi hj]

theorem subScalar_stores {x : F} (hs : MatIs s r c f0) (ha : MatIs a r c f) :
    s.Stores r c (fun i j => f i j -ᶠ x) (subScalar a x s) := by
  unfold subScalar
  simp only [Op.get_bind, hs.sameSize ha, Op.liftOk_bind, Bool.not_true,
    Bool.false_eq_true, if_false]
  rw [hs.rows_eq, hs.cols_eq]
  exact stores_of_loop hs.init hs.rows_eq hs.cols_eq hs.rle hs.cle fun i j hi hj => by
    simp [ha.get i j hi hj]

theorem addScalarInPlace_stores {x : F} (hs : MatIs s r c f) :
    s.Stores r c (fun i j => f i j +ᶠ x) (addScalarInPlace x s) := by
  unfold addScalarInPlace
  simp only [Op.get_bind]
  rw [hs.rows_eq, hs.cols_eq]
  exact stores_of_loop hs.init hs.rows_eq hs.cols_eq hs.rle hs.cle fun i j hi hj => by
    simp [hs.get_overwrite hi hj]

theorem subScalarInPlace_stores {x : F} (hs : MatIs s r c f) :
    s.Stores r c (fun i j => f i j -ᶠ x) (subScalarInPlace x s) := by
  unfold subScalarInPlace
  simp only [Op.get_bind]
  rw [hs.rows_eq, hs.cols_eq]
  exact stores_of_loop hs.init hs.rows_eq hs.cols_eq hs.rle hs.cle fun i j hi hj => by
    simp [hs.get_overwrite hi hj]

theorem mulByScalarInPlace_stores {x : F} (hs : MatIs s r c f) :
    s.Stores r c (fun i j => f i j *ᶠ x) (mulByScalarInPlace x s) := by
  unfold mulByScalarInPlace
  simp only [Op.get_bind]
  rw [hs.rows_eq, hs.cols_eq]
  exact stores_of_loop hs.init hs.rows_eq hs.cols_eq hs.rle hs.cle fun i j hi hj => by
    simp [hs.get_overwrite hi hj]

theorem powerElements_stores {x : F} (hs : MatIs s r c f) :
    s.Stores r c (fun i j => Scalar.pow (f i j) x) (powerElements x s) := by
  unfold powerElements
  simp only [Op.get_bind]
  rw [hs.rows_eq, hs.cols_eq]
  exact stores_of_loop hs.init hs.rows_eq hs.cols_eq hs.rle hs.cle fun i j hi hj => by
    simp [hs.get_overwrite hi hj]

theorem addScalarNew_eq {x : F} (ha : MatIs a r c f) :
    a.addScalarNew x = exec (zeros r c) (addScalar a x) := by
  unfold addScalarNew addScalar
  have hz := (zeros_of ha).sameSize ha
  simp only [ha.init, ha.rows_eq, ha.cols_eq, init_of ha, Bool.not_true, Bool.false_eq_true, if_false,
    Res.ok_bind]
  unfold exec
  simp only [Op.get_bind, hz, Op.liftOk_bind, Bool.not_true, Bool.false_eq_true, if_false]
  rfl

theorem subScalarNew_eq {x : F} (ha : MatIs a r c f) :
    a.subScalarNew x = exec (zeros r c) (subScalar a x) := by
  unfold subScalarNew
  simp [ha.init, ha.rows_eq, ha.cols_eq, init_of ha]

theorem exec_of_stores {m : Op LinalgError (Mat F) Unit} (h : s.Stores r c g (m s))
    (hs : MatIs s r c f0) (hg : ∀ i j, i < r → j < c → Finite (g i j)) :
    ∃ s', exec s m = .ok s' ∧ MatIs s' r c g :=
  ⟨_, exec_ok (h.ok hg), hs.overwrite g⟩

theorem run_of_stores {m : Op LinalgError (Mat F) Unit} (h : s.Stores r c g (m s))
    (hs : MatIs s r c f0) (hg : ∀ i j, i < r → j < c → Finite (g i j)) :
    ∃ s', m s = (.ok (), s') ∧ MatIs s' r c g :=
  ⟨_, h.ok hg, hs.overwrite g⟩

theorem exec_stores_inv {m : Op LinalgError (Mat F) Unit} {s' : Mat F} (h : s.Stores r c g (m s))
    (hs : MatIs s r c f0) (hr : exec s m = .ok s') :
    (∀ i j, i < r → j < c → Finite (g i j)) ∧ MatIs s' r c g := by
  obtain ⟨_, h1⟩ := exec_eq_ok hr
  rcases h.cases with ⟨hf, e⟩ | ⟨i, j, _, _, _, _, e⟩
  · rw [h1] at e; simp at e
    exact ⟨hf, e ▸ hs.overwrite g⟩
  · rw [h1] at e; simp at e

theorem run_stores_inv {m : Op LinalgError (Mat F) Unit} {s' : Mat F} (h : s.Stores r c g (m s))
    (hs : MatIs s r c f0) (hr : m s = (.ok (), s')) :
    (∀ i j, i < r → j < c → Finite (g i j)) ∧ MatIs s' r c g :=
  exec_stores_inv h hs (exec_ok hr)

theorem duplicate_ok (ha : MatIs a r c f) (hf : ∀ i j, i < r → j < c → Finite (f i j)) :
    ∃ d, a.duplicate = .ok d ∧ MatIs d r c f := by
  unfold duplicate
  rw [ha.rows_eq, ha.cols_eq, init_of ha, Res.ok_bind]
  exact exec_of_stores (copyFrom_stores (zeros_of ha) ha) (zeros_of ha) hf

theorem duplicate_inv {d : Mat F} (ha : MatIs a r c f) (hd : a.duplicate = .ok d) :
    (∀ i j, i < r → j < c → Finite (f i j)) ∧ MatIs d r c f := by
  unfold duplicate at hd
  rw [ha.rows_eq, ha.cols_eq, init_of ha, Res.ok_bind] at hd
  exact exec_stores_inv (copyFrom_stores (zeros_of ha) ha) (zeros_of ha) hd

/-! ### Multiplication -/

theorem put_put (m : Mat F) (i j : Nat) (x y : F) : (m.put i j x).put i j y = m.put i j y := by
  unfold put
  congr 1; funext p
  simp only
  split <;> rfl

variable {k : Nat}

/-- The terms of one cell of a product. -/
def cellTerm (f g : Nat → Nat → F) (i j l : Nat) : F := f i l *ᶠ g l j

theorem mulCell_ok {i j : Nat} (ha : MatIs a r k f) (hb : MatIs b k c g) (hs : MatIs s r c f0)
    (hi : i < r) (hj : j < c) (len col1 : Nat) (hl : col1 + len ≤ k)
    (hf : ∀ l, col1 ≤ l → l < col1 + len → Finite (sumUp (l + 1) (cellTerm f g i j))) :
    mulCell a b i j col1 len (sumUp col1 (cellTerm f g i j)) s =
      (.ok (), if len = 0 then s else s.put i j (sumUp (col1 + len) (cellTerm f g i j))) := by
  induction len generalizing col1 s f0 with
  | zero => rfl
  | succ len ih =>
    have h1 := hf col1 (le_refl _) (by omega)
    unfold mulCell
    simp only [ha.get i col1 hi (by omega), hb.get col1 j (by omega) hj, Op.liftOk_bind]
    have h2 : sumUp col1 (cellTerm f g i j) +ᶠ (f i col1 *ᶠ g col1 j) =
      sumUp (col1 + 1) (cellTerm f g i j) := rfl
    rw [h2, Op.bind_ok (hs.set_ok hi hj h1), ih (hs.put i j hj _) (col1 + 1) (by omega)
      (fun l a b => hf l (by omega) (by omega))]
    rcases Nat.eq_zero_or_pos len with h0 | h0
    · subst h0; rfl
    · simp only [Nat.pos_iff_ne_zero.mp h0, if_false, Nat.add_eq_zero_iff, one_ne_zero, and_false,
        put_put]
      rw [show col1 + 1 + len = col1 + (len + 1) by omega]

theorem mulCell_err {i j : Nat} (ha : MatIs a r k f) (hb : MatIs b k c g) (hs : MatIs s r c f0)
    (hi : i < r) (hj : j < c) (len col1 l : Nat) (hl : col1 + len ≤ k) (h1 : col1 ≤ l)
    (h2 : l < col1 + len)
    (hf : ∀ l', col1 ≤ l' → l' < l → Finite (sumUp (l' + 1) (cellTerm f g i j)))
    (hbad : ¬ Finite (sumUp (l + 1) (cellTerm f g i j))) :
    mulCell a b i j col1 len (sumUp col1 (cellTerm f g i j)) s =
      (.error (.err (valueErr (sumUp (l + 1) (cellTerm f g i j)))),
        if l = col1 then s else s.put i j (sumUp l (cellTerm f g i j))) := by
  induction len generalizing col1 s f0 with
  | zero => omega
  | succ len ih =>
    unfold mulCell
    simp only [ha.get i col1 hi (by omega), hb.get col1 j (by omega) hj, Op.liftOk_bind]
    have h3 : sumUp col1 (cellTerm f g i j) +ᶠ (f i col1 *ᶠ g col1 j) =
      sumUp (col1 + 1) (cellTerm f g i j) := rfl
    rw [h3]
    rcases Nat.eq_or_lt_of_le h1 with he | hlt
    · subst he
      have := Mat.setElement_eq (x := sumUp (col1 + 1) (cellTerm f g i j)) hs.init
        (by rw [hs.rows_eq]; exact hi) (by rw [hs.cols_eq]; exact hj)
        (by rw [hs.cols_eq]; exact Mat.index_lt hi hj hs.rle hs.cle)
      rw [if_neg hbad] at this
      rw [Op.bind_err this]
      simp
    · have h4 := hf col1 (le_refl _) hlt
      rw [Op.bind_ok (hs.set_ok hi hj h4), ih (hs.put i j hj _) (col1 + 1) (by omega) (by omega)
        (by omega) (fun l' a b => hf l' (by omega) (by omega))]
      by_cases h5 : l = col1 + 1
      · subst h5; simp
      · have h6 : l ≠ col1 := by omega
        simp [h5, h6, put_put]

theorem mul_guard (ha : MatIs a r k f) (hb : MatIs b k c g) (hs : MatIs s r c f0) :
    mul a b s = forRange 0 (r * c) (fun p => mulCell a b (p / c) (p % c) 0 k (lit 0)) s := by
  unfold mul
  simp only [Op.get_bind, ha.cols_eq, hb.rows_eq, hs.rows_eq, ha.rows_eq, hs.cols_eq, hb.cols_eq,
    ne_eq, not_true, or_self, if_false]
  rw [forRange_flatten]

theorem divmod {k r c : Nat} (hk : k < r * c) :
    k / c < r ∧ k % c < c ∧ k / c * c + k % c = k := by
  have hc0 : 0 < c := by
    rcases Nat.eq_zero_or_pos c with h | h
    · subst h; simp at hk
    · exact h
  exact ⟨Nat.div_lt_of_lt_mul (by rw [Nat.mul_comm]; exact hk), Nat.mod_lt _ hc0,
    Nat.div_add_mod' k c⟩

/-- Any overwriting of a prefix keeps the shape. -/
theorem overwrite_shape (hs : MatIs s r c f0) (p : Nat) (g : Nat → Nat → F) :
    ∃ f', MatIs (s.overwrite p g) r c f' := by
  refine ⟨fun i j => if h : i * c + j < 16 then (s.overwrite p g).elements ⟨i * c + j, h⟩ else lit 0,
    ?_⟩
  rw [matIs_iff]
  refine ⟨hs.rpos, hs.rle, hs.cpos, hs.cle, hs.init, hs.rows_eq, hs.cols_eq, fun i j h16 _ _ => ?_⟩
  simp [h16]

theorem mulStep_ok (ha : MatIs a r k f) (hb : MatIs b k c g) (hs : MatIs s r c f0) {p : Nat}
    (hp : p < r * c)
    (hf : ∀ l, l < k → Finite (sumUp (l + 1) (cellTerm f g (p / c) (p % c)))) :
    mulCell a b (p / c) (p % c) 0 k (lit 0)
      (s.overwrite p fun i j => sumUp k (cellTerm f g i j)) =
      (.ok (), s.overwrite (p + 1) fun i j => sumUp k (cellTerm f g i j)) := by
  obtain ⟨h1, h2, h3⟩ := divmod hp
  obtain ⟨f', hf'⟩ := overwrite_shape hs p fun i j => sumUp k (cellTerm f g i j)
  have := mulCell_ok ha hb hf' h1 h2 k 0 (by omega) (fun l _ hl => hf l (by omega))
  have hk : k ≠ 0 := by have := ha.cpos; omega
  rw [if_neg hk, Nat.zero_add] at this
  have h6 := overwrite_succ s p fun i j => sumUp k (cellTerm f g i j)
  rw [hs.cols_eq] at h6
  rw [← h6]
  exact this

theorem mul_ok (ha : MatIs a r k f) (hb : MatIs b k c g) (hs : MatIs s r c f0)
    (hf : ∀ i j l, i < r → j < c → l < k → Finite (sumUp (l + 1) (cellTerm f g i j))) :
    mul a b s = (.ok (), s.overwrite (r * c) fun i j => sumUp k (cellTerm f g i j)) := by
  rw [mul_guard ha hb hs]
  have := forRange_ok (fun p => mulCell a b (p / c) (p % c) 0 k (lit 0))
    (fun p => s.overwrite p fun i j => sumUp k (cellTerm f g i j)) 0 (r * c) (Nat.zero_le _)
    (fun p _ hp => mulStep_ok ha hb hs hp fun l hl =>
      hf _ _ l (divmod hp).1 (divmod hp).2.1 hl)
  rwa [overwrite_zero] at this

theorem mul_err (ha : MatIs a r k f) (hb : MatIs b k c g) (hs : MatIs s r c f0) {i j l : Nat}
    (hi : i < r) (hj : j < c) (hl : l < k)
    (hf : ∀ i' j' l', i' < r → j' < c → l' < k →
      (i' < i ∨ i' = i ∧ (j' < j ∨ j' = j ∧ l' < l)) → Finite (sumUp (l' + 1) (cellTerm f g i' j')))
    (hbad : ¬ Finite (sumUp (l + 1) (cellTerm f g i j))) :
    mul a b s = (.error (.err (valueErr (sumUp (l + 1) (cellTerm f g i j)))),
      if l = 0 then s.overwrite (i * c + j) fun i j => sumUp k (cellTerm f g i j)
      else (s.overwrite (i * c + j) fun i j => sumUp k (cellTerm f g i j)).put i j
        (sumUp l (cellTerm f g i j))) := by
  rw [mul_guard ha hb hs]
  have hp : i * c + j < r * c := (MatIs.idx_lt_iff hj).mpr hi
  obtain ⟨f', hf'⟩ := overwrite_shape hs (i * c + j) fun i j => sumUp k (cellTerm f g i j)
  have := forRange_fail (fun p => mulCell a b (p / c) (p % c) 0 k (lit 0))
    (fun p => s.overwrite p fun i j => sumUp k (cellTerm f g i j)) 0 (r * c) (i * c + j)
    (Nat.zero_le _) hp _ _
    (fun p _ hlt => mulStep_ok ha hb hs (by omega) fun l' hl' => by
      obtain ⟨h1, h2, h3⟩ := divmod (k := p) (r := r) (c := c) (by omega)
      refine hf _ _ l' h1 h2 hl' ?_
      rcases Nat.lt_trichotomy (p / c) i with h6 | h6 | h6
      · exact Or.inl h6
      · right; rw [h6] at h3; exact ⟨h6, Or.inl (by omega)⟩
      · exfalso
        have : (i + 1) * c ≤ p / c * c := Nat.mul_le_mul_right _ h6
        have h7 : (i + 1) * c = i * c + c := by ring
        omega)
    (by
      simp only [MatIs.div_eq hj, MatIs.mod_eq hj]
      exact mulCell_err ha hb hf' hi hj k 0 l (by omega) (by omega) (by omega)
        (fun l' _ hl' => hf i j l' hi hj (by omega) (Or.inr ⟨rfl, Or.inr ⟨rfl, hl'⟩⟩)) hbad)
  rwa [overwrite_zero] at this

/-- A product that succeeded. -/
theorem mul_inv {s' : Mat F} (ha : MatIs a r k f) (hb : MatIs b k c g) (hs : MatIs s r c f0)
    (hr : mul a b s = (.ok (), s')) :
    (∀ i j l, i < r → j < c → l < k → Finite (sumUp (l + 1) (cellTerm f g i j))) ∧
      MatIs s' r c (fun i j => sumUp k (cellTerm f g i j)) := by
  by_cases hf : ∀ i j l, i < r → j < c → l < k → Finite (sumUp (l + 1) (cellTerm f g i j))
  · refine ⟨hf, ?_⟩
    rw [mul_ok ha hb hs hf] at hr
    simp at hr
    rw [← hr]
    exact hs.overwrite _
  · exfalso
    classical
    push Not at hf
    have h1 := Nat.find_spec hf
    have h2 := Nat.find_spec h1
    have h3 := Nat.find_spec h2
    have := mul_err ha hb hs h3.1 h3.2.1 h3.2.2.1 (fun i' j' l' hi' hj' hl' h => by
      by_contra hc
      rcases h with h | ⟨he, h | ⟨he', h⟩⟩
      · exact Nat.find_min hf h ⟨j', l', hi', hj', hl', hc⟩
      · subst he; exact Nat.find_min h1 h ⟨l', hi', hj', hl', hc⟩
      · subst he; subst he'; exact Nat.find_min h2 h ⟨hi', hj', hl', hc⟩) h3.2.2.2
    rw [hr] at this
    simp at this

theorem mulNew_eq (ha : MatIs a r k f) (hb : MatIs b k c g) :
    a.mulNew b = exec (zeros r c) (mul a b) := by
  unfold mulNew
  rw [ha.rows, hb.cols]
  simp [init_new ha.rpos ha.rle hb.cpos hb.cle]

theorem mulNew_ok (ha : MatIs a r k f) (hb : MatIs b k c g)
    (hf : ∀ i j l, i < r → j < c → l < k → Finite (sumUp (l + 1) (cellTerm f g i j))) :
    ∃ m, a.mulNew b = .ok m ∧ MatIs m r c (fun i j => sumUp k (cellTerm f g i j)) := by
  rw [mulNew_eq ha hb]
  have hz := zeros_is (F := F) ha.rpos ha.rle hb.cpos hb.cle
  exact ⟨_, exec_ok (mul_ok ha hb hz hf), hz.overwrite _⟩

theorem mulNew_inv {m : Mat F} (ha : MatIs a r k f) (hb : MatIs b k c g)
    (h : a.mulNew b = .ok m) :
    (∀ i j l, i < r → j < c → l < k → Finite (sumUp (l + 1) (cellTerm f g i j))) ∧
      MatIs m r c (fun i j => sumUp k (cellTerm f g i j)) := by
  rw [mulNew_eq ha hb] at h
  obtain ⟨_, h1⟩ := exec_eq_ok h
  exact mul_inv ha hb (zeros_is (F := F) ha.rpos ha.rle hb.cpos hb.cle) h1

end Mat
end Verif
