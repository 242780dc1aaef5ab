import Mathlib.Tactic.Linarith
import Mathlib.Tactic.SplitIfs
import Mathlib.Tactic.Ring
import Verif.Basic

/-
Evaluation lemmas for `Op`, `Res` and the loop combinators.
-/

namespace Verif

section Op
variable {ε ε' σ τ α β : Type}

@[simp] theorem Op.pure_run (a : α) (s : σ) : (Pure.pure a : Op ε σ α) s = (.ok a, s) := rfl
@[simp] theorem Op.pure_run' (a : α) (s : σ) : (Op.pure a : Op ε σ α) s = (.ok a, s) := rfl
@[simp] theorem Op.get_run (s : σ) : (Op.get : Op ε σ σ) s = (.ok s, s) := rfl
@[simp] theorem Op.set_run (t s : σ) : (Op.set t : Op ε σ Unit) s = (.ok (), t) := rfl
@[simp] theorem Op.modify_run (f : σ → σ) (s : σ) :
    (Op.modify f : Op ε σ Unit) s = (.ok (), f s) := rfl
@[simp] theorem Op.fail_run (e : ε) (s : σ) :
    (Op.fail e : Op ε σ α) s = (.error (.err e), s) := rfl
@[simp] theorem Op.lift_run (r : Res ε α) (s : σ) : (Op.lift r : Op ε σ α) s = (r, s) := rfl
@[simp] theorem Op.monadLift_run (r : Res ε α) (s : σ) :
    (MonadLift.monadLift r : Op ε σ α) s = (r, s) := rfl
@[simp] theorem Op.monadLiftT_run (r : Res ε α) (s : σ) :
    (monadLift r : Op ε σ α) s = (r, s) := rfl
@[simp] theorem Op.liftM_run (r : Res ε α) (s : σ) :
    (liftM r : Op ε σ α) s = (r, s) := rfl

theorem Op.bind_run (m : Op ε σ α) (f : α → Op ε σ β) (s : σ) :
    (m >>= f) s = match m s with
      | (.ok a, s') => f a s'
      | (.error e, s') => (.error e, s') := rfl

@[simp] theorem Op.get_bind (f : σ → Op ε σ β) (s : σ) : (Op.get >>= f) s = f s s := rfl
@[simp] theorem Op.pure_bind' (a : α) (f : α → Op ε σ β) (s : σ) :
    ((Pure.pure a : Op ε σ α) >>= f) s = f a s := rfl
@[simp] theorem Op.liftOk_bind (a : α) (f : α → Op ε σ β) (s : σ) :
    ((liftM (Except.ok a : Res ε α) : Op ε σ α) >>= f) s = f a s := rfl
@[simp] theorem Op.liftErr_bind (e : Fail ε) (f : α → Op ε σ β) (s : σ) :
    ((liftM (Except.error e : Res ε α) : Op ε σ α) >>= f) s = (.error e, s) := rfl
@[simp] theorem Op.modify_bind (g : σ → σ) (f : Unit → Op ε σ β) (s : σ) :
    ((Op.modify g : Op ε σ Unit) >>= f) s = f () (g s) := rfl
@[simp] theorem Op.set_bind (t : σ) (f : Unit → Op ε σ β) (s : σ) :
    ((Op.set t : Op ε σ Unit) >>= f) s = f () t := rfl

theorem Op.bind_ok {m : Op ε σ α} {s s' : σ} {a : α} (h : m s = (.ok a, s')) (f : α → Op ε σ β) :
    (m >>= f) s = f a s' := by rw [Op.bind_run, h]
theorem Op.bind_err {m : Op ε σ α} {s s' : σ} {e : Fail ε} (h : m s = (.error e, s'))
    (f : α → Op ε σ β) : (m >>= f) s = (.error e, s') := by rw [Op.bind_run, h]

theorem Op.liftM_bind_run (r : Res ε α) (f : α → Op ε σ β) (s : σ) :
    ((liftM r : Op ε σ α) >>= f) s = match r with
      | .ok a => f a s
      | .error e => (.error e, s) := by cases r <;> rfl

/-- The internal `Op.bind` used by the loop combinators. -/
theorem Op.bind_eq (m : Op ε σ α) (f : α → Op ε σ β) : Op.bind m f = m >>= f := rfl

theorem Op.zoom_run (get : σ → τ) (put : τ → σ → σ) (m : Op ε τ α) (s : σ) :
    Op.zoom get put m s = ((m (get s)).1, put (m (get s)).2 s) := rfl
theorem Op.mapErr_run (f : ε → ε') (m : Op ε σ α) (s : σ) :
    Op.mapErr f m s = (Res.mapErr f (m s).1, (m s).2) := rfl

@[simp] theorem Res.mapErr_ok (f : ε → ε') (a : α) :
    Res.mapErr f (.ok a : Res ε α) = .ok a := rfl
@[simp] theorem Res.mapErr_err (f : ε → ε') (e : ε) :
    Res.mapErr f (.error (.err e) : Res ε α) = .error (.err (f e)) := rfl
@[simp] theorem Res.mapErr_panic (f : ε → ε') :
    Res.mapErr f (.error .panic : Res ε α) = .error .panic := rfl

@[simp] theorem Res.ok_bind (a : α) (f : α → Res ε β) : ((.ok a : Res ε α) >>= f) = f a := rfl
@[simp] theorem Res.error_bind (e : Fail ε) (f : α → Res ε β) :
    ((.error e : Res ε α) >>= f) = .error e := rfl

theorem Res.error_of_forget {ε α : Type} {x : Res ε α} {e : Fail ε}
    (h : (x >>= fun _ => (.ok () : Res ε Unit)) = .error e) : x = .error e := by
  rcases x with e' | a
  · cases h; rfl
  · cases h

theorem Res.bind_eq_ok {x : Res ε α} {f : α → Res ε β} {b : β} :
    (x >>= f) = .ok b ↔ ∃ a, x = .ok a ∧ f a = .ok b := by
  cases x with
  | ok a => exact ⟨fun h => ⟨a, rfl, h⟩, fun ⟨_, h1, h2⟩ => by cases h1; exact h2⟩
  | error e => exact ⟨fun h => (by cases h), fun ⟨_, h1, _⟩ => (by cases h1)⟩

theorem exec_ok {s s' : σ} {m : Op ε σ α} {a : α} (h : m s = (.ok a, s')) :
    exec s m = .ok s' := by rw [exec, h]
theorem exec_err {s s' : σ} {m : Op ε σ α} {e : Fail ε} (h : m s = (.error e, s')) :
    exec s m = .error e := by rw [exec, h]
theorem exec_eq_ok {s s' : σ} {m : Op ε σ α} (h : exec s m = .ok s') :
    ∃ a, m s = (.ok a, s') := by
  unfold exec at h
  split at h
  · next a t heq => exact ⟨a, by rw [heq]; simp at h; rw [h]⟩
  · simp at h

end Op

/-! ### First failing index -/

/-- The first index `i` in `[lo, lo+len)` with `bad i = some e`. -/
def firstBad {ε : Type} (bad : Nat → Option ε) : (lo len : Nat) → Option (Nat × ε)
  | _, 0 => none
  | lo, len + 1 =>
    match bad lo with
    | some e => some (lo, e)
    | none => firstBad bad (lo + 1) len

section
variable {ε σ β : Type}

theorem firstBad_none_iff (bad : Nat → Option ε) (lo len : Nat) :
    firstBad bad lo len = none ↔ ∀ i, lo ≤ i → i < lo + len → bad i = none := by
  induction len generalizing lo with
  | zero => simp [firstBad]; intro i h1 h2; omega
  | succ len ih =>
    unfold firstBad
    cases h : bad lo with
    | some e => simp; exact ⟨lo, le_refl _, by omega, by simp [h]⟩
    | none =>
      simp only [ih]
      constructor
      · intro H i h1 h2
        rcases Nat.eq_or_lt_of_le h1 with h3 | h3
        · subst h3; exact h
        · exact H i h3 (by omega)
      · intro H i h1 h2; exact H i (by omega) (by omega)

theorem firstBad_some_iff (bad : Nat → Option ε) (lo len k : Nat) (e : ε) :
    firstBad bad lo len = some (k, e) ↔
      (lo ≤ k ∧ k < lo + len ∧ bad k = some e ∧ ∀ i, lo ≤ i → i < k → bad i = none) := by
  induction len generalizing lo with
  | zero => simp [firstBad]; intro h1 h2; omega
  | succ len ih =>
    unfold firstBad
    cases h : bad lo with
    | some e' =>
      simp only [Option.some.injEq, Prod.mk.injEq]
      constructor
      · rintro ⟨rfl, rfl⟩; exact ⟨le_refl _, by omega, h, fun i h1 h2 => by omega⟩
      · rintro ⟨h1, h2, h3, h4⟩
        rcases Nat.eq_or_lt_of_le h1 with h5 | h5
        · subst h5; rw [h] at h3; simp at h3; exact ⟨rfl, h3⟩
        · have := h4 lo (le_refl _) h5; rw [h] at this; simp at this
    | none =>
      simp only [ih]
      constructor
      · rintro ⟨h1, h2, h3, h4⟩
        refine ⟨by omega, by omega, h3, fun i h5 h6 => ?_⟩
        rcases Nat.eq_or_lt_of_le h5 with h7 | h7
        · subst h7; exact h
        · exact h4 i h7 h6
      · rintro ⟨h1, h2, h3, h4⟩
        have hne : lo ≠ k := by rintro rfl; rw [h] at h3; simp at h3
        exact ⟨by omega, by omega, h3, fun i h5 h6 => h4 i (by omega) h6⟩

/-! ### Stateful loops -/

@[simp] theorem forFrom_zero (lo : Nat) (body : Nat → Op ε σ Unit) :
    forFrom lo 0 body = Pure.pure () := rfl
theorem forFrom_succ (lo len : Nat) (body : Nat → Op ε σ Unit) :
    forFrom lo (len + 1) body = (body lo >>= fun _ => forFrom (lo + 1) len body) := rfl

/-- A loop whose `i`-th step goes from `st i` to `st (i+1)` unless `bad i`. -/
theorem forFrom_steps (body : Nat → Op ε σ Unit) (st : Nat → σ) (bad : Nat → Option (Fail ε))
    (lo len : Nat)
    (h : ∀ i, lo ≤ i → i < lo + len →
      body i (st i) = match bad i with
        | none => (.ok (), st (i + 1))
        | some e => (.error e, st i)) :
    forFrom lo len body (st lo) = match firstBad bad lo len with
      | none => (.ok (), st (lo + len))
      | some (k, e) => (.error e, st k) := by
  induction len generalizing lo with
  | zero => rfl
  | succ len ih =>
    rw [forFrom_succ, Op.bind_run, h lo (le_refl _) (by omega), firstBad]
    cases hb : bad lo with
    | some e => simp
    | none =>
      simp only
      rw [ih (lo + 1) (fun i h1 h2 => h i (by omega) (by omega))]
      have : lo + 1 + len = lo + (len + 1) := by omega
      rw [this]

theorem forRange_steps (body : Nat → Op ε σ Unit) (st : Nat → σ) (bad : Nat → Option (Fail ε))
    (lo hi : Nat) (hlo : lo ≤ hi)
    (h : ∀ i, lo ≤ i → i < hi →
      body i (st i) = match bad i with
        | none => (.ok (), st (i + 1))
        | some e => (.error e, st i)) :
    forRange lo hi body (st lo) = match firstBad bad lo (hi - lo) with
      | none => (.ok (), st hi)
      | some (k, e) => (.error e, st k) := by
  unfold forRange
  rw [forFrom_steps body st bad lo (hi - lo) (fun i h1 h2 => h i h1 (by omega))]
  rw [Nat.add_sub_cancel' hlo]

/-- A loop that never fails. -/
theorem forRange_ok (body : Nat → Op ε σ Unit) (st : Nat → σ) (lo hi : Nat) (hlo : lo ≤ hi)
    (h : ∀ i, lo ≤ i → i < hi → body i (st i) = (.ok (), st (i + 1))) :
    forRange lo hi body (st lo) = (.ok (), st hi) := by
  have := forRange_steps body st (fun _ => none) lo hi hlo (fun i h1 h2 => by simp [h i h1 h2])
  rw [this]
  have h2 : firstBad (fun _ => (none : Option (Fail ε))) lo (hi - lo) = none := by
    rw [firstBad_none_iff]; intros; rfl
  rw [h2]

theorem forRange_empty (body : Nat → Op ε σ Unit) (lo hi : Nat) (h : hi ≤ lo) :
    forRange lo hi body = Pure.pure () := by
  unfold forRange; rw [Nat.sub_eq_zero_of_le h]; rfl

theorem Op.bind_assoc' {α γ : Type} (m : Op ε σ α) (f : α → Op ε σ β) (g : β → Op ε σ γ) :
    ((m >>= f) >>= g) = (m >>= fun a => f a >>= g) := by
  funext s
  simp only [Op.bind_run]
  rcases m s with ⟨r, s'⟩
  cases r <;> rfl

theorem forFrom_add (lo a b : Nat) (body : Nat → Op ε σ Unit) :
    forFrom lo (a + b) body = (forFrom lo a body >>= fun _ => forFrom (lo + a) b body) := by
  induction a generalizing lo with
  | zero => simp; rfl
  | succ a ih =>
    have : a + 1 + b = (a + b) + 1 := by omega
    rw [this, forFrom_succ, forFrom_succ, Op.bind_assoc']
    congr 1; funext _
    rw [ih]
    have : lo + 1 + a = lo + (a + 1) := by omega
    rw [this]

theorem forFrom_congr (lo len : Nat) (b1 b2 : Nat → Op ε σ Unit)
    (h : ∀ i, lo ≤ i → i < lo + len → b1 i = b2 i) : forFrom lo len b1 = forFrom lo len b2 := by
  induction len generalizing lo with
  | zero => rfl
  | succ len ih =>
    rw [forFrom_succ, forFrom_succ, h lo (le_refl _) (by omega),
      ih (lo + 1) (fun i h1 h2 => h i (by omega) (by omega))]

theorem forRange_congr (lo hi : Nat) (b1 b2 : Nat → Op ε σ Unit)
    (h : ∀ i, lo ≤ i → i < hi → b1 i = b2 i) : forRange lo hi b1 = forRange lo hi b2 := by
  unfold forRange; exact forFrom_congr _ _ _ _ (fun i h1 h2 => h i h1 (by omega))

theorem forFrom_shift (lo len d : Nat) (body : Nat → Op ε σ Unit) :
    forFrom (lo + d) len body = forFrom lo len (fun i => body (i + d)) := by
  induction len generalizing lo with
  | zero => rfl
  | succ len ih =>
    rw [forFrom_succ, forFrom_succ]
    have : lo + d + 1 = lo + 1 + d := by omega
    rw [this, ih]

/-- Two nested loops over rows and columns are one loop over the row-major index. -/
theorem forRange_flatten (r c : Nat) (body : Nat → Nat → Op ε σ Unit) :
    forRange 0 r (fun i => forRange 0 c (fun j => body i j)) =
      forRange 0 (r * c) (fun k => body (k / c) (k % c)) := by
  unfold forRange
  simp only [Nat.sub_zero]
  rcases Nat.eq_zero_or_pos c with hc | hc
  · subst hc
    simp only [Nat.mul_zero, forFrom_zero]
    have : ∀ lo len, forFrom lo len (fun _ => (Pure.pure () : Op ε σ Unit)) = Pure.pure () := by
      intro lo len
      induction len generalizing lo with
      | zero => rfl
      | succ len ih => rw [forFrom_succ, ih]; rfl
    exact this 0 r
  · induction r with
    | zero => simp
    | succ r ih =>
      rw [forFrom_add 0 r 1, ih, Nat.succ_mul, forFrom_add 0 (r * c) c]
      congr 1; funext _
      rw [forFrom_succ, forFrom_zero]
      have e1 : (forFrom 0 c (fun j => body (0 + r) j) >>= fun _ => (Pure.pure () : Op ε σ Unit)) =
          forFrom 0 c (fun j => body (0 + r) j) := by
        funext s; rw [Op.bind_run]; rcases forFrom 0 c _ s with ⟨x, s'⟩; cases x <;> rfl
      rw [e1, forFrom_shift 0 c (r * c)]
      apply forFrom_congr
      intro j h1 h2
      have h3 : (j + r * c) / c = r := by
        rw [Nat.add_mul_div_right _ _ hc, Nat.div_eq_of_lt (by omega)]; omega
      have h4 : (j + r * c) % c = j := by
        rw [Nat.add_mul_mod_self_right, Nat.mod_eq_of_lt (by omega)]
      simp only [h3, h4, Nat.zero_add]

/-- A loop invariant for loops that may fail: the invariant holds on exit in every case. -/
theorem forFrom_inv (body : Nat → Op ε σ Unit) (I : Nat → σ → Prop) (lo len : Nat) (s : σ)
    (h0 : I lo s)
    (hs : ∀ i s, lo ≤ i → i < lo + len → I i s → ∀ s', body i s = (.ok (), s') → I (i + 1) s')
    (hok : ∀ i s, lo ≤ i → i < lo + len → I i s → ∃ s', body i s = (.ok (), s')) :
    ∃ s', forFrom lo len body s = (.ok (), s') ∧ I (lo + len) s' := by
  induction len generalizing lo s with
  | zero => exact ⟨s, rfl, h0⟩
  | succ len ih =>
    obtain ⟨s1, h1⟩ := hok lo s (le_refl _) (by omega) h0
    have hI := hs lo s (le_refl _) (by omega) h0 s1 h1
    obtain ⟨s2, h2, h3⟩ := ih (lo + 1) s1 hI (fun i s a b => hs i s (by omega) (by omega))
      (fun i s a b => hok i s (by omega) (by omega))
    refine ⟨s2, ?_, ?_⟩
    · rw [forFrom_succ, Op.bind_ok h1]; exact h2
    · have : lo + (len + 1) = lo + 1 + len := by omega
      rw [this]; exact h3

theorem forRange_inv (body : Nat → Op ε σ Unit) (I : Nat → σ → Prop) (lo hi : Nat) (hlo : lo ≤ hi)
    (s : σ) (h0 : I lo s)
    (hs : ∀ i s, lo ≤ i → i < hi → I i s → ∃ s', body i s = (.ok (), s') ∧ I (i + 1) s') :
    ∃ s', forRange lo hi body s = (.ok (), s') ∧ I hi s' := by
  have := forFrom_inv body I lo (hi - lo) s h0
    (fun i s a b hI s' he => by
      obtain ⟨t, h1, h2⟩ := hs i s a (by omega) hI
      rw [he] at h1; simp at h1; rw [h1]; exact h2)
    (fun i s a b hI => by obtain ⟨t, h1, _⟩ := hs i s a (by omega) hI; exact ⟨t, h1⟩)
  rwa [Nat.add_sub_cancel' hlo] at this

/-- Reverse loops. -/
theorem forFromRev_succ (lo len : Nat) (body : Nat → Op ε σ Unit) :
    forFromRev lo (len + 1) body = (body (lo + len) >>= fun _ => forFromRev lo len body) := rfl

theorem forRangeRev_inv (body : Nat → Op ε σ Unit) (I : Nat → σ → Prop) (lo hi : Nat)
    (hlo : lo ≤ hi) (s : σ) (h0 : I hi s)
    (hs : ∀ i s, lo ≤ i → i < hi → I (i + 1) s → ∃ s', body i s = (.ok (), s') ∧ I i s') :
    ∃ s', forRangeRev lo hi body s = (.ok (), s') ∧ I lo s' := by
  unfold forRangeRev
  obtain ⟨len, rfl⟩ : ∃ len, hi = lo + len := ⟨hi - lo, by omega⟩
  simp only [Nat.add_sub_cancel_left]
  induction len generalizing s with
  | zero => exact ⟨s, rfl, h0⟩
  | succ len ih =>
    obtain ⟨s1, h1, h2⟩ := hs (lo + len) s (by omega) (by omega) h0
    obtain ⟨s2, h3, h4⟩ := ih (hlo := by omega) (s := s1) (h0 := h2)
      (hs := fun i s a b => hs i s a (by omega))
    exact ⟨s2, by rw [forFromRev_succ, Op.bind_ok h1]; exact h3, h4⟩

theorem forRangeRev_empty (body : Nat → Op ε σ Unit) (lo hi : Nat) (h : hi ≤ lo) :
    forRangeRev lo hi body = Pure.pure () := by
  unfold forRangeRev; rw [Nat.sub_eq_zero_of_le h]; rfl

/-! ### Loops over local variables -/

@[simp] theorem foldFrom_zero (lo : Nat) (body : Nat → β → Res ε β) (acc : β) :
    foldFrom lo 0 body acc = .ok acc := rfl
theorem foldFrom_succ (lo len : Nat) (body : Nat → β → Res ε β) (acc : β) :
    foldFrom lo (len + 1) body acc = (body lo acc >>= foldFrom (lo + 1) len body) := by
  show (match body lo acc with | .ok a => _ | .error e => _) = _
  cases body lo acc <;> rfl

theorem foldFrom_ok (body : Nat → β → Res ε β) (st : Nat → β) (lo len : Nat)
    (h : ∀ i, lo ≤ i → i < lo + len → body i (st i) = .ok (st (i + 1))) :
    foldFrom lo len body (st lo) = .ok (st (lo + len)) := by
  induction len generalizing lo with
  | zero => rfl
  | succ len ih =>
    rw [foldFrom_succ, h lo (le_refl _) (by omega), Res.ok_bind,
      ih (lo + 1) (fun i h1 h2 => h i (by omega) (by omega))]
    have : lo + 1 + len = lo + (len + 1) := by omega
    rw [this]

theorem foldRange_ok (body : Nat → β → Res ε β) (st : Nat → β) (lo hi : Nat) (hlo : lo ≤ hi)
    (h : ∀ i, lo ≤ i → i < hi → body i (st i) = .ok (st (i + 1))) :
    foldRange lo hi body (st lo) = .ok (st hi) := by
  unfold foldRange
  rw [foldFrom_ok body st lo (hi - lo) (fun i h1 h2 => h i h1 (by omega)),
    Nat.add_sub_cancel' hlo]

theorem foldRange_empty (body : Nat → β → Res ε β) (lo hi : Nat) (h : hi ≤ lo) (acc : β) :
    foldRange lo hi body acc = .ok acc := by
  unfold foldRange; rw [Nat.sub_eq_zero_of_le h]; rfl

theorem foldFrom_congr (lo len : Nat) (b1 b2 : Nat → β → Res ε β)
    (h : ∀ i, lo ≤ i → i < lo + len → ∀ a, b1 i a = b2 i a) (acc : β) :
    foldFrom lo len b1 acc = foldFrom lo len b2 acc := by
  induction len generalizing lo acc with
  | zero => rfl
  | succ len ih =>
    rw [foldFrom_succ, foldFrom_succ, h lo (le_refl _) (by omega)]
    congr 1
    funext a
    exact ih (lo + 1) (fun i h1 h2 => h i (by omega) (by omega)) a

theorem foldRange_congr (lo hi : Nat) (b1 b2 : Nat → β → Res ε β)
    (h : ∀ i, lo ≤ i → i < hi → ∀ a, b1 i a = b2 i a) (acc : β) :
    foldRange lo hi b1 acc = foldRange lo hi b2 acc := by
  unfold foldRange; exact foldFrom_congr _ _ _ _ (fun i h1 h2 => h i h1 (by omega)) acc

/-- Invariant rule, loop that does not fail. -/
theorem foldRange_inv (body : Nat → β → Res ε β) (I : Nat → β → Prop) (lo hi : Nat) (hlo : lo ≤ hi)
    (b : β) (h0 : I lo b)
    (hs : ∀ i b, lo ≤ i → i < hi → I i b → ∃ b', body i b = .ok b' ∧ I (i + 1) b') :
    ∃ b', foldRange lo hi body b = .ok b' ∧ I hi b' := by
  unfold foldRange
  obtain ⟨len, rfl⟩ : ∃ len, hi = lo + len := ⟨hi - lo, by omega⟩
  simp only [Nat.add_sub_cancel_left]
  clear hlo
  induction len generalizing lo b with
  | zero => exact ⟨b, rfl, h0⟩
  | succ len ih =>
    obtain ⟨b1, h1, h2⟩ := hs lo b (le_refl _) (by omega) h0
    obtain ⟨b2, h3, h4⟩ := ih (lo + 1) b1 h2 (fun i b x y => hs i b (by omega) (by omega))
    refine ⟨b2, by rw [foldFrom_succ, h1, Res.ok_bind]; exact h3, ?_⟩
    have : lo + (len + 1) = lo + 1 + len := by omega
    rw [this]; exact h4

/-- Invariant rule, partial correctness: if the loop returns `Ok`, the invariant holds at the
end. -/
theorem foldRange_inv_ok (body : Nat → β → Res ε β) (I : Nat → β → Prop) (lo hi : Nat)
    (hlo : lo ≤ hi) (b b' : β) (h0 : I lo b)
    (hs : ∀ i b b', lo ≤ i → i < hi → I i b → body i b = .ok b' → I (i + 1) b')
    (hr : foldRange lo hi body b = .ok b') : I hi b' := by
  unfold foldRange at hr
  obtain ⟨len, rfl⟩ : ∃ len, hi = lo + len := ⟨hi - lo, by omega⟩
  simp only [Nat.add_sub_cancel_left] at hr
  clear hlo
  induction len generalizing lo b with
  | zero => simp at hr; subst hr; exact h0
  | succ len ih =>
    rw [foldFrom_succ] at hr
    cases hb : body lo b with
    | error e => rw [hb] at hr; simp at hr
    | ok b1 =>
      rw [hb, Res.ok_bind] at hr
      have := ih (lo + 1) b1 (hs lo b b1 (le_refl _) (by omega) h0 hb)
        (fun i b b' x y => hs i b b' (by omega) (by omega)) hr
      have e : lo + (len + 1) = lo + 1 + len := by omega
      rw [e]; exact this

theorem foldFromRev_succ (lo len : Nat) (body : Nat → β → Res ε β) (acc : β) :
    foldFromRev lo (len + 1) body acc = (body (lo + len) acc >>= foldFromRev lo len body) := by
  show (match body (lo + len) acc with | .ok a => _ | .error e => _) = _
  cases body (lo + len) acc <;> rfl

theorem foldRangeRev_inv_ok (body : Nat → β → Res ε β) (I : Nat → β → Prop) (lo hi : Nat)
    (hlo : lo ≤ hi) (b b' : β) (h0 : I hi b)
    (hs : ∀ i b b', lo ≤ i → i < hi → I (i + 1) b → body i b = .ok b' → I i b')
    (hr : foldRangeRev lo hi body b = .ok b') : I lo b' := by
  unfold foldRangeRev at hr
  obtain ⟨len, rfl⟩ : ∃ len, hi = lo + len := ⟨hi - lo, by omega⟩
  simp only [Nat.add_sub_cancel_left] at hr
  clear hlo
  induction len generalizing b with
  | zero => simp [foldFromRev] at hr; subst hr; exact h0
  | succ len ih =>
    rw [foldFromRev_succ] at hr
    cases hb : body (lo + len) b with
    | error e => rw [hb] at hr; simp at hr
    | ok b1 =>
      rw [hb, Res.ok_bind] at hr
      exact ih b1 (hs (lo + len) b b1 (by omega) (by omega) h0 hb)
        (fun i b b' x y => hs i b b' x (by omega)) hr

theorem foldRangeRev_inv (body : Nat → β → Res ε β) (I : Nat → β → Prop) (lo hi : Nat)
    (hlo : lo ≤ hi) (b : β) (h0 : I hi b)
    (hs : ∀ i b, lo ≤ i → i < hi → I (i + 1) b → ∃ b', body i b = .ok b' ∧ I i b') :
    ∃ b', foldRangeRev lo hi body b = .ok b' ∧ I lo b' := by
  unfold foldRangeRev
  obtain ⟨len, rfl⟩ : ∃ len, hi = lo + len := ⟨hi - lo, by omega⟩
  simp only [Nat.add_sub_cancel_left]
  clear hlo
  induction len generalizing b with
  | zero => exact ⟨b, rfl, h0⟩
  | succ len ih =>
    obtain ⟨b1, h1, h2⟩ := hs (lo + len) b (by omega) (by omega) h0
    obtain ⟨b2, h3, h4⟩ := ih b1 h2 (fun i b x y => hs i b x (by omega))
    exact ⟨b2, by rw [foldFromRev_succ, h1, Res.ok_bind]; exact h3, h4⟩

/-! ### Decision loops -/

theorem allFrom_succ (lo len : Nat) (body : Nat → Res ε Bool) :
    allFrom lo (len + 1) body = (body lo >>= fun b => if b then allFrom (lo + 1) len body
      else .ok false) := by
  show (match body lo with | .ok true => _ | .ok false => _ | .error e => _) = _
  rcases body lo with e | b
  · rfl
  · cases b <;> rfl

/-- If every test has a value, the loop returns their conjunction. -/
theorem allRange_eq (body : Nat → Res ε Bool) (t : Nat → Bool) (lo hi : Nat)
    (h : ∀ i, lo ≤ i → i < hi → body i = .ok (t i)) :
    allRange lo hi body = .ok (decide (∀ i, lo ≤ i → i < hi → t i = true)) := by
  unfold allRange
  obtain hle | hle := Nat.le_total hi lo
  · rw [Nat.sub_eq_zero_of_le hle]
    have : (∀ i, lo ≤ i → i < hi → t i = true) := fun i a b => by omega
    rw [decide_eq_true this]; rfl
  obtain ⟨len, rfl⟩ : ∃ len, hi = lo + len := ⟨hi - lo, by omega⟩
  simp only [Nat.add_sub_cancel_left]
  clear hle
  induction len generalizing lo with
  | zero =>
    have : (∀ i, lo ≤ i → i < lo + 0 → t i = true) := fun i a b => by omega
    rw [decide_eq_true this]; rfl
  | succ len ih =>
    rw [allFrom_succ, h lo (le_refl _) (by omega), Res.ok_bind]
    cases ht : t lo with
    | false =>
      simp only [Bool.false_eq_true, if_false, Except.ok.injEq]
      symm; rw [decide_eq_false_iff_not]
      intro H; have := H lo (le_refl _) (by omega); rw [ht] at this; cases this
    | true =>
      simp only [if_true]
      rw [ih (lo + 1) (fun i a b => h i (by omega) (by omega))]
      congr 1
      apply decide_eq_decide.mpr
      constructor
      · intro H i a b
        rcases Nat.eq_or_lt_of_le a with e | e
        · subst e; exact ht
        · exact H i e (by omega)
      · intro H i a b; exact H i (by omega) (by omega)

/-- The loop stops with `false` at the first failing test, whatever the later tests do. -/
theorem allRange_false (body : Nat → Res ε Bool) (lo hi k : Nat) (hk1 : lo ≤ k) (hk2 : k < hi)
    (h : ∀ i, lo ≤ i → i < k → body i = .ok true) (hf : body k = .ok false) :
    allRange lo hi body = .ok false := by
  unfold allRange
  obtain ⟨len, rfl⟩ : ∃ len, hi = lo + len := ⟨hi - lo, by omega⟩
  simp only [Nat.add_sub_cancel_left]
  induction len generalizing lo with
  | zero => omega
  | succ len ih =>
    rw [allFrom_succ]
    rcases Nat.eq_or_lt_of_le hk1 with e | e
    · subst e; rw [hf]; rfl
    · rw [h lo (le_refl _) e, Res.ok_bind]
      simp only [if_true]
      exact ih (lo + 1) e (fun i a b => h i (by omega) b) (by omega)

/-- The loop stops with the error of the first test that fails, if all earlier tests hold. -/
theorem allRange_error (body : Nat → Res ε Bool) (lo hi k : Nat) (e : Fail ε) (hk1 : lo ≤ k)
    (hk2 : k < hi) (h : ∀ i, lo ≤ i → i < k → body i = .ok true) (hf : body k = .error e) :
    allRange lo hi body = .error e := by
  unfold allRange
  obtain ⟨len, rfl⟩ : ∃ len, hi = lo + len := ⟨hi - lo, by omega⟩
  simp only [Nat.add_sub_cancel_left]
  induction len generalizing lo with
  | zero => omega
  | succ len ih =>
    rw [allFrom_succ]
    rcases Nat.eq_or_lt_of_le hk1 with e | e
    · subst e; rw [hf]; rfl
    · rw [h lo (le_refl _) e, Res.ok_bind]
      simp only [if_true]
      exact ih (lo + 1) e (fun i a b => h i (by omega) b) (by omega)

/-! ### Loops with `break` -/

theorem loopFrom_succ (lo len : Nat) (body : Nat → β → Res ε (Bool × β)) (acc : β) :
    loopFrom lo (len + 1) body acc = (body lo acc >>= fun r =>
      if r.1 then loopFrom (lo + 1) len body r.2 else .ok r.2) := by
  show (match body lo acc with | .ok (true, a) => _ | .ok (false, a) => _ | .error e => _) = _
  rcases body lo acc with e | ⟨b, a⟩
  · rfl
  · cases b <;> rfl

/-- Partial correctness of a loop with `break`: `I` is the invariant at the loop head, `Q` is
established by a `break`. -/
theorem loopRange_inv_ok (body : Nat → β → Res ε (Bool × β)) (I : Nat → β → Prop) (Q : β → Prop)
    (lo hi : Nat) (hlo : lo ≤ hi) (b b' : β) (h0 : I lo b)
    (hc : ∀ i b b', lo ≤ i → i < hi → I i b → body i b = .ok (true, b') → I (i + 1) b')
    (hb : ∀ i b b', lo ≤ i → i < hi → I i b → body i b = .ok (false, b') → Q b')
    (hr : loopRange lo hi body b = .ok b') : I hi b' ∨ Q b' := by
  unfold loopRange at hr
  obtain ⟨len, rfl⟩ : ∃ len, hi = lo + len := ⟨hi - lo, by omega⟩
  simp only [Nat.add_sub_cancel_left] at hr
  clear hlo
  induction len generalizing lo b with
  | zero => simp [loopFrom] at hr; subst hr; exact Or.inl h0
  | succ len ih =>
    rw [loopFrom_succ] at hr
    rcases hb' : body lo b with e | ⟨c, b1⟩
    · rw [hb'] at hr; simp at hr
    · rw [hb', Res.ok_bind] at hr
      cases c with
      | false =>
        simp at hr; subst hr
        exact Or.inr (hb lo b b1 (le_refl _) (by omega) h0 hb')
      | true =>
        simp only [if_true] at hr
        have := ih (lo + 1) b1 (hc lo b b1 (le_refl _) (by omega) h0 hb')
          (fun i b b' x y => hc i b b' (by omega) (by omega))
          (fun i b b' x y => hb i b b' (by omega) (by omega)) hr
        have e : lo + (len + 1) = lo + 1 + len := by omega
        rw [e]; exact this

end
end Verif
