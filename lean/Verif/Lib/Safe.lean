import Verif.Lib.Loops
import Verif.Model.Quaternion

/-
A small program logic: `Op.Safe m` says that the method `m` keeps the invariant of the object in
every outcome, does not panic, and returns values that satisfy their own invariant.
-/

namespace Verif
open Scalar

/-- The invariant attached to a type. -/
class Inv (α : Type) where
  inv : α → Prop

/-- Types without a specific invariant. -/
instance (priority := 10) instInvTrivial {α : Type} : Inv α := ⟨fun _ => True⟩

theorem inv_trivial {α : Type} {a : α} : @Inv.inv α instInvTrivial a := trivial

instance instInvProd {α β : Type} [Inv α] [Inv β] : Inv (α × β) :=
  ⟨fun p => Inv.inv p.1 ∧ Inv.inv p.2⟩

/-- A vector fits the buffer, is non-empty once initialised, and holds only finite values. -/
structure WFVec {F : Type} [Scalar F] (v : Vec F) : Prop where
  rows_le : v.rows ≤ 4
  rows_pos : v.initialized = true → 1 ≤ v.rows
  finite : ∀ i, Finite (v.elements i)

/-- A `u8` vector fits the buffer and is non-empty once initialised. -/
structure WFVecU8 (v : Vec Nat) : Prop where
  rows_le : v.rows ≤ 4
  rows_pos : v.initialized = true → 1 ≤ v.rows

/-- A matrix fits the buffer, is non-empty once initialised, and holds only finite values. -/
structure WFMat {F : Type} [Scalar F] (m : Mat F) : Prop where
  rows_le : m.rows ≤ 4
  cols_le : m.cols ≤ 4
  rows_pos : m.initialized = true → 1 ≤ m.rows
  cols_pos : m.initialized = true → 1 ≤ m.cols
  finite : ∀ i, Finite (m.elements i)

instance instInvVecNat : Inv (Vec Nat) := ⟨WFVecU8⟩
instance instInvVec {F : Type} [Scalar F] : Inv (Vec F) := ⟨WFVec⟩
instance instInvMat {F : Type} [Scalar F] : Inv (Mat F) := ⟨WFMat⟩

def Res.Safe {ε α : Type} [Inv α] (r : Res ε α) : Prop :=
  match r with
  | .ok a => Inv.inv a
  | .error (.err _) => True
  | .error .panic => False

/-- `m` called on `s` keeps the invariant and does not panic. -/
def Op.SafeAt {ε σ α : Type} [Inv σ] [Inv α] (m : Op ε σ α) (s : σ) : Prop :=
  Inv.inv (m s).2 ∧ Res.Safe (m s).1

def Op.Safe {ε σ α : Type} [Inv σ] [Inv α] (m : Op ε σ α) : Prop :=
  ∀ s, Inv.inv s → Op.SafeAt m s

section Rules
variable {ε ε' σ τ α β : Type} [Inv σ] [Inv τ] [Inv α] [Inv β]

theorem Res.safe_ok {a : α} (h : Inv.inv a) : Res.Safe (.ok a : Res ε α) := h
theorem Res.safe_pure {a : α} (h : Inv.inv a) : Res.Safe (Pure.pure a : Res ε α) := h
theorem Res.safe_err {e : ε} : Res.Safe (.error (.err e) : Res ε α) := trivial
theorem Res.safe_fail {e : ε} : Res.Safe (fail e : Res ε α) := trivial

theorem Res.safe_bind {r : Res ε α} {f : α → Res ε β} (h : Res.Safe r)
    (hf : ∀ a, Inv.inv a → Res.Safe (f a)) : Res.Safe (r >>= f) := by
  rcases r with e | a
  · cases e
    · trivial
    · exact h
  · exact hf a h

theorem Res.safe_bind_eq {r : Res ε α} {f : α → Res ε β} (h : Res.Safe r)
    (hf : ∀ a, r = .ok a → Inv.inv a → Res.Safe (f a)) : Res.Safe (r >>= f) := by
  rcases r with e | a
  · cases e
    · trivial
    · exact h
  · exact hf a rfl h

theorem Res.safe_error_cast {e : Fail ε} (h : Res.Safe (.error e : Res ε α)) :
    Res.Safe (.error e : Res ε β) := by
  cases e
  · trivial
  · exact h

theorem Res.safe_ite {c : Prop} [Decidable c] {a b : Res ε α} (ha : c → Res.Safe a)
    (hb : ¬c → Res.Safe b) : Res.Safe (if c then a else b) := by
  split
  · exact ha ‹_›
  · exact hb ‹_›

theorem Res.safe_mapErr {r : Res ε α} {f : ε → ε'} (h : Res.Safe r) :
    Res.Safe (Res.mapErr f r) := by
  rcases r with e | a
  · cases e
    · trivial
    · exact h
  · exact h

theorem Op.safe_pure {a : α} (h : Inv.inv a) : Op.Safe (Pure.pure a : Op ε σ α) :=
  fun _ hs => ⟨hs, h⟩

theorem Op.safe_bind {m : Op ε σ α} {f : α → Op ε σ β} (h : Op.Safe m)
    (hf : ∀ a, Inv.inv a → Op.Safe (f a)) : Op.Safe (m >>= f) := by
  intro s hs
  have h1 := h s hs
  unfold Op.SafeAt at *
  rw [Op.bind_run]
  rcases hm : m s with ⟨r, s'⟩
  rw [hm] at h1
  rcases r with e | a
  · cases e
    · exact ⟨h1.1, trivial⟩
    · exact ⟨h1.1, h1.2⟩
  · exact hf a h1.2 s' h1.1

theorem Op.safe_get_bind {f : σ → Op ε σ β}
    (hf : ∀ s, Inv.inv s → Op.SafeAt (f s) s) : Op.Safe (Op.get >>= f) :=
  fun s hs => hf s hs

theorem Op.safe_get : Op.Safe (Op.get : Op ε σ σ) := fun _ hs => ⟨hs, hs⟩
theorem Op.safe_set {t : σ} (h : Inv.inv t) : Op.Safe (Op.set t : Op ε σ Unit) :=
  fun _ _ => ⟨h, trivial⟩
theorem Op.safe_modify {f : σ → σ} (h : ∀ s, Inv.inv s → Inv.inv (f s)) :
    Op.Safe (Op.modify f : Op ε σ Unit) :=
  fun s hs => ⟨h s hs, trivial⟩
theorem Op.safe_fail {e : ε} : Op.Safe (Op.fail e : Op ε σ α) := fun _ hs => ⟨hs, trivial⟩
theorem Op.safe_lift {r : Res ε α} (h : Res.Safe r) : Op.Safe (liftM r : Op ε σ α) :=
  fun _ hs => ⟨hs, h⟩

theorem Op.safe_lift_bind {r : Res ε α} {f : α → Op ε σ β} (h : Res.Safe r)
    (hf : ∀ a, r = .ok a → Inv.inv a → Op.Safe (f a)) :
    Op.Safe ((liftM r : Op ε σ α) >>= f) := by
  intro s hs
  unfold Op.SafeAt
  rw [Op.liftM_bind_run]
  rcases r with e | a
  · cases e
    · exact ⟨hs, trivial⟩
    · exact ⟨hs, h⟩
  · exact hf a rfl h s hs

theorem Op.safeAt_lift_bind {r : Res ε α} {f : α → Op ε σ β} {s : σ} (hs : Inv.inv s)
    (h : Res.Safe r) (hf : ∀ a, r = .ok a → Inv.inv a → Op.SafeAt (f a) s) :
    Op.SafeAt ((liftM r : Op ε σ α) >>= f) s := by
  unfold Op.SafeAt
  rw [Op.liftM_bind_run]
  rcases r with e | a
  · cases e
    · exact ⟨hs, trivial⟩
    · exact ⟨hs, h⟩
  · exact hf a rfl h

theorem Op.safe_ite {c : Prop} [Decidable c] {a b : Op ε σ α} (ha : c → Op.Safe a)
    (hb : ¬c → Op.Safe b) : Op.Safe (if c then a else b) := by
  split
  · exact ha ‹_›
  · exact hb ‹_›

theorem Op.safe_mapErr {m : Op ε σ α} {f : ε → ε'} (h : Op.Safe m) : Op.Safe (Op.mapErr f m) :=
  fun s hs => ⟨(h s hs).1, Res.safe_mapErr (h s hs).2⟩

theorem Op.safe_zoom {get : σ → τ} {put : τ → σ → σ} {m : Op ε τ α} (h : Op.Safe m)
    (hget : ∀ s, Inv.inv s → Inv.inv (get s))
    (hput : ∀ t s, Inv.inv t → Inv.inv s → Inv.inv (put t s)) : Op.Safe (Op.zoom get put m) :=
  fun s hs => ⟨hput _ _ (h _ (hget s hs)).1 hs, (h _ (hget s hs)).2⟩

theorem exec_safe {s : σ} {m : Op ε σ α} (h : Op.Safe m) (hs : Inv.inv s) :
    Res.Safe (exec s m) := by
  have h1 := h s hs
  unfold Op.SafeAt at h1
  unfold exec
  rcases hm : m s with ⟨r, s'⟩
  rw [hm] at h1
  rcases r with e | a
  · cases e
    · trivial
    · exact h1.2
  · exact h1.1

theorem forFrom_safe {lo len : Nat} {body : Nat → Op ε σ Unit}
    (h : ∀ i, lo ≤ i → i < lo + len → Op.Safe (body i)) : Op.Safe (forFrom lo len body) := by
  induction len generalizing lo with
  | zero => exact Op.safe_pure trivial
  | succ len ih =>
    rw [forFrom_succ]
    exact Op.safe_bind (h lo (le_refl _) (by omega))
      fun _ _ => ih (fun i h1 h2 => h i (by omega) (by omega))

theorem forRange_safe {lo hi : Nat} {body : Nat → Op ε σ Unit}
    (h : ∀ i, lo ≤ i → i < hi → Op.Safe (body i)) : Op.Safe (forRange lo hi body) := by
  unfold forRange
  exact forFrom_safe (fun i h1 h2 => h i h1 (by omega))

theorem forRangeRev_safe {lo hi : Nat} {body : Nat → Op ε σ Unit}
    (h : ∀ i, lo ≤ i → i < hi → Op.Safe (body i)) : Op.Safe (forRangeRev lo hi body) := by
  unfold forRangeRev
  have : ∀ len, (∀ i, lo ≤ i → i < lo + len → Op.Safe (body i)) →
      Op.Safe (forFromRev lo len body) := by
    intro len
    induction len with
    | zero => intro _; exact Op.safe_pure trivial
    | succ len ih =>
      intro h
      rw [forFromRev_succ]
      exact Op.safe_bind (h _ (by omega) (by omega)) fun _ _ => ih (fun i h1 h2 => h i h1 (by omega))
  exact this _ (fun i h1 h2 => h i h1 (by omega))

theorem foldRange_safe {lo hi : Nat} {body : Nat → β → Res ε β} {acc : β} (h0 : Inv.inv acc)
    (h : ∀ i, lo ≤ i → i < hi → ∀ b, Inv.inv b → Res.Safe (body i b)) :
    Res.Safe (foldRange lo hi body acc) := by
  unfold foldRange
  have : ∀ len lo acc, Inv.inv acc → (∀ i b, lo ≤ i → i < lo + len → Inv.inv b →
      Res.Safe (body i b)) → Res.Safe (foldFrom lo len body acc) := by
    intro len
    induction len with
    | zero => intro lo acc h0 _; exact h0
    | succ len ih =>
      intro lo acc h0 h
      rw [foldFrom_succ]
      exact Res.safe_bind (h lo acc (le_refl _) (by omega) h0)
        fun a ha => ih (lo + 1) a ha (fun i b h1 h2 => h i b (by omega) (by omega))
  exact this _ _ _ h0 (fun i b h1 h2 => h i h1 (by omega) b)

theorem foldRangeRev_safe {lo hi : Nat} {body : Nat → β → Res ε β} {acc : β} (h0 : Inv.inv acc)
    (h : ∀ i, lo ≤ i → i < hi → ∀ b, Inv.inv b → Res.Safe (body i b)) :
    Res.Safe (foldRangeRev lo hi body acc) := by
  unfold foldRangeRev
  have : ∀ len acc, Inv.inv acc → (∀ i b, lo ≤ i → i < lo + len → Inv.inv b →
      Res.Safe (body i b)) → Res.Safe (foldFromRev lo len body acc) := by
    intro len
    induction len with
    | zero => intro acc h0 _; exact h0
    | succ len ih =>
      intro acc h0 h
      rw [foldFromRev_succ]
      exact Res.safe_bind (h _ acc (by omega) (by omega) h0)
        fun a ha => ih a ha (fun i b h1 h2 => h i b h1 (by omega))
  exact this _ _ h0 (fun i b h1 h2 => h i h1 (by omega) b)

theorem allRange_safe {lo hi : Nat} {body : Nat → Res ε Bool}
    (h : ∀ i, lo ≤ i → i < hi → Res.Safe (body i)) : Res.Safe (allRange lo hi body) := by
  unfold allRange
  have : ∀ len lo, (∀ i, lo ≤ i → i < lo + len → Res.Safe (body i)) →
      Res.Safe (allFrom lo len body) := by
    intro len
    induction len with
    | zero => intro lo _; exact trivial
    | succ len ih =>
      intro lo h
      rw [allFrom_succ]
      refine Res.safe_bind (h lo (le_refl _) (by omega)) fun a _ => Res.safe_ite (fun _ => ?_)
        (fun _ => trivial)
      exact ih (lo + 1) (fun i h1 h2 => h i (by omega) (by omega))
  exact this _ _ (fun i h1 h2 => h i h1 (by omega))

theorem loopRange_safe {lo hi : Nat} {body : Nat → β → Res ε (Bool × β)} {acc : β}
    (h0 : Inv.inv acc) (h : ∀ i, lo ≤ i → i < hi → ∀ b, Inv.inv b → Res.Safe (body i b)) :
    Res.Safe (loopRange lo hi body acc) := by
  unfold loopRange
  have : ∀ len lo acc, Inv.inv acc → (∀ i b, lo ≤ i → i < lo + len → Inv.inv b →
      Res.Safe (body i b)) → Res.Safe (loopFrom lo len body acc) := by
    intro len
    induction len with
    | zero => intro lo acc h0 _; exact h0
    | succ len ih =>
      intro lo acc h0 h
      rw [loopFrom_succ]
      refine Res.safe_bind (h lo acc (le_refl _) (by omega) h0) fun a ha =>
        Res.safe_ite (fun _ => ?_) (fun _ => ?_)
      · exact ih (lo + 1) _ ha.2 (fun i b h1 h2 => h i b (by omega) (by omega))
      · exact ha.2
  exact this _ _ _ h0 (fun i b h1 h2 => h i h1 (by omega) b)

theorem forall_prod_inv {P : α × β → Prop}
    (h : ∀ a, Inv.inv a → ∀ b, Inv.inv b → P (a, b)) : ∀ p, Inv.inv p → P p :=
  fun p hp => h p.1 hp.1 p.2 hp.2

theorem inv_prod {a : α} {b : β} (ha : Inv.inv a) (hb : Inv.inv b) : Inv.inv (a, b) := ⟨ha, hb⟩

end Rules

/-- Extensible list of proved safety lemmas. -/
syntax "safe_lemma" : tactic
macro_rules | `(tactic| safe_lemma) => `(tactic| fail "no safety lemma")

/-- One step of the safety logic. -/
macro "safe_step" : tactic => `(tactic| first
  | with_reducible assumption
  | with_reducible exact trivial
  | with_reducible exact inv_trivial
  | with_reducible refine forall_prod_inv ?_
  | with_reducible intro _
  | with_reducible apply Res.safe_bind
  | with_reducible apply Op.safe_bind
  | with_reducible apply Op.safe_lift
  | with_reducible apply Res.safe_ite
  | with_reducible apply Op.safe_ite
  | with_reducible apply Res.safe_fail
  | with_reducible apply Res.safe_ok
  | with_reducible apply Op.safe_fail
  | with_reducible apply Op.safe_get
  | with_reducible apply Op.safe_modify
  | with_reducible apply Op.safe_pure
  | with_reducible apply exec_safe
  | with_reducible apply forRange_safe
  | with_reducible apply forRangeRev_safe
  | with_reducible apply foldRange_safe
  | with_reducible apply foldRangeRev_safe
  | with_reducible apply allRange_safe
  | with_reducible apply loopRange_safe
  | with_reducible apply Res.safe_mapErr
  | with_reducible apply Op.safe_mapErr
  | safe_lemma
  | with_reducible_and_instances exact inv_trivial
  | with_reducible apply inv_prod
  | dsimp only)

macro "safe" : tactic => `(tactic| repeat' safe_step)

end Verif
