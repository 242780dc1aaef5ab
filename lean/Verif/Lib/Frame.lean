import Verif.Props.Ar

/-
What a method may do to an object: `Op.Frame R m` says that every run of `m`, successful or not, takes
the object to one related to it by `R`.
-/

set_option linter.unusedSectionVars false

namespace Verif
open Scalar

/-- A reflexive and transitive relation. -/
structure Pre {σ : Type} (R : σ → σ → Prop) : Prop where
  refl : ∀ s, R s s
  trans : ∀ {s t u}, R s t → R t u → R s u

def Op.Frame {ε σ α : Type} (R : σ → σ → Prop) (m : Op ε σ α) : Prop := ∀ s, R s (m s).2

namespace Op.Frame
variable {ε σ α β : Type} {R : σ → σ → Prop}

theorem bind (h : Pre R) {m : Op ε σ α} {f : α → Op ε σ β} (hm : Op.Frame R m)
    (hf : ∀ a, Op.Frame R (f a)) : Op.Frame R (m >>= f) := by
  intro s
  rw [Op.bind_run]
  have h1 := hm s
  rcases hr : m s with ⟨e | a, t⟩
  · rw [hr] at h1
    exact h1
  · rw [hr] at h1
    exact h.trans h1 (hf a t)

theorem at_lift_bind (h : Pre R) {r : Res ε α} {f : α → Op ε σ β} {s : σ} (hf : ∀ a, R s (f a s).2) :
    R s (((liftM r : Op ε σ α) >>= f) s).2 := by
  rw [Op.liftM_bind_run]
  rcases r with e | a
  · exact h.refl s
  · exact hf a

theorem at_bind (h : Pre R) {m : Op ε σ α} {f : α → Op ε σ β} {s : σ} (hm : R s (m s).2)
    (hf : ∀ a, Op.Frame R (f a)) : R s ((m >>= f) s).2 := by
  rw [Op.bind_run]
  rcases hr : m s with ⟨e | a, t⟩
  · rw [hr] at hm
    exact hm
  · rw [hr] at hm
    exact h.trans hm (hf a t)

theorem pure (h : Pre R) (a : α) : Op.Frame R (Pure.pure a : Op ε σ α) := fun s => h.refl s
theorem lift (h : Pre R) (r : Res ε α) : Op.Frame R (liftM r : Op ε σ α) := fun s => h.refl s
theorem fail (h : Pre R) (e : ε) : Op.Frame R (Op.fail e : Op ε σ α) := fun s => h.refl s
theorem get (h : Pre R) : Op.Frame R (Op.get : Op ε σ σ) := fun s => h.refl s
theorem modify {f : σ → σ} (h : ∀ s, R s (f s)) : Op.Frame R (Op.modify f : Op ε σ Unit) := h

theorem ite {c : Prop} [Decidable c] {a b : Op ε σ α} (ha : Op.Frame R a) (hb : Op.Frame R b) :
    Op.Frame R (if c then a else b) := by
  split
  · exact ha
  · exact hb

end Op.Frame

variable {F : Type} [Scalar F]

/-- A quaternion of four finite components. -/
def Vec.Holds4 (v : Vec F) : Prop := ∃ f, VecIs v 4 f ∧ ∀ i, i < 4 → Finite (f i)

/-- A method that keeps quaternions quaternions. -/
def Keeps4 {ε α : Type} (m : Op ε (Vec F) α) : Prop :=
  Op.Frame (fun v w : Vec F => v.Holds4 → w.Holds4) m

theorem pre4 : Pre (fun v w : Vec F => v.Holds4 → w.Holds4) :=
  ⟨fun _ h => h, fun h1 h2 h => h2 (h1 h)⟩

theorem keeps4_storeAll (w x y z : F) : Keeps4 (Quat.storeAll w x y z) := by
  rintro v ⟨f, hv, hf⟩
  exact (Quat.storeAll_stores hv).keeps hv hf

theorem keeps4_mul (a b : Vec F) : Keeps4 (Quat.mul a b) := by
  unfold Quat.mul
  refine Op.Frame.bind pre4 (Op.Frame.get pre4) fun s => ?_
  refine Op.Frame.bind pre4 (Op.Frame.lift pre4 _) fun b1 => Op.Frame.ite (Op.Frame.fail pre4 _) ?_
  refine Op.Frame.bind pre4 (Op.Frame.lift pre4 _) fun b2 => Op.Frame.ite (Op.Frame.fail pre4 _) ?_
  refine Op.Frame.bind pre4 (Op.Frame.lift pre4 _) fun b3 => Op.Frame.ite (Op.Frame.fail pre4 _) ?_
  iterate 8 refine Op.Frame.bind pre4 (Op.Frame.lift pre4 _) fun _ => ?_
  exact keeps4_storeAll _ _ _ _

theorem keeps4_normalize : Keeps4 (Vec.normalize : Op LinalgError (Vec F) Unit) := by
  rintro v ⟨f, hv, hf⟩
  obtain ⟨n, hn⟩ := Vec.calculateNorm_ok hv
  exact (Vec.normalize_stores hv hn).keeps hv hf

theorem keeps4_fillq (w x y z : F) : Keeps4 (Quat.fillq w x y z) := by
  rintro v ⟨f, hv, hf⟩
  rw [Quat.fillq_eq hv]
  exact (Quat.storeAll_stores hv).keeps hv hf

end Verif
