import Verif.Lib.MatStruct
import Verif.Lib.Exact
import Verif.Lib.Quat
import Verif.Model.AhrsCommon

/-
Lemmas shared by the three sensors.
-/

set_option linter.unusedSectionVars false
set_option linter.unusedSimpArgs false

namespace Verif
open Scalar

theorem Op.bind_unit {ε σ : Type} (m : Op ε σ Unit) : (m >>= fun _ => (Pure.pure () : Op ε σ Unit)) = m := by
  funext s
  rw [Op.bind_run]
  rcases m s with ⟨_ | _, s'⟩ <;> rfl

section
variable {σ τ : Type} {get : σ → τ} {put : τ → σ → σ}

theorem fieldOp_ok {α : Type} {m : Op LinalgError τ α} {s : σ} {t : τ} {a : α}
    (h : m (get s) = (.ok a, t)) : fieldOp get put m s = (.ok a, put t s) := by
  unfold fieldOp
  rw [Op.zoom_run, Op.mapErr_run, h]
  rfl

theorem fieldOp_err {α : Type} {m : Op LinalgError τ α} {s : σ} {t : τ} {e : LinalgError}
    (h : m (get s) = (.error (.err e), t)) :
    fieldOp get put m s = (.error (.err (.LinalgError e)), put t s) := by
  unfold fieldOp
  rw [Op.zoom_run, Op.mapErr_run, h]
  rfl

/-- Two calls on the same field are one call on it. -/
theorem fieldOp_bind {α β : Type} {m : Op LinalgError τ α} {m' : α → Op LinalgError τ β}
    (h1 : ∀ t s, get (put t s) = t) (h2 : ∀ t t' s, put t' (put t s) = put t' s) :
    (fieldOp get put m >>= fun a => fieldOp get put (m' a)) = fieldOp get put (m >>= m') := by
  funext s
  simp only [fieldOp, Op.bind_run, Op.zoom_run, Op.mapErr_run]
  rcases m (get s) with ⟨(_ | _) | a, t⟩
  · rfl
  · rfl
  · simp [h1, h2]

end

variable {F : Type} [Scalar F]

/-- Three assignments in a row are a store of three values. -/
theorem Vec.set3_stores {v : Vec F} {f : Nat → F} {x y z : F} (h : VecIs v 3 f) :
    v.Stores 3 (seq3 x y z) ((do
      Vec.setElement 0 x
      Vec.setElement 1 y
      Vec.setElement 2 z : Op LinalgError (Vec F) Unit) v) := by
  have : (do
      Vec.setElement 0 x
      Vec.setElement 1 y
      Vec.setElement 2 z : Op LinalgError (Vec F) Unit) =
      forRange 0 3 (fun k => Vec.setElement k (seq3 x y z k)) := by
    rw [show forRange 0 3 (fun k => Vec.setElement k (seq3 x y z k)) =
      (Vec.setElement 0 x >>= fun _ => Vec.setElement 1 y >>= fun _ => Vec.setElement 2 z >>= fun _ =>
        (Pure.pure () : Op LinalgError (Vec F) Unit)) from rfl, Op.bind_unit]
  rw [this]
  exact Vec.stores_of_loop h.init h.rows_eq.ge (by omega) fun k _ => rfl

/-- The product of a 3×3 matrix and a vector, the way the sensors compute it. -/
theorem calib_cases {C : Mat F} {d : Vec F} {f : Nat → Nat → F} {x : Nat → F} (hC : MatIs C 3 3 f)
    (hd : VecIs d 3 x) (hx : ∀ i, i < 3 → Finite (x i)) :
    ∃ m dup, d.convertToMatrix = .ok m ∧ m.duplicate = .ok dup ∧
      ((∀ i l, i < 3 → l < 3 → Finite (sumUp (l + 1) fun l => f i l *ᶠ x l)) →
        ∃ m2, exec m (Mat.mul C dup) = .ok m2 ∧ MatIs m2 3 1 fun i _ => sumUp 3 fun l => f i l *ᶠ x l) ∧
      ((¬ ∀ i l, i < 3 → l < 3 → Finite (sumUp (l + 1) fun l => f i l *ᶠ x l)) →
        ∃ y : F, ¬ Finite y ∧ exec m (Mat.mul C dup) = .error (.err (valueErr y))) := by
  obtain ⟨m, e1, hm⟩ := Vec.convertToMatrix_ok hd hx
  obtain ⟨dup, e2, hdup⟩ := Mat.duplicate_ok hm fun i _ hi _ => hx i hi
  refine ⟨m, dup, e1, e2, fun hf => ?_, fun hf => ?_⟩
  · have := Mat.mul_ok hC hdup hm fun i j l hi _ hl => hf i l hi hl
    exact ⟨_, exec_ok this, (hm.overwrite _).congr fun i j _ _ => rfl⟩
  · classical
    push Not at hf
    have h1 := Nat.find_spec hf
    have h2 := Nat.find_spec h1
    have := Mat.mul_err hC hdup hm (j := 0) h2.1 (by omega) h2.2.1 (fun i' j' l' hi' hj' hl' h => by
      by_contra hc
      rcases h with h | ⟨he, h | ⟨he', h⟩⟩
      · exact Nat.find_min hf h ⟨l', hi', hl', hc⟩
      · omega
      · subst he; exact Nat.find_min h1 h ⟨hi', hl', hc⟩) h2.2.2
    exact ⟨_, h2.2.2, exec_err this⟩

/-- What `overwrite` forgets. -/
theorem Mat.put_overwrite {m : Mat F} {i j n : Nat} {x : F} {f : Nat → Nat → F}
    (h : i * m.cols + j < n) : (m.put i j x).overwrite n f = m.overwrite n f := by
  unfold Mat.put Mat.overwrite
  congr 1
  funext p
  by_cases hp : p.val < n
  · simp only [hp, if_true]
  · simp only [hp, if_false]
    rw [if_neg (by omega)]

theorem Vec.put_overwrite {v : Vec F} {i n : Nat} {x : F} {f : Nat → F} (h : i < n) :
    (v.put i x).overwrite n f = v.overwrite n f := by
  unfold Vec.put Vec.overwrite
  congr 1
  funext p
  by_cases hp : p.val < n
  · simp only [hp, if_true]
  · simp only [hp, if_false]
    rw [if_neg (by omega)]

end Verif
