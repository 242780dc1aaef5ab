import Mathlib.Algebra.Quaternion
import Verif.Model.Quaternion
import Verif.Lib.MatStruct
import Verif.Lib.Exact

/-
Vectors of four elements seen as quaternions.
-/

set_option linter.unusedSectionVars false

namespace Verif
open Scalar

/-- The sequence `w, x, y, z`. -/
def seq4 {T : Type} (w x y z : T) : Nat → T
  | 0 => w
  | 1 => x
  | 2 => y
  | _ => z

/-- The sequence `x, y, z`. -/
def seq3 {T : Type} (x y z : T) : Nat → T
  | 0 => x
  | 1 => y
  | _ => z

theorem forall_lt_four {P : Nat → Prop} : (∀ i, i < 4 → P i) ↔ P 0 ∧ P 1 ∧ P 2 ∧ P 3 := by
  constructor
  · intro h; exact ⟨h 0 (by omega), h 1 (by omega), h 2 (by omega), h 3 (by omega)⟩
  · rintro ⟨h0, h1, h2, h3⟩ i hi
    rcases i with _ | _ | _ | _ | i
    · exact h0
    · exact h1
    · exact h2
    · exact h3
    · omega

theorem forall_lt_three {P : Nat → Prop} : (∀ i, i < 3 → P i) ↔ P 0 ∧ P 1 ∧ P 2 := by
  constructor
  · intro h; exact ⟨h 0 (by omega), h 1 (by omega), h 2 (by omega)⟩
  · rintro ⟨h0, h1, h2⟩ i hi
    rcases i with _ | _ | _ | i
    · exact h0
    · exact h1
    · exact h2
    · omega

section
variable {F : Type} [Scalar F]

/-- Every vector of four elements is of this form. -/
theorem VecIs.four {v : Vec F} {f : Nat → F} (h : VecIs v 4 f) :
    VecIs v 4 (seq4 (f 0) (f 1) (f 2) (f 3)) :=
  h.congr (forall_lt_four.mpr ⟨rfl, rfl, rfl, rfl⟩)

theorem VecIs.three {v : Vec F} {f : Nat → F} (h : VecIs v 3 f) :
    VecIs v 3 (seq3 (f 0) (f 1) (f 2)) :=
  h.congr (forall_lt_three.mpr ⟨rfl, rfl, rfl⟩)

/-- Two vectors of four elements with the same elements are the same object. -/
theorem VecIs.ext4 {v v' : Vec F} {f : Nat → F} (h : VecIs v 4 f) (h' : VecIs v' 4 f) : v = v' := by
  have e : v.elements = v'.elements := by
    funext i
    have h1 := (vecIs_iff.mp h).2.2.2.2 i i.2 i.2
    have h2 := (vecIs_iff.mp h').2.2.2.2 i i.2 i.2
    rw [Fin.eta] at h1 h2
    rw [h1, h2]
  have h1 := h.init
  have h2 := h'.init
  have h3 := h.rows_eq
  have h4 := h'.rows_eq
  cases v; cases v'
  simp_all

/-- As `Op.get_bind`, but never used by `dsimp`, so that the kernel does not compare large terms. -/
theorem Op.get_bind' {ε σ β : Type} (f : σ → Op ε σ β) (s : σ) :
    ((Op.get : Op ε σ σ) >>= f) s = f s s := id rfl
theorem Op.liftOk_bind' {ε σ α β : Type} (a : α) (f : α → Op ε σ β) (s : σ) :
    ((liftM (Except.ok a : Res ε α) : Op ε σ α) >>= f) s = f a s := id rfl

namespace Quat

theorem isQuaternion_eq {v : Vec F} {n : Nat} {f : Nat → F} (h : VecIs v n f) :
    isQuaternion v = .ok (decide (n = 4)) := by
  unfold isQuaternion
  rw [h.rows, Res.ok_bind]
  by_cases hn : n = 4 <;> simp [hn]

variable {v q p : Vec F} {w x y z w' x' y' z' : F} {f : Nat → F}

theorem getQw_eq (h : VecIs v 4 (seq4 w x y z)) : getQw v = .ok w := by
  unfold getQw getComponent
  rw [isQuaternion_eq h, Res.ok_bind, h.get 0 (by omega)]; rfl
theorem getQx_eq (h : VecIs v 4 (seq4 w x y z)) : getQx v = .ok x := by
  unfold getQx getComponent
  rw [isQuaternion_eq h, Res.ok_bind, h.get 1 (by omega)]; rfl
theorem getQy_eq (h : VecIs v 4 (seq4 w x y z)) : getQy v = .ok y := by
  unfold getQy getComponent
  rw [isQuaternion_eq h, Res.ok_bind, h.get 2 (by omega)]; rfl
theorem getQz_eq (h : VecIs v 4 (seq4 w x y z)) : getQz v = .ok z := by
  unfold getQz getComponent
  rw [isQuaternion_eq h, Res.ok_bind, h.get 3 (by omega)]; rfl

theorem storeAll_loop (w x y z : F) :
    storeAll w x y z = forRange 0 4 (fun i => Vec.setElement i (seq4 w x y z i)) := by
  funext s
  show _ = Op.bind (Vec.setElement 0 w) (fun _ => Op.bind (Vec.setElement 1 x) fun _ =>
    Op.bind (Vec.setElement 2 y) fun _ => Op.bind (Vec.setElement 3 z) fun _ => Op.pure ()) s
  have hlast : (Op.bind (Vec.setElement 3 z) fun _ => Op.pure () : Op LinalgError (Vec F) Unit) =
      Vec.setElement 3 z := by
    funext t
    unfold Op.bind
    rcases Vec.setElement 3 z t with ⟨_ | _, s'⟩ <;> rfl
  rw [hlast]
  rfl

theorem storeAll_stores (h : VecIs v 4 f) :
    v.Stores 4 (seq4 w x y z) (storeAll w x y z v) := by
  rw [storeAll_loop]
  exact Vec.stores_of_loop h.init h.rows_eq.ge (le_refl _) fun _ _ => rfl

theorem storeAll_ok (h : VecIs v 4 f) (hw : Finite w) (hx : Finite x) (hy : Finite y)
    (hz : Finite z) : ∃ v', storeAll w x y z v = (.ok (), v') ∧ VecIs v' 4 (seq4 w x y z) :=
  Vec.run_of_stores (storeAll_stores h) h (forall_lt_four.mpr ⟨hw, hx, hy, hz⟩)

theorem fillq_eq (h : VecIs v 4 f) : fillq w x y z v = storeAll w x y z v := by
  unfold fillq
  simp only [Op.get_bind, isQuaternion_eq h, Op.liftOk_bind]
  rfl

theorem fillq_ok (h : VecIs v 4 f) (hw : Finite w) (hx : Finite x) (hy : Finite y)
    (hz : Finite z) : ∃ v', fillq w x y z v = (.ok (), v') ∧ VecIs v' 4 (seq4 w x y z) := by
  rw [fillq_eq h]
  exact storeAll_ok h hw hx hy hz

/-- Storing into any two vectors of four elements gives the same. -/
theorem storeAll_same {s t : Vec F} {g : Nat → F} (hs : VecIs s 4 f) (ht : VecIs t 4 g) :
    exec s (storeAll w x y z) = exec t (storeAll w x y z) := by
  have h1 := storeAll_stores (w := w) (x := x) (y := y) (z := z) hs
  have h2 := storeAll_stores (w := w) (x := x) (y := y) (z := z) ht
  rcases h1.cases with ⟨hf, e1⟩ | ⟨k, hk, hb, hn, e1⟩
  · have e2 := h2.ok hf
    rw [exec_ok e1, exec_ok e2]
    exact congrArg _ ((hs.overwrite _).ext4 (ht.overwrite _))
  · have e2 := h2.2 k hk hb hn
    rw [exec_err e1, exec_err e2]

end Quat
end

/-! ### Exact quaternions -/

section
variable {K : Type} [Field K] [LinearOrder K] [Elementary K]

/-- The quaternion with given components. -/
def mkQ (w x y z : K) : Quaternion K := ⟨w, x, y, z⟩

@[simp] theorem mkQ_re (w x y z : K) : (mkQ w x y z).re = w := rfl
@[simp] theorem mkQ_imI (w x y z : K) : (mkQ w x y z).imI = x := rfl
@[simp] theorem mkQ_imJ (w x y z : K) : (mkQ w x y z).imJ = y := rfl
@[simp] theorem mkQ_imK (w x y z : K) : (mkQ w x y z).imK = z := rfl

theorem normSq_mkQ [IsStrictOrderedRing K] (w x y z : K) :
    Quaternion.normSq (mkQ w x y z) = w ^ 2 + x ^ 2 + y ^ 2 + z ^ 2 := by
  rw [Quaternion.normSq_def']; rfl

/-- Seen through the API, `v` is the quaternion `q`. -/
def QuatIs (v : Vec (Ext K)) (q : Quaternion K) : Prop :=
  VecIs v 4 (seq4 (.fin q.re) (.fin q.imI) (.fin q.imJ) (.fin q.imK))

/-- Seen through the API, `v` is the 3-vector `u`. -/
def Vec3Is (v : Vec (Ext K)) (u : Fin 3 → K) : Prop :=
  VecIs v 3 (seq3 (.fin (u 0)) (.fin (u 1)) (.fin (u 2)))

theorem QuatIs.unique {v : Vec (Ext K)} {q p : Quaternion K} (h : QuatIs v q) (h' : QuatIs v p) :
    q = p := by
  have h0 := (h.get 0 (by omega)).symm.trans (h'.get 0 (by omega))
  have h1 := (h.get 1 (by omega)).symm.trans (h'.get 1 (by omega))
  have h2 := (h.get 2 (by omega)).symm.trans (h'.get 2 (by omega))
  have h3 := (h.get 3 (by omega)).symm.trans (h'.get 3 (by omega))
  simp only [seq4, Except.ok.injEq, Ext.fin_inj] at h0 h1 h2 h3
  exact Quaternion.ext _ _ h0 h1 h2 h3

theorem QuatIs.ext {v v' : Vec (Ext K)} {q : Quaternion K} (h : QuatIs v q) (h' : QuatIs v' q) :
    v = v' := VecIs.ext4 h h'

theorem QuatIs.of {v : Vec (Ext K)} {w x y z : K} (q : Quaternion K)
    (h : VecIs v 4 (seq4 (.fin w) (.fin x) (.fin y) (.fin z))) (h0 : w = q.re) (h1 : x = q.imI)
    (h2 : y = q.imJ) (h3 : z = q.imK) : QuatIs v q := by
  subst h0 h1 h2 h3; exact h

/-- Every vector of four numbers is a quaternion. -/
theorem VecIs.quat {v : Vec (Ext K)} {f : Nat → K} (h : VecIs v 4 (fun i => .fin (f i))) :
    QuatIs v (mkQ (f 0) (f 1) (f 2) (f 3)) := h.four

end
end Verif
