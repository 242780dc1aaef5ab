import Verif.Rounded

/-
One more law of IEEE 754: a sum, difference or product with an operand that is infinite or NaN is not
a finite number.
-/

namespace Verif
open Scalar

/-- NaN and infinity propagate through sums, differences and products. -/
class Propagates (F : Type) [Scalar F] : Prop where
  add_inv : ∀ {x y : F}, Finite (x +ᶠ y) → Finite x ∧ Finite y
  sub_inv : ∀ {x y : F}, Finite (x -ᶠ y) → Finite x ∧ Finite y
  mul_inv : ∀ {x y : F}, Finite (x *ᶠ y) → Finite x ∧ Finite y

namespace F32

theorem finite_fl {z : Ext ℚ} (h : Finite (fl z)) : ∃ q, z = .fin q := by
  rcases z with q | _ | _ | _
  · exact ⟨q, rfl⟩
  all_goals exact absurd h (by decide +kernel)

theorem finite_of_fin {x : F32} {q : ℚ} (h : x.val = .fin q) : Finite x := by
  obtain ⟨v⟩ := x
  obtain rfl : v = .fin q := h
  exact ⟨rfl, rfl⟩

theorem infOf_ne (c q : ℚ) : Ext.infOf c ≠ .fin q := by
  unfold Ext.infOf
  split <;> intro h <;> cases h

theorem add_inv {x y : F32} (h : Finite (x +ᶠ y)) : Finite x ∧ Finite y := by
  obtain ⟨q, hq⟩ := finite_fl h
  rcases hx : x.val with a | _ | _ | _ <;> rcases hy : y.val with b | _ | _ | _ <;> rw [hx, hy] at hq
  · exact ⟨finite_of_fin hx, finite_of_fin hy⟩
  all_goals exact absurd hq (by intro h; cases h)

theorem sub_inv {x y : F32} (h : Finite (x -ᶠ y)) : Finite x ∧ Finite y := by
  obtain ⟨q, hq⟩ := finite_fl h
  rcases hx : x.val with a | _ | _ | _ <;> rcases hy : y.val with b | _ | _ | _ <;> rw [hx, hy] at hq
  · exact ⟨finite_of_fin hx, finite_of_fin hy⟩
  all_goals exact absurd hq (by intro h; cases h)

theorem mul_inv {x y : F32} (h : Finite (x *ᶠ y)) : Finite x ∧ Finite y := by
  obtain ⟨q, hq⟩ := finite_fl h
  replace hq : Ext.mul x.val y.val = .fin q := hq
  rcases hx : x.val with a | _ | _ | _ <;> rcases hy : y.val with b | _ | _ | _ <;> rw [hx, hy] at hq
  · exact ⟨finite_of_fin hx, finite_of_fin hy⟩
  all_goals
    refine absurd hq ?_
    simp only [Ext.mul]
    try split
    all_goals first | exact infOf_ne _ _ | (intro h; cases h)

instance : Propagates F32 := ⟨add_inv, sub_inv, mul_inv⟩

end F32

/-- Beside the class: the sum of the largest number and infinity. -/
example : ¬ Finite ((lit 1 : F32) +ᶠ ⟨.pinf⟩) := fun h =>
  absurd (F32.add_inv h).2 (by decide +kernel)

end Verif
