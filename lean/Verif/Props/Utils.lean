import Verif.Props.ArExact

/-
Claims about the scalar helpers of `utils` (C60).
-/

set_option linter.unusedSectionVars false
set_option linter.unusedSimpArgs false

namespace Verif
open Scalar

/-- What IEEE 754 says about comparisons: NaN compares with nothing, the other values are totally
preordered (the two zeros are equal), and `<` is the strict part of `<=`. -/
class Comparable (F : Type) [Scalar F] : Prop where
  le_nan : ∀ {x y : F}, (x ≤ᶠ y) = true → isNaN x = false ∧ isNaN y = false
  lt_iff : ∀ {x y : F}, (x <ᶠ y) = true ↔ isNaN x = false ∧ isNaN y = false ∧ (y ≤ᶠ x) = false
  total : ∀ {x y : F}, isNaN x = false → isNaN y = false → (x ≤ᶠ y) = true ∨ (y ≤ᶠ x) = true
  trans : ∀ {x y z : F}, (x ≤ᶠ y) = true → (y ≤ᶠ z) = true → (x ≤ᶠ z) = true

/-- Exact arithmetic compares in this way. -/
instance {K : Type} [Field K] [LinearOrder K] [IsStrictOrderedRing K] [Elementary K] :
    Comparable (Ext K) where
  le_nan {x y} h := by
    rcases x with x | _ | _ | _ <;> rcases y with y | _ | _ | _ <;>
      first | exact ⟨rfl, rfl⟩ | exact Bool.noConfusion h
  lt_iff {x y} := by
    rcases x with x | _ | _ | _ <;> rcases y with y | _ | _ | _ <;>
      simp [Scalar.lt, Scalar.le, Ext.lt, Ext.le, isNaN]
  total {x y} hx hy := by
    rcases x with x | _ | _ | _ <;> rcases y with y | _ | _ | _ <;>
      first
      | exact Bool.noConfusion hx
      | exact Bool.noConfusion hy
      | exact .inl rfl
      | exact .inr rfl
      | (simp only [Ext.le_fin, decide_eq_true_eq]; exact le_total x y)
  trans {x y z} h1 h2 := by
    rcases x with x | _ | _ | _ <;> rcases y with y | _ | _ | _ <;> rcases z with z | _ | _ | _ <;>
      first
      | rfl
      | exact Bool.noConfusion h1
      | exact Bool.noConfusion h2
      | (simp only [Ext.le_fin, decide_eq_true_eq] at h1 h2 ⊢; exact h1.trans h2)

/-- Binary32 compares in this way. -/
instance : Comparable F32 where
  le_nan {x y} h := Comparable.le_nan (F := Ext ℚ) (x := x.val) (y := y.val) h
  lt_iff {x y} := Comparable.lt_iff (F := Ext ℚ) (x := x.val) (y := y.val)
  total {x y} hx hy := Comparable.total (F := Ext ℚ) (x := x.val) (y := y.val) hx hy
  trans {x y z} h1 h2 := Comparable.trans (F := Ext ℚ) (x := x.val) (y := y.val) (z := z.val) h1 h2

namespace Utils
section
variable {F : Type} [Scalar F] [Comparable F] {x y z lo hi : F}

theorem lt_false (h : (x ≤ᶠ y) = true) : (y <ᶠ x) = false := by
  rw [Bool.eq_false_iff]
  intro h'
  rw [(Comparable.lt_iff.mp h').2.2] at h
  cases h
theorem lt_le (h : (x <ᶠ y) = true) : (x ≤ᶠ y) = true := by
  obtain ⟨h1, h2, h3⟩ := Comparable.lt_iff.mp h
  rcases Comparable.total h1 h2 with h4 | h4
  · exact h4
  · rw [h3] at h4; cases h4
theorem not_lt (hx : isNaN x = false) (hy : isNaN y = false) (h : ¬(x <ᶠ y) = true) :
    (y ≤ᶠ x) = true := by
  cases h' : (y ≤ᶠ x)
  · exact absurd (Comparable.lt_iff.mpr ⟨hx, hy, h'⟩) h
  · rfl
theorem lt_nan (h : isNaN x = true ∨ isNaN y = true) : (x <ᶠ y) = false := by
  rw [Bool.eq_false_iff]
  intro h'
  obtain ⟨h1, h2, -⟩ := Comparable.lt_iff.mp h'
  rcases h with h | h
  · rw [h1] at h; cases h
  · rw [h2] at h; cases h
theorem le_refl (h : isNaN x = false) : (x ≤ᶠ x) = true := by
  rcases Comparable.total h h with h | h <;> exact h

/-- C60: `clip` of a value that is a number ends inside the range, at an end that the value is
beyond or at the value itself. -/
theorem C60_clip (h : (lo ≤ᶠ hi) = true) (hx : isNaN x = false) :
    (lo ≤ᶠ clip x lo hi) = true ∧ (clip x lo hi ≤ᶠ hi) = true ∧
    ((lo ≤ᶠ x) = true → (x ≤ᶠ hi) = true → clip x lo hi = x) ∧
    ((x <ᶠ lo) = true → clip x lo hi = lo) ∧ ((hi <ᶠ x) = true → clip x lo hi = hi) := by
  obtain ⟨nl, nh⟩ := Comparable.le_nan h
  unfold clip
  by_cases h1 : (x <ᶠ lo) = true
  · have h2 : (x ≤ᶠ hi) = true := Comparable.trans (lt_le h1) h
    refine ⟨?_, ?_, ?_, ?_, ?_⟩
    · rw [if_pos h1]; exact le_refl nl
    · rw [if_pos h1]; exact h
    · intro h3; rw [lt_false h3] at h1; cases h1
    · intro _; rw [if_pos h1]
    · intro h3; rw [lt_false h2] at h3; cases h3
  · have h3 := not_lt hx nl h1
    rw [if_neg h1]
    by_cases h2 : (hi <ᶠ x) = true
    · rw [if_pos h2]
      refine ⟨h, le_refl nh, ?_, fun h4 => absurd h4 h1, fun _ => rfl⟩
      intro _ h4; rw [lt_false h4] at h2; cases h2
    · rw [if_neg h2]
      exact ⟨h3, not_lt nh hx h2, fun _ _ => rfl, fun h4 => absurd h4 h1, fun h4 => absurd h4 h2⟩

/-- C60: `clip` leaves NaN alone — the result is then in no range. -/
theorem C60_clip_nan (hx : isNaN x = true) : clip x lo hi = x := by
  unfold clip
  rw [lt_nan (.inl hx), lt_nan (.inr hx)]; rfl

/-- C60: `clip` keeps the order of its arguments. -/
theorem C60_clip_mono (h : (lo ≤ᶠ hi) = true) (hxy : (x ≤ᶠ y) = true) :
    (clip x lo hi ≤ᶠ clip y lo hi) = true := by
  obtain ⟨nx, ny⟩ := Comparable.le_nan hxy
  obtain ⟨nl, nh⟩ := Comparable.le_nan h
  obtain ⟨a1, a2, a3, a4, a5⟩ := C60_clip h nx
  obtain ⟨b1, b2, b3, b4, b5⟩ := C60_clip h ny
  by_cases h1 : (x <ᶠ lo) = true
  · rw [a4 h1]; exact b1
  by_cases h2 : (hi <ᶠ y) = true
  · rw [b5 h2]; exact a2
  have c1 := not_lt nx nl h1
  have c2 := not_lt nh ny h2
  rw [a3 c1 (Comparable.trans hxy c2), b3 (Comparable.trans c1 hxy) c2]
  exact hxy

/-- C60: with its ends exchanged `clip` does not confine: it returns `lo` below `lo` and `hi` above
`lo`, never the value between. -/
theorem C60_clip_reversed (h : (hi <ᶠ lo) = true) (hx : isNaN x = false) :
    clip x lo hi = if x <ᶠ lo then lo else hi := by
  unfold clip
  split
  · rfl
  · rename_i h1
    obtain ⟨nh, nl, h2⟩ := Comparable.lt_iff.mp h
    have h3 := not_lt hx nl h1
    rw [if_pos]
    refine Comparable.lt_iff.mpr ⟨nh, hx, ?_⟩
    rw [Bool.eq_false_iff]
    intro h4
    rw [Comparable.trans h3 h4] at h2; cases h2

/-- C60: `in_range` holds of the values between both ends, the ends included; NaN is in no range and
no range has a NaN end. -/
theorem C60_in_range :
    (inRange x lo hi = true ↔ (lo ≤ᶠ x) = true ∧ (x ≤ᶠ hi) = true) ∧
    (inRange x lo hi = true → isNaN x = false ∧ isNaN lo = false ∧ isNaN hi = false ∧
      (lo ≤ᶠ hi) = true) ∧
    ((lo ≤ᶠ hi) = true → inRange lo lo hi = true ∧ inRange hi lo hi = true) := by
  have e : ∀ x : F, inRange x lo hi = true ↔ (lo ≤ᶠ x) = true ∧ (x ≤ᶠ hi) = true := by
    intro x; unfold inRange; rw [Bool.and_eq_true]
  refine ⟨e x, fun h => ?_, fun h => ?_⟩
  · obtain ⟨h1, h2⟩ := (e x).mp h
    exact ⟨(Comparable.le_nan h1).2, (Comparable.le_nan h1).1, (Comparable.le_nan h2).2,
      Comparable.trans h1 h2⟩
  · obtain ⟨nl, nh⟩ := Comparable.le_nan h
    exact ⟨(e lo).mpr ⟨le_refl nl, h⟩, (e hi).mpr ⟨h, le_refl nh⟩⟩

/-- C60: `in_range` holds exactly of the numbers that `clip` leaves unchanged. -/
theorem C60_clip_in_range (h : (lo ≤ᶠ hi) = true) (hx : isNaN x = false) :
    inRange (clip x lo hi) lo hi = true ∧ (inRange x lo hi = true → clip x lo hi = x) := by
  obtain ⟨a1, a2, a3, -, -⟩ := C60_clip h hx
  refine ⟨C60_in_range.1.mpr ⟨a1, a2⟩, fun h' => ?_⟩
  obtain ⟨h1, h2⟩ := C60_in_range.1.mp h'
  exact a3 h1 h2

/-- C60: on numbers `minf` is the smaller and `maxf` the larger argument. -/
theorem C60_min_max (hx : isNaN x = false) (hy : isNaN y = false) :
    ((minf x y ≤ᶠ x) = true ∧ (minf x y ≤ᶠ y) = true ∧ (minf x y = x ∨ minf x y = y)) ∧
    (x ≤ᶠ maxf x y) = true ∧ (y ≤ᶠ maxf x y) = true ∧ (maxf x y = x ∨ maxf x y = y) := by
  unfold minf maxf
  constructor
  · by_cases h : (x <ᶠ y) = true
    · rw [if_pos h]; exact ⟨le_refl hx, lt_le h, .inl rfl⟩
    · rw [if_neg h]; exact ⟨not_lt hx hy h, le_refl hy, .inr rfl⟩
  · by_cases h : (y <ᶠ x) = true
    · rw [if_pos h]; exact ⟨le_refl hx, lt_le h, .inl rfl⟩
    · rw [if_neg h]; exact ⟨not_lt hy hx h, le_refl hy, .inr rfl⟩

/-- C60: with a NaN argument `minf` and `maxf` return the second one, NaN or not: they are not
commutative. -/
theorem C60_min_max_nan (h : isNaN x = true ∨ isNaN y = true) : minf x y = y ∧ maxf x y = y := by
  unfold minf maxf
  rw [lt_nan h, lt_nan h.symm]
  exact ⟨rfl, rfl⟩

/-- C60: `sign` is 1 on positive values, -1 on negative values, 0 on the rest: the zeros and NaN. -/
theorem C60_sign :
    ((x >ᶠ lit 0) = true → sign x = lit 1) ∧ ((x <ᶠ lit 0) = true → sign x = lit (-1)) ∧
    ((x ≤ᶠ lit 0) = true → (x ≥ᶠ lit 0) = true → sign x = lit 0) ∧
    (isNaN x = true → sign x = lit 0) := by
  unfold sign
  refine ⟨fun h => if_pos h, fun h => ?_, fun h1 h2 => ?_, fun h => ?_⟩
  · rw [if_neg (by rw [lt_false (lt_le h)]; decide), if_pos h]
  · rw [if_neg (by rw [lt_false h1]; decide), if_neg (by rw [lt_false h2]; decide)]
  · rw [lt_nan (.inr h), lt_nan (.inl h)]; rfl

end

section
variable {F : Type} [Scalar F] {x y d : F}

/-- C60: `is_valid_value` and `allclose` fail exactly on values that are not finite, and say which
kind they met first. -/
theorem C60_allclose :
    (isValidValue x = .ok () ↔ Finite x) ∧
    ((∃ b, allclose x y d = .ok b) ↔ Finite x ∧ Finite y) ∧
    (isNaN x = true → allclose x y d = .error (.err .Nan)) ∧
    (isNaN x = false → isInf x = true → allclose x y d = .error (.err .Inf)) ∧
    (Finite x → isNaN y = true → allclose x y d = .error (.err .Nan)) ∧
    (Finite x → isNaN y = false → isInf y = true → allclose x y d = .error (.err .Inf)) := by
  unfold allclose isValidValue Finite
  cases hx : isNaN x <;> cases hx' : isInf x <;> cases hy : isNaN y <;> cases hy' : isInf y <;>
    simp [bind, Except.bind, fail]

end

/-- C60: in exact arithmetic `allclose` compares the distance with the tolerance; a negative or NaN
tolerance is never met. -/
theorem C60_allclose_exact {K : Type} [Field K] [LinearOrder K] [IsStrictOrderedRing K] [Elementary K]
    (a b d : K) :
    (allclose (.fin a : Ext K) (.fin b) (.fin d) = .ok (decide (|a - b| ≤ d))) ∧
    (allclose (.fin a : Ext K) (.fin b) .nan = .ok false) ∧
    (d < 0 → allclose (.fin a : Ext K) (.fin b) (.fin d) = .ok false) := by
  have e : allclose (.fin a : Ext K) (.fin b) (.fin d) = .ok (decide (|a - b| ≤ d)) := by
    show Except.ok (Scalar.abs ((.fin a : Ext K) -ᶠ .fin b) ≤ᶠ .fin d) = _
    rw [Ext.sub_fin, Ext.abs_fin, Ext.le_fin, abs_eq_max_neg]
    congr 2
    split
    · rename_i h; rw [max_eq_left (by linarith)]
    · rename_i h; push Not at h; rw [max_eq_right (by linarith)]
  refine ⟨e, ?_, fun h => ?_⟩
  · show Except.ok (Scalar.abs ((.fin a : Ext K) -ᶠ .fin b) ≤ᶠ (.nan : Ext K)) = _
    rw [Ext.sub_fin, Ext.abs_fin]; rfl
  · rw [e, decide_eq_false (not_le.mpr (h.trans_le (abs_nonneg _)))]

/-- C60: the integer `min` and `max`. -/
theorem C60_int (x y : Int) :
    (minInt x y ≤ x ∧ minInt x y ≤ y ∧ (minInt x y = x ∨ minInt x y = y)) ∧
    (x ≤ maxInt x y ∧ y ≤ maxInt x y ∧ (maxInt x y = x ∨ maxInt x y = y)) := by
  unfold minInt maxInt
  constructor <;> split <;> omega

/-- C60: on integers `sign` is the sign: the number is its magnitude times the sign. -/
theorem C60_sign_int (x : Int) : signInt x * |x| = x ∧ (signInt x = 0 ↔ x = 0) ∧ |signInt x| ≤ 1 := by
  unfold signInt
  rcases lt_trichotomy x 0 with h | h | h
  · rw [if_neg (by omega), if_pos h, abs_of_neg h]
    exact ⟨by ring, by omega, by decide⟩
  · subst h
    decide
  · rw [if_pos h, abs_of_pos h]
    exact ⟨by ring, by omega, by decide⟩

/-! Concrete cases in binary32: a tenth is clipped from above and below, NaN and the order of the
arguments of `minf` matter, `sign` of NaN is 0. -/

example : let f : ℚ → F32 := lit
    [clip (f (1/10)) (f 0) (f 1), clip (f 7) (f 0) (f 1), clip (f (-7)) (f 0) (f 1), clip ⟨.pinf⟩ (f 0) (f 1),
      clip (f (1/2)) (f 1) (f 0)] = [f (1/10), f 1, f 0, f 1, f 1] ∧
    (f 0 ≤ᶠ f 1) = true ∧ isNaN (f (1/10)) = false ∧ (f 0 <ᶠ f 1) = true := by
  decide +kernel
example : let n : F32 := ⟨.nan⟩
    [clip n (lit 0) (lit 1), minf n (lit 1), minf (lit 1) n, maxf n (lit 1), maxf (lit 1) n, sign n,
      sign (lit (-3)), sign (lit (1/1000)), sign (lit 0)] =
    [n, lit 1, n, lit 1, n, lit 0, lit (-1), lit 1, lit 0] ∧ isNaN n = true := by
  decide +kernel
example : let f : ℚ → F32 := lit
    [inRange (f 1) (f 0) (f 1), inRange (f 2) (f 0) (f 1), inRange ⟨.nan⟩ (f 0) (f 1), inRange (f 0) (f 1) (f 0)] =
      [true, false, false, false] ∧
    [allclose (f (1/10)) (f (11/100)) (f (1/50)), allclose (f (1/10)) (f (13/100)) (f (1/50)),
      allclose ⟨.nan⟩ ⟨.pinf⟩ (f 1), allclose (f 1) ⟨.pinf⟩ (f 1), allclose (f 1) (f 1) (f (-1))] =
      [.ok true, .ok false, .error (.err .Nan), .error (.err .Inf), .ok false] := by
  decide +kernel
example : minInt (-3) 2 = -3 ∧ maxInt (-3) 2 = 2 ∧ signInt (-2147483648) = -1 ∧ signInt 7 = 1 := by decide +kernel

end Utils
end Verif
