import Verif.Props.RoundedTrace
import Verif.Props.PosDef32
import Verif.Props.ElementPlain

set_option linter.unusedSectionVars false
set_option linter.unusedSimpArgs false

/-
C139: which laws of the element-wise operations (`add_new`, `sub_new`, `mul_by_scalar_new`,
`mul_by_scalar_in_place`; linalg/src/vector.rs and linalg/src/matrix.rs) hold without any error in binary32.
-/

namespace Verif
open Scalar Finset

/-! ### Numbers -/

theorem add_comm32 {x y : F32} (hx : Finite x) (hy : Finite y) : x +ᶠ y = y +ᶠ x := by
  obtain ⟨a, rfl⟩ := F32.finite_iff.mp hx
  obtain ⟨b, rfl⟩ := F32.finite_iff.mp hy
  rw [F32.add_eq, F32.add_eq, add_comm]

/-- The rounded difference of two numbers is zero only when they are equal. -/
theorem sub_zero_iff32 {x y : F32} (hx : F32.IsNumber x) (hy : F32.IsNumber y) : x -ᶠ y = lit 0 ↔ x = y := by
  obtain ⟨a, rfl, ha⟩ := F32.isNumber_iff.mp hx
  obtain ⟨b, rfl, hb⟩ := F32.isNumber_iff.mp hy
  have h0 : (lit 0 : F32) = ⟨.fin 0⟩ := by decide +kernel
  rw [F32.sub_eq, h0]
  constructor
  · intro h
    have h1 : F32.round (a - b) = .fin 0 := congrArg F32.val h
    obtain ⟨n, hn⟩ := F32.number_mul ha (m := -149) (.inl le_rfl)
    obtain ⟨m, hm⟩ := F32.number_mul hb (m := -149) (.inl le_rfl)
    by_contra hne
    have hab : a ≠ b := fun h => hne (by rw [h])
    have hnm : n ≠ m := fun h => hab (by rw [hn, hm, h])
    have hd : F32.round (((1 : ℤ) : ℚ) * 2 ^ (-149 : ℤ)) = .fin (((1 : ℤ) : ℚ) * 2 ^ (-149 : ℤ)) := F32.round_small (by norm_num)
    have hk : ((1 : ℤ) : ℚ) * 2 ^ (-149 : ℤ) ≤ |a - b| := by
      rw [hn, hm, ← sub_mul, abs_mul, abs_of_pos (show (0 : ℚ) < 2 ^ (-149 : ℤ) by positivity)]
      refine mul_le_mul_of_nonneg_right ?_ (by positivity)
      have : (1 : ℤ) ≤ |n - m| := Int.one_le_abs (sub_ne_zero.mpr hnm)
      exact_mod_cast this
    have := F32.le_round (by positivity) hd hk h1
    rw [abs_zero] at this
    exact absurd this (not_le.mpr (by positivity))
  · intro h
    have h1 : a = b := Ext.fin.inj (congrArg F32.val h)
    rw [h1, sub_self]
    rfl

/-- The difference of two numbers near each other is exact, and adding it back gives the number. -/
theorem sub_near32 {x y : F32} (hx : F32.IsNumber x) (hy : F32.IsNumber y) (h : 2 * |⟪x⟫ - ⟪y⟫| ≤ |⟪x⟫|) :
    Finite (x -ᶠ y) ∧ ⟪x -ᶠ y⟫ = ⟪x⟫ - ⟪y⟫ ∧ y +ᶠ (x -ᶠ y) = x := by
  obtain ⟨a, rfl, ha⟩ := F32.isNumber_iff.mp hx
  obtain ⟨b, rfl, hb⟩ := F32.isNumber_iff.mp hy
  have h' : 2 * |a - b| ≤ |a| := by
    have k : 2 * |F32.toReal ⟨.fin a⟩ - F32.toReal ⟨.fin b⟩| ≤ |F32.toReal ⟨.fin a⟩| := h
    rw [F32.toReal_fin, F32.toReal_fin] at k
    exact_mod_cast k
  have e := F32.round_sub ha hb h'
  have e1 : (⟨.fin a⟩ : F32) -ᶠ ⟨.fin b⟩ = ⟨.fin (a - b)⟩ := by
    rw [F32.sub_eq]
    exact congrArg F32.mk e
  rw [e1]
  refine ⟨F32.finite_iff.mpr ⟨_, rfl⟩, ?_, ?_⟩
  · show F32.toReal _ = F32.toReal _ - F32.toReal _
    rw [F32.toReal_fin, F32.toReal_fin, F32.toReal_fin]
    push_cast
    rfl
  · rw [F32.add_eq, add_sub_cancel]
    exact congrArg F32.mk ha

/-- Doubling a number. -/
theorem round_double {q : ℚ} (h : F32.round q = .fin q) (hb : |q| < 2 ^ 127) : F32.round (q * 2) = .fin (q * 2) := by
  have key : ∀ {q : ℚ}, 0 < q → F32.round q = .fin q → q < 2 ^ 127 → F32.round (q * 2) = .fin (q * 2) := by
    intro q h0 h hb
    obtain ⟨n, hn⟩ := F32.mul_ulp (F32.roundPos_pos h0 h).1
    have hlt := F32.lt_ulp h0
    have hu := F32.ulp_pos q
    have hn0 : 0 < n := by
      have : (0 : ℚ) < n := by
        by_contra hc
        have := mul_nonpos_of_nonpos_of_nonneg (not_lt.mp hc) hu.le
        linarith
      exact_mod_cast this
    have hn1 : n < 2 ^ 24 := by
      have : (n : ℚ) < 2 ^ 24 := by
        rw [hn] at hlt
        have h2 : F32.ulp ((n : ℚ) * F32.ulp q) = F32.ulp q := by rw [← hn]
        rw [h2] at hlt
        exact lt_of_mul_lt_mul_right hlt hu.le
      exact_mod_cast this
    have e : q * 2 = n * 2 ^ (max (F32.expo q - 23) (-149) + 1) := by
      rw [zpow_add₀ (by norm_num), ← F32.ulp_eq, zpow_one, ← mul_assoc, ← hn]
    refine F32.round_of_pos (by linarith) ?_ ?_
    · rw [e]
      exact F32.roundPos_mul hn0 hn1 (by have := le_max_right (F32.expo q - 23) (-149); omega)
    · rw [F32.pow2_eq]
      norm_num at hb ⊢
      linarith
  rcases lt_trichotomy q 0 with h0 | rfl | h0
  · rw [abs_of_neg h0] at hb
    have := F32.round_neg (key (by linarith : 0 < -q) (F32.round_neg h) hb)
    rwa [show -(-q * 2) = q * 2 by ring] at this
  · simp; rfl
  · rw [abs_of_pos h0] at hb
    exact key h0 h hb

theorem double32 {x : F32} (hx : F32.IsNumber x) (hb : |⟪x⟫| < 2 ^ 127) :
    F32.IsNumber (x *ᶠ lit 2) ∧ ⟪x *ᶠ lit 2⟫ = ⟪x⟫ * 2 ∧ (x *ᶠ lit 2) *ᶠ lit (1 / 2) = x := by
  obtain ⟨a, rfl, ha⟩ := F32.isNumber_iff.mp hx
  have h2 : (lit 2 : F32) = ⟨.fin 2⟩ := by decide +kernel
  have hh : (lit (1 / 2) : F32) = ⟨.fin (1 / 2)⟩ := by decide +kernel
  have hb' : |a| < 2 ^ 127 := by
    have k : |F32.toReal ⟨.fin a⟩| < 2 ^ 127 := hb
    rw [F32.toReal_fin] at k
    exact_mod_cast k
  have e := round_double ha hb'
  have e1 : (⟨.fin a⟩ : F32) *ᶠ ⟨.fin 2⟩ = ⟨.fin (a * 2)⟩ := by
    rw [F32.mul_eq]
    exact congrArg F32.mk e
  rw [h2, hh, e1]
  refine ⟨F32.isNumber_iff.mpr ⟨_, rfl, e⟩, ?_, ?_⟩
  · show F32.toReal _ = F32.toReal _ * 2
    rw [F32.toReal_fin, F32.toReal_fin]
    push_cast
    rfl
  · rw [F32.mul_eq, show a * 2 * (1 / 2) = a by ring]
    exact congrArg F32.mk ha

/-! ### Vectors and matrices -/

section
variable {F : Type} [Scalar F]

theorem addNew_ok {v w : Vec F} {n : Nat} {f g : Nat → F} (hv : VecIs v n f) (hw : VecIs w n g) :
    (∃ r, v.addNew w = .ok r) ↔ ∀ i, i < n → Finite (f i +ᶠ g i) := by
  obtain ⟨h1, -, -, -, -, h2⟩ := C08_add hv hv hw
  rw [← h1]
  constructor
  · rintro ⟨r, e⟩
    rcases h : (Vec.add v w v).1 with e' | ⟨⟩
    · rw [(h2 e').mpr h] at e; cases e
    · rfl
  · intro h
    rcases e : v.addNew w with e' | r
    · rw [(h2 e').mp e] at h; cases h
    · exact ⟨r, rfl⟩

theorem subNew_ok {v w : Vec F} {n : Nat} {f g : Nat → F} (hv : VecIs v n f) (hw : VecIs w n g) :
    (∃ r, v.subNew w = .ok r) ↔ ∀ i, i < n → Finite (f i -ᶠ g i) := by
  obtain ⟨h1, -, -, -, -, h2⟩ := C08_sub hv hv hw
  rw [← h1]
  constructor
  · rintro ⟨r, e⟩
    rcases h : (Vec.sub v w v).1 with e' | ⟨⟩
    · rw [(h2 e').mpr h] at e; cases e
    · rfl
  · intro h
    rcases e : v.subNew w with e' | r
    · rw [(h2 e').mp e] at h; cases h
    · exact ⟨r, rfl⟩

theorem mat_addNew_ok {v w : Mat F} {r c : Nat} {f g : Nat → Nat → F} (hv : MatIs v r c f) (hw : MatIs w r c g) :
    (∃ a, v.addNew w = .ok a) ↔ ∀ i j, i < r → j < c → Finite (f i j +ᶠ g i j) := by
  obtain ⟨h1, -, -, -, -, h2⟩ := C09_add hv hv hw
  rw [← h1]
  constructor
  · rintro ⟨a, e⟩
    rcases h : (Mat.add v w v).1 with e' | ⟨⟩
    · rw [(h2 e').mpr h] at e; cases e
    · rfl
  · intro h
    rcases e : v.addNew w with e' | a
    · rw [(h2 e').mp e] at h; cases h
    · exact ⟨a, rfl⟩

theorem mat_subNew_ok {v w : Mat F} {r c : Nat} {f g : Nat → Nat → F} (hv : MatIs v r c f) (hw : MatIs w r c g) :
    (∃ a, v.subNew w = .ok a) ↔ ∀ i j, i < r → j < c → Finite (f i j -ᶠ g i j) := by
  obtain ⟨h1, -, -, -, -, h2⟩ := C09_sub hv hv hw
  rw [← h1]
  constructor
  · rintro ⟨a, e⟩
    rcases h : (Mat.sub v w v).1 with e' | ⟨⟩
    · rw [(h2 e').mpr h] at e; cases e
    · rfl
  · intro h
    rcases e : v.subNew w with e' | a
    · rw [(h2 e').mp e] at h; cases h
    · exact ⟨a, rfl⟩

end

section
variable {n r c : Nat}

/-- C139: `add_new` does not depend on the order: either both orders fail or both succeed with the same elements. -/
theorem C139_comm {v w : Vec F32} {f g : Nat → F32} {a b : Mat F32} {A B : Nat → Nat → F32} (hv : VecIs v n f) (hw : VecIs w n g)
    (ha : MatIs a r c A) (hb : MatIs b r c B) (hf : ∀ i, i < n → Finite (f i)) (hg : ∀ i, i < n → Finite (g i))
    (hA : ∀ i j, i < r → j < c → Finite (A i j)) (hB : ∀ i j, i < r → j < c → Finite (B i j)) :
    ((∃ s, v.addNew w = .ok s) ↔ ∃ s, w.addNew v = .ok s) ∧
    (∀ s t, v.addNew w = .ok s → w.addNew v = .ok t → ∀ i, i < n → s.getElement i = t.getElement i) ∧
    ((∃ s, a.addNew b = .ok s) ↔ ∃ s, b.addNew a = .ok s) ∧
    ∀ s t, a.addNew b = .ok s → b.addNew a = .ok t → ∀ i j, i < r → j < c → s.getElement i j = t.getElement i j := by
  refine ⟨?_, fun s t hs ht i hi => ?_, ?_, fun s t hs ht i j hi hj => ?_⟩
  · rw [addNew_ok hv hw, addNew_ok hw hv]
    exact forall₂_congr fun i hi => by rw [add_comm32 (hf i hi) (hg i hi)]
  · rw [((C08_add hv hv hw).2.2.2.2.1 s hs).get i hi, ((C08_add hv hw hv).2.2.2.2.1 t ht).get i hi,
      add_comm32 (hf i hi) (hg i hi)]
  · rw [mat_addNew_ok ha hb, mat_addNew_ok hb ha]
    exact forall₄_congr fun i j hi hj => by rw [add_comm32 (hA i j hi hj) (hB i j hi hj)]
  · rw [((C09_add ha ha hb).2.2.2.2.1 s hs).get i j hi hj, ((C09_add ha hb ha).2.2.2.2.1 t ht).get i j hi hj,
      add_comm32 (hA i j hi hj) (hB i j hi hj)]

/-- C139: a difference consists of zeros exactly when the operands are equal; nothing is lost by underflow. -/
theorem C139_zero {v w d : Vec F32} {f g : Nat → F32} {a b e : Mat F32} {A B : Nat → Nat → F32} (hv : VecIs v n f) (hw : VecIs w n g)
    (ha : MatIs a r c A) (hb : MatIs b r c B) (hf : ∀ i, i < n → F32.IsNumber (f i)) (hg : ∀ i, i < n → F32.IsNumber (g i))
    (hA : ∀ i j, i < r → j < c → F32.IsNumber (A i j)) (hB : ∀ i j, i < r → j < c → F32.IsNumber (B i j)) :
    (v.subNew w = .ok d → ((∀ i, i < n → d.getElement i = .ok (lit 0)) ↔ ∀ i, i < n → f i = g i)) ∧
    (a.subNew b = .ok e → ((∀ i j, i < r → j < c → e.getElement i j = .ok (lit 0)) ↔ ∀ i j, i < r → j < c → A i j = B i j)) := by
  refine ⟨fun h => ?_, fun h => ?_⟩
  · have hd := (C08_sub hv hv hw).2.2.2.2.1 d h
    exact forall₂_congr fun i hi => by
      rw [hd.get i hi, ← sub_zero_iff32 (hf i hi) (hg i hi)]
      exact ⟨fun h => Except.ok.inj h, fun h => by rw [h]⟩
  · have hd := (C09_sub ha ha hb).2.2.2.2.1 e h
    exact forall₄_congr fun i j hi hj => by
      rw [hd.get i j hi hj, ← sub_zero_iff32 (hA i j hi hj) (hB i j hi hj)]
      exact ⟨fun h => Except.ok.inj h, fun h => by rw [h]⟩

/-- C139: when each element of the second vector differs from the one of the first by at most half of it, the
difference is exact, and adding it to the second vector gives the first one, without any rounding error. -/
theorem C139_exact {v w : Vec F32} {f g : Nat → F32} (hv : VecIs v n f) (hw : VecIs w n g)
    (hf : ∀ i, i < n → F32.IsNumber (f i)) (hg : ∀ i, i < n → F32.IsNumber (g i))
    (h : ∀ i, i < n → 2 * |⟪f i⟫ - ⟪g i⟫| ≤ |⟪f i⟫|) :
    ∃ d D s, v.subNew w = .ok d ∧ VecIs d n D ∧ (∀ i, i < n → ⟪D i⟫ = ⟪f i⟫ - ⟪g i⟫) ∧ w.addNew d = .ok s ∧ VecIs s n f := by
  have key := fun i hi => sub_near32 (hf i hi) (hg i hi) (h i hi)
  obtain ⟨d, hd⟩ := (subNew_ok hv hw).mpr fun i hi => (key i hi).1
  have hD := (C08_sub hv hv hw).2.2.2.2.1 d hd
  obtain ⟨s, hs⟩ := (addNew_ok hw hD).mpr fun i hi => by rw [(key i hi).2.2]; exact (hf i hi).1
  refine ⟨d, _, s, hd, hD, fun i hi => (key i hi).2.1, hs, ?_⟩
  exact ((C08_add hv hw hD).2.2.2.2.1 s hs).congr fun i hi => (key i hi).2.2

/-- C139: in general a sum of vectors is undone up to rounding, relative to the larger of the operands. -/
theorem C139_undo {v w : Vec F32} {f g : Nat → F32} (hv : VecIs v n f) (hw : VecIs w n g)
    (hf : ∀ i, i < n → Finite (f i)) (hg : ∀ i, i < n → Finite (g i))
    (h : ∀ i, i < n → |⟪f i⟫| + |⟪g i⟫| ≤ 2 ^ 126) :
    ∃ s d D, v.addNew w = .ok s ∧ s.subNew w = .ok d ∧ VecIs d n D ∧
      ∀ i, i < n → |⟪D i⟫ - ⟪f i⟫| ≤ 3 / 2 ^ 24 * (|⟪f i⟫| + |⟪g i⟫|) + 1 / 2 ^ 148 := by
  have hs1 : ∀ i, i < n → Finite (f i +ᶠ g i) := fun i hi => by
    refine Rounded.add_finite (hf i hi) (hg i hi) ((abs_add_le _ _).trans ((h i hi).trans (by norm_num)))
  have key : ∀ i, i < n → |⟪f i +ᶠ g i⟫ - (⟪f i⟫ + ⟪g i⟫)| ≤ 1 / 2 ^ 24 * (|⟪f i⟫| + |⟪g i⟫|) + 1 / 2 ^ 150 := fun i hi => by
    have h1 := Rounded.add_near (hf i hi) (hg i hi) (hs1 i hi)
    unfold Near at h1
    rw [Linalg.ru_eq, rη_eq] at h1
    have h2 := abs_add_le ⟪f i⟫ ⟪g i⟫
    norm_num at h1 ⊢
    linarith
  have hb : ∀ i, i < n → |⟪f i +ᶠ g i⟫ - ⟪g i⟫| ≤ |⟪f i⟫| + 1 / 2 ^ 24 * (|⟪f i⟫| + |⟪g i⟫|) + 1 / 2 ^ 150 := fun i hi => by
    have h1 := abs_add_le (⟪f i +ᶠ g i⟫ - (⟪f i⟫ + ⟪g i⟫)) ⟪f i⟫
    rw [show ⟪f i +ᶠ g i⟫ - (⟪f i⟫ + ⟪g i⟫) + ⟪f i⟫ = ⟪f i +ᶠ g i⟫ - ⟪g i⟫ by ring] at h1
    linarith [key i hi]
  have hd1 : ∀ i, i < n → Finite ((f i +ᶠ g i) -ᶠ g i) := fun i hi => by
    refine Rounded.sub_finite (hs1 i hi) (hg i hi) ((hb i hi).trans ?_)
    have h1 := h i hi
    have h2 : 0 ≤ |⟪f i⟫| := abs_nonneg _
    have h3 : 0 ≤ |⟪g i⟫| := abs_nonneg _
    norm_num at h1 ⊢
    linarith
  obtain ⟨s, es⟩ := (addNew_ok hv hw).mpr hs1
  have hs := (C08_add hv hv hw).2.2.2.2.1 s es
  obtain ⟨d, ed⟩ := (subNew_ok hs hw).mpr hd1
  refine ⟨s, d, _, es, ed, (C08_sub hv hs hw).2.2.2.2.1 d ed, fun i hi => ?_⟩
  have h1 := Rounded.sub_near (hs1 i hi) (hg i hi) (hd1 i hi)
  unfold Near at h1
  rw [Linalg.ru_eq, rη_eq] at h1
  have h2 := hb i hi
  have h3 := key i hi
  have h4 : 0 ≤ |⟪f i⟫| := abs_nonneg _
  have h5 : 0 ≤ |⟪g i⟫| := abs_nonneg _
  have h6 := abs_add_le (⟪(f i +ᶠ g i) -ᶠ g i⟫ - (⟪f i +ᶠ g i⟫ - ⟪g i⟫)) (⟪f i +ᶠ g i⟫ - (⟪f i⟫ + ⟪g i⟫))
  rw [show ⟪(f i +ᶠ g i) -ᶠ g i⟫ - (⟪f i +ᶠ g i⟫ - ⟪g i⟫) + (⟪f i +ᶠ g i⟫ - (⟪f i⟫ + ⟪g i⟫)) = ⟪(f i +ᶠ g i) -ᶠ g i⟫ - ⟪f i⟫ by ring] at h6
  norm_num at h1 h2 h3 ⊢
  linarith

/-- C139: an exact difference of matrices, as C139_exact for vectors. -/
theorem C139_exact_mat {a b : Mat F32} {A B : Nat → Nat → F32} (ha : MatIs a r c A) (hb : MatIs b r c B)
    (hA : ∀ i j, i < r → j < c → F32.IsNumber (A i j)) (hB : ∀ i j, i < r → j < c → F32.IsNumber (B i j))
    (h : ∀ i j, i < r → j < c → 2 * |⟪A i j⟫ - ⟪B i j⟫| ≤ |⟪A i j⟫|) :
    ∃ d D s, a.subNew b = .ok d ∧ MatIs d r c D ∧ (∀ i j, i < r → j < c → ⟪D i j⟫ = ⟪A i j⟫ - ⟪B i j⟫) ∧
      b.addNew d = .ok s ∧ MatIs s r c A := by
  have key := fun i j hi hj => sub_near32 (hA i j hi hj) (hB i j hi hj) (h i j hi hj)
  obtain ⟨d, hd⟩ := (mat_subNew_ok ha hb).mpr fun i j hi hj => (key i j hi hj).1
  have hD := (C09_sub ha ha hb).2.2.2.2.1 d hd
  obtain ⟨s, hs⟩ := (mat_addNew_ok hb hD).mpr fun i j hi hj => by rw [(key i j hi hj).2.2]; exact (hA i j hi hj).1
  refine ⟨d, _, s, hd, hD, fun i j hi hj => (key i j hi hj).2.1, hs, ?_⟩
  exact ((C09_add ha hb hD).2.2.2.2.1 s hs).congr fun i j hi hj => (key i j hi hj).2.2

/-- C139: doubling the elements of a matrix below `2¹²⁷` is exact, subnormal ones included, and halving them
afterwards gives the matrix back. -/
theorem C139_double {a : Mat F32} {A : Nat → Nat → F32} (ha : MatIs a r c A)
    (hA : ∀ i j, i < r → j < c → F32.IsNumber (A i j)) (hb : ∀ i j, i < r → j < c → |⟪A i j⟫| < 2 ^ 127) :
    ∃ a' A' a'', Mat.mulByScalarInPlace (lit 2) a = (.ok (), a') ∧ MatIs a' r c A' ∧
      (∀ i j, i < r → j < c → ⟪A' i j⟫ = 2 * ⟪A i j⟫) ∧
      Mat.mulByScalarInPlace (lit (1 / 2)) a' = (.ok (), a'') ∧ MatIs a'' r c A := by
  have key := fun i j hi hj => double32 (hA i j hi hj) (hb i j hi hj)
  have h1 := (C10_mul_by_scalar_mat (lit 2) ha).1.mpr fun i j hi hj => (key i j hi hj).1.1
  have m1 := (C10_mul_by_scalar_mat (lit 2) ha).2 h1
  have h2 := (C10_mul_by_scalar_mat (lit (1 / 2)) m1).1.mpr fun i j hi hj => by
    rw [(key i j hi hj).2.2]; exact (hA i j hi hj).1
  have m2 := (C10_mul_by_scalar_mat (lit (1 / 2)) m1).2 h2
  exact ⟨_, _, _, Prod.ext h1 rfl, m1, fun i j hi hj => by rw [(key i j hi hj).2.1, mul_comm], Prod.ext h2 rfl,
    m2.congr fun i j hi hj => (key i j hi hj).2.2⟩

/-! ### Products with the identity -/

theorem add_zero_right32 {x : F32} (hx : F32.IsNumber x) : x +ᶠ lit 0 = x := by
  obtain ⟨a, rfl, ha⟩ := F32.isNumber_iff.mp hx
  have h1 : (lit 0 : F32) = ⟨.fin 0⟩ := by decide +kernel
  rw [h1, F32.add_eq, add_zero]
  exact congrArg F32.mk ha

theorem zero_add_left32 {x : F32} (hx : F32.IsNumber x) : lit 0 +ᶠ x = x := by
  rw [add_comm32 Rounded.zero_finite hx.1, add_zero_right32 hx]

theorem mul_one_right32 {x : F32} (hx : F32.IsNumber x) : x *ᶠ lit 1 = x := by
  obtain ⟨a, rfl, ha⟩ := F32.isNumber_iff.mp hx
  have h1 : (lit 1 : F32) = ⟨.fin 1⟩ := by decide +kernel
  rw [h1, F32.mul_eq, mul_one]
  exact congrArg F32.mk ha

theorem zero_number32 : F32.IsNumber (lit 0 : F32) := by decide +kernel

/-- A sum with one term that may not be zero. -/
theorem sum_single32 {x : Nat → F32} {m : Nat} (hm : F32.IsNumber (x m)) :
    ∀ k, (∀ t, t < k → t ≠ m → x t = lit 0) → sumUp k x = if m < k then x m else lit 0 := by
  intro k
  induction k with
  | zero => intro _; rfl
  | succ k ih =>
    intro h
    show sumUp k x +ᶠ x k = _
    rw [ih fun t ht => h t (by omega)]
    by_cases h1 : m < k
    · rw [if_pos h1, if_pos (by omega), h k (by omega) (by omega), add_zero_right32 hm]
    · by_cases h2 : m = k
      · subst h2
        rw [if_neg h1, if_pos (by omega), zero_add_left32 hm]
      · rw [if_neg h1, if_neg (by omega), h k (by omega) (fun h => h2 h.symm), add_zero_right32 zero_number32]

/-- C139: the product with the identity matrix, on either side, is the matrix itself, without rounding errors. -/
theorem C139_identity {a s e e' : Mat F32} {A f0 E : Nat → Nat → F32} (ha : MatIs a r c A) (hs : MatIs s r c f0)
    (he : MatIs e r r E) (he' : MatIs e' c c E) (hE : ∀ i j, E i j = if i = j then lit 1 else lit 0)
    (hA : ∀ i j, i < r → j < c → F32.IsNumber (A i j)) :
    (∃ s', Mat.mul e a s = (.ok (), s') ∧ MatIs s' r c A) ∧ ∃ s', Mat.mul a e' s = (.ok (), s') ∧ MatIs s' r c A := by
  have k1 : ∀ i j, i < r → j < c → ∀ l, l ≤ r → sumUp l (fun t => E i t *ᶠ A t j) = if i < l then A i j else lit 0 := by
    intro i j hi hj l hl
    have hm : E i i *ᶠ A i j = A i j := by rw [hE, if_pos rfl, one_mul32 (hA i j hi hj)]
    rw [sum_single32 (x := fun t => E i t *ᶠ A t j) (m := i) (by simp only [hm]; exact hA i j hi hj) l (fun t ht hne => by
      simp only [hE]
      rw [if_neg (fun h => hne h.symm), zero_mul32 (hA t j (by omega) hj).1])]
    simp only [hm]
  have k2 : ∀ i j, i < r → j < c → ∀ l, l ≤ c → sumUp l (fun t => A i t *ᶠ E t j) = if j < l then A i j else lit 0 := by
    intro i j hi hj l hl
    have hm : A i j *ᶠ E j j = A i j := by rw [hE, if_pos rfl, mul_one_right32 (hA i j hi hj)]
    rw [sum_single32 (x := fun t => A i t *ᶠ E t j) (m := j) (by simp only [hm]; exact hA i j hi hj) l (fun t ht hne => by
      simp only [hE]
      rw [if_neg hne, mul_zero_right32 (hA i t hi (by omega)).1])]
    simp only [hm]
  constructor
  · have h := (C12_mul he ha hs).1.mpr fun i j l hi hj hl => by
      rw [k1 i j hi hj (l + 1) hl]
      split
      · exact (hA i j hi hj).1
      · exact Rounded.zero_finite
    exact ⟨_, Prod.ext h rfl, ((C12_mul he ha hs).2 h).congr fun i j hi hj => by rw [k1 i j hi hj r le_rfl, if_pos hi]⟩
  · have h := (C12_mul ha he' hs).1.mpr fun i j l hi hj hl => by
      rw [k2 i j hi hj (l + 1) hl]
      split
      · exact (hA i j hi hj).1
      · exact Rounded.zero_finite
    exact ⟨_, Prod.ext h rfl, ((C12_mul ha he' hs).2 h).congr fun i j hi hj => by rw [k2 i j hi hj c le_rfl, if_pos hj]⟩

theorem quat_mul_run {F : Type} [Scalar F] {a b : Vec F} {f g : Nat → F} {w x y z : F} (ha : VecIs a 4 f) (hb : VecIs b 4 g)
    (ew : f 0 *ᶠ g 0 -ᶠ f 1 *ᶠ g 1 -ᶠ f 2 *ᶠ g 2 -ᶠ f 3 *ᶠ g 3 = w)
    (ex : f 0 *ᶠ g 1 +ᶠ f 1 *ᶠ g 0 -ᶠ f 3 *ᶠ g 2 +ᶠ f 2 *ᶠ g 3 = x)
    (ey : f 0 *ᶠ g 2 +ᶠ f 3 *ᶠ g 1 +ᶠ g 0 *ᶠ f 2 -ᶠ f 1 *ᶠ g 3 = y)
    (ez : f 0 *ᶠ g 3 -ᶠ f 2 *ᶠ g 1 +ᶠ f 1 *ᶠ g 2 +ᶠ g 0 *ᶠ f 3 = z)
    (hw : Finite w) (hx : Finite x) (hy : Finite y) (hz : Finite z) :
    ∃ m, Quat.mulNew a b = .ok m ∧ VecIs m 4 (seq4 w x y z) := by
  obtain ⟨m, e, hm⟩ := Quat.storeAll_ok (Vec.zeros_is (F := F) (n := 4) (by omega) (by omega)) hw hx hy hz
  refine ⟨m, ?_, hm⟩
  unfold Quat.mulNew
  simp only [Quat.isQuaternion_eq ha, Quat.isQuaternion_eq hb, Res.ok_bind, decide_true, Bool.not_true,
    Bool.false_eq_true, if_false, ha.get 0 (by omega), ha.get 1 (by omega), ha.get 2 (by omega),
    ha.get 3 (by omega), hb.get 0 (by omega), hb.get 1 (by omega), hb.get 2 (by omega),
    hb.get 3 (by omega), Vec.init_new (F := F) (n := 4) (by omega) (by omega), ew, ex, ey, ez]
  exact exec_ok e

/-- C139: the product with the quaternion 1, on either side, is the quaternion itself, without rounding errors. -/
theorem C139_quaternion {q e : Vec F32} {f : Nat → F32} (hq : VecIs q 4 f) (he : VecIs e 4 (seq4 (lit 1) (lit 0) (lit 0) (lit 0)))
    (hf : ∀ i, i < 4 → F32.IsNumber (f i)) :
    (∃ m, Quat.mulNew q e = .ok m ∧ VecIs m 4 f) ∧ ∃ m, Quat.mulNew e q = .ok m ∧ VecIs m 4 f := by
  obtain ⟨f0, f1, f2, f3⟩ := forall_lt_four.mp hf
  have hc : ∀ i, i < 4 → seq4 (f 0) (f 1) (f 2) (f 3) i = f i := forall_lt_four.mpr ⟨rfl, rfl, rfl, rfl⟩
  have s0 : seq4 (lit 1 : F32) (lit 0) (lit 0) (lit 0) 0 = lit 1 := rfl
  have s1 : seq4 (lit 1 : F32) (lit 0) (lit 0) (lit 0) 1 = lit 0 := rfl
  have s2 : seq4 (lit 1 : F32) (lit 0) (lit 0) (lit 0) 2 = lit 0 := rfl
  have s3 : seq4 (lit 1 : F32) (lit 0) (lit 0) (lit 0) 3 = lit 0 := rfl
  have z := zero_number32
  constructor
  · obtain ⟨m, e1, hm⟩ := quat_mul_run (w := f 0) (x := f 1) (y := f 2) (z := f 3) hq he
      (by simp only [s0, s1, s2, s3, mul_one_right32, mul_zero_right32 f0.1, mul_zero_right32 f1.1, mul_zero_right32 f2.1,
        mul_zero_right32 f3.1, f0, sub_zero32])
      (by simp only [s0, s1, s2, s3, mul_one_right32, mul_zero_right32 f0.1, mul_zero_right32 f1.1, mul_zero_right32 f2.1,
        mul_zero_right32 f3.1, f0, f1, f2, f3, z, sub_zero32, zero_add_left32, add_zero_right32])
      (by simp only [s0, s1, s2, s3, one_mul32, mul_zero_right32 f0.1, mul_zero_right32 f1.1, mul_zero_right32 f2.1,
        mul_zero_right32 f3.1, f0, f1, f2, f3, z, sub_zero32, zero_add_left32, add_zero_right32])
      (by simp only [s0, s1, s2, s3, one_mul32, mul_zero_right32 f0.1, mul_zero_right32 f1.1, mul_zero_right32 f2.1,
        mul_zero_right32 f3.1, f0, f1, f2, f3, z, sub_zero32, zero_add_left32, add_zero_right32])
      f0.1 f1.1 f2.1 f3.1
    exact ⟨m, e1, hm.congr hc⟩
  · obtain ⟨m, e1, hm⟩ := quat_mul_run (w := f 0) (x := f 1) (y := f 2) (z := f 3) he hq
      (by simp only [s0, s1, s2, s3, one_mul32, zero_mul32 f0.1, zero_mul32 f1.1, zero_mul32 f2.1,
        zero_mul32 f3.1, f0, sub_zero32])
      (by simp only [s0, s1, s2, s3, one_mul32, zero_mul32 f0.1, zero_mul32 f1.1, zero_mul32 f2.1,
        zero_mul32 f3.1, f0, f1, f2, f3, z, sub_zero32, zero_add_left32, add_zero_right32])
      (by simp only [s0, s1, s2, s3, one_mul32, zero_mul32 f0.1, zero_mul32 f1.1, zero_mul32 f2.1, mul_zero_right32 f0.1,
        mul_zero_right32 f1.1, mul_zero_right32 f2.1, mul_zero_right32 f3.1,
        zero_mul32 f3.1, f0, f1, f2, f3, z, sub_zero32, zero_add_left32, add_zero_right32])
      (by simp only [s0, s1, s2, s3, one_mul32, zero_mul32 f0.1, zero_mul32 f1.1, zero_mul32 f2.1, mul_zero_right32 f0.1,
        mul_zero_right32 f1.1, mul_zero_right32 f2.1, mul_zero_right32 f3.1,
        zero_mul32 f3.1, f0, f1, f2, f3, z, sub_zero32, zero_add_left32, add_zero_right32])
      f0.1 f1.1 f2.1 f3.1
    exact ⟨m, e1, hm.congr hc⟩

end

/-! ### Examples -/

/-- ((3, 4), (5, -6)) times the identity; (3, 4, 5, -6) times 1. -/
example : (∃ s', Mat.mul (fmat [[1, 0], [0, 1]]) (fmat [[3, 4], [5, -6]]) (fmat [[0, 0], [0, 0]]) = (.ok (), s') ∧
      s'.getElement 1 1 = .ok (lit (-6))) ∧
    ∃ m, Quat.mulNew (fvec [3, 4, 5, -6]) (fvec [1, 0, 0, 0]) = .ok m ∧ m.getElement 3 = .ok (lit (-6)) := by
  have ha : MatIs (fmat [[3, 4], [5, -6]]) 2 2 _ :=
    Mat.of_is _ (by norm_num) (by norm_num) (by norm_num) (by norm_num)
  have hs : MatIs (fmat [[0, 0], [0, 0]]) 2 2 _ :=
    Mat.of_is _ (by norm_num) (by norm_num) (by norm_num) (by norm_num)
  have he : MatIs (fmat [[1, 0], [0, 1]]) 2 2 (fun i j => if i = j then lit 1 else lit 0) :=
    (Mat.of_is _ (by norm_num) (by norm_num) (by norm_num) (by norm_num)).congr fun i j hi hj => by
      change i < 2 at hi
      change j < 2 at hj
      interval_cases i <;> interval_cases j <;> rfl
  have na : ∀ i j, i < 2 → j < 2 →
      F32.IsNumber (lit (([[3, 4], [5, -6]] : List (List ℚ)).getD i [] |>.getD j 0)) := by
    intro i j hi hj
    interval_cases i <;> interval_cases j <;> decide +kernel
  have hq : VecIs (fvec [3, 4, 5, -6]) 4 _ := Vec.of_is _ (by norm_num) (by norm_num)
  have h1 : VecIs (fvec [1, 0, 0, 0]) 4 (seq4 (lit 1) (lit 0) (lit 0) (lit 0)) :=
    (Vec.of_is _ (by norm_num) (by norm_num)).congr fun i hi => by
      change i < 4 at hi
      interval_cases i <;> rfl
  obtain ⟨⟨s', e, h⟩, -⟩ := C139_identity ha hs he he (fun _ _ => rfl) na
  obtain ⟨⟨m, e', h'⟩, -⟩ := C139_quaternion hq h1 (fun i hi => by interval_cases i <;> decide +kernel)
  exact ⟨⟨s', e, h.get 1 1 (by norm_num) (by norm_num)⟩, m, e', h'.get 3 (by norm_num)⟩

/-- (3/2, -5) and (1, -4): the difference is exact and can be added back, and the order of the sum does not matter. -/
example : (∃ d D s, (fvec [3 / 2, -5]).subNew (fvec [1, -4]) = .ok d ∧ VecIs d 2 D ∧ ⟪D 0⟫ = 1 / 2 ∧
      (fvec [1, -4]).addNew d = .ok s ∧ s.getElement 0 = .ok (lit (3 / 2))) ∧
    (∃ s, (fvec [3 / 2, -5]).addNew (fvec [1, -4]) = .ok s) ∧
    ¬ ∃ d, (fvec [3 / 2, -5]).subNew (fvec [1, -4]) = .ok d ∧ ∀ i, i < 2 → d.getElement i = .ok (lit 0) := by
  have h1 : ⟪(lit 1 : F32)⟫ = ((1 : ℚ) : ℝ) := toReal_rat (by decide +kernel)
  have h3 : ⟪(lit (3 / 2) : F32)⟫ = ((3 / 2 : ℚ) : ℝ) := toReal_rat (by decide +kernel)
  have h4 : ⟪(lit (-4) : F32)⟫ = ((-4 : ℚ) : ℝ) := toReal_rat (by decide +kernel)
  have h5 : ⟪(lit (-5) : F32)⟫ = ((-5 : ℚ) : ℝ) := toReal_rat (by decide +kernel)
  have hv : VecIs (fvec [3 / 2, -5]) 2 _ := Vec.of_is _ (by norm_num) (by norm_num)
  have hw : VecIs (fvec [1, -4]) 2 _ := Vec.of_is _ (by norm_num) (by norm_num)
  have hm : MatIs (fmat [[1, 2], [2, 4]]) 2 2 _ :=
    Mat.of_is _ (by norm_num) (by norm_num) (by norm_num) (by norm_num)
  have nm : ∀ i j, i < 2 → j < 2 →
      F32.IsNumber (lit (([[1, 2], [2, 4]] : List (List ℚ)).getD i [] |>.getD j 0)) := by
    intro i j hi hj
    interval_cases i <;> interval_cases j <;> decide +kernel
  have nv : ∀ i, i < 2 → F32.IsNumber (lit (([3 / 2, -5] : List ℚ).getD i 0)) := by
    intro i hi
    interval_cases i <;> decide +kernel
  have nw : ∀ i, i < 2 → F32.IsNumber (lit (([1, -4] : List ℚ).getD i 0)) := by
    intro i hi
    interval_cases i <;> decide +kernel
  refine ⟨?_, ?_, ?_⟩
  · obtain ⟨d, D, s, e1, hD, hd, e2, hs⟩ := C139_exact hv hw nv nw (fun i hi => by
      interval_cases i
      · show 2 * |⟪(lit (3 / 2) : F32)⟫ - ⟪(lit 1 : F32)⟫| ≤ |⟪(lit (3 / 2) : F32)⟫|
        rw [h1, h3]; norm_num
      · show 2 * |⟪(lit (-5) : F32)⟫ - ⟪(lit (-4) : F32)⟫| ≤ |⟪(lit (-5) : F32)⟫|
        rw [h4, h5]; norm_num [abs_of_neg])
    refine ⟨d, D, s, e1, hD, ?_, e2, hs.get 0 (by norm_num)⟩
    have := hd 0 (by norm_num)
    change ⟪D 0⟫ = ⟪(lit (3 / 2) : F32)⟫ - ⟪(lit 1 : F32)⟫ at this
    rw [this, h1, h3]
    norm_num
  · exact ((C139_comm hv hw hm hm (fun i hi => (nv i hi).1) (fun i hi => (nw i hi).1) (fun i j hi hj => (nm i j hi hj).1)
      (fun i j hi hj => (nm i j hi hj).1)).1).mpr (by
        rw [addNew_ok hw hv]
        intro i hi
        interval_cases i <;> decide +kernel)
  · rintro ⟨d, e, h⟩
    have := ((C139_zero (e := fmat [[1, 2], [2, 4]]) hv hw hm hm nv nw nm nm).1 e).mp h 0 (by norm_num)
    exact absurd this (by decide +kernel)

/-- ((3, 4), (5, -6)) and ((2, 4), (7, -6)): the difference of the matrices is exact; doubling and halving the first, too. -/
example : (∃ d D, (fmat [[3, 4], [5, -6]]).subNew (fmat [[2, 4], [7, -6]]) = .ok d ∧ MatIs d 2 2 D ∧ ⟪D 1 0⟫ = -2) ∧
    ∃ a', Mat.mulByScalarInPlace (lit 2) (fmat [[3, 4], [5, -6]]) = (.ok (), a') := by
  have h2 : ⟪(lit 2 : F32)⟫ = ((2 : ℚ) : ℝ) := toReal_rat (by decide +kernel)
  have h3 : ⟪(lit 3 : F32)⟫ = ((3 : ℚ) : ℝ) := toReal_rat (by decide +kernel)
  have h4 : ⟪(lit 4 : F32)⟫ = ((4 : ℚ) : ℝ) := toReal_rat (by decide +kernel)
  have h5 : ⟪(lit 5 : F32)⟫ = ((5 : ℚ) : ℝ) := toReal_rat (by decide +kernel)
  have h6 : ⟪(lit (-6) : F32)⟫ = ((-6 : ℚ) : ℝ) := toReal_rat (by decide +kernel)
  have h7 : ⟪(lit 7 : F32)⟫ = ((7 : ℚ) : ℝ) := toReal_rat (by decide +kernel)
  have ha : MatIs (fmat [[3, 4], [5, -6]]) 2 2 _ :=
    Mat.of_is _ (by norm_num) (by norm_num) (by norm_num) (by norm_num)
  have hb : MatIs (fmat [[2, 4], [7, -6]]) 2 2 _ :=
    Mat.of_is _ (by norm_num) (by norm_num) (by norm_num) (by norm_num)
  have na : ∀ i j, i < 2 → j < 2 →
      F32.IsNumber (lit (([[3, 4], [5, -6]] : List (List ℚ)).getD i [] |>.getD j 0)) := by
    intro i j hi hj
    interval_cases i <;> interval_cases j <;> decide +kernel
  have nb : ∀ i j, i < 2 → j < 2 →
      F32.IsNumber (lit (([[2, 4], [7, -6]] : List (List ℚ)).getD i [] |>.getD j 0)) := by
    intro i j hi hj
    interval_cases i <;> interval_cases j <;> decide +kernel
  constructor
  · obtain ⟨d, D, s, e1, hD, hd, -⟩ := C139_exact_mat ha hb na nb (fun i j hi hj => by
      interval_cases i <;> interval_cases j <;> simp [h2, h3, h4, h5, h6, h7] <;> norm_num [abs_of_neg])
    refine ⟨d, D, e1, hD, ?_⟩
    have := hd 1 0 (by norm_num) (by norm_num)
    change ⟪D 1 0⟫ = ⟪(lit 5 : F32)⟫ - ⟪(lit 7 : F32)⟫ at this
    rw [this, h5, h7]
    norm_num
  · obtain ⟨a', A', a'', e, -⟩ := C139_double ha na (fun i j hi hj => by
      interval_cases i <;> interval_cases j <;> simp [h2, h3, h4, h5, h6, h7] <;> norm_num [abs_of_neg])
    exact ⟨a', e⟩

/-- (3/2, -5) and (1, -4): the sum is undone up to rounding. -/
example : ∃ s d, (fvec [3 / 2, -5]).addNew (fvec [1, -4]) = .ok s ∧ s.subNew (fvec [1, -4]) = .ok d := by
  have h1 : ⟪(lit 1 : F32)⟫ = ((1 : ℚ) : ℝ) := toReal_rat (by decide +kernel)
  have h3 : ⟪(lit (3 / 2) : F32)⟫ = ((3 / 2 : ℚ) : ℝ) := toReal_rat (by decide +kernel)
  have h4 : ⟪(lit (-4) : F32)⟫ = ((-4 : ℚ) : ℝ) := toReal_rat (by decide +kernel)
  have h5 : ⟪(lit (-5) : F32)⟫ = ((-5 : ℚ) : ℝ) := toReal_rat (by decide +kernel)
  have hv : VecIs (fvec [3 / 2, -5]) 2 _ := Vec.of_is _ (by norm_num) (by norm_num)
  have hw : VecIs (fvec [1, -4]) 2 _ := Vec.of_is _ (by norm_num) (by norm_num)
  obtain ⟨s, d, D, e1, e2, -⟩ := C139_undo hv hw (fun i hi => by interval_cases i <;> decide +kernel)
    (fun i hi => by interval_cases i <;> decide +kernel) (fun i hi => by
      interval_cases i
      · show |⟪(lit (3 / 2) : F32)⟫| + |⟪(lit 1 : F32)⟫| ≤ _
        rw [h1, h3]; norm_num
      · show |⟪(lit (-5) : F32)⟫| + |⟪(lit (-4) : F32)⟫| ≤ _
        rw [h4, h5]; norm_num [abs_of_neg])
  exact ⟨s, d, e1, e2⟩

/-- Without nearness a sum cannot be undone: (2⁻²⁵ + 1) - 1 is 0. -/
example : ((fvec [1 / 2 ^ 25]).addNew (fvec [1]) >>= fun s => s.subNew (fvec [1]) >>= fun d => d.getElement 0) =
    .ok (lit 0) ∧ (lit (1 / 2 ^ 25) : F32) ≠ lit 0 := by decide +kernel

end Verif
