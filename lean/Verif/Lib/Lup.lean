import Mathlib.Tactic.Ring
import Mathlib.Tactic.FieldSimp
import Mathlib.Tactic.Linarith
import Verif.Lib.Exact

/-
`lup`, `solve` and what depends on them, in exact arithmetic over an ordered field.
-/

set_option linter.unusedSectionVars false
set_option linter.unusedSimpArgs false

namespace Verif
open Scalar Finset

/-! ### Permutation vectors -/

theorem U8Is.init {p : Vec Nat} {n : Nat} {f : Nat → Nat} (h : U8Is p n f) : p.initialized = true :=
  (u8Is_iff.mp h).2.2.1
theorem U8Is.rows_eq {p : Vec Nat} {n : Nat} {f : Nat → Nat} (h : U8Is p n f) : p.rows = n :=
  (u8Is_iff.mp h).2.2.2.1

theorem U8Is.put {p : Vec Nat} {n : Nat} {f : Nat → Nat} (h : U8Is p n f) (i x : Nat) :
    U8Is (p.put i x) n (fun j => if j = i then x else f j) := by
  rw [u8Is_iff]
  refine ⟨h.pos, h.le, h.init, h.rows_eq, fun j h4 hj => ?_⟩
  simp only [Vec.put]
  split
  · rfl
  · exact (u8Is_iff.mp h).2.2.2.2 j h4 hj

theorem U8Is.exec_set {p : Vec Nat} {n : Nat} {f : Nat → Nat} (h : U8Is p n f) {i : Nat} (x : Nat)
    (hi : i < n) :
    ∃ p', exec p (Vec.setElementU8 i x) = .ok p' ∧ U8Is p' n (fun j => if j = i then x else f j) :=
  ⟨_, exec_ok (Vec.setElementU8_eq h.init (by rw [h.rows_eq]; exact hi)
    (by have := h.le; omega)), h.put i x⟩

theorem U8Is.congr {p : Vec Nat} {n : Nat} {f g : Nat → Nat} (h : U8Is p n f)
    (hf : ∀ i, i < n → f i = g i) : U8Is p n g :=
  ⟨h.pos, h.le, h.rows, fun i hi => by rw [h.get i hi, hf i hi]⟩

/-- The first `n` values of `π` are a rearrangement of `0, …, n-1`. -/
structure PermOn (n : Nat) (π : Nat → Nat) : Prop where
  lt : ∀ i, i < n → π i < n
  inj : ∀ i j, i < n → j < n → π i = π j → i = j

namespace Linalg

section
variable {F : Type} [Scalar F] {lu : Mat F} {p : Vec Nat} {n : Nat} {π : Nat → Nat}
  {f : Nat → Nat → F}

theorem lupPivot_ok (hl : MatIs lu n n f) (hp : U8Is p n π) (hπ : PermOn n π) {s : Nat}
    (hs : s < n) : ∃ q, lupPivot lu p s n = .ok q ∧ s ≤ q ∧ q < n := by
  unfold lupPivot
  refine foldRange_inv _ (fun _ (q : Nat) => s ≤ q ∧ q < n) (s + 1) n hs s ⟨le_refl _, hs⟩ ?_
  intro i q h1 h2 ⟨h3, h4⟩
  simp only [hp.get i h2, Res.ok_bind, hl.get _ _ (hπ.lt i h2) hs, hp.get q h4,
    hl.get _ _ (hπ.lt q h4) (show 0 < n by omega)]
  split
  · exact ⟨i, rfl, by omega, h2⟩
  · exact ⟨q, rfl, h3, h4⟩

theorem lupSwap_ok (hp : U8Is p n π) {s q : Nat} (hs : s < n) (hq : q < n) :
    ∃ p', lupSwap p s q = .ok p' ∧
      U8Is p' n (fun i => if i = q then π s else if i = s then π q else π i) := by
  unfold lupSwap
  rw [hp.get s hs, Res.ok_bind, hp.get q hq, Res.ok_bind]
  obtain ⟨p1, h1, h2⟩ := hp.exec_set (π q) hs
  obtain ⟨p2, h3, h4⟩ := h2.exec_set (π s) hq
  exact ⟨p2, by rw [h1, Res.ok_bind, h3], h4⟩

theorem _root_.Verif.PermOn.swap (hπ : PermOn n π) {s q : Nat} (hs : s < n) (hq : q < n) :
    PermOn n (fun i => if i = q then π s else if i = s then π q else π i) := by
  constructor
  · intro i hi
    have := hπ.lt i hi; have := hπ.lt s hs; have := hπ.lt q hq
    split
    · omega
    · split <;> omega
  · intro i j hi hj h
    have h1 := hπ.inj i j hi hj
    have h2 := hπ.inj i s hi hs
    have h3 := hπ.inj i q hi hq
    have h4 := hπ.inj j s hj hs
    have h5 := hπ.inj j q hj hq
    have h6 := hπ.inj s q hs hq
    split at h <;> split at h <;> (try split at h) <;> (try split at h) <;> omega
end

variable {K : Type} [Field K] [LinearOrder K] [IsStrictOrderedRing K] [Elementary K]
variable {lu : Mat (Ext K)} {p : Vec Nat} {n : Nat} {π : Nat → Nat} {u : Nat → Nat → K}

/-- Elimination of row `π i` with pivot row `π s`. -/
theorem lupElimRow_ok (hl : MatIs lu n n (fun i j => .fin (u i j))) (hp : U8Is p n π)
    (hπ : PermOn n π) {s i : Nat} (hs : s < n) (hi : i < n) (hne : i ≠ s) (hpiv : u (π s) s ≠ 0) :
    ∃ lu', lupElimRow p n s i lu = .ok lu' ∧
      MatIs lu' n n (fun a b => .fin (
        if a = π i then
          if b < s then u a b
          else if b = s then u a s / u (π s) s
          else u a b - u (π s) b * (u a s / u (π s) s)
        else u a b)) := by
  have hπi := hπ.lt i hi
  have hπs := hπ.lt s hs
  have hne' : π s ≠ π i := fun h => hne (hπ.inj s i hs hi h).symm
  unfold lupElimRow
  simp only [hp.get i hi, hp.get s hs, Res.ok_bind, hl.get _ _ hπi hs, hl.get _ _ hπs hs,
    Ext.div_fin _ hpiv]
  obtain ⟨l1, h1, h2⟩ := hl.exec_set hπi hs (Ext.finite_fin (u (π i) s / u (π s) s))
  rw [h1, Res.ok_bind]
  obtain ⟨l2, h3, h4⟩ := foldRange_inv (ε := LinalgError)
    (fun k (lu : Mat (Ext K)) => do
      exec lu (Mat.setElement (π i) k
        ((← lu.getElement (π i) k) -ᶠ ((← lu.getElement (π s) k) *ᶠ (← lu.getElement (π i) s)))))
    (fun k (l : Mat (Ext K)) => MatIs l n n (fun a b => .fin (
        if a = π i then
          if b < s then u a b
          else if b = s then u a s / u (π s) s
          else if b < k then u a b - u (π s) b * (u a s / u (π s) s)
          else u a b
        else u a b))) (s + 1) n hs l1
    (h2.congr fun a b _ _ => by
      by_cases ha : a = π i
      · subst ha
        by_cases hb : b = s
        · subst hb; simp
        · by_cases h : b < s
          · simp [hb, h]
          · have : ¬ b < s + 1 := by omega
            simp [hb, h, this]
      · simp [ha])
    (fun k l hk1 hk2 hI => by
      have c1 : ¬ k < s := by omega
      have c2 : k ≠ s := by omega
      simp only [hI.get _ _ hπi hk2, hI.get _ _ hπs hk2, hI.get _ _ hπi hs, Res.ok_bind, if_true,
        hne', if_false, c1, c2, lt_irrefl, Ext.mul_fin, Ext.sub_fin]
      obtain ⟨l', h5, h6⟩ := hI.exec_set hπi hk2
        (Ext.finite_fin (u (π i) k - u (π s) k * (u (π i) s / u (π s) s)))
      refine ⟨l', h5, h6.congr fun a b _ _ => ?_⟩
      by_cases ha : a = π i
      · subst ha
        by_cases hb : b = k
        · subst hb; simp [c1, c2]
        · have : b < k + 1 ↔ b < k := by omega
          simp [hb, this]
      · simp [ha])
  refine ⟨l2, h3, h4.congr fun a b _ hb => ?_⟩
  simp [hb]

/-- The elimination below the pivot of column `s`. -/
theorem lupElim_ok (hl : MatIs lu n n (fun i j => .fin (u i j))) (hp : U8Is p n π)
    (hπ : PermOn n π) {s : Nat} (hs : s < n) (hpiv : u (π s) s ≠ 0) :
    ∃ lu', foldRange (s + 1) n (lupElimRow p n s) lu = .ok lu' ∧ ∃ u' : Nat → Nat → K,
      MatIs lu' n n (fun i j => .fin (u' i j)) ∧
      (∀ i j, i ≤ s → i < n → u' (π i) j = u (π i) j) ∧
      (∀ i j, s < i → i < n → u' (π i) j =
          if j < s then u (π i) j
          else if j = s then u (π i) s / u (π s) s
          else u (π i) j - u (π s) j * (u (π i) s / u (π s) s)) := by
  obtain ⟨l, h1, u', h2, h3, h4, h5⟩ := foldRange_inv (ε := LinalgError) (lupElimRow p n s)
    (fun k (l : Mat (Ext K)) => ∃ u' : Nat → Nat → K,
      MatIs l n n (fun i j => .fin (u' i j)) ∧
      (∀ i j, i ≤ s → i < n → u' (π i) j = u (π i) j) ∧
      (∀ i j, s < i → i < k → i < n → u' (π i) j =
          if j < s then u (π i) j
          else if j = s then u (π i) s / u (π s) s
          else u (π i) j - u (π s) j * (u (π i) s / u (π s) s)) ∧
      (∀ i j, k ≤ i → i < n → u' (π i) j = u (π i) j))
    (s + 1) n hs lu
    ⟨u, hl, fun _ _ _ _ => rfl, fun i j h1 h2 => by omega, fun _ _ _ _ => rfl⟩
    (fun k l hk1 hk2 ⟨u', h2, h3, h4, h5⟩ => by
      have hps : u' (π s) s = u (π s) s := h3 s s (le_refl _) hs
      obtain ⟨l', h6, h7⟩ := lupElimRow_ok h2 hp hπ hs hk2 (by omega) (by rw [hps]; exact hpiv)
      refine ⟨l', h6, _, h7, ?_, ?_, ?_⟩
      · intro i j hi hin
        have : π i ≠ π k := fun h => by have := hπ.inj i k hin hk2 h; omega
        simp only [this, if_false, h3 i j hi hin]
      · intro i j hi1 hi2 hin
        by_cases hik : i = k
        · subst hik
          simp only [if_true, h3 s _ (le_refl _) hs, h5 i _ (le_refl _) hin]
        · have : π i ≠ π k := fun h => hik (hπ.inj i k hin hk2 h)
          simp only [this, if_false]
          exact h4 i j hi1 (by omega) hin
      · intro i j hi hin
        have : π i ≠ π k := fun h => by have := hπ.inj i k hin hk2 h; omega
        simp only [this, if_false, h5 i j (by omega) hin])
  exact ⟨l, h1, u', h2, h3, fun i j a b => h4 i j a b b⟩

/-- State of the factorisation of `A` before step `s`: `w i j` is element `j` of row `π i`. -/
structure LupInv (n : Nat) (A : Nat → Nat → K) (s : Nat) (st : Mat (Ext K) × Vec Nat)
    (π : Nat → Nat) (u : Nat → Nat → K) : Prop where
  lu : MatIs st.1 n n (fun i j => .fin (u i j))
  p : U8Is st.2 n π
  perm : PermOn n π
  pivots : ∀ k, k < s → epsilon K ≤ |u (π k) k|
  prod : ∀ i j, i < n → j < n → A (π i) j =
    (∑ k ∈ range (min i s), u (π i) k * (if j < k then 0 else u (π k) j)) +
      (if j < min i s then 0 else u (π i) j)

theorem abs_lt_eps (x : K) : (Scalar.abs (.fin x : Ext K) <ᶠ (EPSILON : Ext K)) =
    decide (|x| < epsilon K) := by
  rw [Ext.abs_fin]
  rw [Ext.epsilon_eq, Ext.lt_fin]
  congr 1
  rw [abs_eq_max_neg]
  split
  · rw [max_eq_left (by linarith)]
  · rw [max_eq_right (by linarith)]

theorem eps_pos : (0 : K) < epsilon K := by
  unfold epsilon; rw [Rat.cast_pos]; norm_num

theorem lupStep_ok {A : Nat → Nat → K} {s : Nat} {st : Mat (Ext K) × Vec Nat}
    (h : LupInv n A s st π u) (hs : s + 1 < n) :
    (lupStep n n s st = .error (.err .Singular) ∧
      ∃ q, s ≤ q ∧ q < n ∧ |u (π q) s| < epsilon K) ∨
    ∃ st', lupStep n n s st = .ok st' ∧ ∃ π' u', LupInv n A (s + 1) st' π' u' := by
  obtain ⟨lu, p⟩ := st
  have hsn : s < n := by omega
  obtain ⟨hl, hp, hπ, hpv, hA⟩ := h
  dsimp only at hl hp
  unfold lupStep
  obtain ⟨q, e1, hq1, hq2⟩ := lupPivot_ok hl hp hπ hsn
  obtain ⟨p', e2, hp'⟩ := lupSwap_ok hp hsn hq2
  have hπ' := hπ.swap hsn hq2
  set π' : Nat → Nat := fun i => if i = q then π s else if i = s then π q else π i with hdef
  have hlow : ∀ i, i < s → π' i = π i := fun i hi => by
    have h1 : i ≠ q := by omega
    have h2 : i ≠ s := by omega
    simp [hdef, h1, h2]
  have hA' : ∀ i j, i < n → j < n → A (π' i) j =
      (∑ k ∈ range (min i s), u (π' i) k * (if j < k then 0 else u (π' k) j)) +
        (if j < min i s then 0 else u (π' i) j) := by
    intro i j hi hj
    obtain ⟨i', hi', h1, h2⟩ : ∃ i', i' < n ∧ π' i = π i' ∧ min i s = min i' s := by
      by_cases hiq : i = q
      · exact ⟨s, hsn, by simp [hdef, hiq], by omega⟩
      · by_cases his : i = s
        · exact ⟨q, hq2, by subst his; simp [hdef, hiq], by omega⟩
        · exact ⟨i, hi, by simp [hdef, hiq, his], rfl⟩
    rw [h1, h2, hA i' j hi' hj]
    congr 1
    refine Finset.sum_congr rfl fun k hk => ?_
    rw [hlow k (by have := Finset.mem_range.mp hk; omega)]
  simp only [e1, e2, Res.ok_bind, hp'.get s hsn, hl.get _ _ (hπ'.lt s hsn) hsn, abs_lt_eps]
  by_cases hpiv : |u (π' s) s| < epsilon K
  · left
    refine ⟨by rw [if_pos (decide_eq_true hpiv)], q, hq1, hq2, ?_⟩
    have : π' s = π q := by
      by_cases hsq : s = q
      · simp [hdef, hsq]
      · simp [hdef, hsq]
    rw [← this]
    exact hpiv
  · right
    have hne : u (π' s) s ≠ 0 := fun h => hpiv (by rw [h, abs_zero]; exact eps_pos)
    obtain ⟨lu', e3, u', hl', h3, h4⟩ := lupElim_ok hl hp' hπ' hsn hne
    refine ⟨(lu', p'), by rw [if_neg (by simpa using hpiv), e3]; rfl, π', u', hl', hp', hπ', ?_, ?_⟩
    · intro k hk
      rw [h3 k k (by omega) (by omega)]
      by_cases hks : k = s
      · subst hks; exact not_lt.mp hpiv
      · rw [hlow k (by omega)]; exact hpv k (by omega)
    · intro i j hi hj
      have hsum : ∀ m, m ≤ s →
          (∀ k, k < m → u' (π' i) k = u (π' i) k) →
          ∑ k ∈ range m, u' (π' i) k * (if j < k then 0 else u' (π' k) j) =
          ∑ k ∈ range m, u (π' i) k * (if j < k then 0 else u (π' k) j) := fun m hm hu =>
        Finset.sum_congr rfl fun k hk => by
          have := Finset.mem_range.mp hk
          rw [hu k this, h3 k j (by omega) (by omega)]
      rw [hA' i j hi hj]
      by_cases his : i ≤ s
      · have m1 : min i s = i := by omega
        have m2 : min i (s + 1) = i := by omega
        rw [m1, m2, hsum i his (fun k _ => h3 i k his hi), h3 i j his hi]
      · have m1 : min i s = s := by omega
        have m2 : min i (s + 1) = s + 1 := by omega
        rw [m1, m2, Finset.sum_range_succ,
          hsum s (le_refl _) (fun k hk => by rw [h4 i k (by omega) hi]; simp [hk]), add_assoc]
        congr 1
        rw [h4 i s (by omega) hi, h4 i j (by omega) hi, h3 s j (le_refl _) hsn]
        by_cases hj1 : j < s
        · have : j < s + 1 := by omega
          simp [hj1, this]
        · by_cases hj2 : j = s
          · subst hj2
            simp only [lt_irrefl, if_false, if_true, Nat.lt_succ_self, add_zero]
            field_simp
          · have : ¬ j < s + 1 := by omega
            simp only [hj1, hj2, this, lt_irrefl, if_false, if_true]
            ring

/-- `lup` on a square matrix.  It fails only at a step where one of the candidate pivots is below the
threshold. -/
theorem lup_cases {a : Mat (Ext K)} {A : Nat → Nat → K}
    (ha : MatIs a n n (fun i j => .fin (A i j))) :
    (lup a = .error (.err .Singular) ∧ ∃ s st π u, s + 1 < n ∧ LupInv n A s st π u ∧
      ∃ q, s ≤ q ∧ q < n ∧ |u (π q) s| < epsilon K) ∨
    ∃ st, lup a = .ok st ∧ ∃ π u, LupInv n A (n - 1) st π u := by
  unfold lup
  obtain ⟨l, e1, hl⟩ := Mat.exec_of_stores (Mat.copyFrom_stores (Mat.zeros_of ha) ha) (Mat.zeros_of ha)
    (fun i j _ _ => Ext.finite_fin (A i j))
  obtain ⟨p0, e2, hp0⟩ := Vec.init_newU8 ha.rpos ha.rle
  obtain ⟨p1, e3, hp1⟩ := foldRange_inv (ε := LinalgError)
    (fun row (p : Vec Nat) => exec p (Vec.setElementU8 row row))
    (fun k (p : Vec Nat) => U8Is p n (fun i => if i < k then i else 0)) 0 n (Nat.zero_le _) p0
    (hp0.congr fun i _ => by simp)
    (fun k p _ hk hI => by
      obtain ⟨p', h1, h2⟩ := hI.exec_set k hk
      refine ⟨p', h1, h2.congr fun i _ => ?_⟩
      by_cases h : i = k
      · simp [h]
      · have : i < k + 1 ↔ i < k := by omega
        simp [h, this])
  simp only [ha.rows, ha.cols, Res.ok_bind, Mat.init_of ha, e1, e2, e3, u8Sub_ok ha.rpos]
  have h0 : LupInv n A 0 (l, p1) (fun i => i) A :=
    ⟨hl, hp1.congr fun i hi => by simp [hi], ⟨fun _ h => h, fun _ _ _ _ h => h⟩,
      fun k hk => by omega, fun i j _ _ => by simp⟩
  suffices ∀ len s st, (∃ π u, LupInv n A s st π u) → s + len = n - 1 →
      (foldFrom s len (lupStep n n) st = .error (.err .Singular) ∧ ∃ s st π u, s + 1 < n ∧
        LupInv n A s st π u ∧ ∃ q, s ≤ q ∧ q < n ∧ |u (π q) s| < epsilon K) ∨
      ∃ st', foldFrom s len (lupStep n n) st = .ok st' ∧ ∃ π u, LupInv n A (n - 1) st' π u by
    have := this (n - 1) 0 (l, p1) ⟨_, _, h0⟩ (by omega)
    exact this
  intro len
  induction len with
  | zero => intro s st hst he; exact Or.inr ⟨st, rfl, by rw [← he]; exact hst⟩
  | succ len ih =>
    intro s st ⟨π, u, hst⟩ he
    rw [foldFrom_succ]
    rcases lupStep_ok hst (by omega) with ⟨h, hq⟩ | ⟨st', h, h'⟩
    · left
      exact ⟨by rw [h]; rfl, s, st, π, u, by omega, hst, hq⟩
    · rw [h, Res.ok_bind]
      exact ih (s + 1) st' h' (by omega)

theorem lup_ok {a : Mat (Ext K)} {A : Nat → Nat → K}
    (ha : MatIs a n n (fun i j => .fin (A i j))) :
    lup a = .error (.err .Singular) ∨
    ∃ st, lup a = .ok st ∧ ∃ π u, LupInv n A (n - 1) st π u := by
  rcases lup_cases ha with ⟨h, _⟩ | h
  · exact Or.inl h
  · exact Or.inr h

/-- A 1×1 matrix, and a 2×2 matrix whose first column has no entry below the threshold, can be
factorised. -/
theorem lup_two {a : Mat (Ext K)} {A : Nat → Nat → K}
    (ha : MatIs a n n (fun i j => .fin (A i j))) (hn : n ≤ 2)
    (h0 : ∀ i, i < n → epsilon K ≤ |A i 0|) : lup a ≠ .error (.err .Singular) := by
  intro h
  rcases lup_cases ha with ⟨_, s, st, π, u, hs, hI, q, _, hq, hlt⟩ | ⟨st, h', _⟩
  · obtain rfl : s = 0 := by omega
    have := hI.prod q 0 hq (by omega)
    simp at this
    rw [← this] at hlt
    exact absurd hlt (not_lt.mpr (h0 _ (hI.perm.lt q hq)))
  · rw [h] at h'; cases h'

/-! ### `solve` -/

theorem solveElim_ok {x : Vec (Ext K)} {X : Nat → K}
    (hl : MatIs lu n n (fun i j => .fin (u i j))) (hp : U8Is p n π) (hπ : ∀ i, i < n → π i < n)
    (hx : VecIs x n (fun i => .fin (X i))) {row col : Nat} (hr : row < n) (hc : col < n) :
    ∃ x', solveElim lu p row col x = .ok x' ∧
      VecIs x' n (fun i => .fin (if i = row then X row - u (π row) col * X col else X i)) := by
  unfold solveElim
  simp only [hp.get row hr, hl.get _ _ (hπ row hr) hc, hx.get row hr, hx.get col hc, Res.ok_bind,
    Ext.mul_fin, Ext.sub_fin]
  obtain ⟨x', h1, h2⟩ := hx.exec_set hr (Ext.finite_fin (X row - u (π row) col * X col))
  refine ⟨x', h1, h2.congr fun i _ => ?_⟩
  by_cases h : i = row <;> simp [h]

/-- A run of eliminations of the unknowns `lo, …, hi-1` from row `row`. -/
theorem solveElims_ok {x : Vec (Ext K)} {X : Nat → K}
    (hl : MatIs lu n n (fun i j => .fin (u i j))) (hp : U8Is p n π) (hπ : ∀ i, i < n → π i < n)
    (hx : VecIs x n (fun i => .fin (X i))) {row lo hi : Nat} (hr : row < n) (hh : hi ≤ n)
    (hlh : lo ≤ hi) (hout : row < lo ∨ hi ≤ row) :
    ∃ x', foldRange lo hi (fun col x => solveElim lu p row col x) x = .ok x' ∧
      VecIs x' n (fun i => .fin (if i = row then X row - ∑ k ∈ Ico lo hi, u (π row) k * X k
        else X i)) := by
  refine foldRange_inv _ (fun k (x : Vec (Ext K)) => VecIs x n (fun i => .fin (if i = row then
    X row - ∑ k ∈ Ico lo k, u (π row) k * X k else X i))) lo hi hlh x
    (hx.congr fun i _ => by by_cases h : i = row <;> simp [h]) ?_
  intro k x hk1 hk2 hI
  obtain ⟨x', h1, h2⟩ := solveElim_ok hl hp hπ hI hr (show k < n by omega)
  refine ⟨x', h1, h2.congr fun i _ => ?_⟩
  have hk : k ≠ row := by omega
  by_cases h : i = row
  · simp only [h, hk, if_true, if_false]
    rw [Finset.sum_Ico_succ_top hk1]
    congr 1; ring
  · simp [h]

theorem abs_gt_eps (x : K) : ((EPSILON : Ext K) <ᶠ Scalar.abs (.fin x : Ext K)) =
    decide (epsilon K < |x|) := by
  rw [Ext.abs_fin]
  rw [Ext.epsilon_eq, Ext.lt_fin]
  congr 1
  rw [abs_eq_max_neg]
  split
  · rw [max_eq_left (by linarith)]
  · rw [max_eq_right (by linarith)]

/-- `solve` on packed factors: it succeeds if every pivot exceeds the threshold, and then both
triangular systems are solved. -/
theorem solve_ok {b : Vec (Ext K)} {B : Nat → K}
    (hl : MatIs lu n n (fun i j => .fin (u i j))) (hp : U8Is p n π) (hπ : ∀ i, i < n → π i < n)
    (hb : VecIs b n (fun i => .fin (B i))) :
    (∃ k, k < n ∧ |u (π k) k| ≤ epsilon K ∧ solve lu b p = .error (.err .Unsolvable)) ∨
    ((∀ k, k < n → epsilon K < |u (π k) k|) ∧
      ∃ x, solve lu b p = .ok x ∧ ∃ X Y : Nat → K, VecIs x n (fun i => .fin (X i)) ∧
        (∀ i, i < n → Y i + ∑ k ∈ range i, u (π i) k * Y k = B (π i)) ∧
        (∀ i, i < n → ∑ k ∈ Ico i n, u (π i) k * X k = Y i)) := by
  unfold solve
  simp only [Mat.isSquare_eq hl, Res.ok_bind, decide_true, Bool.not_true, Bool.false_eq_true, if_false,
    hl.rows, Vec.init_new hl.rpos hl.rle]
  obtain ⟨x1, e1, Y, hY, hY2⟩ := foldRange_inv (ε := LinalgError)
      (fun row (x : Vec (Ext K)) => do
        let x ← exec x (Vec.setElement row (← b.getElement (← p.getElementU8 row)))
        foldRange 0 row (fun col x => solveElim lu p row col x) x)
      (fun r (x : Vec (Ext K)) => ∃ Y : Nat → K, VecIs x n (fun i => .fin (Y i)) ∧
        ∀ i, i < r → Y i + ∑ k ∈ range i, u (π i) k * Y k = B (π i)) 0 n (Nat.zero_le _)
      (Vec.zeros n) ⟨fun _ => 0, (Vec.zeros_is hl.rpos hl.rle).congr fun i _ => by simp,
        fun i hi => by omega⟩
      (fun r x _ hr ⟨Y, hx, hY⟩ => by
        simp only [hp.get r hr, hb.get _ (hπ r hr), Res.ok_bind]
        obtain ⟨x1, h1, h2⟩ := hx.exec_set hr (Ext.finite_fin (B (π r)))
        have h2' : VecIs x1 n (fun i => .fin (if i = r then B (π r) else Y i)) :=
          h2.congr fun i _ => by split <;> rfl
        obtain ⟨x2, h3, h4⟩ := solveElims_ok (lo := 0) (hi := r) hl hp hπ h2' hr (by omega)
          (Nat.zero_le _) (Or.inr (le_refl _))
        refine ⟨x2, by rw [h1, Res.ok_bind, h3], _, h4, ?_⟩
        intro i hi
        rw [← Finset.range_eq_Ico]
        have hs : ∀ m, m ≤ r → ∀ c : Nat → K, ∀ z : K,
            ∑ k ∈ range m, c k * (if k = r then z else if k = r then B (π r) else Y k) =
            ∑ k ∈ range m, c k * Y k := fun m hm c z =>
          Finset.sum_congr rfl fun k hk => by
            have : k ≠ r := by have := Finset.mem_range.mp hk; omega
            simp [this]
        have hs' : ∑ k ∈ range r, u (π r) k * (if k = r then B (π r) else Y k) =
            ∑ k ∈ range r, u (π r) k * Y k := 
          Finset.sum_congr rfl fun k hk => by
            have : k ≠ r := by have := Finset.mem_range.mp hk; omega
            simp [this]
        by_cases hir : i = r
        · subst hir
          simp only [if_true]
          rw [hs' , hs i (le_refl _)]
          ring
        · simp only [hir, if_false]
          rw [hs i (by omega)]
          exact hY i (by omega))
  rw [e1, Res.ok_bind]
  -- the backward pass
  have hstep : ∀ (i : Nat) (x : Vec (Ext K)) (X : Nat → K), i < n → VecIs x n (fun i => .fin (X i)) →
      (|u (π i) i| ≤ epsilon K ∧ (do
        let x ← foldRange (i + 1) n (fun col x => solveElim lu p i col x) x
        if Scalar.abs (← lu.getElement (← p.getElementU8 i) i) >ᶠ (EPSILON : Ext K) then do
          let v := (← x.getElement i) /ᶠ (← lu.getElement (← p.getElementU8 i) i)
          exec x (Vec.setElement i v)
        else fail .Unsolvable : Res LinalgError (Vec (Ext K))) = .error (.err .Unsolvable)) ∨
      (epsilon K < |u (π i) i| ∧ ∃ x', (do
        let x ← foldRange (i + 1) n (fun col x => solveElim lu p i col x) x
        if Scalar.abs (← lu.getElement (← p.getElementU8 i) i) >ᶠ (EPSILON : Ext K) then do
          let v := (← x.getElement i) /ᶠ (← lu.getElement (← p.getElementU8 i) i)
          exec x (Vec.setElement i v)
        else fail .Unsolvable : Res LinalgError (Vec (Ext K))) = .ok x' ∧
        VecIs x' n (fun j => .fin (if j = i then
          (X i - ∑ k ∈ Ico (i + 1) n, u (π i) k * X k) / u (π i) i else X j))) := by
    intro i x X hi hx
    obtain ⟨x1, h1, h2⟩ := solveElims_ok (lo := i + 1) (hi := n) hl hp hπ hx hi (le_refl _) hi
      (Or.inl (Nat.lt_succ_self _))
    simp only [h1, Res.ok_bind, hp.get i hi, hl.get _ _ (hπ i hi) hi, abs_gt_eps, h2.get i hi, if_true]
    by_cases hpiv : epsilon K < |u (π i) i|
    · right
      have hne : u (π i) i ≠ 0 := fun h => by
        rw [h, abs_zero] at hpiv; exact absurd hpiv (not_lt.mpr (le_of_lt eps_pos))
      rw [if_pos (decide_eq_true hpiv), Ext.div_fin _ hne]
      obtain ⟨x2, h3, h4⟩ := h2.exec_set hi (Ext.finite_fin
        ((X i - ∑ k ∈ Ico (i + 1) n, u (π i) k * X k) / u (π i) i))
      refine ⟨hpiv, x2, h3, h4.congr fun j _ => ?_⟩
      by_cases h : j = i <;> simp [h]
    · left
      exact ⟨not_lt.mp hpiv, by rw [if_neg (by simpa using hpiv)]⟩
  suffices ∀ m, m ≤ n → ∀ (x : Vec (Ext K)) (X : Nat → K), VecIs x n (fun i => .fin (X i)) →
      (∀ i, i < n → m ≤ i → epsilon K < |u (π i) i|) →
      (∀ i, i < n → m ≤ i → ∑ k ∈ Ico i n, u (π i) k * X k = Y i) →
      (∀ i, i < m → X i = Y i) →
      (∃ k, k < n ∧ |u (π k) k| ≤ epsilon K ∧ foldFromRev 0 m (fun i x => do
        let x ← foldRange (i + 1) n (fun col x => solveElim lu p i col x) x
        if Scalar.abs (← lu.getElement (← p.getElementU8 i) i) >ᶠ (EPSILON : Ext K) then do
          let v := (← x.getElement i) /ᶠ (← lu.getElement (← p.getElementU8 i) i)
          exec x (Vec.setElement i v)
        else fail .Unsolvable) x = .error (.err LinalgError.Unsolvable)) ∨
      ((∀ k, k < n → epsilon K < |u (π k) k|) ∧
      ∃ x', foldFromRev 0 m (fun i x => do
        let x ← foldRange (i + 1) n (fun col x => solveElim lu p i col x) x
        if Scalar.abs (← lu.getElement (← p.getElementU8 i) i) >ᶠ (EPSILON : Ext K) then do
          let v := (← x.getElement i) /ᶠ (← lu.getElement (← p.getElementU8 i) i)
          exec x (Vec.setElement i v)
        else fail LinalgError.Unsolvable) x = .ok x' ∧ ∃ X : Nat → K, VecIs x' n (fun i => .fin (X i)) ∧
        (∀ i, i < n → ∑ k ∈ Ico i n, u (π i) k * X k = Y i)) by
    rcases this n (le_refl _) x1 Y hY (fun i h1 h2 => by omega) (fun i h1 h2 => by omega)
      (fun _ _ => rfl) with ⟨k, h1, h2, h3⟩ | ⟨h1, x, h2, X, h3, h4⟩
    · exact Or.inl ⟨k, h1, h2, h3⟩
    · exact Or.inr ⟨h1, x, h2, X, Y, h3, hY2, h4⟩
  intro m
  induction m with
  | zero =>
    intro _ x X hx hpv hX _
    exact Or.inr ⟨fun k hk => hpv k hk (Nat.zero_le _), x, rfl, X, hx,
      fun i hi => hX i hi (Nat.zero_le _)⟩
  | succ m ih =>
    intro hm x X hx hpv hX hlow
    rw [foldFromRev_succ]
    simp only [Nat.zero_add]
    rcases hstep m x X (by omega) hx with ⟨h1, h2⟩ | ⟨h1, x', h2, h3⟩
    · left; exact ⟨m, by omega, h1, by rw [h2]; rfl⟩
    · rw [h2, Res.ok_bind]
      have hne : u (π m) m ≠ 0 := fun h => by
        rw [h, abs_zero] at h1; exact absurd h1 (not_lt.mpr (le_of_lt eps_pos))
      have hs : ∀ i, m < i → ∀ c : Nat → K, ∀ z : K,
          ∑ k ∈ Ico i n, c k * (if k = m then z else X k) = ∑ k ∈ Ico i n, c k * X k :=
        fun i hi c z => Finset.sum_congr rfl fun k hk => by
          have : k ≠ m := by have := Finset.mem_Ico.mp hk; omega
          simp [this]
      refine ih (by omega) x' _ h3 ?_ ?_ ?_
      · intro i hi hmi
        by_cases h : i = m
        · subst h; exact h1
        · exact hpv i hi (by omega)
      · intro i hi hmi
        by_cases h : i = m
        · subst h
          rw [Finset.sum_eq_sum_Ico_succ_bot hi, hs (i + 1) (Nat.lt_succ_self _)]
          simp only [if_true]
          rw [← hlow i (Nat.lt_succ_self _)]
          field_simp
          ring
        · rw [hs i (by omega)]
          exact hX i hi (by omega)
      · intro i hi
        have : i ≠ m := by omega
        simp [this]
        exact hlow i (by omega)

end Linalg
end Verif
