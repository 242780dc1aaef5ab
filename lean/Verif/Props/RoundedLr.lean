import Verif.Props.PosDef32
import Verif.Props.LrDefect

/-
C130: `lr` and `lu_crout` (linalg/src/matrix.rs:991-1145) in binary32.  What exact arithmetic says about the two
factorisations (C26, C27) holds up to rounding errors that are small against the products of the factors.
-/

set_option linter.unusedSectionVars false
set_option linter.unusedSimpArgs false

namespace Verif
open Scalar Finset

/-- A sum that goes on from the value `s`. -/
def sumOn {F : Type} [Scalar F] (s : F) : Nat → (Nat → F) → F
  | 0, _ => s
  | m + 1, t => sumOn s m t +ᶠ t m

theorem sumOn_zero {F : Type} [Scalar F] (m : Nat) (t : Nat → F) : sumOn (lit 0) m t = sumUp m t := by
  induction m with
  | zero => rfl
  | succ m ih => rw [sumOn, sumUp, ih]

theorem sumOn_congr {F : Type} [Scalar F] {s : F} {n : Nat} {t t' : Nat → F} (h : ∀ i, i < n → t i = t' i) :
    sumOn s n t = sumOn s n t' := by
  induction n with
  | zero => rfl
  | succ n ih => rw [sumOn, sumOn, ih fun i hi => h i (by omega), h n (by omega)]

/-- The inner loops of `lr` and `lu_crout`. -/
theorem dot_on {F : Type} [Scalar F] {l r : Mat F} {n : Nat} {L R : Nat → Nat → F} (hl : MatIs l n n L)
    (hr : MatIs r n n R) {i j c : Nat} (hi : i < n) (hj : j < n) (hc : c ≤ n) (s : F) :
    foldRange 0 c (fun k (s : F) => do
      .ok (s +ᶠ ((← l.getElement i k) *ᶠ (← r.getElement k j))) : Nat → F → Res LinalgError F) s =
      .ok (sumOn s c fun k => L i k *ᶠ R k j) := by
  have := foldRange_ok (ε := LinalgError) (fun k (s : F) => do
      .ok (s +ᶠ ((← l.getElement i k) *ᶠ (← r.getElement k j))))
    (fun m => sumOn s m fun k => L i k *ᶠ R k j) 0 c (Nat.zero_le _)
    (fun k _ hk => by
      rw [hl.get i k hi (by omega), Res.ok_bind, hr.get k j (by omega) hj, Res.ok_bind]
      rfl)
  exact this

/-- What `lr` has computed when the first `c` passes of its main loop are done; `S i j` is the value of its variable
`sum` when the element (i, j) of `R` is begun. -/
structure LrF (n : Nat) (A L R S : Nat → Nat → F32) (c : Nat) : Prop where
  finL : ∀ i j, i < n → j < n → Finite (L i j)
  finR : ∀ i j, i < n → j < n → Finite (R i j)
  one : ∀ i, 0 < i → i < n → L i i = lit 1
  first : L 0 0 = A 0 0 /ᶠ A 0 0
  low : ∀ i j, i < j → j < n → L i j = lit 0
  up : ∀ i j, j < i → i < n → R i j = lit 0
  start : S 0 0 = lit 0
  next : ∀ i, i < c → i + 1 < n → S (i + 1) (i + 1) = sumUp i fun k => L (n - 1) k *ᶠ R k i
  row : ∀ i, i < c → ∀ j, i ≤ j → j < n →
    S i (j + 1) = sumOn (S i j) i (fun k => L i k *ᶠ R k j) ∧ R i j = A i j -ᶠ S i (j + 1)
  col : ∀ j, j < c → ∀ i, j < i → i < n → L i j = (A i j -ᶠ sumUp j fun k => L i k *ᶠ R k j) /ᶠ R j j

theorem lr_f {a l r : Mat F32} {n : Nat} {A : Nat → Nat → F32} (ha : MatIs a n n A) (he : a.lr = .ok (l, r)) :
    ∃ L R S : Nat → Nat → F32, MatIs l n n L ∧ MatIs r n n R ∧ LrF n A L R S n := by
  have hn := ha.rpos
  unfold Mat.lr at he
  obtain ⟨b, _, he⟩ := Res.bind_eq_ok.mp he
  split at he
  · cases he
  dsimp only at he
  obtain ⟨l0, e0, hl0⟩ := Mat.exec_of_stores (Mat.fillIdentity_stores (Mat.zeros_of ha)) (Mat.zeros_of ha)
    fun i j _ _ => by
      try dsimp only
      split
      · exact Rounded.one_finite (F := F32)
      · exact Rounded.zero_finite
  rw [ha.rows_eq, Mat.init_of ha, Res.ok_bind, Res.ok_bind, e0, Res.ok_bind] at he
  obtain ⟨r1, e1, he⟩ := Res.bind_eq_ok.mp he
  obtain ⟨l1, e2, he⟩ := Res.bind_eq_ok.mp he
  -- the first row of R
  have hr1 : ∃ R1 : Nat → Nat → F32, MatIs r1 n n R1 ∧ (∀ i j, i < n → j < n → Finite (R1 i j)) ∧
      (∀ i j, 0 < i → R1 i j = lit 0) ∧ ∀ j, j < n → R1 0 j = A 0 j := by
    have key := foldRange_inv_ok _ (fun m (r : Mat F32) => ∃ R1 : Nat → Nat → F32, MatIs r n n R1 ∧
        (∀ i j, i < n → j < n → Finite (R1 i j)) ∧ (∀ i j, 0 < i → R1 i j = lit 0) ∧ ∀ j, j < m → R1 0 j = A 0 j)
      0 n (Nat.zero_le _) _ _ ⟨fun _ _ => lit 0, Mat.zeros_of ha, fun _ _ _ _ => Rounded.zero_finite,
        fun _ _ _ => rfl, fun j hj => by omega⟩ ?_ e1
    · exact key
    · rintro j r r' _ hj ⟨R1, hR, h1, h2, h3⟩ e
      rw [ha.get 0 j hn hj, Res.ok_bind] at e
      obtain ⟨hf, hm⟩ := hR.exec_set_inv hn hj e
      refine ⟨_, hm, fun i' j' hi hj => ?_, fun i' j' hi => ?_, fun j' hj' => ?_⟩
      · try dsimp only
        split
        · exact hf
        · exact h1 i' j' hi hj
      · try dsimp only
        rw [if_neg (by omega)]; exact h2 i' j' hi
      · try dsimp only
        by_cases h : j' = j
        · simp [h]
        · rw [if_neg (by omega)]; exact h3 j' (by omega)
  obtain ⟨R1, hR1, fR1, zR1, rR1⟩ := hr1
  -- the first column of L
  have hl1 : ∃ L1 : Nat → Nat → F32, MatIs l1 n n L1 ∧ (∀ i j, i < n → j < n → Finite (L1 i j)) ∧
      (∀ i j, 0 < j → L1 i j = if i = j then lit 1 else lit 0) ∧ L1 0 0 = A 0 0 /ᶠ A 0 0 := by
    have key := foldRange_inv_ok _ (fun m (l : Mat F32) => ∃ L1 : Nat → Nat → F32, MatIs l n n L1 ∧
        (∀ i j, i < n → j < n → Finite (L1 i j)) ∧ (∀ i j, 0 < j → L1 i j = if i = j then lit 1 else lit 0) ∧
        (0 < m → L1 0 0 = A 0 0 /ᶠ A 0 0))
      0 n (Nat.zero_le _) _ _ ⟨_, hl0, fun i j _ _ => by
          split
          · exact Rounded.one_finite
          · exact Rounded.zero_finite,
        fun _ _ _ => rfl, fun h => absurd h (lt_irrefl _)⟩ ?_ e2
    · obtain ⟨L1, h1, h2, h3, h4⟩ := key
      exact ⟨L1, h1, h2, h3, h4 hn⟩
    · rintro i l l' _ hi ⟨L1, hL, h1, h2, h3⟩ e
      rw [hR1.get 0 0 hn hn, Res.ok_bind] at e
      obtain ⟨_, _, e⟩ := Res.bind_eq_ok.mp e
      rw [ha.get i 0 hi hn, Res.ok_bind, rR1 0 hn] at e
      obtain ⟨hf, hm⟩ := hL.exec_set_inv hi hn e
      refine ⟨_, hm, fun i' j' hi hj => ?_, fun i' j' hj => ?_, fun _ => ?_⟩
      · try dsimp only
        split
        · exact hf
        · exact h1 i' j' hi hj
      · try dsimp only
        rw [if_neg (by omega)]; exact h2 i' j' hj
      · try dsimp only
        by_cases h : i = 0
        · simp [h]
        · rw [if_neg (by omega)]; exact h3 (by omega)
  obtain ⟨L1, hL1, fL1, zL1, oL1⟩ := hl1
  -- the main loop
  obtain ⟨⟨l2, r2, s2⟩, e3, he⟩ := Res.bind_eq_ok.mp he
  cases he
  have key := foldRange_inv_ok _ (fun c (st : Mat F32 × Mat F32 × F32) => ∃ L R S : Nat → Nat → F32,
      MatIs st.1 n n L ∧ MatIs st.2.1 n n R ∧ (c < n → st.2.2 = S c c) ∧ LrF n A L R S c)
    0 n (Nat.zero_le _) _ _ ⟨L1, R1, fun _ _ => lit 0, hL1, hR1, fun _ => rfl, fL1, fR1,
      fun i h _ => by rw [zL1 i i h, if_pos rfl], oL1,
      fun i j h _ => by rw [zL1 i j (by omega), if_neg (by omega)], fun i j h _ => zR1 i j (by omega), rfl,
      fun i h => by omega, fun i h => by omega, fun i h => by omega⟩ ?_ e3
  · obtain ⟨L, R, S, h1, h2, _, h3⟩ := key
    exact ⟨L, R, S, h1, h2, h3⟩
  rintro c ⟨l, r, s⟩ ⟨l', r', s'⟩ _ hc ⟨L, R, S, hL, hR, hs, h⟩ e
  dsimp only at hL hR hs e ⊢
  have hs := hs hc
  subst hs
  obtain ⟨⟨r3, s3⟩, e4, e⟩ := Res.bind_eq_ok.mp e
  dsimp only at e
  -- the row c of R
  have krow := foldRange_inv_ok _ (fun m (st : Mat F32 × F32) => ∃ X Z : Nat → F32,
      MatIs st.1 n n (fun i j => if i = c then X j else R i j) ∧ Z c = S c c ∧ st.2 = Z m ∧
      (∀ j, c ≤ j → j < m → Z (j + 1) = sumOn (Z j) c (fun k => L c k *ᶠ R k j) ∧ X j = A c j -ᶠ Z (j + 1)) ∧
      (∀ j, j < c → X j = lit 0) ∧ ∀ j, j < n → Finite (X j))
    c n hc.le _ _ ⟨fun j => R c j, fun _ => S c c, hR.congr fun i j _ _ => by
        by_cases hi : i = c
        · simp [hi]
        · simp [hi], rfl, rfl, fun j h1 h2 => by omega, fun j hj => h.up c j hj hc, fun j hj => h.finR c j hc hj⟩ ?_ e4
  swap
  · rintro j ⟨r, s⟩ ⟨r', s'⟩ hcj hj ⟨X, Z, h1, h2, h3, h4, h5, h6⟩ e
    dsimp only at h1 h3 e ⊢
    rw [dot_on hL h1 hc hj hc.le, Res.ok_bind, ha.get c j hc hj, Res.ok_bind] at e
    obtain ⟨r2, e', e⟩ := Res.bind_eq_ok.mp e
    cases e
    obtain ⟨hf, hm⟩ := h1.exec_set_inv hc hj e'
    have hd : sumOn s c (fun k => L c k *ᶠ (if k = c then X j else R k j)) =
        sumOn (Z j) c (fun k => L c k *ᶠ R k j) := by
      rw [h3]
      exact sumOn_congr fun k hk => by rw [if_neg (by omega)]
    rw [hd] at hf hm ⊢
    obtain ⟨v, hv⟩ : ∃ v, v = sumOn (Z j) c (fun k => L c k *ᶠ R k j) := ⟨_, rfl⟩
    rw [← hv] at hf hm ⊢
    refine ⟨fun j' => if j' = j then A c j -ᶠ v else X j', fun j' => if j' = j + 1 then v else Z j',
      hm.congr fun i' j' _ _ => ?_, ?_, ?_, fun j' h7 h8 => ?_, fun j' h7 => ?_, fun j' h7 => ?_⟩ <;> try dsimp only
    · by_cases hi : i' = c <;> by_cases hjj : j' = j <;> simp [hi, hjj]
    · rw [if_neg (by omega)]; exact h2
    · rw [if_pos rfl]
    · by_cases hjj : j' = j
      · subst hjj
        simp [hv]
      · rw [if_neg (by omega), if_neg hjj, if_neg (by omega)]
        exact h4 j' h7 (by omega)
    · rw [if_neg (by omega)]; exact h5 j' h7
    · try dsimp only
      split
      · exact hf
      · exact h6 j' h7
  obtain ⟨X, Z, hX, hZc, hZ, hrow, hup, hfin⟩ := krow
  dsimp only at hX hZ
  rw [hX.get c c hc hc, Res.ok_bind] at e
  rw [if_pos rfl] at e
  obtain ⟨_, _, e⟩ := Res.bind_eq_ok.mp e
  obtain ⟨⟨l4, s4⟩, e5, e⟩ := Res.bind_eq_ok.mp e
  cases e
  -- the column c of L
  have kcol := foldRange_inv_ok _ (fun m (st : Mat F32 × F32) => ∃ Y : Nat → F32,
      MatIs st.1 n n (fun i j => if j = c ∧ c < i then Y i else L i j) ∧
      (∀ i, c < i → i < m → Y i = (A i c -ᶠ sumUp c fun k => L i k *ᶠ R k c) /ᶠ X c) ∧
      (c + 1 < m → st.2 = sumUp c fun k => L (m - 1) k *ᶠ R k c) ∧ ∀ i, i < n → Finite (Y i))
    (c + 1) n hc _ _ ⟨fun i => L i c, hL.congr fun i j _ _ => by
        by_cases hj : j = c
        · subst hj; simp
        · simp [hj], fun i h1 h2 => by omega, fun h => absurd h (lt_irrefl _), fun i hi => h.finL i c hi hc⟩ ?_ e5
  swap
  · rintro i ⟨l, s⟩ ⟨l', s'⟩ hci hi ⟨Y, h1, h2, h3, h4⟩ e
    dsimp only at h1 h3 e ⊢
    rw [dot_on h1 hX hi hc hc.le, Res.ok_bind, ha.get i c hi hc, Res.ok_bind] at e
    obtain ⟨l2, e', e⟩ := Res.bind_eq_ok.mp e
    cases e
    obtain ⟨hf, hm⟩ := h1.exec_set_inv hi hc e'
    have hd : sumOn (lit 0) c (fun k => (if k = c ∧ c < i then Y i else L i k) *ᶠ (if k = c then X c else R k c)) =
        sumUp c (fun k => L i k *ᶠ R k c) := by
      rw [sumOn_zero]
      exact sumUp_congr fun k hk => by rw [if_neg (by omega), if_neg (by omega)]
    rw [hd] at hf hm ⊢
    obtain ⟨v, hv⟩ : ∃ v, v = sumUp c (fun k => L i k *ᶠ R k c) := ⟨_, rfl⟩
    rw [← hv] at hf hm ⊢
    refine ⟨fun i' => if i' = i then (A i c -ᶠ v) /ᶠ X c else Y i', hm.congr fun i' j' _ _ => ?_, fun i' h7 h8 => ?_,
      fun _ => ?_, fun i' h7 => ?_⟩ <;> try dsimp only
    · by_cases hii : i' = i
      · subst hii
        by_cases hjj : j' = c
        · simp [hjj, show c < i' by omega]
        · simp [hjj]
      · simp [hii]
    · by_cases hii : i' = i
      · subst hii
        simp [hv]
      · rw [if_neg hii]
        exact h2 i' h7 (by omega)
    · simpa using hv
    · try dsimp only
      split
      · exact hf
      · exact h4 i' h7
  obtain ⟨Y, hY, hcol, hs4, hfinY⟩ := kcol
  dsimp only at hY hs4
  refine ⟨_, _, fun i j => if i = c then Z j else if i = c + 1 ∧ j = c + 1 then s4 else S i j, hY, hX, fun _ => ?_, ?_⟩ <;> try dsimp only
  · rw [if_neg (by omega), if_pos ⟨rfl, rfl⟩]
  have eR : ∀ k j, k < c → (if k = c then X j else R k j) = R k j := fun k j hk => if_neg (by omega)
  have eL : ∀ i k, k < c → (if k = c ∧ c < i then Y i else L i k) = L i k := fun i k hk => if_neg (by omega)
  refine ⟨fun i j hi hj => ?_, fun i j hi hj => ?_, fun i hi hin => ?_, ?_, fun i j hij hj => ?_, fun i j hij hi => ?_, ?_,
    fun i hi hin => ?_, fun i hi j hij hj => ?_, fun j hj i hij hi => ?_⟩ <;> try dsimp only
  · try dsimp only
    split
    · exact hfinY i hi
    · exact h.finL i j hi hj
  · try dsimp only
    split
    · exact hfin j hj
    · exact h.finR i j hi hj
  · rw [if_neg (by omega)]; exact h.one i hi hin
  · rw [if_neg (by omega)]; exact h.first
  · rw [if_neg (by omega)]; exact h.low i j hij hj
  · try dsimp only
    split
    · next hi' => exact hup j (by omega)
    · exact h.up i j hij hi
  · by_cases h0 : 0 = c
    · rw [if_pos h0, h0, hZc, ← h0]; exact h.start
    · rw [if_neg h0, if_neg (by omega)]; exact h.start
  · have e : sumUp i (fun k => (if k = c ∧ c < n - 1 then Y (n - 1) else L (n - 1) k) *ᶠ
        (if k = c then X i else R k i)) = sumUp i (fun k => L (n - 1) k *ᶠ R k i) :=
      sumUp_congr fun k hk => by rw [if_neg (by omega), if_neg (by omega)]
    rw [e]
    by_cases hic : i = c
    · subst hic
      rw [if_neg (by omega), if_pos ⟨rfl, rfl⟩]
      exact hs4 (by omega)
    · by_cases hic' : i + 1 = c
      · rw [if_pos hic', hic', hZc, ← hic']
        exact h.next i (by omega) hin
      · rw [if_neg hic', if_neg (by omega)]
        exact h.next i (by omega) hin
  · have e : ∀ s : F32, sumOn s i (fun k => (if k = c ∧ c < i then Y i else L i k) *ᶠ
        (if k = c then X j else R k j)) = sumOn s i (fun k => L i k *ᶠ R k j) := fun s =>
      sumOn_congr fun k hk => by rw [if_neg (by omega), if_neg (by omega)]
    rw [e]
    by_cases hic : i = c
    · subst hic
      simp only [if_true]
      exact hrow j hij hj
    · rw [if_neg hic, if_neg (by omega), if_neg hic, if_neg (by omega), if_neg hic]
      exact h.row i (by omega) j hij hj
  · have e : sumUp j (fun k => (if k = c ∧ c < i then Y i else L i k) *ᶠ
        (if k = c then X j else R k j)) = sumUp j (fun k => L i k *ᶠ R k j) :=
      sumUp_congr fun k hk => by rw [if_neg (by omega), if_neg (by omega)]
    rw [e]
    by_cases hjc : j = c
    · subst hjc
      rw [if_pos ⟨rfl, hij⟩, if_pos rfl]
      exact hcol i hij hi
    · rw [if_neg (by omega), if_neg hjc]
      exact h.col j (by omega) i hij hi

namespace F32

/-- A finite quotient by a finite number. -/
theorem div_inv {x y : F32} (hy : Finite y) (h : Finite (x /ᶠ y)) : Finite x ∧ ⟪y⟫ ≠ 0 := by
  obtain ⟨y, rfl⟩ := finite_iff.mp hy
  obtain ⟨q, hq⟩ := finite_fl h
  replace hq : Ext.div x.val (.fin y) = .fin q := hq
  rcases hx : x.val with a | _ | _ | _ <;> rw [hx] at hq
  · refine ⟨finite_of_fin hx, fun h0 => ?_⟩
    have h0 : y = 0 := by
      have : ((y : ℚ) : ℝ) = 0 := h0
      exact_mod_cast this
    subst h0
    refine absurd hq ?_
    simp only [Ext.div, if_true]
    split
    · intro h; cases h
    · exact infOf_ne _ _
  · refine absurd hq ?_
    simp only [Ext.div]
    exact infOf_ne _ _
  · refine absurd hq ?_
    simp only [Ext.div, Ext.infOf]
    split <;> (intro h; cases h)
  · refine absurd hq ?_
    intro h; cases h

/-- A finite number divided by itself. -/
theorem div_self_one {x : F32} (hx : Finite x) (h : Finite (x /ᶠ x)) : x /ᶠ x = lit 1 := by
  obtain ⟨_, h0⟩ := div_inv hx h
  obtain ⟨q, rfl⟩ := finite_iff.mp hx
  have hq : q ≠ 0 := val_ne h0
  rw [div_eq _ hq, div_self hq]
  decide +kernel

end F32

/-! ### The error of the running sum -/

/-- The factor of the error of a running sum with `m` terms. -/
noncomputable def lrC (m : Nat) : ℝ := (m + 1) * (101 / 100 * ru)

theorem run_real {m : Nat} (hm : m ≤ 8) {s x X p t s' : ℝ} (hx : |x| ≤ X)
    (hs : |s - x| ≤ lrC m * X + 3 * m * rη) (hp : Near p t) (hs' : Near s' (s + p)) :
    |s' - (x + t)| ≤ lrC (m + 1) * (X + |t|) + 3 * (m + 1 : ℕ) * rη := by
  unfold Near at *
  unfold lrC at *
  have hη := rη_pos
  have hX : 0 ≤ X := (abs_nonneg x).trans hx
  have ht := abs_nonneg t
  have h1 : |s| ≤ X + |s - x| := by
    have := abs_sub_abs_le_abs_sub s x
    linarith
  have h2 : |p| ≤ |t| + |p - t| := by
    have := abs_sub_abs_le_abs_sub p t
    linarith
  have h3 : |s' - (x + t)| ≤ |s' - (s + p)| + |s - x| + |p - t| := by
    rw [show s' - (x + t) = (s' - (s + p)) + (s - x) + (p - t) by ring]
    exact (abs_add_le _ _).trans (add_le_add (abs_add_le _ _) le_rfl)
  have h4 := abs_add_le s p
  rw [Linalg.ru_eq] at *
  interval_cases m <;> norm_num at hs ⊢ <;> linarith

theorem sumOn_near {s : F32} {x X : ℝ} {m0 m : Nat} (hm : m0 + m ≤ 8) (hx : |x| ≤ X)
    (hs : |⟪s⟫ - x| ≤ lrC m0 * X + 3 * m0 * rη) (f g : Nat → F32) (h : Finite (sumOn s m fun k => f k *ᶠ g k)) :
    |⟪sumOn s m fun k => f k *ᶠ g k⟫ - (x + ∑ k ∈ range m, ⟪f k⟫ * ⟪g k⟫)| ≤
      lrC (m0 + m) * (X + ∑ k ∈ range m, |⟪f k⟫| * |⟪g k⟫|) + 3 * (m0 + m : ℕ) * rη := by
  induction m with
  | zero => simpa [sumOn] using hs
  | succ m ih =>
    rw [sumOn] at h ⊢
    obtain ⟨h1, h2⟩ := Propagates.add_inv h
    obtain ⟨h3, h4⟩ := Propagates.mul_inv h2
    have hb : |x + ∑ k ∈ range m, ⟪f k⟫ * ⟪g k⟫| ≤ X + ∑ k ∈ range m, |⟪f k⟫| * |⟪g k⟫| := by
      refine (abs_add_le _ _).trans (add_le_add hx ((Finset.abs_sum_le_sum_abs _ _).trans (le_of_eq ?_)))
      exact Finset.sum_congr rfl fun k _ => abs_mul _ _
    have := run_real (m := m0 + m) (by omega) hb (ih (by omega) h1) (Rounded.mul_near h3 h4 h2) (Rounded.add_near h1 h2 h)
    rw [Finset.sum_range_succ, Finset.sum_range_succ, ← add_assoc x, ← add_assoc X, ← abs_mul]
    exact this

theorem sumOn_finite {s : F32} {m : Nat} {t : Nat → F32} (h : Finite (sumOn s m t)) : Finite s := by
  induction m with
  | zero => exact h
  | succ m ih =>
    rw [sumOn] at h
    exact ih (Propagates.add_inv h).1

/-- How many products the running sum contains when the element (i, j) of `R` is begun. -/
def lrTerms (i j : Nat) : Nat := (i - 1) + (j - i) * i

variable {n : Nat} {A L R S : Nat → Nat → F32}

theorem lrExtra_abs (L R : Nat → Nat → ℝ) (i j : Nat) :
    |lrExtra n L R i j| ≤ lrExtra n (fun i j => |L i j|) (fun i j => |R i j|) i j := by
  unfold lrExtra lrLeft
  refine (abs_add_le _ _).trans (add_le_add ?_ ?_)
  · exact (Finset.abs_sum_le_sum_abs _ _).trans (le_of_eq (Finset.sum_congr rfl fun _ _ => abs_mul _ _))
  · refine (Finset.abs_sum_le_sum_abs _ _).trans (Finset.sum_le_sum fun p _ => ?_)
    exact (Finset.abs_sum_le_sum_abs _ _).trans (le_of_eq (Finset.sum_congr rfl fun _ _ => abs_mul _ _))

theorem lrExtra_succ (L R : Nat → Nat → ℝ) {i j : Nat} (h : i ≤ j) :
    lrExtra n L R i (j + 1) = lrExtra n L R i j + ∑ k ∈ range i, L i k * R k j := by
  unfold lrExtra
  rw [Finset.sum_Ico_succ_top h, add_assoc]

/-- The running sum against the sum of the products. -/
theorem LrF.sum_near (h : LrF n A L R S n) (hn : n ≤ 4) {i : Nat} (hi : i < n) : ∀ j, i ≤ j → j ≤ n → Finite (S i j) →
    |⟪S i j⟫ - lrExtra n (fun i j => ⟪L i j⟫) (fun i j => ⟪R i j⟫) i j| ≤
      lrC (lrTerms i j) * lrExtra n (fun i j => |⟪L i j⟫|) (fun i j => |⟪R i j⟫|) i j + 3 * lrTerms i j * rη := by
  intro j hij
  induction j, hij using Nat.le_induction with
  | base =>
    intro _ hf
    have e : ∀ L R : Nat → Nat → ℝ, lrExtra n L R i i = 0 + ∑ k ∈ range (i - 1), L (n - 1) k * R k (i - 1) :=
      fun L R => by unfold lrExtra lrLeft; simp
    have et : lrTerms i i = 0 + (i - 1) := by unfold lrTerms; simp
    rw [e, e, et]
    have hS : S i i = sumOn (lit 0) (i - 1) fun k => L (n - 1) k *ᶠ R k (i - 1) := by
      rcases Nat.eq_zero_or_pos i with rfl | hp
      · exact h.start
      · obtain ⟨i, rfl⟩ : ∃ i', i = i' + 1 := ⟨i - 1, by omega⟩
        rw [h.next i (by omega) hi, sumOn_zero]
        rfl
    rw [hS] at hf ⊢
    exact sumOn_near (by omega) (by simp) (by simp [Rounded.zero_val]) _ _ hf
  | succ j hij ih =>
    intro hj hf
    obtain ⟨h1, _⟩ := h.row i hi j hij (by omega)
    rw [h1] at hf ⊢
    have := sumOn_near (m0 := lrTerms i j) (m := i) (by
      unfold lrTerms
      have : (j - i) * i + i = (j - i + 1) * i := by ring
      have : (j - i + 1) * i ≤ 4 := by
        have h1 : i ≤ 3 := by omega
        interval_cases i
        · omega
        · omega
        · omega
        · omega
      omega) (lrExtra_abs (n := n) _ _ i j) (ih (by omega) (sumOn_finite hf)) _ _ hf
    rw [lrExtra_succ _ _ hij, lrExtra_succ _ _ hij]
    have et : lrTerms i (j + 1) = lrTerms i j + i := by
      unfold lrTerms
      have : j + 1 - i = (j - i) + 1 := by omega
      rw [this]; ring
    rw [et]
    exact this

/-- The first element of `L`. -/
theorem LrF.one' (h : LrF n A L R S n) {i : Nat} (hi : i < n) : L i i = lit 1 := by
  rcases Nat.eq_zero_or_pos i with rfl | hp
  · have hf := h.finL 0 0 hi hi
    have h0 := h.row 0 hi 0 (le_refl _) hi
    have : Finite (A 0 0) := by
      have hr := h.finR 0 0 hi hi
      rw [h0.2] at hr
      exact (Propagates.sub_inv hr).1
    rw [h.first] at hf ⊢
    exact F32.div_self_one this hf
  · exact h.one i hp hi

/-- The product of the factors, cut off. -/
theorem LrF.cut (h : LrF n A L R S n) (G : ℝ → ℝ) (hG : G 0 = 0) {i j : Nat} (hi : i < n) (hj : j < n) {m : Nat}
    (hm : m = min i j) :
    ∑ k ∈ range n, G ⟪L i k⟫ * G ⟪R k j⟫ = ∑ k ∈ range m, G ⟪L i k⟫ * G ⟪R k j⟫ + G ⟪L i m⟫ * G ⟪R m j⟫ := by
  rw [← Finset.sum_range_succ]
  refine (Finset.sum_subset (fun x hx => ?_) fun x hx hx' => ?_).symm
  · rw [Finset.mem_range] at *; omega
  · rw [Finset.mem_range] at *
    by_cases hxi : i < x
    · rw [h.low i x hxi hx, Rounded.zero_val, hG, zero_mul]
    · rw [h.up x j (by omega) hx, Rounded.zero_val, hG, mul_zero]

theorem lr_sub_real {A S r x X : ℝ} {m : Nat} (hm : m ≤ 5) (hx : |x| ≤ X) (hs : |S - x| ≤ lrC m * X + 3 * m * rη)
    (h : Near r (A - S)) : |A - x - r| ≤ 7 * ru * (X + |r|) + 17 * rη := by
  unfold Near lrC at *
  have hη := rη_pos
  have hX : 0 ≤ X := (abs_nonneg x).trans hx
  have h1 : |A - S| ≤ |r| + |r - (A - S)| := by
    have := abs_sub_abs_le_abs_sub (A - S) r
    rw [abs_sub_comm (A - S) r] at this
    linarith
  have h3 : |A - x - r| ≤ |r - (A - S)| + |S - x| := by
    rw [show A - x - r = -(r - (A - S)) + (S - x) by ring]
    refine (abs_add_le _ _).trans (add_le_add ?_ le_rfl)
    rw [abs_neg]
  have hr := abs_nonneg r
  rw [Linalg.ru_eq] at *
  interval_cases m <;> norm_num at hs ⊢ <;> linarith

theorem lr_div_real {A S b q r t T : ℝ} {m : Nat} (hm : m ≤ 3) (hT : |t| ≤ T) (hr : r ≠ 0)
    (hs : |S - t| ≤ lrC m * T + 3 * m * rη) (h : Near b (A - S)) (hq : Near q (b / r)) :
    |A - (t + q * r)| ≤ 7 * ru * (T + |q| * |r|) + 17 * rη * (1 + |r|) := by
  unfold Near lrC at *
  have hη := rη_pos
  have hT0 : 0 ≤ T := (abs_nonneg t).trans hT
  have hr0 := abs_pos.mpr hr
  have k1 : |q * r - b| ≤ ru * |b| + rη * |r| := by
    have e : q * r - b = (q - b / r) * r := by field_simp
    rw [e, abs_mul]
    have := mul_le_mul_of_nonneg_right hq hr0.le
    rw [abs_div] at this
    have e2 : (ru * (|b| / |r|) + rη) * |r| = ru * |b| + rη * |r| := by field_simp
    linarith
  have h0 : |b| ≤ |q * r| + |q * r - b| := by
    have := abs_sub_abs_le_abs_sub b (q * r)
    rw [abs_sub_comm b] at this
    linarith
  have h1 : |A - S| ≤ |b| + |b - (A - S)| := by
    have := abs_sub_abs_le_abs_sub (A - S) b
    rw [abs_sub_comm (A - S) b] at this
    linarith
  have h3 : |A - (t + q * r)| ≤ |b - (A - S)| + |S - t| + |q * r - b| := by
    rw [show A - (t + q * r) = -(b - (A - S)) + (S - t) + -(q * r - b) by ring]
    refine (abs_add_le _ _).trans (add_le_add ((abs_add_le _ _).trans ?_) (by rw [abs_neg]))
    rw [abs_neg]
  have hqr := abs_nonneg (q * r)
  have hηr : 0 ≤ rη * |r| := by positivity
  rw [← abs_mul]
  rw [show 17 * rη * (1 + |r|) = 17 * rη + 17 * (rη * |r|) by ring]
  generalize rη * |r| = z at *
  generalize |q * r| = w at *
  rw [Linalg.ru_eq] at *
  interval_cases m <;> norm_num at hs ⊢ <;> linarith

/-- C130: what `lr` returns in binary32, whatever the matrix.  `L` is unit lower and `R` upper triangular.  Below the
diagonal `L R` is the matrix up to a rounding error; on and above it, it is the matrix minus the products left over in
the sum that is not reset, again up to a rounding error. -/
theorem C130_lr {a l r : Mat F32} (ha : MatIs a n n A) (he : a.lr = .ok (l, r)) :
    ∃ L R : Nat → Nat → F32, MatIs l n n L ∧ MatIs r n n R ∧
      (∀ i j, i < n → j < n → Finite (L i j) ∧ Finite (R i j)) ∧
      (∀ i, i < n → L i i = lit 1) ∧ (∀ i j, i < j → j < n → L i j = lit 0) ∧
      (∀ i j, j < i → i < n → R i j = lit 0) ∧
      (∀ i j, j < i → i < n → |⟪A i j⟫ - ∑ k ∈ range n, ⟪L i k⟫ * ⟪R k j⟫| ≤
        7 / 2 ^ 24 * (∑ k ∈ range n, |⟪L i k⟫| * |⟪R k j⟫|) + 17 / 2 ^ 150 * (1 + |⟪R j j⟫|)) ∧
      ∀ i j, i ≤ j → j < n →
        |⟪A i j⟫ - (∑ k ∈ range (i - 1), ⟪L (n - 1) k⟫ * ⟪R k (i - 1)⟫) -
            (∑ p ∈ Ico i j, ∑ k ∈ range i, ⟪L i k⟫ * ⟪R k p⟫) - ∑ k ∈ range n, ⟪L i k⟫ * ⟪R k j⟫| ≤
          7 / 2 ^ 24 * ((∑ k ∈ range (i - 1), |⟪L (n - 1) k⟫| * |⟪R k (i - 1)⟫|) +
            (∑ p ∈ Ico i j, ∑ k ∈ range i, |⟪L i k⟫| * |⟪R k p⟫|) + ∑ k ∈ range n, |⟪L i k⟫| * |⟪R k j⟫|) +
          17 / 2 ^ 150 := by
  obtain ⟨L, R, S, hL, hR, h⟩ := lr_f ha he
  have hn := ha.rle
  have eu : ∀ x : ℝ, 7 / 2 ^ 24 * x = 7 * ru * x := fun x => by rw [Linalg.ru_eq]; norm_num
  have eη : (17 : ℝ) / 2 ^ 150 = 17 * rη := by rw [rη_eq]; ring
  refine ⟨L, R, hL, hR, fun i j hi hj => ⟨h.finL i j hi hj, h.finR i j hi hj⟩, fun i hi => h.one' hi, h.low, h.up,
    fun i j hij hi => ?_, fun i j hij hj => ?_⟩
  · have hj : j < n := by omega
    have e1 := h.cut id rfl hi hj (m := j) (by omega)
    have e2 := h.cut abs abs_zero hi hj (m := j) (by omega)
    simp only [id] at e1
    rw [e1, e2, eu, eη]
    have hq := h.finL i j hi hj
    have hr := h.finR j j hj hj
    have hcol := h.col j hj i hij hi
    rw [hcol] at hq
    obtain ⟨f1, f2⟩ := F32.div_inv hr hq
    obtain ⟨f3, f4⟩ := Propagates.sub_inv f1
    have n1 := Rounded.sub_near f3 f4 f1
    have n2 := Rounded.div_near f1 hr f2 hq
    rw [← hcol] at n2
    rw [← sumOn_zero] at f4 n1 n2
    have hs := sumOn_near (s := lit 0) (x := 0) (X := 0) (m0 := 0) (m := j) (by omega) (by simp)
      (by simp [Rounded.zero_val]) (fun k => L i k) (fun k => R k j) f4
    simp only [zero_add] at hs
    exact lr_div_real (by omega) ((Finset.abs_sum_le_sum_abs _ _).trans
      (le_of_eq (Finset.sum_congr rfl fun _ _ => abs_mul _ _))) f2 hs n1 n2
  · have hi : i < n := by omega
    have e1 := h.cut id rfl hi hj (m := i) (by omega)
    have e2 := h.cut abs abs_zero hi hj (m := i) (by omega)
    simp only [id] at e1
    rw [e1, e2, eu, eη, h.one' hi, Rounded.one_val, one_mul, abs_one, one_mul]
    obtain ⟨_, h2⟩ := h.row i hi j hij hj
    have hr := h.finR i j hi hj
    rw [h2] at hr
    obtain ⟨f1, f2⟩ := Propagates.sub_inv hr
    have n1 := Rounded.sub_near f1 f2 hr
    rw [← h2] at n1
    have hs := h.sum_near hn hi (j + 1) (by omega) (by omega) f2
    have ht : lrTerms i (j + 1) ≤ 5 := by
      unfold lrTerms
      have h1 : i ≤ 3 := by omega
      interval_cases i
      all_goals omega
    have := lr_sub_real ht (lrExtra_abs (n := n) _ _ i (j + 1)) hs n1
    rw [lrExtra_succ _ _ hij, lrExtra_succ _ _ hij] at this
    unfold lrExtra lrLeft at this
    refine le_trans (le_of_eq (congrArg _ ?_)) (this.trans (le_of_eq ?_))
    · ring
    · ring

/-- C130: for sizes 1 and 2, where no sum is left over, `L R` is the matrix up to a rounding error. -/
theorem C130_small {a l r : Mat F32} (ha : MatIs a n n A) (hn : n ≤ 2) (he : a.lr = .ok (l, r)) :
    ∃ L R : Nat → Nat → F32, MatIs l n n L ∧ MatIs r n n R ∧
      (∀ i, i < n → L i i = lit 1) ∧ (∀ i j, i < j → j < n → L i j = lit 0) ∧
      (∀ i j, j < i → i < n → R i j = lit 0) ∧
      ∀ i j, i < n → j < n → |⟪A i j⟫ - ∑ k ∈ range n, ⟪L i k⟫ * ⟪R k j⟫| ≤
        7 / 2 ^ 24 * (∑ k ∈ range n, |⟪L i k⟫| * |⟪R k j⟫|) + 17 / 2 ^ 150 * (1 + |⟪R j j⟫|) := by
  obtain ⟨L, R, hL, hR, _, h1, h2, h3, h4, h5⟩ := C130_lr ha he
  refine ⟨L, R, hL, hR, h1, h2, h3, fun i j hi hj => ?_⟩
  by_cases hij : j < i
  · exact h4 i j hij hi
  · have := h5 i j (by omega) hj
    have e1 : range (i - 1) = ∅ := by
      rw [show i - 1 = 0 by omega]; rfl
    have e2 : ∀ f : Nat → Nat → ℝ, ∑ p ∈ Ico i j, ∑ k ∈ range i, f k p = 0 := fun f =>
      Finset.sum_eq_zero fun p hp => by
        have := Finset.mem_Ico.mp hp
        rw [show i = 0 by omega]; rfl
    rw [e1, e2 fun k p => ⟪L i k⟫ * ⟪R k p⟫, e2 fun k p => |⟪L i k⟫| * |⟪R k p⟫|] at this
    simp only [Finset.sum_empty, sub_zero, zero_add] at this
    refine this.trans (add_le_add le_rfl ?_)
    have : 0 ≤ |⟪R j j⟫| := abs_nonneg _
    nlinarith [show (0 : ℝ) < 17 / 2 ^ 150 by positivity]

/-! ### Triangular matrices and `lu_crout` -/

theorem zero_mul32 {x : F32} (hx : Finite x) : lit 0 *ᶠ x = lit 0 := by
  obtain ⟨q, rfl⟩ := F32.finite_iff.mp hx
  have h1 : (lit 0 : F32) = ⟨.fin 0⟩ := by decide +kernel
  rw [h1, F32.mul_eq, zero_mul]
  decide +kernel

theorem zero_div32 {x : F32} (hx : Finite x) (h0 : ⟪x⟫ ≠ 0) : lit 0 /ᶠ x = lit 0 := by
  obtain ⟨q, rfl⟩ := F32.finite_iff.mp hx
  have h1 : (lit 0 : F32) = ⟨.fin 0⟩ := by decide +kernel
  rw [h1, F32.div_eq _ (F32.val_ne h0), zero_div]
  decide +kernel

theorem sumOn_null {m : Nat} {t : Nat → F32} (h : ∀ k, k < m → t k = lit 0) : sumOn (lit 0) m t = lit 0 := by
  induction m with
  | zero => rfl
  | succ m ih =>
    rw [sumOn, ih fun k hk => h k (by omega), h m (by omega)]
    decide +kernel

theorem zero_sub_zero : (lit 0 : F32) -ᶠ lit 0 = lit 0 := by decide +kernel

/-- C130: an upper triangular matrix of binary32 numbers without zeros on the diagonal (the last place excepted) is
returned unchanged as `R`, with the identity as `L`. -/
theorem C130_upper {a : Mat F32} (ha : MatIs a n n A) (hnum : ∀ i j, i < n → j < n → F32.IsNumber (A i j))
    (hup : ∀ i j, j < i → i < n → A i j = lit 0) (h0 : ⟪A 0 0⟫ ≠ 0) (hd : ∀ j, j + 1 < n → ⟪A j j⟫ ≠ 0) :
    ∃ l r, a.lr = .ok (l, r) ∧ MatIs l n n (fun i j => if i = j then lit 1 else lit 0) ∧ MatIs r n n A := by
  have hn := ha.rpos
  have hfin : ∀ i j, i < n → j < n → Finite (A i j) := fun i j hi hj => (hnum i j hi hj).1
  obtain ⟨l0, e0, hl0⟩ := Mat.exec_of_stores (Mat.fillIdentity_stores (Mat.zeros_of ha)) (Mat.zeros_of ha)
    fun i j _ _ => by
      try dsimp only
      split
      · exact Rounded.one_finite (F := F32)
      · exact Rounded.zero_finite
  obtain ⟨r1, e1, hr1⟩ := foldRange_inv (ε := LinalgError) (fun col (r : Mat F32) => do
        let element ← a.getElement 0 col
        exec r (Mat.setElement 0 col element))
    (fun m r => MatIs r n n (fun i j => if i = 0 ∧ j < m then A i j else lit 0)) 0 n (Nat.zero_le _) (Mat.zeros n n)
    ((Mat.zeros_of ha).congr fun i j _ _ => by simp)
    (fun j r _ hj h => by
      obtain ⟨r', e, h'⟩ := h.exec_set hn hj (hfin 0 j hn hj)
      refine ⟨r', by rw [ha.get 0 j hn hj, Res.ok_bind, e], h'.congr fun i' j' _ _ => ?_⟩
      by_cases hi : i' = 0
      · by_cases hjj : j' = j
        · simp [hi, hjj]
        · have : j' < j + 1 ↔ j' < j := by omega
          simp [hi, hjj, this]
      · simp [hi])
  obtain ⟨l1, e2, hl1⟩ := foldRange_inv (ε := LinalgError) (fun row (l : Mat F32) => do
        let rElement ← r1.getElement 0 0
        let _ ← allcloseL rElement (lit 0) EPSILON
        let element := (← a.getElement row 0) /ᶠ rElement
        exec l (Mat.setElement row 0 element))
    (fun m l => MatIs l n n (fun i j => if i = j then lit 1 else lit 0)) 0 n (Nat.zero_le _) l0 hl0
    (fun i l _ hi h => by
      have ev : A i 0 /ᶠ A 0 0 = if i = 0 then lit 1 else lit 0 := by
        by_cases hi0 : i = 0
        · subst hi0
          rw [if_pos rfl]
          obtain ⟨q, hq⟩ := F32.finite_iff.mp (hfin 0 0 hn hn)
          rw [hq] at h0 ⊢
          rw [F32.div_eq _ (F32.val_ne h0), div_self (F32.val_ne h0)]
          decide +kernel
        · rw [if_neg hi0, hup i 0 (by omega) hi]
          exact zero_div32 (hfin 0 0 hn hn) h0
      have hf : Finite (if i = 0 then (lit 1 : F32) else lit 0) := by
        split
        · exact Rounded.one_finite
        · exact Rounded.zero_finite
      obtain ⟨l', e, h'⟩ := h.exec_set hi hn hf
      refine ⟨l', ?_, h'.congr fun i' j' _ _ => ?_⟩
      · rw [hr1.get 0 0 hn hn, Res.ok_bind]
        rw [if_pos ⟨rfl, hn⟩, allcloseL_eq (hfin 0 0 hn hn) Rounded.zero_finite, Res.ok_bind, ha.get i 0 hi hn, Res.ok_bind]
        dsimp only
        rw [ev, e]
      · by_cases hi' : i' = i
        · by_cases hj' : j' = 0
          · simp [hi', hj']
          · simp [hi', hj']
        · simp [hi'])
  obtain ⟨⟨l2, r2, s2⟩, e3, hl2, hr2, hs2⟩ := foldRange_inv (ε := LinalgError)
    (fun col (st : Mat F32 × Mat F32 × F32) => do
        let (l, r, sum) := st
        let (r, sum) ← foldRange col n
          (fun j (st : Mat F32 × F32) => do
            let (r, sum) := st
            let sum ← foldRange 0 col
              (fun k (sum : F32) => do
                .ok (sum +ᶠ ((← l.getElement col k) *ᶠ (← r.getElement k j)))) sum
            let element := (← a.getElement col j) -ᶠ sum
            let r ← exec r (Mat.setElement col j element)
            .ok (r, sum)) (r, sum)
        let rElement ← r.getElement col col
        let _ ← allcloseL rElement (lit 0) EPSILON
        let (l, sum) ← foldRange (col + 1) n
          (fun row (st : Mat F32 × F32) => do
            let (l, _) := st
            let sum ← foldRange 0 col
              (fun k (sum : F32) => do
                .ok (sum +ᶠ ((← l.getElement row k) *ᶠ (← r.getElement k col)))) (lit 0)
            let element := ((← a.getElement row col) -ᶠ sum) /ᶠ rElement
            let l ← exec l (Mat.setElement row col element)
            .ok (l, sum)) (l, sum)
        .ok (l, r, sum))
    (fun c st => MatIs st.1 n n (fun i j => if i = j then lit 1 else lit 0) ∧
      MatIs st.2.1 n n (fun i j => if i = 0 ∨ i < c then A i j else lit 0) ∧ st.2.2 = lit 0)
    0 n (Nat.zero_le _) (l1, r1, lit 0)
    ⟨hl1, hr1.congr fun i j _ hj => by simp [hj], rfl⟩ (by
    rintro c ⟨l, r, s⟩ _ hc ⟨hl, hr, hs⟩
    dsimp only at hl hr hs
    subst hs
    obtain ⟨⟨r', s'⟩, k1, k2, k3⟩ := foldRange_inv (ε := LinalgError)
      (fun j (st : Mat F32 × F32) => do
            let (r, sum) := st
            let sum ← foldRange 0 c
              (fun k (sum : F32) => do
                .ok (sum +ᶠ ((← l.getElement c k) *ᶠ (← r.getElement k j)))) sum
            let element := (← a.getElement c j) -ᶠ sum
            let r ← exec r (Mat.setElement c j element)
            .ok (r, sum))
      (fun m st => MatIs st.1 n n (fun i j => if i = 0 ∨ i < c ∨ (i = c ∧ j < m) then A i j else lit 0) ∧ st.2 = lit 0)
      c n hc.le (r, lit 0)
      ⟨hr.congr fun i j hi _ => by
        by_cases h : i = c ∧ j < c
        · obtain ⟨rfl, h⟩ := h
          simp [h, hup i j h hi]
        · have : (i = 0 ∨ i < c ∨ (i = c ∧ j < c)) ↔ (i = 0 ∨ i < c) := by omega
          simp only [this], rfl⟩ (by
      rintro j ⟨r, s⟩ hcj hj ⟨h1, h2⟩
      dsimp only at h1 h2
      subst h2
      obtain ⟨r', e, h'⟩ := h1.exec_set hc hj (hfin c j hc hj)
      refine ⟨(r', lit 0), ?_, h'.congr fun i' j' _ _ => ?_, rfl⟩
      · dsimp only
        rw [dot_on hl h1 hc hj hc.le, Res.ok_bind, ha.get c j hc hj, Res.ok_bind,
          sumOn_null fun k hk => by
            rw [if_neg (by omega), if_pos (by omega)]; exact zero_mul32 (hfin k j (by omega) hj)]
        rw [sub_zero32 (hnum c j hc hj), e, Res.ok_bind]
      · by_cases h : i' = c ∧ j' = j
        · obtain ⟨rfl, rfl⟩ := h
          simp
        · have : (i' = 0 ∨ i' < c ∨ (i' = c ∧ j' < j + 1)) ↔ (i' = 0 ∨ i' < c ∨ (i' = c ∧ j' < j)) := by omega
          simp only [h, if_false, this])
    dsimp only at k2 k3
    subst k3
    have hr' : MatIs r' n n (fun i j => if i = 0 ∨ i < c + 1 then A i j else lit 0) := k2.congr fun i j _ hj => by
      have : (i = 0 ∨ i < c ∨ (i = c ∧ j < n)) ↔ (i = 0 ∨ i < c + 1) := by omega
      simp only [this]
    obtain ⟨⟨l', s''⟩, k4, k5, k6⟩ := foldRange_inv (ε := LinalgError)
      (fun row (st : Mat F32 × F32) => do
            let (l, _) := st
            let sum ← foldRange 0 c
              (fun k (sum : F32) => do
                .ok (sum +ᶠ ((← l.getElement row k) *ᶠ (← r'.getElement k c)))) (lit 0)
            let element := ((← a.getElement row c) -ᶠ sum) /ᶠ A c c
            let l ← exec l (Mat.setElement row c element)
            .ok (l, sum))
      (fun m st => MatIs st.1 n n (fun i j => if i = j then lit 1 else lit 0) ∧ st.2 = lit 0)
      (c + 1) n hc (l, lit 0) ⟨hl, rfl⟩ (by
      rintro i ⟨l, s⟩ hci hi ⟨h1, h2⟩
      dsimp only at h1 h2
      obtain ⟨l', e, h'⟩ := h1.exec_set (x := lit 0) hi hc Rounded.zero_finite
      refine ⟨(l', lit 0), ?_, h'.congr fun i' j' _ _ => ?_, rfl⟩
      · dsimp only
        rw [dot_on h1 hr' hi hc hc.le, Res.ok_bind, ha.get i c hi hc, Res.ok_bind,
          sumOn_null fun k hk => by
            rw [if_neg (by omega), if_pos (by omega)]; exact zero_mul32 (hfin k c (by omega) hc)]
        rw [hup i c (by omega) hi, zero_sub_zero, zero_div32 (hfin c c hc hc) (hd c (by omega)), e, Res.ok_bind]
      · by_cases h : i' = i ∧ j' = c
        · obtain ⟨rfl, rfl⟩ := h
          simp [show i' ≠ j' by omega]
        · simp only [h, if_false])
    dsimp only at k5 k6
    refine ⟨(l', r', s''), ?_, k5, hr'.congr fun _ _ _ _ => rfl, k6⟩
    dsimp only
    rw [k1, Res.ok_bind]
    dsimp only
    rw [hr'.get c c hc hc, Res.ok_bind, if_pos (by omega), allcloseL_eq (hfin c c hc hc) Rounded.zero_finite, Res.ok_bind,
      k4, Res.ok_bind])
  dsimp only at hl2 hr2 hs2
  refine ⟨l2, r2, ?_, hl2, hr2.congr fun i j hi _ => by simp [hi]⟩
  unfold Mat.lr
  simp only [Mat.isSquare_eq ha, Res.ok_bind, decide_true, Bool.not_true, Bool.false_eq_true, if_false,
    ha.rows_eq, Mat.init_of ha, e0]
  rw [e1, Res.ok_bind, e2, Res.ok_bind]
  dsimp only at e3
  rw [e3, Res.ok_bind]

/-- C130: `lu_crout` in binary32 answers Singular on every square matrix of size at least 2 whose first element exceeds the
threshold. -/
theorem C130_crout {a : Mat F32} (ha : MatIs a n n A) (hn : 2 ≤ n) (hnum : ∀ i j, i < n → j < n → F32.IsNumber (A i j))
    (h0 : ⟪(EPSILON : F32)⟫ < |⟪A 0 0⟫|) : a.luCrout = .error (.err .Singular) := by
  have hn0 : 0 < n := by omega
  obtain ⟨l0, el0, hl0⟩ := Mat.exec_of_stores (Mat.fillIdentity_stores (Mat.zeros_of ha)) (Mat.zeros_of ha)
    fun i j _ _ => by
      try dsimp only
      split
      · exact Rounded.one_finite (F := F32)
      · exact Rounded.zero_finite
  obtain ⟨⟨u1, s1⟩, eu1, hu1, hs1⟩ := foldRange_inv (ε := LinalgError) (fun col (st : Mat F32 × F32) => do
          let (u, sum) := st
          let sum ← foldRange 0 col
            (fun k (sum : F32) => do
              .ok (sum +ᶠ ((← l0.getElement 0 k) *ᶠ (← u.getElement k col)))) sum
          let element := (← a.getElement 0 col) -ᶠ sum
          let u ← exec u (Mat.setElement 0 col element)
          .ok (u, sum))
    (fun m st => MatIs st.1 n n (fun i j => if i = 0 ∧ j < m then A i j else lit 0) ∧ st.2 = lit 0)
    0 n (Nat.zero_le _) (Mat.zeros n n, lit 0) ⟨(Mat.zeros_of ha).congr fun i j _ _ => by simp, rfl⟩ (by
      rintro j ⟨u, s⟩ _ hj ⟨h1, h2⟩
      dsimp only at h1 h2
      subst h2
      obtain ⟨u', e, h'⟩ := h1.exec_set hn0 hj (hnum 0 j hn0 hj).1
      refine ⟨(u', lit 0), ?_, h'.congr fun i' j' _ _ => ?_, rfl⟩
      · dsimp only
        rw [dot_on hl0 h1 hn0 hj hj.le, Res.ok_bind, ha.get 0 j hn0 hj, Res.ok_bind, sumOn_null fun k hk => by
          rw [if_neg (show ¬(k = 0 ∧ j < j) by omega)]
          by_cases hk : 0 = k
          · rw [if_pos hk]; decide +kernel
          · rw [if_neg hk]; decide +kernel]
        rw [sub_zero32 (hnum 0 j hn0 hj), e, Res.ok_bind]
      · by_cases hi : i' = 0
        · by_cases hjj : j' = j
          · simp [hi, hjj]
          · have : j' < j + 1 ↔ j' < j := by omega
            simp [hi, hjj, this]
        · simp [hi])
  dsimp only at hu1 hs1
  subst hs1
  obtain ⟨m, rfl⟩ : ∃ m, n = m + 2 := ⟨n - 2, by omega⟩
  have hnc : ¬ Close (A 0 0) (lit 0) EPSILON := fun h => by
    have := (close_zero32 (hnum 0 0 hn0 hn0) eps_number).mp h
    linarith
  unfold Mat.luCrout
  simp only [Mat.isSquare_eq ha, Res.ok_bind, decide_true, Bool.not_true, Bool.false_eq_true, if_false,
    ha.rows_eq, Mat.init_of ha, el0]
  rw [show foldRange 0 (m + 2) = (foldFrom 0 (m + 2) :
    (Nat → (Mat F32 × Mat F32 × F32) → Res LinalgError _) → _) from rfl, foldFrom_succ]
  dsimp only
  rw [eu1]
  simp only [Res.ok_bind]
  rw [show foldRange (0 + 1) (m + 2) = (foldFrom (0 + 1) (m + 1) :
    (Nat → (Mat F32 × F32) → Res LinalgError _) → _) from rfl, foldFrom_succ]
  dsimp only
  rw [dot_on hl0 hu1 (by omega) hn0 (by omega), Res.ok_bind, hu1.get 0 0 hn0 hn0, Res.ok_bind, if_pos ⟨rfl, hn0⟩,
    allcloseL_eq (hnum 0 0 hn0 hn0).1 Rounded.zero_finite, Res.ok_bind]
  simp only [hnc, decide_false, Bool.not_false, if_true]
  rfl

/-- A regular matrix of size 3 with leading minors 1, 1, 1. -/
def exLr32 : Mat F32 := Mat.of 3 3 fun i j => ⟨.fin (tbl [[1, 1, 1], [1, 2, 3], [1, 3, 6]] i j)⟩

/-- C130: the defect of `lr` is not a matter of rounding: for this regular matrix of small whole numbers `L R` has 2 where
the matrix has 3. -/
theorem C130_wrong : ∃ (a : Mat F32) (A : Nat → Nat → ℚ), MatIs a 3 3 (fun i j => ⟨.fin (A i j)⟩) ∧
    (toMatrix 3 3 A).det = 1 ∧ a.getElement 1 2 = .ok (lit 3) ∧ factorsAt a.lr 1 2 = .ok (lit 2) := by
  refine ⟨exLr32, tbl [[1, 1, 1], [1, 2, 3], [1, 3, 6]],
    Mat.of_is _ (by decide) (by decide) (by decide) (by decide), ?_, by decide +kernel, by decide +kernel⟩
  rw [Matrix.det_fin_three]
  decide +kernel

/-- A matrix with elements that are not exact in binary32. -/
def exLr32b : Mat F32 := Mat.of 2 2 fun i j => lit (tbl [[3 / 10, 1 / 7], [1, 2]] i j)

example : ∃ l r, exLr32b.lr = .ok (l, r) ∧ ∃ L R : Nat → Nat → F32, MatIs l 2 2 L ∧ MatIs r 2 2 R ∧
      ∀ i j, i < 2 → j < 2 → |⟪(lit (tbl [[3 / 10, 1 / 7], [1, 2]] i j) : F32)⟫ - ∑ k ∈ range 2, ⟪L i k⟫ * ⟪R k j⟫| ≤
        7 / 2 ^ 24 * (∑ k ∈ range 2, |⟪L i k⟫| * |⟪R k j⟫|) + 17 / 2 ^ 150 * (1 + |⟪R j j⟫|) := by
  obtain ⟨⟨l, r⟩, he⟩ : ∃ p, exLr32b.lr = .ok p := by
    have : exLr32b.lr.isOk = true := by decide +kernel
    revert this
    cases exLr32b.lr with
    | ok p => exact fun _ => ⟨p, rfl⟩
    | error e => intro h; cases h
  obtain ⟨L, R, h1, h2, _, _, _, h3⟩ := C130_small (n := 2)
    (Mat.of_is (fun i j => lit (tbl [[3 / 10, 1 / 7], [1, 2]] i j)) (by decide) (by decide) (by decide) (by decide))
    (by decide) he
  exact ⟨l, r, he, L, R, h1, h2, h3⟩

example : (Mat.of 3 3 fun i j => (lit (tbl [[2, 1 / 3, 5], [0, -1, 1 / 10], [0, 0, 0]] i j) : F32)).lr.isOk = true := by
  decide +kernel
example : ∃ l r, (Mat.of 3 3 fun i j => (lit (tbl [[2, 1 / 3, 5], [0, -1, 1 / 10], [0, 0, 0]] i j) : F32)).lr = .ok (l, r) ∧
    MatIs l 3 3 (fun i j => if i = j then lit 1 else lit 0) ∧
    MatIs r 3 3 (fun i j => lit (tbl [[2, 1 / 3, 5], [0, -1, 1 / 10], [0, 0, 0]] i j)) := by
  refine C130_upper (Mat.of_is _ (by decide) (by decide) (by decide) (by decide)) (fun i j hi hj => ?_)
    (fun i j h hi => ?_) ?_ fun j hj => ?_
  · interval_cases i <;> interval_cases j <;> decide +kernel
  · interval_cases i <;> interval_cases j <;> decide +kernel
  · have : (lit (tbl [[2, 1 / 3, 5], [0, -1, 1 / 10], [0, 0, 0]] 0 0) : F32) = ⟨.fin 2⟩ := by decide +kernel
    rw [this]
    show ((2 : ℚ) : ℝ) ≠ 0
    norm_num
  · have hj : j < 2 := by omega
    interval_cases j
    · have : (lit (tbl [[2, 1 / 3, 5], [0, -1, 1 / 10], [0, 0, 0]] 0 0) : F32) = ⟨.fin 2⟩ := by decide +kernel
      rw [this]
      show ((2 : ℚ) : ℝ) ≠ 0
      norm_num
    · have : (lit (tbl [[2, 1 / 3, 5], [0, -1, 1 / 10], [0, 0, 0]] 1 1) : F32) = ⟨.fin (-1)⟩ := by decide +kernel
      rw [this]
      show ((-1 : ℚ) : ℝ) ≠ 0
      norm_num
example : (Mat.of 4 4 fun i j => (lit (if i = j then 1 else 0) : F32)).luCrout = .error (.err .Singular) := by
  refine C130_crout (Mat.of_is _ (by decide) (by decide) (by decide) (by decide)) (by decide) (fun i j _ _ => ?_) ?_
  · by_cases h : i = j
    · rw [if_pos h]; decide +kernel
    · rw [if_neg h]; decide +kernel
  · rw [if_pos rfl, Rounded.one_val, abs_one]
    rw [eps32]
    norm_num

end Verif
