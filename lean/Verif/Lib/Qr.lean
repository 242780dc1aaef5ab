import Verif.Props.Norms
import Verif.Props.Factor

/-
The Gram-Schmidt loop of `qr_decomp` in exact real arithmetic.
-/

set_option linter.unusedSectionVars false
set_option linter.unusedSimpArgs false

namespace Verif
open Scalar Finset

/-- Invariant rule for a loop that may stop early but does not fail. -/
theorem loopRange_total {ε β : Type} (body : Nat → β → Res ε (Bool × β)) (I : Nat → β → Prop)
    (Q : β → Prop) (lo hi : Nat) (hlo : lo ≤ hi) (b : β) (h0 : I lo b)
    (hs : ∀ i b, lo ≤ i → i < hi → I i b → ∃ go b', body i b = .ok (go, b') ∧
      if go then I (i + 1) b' else Q b') :
    ∃ b', loopRange lo hi body b = .ok b' ∧ (I hi b' ∨ Q b') := by
  unfold loopRange
  obtain ⟨len, rfl⟩ : ∃ len, hi = lo + len := ⟨hi - lo, by omega⟩
  simp only [Nat.add_sub_cancel_left]
  induction len generalizing lo b with
  | zero => exact ⟨b, rfl, Or.inl h0⟩
  | succ len ih =>
    obtain ⟨go, b', h1, h2⟩ := hs lo b (le_refl _) (by omega) h0
    rw [loopFrom_succ, h1, Res.ok_bind]
    cases go with
    | false =>
      rw [if_neg (by simp)] at h2
      exact ⟨b', by rw [if_neg (by simp)], Or.inr h2⟩
    | true =>
      rw [if_pos rfl] at h2
      rw [if_pos rfl]
      obtain ⟨b'', h3, h4⟩ := ih (lo + 1) b' h2 (by omega)
        (fun i b h5 h6 => hs i b (by omega) (by omega))
      exact ⟨b'', h3, by rwa [show lo + (len + 1) = lo + 1 + len by omega]⟩

variable {q : Mat XR} {n : Nat} {Q : Nat → Nat → ℝ}

theorem colDot_fin (hq : MatIs q n n (fun i j => .fin (Q i j))) {c1 c2 : Nat} (h1 : c1 < n)
    (h2 : c2 < n) : Mat.colDot q n c1 c2 = .ok (.fin (∑ k ∈ range n, Q k c1 * Q k c2)) := by
  unfold Mat.colDot
  rw [foldRange_sumUp (t := fun k => (.fin (Q k c1 * Q k c2) : XR)), sumUp_fin]
  intro i acc hi
  rw [hq.get i c1 hi h1, Res.ok_bind, hq.get i c2 hi h2, Res.ok_bind, Ext.mul_fin]

/-- `col c := col c - d * col s`. -/
theorem qrSub_ok (hq : MatIs q n n (fun i j => .fin (Q i j))) {c s : Nat} (hc : c < n) (hs : s < n)
    (d : ℝ) :
    ∃ q', foldRange 0 n (fun k (q : Mat XR) => do
          let element := (← q.getElement k c) -ᶠ ((.fin d : XR) *ᶠ (← q.getElement k s))
          exec q (Mat.setElement k c element)) q = .ok q' ∧
      MatIs q' n n (fun i j => .fin (if j = c then Q i c - d * Q i s else Q i j)) := by
  obtain ⟨q', h1, h2⟩ := foldRange_inv (ε := LinalgError)
    (fun k (q : Mat XR) => do
          let element := (← q.getElement k c) -ᶠ ((.fin d : XR) *ᶠ (← q.getElement k s))
          exec q (Mat.setElement k c element))
    (fun m (q : Mat XR) => MatIs q n n (fun i j => .fin (
      if j = c ∧ i < m then Q i c - d * Q i s else Q i j))) 0 n (Nat.zero_le _) q
    (hq.congr fun i j _ _ => by simp)
    (fun k q _ hk hI => by
      simp only [hI.get k c hk hc, hI.get k s hk hs, Res.ok_bind, lt_irrefl, and_false, if_false,
        Ext.mul_fin, Ext.sub_fin]
      obtain ⟨q', h1, h2⟩ := hI.exec_put (Q k c - d * Q k s) hk hc
      refine ⟨q', h1, h2.congr fun i j _ _ => ?_⟩
      by_cases hj : j = c
      · by_cases hi : i = k
        · simp [hi, hj]
        · have : i < k + 1 ↔ i < k := by omega
          simp [hi, hj, this]
      · simp [hj])
  exact ⟨q', h1, h2.congr fun i j hi _ => by simp [hi]⟩

/-- `col c := col c / d`. -/
theorem qrScale_ok (hq : MatIs q n n (fun i j => .fin (Q i j))) {c : Nat} (hc : c < n) {d : ℝ}
    (hd : d ≠ 0) :
    ∃ q', foldRange 0 n (fun k (q : Mat XR) => do
        let element := (← q.getElement k c) /ᶠ (.fin d : XR)
        exec q (Mat.setElement k c element)) q = .ok q' ∧
      MatIs q' n n (fun i j => .fin (if j = c then Q i c / d else Q i j)) := by
  obtain ⟨q', h1, h2⟩ := foldRange_inv (ε := LinalgError)
    (fun k (q : Mat XR) => do
        let element := (← q.getElement k c) /ᶠ (.fin d : XR)
        exec q (Mat.setElement k c element))
    (fun m (q : Mat XR) => MatIs q n n (fun i j => .fin (
      if j = c ∧ i < m then Q i c / d else Q i j))) 0 n (Nat.zero_le _) q
    (hq.congr fun i j _ _ => by simp)
    (fun k q _ hk hI => by
      simp only [hI.get k c hk hc, Res.ok_bind, lt_irrefl, and_false, if_false, Ext.div_fin _ hd]
      obtain ⟨q', h1, h2⟩ := hI.exec_put (Q k c / d) hk hc
      refine ⟨q', h1, h2.congr fun i j _ _ => ?_⟩
      by_cases hj : j = c
      · by_cases hi : i = k
        · simp [hi, hj]
        · have : i < k + 1 ↔ i < k := by omega
          simp [hi, hj, this]
      · simp [hj])
  exact ⟨q', h1, h2.congr fun i j hi _ => by simp [hi]⟩

/-- The columns before `c` are orthonormal, span the same spaces as those of `A`, and the others are
still those of `A`. -/
structure QrInv (n : Nat) (A : Nat → Nat → ℝ) (c : Nat) (Q : Nat → Nat → ℝ) : Prop where
  ortho : ∀ i j, i < c → j < c → ∑ k ∈ range n, Q k i * Q k j = if i = j then 1 else 0
  rest : ∀ i j, c ≤ j → Q i j = A i j
  inA : ∀ e : Nat → ℝ, ∃ d : Nat → ℝ, ∀ i, ∑ k ∈ range c, e k * Q i k = ∑ k ∈ range c, d k * A i k
  inQ : ∀ j, j < c → ∃ e : Nat → ℝ, 0 < e j ∧ ∀ i, A i j = ∑ k ∈ range (j + 1), e k * Q i k

/-- One column: either it is added to the orthonormal ones, or it is within the threshold of the
earlier columns and the loop stops. -/
theorem qrColumn_ok (hq : MatIs q n n (fun i j => .fin (Q i j))) {A : Nat → Nat → ℝ} {c : Nat}
    (hc : c < n) (h : QrInv n A c Q) :
    ∃ go q', Mat.qrColumn n c q = .ok (go, q') ∧ ∃ Q' : Nat → Nat → ℝ, MatIs q' n n (fun i j => .fin (Q' i j)) ∧
      if go then QrInv n A (c + 1) Q'
      else ∃ d : Nat → ℝ, norm2 n (fun i => A i c - ∑ k ∈ range c, d k * A i k) ≤ epsilon ℝ := by
  -- the orthogonalisation
  obtain ⟨q1, e1, y, e, hq1, hy, hort⟩ := foldRange_inv (ε := LinalgError)
    (fun row (q : Mat XR) => do
      let dotProduct ← Mat.colDot q n row c
      foldRange 0 n
        (fun k (q : Mat XR) => do
          let element := (← q.getElement k c) -ᶠ (dotProduct *ᶠ (← q.getElement k row))
          exec q (Mat.setElement k c element)) q)
    (fun s (q : Mat XR) => ∃ y e : Nat → ℝ,
      MatIs q n n (fun i j => .fin (if j = c then y i else Q i j)) ∧
      (∀ i, y i = A i c - ∑ k ∈ range s, e k * Q i k) ∧
      (∀ t, t < s → ∑ k ∈ range n, Q k t * y k = 0)) 0 c (Nat.zero_le _) q
    ⟨fun i => A i c, fun _ => 0, hq.congr fun i j _ _ => by
      by_cases hj : j = c
      · simp [hj, h.rest i c (le_refl _)]
      · simp [hj], fun i => by simp, fun t ht => by omega⟩
    (fun s q _ hsc ⟨y, e, hq, hy, hort⟩ => by
      have hs : s < n := by omega
      have hne : s ≠ c := by omega
      rw [colDot_fin hq hs hc, Res.ok_bind]
      set d := ∑ k ∈ range n, (if s = c then y k else Q k s) * (if c = c then y k else Q k c) with hd
      have hd' : d = ∑ k ∈ range n, Q k s * y k := by rw [hd]; simp [hne]
      obtain ⟨q', h1, h2⟩ := qrSub_ok hq hc hs d
      refine ⟨q', h1, fun i => y i - d * Q i s, fun k => if k = s then d else e k,
        h2.congr fun i j _ _ => ?_, fun i => ?_, fun t ht => ?_⟩
      · by_cases hj : j = c <;> simp [hj, hne]
      · have e1 : ∑ k ∈ range s, (if k = s then d else e k) * Q i k = ∑ k ∈ range s, e k * Q i k :=
          Finset.sum_congr rfl fun k hk => by
            rw [if_neg (by have := Finset.mem_range.mp hk; omega)]
        dsimp only
        rw [hy i, Finset.sum_range_succ, e1, if_pos rfl]
        ring
      · have e1 : ∑ k ∈ range n, Q k t * (y k - d * Q k s) =
            ∑ k ∈ range n, Q k t * y k - d * ∑ k ∈ range n, Q k t * Q k s := by
          rw [Finset.mul_sum, ← Finset.sum_sub_distrib]
          exact Finset.sum_congr rfl fun k _ => by ring
        rw [e1, h.ortho t s (by omega) hsc]
        by_cases hts : t = s
        · subst hts; rw [if_pos rfl, hd']; ring
        · rw [if_neg hts, hort t (by omega)]; ring)
  unfold Mat.qrColumn
  rw [e1, Res.ok_bind, colDot_fin hq1 hc hc, Res.ok_bind]
  simp only [if_true]
  have hnorm : Scalar.sqrt (.fin (∑ k ∈ range n, y k * y k) : XR) = .fin (norm2 n y) := by
    rw [Ext.sqrt_fin (Finset.sum_nonneg fun i _ => mul_self_nonneg _)]
    simp only [norm2, sq]; rfl
  rw [hnorm, Ext.epsilon_eq, Ext.lt_fin]
  by_cases hN : epsilon ℝ < norm2 n y
  · have hpos : 0 < norm2 n y := lt_trans Linalg.eps_pos hN
    rw [if_pos (decide_eq_true hN)]
    obtain ⟨q2, e2, hq2⟩ := qrScale_ok hq1 hc hpos.ne'
    rw [e2, Res.ok_bind]
    refine ⟨true, q2, rfl, fun i j => if j = c then y i / norm2 n y else Q i j,
      hq2.congr fun i j _ _ => by by_cases hj : j = c <;> simp [hj], ?_⟩
    rw [if_pos rfl]
    have hyy : ∑ k ∈ range n, y k * y k = norm2 n y ^ 2 := by
      rw [norm2_sq]; exact Finset.sum_congr rfl fun _ _ => by ring
    refine ⟨fun i j hi hj => ?_, fun i j hj => ?_, fun f => ?_, fun j hj => ?_⟩
    · by_cases hic : i = c
      · by_cases hjc : j = c
        · subst hic; subst hjc
          simp only [if_true]
          rw [Finset.sum_congr rfl fun k _ =>
            (by ring : y k / norm2 n y * (y k / norm2 n y) = y k * y k / norm2 n y ^ 2),
            ← Finset.sum_div, hyy, div_self (by positivity)]
        · subst hic
          have : i ≠ j := Ne.symm hjc
          simp only [if_true, hjc, if_false, this]
          rw [Finset.sum_congr rfl fun k _ =>
            (by ring : y k / norm2 n y * Q k j = Q k j * y k / norm2 n y),
            ← Finset.sum_div, hort j (by omega), zero_div]
      · by_cases hjc : j = c
        · subst hjc
          simp only [if_true, hic, if_false]
          rw [Finset.sum_congr rfl fun k _ =>
            (by ring : Q k i * (y k / norm2 n y) = Q k i * y k / norm2 n y),
            ← Finset.sum_div, hort i (by omega), zero_div]
        · simp only [hic, hjc, if_false]
          exact h.ortho i j (by omega) (by omega)
    · rw [if_neg (by omega)]; exact h.rest i j (by omega)
    · obtain ⟨d, hd⟩ := h.inA fun k => f k - f c / norm2 n y * e k
      refine ⟨fun k => if k = c then f c / norm2 n y else d k, fun i => ?_⟩
      have e1 : ∑ k ∈ range c, f k * (if k = c then y i / norm2 n y else Q i k) =
          ∑ k ∈ range c, f k * Q i k := Finset.sum_congr rfl fun k hk => by
            rw [if_neg (by have := Finset.mem_range.mp hk; omega)]
      have e2 : ∑ k ∈ range c, (if k = c then f c / norm2 n y else d k) * A i k =
          ∑ k ∈ range c, d k * A i k := Finset.sum_congr rfl fun k hk => by
            rw [if_neg (by have := Finset.mem_range.mp hk; omega)]
      have e3 : ∑ k ∈ range c, (f k - f c / norm2 n y * e k) * Q i k =
          ∑ k ∈ range c, f k * Q i k - f c / norm2 n y * ∑ k ∈ range c, e k * Q i k := by
        rw [Finset.mul_sum, ← Finset.sum_sub_distrib]
        exact Finset.sum_congr rfl fun k _ => by ring
      dsimp only
      rw [Finset.sum_range_succ, Finset.sum_range_succ, e1, e2, if_pos rfl, if_pos rfl, ← hd i, e3,
        hy i]
      ring
    · by_cases hjc : j = c
      · subst hjc
        refine ⟨fun k => if k = j then norm2 n y else e k, by simpa using hpos, fun i => ?_⟩
        rw [Finset.sum_range_succ]
        simp only [if_true]
        rw [Finset.sum_congr rfl (g := fun k => e k * Q i k) fun k hk => by
          have : k ≠ j := by have := Finset.mem_range.mp hk; omega
          rw [if_neg this, if_neg this]]
        have := hy i
        have h2 : norm2 n y * (y i / norm2 n y) = y i := by field_simp
        rw [h2, this]; ring
      · obtain ⟨f, hf1, hf2⟩ := h.inQ j (by omega)
        refine ⟨f, hf1, fun i => ?_⟩
        rw [hf2 i]
        exact Finset.sum_congr rfl fun k hk => by
          rw [if_neg (by have := Finset.mem_range.mp hk; omega)]
  · rw [if_neg (by simpa using hN)]
    refine ⟨false, q1, rfl, _, hq1, ?_⟩
    rw [if_neg (by simp)]
    obtain ⟨d, hd⟩ := h.inA e
    refine ⟨d, ?_⟩
    rw [norm2_congr (y := y) fun i _ => by rw [hy i, hd i]]
    exact not_lt.mp hN

/-- The whole loop. -/
theorem qrLoop_ok {A : Nat → Nat → ℝ} (hq : MatIs q n n (fun i j => .fin (A i j))) :
    ∃ q', loopRange 0 n (Mat.qrColumn n) q = .ok q' ∧ ∃ Q : Nat → Nat → ℝ, MatIs q' n n (fun i j => .fin (Q i j)) ∧
      (QrInv n A n Q ∨ ∃ c, c < n ∧ ∃ d : Nat → ℝ,
        norm2 n (fun i => A i c - ∑ k ∈ range c, d k * A i k) ≤ epsilon ℝ) := by
  obtain ⟨q', h1, h2⟩ := loopRange_total (Mat.qrColumn n)
    (fun c (q : Mat XR) => ∃ Q : Nat → Nat → ℝ, MatIs q n n (fun i j => .fin (Q i j)) ∧ QrInv n A c Q)
    (fun q => ∃ Q : Nat → Nat → ℝ, MatIs q n n (fun i j => .fin (Q i j)) ∧ ∃ c, c < n ∧ ∃ d : Nat → ℝ,
        norm2 n (fun i => A i c - ∑ k ∈ range c, d k * A i k) ≤ epsilon ℝ)
    0 n (Nat.zero_le _) q
    ⟨A, hq, ⟨fun i j hi => by omega, fun _ _ _ => rfl, fun e => ⟨e, fun i => by simp⟩,
      fun j hj => by omega⟩⟩
    (fun c q _ hc ⟨Q, hq, hI⟩ => by
      obtain ⟨go, q', e, Q', hq', hI'⟩ := qrColumn_ok hq hc hI
      refine ⟨go, q', e, ?_⟩
      cases go with
      | false => rw [if_neg (by simp)] at hI' ⊢; exact ⟨Q', hq', c, hc, hI'⟩
      | true => rw [if_pos rfl] at hI' ⊢; exact ⟨Q', hq', hI'⟩)
  rcases h2 with ⟨Q, hQ, hI⟩ | ⟨Q, hQ, hI⟩
  · exact ⟨q', h1, Q, hQ, Or.inl hI⟩
  · exact ⟨q', h1, Q, hQ, Or.inr hI⟩

end Verif
