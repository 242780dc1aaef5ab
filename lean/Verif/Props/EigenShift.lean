import Verif.Props.Eigen

/-
The shifted iteration of `eigen`, and what `eigen` does to an orthogonal matrix (C84, C85).
-/

set_option linter.unusedSectionVars false
set_option linter.unusedSimpArgs false

namespace Verif
open Scalar Finset

/-! ### One iteration, given its QR part -/

/-- The norm, cut to zero when it is at most the threshold. -/
noncomputable def cutNorm (n : Nat) (x : Nat → ℝ) : ℝ := if norm2 n x ≤ epsilon ℝ then 0 else norm2 n x

/-- The loop goes on unless the eigenvalues changed by less than the threshold. -/
noncomputable def moved (n : Nat) (d p : Nat → ℝ) : Bool :=
  !(((.fin (cutNorm n fun i => d i - p i) : XR) /ᶠ .fin (cutNorm n d)) <ᶠ EPSILON)

theorem eigenStep_run {n : Nat} {sh : Bool} {B Q V : Nat → Nat → ℝ} {p : Nat → ℝ}
    {st st1 : Linalg.EigenState XR} {tmp : Mat XR} {ft : Nat → Nat → XR} {fd fe : Nat → XR}
    (hqr : Linalg.eigenQr n sh (Mat.zeros n n) st = .ok (tmp, st1)) (ht : MatIs tmp n n ft)
    (ha : MatIs st1.a n n (fun i j => .fin (B i j))) (hq : MatIs st1.q n n (fun i j => .fin (Q i j)))
    (hv : MatIs st.eigenvectors n n (fun i j => .fin (V i j)))
    (hp : VecIs st.previous n (fun i => .fin (p i))) (hd : VecIs st.delta n fd)
    (he : VecIs st.eigenvalues n fe) :
    ∃ st', Linalg.eigenStep n sh st = .ok (moved n (fun i => B i i) p, st') ∧
      st'.a = st1.a ∧ st'.i = st1.i ∧ st'.q = st1.q ∧ st'.r = st1.r ∧
      MatIs st'.eigenvectors n n (fun i j => .fin (∑ t ∈ range n, V i t * Q t j)) ∧
      (∃ f, VecIs st'.delta n f) ∧
      VecIs st'.previous n (fun i => .fin (if moved n (fun i => B i i) p then B i i else p i)) ∧
      VecIs st'.eigenvalues n (fun i => .fin (if moved n (fun i => B i i) p then 0 else B i i)) := by
  obtain ⟨s1, s2, s3, s4⟩ := eigenQr_same hqr
  rw [← s1] at he
  rw [← s2] at hp
  rw [← s3] at hd
  rw [← s4] at hv
  obtain ⟨t', e4, ht'⟩ := Mat.mul_fin hv hq ht
  obtain ⟨v', e5, hv'⟩ := Mat.copy_fin hv ht'
  obtain ⟨ev, e6, hev⟩ := foldRange_inv (ε := LinalgError)
    (fun k (ev : Vec XR) => do exec ev (Vec.setElement k (← st1.a.getElement k k)))
    (fun k (v : Vec XR) => VecIs v n (fun i => if i < k then .fin (B i i) else fe i)) 0 n
    (Nat.zero_le _) st1.eigenvalues (he.congr fun i _ => by simp)
    (fun k v _ hk hI => by
      rw [ha.get k k hk hk, Res.ok_bind]
      obtain ⟨v', h1, h2⟩ := hI.exec_set hk (Ext.finite_fin (B k k))
      refine ⟨v', h1, h2.congr fun i _ => ?_⟩
      by_cases hik : i = k
      · simp [hik]
      · have : i < k + 1 ↔ i < k := by omega
        simp [hik, this])
  have hev : VecIs ev n (fun i => .fin (B i i)) := hev.congr fun i hi => by simp [hi]
  obtain ⟨dl, e7, hdl⟩ := Vec.exec_of_stores (Vec.sub_stores hd hev hp) hd
    (fun i _ => by rw [Ext.sub_fin]; exact Ext.finite_fin _)
  have hdl : VecIs dl n (fun i => .fin (B i i - p i)) := hdl.congr fun i _ => by rw [Ext.sub_fin]
  obtain ⟨⟨v1, p1⟩, e8, h8, h9⟩ := foldRange_inv (ε := LinalgError)
    (fun k (p : Vec XR × Vec XR) => do
      let ev ← exec p.1 (Vec.setElement k (lit 0))
      let pr ← exec p.2 (Vec.setElement k (← st1.a.getElement k k))
      .ok (ev, pr))
    (fun k (w : Vec XR × Vec XR) => VecIs w.1 n (fun i => .fin (if i < k then 0 else B i i)) ∧
      VecIs w.2 n (fun i => .fin (if i < k then B i i else p i))) 0 n (Nat.zero_le _) (ev, st1.previous)
    ⟨hev.congr fun i _ => by simp, hp.congr fun i _ => by simp⟩
    (fun k w _ hk ⟨hI1, hI2⟩ => by
      obtain ⟨v', h1, h2⟩ := hI1.exec_set hk (show Finite (lit 0 : XR) by simp)
      obtain ⟨w', h3, h4⟩ := hI2.exec_set hk (Ext.finite_fin (B k k))
      refine ⟨(v', w'), ?_, h2.congr fun i _ => ?_, h4.congr fun i _ => ?_⟩
      · rw [h1, Res.ok_bind, ha.get k k hk hk, Res.ok_bind, h3, Res.ok_bind]
      all_goals
        by_cases hik : i = k
        · simp [hik]
        · have : i < k + 1 ↔ i < k := by omega
          simp [hik, this])
  have hstep : Linalg.eigenStep n sh st = if moved n (fun i => B i i) p = false then
        .ok (false, { st1 with eigenvectors := v', eigenvalues := ev, delta := dl })
      else .ok (true, { st1 with
        eigenvectors := v', eigenvalues := v1, previous := p1, delta := dl }) := by
    unfold Linalg.eigenStep
    simp only [Mat.init_of ht, Res.ok_bind, hqr, e4, e5, e6, e7, C31_norm hdl, C31_norm hev, moved, cutNorm,
      Bool.not_eq_false', e8]
  rcases hm : moved n (fun i => B i i) p with _ | _
  · rw [hstep, hm]
    exact ⟨_, rfl, rfl, rfl, rfl, rfl, hv', ⟨_, hdl⟩, by simpa using hp, by simpa using hev⟩
  · rw [hstep, hm]
    exact ⟨_, rfl, rfl, rfl, rfl, rfl, hv', ⟨_, hdl⟩,
      VecIs.congr (v := p1) h9 fun i hi => by simp [hi],
      VecIs.congr (v := v1) h8 fun i hi => by simp [hi]⟩

/-! ### The shift -/

/-- `((a - c)/2)² + b²` for the last 2×2 block `[[a, b], [·, c]]`. -/
noncomputable def gapSq (n : Nat) (B : Nat → Nat → ℝ) : ℝ :=
  ((B (n-2) (n-2) - B (n-1) (n-1)) / 2) ^ 2 + B (n-2) (n-1) ^ 2

/-- The shift that `eigen` uses. -/
noncomputable def shiftOf (n : Nat) (B : Nat → Nat → ℝ) : ℝ :=
  if B (n-2) (n-2) < B (n-1) (n-1) then
    B (n-1) (n-1) - gapSq n B / (|B (n-2) (n-1)| + √(gapSq n B))
  else B (n-1) (n-1) + gapSq n B / (|B (n-2) (n-1)| + √(gapSq n B))

theorem gapSq_nonneg (n : Nat) (B : Nat → Nat → ℝ) : 0 ≤ gapSq n B := by unfold gapSq; positivity

theorem eigenShift_eq {n : Nat} {B : Nat → Nat → ℝ} {a : Mat XR} (hn : 2 ≤ n)
    (ha : MatIs a n n (fun i j => .fin (B i j))) (hg : 0 < gapSq n B) :
    Linalg.eigenShift a n = .ok (.fin (shiftOf n B)) := by
  have u2 : (u8Sub XR n 2 : Res LinalgError Nat) = .ok (n - 2) := by
    unfold u8Sub; rw [if_pos hn]
  have u1 : (u8Sub XR n 1 : Res LinalgError Nat) = .ok (n - 1) := by
    unfold u8Sub; rw [if_pos (by omega)]
  have hs : 0 < √(gapSq n B) := Real.sqrt_pos.mpr hg
  have hne : |B (n-2) (n-1)| + √(gapSq n B) ≠ 0 := (add_pos_of_nonneg_of_pos (abs_nonneg _) hs).ne'
  have hab : Scalar.abs (.fin (B (n-2) (n-1)) : XR) = .fin |B (n-2) (n-1)| := by
    rw [Ext.abs_fin]
    congr 1
    split
    · rw [abs_of_nonneg ‹_›]
    · rw [abs_of_neg (lt_of_not_ge ‹_›)]
  have hg' : (((.fin (B (n-2) (n-2)) : XR) -ᶠ .fin (B (n-1) (n-1))) /ᶠ lit 2) *ᶠ
      (((.fin (B (n-2) (n-2)) : XR) -ᶠ .fin (B (n-1) (n-1))) /ᶠ lit 2) +ᶠ
      .fin (B (n-2) (n-1)) *ᶠ .fin (B (n-2) (n-1)) = .fin (gapSq n B) := by
    have e2 : (lit 2 : XR) = .fin 2 := by
      show Ext.fin ((2 : ℚ) : ℝ) = _
      norm_num
    rw [e2, Ext.sub_fin, Ext.div_fin _ (by norm_num), Ext.mul_fin, Ext.mul_fin, Ext.add_fin]
    congr 1
    unfold gapSq
    ring
  have hsq : Scalar.sqrt (.fin (gapSq n B) : XR) = .fin (√(gapSq n B)) := by
    rw [Ext.sqrt_fin (gapSq_nonneg _ _)]; rfl
  unfold Linalg.eigenShift
  simp only [u1, u2, Res.ok_bind, ha.get (n-2) (n-2) (by omega) (by omega),
    ha.get (n-2) (n-1) (by omega) (by omega), ha.get (n-1) (n-1) (by omega) (by omega)]
  rw [hg', hab, hsq, Ext.add_fin, Ext.div_fin _ hne, Ext.sub_fin, Ext.add_fin, Ext.lt_fin]
  unfold shiftOf
  by_cases h : B (n-2) (n-2) < B (n-1) (n-1) <;> simp [h]

/-- `B - s·1`. -/
def lessDiag (B : Nat → Nat → ℝ) (s : ℝ) : Nat → Nat → ℝ := fun i j => B i j - if i = j then s else 0

theorem toMatrix_lessDiag (n : Nat) (B : Nat → Nat → ℝ) (s : ℝ) :
    toMatrix n n (lessDiag B s) = toMatrix n n B - s • (1 : Matrix (Fin n) (Fin n) ℝ) := by
  ext i j
  simp [toMatrix, lessDiag, Matrix.one_apply, Fin.ext_iff]

/-- The QR part of a shifted iteration. -/
theorem eigenQr_shifted {n : Nat} {B : Nat → Nat → ℝ} {st : Linalg.EigenState XR}
    {fq fr : Nat → Nat → XR} (hn : 2 ≤ n)
    (ha : MatIs st.a n n (fun i j => .fin (B i j)))
    (hi : MatIs st.i n n (fun i j => if i = j then lit 1 else lit 0))
    (hq : MatIs st.q n n fq) (hr : MatIs st.r n n fr)
    (hg : 0 < gapSq n B) (hS : Stretches n (lessDiag B (shiftOf n B))) :
    ∃ tmp st1, Linalg.eigenQr n true (Mat.zeros n n) st = .ok (tmp, st1) ∧ (∃ f, MatIs tmp n n f) ∧
      MatIs st1.i n n (fun i j => if i = j then lit 1 else lit 0) ∧ (∃ f, MatIs st1.r n n f) ∧
      ∃ Q B' : Nat → Nat → ℝ, MatIs st1.q n n (fun i j => .fin (Q i j)) ∧
        MatIs st1.a n n (fun i j => .fin (B' i j)) ∧
        (toMatrix n n Q).transpose * toMatrix n n Q = 1 ∧
        toMatrix n n B' = (toMatrix n n Q).transpose * toMatrix n n B * toMatrix n n Q := by
  set s := shiftOf n B with hs
  have hd : ∀ i j : Nat, (if i = j then lit 1 else lit 0 : XR) *ᶠ .fin s =
      .fin (if i = j then s else 0) := by
    intro i j
    split <;> simp [Ext.mul_fin]
  obtain ⟨i1, e1, h1⟩ := Mat.exec_of_stores (Mat.mulByScalarInPlace_stores (x := .fin s) hi) hi
    (fun i j _ _ => by rw [hd]; exact Ext.finite_fin _)
  replace h1 := h1.congr fun i j _ _ => hd i j
  have hz : MatIs (Mat.zeros n n : Mat XR) n n _ := Mat.zeros_of ha
  obtain ⟨t1, e2, h2⟩ := Mat.exec_of_stores (Mat.sub_stores hz ha h1) hz
    (fun i j _ _ => by rw [Ext.sub_fin]; exact Ext.finite_fin _)
  have h2' : MatIs t1 n n (fun i j => .fin (lessDiag B s i j)) :=
    h2.congr fun i j _ _ => by rw [Ext.sub_fin]; rfl
  obtain ⟨a1, e3, h3⟩ := Mat.copy_fin ha h2'
  obtain ⟨q, r, eqr, Q, R, hq1, hr1, hQ, _, _, hQR⟩ := C28_qr h3 hS.apart
  obtain ⟨q', e4, hq'⟩ := Mat.copy_fin hq hq1
  obtain ⟨r', e5, hr'⟩ := Mat.copy_fin hr hr1
  obtain ⟨t2, e6, ht2⟩ := Mat.mul_fin hr' hq' h2'
  obtain ⟨a2, e7, h7⟩ := Mat.exec_of_stores (Mat.add_stores h3 ht2 h1) h3
    (fun i j _ _ => by rw [Ext.add_fin]; exact Ext.finite_fin _)
  obtain ⟨i2, e8, h8⟩ := Mat.identity_ok h1
  set B' : Nat → Nat → ℝ := fun i j => (∑ t ∈ range n, R i t * Q t j) + if i = j then s else 0 with hB'
  have h7' : MatIs a2 n n (fun i j => .fin (B' i j)) :=
    h7.congr fun i j _ _ => by rw [Ext.add_fin]
  refine ⟨t2, { st with a := a2, i := i2, q := q', r := r' }, ?_, ⟨_, ht2⟩, h8, ⟨_, hr'⟩, Q, B', hq', h7',
    hQ, ?_⟩
  · unfold Linalg.eigenQr
    simp only [if_true, eigenShift_eq hn ha hg, Res.ok_bind, e1, e2, e3, eqr, e4, e5, e6, e7, e8, ← hs]
  · have eB : toMatrix n n B' =
        toMatrix n n R * toMatrix n n Q + s • (1 : Matrix (Fin n) (Fin n) ℝ) := by
      rw [toMatrix_mul]
      ext i j
      simp [toMatrix, hB', Matrix.one_apply, Fin.ext_iff]
    have eR : toMatrix n n R = (toMatrix n n Q).transpose * toMatrix n n (lessDiag B s) := by
      rw [← hQR, ← Matrix.mul_assoc, hQ, Matrix.one_mul]
    rw [eB, eR, toMatrix_lessDiag, Matrix.mul_sub, Matrix.sub_mul, Matrix.mul_smul, Matrix.smul_mul,
      Matrix.mul_one, hQ, sub_add_cancel]

/-- Every matrix orthogonally similar to `A` has a positive `gapSq`, and stays away from singular when
shifted. -/
def Shiftable (n : Nat) (A : Nat → Nat → ℝ) : Prop :=
  ∀ B V : Nat → Nat → ℝ, (toMatrix n n V).transpose * toMatrix n n V = 1 →
    toMatrix n n B = (toMatrix n n V).transpose * toMatrix n n A * toMatrix n n V →
    0 < gapSq n B ∧ Stretches n (lessDiag B (shiftOf n B))

theorem eigenStep_shifted {n : Nat} {A B V : Nat → Nat → ℝ} {st : Linalg.EigenState XR}
    (hn : 2 ≤ n) (hA : Shiftable n A) (h : EigInv n A st B V)
    (hi : MatIs st.i n n (fun i j => if i = j then lit 1 else lit 0))
    (hev : ∃ f, VecIs st.eigenvalues n f) :
    ∃ go st', Linalg.eigenStep n true st = .ok (go, st') ∧
      MatIs st'.i n n (fun i j => if i = j then lit 1 else lit 0) ∧ ∃ B' V', EigInv n A st' B' V' ∧
      VecIs st'.eigenvalues n (fun i => if go then .fin 0 else .fin (B' i i)) := by
  obtain ⟨hg, hS⟩ := hA B V h.ortho h.similar
  obtain ⟨fq, hfq⟩ := h.q
  obtain ⟨fr, hfr⟩ := h.r
  obtain ⟨fp, hfp⟩ := h.prev
  obtain ⟨fd, hfd⟩ := h.delta
  obtain ⟨fe, hfe⟩ := hev
  obtain ⟨tmp, st1, e1, ⟨ft, ht⟩, hi1, ⟨fr1, hr1⟩, Q, B', hq1, ha1, hQ, hsim⟩ :=
    eigenQr_shifted hn h.a hi hfq hfr hg hS
  obtain ⟨st', e2, a2, i2, q2, r2, hv2, hd2, hp2, he2⟩ := eigenStep_run e1 ht ha1 hq1 h.vec hfp hfd hfe
  have eV : toMatrix n n (fun i j => ∑ t ∈ range n, V i t * Q t j) = toMatrix n n V * toMatrix n n Q :=
    (toMatrix_mul n n n V Q).symm
  refine ⟨_, st', e2, by rw [i2]; exact hi1, B', _, ⟨by rw [a2]; exact ha1, hv2, ⟨_, by rw [q2]; exact hq1⟩,
    ⟨_, by rw [r2]; exact hr1⟩, ⟨_, hp2⟩, hd2, ?_, ?_⟩, he2.congr fun i _ => by split <;> rfl⟩
  · rw [eV, Matrix.transpose_mul, Matrix.mul_assoc, ← Matrix.mul_assoc _ (toMatrix n n V),
      h.ortho, Matrix.one_mul, hQ]
  · rw [hsim, h.similar, eV, Matrix.transpose_mul]
    simp only [Matrix.mul_assoc]

/-- C84: the shifted iteration succeeds whenever no matrix on its way can come close to singular by the
shift.  The returned `V` is orthogonal, and the eigenvalues are either all zero or the diagonal of
`Vᵀ A V`. -/
theorem C84_shifted {a : Mat XR} {n : Nat} {A : Nat → Nat → ℝ} (hn : 2 ≤ n)
    (ha : MatIs a n n (fun i j => .fin (A i j))) (hA : Shiftable n A) (niter : Nat) :
    ∃ ev v, Linalg.eigen a niter true = .ok (ev, v) ∧ ∃ V : Nat → Nat → ℝ,
      MatIs v n n (fun i j => .fin (V i j)) ∧ (toMatrix n n V).transpose * toMatrix n n V = 1 ∧
      (VecIs ev n (fun _ => .fin 0) ∨
        ∃ d : Fin n → ℝ, (∀ i : Fin n, ev.getElement i = .ok (.fin (d i))) ∧
          ∀ i, d i = ((toMatrix n n V).transpose * toMatrix n n A * toMatrix n n V) i i) := by
  obtain ⟨a0, i0, v0, h0, h1, hv, hrun⟩ := eigen_start ha (fun i j _ _ => Ext.finite_fin (A i j))
  have hz : VecIs (Vec.zeros n) n (fun _ => (.fin 0 : XR)) :=
    (Vec.zeros_is ha.rpos ha.rle).congr fun _ _ => by simp
  have hone : toMatrix n n (fun i j : Nat => if i = j then (1 : ℝ) else 0) = 1 := by
    ext i j
    simp [toMatrix, Matrix.one_apply, Fin.ext_iff]
  obtain ⟨st, e, h⟩ := loopRange_total (ε := LinalgError)
    (fun _ st => Linalg.eigenStep n true st)
    (fun _ st => (MatIs st.i n n (fun i j => if i = j then lit 1 else lit 0) ∧ ∃ B V, EigInv n A st B V) ∧
      VecIs st.eigenvalues n (fun _ => .fin 0))
    (fun st => ∃ B V, EigInv n A st B V ∧ VecIs st.eigenvalues n (fun i => .fin (B i i)))
    0 niter (Nat.zero_le _)
    { a := a0, i := i0, q := Mat.zeros n n, r := Mat.zeros n n, eigenvectors := v0,
      eigenvalues := Vec.zeros n, previous := Vec.zeros n, delta := Vec.zeros n }
    ⟨⟨h1, A, fun i j => if i = j then 1 else 0, h0, hv.congr fun i j _ _ => by split <;> simp,
      ⟨_, Mat.zeros_of ha⟩, ⟨_, Mat.zeros_of ha⟩, ⟨_, hz⟩, ⟨_, hz⟩, by simp [hone], by simp [hone]⟩, hz⟩
    (fun k st _ _ ⟨⟨hi, B, V, hI⟩, hev⟩ => by
      obtain ⟨go, st', h1, hi', B', V', h2, h3⟩ := eigenStep_shifted hn hA hI hi ⟨_, hev⟩
      refine ⟨go, st', h1, ?_⟩
      rcases go with _ | _
      · exact ⟨B', V', h2, h3⟩
      · exact ⟨⟨hi', B', V', h2⟩, h3⟩)
  have e' : loopFrom 0 niter (fun _ st => Linalg.eigenStep n true st) _ = .ok st := e
  refine ⟨st.eigenvalues, st.eigenvectors, by rw [hrun, e']; rfl, ?_⟩
  rcases h with ⟨⟨_, B, V, hI⟩, hev⟩ | ⟨B, V, hI, hev⟩
  · exact ⟨V, hI.vec, hI.ortho, Or.inl hev⟩
  · exact ⟨V, hI.vec, hI.ortho, Or.inr ⟨fun i => B i i, fun i => hev.get i i.2, fun i => by
      rw [← hI.similar]; rfl⟩⟩

/-! ### Symmetric matrices of size 2 -/

/-- The shift is at most half the spread of the eigenvalues away from their mean, so it never comes
near an eigenvalue. -/
theorem shift_middle (B : Nat → Nat → ℝ) (hg : 0 < gapSq 2 B) :
    |shiftOf 2 B - (B 0 0 + B 1 1) / 2| ≤ √(gapSq 2 B) / 2 := by
  have h0 : gapSq 2 B = ((B 0 0 - B 1 1) / 2) ^ 2 + B 0 1 ^ 2 := rfl
  have hsq := Real.sq_sqrt hg.le
  have hp := Real.sqrt_pos.mpr hg
  set ρ := √(gapSq 2 B) with hρ
  set β := |B 0 1| with hβ
  have hβ0 : 0 ≤ β := abs_nonneg _
  have hβ2 : β ^ 2 = B 0 1 ^ 2 := sq_abs _
  have hs : shiftOf 2 B = if B 0 0 < B 1 1 then B 1 1 - gapSq 2 B / (β + ρ)
    else B 1 1 + gapSq 2 B / (β + ρ) := rfl
  have hden : 0 < β + ρ := by linarith
  have key : ∀ u : ℝ, 0 ≤ u → u ^ 2 + β ^ 2 = ρ ^ 2 → |u - ρ ^ 2 / (β + ρ)| ≤ ρ / 2 := by
    intro u hu h
    have hu1 : u ≤ ρ := by nlinarith [sq_nonneg β]
    have hb1 : β ≤ ρ := by nlinarith [sq_nonneg u]
    have hub : ρ ≤ u + β := by nlinarith [mul_nonneg hu hβ0]
    have l1 : ρ / 2 ≤ ρ ^ 2 / (β + ρ) := by rw [le_div_iff₀ hden]; nlinarith
    have l2 : ρ ^ 2 / (β + ρ) ≤ u + ρ / 2 := by
      rw [div_le_iff₀ hden]
      nlinarith [mul_nonneg hu hβ0, mul_nonneg hu hp.le, mul_nonneg hβ0 hp.le]
    rw [abs_le]
    constructor <;> linarith
  rw [hs, ← hsq]
  split
  · have := key ((B 1 1 - B 0 0) / 2) (by linarith) (by rw [hβ2, hsq, h0]; ring)
    rw [show B 1 1 - ρ ^ 2 / (β + ρ) - (B 0 0 + B 1 1) / 2 = (B 1 1 - B 0 0) / 2 - ρ ^ 2 / (β + ρ) by ring]
    exact this
  · have := key ((B 0 0 - B 1 1) / 2) (by linarith) (by rw [hβ2, hsq, h0])
    rw [show B 1 1 + ρ ^ 2 / (β + ρ) - (B 0 0 + B 1 1) / 2 = -((B 0 0 - B 1 1) / 2 - ρ ^ 2 / (β + ρ)) by ring,
      abs_neg]
    exact this

/-- A symmetric 2×2 matrix shifted by `s` stretches by at least the spread minus the distance of `s`
from the mean. -/
theorem stretch_two (B : Nat → Nat → ℝ) (hB : B 1 0 = B 0 1) (s : ℝ) (x : Nat → ℝ) (hx : norm2 2 x = 1) :
    √(gapSq 2 B) - |s - (B 0 0 + B 1 1) / 2| ≤ norm2 2 (fun i => ∑ k ∈ range 2, lessDiag B s i k * x k) := by
  have h0 : gapSq 2 B = ((B 0 0 - B 1 1) / 2) ^ 2 + B 0 1 ^ 2 := rfl
  have hsq := Real.sq_sqrt (gapSq_nonneg 2 B)
  have hp := Real.sqrt_nonneg (gapSq 2 B)
  set ρ := √(gapSq 2 B) with hρ
  have hx2 : x 0 ^ 2 + x 1 ^ 2 = 1 := by
    have := norm2_one hx
    simpa [Finset.sum_range_succ] using this
  obtain ⟨t, ht⟩ : ∃ t, t = s - (B 0 0 + B 1 1) / 2 := ⟨_, rfl⟩
  obtain ⟨u, hu⟩ : ∃ u, u = (B 0 0 - B 1 1) / 2 := ⟨_, rfl⟩
  obtain ⟨b, hb⟩ : ∃ b, b = B 0 1 := ⟨_, rfl⟩
  have e00 : lessDiag B s 0 0 = u - t := by unfold lessDiag; rw [if_pos rfl, ht, hu]; ring
  have e11 : lessDiag B s 1 1 = -u - t := by unfold lessDiag; rw [if_pos rfl, ht, hu]; ring
  have e01 : lessDiag B s 0 1 = b := by unfold lessDiag; rw [if_neg (by decide), sub_zero, hb]
  have e10 : lessDiag B s 1 0 = b := by unfold lessDiag; rw [if_neg (by decide), sub_zero, hB, hb]
  rw [← ht]
  rw [h0, ← hu, ← hb] at hsq
  refine Real.le_sqrt_of_sq_le ?_
  have es : (∑ i ∈ range 2, (∑ k ∈ range 2, lessDiag B s i k * x k) ^ 2) =
      ((u - t) * x 0 + b * x 1) ^ 2 + (b * x 0 + (-u - t) * x 1) ^ 2 := by
    simp [Finset.sum_range_succ, e00, e01, e10, e11]
  rw [es]
  obtain ⟨w, hw⟩ : ∃ w, w = u * (x 0 ^ 2 - x 1 ^ 2) + 2 * b * x 0 * x 1 := ⟨_, rfl⟩
  have hw2 : w ^ 2 ≤ ρ ^ 2 := by
    have : ρ ^ 2 - w ^ 2 = (2 * u * x 0 * x 1 - b * (x 0 ^ 2 - x 1 ^ 2)) ^ 2 := by
      have e1 : ρ ^ 2 = (u ^ 2 + b ^ 2) * (x 0 ^ 2 + x 1 ^ 2) ^ 2 := by rw [hx2, hsq]; ring
      rw [e1, hw]; ring
    nlinarith [sq_nonneg (2 * u * x 0 * x 1 - b * (x 0 ^ 2 - x 1 ^ 2))]
  have hwa : |w| ≤ ρ := abs_le_of_sq_le_sq hw2 hp
  have e2 : ((u - t) * x 0 + b * x 1) ^ 2 + (b * x 0 + (-u - t) * x 1) ^ 2 =
      ρ ^ 2 + t ^ 2 - 2 * t * w := by
    have : ((u - t) * x 0 + b * x 1) ^ 2 + (b * x 0 + (-u - t) * x 1) ^ 2 =
      (u ^ 2 + b ^ 2 + t ^ 2) * (x 0 ^ 2 + x 1 ^ 2) - 2 * t * w := by rw [hw]; ring
    rw [this, hx2, hsq]; ring
  rw [e2]
  have h3 : t * w ≤ |t| * ρ := by
    calc t * w ≤ |t * w| := le_abs_self _
      _ = |t| * |w| := abs_mul _ _
      _ ≤ |t| * ρ := mul_le_mul_of_nonneg_left hwa (abs_nonneg _)
  nlinarith [sq_abs t]

/-- A symmetric 2×2 matrix whose eigenvalues are more than four thresholds apart can be shifted. -/
theorem shiftable_two {A : Nat → Nat → ℝ} (hA : A 1 0 = A 0 1)
    (hg : (4 * epsilon ℝ) ^ 2 < (A 0 0 - A 1 1) ^ 2 + 4 * A 0 1 ^ 2) : Shiftable 2 A := by
  intro B V hV hB
  have hsymA : (toMatrix 2 2 A).transpose = toMatrix 2 2 A := by
    ext i j
    fin_cases i <;> fin_cases j <;> simp [toMatrix, hA]
  have hsymB : (toMatrix 2 2 B).transpose = toMatrix 2 2 B := by
    rw [hB, Matrix.transpose_mul, Matrix.transpose_mul, hsymA, Matrix.transpose_transpose, Matrix.mul_assoc]
  have hB10 : B 1 0 = B 0 1 := by
    have := congrFun (congrFun hsymB 0) 1
    simpa [toMatrix, Matrix.transpose_apply] using this
  have hV' := mul_eq_one_comm.mp hV
  have htr : (toMatrix 2 2 B).trace = (toMatrix 2 2 A).trace := by
    rw [hB, Matrix.trace_mul_comm, ← Matrix.mul_assoc, hV', Matrix.one_mul]
  have hdet : (toMatrix 2 2 B).det = (toMatrix 2 2 A).det := by
    have h1 : (toMatrix 2 2 V).transpose.det * (toMatrix 2 2 V).det = 1 := by
      rw [← Matrix.det_mul, hV, Matrix.det_one]
    rw [hB, Matrix.det_mul, Matrix.det_mul, mul_right_comm, h1, one_mul]
  rw [Matrix.trace_fin_two, Matrix.trace_fin_two] at htr
  rw [Matrix.det_fin_two, Matrix.det_fin_two] at hdet
  simp only [toMatrix, Matrix.of_apply, Fin.val_zero, Fin.val_one, hA, hB10] at htr hdet
  have e : 4 * gapSq 2 B = (A 0 0 - A 1 1) ^ 2 + 4 * A 0 1 ^ 2 := by
    have h0 : gapSq 2 B = ((B 0 0 - B 1 1) / 2) ^ 2 + B 0 1 ^ 2 := rfl
    have : 4 * gapSq 2 B = (B 0 0 + B 1 1) ^ 2 - 4 * (B 0 0 * B 1 1 - B 0 1 * B 0 1) := by rw [h0]; ring
    rw [this, htr, hdet]; ring
  have hε := Linalg.eps_pos (K := ℝ)
  have hpos : 0 < gapSq 2 B := by nlinarith
  refine ⟨hpos, fun x hx => ?_⟩
  have h1 := stretch_two B hB10 (shiftOf 2 B) x hx
  have h2 := shift_middle B hpos
  have h3 : 2 * epsilon ℝ < √(gapSq 2 B) := by
    refine Real.lt_sqrt_of_sq_lt ?_
    nlinarith
  linarith

/-- C84: on every symmetric 2×2 matrix whose eigenvalues are more than four thresholds apart the shifted
iteration succeeds, with orthogonal `V`, and with eigenvalues that are all zero or the diagonal of
`Vᵀ A V`. -/
theorem C84_two {a : Mat XR} {A : Nat → Nat → ℝ} (ha : MatIs a 2 2 (fun i j => .fin (A i j)))
    (hA : A 1 0 = A 0 1) (hg : (4 * epsilon ℝ) ^ 2 < (A 0 0 - A 1 1) ^ 2 + 4 * A 0 1 ^ 2) (niter : Nat) :
    ∃ ev v, Linalg.eigen a niter true = .ok (ev, v) ∧ ∃ V : Nat → Nat → ℝ,
      MatIs v 2 2 (fun i j => .fin (V i j)) ∧ (toMatrix 2 2 V).transpose * toMatrix 2 2 V = 1 ∧
      (VecIs ev 2 (fun _ => .fin 0) ∨
        ∃ d : Fin 2 → ℝ, (∀ i : Fin 2, ev.getElement i = .ok (.fin (d i))) ∧
          ∀ i, d i = ((toMatrix 2 2 V).transpose * toMatrix 2 2 A * toMatrix 2 2 V) i i) :=
  C84_shifted (by decide) ha (shiftable_two hA hg) niter

/-- `[[1, 2], [2, -3]]` meets the conditions. -/
example : ∃ ev v, Linalg.eigen (Mat.of 2 2 fun i j => (.fin (tbl [[1, 2], [2, -3]] i j) : XR)) 50 true =
    .ok (ev, v) := by
  obtain ⟨ev, v, e, _⟩ := C84_two (A := fun i j => tbl [[1, 2], [2, -3]] i j) (Mat.of_is _ (by decide) (by decide)
    (by decide) (by decide)) (by simp [tbl]) (by unfold epsilon; simp [tbl]; norm_num) 50
  exact ⟨ev, v, e⟩

/-! ### Orthogonal matrices -/

/-- An upper triangular matrix with positive diagonal and orthonormal columns is the identity. -/
theorem upper_orthogonal {n : Nat} {R : Nat → Nat → ℝ} (hu : ∀ i j, j < i → i < n → R i j = 0)
    (hd : ∀ i, i < n → 0 < R i i) (ho : ∀ i j, i < n → j < n → ∑ k ∈ range n, R k i * R k j = if i = j then 1 else 0) :
    ∀ i, i < n → ∀ j, j < n → R i j = if i = j then 1 else 0 := by
  intro i
  induction i using Nat.strong_induction_on with
  | _ i ih =>
    intro hi
    have key : ∀ j, j < n → R i i * R i j = if i = j then 1 else 0 := by
      intro j hj
      rw [← ho i j hi hj, Finset.sum_eq_single_of_mem i (Finset.mem_range.mpr hi)]
      intro k hk hki
      have hkn := Finset.mem_range.mp hk
      rcases Nat.lt_or_gt_of_ne hki with h | h
      · rw [ih k h hkn i hi, if_neg hki, zero_mul]
      · rw [hu k i h hkn, zero_mul]
    have h1 : R i i = 1 := by
      have := key i hi
      rw [if_pos rfl] at this
      nlinarith [hd i hi]
    intro j hj
    have := key j hj
    rwa [h1, one_mul] at this

/-- C85: an orthogonal matrix is a fixed point of the unshifted iteration.  So `eigen` reports its
diagonal as the eigenvalues, and the matrix itself or its square as the eigenvectors, as soon as two
iterations are allowed. -/
theorem C85_orthogonal {a : Mat XR} {n : Nat} {A : Nat → Nat → ℝ}
    (ha : MatIs a n n (fun i j => .fin (A i j))) (hA : (toMatrix n n A).transpose * toMatrix n n A = 1)
    (hd : epsilon ℝ < norm2 n (fun i => A i i)) (niter : Nat) :
    ∃ ev v, Linalg.eigen a (niter + 2) false = .ok (ev, v) ∧ VecIs ev n (fun i => .fin (A i i)) ∧
      MatIs v n n (fun i j => .fin (∑ t ∈ range n, A i t * A t j)) := by
  have hS : Stretches n A := by
    have h1 : Stretches n (fun i j => if i = j then (1 : ℝ) else 0) := by
      intro x hx
      have e : norm2 n (fun i => ∑ k ∈ range n, (if i = k then (1 : ℝ) else 0) * x k) = norm2 n x :=
        norm2_congr fun i hi => by simp [hi]
      rw [e, hx]
      unfold epsilon
      norm_num
    intro x hx
    have h2 := norm2_sq n (fun i => ∑ k ∈ range n, A i k * x k)
    have h3 : norm2 n (fun i => ∑ k ∈ range n, A i k * x k) = 1 := by
      rw [norm2_dot] at hx ⊢
      have : (fun i : Fin n => ∑ k ∈ range n, A i k * x k) =
          (toMatrix n n A).mulVec (fun i : Fin n => x i) := by
        funext i
        rw [Finset.sum_range]
        rfl
      rw [this, Matrix.dotProduct_mulVec, Matrix.vecMul_mulVec, hA]
      simpa using hx
    rw [h3]
    unfold epsilon
    norm_num
  -- the QR factors are the matrix itself and the identity
  have hfix : ∀ st : Linalg.EigenState XR, MatIs st.a n n (fun i j => .fin (A i j)) →
      (∃ f, MatIs st.q n n f) → (∃ f, MatIs st.r n n f) →
      ∃ st1, Linalg.eigenQr n false (Mat.zeros n n) st = .ok (Mat.zeros n n, st1) ∧
        MatIs st1.a n n (fun i j => .fin (A i j)) ∧ MatIs st1.q n n (fun i j => .fin (A i j)) ∧
        ∃ f, MatIs st1.r n n f := by
    intro st h ⟨fq, hfq⟩ ⟨fr, hfr⟩
    obtain ⟨q, r, eqr, Q, R, hq, hr, hQ, hup, hpos, hQR⟩ := C28_qr h hS.apart
    have hR : (toMatrix n n R).transpose * toMatrix n n R = 1 := by
      have e : toMatrix n n R = (toMatrix n n Q).transpose * toMatrix n n A := by
        rw [← hQR, ← Matrix.mul_assoc, hQ, Matrix.one_mul]
      rw [e, Matrix.transpose_mul, Matrix.transpose_transpose, Matrix.mul_assoc,
        ← Matrix.mul_assoc (toMatrix n n Q), mul_eq_one_comm.mp hQ, Matrix.one_mul, hA]
    have hR1 : ∀ i, i < n → ∀ j, j < n → R i j = if i = j then 1 else 0 := by
      refine upper_orthogonal hup hpos fun i j hi hj => ?_
      have := congrFun (congrFun hR ⟨i, hi⟩) ⟨j, hj⟩
      rw [Matrix.mul_apply] at this
      rw [Finset.sum_range]
      simpa [toMatrix, Matrix.one_apply] using this
    have hQA : ∀ i j, i < n → j < n → Q i j = A i j := by
      intro i j hi hj
      have := congrFun (congrFun hQR ⟨i, hi⟩) ⟨j, hj⟩
      rw [Matrix.mul_apply] at this
      simp only [toMatrix, Matrix.of_apply] at this
      rw [← this, Finset.sum_eq_single (⟨j, hj⟩ : Fin n)]
      · rw [hR1 j hj j hj, if_pos rfl, mul_one]
      · intro k _ hk
        rw [hR1 k k.2 j hj, if_neg (fun h => hk (Fin.ext h)), mul_zero]
      · simp
    obtain ⟨q', e1, hq'⟩ := Mat.copy_fin hfq hq
    obtain ⟨r', e2, hr'⟩ := Mat.copy_fin hfr hr
    obtain ⟨a', e3, ha'⟩ := Mat.mul_fin hr' hq' h
    refine ⟨{ st with a := a', q := q', r := r' }, ?_, ?_, ?_, _, hr'⟩
    · unfold Linalg.eigenQr
      simp only [Bool.false_eq_true, if_false, eqr, e1, e2, e3, Res.ok_bind]
    · refine MatIs.congr (m := a') ha' fun i j hi hj => ?_
      congr 1
      rw [Finset.sum_eq_single_of_mem i (Finset.mem_range.mpr hi), hR1 i hi i hi, if_pos rfl, one_mul,
        hQA i j hi hj]
      intro k hk hki
      rw [hR1 i hi k (Finset.mem_range.mp hk), if_neg (Ne.symm hki), zero_mul]
    · exact MatIs.congr (m := q') hq' fun i j hi hj => by rw [hQA i j hi hj]
  obtain ⟨a0, i0, v0, h0, h1, hv, hrun⟩ := eigen_start ha (fun i j _ _ => Ext.finite_fin (A i j))
  have hz : VecIs (Vec.zeros n) n (fun _ => (.fin 0 : XR)) :=
    (Vec.zeros_is ha.rpos ha.rle).congr fun _ _ => by simp
  have hzm := Mat.zeros_of ha
  have hv' : MatIs v0 n n (fun i j => (.fin (if i = j then 1 else 0) : XR)) :=
    hv.congr fun i j _ _ => by split <;> simp
  obtain ⟨st1, e1, ha1, hq1, hr1⟩ := hfix
    { a := a0, i := i0, q := Mat.zeros n n, r := Mat.zeros n n, eigenvectors := v0,
      eigenvalues := Vec.zeros n, previous := Vec.zeros n, delta := Vec.zeros n } h0 ⟨_, hzm⟩ ⟨_, hzm⟩
  obtain ⟨st2, e2, a2, i2, q2, r2, hv2, ⟨_, hd2⟩, hp2, he2⟩ :=
    eigenStep_run e1 hzm ha1 hq1 hv' hz hz hz
  have hcut : cutNorm n (fun i => A i i) = norm2 n (fun i => A i i) := if_neg (not_le.mpr hd)
  have hε := Linalg.eps_pos (K := ℝ)
  have hpos : norm2 n (fun i => A i i) ≠ 0 := by linarith
  have heps : (EPSILON : XR) = .fin (epsilon ℝ) := rfl
  have m1 : moved n (fun i => A i i) (fun _ => 0) = true := by
    unfold moved
    simp only [sub_zero, hcut, Ext.div_fin _ hpos, div_self hpos, heps, Ext.lt_fin]
    have : ¬(1 : ℝ) < epsilon ℝ := by unfold epsilon; norm_num
    simp [this]
  simp only [m1, if_true] at hp2 he2 e2
  obtain ⟨st3, e3, ha3, hq3, hr3⟩ := hfix st2 (by rw [a2]; exact ha1) ⟨_, by rw [q2]; exact hq1⟩
    (by rw [r2]; exact hr1)
  obtain ⟨st4, e4, a4, i4, q4, r4, hv4, ⟨_, hd4⟩, hp4, he4⟩ :=
    eigenStep_run e3 hzm ha3 hq3 hv2 hp2 hd2 he2
  have m2 : moved n (fun i => A i i) (fun i => A i i) = false := by
    have hzero : cutNorm n (fun _ => (0 : ℝ)) = 0 := by simp [cutNorm, norm2]
    unfold moved
    simp only [sub_self, hcut, hzero, Ext.div_fin _ hpos, zero_div, heps, Ext.lt_fin, hε, decide_true,
      Bool.not_true]
  simp only [m2, Bool.false_eq_true, if_false] at he4 e4
  refine ⟨st4.eigenvalues, st4.eigenvectors, ?_, he4, ?_⟩
  · rw [hrun, loopFrom_succ, e2, Res.ok_bind]
    simp only [if_true]
    rw [loopFrom_succ, e4]
    rfl
  · refine hv4.congr fun i j hi hj => ?_
    congr 1
    refine Finset.sum_congr rfl fun t ht => ?_
    rw [Finset.sum_eq_single_of_mem i (Finset.mem_range.mpr hi)]
    · simp
    · intro k _ hk
      simp [Ne.symm hk]

/-- C85: `[[3/5, 4/5], [4/5, -3/5]]` has the eigenvalues 1 and -1; `eigen` reports 3/5 and -3/5. -/
theorem C85_wrong (a : Mat XR)
    (ha : MatIs a 2 2 (fun i j => .fin (tbl [[3/5, 4/5], [4/5, -3/5]] i j))) (niter : Nat) :
    ∃ ev v, Linalg.eigen a (niter + 2) false = .ok (ev, v) ∧
      ev.getElement 0 = .ok (.fin (3/5)) ∧ ev.getElement 1 = .ok (.fin (-3/5)) := by
  obtain ⟨ev, v, e, h, _⟩ := C85_orthogonal ha (by
      ext i j
      fin_cases i <;> fin_cases j <;> simp [toMatrix, tbl, Matrix.mul_apply, Fin.sum_univ_two] <;> norm_num)
    (by
      refine Real.lt_sqrt_of_sq_lt ?_
      simp [Finset.sum_range_succ, tbl]
      unfold epsilon
      norm_num) niter
  exact ⟨ev, v, e, h.get 0 (by decide), h.get 1 (by decide)⟩

end Verif
