import Verif.Props.Qr

/-
`eigen` (C30).
-/

set_option linter.unusedSectionVars false
set_option linter.unusedSimpArgs false

namespace Verif
open Scalar Finset

/-! ### Every arithmetic: when the loop is not left early the eigenvalues are zero -/

section
variable {F : Type} [Scalar F]

/-- A loop whose body does not depend on the counter is either left early, and then more iterations
change nothing, or ends with the invariant. -/
theorem loopFrom_stop {ε β : Type} (body : β → Res ε (Bool × β)) (I : β → Prop)
    (hI : ∀ b b', I b → body b = .ok (true, b') → I b') :
    ∀ len lo b b', I b → loopFrom lo len (fun _ => body) b = .ok b' →
      I b' ∨ ∀ lo' len', len ≤ len' → loopFrom lo' len' (fun _ => body) b = .ok b' := by
  intro len
  induction len with
  | zero =>
    intro lo b b' hb h
    cases h
    exact Or.inl hb
  | succ len ih =>
    intro lo b b' hb h
    rw [loopFrom_succ] at h
    obtain ⟨⟨go, b1⟩, e, h⟩ := Res.bind_eq_ok.mp h
    rcases go with _ | _
    · cases h
      right
      intro lo' len' hlen
      obtain ⟨k, rfl⟩ : ∃ k, len' = k + 1 := ⟨len' - 1, by omega⟩
      rw [loopFrom_succ, e]
      rfl
    · rcases ih (lo + 1) b1 b' (hI b b1 hb e) h with h | h
      · exact Or.inl h
      · right
        intro lo' len' hlen
        obtain ⟨k, rfl⟩ : ∃ k, len' = k + 1 := ⟨len' - 1, by omega⟩
        rw [loopFrom_succ, e]
        exact h (lo' + 1) k (by omega)

/-- The QR part of an iteration leaves everything else alone. -/
theorem eigenQr_same {m : Nat} {sh : Bool} {tmp tmp' : Mat F} {st st' : Linalg.EigenState F}
    (h : Linalg.eigenQr m sh tmp st = .ok (tmp', st')) :
    st'.eigenvalues = st.eigenvalues ∧ st'.previous = st.previous ∧ st'.delta = st.delta ∧
      st'.eigenvectors = st.eigenvectors := by
  unfold Linalg.eigenQr at h
  split at h
  · obtain ⟨s, _, h⟩ := Res.bind_eq_ok.mp h
    obtain ⟨i, _, h⟩ := Res.bind_eq_ok.mp h
    obtain ⟨t, _, h⟩ := Res.bind_eq_ok.mp h
    obtain ⟨a, _, h⟩ := Res.bind_eq_ok.mp h
    obtain ⟨⟨q, r⟩, _, h⟩ := Res.bind_eq_ok.mp h
    obtain ⟨q', _, h⟩ := Res.bind_eq_ok.mp h
    obtain ⟨r', _, h⟩ := Res.bind_eq_ok.mp h
    obtain ⟨t', _, h⟩ := Res.bind_eq_ok.mp h
    obtain ⟨a', _, h⟩ := Res.bind_eq_ok.mp h
    obtain ⟨i', _, h⟩ := Res.bind_eq_ok.mp h
    cases h
    exact ⟨rfl, rfl, rfl, rfl⟩
  · obtain ⟨⟨q, r⟩, _, h⟩ := Res.bind_eq_ok.mp h
    obtain ⟨q', _, h⟩ := Res.bind_eq_ok.mp h
    obtain ⟨r', _, h⟩ := Res.bind_eq_ok.mp h
    obtain ⟨a', _, h⟩ := Res.bind_eq_ok.mp h
    cases h
    exact ⟨rfl, rfl, rfl, rfl⟩

/-- An iteration after which the loop goes on leaves the eigenvalues at zero. -/
theorem eigenStep_zero {m : Nat} {sh : Bool} {st st' : Linalg.EigenState F}
    (hv : VecIs st.eigenvalues m (fun _ => lit 0))
    (h : Linalg.eigenStep m sh st = .ok (true, st')) :
    VecIs st'.eigenvalues m (fun _ => lit 0) := by
  unfold Linalg.eigenStep at h
  obtain ⟨t0, _, h⟩ := Res.bind_eq_ok.mp h
  obtain ⟨⟨t1, st1⟩, e1, h⟩ := Res.bind_eq_ok.mp h
  obtain ⟨hev, _⟩ := eigenQr_same e1
  obtain ⟨t2, _, h⟩ := Res.bind_eq_ok.mp h
  obtain ⟨vs, _, h⟩ := Res.bind_eq_ok.mp h
  obtain ⟨ev, e2, h⟩ := Res.bind_eq_ok.mp h
  obtain ⟨d, _, h⟩ := Res.bind_eq_ok.mp h
  obtain ⟨n1, _, h⟩ := Res.bind_eq_ok.mp h
  obtain ⟨n2, _, h⟩ := Res.bind_eq_ok.mp h
  have hev' : ∃ f, VecIs ev m f := by
    refine foldRange_inv_ok _ (fun _ (v : Vec F) => ∃ f, VecIs v m f) 0 m (Nat.zero_le _) _ _
      ⟨_, by rw [hev]; exact hv⟩ ?_ e2
    intro k b b' _ hk ⟨f, hb⟩ e
    obtain ⟨x, _, e⟩ := Res.bind_eq_ok.mp e
    obtain ⟨_, rfl⟩ := hb.exec_set_inv hk e
    exact ⟨_, hb.put k x⟩
  obtain ⟨f, hf⟩ := hev'
  dsimp only at h
  split at h
  · cases h
  · obtain ⟨⟨ev2, pr⟩, e3, h⟩ := Res.bind_eq_ok.mp h
    cases h
    have := foldRange_inv_ok _ (fun k (p : Vec F × Vec F) =>
      VecIs p.1 m (fun i => if i < k then lit 0 else f i)) 0 m (Nat.zero_le _) _ _
      (hf.congr fun i _ => by simp) ?_ e3
    · exact this.congr fun i hi => by simp [hi]
    · intro k b b' _ hk hb e
      obtain ⟨v, e4, e⟩ := Res.bind_eq_ok.mp e
      obtain ⟨x, _, e⟩ := Res.bind_eq_ok.mp e
      obtain ⟨w, _, e⟩ := Res.bind_eq_ok.mp e
      cases e
      obtain ⟨_, rfl⟩ := hb.exec_set_inv hk e4
      refine (hb.put k _).congr fun i _ => ?_
      by_cases hik : i = k
      · simp [hik]
      · have : i < k + 1 ↔ i < k := by omega
        simp [hik, this]

/-- The state before the first iteration. -/
theorem eigen_start [ScalarLawful F] {a : Mat F} {n : Nat} {f : Nat → Nat → F} (ha : MatIs a n n f)
    (hf : ∀ i j, i < n → j < n → Finite (f i j)) :
    ∃ a0 i0 v0, MatIs a0 n n f ∧ MatIs i0 n n (fun i j => if i = j then lit 1 else lit 0) ∧
      MatIs v0 n n (fun i j => if i = j then lit 1 else lit 0) ∧
      ∀ niter sh, Linalg.eigen a niter sh =
        (loopFrom 0 niter (fun _ st => Linalg.eigenStep n sh st)
          { a := a0, i := i0, q := Mat.zeros n n, r := Mat.zeros n n, eigenvectors := v0,
            eigenvalues := Vec.zeros n, previous := Vec.zeros n, delta := Vec.zeros n } >>=
          fun st => .ok (st.eigenvalues, st.eigenvectors)) := by
  obtain ⟨a0, e0, h0⟩ := Mat.exec_of_stores (Mat.copyFrom_stores (Mat.zeros_of ha) ha)
    (Mat.zeros_of ha) hf
  obtain ⟨i0, e1, h1⟩ := Mat.identity_ok (Mat.zeros_of ha)
  refine ⟨a0, i0, i0, h0, h1, h1, fun niter sh => ?_⟩
  unfold Linalg.eigen
  simp only [Mat.isSquare_eq ha, Res.ok_bind, decide_true, Bool.not_true, Bool.false_eq_true, if_false,
    ha.rows, Mat.init_of ha, e0, e1, Vec.init_new ha.rpos ha.rle]
  rfl

/-- C30: with no iteration allowed, `eigen` returns success with zero eigenvalues and the identity,
for every finite square matrix. -/
theorem C30_no_iteration [ScalarLawful F] {a : Mat F} {n : Nat} {f : Nat → Nat → F}
    (ha : MatIs a n n f) (hf : ∀ i j, i < n → j < n → Finite (f i j)) (sh : Bool) :
    ∃ ev v, Linalg.eigen a 0 sh = .ok (ev, v) ∧ VecIs ev n (fun _ => lit 0) ∧
      MatIs v n n (fun i j => if i = j then lit 1 else lit 0) := by
  obtain ⟨a0, i0, v0, _, _, hv, h⟩ := eigen_start ha hf
  exact ⟨_, _, h 0 sh, Vec.zeros_is ha.rpos ha.rle, hv⟩

/-- C30: a success is either the all-zero vector, or a result that no larger number of iterations
changes.  So an iteration that has not converged is reported as success with zero eigenvalues. -/
theorem C30_not_converged [ScalarLawful F] {a : Mat F} {n : Nat} {f : Nat → Nat → F}
    (ha : MatIs a n n f) {niter : Nat} {sh : Bool} {ev : Vec F} {v : Mat F}
    (h : Linalg.eigen a niter sh = .ok (ev, v)) :
    VecIs ev n (fun _ => lit 0) ∨
    ∀ niter', niter ≤ niter' → Linalg.eigen a niter' sh = .ok (ev, v) := by
  have hf : ∀ i j, i < n → j < n → Finite (f i j) := by
    unfold Linalg.eigen at h
    simp only [Mat.isSquare_eq ha, Res.ok_bind, decide_true, Bool.not_true, Bool.false_eq_true,
      if_false, ha.rows, Mat.init_of ha] at h
    obtain ⟨a0, e0, _⟩ := Res.bind_eq_ok.mp h
    exact (Mat.exec_stores_inv (Mat.copyFrom_stores (Mat.zeros_of ha) ha) (Mat.zeros_of ha) e0).1
  obtain ⟨a0, i0, v0, _, _, hv, hrun⟩ := eigen_start ha hf
  rw [hrun] at h
  obtain ⟨st, e, h⟩ := Res.bind_eq_ok.mp h
  cases h
  rcases loopFrom_stop (Linalg.eigenStep n sh)
    (fun st => VecIs st.eigenvalues n (fun _ => lit 0)) (fun b b' hb e => eigenStep_zero hb e)
    niter 0 _ st (Vec.zeros_is ha.rpos ha.rle) e with h | h
  · exact Or.inl h
  · right
    intro niter' hle
    rw [hrun, h 0 niter' hle]
    rfl

/-- C30: a matrix that is not square is refused. -/
theorem C30_not_square {a : Mat F} {r c : Nat} {f : Nat → Nat → F} (ha : MatIs a r c f) (hrc : r ≠ c)
    (niter : Nat) (sh : Bool) : Linalg.eigen a niter sh = .error (.err .NotSquare) := by
  unfold Linalg.eigen
  simp [Mat.isSquare_eq ha, hrc]

/-- C30: the shifted iteration never succeeds on a 1×1 matrix; it panics where overflow is checked. -/
theorem C30_shifted_one [ScalarLawful F] {a : Mat F} {f : Nat → Nat → F} (ha : MatIs a 1 1 f)
    (hf : Finite (f 0 0)) (niter : Nat) :
    Linalg.eigen a (niter + 1) true =
      if Scalar.overflowChecks F then .error .panic else .error (.err .InvalidRow) := by
  obtain ⟨a0, i0, v0, h0, _, hv, hrun⟩ := eigen_start ha (fun i j hi hj => by
    obtain ⟨rfl, rfl⟩ : i = 0 ∧ j = 0 := by omega
    exact hf)
  have e : Linalg.eigenShift a0 1 =
      if Scalar.overflowChecks F then .error .panic else .error (.err .InvalidRow) := by
    unfold Linalg.eigenShift u8Sub
    by_cases ho : Scalar.overflowChecks F = true
    · simp [ho]
    · simp [ho, Mat.getElement, h0.init, h0.rows_eq, isValidRow]
  rw [hrun, loopFrom_succ]
  unfold Linalg.eigenStep Linalg.eigenQr
  simp only [Mat.init_of ha, Res.ok_bind, if_true, e]
  by_cases ho : Scalar.overflowChecks F = true
  · simp [ho]
  · simp [ho]

end

/-! ### Exact arithmetic, without shift -/

/-- The matrix sends no unit vector to a vector of norm at most the threshold. -/
def Stretches (n : Nat) (A : Nat → Nat → ℝ) : Prop :=
  ∀ x : Nat → ℝ, norm2 n x = 1 → epsilon ℝ < norm2 n (fun i => ∑ k ∈ range n, A i k * x k)

theorem Stretches.long {n : Nat} {A : Nat → Nat → ℝ} (h : Stretches n A) {x : Nat → ℝ}
    (hx : 1 ≤ norm2 n x) : epsilon ℝ < norm2 n (fun i => ∑ k ∈ range n, A i k * x k) := by
  have hpos : 0 < norm2 n x := by linarith
  have h1 := h (fun i => x i / norm2 n x) (by rw [norm2_div n x hpos, div_self hpos.ne'])
  have e : norm2 n (fun i => ∑ k ∈ range n, A i k * (x k / norm2 n x)) =
      norm2 n (fun i => ∑ k ∈ range n, A i k * x k) / norm2 n x := by
    rw [← norm2_div n _ hpos]
    refine norm2_congr fun i _ => ?_
    rw [Finset.sum_div]
    exact Finset.sum_congr rfl fun k _ => by ring
  rw [e] at h1
  refine lt_of_lt_of_le h1 (div_le_self (norm2_nonneg _ _) hx)

theorem Stretches.apart {n : Nat} {A : Nat → Nat → ℝ} (h : Stretches n A) : ColumnsApart n A := by
  intro j hj d
  set x : Nat → ℝ := fun k => if k = j then 1 else if k < j then - d k else 0 with hx
  have h1 : 1 ≤ norm2 n x := by
    rw [norm2, Real.one_le_sqrt]
    have := Finset.single_le_sum (s := range n) (f := fun i => x i ^ 2) (fun i _ => sq_nonneg _)
      (Finset.mem_range.mpr hj)
    refine le_trans (le_of_eq ?_) this
    simp [hx]
  have h2 := h.long h1
  refine lt_of_lt_of_eq h2 (norm2_congr fun i _ => ?_)
  have e : ∀ m, j < m → ∑ k ∈ range m, A i k * x k = A i j - ∑ k ∈ range j, d k * A i k := by
    intro m hm
    obtain ⟨t, rfl⟩ : ∃ t, m = j + 1 + t := ⟨m - (j + 1), by omega⟩
    rw [Finset.sum_range_add, Finset.sum_eq_zero (s := range t), add_zero, Finset.sum_range_succ]
    · have e1 : ∑ k ∈ range j, A i k * x k = - ∑ k ∈ range j, d k * A i k := by
        rw [← Finset.sum_neg_distrib]
        refine Finset.sum_congr rfl fun k hk => ?_
        have := Finset.mem_range.mp hk
        simp only [hx]
        rw [if_neg (by omega), if_pos this]
        ring
      rw [e1]
      simp only [hx, if_true]
      ring
    · intro k _
      simp only [hx]
      rw [if_neg (by omega), if_neg (by omega), mul_zero]
  exact e n hj

theorem norm2_dot (n : Nat) (x : Nat → ℝ) :
    norm2 n x = √((fun i : Fin n => x i) ⬝ᵥ (fun i : Fin n => x i)) := by
  rw [norm2, Finset.sum_range]
  simp only [dotProduct, sq]

theorem norm2_ext (n : Nat) (y : Fin n → ℝ) :
    norm2 n (fun i => if h : i < n then y ⟨i, h⟩ else 0) = √(y ⬝ᵥ y) := by
  rw [norm2_dot]
  simp

/-- Orthogonal similarity does not change how vectors are stretched. -/
theorem Stretches.similar {n : Nat} {A B V : Nat → Nat → ℝ} (h : Stretches n A)
    (hV : (toMatrix n n V).transpose * toMatrix n n V = 1)
    (hB : toMatrix n n B = (toMatrix n n V).transpose * toMatrix n n A * toMatrix n n V) :
    Stretches n B := by
  have hV' := mul_eq_one_comm.mp hV
  set W := toMatrix n n V with hW
  have iso : ∀ y : Fin n → ℝ, (W.mulVec y) ⬝ᵥ (W.mulVec y) = y ⬝ᵥ y := by
    intro y
    rw [Matrix.dotProduct_mulVec, Matrix.vecMul_mulVec, hV]
    simp
  have iso' : ∀ y : Fin n → ℝ, (W.transpose.mulVec y) ⬝ᵥ (W.transpose.mulVec y) = y ⬝ᵥ y := by
    intro y
    rw [Matrix.dotProduct_mulVec, Matrix.vecMul_mulVec, Matrix.transpose_transpose, hV']
    simp
  have hmul : ∀ (C : Nat → Nat → ℝ) (x : Nat → ℝ), norm2 n (fun i => ∑ k ∈ range n, C i k * x k) =
      √((toMatrix n n C).mulVec (fun i : Fin n => x i) ⬝ᵥ
        (toMatrix n n C).mulVec (fun i : Fin n => x i)) := by
    intro C x
    rw [norm2_dot]
    have : (fun i : Fin n => ∑ k ∈ range n, C i k * x k) =
        (toMatrix n n C).mulVec (fun i : Fin n => x i) := by
      funext i
      rw [Finset.sum_range]
      rfl
    rw [this]
  intro x hx
  set y : Fin n → ℝ := W.mulVec (fun i : Fin n => x i) with hy
  have h1 := h (fun i => if h : i < n then y ⟨i, h⟩ else 0) (by
    rw [norm2_ext, hy, iso, ← norm2_dot, hx])
  rw [hmul] at h1 ⊢
  have ey : (fun i : Fin n => if h : (i : Nat) < n then y ⟨i, h⟩ else 0) = y := by
    funext i; simp
  rw [ey] at h1
  rw [hB, ← Matrix.mulVec_mulVec, ← Matrix.mulVec_mulVec, iso']
  exact h1

/-- What is known at the head of the loop. -/
structure EigInv (n : Nat) (A : Nat → Nat → ℝ) (st : Linalg.EigenState XR) (B V : Nat → Nat → ℝ) :
    Prop where
  a : MatIs st.a n n (fun i j => .fin (B i j))
  vec : MatIs st.eigenvectors n n (fun i j => .fin (V i j))
  q : ∃ f, MatIs st.q n n f
  r : ∃ f, MatIs st.r n n f
  prev : ∃ f : Nat → ℝ, VecIs st.previous n (fun i => .fin (f i))
  delta : ∃ f, VecIs st.delta n f
  ortho : (toMatrix n n V).transpose * toMatrix n n V = 1
  similar : toMatrix n n B = (toMatrix n n V).transpose * toMatrix n n A * toMatrix n n V

theorem Mat.copy_fin {s a : Mat XR} {r c : Nat} {f : Nat → Nat → XR} {A : Nat → Nat → ℝ}
    (hs : MatIs s r c f) (ha : MatIs a r c (fun i j => .fin (A i j))) :
    ∃ s', exec s (Mat.copyFrom a) = .ok s' ∧ MatIs s' r c (fun i j => .fin (A i j)) :=
  Mat.exec_of_stores (Mat.copyFrom_stores hs ha) hs fun i j _ _ => Ext.finite_fin (A i j)

/-- The state with the results of one iteration. -/
def nextState (st : Linalg.EigenState XR) (a q r v : Mat XR) (ev pr dl : Vec XR) :
    Linalg.EigenState XR :=
  ⟨a, st.i, q, r, v, ev, pr, dl⟩

/-- One iteration: the step `B = Q R`, `B' = R Q`, and when the loop is left. -/
theorem eigenStep_qr {n : Nat} {A B V : Nat → Nat → ℝ} {fp : Nat → ℝ} {st : Linalg.EigenState XR}
    (hA : Stretches n A) (h : EigInv n A st B V) (hfp : VecIs st.previous n (fun i => .fin (fp i)))
    (hev : ∃ f, VecIs st.eigenvalues n f) :
    ∃ go st', Linalg.eigenStep n false st = .ok (go, st') ∧ ∃ B' V' Q R : Nat → Nat → ℝ, EigInv n A st' B' V' ∧
      VecIs st'.eigenvalues n (fun i => if go then .fin 0 else .fin (B' i i)) ∧
      (toMatrix n n Q).transpose * toMatrix n n Q = 1 ∧ (∀ i j, j < i → i < n → R i j = 0) ∧
      toMatrix n n Q * toMatrix n n R = toMatrix n n B ∧ toMatrix n n R * toMatrix n n Q = toMatrix n n B' ∧
      (go = true → VecIs st'.previous n (fun i => .fin (B' i i))) ∧
      (epsilon ℝ < norm2 n (fun i => B' i i) → (go = false ↔ norm2 n (fun i => B' i i - fp i) ≤ epsilon ℝ ∨
        norm2 n (fun i => B' i i - fp i) < epsilon ℝ * norm2 n (fun i => B' i i))) := by
  obtain ⟨q, r, eqr, Q, R, hq, hr, hQ, hup, _, hQR⟩ := C28_qr h.a (hA.similar h.ortho h.similar).apart
  obtain ⟨fq, hfq⟩ := h.q
  obtain ⟨fr, hfr⟩ := h.r
  obtain ⟨fd, hfd⟩ := h.delta
  obtain ⟨fe, hfe⟩ := hev
  obtain ⟨q', e1, hq'⟩ := Mat.copy_fin hfq hq
  obtain ⟨r', e2, hr'⟩ := Mat.copy_fin hfr hr
  obtain ⟨a', e3, ha'⟩ := Mat.mul_fin hr' hq' h.a
  obtain ⟨t', e4, ht'⟩ := Mat.mul_fin h.vec hq' (Mat.zeros_of h.a)
  obtain ⟨v', e5, hv'⟩ := Mat.copy_fin h.vec ht'
  set B' : Nat → Nat → ℝ := fun i j => ∑ t ∈ range n, R i t * Q t j with hB'
  set V' : Nat → Nat → ℝ := fun i j => ∑ t ∈ range n, V i t * Q t j with hV'
  have eV : toMatrix n n V' = toMatrix n n V * toMatrix n n Q := (toMatrix_mul n n n V Q).symm
  have eB : toMatrix n n B' = toMatrix n n R * toMatrix n n Q := (toMatrix_mul n n n R Q).symm
  have hort : (toMatrix n n V').transpose * toMatrix n n V' = 1 := by
    rw [eV, Matrix.transpose_mul, Matrix.mul_assoc, ← Matrix.mul_assoc _ (toMatrix n n V),
      h.ortho, Matrix.one_mul, hQ]
  have hsim : toMatrix n n B' =
      (toMatrix n n V').transpose * toMatrix n n A * toMatrix n n V' := by
    have eR : toMatrix n n R = (toMatrix n n Q).transpose * toMatrix n n B := by
      rw [← hQR, ← Matrix.mul_assoc, hQ, Matrix.one_mul]
    rw [eB, eR, h.similar, eV, Matrix.transpose_mul]
    simp only [Matrix.mul_assoc]
  obtain ⟨ev, e6, hev⟩ := foldRange_inv (ε := LinalgError)
    (fun k (ev : Vec XR) => do exec ev (Vec.setElement k (← a'.getElement k k)))
    (fun k (v : Vec XR) => VecIs v n (fun i => if i < k then .fin (B' i i) else fe i)) 0 n
    (Nat.zero_le _) st.eigenvalues (hfe.congr fun i _ => by simp)
    (fun k v _ hk hI => by
      rw [ha'.get k k hk hk, Res.ok_bind]
      obtain ⟨v', h1, h2⟩ := hI.exec_set hk (Ext.finite_fin (B' k k))
      refine ⟨v', h1, h2.congr fun i _ => ?_⟩
      by_cases hik : i = k
      · simp [hik]
      · have : i < k + 1 ↔ i < k := by omega
        simp [hik, this])
  have hev : VecIs ev n (fun i => .fin (B' i i)) := hev.congr fun i hi => by simp [hi]
  obtain ⟨dl, e7, hdl⟩ := Vec.exec_of_stores (Vec.sub_stores hfd hev hfp) hfd
    (fun i _ => by rw [Ext.sub_fin]; exact Ext.finite_fin _)
  have hdl : VecIs dl n (fun i => .fin (B' i i - fp i)) := hdl.congr fun i _ => by rw [Ext.sub_fin]
  set n1 : ℝ := if norm2 n (fun i => B' i i - fp i) ≤ epsilon ℝ then 0 else norm2 n (fun i => B' i i - fp i) with hn1
  set n2 : ℝ := if norm2 n (fun i => B' i i) ≤ epsilon ℝ then 0 else norm2 n (fun i => B' i i) with hn2
  have hstep : Linalg.eigenStep n false st = if (Ext.fin n1 : XR) /ᶠ .fin n2 <ᶠ EPSILON then
        .ok (false, nextState st a' q' r' v' ev st.previous dl)
      else (foldRange 0 n
      (fun k (p : Vec XR × Vec XR) => do
        let ev ← exec p.1 (Vec.setElement k (lit 0))
        let pr ← exec p.2 (Vec.setElement k (← a'.getElement k k))
        .ok (ev, pr)) (ev, st.previous) : Res LinalgError (Vec XR × Vec XR)) >>= fun p =>
        .ok (true, nextState st a' q' r' v' p.1 p.2 dl) := by
    unfold Linalg.eigenStep Linalg.eigenQr
    simp only [Mat.init_of h.a, Res.ok_bind, Bool.false_eq_true, if_false, eqr, e1, e2, e3, e4, e5, e6,
      e7, C31_norm hdl, C31_norm hev]
    rfl
  have htest : epsilon ℝ < norm2 n (fun i => B' i i) →
      (((Ext.fin n1 : XR) /ᶠ .fin n2 <ᶠ EPSILON) = true ↔ norm2 n (fun i => B' i i - fp i) ≤ epsilon ℝ ∨
        norm2 n (fun i => B' i i - fp i) < epsilon ℝ * norm2 n (fun i => B' i i)) := by
    intro hlt
    have e2 : n2 = norm2 n (fun i => B' i i) := by rw [hn2, if_neg (not_le.mpr hlt)]
    have hpos : 0 < norm2 n (fun i => B' i i) := lt_trans Linalg.eps_pos hlt
    rw [e2, Ext.div_fin _ hpos.ne', Ext.epsilon_eq, Ext.lt_fin, decide_eq_true_iff, div_lt_iff₀ hpos, hn1]
    by_cases hle : norm2 n (fun i => B' i i - fp i) ≤ epsilon ℝ
    · rw [if_pos hle]
      exact ⟨fun _ => Or.inl hle, fun _ => mul_pos Linalg.eps_pos hpos⟩
    · rw [if_neg hle]
      exact ⟨Or.inr, fun h => h.resolve_left hle⟩
  rw [hstep]
  split
  · rename_i hgo
    exact ⟨false, nextState st a' q' r' v' ev st.previous dl, rfl, B', V', Q, R, ⟨ha', hv', ⟨_, hq'⟩,
      ⟨_, hr'⟩, ⟨fp, hfp⟩, ⟨_, hdl⟩, hort, hsim⟩, hev, hQ, hup, hQR, eB.symm, fun h => absurd h (by simp),
      fun hlt => ⟨fun _ => (htest hlt).mp hgo, fun _ => rfl⟩⟩
  · rename_i hgo
    obtain ⟨⟨v1, p1⟩, e8, h8, h9⟩ := foldRange_inv (ε := LinalgError)
      (fun k (p : Vec XR × Vec XR) => do
        let ev ← exec p.1 (Vec.setElement k (lit 0))
        let pr ← exec p.2 (Vec.setElement k (← a'.getElement k k))
        .ok (ev, pr))
      (fun k (p : Vec XR × Vec XR) => VecIs p.1 n (fun i => .fin (if i < k then 0 else B' i i)) ∧
        VecIs p.2 n (fun i => .fin (if i < k then B' i i else fp i))) 0 n (Nat.zero_le _) (ev, st.previous)
      ⟨hev.congr fun i _ => by simp, hfp.congr fun i _ => by simp⟩
      (fun k p _ hk ⟨hI1, hI2⟩ => by
        obtain ⟨v', h1, h2⟩ := hI1.exec_set hk (show Finite (lit 0 : XR) by simp)
        obtain ⟨w', h3, h4⟩ := hI2.exec_set hk (Ext.finite_fin (B' k k))
        refine ⟨(v', w'), ?_, h2.congr fun i _ => ?_, h4.congr fun i _ => ?_⟩
        · rw [h1, Res.ok_bind, ha'.get k k hk hk, Res.ok_bind, h3, Res.ok_bind]
        · by_cases hik : i = k
          · simp [hik]
          · have : i < k + 1 ↔ i < k := by omega
            simp [hik, this]
        · by_cases hik : i = k
          · simp [hik]
          · have : i < k + 1 ↔ i < k := by omega
            simp [hik, this])
    rw [e8, Res.ok_bind]
    have h9 : VecIs p1 n (fun i => .fin (B' i i)) := VecIs.congr (v := p1) h9 fun i hi => by simp [hi]
    exact ⟨true, nextState st a' q' r' v' v1 p1 dl, rfl, B', V', Q, R, ⟨ha', hv', ⟨_, hq'⟩,
      ⟨_, hr'⟩, ⟨_, h9⟩, ⟨_, hdl⟩, hort, hsim⟩, VecIs.congr (v := v1) h8 fun i hi => by simp [hi], hQ, hup, hQR, eB.symm,
      fun _ => h9, fun hlt => ⟨fun h => absurd h (by simp), fun h => absurd ((htest hlt).mpr h) hgo⟩⟩

theorem eigenStep_ok {n : Nat} {A B V : Nat → Nat → ℝ} {st : Linalg.EigenState XR}
    (hA : Stretches n A) (h : EigInv n A st B V)
    (hev : ∃ f, VecIs st.eigenvalues n f) :
    ∃ go st', Linalg.eigenStep n false st = .ok (go, st') ∧ ∃ B' V', EigInv n A st' B' V' ∧
      VecIs st'.eigenvalues n (fun i => if go then .fin 0 else .fin (B' i i)) := by
  obtain ⟨fp, hfp⟩ := h.prev
  obtain ⟨go, st', e, B', V', _, _, h1, h2, _⟩ := eigenStep_qr hA h hfp hev
  exact ⟨go, st', e, B', V', h1, h2⟩

/-- C30: the unshifted iteration on a matrix that sends no unit vector near zero always succeeds.  The
returned `V` is orthogonal, and the eigenvalues are either all zero or the diagonal of `Vᵀ A V`. -/
theorem C30_eigen {a : Mat XR} {n : Nat} {A : Nat → Nat → ℝ}
    (ha : MatIs a n n (fun i j => .fin (A i j))) (hA : Stretches n A) (niter : Nat) :
    ∃ ev v, Linalg.eigen a niter false = .ok (ev, v) ∧ ∃ V : Nat → Nat → ℝ,
      MatIs v n n (fun i j => .fin (V i j)) ∧ (toMatrix n n V).transpose * toMatrix n n V = 1 ∧
      (VecIs ev n (fun _ => .fin 0) ∨
        ∃ d : Fin n → ℝ, (∀ i : Fin n, ev.getElement i = .ok (.fin (d i))) ∧
          ∀ i, d i = ((toMatrix n n V).transpose * toMatrix n n A * toMatrix n n V) i i) := by
  obtain ⟨a0, i0, v0, h0, h1, hv, hrun⟩ := eigen_start ha (fun i j _ _ => Ext.finite_fin (A i j))
  have hz : VecIs (Vec.zeros n) n (fun _ => (.fin 0 : XR)) :=
    (Vec.zeros_is ha.rpos ha.rle).congr fun _ _ => by simp
  have hone : toMatrix n n (fun i j : Nat => if i = j then (1 : ℝ) else 0) = 1 := by
    ext i j
    simp [toMatrix, Matrix.one_apply, Fin.ext_iff]
  obtain ⟨st, e, h⟩ := loopRange_total (ε := LinalgError)
    (fun _ st => Linalg.eigenStep n false st)
    (fun _ st => (∃ B V, EigInv n A st B V) ∧ VecIs st.eigenvalues n (fun _ => .fin 0))
    (fun st => ∃ B V, EigInv n A st B V ∧ VecIs st.eigenvalues n (fun i => .fin (B i i)))
    0 niter (Nat.zero_le _)
    { a := a0, i := i0, q := Mat.zeros n n, r := Mat.zeros n n, eigenvectors := v0,
      eigenvalues := Vec.zeros n, previous := Vec.zeros n, delta := Vec.zeros n }
    ⟨⟨A, fun i j => if i = j then 1 else 0, h0, hv.congr fun i j _ _ => by split <;> simp,
      ⟨_, Mat.zeros_of ha⟩, ⟨_, Mat.zeros_of ha⟩, ⟨_, hz⟩, ⟨_, hz⟩, by simp [hone], by simp [hone]⟩, hz⟩
    (fun k st _ _ ⟨⟨B, V, hI⟩, hev⟩ => by
      obtain ⟨go, st', h1, B', V', h2, h3⟩ := eigenStep_ok hA hI ⟨_, hev⟩
      refine ⟨go, st', h1, ?_⟩
      rcases go with _ | _
      · exact ⟨B', V', h2, h3⟩
      · exact ⟨⟨B', V', h2⟩, h3⟩)
  have e' : loopFrom 0 niter (fun _ st => Linalg.eigenStep n false st) _ = .ok st := e
  refine ⟨st.eigenvalues, st.eigenvectors, by rw [hrun, e']; rfl, ?_⟩
  rcases h with ⟨⟨B, V, hI⟩, hev⟩ | ⟨B, V, hI, hev⟩
  · exact ⟨V, hI.vec, hI.ortho, Or.inl hev⟩
  · exact ⟨V, hI.vec, hI.ortho, Or.inr ⟨fun i => B i i, fun i => hev.get i i.2, fun i => by
      rw [← hI.similar]; rfl⟩⟩

/-- C30: eigenvalues that are not all zero add up to the trace of the matrix. -/
theorem C30_trace {a : Mat XR} {n : Nat} {A : Nat → Nat → ℝ}
    (ha : MatIs a n n (fun i j => .fin (A i j))) (hA : Stretches n A) {niter : Nat} {ev : Vec XR}
    {v : Mat XR} (h : Linalg.eigen a niter false = .ok (ev, v)) :
    VecIs ev n (fun _ => .fin 0) ∨
    ∃ d : Fin n → ℝ, (∀ i : Fin n, ev.getElement i = .ok (.fin (d i))) ∧
      ∑ i, d i = (toMatrix n n A).trace := by
  obtain ⟨ev', v', e, V, _, hV, hev⟩ := C30_eigen ha hA niter
  rw [e] at h
  cases h
  rcases hev with h | ⟨d, h1, h2⟩
  · exact Or.inl h
  · refine Or.inr ⟨d, h1, ?_⟩
    rw [Finset.sum_congr rfl fun i _ => h2 i]
    show ((toMatrix n n V).transpose * toMatrix n n A * toMatrix n n V).trace = _
    rw [Matrix.trace_mul_comm, ← Matrix.mul_assoc, mul_eq_one_comm.mp hV, Matrix.one_mul]

/-- Twice the identity of size 2 stretches every vector. -/
example : Stretches 2 (fun i j => if i = j then 2 else 0) := by
  intro x hx
  have h1 : norm2 2 (fun i => ∑ k ∈ range 2, (if i = k then 2 else 0) * x k) = 2 := by
    have h2 := norm2_sq 2 x
    rw [hx] at h2
    simp only [Finset.sum_range_succ, Finset.sum_range_zero] at h2
    rw [norm2, show (∑ i ∈ range 2, (∑ k ∈ range 2, (if i = k then 2 else 0) * x k) ^ 2) = 2 ^ 2 by
      simp [Finset.sum_range_succ]; linarith]
    exact Real.sqrt_sq (by norm_num)
  rw [h1]
  unfold epsilon
  norm_num

/-- The eigenvalue at one position and the eigenvector entry at another. -/
def eigenAt (r : Res LinalgError (Vec XQ × Mat XQ)) (i p q : Nat) : Res LinalgError (XQ × XQ) := do
  let (ev, v) ← r
  .ok (← ev.getElement i, ← v.getElement p q)

/-- diag(3, 4). -/
def exEig : Mat XQ := Mat.of 2 2 fun i j => .fin (tbl [[3, 0], [0, 4]] i j)

/-- C30: on diag(3, 4) one iteration gives zero eigenvalues, two give 3 and 4. -/
theorem C30_example :
    eigenAt (Linalg.eigen exEig 1 false) 0 0 0 = .ok (.fin 0, .fin 1) ∧
    eigenAt (Linalg.eigen exEig 1 false) 1 1 1 = .ok (.fin 0, .fin 1) ∧
    eigenAt (Linalg.eigen exEig 2 false) 0 0 0 = .ok (.fin 3, .fin 1) ∧
    eigenAt (Linalg.eigen exEig 2 false) 1 1 1 = .ok (.fin 4, .fin 1) := by
  refine ⟨?_, ?_, ?_, ?_⟩ <;> decide +kernel

/-- C30: on a singular matrix the returned eigenvectors need not be orthogonal: here the second column
is zero. -/
theorem C30_singular_wrong :
    eigenAt (Linalg.eigen (Mat.of 2 2 fun i j => (.fin (tbl [[1, 0], [0, 0]] i j) : XQ)) 2 false) 1 1 1 =
      .ok (.fin 0, .fin 0) ∧
    eigenAt (Linalg.eigen (Mat.of 2 2 fun i j => (.fin (tbl [[1, 0], [0, 0]] i j) : XQ)) 2 false) 0 0 1 =
      .ok (.fin 1, .fin 0) := by
  constructor <;> decide +kernel

/-- C30: the shifted iteration fails on the 2×2 identity. -/
theorem C30_shifted_identity :
    Linalg.eigen (Mat.of 2 2 fun i j => (.fin (if i = j then 1 else 0) : XQ)) 1 true =
      .error (.err (.UtilsError .Nan)) :=
  Res.error_of_forget (by decide +kernel)

example : Linalg.eigen (Mat.of 1 1 fun _ _ => (.fin 5 : XQ)) 3 true = .error .panic :=
  C30_shifted_one (Mat.of_is _ (by decide) (by decide) (by decide) (by decide)) (by simp) 2

end Verif
