import Verif.Props.RoundedDet
import Verif.Props.Chol

/-
C100: `chol` in binary32.  The part on and below the diagonal is accurate whatever the matrix; the part above the
diagonal is not zero.
-/

set_option linter.unusedSectionVars false
set_option linter.unusedSimpArgs false

namespace Verif
open Scalar Finset

namespace F32

theorem sub_lt {x y : F32} (hf : Finite (x -ᶠ y)) : |⟪x -ᶠ y⟫| < 2 ^ 128 := by
  obtain ⟨hx, hy⟩ := sub_inv hf
  obtain ⟨x, rfl⟩ := finite_iff.mp hx
  obtain ⟨y, rfl⟩ := finite_iff.mp hy
  exact ((fl_fin _).1 hf).2.2

theorem sqrt_inv {x : F32} (h : Finite (Scalar.sqrt x)) : Finite x ∧ 0 ≤ ⟪x⟫ := by
  obtain ⟨v⟩ := x
  rcases v with q | _ | _ | _
  · refine ⟨finite_of_fin rfl, ?_⟩
    by_contra hq
    have hq : q < 0 := by
      have : ((q : ℚ) : ℝ) < 0 := not_le.mp hq
      exact_mod_cast this
    have e : Scalar.sqrt (⟨.fin q⟩ : F32) = ⟨.nan⟩ := by
      show (⟨F32.sqrt (.fin q)⟩ : F32) = _
      simp [F32.sqrt, hq]
    rw [e] at h
    exact absurd h (by decide +kernel)
  all_goals exact absurd h (by decide +kernel)

/-- The reciprocal of zero is not finite. -/
theorem recip_inv {x : F32} (hx : Finite x) (h : Finite ((lit 1 : F32) /ᶠ x)) : ⟪x⟫ ≠ 0 := by
  obtain ⟨x, rfl⟩ := finite_iff.mp hx
  intro h0
  have h0 : x = 0 := by
    have : ((x : ℚ) : ℝ) = 0 := h0
    exact_mod_cast this
  subst h0
  exact absurd h (by decide +kernel)

end F32

/-- The products of two rows of the columns already computed. -/
theorem rowDot_f {F : Type} [Scalar F] {l : Mat F} {n : Nat} {L : Nat → Nat → F} (hl : MatIs l n n L)
    {r1 r2 c : Nat} (h1 : r1 < n) (h2 : r2 < n) (hc : c ≤ n) :
    foldRange 0 c (fun k (s : F) => do
      .ok (s +ᶠ ((← l.getElement r1 k) *ᶠ (← l.getElement r2 k))) : Nat → F → Res LinalgError F)
      (lit 0) = .ok (sumUp c fun k => L r1 k *ᶠ L r2 k) := by
  refine foldRange_sumUp fun i acc hi => ?_
  rw [hl.get r1 i h1 (by omega), Res.ok_bind, hl.get r2 i h2 (by omega), Res.ok_bind]

/-- What has been computed when the first `c` columns are done. -/
structure CholF (n : Nat) (A : Nat → Nat → F32) (c : Nat) (L : Nat → Nat → F32) : Prop where
  fin : ∀ i j, j < c → i < n → Finite (L i j)
  later : ∀ i j, c ≤ j → j < n → i < n → L i j = lit 0
  diag : ∀ j, j < c → L j j = Scalar.sqrt (A j j -ᶠ sumUp j fun k => L j k *ᶠ L j k)
  low : ∀ i j, j < c → j < i → i < n →
    L i j = (lit 1 /ᶠ L j j) *ᶠ (A i j -ᶠ sumUp j fun k => L i k *ᶠ L j k)

theorem cholColumn_f {a l l' : Mat F32} {n : Nat} {A L : Nat → Nat → F32} (ha : MatIs a n n A) {c : Nat}
    (hc : c < n) (hl : MatIs l n n L) (h : CholF n A c L) (he : a.cholColumn c l = .ok l') :
    ∃ L' : Nat → Nat → F32, MatIs l' n n L' ∧ CholF n A (c + 1) L' := by
  unfold Mat.cholColumn at he
  rw [rowDot_f hl hc hc hc.le, Res.ok_bind, hl.get c c hc hc, Res.ok_bind,
    h.later c c (le_refl _) hc hc, if_pos (show ((lit 0 : F32) <ᶠ EPSILON) = true by decide +kernel)] at he
  obtain ⟨l1, e1, he⟩ := Res.bind_eq_ok.mp he
  have hl1 := (hl.exec_set_inv hc hc e1).2
  rw [ha.rows_eq] at he
  set S : Nat → F32 := fun i => sumUp c fun k => L i k *ᶠ L c k with hS
  have key := foldRange_inv_ok _ (fun m (l : Mat F32) => ∃ X : Nat → F32,
      MatIs l n n (fun i j => if j = c then X i else L i j) ∧
      (c < m → X c = Scalar.sqrt (A c c -ᶠ S c)) ∧
      (∀ i, c < i → i < m → X i = (lit 1 /ᶠ X c) *ᶠ (A i c -ᶠ S i)) ∧
      (∀ i, i < m → Finite (X i)))
    0 n (Nat.zero_le _) l1 l' ⟨fun i => if i = c then EPSILON else L i c,
      hl1.congr fun i j hi hj => by
        by_cases hj : j = c
        · subst hj
          by_cases hi' : i = j <;> simp [hi']
        · simp [hj],
      fun hm => by omega, fun i _ hi => by omega, fun i hi => by omega⟩ ?_ he
  · obtain ⟨X, hX, h2, h3, h4⟩ := key
    have h2 := h2 hc
    have hsum : ∀ i j, j ≤ c → sumUp j (fun k => (if k = c then X i else L i k) *ᶠ
        (if k = c then X j else L j k)) = sumUp j fun k => L i k *ᶠ L j k := fun i j hj =>
      sumUp_congr fun k hk => by rw [if_neg (by omega), if_neg (by omega)]
    refine ⟨_, hX, fun i j hj hi => ?_, fun i j hj1 hj2 hi => ?_, fun j hj => ?_, fun i j hj hji hi => ?_⟩
    · by_cases hjc : j = c
      · subst hjc; simpa using h4 i hi
      · simpa [hjc] using h.fin i j (by omega) hi
    · rw [if_neg (by omega)]
      exact h.later i j (by omega) hj2 hi
    · rw [hsum j j (by omega)]
      by_cases hjc : j = c
      · subst hjc
        rw [if_pos rfl, h2]
      · rw [if_neg hjc]
        exact h.diag j (by omega)
    · rw [hsum i j (by omega)]
      by_cases hjc : j = c
      · subst hjc
        rw [if_pos rfl, if_pos rfl, h3 i hji hi]
      · rw [if_neg hjc, if_neg hjc]
        exact h.low i j (by omega) hji hi
  · intro row l l' _ hrow ⟨X, hX, h2, h3, h4⟩ e
    have hdot : sumUp c (fun k => (if k = c then X row else L row k) *ᶠ (if k = c then X c else L c k)) =
        S row := sumUp_congr fun k hk => by rw [if_neg (by omega), if_neg (by omega)]
    rw [rowDot_f hX hrow hc hc.le, Res.ok_bind, hdot] at e
    have hput : ∀ x : F32, ∀ l', exec l (Mat.setElement row c x) = .ok l' →
        Finite x ∧ MatIs l' n n (fun i j => if j = c then (if i = row then x else X i) else L i j) := by
      intro x l' e
      refine ⟨(hX.exec_set_inv hrow hc e).1, (hX.exec_set_inv hrow hc e).2.congr fun i j _ _ => ?_⟩
      by_cases hi : i = row <;> by_cases hj : j = c <;> simp [hi, hj]
    by_cases hrc : row = c
    · subst hrc
      rw [if_pos rfl, ha.get row row hrow hrow, Res.ok_bind] at e
      obtain ⟨hf, hm⟩ := hput _ _ e
      refine ⟨_, hm, fun _ => ?_, fun i hi1 hi2 => by omega, fun i hi => ?_⟩
      · rw [if_pos rfl]
      · by_cases hir : i = row
        · rw [if_pos hir]; exact hf
        · rw [if_neg hir]; exact h4 i (by omega)
    · rw [if_neg hrc, hX.get c c hc hc, Res.ok_bind, if_pos rfl, ha.get row c hrow hc, Res.ok_bind] at e
      obtain ⟨hf, hm⟩ := hput _ _ e
      refine ⟨_, hm, fun hm => ?_, fun i hi1 hi2 => ?_, fun i hi => ?_⟩
      · rw [if_neg (by omega)]; exact h2 (by omega)
      · rw [if_neg (show c ≠ row by omega)]
        by_cases hir : i = row
        · subst hir
          rw [if_pos rfl]
        · rw [if_neg hir]; exact h3 i hi1 (by omega)
      · by_cases hir : i = row
        · rw [if_pos hir]; exact hf
        · rw [if_neg hir]; exact h4 i (by omega)

theorem chol_f {a l : Mat F32} {n : Nat} {A : Nat → Nat → F32} (ha : MatIs a n n A) (he : a.chol = .ok l) :
    ∃ L : Nat → Nat → F32, MatIs l n n L ∧ CholF n A n L := by
  unfold Mat.chol at he
  obtain ⟨b, _, he⟩ := Res.bind_eq_ok.mp he
  split at he
  · cases he
  rw [ha.rows_eq, ha.cols_eq, Mat.init_of ha, Res.ok_bind] at he
  exact foldRange_inv_ok _ (fun c (l : Mat F32) => ∃ L : Nat → Nat → F32,
    MatIs l n n L ∧ CholF n A c L) 0 n (Nat.zero_le _) _ _
    ⟨fun _ _ => lit 0, Mat.zeros_of ha, fun _ j hj => by omega, fun _ _ _ _ _ => rfl,
      fun j hj => by omega, fun _ j hj => by omega⟩
    (fun c l l' _ hc ⟨L, hL, h⟩ e => cholColumn_f ha hc hL h e) he

/-! ### Errors of one element -/

/-- The sum of products. -/
theorem dot_near {j : Nat} (hj : j ≤ 3) (x y : Nat → F32) (h : Finite (sumUp j fun k => x k *ᶠ y k)) :
    |⟪sumUp j fun k => x k *ᶠ y k⟫ - ∑ k ∈ range j, ⟪x k⟫ * ⟪y k⟫| ≤
      41 / 10 * ru * (∑ k ∈ range j, |⟪x k⟫ * ⟪y k⟫|) + 7 * rη := by
  obtain ⟨hf, hs⟩ := sumUp_near j _ (fun k => ⟪x k⟫ * ⟪y k⟫) h
  have hη := rη_pos
  refine hs.trans ?_
  have hD : ∑ k ∈ range j, |⟪x k *ᶠ y k⟫ - ⟪x k⟫ * ⟪y k⟫| ≤ ru * (∑ k ∈ range j, |⟪x k⟫ * ⟪y k⟫|) + j * rη := by
    calc _ ≤ ∑ k ∈ range j, (ru * |⟪x k⟫ * ⟪y k⟫| + rη) := sum_le_sum fun k hk => by
          obtain ⟨h1, h2⟩ := Propagates.mul_inv (hf k (mem_range.mp hk))
          exact Rounded.mul_near h1 h2 (hf k (mem_range.mp hk))
      _ = _ := by rw [sum_add_distrib, ← mul_sum]; simp
  have hA : 0 ≤ ∑ k ∈ range j, |⟪x k⟫ * ⟪y k⟫| := sum_nonneg fun _ _ => abs_nonneg _
  generalize ∑ k ∈ range j, |⟪x k⟫ * ⟪y k⟫| = A at *
  generalize ∑ k ∈ range j, |⟪x k *ᶠ y k⟫ - ⟪x k⟫ * ⟪y k⟫| = D at *
  rw [Linalg.ru_eq] at *
  interval_cases j <;> norm_num at hD ⊢ <;> linarith

/-- The difference that is divided or whose square root is taken. -/
theorem diff_real {A S b t T E : ℝ} (hT : 0 ≤ T) (hE : 0 ≤ E) (h : Near b (A - S)) (hs : |S - t| ≤ 41 / 10 * ru * T + 7 * rη)
    {z : ℝ} (hb : |b - z| ≤ 21 / 10 * ru * |z| + E) :
    |A - (t + z)| ≤ 5 * ru * (T + |z|) + 9 * rη + 2 * E := by
  unfold Near at h
  have hη := rη_pos
  have h1 : |A - S| ≤ |b| + |b - (A - S)| := by
    have := abs_sub_abs_le_abs_sub (A - S) b
    rw [abs_sub_comm (A - S) b] at this
    linarith
  have h2 : |b| ≤ |z| + |b - z| := by
    have := abs_sub_abs_le_abs_sub b z
    linarith
  have h3 : |A - (t + z)| ≤ |b - (A - S)| + |S - t| + |b - z| := by
    rw [show A - (t + z) = -(b - (A - S)) + (S - t) + (b - z) by ring]
    refine (abs_add_le _ _).trans (add_le_add ((abs_add_le _ _).trans ?_) le_rfl)
    rw [abs_neg]
  have h4 := abs_nonneg (S - t)
  have h5 := abs_nonneg z
  have h6 := abs_nonneg (b - z)
  simp only [Linalg.ru_eq] at *
  linarith

/-- An element below the diagonal: `x = (1/d)(a - s)` where `s` is near `t`. -/
theorem chol_low {d a s : F32} {t T : ℝ} (hd : Finite d) (hT : 0 ≤ T) (hd0 : 0 ≤ ⟪d⟫) (hdl : ⟪d⟫ ≤ 2 ^ 65)
    (h : Finite ((lit 1 /ᶠ d) *ᶠ (a -ᶠ s))) (hs : |⟪s⟫ - t| ≤ 41 / 10 * ru * T + 7 * rη) :
    |⟪a⟫ - (t + ⟪(lit 1 /ᶠ d) *ᶠ (a -ᶠ s)⟫ * ⟪d⟫)| ≤
      5 * ru * (T + |⟪(lit 1 /ᶠ d) *ᶠ (a -ᶠ s)⟫ * ⟪d⟫|) + 10 * rη * (1 + ⟪d⟫) := by
  have hη := rη_pos
  obtain ⟨h1, h2⟩ := Propagates.mul_inv h
  obtain ⟨h3, h4⟩ := Propagates.sub_inv h2
  have hne := F32.recip_inv hd h1
  have hpos : 0 < ⟪d⟫ := lt_of_le_of_ne hd0 (Ne.symm hne)
  have n1 := Rounded.div_near Rounded.one_finite hd hne h1
  have n2 := Rounded.sub_near h3 h4 h2
  have n3 := Rounded.mul_near h1 h2 h
  rw [Rounded.one_val] at n1
  generalize ⟪(lit 1 /ᶠ d) *ᶠ (a -ᶠ s)⟫ = x at *
  generalize ⟪(lit 1 : F32) /ᶠ d⟫ = r at *
  generalize ⟪a -ᶠ s⟫ = b at *
  generalize ⟪d⟫ = D at *
  have hηD : rη * D ≤ 1 / 1000 * ru := by
    have : rη * D ≤ rη * 2 ^ 65 := by gcongr
    refine this.trans ?_
    rw [rη_eq, Linalg.ru_eq]
    norm_num
  have k1 : |r * D - 1| ≤ 1001 / 1000 * ru := by
    unfold Near at n1
    have : r * D - 1 = (r - 1 / D) * D := by field_simp
    rw [this, abs_mul, abs_of_pos hpos]
    have := mul_le_mul_of_nonneg_right n1 hpos.le
    rw [abs_of_pos (by positivity : 0 < 1 / D)] at this
    have e : (ru * (1 / D) + rη) * D = ru + rη * D := by field_simp
    rw [e] at this
    linarith
  have k2 : |x * D - r * D * b| ≤ ru * (|r * D| * |b|) + rη * D := by
    unfold Near at n3
    have : x * D - r * D * b = (x - r * b) * D := by ring
    rw [this, abs_mul, abs_of_pos hpos]
    have := mul_le_mul_of_nonneg_right n3 hpos.le
    rw [abs_mul] at this
    rw [abs_mul, abs_of_pos hpos]
    linarith
  have k3 : |r * D| ≤ 1002 / 1000 := by
    have := abs_sub_abs_le_abs_sub (r * D) 1
    rw [abs_one] at this
    have hu : ru ≤ 1 / 10000 := by rw [Linalg.ru_eq]; norm_num
    linarith
  have hb0 := abs_nonneg b
  have hu : 0 < ru := by rw [Linalg.ru_eq]; norm_num
  have k4 : |x * D - b| ≤ 2004 / 1000 * ru * |b| + rη * D := by
    have e : x * D - b = (x * D - r * D * b) + (r * D - 1) * b := by ring
    have h1 : |(r * D - 1) * b| ≤ 1001 / 1000 * ru * |b| := by
      rw [abs_mul]; gcongr
    have h2 : ru * (|r * D| * |b|) ≤ ru * (1002 / 1000 * |b|) := by gcongr
    rw [e]
    refine (abs_add_le _ _).trans ?_
    have := mul_nonneg hu.le hb0
    linarith
  have k5 : |b - x * D| ≤ 21 / 10 * ru * |x * D| + 2 * (rη * D) := by
    have h1 : |b| ≤ |x * D| + |x * D - b| := by
      have := abs_sub_abs_le_abs_sub b (x * D)
      rw [abs_sub_comm b] at this
      linarith
    rw [abs_sub_comm]
    have : 0 ≤ rη * D := by positivity
    have := abs_nonneg (x * D)
    simp only [Linalg.ru_eq] at *
    linarith
  have := diff_real hT (by positivity) n2 hs k5
  have : 0 ≤ rη * D := by positivity
  linarith

/-- A diagonal element: `x = √(a - s)` where `s` is near `t`. -/
theorem chol_diag {a s : F32} {t T : ℝ} (hT : 0 ≤ T) (h : Finite (Scalar.sqrt (a -ᶠ s)))
    (hs : |⟪s⟫ - t| ≤ 41 / 10 * ru * T + 7 * rη) :
    0 ≤ ⟪Scalar.sqrt (a -ᶠ s)⟫ ∧ ⟪Scalar.sqrt (a -ᶠ s)⟫ ≤ 2 ^ 65 ∧
    |⟪a⟫ - (t + ⟪Scalar.sqrt (a -ᶠ s)⟫ * ⟪Scalar.sqrt (a -ᶠ s)⟫)| ≤
      5 * ru * (T + |⟪Scalar.sqrt (a -ᶠ s)⟫ * ⟪Scalar.sqrt (a -ᶠ s)⟫|) +
        10 * rη * (1 + ⟪Scalar.sqrt (a -ᶠ s)⟫) := by
  have hη := rη_pos
  obtain ⟨h1, h0⟩ := F32.sqrt_inv h
  obtain ⟨h3, h4⟩ := Propagates.sub_inv h1
  have n2 := Rounded.sub_near h3 h4 h1
  have hlt := F32.sub_lt h1
  have n3 := Rounded.sqrt_near h1 h0
  generalize ⟪Scalar.sqrt (a -ᶠ s)⟫ = x at *
  generalize ⟪a -ᶠ s⟫ = b at *
  rw [abs_of_nonneg h0] at hlt
  have hr0 := Real.sqrt_nonneg b
  have hr1 : √b ≤ 2 ^ 64 := by
    rw [show (2 : ℝ) ^ 64 = √(2 ^ 128) by rw [show (2 : ℝ) ^ 128 = (2 ^ 64) ^ 2 by norm_num]; simp]
    exact Real.sqrt_le_sqrt hlt.le
  have hsq := Real.mul_self_sqrt h0
  generalize √b = y at *
  have hab := abs_le.mp n3
  have hu : ru ≤ 1 / 1000 := by rw [Linalg.ru_eq]; norm_num
  have hu0 : 0 < ru := by rw [Linalg.ru_eq]; norm_num
  have hx0 : 0 ≤ x := by nlinarith
  refine ⟨hx0, ?_, ?_⟩
  · have : ru * y ≤ 1 * y := by gcongr; linarith
    have e : (2 : ℝ) ^ 65 = 2 * 2 ^ 64 := by norm_num
    rw [e]
    linarith
  · have k5 : |b - x * x| ≤ 21 / 10 * ru * |x * x| + 0 := by
      rw [abs_of_nonneg (mul_nonneg hx0 hx0), ← hsq, add_zero]
      have e : y * y - x * x = -((x - y) * (x + y)) := by ring
      rw [e, abs_neg, abs_mul, abs_of_nonneg (by linarith : 0 ≤ x + y)]
      have hy : y ≤ (1 + 1001 / 1000 * ru) * x := by
        have h2 : (1 - ru) * y ≤ x := by linarith
        have h3 : 1 ≤ (1 + 1001 / 1000 * ru) * (1 - ru) := by rw [Linalg.ru_eq]; norm_num
        calc y ≤ ((1 + 1001 / 1000 * ru) * (1 - ru)) * y := le_mul_of_one_le_left hr0 h3
          _ = (1 + 1001 / 1000 * ru) * ((1 - ru) * y) := by ring
          _ ≤ _ := by gcongr
      calc |x - y| * (x + y) ≤ ru * y * (x + y) := by gcongr
        _ ≤ ru * ((1 + 1001 / 1000 * ru) * x) * (x + (1 + 1001 / 1000 * ru) * x) := by gcongr
        _ = (ru * (1 + 1001 / 1000 * ru) * (2 + 1001 / 1000 * ru)) * (x * x) := by ring
        _ ≤ (21 / 10 * ru) * (x * x) := by
            refine mul_le_mul_of_nonneg_right ?_ (mul_nonneg hx0 hx0)
            rw [Linalg.ru_eq]
            norm_num
    have := diff_real hT (by positivity) n2 hs k5
    have : 0 ≤ rη * x := by positivity
    linarith

/-- The part on and below the diagonal of the matrix of values. -/
noncomputable def lowerPart {n : Nat} (L : Fin n → Fin n → F32) : Matrix (Fin n) (Fin n) ℝ :=
  fun i j => if j ≤ i then ⟪L i j⟫ else 0

/-- Row products of the part below the diagonal. -/
theorem lowerPart_sum {n : Nat} (L : Nat → Nat → F32) (G : ℝ → ℝ) (hG : G 0 = 0) {i j : Fin n} (hji : j ≤ i) :
    ∑ k : Fin n, G (lowerPart (fun i j : Fin n => L i j) i k * lowerPart (fun i j : Fin n => L i j) j k) =
      ∑ k ∈ range (j + 1), G (⟪L i k⟫ * ⟪L j k⟫) := by
  have e : ∀ k : Fin n, G (lowerPart (fun i j : Fin n => L i j) i k * lowerPart (fun i j : Fin n => L i j) j k) =
      (fun k : Nat => if k ≤ j.val then G (⟪L i k⟫ * ⟪L j k⟫) else 0) k := fun k => by
    simp only [lowerPart, Fin.le_def]
    by_cases hk : k.val ≤ j.val
    · have : k.val ≤ i.val := le_trans hk hji
      simp [hk, this]
    · simp [hk, hG]
  simp only [e]
  rw [← Finset.sum_range (fun k : Nat => if k ≤ j.val then G (⟪L i k⟫ * ⟪L j k⟫) else 0)]
  rw [← Finset.sum_filter]
  refine Finset.sum_congr ?_ fun _ _ => rfl
  ext k
  have := j.2
  simp only [mem_filter, mem_range]
  omega

/-- C100: a factor that `chol` returns in binary32.  Its diagonal is not negative, and on and below the diagonal the
argument is the product of the lower part of the factor and its transpose, up to a few units in the last
place of the product of the magnitudes. -/
theorem C100_lower {a l : Mat F32} {n : Nat} {A : Nat → Nat → F32} (ha : MatIs a n n A) (he : a.chol = .ok l) :
    ∃ L : Fin n → Fin n → F32, l.getRows = .ok n ∧ l.getCols = .ok n ∧
      (∀ i j : Fin n, l.getElement i j = .ok (L i j) ∧ Finite (L i j)) ∧ (∀ i : Fin n, 0 ≤ ⟪L i i⟫) ∧
      ∀ i j : Fin n, j ≤ i → |⟪A i j⟫ - (lowerPart L * (lowerPart L).transpose) i j| ≤
        5 / 2 ^ 24 * (absM (lowerPart L) * (absM (lowerPart L)).transpose) i j +
          10 / 2 ^ 150 * (1 + ⟪L j j⟫) := by
  obtain ⟨L, hL, h⟩ := chol_f ha he
  have h4 := ha.rle
  have hdot : ∀ i j : Fin n, j ≤ i → Finite (sumUp j fun k => L i k *ᶠ L j k) := by
    intro i j hji
    rcases eq_or_lt_of_le hji with rfl | hlt
    · have hf := h.fin j j j.2 j.2
      rw [h.diag j j.2] at hf
      exact (Propagates.sub_inv (F32.sqrt_inv hf).1).2
    · have hf := h.fin i j j.2 i.2
      rw [h.low i j j.2 hlt i.2] at hf
      exact (Propagates.sub_inv (Propagates.mul_inv hf).2).2
  have hdiag : ∀ j : Fin n, 0 ≤ ⟪L j j⟫ ∧ ⟪L j j⟫ ≤ 2 ^ 65 ∧
      |⟪A j j⟫ - ((∑ k ∈ range j, ⟪L j k⟫ * ⟪L j k⟫) + ⟪L j j⟫ * ⟪L j j⟫)| ≤
        5 * ru * ((∑ k ∈ range j, |⟪L j k⟫ * ⟪L j k⟫|) + |⟪L j j⟫ * ⟪L j j⟫|) + 10 * rη * (1 + ⟪L j j⟫) := by
    intro j
    have hf := h.fin j j j.2 j.2
    have hj : j.val ≤ 3 := by omega
    rw [h.diag j j.2] at hf ⊢
    exact chol_diag (sum_nonneg fun _ _ => abs_nonneg _) hf (dot_near hj _ _ (hdot j j le_rfl))
  refine ⟨fun i j => L i j, hL.rows, hL.cols, fun i j => ⟨hL.get i j i.2 j.2, h.fin i j j.2 i.2⟩,
    fun i => (hdiag i).1, fun i j hji => ?_⟩
  have s1 := lowerPart_sum L (fun x => x) rfl hji
  have s2 := lowerPart_sum L (fun x => |x|) abs_zero hji
  have e1 : (lowerPart (fun i j : Fin n => L i j) * (lowerPart fun i j : Fin n => L i j).transpose) i j =
      ∑ k ∈ range (j + 1), ⟪L i k⟫ * ⟪L j k⟫ := by
    rw [Matrix.mul_apply, ← s1]
    rfl
  have e2 : (absM (lowerPart fun i j : Fin n => L i j) *
      (absM (lowerPart fun i j : Fin n => L i j)).transpose) i j = ∑ k ∈ range (j + 1), |⟪L i k⟫ * ⟪L j k⟫| := by
    rw [Matrix.mul_apply, ← s2]
    refine Finset.sum_congr rfl fun k _ => ?_
    simp only [absM, Matrix.transpose_apply, abs_mul]
  rw [e1, e2, Finset.sum_range_succ, Finset.sum_range_succ]
  have hu : (5 : ℝ) / 2 ^ 24 = 5 * ru := by rw [Linalg.ru_eq]; norm_num
  have hη : (10 : ℝ) / 2 ^ 150 = 10 * rη := by rw [rη_eq]; ring
  rw [hu, hη]
  rcases eq_or_lt_of_le hji with rfl | hlt
  · exact (hdiag j).2.2
  · have hf := h.fin i j j.2 i.2
    have hj : j.val ≤ 3 := by omega
    have hdf := h.fin j j j.2 j.2
    rw [h.low i j j.2 hlt i.2] at hf ⊢
    exact chol_low hdf (sum_nonneg fun _ _ => abs_nonneg _) (hdiag j).1 (hdiag j).2.1 hf (dot_near hj _ _ (hdot i j hji))

/-- C100: the error in terms of the diagonal of the argument alone. -/
theorem C100_stable {a l : Mat F32} {n : Nat} {A : Nat → Nat → F32} (ha : MatIs a n n A) (he : a.chol = .ok l) :
    ∃ L : Fin n → Fin n → F32, (∀ i j : Fin n, l.getElement i j = .ok (L i j)) ∧
      (∀ i : Fin n, -1 / 2 ^ 146 ≤ ⟪A i i⟫) ∧
      ∀ i j : Fin n, j ≤ i → |⟪A i j⟫ - (lowerPart L * (lowerPart L).transpose) i j| ≤
        6 / 2 ^ 24 * √((⟪A i i⟫ + 1 / 2 ^ 146) * (⟪A j j⟫ + 1 / 2 ^ 146)) + 1 / 2 ^ 146 * (1 + ⟪A j j⟫) := by
  obtain ⟨L, _, _, h1, h2, h3⟩ := C100_lower ha he
  set D : Fin n → ℝ := fun i => ∑ k, lowerPart L i k ^ 2 with hD
  have hη := rη_pos
  have hη1 : rη ≤ 1 / 10 ^ 6 := by rw [rη_eq]; norm_num
  have hu0 : 0 < ru := by rw [Linalg.ru_eq]; norm_num
  have e5 : (5 : ℝ) / 2 ^ 24 = 5 * ru := by rw [Linalg.ru_eq]; norm_num
  have e6 : (6 : ℝ) / 2 ^ 24 = 6 * ru := by rw [Linalg.ru_eq]; norm_num
  have e10 : (10 : ℝ) / 2 ^ 150 = 10 * rη := by rw [rη_eq]; ring
  have e16 : (1 : ℝ) / 2 ^ 146 = 16 * rη := by rw [rη_eq]; norm_num
  have e16' : (-1 : ℝ) / 2 ^ 146 = -(16 * rη) := by rw [← e16]; ring
  simp only [e5, e6, e10, e16, e16'] at *
  have hD0 : ∀ i, 0 ≤ D i := fun i => sum_nonneg fun _ _ => sq_nonneg _
  have hself : ∀ i, (lowerPart L * (lowerPart L).transpose) i i = D i := fun i => by
    rw [Matrix.mul_apply]
    exact sum_congr rfl fun k _ => by rw [Matrix.transpose_apply]; ring
  have hselfa : ∀ i, (absM (lowerPart L) * (absM (lowerPart L)).transpose) i i = D i := fun i => by
    rw [Matrix.mul_apply]
    exact sum_congr rfl fun k _ => by
      rw [Matrix.transpose_apply]; simp only [absM]; rw [abs_mul_abs_self]; ring
  have hLD : ∀ i, ⟪L i i⟫ ≤ (1 + D i) / 2 := fun i => by
    have : ⟪L i i⟫ ^ 2 ≤ D i := by
      have h : lowerPart L i i ^ 2 ≤ D i :=
        single_le_sum (f := fun k => lowerPart L i k ^ 2) (fun k _ => sq_nonneg _) (mem_univ i)
      rwa [show lowerPart L i i = ⟪L i i⟫ by simp [lowerPart]] at h
    nlinarith [sq_nonneg (⟪L i i⟫ - 1)]
  have hbound : ∀ i, D i ≤ (1 + 51 / 10 * ru) * (⟪A i i⟫ + 16 * rη) := fun i => by
    have h4 := h3 i i le_rfl
    rw [hself, hselfa] at h4
    have h5 := (abs_le.mp h4).1
    have h6 : 10 * rη * (1 + ⟪L i i⟫) ≤ 15 * rη + 5 * rη * D i := by nlinarith [hLD i]
    have h7 : rη * D i ≤ 1 / 1000 * ru * D i := by
      refine mul_le_mul_of_nonneg_right ?_ (hD0 i)
      rw [rη_eq, Linalg.ru_eq]; norm_num
    have h8 : (1 - 501 / 100 * ru) * D i ≤ ⟪A i i⟫ + 16 * rη := by
      have := mul_nonneg hu0.le (hD0 i)
      linarith
    have h9 : 1 ≤ (1 + 51 / 10 * ru) * (1 - 501 / 100 * ru) := by rw [Linalg.ru_eq]; norm_num
    calc D i ≤ ((1 + 51 / 10 * ru) * (1 - 501 / 100 * ru)) * D i := le_mul_of_one_le_left (hD0 i) h9
      _ = (1 + 51 / 10 * ru) * ((1 - 501 / 100 * ru) * D i) := by ring
      _ ≤ _ := by gcongr
  have hA0 : ∀ i : Fin n, 0 ≤ ⟪A i i⟫ + 16 * rη := fun i => by
    have := (hD0 i).trans (hbound i)
    exact nonneg_of_mul_nonneg_right this (by positivity)
  refine ⟨L, fun i j => (h1 i j).1, fun i => by linarith [hA0 i], fun i j hji => ?_⟩
  have hcs : (absM (lowerPart L) * (absM (lowerPart L)).transpose) i j ≤ √(D i) * √(D j) := by
    rw [Matrix.mul_apply]
    have := Real.sum_mul_le_sqrt_mul_sqrt univ (absM (lowerPart L) i) (absM (lowerPart L) j)
    simpa [absM, sq_abs, hD] using this
  have hsq : √(D i) * √(D j) ≤ (1 + 51 / 10 * ru) * √((⟪A i i⟫ + 16 * rη) * (⟪A j j⟫ + 16 * rη)) := by
    rw [← Real.sqrt_mul (hD0 i)]
    have hw : 0 ≤ 1 + 51 / 10 * ru := by positivity
    conv_rhs => rw [← Real.sqrt_sq hw]
    rw [← Real.sqrt_mul (sq_nonneg _)]
    refine Real.sqrt_le_sqrt ?_
    calc D i * D j ≤ ((1 + 51 / 10 * ru) * (⟪A i i⟫ + 16 * rη)) * ((1 + 51 / 10 * ru) * (⟪A j j⟫ + 16 * rη)) :=
          mul_le_mul (hbound i) (hbound j) (hD0 j) (mul_nonneg hw (hA0 i))
      _ = _ := by ring
  refine (h3 i j hji).trans (add_le_add ?_ ?_)
  · have hs := Real.sqrt_nonneg ((⟪A i i⟫ + 16 * rη) * (⟪A j j⟫ + 16 * rη))
    have := hcs.trans hsq
    have h5 : 5 * ru * (1 + 51 / 10 * ru) ≤ 6 * ru := by rw [Linalg.ru_eq]; norm_num
    calc _ ≤ 5 * ru * ((1 + 51 / 10 * ru) * √((⟪A i i⟫ + 16 * rη) * (⟪A j j⟫ + 16 * rη))) := by gcongr
      _ = 5 * ru * (1 + 51 / 10 * ru) * √((⟪A i i⟫ + 16 * rη) * (⟪A j j⟫ + 16 * rη)) := by ring
      _ ≤ _ := by gcongr
  · have h5 : D j ≤ 11 / 10 * (⟪A j j⟫ + 16 * rη) := by
      refine (hbound j).trans ?_
      have := hA0 j
      gcongr
      rw [Linalg.ru_eq]; norm_num
    have h6 := hLD j
    have h7 := hA0 j
    have : 10 * rη * (1 + ⟪L j j⟫) ≤ 10 * rη * (1 + (1 + 11 / 10 * (⟪A j j⟫ + 16 * rη)) / 2) := by
      gcongr
      linarith
    nlinarith [mul_nonneg hη.le h7]

/-! ### Above the diagonal -/

/-- The rows of the factor of a matrix of literals. -/
def cholRows (l : List (List ℚ)) : Res LinalgError (List F32) := do
  let m ← (fmat l).chol
  ((List.range l.length).flatMap fun i => (List.range l.length).map fun j => (i, j)).mapM
    fun p => m.getElement p.1 p.2

/-- Beside `C100_lower` and `C100_stable`: a factor with rounded elements. -/
example : cholRows [[3, 1], [1, 3]] = .ok [⟨.fin (14529495 / 8388608)⟩, ⟨.fin (625 / 1048576)⟩,
    ⟨.fin (4843165 / 8388608)⟩, ⟨.fin (3424635 / 2097152)⟩] := by
  decide +kernel

/-- C100: for the matrix of rows (3, 1) and (1, 3) the result of `chol` does not pass the library's own test for
lower triangular matrices. -/
theorem C100_not_triangular : ∃ l : Mat F32, (fmat [[3, 1], [1, 3]]).chol = .ok l ∧
    l.isLowerTriangular = .ok false := by
  have h : ((fmat [[3, 1], [1, 3]]).chol >>= fun l => l.isLowerTriangular) = .ok false := by decide +kernel
  exact Res.bind_eq_ok.mp h

/-- C100: what stands above the diagonal is not a small error.  The matrix is symmetric with elements
up to 4 and its eigenvalues are at least 1, but the last element of the first row of the factor exceeds 11900. -/
theorem C100_upper : ∃ (a l : Mat F32) (A : Nat → Nat → F32) (x : F32),
    MatIs a 4 4 A ∧ (∀ i j : Fin 4, A i j = A j i ∧ |⟪A i j⟫| ≤ 4) ∧
    (∀ v : Fin 4 → ℝ, ∑ i, v i ^ 2 ≤ ∑ i : Fin 4, ∑ j : Fin 4, v i * ⟪A i j⟫ * v j) ∧
    a.chol = .ok l ∧ l.getElement 0 3 = (.ok x : Res LinalgError F32) ∧ 11900 ≤ ⟪x⟫ := by
  have h : ((fmat [[3, 1, 1, 1], [1, 3, 2, 1], [1, 2, 3, 1], [1, 1, 1, 4]]).chol >>= fun l =>
      l.getElement 0 3) = .ok ⟨.fin (12214069 / 1024)⟩ := by decide +kernel
  obtain ⟨l, h1, h2⟩ := Res.bind_eq_ok.mp h
  have v1 : ⟪(lit 1 : F32)⟫ = 1 := Rounded.one_val
  have v2 : ⟪(lit 2 : F32)⟫ = 2 := Rounded.two_val
  have v3 : ⟪(lit 3 : F32)⟫ = 3 := by rw [val_lit (by decide +kernel)]; norm_num
  have v4 : ⟪(lit 4 : F32)⟫ = 4 := by rw [val_lit (by decide +kernel)]; norm_num
  refine ⟨_, l, fun i j => (lit ((([[3, 1, 1, 1], [1, 3, 2, 1], [1, 2, 3, 1], [1, 1, 1, 4]] :
      List (List ℚ)).getD i []).getD j 0) : F32), _,
    Mat.of_is _ (by decide) (by decide) (by decide) (by decide), fun i j => ⟨?_, ?_⟩, fun v => ?_, h1, h2, ?_⟩
  · revert i j
    decide +kernel
  · fin_cases i <;> fin_cases j <;> simp [v1, v2, v3, v4] <;> norm_num
  · simp only [Fin.sum_univ_four, Fin.isValue, Fin.val_zero, Fin.val_one, Fin.val_two, show ((3 : Fin 4) : ℕ) = 3 from rfl,
      List.getD_cons_zero, List.getD_cons_succ, v1, v2, v3, v4]
    nlinarith [sq_nonneg (v 0 + v 1 + v 2), sq_nonneg (v 0 + v 3), sq_nonneg (v 1 + v 2 + v 3), sq_nonneg (v 3)]
  · show (11900 : ℝ) ≤ ((12214069 / 1024 : ℚ) : ℝ)
    norm_num

end Verif
