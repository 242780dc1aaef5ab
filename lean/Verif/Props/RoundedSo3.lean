import Verif.Props.LupRefused
import Verif.Props.RoundedDcm
import Verif.Props.RoundedQuatInv

/-
`is_orthogonal` and `is_so_n` in binary32 (C122).
-/

set_option linter.unusedSectionVars false
set_option linter.unusedSimpArgs false
set_option linter.unusedVariables false

namespace Verif
open Scalar Finset Rounded

theorem foldFrom_one {ε β : Type} (lo : Nat) (body : Nat → β → Res ε β) (acc : β) :
    foldFrom lo 1 body acc = body lo acc := by
  rw [show (1 : Nat) = 0 + 1 from rfl, foldFrom_succ]
  cases body lo acc <;> rfl

theorem foldRange_two {ε β : Type} (body : Nat → β → Res ε β) (acc : β) :
    foldRange 0 2 body acc = (body 0 acc >>= fun x => body 1 x) := by
  unfold foldRange
  rw [show 2 - 0 = 1 + 1 from rfl, foldFrom_succ]
  congr 1
  funext x
  exact foldFrom_one _ _ _

theorem foldRange_three {ε β : Type} (body : Nat → β → Res ε β) (acc : β) :
    foldRange 0 3 body acc = (body 0 acc >>= fun x => body 1 x >>= fun x => body 2 x) := by
  unfold foldRange
  rw [show 3 - 0 = 2 + 1 from rfl, foldFrom_succ]
  congr 1
  funext x
  rw [show 2 = 1 + 1 from rfl, foldFrom_succ]
  congr 1
  funext x
  exact foldFrom_one _ _ _

namespace Linalg
section
variable {F : Type} [Scalar F] {lu : Mat F} {p : Vec Nat} {n : Nat} {π : Nat → Nat} {f : Nat → Nat → F}

/-- Elimination of row `π i` with pivot row `π s` succeeds if its results are finite. -/
theorem lupElimRow_run (hl : MatIs lu n n f) (hp : U8Is p n π) (hπ : PermOn n π) {s i : Nat}
    (hs : s < n) (hi : i < n) (hne : i ≠ s) (g1 : Finite (f (π i) s /ᶠ f (π s) s))
    (g2 : ∀ b, s < b → b < n → Finite (f (π i) b -ᶠ (f (π s) b *ᶠ (f (π i) s /ᶠ f (π s) s)))) :
    ∃ lu', lupElimRow p n s i lu = .ok lu' ∧ MatIs lu' n n (fun a b =>
        if a = π i then
          if b < s then f a b
          else if b = s then f a s /ᶠ f (π s) s
          else f a b -ᶠ (f (π s) b *ᶠ (f a s /ᶠ f (π s) s))
        else f a b) := by
  have hπi := hπ.lt i hi
  have hπs := hπ.lt s hs
  have hne' : π s ≠ π i := fun h => hne (hπ.inj s i hs hi h).symm
  unfold lupElimRow
  simp only [hp.get i hi, hp.get s hs, Res.ok_bind, hl.get _ _ hπi hs, hl.get _ _ hπs hs]
  obtain ⟨l1, h1, h2⟩ := hl.exec_set hπi hs g1
  rw [h1, Res.ok_bind]
  obtain ⟨l2, h3, h4⟩ := foldRange_inv (ε := LinalgError)
    (fun k (lu : Mat F) => do
      exec lu (Mat.setElement (π i) k
        ((← lu.getElement (π i) k) -ᶠ ((← lu.getElement (π s) k) *ᶠ (← lu.getElement (π i) s)))))
    (fun k (l : Mat F) => MatIs l n n (fun a b =>
        if a = π i then
          if b < s then f a b
          else if b = s then f a s /ᶠ f (π s) s
          else if b < k then f a b -ᶠ (f (π s) b *ᶠ (f a s /ᶠ f (π s) s))
          else f a b
        else f a b)) (s + 1) n hs l1
    (h2.congr fun a b _ _ => by
      by_cases ha : a = π i
      · subst ha
        by_cases hb : b = s
        · subst hb; simp
        · by_cases h : b < s
          · simp [hb, h]
          · have : ¬ b < s + 1 := by omega
            simp [hb, h, this]
      · simp [ha])
    (fun k l hk1 hk2 hI => by
      have c1 : ¬ k < s := by omega
      have c2 : k ≠ s := by omega
      simp only [hI.get _ _ hπi hk2, hI.get _ _ hπs hk2, hI.get _ _ hπi hs, Res.ok_bind, if_true,
        hne', if_false, c1, c2, lt_irrefl]
      obtain ⟨l', h5, h6⟩ := hI.exec_set hπi hk2 (g2 k (by omega) hk2)
      refine ⟨l', h5, h6.congr fun a b _ _ => ?_⟩
      by_cases ha : a = π i
      · subst ha
        by_cases hb : b = k
        · subst hb; simp [c1, c2]
        · have : b < k + 1 ↔ b < k := by omega
          simp [hb, this]
      · simp [ha])
  refine ⟨l2, h3, h4.congr fun a b _ hb => ?_⟩
  simp [hb]

/-- The elimination below the pivot of column `s` succeeds if its results are finite. -/
theorem lupElim_run (hl : MatIs lu n n f) (hp : U8Is p n π) (hπ : PermOn n π) {s : Nat} (hs : s < n)
    (g1 : ∀ i, s < i → i < n → Finite (f (π i) s /ᶠ f (π s) s))
    (g2 : ∀ i b, s < i → i < n → s < b → b < n →
      Finite (f (π i) b -ᶠ (f (π s) b *ᶠ (f (π i) s /ᶠ f (π s) s)))) :
    ∃ lu', foldRange (s + 1) n (lupElimRow p n s) lu = .ok lu' := by
  obtain ⟨l, h1, u', h2, h3, h5⟩ := foldRange_inv (ε := LinalgError) (lupElimRow p n s)
    (fun k (l : Mat F) => ∃ u' : Nat → Nat → F, MatIs l n n u' ∧
      (∀ j, u' (π s) j = f (π s) j) ∧ (∀ i j, k ≤ i → i < n → u' (π i) j = f (π i) j))
    (s + 1) n hs lu ⟨f, hl, fun _ => rfl, fun _ _ _ _ => rfl⟩
    (fun k l hk1 hk2 ⟨u', h2, h3, h5⟩ => by
      obtain ⟨l', h6, h7⟩ := lupElimRow_run h2 hp hπ hs hk2 (by omega)
        (by rw [h3, h5 k _ le_rfl hk2]; exact g1 k (by omega) hk2)
        (fun b hb hb' => by rw [h3, h3, h5 k _ le_rfl hk2, h5 k _ le_rfl hk2]; exact g2 k b (by omega) hk2 hb hb')
      refine ⟨l', h6, _, h7, ?_, ?_⟩
      · intro j
        have : π s ≠ π k := fun h => by have := hπ.inj s k hs hk2 h; omega
        simp only [this, if_false, h3]
      · intro i j hi hin
        have : π i ≠ π k := fun h => by have := hπ.inj i k hin hk2 h; omega
        simp only [this, if_false, h5 i j (by omega) hin])
  exact ⟨l, h1⟩

variable [R : Rounded F]

/-- A step of `lup`: refused, or done if its results are finite. -/
theorem lupStep_run (hl : MatIs lu n n f) (hp : U8Is p n π) (hπ : PermOn n π)
    (hfin : ∀ i j, i < n → j < n → Finite (f i j)) {s q : Nat} (hs : s + 1 < n)
    (e1 : lupPivot lu p s n = .ok q) (hq : q < n) :
    (|⟪f (π q) s⟫| < ⟪(EPSILON : F)⟫ ∧ lupStep n n s (lu, p) = .error (.err .Singular)) ∨
    (⟪(EPSILON : F)⟫ ≤ |⟪f (π q) s⟫| ∧
      ((∀ i, s < i → i < n → Finite (f (if i = q then π s else π i) s /ᶠ f (π q) s)) →
       (∀ i b, s < i → i < n → s < b → b < n → Finite (f (if i = q then π s else π i) b -ᶠ
          (f (π q) b *ᶠ (f (if i = q then π s else π i) s /ᶠ f (π q) s)))) →
       ∃ st', lupStep n n s (lu, p) = .ok st')) := by
  have hsn : s < n := by omega
  obtain ⟨p', e2, hp'⟩ := lupSwap_ok hp hsn hq
  have hπ' := hπ.swap hsn hq
  have hs' : (if s = q then π s else if s = s then π q else π s) = π q := by
    by_cases hsq : s = q <;> simp [hsq]
  have hps : p'.getElementU8 s = .ok (π q) := (hp'.get s hsn).trans (congrArg _ hs')
  have hfq := hfin _ _ (hπ.lt q hq) hsn
  unfold lupStep
  simp only [e1, e2, Res.ok_bind, hps, hl.get _ _ (hπ.lt q hq) hsn]
  have hiff : (EPSILON >ᶠ Scalar.abs (f (π q) s)) = true ↔ |⟪f (π q) s⟫| < ⟪(EPSILON : F)⟫ := by
    rw [← R.abs_val hfq]
    exact R.lt_val (R.abs_finite hfq) R.eps_finite
  by_cases hpiv : |⟪f (π q) s⟫| < ⟪(EPSILON : F)⟫
  · exact .inl ⟨hpiv, by rw [if_pos (hiff.mpr hpiv)]⟩
  · refine .inr ⟨not_lt.mp hpiv, fun g1 g2 => ?_⟩
    rw [if_neg (fun h => hpiv (hiff.mp h))]
    obtain ⟨lu', e⟩ := lupElim_run hl hp' hπ' hsn
      (fun i hi hin => by
        have hne : i ≠ s := by omega
        have := g1 i hi hin
        simp only [hs', hne, if_false] at this ⊢
        rw [show (if s = q then π s else if True then π q else π s) = π q by simpa using hs']
        exact this)
      (fun i b hi hin hb hbn => by
        have hne : i ≠ s := by omega
        have := g2 i b hi hin hb hbn
        simp only [hs', hne, if_false] at this ⊢
        rw [show (if s = q then π s else if True then π q else π s) = π q by simpa using hs']
        exact this)
    exact ⟨(lu', p'), by rw [e]; rfl⟩

/-- `lup` up to its main loop. -/
theorem lup_start_run {a : Mat F} {A : Nat → Nat → F} (ha : MatIs a n n A)
    (hfin : ∀ i j, i < n → j < n → Finite (A i j)) :
    ∃ l p, MatIs l n n A ∧ U8Is p n (fun i => i) ∧ lup a = foldRange 0 (n - 1) (lupStep n n) (l, p) := by
  unfold lup
  obtain ⟨p0, e2, hp0⟩ := Vec.init_newU8 ha.rpos ha.rle
  obtain ⟨p1, e3, hp1⟩ := foldRange_inv (ε := LinalgError)
    (fun row (p : Vec Nat) => exec p (Vec.setElementU8 row row))
    (fun k (p : Vec Nat) => U8Is p n (fun i => if i < k then i else 0)) 0 n (Nat.zero_le _) p0
    (hp0.congr fun i _ => by simp)
    (fun k p _ hk hI => by
      obtain ⟨p', h1, h2⟩ := hI.exec_set k hk
      refine ⟨p', h1, h2.congr fun i _ => ?_⟩
      by_cases h : i = k
      · simp [h]
      · have : i < k + 1 ↔ i < k := by omega
        simp [h, this])
  obtain ⟨l, e1, hl⟩ := Mat.exec_of_stores (Mat.copyFrom_stores (Mat.zeros_of ha) ha) (Mat.zeros_of ha) hfin
  refine ⟨l, p1, hl, hp1.congr fun i hi => by simp [hi], ?_⟩
  simp only [ha.rows, ha.cols, Res.ok_bind, Mat.init_of ha, e1, e2, e3, u8Sub_ok ha.rpos]

end
end Linalg

section
variable {F : Type} [Scalar F] [R : Rounded F] {a : Mat F} {A : Nat → Nat → F} {q i j : Nat}

/-- The element that the elimination of column 0 with row `q` leaves at row `k`, column `c`. -/
def left1 (A : Nat → Nat → F) (q k c : Nat) : F := A k c -ᶠ (A q c *ᶠ (A k 0 /ᶠ A q 0))

/-- The last pivot. -/
def left2 (A : Nat → Nat → F) (q s t : Nat) : F :=
  left1 A q t 2 -ᶠ (left1 A q s 2 *ᶠ (left1 A q t 1 /ᶠ left1 A q s 1))

/-- The product of the pivots, as `det` multiplies them. -/
def prod3 (A : Nat → Nat → F) (q s t : Nat) : F := lit 1 *ᶠ A q 0 *ᶠ left1 A q s 1 *ᶠ left2 A q s t

omit R in
/-- `det` of a 3×3 matrix from its factors. -/
theorem det3_tail (ha : MatIs a 3 3 A) {lu : Mat F} {p : Vec Nat} {π : Nat → Nat} {f : Nat → Nat → F}
    (h : Linalg.lup a = .ok (lu, p)) (hl : MatIs lu 3 3 f) (hp : U8Is p 3 π) (hπ : PermOn 3 π) {x : F}
    (hx : lit 1 *ᶠ f (π 0) 0 *ᶠ f (π 1) 1 *ᶠ f (π 2) 2 = x) {b : Prop} [Decidable b]
    (hb : (π 0 = 0 ∧ π 1 = 1 ∧ π 2 = 2) ∨ (π 0 ≠ 0 ∧ π 1 ≠ 1 ∧ π 2 ≠ 2) ↔ b) :
    a.det = .ok (if b then x else Scalar.neg x) := by
  unfold Mat.det
  simp only [Mat.isSquare_eq ha, Res.ok_bind, decide_true, Bool.not_true, Bool.false_eq_true, if_false,
    h, ha.rows_eq, foldRange_three]
  have k0 := hπ.lt 0 (by omega)
  have k1 := hπ.lt 1 (by omega)
  have k2 := hπ.lt 2 (by omega)
  have i01 := hπ.inj 0 1 (by omega) (by omega)
  have i02 := hπ.inj 0 2 (by omega) (by omega)
  have i12 := hπ.inj 1 2 (by omega) (by omega)
  simp only [hp.get 0 (by omega), hp.get 1 (by omega), hp.get 2 (by omega), Res.ok_bind,
    hl.get _ _ k0 (show 0 < 3 by omega), hl.get _ _ k1 (show 1 < 3 by omega),
    hl.get _ _ k2 (show 2 < 3 by omega), Nat.reduceAdd, hx]
  rcases Classical.em b with hb' | hb'
  · rw [if_pos hb']
    rcases hb.mpr hb' with ⟨h0, h1, h2⟩ | ⟨h0, h1, h2⟩
    · simp [h0, h1, h2, Res.ok_bind]
    · simp [h0, h1, h2, Res.ok_bind]
  · rw [if_neg hb']
    have hn := fun h => hb' (hb.mp h)
    have : (π 0 ≠ 0 ∧ π 1 ≠ 1 ∧ π 2 = 2) ∨ (π 0 ≠ 0 ∧ π 1 = 1 ∧ π 2 ≠ 2) ∨ (π 0 = 0 ∧ π 1 ≠ 1 ∧ π 2 ≠ 2) := by
      by_cases h0 : π 0 = 0 <;> by_cases h1 : π 1 = 1 <;> by_cases h2 : π 2 = 2 <;>
        first | (exfalso; apply hn; simp [h0, h1, h2]; done) | (simp [h0, h1, h2]; done) | (exfalso; omega)
    rcases this with ⟨h0, h1, h2⟩ | ⟨h0, h1, h2⟩ | ⟨h0, h1, h2⟩ <;> simp [h0, h1, h2, Res.ok_bind]

/-- `det` of a 3×3 matrix of finite numbers: which rows become the pivots, when it fails, and what it returns. -/
theorem det3_run (ha : MatIs a 3 3 A) (hfin : ∀ i j, i < 3 → j < 3 → Finite (A i j))
    (hq : (q = 0 ∧ i = 1 ∧ j = 2) ∨ (q = 1 ∧ i = 0 ∧ j = 2) ∨ (q = 2 ∧ i = 1 ∧ j = 0))
    (hmax : ∀ k, k < 3 → ⟪A k 0⟫ ≤ ⟪A q 0⟫) (hfirst : ∀ k, k < q → ⟪A k 0⟫ < ⟪A q 0⟫) :
    (|⟪A q 0⟫| < ⟪(EPSILON : F)⟫ → a.det = .error (.err .Singular)) ∧
    (⟪(EPSILON : F)⟫ ≤ |⟪A q 0⟫| →
      (∀ k, k < 3 → k ≠ q → Finite (A k 0 /ᶠ A q 0) ∧ Finite (left1 A q k 1) ∧ Finite (left1 A q k 2)) →
      ∃ s t, ((s = i ∧ t = j ∧ ⟪left1 A q j 1⟫ ≤ ⟪A i 0 /ᶠ A q 0⟫) ∨ (s = j ∧ t = i ∧ ⟪A i 0 /ᶠ A q 0⟫ < ⟪left1 A q j 1⟫)) ∧
        ((|⟪left1 A q s 1⟫| < ⟪(EPSILON : F)⟫ ∧ a.det = .error (.err .Singular)) ∨
         (⟪(EPSILON : F)⟫ ≤ |⟪left1 A q s 1⟫| ∧
          (Finite (left1 A q t 1 /ᶠ left1 A q s 1) → Finite (left2 A q s t) →
            a.det = .ok (if s = (q + 1) % 3 then prod3 A q s t else Scalar.neg (prod3 A q s t)))))) := by
  obtain ⟨l, p, hl, hp, e⟩ := Linalg.lup_start_run ha hfin
  have hπ : PermOn 3 (fun i => i) := ⟨fun _ h => h, fun _ _ _ _ h => h⟩
  obtain ⟨q', e1, hq', hmax', hfirst'⟩ := Linalg.lupPivot_zero_val hl hp hπ hfin (by omega)
  have hqq : q' = q := by
    rcases lt_trichotomy q' q with h | h | h
    · exact absurd (hmax' q (by omega)) (not_le.mpr (hfirst q' h))
    · exact h
    · exact absurd (hmax q' hq') (not_le.mpr (hfirst' q h))
  subst hqq
  have hsing : Linalg.lup a = .error (.err .Singular) → a.det = .error (.err .Singular) := fun h => by
    unfold Mat.det
    simp only [Mat.isSquare_eq ha, Res.ok_bind, decide_true, Bool.not_true, Bool.false_eq_true, if_false, h]
    rfl
  have e' : Linalg.lup a = (Linalg.lupStep 3 3 0 (l, p) >>= fun st => Linalg.lupStep 3 3 1 st) := by
    rw [e]
    exact foldRange_two _ _
  rcases Linalg.lupStep_run hl hp hπ hfin (s := 0) (by omega) e1 hq' with ⟨h1, h2⟩ | ⟨h1, h2⟩
  · exact ⟨fun _ => hsing (by rw [e', h2]; rfl), fun h => absurd h (not_le.mpr h1)⟩
  refine ⟨fun h => absurd h1 (not_le.mpr h), fun _ hfl => ?_⟩
  have hk : ∀ k, 0 < k → k < 3 → (if k = q' then 0 else k) < 3 ∧ (if k = q' then 0 else k) ≠ q' := fun k h h' => by
    split <;> constructor <;> omega
  obtain ⟨st1, e2⟩ := h2 (fun k h h' => (hfl _ (hk k h h').1 (hk k h h').2).1) (fun k b h h' hb hb' => by
    have := hfl _ (hk k h h').1 (hk k h h').2
    rcases (show b = 1 ∨ b = 2 by omega) with rfl | rfl
    · exact this.2.1
    · exact this.2.2)
  obtain ⟨_, f1, hl1, hp1, hπ1, f1a, f1b, f1fin⟩ := Linalg.lupStep_val hl hp hπ hfin (s := 0) (by omega) e1 hq' e2
  obtain ⟨l1, p1⟩ := st1
  dsimp only at hl1 hp1
  -- the rows after the first step
  have r0 : ∀ c, f1 q' c = A q' c := fun c => by
    have := f1a 0 c le_rfl (by omega)
    rcases hq with ⟨rfl, -, -⟩ | ⟨rfl, -, -⟩ | ⟨rfl, -, -⟩ <;> simpa using this
  have hπv : (if (1 : Nat) = q' then 0 else if (1 : Nat) = 0 then q' else 1) = i ∧
      (if (2 : Nat) = q' then 0 else if (2 : Nat) = 0 then q' else 2) = j ∧
      (if (0 : Nat) = q' then 0 else if (0 : Nat) = 0 then q' else 0) = q' := by
    rcases hq with ⟨rfl, rfl, rfl⟩ | ⟨rfl, rfl, rfl⟩ | ⟨rfl, rfl, rfl⟩ <;> simp
  have ri : f1 i 0 = A i 0 /ᶠ A q' 0 ∧ f1 i 1 = left1 A q' i 1 ∧ f1 i 2 = left1 A q' i 2 := by
    have h0 := f1b 1 0 (by omega) (by omega)
    have h1 := f1b 1 1 (by omega) (by omega)
    have h2 := f1b 1 2 (by omega) (by omega)
    rcases hq with ⟨rfl, rfl, rfl⟩ | ⟨rfl, rfl, rfl⟩ | ⟨rfl, rfl, rfl⟩ <;> simp at h0 h1 h2 <;> exact ⟨h0, h1, h2⟩
  have rj : f1 j 0 = A j 0 /ᶠ A q' 0 ∧ f1 j 1 = left1 A q' j 1 ∧ f1 j 2 = left1 A q' j 2 := by
    have h0 := f1b 2 0 (by omega) (by omega)
    have h1 := f1b 2 1 (by omega) (by omega)
    have h2 := f1b 2 2 (by omega) (by omega)
    rcases hq with ⟨rfl, rfl, rfl⟩ | ⟨rfl, rfl, rfl⟩ | ⟨rfl, rfl, rfl⟩ <;> simp at h0 h1 h2 <;> exact ⟨h0, h1, h2⟩
  obtain ⟨π1_1, π1_2, π1_0⟩ := hπv
  generalize hπ1def : (fun i => if i = q' then 0 else if i = 0 then q' else i) = π1 at hp1 hπ1
  have π1_1 : π1 1 = i := by rw [← hπ1def]; exact π1_1
  have π1_2 : π1 2 = j := by rw [← hπ1def]; exact π1_2
  have π1_0 : π1 0 = q' := by rw [← hπ1def]; exact π1_0
  have e3 := Linalg.lupPivot_last_val (s := 1) hl1 hp1 hπ1 f1fin
  simp only [π1_1, Nat.reduceAdd, π1_2] at e3
  generalize hq2 : (if ⟪f1 i 0⟫ < ⟪f1 j 1⟫ then 2 else 1) = q2 at e3
  have hq2' : q2 = 1 ∨ q2 = 2 := by rw [← hq2]; split <;> simp
  rcases hq2' with rfl | rfl
  · refine ⟨i, j, .inl ⟨rfl, rfl, ?_⟩, ?_⟩
    · rw [ri.1, rj.2.1] at hq2
      by_contra h
      rw [if_pos (not_le.mp h)] at hq2
      omega
    rcases Linalg.lupStep_run hl1 hp1 hπ1 f1fin (s := 1) (by omega) e3 (by omega) with ⟨g1, g2⟩ | ⟨g1, g2⟩
    · simp only [π1_1] at g1
      rw [ri.2.1] at g1
      exact .inl ⟨g1, hsing (by rw [e', e2]; simp only [Res.ok_bind]; rw [g2])⟩
    · simp only [π1_1] at g1
      rw [ri.2.1] at g1
      refine .inr ⟨g1, fun w1 w2 => ?_⟩
      obtain ⟨st2, e4⟩ := g2 (fun k h h' => by
          obtain rfl : k = 2 := by omega
          simp only [π1_1, π1_2, show (2:Nat) ≠ 1 from by decide, if_false, ri, rj]
          exact w1) (fun k b h h' hb hb' => by
          obtain rfl : k = 2 := by omega
          obtain rfl : b = 2 := by omega
          simp only [π1_1, π1_2, show (2:Nat) ≠ 1 from by decide, if_false, ri, rj]
          exact w2)
      obtain ⟨_, f2, hl2, hp2, hπ2, f2a, f2b, f2fin⟩ := Linalg.lupStep_val hl1 hp1 hπ1 f1fin (s := 1) (by omega) e3 (by omega) e4
      obtain ⟨l2, p2⟩ := st2
      have a0 := f2a 0 0 (by omega) (by omega)
      have a1 := f2a 1 1 (by omega) (by omega)
      have a2 := f2b 2 2 (by omega) (by omega)
      simp [π1_0, π1_1, π1_2, ri, rj, r0] at a0 a1 a2
      have hlup : Linalg.lup a = .ok (l2, p2) := by rw [e', e2, Res.ok_bind, e4]
      refine det3_tail ha hlup hl2 hp2 hπ2 ?_ ?_
      · simp [π1_0, π1_1, π1_2, a0, a1, a2, prod3, left2]
      · simp only [π1_0, π1_1, π1_2]
        rcases hq with ⟨rfl, rfl, rfl⟩ | ⟨rfl, rfl, rfl⟩ | ⟨rfl, rfl, rfl⟩ <;> decide
  · refine ⟨j, i, .inr ⟨rfl, rfl, ?_⟩, ?_⟩
    · rw [ri.1, rj.2.1] at hq2
      by_contra h
      rw [if_neg h] at hq2
      omega
    rcases Linalg.lupStep_run hl1 hp1 hπ1 f1fin (s := 1) (by omega) e3 (by omega) with ⟨g1, g2⟩ | ⟨g1, g2⟩
    · simp only [π1_2] at g1
      rw [rj.2.1] at g1
      exact .inl ⟨g1, hsing (by rw [e', e2]; simp only [Res.ok_bind]; rw [g2])⟩
    · simp only [π1_2] at g1
      rw [rj.2.1] at g1
      refine .inr ⟨g1, fun w1 w2 => ?_⟩
      obtain ⟨st2, e4⟩ := g2 (fun k h h' => by
          obtain rfl : k = 2 := by omega
          simp only [π1_1, π1_2, if_true, ri, rj]
          exact w1) (fun k b h h' hb hb' => by
          obtain rfl : k = 2 := by omega
          obtain rfl : b = 2 := by omega
          simp only [π1_1, π1_2, if_true, ri, rj]
          exact w2)
      obtain ⟨_, f2, hl2, hp2, hπ2, f2a, f2b, f2fin⟩ := Linalg.lupStep_val hl1 hp1 hπ1 f1fin (s := 1) (by omega) e3 (by omega) e4
      obtain ⟨l2, p2⟩ := st2
      have a0 := f2a 0 0 (by omega) (by omega)
      have a1 := f2a 1 1 (by omega) (by omega)
      have a2 := f2b 2 2 (by omega) (by omega)
      simp [π1_0, π1_1, π1_2, ri, rj, r0] at a0 a1 a2
      have hlup : Linalg.lup a = .ok (l2, p2) := by rw [e', e2, Res.ok_bind, e4]
      refine det3_tail ha hlup hl2 hp2 hπ2 ?_ ?_
      · simp [π1_0, π1_1, π1_2, a0, a1, a2, prod3, left2]
      · simp only [π1_0, π1_1, π1_2]
        rcases hq with ⟨rfl, rfl, rfl⟩ | ⟨rfl, rfl, rfl⟩ | ⟨rfl, rfl, rfl⟩ <;> decide

/-- Comparison with a tolerance of 10⁻⁴, with rounding. -/
theorem close_gen {x y : F} (hx : Finite x) (hy : Finite y) (hb : |⟪x⟫| ≤ 2 ^ 126) (hyb : |⟪y⟫| ≤ 1) :
    (Close x y (EPSILON : F) → |⟪x⟫ - ⟪y⟫| ≤ 1001 / 10 ^ 7) ∧
    (¬ Close x y (EPSILON : F) → 999 / 10 ^ 7 ≤ |⟪x⟫ - ⟪y⟫|) := by
  obtain ⟨l, u⟩ := eps_bounds (F := F)
  have f1 : Finite (x -ᶠ y) := R.sub_finite hx hy (by
    have := abs_sub ⟪x⟫ ⟪y⟫
    norm_num at hb ⊢
    linarith)
  have e1 := (R.sub_near hx hy f1).bound
  have h1 := abs_sub_abs_le_abs_sub ⟪x -ᶠ y⟫ (⟪x⟫ - ⟪y⟫)
  have h2 := abs_sub_abs_le_abs_sub (⟪x⟫ - ⟪y⟫) ⟪x -ᶠ y⟫
  rw [abs_sub_comm (⟪x⟫ - ⟪y⟫)] at h2
  have hη := rη_le
  unfold Close
  rw [R.le_val (R.abs_finite f1) eps_fin, R.abs_val f1]
  norm_num at hη l u ⊢
  constructor
  · intro h
    linarith
  · intro h
    linarith

/-- The product of rows `i` and `j`. -/
noncomputable def gram (A : Nat → Nat → F) (n i j : Nat) : ℝ := ∑ k ∈ range n, ⟪A i k⟫ * ⟪A j k⟫

theorem gram_abs (A : Nat → Nat → F) (n i j : Nat) :
    ∑ k ∈ range n, |⟪A i k⟫ * ⟪A j k⟫| ≤ (gram A n i i + gram A n j j) / 2 := by
  unfold gram
  rw [← Finset.sum_add_distrib, Finset.sum_div]
  refine Finset.sum_le_sum fun k _ => ?_
  rw [abs_mul, ← abs_mul_abs_self ⟪A i k⟫, ← abs_mul_abs_self ⟪A j k⟫]
  nlinarith [sq_nonneg (|⟪A i k⟫| - |⟪A j k⟫|)]

/-- `A * Aᵀ` against the identity, with rounding. -/
theorem mulT_run {n : Nat} (ha : MatIs a n n A) (hfin : ∀ i j, i < n → j < n → Finite (A i j))
    (hbig : ∀ i j, i < n → j < n → |⟪A i j⟫| ≤ 2 ^ 60) :
    ∃ b, a.mulTransposeIsIdentity n = .ok b ∧
      (b = true → ∀ i j, i < n → j < n → |gram A n i j - if i = j then 1 else 0| ≤ 101 / 10 ^ 6) ∧
      ((∀ i j, i < n → j < n → |gram A n i j - if i = j then 1 else 0| ≤ 98 / 10 ^ 6) → b = true) := by
  have hn4 : n ≤ 4 := ha.rle
  obtain ⟨t0, e0, h0⟩ := Mat.duplicate_ok ha hfin
  obtain ⟨t, e1, ht⟩ := Mat.exec_transpose h0 hfin
  have hid : ∀ i j, i < n → j < n → Finite (if i = j then (lit 1 : F) else lit 0) := fun i j _ _ => by
    split
    · exact R.one_finite
    · exact R.zero_finite
  obtain ⟨d, e2, hd⟩ := Mat.exec_of_stores (Mat.fillIdentity_stores (Mat.zeros_of ha)) (Mat.zeros_of ha) hid
  have hsum : ∀ i j, i < n → j < n → ∑ k ∈ range n, |⟪A i k⟫ * ⟪A j k⟫| ≤ 2 ^ 122 := fun i j hi hj => by
    have h1 : ∀ k ∈ range n, |⟪A i k⟫ * ⟪A j k⟫| ≤ 2 ^ 120 := fun k hk => by
      have h2 := hbig i k hi (by simpa using hk)
      have h3 := hbig j k hj (by simpa using hk)
      rw [abs_mul]
      calc |⟪A i k⟫| * |⟪A j k⟫| ≤ 2 ^ 60 * 2 ^ 60 := mul_le_mul h2 h3 (abs_nonneg _) (by norm_num)
        _ = 2 ^ 120 := by norm_num
    have h4 := Finset.sum_le_card_nsmul _ _ _ h1
    rw [card_range, nsmul_eq_mul] at h4
    have : (n : ℝ) ≤ 4 := by exact_mod_cast hn4
    refine h4.trans ?_
    nlinarith [show (0 : ℝ) < 2 ^ 120 by norm_num, show (2 : ℝ) ^ 122 = 4 * 2 ^ 120 by norm_num]
  obtain ⟨r, C, e3, hr, hC⟩ := C76_mul ha ht (Mat.zeros_of ha) hfin (fun i j hi hj => hfin j i hj hi)
    (fun i j hi hj => (hsum i j hi hj).trans (by norm_num))
  have e3' : a.mulNew t = .ok r := by rw [Mat.mulNew_eq ha ht, exec_ok e3]
  obtain ⟨b, e4, hb⟩ := C19_mat hr hd (fun i j hi hj => (hC i j hi hj).1) hid (EPSILON : F)
  have hidv : ∀ i j : Nat, ⟪(if i = j then (lit 1 : F) else lit 0)⟫ = if i = j then 1 else 0 := fun i j => by
    split
    · exact R.one_val
    · exact R.zero_val
  have herr : ∀ i j, i < n → j < n → |⟪C i j⟫ - gram A n i j| ≤
      73 / 10 ^ 8 * (∑ k ∈ range n, |⟪A i k⟫ * ⟪A j k⟫|) + 1 / 10 ^ 9 := fun i j hi hj => by
    have h1 := (hC i j hi hj).2
    have hn : (n : ℝ) ≤ 4 := by exact_mod_cast hn4
    have hs : 0 ≤ ∑ k ∈ range n, |⟪A i k⟫ * ⟪A j k⟫| := Finset.sum_nonneg fun _ _ => abs_nonneg _
    refine h1.trans ?_
    have h2 : 3 * (n : ℝ) / 2 ^ 24 ≤ 73 / 10 ^ 8 := by norm_num; linarith
    have h3 : 3 * (n : ℝ) / 2 ^ 150 ≤ 1 / 10 ^ 9 := by
      rw [div_le_iff₀ (by norm_num)]
      norm_num
      linarith
    exact add_le_add (mul_le_mul_of_nonneg_right h2 hs) h3
  have hCb : ∀ i j, i < n → j < n → |⟪C i j⟫| ≤ 2 ^ 126 := fun i j hi hj => by
    have h1 := herr i j hi hj
    have h2 := hsum i j hi hj
    have h3 : |gram A n i j| ≤ ∑ k ∈ range n, |⟪A i k⟫ * ⟪A j k⟫| := Finset.abs_sum_le_sum_abs _ _
    have h4 := abs_sub_abs_le_abs_sub ⟪C i j⟫ (gram A n i j)
    norm_num at h1 h2 h3 ⊢
    linarith
  have hcl := fun i j (hi : i < n) (hj : j < n) => close_gen (hC i j hi hj).1 (hid i j hi hj) (hCb i j hi hj)
    (by rw [hidv]; split <;> norm_num)
  simp only [hidv] at hcl
  refine ⟨b, ?_, ?_, ?_⟩
  · unfold Mat.mulTransposeIsIdentity
    simp only [e0, e1, Mat.init_of ha, e2, e3', e4, Res.ok_bind]
    cases b <;> rfl
  · intro h i j hi hj
    have hc := (hb.mp h).2.2
    have hdiag : ∀ k, k < n → gram A n k k ≤ 10002 / 10000 := fun k hk => by
      have h1 := (hcl k k hk hk).1 (hc k k hk hk)
      have h2 := herr k k hk hk
      have h3 := gram_abs A n k k
      rw [if_pos rfl] at h1
      rw [abs_le] at h1 h2
      have h4 : 0 ≤ gram A n k k := Finset.sum_nonneg fun _ _ => mul_self_nonneg _
      norm_num at h1 h2 h3 ⊢
      linarith [h1.2, h2.1]
    have h1 := (hcl i j hi hj).1 (hc i j hi hj)
    have h2 := herr i j hi hj
    have h3 := gram_abs A n i j
    have h4 := hdiag i hi
    have h5 := hdiag j hj
    have h6 : |gram A n i j - if i = j then 1 else 0| ≤ |⟪C i j⟫ - gram A n i j| + |⟪C i j⟫ - if i = j then 1 else 0| := by
      rw [abs_sub_comm ⟪C i j⟫]
      exact abs_sub_le _ _ _
    norm_num at h1 h2 h3 h4 h5 h6 ⊢
    linarith
  · intro h
    refine hb.mpr ⟨rfl, rfl, fun i j hi hj => ?_⟩
    by_contra hcon
    have h1 := (hcl i j hi hj).2 hcon
    have h2 := herr i j hi hj
    have h3 := gram_abs A n i j
    have h4 := h i i hi hi
    have h5 := h j j hj hj
    have h7 := h i j hi hj
    rw [if_pos rfl, abs_le] at h4 h5
    have h6 : |⟪C i j⟫ - if i = j then 1 else 0| ≤ |⟪C i j⟫ - gram A n i j| + |gram A n i j - if i = j then 1 else 0| :=
      abs_sub_le _ _ _
    norm_num at h1 h2 h3 h4 h5 h6 h7
    linarith [h4.2, h5.2]


/-! ### The determinant -/

theorem mul_le_of {a b A B : ℝ} (ha : |a| ≤ A) (hb : |b| ≤ B) : |a * b| ≤ A * B := by
  rw [abs_mul]
  exact mul_le_mul ha hb (abs_nonneg _) ((abs_nonneg _).trans ha)

/-- The elimination of one element: real analysis. -/
theorem elim_acc {P L l x y m r h : ℝ} (hP : 999 / 1000 ≤ P) (h0 : h ≤ 1 / 10 ^ 45) (hL : |L| ≤ 1001 / 1000 * P)
    (hx : |x| ≤ 1001 / 1000) (hy : |y| ≤ 1001 / 1000) (hl : |l - L| ≤ |L| / 16777216 + h)
    (hm : |m - x * l| ≤ |x * l| / 16777216 + h) (hr : |r - (y - m)| ≤ |y - m| / 16777216 + h) :
    |r - (y - x * L)| ≤ 41 / 10 / 16777216 * P ∧ |y - x * L| ≤ 201 / 100 * P ∧ |r| ≤ 202 / 100 * P ∧
      |x * l| ≤ 1003 / 1000 * P ∧ |l| ≤ 1002 / 1000 * P ∧ |y - m| ≤ 202 / 100 * P := by
  have hl1 : |l - L| ≤ 1002 / 1000 / 16777216 * P := by norm_num at h0 ⊢; linarith
  have hl2 : |l| ≤ 10011 / 10000 * P := by
    have := abs_sub_abs_le_abs_sub l L
    linarith
  have hxl := mul_le_of hx hl2
  have hxd := mul_le_of hx hl1
  have hxL := mul_le_of hx hL
  have hm1 : |m - x * L| ≤ 2006 / 1000 / 16777216 * P := by
    have := abs_sub_le m (x * l) (x * L)
    rw [← mul_sub] at this
    norm_num at h0 ⊢
    linarith
  have hym : |y - m| ≤ 201 / 100 * P := by
    have h1 := abs_sub y m
    have h2 := abs_sub_abs_le_abs_sub m (x * L)
    linarith
  have hr1 : |r - (y - x * L)| ≤ 41 / 10 / 16777216 * P := by
    have h1 := abs_sub_le r (y - m) (y - x * L)
    rw [show y - m - (y - x * L) = -(m - x * L) by ring, abs_neg] at h1
    norm_num at h0 ⊢
    linarith
  have hS : |y - x * L| ≤ 201 / 100 * P := by
    have h1 := abs_sub y (x * L)
    linarith
  refine ⟨hr1, hS, ?_, ?_, by linarith, by linarith⟩
  · have := abs_sub_abs_le_abs_sub r (y - x * L)
    linarith
  · linarith

theorem scale_near {x X r h : ℝ} (hx : |x - X| ≤ |X| / 16777216 + h) : |x * r - X * r| ≤ |X * r| / 16777216 + h * |r| := by
  rw [← sub_mul, abs_mul, abs_mul]
  have := mul_le_mul_of_nonneg_right hx (abs_nonneg r)
  linarith

/-- The second pivot times the last one: real analysis. -/
theorem tri_last_acc {P a b c d u v w h : ℝ} (hP : 999 / 1000 ≤ P) (hP' : P ≤ 20000) (h00 : 0 ≤ h) (h0 : h ≤ 1 / 10 ^ 45)
    (ha : |a| ≤ 202 / 100 * P) (hb : |b| ≤ 202 / 100 * P) (hc : |c| ≤ 202 / 100 * P) (hd : |d| ≤ 202 / 100 * P)
    (ha0 : a ≠ 0) (hu : |u - c / a| ≤ |c / a| / 16777216 + h) (hv : |v - b * u| ≤ |b * u| / 16777216 + h)
    (hw : |w - (d - v)| ≤ |d - v| / 16777216 + h) :
    |w * a - (d * a - b * c)| ≤ 165 / 10 / 16777216 * P ^ 2 := by
  have hPP : 99 / 100 ≤ P ^ 2 := by nlinarith
  have hha : h * |a| ≤ 1 / 10 ^ 30 := by
    calc h * |a| ≤ 1 / 10 ^ 45 * (202 / 100 * 20000) :=
          mul_le_mul h0 (ha.trans (by linarith)) (abs_nonneg _) (by norm_num)
      _ ≤ _ := by norm_num
  have hu' := scale_near (r := a) hu
  have hv' := scale_near (r := a) hv
  have hw' := scale_near (r := a) hw
  rw [div_mul_cancel₀ _ ha0] at hu'
  rw [show b * u * a = b * (u * a) by ring] at hv'
  rw [show (d - v) * a = d * a - v * a by ring] at hw'
  generalize u * a = U at hu' hv'
  generalize v * a = V at hv' hw'
  generalize w * a = W at hw' ⊢
  have hB : 0 ≤ 202 / 100 * P := by linarith
  have hU1 : |U| ≤ 20201 / 10000 * P := by
    have := abs_sub_abs_le_abs_sub U c
    norm_num at hha
    linarith
  have hU2 : |U - c| ≤ 203 / 100 / 16777216 * P := by
    norm_num at hha ⊢
    linarith
  have hbU := mul_le_of hb hU1
  have hbd := mul_le_of hb hU2
  have hbc := mul_le_of hb hc
  have hda := mul_le_of hd ha
  rw [mul_sub] at hbd
  have e1 : (202 / 100 * P) * (20201 / 10000 * P) = 202 / 100 * (20201 / 10000) * P ^ 2 := by ring
  have e2 : (202 / 100 * P) * (203 / 100 / 16777216 * P) = 202 / 100 * (203 / 100) / 16777216 * P ^ 2 := by ring
  have e3 : (202 / 100 * P) * (202 / 100 * P) = 202 / 100 * (202 / 100) * P ^ 2 := by ring
  rw [e1] at hbU
  rw [e2] at hbd
  rw [e3] at hbc hda
  generalize P ^ 2 = Q at *
  have hV : |V - b * c| ≤ 819 / 100 / 16777216 * Q := by
    have := abs_sub_le V (b * U) (b * c)
    norm_num at hha ⊢
    linarith
  have hdV : |d * a - V| ≤ 8165 / 1000 * Q := by
    have h1 := abs_sub (d * a) V
    have h2 := abs_sub_abs_le_abs_sub V (b * c)
    linarith
  have h1 := abs_sub_le W (d * a - V) (d * a - b * c)
  rw [show d * a - V - (d * a - b * c) = -(V - b * c) by ring, abs_neg] at h1
  norm_num at hha ⊢
  linarith

/-- The product of the pivots: real analysis. -/
theorem tri_prod_acc {P x a w S g1 g2 d h : ℝ} (hP : 999 / 1000 ≤ P) (hP' : P ≤ 20000) (h00 : 0 ≤ h)
    (h0 : h ≤ 1 / 10 ^ 45) (hx : |x| * P = 1) (ha : |a| ≤ 202 / 100 * P) (hw : |w| ≤ 10 ^ 20)
    (hS : |w * a - S| ≤ 51 / 16777216 * P ^ 2) (hSb : |S| ≤ 81 / 10 * P ^ 2)
    (h1 : |g1 - 1 * x| ≤ |1 * x| / 16777216 + h) (h2 : |g2 - g1 * a| ≤ |g1 * a| / 16777216 + h)
    (h3 : |d - g2 * w| ≤ |g2 * w| / 16777216 + h) :
    |d - x * S| ≤ 80 / 16777216 * P := by
  rw [one_mul] at h1
  have hPp : 0 < P := by linarith
  have hxP : |x| = 1 / P := by field_simp; linarith
  have hx1 : |x| ≤ 10011 / 10000 := by
    rw [hxP, div_le_iff₀ hPp]
    linarith
  have hPP : P ^ 2 * |x| = P := by
    rw [hxP]; field_simp
  have hWa : |w * a| ≤ 8101 / 1000 * P ^ 2 := by
    have := abs_sub_abs_le_abs_sub (w * a) S
    nlinarith
  -- g1
  have k1 : |g1 - x| * P ≤ 101 / 100 / 16777216 := by
    have := mul_le_mul_of_nonneg_right h1 hPp.le
    have hh : h * P ≤ 1 / 10 ^ 40 := by
      calc h * P ≤ 1 / 10 ^ 45 * 20000 := mul_le_mul h0 hP' hPp.le (by norm_num)
        _ ≤ _ := by norm_num
    norm_num at hh ⊢
    nlinarith
  have k1' : |g1 - x| ≤ 101 / 100 / 16777216 / P := by rw [le_div_iff₀ hPp]; exact k1
  have k2 : |g1| ≤ 10001 / 10000 / P := by
    have h4 := abs_sub_abs_le_abs_sub g1 x
    have h5 : |g1| ≤ 1 / P + 101 / 100 / 16777216 / P := by linarith
    refine h5.trans ?_
    rw [← add_div]
    exact div_le_div_of_nonneg_right (by norm_num) hPp.le
  have m1 := mul_le_of k1' hWa
  have m2 := mul_le_of k2 hWa
  rw [show 101 / 100 / 16777216 / P * (8101 / 1000 * P ^ 2) = 101 / 100 * (8101 / 1000) / 16777216 * P by field_simp] at m1
  rw [show 10001 / 10000 / P * (8101 / 1000 * P ^ 2) = 10001 / 10000 * (8101 / 1000) * P by field_simp] at m2
  have m3 := scale_near (r := w) h2
  have hhw : h * |w| ≤ 1 / 10 ^ 25 := by
    calc h * |w| ≤ 1 / 10 ^ 45 * 10 ^ 20 := mul_le_mul h0 hw (abs_nonneg _) (by norm_num)
      _ = _ := by norm_num
  rw [show g1 * a * w = g1 * (w * a) by ring] at m3
  rw [sub_mul] at m1
  have m4 : |x * (w * a) - x * S| ≤ 51 / 16777216 * P := by
    rw [← mul_sub, abs_mul, mul_comm]
    have := mul_le_mul_of_nonneg_right hS (abs_nonneg x)
    nlinarith
  generalize w * a = Y at *
  have t1 := abs_sub_le d (g2 * w) (x * S)
  have t2 := abs_sub_le (g2 * w) (g1 * Y) (x * S)
  have t3 := abs_sub_le (g1 * Y) (x * Y) (x * S)
  have t4 := abs_sub_abs_le_abs_sub (g2 * w) (g1 * Y)
  norm_num at hhw h0 ⊢
  linarith

theorem near_le {x X h B : ℝ} (hx : |x - X| ≤ |X| / 16777216 + h) (h0 : h ≤ 1 / 10 ^ 45) (hX : |X| ≤ B) (hB : 1 ≤ B) :
    |x| ≤ 1001 / 1000 * B := by
  have := abs_sub_abs_le_abs_sub x X
  norm_num at h0
  linarith

/-- The elimination of one element. -/
theorem elim_step {x0 x y0 y : F} {P : ℝ} (f0 : Finite x0) (f1 : Finite x) (f2 : Finite y0) (f3 : Finite y)
    (hP : 999 / 1000 ≤ P) (hP' : P ≤ 20000) (hx0 : |⟪x0⟫| * P = 1) (hx : |⟪x⟫| ≤ 1001 / 1000)
    (hy0 : |⟪y0⟫| ≤ 1001 / 1000) (hy : |⟪y⟫| ≤ 1001 / 1000) :
    Finite (y0 /ᶠ x0) ∧ Finite (y -ᶠ (x *ᶠ (y0 /ᶠ x0))) ∧
      |⟪y -ᶠ (x *ᶠ (y0 /ᶠ x0))⟫ - (⟪y⟫ - ⟪x⟫ * (⟪y0⟫ / ⟪x0⟫))| ≤ 41 / 10 / 16777216 * P ∧
      |⟪y⟫ - ⟪x⟫ * (⟪y0⟫ / ⟪x0⟫)| ≤ 201 / 100 * P ∧ |⟪y -ᶠ (x *ᶠ (y0 /ᶠ x0))⟫| ≤ 202 / 100 * P := by
  have hη := rη_le
  have hne : ⟪x0⟫ ≠ 0 := fun h => by rw [h] at hx0; simp at hx0
  have hPp : 0 < P := by linarith
  have hL : |⟪y0⟫ / ⟪x0⟫| ≤ 1001 / 1000 * P := by
    rw [abs_div, div_le_iff₀ (abs_pos.mpr hne)]
    nlinarith
  have g1 : Finite (y0 /ᶠ x0) := R.div_finite f2 f0 hne (hL.trans (by norm_num; linarith))
  have e1 := (R.div_near f2 f0 hne g1).bound
  have b1 := near_le e1 hη (hL.trans (show _ ≤ 10 ^ 5 by norm_num; linarith)) (by norm_num)
  have b2 := mul_le_of hx b1
  have g2 : Finite (x *ᶠ (y0 /ᶠ x0)) := R.mul_finite f1 g1 (b2.trans (by norm_num))
  have e2 := (R.mul_near f1 g1 g2).bound
  have b3 := near_le e2 hη b2 (by norm_num)
  have g3 : Finite (y -ᶠ (x *ᶠ (y0 /ᶠ x0))) := R.sub_finite f3 g2 (by
    have := abs_sub ⟪y⟫ ⟪x *ᶠ (y0 /ᶠ x0)⟫
    norm_num at b3 ⊢
    linarith)
  have e3 := (R.sub_near f3 g2 g3).bound
  obtain ⟨r1, r2, r3, -⟩ := elim_acc hP hη hL hx hy e1 e2 e3
  exact ⟨g1, g3, r1, r2, r3⟩

/-- The last pivot. -/
theorem last_step {a b c d : F} {P : ℝ} (fa : Finite a) (fb : Finite b) (fc : Finite c) (fd : Finite d)
    (hP : 999 / 1000 ≤ P) (hP' : P ≤ 20000) (ha : |⟪a⟫| ≤ 202 / 100 * P) (hb : |⟪b⟫| ≤ 202 / 100 * P)
    (hc : |⟪c⟫| ≤ 202 / 100 * P) (hd : |⟪d⟫| ≤ 202 / 100 * P) (ha0 : 9 / 10 ^ 5 ≤ |⟪a⟫|) :
    Finite (c /ᶠ a) ∧ Finite (d -ᶠ (b *ᶠ (c /ᶠ a))) ∧ |⟪d -ᶠ (b *ᶠ (c /ᶠ a))⟫| ≤ 10 ^ 20 ∧
      |⟪d -ᶠ (b *ᶠ (c /ᶠ a))⟫ * ⟪a⟫ - (⟪d⟫ * ⟪a⟫ - ⟪b⟫ * ⟪c⟫)| ≤ 165 / 10 / 16777216 * P ^ 2 := by
  have hη := rη_le
  have hne : ⟪a⟫ ≠ 0 := fun h => by rw [h] at ha0; norm_num at ha0
  have hL : |⟪c⟫ / ⟪a⟫| ≤ 10 ^ 9 := by
    rw [abs_div, div_le_iff₀ (abs_pos.mpr hne)]
    norm_num at ha0 ⊢
    linarith
  have g1 : Finite (c /ᶠ a) := R.div_finite fc fa hne (hL.trans (by norm_num))
  have e1 := (R.div_near fc fa hne g1).bound
  have b1 := near_le e1 hη hL (by norm_num)
  have b2 := mul_le_of (hb.trans (show _ ≤ (10 : ℝ) ^ 5 by norm_num; linarith)) b1
  have g2 : Finite (b *ᶠ (c /ᶠ a)) := R.mul_finite fb g1 (b2.trans (by norm_num))
  have e2 := (R.mul_near fb g1 g2).bound
  have b3 := near_le e2 hη b2 (by norm_num)
  have b4 : |⟪d⟫ - ⟪b *ᶠ (c /ᶠ a)⟫| ≤ 10 ^ 19 := by
    have := abs_sub ⟪d⟫ ⟪b *ᶠ (c /ᶠ a)⟫
    norm_num at b3 ⊢
    linarith
  have g3 : Finite (d -ᶠ (b *ᶠ (c /ᶠ a))) := R.sub_finite fd g2 (b4.trans (by norm_num))
  have e3 := (R.sub_near fd g2 g3).bound
  exact ⟨g1, g3, (near_le e3 hη b4 (by norm_num)).trans (by norm_num),
    tri_last_acc hP hP' rη_pos.le hη ha hb hc hd hne e1 e2 e3⟩

theorem prod_step {x a w : F} {P S : ℝ} (fx : Finite x) (fa : Finite a) (fw : Finite w)
    (hP : 999 / 1000 ≤ P) (hP' : P ≤ 20000) (hx : |⟪x⟫| * P = 1) (ha : |⟪a⟫| ≤ 202 / 100 * P) (hw : |⟪w⟫| ≤ 10 ^ 20)
    (hS : |⟪w⟫ * ⟪a⟫ - S| ≤ 51 / 16777216 * P ^ 2) (hSb : |S| ≤ 81 / 10 * P ^ 2) :
    Finite (lit 1 *ᶠ x *ᶠ a *ᶠ w) ∧ |⟪lit 1 *ᶠ x *ᶠ a *ᶠ w⟫ - ⟪x⟫ * S| ≤ 80 / 16777216 * P := by
  have hη := rη_le
  have hx1 : |⟪x⟫| ≤ 2 := by nlinarith [abs_nonneg ⟪x⟫]
  have b1 : |⟪(lit 1 : F)⟫ * ⟪x⟫| ≤ 2 := by rw [R.one_val, one_mul]; exact hx1
  have g1 : Finite (lit 1 *ᶠ x) := R.mul_finite R.one_finite fx (b1.trans (by norm_num))
  have e1 := (R.mul_near R.one_finite fx g1).bound
  have b2 := mul_le_of (near_le e1 hη b1 (by norm_num)) (ha.trans (show _ ≤ (10 : ℝ) ^ 5 by norm_num; linarith))
  have g2 : Finite (lit 1 *ᶠ x *ᶠ a) := R.mul_finite g1 fa (b2.trans (by norm_num))
  have e2 := (R.mul_near g1 fa g2).bound
  have b3 := mul_le_of (near_le e2 hη b2 (by norm_num)) hw
  have g3 : Finite (lit 1 *ᶠ x *ᶠ a *ᶠ w) := R.mul_finite g2 fw (b3.trans (by norm_num))
  have e3 := (R.mul_near g2 fw g3).bound
  rw [R.one_val] at e1
  exact ⟨g3, tri_prod_acc hP hP' rη_pos.le hη hx ha hw hS hSb e1 e2 e3⟩

/-- The 2×2 determinant left: real analysis. -/
theorem schur_acc {P a b c d a' b' c' d' W : ℝ} (hP : 999 / 1000 ≤ P)
    (ha : |a - a'| ≤ 41 / 10 / 16777216 * P) (ha' : |a'| ≤ 201 / 100 * P) (hb : |b - b'| ≤ 41 / 10 / 16777216 * P)
    (hb' : |b'| ≤ 201 / 100 * P) (hc : |c - c'| ≤ 41 / 10 / 16777216 * P) (hc' : |c'| ≤ 201 / 100 * P)
    (hd : |d - d'| ≤ 41 / 10 / 16777216 * P) (hd' : |d'| ≤ 201 / 100 * P) (hbb : |b| ≤ 202 / 100 * P)
    (hdd : |d| ≤ 202 / 100 * P) (hW : |W - (d * a - b * c)| ≤ 165 / 10 / 16777216 * P ^ 2) :
    |W - (d' * a' - b' * c')| ≤ 51 / 16777216 * P ^ 2 ∧ |d' * a' - b' * c'| ≤ 81 / 10 * P ^ 2 := by
  have m1 := mul_le_of hdd ha
  have m2 := mul_le_of hd ha'
  have m3 := mul_le_of hbb hc
  have m4 := mul_le_of hb hc'
  have m5 := mul_le_of hd' ha'
  have m6 := mul_le_of hb' hc'
  rw [show 202 / 100 * P * (41 / 10 / 16777216 * P) = 202 / 100 * (41 / 10) / 16777216 * P ^ 2 by ring] at m1 m3
  rw [show 41 / 10 / 16777216 * P * (201 / 100 * P) = 201 / 100 * (41 / 10) / 16777216 * P ^ 2 by ring] at m2 m4
  rw [show 201 / 100 * P * (201 / 100 * P) = 201 / 100 * (201 / 100) * P ^ 2 by ring] at m5 m6
  rw [abs_le] at *
  constructor
  · constructor <;> linarith [m1.1, m1.2, m2.1, m2.2, m3.1, m3.2, m4.1, m4.2, hW.1, hW.2]
  · rw [abs_le]
    constructor <;> linarith [m5.1, m5.2, m6.1, m6.2, sq_nonneg P]

theorem first_max (f : Nat → ℝ) : ∃ q i j,
    ((q = 0 ∧ i = 1 ∧ j = 2) ∨ (q = 1 ∧ i = 0 ∧ j = 2) ∨ (q = 2 ∧ i = 1 ∧ j = 0)) ∧
    (∀ k, k < 3 → f k ≤ f q) ∧ ∀ k, k < q → f k < f q := by
  have h3 : ∀ {p : Nat → Prop}, p 0 → p 1 → p 2 → ∀ k, k < 3 → p k := fun h0 h1 h2 k hk => by
    rcases (show k = 0 ∨ k = 1 ∨ k = 2 by omega) with rfl | rfl | rfl <;> assumption
  by_cases h01 : f 0 < f 1
  · by_cases h12 : f 1 < f 2
    · refine ⟨2, 1, 0, by simp, h3 (by linarith) (by linarith) le_rfl, fun k hk => ?_⟩
      rcases (show k = 0 ∨ k = 1 by omega) with rfl | rfl <;> linarith
    · refine ⟨1, 0, 2, by simp, h3 (by linarith) le_rfl (by linarith), fun k hk => ?_⟩
      obtain rfl : k = 0 := by omega
      exact h01
  · by_cases h02 : f 0 < f 2
    · refine ⟨2, 1, 0, by simp, h3 (by linarith) (by linarith) le_rfl, fun k hk => ?_⟩
      rcases (show k = 0 ∨ k = 1 by omega) with rfl | rfl <;> linarith
    · exact ⟨0, 1, 2, by simp, h3 le_rfl (by linarith) (by linarith), fun k hk => by omega⟩

/-- The determinant of the values of a 3×3 matrix. -/
noncomputable def det3 (A : Nat → Nat → F) : ℝ := (Matrix.of fun i j : Fin 3 => ⟪A i j⟫).det

theorem det3_eq (A : Nat → Nat → F) : det3 A =
    ⟪A 0 0⟫ * (⟪A 1 1⟫ * ⟪A 2 2⟫ - ⟪A 1 2⟫ * ⟪A 2 1⟫) - ⟪A 0 1⟫ * (⟪A 1 0⟫ * ⟪A 2 2⟫ - ⟪A 1 2⟫ * ⟪A 2 0⟫) +
      ⟪A 0 2⟫ * (⟪A 1 0⟫ * ⟪A 2 1⟫ - ⟪A 1 1⟫ * ⟪A 2 0⟫) := by
  unfold det3
  rw [Matrix.det_fin_three]
  simp only [Matrix.of_apply, Fin.val_zero, Fin.val_one, Fin.val_two]
  ring

theorem det3_acc (ha : MatIs a 3 3 A) (hfin : ∀ i j, i < 3 → j < 3 → Finite (A i j))
    (hb : ∀ i j, i < 3 → j < 3 → |⟪A i j⟫| ≤ 1001 / 1000)
    (hq : (q = 0 ∧ i = 1 ∧ j = 2) ∨ (q = 1 ∧ i = 0 ∧ j = 2) ∨ (q = 2 ∧ i = 1 ∧ j = 0))
    (hmax : ∀ k, k < 3 → ⟪A k 0⟫ ≤ ⟪A q 0⟫) (hfirst : ∀ k, k < q → ⟪A k 0⟫ < ⟪A q 0⟫) :
    (|⟪A q 0⟫| < ⟪(EPSILON : F)⟫ ∧ a.det = .error (.err .Singular)) ∨
    (⟪(EPSILON : F)⟫ ≤ |⟪A q 0⟫| ∧ ∃ s, ((s = i ∧ ⟪left1 A q j 1⟫ ≤ ⟪A i 0 /ᶠ A q 0⟫) ∨ (s = j ∧ ⟪A i 0 /ᶠ A q 0⟫ < ⟪left1 A q j 1⟫)) ∧
      ((|⟪A q 0⟫ * ⟪A s 1⟫ - ⟪A q 1⟫ * ⟪A s 0⟫| ≤ 101 / 10 ^ 6 ∧ a.det = .error (.err .Singular)) ∨
       ∃ d, a.det = .ok d ∧ Finite d ∧ |⟪d⟫ - det3 A| ≤ 80 / 2 ^ 24 / |⟪A q 0⟫|)) := by
  obtain ⟨h1, h2⟩ := det3_run ha hfin hq hmax hfirst
  by_cases hp : |⟪A q 0⟫| < ⟪(EPSILON : F)⟫
  · exact .inl ⟨hp, h1 hp⟩
  have hp := not_lt.mp hp
  refine .inr ⟨hp, ?_⟩
  obtain ⟨el, eu⟩ := eps_bounds (F := F)
  have hq3 : q < 3 := by omega
  have hx0 : 0 < |⟪A q 0⟫| := by norm_num at el; linarith
  set P : ℝ := 1 / |⟪A q 0⟫| with hPd
  have hxP : |⟪A q 0⟫| * P = 1 := by rw [hPd]; field_simp
  have hP : 999 / 1000 ≤ P := by
    rw [hPd, le_div_iff₀ hx0]
    have := hb q 0 hq3 (by omega)
    linarith
  have hP' : P ≤ 20000 := by
    rw [hPd, div_le_iff₀ hx0]
    norm_num at el
    linarith
  have key : ∀ k c, k < 3 → c < 3 → _ := fun k c hk hc => elim_step (hfin q 0 hq3 (by omega)) (hfin q c hq3 hc)
    (hfin k 0 hk (by omega)) (hfin k c hk hc) hP hP' hxP (hb q c hq3 hc) (hb k 0 hk (by omega)) (hb k c hk hc)
  obtain ⟨s, t, hst0, h3⟩ := h2 hp fun k hk _ =>
    ⟨(key k 1 hk (by omega)).1, (key k 1 hk (by omega)).2.1, (key k 2 hk (by omega)).2.1⟩
  have hst : (s = i ∧ t = j) ∨ (s = j ∧ t = i) := by
    rcases hst0 with ⟨a, b, -⟩ | ⟨a, b, -⟩
    · exact .inl ⟨a, b⟩
    · exact .inr ⟨a, b⟩
  have hs3 : s < 3 := by omega
  have ht3 : t < 3 := by omega
  refine ⟨s, ?_, ?_⟩
  · rcases hst0 with ⟨a, -, b⟩ | ⟨a, -, b⟩
    · exact .inl ⟨a, b⟩
    · exact .inr ⟨a, b⟩
  obtain ⟨-, fs1, as1, bs1, cs1⟩ := key s 1 hs3 (by omega)
  obtain ⟨-, fs2, as2, bs2, cs2⟩ := key s 2 hs3 (by omega)
  obtain ⟨-, ft1, at1, bt1, ct1⟩ := key t 1 ht3 (by omega)
  obtain ⟨-, ft2, at2, bt2, ct2⟩ := key t 2 ht3 (by omega)
  have hne : ⟪A q 0⟫ ≠ 0 := abs_pos.mp hx0
  rcases h3 with ⟨h4, h5⟩ | ⟨h4, h5⟩
  · refine .inl ⟨?_, h5⟩
    have h6 : ⟪A q 0⟫ * ⟪A s 1⟫ - ⟪A q 1⟫ * ⟪A s 0⟫ = ⟪A q 0⟫ * (⟪A s 1⟫ - ⟪A q 1⟫ * (⟪A s 0⟫ / ⟪A q 0⟫)) := by
      field_simp
    rw [h6, abs_mul]
    unfold left1 at h4
    have h7 := abs_sub_abs_le_abs_sub (⟪A s 1⟫ - ⟪A q 1⟫ * (⟪A s 0⟫ / ⟪A q 0⟫)) ⟪A s 1 -ᶠ (A q 1 *ᶠ (A s 0 /ᶠ A q 0))⟫
    rw [abs_sub_comm (_ - _) ⟪A s 1 -ᶠ (A q 1 *ᶠ (A s 0 /ᶠ A q 0))⟫] at h7
    have h8 : |⟪A s 1⟫ - ⟪A q 1⟫ * (⟪A s 0⟫ / ⟪A q 0⟫)| ≤ 100001 / 10 ^ 9 + 41 / 10 / 16777216 * P := by linarith
    have h9 := mul_le_mul_of_nonneg_left h8 hx0.le
    have h10 := hb q 0 hq3 (by omega)
    refine h9.trans ?_
    rw [mul_add, show |⟪A q 0⟫| * (41 / 10 / 16777216 * P) = 41 / 10 / 16777216 * (|⟪A q 0⟫| * P) by ring, hxP]
    norm_num
    linarith
  · obtain ⟨fu, fw, bw, aw⟩ := last_step fs1 fs2 ft1 ft2 hP hP' cs1 cs2 ct1 ct2 (by
      unfold left1 at h4
      norm_num at el ⊢
      linarith)
    obtain ⟨hS, hSb⟩ := schur_acc hP as1 bs1 as2 bs2 at1 bt1 at2 bt2 cs2 ct2 aw
    obtain ⟨fp, ap⟩ := prod_step (hfin q 0 hq3 (by omega)) fs1 fw hP hP' hxP cs1 bw hS hSb
    refine .inr ⟨_, h5 fu fw, ?_⟩
    have hval : (80 : ℝ) / 2 ^ 24 / |⟪A q 0⟫| = 80 / 16777216 * P := by rw [hPd]; norm_num; ring
    rw [hval]
    have hdet : ⟪A q 0⟫ * ((⟪A t 2⟫ - ⟪A q 2⟫ * (⟪A t 0⟫ / ⟪A q 0⟫)) * (⟪A s 1⟫ - ⟪A q 1⟫ * (⟪A s 0⟫ / ⟪A q 0⟫)) -
        (⟪A s 2⟫ - ⟪A q 2⟫ * (⟪A s 0⟫ / ⟪A q 0⟫)) * (⟪A t 1⟫ - ⟪A q 1⟫ * (⟪A t 0⟫ / ⟪A q 0⟫))) =
        if s = (q + 1) % 3 then det3 A else -det3 A := by
      rw [det3_eq]
      clear * - hq hst hne
      rcases hq with ⟨rfl, rfl, rfl⟩ | ⟨rfl, rfl, rfl⟩ | ⟨rfl, rfl, rfl⟩ <;>
        rcases hst with ⟨rfl, rfl⟩ | ⟨rfl, rfl⟩ <;> norm_num <;> field_simp <;> ring
    rw [hdet] at ap
    have e1 : prod3 A q s t = lit 1 *ᶠ A q 0 *ᶠ (A s 1 -ᶠ (A q 1 *ᶠ (A s 0 /ᶠ A q 0))) *ᶠ
      (A t 2 -ᶠ (A q 2 *ᶠ (A t 0 /ᶠ A q 0)) -ᶠ ((A s 2 -ᶠ (A q 2 *ᶠ (A s 0 /ᶠ A q 0))) *ᶠ
        ((A t 1 -ᶠ (A q 1 *ᶠ (A t 0 /ᶠ A q 0))) /ᶠ (A s 1 -ᶠ (A q 1 *ᶠ (A s 0 /ᶠ A q 0)))))) := rfl
    rw [← e1] at ap fp
    split
    · rename_i h
      rw [if_pos h] at ap
      exact ⟨fp, ap⟩
    · rename_i h
      rw [if_neg h] at ap
      refine ⟨R.neg_finite fp, ?_⟩
      rw [R.neg_val fp]
      rw [← abs_neg]
      convert ap using 2
      ring


/-! ### What the tests accept -/

theorem forall_lt_three' {p : Nat → Prop} (h0 : p 0) (h1 : p 1) (h2 : p 2) : ∀ k, k < 3 → p k := fun k hk => by
  rcases (show k = 0 ∨ k = 1 ∨ k = 2 by omega) with rfl | rfl | rfl <;> assumption

theorem gram3 (A : Nat → Nat → F) (i j : Nat) :
    gram A 3 i j = ⟪A i 0⟫ * ⟪A j 0⟫ + ⟪A i 1⟫ * ⟪A j 1⟫ + ⟪A i 2⟫ * ⟪A j 2⟫ := by
  unfold gram
  simp only [Finset.sum_range_succ, Finset.sum_range_zero]
  ring

/-- The square of the determinant is the determinant of the products of the rows. -/
theorem det3_sq (A : Nat → Nat → F) : det3 A ^ 2 =
    gram A 3 0 0 * gram A 3 1 1 * gram A 3 2 2 + 2 * gram A 3 0 1 * gram A 3 1 2 * gram A 3 0 2 -
      gram A 3 0 0 * gram A 3 1 2 ^ 2 - gram A 3 1 1 * gram A 3 0 2 ^ 2 - gram A 3 2 2 * gram A 3 0 1 ^ 2 := by
  rw [det3_eq]
  simp only [gram3]
  ring

/-- Nearly orthonormal rows: the elements and the determinant. -/
theorem near_det {e a b c d f g D : ℝ} (he : e ≤ 2 / 10 ^ 4) (ha : |a - 1| ≤ e) (hb : |b - 1| ≤ e) (hc : |c - 1| ≤ e)
    (hd : |d| ≤ e) (hf : |f| ≤ e) (hg : |g| ≤ e)
    (hD : D ^ 2 = a * b * c + 2 * d * f * g - a * f ^ 2 - b * g ^ 2 - c * d ^ 2) :
    |(|D|) - 1| ≤ 151 / 100 * e := by
  have he0 : 0 ≤ e := (abs_nonneg _).trans ha
  obtain ⟨x, rfl⟩ : ∃ x, a = 1 + x := ⟨a - 1, by ring⟩
  obtain ⟨y, rfl⟩ : ∃ y, b = 1 + y := ⟨b - 1, by ring⟩
  obtain ⟨z, rfl⟩ : ∃ z, c = 1 + z := ⟨c - 1, by ring⟩
  simp only [add_sub_cancel_left] at ha hb hc
  have xy := mul_le_of ha hb
  have xz := mul_le_of ha hc
  have yz := mul_le_of hb hc
  have xyz := mul_le_of xy hc
  have df := mul_le_of hd hf
  have dfg := mul_le_of df hg
  have ff := mul_le_of hf hf
  have gg := mul_le_of hg hg
  have dd := mul_le_of hd hd
  have xff := mul_le_of ha ff
  have ygg := mul_le_of hb gg
  have zdd := mul_le_of hc dd
  have hee : e * e ≤ 2 / 10 ^ 4 * e := mul_le_mul_of_nonneg_right he he0
  have heee : e * e * e ≤ 1 / 10 ^ 4 * e := by norm_num at he hee ⊢; nlinarith
  have heee' : e * (e * e) ≤ 1 / 10 ^ 4 * e := by rw [← mul_assoc]; exact heee
  have h1 : |D ^ 2 - 1| ≤ 3015 / 1000 * e := by
    have hE : D ^ 2 - 1 = x + y + z + x * y + x * z + y * z + x * y * z + 2 * (d * f * g) - f * f - x * (f * f) -
        g * g - y * (g * g) - d * d - z * (d * d) := by rw [hD]; ring
    rw [hE]
    clear hE hD
    generalize x * y * z = m1 at *
    generalize x * (f * f) = m2 at *
    generalize y * (g * g) = m3 at *
    generalize z * (d * d) = m4 at *
    generalize d * f * g = m5 at *
    generalize x * y = m6 at *
    generalize x * z = m7 at *
    generalize y * z = m8 at *
    generalize f * f = m9 at *
    generalize g * g = m10 at *
    generalize d * d = m11 at *
    norm_num at hee heee heee'
    rw [abs_le] at *
    constructor <;> linarith [ha.1, ha.2, hb.1, hb.2, hc.1, hc.2]
  clear xy xz yz xyz df dfg ff gg dd xff ygg zdd
  have h2 : D ^ 2 - 1 = (|D| - 1) * (|D| + 1) := by rw [← sq_abs]; ring
  rw [h2, abs_mul, abs_of_pos (show 0 < |D| + 1 by positivity)] at h1
  have h3 : |(|D|) - 1| ≤ 1 / 1000 := by
    have := abs_nonneg D
    norm_num at he
    nlinarith [abs_nonneg (|D| - 1)]
  have h4 := (abs_le.mp h3).1
  nlinarith [abs_nonneg (|D| - 1)]

theorem elem_le {n : Nat} {e : ℝ} (he : e ≤ 11 / 10 ^ 5) (h : ∀ i j, i < n → j < n → |gram A n i j - if i = j then 1 else 0| ≤ e) :
    ∀ i j, i < n → j < n → |⟪A i j⟫| ≤ 1001 / 1000 := fun i j hi hj => by
  have h1 := h i i hi hi
  rw [if_pos rfl, abs_le] at h1
  have h2 : ⟪A i j⟫ * ⟪A i j⟫ ≤ gram A n i i :=
    Finset.single_le_sum (f := fun k => ⟪A i k⟫ * ⟪A i k⟫) (fun k _ => mul_self_nonneg _) (Finset.mem_range.mpr hj)
  apply abs_le_of_sq_le_sq _ (by norm_num)
  rw [pow_two]
  norm_num at he ⊢
  linarith [h1.2]

theorem near_det3 {e : ℝ} (he : e ≤ 2 / 10 ^ 4)
    (h : ∀ i j, i < 3 → j < 3 → |gram A 3 i j - if i = j then 1 else 0| ≤ e) : |(|det3 A|) - 1| ≤ 151 / 100 * e := by
  have h00 := h 0 0 (by omega) (by omega)
  have h11 := h 1 1 (by omega) (by omega)
  have h22 := h 2 2 (by omega) (by omega)
  have h01 := h 0 1 (by omega) (by omega)
  have h12 := h 1 2 (by omega) (by omega)
  have h02 := h 0 2 (by omega) (by omega)
  norm_num at h00 h11 h22 h01 h12 h02
  exact near_det he h00 h11 h22 h01 h12 h02 (det3_sq A)

theorem det3_le (hb : ∀ i j, i < 3 → j < 3 → |⟪A i j⟫| ≤ 1001 / 1000) : |det3 A| ≤ 602 / 100 := by
  rw [det3_eq]
  have b := fun i j (hi : i < 3) (hj : j < 3) k l (hk : k < 3) (hl : l < 3) => mul_le_of (hb i j hi hj) (hb k l hk hl)
  have m1 := mul_le_of (hb 0 0 (by omega) (by omega)) (b 1 1 (by omega) (by omega) 2 2 (by omega) (by omega))
  have m2 := mul_le_of (hb 0 0 (by omega) (by omega)) (b 1 2 (by omega) (by omega) 2 1 (by omega) (by omega))
  have m3 := mul_le_of (hb 0 1 (by omega) (by omega)) (b 1 0 (by omega) (by omega) 2 2 (by omega) (by omega))
  have m4 := mul_le_of (hb 0 1 (by omega) (by omega)) (b 1 2 (by omega) (by omega) 2 0 (by omega) (by omega))
  have m5 := mul_le_of (hb 0 2 (by omega) (by omega)) (b 1 0 (by omega) (by omega) 2 1 (by omega) (by omega))
  have m6 := mul_le_of (hb 0 2 (by omega) (by omega)) (b 1 1 (by omega) (by omega) 2 0 (by omega) (by omega))
  clear b hb
  rw [mul_sub, mul_sub, mul_sub]
  rw [abs_le] at *
  norm_num at m1 m2 m3 m4 m5 m6 ⊢
  constructor <;> linarith [m1.1, m1.2, m2.1, m2.2, m3.1, m3.2, m4.1, m4.2, m5.1, m5.2, m6.1, m6.2]

omit R in
theorem det_true {n : Nat} (h : a.isOrthogonal = .ok true ∨ a.isSoN = .ok true) (hr : a.rows = n) :
    ∃ d, a.det = .ok d ∧ a.mulTransposeIsIdentity n = .ok true := by
  rcases h with h | h
  · unfold Mat.isOrthogonal at h
    obtain ⟨d, hd, h⟩ := Res.bind_eq_ok.mp h
    obtain ⟨b, hb, h⟩ := Res.bind_eq_ok.mp h
    refine ⟨d, hd, ?_⟩
    cases b
    · cases h
    · rw [hr] at h; exact h
  · unfold Mat.isSoN at h
    obtain ⟨d, hd, h⟩ := Res.bind_eq_ok.mp h
    obtain ⟨b, hb, h⟩ := Res.bind_eq_ok.mp h
    refine ⟨d, hd, ?_⟩
    cases b
    · cases h
    · rw [hr] at h; exact h

/-- C122: a `true` from `is_orthogonal` or `is_so_n`, at any size: the rows are orthonormal within
1.01·10⁻⁴. -/
theorem C122_gram {n : Nat} (ha : MatIs a n n A) (hfin : ∀ i j, i < n → j < n → Finite (A i j))
    (hbig : ∀ i j, i < n → j < n → |⟪A i j⟫| ≤ 2 ^ 60) (h : a.isOrthogonal = .ok true ∨ a.isSoN = .ok true) :
    ∀ i j, i < n → j < n → |∑ k ∈ range n, ⟪A i k⟫ * ⟪A j k⟫ - if i = j then 1 else 0| ≤ 101 / 10 ^ 6 := by
  obtain ⟨d, -, h2⟩ := det_true h ha.rows_eq
  obtain ⟨b, e, h3, -⟩ := mulT_run ha hfin hbig
  rw [h2] at e
  cases e
  exact h3 rfl

/-- C122: the determinant of a 3×3 matrix.  The pivot is the largest element of the first column. -/
theorem C122_det (ha : MatIs a 3 3 A) (hfin : ∀ i j, i < 3 → j < 3 → Finite (A i j))
    (hb : ∀ i j, i < 3 → j < 3 → |⟪A i j⟫| ≤ 1001 / 1000) :
    ∃ q, q < 3 ∧ (∀ k, k < 3 → ⟪A k 0⟫ ≤ ⟪A q 0⟫) ∧
      ((a.det = .error (.err .Singular) ∧ (|⟪A q 0⟫| ≤ 100001 / 10 ^ 9 ∨
          ∃ s, s < 3 ∧ s ≠ q ∧ |⟪A q 0⟫ * ⟪A s 1⟫ - ⟪A q 1⟫ * ⟪A s 0⟫| ≤ 101 / 10 ^ 6)) ∨
       ∃ d, a.det = .ok d ∧ Finite d ∧ 99999 / 10 ^ 9 ≤ |⟪A q 0⟫| ∧
        |⟪d⟫ - (Matrix.of fun i j : Fin 3 => ⟪A i j⟫).det| ≤ 80 / 2 ^ 24 / |⟪A q 0⟫|) := by
  obtain ⟨el, eu⟩ := eps_bounds (F := F)
  obtain ⟨q, i, j, hq, hmax, hfirst⟩ := first_max (fun k => ⟪A k 0⟫)
  refine ⟨q, by omega, hmax, ?_⟩
  rcases det3_acc ha hfin hb hq hmax hfirst with ⟨h1, h2⟩ | ⟨h1, s, hs, ⟨h2, h3⟩ | ⟨d, h2, h3, h4⟩⟩
  · exact .inl ⟨h2, .inl (h1.le.trans eu)⟩
  · exact .inl ⟨h3, .inr ⟨s, by omega, by omega, h2⟩⟩
  · exact .inr ⟨d, h2, h3, el.trans h1, h4⟩

/-- C122: what `is_so_n` accepts at size 3 is a rotation within 1.6·10⁻⁴: the determinant is near 1 too. -/
theorem C122_rotation (ha : MatIs a 3 3 A) (hfin : ∀ i j, i < 3 → j < 3 → Finite (A i j))
    (hbig : ∀ i j, i < 3 → j < 3 → |⟪A i j⟫| ≤ 2 ^ 60) (h : a.isSoN = .ok true) :
    |(Matrix.of fun i j : Fin 3 => ⟪A i j⟫).det - 1| ≤ 16 / 10 ^ 5 := by
  have hg := C122_gram ha hfin hbig (.inr h)
  have hb := elem_le (n := 3) (by norm_num) hg
  have hd := near_det3 (e := 101 / 10 ^ 6) (by norm_num) hg
  have hD := det3_le hb
  obtain ⟨q, hq, -, ⟨h1, -⟩ | ⟨d, h1, h2, h3, h4⟩⟩ := C122_det ha hfin hb
  · obtain ⟨d, hd, -⟩ := det_true (.inr h) ha.rows_eq
    rw [h1] at hd
    cases hd
  change |⟪d⟫ - det3 A| ≤ _ at h4
  change |det3 A - 1| ≤ _
  have h5 : |⟪d⟫ - det3 A| ≤ 1 / 20 := by
    refine h4.trans ?_
    rw [div_le_iff₀ (by norm_num at h3; linarith)]
    norm_num at h3 ⊢
    linarith
  have hdb : |⟪d⟫| ≤ 2 ^ 126 := by
    have := abs_sub_abs_le_abs_sub ⟪d⟫ (det3 A)
    norm_num
    linarith
  have hclose : Close d (lit 1) (EPSILON : F) := by
    unfold Mat.isSoN at h
    rw [h1, Res.ok_bind, allcloseL_eq h2 R.one_finite, Res.ok_bind] at h
    by_contra hc
    rw [decide_eq_false hc] at h
    cases h
  have h6 := (close_gen h2 R.one_finite hdb (by rw [R.one_val]; norm_num)).1 hclose
  rw [R.one_val] at h6
  have hpos : 0 < det3 A := by
    rw [abs_le] at h5 h6
    norm_num at h6
    linarith [h5.1, h5.2, h6.1, h6.2]
  rw [abs_of_pos hpos] at hd
  norm_num at hd ⊢
  linarith

theorem cof2 {q s : Nat} (hq : q < 3) (hs : s < 3) (hsq : s ≠ q) {e : ℝ} (he0 : e ≤ 11 / 10 ^ 5)
    (h : ∀ i j, i < 3 → j < 3 → |gram A 3 i j - if i = j then 1 else 0| ≤ e) :
    |det3 A * ⟪A (3 - q - s) 2⟫| ≤ |⟪A q 0⟫ * ⟪A s 1⟫ - ⟪A q 1⟫ * ⟪A s 0⟫| + 605 / 100 * e := by
  have hb := elem_le he0 h
  have hc : ∀ i j, i < 3 → j < 3 → |⟪A i 0⟫ * ⟪A j 1⟫ - ⟪A i 1⟫ * ⟪A j 0⟫| ≤ 201 / 100 := fun i j hi hj => by
    have m1 := mul_le_of (hb i 0 hi (by omega)) (hb j 1 hj (by omega))
    have m2 := mul_le_of (hb i 1 hi (by omega)) (hb j 0 hj (by omega))
    rw [abs_le] at *
    norm_num at m1 m2 ⊢
    constructor <;> linarith [m1.1, m1.2, m2.1, m2.2]
  have k := fun i j (hi : i < 3) (hj : j < 3) k l (hk : k < 3) (hl : l < 3) => mul_le_of (h i j hi hj) (hc k l hk hl)
  have hid : ∀ t, t < 3 → det3 A * ⟪A t 2⟫ = gram A 3 t 0 * (⟪A 1 0⟫ * ⟪A 2 1⟫ - ⟪A 1 1⟫ * ⟪A 2 0⟫) -
      gram A 3 t 1 * (⟪A 0 0⟫ * ⟪A 2 1⟫ - ⟪A 0 1⟫ * ⟪A 2 0⟫) + gram A 3 t 2 * (⟪A 0 0⟫ * ⟪A 1 1⟫ - ⟪A 0 1⟫ * ⟪A 1 0⟫) := by
    apply forall_lt_three' <;> rw [det3_eq] <;> simp only [gram3] <;> ring
  have hmain : ∀ t, t < 3 → |det3 A * ⟪A t 2⟫ - (if 0 = t then 1 else 0) * (⟪A 1 0⟫ * ⟪A 2 1⟫ - ⟪A 1 1⟫ * ⟪A 2 0⟫) +
      (if 1 = t then 1 else 0) * (⟪A 0 0⟫ * ⟪A 2 1⟫ - ⟪A 0 1⟫ * ⟪A 2 0⟫) -
      (if 2 = t then 1 else 0) * (⟪A 0 0⟫ * ⟪A 1 1⟫ - ⟪A 0 1⟫ * ⟪A 1 0⟫)| ≤ 605 / 100 * e := fun t ht => by
    have m1 := k t 0 ht (by omega) 1 2 (by omega) (by omega)
    have m2 := k t 1 ht (by omega) 0 2 (by omega) (by omega)
    have m3 := k t 2 ht (by omega) 0 1 (by omega) (by omega)
    have he : 0 ≤ e := (abs_nonneg _).trans (h 0 0 (by omega) (by omega))
    rw [hid t ht]
    simp only [eq_comm (a := (0 : Nat)) (b := t), eq_comm (a := (1 : Nat)) (b := t), eq_comm (a := (2 : Nat)) (b := t)]
    clear * - m1 m2 m3 he
    rw [abs_le] at *
    constructor <;> linarith [m1.1, m1.2, m2.1, m2.2, m3.1, m3.2]
  have tri : ∀ x y : ℝ, |x| ≤ |y| + |x - y| := fun x y => by have := abs_sub_abs_le_abs_sub x y; linarith
  have tri' : ∀ x y : ℝ, |x| ≤ |y| + |x + y| := fun x y => by
    have := abs_sub_abs_le_abs_sub x (-y); rw [abs_neg, sub_neg_eq_add] at this; linarith
  have r0 := hmain 0 (by omega)
  have r1 := hmain 1 (by omega)
  have r2 := hmain 2 (by omega)
  norm_num at r0 r1 r2
  have c01 : |⟪A 1 0⟫ * ⟪A 0 1⟫ - ⟪A 1 1⟫ * ⟪A 0 0⟫| = |⟪A 0 0⟫ * ⟪A 1 1⟫ - ⟪A 0 1⟫ * ⟪A 1 0⟫| := by
    rw [← abs_neg]; congr 1; ring
  have c02 : |⟪A 2 0⟫ * ⟪A 0 1⟫ - ⟪A 2 1⟫ * ⟪A 0 0⟫| = |⟪A 0 0⟫ * ⟪A 2 1⟫ - ⟪A 0 1⟫ * ⟪A 2 0⟫| := by
    rw [← abs_neg]; congr 1; ring
  have c12 : |⟪A 2 0⟫ * ⟪A 1 1⟫ - ⟪A 2 1⟫ * ⟪A 1 0⟫| = |⟪A 1 0⟫ * ⟪A 2 1⟫ - ⟪A 1 1⟫ * ⟪A 2 0⟫| := by
    rw [← abs_neg]; congr 1; ring
  have t0 := tri (det3 A * ⟪A 0 2⟫) (⟪A 1 0⟫ * ⟪A 2 1⟫ - ⟪A 1 1⟫ * ⟪A 2 0⟫)
  have t1 := tri' (det3 A * ⟪A 1 2⟫) (⟪A 0 0⟫ * ⟪A 2 1⟫ - ⟪A 0 1⟫ * ⟪A 2 0⟫)
  have t2 := tri (det3 A * ⟪A 2 2⟫) (⟪A 0 0⟫ * ⟪A 1 1⟫ - ⟪A 0 1⟫ * ⟪A 1 0⟫)
  clear k hid hmain tri tri' hc hb h
  rcases (show (q = 0 ∧ s = 1) ∨ (q = 0 ∧ s = 2) ∨ (q = 1 ∧ s = 0) ∨ (q = 1 ∧ s = 2) ∨ (q = 2 ∧ s = 0) ∨ (q = 2 ∧ s = 1) by omega) with
    ⟨rfl, rfl⟩ | ⟨rfl, rfl⟩ | ⟨rfl, rfl⟩ | ⟨rfl, rfl⟩ | ⟨rfl, rfl⟩ | ⟨rfl, rfl⟩ <;>
    simp only [Nat.reduceSub, Nat.sub_zero, c01, c02, c12] <;> linarith

theorem soN_of {d : F} (h : a.det = .ok d) (hd : Finite d) {n : Nat} (hr : a.rows = n) {b : Bool}
    (hm : a.mulTransposeIsIdentity n = .ok b) :
    a.isSoN = .ok (if Close d (lit 1) (EPSILON : F) then b else false) ∧
    a.isOrthogonal = .ok (if Close (Scalar.abs d) (lit 1) (EPSILON : F) then b else false) := by
  constructor
  · unfold Mat.isSoN
    rw [h, Res.ok_bind, allcloseL_eq hd R.one_finite, Res.ok_bind, hr]
    by_cases hc : Close d (lit 1) (EPSILON : F)
    · rw [decide_eq_true hc, if_pos hc]; exact hm
    · rw [decide_eq_false hc, if_neg hc]; rfl
  · unfold Mat.isOrthogonal
    rw [h, Res.ok_bind]
    dsimp only
    rw [allcloseL_eq (R.abs_finite hd) R.one_finite, Res.ok_bind, hr]
    by_cases hc : Close (Scalar.abs d) (lit 1) (EPSILON : F)
    · rw [decide_eq_true hc, if_pos hc]; exact hm
    · rw [decide_eq_false hc, if_neg hc]; rfl

/-- C122: rows orthonormal within 4·10⁻⁵, and a pivot of at least 1/8: either the tests fail with `Singular`,
which takes a small element in the third column, or `is_orthogonal` answers `true` and `is_so_n` tells a rotation
from a reflection. -/
theorem C122_accept (ha : MatIs a 3 3 A) (hfin : ∀ i j, i < 3 → j < 3 → Finite (A i j))
    (hg : ∀ i j, i < 3 → j < 3 → |∑ k ∈ range 3, ⟪A i k⟫ * ⟪A j k⟫ - if i = j then 1 else 0| ≤ 4 / 10 ^ 5)
    (hp : ∀ q, q < 3 → (∀ k, k < 3 → ⟪A k 0⟫ ≤ ⟪A q 0⟫) → 1 / 8 ≤ |⟪A q 0⟫|) :
    (a.isSoN = .error (.err .Singular) ∧ a.isOrthogonal = .error (.err .Singular) ∧
      ∃ q t, q < 3 ∧ (∀ k, k < 3 → ⟪A k 0⟫ ≤ ⟪A q 0⟫) ∧ t < 3 ∧ t ≠ q ∧ |⟪A t 2⟫| ≤ 4 / 10 ^ 4) ∨
    (a.isOrthogonal = .ok true ∧ a.isSoN = .ok (decide (0 < (Matrix.of fun i j : Fin 3 => ⟪A i j⟫).det))) := by
  change (∀ i j, i < 3 → j < 3 → |gram A 3 i j - if i = j then 1 else 0| ≤ 4 / 10 ^ 5) at hg
  have hb := elem_le (n := 3) (by norm_num) hg
  have hd := near_det3 (e := 4 / 10 ^ 5) (by norm_num) hg
  obtain ⟨q, hq, hmax, ⟨h1, h2⟩ | ⟨d, h1, h2, h3, h4⟩⟩ := C122_det ha hfin hb
  · refine .inl ⟨by unfold Mat.isSoN; rw [h1]; rfl, by unfold Mat.isOrthogonal; rw [h1]; rfl, ?_⟩
    have hpq := hp q hq hmax
    rcases h2 with h2 | ⟨s, hs, hsq, h2⟩
    · exfalso
      norm_num at h2
      linarith
    · refine ⟨q, 3 - q - s, hq, hmax, by omega, by omega, ?_⟩
      have h5 := cof2 hq hs hsq (by norm_num) hg
      rw [abs_mul] at h5
      rw [abs_le] at hd
      have h6 := hd.1
      have h7 := abs_nonneg ⟪A (3 - q - s) 2⟫
      generalize |⟪A (3 - q - s) 2⟫| = z at *
      generalize |det3 A| = w at *
      norm_num at h2 h5 h6 ⊢
      nlinarith
  · have hpq := hp q hq hmax
    change |⟪d⟫ - det3 A| ≤ _ at h4
    have h5 : |⟪d⟫ - det3 A| ≤ 39 / 10 ^ 6 := by
      refine h4.trans ?_
      rw [div_le_iff₀ (by linarith)]
      norm_num
      linarith
    have h6 : |(|⟪d⟫|) - 1| ≤ 998 / 10 ^ 7 := by
      have h7 := abs_abs_sub_abs_le_abs_sub ⟪d⟫ (det3 A)
      rw [abs_le] at hd h7 ⊢
      norm_num at h5 hd h7 ⊢
      constructor <;> linarith [hd.1, hd.2, h7.1, h7.2]
    have hdb : |⟪d⟫| ≤ 2 := by
      have := (abs_le.mp h6).2
      norm_num at this
      linarith
    obtain ⟨b, e, -, hbt⟩ := mulT_run ha hfin (fun i j hi hj => (hb i j hi hj).trans (by norm_num))
    obtain rfl := hbt fun i j hi hj => (hg i j hi hj).trans (by norm_num)
    obtain ⟨s1, s2⟩ := soN_of h1 h2 ha.rows_eq e
    have hone : |⟪(lit 1 : F)⟫| ≤ 1 := by rw [R.one_val]; norm_num
    have c1 := close_gen h2 R.one_finite (hdb.trans (by norm_num)) hone
    have c2 := close_gen (R.abs_finite h2) R.one_finite (by rw [R.abs_val h2, abs_abs]; exact hdb.trans (by norm_num)) hone
    rw [R.one_val] at c1 c2
    rw [R.abs_val h2] at c2
    refine .inr ⟨?_, ?_⟩
    · rw [s2, if_pos]
      by_contra hc
      have := c2.2 hc
      norm_num at this h6
      linarith
    · rw [s1]
      change _ = Except.ok (decide (0 < det3 A))
      by_cases hpos : 0 < det3 A
      · rw [decide_eq_true hpos, if_pos]
        by_contra hc
        have := c1.2 hc
        have hdp : 0 < ⟪d⟫ := by
          rw [abs_of_pos hpos] at hd
          rw [abs_le] at hd h5
          norm_num at hd h5
          linarith [hd.1, h5.1]
        rw [abs_of_pos hdp] at h6
        norm_num at this h6
        linarith
      · rw [decide_eq_false hpos, if_neg]
        intro hc
        have := c1.1 hc
        rw [abs_le] at this h5
        norm_num at this h5
        linarith [this.1, h5.1]

/-- C122: `adjugate_in_place` of a 3×3 matrix: the transpose times the determinant. -/
theorem C122_adjugate (ha : MatIs a 3 3 A) (hfin : ∀ i j, i < 3 → j < 3 → Finite (A i j))
    (hb : ∀ i j, i < 3 → j < 3 → |⟪A i j⟫| ≤ 1001 / 1000) :
    (a.det = .error (.err .Singular) ∧ Mat.adjugateInPlace a = (.error (.err .Singular), a)) ∨
    ∃ q r B, q < 3 ∧ (∀ k, k < 3 → ⟪A k 0⟫ ≤ ⟪A q 0⟫) ∧ Mat.adjugateInPlace a = (.ok (), r) ∧ MatIs r 3 3 B ∧
      ∀ i j, i < 3 → j < 3 → Finite (B i j) ∧
        |⟪B i j⟫ - (Matrix.of fun i j : Fin 3 => ⟪A i j⟫).det * ⟪A j i⟫| ≤ 90 / 2 ^ 24 / |⟪A q 0⟫| := by
  obtain ⟨q, hq, hmax, ⟨h1, h2⟩ | ⟨d, h1, h2, h3, h4⟩⟩ := C122_det ha hfin hb
  · refine .inl ⟨h1, ?_⟩
    unfold Mat.adjugateInPlace
    have : a.isSoN = .error (.err .Singular) := by unfold Mat.isSoN; rw [h1]; rfl
    simp only [Op.get_bind, this]
    rfl
  change |⟪d⟫ - det3 A| ≤ _ at h4
  have hx0 : 0 < |⟪A q 0⟫| := by norm_num at h3; linarith
  obtain ⟨P, hPd⟩ : ∃ P, P = 1 / |⟪A q 0⟫| := ⟨_, rfl⟩
  have hP : 999 / 1000 ≤ P := by
    rw [hPd, le_div_iff₀ hx0]
    have := hb q 0 hq (by omega)
    linarith
  have hP' : P ≤ 20000 := by
    rw [hPd, div_le_iff₀ hx0]
    norm_num at h3
    linarith
  have hv : ∀ c : ℝ, c / 2 ^ 24 / |⟪A q 0⟫| = c / 16777216 * P := fun c => by rw [hPd]; norm_num; ring
  rw [hv] at h4
  have hD := det3_le hb
  have hdb : |⟪d⟫| ≤ 61 / 10 * P := by
    have := abs_sub_abs_le_abs_sub ⟪d⟫ (det3 A)
    linarith
  obtain ⟨b, e, -, -⟩ := mulT_run ha hfin (fun i j hi hj => (hb i j hi hj).trans (by norm_num))
  obtain ⟨s1, -⟩ := soN_of h1 h2 ha.rows_eq e
  obtain ⟨t, e1, ht⟩ := Mat.transpose_ok ha hfin
  have hpr : ∀ i j, i < 3 → j < 3 → |⟪A j i⟫ * ⟪d⟫| ≤ 62 / 10 * P := fun i j hi hj => by
    have := mul_le_of (hb j i hj hi) hdb
    linarith
  have hf : ∀ i j, i < 3 → j < 3 → Finite (A j i *ᶠ d) := fun i j hi hj =>
    R.mul_finite (hfin j i hj hi) h2 ((hpr i j hi hj).trans (by norm_num; linarith))
  obtain ⟨r, e2, hr⟩ := Mat.run_of_stores (Mat.mulByScalarInPlace_stores (x := d) ht) ht hf
  refine .inr ⟨q, r, _, hq, hmax, ?_, hr, fun i j hi hj => ⟨hf i j hi hj, ?_⟩⟩
  · unfold Mat.adjugateInPlace
    simp only [Op.get_bind, s1, h1, Op.liftOk_bind]
    rw [Op.bind_ok e1, e2]
  · change |_ - det3 A * _| ≤ _
    rw [hv]
    have n1 := (R.mul_near (hfin j i hj hi) h2 (hf i j hi hj)).bound
    have n2 := hpr i j hi hj
    have n3 := mul_le_of h4 (hb j i hj hi)
    have n4 := abs_sub_le ⟪A j i *ᶠ d⟫ (⟪A j i⟫ * ⟪d⟫) (det3 A * ⟪A j i⟫)
    rw [show ⟪A j i⟫ * ⟪d⟫ - det3 A * ⟪A j i⟫ = (⟪d⟫ - det3 A) * ⟪A j i⟫ by ring] at n4
    have hη := rη_le
    norm_num at hη ⊢
    linarith

/-- The products of the rows of the matrix of a quaternion of norm near 1. -/
theorem dcm_gram {q : Quaternion ℝ} {δ : ℝ} (hδ : |‖q‖ ^ 2 - 1| ≤ δ) (hδ1 : δ ≤ 1 / 10 ^ 5) : ∀ i j, i < 3 → j < 3 →
    |dcmOf q i 0 * dcmOf q j 0 + dcmOf q i 1 * dcmOf q j 1 + dcmOf q i 2 * dcmOf q j 2 - if i = j then 1 else 0| ≤
      41 / 10 * δ := by
  have hN : ‖q‖ ^ 2 = q.re ^ 2 + q.imI ^ 2 + q.imJ ^ 2 + q.imK ^ 2 := by
    rw [pow_two, ← Quaternion.normSq_eq_norm_mul_self, Quaternion.normSq_def']
  rw [hN] at hδ
  unfold dcmOf
  generalize q.re = w at *
  generalize q.imI = x at *
  generalize q.imJ = y at *
  generalize q.imK = z at *
  obtain ⟨m, hm⟩ : ∃ m, m = w ^ 2 + x ^ 2 + y ^ 2 + z ^ 2 - 1 := ⟨_, rfl⟩
  rw [← hm] at hδ
  have hδ0 : 0 ≤ δ := (abs_nonneg _).trans hδ
  -- the elements of the matrix of a rotation times the square of the norm
  have b : ∀ u v s t : ℝ, u ^ 2 + v ^ 2 + s ^ 2 + t ^ 2 = m + 1 → |2 * (u * v + s * t)| ≤ 1 + δ := fun u v s t h => by
    rw [abs_le] at hδ ⊢
    constructor <;> nlinarith [sq_nonneg (u - v), sq_nonneg (u + v), sq_nonneg (s - t), sq_nonneg (s + t), hδ.1, hδ.2]
  have b1 := b x y w (-z) (by rw [hm]; ring)
  have b2 := b x y w z (by rw [hm]; ring)
  have b3 := b x z w y (by rw [hm]; ring)
  have b4 := b x z w (-y) (by rw [hm]; ring)
  have b5 := b y z w x (by rw [hm]; ring)
  have b6 := b y z w (-x) (by rw [hm]; ring)
  have b7 : |w ^ 2 - x ^ 2 + y ^ 2 - z ^ 2| ≤ 1 + δ := by
    rw [abs_le] at hδ ⊢
    constructor <;> nlinarith [sq_nonneg w, sq_nonneg x, sq_nonneg y, sq_nonneg z, hδ.1, hδ.2]
  have b8 : |w ^ 2 - x ^ 2 - y ^ 2 + z ^ 2| ≤ 1 + δ := by
    rw [abs_le] at hδ ⊢
    constructor <;> nlinarith [sq_nonneg w, sq_nonneg x, sq_nonneg y, sq_nonneg z, hδ.1, hδ.2]
  have mm := mul_le_of hδ hδ
  have m1 := mul_le_of hδ b1
  have m2 := mul_le_of hδ b2
  have m3 := mul_le_of hδ b3
  have m4 := mul_le_of hδ b4
  have m5 := mul_le_of hδ b5
  have m6 := mul_le_of hδ b6
  have m7 := mul_le_of hδ b7
  have m8 := mul_le_of hδ b8
  have hδδ : δ * δ ≤ 1 / 10 ^ 5 * δ := mul_le_mul_of_nonneg_right hδ1 hδ0
  rw [show δ * (1 + δ) = δ + δ * δ by ring] at m1 m2 m3 m4 m5 m6 m7 m8
  norm_num at hδδ
  have e00 : (w * w + x * x - y * y - z * z) * (w * w + x * x - y * y - z * z) + 2 * (x * y - w * z) * (2 * (x * y - w * z)) +
      2 * (x * z + w * y) * (2 * (x * z + w * y)) - 1 = 2 * m + m * m := by rw [hm]; ring
  have e01 : (w * w + x * x - y * y - z * z) * (2 * (x * y + w * z)) + 2 * (x * y - w * z) * (1 - 2 * (x * x + z * z)) +
      2 * (x * z + w * y) * (2 * (y * z - w * x)) = -(m * (2 * (x * y + w * -z))) := by rw [hm]; ring
  have e02 : (w * w + x * x - y * y - z * z) * (2 * (x * z - w * y)) + 2 * (x * y - w * z) * (2 * (w * x + y * z)) +
      2 * (x * z + w * y) * (1 - 2 * (x * x + y * y)) = -(m * (2 * (x * z + w * y))) := by rw [hm]; ring
  have e11 : 2 * (x * y + w * z) * (2 * (x * y + w * z)) + (1 - 2 * (x * x + z * z)) * (1 - 2 * (x * x + z * z)) +
      2 * (y * z - w * x) * (2 * (y * z - w * x)) - 1 =
      2 * m + 2 * (m * m) - 2 * (m * (w ^ 2 - x ^ 2 + y ^ 2 - z ^ 2)) := by rw [hm]; ring
  have e12 : 2 * (x * y + w * z) * (2 * (x * z - w * y)) + (1 - 2 * (x * x + z * z)) * (2 * (w * x + y * z)) +
      2 * (y * z - w * x) * (1 - 2 * (x * x + y * y)) =
      -(m * (2 * (y * z + w * x))) - m * (2 * (y * z + w * -x)) := by rw [hm]; ring
  have e22 : 2 * (x * z - w * y) * (2 * (x * z - w * y)) + 2 * (w * x + y * z) * (2 * (w * x + y * z)) +
      (1 - 2 * (x * x + y * y)) * (1 - 2 * (x * x + y * y)) - 1 =
      2 * m + 2 * (m * m) - 2 * (m * (w ^ 2 - x ^ 2 - y ^ 2 + z ^ 2)) := by rw [hm]; ring
  have sy : ∀ a b c d e f : ℝ, a * b + c * d + e * f = b * a + d * c + f * e := fun _ _ _ _ _ _ => by ring
  clear b b1 b2 b3 b4 b5 b6 b7 b8 hm hN
  generalize m * (2 * (x * y + w * -z)) = n1 at *
  generalize m * (2 * (x * z + w * y)) = n3 at *
  generalize m * (2 * (y * z + w * x)) = n5 at *
  generalize m * (2 * (y * z + w * -x)) = n6 at *
  generalize m * (w ^ 2 - x ^ 2 + y ^ 2 - z ^ 2) = n7 at *
  generalize m * (w ^ 2 - x ^ 2 - y ^ 2 + z ^ 2) = n8 at *
  generalize m * m = mm' at *
  have r00 : |2 * m + mm'| ≤ 41 / 10 * δ := by
    rw [abs_le] at *; constructor <;> linarith [hδ.1, hδ.2, mm.1, mm.2]
  have r01 : |-n1| ≤ 41 / 10 * δ := by rw [abs_neg]; linarith
  have r02 : |-n3| ≤ 41 / 10 * δ := by rw [abs_neg]; linarith
  have r11 : |2 * m + 2 * mm' - 2 * n7| ≤ 41 / 10 * δ := by
    rw [abs_le] at *; constructor <;> linarith [hδ.1, hδ.2, mm.1, mm.2, m7.1, m7.2]
  have r22 : |2 * m + 2 * mm' - 2 * n8| ≤ 41 / 10 * δ := by
    rw [abs_le] at *; constructor <;> linarith [hδ.1, hδ.2, mm.1, mm.2, m8.1, m8.2]
  have r12 : |-n5 - n6| ≤ 41 / 10 * δ := by
    rw [abs_le] at *; constructor <;> linarith [m5.1, m5.2, m6.1, m6.2]
  intro i j hi hj
  rcases (show i = 0 ∨ i = 1 ∨ i = 2 by omega) with rfl | rfl | rfl <;>
    rcases (show j = 0 ∨ j = 1 ∨ j = 2 by omega) with rfl | rfl | rfl <;>
    simp only [tbl, List.getD_cons_zero, List.getD_cons_succ, if_true, if_false, sub_zero,
      show (0 : Nat) ≠ 1 by decide, show (0 : Nat) ≠ 2 by decide, show (1 : Nat) ≠ 2 by decide,
      show (1 : Nat) ≠ 0 by decide, show (2 : Nat) ≠ 0 by decide, show (2 : Nat) ≠ 1 by decide] <;>
    first
    | (rw [e00]; exact r00) | (rw [e01]; exact r01) | (rw [e02]; exact r02) | (rw [e11]; exact r11)
    | (rw [e12]; exact r12) | (rw [e22]; exact r22) | (rw [sy, e01]; exact r01) | (rw [sy, e02]; exact r02)
    | (rw [sy, e12]; exact r12)


theorem tri_prod {a b c a' b' c' e : ℝ} (ha : |a| ≤ 1001 / 1000) (hb : |b| ≤ 1001 / 1000)
    (hb' : |b'| ≤ 1001 / 1000) (hc' : |c'| ≤ 1001 / 1000) (da : |a - a'| ≤ e)
    (db : |b - b'| ≤ e) (dc : |c - c'| ≤ e) : |a * (b * c) - a' * (b' * c')| ≤ 302 / 100 * e := by
  have m1 := mul_le_of ha (mul_le_of hb dc)
  have m2 := mul_le_of ha (mul_le_of db hc')
  have m3 := mul_le_of da (mul_le_of hb' hc')
  have he : 0 ≤ e := (abs_nonneg _).trans da
  have : a * (b * c) - a' * (b' * c') = a * (b * (c - c')) + a * ((b - b') * c') + (a - a') * (b' * c') := by ring
  rw [this]
  have t1 := abs_add_le (a * (b * (c - c')) + a * ((b - b') * c')) ((a - a') * (b' * c'))
  have t2 := abs_add_le (a * (b * (c - c'))) (a * ((b - b') * c'))
  linarith

theorem det3_near {B : Nat → Nat → ℝ} {e : ℝ} (hA : ∀ i j, i < 3 → j < 3 → |⟪A i j⟫| ≤ 1001 / 1000)
    (hB : ∀ i j, i < 3 → j < 3 → |B i j| ≤ 1001 / 1000) (h : ∀ i j, i < 3 → j < 3 → |⟪A i j⟫ - B i j| ≤ e) :
    |det3 A - (toMatrix 3 3 B).det| ≤ 182 / 10 * e := by
  have k := fun i j k (hi : i < 3) (hj : j < 3) (hk : k < 3) =>
    tri_prod (hA 0 i (by omega) hi) (hA 1 j (by omega) hj) (hB 1 j (by omega) hj) (hB 2 k (by omega) hk)
      (h 0 i (by omega) hi) (h 1 j (by omega) hj) (h 2 k (by omega) hk)
  have k1 := k 0 1 2 (by omega) (by omega) (by omega)
  have k2 := k 0 2 1 (by omega) (by omega) (by omega)
  have k3 := k 1 0 2 (by omega) (by omega) (by omega)
  have k4 := k 1 2 0 (by omega) (by omega) (by omega)
  have k5 := k 2 0 1 (by omega) (by omega) (by omega)
  have k6 := k 2 1 0 (by omega) (by omega) (by omega)
  have he : 0 ≤ e := (abs_nonneg _).trans (h 0 0 (by omega) (by omega))
  rw [det3_eq, Matrix.det_fin_three]
  simp only [toMatrix, Matrix.of_apply, Fin.val_zero, Fin.val_one, Fin.val_two]
  clear k hA hB h
  rw [abs_le] at *
  constructor <;> linarith [k1.1, k1.2, k2.1, k2.2, k3.1, k3.2, k4.1, k4.2, k5.1, k5.2, k6.1, k6.2]

theorem dcmOf_det_near {q : Quaternion ℝ} {δ : ℝ} (hδ : |‖q‖ ^ 2 - 1| ≤ δ) (hδ1 : δ ≤ 1 / 10 ^ 5) :
    |(toMatrix 3 3 (dcmOf q)).det - 1| ≤ 10 * δ := by
  have hN : ‖q‖ ^ 2 = q.re ^ 2 + q.imI ^ 2 + q.imJ ^ 2 + q.imK ^ 2 := by
    rw [pow_two, ← Quaternion.normSq_eq_norm_mul_self, Quaternion.normSq_def']
  rw [hN] at hδ
  have e : (toMatrix 3 3 (dcmOf q)).det - 1 = (q.re ^ 2 + q.imI ^ 2 + q.imJ ^ 2 + q.imK ^ 2 - 1) *
      (4 * q.imI ^ 2 * q.re ^ 2 + 1 + 4 * q.imI ^ 2 * (q.imI ^ 2 + q.imJ ^ 2 + q.imK ^ 2) + 2 * q.imJ ^ 2 + 2 * q.imK ^ 2) := by
    rw [Matrix.det_fin_three]
    simp [toMatrix, dcmOf, tbl]
    ring
  rw [e, abs_mul, mul_comm]
  have h1 := (abs_le.mp hδ).2
  have hs : q.re ^ 2 + q.imI ^ 2 + q.imJ ^ 2 + q.imK ^ 2 ≤ 11 / 10 := by norm_num at hδ1; linarith
  clear e h1 hN
  have := sq_nonneg q.re
  have := sq_nonneg q.imI
  have := sq_nonneg q.imJ
  have := sq_nonneg q.imK
  generalize q.re ^ 2 = w at *
  generalize q.imI ^ 2 = x at *
  generalize q.imJ ^ 2 = y at *
  generalize q.imK ^ 2 = z at *
  refine mul_le_mul ?_ hδ (abs_nonneg _) (by norm_num)
  rw [abs_of_nonneg (by positivity)]
  nlinarith [mul_nonneg ‹0 ≤ x› ‹0 ≤ w›]

/-- C122: the matrix of a quaternion of norm 1 within 10⁻⁶ has rows orthonormal within 2·10⁻⁵ and a positive
determinant; `is_so_n` answers `true` or fails with `Singular`, if the pivot is not below 1/8. -/
theorem C122_dcm {a : Vec F} {f : Nat → F} (ha : VecIs a 4 f) (hf : ∀ i, i < 4 → Finite (f i)) (hn : NearUnit f) :
    ∃ m D, Quat.convertToDcm a = .ok m ∧ MatIs m 3 3 D ∧ (∀ i j, i < 3 → j < 3 → Finite (D i j)) ∧
      (∀ i j, i < 3 → j < 3 → |∑ k ∈ range 3, ⟪D i k⟫ * ⟪D j k⟫ - if i = j then 1 else 0| ≤ 2 / 10 ^ 5) ∧
      0 < (Matrix.of fun i j : Fin 3 => ⟪D i j⟫).det ∧
      ((∀ q, q < 3 → (∀ k, k < 3 → ⟪D k 0⟫ ≤ ⟪D q 0⟫) → 1 / 8 ≤ |⟪D q 0⟫|) →
        m.isSoN = .ok true ∨ m.isSoN = .error (.err .Singular)) := by
  have hn' := abs_le.mp hn
  obtain ⟨m, D, e, hm, hD⟩ := C88_dcm ha hf (by norm_num at hn' ⊢; linarith [hn'.2])
  have hδ : |‖qval f‖ ^ 2 - 1| ≤ 201 / 10 ^ 8 := by
    norm_num at hn'
    rw [abs_le]
    constructor <;> norm_num <;> nlinarith [hn'.1, hn'.2, norm_nonneg (qval f)]
  have hG := dcm_gram hδ (by norm_num)
  have hdet := dcmOf_det_near hδ (by norm_num)
  generalize hR : dcmOf (qval f) = B at hG hdet hD
  have he : ∀ i j, i < 3 → j < 3 → |⟪D i j⟫ - B i j| ≤ 108 / 10 ^ 8 := fun i j hi hj => by
    refine (hD i j hi hj).2.trans ?_
    have := (abs_le.mp hδ).2
    norm_num at this ⊢
    linarith
  have hB : ∀ i j, i < 3 → j < 3 → |B i j| ≤ 10001 / 10000 := fun i j hi hj => by
    have h1 := hG i i hi hi
    rw [if_pos rfl, abs_le] at h1
    have h2 : B i j * B i j ≤ B i 0 * B i 0 + B i 1 * B i 1 + B i 2 * B i 2 := by
      have h0 := mul_self_nonneg (B i 0)
      have h1 := mul_self_nonneg (B i 1)
      have h2 := mul_self_nonneg (B i 2)
      rcases (show j = 0 ∨ j = 1 ∨ j = 2 by omega) with rfl | rfl | rfl <;> linarith
    apply abs_le_of_sq_le_sq _ (by norm_num)
    rw [pow_two]
    norm_num at h1 ⊢
    linarith [h1.2]
  have hA : ∀ i j, i < 3 → j < 3 → |⟪D i j⟫| ≤ 1001 / 1000 := fun i j hi hj => by
    have h1 := abs_sub_abs_le_abs_sub ⟪D i j⟫ (B i j)
    have h2 := he i j hi hj
    have h3 := hB i j hi hj
    norm_num at h2 ⊢
    linarith
  have hg : ∀ i j, i < 3 → j < 3 → |gram D 3 i j - if i = j then 1 else 0| ≤ 2 / 10 ^ 5 := fun i j hi hj => by
    have pr : ∀ k, k < 3 → |⟪D i k⟫ * ⟪D j k⟫ - B i k * B j k| ≤ 22 / 10 ^ 7 := fun k hk => by
      have m1 := mul_le_of (he i k hi hk) (hA j k hj hk)
      have m2 := mul_le_of (hB i k hi hk) (he j k hj hk)
      have t := abs_add_le ((⟪D i k⟫ - B i k) * ⟪D j k⟫) (B i k * (⟪D j k⟫ - B j k))
      rw [show (⟪D i k⟫ - B i k) * ⟪D j k⟫ + B i k * (⟪D j k⟫ - B j k) = ⟪D i k⟫ * ⟪D j k⟫ - B i k * B j k by ring] at t
      norm_num at m1 m2 t ⊢
      linarith
    have p0 := pr 0 (by omega)
    have p1 := pr 1 (by omega)
    have p2 := pr 2 (by omega)
    have h1 := hG i j hi hj
    rw [gram3]
    clear * - p0 p1 p2 h1
    rw [abs_le] at *
    norm_num at p0 p1 p2 h1 ⊢
    constructor <;> linarith [p0.1, p0.2, p1.1, p1.2, p2.1, p2.2, h1.1, h1.2]
  have hpos : 0 < det3 D := by
    have h1 := det3_near hA (fun i j hi hj => (hB i j hi hj).trans (by norm_num)) he
    rw [abs_le] at h1 hdet
    norm_num at h1 hdet
    linarith [h1.1, hdet.1]
  refine ⟨m, D, e, hm, fun i j hi hj => (hD i j hi hj).1, hg, hpos, fun hp => ?_⟩
  rcases C122_accept hm (fun i j hi hj => (hD i j hi hj).1) (fun i j hi hj => (hg i j hi hj).trans (by norm_num)) hp with
    ⟨h1, -⟩ | ⟨-, h1⟩
  · exact .inr h1
  · refine .inl (h1.trans ?_)
    rw [decide_eq_true]
    exact hpos

end

/-! ### Cases -/

/-- A binary32 quaternion of norm 1 within 10⁻⁶. -/
def exQ : List ℚ := [10037597 / 33554432, 1161759 / 8388608, 1796977 / 2097152, -1662525 / 4194304]

theorem exQ_val : qval (fun i => (lit (exQ.getD i 0) : F32)) = mkQ (10037597 / 33554432) (1161759 / 8388608) (1796977 / 2097152) (-1662525 / 4194304) := by
  unfold qval exQ
  simp only [List.getD_cons_zero, List.getD_cons_succ]
  rw [lit_val _ (by decide +kernel), lit_val _ (by decide +kernel), lit_val _ (by decide +kernel),
    lit_val _ (by decide +kernel)]
  norm_num

theorem exQ_unit : NearUnit (fun i => (lit (exQ.getD i 0) : F32)) := by
  unfold NearUnit
  rw [exQ_val, norm_mkQ, abs_le]
  constructor
  · have : (1 - 1 / 10 ^ 6 : ℝ) ≤ √((10037597 / 33554432) ^ 2 + (1161759 / 8388608) ^ 2 + (1796977 / 2097152) ^ 2 + (-1662525 / 4194304) ^ 2) :=
      Real.le_sqrt_of_sq_le (by norm_num)
    linarith
  · rw [sub_le_iff_le_add, Real.sqrt_le_left (by norm_num)]
    norm_num

/-- C122: unit quaternions for whose matrix `is_so_n` answers `false`, or fails; the determinant is computed with
a small pivot, or not at all. -/
theorem C122_refused :
    (∃ (a : Vec F32) (f : Nat → F32), VecIs a 4 f ∧ (∀ i, i < 4 → Finite (f i)) ∧ NearUnit f ∧
      (Quat.convertToDcm a >>= fun m => m.isSoN) = .ok false) ∧
    (∃ (a : Vec F32) (f : Nat → F32), VecIs a 4 f ∧ (∀ i, i < 4 → Finite (f i)) ∧ NearUnit f ∧
      (Quat.convertToDcm a >>= fun m => m.isSoN) = .error (.err .Singular)) := by
  refine ⟨⟨fvec exQ, _, fvec_is exQ rfl, by decide +kernel, exQ_unit, by decide +kernel⟩,
    ⟨fvec [0, 0, 0, 1], _, fvec_is [0, 0, 0, 1] rfl, by decide +kernel, ?_, by decide +kernel⟩⟩
  unfold NearUnit qval
  simp only [List.getD_cons_zero, List.getD_cons_succ]
  rw [lit_val 0 (by decide +kernel), lit_val 1 (by decide +kernel), norm_mkQ]
  norm_num

/-- A turn of about 53 degrees about the third axis, of exact binary32 numbers. -/
def exS : List (List ℚ) := [[19661 / 32768, -26214 / 32768, 0], [26214 / 32768, 19661 / 32768, 0], [0, 0, 1]]

theorem exS_is : MatIs (fmat exS) 3 3 (fun i j => (lit (tbl exS i j) : F32)) :=
  Mat.of_is _ (by decide) (by decide) (by decide) (by decide)

theorem exS_val : ∀ i j, i < 3 → j < 3 → ⟪(lit (tbl exS i j) : F32)⟫ = ((tbl exS i j : ℚ) : ℝ) := by
  have : ∀ i, i < 3 → ∀ j, j < 3 → F32.fl (.fin (tbl exS i j)) = ⟨.fin (tbl exS i j)⟩ := by decide +kernel
  exact fun i j hi hj => lit_val _ (this i hi j hj)

theorem exS_fin : ∀ i j, i < 3 → j < 3 → Finite (lit (tbl exS i j) : F32) := by
  have : ∀ i, i < 3 → ∀ j, j < 3 → Finite (lit (tbl exS i j) : F32) := by decide +kernel
  exact fun i j hi hj => this i hi j hj

example : (fmat exS).isSoN = .ok true ∧ (fmat exS).isOrthogonal = .ok true := by decide +kernel

/-- The hypotheses of `C122_accept` and `C122_adjugate`. -/
theorem exS_gram : ∀ i j, i < 3 → j < 3 → |∑ k ∈ range 3, ⟪(lit (tbl exS i k) : F32)⟫ * ⟪(lit (tbl exS j k) : F32)⟫ -
    if i = j then 1 else 0| ≤ 4 / 10 ^ 5 := by
  intro i j hi hj
  simp only [Finset.sum_range_succ, Finset.sum_range_zero, exS_val i _ hi (show 0 < 3 by decide),
    exS_val i _ hi (show 1 < 3 by decide), exS_val i _ hi (show 2 < 3 by decide), exS_val j _ hj (show 0 < 3 by decide),
    exS_val j _ hj (show 1 < 3 by decide), exS_val j _ hj (show 2 < 3 by decide)]
  rcases (show i = 0 ∨ i = 1 ∨ i = 2 by omega) with rfl | rfl | rfl <;>
    rcases (show j = 0 ∨ j = 1 ∨ j = 2 by omega) with rfl | rfl | rfl <;>
    norm_num [tbl, exS, abs_le]

theorem exS_le : ∀ i j, i < 3 → j < 3 → |⟪(lit (tbl exS i j) : F32)⟫| ≤ 1001 / 1000 := by
  intro i j hi hj
  rw [exS_val i j hi hj]
  rcases (show i = 0 ∨ i = 1 ∨ i = 2 by omega) with rfl | rfl | rfl <;>
    rcases (show j = 0 ∨ j = 1 ∨ j = 2 by omega) with rfl | rfl | rfl <;>
    norm_num [tbl, exS, abs_le]

example : ∀ q, q < 3 → (∀ k, k < 3 → ⟪(lit (tbl exS k 0) : F32)⟫ ≤ ⟪(lit (tbl exS q 0) : F32)⟫) →
    1 / 8 ≤ |⟪(lit (tbl exS q 0) : F32)⟫| := by
  intro q hq h
  have h1 := h 1 (by decide)
  rw [exS_val q 0 hq (by decide), exS_val 1 0 (by decide) (by decide)] at h1
  rw [exS_val q 0 hq (by decide)]
  refine le_trans ?_ (le_abs_self _)
  refine le_trans ?_ h1
  norm_num [tbl, exS]

/-- `C122_gram` and `C122_rotation` apply to it. -/
example : |(Matrix.of fun i j : Fin 3 => ⟪(lit (tbl exS i j) : F32)⟫).det - 1| ≤ 16 / 10 ^ 5 := by
  have h1 : (fmat exS).isSoN = .ok true := by decide +kernel
  have h := C122_rotation exS_is exS_fin (fun i j hi hj => (exS_le i j hi hj).trans (by norm_num)) h1
  exact h

/-- `C122_adjugate` applies to it, and the call succeeds. -/
example : ∃ q r B, q < 3 ∧ (∀ k, k < 3 → ⟪(lit (tbl exS k 0) : F32)⟫ ≤ ⟪(lit (tbl exS q 0) : F32)⟫) ∧
    Mat.adjugateInPlace (fmat exS) = (.ok (), r) ∧ MatIs r 3 3 B := by
  have hd : (fmat exS).det ≠ .error (.err .Singular) := by decide +kernel
  refine (C122_adjugate exS_is exS_fin exS_le).elim (fun h => absurd h.1 hd) ?_
  generalize fmat exS = a at *
  rintro ⟨q, r, B, h1, h2, h3, h4, -⟩
  exact ⟨q, r, B, h1, h2, h3, h4⟩

/-- The matrix of the identity quaternion is accepted. -/
example : (Quat.convertToDcm (fvec [1, 0, 0, 0]) >>= fun m => m.isSoN) = .ok true := by decide +kernel

end Verif
