import Mathlib.Tactic.Ring
import Mathlib.Tactic.FieldSimp
import Mathlib.Tactic.Linarith
import Verif.Lib.Lup
import Verif.Rounded
import Verif.Propagate

/-
`lup` and `solve` in binary32: every value they store is the rounded result of one operation.
-/

set_option linter.unusedSectionVars false
set_option linter.unusedSimpArgs false

namespace Verif
open Scalar Finset
namespace Linalg

theorem ru_eq : ru = 1 / 16777216 := by unfold ru; norm_num

/-- Bounds of one elimination. -/
theorem elim_real {e u l m e' : ℝ} (h1 : Near m (u * l)) (h2 : Near e' (e - m)) :
    |e - (u * l + e')| ≤ 1001 / 1000 * ru * (|u * l| + |e'|) + 4 * rη := by
  unfold Near at h1 h2
  have hη := rη_pos
  have h3 : |e - m| ≤ |e'| + |e' - (e - m)| := by
    have := abs_sub_abs_le_abs_sub (e - m) e'
    rw [abs_sub_comm (e - m) e'] at this
    linarith
  have h4 : |e - (u * l + e')| ≤ |e' - (e - m)| + |m - u * l| := by
    rw [show e - (u * l + e') = -(e' - (e - m)) + (m - u * l) by ring]
    exact (abs_add_le _ _).trans (by rw [abs_neg])
  simp only [ru_eq] at *
  have := abs_nonneg (u * l)
  have := abs_nonneg e'
  linarith

theorem div_real {e p l : ℝ} (hp : p ≠ 0) (h : Near l (e / p)) :
    |e - p * l| ≤ 1001 / 1000 * ru * |p * l| + 2 * rη * |p| := by
  unfold Near at h
  have hη := rη_pos
  have hp' : 0 < |p| := abs_pos.mpr hp
  have h2 : |p * l - e| ≤ ru * |e| + rη * |p| := by
    have : p * l - e = p * (l - e / p) := by field_simp
    rw [this, abs_mul]
    calc _ ≤ |p| * (ru * |e / p| + rη) := by gcongr
      _ = _ := by rw [abs_div]; field_simp
  have h3 : |e| ≤ |p * l| + |p * l - e| := by
    have := abs_sub_abs_le_abs_sub e (p * l)
    rw [abs_sub_comm e] at this
    linarith
  rw [abs_sub_comm, mul_assoc 2]
  have : 0 ≤ rη * |p| := by positivity
  simp only [ru_eq] at *
  linarith [abs_nonneg (p * l)]

/-- One more term. -/
theorem acc_real {A T S e t r c v d g : ℝ} (hc : 0 ≤ c) (h1 : |A - (T + e)| ≤ c * (S + |e|) + d)
    (h2 : |e - (t + r)| ≤ v * (|t| + |r|) + g) (hS : 0 ≤ S) (hv : 0 ≤ v) :
    |A - (T + t + r)| ≤ (c + v * (1 + c)) * (S + |t| + |r|) + (d + (1 + c) * g) := by
  have h3 : |e| ≤ |t| + |r| + (v * (|t| + |r|) + g) := by
    have := abs_sub_abs_le_abs_sub e (t + r)
    have := abs_add_le t r
    linarith
  have h4 : |A - (T + t + r)| ≤ |A - (T + e)| + |e - (t + r)| := by
    rw [show A - (T + t + r) = (A - (T + e)) + (e - (t + r)) by ring]
    exact abs_add_le _ _
  have h5 : c * |e| ≤ c * (|t| + |r| + (v * (|t| + |r|) + g)) := by gcongr
  have h6 : 0 ≤ v * (1 + c) * S := by positivity
  nlinarith


section
variable {F : Type} [Scalar F] {lu lu' : Mat F} {p : Vec Nat} {n : Nat} {π : Nat → Nat}
  {f : Nat → Nat → F}

/-- Elimination of row `π i` with pivot row `π s`, when it succeeds. -/
theorem lupElimRow_inv (hl : MatIs lu n n f) (hp : U8Is p n π) (hπ : PermOn n π) {s i : Nat}
    (hs : s < n) (hi : i < n) (hne : i ≠ s) (hr : lupElimRow p n s i lu = .ok lu') :
    Finite (f (π i) s /ᶠ f (π s) s) ∧
    (∀ b, s < b → b < n → Finite (f (π i) b -ᶠ (f (π s) b *ᶠ (f (π i) s /ᶠ f (π s) s)))) ∧
      MatIs lu' n n (fun a b =>
        if a = π i then
          if b < s then f a b
          else if b = s then f a s /ᶠ f (π s) s
          else f a b -ᶠ (f (π s) b *ᶠ (f a s /ᶠ f (π s) s))
        else f a b) := by
  have hπi := hπ.lt i hi
  have hπs := hπ.lt s hs
  have hne' : π s ≠ π i := fun h => hne (hπ.inj s i hs hi h).symm
  unfold lupElimRow at hr
  simp only [hp.get i hi, hp.get s hs, Res.ok_bind, hl.get _ _ hπi hs, hl.get _ _ hπs hs] at hr
  obtain ⟨l1, h1, hr⟩ := Res.bind_eq_ok.mp hr
  obtain ⟨h2, h3⟩ := hl.exec_set_inv hπi hs h1
  obtain ⟨h4, h5⟩ := foldRange_inv_ok (ε := LinalgError)
    (fun k (lu : Mat F) => do
      exec lu (Mat.setElement (π i) k
        ((← lu.getElement (π i) k) -ᶠ ((← lu.getElement (π s) k) *ᶠ (← lu.getElement (π i) s)))))
    (fun k (l : Mat F) =>
      (∀ b, s < b → b < k → Finite (f (π i) b -ᶠ (f (π s) b *ᶠ (f (π i) s /ᶠ f (π s) s)))) ∧
      MatIs l n n (fun a b =>
        if a = π i then
          if b < s then f a b
          else if b = s then f a s /ᶠ f (π s) s
          else if b < k then f a b -ᶠ (f (π s) b *ᶠ (f a s /ᶠ f (π s) s))
          else f a b
        else f a b)) (s + 1) n hs l1 lu'
    ⟨fun b h1 h2 => by omega, h3.congr fun a b _ _ => by
      by_cases ha : a = π i
      · subst ha
        by_cases hb : b = s
        · subst hb; simp
        · by_cases h : b < s
          · simp [hb, h]
          · have : ¬ b < s + 1 := by omega
            simp [hb, h, this]
      · simp [ha]⟩
    (fun k l l' hk1 hk2 ⟨hf, hI⟩ hstep => by
      have c1 : ¬ k < s := by omega
      have c2 : k ≠ s := by omega
      simp only [hI.get _ _ hπi hk2, hI.get _ _ hπs hk2, hI.get _ _ hπi hs, Res.ok_bind, if_true,
        hne', if_false, c1, c2, lt_irrefl] at hstep
      obtain ⟨h5, h6⟩ := hI.exec_set_inv hπi hk2 hstep
      refine ⟨fun b h1 h2 => ?_, h6.congr fun a b _ _ => ?_⟩
      · by_cases hb : b = k
        · subst hb; exact h5
        · exact hf b h1 (by omega)
      by_cases ha : a = π i
      · subst ha
        by_cases hb : b = k
        · subst hb; simp [c1, c2]
        · have : b < k + 1 ↔ b < k := by omega
          simp [hb, this]
      · simp [ha]) hr
  refine ⟨h2, h4, h5.congr fun a b _ hb => ?_⟩
  simp [hb]

/-- The elimination below the pivot of column `s`, when it succeeds. -/
theorem lupElim_inv (hl : MatIs lu n n f) (hp : U8Is p n π)
    (hπ : PermOn n π) {s : Nat} (hs : s < n) 
    (hr : foldRange (s + 1) n (lupElimRow p n s) lu = .ok lu') :
    ∃ f' : Nat → Nat → F, MatIs lu' n n f' ∧
      (∀ i j, i ≤ s → i < n → f' (π i) j = f (π i) j) ∧
      (∀ i j, s < i → i < n → f' (π i) j =
          if j < s then f (π i) j
          else if j = s then f (π i) s /ᶠ f (π s) s
          else f (π i) j -ᶠ (f (π s) j *ᶠ (f (π i) s /ᶠ f (π s) s))) ∧
      (∀ i j, s < i → i < n → s ≤ j → j < n → Finite (f' (π i) j)) := by
  obtain ⟨u', h2, h3, h4, h5, h6⟩ := foldRange_inv_ok (ε := LinalgError) (lupElimRow p n s)
    (fun k (l : Mat F) => ∃ u' : Nat → Nat → F,
      MatIs l n n u' ∧
      (∀ i j, i ≤ s → i < n → u' (π i) j = f (π i) j) ∧
      (∀ i j, s < i → i < k → i < n → u' (π i) j =
          if j < s then f (π i) j
          else if j = s then f (π i) s /ᶠ f (π s) s
          else f (π i) j -ᶠ (f (π s) j *ᶠ (f (π i) s /ᶠ f (π s) s))) ∧
      (∀ i j, s < i → i < k → i < n → s ≤ j → j < n → Finite (u' (π i) j)) ∧
      (∀ i j, k ≤ i → i < n → u' (π i) j = f (π i) j))
    (s + 1) n hs lu lu'
    ⟨f, hl, fun _ _ _ _ => rfl, fun i j h1 h2 => by omega, fun i j h1 h2 => by omega,
      fun _ _ _ _ => rfl⟩
    (fun k l l' hk1 hk2 ⟨u', h2, h3, h4, h5, h6⟩ hstep => by
      obtain ⟨g1, g2, h7⟩ := lupElimRow_inv h2 hp hπ hs hk2 (by omega) hstep
      refine ⟨_, h7, ?_, ?_, ?_, ?_⟩
      · intro i j hi hin
        have : π i ≠ π k := fun h => by have := hπ.inj i k hin hk2 h; omega
        simp only [this, if_false, h3 i j hi hin]
      · intro i j hi1 hi2 hin
        by_cases hik : i = k
        · subst hik
          simp only [if_true, h3 s _ (le_refl _) hs, h6 i _ (le_refl _) hin]
        · have : π i ≠ π k := fun h => hik (hπ.inj i k hin hk2 h)
          simp only [this, if_false]
          exact h4 i j hi1 (by omega) hin
      · intro i j hi1 hi2 hin hj1 hj2
        by_cases hik : i = k
        · subst hik
          rw [if_pos rfl, if_neg (by omega)]
          split
          · exact g1
          · exact g2 j (by omega) hj2
        · have : π i ≠ π k := fun h => hik (hπ.inj i k hin hk2 h)
          simp only [this, if_false]
          exact h5 i j hi1 (by omega) hin hj1 hj2
      · intro i j hi hin
        have : π i ≠ π k := fun h => by have := hπ.inj i k hin hk2 h; omega
        simp only [this, if_false, h6 i j (by omega) hin]) hr
  exact ⟨u', h2, h3, fun i j a b => h4 i j a b b, fun i j a b => h5 i j a b b⟩
end

section
variable {F : Type} [Scalar F] [R : Rounded F] [Propagates F] {lu lu' : Mat F} {p : Vec Nat} {n : Nat}
  {π : Nat → Nat} {f : Nat → Nat → F}

/-- One elimination step on floating point numbers. -/
theorem elim_step {e u l : F} (h : Finite (e -ᶠ (u *ᶠ l))) :
    |⟪e⟫ - (⟪u⟫ * ⟪l⟫ + ⟪e -ᶠ (u *ᶠ l)⟫)| ≤
      1001 / 1000 * ru * (|⟪u⟫ * ⟪l⟫| + |⟪e -ᶠ (u *ᶠ l)⟫|) + 4 * rη := by
  obtain ⟨h1, h2⟩ := Propagates.sub_inv h
  obtain ⟨h3, h4⟩ := Propagates.mul_inv h2
  exact elim_real (R.mul_near h3 h4 h2) (R.sub_near h1 h2 h)

theorem abs_ge_eps {x : F} (hx : Finite x) (h : (Scalar.abs x <ᶠ (EPSILON : F)) ≠ true) :
    1 / 10001 ≤ |⟪x⟫| := by
  replace h : ¬ ⟪Scalar.abs x⟫ < ⟪(lit (1 / 10000) : F)⟫ := fun hc =>
    h ((R.lt_val (R.abs_finite hx) R.eps_finite).mpr hc)
  rw [R.abs_val hx, not_lt] at h
  refine le_trans ?_ h
  have := R.eps_val
  unfold Near at this
  rw [abs_le] at this
  have h1 : rη ≤ 1 / 10 ^ 10 := by unfold rη; norm_num
  rw [ru_eq] at this
  norm_num [abs_of_pos] at this ⊢
  linarith [this.1]

/-- Coefficient of the error after `s` terms. -/
noncomputable def cf (s : Nat) : ℝ := s * (101 / 100 * ru)

theorem cf_nonneg (s : Nat) : 0 ≤ cf s := by unfold cf; have := ru_pos; positivity

theorem cf_succ {s : Nat} (hs : s ≤ 4) :
    cf s + 1001 / 1000 * ru * (1 + cf s) ≤ cf (s + 1) ∧ 1 + cf s ≤ 5 / 4 := by
  have h : (s : ℝ) ≤ 4 := by exact_mod_cast hs
  have h0 : (0 : ℝ) ≤ s := Nat.cast_nonneg s
  unfold cf
  rw [ru_eq]
  push_cast
  constructor <;> nlinarith

/-- State of the factorisation of `A` before step `s`. -/
structure LupNear (n : Nat) (A : Nat → Nat → F) (s : Nat) (st : Mat F × Vec Nat)
    (π : Nat → Nat) (f : Nat → Nat → F) : Prop where
  lu : MatIs st.1 n n f
  p : U8Is st.2 n π
  perm : PermOn n π
  fin : ∀ i j, i < n → j < n → Finite (f i j)
  pivots : ∀ k, k < s → 1 / 10001 ≤ |⟪f (π k) k⟫|
  prod : ∀ i j, i < n → j < n →
    |⟪A (π i) j⟫ - ((∑ k ∈ range (min i s), ⟪f (π i) k⟫ * (if j < k then 0 else ⟪f (π k) j⟫)) +
      (if j < min i s then 0 else ⟪f (π i) j⟫))| ≤
    cf s * ((∑ k ∈ range (min i s), |⟪f (π i) k⟫ * (if j < k then 0 else ⟪f (π k) j⟫)|) +
      |if j < min i s then 0 else ⟪f (π i) j⟫|) +
    (5 * s * rη + (if j < min i s then 5 * rη * |⟪f (π j) j⟫| else 0))

theorem lupStep_inv {A : Nat → Nat → F} {s : Nat} {st st' : Mat F × Vec Nat}
    (h : LupNear n A s st π f) (hs : s + 1 < n) (hr : lupStep n n s st = .ok st') :
    ∃ π' f', LupNear n A (s + 1) st' π' f' := by
  obtain ⟨lu, p⟩ := st
  have hsn : s < n := by omega
  obtain ⟨hl, hp, hπ, hfin, hpv, hA⟩ := h
  dsimp only at hl hp
  have hn4 := hl.rle
  unfold lupStep at hr
  obtain ⟨q, e1, hq1, hq2⟩ := lupPivot_ok hl hp hπ hsn
  obtain ⟨p', e2, hp'⟩ := lupSwap_ok hp hsn hq2
  have hπ' := hπ.swap hsn hq2
  set π' : Nat → Nat := fun i => if i = q then π s else if i = s then π q else π i with hdef
  have hlow : ∀ i, i < s → π' i = π i := fun i hi => by
    have h1 : i ≠ q := by omega
    have h2 : i ≠ s := by omega
    simp [hdef, h1, h2]
  have hA' : ∀ i j, i < n → j < n →
      |⟪A (π' i) j⟫ - ((∑ k ∈ range (min i s), ⟪f (π' i) k⟫ * (if j < k then 0 else ⟪f (π' k) j⟫)) +
        (if j < min i s then 0 else ⟪f (π' i) j⟫))| ≤
      cf s * ((∑ k ∈ range (min i s), |⟪f (π' i) k⟫ * (if j < k then 0 else ⟪f (π' k) j⟫)|) +
        |if j < min i s then 0 else ⟪f (π' i) j⟫|) +
      (5 * s * rη + (if j < min i s then 5 * rη * |⟪f (π' j) j⟫| else 0)) := by
    intro i j hi hj
    obtain ⟨i', hi', h1, h2⟩ : ∃ i', i' < n ∧ π' i = π i' ∧ min i s = min i' s := by
      by_cases hiq : i = q
      · exact ⟨s, hsn, by simp [hdef, hiq], by omega⟩
      · by_cases his : i = s
        · exact ⟨q, hq2, by subst his; simp [hdef, hiq], by omega⟩
        · exact ⟨i, hi, by simp [hdef, hiq, his], rfl⟩
    have := hA i' j hi' hj
    rw [h1, h2]
    have e1 : ∑ k ∈ range (min i' s), ⟪f (π i') k⟫ * (if j < k then 0 else ⟪f (π' k) j⟫) =
        ∑ k ∈ range (min i' s), ⟪f (π i') k⟫ * (if j < k then 0 else ⟪f (π k) j⟫) :=
      Finset.sum_congr rfl fun k hk => by
        rw [hlow k (by have := Finset.mem_range.mp hk; omega)]
    have e2 : ∑ k ∈ range (min i' s), |⟪f (π i') k⟫ * (if j < k then 0 else ⟪f (π' k) j⟫)| =
        ∑ k ∈ range (min i' s), |⟪f (π i') k⟫ * (if j < k then 0 else ⟪f (π k) j⟫)| :=
      Finset.sum_congr rfl fun k hk => by
        rw [hlow k (by have := Finset.mem_range.mp hk; omega)]
    rw [e1, e2]
    have e3 : (if j < min i' s then 5 * rη * |⟪f (π' j) j⟫| else 0) =
        (if j < min i' s then 5 * rη * |⟪f (π j) j⟫| else 0) := by
      split
      · rw [hlow j (by omega)]
      · rfl
    rw [e3]
    exact this
  simp only [e1, e2, Res.ok_bind, hp'.get s hsn, hl.get _ _ (hπ'.lt s hsn) hsn] at hr
  split at hr
  · cases hr
  rename_i hpiv
  have hge := abs_ge_eps (hfin _ _ (hπ'.lt s hsn) hsn) hpiv
  have hne : ⟪f (π' s) s⟫ ≠ 0 := fun h => by rw [h, abs_zero] at hge; norm_num at hge
  obtain ⟨lu', e3, hr⟩ := Res.bind_eq_ok.mp hr
  cases hr
  obtain ⟨f', hl', h3, h4, h5⟩ := lupElim_inv hl hp' hπ' hsn e3
  have hfin' : ∀ i j, i < n → j < n → Finite (f' (π' i) j) := by
    intro i j hi hj
    by_cases his : i ≤ s
    · rw [h3 i j his hi]; exact hfin _ _ (hπ'.lt i hi) hj
    · by_cases hjs : j < s
      · rw [h4 i j (by omega) hi, if_pos hjs]; exact hfin _ _ (hπ'.lt i hi) hj
      · exact h5 i j (by omega) hi (by omega) hj
  refine ⟨π', f', hl', hp', hπ', ?_, ?_, ?_⟩
  · intro i j hi hj
    obtain ⟨i', hi'⟩ : ∃ i' : Fin n, π' i' = i := by
      have hb := (Finite.injective_iff_surjective (f := fun i : Fin n => (⟨π' i, hπ'.lt i i.2⟩ : Fin n))).mp
        (fun a b e => Fin.ext (hπ'.inj a b a.2 b.2 (by simpa using congrArg Fin.val e)))
      obtain ⟨x, hx⟩ := hb ⟨i, hi⟩
      exact ⟨x, congrArg Fin.val hx⟩
    rw [← hi']
    exact hfin' i' j i'.2 hj
  · intro k hk
    rw [h3 k k (by omega) (by omega)]
    by_cases hks : k = s
    · subst hks; exact hge
    · rw [hlow k (by omega)]; exact hpv k (by omega)
  · intro i j hi hj
    have hη := rη_pos
    obtain ⟨hc1, hc2⟩ := cf_succ (s := s) (by omega)
    have hc0 := cf_nonneg s
    have hru := ru_pos
    have hcm : cf s ≤ cf (s + 1) := by
      have : 0 ≤ 1001 / 1000 * ru * (1 + cf s) := by positivity
      linarith
    have hsum : ∀ m, m ≤ s →
        (∀ k, k < m → f' (π' i) k = f (π' i) k) → ∀ G : ℝ → ℝ,
        ∑ k ∈ range m, G (⟪f' (π' i) k⟫ * (if j < k then 0 else ⟪f' (π' k) j⟫)) =
        ∑ k ∈ range m, G (⟪f (π' i) k⟫ * (if j < k then 0 else ⟪f (π' k) j⟫)) := fun m hm hu G =>
      Finset.sum_congr rfl fun k hk => by
        have := Finset.mem_range.mp hk
        rw [hu k this, h3 k j (by omega) (by omega)]
    have hold := hA' i j hi hj
    have hS : ∀ m, 0 ≤ ∑ k ∈ range m, |⟪f (π' i) k⟫ * (if j < k then 0 else ⟪f (π' k) j⟫)| :=
      fun m => Finset.sum_nonneg fun _ _ => abs_nonneg _
    push_cast
    by_cases his : i ≤ s
    · have m1 : min i s = i := by omega
      have m2 : min i (s + 1) = i := by omega
      rw [m1] at hold
      have t1 := hsum i his (fun k _ => h3 i k his hi) (fun x => x)
      have t2 := hsum i his (fun k _ => h3 i k his hi) (fun x => |x|)
      rw [m2, t1, t2, h3 i j his hi]
      have t3 : (if j < i then 5 * rη * |⟪f' (π' j) j⟫| else 0) =
          (if j < i then 5 * rη * |⟪f (π' j) j⟫| else 0) := by
        split
        · rw [h3 j j (by omega) hj]
        · rfl
      rw [t3]
      refine hold.trans ?_
      have := hS i
      have : 0 ≤ rη := hη.le
      refine add_le_add (mul_le_mul_of_nonneg_right hcm (by positivity)) ?_
      linarith
    · have m1 : min i s = s := by omega
      have m2 : min i (s + 1) = s + 1 := by omega
      have hu : ∀ k, k < s → f' (π' i) k = f (π' i) k := fun k hk => by
        rw [h4 i k (by omega) hi]; simp [hk]
      have t1 := hsum s (le_refl _) hu (fun x => x)
      have t2 := hsum s (le_refl _) hu (fun x => |x|)
      rw [m1] at hold
      rw [m2, Finset.sum_range_succ, Finset.sum_range_succ, t1, t2, h3 s j (le_refl _) hsn]
      by_cases hj1 : j < s
      · have hj2 : j < s + 1 := by omega
        rw [if_pos hj1, if_pos hj1] at hold
        rw [if_pos hj1, if_pos hj2, if_pos hj2, mul_zero, abs_zero, add_zero, add_zero,
          h3 j j (by omega) hj]
        simp only [abs_zero, add_zero] at hold ⊢
        refine hold.trans ?_
        have := hS s
        refine add_le_add (mul_le_mul_of_nonneg_right hcm (by positivity)) ?_
        linarith
      · rw [if_neg hj1] at hold ⊢
        rw [if_neg hj1, add_zero] at hold
        by_cases hj2 : j = s
        · subst hj2
          have hf' := h4 i j (by omega) hi
          rw [if_neg hj1, if_pos rfl] at hf'
          have hff := hfin' i j hi hj
          rw [hf'] at hff
          have hd := div_real hne (R.div_near (hfin _ _ (hπ'.lt i hi) hj) (hfin _ _ (hπ'.lt j hj) hj)
            hne hff)
          rw [if_pos (Nat.lt_succ_self j), if_pos (Nat.lt_succ_self j), hf', h3 j j (le_refl _) hj]
          have hd' : |⟪f (π' i) j⟫ - (⟪f (π' i) j /ᶠ f (π' j) j⟫ * ⟪f (π' j) j⟫ + 0)| ≤
              1001 / 1000 * ru * (|⟪f (π' i) j /ᶠ f (π' j) j⟫ * ⟪f (π' j) j⟫| + |(0 : ℝ)|) +
                2 * rη * |⟪f (π' j) j⟫| := by
            rw [abs_zero, add_zero, add_zero, mul_comm ⟪f (π' i) j /ᶠ f (π' j) j⟫]
            exact hd
          refine (acc_real hc0 hold hd' (hS j) (by positivity)).trans ?_
          have a1 : (1 + cf j) * (2 * rη * |⟪f (π' j) j⟫|) ≤ 5 / 4 * (2 * rη * |⟪f (π' j) j⟫|) := by
            gcongr
          have a2 : 0 ≤ rη * |⟪f (π' j) j⟫| := by positivity
          refine add_le_add (mul_le_mul_of_nonneg_right hc1 ?_) (by nlinarith)
          have := hS j
          positivity
        · have hj3 : ¬ j < s + 1 := by omega
          have hf' := h4 i j (by omega) hi
          rw [if_neg hj1, if_neg hj2] at hf'
          have hf2 := h4 i s (by omega) hi
          rw [if_neg (lt_irrefl _), if_pos rfl] at hf2
          have hff := hfin' i j hi hj
          rw [hf'] at hff
          have hd := elim_step hff
          rw [if_neg hj3, if_neg hj3, hf', hf2]
          rw [mul_comm ⟪f (π' s) j⟫] at hd
          refine (acc_real hc0 hold hd (hS s) (by positivity)).trans ?_
          have a1 : (1 + cf s) * (4 * rη) ≤ 5 / 4 * (4 * rη) := by gcongr
          refine add_le_add (mul_le_mul_of_nonneg_right hc1 ?_) (by nlinarith)
          have := hS s
          positivity

/-- `lup` on a square matrix, when it succeeds. -/
theorem lup_inv {a : Mat F} {A : Nat → Nat → F} {st : Mat F × Vec Nat} (ha : MatIs a n n A)
    (hr : lup a = .ok st) :
    (∀ i j, i < n → j < n → Finite (A i j)) ∧ ∃ π f, LupNear n A (n - 1) st π f := by
  unfold lup at hr
  obtain ⟨p0, e2, hp0⟩ := Vec.init_newU8 ha.rpos ha.rle
  obtain ⟨p1, e3, hp1⟩ := foldRange_inv (ε := LinalgError)
    (fun row (p : Vec Nat) => exec p (Vec.setElementU8 row row))
    (fun k (p : Vec Nat) => U8Is p n (fun i => if i < k then i else 0)) 0 n (Nat.zero_le _) p0
    (hp0.congr fun i _ => by simp)
    (fun k p _ hk hI => by
      obtain ⟨p', h1, h2⟩ := hI.exec_set k hk
      refine ⟨p', h1, h2.congr fun i _ => ?_⟩
      by_cases h : i = k
      · simp [h]
      · have : i < k + 1 ↔ i < k := by omega
        simp [h, this])
  simp only [ha.rows, ha.cols, Res.ok_bind, Mat.init_of ha, e2, e3, u8Sub_ok ha.rpos] at hr
  obtain ⟨l, e1, hr⟩ := Res.bind_eq_ok.mp hr
  obtain ⟨hfin, hl⟩ := Mat.exec_stores_inv (Mat.copyFrom_stores (Mat.zeros_of ha) ha) (Mat.zeros_of ha) e1
  have h0 : LupNear n A 0 (l, p1) (fun i => i) A :=
    ⟨hl, hp1.congr fun i hi => by simp [hi], ⟨fun _ h => h, fun _ _ _ _ h => h⟩, hfin,
      fun k hk => by omega, fun i j _ _ => by simp [cf]⟩
  refine ⟨hfin, foldRange_inv_ok _ (fun s st => ∃ π f, LupNear n A s st π f) 0 (n - 1) (Nat.zero_le _)
    (l, p1) st ⟨_, _, h0⟩ ?_ hr⟩
  intro s st st' _ hs ⟨π, f, hst⟩ hstep
  exact lupStep_inv hst (by omega) hstep

/-! ### `solve` -/

/-- A run of eliminations of the unknowns `lo, …, hi-1` from row `row`, when it succeeds. -/
theorem solveElims_inv {x x' : Vec F} {X : Nat → F} (hl : MatIs lu n n f) (hp : U8Is p n π)
    (hπ : ∀ i, i < n → π i < n) (hx : VecIs x n X) (hX : ∀ i, i < n → Finite (X i)) {row lo hi : Nat}
    (hr : row < n) (hh : hi ≤ n) (hlh : lo ≤ hi) (hout : row < lo ∨ hi ≤ row)
    (he : foldRange lo hi (fun col x => solveElim lu p row col x) x = .ok x') :
    ∃ z, VecIs x' n (fun i => if i = row then z else X i) ∧ Finite z ∧
      |⟪X row⟫ - ((∑ k ∈ Ico lo hi, ⟪f (π row) k⟫ * ⟪X k⟫) + ⟪z⟫)| ≤
        cf (hi - lo) * ((∑ k ∈ Ico lo hi, |⟪f (π row) k⟫ * ⟪X k⟫|) + |⟪z⟫|) + 5 * (hi - lo : ℕ) * rη := by
  refine foldRange_inv_ok (ε := LinalgError) _ (fun m (x : Vec F) => ∃ z,
    VecIs x n (fun i => if i = row then z else X i) ∧ Finite z ∧
      |⟪X row⟫ - ((∑ k ∈ Ico lo m, ⟪f (π row) k⟫ * ⟪X k⟫) + ⟪z⟫)| ≤
        cf (m - lo) * ((∑ k ∈ Ico lo m, |⟪f (π row) k⟫ * ⟪X k⟫|) + |⟪z⟫|) + 5 * (m - lo : ℕ) * rη)
    lo hi hlh x x' ?_ ?_ he
  · refine ⟨X row, hx.congr fun i _ => ?_, hX row hr, ?_⟩
    · by_cases h : i = row <;> simp [h]
    · simp [cf]
  · intro m x x' hm1 hm2 ⟨z, hI, hz, hb⟩ hstep
    have hn4 := hx.le
    have hmn : m < n := by omega
    have hmr : m ≠ row := by omega
    unfold solveElim at hstep
    simp only [hp.get row hr, hl.get _ _ (hπ row hr) hmn, hI.get row hr, hI.get m hmn, Res.ok_bind,
      if_true, hmr, if_false] at hstep
    obtain ⟨hf, rfl⟩ := hI.exec_set_inv hr hstep
    refine ⟨_, (hI.put row _).congr fun i _ => ?_, hf, ?_⟩
    · by_cases h : i = row <;> simp [h]
    · have hd := elim_step hf
      obtain ⟨hc1, hc2⟩ := cf_succ (s := m - lo) (by omega)
      have hη := rη_pos
      have hru := ru_pos
      have hc0 := cf_nonneg (m - lo)
      have hS : 0 ≤ ∑ k ∈ Ico lo m, |⟪f (π row) k⟫ * ⟪X k⟫| :=
        Finset.sum_nonneg fun _ _ => abs_nonneg _
      rw [Finset.sum_Ico_succ_top hm1, Finset.sum_Ico_succ_top hm1,
        show m + 1 - lo = (m - lo) + 1 by omega]
      refine (acc_real hc0 hb hd hS (by positivity)).trans ?_
      have a1 : (1 + cf (m - lo)) * (4 * rη) ≤ 5 / 4 * (4 * rη) := by gcongr
      push_cast
      refine add_le_add (mul_le_mul_of_nonneg_right hc1 ?_) (by nlinarith)
      positivity

/-- `solve` on packed factors, when it succeeds. -/
theorem solve_inv {b x : Vec F} {B : Nat → F} (hl : MatIs lu n n f) (hp : U8Is p n π)
    (hπ : ∀ i, i < n → π i < n) (hf : ∀ i j, i < n → j < n → Finite (f i j)) (hb : VecIs b n B)
    (he : solve lu b p = .ok x) :
    (∀ i, i < n → Finite (B (π i))) ∧ (∀ k, k < n → 1 / 10001 ≤ |⟪f (π k) k⟫|) ∧
    ∃ X Y : Nat → F, VecIs x n X ∧ (∀ i, i < n → Finite (X i) ∧ Finite (Y i)) ∧
      (∀ i, i < n → |⟪B (π i)⟫ - ((∑ k ∈ range i, ⟪f (π i) k⟫ * ⟪Y k⟫) + ⟪Y i⟫)| ≤
        cf 3 * ((∑ k ∈ range i, |⟪f (π i) k⟫ * ⟪Y k⟫|) + |⟪Y i⟫|) + 15 * rη) ∧
      (∀ i, i < n → |⟪Y i⟫ - ∑ k ∈ Ico i n, ⟪f (π i) k⟫ * ⟪X k⟫| ≤
        cf 4 * (∑ k ∈ Ico i n, |⟪f (π i) k⟫ * ⟪X k⟫|) + (15 * rη + 3 * rη * |⟪f (π i) i⟫|)) := by
  have hn4 := hl.rle
  have hη := rη_pos
  have hru := ru_pos
  have cfm : ∀ {a b : Nat}, a ≤ b → cf a ≤ cf b := fun {a b} h => by
    unfold cf
    gcongr
  unfold solve at he
  simp only [Mat.isSquare_eq hl, Res.ok_bind, decide_true, Bool.not_true, Bool.false_eq_true, if_false,
    hl.rows, Vec.init_new hl.rpos hl.rle] at he
  obtain ⟨x1, e1, he⟩ := Res.bind_eq_ok.mp he
  have hfwd := foldRange_inv_ok (ε := LinalgError) _
      (fun r (x : Vec F) => ∃ Y : Nat → F, VecIs x n Y ∧ (∀ i, i < n → Finite (Y i)) ∧
        (∀ i, i < r → Finite (B (π i))) ∧
        ∀ i, i < r → |⟪B (π i)⟫ - ((∑ k ∈ range i, ⟪f (π i) k⟫ * ⟪Y k⟫) + ⟪Y i⟫)| ≤
          cf 3 * ((∑ k ∈ range i, |⟪f (π i) k⟫ * ⟪Y k⟫|) + |⟪Y i⟫|) + 15 * rη)
      0 n (Nat.zero_le _) (Vec.zeros n) x1
      ⟨fun _ => lit 0, Vec.zeros_is hl.rpos hl.rle, fun _ _ => R.zero_finite, fun i hi => by omega,
        fun i hi => by omega⟩
      ?_ e1
  swap
  · intro r x x' _ hr ⟨Y, hx, hYf, hBf, hY⟩ hstep
    simp only [hp.get r hr, hb.get _ (hπ r hr), Res.ok_bind] at hstep
    obtain ⟨x2, h1, hstep⟩ := Res.bind_eq_ok.mp hstep
    obtain ⟨hBr, rfl⟩ := hx.exec_set_inv hr h1
    have h2 := hx.put r (B (π r))
    obtain ⟨z, h3, hz, h4⟩ := solveElims_inv (lo := 0) (hi := r) hl hp hπ h2
      (fun i hi => by
        split
        · exact hBr
        · exact hYf i hi) hr (by omega) (Nat.zero_le _) (Or.inr (le_refl _)) hstep
    refine ⟨_, h3, fun i hi => ?_, fun i hi => ?_, fun i hi => ?_⟩
    · split
      · exact hz
      · exact hYf i hi
    · by_cases h : i = r
      · subst h; exact hBr
      · exact hBf i (by omega)
    · rw [← Finset.range_eq_Ico] at h4
      have hs : ∀ m, m ≤ r → ∀ c : Nat → F, ∀ G : ℝ → ℝ,
          ∑ k ∈ range m, G (⟪c k⟫ * ⟪if k = r then z else if k = r then B (π r) else Y k⟫) =
          ∑ k ∈ range m, G (⟪c k⟫ * ⟪Y k⟫) := fun m hm c G =>
        Finset.sum_congr rfl fun k hk => by
          have : k ≠ r := by have := Finset.mem_range.mp hk; omega
          simp [this]
      have hs' : ∀ c : Nat → F, ∀ G : ℝ → ℝ,
          ∑ k ∈ range r, G (⟪c k⟫ * ⟪if k = r then B (π r) else Y k⟫) =
          ∑ k ∈ range r, G (⟪c k⟫ * ⟪Y k⟫) := fun c G =>
        Finset.sum_congr rfl fun k hk => by
          have : k ≠ r := by have := Finset.mem_range.mp hk; omega
          simp [this]
      have s1 := hs i (by omega) (f (π i)) (fun x => x)
      have s2 := hs i (by omega) (f (π i)) (fun x => |x|)
      rw [s1, s2]
      by_cases hir : i = r
      · subst hir
        have s3 := hs' (f (π i)) (fun x => x)
        have s4 := hs' (f (π i)) (fun x => |x|)
        rw [s3, s4, if_pos rfl] at h4
        rw [if_pos rfl]
        refine h4.trans ?_
        have hS : 0 ≤ ∑ k ∈ range i, |⟪f (π i) k⟫ * ⟪Y k⟫| :=
          Finset.sum_nonneg fun _ _ => abs_nonneg _
        have hc : cf (i - 0) ≤ cf 3 := cfm (by omega)
        have hi3 : ((i - 0 : ℕ) : ℝ) ≤ 3 := by exact_mod_cast (by omega : i - 0 ≤ 3)
        refine add_le_add (mul_le_mul_of_nonneg_right hc (by positivity)) (by nlinarith)
      · rw [if_neg hir, if_neg hir]
        exact hY i (by omega)
  obtain ⟨Y, hY, hYf, hBf, hY2⟩ := hfwd
  have hbwd := foldRangeRev_inv_ok (ε := LinalgError) _
      (fun m (x : Vec F) => ∃ X : Nat → F, VecIs x n X ∧ (∀ i, i < n → Finite (X i)) ∧
        (∀ i, i < m → X i = Y i) ∧
        (∀ i, i < n → m ≤ i → 1 / 10001 ≤ |⟪f (π i) i⟫|) ∧
        (∀ i, i < n → m ≤ i → |⟪Y i⟫ - ∑ k ∈ Ico i n, ⟪f (π i) k⟫ * ⟪X k⟫| ≤
          cf 4 * (∑ k ∈ Ico i n, |⟪f (π i) k⟫ * ⟪X k⟫|) + (15 * rη + 3 * rη * |⟪f (π i) i⟫|)))
      0 n (Nat.zero_le _) x1 x
      ⟨Y, hY, hYf, fun _ _ => rfl, fun i h1 h2 => by omega, fun i h1 h2 => by omega⟩
      ?_ he
  swap
  · intro m x x' _ hm ⟨X, hx, hXf, hXY, hpv, hX⟩ hstep
    obtain ⟨x2, h1, hstep⟩ := Res.bind_eq_ok.mp hstep
    obtain ⟨z, h2, hz, h3⟩ := solveElims_inv (lo := m + 1) (hi := n) hl hp hπ hx hXf hm (le_refl _)
      hm (Or.inl (Nat.lt_succ_self _)) h1
    simp only [hp.get m hm, hl.get _ _ (hπ m hm) hm, Res.ok_bind, h2.get m hm, if_true] at hstep
    split at hstep
    · rename_i hgt
      obtain ⟨hq, rfl⟩ := h2.exec_set_inv hm hstep
      have hge : 1 / 10001 ≤ |⟪f (π m) m⟫| := by
        refine abs_ge_eps (hf _ _ (hπ m hm) hm) fun h => ?_
        have fm := hf _ _ (hπ m hm) hm
        have g1 := (R.lt_val (R.abs_finite fm) R.eps_finite).mp h
        have g2 := (R.lt_val R.eps_finite (R.abs_finite fm)).mp hgt
        exact absurd g1 (not_lt.mpr g2.le)
      have hne : ⟪f (π m) m⟫ ≠ 0 := fun h => by rw [h, abs_zero] at hge; norm_num at hge
      refine ⟨_, (h2.put m _).congr (g := fun i => if i = m then z /ᶠ f (π m) m else X i)
        fun i _ => ?_, fun i hi => ?_, fun i hi => ?_, fun i hi hmi => ?_, fun i hi hmi => ?_⟩
      · by_cases h : i = m <;> simp [h]
      · split
        · exact hq
        · exact hXf i hi
      · rw [if_neg (by omega)]; exact hXY i (by omega)
      · by_cases h : i = m
        · subst h; exact hge
        · exact hpv i hi (by omega)
      · have hs : ∀ a, m < a → ∀ c : Nat → F, ∀ G : ℝ → ℝ,
            ∑ k ∈ Ico a n, G (⟪c k⟫ * ⟪if k = m then z /ᶠ f (π m) m else X k⟫) =
            ∑ k ∈ Ico a n, G (⟪c k⟫ * ⟪X k⟫) :=
          fun a ha c G => Finset.sum_congr rfl fun k hk => by
            have : k ≠ m := by have := Finset.mem_Ico.mp hk; omega
            simp [this]
        by_cases h : i = m
        · subst h
          have s1 := hs (i + 1) (Nat.lt_succ_self _) (f (π i)) (fun x => x)
          have s2 := hs (i + 1) (Nat.lt_succ_self _) (f (π i)) (fun x => |x|)
          rw [Finset.sum_eq_sum_Ico_succ_bot hi, Finset.sum_eq_sum_Ico_succ_bot hi, s1, s2,
            if_pos rfl, ← hXY i (Nat.lt_succ_self _)]
          have hd := div_real hne (R.div_near hz (hf _ _ (hπ i hi) hi) hne hq)
          have hd' : |⟪z⟫ - (⟪f (π i) i⟫ * ⟪z /ᶠ f (π i) i⟫ + 0)| ≤
              1001 / 1000 * ru * (|⟪f (π i) i⟫ * ⟪z /ᶠ f (π i) i⟫| + |(0 : ℝ)|) +
                2 * rη * |⟪f (π i) i⟫| := by
            rw [abs_zero, add_zero, add_zero]; exact hd
          have hS : 0 ≤ ∑ k ∈ Ico (i + 1) n, |⟪f (π i) k⟫ * ⟪X k⟫| :=
            Finset.sum_nonneg fun _ _ => abs_nonneg _
          have hc0 := cf_nonneg (n - (i + 1))
          obtain ⟨hc1, hc2⟩ := cf_succ (s := n - (i + 1)) (by omega)
          have key := acc_real hc0 h3 hd' hS (by positivity)
          rw [abs_zero, add_zero, add_zero] at key
          rw [add_comm (⟪f (π i) i⟫ * _), add_comm |⟪f (π i) i⟫ * _|]
          refine key.trans ?_
          have hi3 : ((n - (i + 1) : ℕ) : ℝ) ≤ 3 := by exact_mod_cast (by omega : n - (i + 1) ≤ 3)
          have a1 : (1 + cf (n - (i + 1))) * (2 * rη * |⟪f (π i) i⟫|) ≤
              5 / 4 * (2 * rη * |⟪f (π i) i⟫|) := by gcongr
          have a2 : 0 ≤ rη * |⟪f (π i) i⟫| := by positivity
          have a3 : cf (n - (i + 1) + 1) ≤ cf 4 := cfm (by omega)
          refine add_le_add (mul_le_mul_of_nonneg_right (hc1.trans a3) (by positivity)) ?_
          nlinarith
        · have s1 := hs i (by omega) (f (π i)) (fun x => x)
          have s2 := hs i (by omega) (f (π i)) (fun x => |x|)
          rw [s1, s2]
          exact hX i hi (by omega)
    · cases hstep
  obtain ⟨X, hX, hXf, _, hpv, hX2⟩ := hbwd
  exact ⟨hBf, fun k hk => hpv k hk (Nat.zero_le _), X, Y, hX, fun i hi => ⟨hXf i hi, hYf i hi⟩, hY2,
    fun i hi => hX2 i hi (Nat.zero_le _)⟩
end

end Linalg
end Verif
