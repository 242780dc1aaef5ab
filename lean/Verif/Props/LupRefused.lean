import Verif.Lib.LupRounded
import Verif.Props.LupRot
import Verif.Props.RoundedLup

/-
C107 in binary32: matrices on which `lup`, `det` and `invert` never succeed.
-/

set_option linter.unusedSectionVars false
set_option linter.unusedSimpArgs false

namespace Verif
open Scalar Finset Rounded

variable {F : Type} [Scalar F] [R : Rounded F]
variable {n : Nat} {a : Mat F} {A : Nat → Nat → F}

namespace Linalg
variable {π : Nat → Nat} {f : Nat → Nat → F}

/-- `lup` up to its main loop, when it succeeds. -/
theorem lup_start_inv {st : Mat F × Vec Nat} (ha : MatIs a n n A) (hr : lup a = .ok st) :
    (∀ i j, i < n → j < n → Finite (A i j)) ∧ ∃ l p, MatIs l n n A ∧ U8Is p n (fun i => i) ∧
      foldRange 0 (n - 1) (lupStep n n) (l, p) = .ok st := by
  unfold lup at hr
  obtain ⟨p0, e2, hp0⟩ := Vec.init_newU8 ha.rpos ha.rle
  obtain ⟨p1, e3, hp1⟩ := foldRange_inv (ε := LinalgError)
    (fun row (p : Vec Nat) => exec p (Vec.setElementU8 row row))
    (fun k (p : Vec Nat) => U8Is p n (fun i => if i < k then i else 0)) 0 n (Nat.zero_le _) p0
    (hp0.congr fun i _ => by simp)
    (fun k p _ hk hI => by
      obtain ⟨p', h1, h2⟩ := hI.exec_set k hk
      refine ⟨p', h1, h2.congr fun i _ => ?_⟩
      by_cases h : i = k
      · simp [h]
      · have : i < k + 1 ↔ i < k := by omega
        simp [h, this])
  simp only [ha.rows, ha.cols, Res.ok_bind, Mat.init_of ha, e2, e3, u8Sub_ok ha.rpos] at hr
  obtain ⟨l, e1, hr⟩ := Res.bind_eq_ok.mp hr
  obtain ⟨hfin, hl⟩ := Mat.exec_stores_inv (Mat.copyFrom_stores (Mat.zeros_of ha) ha) (Mat.zeros_of ha) e1
  exact ⟨hfin, l, p1, hl, hp1.congr fun i hi => by simp [hi], hr⟩

/-- The pivot of the first step. -/
theorem lupPivot_zero_val {lu : Mat F} {p : Vec Nat} (hl : MatIs lu n n f) (hp : U8Is p n π)
    (hπ : PermOn n π) (hfin : ∀ i j, i < n → j < n → Finite (f i j)) (hn : 0 < n) :
    ∃ q, lupPivot lu p 0 n = .ok q ∧ q < n ∧ (∀ i, i < n → ⟪f (π i) 0⟫ ≤ ⟪f (π q) 0⟫) ∧
      ∀ i, i < q → ⟪f (π i) 0⟫ < ⟪f (π q) 0⟫ := by
  unfold lupPivot
  obtain ⟨q, e, h1, h2, h3, h4⟩ := foldRange_inv (ε := LinalgError)
    (fun col rowMax => do
      if (← lu.getElement (← p.getElementU8 col) 0) >ᶠ
          (← lu.getElement (← p.getElementU8 rowMax) 0) then .ok col
      else .ok rowMax)
    (fun k (q : Nat) => q < n ∧ q < k ∧ (∀ i, i < k → ⟪f (π i) 0⟫ ≤ ⟪f (π q) 0⟫) ∧
      ∀ i, i < q → ⟪f (π i) 0⟫ < ⟪f (π q) 0⟫) (0 + 1) n hn 0
    ⟨hn, by omega, fun i hi => by obtain rfl : i = 0 := by omega
                                  exact le_refl _, fun i hi => by omega⟩
    (fun i q h1 h2 ⟨h3, h4, h5, h6⟩ => by
      simp only [hp.get i h2, Res.ok_bind, hl.get _ _ (hπ.lt i h2) hn, hp.get q h3,
        hl.get _ _ (hπ.lt q h3) hn]
      have hiff := R.lt_val (hfin _ _ (hπ.lt q h3) hn) (hfin _ _ (hπ.lt i h2) hn)
      by_cases hlt : ⟪f (π q) 0⟫ < ⟪f (π i) 0⟫
      · rw [if_pos (hiff.mpr hlt)]
        refine ⟨i, rfl, h2, by omega, fun j hj => ?_, fun j hj => ?_⟩
        · by_cases hji : j = i
          · rw [hji]
          · exact le_trans (h5 j (by omega)) (le_of_lt hlt)
        · exact lt_of_le_of_lt (h5 j hj) hlt
      · rw [if_neg (fun h => hlt (hiff.mp h))]
        refine ⟨q, rfl, h3, by omega, fun j hj => ?_, h6⟩
        by_cases hji : j = i
        · rw [hji]; exact not_lt.mp hlt
        · exact h5 j (by omega))
  exact ⟨q, e, h1, h3, h4⟩

/-- With two rows left there is one comparison, with column 0 of the row that is kept. -/
theorem lupPivot_last_val {s : Nat} {lu : Mat F} {p : Vec Nat} (hl : MatIs lu (s + 2) (s + 2) f)
    (hp : U8Is p (s + 2) π) (hπ : PermOn (s + 2) π)
    (hfin : ∀ i j, i < s + 2 → j < s + 2 → Finite (f i j)) :
    lupPivot lu p s (s + 2) = .ok (if ⟪f (π s) 0⟫ < ⟪f (π (s + 1)) s⟫ then s + 1 else s) := by
  unfold lupPivot foldRange
  rw [show s + 2 - (s + 1) = 0 + 1 by omega, foldFrom_succ]
  have k1 := hπ.lt (s + 1) (by omega)
  have k2 := hπ.lt s (by omega)
  simp only [hp.get (s + 1) (by omega), Res.ok_bind,
    hl.get _ _ k1 (show s < s + 2 by omega), hp.get s (by omega),
    hl.get _ _ k2 (show 0 < s + 2 by omega)]
  have hiff := R.lt_val (hfin _ _ k2 (show 0 < s + 2 by omega)) (hfin _ _ k1 (show s < s + 2 by omega))
  by_cases hlt : ⟪f (π s) 0⟫ < ⟪f (π (s + 1)) s⟫
  · rw [if_pos (hiff.mpr hlt), if_pos hlt]; rfl
  · rw [if_neg fun h => hlt (hiff.mp h), if_neg hlt]; rfl

/-- One step with pivot `q`, when it succeeds. -/
theorem lupStep_val {lu : Mat F} {p : Vec Nat} {st' : Mat F × Vec Nat} (hl : MatIs lu n n f)
    (hp : U8Is p n π) (hπ : PermOn n π) (hfin : ∀ i j, i < n → j < n → Finite (f i j)) {s q : Nat}
    (hs : s + 1 < n) (e1 : lupPivot lu p s n = .ok q) (hq : q < n)
    (hr : lupStep n n s (lu, p) = .ok st') :
    ⟪(EPSILON : F)⟫ ≤ |⟪f (π q) s⟫| ∧
    ∃ f' : Nat → Nat → F, MatIs st'.1 n n f' ∧
      U8Is st'.2 n (fun i => if i = q then π s else if i = s then π q else π i) ∧
      PermOn n (fun i => if i = q then π s else if i = s then π q else π i) ∧
      (∀ i j, i ≤ s → i < n → f' (if i = q then π s else if i = s then π q else π i) j =
        f (if i = q then π s else if i = s then π q else π i) j) ∧
      (∀ i j, s < i → i < n → f' (if i = q then π s else π i) j =
          if j < s then f (if i = q then π s else π i) j
          else if j = s then f (if i = q then π s else π i) s /ᶠ f (π q) s
          else f (if i = q then π s else π i) j -ᶠ
            (f (π q) j *ᶠ (f (if i = q then π s else π i) s /ᶠ f (π q) s))) ∧
      (∀ i j, i < n → j < n → Finite (f' i j)) := by
  have hsn : s < n := by omega
  obtain ⟨p', e2, hp'⟩ := lupSwap_ok hp hsn hq
  have hπ' := hπ.swap hsn hq
  have hs' : (if s = q then π s else if s = s then π q else π s) = π q := by
    by_cases hsq : s = q <;> simp [hsq]
  have hps : p'.getElementU8 s = .ok (π q) := (hp'.get s hsn).trans (congrArg _ hs')
  unfold lupStep at hr
  simp only [e1, e2, Res.ok_bind, hps, hl.get _ _ (hπ.lt q hq) hsn] at hr
  split at hr
  · cases hr
  rename_i hpiv
  have hfq := hfin _ _ (hπ.lt q hq) hsn
  have hge' : ⟪(EPSILON : F)⟫ ≤ |⟪f (π q) s⟫| := by
    rw [← R.abs_val hfq]
    exact not_lt.mp fun h => hpiv ((R.lt_val (R.abs_finite hfq) R.eps_finite).mpr h)
  obtain ⟨lu', e3, hr⟩ := Res.bind_eq_ok.mp hr
  cases hr
  obtain ⟨f', hl', h3, h4, h5⟩ := lupElim_inv hl hp' hπ' hsn e3
  refine ⟨hge', f', hl', hp', hπ', h3, ?_, ?_⟩
  · intro i j hi hin
    have := h4 i j hi hin
    rw [hs'] at this
    have hne : i ≠ s := by omega
    simp only [hne, if_false] at this ⊢
    exact this
  · intro i j hi hj
    obtain ⟨i', hi'⟩ : ∃ i' : Fin n, (if (i' : Nat) = q then π s else if (i' : Nat) = s then π q else π i') = i := by
      have hb := (Finite.injective_iff_surjective
        (f := fun i : Fin n => (⟨if (i : Nat) = q then π s else if (i : Nat) = s then π q else π i,
          hπ'.lt i i.2⟩ : Fin n))).mp
        (fun a b e => Fin.ext (hπ'.inj a b a.2 b.2 (by simpa using congrArg Fin.val e)))
      obtain ⟨x, hx⟩ := hb ⟨i, hi⟩
      exact ⟨x, congrArg Fin.val hx⟩
    rw [← hi']
    by_cases his : i' ≤ s
    · rw [h3 i' j his i'.2]; exact hfin _ _ (hπ'.lt i' i'.2) hj
    · by_cases hjs : j < s
      · rw [h4 i' j (by omega) i'.2, if_pos hjs]; exact hfin _ _ (hπ'.lt i' i'.2) hj
      · exact h5 i' j (by omega) i'.2 (by omega) hj

end Linalg

theorem lup_of_det {x : F} (ha : MatIs a n n A) (h : a.det = .ok x) : ∃ st, Linalg.lup a = .ok st := by
  unfold Mat.det at h
  simp only [Mat.isSquare_eq ha, Res.ok_bind, decide_true, Bool.not_true, Bool.false_eq_true, if_false] at h
  obtain ⟨st, h, _⟩ := Res.bind_eq_ok.mp h
  exact ⟨st, h⟩

theorem lup_of_invert (ha : MatIs a n n A) (h : (Mat.invert a).1 = .ok ()) :
    ∃ st, Linalg.lup a = .ok st := by
  unfold Mat.invert at h
  simp only [Op.get_bind, Mat.isSquare_eq ha, Op.liftOk_bind, decide_true, Bool.not_true,
    Bool.false_eq_true, if_false, ha.rows_eq, Vec.init_new ha.rpos ha.rle] at h
  unfold Mat.orElseErr at h
  rcases hl : Linalg.lup a with e | st
  · rw [hl] at h
    cases e <;> cases h
  · exact ⟨st, rfl⟩

/-- What `Refused` matrices have in common: none of the three operations succeeds. -/
def Refused (a : Mat F) : Prop :=
  (∀ st, Linalg.lup a ≠ .ok st) ∧ (∀ x, a.det ≠ .ok x) ∧ (Mat.invert a).1 ≠ .ok ()

theorem refused_of (ha : MatIs a n n A) (h : ∀ st, Linalg.lup a ≠ .ok st) : Refused a := by
  refine ⟨h, fun x hx => ?_, fun hi => ?_⟩
  · obtain ⟨st, e⟩ := lup_of_det ha hx
    exact h st e
  · obtain ⟨st, e⟩ := lup_of_invert ha hi
    exact h st e

/-- C107: in binary32, at size 2 and above, a matrix whose first column has no element of at least
`EPSILON` but has one above `-EPSILON` is refused. -/
theorem C107_first32 (ha : MatIs a n n A) (hn : 2 ≤ n) (hlt : ∀ i, i < n → ⟪A i 0⟫ < ⟪(EPSILON : F)⟫)
    (hex : ∃ i, i < n ∧ -⟪(EPSILON : F)⟫ < ⟪A i 0⟫) : Refused a := by
  refine refused_of ha fun st hr => ?_
  obtain ⟨hfin, l, p, hl, hp, hr⟩ := Linalg.lup_start_inv ha hr
  have hπ : PermOn n (fun i => i) := ⟨fun _ h => h, fun _ _ _ _ h => h⟩
  obtain ⟨q, e1, hq, hmax, _⟩ := Linalg.lupPivot_zero_val hl hp hπ hfin (by omega)
  unfold foldRange at hr
  rw [show n - 1 - 0 = (n - 2) + 1 by omega, foldFrom_succ] at hr
  obtain ⟨st1, h1, _⟩ := Res.bind_eq_ok.mp hr
  have hge := (Linalg.lupStep_val hl hp hπ hfin (by omega) e1 hq h1).1
  obtain ⟨i, hi, hi'⟩ := hex
  have := hmax i hi
  exact absurd hge (not_le.mpr (abs_lt.mpr ⟨by linarith, hlt q hq⟩))

/-- C107: in binary32, a 3×3 matrix whose first column is `(p, -r, 0)` and whose last row is
`(0, 0, c)` is refused, for all finite elements with `p > 0` and `r` at least `2⁻¹⁰⁰ p`. -/
theorem C107_block32 (ha : MatIs a 3 3 A) (h00 : 0 < ⟪A 0 0⟫) (h10 : ⟪A 1 0⟫ ≤ -(⟪A 0 0⟫ / 2 ^ 100))
    (h20 : ⟪A 2 0⟫ = 0) (h21 : ⟪A 2 1⟫ = 0) (h01 : |⟪A 0 1⟫| ≤ 2 ^ 40) : Refused a := by
  refine refused_of ha fun st hr => ?_
  obtain ⟨hfin, l, p, hl, hp, hr⟩ := Linalg.lup_start_inv ha hr
  have hπ : PermOn 3 (fun i => i) := ⟨fun _ h => h, fun _ _ _ _ h => h⟩
  obtain ⟨q, e1, hq, hmax, hfirst⟩ := Linalg.lupPivot_zero_val hl hp hπ hfin (by omega)
  have hneg : ⟪A 1 0⟫ < 0 := lt_of_le_of_lt h10 (neg_neg_of_pos (by positivity))
  obtain rfl : q = 0 := by
    by_contra hq0
    have := hmax 0 (by omega)
    obtain rfl | rfl : q = 1 ∨ q = 2 := by omega
    · linarith
    · linarith
  unfold foldRange at hr
  rw [show 3 - 1 - 0 = 1 + 1 by omega, foldFrom_succ] at hr
  obtain ⟨⟨l1, p1⟩, s1, hr⟩ := Res.bind_eq_ok.mp hr
  rw [show (1 : Nat) = 0 + 1 from rfl, foldFrom_succ] at hr
  obtain ⟨st2, s2, _⟩ := Res.bind_eq_ok.mp hr
  obtain ⟨hge, f', hl1, hp1, hπ1, hlow, hhigh, hfin1⟩ :=
    Linalg.lupStep_val hl hp hπ hfin (by omega) e1 hq s1
  have hid : (fun i : Nat => if i = 0 then 0 else if i = 0 then 0 else i) = fun i => i := by
    funext i; by_cases h : i = 0 <;> simp [h]
  have hp1' : U8Is p1 3 (fun i => i) := hp1.congr fun i _ => congrFun hid i
  have e10 : f' 1 0 = A 1 0 /ᶠ A 0 0 := hhigh 1 0 (by omega) (by omega)
  have e20 : f' 2 0 = A 2 0 /ᶠ A 0 0 := hhigh 2 0 (by omega) (by omega)
  have e21 : f' 2 1 = A 2 1 -ᶠ (A 0 1 *ᶠ (A 2 0 /ᶠ A 0 0)) := hhigh 2 1 (by omega) (by omega)
  have f00 := hfin 0 0 (by omega) (by omega)
  have f01 := hfin 0 1 (by omega) (by omega)
  have f10 := hfin 1 0 (by omega) (by omega)
  have f20 := hfin 2 0 (by omega) (by omega)
  have f21 := hfin 2 1 (by omega) (by omega)
  have hne : ⟪A 0 0⟫ ≠ 0 := ne_of_gt h00
  have hη := rη_eq
  have hu : ru = 1 / 2 ^ 24 := rfl
  -- the multiplier of row 1
  have hm : ⟪f' 1 0⟫ ≤ -(1 / 2 ^ 101) := by
    have k := R.div_near f10 f00 hne (by rw [← e10]; exact hfin1 1 0 (by omega) (by omega))
    rw [← e10] at k
    have hx : ⟪A 1 0⟫ / ⟪A 0 0⟫ ≤ -(1 / 2 ^ 100) := by
      rw [div_le_iff₀ h00]; linarith
    unfold Near at k
    rw [abs_of_nonpos (show ⟪A 1 0⟫ / ⟪A 0 0⟫ ≤ 0 by linarith [show (0:ℝ) < 1 / 2 ^ 100 by positivity]),
      hη, hu] at k
    have := (abs_le.mp k).2
    norm_num at this hx ⊢
    linarith
  have fd : Finite (A 2 0 /ᶠ A 0 0) := by rw [← e20]; exact hfin1 2 0 (by omega) (by omega)
  have hd : |⟪A 2 0 /ᶠ A 0 0⟫| ≤ 1 / 2 ^ 150 := by
    have k := R.div_near f20 f00 hne fd
    unfold Near at k
    rw [h20, zero_div, abs_zero, mul_zero, zero_add, sub_zero, hη] at k
    exact k
  have hxd : |⟪A 0 1⟫ * ⟪A 2 0 /ᶠ A 0 0⟫| ≤ 1 / 2 ^ 110 := by
    rw [abs_mul]
    calc |⟪A 0 1⟫| * |⟪A 2 0 /ᶠ A 0 0⟫| ≤ 2 ^ 40 * (1 / 2 ^ 150) := by gcongr
      _ ≤ _ := by norm_num
  have fm : Finite (A 0 1 *ᶠ (A 2 0 /ᶠ A 0 0)) :=
    R.mul_finite f01 fd (hxd.trans (by norm_num))
  have hm2 : |⟪A 0 1 *ᶠ (A 2 0 /ᶠ A 0 0)⟫| ≤ 1 / 2 ^ 109 := by
    have k := R.mul_near f01 fd fm
    unfold Near at k
    rw [hη, hu] at k
    have k2 := abs_sub_abs_le_abs_sub ⟪A 0 1 *ᶠ (A 2 0 /ᶠ A 0 0)⟫ (⟪A 0 1⟫ * ⟪A 2 0 /ᶠ A 0 0⟫)
    norm_num at k hxd k2 ⊢
    linarith
  have hs2 : |⟪f' 2 1⟫| ≤ 1 / 2 ^ 108 := by
    have k := R.sub_near f21 fm (by rw [← e21]; exact hfin1 2 1 (by omega) (by omega))
    rw [← e21, h21, zero_sub] at k
    unfold Near at k
    rw [abs_neg, hη, hu, sub_neg_eq_add] at k
    have k2 := abs_sub_abs_le_abs_sub ⟪f' 2 1⟫ (-⟪A 0 1 *ᶠ (A 2 0 /ᶠ A 0 0)⟫)
    rw [abs_neg, sub_neg_eq_add] at k2
    norm_num at k hm2 k2 ⊢
    linarith
  have hlt : ⟪f' 1 0⟫ < ⟪f' 2 1⟫ := by
    have := (abs_le.mp hs2).1
    norm_num at this hm ⊢
    linarith
  have hpl := Linalg.lupPivot_last_val (s := 1) hl1 hp1' hπ hfin1
  rw [if_pos hlt] at hpl
  have hge2 := (Linalg.lupStep_val hl1 hp1' hπ hfin1 (by omega) hpl (by omega) s2).1
  have hε := R.eps_val
  unfold Near at hε
  change |⟪(EPSILON : F)⟫ - _| ≤ _ at hε
  rw [hη, hu] at hε
  have hε1 := (abs_le.mp hε).1
  have hge2 : ⟪(EPSILON : F)⟫ ≤ |⟪f' 2 1⟫| := hge2
  norm_num at hε1 hs2 hge2
  linarith

/-- The covariance of `C107_covariance`, in every binary32. -/
example : Refused (Mat.of 3 3 fun i j => if i = j then (lit 2 : F) else if i + j = 1 then
    Scalar.neg (lit 1) else lit 0) := by
  refine C107_block32 (Mat.of_is _ (by omega) (by omega) (by omega) (by omega)) ?_ ?_ ?_ ?_ ?_
  · simp [R.two_val]
  · simp [R.two_val, R.neg_val R.one_finite, R.one_val]; norm_num
  · simp [R.zero_val]
  · simp [R.zero_val]
  · simp [R.neg_val R.one_finite, R.one_val]; norm_num

/-- Minus the identity of size 4, in every binary32. -/
example : Refused (Mat.of 4 4 fun i j => if i = j then Scalar.neg (lit 1 : F) else lit 0) := by
  have hε : 0 < ⟪(EPSILON : F)⟫ := by
    have hε := R.eps_val
    unfold Near at hε
    change |⟪(EPSILON : F)⟫ - _| ≤ _ at hε
    rw [rη_eq, show ru = 1 / 2 ^ 24 from rfl] at hε
    have := (abs_le.mp hε).1
    norm_num at this
    linarith
  refine C107_first32 (Mat.of_is _ (by omega) (by omega) (by omega) (by omega)) (by omega)
    (fun i _ => ?_) ⟨1, by omega, ?_⟩
  · by_cases h : i = 0
    · simp only [h, if_true, R.neg_val R.one_finite, R.one_val]; linarith
    · simp only [h, if_false, R.zero_val]; exact hε
  · simp only [one_ne_zero, if_false, R.zero_val]; linarith

/-- The error is `Singular`, here for a yaw of about -53 degrees. -/
example : (fmat [[3 / 5, 4 / 5, 0], [-4 / 5, 3 / 5, 0], [0, 0, 1]]).det = .error (.err .Singular) ∧
    (fmat [[3 / 5, -4 / 5, 0], [4 / 5, 3 / 5, 0], [0, 0, 1]]).isSoN = .ok true := by
  decide +kernel

end Verif
