import Verif.Lib.Quat
import Verif.Props.Norms

/-
The product, the conjugate and the inverse of quaternions (C34, C35).
-/

set_option linter.unusedSectionVars false
set_option linter.unusedSimpArgs false

namespace Verif
open Scalar Finset

/-! ### C34 -/

section
variable {F : Type} [Scalar F]

/-- C34: on vectors of four elements `mul` and `mul_new` give the same result, or fail with the same
error, whatever the arithmetic. -/
theorem C34_agree {s q p : Vec F} {f g h : Nat → F} (hs : VecIs s 4 f) (hq : VecIs q 4 g)
    (hp : VecIs p 4 h) : exec s (Quat.mul q p) = Quat.mulNew q p := by
  have e : ∀ w x y z : F, exec s (Quat.storeAll w x y z) =
      exec (Vec.zeros 4 : Vec F) (Quat.storeAll w x y z) := fun w x y z =>
    Quat.storeAll_same hs (Vec.zeros_is (by omega) (by omega))
  unfold Quat.mulNew
  simp only [Quat.isQuaternion_eq hq, Quat.isQuaternion_eq hp, Res.ok_bind, decide_true, Bool.not_true,
    Bool.false_eq_true, if_false, hq.get 0 (by omega), hq.get 1 (by omega), hq.get 2 (by omega),
    hq.get 3 (by omega), hp.get 0 (by omega), hp.get 1 (by omega), hp.get 2 (by omega),
    hp.get 3 (by omega), Vec.init_new (F := F) (n := 4) (by omega) (by omega), ← e]
  unfold exec Quat.mul
  simp only [Op.get_bind, Quat.isQuaternion_eq hs, Quat.isQuaternion_eq hq, Quat.isQuaternion_eq hp,
    Op.liftOk_bind, decide_true, Bool.not_true, Bool.false_eq_true, if_false, hq.get 0 (by omega),
    hq.get 1 (by omega), hq.get 2 (by omega), hq.get 3 (by omega), hp.get 0 (by omega),
    hp.get 1 (by omega), hp.get 2 (by omega), hp.get 3 (by omega)]

/-- C34: operands of another size are refused. -/
theorem C34_refused {s q p : Vec F} {l m n : Nat} {f g h : Nat → F} (hs : VecIs s l f)
    (hq : VecIs q m g) (hp : VecIs p n h) :
    (m ≠ 4 ∨ n ≠ 4 → Quat.mulNew q p = .error (.err .InvalidSize)) ∧
    (l ≠ 4 ∨ m ≠ 4 ∨ n ≠ 4 → Quat.mul q p s = (.error (.err .InvalidSize), s)) := by
  unfold Quat.mulNew Quat.mul
  simp only [Op.get_bind, Quat.isQuaternion_eq hs, Quat.isQuaternion_eq hq, Quat.isQuaternion_eq hp,
    Op.liftOk_bind, Res.ok_bind]
  constructor
  · rintro (h | h)
    · simp [h]
    · by_cases hm : m = 4 <;> simp [h, hm]
  · rintro (h | h | h)
    · simp [h]
    · by_cases hl : l = 4 <;> simp [h, hl]
    · by_cases hl : l = 4 <;> by_cases hm : m = 4 <;> simp [h, hl, hm]

end

section
variable {K : Type} [Field K] [LinearOrder K] [Elementary K]
variable {a b c : Vec (Ext K)} {q p r : Quaternion K}

/-- C34: in exact arithmetic the product is Hamilton's. -/
theorem C34_hamilton (ha : QuatIs a q) (hb : QuatIs b p) :
    ∃ m, Quat.mulNew a b = .ok m ∧ QuatIs m (q * p) := by
  have hz := Vec.zeros_is (F := Ext K) (n := 4) (by omega) (by omega)
  unfold Quat.mulNew
  simp only [Quat.isQuaternion_eq ha, Quat.isQuaternion_eq hb, Res.ok_bind, decide_true, Bool.not_true,
    Bool.false_eq_true, if_false, ha.get 0 (by omega), ha.get 1 (by omega), ha.get 2 (by omega),
    ha.get 3 (by omega), hb.get 0 (by omega), hb.get 1 (by omega), hb.get 2 (by omega),
    hb.get 3 (by omega), Vec.init_new (F := Ext K) (n := 4) (by omega) (by omega), seq4, Ext.mul_fin,
    Ext.sub_fin, Ext.add_fin]
  obtain ⟨m, e, hm⟩ := Quat.storeAll_ok hz (Ext.finite_fin _) (Ext.finite_fin _) (Ext.finite_fin _)
    (Ext.finite_fin _)
  refine ⟨m, exec_ok e, QuatIs.of _ hm ?_ ?_ ?_ ?_⟩
  · rw [Quaternion.re_mul]
  · rw [Quaternion.imI_mul]; ring
  · rw [Quaternion.imJ_mul]; ring
  · rw [Quaternion.imK_mul]; ring

/-- C34: the product is associative. -/
theorem C34_assoc (ha : QuatIs a q) (hb : QuatIs b p) (hc : QuatIs c r) :
    (Quat.mulNew a b >>= fun m => Quat.mulNew m c) =
      (Quat.mulNew b c >>= fun m => Quat.mulNew a m) := by
  obtain ⟨m1, e1, h1⟩ := C34_hamilton ha hb
  obtain ⟨m2, e2, h2⟩ := C34_hamilton h1 hc
  obtain ⟨m3, e3, h3⟩ := C34_hamilton hb hc
  obtain ⟨m4, e4, h4⟩ := C34_hamilton ha h3
  rw [e1, e3, Res.ok_bind, Res.ok_bind, e2, e4]
  rw [mul_assoc] at h2
  rw [h2.ext h4]

end

theorem QuatIs.norm {v : Vec XR} {q : Quaternion ℝ} (h : QuatIs v q) :
    v.calculateNorm = .ok (.fin (if √(Quaternion.normSq q) ≤ epsilon ℝ then 0
      else √(Quaternion.normSq q))) := by
  have h' : VecIs v 4 (fun i => .fin (seq4 q.re q.imI q.imJ q.imK i)) :=
    VecIs.congr h (forall_lt_four.mpr ⟨rfl, rfl, rfl, rfl⟩)
  rw [C31_norm h']
  have : norm2 4 (seq4 q.re q.imI q.imJ q.imK) = √(Quaternion.normSq q) := by
    rw [norm2, Quaternion.normSq_def']
    simp [Finset.sum_range_succ, seq4]
  rw [this]

/-- C34: norms multiply, as long as they stay above the threshold under which `calculate_norm` returns
zero. -/
theorem C34_norm {a b : Vec XR} {q p : Quaternion ℝ} (ha : QuatIs a q) (hb : QuatIs b p)
    (hq : epsilon ℝ < √(Quaternion.normSq q)) (hp : epsilon ℝ < √(Quaternion.normSq p))
    (hqp : epsilon ℝ < √(Quaternion.normSq (q * p))) :
    ∃ m x y, Quat.mulNew a b = .ok m ∧ a.calculateNorm = .ok (.fin x) ∧
      b.calculateNorm = .ok (.fin y) ∧ m.calculateNorm = .ok (.fin (x * y)) := by
  obtain ⟨m, e, hm⟩ := C34_hamilton ha hb
  refine ⟨m, _, _, e, ha.norm, hb.norm, ?_⟩
  rw [hm.norm, if_neg (not_le.mpr hq), if_neg (not_le.mpr hp), if_neg (not_le.mpr hqp), map_mul,
    Real.sqrt_mul Quaternion.normSq_nonneg]

/-! ### C35 -/

section
variable {K : Type} [Field K] [LinearOrder K] [Elementary K]
variable {a : Vec (Ext K)} {q : Quaternion K}

theorem Quat.conjugate_stores {F : Type} [Scalar F] {v : Vec F} {w x y z : F}
    (h : VecIs v 4 (seq4 w x y z)) (hx : Finite (neg x)) (hy : Finite (neg y)) (hz : Finite (neg z)) :
    ∃ v', Quat.conjugate v = (.ok (), v') ∧ VecIs v' 4 (seq4 w (neg x) (neg y) (neg z)) := by
  refine ⟨_, ?_, ((((h.put 1 (neg x)).put 2 (neg y)).put 3 (neg z)).congr
    (forall_lt_four.mpr ⟨rfl, rfl, rfl, rfl⟩))⟩
  unfold Quat.conjugate
  simp only [Op.get_bind, Quat.isQuaternion_eq h, Op.liftOk_bind, decide_true, Bool.not_true,
    Bool.false_eq_true, if_false, h.get 1 (by omega), h.get 2 (by omega), h.get 3 (by omega), seq4]
  rw [Op.bind_ok (h.set_ok (show 1 < 4 by omega) hx),
    Op.bind_ok ((h.put 1 (neg x)).set_ok (show 2 < 4 by omega) hy),
    ((h.put 1 (neg x)).put 2 (neg y)).set_ok (show 3 < 4 by omega) hz]

/-- C35: `conjugate` keeps the real part and negates the others, in every arithmetic. -/
theorem C35_negates {F : Type} [Scalar F] {v : Vec F} {f : Nat → F} (h : VecIs v 4 f)
    (hn : ∀ i, 1 ≤ i → i < 4 → Finite (neg (f i))) :
    ∃ v', Quat.conjugate v = (.ok (), v') ∧
      VecIs v' 4 (fun i => if i = 0 then f 0 else neg (f i)) := by
  obtain ⟨v', e, h'⟩ := Quat.conjugate_stores h.four (hn 1 (by omega) (by omega))
    (hn 2 (by omega) (by omega)) (hn 3 (by omega) (by omega))
  exact ⟨v', e, h'.congr (forall_lt_four.mpr ⟨rfl, rfl, rfl, rfl⟩)⟩

/-- C35: in exact arithmetic it is the quaternion conjugate; `conjugate_new` gives the same. -/
theorem C35_conjugate (ha : QuatIs a q) :
    ∃ c, Quat.conjugate a = (.ok (), c) ∧ Quat.conjugateNew a = .ok c ∧ QuatIs c (star q) := by
  obtain ⟨c, e, hc⟩ := Quat.conjugate_stores ha (by simp) (by simp) (by simp)
  have hc' : QuatIs c (star q) := by
    refine QuatIs.of _ (by simpa using hc) ?_ ?_ ?_ ?_ <;> simp
  refine ⟨c, e, ?_, hc'⟩
  obtain ⟨d, e1, hd⟩ := Vec.duplicate_ok ha (forall_lt_four.mpr ⟨by simp [seq4], by simp [seq4],
    by simp [seq4], by simp [seq4]⟩)
  obtain ⟨c2, e2, hc2⟩ := Quat.conjugate_stores hd (by simp) (by simp) (by simp)
  have : c2 = c := hc2.ext4 hc
  unfold Quat.conjugateNew
  rw [e1, Res.ok_bind, exec_ok e2, this]

/-- C35: conjugating twice gives the quaternion back. -/
theorem C35_involution (ha : QuatIs a q) :
    ∃ c, Quat.conjugate a = (.ok (), c) ∧ Quat.conjugate c = (.ok (), a) := by
  obtain ⟨c, e, _, hc⟩ := C35_conjugate ha
  obtain ⟨d, e', _, hd⟩ := C35_conjugate hc
  rw [star_star] at hd
  exact ⟨c, e, by rw [e', hd.ext ha]⟩

/-- C35: conjugation reverses products. -/
theorem C35_product {b : Vec (Ext K)} {p : Quaternion K} (ha : QuatIs a q) (hb : QuatIs b p) :
    (Quat.mulNew a b >>= Quat.conjugateNew) =
      (do let b' ← Quat.conjugateNew b
          let a' ← Quat.conjugateNew a
          Quat.mulNew b' a') := by
  obtain ⟨m, e1, hm⟩ := C34_hamilton ha hb
  obtain ⟨m', _, e2, hm'⟩ := C35_conjugate hm
  obtain ⟨b', _, e3, hb'⟩ := C35_conjugate hb
  obtain ⟨a', _, e4, ha'⟩ := C35_conjugate ha
  obtain ⟨n, e5, hn⟩ := C34_hamilton hb' ha'
  rw [e1, Res.ok_bind, e2, e3, Res.ok_bind, e4, Res.ok_bind, e5]
  rw [star_mul] at hm'
  rw [hm'.ext hn]

end

section
variable {a : Vec XR} {q : Quaternion ℝ}

/-- C35: a quaternion whose norm exceeds the threshold is replaced by its inverse. -/
theorem C35_invert (ha : QuatIs a q) (h : epsilon ℝ < √(Quaternion.normSq q)) :
    ∃ i, Quat.invert a = (.ok (), i) ∧ QuatIs i q⁻¹ := by
  have hpos : 0 < √(Quaternion.normSq q) := lt_trans Linalg.eps_pos h
  obtain ⟨c, e, _, hc⟩ := C35_conjugate ha
  have hne : √(Quaternion.normSq q) * √(Quaternion.normSq q) ≠ 0 := (mul_pos hpos hpos).ne'
  obtain ⟨i, e2, hi⟩ := Vec.run_of_stores (Vec.mulByScalarInPlace_stores
    (x := .fin (1 / (√(Quaternion.normSq q) * √(Quaternion.normSq q)))) hc) hc
    (forall_lt_four.mpr ⟨by simp [seq4], by simp [seq4], by simp [seq4], by simp [seq4]⟩)
  refine ⟨i, ?_, ?_⟩
  · unfold Quat.invert
    simp only [Op.get_bind, ha.norm, if_neg (not_le.mpr h), Op.liftOk_bind]
    rw [Op.bind_ok e, Ext.epsilon_eq, Ext.lt_fin, if_pos (decide_eq_true h), Ext.mul_fin, Ext.lit_one,
      Ext.div_fin _ hne, e2]
  · have hs : √(Quaternion.normSq q) * √(Quaternion.normSq q) = Quaternion.normSq q :=
      Real.mul_self_sqrt Quaternion.normSq_nonneg
    have hi' := hi.four
    simp only [seq4, Ext.mul_fin, hs] at hi'
    have hq : q⁻¹ = (Quaternion.normSq q)⁻¹ • star q := rfl
    refine QuatIs.of _ hi' ?_ ?_ ?_ ?_ <;> simp [hq] <;> ring

/-- C35: then both products with the inverse are 1. -/
theorem C35_inverse (ha : QuatIs a q) (h : epsilon ℝ < √(Quaternion.normSq q)) :
    ∃ i m m', Quat.invert a = (.ok (), i) ∧ Quat.mulNew a i = .ok m ∧ Quat.mulNew i a = .ok m' ∧
      QuatIs m 1 ∧ QuatIs m' 1 := by
  obtain ⟨i, e, hi⟩ := C35_invert ha h
  obtain ⟨m, e1, hm⟩ := C34_hamilton ha hi
  obtain ⟨m', e2, hm'⟩ := C34_hamilton hi ha
  have hq : q ≠ 0 := by
    rintro rfl
    rw [map_zero, Real.sqrt_zero] at h
    exact absurd h (not_lt.mpr Linalg.eps_pos.le)
  rw [mul_inv_cancel₀ hq] at hm
  rw [inv_mul_cancel₀ hq] at hm'
  exact ⟨i, m, m', e, e1, e2, hm, hm'⟩

/-- C35: a quaternion whose norm does not exceed the threshold becomes zero; `invert` reports
success. -/
theorem C35_invert_small (ha : QuatIs a q) (h : √(Quaternion.normSq q) ≤ epsilon ℝ) :
    ∃ i, Quat.invert a = (.ok (), i) ∧ QuatIs i 0 := by
  obtain ⟨c, e, _, hc⟩ := C35_conjugate ha
  obtain ⟨i, e2, hi⟩ := Quat.fillq_ok (w := .fin 0) (x := .fin 0) (y := .fin 0) (z := .fin 0) hc
    (by simp) (by simp) (by simp) (by simp)
  refine ⟨i, ?_, QuatIs.of _ hi rfl rfl rfl rfl⟩
  unfold Quat.invert
  simp only [Op.get_bind, ha.norm, if_pos h, Op.liftOk_bind]
  rw [Op.bind_ok e, Ext.epsilon_eq, Ext.lt_fin, if_neg (by simpa using Linalg.eps_pos.le),
    Ext.lit_zero, e2]

end

/-! ### Concrete cases -/

/-- A quaternion given by its components, for examples. -/
def quatOf {K : Type} (w x y z : K) : Vec (Ext K) := Vec.of 4 (seq4 (.fin w) (.fin x) (.fin y) (.fin z))

theorem quatOf_is {K : Type} [Field K] [LinearOrder K] [Elementary K] (w x y z : K) :
    QuatIs (quatOf w x y z) (mkQ w x y z) :=
  Vec.of_is _ (by omega) (by omega)

/-- A case of `C34_agree`, `C34_hamilton`, `C34_assoc`: (1 + 2i + 3j + 4k)(5 + 6i + 7j + 8k). -/
example : ((Quat.mulNew (quatOf 1 2 3 4 : Vec XQ) (quatOf 5 6 7 8)) >>= fun m => m.getElement 0) =
    .ok (.fin (-60)) := by decide +kernel

example : VecIs (quatOf 1 2 3 4 : Vec XQ) 4 (seq4 (.fin 1) (.fin 2) (.fin 3) (.fin 4)) :=
  quatOf_is _ _ _ _

/-- The product does not commute. -/
example : ((Quat.mulNew (quatOf 0 1 0 0 : Vec XQ) (quatOf 0 0 1 0)) >>= fun m => m.getElement 3) =
      .ok (.fin 1) ∧
    ((Quat.mulNew (quatOf 0 0 1 0 : Vec XQ) (quatOf 0 1 0 0)) >>= fun m => m.getElement 3) =
      .ok (.fin (-1)) := by decide +kernel

/-- A case of `C34_refused`. -/
example : VecIs (Vec.of 3 (fun _ => .fin 1) : Vec XQ) 3 (fun _ => .fin 1) :=
  Vec.of_is _ (by omega) (by omega)

/-- A case of `C34_norm`, `C35_invert` and `C35_inverse`. -/
example : QuatIs (quatOf 0 3 4 0 : Vec XR) (mkQ 0 3 4 0) ∧
    epsilon ℝ < √(Quaternion.normSq (mkQ 0 3 4 0 : Quaternion ℝ)) := by
  refine ⟨quatOf_is _ _ _ _, ?_⟩
  rw [Real.lt_sqrt Linalg.eps_pos.le, normSq_mkQ]
  norm_num [epsilon]

/-- A case of `C35_invert_small`: the norm of a non-zero quaternion can be below the threshold. -/
example : √(Quaternion.normSq (mkQ 0 (1 / 20000) 0 0 : Quaternion ℝ)) ≤ epsilon ℝ := by
  rw [Real.sqrt_le_left Linalg.eps_pos.le, normSq_mkQ]
  norm_num [epsilon]

end Verif
