import Verif.Props.RoundedQuat

/-
The AR filter in binary32 (C80).
-/

set_option linter.unusedSectionVars false

namespace Verif
open Scalar Finset

variable {F : Type} [Scalar F] [R : Rounded F]

/-- Zero quaternion. -/
def Null (f : Nat → F) : Prop := ∀ i, i < 4 → ⟪f i⟫ = 0
/-- Norm 1 up to one in a million. -/
def NearUnit (f : Nat → F) : Prop := |‖qval f‖ - 1| ≤ 1 / 10 ^ 6

/-- Through `get_attitude` the filter shows four finite numbers with the property `P`. -/
def AR.ShowsF (s : AR F) (P : (Nat → F) → Prop) : Prop :=
  ∃ v f, AR.getAttitude s = .ok v ∧ VecIs v 4 f ∧ (∀ i, i < 4 → Finite (f i)) ∧ P f

/-- The values of a null quaternion matter only through the finitely many components. -/
theorem norm_null {f : Nat → F} (h : Null f) : ‖qval f‖ = 0 := by
  rw [qval, h 0 (by omega), h 1 (by omega), h 2 (by omega), h 3 (by omega), norm_mkQ]
  norm_num

/-- What `normalize` does to a finite quaternion. -/
theorem normalize_quat {v : Vec F} {f : Nat → F} (hv : VecIs v 4 f) (hf : ∀ i, i < 4 → Finite (f i)) :
    ∃ w g, v.normalize = (.ok (), w) ∧ VecIs w 4 g ∧ (∀ i, i < 4 → Finite (g i)) ∧
      (Null g ∨ NearUnit g) ∧ (‖qval f‖ < 9999 / 10 ^ 8 → Null g) ∧
      (10001 / 10 ^ 8 < ‖qval f‖ → ‖qval f‖ ≤ 2 ^ 63 → NearUnit g) := by
  obtain ⟨w, g, h1, h2, h3, h4⟩ := C77_normalize hv hf
  refine ⟨w, g, h1, h2, h3, ?_⟩
  unfold NearUnit
  rw [norm_qval, norm_qval]
  rcases h4 with ⟨h4, h5⟩ | ⟨h4, h5, h6, h7⟩
  · refine ⟨.inl h4, fun _ => h4, fun a b => ?_⟩
    rcases h5 with h5 | h5
    · exact absurd a (not_lt.mpr h5)
    · exact absurd b (not_le.mpr h5)
  · exact ⟨.inr h4, fun a => absurd h6 (not_le.mpr a), fun _ _ => h4⟩

namespace AR
variable {s s' : AR F} {f : Nat → F} {a : ARInit F} {gx gy gz : F}

/-- What storing a quaternion and normalising it does. -/
theorem Ready.store_near (h : Ready s f) (q : F × F × F × F) :
    ((AR.store q s).1 = .ok () →
      ∃ f', Ready (AR.store q s).2 f' ∧ (Null f' ∨ NearUnit f')) ∧
    (Finite q.1 ∧ Finite q.2.1 ∧ Finite q.2.2.1 ∧ Finite q.2.2.2 →
      (AR.store q s).1 = .ok () ∧
      ∃ f', Ready (AR.store q s).2 f' ∧ (Null f' ∨ NearUnit f') ∧
        (‖mkQ ⟪q.1⟫ ⟪q.2.1⟫ ⟪q.2.2.1⟫ ⟪q.2.2.2⟫‖ < 9999 / 10 ^ 8 → Null f') ∧
        (10001 / 10 ^ 8 < ‖mkQ ⟪q.1⟫ ⟪q.2.1⟫ ⟪q.2.2.1⟫ ⟪q.2.2.2⟫‖ →
          ‖mkQ ⟪q.1⟫ ⟪q.2.1⟫ ⟪q.2.2.1⟫ ⟪q.2.2.2⟫‖ ≤ 2 ^ 63 → NearUnit f')) := by
  have h1 := Quat.storeAll_stores (w := q.1) (x := q.2.1) (y := q.2.2.1) (z := q.2.2.2) h.attitude
  rw [← Quat.fillq_eq h.attitude] at h1
  rcases h1.cases with ⟨hf, e⟩ | ⟨k, hk, -, hb, e⟩
  · obtain ⟨w, g, e2, hw, hg, hcase, hnull, hunit⟩ := normalize_quat (h.attitude.overwrite _) hf
    have e3 : AR.store q s = (.ok (), { s with attitude := w }) := by
      unfold AR.store
      rw [Op.bind_ok (onAttitude_ok e)]
      exact onAttitude_ok (s := { s with attitude := s.attitude.overwrite 4 _ }) e2
    rw [e3]
    exact ⟨fun _ => ⟨g, ⟨h.initialized, h.gyr_initialized, h.gyr, hw, hg⟩, hcase⟩,
      fun _ => ⟨rfl, g, ⟨h.initialized, h.gyr_initialized, h.gyr, hw, hg⟩, hcase, hnull, hunit⟩⟩
  · have e3 : (AR.store q s).1 = .error (.err (.LinalgError (valueErr (seq4 q.1 q.2.1 q.2.2.1 q.2.2.2 k)))) := by
      unfold AR.store
      rw [Op.bind_err (onAttitude_err e)]
    refine ⟨fun hc => ?_, fun hfin => ?_⟩
    · rw [e3] at hc
      cases hc
    · exact absurd ((forall_lt_four (P := fun i => Finite (seq4 q.1 q.2.1 q.2.2.1 q.2.2.2 i))).mpr hfin k hk) hb

/-! ### The branch with a matrix -/

/-- A 4 × 4 matrix of finite numbers. -/
def Fin4 (m : Mat F) : Prop := ∃ A, MatIs m 4 4 A ∧ ∀ i j, i < 4 → j < 4 → Finite (A i j)

theorem Fin4.of_stores {m : Op LinalgError (Mat F) Unit} {t t' : Mat F} {A B : Nat → Nat → F}
    (ht : MatIs t 4 4 A) (hs : t.Stores 4 4 B (m t)) (h : exec t m = .ok t') : Fin4 t' := by
  obtain ⟨h1, h2⟩ := Mat.exec_stores_inv hs ht h
  exact ⟨B, h2, h1⟩

theorem liftL_ok {α : Type} {r : Res LinalgError α} {x : α}
    (h : (liftL r : Res AhrsError α) = .ok x) : r = .ok x := by
  rcases r with (e | _) | y
  · cases h
  · cases h
  · cases h
    rfl

theorem bind_inv {ε α β : Type} {r : Res ε α} {k : α → Res ε β} {y : β} (h : (r >>= k) = .ok y) :
    ∃ x, r = .ok x ∧ k x = .ok y := by
  rcases r with e | x
  · cases h
  · exact ⟨x, rfl, h⟩

theorem taylor_fin4 {omega temp t : Mat F} {order : Nat} (ho : Fin4 omega) (ht : Fin4 temp)
    (h : taylorLoop omega temp order = .ok t) : Fin4 t := by
  unfold taylorLoop at h
  refine foldRange_inv_ok _ (fun _ t => Fin4 t) 1 (order + 1) (by omega) temp t ht ?_ h
  intro n b b' _ _ hb hr
  obtain ⟨A, hA, hAf⟩ := ho
  obtain ⟨B, hB, hBf⟩ := hb
  obtain ⟨s0, e0, hr⟩ := bind_inv hr
  obtain ⟨d, e0', hd⟩ := Mat.duplicate_ok hA hAf
  obtain rfl := Except.ok.inj ((liftL_ok e0).symm.trans e0')
  obtain ⟨s1, e1, hr⟩ := bind_inv hr
  obtain ⟨C, hC, hCf⟩ := Fin4.of_stores hd (Mat.powerElements_stores hd) (liftL_ok e1)
  obtain ⟨k, e2, hr⟩ := bind_inv hr
  obtain ⟨s2, e3, hr⟩ := bind_inv hr
  obtain ⟨D, hD, hDf⟩ := Fin4.of_stores hC (Mat.mulByScalarInPlace_stores hC) (liftL_ok e3)
  exact Fin4.of_stores hB (Mat.addInPlace_stores hB hD) (liftL_ok hr)

/-- The components that the closed form and the Taylor series deliver are finite, and tiny if the
attitude is null. -/
theorem matrix_finite {temp omega : Mat F} {att : Vec F} {ts n theta : F} {method : NIM} {order : Nat}
    {q : F × F × F × F} (ht : Fin4 temp) (ho : Fin4 omega) (ha : VecIs att 4 f)
    (hf : ∀ i, i < 4 → Finite (f i))
    (h : matrixStep temp omega att ts n theta method order = .ok q) :
    (Finite q.1 ∧ Finite q.2.1 ∧ Finite q.2.2.1 ∧ Finite q.2.2.2) ∧
      (Null f → ‖mkQ ⟪q.1⟫ ⟪q.2.1⟫ ⟪q.2.2.1⟫ ⟪q.2.2.2⟫‖ < 9999 / 10 ^ 8) := by
  unfold matrixStep at h
  obtain ⟨t, e1, h⟩ := bind_inv h
  have ht' : Fin4 t := by
    obtain ⟨A, hA, hAf⟩ := ht
    obtain ⟨B, hB, hBf⟩ := ho
    split at e1
    · obtain ⟨t1, e1, k⟩ := bind_inv e1
      obtain ⟨C, hC, hCf⟩ := Fin4.of_stores hA (Mat.mulByScalarInPlace_stores hA) (liftL_ok e1)
      obtain ⟨t2, e2, k⟩ := bind_inv k
      obtain ⟨D, hD, hDf⟩ := Fin4.of_stores hB (Mat.mulByScalarInPlace_stores hB) (liftL_ok e2)
      exact Fin4.of_stores hC (Mat.addInPlace_stores hC hD) (liftL_ok k)
    · obtain ⟨t2, e2, k⟩ := bind_inv e1
      exact taylor_fin4 (Fin4.of_stores hB (Mat.mulByScalarInPlace_stores hB) (liftL_ok e2)) ⟨A, hA, hAf⟩ k
  obtain ⟨A, hA, hAf⟩ := ht'
  obtain ⟨c, e2, h⟩ := bind_inv h
  obtain ⟨c', e2', hc⟩ := Vec.convertToMatrix_ok ha hf
  obtain rfl := Except.ok.inj ((liftL_ok e2).symm.trans e2')
  obtain ⟨m, e3, h⟩ := bind_inv h
  obtain ⟨k1, k2⟩ := Mat.mulNew_inv hA hc (liftL_ok e3)
  obtain ⟨x0, g0, h⟩ := bind_inv h
  obtain ⟨x1, g1, h⟩ := bind_inv h
  obtain ⟨x2, g2, h⟩ := bind_inv h
  obtain ⟨x3, g3, h⟩ := bind_inv h
  obtain rfl := Except.ok.inj h
  obtain rfl := Except.ok.inj ((k2.get 0 0 (by omega) (by omega)).symm.trans (liftL_ok g0))
  obtain rfl := Except.ok.inj ((k2.get 1 0 (by omega) (by omega)).symm.trans (liftL_ok g1))
  obtain rfl := Except.ok.inj ((k2.get 2 0 (by omega) (by omega)).symm.trans (liftL_ok g2))
  obtain rfl := Except.ok.inj ((k2.get 3 0 (by omega) (by omega)).symm.trans (liftL_ok g3))
  refine ⟨⟨k1 0 0 3 (by omega) (by omega) (by omega), k1 1 0 3 (by omega) (by omega) (by omega),
    k1 2 0 3 (by omega) (by omega) (by omega), k1 3 0 3 (by omega) (by omega) (by omega)⟩, fun hn => ?_⟩
  have tiny : ∀ i, i < 4 → |⟪sumUp 4 (Mat.cellTerm A (fun i _ => f i) i 0)⟫| ≤ 12 * rη := by
    intro i hi
    have e : ∑ t ∈ range 4, |⟪A i t⟫ * ⟪f t⟫| = 0 :=
      Finset.sum_eq_zero fun t ht => by rw [hn t (Finset.mem_range.mp ht), mul_zero, abs_zero]
    have e' : ∑ t ∈ range 4, ⟪A i t⟫ * ⟪f t⟫ = 0 :=
      Finset.sum_eq_zero fun t ht => by rw [hn t (Finset.mem_range.mp ht), mul_zero]
    have := (dot_acc (f := A i) (g := f) le_rfl (fun t ht => hAf i t hi ht) hf
      (by rw [e]; positivity) 4 le_rfl).2
    rw [e, e', mul_zero, zero_add, sub_zero] at this
    refine this.trans (le_of_eq ?_)
    push_cast
    ring
  have hη := rη_pos
  have hη' := rη_le
  rw [norm_mkQ]
  refine lt_of_le_of_lt (b := 24 * rη) (Real.sqrt_le_iff.mpr ⟨by positivity, ?_⟩) (by
    norm_num at hη' ⊢
    linarith)
  have sq : ∀ i, i < 4 → ⟪sumUp 4 (Mat.cellTerm A (fun i _ => f i) i 0)⟫ ^ 2 ≤ (12 * rη) ^ 2 := fun i hi =>
    sq_le_sq' (abs_le.mp (tiny i hi)).1 (abs_le.mp (tiny i hi)).2
  have := sq 0 (by omega)
  have := sq 1 (by omega)
  have := sq 2 (by omega)
  have := sq 3 (by omega)
  nlinarith

/-! ### The Euler branch on a null attitude -/

theorem euler_null {w att : Vec F} {p q r ts : F} {x : F × F × F × F} (hw : VecIs w 3 (seq3 p q r))
    (hp : Finite p) (hq : Finite q) (hr : Finite r) (ha : VecIs att 4 f)
    (hf : ∀ i, i < 4 → Finite (f i)) (hn : Null f)
    (h : eulerStep w att ts p q r (f 0) (f 1) (f 2) (f 3) = .ok x) :
    (Finite x.1 ∧ Finite x.2.1 ∧ Finite x.2.2.1 ∧ Finite x.2.2.2) ∧
      ‖mkQ ⟪x.1⟫ ⟪x.2.1⟫ ⟪x.2.2.1⟫ ⟪x.2.2.2⟫‖ < 9999 / 10 ^ 8 := by
  have e2 : exec w (Vec.reinit 4) = .ok { w with rows := 4 } :=
    exec_ok ((C07_vec w 4).2.1 hw.init (by omega) (by omega))
  have h2 : VecIs { w with rows := 4 } 4 (fun i => if h : i < 4 then w.elements ⟨i, h⟩ else lit 0) := by
    rw [vecIs_iff]
    exact ⟨by omega, by omega, hw.init, rfl, fun i h4 hi => by simp [h4]⟩
  obtain ⟨v1, e3, h3⟩ := Quat.fillq_ok h2 R.zero_finite hp hq hr
  unfold eulerStep at h
  simp only [e2, exec_ok e3, Res.mapErr_ok, Res.ok_bind] at h
  obtain ⟨v2, e4, h⟩ := bind_inv h
  obtain ⟨h4f, h4⟩ := Vec.exec_stores_inv (Vec.mulByScalarInPlace_stores h3) h3 (liftL_ok e4)
  have hnf := norm_null hn
  obtain ⟨d, g, e5, h5, h5f, h5n⟩ := C79_mul h4 ha h4f hf (by rw [hnf, mul_zero]; positivity)
  have e6 : exec (Vec.zeros 4 : Vec F) (Quat.mul v2 att) = .ok d := by
    rw [C34_agree (Vec.zeros_is (by omega) (by omega)) h4 ha, e5]
  simp only [e6, Res.mapErr_ok, Res.ok_bind, Vec.init_new (F := F) (n := 4) (by omega) (by omega),
    Quat.getQw_eq h5.four, Quat.getQx_eq h5.four, Quat.getQy_eq h5.four, Quat.getQz_eq h5.four] at h
  obtain rfl := Except.ok.inj h
  have hq0 : qval f = 0 := norm_eq_zero.mp hnf
  rw [hq0, mul_zero, sub_zero, norm_zero, mul_zero, mul_zero, zero_add] at h5n
  have small : ∀ i, i < 4 → Finite (f i +ᶠ g i) ∧ |⟪f i +ᶠ g i⟫| ≤ 1 / 10 ^ 40 := by
    intro i hi
    have hg : |⟪g i⟫| ≤ 24 / 2 ^ 150 := by
      refine le_trans ?_ h5n
      rw [norm_qval, norm2]
      refine Real.abs_le_sqrt ?_
      exact Finset.single_le_sum (f := fun i => ⟪g i⟫ ^ 2) (fun _ _ => sq_nonneg _) (Finset.mem_range.mpr hi)
    have hη' := rη_le
    have hfin : Finite (f i +ᶠ g i) := R.add_finite (hf i hi) (h5f i hi) (by
      rw [hn i hi, zero_add]
      refine hg.trans ?_
      norm_num)
    have hb := (R.add_near (hf i hi) (h5f i hi) hfin).bound
    rw [hn i hi, zero_add] at hb
    refine ⟨hfin, ?_⟩
    have := abs_sub_abs_le_abs_sub ⟪f i +ᶠ g i⟫ ⟪g i⟫
    norm_num at hg hη' ⊢
    linarith
  refine ⟨⟨(small 0 (by omega)).1, (small 1 (by omega)).1, (small 2 (by omega)).1, (small 3 (by omega)).1⟩, ?_⟩
  rw [norm_mkQ]
  refine lt_of_le_of_lt (b := 2 * (1 / 10 ^ 40)) (Real.sqrt_le_iff.mpr ⟨by positivity, ?_⟩) (by norm_num)
  have sq : ∀ i, i < 4 → ⟪f i +ᶠ g i⟫ ^ 2 ≤ (1 / 10 ^ 40) ^ 2 := fun i hi =>
    sq_le_sq' (abs_le.mp (small i hi).2).1 (abs_le.mp (small i hi).2).2
  have s0 := sq 0 (by omega)
  have s1 := sq 1 (by omega)
  have s2 := sq 2 (by omega)
  have s3 := sq 3 (by omega)
  refine ((add_le_add (add_le_add (add_le_add s0 s1) s2) s3)).trans (le_of_eq ?_)
  ring

/-! ### Updates -/

/-- The three outcomes of an update: the attitude is kept, or replaced after success, or the Euler step
has overflowed. -/
theorem Ready.update_near (h : Ready s f) (gx gy gz : F) :
    (AR.update gx gy gz s).2.attitude = s.attitude ∨
    ∃ f', Ready (AR.update gx gy gz s).2 f' ∧
      ((AR.update gx gy gz s).1 = .ok () ∨ s.method = .ClosedForm ∨ s.method = .TaylorSeries →
        Null f' ∨ NearUnit f') ∧ (Null f → Null f') := by
  rcases hu : Gyrometer.update gx gy gz s.gyr with ⟨e | ⟨⟩, g⟩
  · rw [h.update_rejected hu]
    exact .inl rfl
  · obtain ⟨h1, h2, p, q, r, n, w, hx, hy, hz, hp, hq, hr, hw, hn⟩ := h.readings hu
    obtain ⟨t, v, ht, hv, e⟩ := h.update_run hu hx hy hz hp hq hr hw hn
    rw [e]
    split
    · rw [Op.liftM_bind_run]
      rcases ha : advance t v s.attitude s.ts s.method s.order p q r n (f 0) (f 1) (f 2) (f 3) with e | x
      · exact .inl rfl
      · right
        have hR := h.gyr_set h1 h2
        obtain ⟨k1, k2⟩ := hR.store_near x
        obtain ⟨f1, hf1⟩ := hR.store x
        unfold advance at ha
        obtain ⟨m, em, ha⟩ := bind_inv ha
        obtain ⟨m', em', hm⟩ := omega_ok hp hq hr (R.neg_finite hp) (R.neg_finite hq) (R.neg_finite hr)
        obtain rfl := Except.ok.inj ((liftL_ok em).symm.trans em')
        have fin_omega : ∀ i j, i < 4 → j < 4 → Finite (omegaEntry p q r i j) := by
          have := R.zero_finite
          have := R.neg_finite hp
          have := R.neg_finite hq
          have := R.neg_finite hr
          intro i j hi hj
          revert i
          refine forall_lt_four.mpr ?_
          revert j
          refine forall_lt_four.mpr ?_
          simp [omegaEntry, seq4, *]
        have fin_one : ∀ i j, i < 4 → j < 4 → Finite (if i = j then lit 1 else lit 0 : F) := by
          intro i j _ _
          split
          · exact R.one_finite
          · exact R.zero_finite
        split at ha
        · obtain ⟨c1, c2⟩ := matrix_finite ⟨_, ht, fin_one⟩ ⟨_, hm, fin_omega⟩ h.attitude h.finite ha
          obtain ⟨-, f2, hf2, d1, d2, -⟩ := k2 c1
          exact ⟨f2, hf2, fun _ => d1, fun hnull => d2 (c2 hnull)⟩
        · rename_i hmeth
          split at ha
          · by_cases hnull : Null f
            · obtain ⟨c1, c2⟩ := euler_null hv hp hq hr h.attitude h.finite hnull ha
              obtain ⟨-, f2, hf2, -, d2, -⟩ := k2 c1
              exact ⟨f2, hf2, fun _ => .inl (d2 c2), fun _ => d2 c2⟩
            · by_cases hok : (AR.store x { s with gyr := g }).1 = .ok ()
              · obtain ⟨f2, hf2, d⟩ := k1 hok
                exact ⟨f2, hf2, fun _ => d, fun hc => absurd hc hnull⟩
              · refine ⟨f1, hf1, fun hc => ?_, fun hc => absurd hc hnull⟩
                rcases hc with hc | hc
                · exact absurd hc hok
                · exact absurd hc hmeth
          · cases ha
    · exact .inl rfl

theorem Ready.showsF {P : (Nat → F) → Prop} (h : Ready s f) (hP : P f) : ShowsF s P := by
  obtain ⟨v, h1, h2⟩ := h.getAttitude
  exact ⟨v, f, h1, h2, h.finite, hP⟩

/-- Properties of the four components do not depend on the function that lists them. -/
theorem ShowsF.ready {P : (Nat → F) → Prop} (hs : ShowsF s P) (h : Ready s f)
    (hP : ∀ f g : Nat → F, (∀ i, i < 4 → f i = g i) → P f → P g) : P f := by
  obtain ⟨v, g, h1, h2, -, h3⟩ := hs
  obtain ⟨v', h1', h2'⟩ := h.getAttitude
  obtain rfl := Except.ok.inj (h1.symm.trans h1')
  exact hP g f (fun i hi => Except.ok.inj ((h2.get i hi).symm.trans (h2'.get i hi))) h3

theorem null_congr (f g : Nat → F) (h : ∀ i, i < 4 → f i = g i) (hf : Null f) : Null g :=
  fun i hi => by rw [← h i hi]; exact hf i hi

theorem getAttitude_congr {t : AR F} (h1 : t.attitude = s.attitude) (h2 : t.initialized = s.initialized) :
    getAttitude t = getAttitude s := by
  unfold getAttitude
  rw [h1, h2]

end AR

open AR
variable {s s' : AR F} {a : ARInit F} {gx gy gz : F}

/-- C80: in binary32 a successful update leaves the attitude as it was, or makes it a quaternion of norm
1 up to one in a million, or zero. -/
theorem C80_update (hs : Started a s) (h : AR.update gx gy gz s = (.ok (), s')) :
    getAttitude s' = getAttitude s ∨ ShowsF s' (fun f => Null f ∨ NearUnit f) := by
  obtain ⟨⟨f, hf⟩, -⟩ := hs.ready
  obtain ⟨f2, hf2⟩ := hf.update gx gy gz
  have := hf.update_near gx gy gz
  rw [h] at this hf2
  rcases this with h1 | ⟨f', h1, h2, -⟩
  · exact .inl (getAttitude_congr h1 (hf2.initialized.trans hf.initialized.symm))
  · exact .inr (h1.showsF (h2 (.inl rfl)))

/-- C80: with the closed form or the Taylor series this holds for failed updates as well; so a filter
started with a unit quaternion shows, after any calls whatsoever, a quaternion of norm 1 up to one in
a million, or zero. -/
theorem C80_history (hs : Started a s) (hm : a.method = .ClosedForm ∨ a.method = .TaylorSeries)
    (h1 : |‖mkQ ⟪a.qw⟫ ⟪a.qx⟫ ⟪a.qy⟫ ⟪a.qz⟫‖ - 1| ≤ 1 / 10 ^ 6) :
    ShowsF s (fun f => Null f ∨ NearUnit f) := by
  obtain ⟨s0, s1, h0, e, hl⟩ := hs
  suffices key : Started a s ∧ ∃ f, Ready s f ∧ (Null f ∨ NearUnit f) by
    obtain ⟨-, f, hf, hc⟩ := key
    exact hf.showsF hc
  have hcong : ∀ f g : Nat → F, (∀ i, i < 4 → f i = g i) → (Null f ∨ NearUnit f) → (Null g ∨ NearUnit g) := by
    intro f g h hc
    rcases hc with hc | hc
    · exact .inl (null_congr f g h hc)
    · refine .inr ?_
      unfold NearUnit qval at hc ⊢
      rw [← h 0 (by omega), ← h 1 (by omega), ← h 2 (by omega), ← h 3 (by omega)]
      exact hc
  induction hl with
  | refl =>
    have hst : Started a s1 := ⟨s0, s1, h0, e, .refl _⟩
    obtain ⟨⟨f, hf⟩, -⟩ := hst.ready
    refine ⟨hst, f, hf, ?_⟩
    obtain ⟨v, e1, hv⟩ := C46_attitude h0 e
    obtain ⟨v', e1', hv'⟩ := hf.getAttitude
    obtain rfl := Except.ok.inj (e1.symm.trans e1')
    exact hcong (seq4 a.qw a.qx a.qy a.qz) f
      (fun i hi => Except.ok.inj ((hv.get i hi).symm.trans (hv'.get i hi))) (.inr h1)
  | @step s k hl ih =>
    obtain ⟨hst, f, hf, hc⟩ := ih
    refine ⟨?_, ?_⟩
    · obtain ⟨s0', s1', h0', e', hl'⟩ := hst
      exact ⟨s0', s1', h0', e', .step k hl'⟩
    · cases k with
      | init b =>
        show ∃ f, Ready (initWith b s).2 f ∧ _
        rw [Ready.init hf.initialized b]
        exact ⟨f, hf, hc⟩
      | update gx gy gz =>
        obtain ⟨f2, hf2⟩ := hf.update gx gy gz
        rcases hf.update_near gx gy gz with k1 | ⟨f', k1, k2, -⟩
        · refine ⟨f2, hf2, ?_⟩
          have k3 := getAttitude_congr k1 (hf2.initialized.trans hf.initialized.symm)
          obtain ⟨v, e1, hv⟩ := hf.getAttitude
          have : ShowsF (AR.update gx gy gz s).2 (fun f => Null f ∨ NearUnit f) :=
            ⟨v, f, k3.trans e1, hv, hf.finite, hc⟩
          exact this.ready hf2 hcong
        · refine ⟨f', k1, k2 (.inr ?_)⟩
          rw [hst.ready.2.2.1]
          exact hm

/-- C80: a null attitude is permanent: no later call, whatever its arguments and its outcome, changes it. -/
theorem C80_lost (hs : Started a s) (h : ShowsF s Null) (hl : Leads s s') : ShowsF s' Null := by
  suffices key : Started a s' ∧ ∃ f, Ready s' f ∧ Null f by
    obtain ⟨-, f, hf, hc⟩ := key
    exact hf.showsF hc
  induction hl with
  | refl =>
    obtain ⟨⟨f, hf⟩, -⟩ := hs.ready
    exact ⟨hs, f, hf, h.ready hf null_congr⟩
  | @step s' k hl ih =>
    obtain ⟨hst, f, hf, hc⟩ := ih
    refine ⟨?_, ?_⟩
    · obtain ⟨s0', s1', h0', e', hl'⟩ := hst
      exact ⟨s0', s1', h0', e', .step k hl'⟩
    · cases k with
      | init b =>
        show ∃ f, Ready (initWith b s').2 f ∧ _
        rw [Ready.init hf.initialized b]
        exact ⟨f, hf, hc⟩
      | update gx gy gz =>
        obtain ⟨f2, hf2⟩ := hf.update gx gy gz
        rcases hf.update_near gx gy gz with k1 | ⟨f', k1, -, k2⟩
        · refine ⟨f2, hf2, ?_⟩
          have k3 := getAttitude_congr k1 (hf2.initialized.trans hf.initialized.symm)
          obtain ⟨v, e1, hv⟩ := hf.getAttitude
          have : ShowsF (AR.update gx gy gz s').2 Null := ⟨v, f, k3.trans e1, hv, hf.finite, hc⟩
          exact this.ready hf2 null_congr
        · exact ⟨f', k1, k2 hc⟩

/-! ### Concrete cases in binary32 -/

/-- The arguments of an `init` with the identity as attitude and unit calibration. -/
def AR.plainF (m : NIM) : ARInit F32 where
  qw := lit 1
  qx := lit 0
  qy := lit 0
  qz := lit 0
  config := .default
  ts := lit (1 / 100)
  method := m
  order := 1

/-- Such filters exist, and the hypotheses of `C80_history` hold for them. -/
example : ∃ s, AR.Started (AR.plainF .ClosedForm) s ∧ AR.ShowsF s (fun f => Null f ∨ NearUnit f) := by
  obtain ⟨s0, e0, -⟩ := AR.new_fresh (F := F32)
  have h := (C46_iff (a := AR.plainF .ClosedForm) e0).mpr (by decide +kernel)
  have hs : AR.Started (AR.plainF .ClosedForm) (AR.initWith (AR.plainF .ClosedForm) s0).2 :=
    ⟨s0, _, ⟨s0, e0, .refl _⟩, Prod.ext h rfl, .refl _⟩
  refine ⟨_, hs, C80_history hs (.inl rfl) ?_⟩
  show |‖mkQ ⟪(lit 1 : F32)⟫ ⟪(lit 0 : F32)⟫ ⟪(lit 0 : F32)⟫ ⟪(lit 0 : F32)⟫‖ - 1| ≤ _
  rw [Rounded.one_val, Rounded.zero_val, norm_mkQ]
  norm_num

/-- The attitude after two samples, together with the two results. -/
def AR.twoSamples (m : NIM) (x y : F32) : Res AhrsError (List (Res AhrsError F32)) := do
  let s ← (AR.new : Res AhrsError (AR F32))
  let (_, s) := AR.initWith (AR.plainF m) s
  let (r1, s) := AR.update x (lit 0) (lit 0) s
  let (r2, s) := AR.update y (lit 0) (lit 0) s
  let v ← AR.getAttitude s
  .ok [r1 >>= fun _ => .ok (lit 0), r2 >>= fun _ => .ok (lit 0), liftL (v.getElement 0), liftL (v.getElement 1),
    liftL (v.getElement 2), liftL (v.getElement 3)]

/-- A case of `C80_lost`: one sample of `2¹⁰⁰` is accepted and leaves the zero quaternion; the next, ordinary
sample is accepted as well and changes nothing. -/
example : AR.twoSamples .Euler (lit (2 ^ 100)) (lit 1) =
    .ok [.ok (lit 0), .ok (lit 0), .ok (lit 0), .ok (lit 0), .ok (lit 0), .ok (lit 0)] := by
  decide +kernel

/-- Two ordinary samples. -/
example : (AR.twoSamples .Euler (lit 1) (lit 1) >>= fun l => match l with
    | [.ok _, .ok _, .ok w, .ok x, .ok _, .ok _] =>
      .ok (decide ((lit (99 / 100) : F32) <ᶠ w) && decide ((lit (9 / 1000) : F32) <ᶠ x))
    | _ => .ok false) = .ok true := by
  decide +kernel

end Verif
