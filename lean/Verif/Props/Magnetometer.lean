import Mathlib.Tactic.IntervalCases
import Verif.Spec.Sensors
import Verif.Lib.Sensor
import Verif.F32

/-
Claims about the magnetometer: configuration (C42), calibration (C43), life cycle (C44), rejected
samples (C45).
-/

set_option linter.unusedSectionVars false
set_option linter.unusedSimpArgs false

namespace Verif
open Scalar

variable {F : Type} [Scalar F]

namespace Magnetometer

/-! Calls on the fields. -/

theorem onCorrection_ok {m : Op LinalgError (Mat F) Unit} {g : Magnetometer F} {t : Mat F}
    (h : m g.correction = (.ok (), t)) : onCorrection m g = (.ok (), { g with correction := t }) := by
  unfold onCorrection; exact fieldOp_ok h
theorem onCorrection_err {m : Op LinalgError (Mat F) Unit} {g : Magnetometer F} {t : Mat F} {e : LinalgError}
    (h : m g.correction = (.error (.err e), t)) :
    onCorrection m g = (.error (.err (.LinalgError e)), { g with correction := t }) := by
  unfold onCorrection; exact fieldOp_err h
theorem onBiases_ok {m : Op LinalgError (Vec F) Unit} {g : Magnetometer F} {t : Vec F}
    (h : m g.biases = (.ok (), t)) : onBiases m g = (.ok (), { g with biases := t }) := by
  unfold onBiases; exact fieldOp_ok h
theorem onBiases_err {m : Op LinalgError (Vec F) Unit} {g : Magnetometer F} {t : Vec F} {e : LinalgError}
    (h : m g.biases = (.error (.err e), t)) :
    onBiases m g = (.error (.err (.LinalgError e)), { g with biases := t }) := by
  unfold onBiases; exact fieldOp_err h
theorem onRaw_ok {m : Op LinalgError (Vec F) Unit} {g : Magnetometer F} {t : Vec F}
    (h : m g.raw = (.ok (), t)) : onRaw m g = (.ok (), { g with raw := t }) := by
  unfold onRaw; exact fieldOp_ok h
theorem onRaw_err {m : Op LinalgError (Vec F) Unit} {g : Magnetometer F} {t : Vec F} {e : LinalgError}
    (h : m g.raw = (.error (.err e), t)) :
    onRaw m g = (.error (.err (.LinalgError e)), { g with raw := t }) := by
  unfold onRaw; exact fieldOp_err h
theorem onCorrected_ok {m : Op LinalgError (Vec F) Unit} {g : Magnetometer F} {t : Vec F}
    (h : m g.corrected = (.ok (), t)) : onCorrected m g = (.ok (), { g with corrected := t }) := by
  unfold onCorrected; exact fieldOp_ok h
theorem onCorrected_err {m : Op LinalgError (Vec F) Unit} {g : Magnetometer F} {t : Vec F} {e : LinalgError}
    (h : m g.corrected = (.error (.err e), t)) :
    onCorrected m g = (.error (.err (.LinalgError e)), { g with corrected := t }) := by
  unfold onCorrected; exact fieldOp_err h
theorem onRaw_bind {α β : Type} {m : Op LinalgError (Vec F) α} {m' : α → Op LinalgError (Vec F) β} :
    (onRaw m >>= fun a => onRaw (m' a)) = (onRaw (m >>= m') : Op AhrsError (Magnetometer F) β) := by
  unfold onRaw; exact fieldOp_bind (fun _ _ => rfl) (fun _ _ _ => rfl)

/-- The `k`-th parameter, in the order of writing. -/
def param (c : MagnetometerConfig F) : Nat → F
  | 0 => c.xScale
  | 1 => c.yScale
  | 2 => c.zScale
  | 3 => c.xy
  | 4 => c.xz
  | 5 => c.yx
  | 6 => c.yz
  | 7 => c.zx
  | 8 => c.zy
  | 9 => c.xBias
  | 10 => c.yBias
  | _ => c.zBias

def ofParam (p : Nat → F) : MagnetometerConfig F where
  xScale := p 0
  yScale := p 1
  zScale := p 2
  xy := p 3
  xz := p 4
  yx := p 5
  yz := p 6
  zx := p 7
  zy := p 8
  xBias := p 9
  yBias := p 10
  zBias := p 11

theorem ofParam_param (c : MagnetometerConfig F) : ofParam (param c) = c := rfl

theorem ofParam_congr {p q : Nat → F} (h : ∀ k, k < 12 → p k = q k) : ofParam p = ofParam q := by
  unfold ofParam
  rw [h 0 (by omega), h 1 (by omega), h 2 (by omega), h 3 (by omega), h 4 (by omega), h 5 (by omega),
    h 6 (by omega), h 7 (by omega), h 8 (by omega), h 9 (by omega), h 10 (by omega), h 11 (by omega)]

theorem params_finite {c : MagnetometerConfig F} :
    (∀ x ∈ c.params, Finite x) ↔ ∀ k, k < 12 → Finite (param c k) := by
  constructor
  · intro h k hk
    simp only [MagnetometerConfig.params, List.forall_mem_cons, List.not_mem_nil, false_imp_iff, implies_true,
      and_true] at h
    obtain ⟨h0, h1, h2, h3, h4, h5, h6, h7, h8, h9, h10, h11⟩ := h
    interval_cases k <;> assumption
  · intro h
    simp only [MagnetometerConfig.params, List.forall_mem_cons, List.not_mem_nil, false_imp_iff, implies_true,
      and_true]
    exact ⟨h 0 (by omega), h 1 (by omega), h 2 (by omega), h 3 (by omega), h 4 (by omega), h 5 (by omega),
      h 6 (by omega), h 7 (by omega), h 8 (by omega), h 9 (by omega), h 10 (by omega), h 11 (by omega)⟩

/-- The parameter stored in a cell of the correction matrix. -/
def slot : Nat → Nat → Nat
  | 0, 0 => 0
  | 1, 1 => 1
  | 2, 2 => 2
  | 0, 1 => 3
  | 1, 0 => 4
  | 0, 2 => 5
  | 2, 0 => 6
  | 1, 2 => 7
  | 2, 1 => 8
  | _, _ => 12

/-- The cell of the correction matrix that stores a parameter. -/
def cell : Nat → Nat × Nat
  | 0 => (0, 0)
  | 1 => (1, 1)
  | 2 => (2, 2)
  | 3 => (0, 1)
  | 4 => (1, 0)
  | 5 => (0, 2)
  | 6 => (2, 0)
  | 7 => (1, 2)
  | 8 => (2, 1)
  | _ => (0, 0)

/-- The sensor stores the parameters `p`, the raw sample `r` and the corrected sample `c`. -/
structure Holds (g : Magnetometer F) (p r c : Nat → F) : Prop where
  correction : MatIs g.correction 3 3 (fun i j => p (slot i j))
  biases : VecIs g.biases 3 (fun i => p (9 + i))
  raw : VecIs g.raw 3 r
  corrected : VecIs g.corrected 3 c

/-- Write the `k`-th parameter. -/
def step (p : Nat → F) (k : Nat) : Op AhrsError (Magnetometer F) Unit :=
  if k < 9 then onCorrection (Mat.setElement (cell k).1 (cell k).2 (p k))
  else onBiases (Vec.setElement (k - 9) (p k))

theorem privateSetConfig_eq (c : MagnetometerConfig F) :
    privateSetConfig c = forRange 0 12 (step (param c)) := by
  have : ∀ m : Nat → Op AhrsError (Magnetometer F) Unit, forRange 0 12 m =
      (m 0 >>= fun _ => m 1 >>= fun _ => m 2 >>= fun _ => m 3 >>= fun _ => m 4 >>= fun _ =>
        m 5 >>= fun _ => m 6 >>= fun _ => m 7 >>= fun _ => m 8 >>= fun _ => m 9 >>= fun _ =>
        m 10 >>= fun _ => m 11 >>= fun _ => Pure.pure ()) := fun m => rfl
  rw [this, Op.bind_unit]
  rfl

/-- The sensor after the `k`-th parameter has been written. -/
def putStep (p : Nat → F) (k : Nat) (g : Magnetometer F) : Magnetometer F :=
  if k < 9 then { g with correction := g.correction.put (cell k).1 (cell k).2 (p k) }
  else { g with biases := g.biases.put (k - 9) (p k) }

/-- The sensor after the first `k` parameters have been written. -/
def written (p : Nat → F) (g : Magnetometer F) : Nat → Magnetometer F
  | 0 => g
  | k + 1 => putStep p k (written p g k)

theorem cell_lt {k : Nat} (h : k < 9) : (cell k).1 < 3 ∧ (cell k).2 < 3 := by
  interval_cases k <;> decide

theorem slot_cell {i j k : Nat} (hi : i < 3) (hj : j < 3) (hk : k < 9) :
    (i = (cell k).1 ∧ j = (cell k).2) ↔ slot i j = k := by
  interval_cases i <;> interval_cases j <;> interval_cases k <;> decide

theorem slot_lt {i j : Nat} (hi : i < 3) (hj : j < 3) : slot i j < 9 := by
  interval_cases i <;> interval_cases j <;> decide

variable {g g' : Magnetometer F} {p q r c : Nat → F}

theorem putStep_holds (h : Holds g q r c) {k : Nat} (hk : k < 12) :
    Holds (putStep p k g) (fun i => if i = k then p k else q i) r c := by
  unfold putStep
  by_cases h9 : k < 9
  · rw [if_pos h9]
    refine ⟨(h.correction.put _ _ (cell_lt h9).2 _).congr fun i j hi hj => ?_, h.biases.congr fun i hi => ?_,
      h.raw, h.corrected⟩
    · by_cases hc : i = (cell k).1 ∧ j = (cell k).2
      · rw [if_pos hc, if_pos ((slot_cell hi hj h9).mp hc)]
      · rw [if_neg hc, if_neg fun hs => hc ((slot_cell hi hj h9).mpr hs)]
    · rw [if_neg (by omega)]
  · rw [if_neg h9]
    refine ⟨h.correction.congr fun i j hi hj => ?_, (h.biases.put _ _).congr fun i hi => ?_, h.raw,
      h.corrected⟩
    · rw [if_neg (by have := slot_lt hi hj; omega)]
    · by_cases hc : i = k - 9
      · rw [if_pos hc, if_pos (by omega)]
      · rw [if_neg hc, if_neg (by omega)]

theorem written_holds (h : Holds g q r c) {k : Nat} (hk : k ≤ 12) :
    Holds (written p g k) (fun i => if i < k then p i else q i) r c := by
  induction k with
  | zero => simpa [written] using h
  | succ k ih =>
    have := putStep_holds (p := p) (ih (by omega)) (show k < 12 by omega)
    have e : (fun i => if i = k then p k else if i < k then p i else q i) =
        fun i => if i < k + 1 then p i else q i := by
      funext i
      by_cases h1 : i = k
      · subst h1; simp
      · by_cases h2 : i < k
        · rw [if_neg h1, if_pos h2, if_pos (by omega)]
        · rw [if_neg h1, if_neg h2, if_neg (by omega)]
    rw [e] at this
    exact this

theorem putStep_initialized (k : Nat) : (putStep p k g).initialized = g.initialized := by
  unfold putStep; split <;> rfl
theorem putStep_raw (k : Nat) : (putStep p k g).raw = g.raw := by
  unfold putStep; split <;> rfl
theorem putStep_corrected (k : Nat) : (putStep p k g).corrected = g.corrected := by
  unfold putStep; split <;> rfl
theorem written_initialized (k : Nat) : (written p g k).initialized = g.initialized := by
  induction k with
  | zero => rfl
  | succ k ih => rw [written, putStep_initialized, ih]
theorem written_raw (k : Nat) : (written p g k).raw = g.raw := by
  induction k with
  | zero => rfl
  | succ k ih => rw [written, putStep_raw, ih]
theorem written_corrected (k : Nat) : (written p g k).corrected = g.corrected := by
  induction k with
  | zero => rfl
  | succ k ih => rw [written, putStep_corrected, ih]

theorem step_eq (h : Holds g q r c) {k : Nat} (hk : k < 12) :
    step p k g = if Finite (p k) then (.ok (), putStep p k g)
      else (.error (.err (.LinalgError (valueErr (p k)))), g) := by
  unfold step putStep
  by_cases h9 : k < 9
  · have hc := cell_lt h9
    have e := Mat.setElement_eq (x := p k) h.correction.init (h.correction.rows_eq ▸ hc.1)
      (h.correction.cols_eq ▸ hc.2)
      (by rw [h.correction.cols_eq]; exact Mat.index_lt hc.1 hc.2 (by omega) (by omega))
    rw [if_pos h9, if_pos h9]
    split
    · next hf => rw [if_pos hf] at e; exact onCorrection_ok e
    · next hf => rw [if_neg hf] at e; exact onCorrection_err e
  · have e := Vec.setElement_eq (x := p k) h.biases.init (show k - 9 < _ by rw [h.biases.rows_eq]; omega)
      (by omega)
    rw [if_neg h9, if_neg h9]
    split
    · next hf => rw [if_pos hf] at e; exact onBiases_ok e
    · next hf => rw [if_neg hf] at e; exact onBiases_err e

theorem config_ok {d : MagnetometerConfig F} (h : Holds g q r c) (hf : ∀ k, k < 12 → Finite (param d k)) :
    privateSetConfig d g = (.ok (), written (param d) g 12) := by
  rw [privateSetConfig_eq]
  refine forRange_ok _ (written (param d) g) 0 12 (by omega) fun k _ hk => ?_
  rw [step_eq (written_holds h hk.le) hk, if_pos (hf k hk), written]

theorem config_err {d : MagnetometerConfig F} (h : Holds g q r c) {k : Nat} (hk : k < 12)
    (hf : ∀ i, i < k → Finite (param d i)) (hb : ¬ Finite (param d k)) :
    privateSetConfig d g = (.error (.err (.LinalgError (valueErr (param d k)))), written (param d) g k) := by
  rw [privateSetConfig_eq]
  refine forRange_fail _ (written (param d) g) 0 12 k (by omega) hk _ _ (fun i _ hi => ?_) ?_
  · rw [step_eq (written_holds h (by omega)) (by omega), if_pos (hf i hi), written]
  · rw [step_eq (written_holds h hk.le) hk, if_neg hb]

/-- All parameters are finite, or there is a first one that is not. -/
theorem param_cases (d : MagnetometerConfig F) : (∀ k, k < 12 → Finite (param d k)) ∨
    ∃ k, k < 12 ∧ (∀ i, i < k → Finite (param d i)) ∧ ¬ Finite (param d k) := by
  by_cases h : ∀ k, k < 12 → Finite (param d k)
  · exact Or.inl h
  · right
    push Not at h
    have := Nat.find_spec h
    refine ⟨Nat.find h, this.1, fun i hi => ?_, this.2⟩
    by_contra hc
    exact Nat.find_min h hi ⟨by omega, hc⟩

theorem getConfig_eq (h : Holds g p r c) (hi : g.initialized = true) : getConfig g = .ok (ofParam p) := by
  unfold getConfig
  rw [if_pos hi]
  simp only [h.correction.get _ _ (show 0 < 3 by omega) (show 0 < 3 by omega),
    h.correction.get _ _ (show 0 < 3 by omega) (show 1 < 3 by omega),
    h.correction.get _ _ (show 0 < 3 by omega) (show 2 < 3 by omega),
    h.correction.get _ _ (show 1 < 3 by omega) (show 0 < 3 by omega),
    h.correction.get _ _ (show 1 < 3 by omega) (show 1 < 3 by omega),
    h.correction.get _ _ (show 1 < 3 by omega) (show 2 < 3 by omega),
    h.correction.get _ _ (show 2 < 3 by omega) (show 0 < 3 by omega),
    h.correction.get _ _ (show 2 < 3 by omega) (show 1 < 3 by omega),
    h.correction.get _ _ (show 2 < 3 by omega) (show 2 < 3 by omega),
    h.biases.get _ (show 0 < 3 by omega), h.biases.get _ (show 1 < 3 by omega),
    h.biases.get _ (show 2 < 3 by omega), Res.mapErr_ok, Res.ok_bind, slot, ofParam]

theorem Holds.unique {p' r' c' : Nat → F} (h : Holds g p r c) (h' : Holds g p' r' c') :
    ∀ k, k < 12 → p k = p' k := by
  intro k hk
  by_cases h9 : k < 9
  · have hc := cell_lt h9
    have e1 := h.correction.get _ _ hc.1 hc.2
    have e2 := h'.correction.get _ _ hc.1 hc.2
    rw [(slot_cell hc.1 hc.2 h9).mp ⟨rfl, rfl⟩] at e1 e2
    rw [e1] at e2
    exact Except.ok.inj e2
  · have e1 := h.biases.get (k - 9) (by omega)
    have e2 := h'.biases.get (k - 9) (by omega)
    rw [show 9 + (k - 9) = k by omega] at e1 e2
    rw [e1] at e2
    exact Except.ok.inj e2

/-! ### Calibration -/

theorem sub_diff (h : Holds g p r c) :
    g.corrected.Stores 3 (fun i => r i -ᶠ p (9 + i)) (Vec.sub g.raw g.biases g.corrected) :=
  Vec.sub_stores h.corrected h.raw h.biases

/-- The corrected value of one axis, up to and including the term `l`. -/
def partSum (p r : Nat → F) (i l : Nat) : F :=
  sumUp (l + 1) fun l => p (slot i l) *ᶠ (r l -ᶠ p (9 + l))

theorem correct_ok (h : Holds g p r c) (hd : ∀ i, i < 3 → Finite (r i -ᶠ p (9 + i)))
    (hs : ∀ i l, i < 3 → l < 3 → Finite (partSum p r i l)) :
    ∃ v, correct g = (.ok (), { g with corrected := v }) ∧ VecIs v 3 (fun i => partSum p r i 2) := by
  have e1 := (sub_diff h).ok hd
  have h1 := h.corrected.overwrite (fun i => r i -ᶠ p (9 + i))
  obtain ⟨m, dup, e2, e3, hok, _⟩ := calib_cases h.correction h1 hd
  obtain ⟨m2, e4, hm2⟩ := hok hs
  have e5 := (Mat.getCol_stores hm2 h1 (show 0 < 1 by omega)).ok fun i hi => hs i 2 hi (by omega)
  refine ⟨_, ?_, h1.overwrite _⟩
  unfold correct
  rw [Op.get_bind, Op.bind_ok (onCorrected_ok e1), Op.get_bind]
  simp only [e2, e3, e4, Res.mapErr_ok, Op.liftOk_bind]
  exact onCorrected_ok e5

theorem correct_overflow (h : Holds g p r c) (hd : ∀ i, i < 3 → Finite (r i -ᶠ p (9 + i)))
    (hs : ¬ ∀ i l, i < 3 → l < 3 → Finite (partSum p r i l)) :
    ∃ y : F, ¬ Finite y ∧ ∃ v, correct g = (.error (.err (.LinalgError (valueErr y))),
      { g with corrected := v }) ∧ VecIs v 3 (fun i => r i -ᶠ p (9 + i)) := by
  have e1 := (sub_diff h).ok hd
  have h1 := h.corrected.overwrite (fun i => r i -ᶠ p (9 + i))
  obtain ⟨m, dup, e2, e3, _, herr⟩ := calib_cases h.correction h1 hd
  obtain ⟨y, hy, e4⟩ := herr hs
  refine ⟨y, hy, _, ?_, h1⟩
  unfold correct
  rw [Op.get_bind, Op.bind_ok (onCorrected_ok e1), Op.get_bind]
  simp only [e2, e3, e4, Res.mapErr_ok, Res.mapErr_err, Op.liftOk_bind, Op.liftErr_bind]

theorem correct_diff (h : Holds g p r c) {k : Nat} (hk : k < 3)
    (hd : ∀ i, i < k → Finite (r i -ᶠ p (9 + i))) (hb : ¬ Finite (r k -ᶠ p (9 + k))) :
    correct g = (.error (.err (.LinalgError (valueErr (r k -ᶠ p (9 + k))))),
      { g with corrected := g.corrected.overwrite k fun i => r i -ᶠ p (9 + i) }) := by
  have e1 := (sub_diff h).2 k hk hd hb
  unfold correct
  rw [Op.get_bind, Op.bind_err (onCorrected_err e1)]

theorem update_raw (x y z : F) (hi : g.initialized = true) :
    update x y z g = (onRaw (do
      Vec.setElement 0 x
      Vec.setElement 1 y
      Vec.setElement 2 z) >>= fun _ => correct) g := by
  unfold update
  rw [Op.get_bind, hi]
  simp only [Bool.not_true, Bool.false_eq_true, if_false]
  rw [← onRaw_bind, Op.bind_assoc', ← onRaw_bind]
  simp only [Op.bind_assoc']

theorem update_reject {x y z : F} (h : Holds g p r c) (hi : g.initialized = true) {k : Nat} (hk : k < 3)
    (hf : ∀ i, i < k → Finite (seq3 x y z i)) (hb : ¬ Finite (seq3 x y z k)) :
    update x y z g = (.error (.err (.LinalgError (valueErr (seq3 x y z k)))),
      { g with raw := g.raw.overwrite k (seq3 x y z) }) := by
  rw [update_raw x y z hi]
  exact Op.bind_err (onRaw_err ((Vec.set3_stores h.raw).2 k hk hf hb)) _

theorem update_sample {x y z : F} (h : Holds g p r c) (hi : g.initialized = true)
    (hf : ∀ i, i < 3 → Finite (seq3 x y z i)) :
    Holds { g with raw := g.raw.overwrite 3 (seq3 x y z) } p (seq3 x y z) c ∧
    update x y z g = correct { g with raw := g.raw.overwrite 3 (seq3 x y z) } := by
  refine ⟨⟨h.correction, h.biases, h.raw.overwrite _, h.corrected⟩, ?_⟩
  rw [update_raw x y z hi]
  exact Op.bind_ok (onRaw_ok ((Vec.set3_stores h.raw).ok hf)) _

/-! ### Invariant -/

/-- The sensor has its shape and stores finite values only. -/
def Good (g : Magnetometer F) : Prop := ∃ p r c : Nat → F, Holds g p r c ∧ (∀ k, k < 12 → Finite (p k)) ∧
  (∀ k, k < 3 → Finite (r k)) ∧ ∀ k, k < 3 → Finite (c k)

section
variable [ScalarLawful F]

theorem new_ok : ∃ g0 : Magnetometer F, new = .ok g0 ∧ g0.initialized = false ∧ Good g0 ∧
    ∃ p, Holds g0 p (fun _ => lit 0) (fun _ => lit 0) := by
  have f0 := ScalarLawful.zero_finite (F := F)
  have f1 := ScalarLawful.one_finite (F := F)
  have hv := Vec.zeros_is (F := F) (show 1 ≤ 3 by omega) (by omega)
  have hm := Mat.zeros_is (F := F) (show 1 ≤ 3 by omega) (by omega) (show 1 ≤ 3 by omega) (by omega)
  obtain ⟨v, e1, h1⟩ := Vec.exec_of_stores (Vec.fill_stores (x := lit 0) hv) hv fun _ _ => f0
  obtain ⟨m, e2, h2⟩ := Mat.exec_of_stores (Mat.fillIdentity_stores hm) hm fun i j _ _ => by
    split <;> assumption
  have hp : Holds (⟨m, v, v, v, false⟩ : Magnetometer F) (fun k => if k < 3 then lit 1 else lit 0)
      (fun _ => lit 0) (fun _ => lit 0) := by
    refine ⟨h2.congr fun i j hi hj => ?_, h1.congr fun i hi => ?_, h1, h1⟩
    · interval_cases i <;> interval_cases j <;> rfl
    · rw [if_neg (by omega)]
  refine ⟨⟨m, v, v, v, false⟩, ?_, rfl, ⟨_, _, _, hp, fun k _ => ?_, fun _ _ => f0, fun _ _ => f0⟩, _, hp⟩
  · unfold new
    simp only [Mat.init_new (F := F) (show 1 ≤ 3 by omega) (by omega) (show 1 ≤ 3 by omega) (by omega),
      Vec.init_new (F := F) (show 1 ≤ 3 by omega) (by omega), e1, e2, Res.mapErr_ok, Res.ok_bind]
  · split <;> assumption

end

theorem Good.congr (h : Good g) (h1 : g'.correction = g.correction) (h2 : g'.biases = g.biases)
    (h3 : g'.raw = g.raw) (h4 : g'.corrected = g.corrected) : Good g' := by
  obtain ⟨p, r, c, hh, hp, hr, hc⟩ := h
  exact ⟨p, r, c, ⟨h1 ▸ hh.correction, h2 ▸ hh.biases, h3 ▸ hh.raw, h4 ▸ hh.corrected⟩, hp, hr, hc⟩

theorem Good.written {d : MagnetometerConfig F} (h : Good g) {k : Nat} (hk : k ≤ 12)
    (hf : ∀ i, i < k → Finite (param d i)) : Good (written (param d) g k) := by
  obtain ⟨p, r, c, hh, hp, hr, hc⟩ := h
  refine ⟨_, r, c, written_holds hh hk, fun i hi => ?_, hr, hc⟩
  split
  · exact hf i ‹_›
  · exact hp i hi

/-- What a configuration attempt does. -/
theorem config_cases (d : MagnetometerConfig F) (h : Good g) :
    ((∀ k, k < 12 → Finite (param d k)) ∧
      privateSetConfig d g = (.ok (), Magnetometer.written (param d) g 12)) ∨
    ∃ k, k < 12 ∧ (∀ i, i < k → Finite (param d i)) ∧ ¬ Finite (param d k) ∧
      privateSetConfig d g = (.error (.err (.LinalgError (valueErr (param d k)))),
        Magnetometer.written (param d) g k) := by
  obtain ⟨p, r, c, hh, -⟩ := h
  rcases param_cases d with hf | ⟨k, hk, hf, hb⟩
  · exact Or.inl ⟨hf, config_ok hh hf⟩
  · exact Or.inr ⟨k, hk, hf, hb, config_err hh hk hf hb⟩

theorem overwrite_finite {v : Vec F} {f h : Nat → F} {k : Nat} (_hk : k ≤ 3) (hv : VecIs v 3 f)
    (hf : ∀ i, i < 3 → Finite (f i)) (hh : ∀ i, i < k → Finite (h i)) :
    ∃ f', VecIs (v.overwrite k h) 3 f' ∧ ∀ i, i < 3 → Finite (f' i) := by
  refine ⟨fun i => if i < k then h i else f i, ?_, fun i hi => ?_⟩
  · rw [vecIs_iff]
    refine ⟨by omega, by omega, hv.init, hv.rows_eq, fun i h4 hi => ?_⟩
    simp only [Vec.overwrite]
    rw [hv.elem h4 hi]
  · dsimp only
    split
    · exact hh i ‹_›
    · exact hf i hi

/-- Whatever the outcome, an update changes the raw and corrected samples only, to finite values. -/
theorem update_good (x y z : F) (h : Good g) (hi : g.initialized = true) :
    ∃ v w, (update x y z g).2 = { g with raw := v, corrected := w } ∧ Good (update x y z g).2 := by
  obtain ⟨p, r, c, hh, hp, hr, hc⟩ := h
  by_cases hf : ∀ i, i < 3 → Finite (seq3 x y z i)
  · obtain ⟨h1, e⟩ := update_sample hh hi hf
    rw [e]
    by_cases hd : ∀ i, i < 3 → Finite (seq3 x y z i -ᶠ p (9 + i))
    · by_cases hs : ∀ i l, i < 3 → l < 3 → Finite (partSum p (seq3 x y z) i l)
      · obtain ⟨w, e2, hw⟩ := correct_ok h1 hd hs
        rw [e2]
        exact ⟨_, _, rfl, p, _, _, ⟨h1.correction, h1.biases, h1.raw, hw⟩, hp, hf,
          fun k hk => hs k 2 hk (by omega)⟩
      · obtain ⟨y', _, w, e2, hw⟩ := correct_overflow h1 hd hs
        rw [e2]
        exact ⟨_, _, rfl, p, _, _, ⟨h1.correction, h1.biases, h1.raw, hw⟩, hp, hf, hd⟩
    · push Not at hd
      have h2 := Nat.find_spec hd
      have hlt : ∀ i, i < Nat.find hd → Finite (seq3 x y z i -ᶠ p (9 + i)) := fun i hi => by
        by_contra hcc
        exact Nat.find_min hd hi ⟨by omega, hcc⟩
      rw [correct_diff h1 h2.1 hlt h2.2]
      obtain ⟨c', hc', hcf⟩ := overwrite_finite h2.1.le hh.corrected hc hlt
      exact ⟨_, _, rfl, p, _, c', ⟨h1.correction, h1.biases, h1.raw, hc'⟩, hp, hf, hcf⟩
  · push Not at hf
    have h2 := Nat.find_spec hf
    have hlt : ∀ i, i < Nat.find hf → Finite (seq3 x y z i) := fun i hi => by
      by_contra hcc
      exact Nat.find_min hf hi ⟨by omega, hcc⟩
    rw [update_reject hh hi h2.1 hlt h2.2]
    obtain ⟨r', hr', hrf⟩ := overwrite_finite h2.1.le hh.raw hr hlt
    exact ⟨_, _, rfl, p, r', c, ⟨hh.correction, hh.biases, hr', hh.corrected⟩, hp, hrf, hc⟩

theorem init_eq (d : MagnetometerConfig F) (hi : g.initialized = false) :
    init d g = (privateSetConfig d >>= fun _ => Op.modify fun s => { s with initialized := true }) g := by
  unfold init
  rw [Op.get_bind, hi]
  simp only [Bool.false_eq_true, if_false]

theorem init_ok {d : MagnetometerConfig F} (h : Good g) (hi : g.initialized = false)
    (hf : ∀ k, k < 12 → Finite (param d k)) :
    init d g = (.ok (), { written (param d) g 12 with initialized := true }) := by
  rcases config_cases d h with ⟨_, e⟩ | ⟨k, hk, _, hb, _⟩
  · rw [init_eq d hi, Op.bind_ok e, Op.modify_run]
  · exact absurd (hf k hk) hb

theorem init_err {d : MagnetometerConfig F} (h : Good g) (hi : g.initialized = false) {k : Nat} (hk : k < 12)
    (hf : ∀ i, i < k → Finite (param d i)) (hb : ¬ Finite (param d k)) :
    init d g = (.error (.err (.LinalgError (valueErr (param d k)))), written (param d) g k) := by
  obtain ⟨p, r, c, hh, -⟩ := h
  rw [init_eq d hi, Op.bind_err (config_err hh hk hf hb)]

/-- The effect of a call. -/
theorem call_good (k : SensorCall (MagnetometerConfig F) F) (h : Good g) : Good (call k g).2 := by
  cases k with
  | init d =>
    show Good (init d g).2
    cases hi : g.initialized
    · rcases param_cases d with hf | ⟨k, hk, hf, hb⟩
      · rw [init_ok h hi hf]
        exact (h.written (d := d) (le_refl 12) hf).congr rfl rfl rfl rfl
      · rw [init_err h hi hk hf hb]
        exact h.written hk.le hf
    · unfold init
      rw [Op.get_bind, hi]
      exact h
  | setConfig d =>
    show Good (setConfig d g).2
    unfold setConfig
    rw [Op.get_bind]
    cases hi : g.initialized
    · simpa using h
    · simp only [if_true]
      rcases config_cases d h with ⟨hf, e⟩ | ⟨k, hk, hf, hb, e⟩
      · rw [e]; exact h.written (le_refl 12) hf
      · rw [e]; exact h.written hk.le hf
  | update x y z =>
    show Good (update x y z g).2
    cases hi : g.initialized
    · unfold update
      rw [Op.get_bind, hi]
      exact h
    · obtain ⟨_, _, _, h'⟩ := update_good x y z h hi
      exact h'

theorem Leads.good (h : Leads g g') (hg : Good g) : Good g' := by
  induction h with
  | refl => exact hg
  | step k _ ih => exact call_good k ih

theorem call_initialized (k : SensorCall (MagnetometerConfig F) F) (h : Good g) (hi : g.initialized = true) :
    (call k g).2.initialized = true := by
  cases k with
  | init d =>
    show (init d g).2.initialized = true
    unfold init
    rw [Op.get_bind, hi]
    exact hi
  | setConfig d =>
    show (setConfig d g).2.initialized = true
    unfold setConfig
    rw [Op.get_bind, if_pos hi]
    rcases config_cases d h with ⟨hf, e⟩ | ⟨k, hk, hf, hb, e⟩ <;> rw [e] <;>
      exact (written_initialized _).trans hi
  | update x y z =>
    show (update x y z g).2.initialized = true
    obtain ⟨_, _, e, _⟩ := update_good x y z h hi
    rw [e]; exact hi

/-! ### Initialisation after failures -/

theorem written_correction (h : g.correction.cols = 3) :
    (written p g 12).correction = g.correction.overwrite 9 (fun i j => p (slot i j)) := by
  have : (written p g 12).correction =
      ((((((((g.correction.put 0 0 (p 0)).put 1 1 (p 1)).put 2 2 (p 2)).put 0 1 (p 3)).put 1 0
        (p 4)).put 0 2 (p 5)).put 2 0 (p 6)).put 1 2 (p 7)).put 2 1 (p 8) := rfl
  rw [this]
  unfold Mat.put Mat.overwrite
  congr 1
  funext x
  simp only [h]
  obtain ⟨x, hx⟩ := x
  interval_cases x <;> simp [slot]

theorem written_biases : (written p g 12).biases = g.biases.overwrite 3 (fun i => p (9 + i)) := by
  have : (written p g 12).biases = ((g.biases.put 0 (p 9)).put 1 (p 10)).put 2 (p 11) := rfl
  rw [this]
  unfold Vec.put Vec.overwrite
  congr 1
  funext x
  obtain ⟨x, hx⟩ := x
  interval_cases x <;> simp

theorem written_putStep (h : g.correction.cols = 3) {k : Nat} (hk : k < 12) :
    written p (putStep q k g) 12 = written p g 12 := by
  have hc : (putStep q k g).correction.cols = 3 := by unfold putStep; split <;> exact h
  have e1 := written_correction (p := p) h
  have e2 := written_correction (p := p) hc
  have e3 := written_biases (p := p) (g := g)
  have e4 := written_biases (p := p) (g := putStep q k g)
  have e5 : (written p (putStep q k g) 12).correction = (written p g 12).correction := by
    rw [e1, e2]
    unfold putStep
    split
    · next h9 =>
      have := cell_lt h9
      exact Mat.put_overwrite (by rw [h]; omega)
    · rfl
  have e6 : (written p (putStep q k g) 12).biases = (written p g 12).biases := by
    rw [e3, e4]
    unfold putStep
    split
    · rfl
    · exact Vec.put_overwrite (by omega)
  have e7 : (written p (putStep q k g) 12).raw = (written p g 12).raw := by
    rw [written_raw, written_raw, putStep_raw]
  have e8 : (written p (putStep q k g) 12).corrected = (written p g 12).corrected := by
    rw [written_corrected, written_corrected, putStep_corrected]
  have e9 : (written p (putStep q k g) 12).initialized = (written p g 12).initialized := by
    rw [written_initialized, written_initialized, putStep_initialized]
  generalize written p (putStep q k g) 12 = a at *
  generalize written p g 12 = b at *
  cases a; cases b
  simp only at e5 e6 e7 e8 e9
  rw [e5, e6, e7, e8, e9]

theorem written_cols (h : g.correction.cols = 3) (k : Nat) : (written q g k).correction.cols = 3 := by
  induction k with
  | zero => exact h
  | succ k ih => rw [written, putStep]; split <;> exact ih

theorem written_written (h : g.correction.cols = 3) {k : Nat} (hk : k ≤ 12) :
    written p (written q g k) 12 = written p g 12 := by
  induction k with
  | zero => rfl
  | succ k ih =>
    rw [show written q g (k + 1) = putStep q k (written q g k) from rfl,
      written_putStep (written_cols h k) (by omega), ih (by omega)]

/-- Until the first successful `init`, only parameters change. -/
theorem Leads.fresh (h : Leads g g') (hg : Good g) (hi' : g'.initialized = false) :
    g.initialized = false ∧ ∀ p : Nat → F, written p g' 12 = written p g 12 := by
  induction h with
  | refl => exact ⟨hi', fun _ => rfl⟩
  | @step g1 k hl ih =>
    have h1 := hl.good hg
    cases hi : g1.initialized
    · obtain ⟨h2, h3⟩ := ih hi
      refine ⟨h2, fun p => ?_⟩
      rw [← h3 p]
      cases k with
      | init d =>
        change (init d g1).2.initialized = false at hi'
        show written p (init d g1).2 12 = _
        rcases param_cases d with hf | ⟨k, hk, hf, hb⟩
        · rw [init_ok h1 hi hf] at hi'
          exact absurd hi' (by simp)
        · rw [init_err h1 hi hk hf hb]
          obtain ⟨_, _, _, hh, -⟩ := h1
          exact written_written hh.correction.cols_eq hk.le
      | setConfig d =>
        show written p (setConfig d g1).2 12 = _
        unfold setConfig
        rw [Op.get_bind, hi]
        rfl
      | update x y z =>
        show written p (update x y z g1).2 12 = _
        unfold update
        rw [Op.get_bind, hi]
        rfl
    · rw [call_initialized k h1 hi] at hi'
      exact absurd hi' (by simp)

variable [ScalarLawful F]

theorem Reachable.good (h : Reachable g) : Good g := by
  obtain ⟨g0, e, hl⟩ := h
  obtain ⟨g1, e1, _, h1, _⟩ := new_ok (F := F)
  rw [e] at e1
  obtain rfl := Except.ok.inj e1
  exact hl.good h1

end Magnetometer

open Magnetometer
variable [ScalarLawful F] {g g' : Magnetometer F} {c d : MagnetometerConfig F} {x y z : F}

/-! ### Configuration -/

/-- C42: `set_config` succeeds exactly when the sensor is initialised and the 12 parameters are
finite. -/
theorem C42_mag_iff (hg : Reachable g) :
    (setConfig c g).1 = .ok () ↔ g.initialized = true ∧ ∀ x ∈ c.params, Finite x := by
  rw [params_finite]
  unfold setConfig
  rw [Op.get_bind]
  cases hi : g.initialized
  · simp
  · simp only [if_true, true_and]
    rcases config_cases c hg.good with ⟨hf, e⟩ | ⟨k, hk, hf, hb, e⟩
    · rw [e]; exact ⟨fun _ => hf, fun _ => rfl⟩
    · rw [e]; exact ⟨fun h => (by simp at h), fun h => absurd (h k hk) hb⟩

/-- C42: after a successful `set_config` or `init`, `get_config` returns the same parameters;
`set_config` does not touch the measurements. -/
theorem C42_mag_round_trip (hg : Reachable g) (h : setConfig c g = (.ok (), g')) :
    getConfig g' = .ok c ∧ g'.raw = g.raw ∧ g'.corrected = g.corrected ∧
      getX g' = getX g ∧ getY g' = getY g ∧ getZ g' = getZ g := by
  have hi : g.initialized = true := ((C42_mag_iff hg).mp (by rw [h])).1
  unfold setConfig at h
  rw [Op.get_bind, if_pos hi] at h
  rcases config_cases c hg.good with ⟨hf, e⟩ | ⟨k, hk, hf, hb, e⟩
  · rw [e] at h
    obtain rfl := congrArg Prod.snd h
    obtain ⟨p, r, q, hh, -⟩ := hg.good
    have hi2 : (written (param c) g 12).initialized = true := (written_initialized 12).trans hi
    refine ⟨?_, written_raw 12, written_corrected 12, ?_, ?_, ?_⟩
    · show getConfig (written (param c) g 12) = _
      rw [getConfig_eq (written_holds hh (le_refl 12)) hi2, ← ofParam_param c]
      exact congrArg _ (ofParam_congr fun k hk => if_pos hk)
    all_goals simp only [getX, getY, getZ, hi, hi2, written_corrected]
  · rw [e] at h; simp at h

theorem C42_mag_init (hg : Reachable g) (h : init c g = (.ok (), g')) : getConfig g' = .ok c := by
  cases hi : g.initialized
  · rcases param_cases c with hf | ⟨k, hk, hf, hb⟩
    · rw [init_ok hg.good hi hf] at h
      obtain rfl := congrArg Prod.snd h
      obtain ⟨p, r, q, hh, -⟩ := hg.good
      have h2 := written_holds (p := param c) hh (le_refl 12)
      have h3 : Holds { written (param c) g 12 with initialized := true }
          (fun i => if i < 12 then param c i else p i) r q :=
        ⟨h2.correction, h2.biases, h2.raw, h2.corrected⟩
      have := getConfig_eq h3 rfl
      show getConfig { written (param c) g 12 with initialized := true } = _
      rw [this, ← ofParam_param c]
      exact congrArg _ (ofParam_congr fun k hk => if_pos hk)
    · rw [init_err hg.good hi hk hf hb] at h; simp at h
  · unfold init at h
    rw [Op.get_bind, hi] at h
    simp at h

/-- C42: a rejected configuration is half applied: the parameters before the first one that is not
finite are the new ones, the others are the old ones. -/
theorem C42_mag_half_applied (hg : Reachable g) (hc : getConfig g = .ok c) {k : Nat} {v : F}
    (hk : d.params[k]? = some v) (hf : ∀ i w, i < k → d.params[i]? = some w → Finite w)
    (hb : ¬ Finite v) :
    ∃ g' d', setConfig d g = (.error (.err (.LinalgError (valueErr v))), g') ∧
      getConfig g' = .ok d' ∧ d'.params = d.params.take k ++ c.params.drop k := by
  have hi : g.initialized = true := by
    cases hi : g.initialized
    · unfold getConfig at hc; rw [hi] at hc; simp at hc
    · rfl
  have hlt : k < 12 := by
    have := (List.getElem?_eq_some_iff.mp hk).1
    simpa [MagnetometerConfig.params] using this
  have hpar : ∀ i, i < 12 → d.params[i]? = some (param d i) := fun i hi => by
    interval_cases i <;> rfl
  have hv : v = param d k := by
    rw [hpar k hlt] at hk
    exact (Option.some.inj hk).symm
  subst hv
  obtain ⟨p, r, q, hh, -⟩ := hg.good
  have e := config_err hh hlt (fun i hik => hf i _ hik (hpar i (by omega))) hb
  rw [getConfig_eq hh hi] at hc
  obtain rfl := Except.ok.inj hc
  refine ⟨_, _, ?_, getConfig_eq (written_holds (p := param d) hh hlt.le) ((written_initialized k).trans hi), ?_⟩
  · unfold setConfig
    rw [Op.get_bind, if_pos hi, e]
  · interval_cases k <;> rfl

/-! ### Calibration -/

theorem Magnetometer.config_of (hg : Reachable g) (hc : getConfig g = .ok c) : g.initialized = true ∧
    ∃ r q, Holds g (param c) r q ∧ (∀ k, k < 12 → Finite (param c k)) ∧ (∀ k, k < 3 → Finite (r k)) ∧
      ∀ k, k < 3 → Finite (q k) := by
  have hi : g.initialized = true := by
    cases hi : g.initialized
    · unfold getConfig at hc; rw [hi] at hc; simp at hc
    · rfl
  obtain ⟨p, r, q, hh, hp, hr, hq⟩ := hg.good
  rw [getConfig_eq hh hi] at hc
  obtain rfl := Except.ok.inj hc
  have e : ∀ k, k < 12 → p k = param (ofParam p) k := fun k hk => by interval_cases k <;> rfl
  refine ⟨hi, r, q, ⟨hh.correction.congr fun i j h1 h2 => ?_, hh.biases.congr fun i h1 => ?_, hh.raw,
    hh.corrected⟩, fun k hk => e k hk ▸ hp k hk, hr, hq⟩
  · have := slot_lt h1 h2
    exact e _ (by omega)
  · exact e _ (by omega)

/-- The corrected sample: one coefficient per axis, applied to the sample without its bias. -/
def Magnetometer.corrX (c : MagnetometerConfig F) (x y z : F) : F :=
  lit 0 +ᶠ c.xScale *ᶠ (x -ᶠ c.xBias) +ᶠ c.xy *ᶠ (y -ᶠ c.yBias) +ᶠ c.yx *ᶠ (z -ᶠ c.zBias)
def Magnetometer.corrY (c : MagnetometerConfig F) (x y z : F) : F :=
  lit 0 +ᶠ c.xz *ᶠ (x -ᶠ c.xBias) +ᶠ c.yScale *ᶠ (y -ᶠ c.yBias) +ᶠ c.zx *ᶠ (z -ᶠ c.zBias)
def Magnetometer.corrZ (c : MagnetometerConfig F) (x y z : F) : F :=
  lit 0 +ᶠ c.yz *ᶠ (x -ᶠ c.xBias) +ᶠ c.zy *ᶠ (y -ᶠ c.yBias) +ᶠ c.zScale *ᶠ (z -ᶠ c.zBias)

theorem Magnetometer.partSum_eq (c : MagnetometerConfig F) (x y z : F) :
    partSum (param c) (seq3 x y z) 0 2 = corrX c x y z ∧
    partSum (param c) (seq3 x y z) 1 2 = corrY c x y z ∧
    partSum (param c) (seq3 x y z) 2 2 = corrZ c x y z := ⟨rfl, rfl, rfl⟩

/-- C43: a successful update stores the raw sample, corrects it with the configured biases and
coefficients, and keeps the configuration. -/
theorem C43_mag_formula (hg : Reachable g) (hc : getConfig g = .ok c)
    (h : update x y z g = (.ok (), g')) :
    VecIs g'.raw 3 (seq3 x y z) ∧ getX g' = .ok (corrX c x y z) ∧ getY g' = .ok (corrY c x y z) ∧
      getZ g' = .ok (corrZ c x y z) ∧ getConfig g' = .ok c := by
  obtain ⟨hi, r, q, hh, hp, hr, hq⟩ := config_of hg hc
  by_cases hf : ∀ i, i < 3 → Finite (seq3 x y z i)
  · obtain ⟨h1, e⟩ := update_sample hh hi hf
    rw [e] at h
    by_cases hd : ∀ i, i < 3 → Finite (seq3 x y z i -ᶠ param c (9 + i))
    · by_cases hs : ∀ i l, i < 3 → l < 3 → Finite (partSum (param c) (seq3 x y z) i l)
      · obtain ⟨w, e2, hw⟩ := correct_ok h1 hd hs
        rw [e2] at h
        obtain rfl := congrArg Prod.snd h
        refine ⟨h1.raw, ?_, ?_, ?_, ?_⟩
        · unfold getX
          simp only [hi, Bool.not_true, Bool.false_eq_true, if_false]
          rw [hw.get 0 (by omega)]; rfl
        · unfold getY
          simp only [hi, Bool.not_true, Bool.false_eq_true, if_false]
          rw [hw.get 1 (by omega)]; rfl
        · unfold getZ
          simp only [hi, Bool.not_true, Bool.false_eq_true, if_false]
          rw [hw.get 2 (by omega)]; rfl
        · rw [← hc]
          unfold getConfig
          rfl
      · obtain ⟨y', _, w, e2, hw⟩ := correct_overflow h1 hd hs
        rw [e2] at h; simp at h
    · push Not at hd
      have h2 := Nat.find_spec hd
      rw [correct_diff h1 h2.1 (fun i hi => by
        by_contra hcc
        exact Nat.find_min hd hi ⟨by omega, hcc⟩) h2.2] at h
      simp at h
  · push Not at hf
    have h2 := Nat.find_spec hf
    rw [update_reject hh hi h2.1 (fun i hi => by
      by_contra hcc
      exact Nat.find_min hf hi ⟨by omega, hcc⟩) h2.2] at h
    simp at h

/-- C43: an update succeeds exactly when the sample, the sample without its biases, and all partial
sums of the three products are finite. -/
theorem C43_mag_iff (hg : Reachable g) (hc : getConfig g = .ok c) :
    (update x y z g).1 = .ok () ↔
      (Finite x ∧ Finite y ∧ Finite z) ∧
      (Finite (x -ᶠ c.xBias) ∧ Finite (y -ᶠ c.yBias) ∧ Finite (z -ᶠ c.zBias)) ∧
      (Finite (lit 0 +ᶠ c.xScale *ᶠ (x -ᶠ c.xBias)) ∧
        Finite (lit 0 +ᶠ c.xScale *ᶠ (x -ᶠ c.xBias) +ᶠ c.xy *ᶠ (y -ᶠ c.yBias)) ∧
        Finite (corrX c x y z)) ∧
      (Finite (lit 0 +ᶠ c.xz *ᶠ (x -ᶠ c.xBias)) ∧
        Finite (lit 0 +ᶠ c.xz *ᶠ (x -ᶠ c.xBias) +ᶠ c.yScale *ᶠ (y -ᶠ c.yBias)) ∧
        Finite (corrY c x y z)) ∧
      (Finite (lit 0 +ᶠ c.yz *ᶠ (x -ᶠ c.xBias)) ∧
        Finite (lit 0 +ᶠ c.yz *ᶠ (x -ᶠ c.xBias) +ᶠ c.zy *ᶠ (y -ᶠ c.yBias)) ∧
        Finite (corrZ c x y z)) := by
  obtain ⟨hi, r, q, hh, hp, hr, hq⟩ := config_of hg hc
  have t1 : (∀ i, i < 3 → Finite (seq3 x y z i)) ↔ (Finite x ∧ Finite y ∧ Finite z) := forall_lt_three
  have t2 : (∀ i, i < 3 → Finite (seq3 x y z i -ᶠ param c (9 + i))) ↔
      (Finite (x -ᶠ c.xBias) ∧ Finite (y -ᶠ c.yBias) ∧ Finite (z -ᶠ c.zBias)) := forall_lt_three
  have t3 : ∀ i, (∀ l, l < 3 → Finite (partSum (param c) (seq3 x y z) i l)) ↔
      (Finite (partSum (param c) (seq3 x y z) i 0) ∧ Finite (partSum (param c) (seq3 x y z) i 1) ∧
        Finite (partSum (param c) (seq3 x y z) i 2)) := fun i => forall_lt_three
  have t4 : (∀ i l, i < 3 → l < 3 → Finite (partSum (param c) (seq3 x y z) i l)) ↔
      (∀ i, i < 3 → ∀ l, l < 3 → Finite (partSum (param c) (seq3 x y z) i l)) :=
    ⟨fun h i hi l hl => h i l hi hl, fun h i l hi hl => h i hi l hl⟩
  have t5 := t4.trans (forall_lt_three.trans (and_congr (t3 0) (and_congr (t3 1) (t3 2))))
  rw [← t1, ← t2]
  refine Iff.trans ?_ (and_congr Iff.rfl (and_congr Iff.rfl t5))
  by_cases hf : ∀ i, i < 3 → Finite (seq3 x y z i)
  · obtain ⟨h1, e⟩ := update_sample hh hi hf
    rw [e]
    by_cases hd : ∀ i, i < 3 → Finite (seq3 x y z i -ᶠ param c (9 + i))
    · by_cases hs : ∀ i l, i < 3 → l < 3 → Finite (partSum (param c) (seq3 x y z) i l)
      · obtain ⟨w, e2, hw⟩ := correct_ok h1 hd hs
        rw [e2]
        exact ⟨fun _ => ⟨hf, hd, hs⟩, fun _ => rfl⟩
      · obtain ⟨y', _, w, e2, hw⟩ := correct_overflow h1 hd hs
        rw [e2]
        exact ⟨fun h => by simp at h, fun h => absurd h.2.2 hs⟩
    · have hd' := hd
      push Not at hd
      have h2 := Nat.find_spec hd
      rw [correct_diff h1 h2.1 (fun i hi => by
        by_contra hcc
        exact Nat.find_min hd hi ⟨by omega, hcc⟩) h2.2]
      exact ⟨fun h => by simp at h, fun h => absurd h.2.1 hd'⟩
  · have hf' := hf
    push Not at hf
    have h2 := Nat.find_spec hf
    rw [update_reject hh hi h2.1 (fun i hi => by
      by_contra hcc
      exact Nat.find_min hf hi ⟨by omega, hcc⟩) h2.2]
    exact ⟨fun h => by simp at h, fun h => absurd h.1 hf'⟩

/-! ### Life cycle -/

/-- C44: before a successful `init` every use reports that the sensor is not initialised and changes
nothing. -/
theorem C44_mag_unused (hi : g.initialized = false) :
    setConfig c g = (.error (.err .MagNotInit), g) ∧ update x y z g = (.error (.err .MagNotInit), g) ∧
      getConfig g = .error (.err .MagNotInit) ∧ getX g = .error (.err .MagNotInit) ∧
      getY g = .error (.err .MagNotInit) ∧ getZ g = .error (.err .MagNotInit) := by
  refine ⟨?_, ?_, ?_, ?_, ?_, ?_⟩
  · unfold setConfig; rw [Op.get_bind, hi]; rfl
  · unfold update; rw [Op.get_bind, hi]; rfl
  · unfold getConfig; rw [hi]; rfl
  · unfold getX; rw [hi]; rfl
  · unfold getY; rw [hi]; rfl
  · unfold getZ; rw [hi]; rfl

/-- C44: a new sensor is not initialised. -/
theorem C44_mag_new : ∃ g0 : Magnetometer F, new = .ok g0 ∧ g0.initialized = false ∧ Reachable g0 := by
  obtain ⟨g0, e, hi, _⟩ := new_ok (F := F)
  exact ⟨g0, e, hi, g0, e, .refl g0⟩

/-- C44: `init` succeeds exactly when the sensor is not initialised and the parameters are finite.
When it fails, the sensor is initialised exactly if it was before. -/
theorem C44_mag_init (hg : Reachable g) :
    ((init c g).1 = .ok () ↔ g.initialized = false ∧ ∀ x ∈ c.params, Finite x) ∧
    ((init c g).1 ≠ .ok () → (init c g).2.initialized = g.initialized) ∧
    ((init c g).1 = .ok () → (init c g).2.initialized = true) := by
  rw [params_finite]
  cases hi : g.initialized
  · rcases param_cases c with hf | ⟨k, hk, hf, hb⟩
    · rw [init_ok hg.good hi hf]
      exact ⟨⟨fun _ => ⟨rfl, hf⟩, fun _ => rfl⟩, fun h => absurd rfl h, fun _ => rfl⟩
    · rw [init_err hg.good hi hk hf hb]
      exact ⟨⟨fun h => by simp at h, fun h => absurd (h.2 k hk) hb⟩,
        fun _ => (written_initialized k).trans hi, fun h => by simp at h⟩
  · unfold init
    rw [Op.get_bind, hi]
    exact ⟨⟨fun h => by simp at h, fun h => by simp at h⟩, fun _ => hi, fun _ => hi⟩

/-- C44: once initialised, a sensor stays initialised and every later `init` is refused without
effect. -/
theorem C44_mag_once (hg : Reachable g) (h : init c g = (.ok (), g')) {g2 : Magnetometer F}
    (hl : Leads g' g2) : init d g2 = (.error (.err .MagAlreadyInit), g2) := by
  have h1 : g'.initialized = true := by
    have := (C44_mag_init (c := c) hg).2.2 (by rw [h])
    rwa [h] at this
  have h2 : Good g' := by
    have := call_good (.init c) hg.good
    change Good (init c g).2 at this
    rwa [h] at this
  have h3 : g2.initialized = true := by
    clear h hg
    induction hl with
    | refl => exact h1
    | step k hl' ih => exact call_initialized k (hl'.good h2) ih
  unfold init
  rw [Op.get_bind, h3]
  rfl

/-- C44: whatever was tried before, a valid `init` of a sensor that is not initialised yields the
sensor that a first valid `init` yields. -/
theorem C44_mag_retry (hg : Reachable g) (hi : g.initialized = false) (hf : ∀ x ∈ c.params, Finite x) :
    ∃ g0 g', new = .ok g0 ∧ init c g0 = (.ok (), g') ∧ init c g = (.ok (), g') := by
  rw [params_finite] at hf
  obtain ⟨g0, e, hl⟩ := hg
  obtain ⟨g1, e1, hi1, h1, _⟩ := new_ok (F := F)
  have e' := e
  rw [e1] at e
  obtain rfl := Except.ok.inj e
  obtain ⟨h2, h3⟩ := hl.fresh h1 hi
  refine ⟨_, _, e', init_ok h1 h2 hf, ?_⟩
  rw [init_ok (hl.good h1) hi hf, h3]

/-! ### Rejected samples -/

/-- C45: a sample with a component that is not finite is rejected; the components before it are
stored in the raw sample, and nothing else changes. -/
theorem C45_mag_rejected (hg : Reachable g) (hi : g.initialized = true) {k : Nat} (hk : k < 3)
    (hf : ∀ i, i < k → Finite (seq3 x y z i)) (hb : ¬ Finite (seq3 x y z k)) :
    update x y z g = (.error (.err (.LinalgError (valueErr (seq3 x y z k)))),
      { g with raw := g.raw.overwrite k (seq3 x y z) }) := by
  obtain ⟨p, r, q, hh, -⟩ := hg.good
  exact update_reject hh hi hk hf hb

/-- C45: in particular the corrected sample and the configuration read the same as before. -/
theorem C45_mag_kept (hg : Reachable g) (hb : ¬ (Finite x ∧ Finite y ∧ Finite z)) :
    ∃ e, (update x y z g).1 = .error (.err e) ∧ getX (update x y z g).2 = getX g ∧
      getY (update x y z g).2 = getY g ∧ getZ (update x y z g).2 = getZ g ∧
      getConfig (update x y z g).2 = getConfig g := by
  cases hi : g.initialized
  · rw [(C44_mag_unused (c := MagnetometerConfig.default) hi).2.1]
    exact ⟨_, rfl, rfl, rfl, rfl, rfl⟩
  · have hf : ¬ ∀ i, i < 3 → Finite (seq3 x y z i) := fun h => hb (forall_lt_three.mp h)
    push Not at hf
    have h2 := Nat.find_spec hf
    rw [C45_mag_rejected hg hi h2.1 (fun i hi => by
      by_contra hcc
      exact Nat.find_min hf hi ⟨by omega, hcc⟩) h2.2]
    exact ⟨_, rfl, rfl, rfl, rfl, rfl⟩

/-- C45: a sample that is finite but makes the products overflow is rejected as well; then the
corrected sample is left without the correction matrix applied. -/
theorem C45_mag_overflow (hg : Reachable g) (hc : getConfig g = .ok c)
    (hf : Finite x ∧ Finite y ∧ Finite z)
    (hd : Finite (x -ᶠ c.xBias) ∧ Finite (y -ᶠ c.yBias) ∧ Finite (z -ᶠ c.zBias))
    (h : (update x y z g).1 ≠ .ok ()) :
    ∃ e g', update x y z g = (.error (.err e), g') ∧ getX g' = .ok (x -ᶠ c.xBias) ∧
      getY g' = .ok (y -ᶠ c.yBias) ∧ getZ g' = .ok (z -ᶠ c.zBias) ∧ getConfig g' = .ok c := by
  obtain ⟨hi, r, q, hh, hp, hr, hq⟩ := config_of hg hc
  obtain ⟨h1, e⟩ := update_sample hh hi (forall_lt_three.mpr hf)
  have hd' : ∀ i, i < 3 → Finite (seq3 x y z i -ᶠ param c (9 + i)) := forall_lt_three.mpr hd
  rw [e] at h ⊢
  by_cases hs : ∀ i l, i < 3 → l < 3 → Finite (partSum (param c) (seq3 x y z) i l)
  · obtain ⟨w, e2, hw⟩ := correct_ok h1 hd' hs
    rw [e2] at h
    exact absurd rfl h
  · obtain ⟨y', _, w, e2, hw⟩ := correct_overflow h1 hd' hs
    refine ⟨_, _, e2, ?_, ?_, ?_, ?_⟩
    · unfold getX
      simp only [hi, Bool.not_true, Bool.false_eq_true, if_false]
      rw [hw.get 0 (by omega)]; rfl
    · unfold getY
      simp only [hi, Bool.not_true, Bool.false_eq_true, if_false]
      rw [hw.get 1 (by omega)]; rfl
    · unfold getZ
      simp only [hi, Bool.not_true, Bool.false_eq_true, if_false]
      rw [hw.get 2 (by omega)]; rfl
    · rw [← hc]
      unfold getConfig
      rfl

/-- C45: no sample, accepted or rejected, changes the configuration. -/
theorem C45_mag_config (hg : Reachable g) (x y z : F) :
    getConfig (update x y z g).2 = getConfig g := by
  by_cases hf : Finite x ∧ Finite y ∧ Finite z
  · cases hi : g.initialized
    · rw [(C44_mag_unused (c := MagnetometerConfig.default) hi).2.1]
    · obtain ⟨p, r, q, hh, -⟩ := hg.good
      obtain ⟨h1, e⟩ := update_sample hh hi (forall_lt_three.mpr hf)
      rw [e]
      by_cases hd : ∀ i, i < 3 → Finite (seq3 x y z i -ᶠ p (9 + i))
      · by_cases hs : ∀ i l, i < 3 → l < 3 → Finite (partSum p (seq3 x y z) i l)
        · obtain ⟨w, e2, hw⟩ := correct_ok h1 hd hs
          rw [e2]
          rfl
        · obtain ⟨y', _, w, e2, hw⟩ := correct_overflow h1 hd hs
          rw [e2]
          rfl
      · push Not at hd
        have h2 := Nat.find_spec hd
        rw [correct_diff h1 h2.1 (fun i hi => by
          by_contra hcc
          exact Nat.find_min hd hi ⟨by omega, hcc⟩) h2.2]
        rfl
  · exact (C45_mag_kept hg hf).choose_spec.2.2.2.2

/-! ### Exact arithmetic -/

section
variable {K : Type} [Field K] [LinearOrder K] [Elementary K]

/-- A configuration given by numbers. -/
def MagnetometerConfig.fin (d : MagnetometerConfig K) : MagnetometerConfig (Ext K) :=
  ofParam fun k => .fin (match k with
    | 0 => d.xScale
    | 1 => d.yScale
    | 2 => d.zScale
    | 3 => d.xy
    | 4 => d.xz
    | 5 => d.yx
    | 6 => d.yz
    | 7 => d.zx
    | 8 => d.zy
    | 9 => d.xBias
    | 10 => d.yBias
    | _ => d.zBias)

theorem Magnetometer.config_fin {c : MagnetometerConfig (Ext K)} (h : ∀ k, k < 12 → Finite (param c k)) :
    ∃ d : MagnetometerConfig K, c = d.fin := by
  have hx : ∀ k, k < 12 → ∃ a, param c k = .fin a := fun k hk => Ext.finite_iff.mp (h k hk)
  obtain ⟨a0, h0⟩ := hx 0 (by omega)
  obtain ⟨a1, h1⟩ := hx 1 (by omega)
  obtain ⟨a2, h2⟩ := hx 2 (by omega)
  obtain ⟨a3, h3⟩ := hx 3 (by omega)
  obtain ⟨a4, h4⟩ := hx 4 (by omega)
  obtain ⟨a5, h5⟩ := hx 5 (by omega)
  obtain ⟨a6, h6⟩ := hx 6 (by omega)
  obtain ⟨a7, h7⟩ := hx 7 (by omega)
  obtain ⟨a8, h8⟩ := hx 8 (by omega)
  obtain ⟨a9, h9⟩ := hx 9 (by omega)
  obtain ⟨a10, h10⟩ := hx 10 (by omega)
  obtain ⟨a11, h11⟩ := hx 11 (by omega)
  refine ⟨⟨a0, a1, a2, a3, a4, a5, a6, a7, a8, a9, a10, a11⟩, ?_⟩
  obtain ⟨⟩ := c
  simp only [param] at h0 h1 h2 h3 h4 h5 h6 h7 h8 h9 h10 h11
  simp only [MagnetometerConfig.fin, ofParam]
  rw [h0, h1, h2, h3, h4, h5, h6, h7, h8, h9, h10, h11]

/-- C43: in exact arithmetic the configuration of an initialised sensor consists of numbers, an update
with numbers succeeds, and the corrected sample is the correction matrix times the difference of
sample and biases. -/
theorem C43_mag_exact {g : Magnetometer (Ext K)} (hg : Reachable g) (hi : g.initialized = true)
    (x y z : K) :
    ∃ (d : MagnetometerConfig K) (g' : Magnetometer (Ext K)), getConfig g = .ok d.fin ∧
      update (.fin x) (.fin y) (.fin z) g = (.ok (), g') ∧
      getX g' = .ok (.fin (d.xScale * (x - d.xBias) + d.xy * (y - d.yBias) + d.yx * (z - d.zBias))) ∧
      getY g' = .ok (.fin (d.xz * (x - d.xBias) + d.yScale * (y - d.yBias) + d.zx * (z - d.zBias))) ∧
      getZ g' = .ok (.fin (d.yz * (x - d.xBias) + d.zy * (y - d.yBias) + d.zScale * (z - d.zBias))) := by
  obtain ⟨p, r, q, hh, -⟩ := hg.good
  have hc := getConfig_eq hh hi
  obtain ⟨-, _, _, -, hp, -⟩ := config_of hg hc
  obtain ⟨d, hd⟩ := config_fin hp
  rw [hd] at hc
  have hu : (update (.fin x) (.fin y) (.fin z) g).1 = .ok () := by
    rw [C43_mag_iff hg hc]
    simp [MagnetometerConfig.fin, ofParam, corrX, corrY, corrZ]
  obtain ⟨g', e⟩ : ∃ g', update (.fin x) (.fin y) (.fin z) g = (.ok (), g') := ⟨_, Prod.ext hu rfl⟩
  obtain ⟨_, h1, h2, h3, _⟩ := C43_mag_formula hg hc e
  refine ⟨d, g', hc, e, ?_, ?_, ?_⟩
  · rw [h1]; simp [MagnetometerConfig.fin, ofParam, corrX]
  · rw [h2]; simp [MagnetometerConfig.fin, ofParam, corrY]
  · rw [h3]; simp [MagnetometerConfig.fin, ofParam, corrZ]

/-- C43: with the default configuration the corrected sample is the sample. -/
theorem C43_mag_default {g : Magnetometer (Ext K)} (hg : Reachable g)
    (hc : getConfig g = .ok .default) (x y z : K) :
    ∃ g', update (.fin x) (.fin y) (.fin z) g = (.ok (), g') ∧ getX g' = .ok (.fin x) ∧
      getY g' = .ok (.fin y) ∧ getZ g' = .ok (.fin z) := by
  obtain ⟨hi, -⟩ := config_of hg hc
  obtain ⟨_, g', _, e, -⟩ := C43_mag_exact hg hi x y z
  obtain ⟨_, h1, h2, h3, _⟩ := C43_mag_formula hg hc e
  refine ⟨g', e, ?_, ?_, ?_⟩
  · rw [h1]; simp [MagnetometerConfig.default, corrX]
  · rw [h2]; simp [MagnetometerConfig.default, corrY]
  · rw [h3]; simp [MagnetometerConfig.default, corrZ]

end

/-! ### No panics, finite values -/

/-- C66: no call on the sensor panics. -/
theorem C66_mag_no_panic (hg : Reachable g) (k : SensorCall (MagnetometerConfig F) F) :
    (call k g).1 ≠ .error .panic := by
  cases k with
  | init d =>
    show (init d g).1 ≠ _
    cases hi : g.initialized
    · rcases param_cases d with hf | ⟨k, hk, hf, hb⟩
      · rw [init_ok hg.good hi hf]; simp
      · rw [init_err hg.good hi hk hf hb]; simp
    · unfold init
      rw [Op.get_bind, hi]
      simp
  | setConfig d =>
    show (setConfig d g).1 ≠ _
    unfold setConfig
    rw [Op.get_bind]
    cases hi : g.initialized
    · simp
    · simp only [if_true]
      rcases config_cases d hg.good with ⟨hf, e⟩ | ⟨k, hk, hf, hb, e⟩ <;> rw [e] <;> simp
  | update x y z =>
    show (update x y z g).1 ≠ _
    cases hi : g.initialized
    · rw [(C44_mag_unused (c := .default) hi).2.1]; simp
    · obtain ⟨p, r, q, hh, -⟩ := hg.good
      by_cases hf : ∀ i, i < 3 → Finite (seq3 x y z i)
      · obtain ⟨h1, e⟩ := update_sample hh hi hf
        rw [e]
        by_cases hd : ∀ i, i < 3 → Finite (seq3 x y z i -ᶠ p (9 + i))
        · by_cases hs : ∀ i l, i < 3 → l < 3 → Finite (partSum p (seq3 x y z) i l)
          · obtain ⟨w, e2, hw⟩ := correct_ok h1 hd hs
            rw [e2]; simp
          · obtain ⟨y', _, w, e2, hw⟩ := correct_overflow h1 hd hs
            rw [e2]; simp
        · push Not at hd
          have h2 := Nat.find_spec hd
          rw [correct_diff h1 h2.1 (fun i hi => by
            by_contra hcc
            exact Nat.find_min hd hi ⟨by omega, hcc⟩) h2.2]
          simp
      · push Not at hf
        have h2 := Nat.find_spec hf
        rw [update_reject hh hi h2.1 (fun i hi => by
          by_contra hcc
          exact Nat.find_min hf hi ⟨by omega, hcc⟩) h2.2]
        simp

/-- C66: the configuration and the corrected sample of an initialised sensor can be read, and all the
values read are finite. -/
theorem C66_mag_finite (hg : Reachable g) (hi : g.initialized = true) :
    ∃ (c : MagnetometerConfig F) (x y z : F), getConfig g = .ok c ∧ getX g = .ok x ∧ getY g = .ok y ∧
      getZ g = .ok z ∧ (∀ v ∈ c.params, Finite v) ∧ Finite x ∧ Finite y ∧ Finite z := by
  obtain ⟨p, r, q, hh, -⟩ := hg.good
  have hc := getConfig_eq hh hi
  obtain ⟨-, r, q, hh, hp, -, hq⟩ := config_of hg hc
  refine ⟨_, q 0, q 1, q 2, hc, ?_, ?_, ?_, params_finite.mpr hp, hq 0 (by omega), hq 1 (by omega),
    hq 2 (by omega)⟩
  · unfold getX; rw [hi, hh.corrected.get 0 (by omega)]; rfl
  · unfold getY; rw [hi, hh.corrected.get 1 (by omega)]; rfl
  · unfold getZ; rw [hi, hh.corrected.get 2 (by omega)]; rfl

/-! ### Concrete cases -/

/-- A configuration with twelve different parameters. -/
def Magnetometer.sample : MagnetometerConfig XQ :=
  ⟨.fin 2, .fin 3, .fin 5, .fin 7, .fin 11, .fin 13, .fin 17, .fin 19, .fin 23, .fin 1, .fin (-1), .fin 4⟩

/-- The sensor after a failed and a successful initialisation. -/
def Magnetometer.started : Res AhrsError (Magnetometer XQ) := do
  let g0 ← (new : Res AhrsError (Magnetometer XQ))
  let (_, g1) := init { Magnetometer.sample with yBias := .nan } g0
  let (_, g2) := init Magnetometer.sample g1
  .ok g2

/-- A case of the hypotheses of C42–C45: the sensor is reachable, initialised, and reads the
configuration. -/
example : ∃ g, Magnetometer.started = .ok g ∧ Reachable g ∧ g.initialized = true ∧
    (getConfig g >>= fun c => .ok c.params) = .ok Magnetometer.sample.params := by
  obtain ⟨g0, e, _⟩ := new_ok (F := XQ)
  refine ⟨(init Magnetometer.sample (init { Magnetometer.sample with yBias := .nan } g0).2).2, ?_,
    ⟨g0, e, .step (.init Magnetometer.sample) (.step (.init { Magnetometer.sample with yBias := .nan }) (.refl g0))⟩, ?_⟩
  · unfold Magnetometer.started; rw [e]; rfl
  · have h : (Magnetometer.started >>= fun g => getConfig g >>= fun c => .ok (g.initialized, c.params)) =
        .ok (true, Magnetometer.sample.params) := by decide +kernel
    have h2 : Magnetometer.started = .ok (init Magnetometer.sample (init { Magnetometer.sample with yBias := .nan } g0).2).2 := by
      unfold Magnetometer.started; rw [e]; rfl
    rw [h2, Res.ok_bind, Res.bind_eq_ok] at h
    obtain ⟨c, h3, h4⟩ := h
    have h5 := Except.ok.inj h4
    refine ⟨congrArg Prod.fst h5, ?_⟩
    rw [h3]
    exact congrArg Except.ok (congrArg Prod.snd h5)

/-- A case of `C43_mag_formula`. -/
example : (do
    let g ← Magnetometer.started
    let (r, g') := update (F := XQ) (.fin 2) (.fin 1) (.fin 5) g
    r
    .ok [← getX g', ← getY g', ← getZ g']) = .ok [.fin 29, .fin 36, .fin 68] := by
  decide +kernel

/-- A case of `C45_mag_rejected` and `C45_mag_kept`: the second component is infinite. -/
example : (do
    let g ← Magnetometer.started
    let (_, g1) := update (F := XQ) (.fin 2) (.fin 1) (.fin 5) g
    let (r, g') := update (F := XQ) (.fin 8) .pinf (.fin 5) g1
    .ok (r, ← liftL (g'.raw.getElement 0), ← liftL (g'.raw.getElement 1), ← getX g')) =
    .ok (.error (.err (.LinalgError (.UtilsError .Inf))), .fin 8, .fin 1, .fin 29) := by
  decide +kernel

/-- A case of `C42_mag_half_applied`: the seventh parameter is rejected. -/
example : (do
    let g ← Magnetometer.started
    let (r, g') := setConfig (F := XQ) { MagnetometerConfig.default with yz := .nan } g
    .ok (r, (← getConfig g').params)) =
    .ok (.error (.err (.LinalgError (.UtilsError .Nan))),
      [.fin 1, .fin 1, .fin 1, .fin 0, .fin 0, .fin 0, .fin 17, .fin 19, .fin 23, .fin 1, .fin (-1), .fin 4]) := by
  decide +kernel

/-- A case of `C45_mag_overflow`, in binary32: the product 2·(3·10³⁸) overflows, the sensor then
reports 3·10³⁸ (as rounded) instead of keeping the former value. -/
example : (do
    let g ← (new : Res AhrsError (Magnetometer F32))
    let (r1, g1) := init { MagnetometerConfig.default with xScale := lit 2 } g
    let (r2, g2) := update (lit 1) (lit 0) (lit 0) g1
    let (r3, g3) := update (lit (3 * 10 ^ 38)) (lit 0) (lit 0) g2
    .ok (r1, r2, ← getX g2, r3, ← getX g3)) =
    .ok (.ok (), .ok (), lit 2, .error (.err (.LinalgError (.UtilsError .Inf))), lit (3 * 10 ^ 38)) := by
  decide +kernel

end Verif
