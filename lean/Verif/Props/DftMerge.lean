import Mathlib.Data.Nat.Log
import Verif.Props.Dsp
import Verif.F32

/-
C102: `dftmerge` of `dsp/src/fft.rs`.  It terminates; it reads the samples up to the next power of two; it cannot
succeed for 128 elements or more, because its counter overflows.
-/

set_option linter.unusedSectionVars false
set_option linter.unusedSimpArgs false

namespace Verif
open Scalar

namespace Dsp

/-- The constants the function computes: `exp 0` and the angles are finite, and the angle for the counter 0 is
infinite. -/
class DftConst (F : Type) [Scalar F] : Prop where
  exp_zero : Finite (Scalar.exp (lit 0 : F))
  zero : Finite (lit 0 : F)
  angle : ∀ k, k < 7 → Finite (lit (-2) *ᶠ PI /ᶠ lit ((2 ^ (k + 1) : ℕ) : ℚ) : F)
  angle_zero : isNaN (lit (-2) *ᶠ PI /ᶠ lit ((0 : ℕ) : ℚ) : F) = false ∧
    isInf (lit (-2) *ᶠ PI /ᶠ lit ((0 : ℕ) : ℚ) : F) = true

instance : DftConst F32 where
  exp_zero := by decide +kernel
  zero := by decide +kernel
  angle := by
    intro k hk
    have : ∀ k : Fin 7, Finite (lit (-2) *ᶠ PI /ᶠ lit ((2 ^ (k.val + 1) : ℕ) : ℚ) : F32) := by decide +kernel
    exact this ⟨k, hk⟩
  angle_zero := by decide +kernel

variable {F : Type} [Scalar F]

/-- A loop without state whose body only succeeds or panics. -/
theorem foldRange_unit {ε : Type} (body : Nat → Unit → Res ε Unit) (P : Nat → Prop) [DecidablePred P] (n : Nat)
    (h : ∀ i, i < n → body i () = if P i then .ok () else .error .panic) :
    (∀ i, i < n → P i) ∧ foldRange 0 n body () = .ok () ∨
    (∃ i, i < n ∧ ¬P i) ∧ foldRange 0 n body () = .error .panic := by
  unfold foldRange
  simp only [Nat.sub_zero]
  have key : ∀ len lo, lo + len = n → (∀ i, lo ≤ i → i < n → P i) ∧ foldFrom lo len body () = .ok () ∨
      (∃ i, i < n ∧ ¬P i) ∧ foldFrom lo len body () = .error .panic := by
    intro len
    induction len with
    | zero => intro lo hlo; exact .inl ⟨fun i h1 h2 => by omega, rfl⟩
    | succ len ih =>
      intro lo hlo
      rw [foldFrom_succ, h lo (by omega)]
      by_cases hp : P lo
      · rw [if_pos hp, Res.ok_bind]
        rcases ih (lo + 1) (by omega) with ⟨h1, h2⟩ | h2
        · refine .inl ⟨fun i h3 h4 => ?_, h2⟩
          rcases Nat.eq_or_lt_of_le h3 with h5 | h5
          · exact h5 ▸ hp
          · exact h1 i h5 h4
        · exact .inr h2
      · rw [if_neg hp]
        exact .inr ⟨⟨lo, by omega, hp⟩, rfl⟩
  rcases key n 0 (by omega) with ⟨h1, h2⟩ | h2
  · exact .inl ⟨fun i hi => h1 i (Nat.zero_le _) hi, h2⟩
  · exact .inr h2

theorem sliceGet_eq {ε T : Type} (x : List T) (i : Nat) :
    (∃ v, i < x.length ∧ (sliceGet x i : Res ε T) = .ok v) ∨
    (x.length ≤ i ∧ (sliceGet x i : Res ε T) = .error .panic) := by
  unfold sliceGet
  by_cases h : i < x.length
  · exact .inl ⟨x[i], h, by rw [List.getElem?_eq_getElem h]⟩
  · exact .inr ⟨not_lt.mp h, by rw [List.getElem?_eq_none (not_lt.mp h)]⟩

theorem new_ok {a b : F} (ha : Finite a) (hb : Finite b) : (Complex.new a b : Res UtilsError (Complex F)) =
    .ok ⟨lit 0, lit 0⟩ := by
  unfold Complex.new Utils.isValidValue
  rw [ha.1, ha.2, hb.1, hb.2]
  rfl

theorem expo_ok [D : DftConst F] : ∃ w, exec (⟨lit 0, lit 0⟩ : Complex F) Complex.expo = .ok w := by
  have h1 : Utils.allclose (Scalar.exp (lit 0 : F)) (lit 0) Complex.EPSILON =
      .ok (Scalar.abs (Scalar.exp (lit 0 : F) -ᶠ lit 0) ≤ᶠ Complex.EPSILON) := by
    unfold Utils.allclose Utils.isValidValue
    rw [D.exp_zero.1, D.exp_zero.2, D.zero.1, D.zero.2]
    rfl
  unfold Complex.expo
  simp only [exec, Op.get_bind]
  rw [h1]
  cases hb : (Scalar.abs (Scalar.exp (lit 0 : F) -ᶠ lit 0) ≤ᶠ Complex.EPSILON)
  · exact ⟨_, rfl⟩
  · exact ⟨_, rfl⟩

/-- How many samples the loops for `m` read. -/
def reach (n m : Nat) : Nat := m * ((n + m - 1) / m)

/-- The loops for one even `m`. -/
theorem stage_eq [D : DftConst F] (x : List (Complex F)) {n m : Nat} (hm : 2 ≤ m) (he : m % 2 = 0)
    (hn : 1 ≤ n) (hr : reach n m ≤ 256) (ha : Finite (lit (-2) *ᶠ PI /ᶠ lit (m : ℚ) : F)) :
    dftmergeStage x n m = if reach n m ≤ x.length then .ok () else .error .panic := by
  obtain ⟨w, hw⟩ := expo_ok (F := F)
  unfold dftmergeStage
  rw [new_ok D.zero ha, new_ok D.zero D.zero]
  simp only [Res.mapErr, Res.ok_bind, hw]
  set T := (n + m - 1) / m with hT
  have hT1 : 1 ≤ T := by
    rw [hT, Nat.le_div_iff_mul_le (by omega)]
    omega
  have hrT : reach n m = m * T := rfl
  have hmul : ∀ t, t < T → m * t + m ≤ m * T := fun t ht => by
    calc m * t + m = m * (t + 1) := by ring
      _ ≤ m * T := Nat.mul_le_mul_left m ht
  set body : Nat → Nat → Unit → Res FFTError Unit := fun k t _ => do
        let p ← (u8Add F k (m * t) : Res FFTError Nat)
        let q ← (u8Add F p (m / 2) : Res FFTError Nat)
        let _ ← sliceGet x p
        let b ← .ok ⟨lit 0, lit 0⟩
        let xq ← sliceGet x q
        let _ ← (exec b (Complex.mul xq ⟨lit 0, lit 0⟩)).mapErr .UtilsError
        .ok () with hbody
  have inner : ∀ k t, k < m / 2 → t < T → body k t () =
      if k + m * t + m / 2 < x.length then .ok () else .error .panic := by
    intro k t hk ht
    have h1 := hmul t ht
    rw [hbody]
    simp only
    rw [u8Add_ok (by omega), Res.ok_bind, u8Add_ok (by omega), Res.ok_bind]
    by_cases hq : k + m * t + m / 2 < x.length
    · rw [if_pos hq]
      rcases sliceGet_eq (ε := FFTError) x (k + m * t) with ⟨v, h2, e⟩ | ⟨h2, _⟩
      · rcases sliceGet_eq (ε := FFTError) x (k + m * t + m / 2) with ⟨v', h3, e'⟩ | ⟨h3, _⟩
        · rw [e, Res.ok_bind, Res.ok_bind, e', Res.ok_bind]
          rfl
        · omega
      · omega
    · rw [if_neg hq]
      rcases sliceGet_eq (ε := FFTError) x (k + m * t) with ⟨v, h2, e⟩ | ⟨h2, e⟩
      · rcases sliceGet_eq (ε := FFTError) x (k + m * t + m / 2) with ⟨v', h3, e'⟩ | ⟨h3, e'⟩
        · omega
        · rw [e, Res.ok_bind, Res.ok_bind, e']
          rfl
      · rw [e]
        rfl
  have outer : ∀ k, k < m / 2 → foldRange 0 T (body k) () =
      if k + m * (T - 1) + m / 2 < x.length then .ok () else .error .panic := by
    intro k hk
    rcases foldRange_unit (body k) (fun t => k + m * t + m / 2 < x.length) T (fun t ht => inner k t hk ht) with
      ⟨h1, h2⟩ | ⟨⟨t, h1, h3⟩, h2⟩
    · rw [h2, if_pos (h1 (T - 1) (by omega))]
    · rw [h2, if_neg]
      intro h4
      have : m * t ≤ m * (T - 1) := Nat.mul_le_mul_left m (by omega)
      omega
  have hlast : m * (T - 1) + m = m * T := by
    calc m * (T - 1) + m = m * (T - 1 + 1) := by ring
      _ = m * T := by rw [Nat.sub_add_cancel hT1]
  rcases foldRange_unit (fun k (_ : Unit) => foldRange 0 T (body k) ())
      (fun k => k + m * (T - 1) + m / 2 < x.length) (m / 2) outer with ⟨h1, h2⟩ | ⟨⟨k, h1, h3⟩, h2⟩
  · have h4 := h1 (m / 2 - 1) (by omega)
    rw [if_pos (by omega)]
    exact h2
  · rw [if_neg (by omega)]
    exact h2

theorem stage_zero [D : DftConst F] (x : List (Complex F)) (n : Nat) :
    dftmergeStage x n 0 = .error (.err (.UtilsError .Inf)) := by
  unfold dftmergeStage Complex.new Utils.isValidValue
  rw [D.angle_zero.1, D.angle_zero.2, D.zero.1, D.zero.2]
  rfl

/-- The samples needed for `n` elements. -/
theorem reach_le {n k : Nat} (hn : 2 ^ k ≤ n) : reach n (2 ^ k) ≤ 2 ^ Nat.clog 2 n := by
  unfold reach
  have h1 : n ≤ 2 ^ Nat.clog 2 n := Nat.le_pow_clog (by omega) n
  have hk : k ≤ Nat.clog 2 n := by
    rcases Nat.lt_or_ge (Nat.clog 2 n) k with h | h
    · exact absurd (Nat.pow_lt_pow_right (a := 2) (by omega) h) (by omega)
    · exact h
  obtain ⟨d, hd⟩ := Nat.exists_eq_add_of_le hk
  have hp : 0 < 2 ^ k := by positivity
  have h2 : (n + 2 ^ k - 1) / 2 ^ k ≤ 2 ^ d := by
    rw [← Nat.lt_succ_iff, Nat.div_lt_iff_lt_mul hp]
    rw [hd, pow_add] at h1
    have : (2 ^ d + 1) * 2 ^ k = 2 ^ k * 2 ^ d + 2 ^ k := by ring
    rw [Nat.succ_eq_add_one, this]
    omega
  calc 2 ^ k * ((n + 2 ^ k - 1) / 2 ^ k) ≤ 2 ^ k * 2 ^ d := Nat.mul_le_mul_left _ h2
    _ = 2 ^ Nat.clog 2 n := by rw [hd, pow_add]

theorem reach_top {n k : Nat} (h1 : 2 ^ k ≤ n) (h2 : n < 2 ^ (k + 1)) : reach n (2 ^ k) = 2 ^ Nat.clog 2 n := by
  refine le_antisymm (reach_le h1) ?_
  have hp : 0 < 2 ^ k := by positivity
  unfold reach
  rcases Nat.eq_or_lt_of_le h1 with h | h
  · rw [← h, Nat.clog_pow 2 k (by omega)]
    have : 1 ≤ (2 ^ k + 2 ^ k - 1) / 2 ^ k := by
      rw [Nat.le_div_iff_mul_le hp]
      omega
    calc 2 ^ k = 2 ^ k * 1 := (mul_one _).symm
      _ ≤ _ := Nat.mul_le_mul_left _ this
  · have h3 : Nat.clog 2 n ≤ k + 1 := Nat.clog_le_of_le_pow h2.le
    have h4 : 2 ≤ (n + 2 ^ k - 1) / 2 ^ k := by
      rw [Nat.le_div_iff_mul_le hp]
      omega
    calc 2 ^ Nat.clog 2 n ≤ 2 ^ (k + 1) := Nat.pow_le_pow_right (by omega) h3
      _ = 2 ^ k * 2 := pow_succ 2 k
      _ ≤ _ := Nat.mul_le_mul_left _ h4

theorem clog_le_256 {n : Nat} (h : n ≤ 255) : 2 ^ Nat.clog 2 n ≤ 256 := by
  have : Nat.clog 2 n ≤ 8 := Nat.clog_le_of_le_pow (by omega)
  calc 2 ^ Nat.clog 2 n ≤ 2 ^ 8 := Nat.pow_le_pow_right (by omega) this
    _ = 256 := by norm_num

/-- The result of the loop when it has come to `2 ^ k`. -/
theorem loop_eq [D : DftConst F] (self : FFT F) (x : List (Complex F)) (hn : self.n ≤ 255) :
    ∀ j k fuel, j + k = 7 → 1 ≤ k → j + 2 < fuel → dftmergeLoop self x fuel (2 ^ k) = some (
      if self.n < 2 ^ k then .ok ()
      else if x.length < 2 ^ Nat.clog 2 self.n then .error .panic
      else if self.n < 128 then .ok ()
      else if overflowChecks F then .error .panic else .error (.err (.UtilsError .Inf))) := by
  intro j
  induction j with
  | zero =>
    intro k fuel hk _ hf
    obtain rfl : k = 7 := by omega
    obtain ⟨fuel, rfl⟩ : ∃ f', fuel = f' + 2 := ⟨fuel - 2, by omega⟩
    show (if 2 ^ 7 ≤ self.n then _ else _) = _
    by_cases h : 2 ^ 7 ≤ self.n
    · rw [if_pos h, if_neg (by omega)]
      have hrt := reach_top h (by omega)
      have hc := clog_le_256 hn
      rw [stage_eq x (by norm_num) (by norm_num) (by omega) (hrt.le.trans hc) (D.angle 6 (by omega)), hrt]
      by_cases hx : 2 ^ Nat.clog 2 self.n ≤ x.length
      · rw [if_pos hx, if_neg (by omega), if_neg (by omega)]
        unfold u8Double
        rw [if_neg (by norm_num)]
        cases ho : overflowChecks F
        · simp only [Bool.false_eq_true, if_false]
          show (if 0 ≤ self.n then _ else _) = _
          rw [if_pos (Nat.zero_le _), show 2 * 2 ^ 7 % 256 = 0 by norm_num, stage_zero]
        · simp only [if_true]
      · rw [if_neg hx, if_pos (by omega)]
    · rw [if_neg h, if_pos (by omega)]
  | succ j ih =>
    intro k fuel hk hk1 hf
    obtain ⟨fuel, rfl⟩ : ∃ f', fuel = f' + 1 := ⟨fuel - 1, by omega⟩
    show (if 2 ^ k ≤ self.n then _ else _) = _
    by_cases h : 2 ^ k ≤ self.n
    · rw [if_pos h, if_neg (by omega)]
      obtain ⟨l, rfl⟩ : ∃ l, k = l + 1 := ⟨k - 1, by omega⟩
      have hc := clog_le_256 hn
      have hrl := reach_le h
      have hp : 2 ≤ 2 ^ (l + 1) := by
        rw [pow_succ]
        have : 1 ≤ 2 ^ l := Nat.one_le_two_pow
        omega
      rw [stage_eq x hp (by rw [pow_succ]; omega) (by omega) (by omega) (D.angle l (by omega))]
      by_cases hx : reach self.n (2 ^ (l + 1)) ≤ x.length
      · rw [if_pos hx]
        have hd : (u8Double F (2 ^ (l + 1)) : Res FFTError Nat) = .ok (2 ^ (l + 1 + 1)) := by
          unfold u8Double
          have : 2 * 2 ^ (l + 1) < 256 := by
            have : 2 ^ (l + 1) ≤ 2 ^ 6 := Nat.pow_le_pow_right (by omega) (by omega)
            omega
          rw [if_pos this, pow_succ _ (l + 1), mul_comm]
        rw [hd]
        simp only
        rw [ih (l + 1 + 1) fuel (by omega) (by omega) (by omega)]
        by_cases h2 : self.n < 2 ^ (l + 1 + 1)
        · rw [if_pos h2, if_neg (by rw [← reach_top h h2]; omega), if_pos]
          have : 2 ^ (l + 1 + 1) ≤ 2 ^ 7 := Nat.pow_le_pow_right (by omega) (by omega)
          omega
        · rw [if_neg h2]
      · rw [if_neg hx, if_pos (by omega)]
    · rw [if_neg h, if_pos (by omega)]

/-- C102: `dftmerge` of an object with `n` elements on a slice of samples.  It ends, after at most eight rounds.
With fewer than two elements it succeeds.  Otherwise it panics if the slice is shorter than the least power of two
that is at least `n`; if it is not, it succeeds for `n` below 128, whatever the samples are, and for larger `n`
it fails: the counter overflows, which is a panic with overflow checks and the error `Inf` without. -/
theorem C102_dftmerge [D : DftConst F] (self : FFT F) (x : List (Complex F)) (hn : self.n ≤ 255) {fuel : Nat}
    (hf : 9 ≤ fuel) : ∃ r, dftmergeLoop self x fuel 2 = some r ∧
      (self.n < 2 → r = .ok ()) ∧
      (2 ≤ self.n → x.length < 2 ^ Nat.clog 2 self.n → r = .error .panic) ∧
      (2 ≤ self.n → self.n < 128 → 2 ^ Nat.clog 2 self.n ≤ x.length → r = .ok ()) ∧
      (128 ≤ self.n → 2 ^ Nat.clog 2 self.n ≤ x.length →
        (overflowChecks F = true → r = .error .panic) ∧
        (overflowChecks F = false → r = .error (.err (.UtilsError .Inf)))) := by
  have h := loop_eq self x hn 6 1 fuel rfl (by omega) (by omega)
  rw [pow_one] at h
  refine ⟨_, h, fun h1 => if_pos h1, fun h1 h2 => ?_, fun h1 h2 h3 => ?_, fun h1 h2 => ⟨fun h3 => ?_, fun h3 => ?_⟩⟩
  · rw [if_neg (by omega), if_pos h2]
  · rw [if_neg (by omega), if_neg (by omega), if_pos h2]
  · rw [if_neg (by omega), if_neg (by omega), if_neg (by omega), if_pos h3]
  · rw [if_neg (by omega), if_neg (by omega), if_neg (by omega), if_neg (by simp [h3])]

/-- Beside `C102_dftmerge`: the sixteen elements that `new` prepares, with enough samples and with one too few. -/
example (o : FFT F32) : dftmergeLoop o.new (List.replicate 16 ⟨lit 1, lit 2⟩) 9 2 = some (.ok ()) ∧
    dftmergeLoop o.new (List.replicate 15 ⟨lit 1, lit 2⟩) 9 2 = some (.error .panic) := by
  have hc : Nat.clog 2 16 = 4 := by
    rw [show 16 = 2 ^ 4 by norm_num]
    exact Nat.clog_pow 2 4 (by omega)
  constructor
  · obtain ⟨r, h, -, -, h1, -⟩ := C102_dftmerge o.new (List.replicate 16 ⟨lit 1, lit 2⟩)
      (show 16 ≤ 255 by norm_num) (le_refl 9)
    rw [h, h1 (show 2 ≤ 16 by norm_num) (show 16 < 128 by norm_num)]
    show 2 ^ Nat.clog 2 16 ≤ _
    rw [hc, List.length_replicate]
    norm_num
  · obtain ⟨r, h, -, h1, -⟩ := C102_dftmerge o.new (List.replicate 15 ⟨lit 1, lit 2⟩)
      (show 16 ≤ 255 by norm_num) (le_refl 9)
    rw [h, h1 (show 2 ≤ 16 by norm_num)]
    show _ < 2 ^ Nat.clog 2 16
    rw [hc, List.length_replicate]
    norm_num

/-- Beside `C102_dftmerge`: 128 elements, with and without overflow checks. -/
example : dftmergeLoop (⟨128, fun _ => lit 0⟩ : FFT F32) (List.replicate 128 ⟨lit 1, lit 2⟩) 9 2 =
      some (.error .panic) ∧
    @dftmergeLoop F32 (releaseScalar F32) ⟨128, fun _ => lit 0⟩
      (List.replicate 128 ⟨lit 1, lit 2⟩) 9 2 = some (.error (.err (.UtilsError .Inf))) := by
  have hc : Nat.clog 2 128 = 7 := by
    rw [show 128 = 2 ^ 7 by norm_num]
    exact Nat.clog_pow 2 7 (by omega)
  constructor
  · obtain ⟨r, h, -, -, -, h1⟩ := C102_dftmerge (⟨128, fun _ => lit 0⟩ : FFT F32)
      (List.replicate 128 ⟨lit 1, lit 2⟩) (show 128 ≤ 255 by norm_num) (le_refl 9)
    rw [h, (h1 (le_refl 128) (by
      show 2 ^ Nat.clog 2 128 ≤ _
      rw [hc, List.length_replicate]
      norm_num)).1 rfl]
  · have D : @DftConst F32 (releaseScalar F32) :=
      @DftConst.mk F32 (releaseScalar F32) (DftConst.exp_zero (F := F32)) (DftConst.zero (F := F32))
        (DftConst.angle (F := F32)) (DftConst.angle_zero (F := F32))
    obtain ⟨r, h, -, -, -, h1⟩ := @C102_dftmerge F32 (releaseScalar F32) D
      ⟨128, fun _ => lit 0⟩ (List.replicate 128 ⟨lit 1, lit 2⟩) (show 128 ≤ 255 by norm_num) 9 (le_refl 9)
    rw [h, (h1 (le_refl 128) (by
      show 2 ^ Nat.clog 2 128 ≤ _
      rw [hc, List.length_replicate]
      norm_num)).2 rfl]

end Dsp
end Verif
