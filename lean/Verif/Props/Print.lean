import Verif.Model.Print
import Verif.Props.Ar
import Verif.Props.Uninit
import Verif.Props.TempDftRounded
import Verif.Props.AhrsTestRun

/-
Claims about what is written to the standard output (C109).
-/

namespace Verif
open Scalar

/-! ### Decimal numbers -/

/-- The number `z / 10ᵖ` with `p` decimals. -/
def decimal (p z : Nat) : List Char :=
  textNat (z / 10 ^ p) ++ '.' :: (List.replicate (p - (textNat (z % 10 ^ p)).length) '0' ++ textNat (z % 10 ^ p))

/-- What Rust says about `{:.p}`: a finite number is written in decimal, rounded to nearest, with a minus sign for
negative numbers, also for those that are rounded to zero.  (Of the two zeros only one is written with a sign, and
which one of two equally near decimals is taken does not matter here.) -/
class TextLaw (F : Type) [Scalar F] [Rounded F] [Text F] : Prop where
  near : ∀ (p : Nat) {x : F}, 1 ≤ p → Finite x → ∃ z : Nat, |10 ^ p * |⟪x⟫| - z| ≤ 1 / 2 ∧
    (0 ≤ ⟪x⟫ ∧ Text.fixed p x = decimal p z ∨ ⟪x⟫ ≤ 0 ∧ Text.fixed p x = '-' :: decimal p z)

/-- Formatting of a binary32 number; ties go to the even digit. -/
def F32.fixed (p : Nat) (x : F32) : List Char :=
  match x.val with
  | .fin q => (if q < 0 then ['-'] else []) ++ decimal p (F32.nearest (10 ^ p * |q|)).toNat
  | .pinf => "inf".toList
  | .ninf => "-inf".toList
  | .nan => "NaN".toList

instance : Text F32 := ⟨F32.fixed⟩
instance : Text F32T := ⟨F32.fixed⟩

theorem F32.fixed_law (p : Nat) {x : F32} (hx : Finite x) : ∃ z : Nat, |10 ^ p * |x.toReal| - z| ≤ 1 / 2 ∧
    (0 ≤ x.toReal ∧ F32.fixed p x = decimal p z ∨ x.toReal ≤ 0 ∧ F32.fixed p x = '-' :: decimal p z) := by
  obtain ⟨v⟩ := x
  cases v with
  | fin q =>
    have h0 : (0 : ℚ) ≤ 10 ^ p * |q| := by positivity
    have h1 := F32.nearest_nonneg h0
    have h2 := F32.nearest_err (10 ^ p * |q|)
    have e : ((F32.nearest (10 ^ p * |q|)).toNat : ℚ) = (F32.nearest (10 ^ p * |q|) : ℚ) := by
      rw [← Int.cast_natCast, Int.toNat_of_nonneg h1]
    refine ⟨(F32.nearest (10 ^ p * |q|)).toNat, ?_, ?_⟩
    · rw [F32.toReal_fin, abs_sub_comm]
      rw [← e] at h2
      have : abs (((F32.nearest (10 ^ p * |q|)).toNat : ℝ) - 10 ^ p * |(q : ℝ)|) ≤ 1 / 2 := by
        have h3 : ((abs (((F32.nearest (10 ^ p * |q|)).toNat : ℚ) - 10 ^ p * |q|) : ℚ) : ℝ) ≤ ((1 / 2 : ℚ) : ℝ) := by exact_mod_cast h2
        push_cast at h3
        exact h3
      exact this
    · rw [F32.toReal_fin]
      rcases lt_or_ge q 0 with hq | hq
      · exact .inr ⟨by exact_mod_cast hq.le, by simp [F32.fixed, hq]⟩
      · exact .inl ⟨by exact_mod_cast hq, by simp [F32.fixed, not_lt.mpr hq]⟩
  | pinf => exact absurd hx.2 (by decide)
  | ninf => exact absurd hx.2 (by decide)
  | nan => exact absurd hx.1 (by decide)

instance : TextLaw F32 := ⟨fun p _ _ hx => F32.fixed_law p hx⟩
instance : TextLaw F32T := ⟨fun p x _ hx => F32.fixed_law (x := x) p hx⟩

theorem textNat_read (n : Nat) : Nat.ofDigitChars 10 (textNat n) 0 = n :=
  Nat.ofDigitChars_toDigits (by norm_num) (by norm_num)

theorem textNat_digit {n : Nat} {c : Char} (h : c ∈ textNat n) : c.isDigit = true :=
  Nat.isDigit_of_mem_toDigits (by norm_num) (by norm_num) h

/-- Texts that end at the first `c`. -/
theorem split_unique {c : Char} : ∀ {a a' b b' : List Char}, c ∉ a → c ∉ a' → a ++ c :: b = a' ++ c :: b' → a = a' ∧ b = b'
  | [], [], b, b', _, _, h => ⟨rfl, by simpa using h⟩
  | [], x :: a', b, b', _, h2, h => by
    simp only [List.nil_append, List.cons_append, List.cons.injEq] at h
    exact absurd (h.1 ▸ List.mem_cons_self) h2
  | x :: a, [], b, b', h1, _, h => by
    simp only [List.nil_append, List.cons_append, List.cons.injEq] at h
    exact absurd (h.1 ▸ List.mem_cons_self) h1
  | x :: a, y :: a', b, b', h1, h2, h => by
    simp only [List.cons_append, List.cons.injEq] at h
    obtain ⟨e1, e2⟩ := split_unique (a := a) (a' := a') (fun hc => h1 (List.mem_cons_of_mem _ hc))
      (fun hc => h2 (List.mem_cons_of_mem _ hc)) h.2
    exact ⟨by rw [h.1, e1], e2⟩

theorem decimal_chars {p z : Nat} {c : Char} (h : c ∈ decimal p z) : c.isDigit = true ∨ c = '.' := by
  unfold decimal at h
  simp only [List.mem_append, List.mem_cons, List.mem_replicate] at h
  rcases h with h | h | ⟨-, h⟩ | h
  · exact .inl (textNat_digit h)
  · exact .inr h
  · exact .inl (by rw [h]; rfl)
  · exact .inl (textNat_digit h)

/-- A decimal number determines its value. -/
theorem decimal_inj {p z z' : Nat} (h : decimal p z = decimal p z') : z = z' := by
  have nd : ∀ n, '.' ∉ textNat n := fun n hn => by
    have := textNat_digit hn
    exact absurd this (by decide)
  obtain ⟨h1, h2⟩ := split_unique (nd _) (nd _) h
  have e1 := congrArg (Nat.ofDigitChars 10 · 0) h1
  have e2 := congrArg (Nat.ofDigitChars 10 · 0) h2
  simp only [Nat.ofDigitChars_append, Nat.ofDigitChars_replicate_zero, textNat_read, Nat.mul_zero] at e1 e2
  rw [← Nat.div_add_mod z (10 ^ p), ← Nat.div_add_mod z' (10 ^ p), e1, e2]

variable {F : Type} [Scalar F]

section law
variable [Rounded F] [Text F] [TextLaw F]

/-- A number as it is written ends before the next tabulator or newline. -/
theorem fixed_chars {p : Nat} (hp : 1 ≤ p) {x : F} (hx : Finite x) : '\n' ∉ Text.fixed p x ∧ '\t' ∉ Text.fixed p x := by
  obtain ⟨z, -, h⟩ := TextLaw.near p hp hx
  have h1 : '\n' ∉ decimal p z := fun h => absurd (decimal_chars h) (by decide)
  have h2 : '\t' ∉ decimal p z := fun h => absurd (decimal_chars h) (by decide)
  rcases h with ⟨-, h⟩ | ⟨-, h⟩ <;> rw [h]
  · exact ⟨h1, h2⟩
  · exact ⟨by simp [h1], by simp [h2]⟩

/-- Numbers that are written alike differ by at most one unit of the last place. -/
theorem fixed_near {p : Nat} (hp : 1 ≤ p) {x y : F} (hx : Finite x) (hy : Finite y) (h : Text.fixed p x = Text.fixed p y) :
    |⟪x⟫ - ⟪y⟫| ≤ 1 / 10 ^ p ∧ 0 ≤ ⟪x⟫ * ⟪y⟫ := by
  obtain ⟨z, h1, hz⟩ := TextLaw.near p hp hx
  obtain ⟨w, h2, hw⟩ := TextLaw.near p hp hy
  have np : (0 : ℝ) < 10 ^ p := by positivity
  have nm : ∀ z, '-' ∉ decimal p z := fun z h => absurd (decimal_chars h) (by decide)
  have key : z = w → abs (10 ^ p * |⟪x⟫| - 10 ^ p * |⟪y⟫|) ≤ 1 := fun e => by
    subst e
    rw [abs_le] at h1 h2 ⊢
    constructor <;> linarith
  have fin : abs (10 ^ p * |⟪x⟫| - 10 ^ p * |⟪y⟫|) ≤ 1 → |⟪x⟫| - |⟪y⟫| = ⟪x⟫ - ⟪y⟫ ∨ |⟪x⟫| - |⟪y⟫| = -(⟪x⟫ - ⟪y⟫) → |⟪x⟫ - ⟪y⟫| ≤ 1 / 10 ^ p := fun h e => by
    rw [← mul_sub, abs_mul, abs_of_pos np] at h
    rw [le_div_iff₀' np]
    rcases e with e | e <;> rw [e] at h
    · exact h
    · rwa [abs_neg] at h
  rcases hz with ⟨sx, hz⟩ | ⟨sx, hz⟩ <;> rcases hw with ⟨sy, hw⟩ | ⟨sy, hw⟩ <;> rw [hz, hw] at h
  · exact ⟨fin (key (decimal_inj h)) (.inl (by rw [abs_of_nonneg sx, abs_of_nonneg sy])), mul_nonneg sx sy⟩
  · exact absurd (h ▸ List.mem_cons_self) (nm z)
  · exact absurd (h.symm ▸ List.mem_cons_self) (nm w)
  · refine ⟨fin (key (decimal_inj (List.cons.inj h).2)) (.inr ?_), mul_nonneg_of_nonpos_of_nonpos sx sy⟩
    rw [abs_of_nonpos sx, abs_of_nonpos sy]
    ring

/-- A number close to an integer is written as that integer. -/
theorem fixed_int {p : Nat} (hp : 1 ≤ p) {x : F} (hx : Finite x) {k : ℤ} (h : 10 ^ p * |⟪x⟫ - k| < 1 / 2) :
    Text.fixed p x = (if k < 0 then ['-'] else []) ++ decimal p (k.natAbs * 10 ^ p) ∨
      k = 0 ∧ Text.fixed p x = '-' :: decimal p 0 := by
  obtain ⟨z, h1, hz⟩ := TextLaw.near p hp hx
  have np : (1 : ℝ) ≤ 10 ^ p := one_le_pow₀ (by norm_num)
  have hd : abs (10 ^ p * |⟪x⟫| - 10 ^ p * |(k : ℝ)|) < 1 / 2 := by
    rw [← mul_sub, abs_mul, abs_of_nonneg (by positivity : (0 : ℝ) ≤ 10 ^ p)]
    exact lt_of_le_of_lt (mul_le_mul_of_nonneg_left (abs_abs_sub_abs_le _ _) (by positivity)) h
  have e : z = k.natAbs * 10 ^ p := by
    have hz1 : |(z : ℝ) - ((k.natAbs * 10 ^ p : ℕ) : ℝ)| < 1 := by
      have ek : ((k.natAbs * 10 ^ p : ℕ) : ℝ) = 10 ^ p * |(k : ℝ)| := by
        push_cast
        rw [Nat.cast_natAbs, Int.cast_abs]
        ring
      rw [ek, abs_lt]
      rw [abs_le] at h1
      rw [abs_lt] at hd
      constructor <;> linarith
    have : |(z : ℤ) - ((k.natAbs * 10 ^ p : ℕ) : ℤ)| < 1 := by exact_mod_cast hz1
    have := Int.abs_lt_one_iff.mp this
    omega
  have hk : |⟪x⟫ - k| < 1 / 2 := by
    have := mul_le_mul_of_nonneg_right np (abs_nonneg (⟪x⟫ - k))
    linarith
  rw [abs_lt] at hk
  subst e
  rcases hz with ⟨sx, hz⟩ | ⟨sx, hz⟩
  · left
    have : ¬k < 0 := fun hk0 => by
      have : (k : ℝ) ≤ -1 := by exact_mod_cast Int.le_sub_one_of_lt hk0
      linarith
    rw [hz, if_neg this, List.nil_append]
  · have : k ≤ 0 := by
      by_contra hk0
      have : (1 : ℝ) ≤ k := by exact_mod_cast Int.lt_iff_add_one_le.mp (not_le.mp hk0)
      linarith
    rcases this.lt_or_eq with hk0 | hk0
    · left
      rw [hz, if_pos hk0]
      rfl
    · right
      refine ⟨hk0, ?_⟩
      rw [hz, hk0]
      simp

end law

/-! ### The texts -/

/-- A loop that writes. -/
theorem forRange_say {ε : Type} {body : Nat → Op ε (List Char) Unit} {g : Nat → List Char} {n : Nat}
    (h : ∀ i, i < n → ∀ out, body i out = (.ok (), out ++ g i)) (out : List Char) :
    forRange 0 n body out = (.ok (), out ++ ((List.range n).map g).flatten) := by
  have := forRange_ok body (fun k => out ++ ((List.range k).map g).flatten) 0 n (Nat.zero_le _) fun i _ hi => by
    rw [h i hi, List.range_succ]
    simp
  simpa using this

section print
variable [Text F]

/-- C109: `print` of a vector writes one line per element, and an empty line. -/
theorem C109_vec {v : Vec F} {n : Nat} {f : Nat → F} (hv : VecIs v n f) (out : List Char) :
    v.print out = (.ok (), out ++ ((List.range n).map fun i => Text.fixed 3 (f i) ++ ['\n']).flatten ++ ['\n']) := by
  have hr : v.rows = n := hv.rows_eq
  unfold Vec.print
  refine (Op.bind_ok (forRange_say (g := fun i => Text.fixed 3 (f i) ++ ['\n']) (n := v.rows) (fun i hi out => ?_) out) _).trans ?_
  · refine (Op.bind_ok (s' := out) (a := f i) ?_ _).trans rfl
    show (v.getElement i, out) = _
    rw [hv.get i (hr ▸ hi)]
  · rw [hr]
    rfl

/-- C109: `print` of a matrix writes one line per row, with a tabulator after every element, and an empty line. -/
theorem C109_mat {m : Mat F} {r c : Nat} {f : Nat → Nat → F} (hm : MatIs m r c f) (out : List Char) :
    m.print out = (.ok (), out ++ ((List.range r).map fun i => ((List.range c).map fun j => Text.fixed 3 (f i j) ++ ['\t']).flatten ++
      ['\n']).flatten ++ ['\n']) := by
  have hr : m.rows = r := hm.rows_eq
  have hc : m.cols = c := hm.cols_eq
  unfold Mat.print
  refine (Op.bind_ok (forRange_say (g := fun i => ((List.range c).map fun j => Text.fixed 3 (f i j) ++ ['\t']).flatten ++ ['\n']) (n := m.rows)
    (fun i hi out => ?_) out) _).trans ?_
  · refine (Op.bind_ok (forRange_say (g := fun j => Text.fixed 3 (f i j) ++ ['\t']) (n := m.cols) (fun j hj out => ?_) out) _).trans ?_
    · refine (Op.bind_ok (s' := out) (a := f i j) ?_ _).trans rfl
      show (m.getElement i j, out) = _
      rw [hm.get i j (hr ▸ hi) (hc ▸ hj)]
    · rw [hc]
      show (_, _) = _
      simp
  · rw [hr]
    rfl

/-- C109: `print` of an object that is not initialised fails with `NotInit` and writes nothing, if the object still has
elements; a new object is printed as an empty line. -/
theorem C109_uninit {v : Vec F} {m : Mat F} (hv : v.isInitialized = false) (hm : m.isInitialized = false) (out : List Char) :
    v.print out = (if v.rows = 0 then (.ok (), out ++ ['\n']) else (.error (.err .NotInit), out)) ∧
    m.print out = (if m.rows = 0 ∨ m.cols = 0 then (.ok (), out ++ List.replicate (m.rows + 1) '\n')
      else (.error (.err .NotInit), out)) ∧
    (Vec.new : Vec F).print out = (.ok (), out ++ ['\n']) ∧ (Mat.new : Mat F).print out = (.ok (), out ++ ['\n']) := by
  have hg : ∀ i j, m.getElement i j = .error (.err .NotInit) := fun i j => (C86_mat_reads hm m i j (lit 0)).2.2.1
  refine ⟨?_, ?_, rfl, rfl⟩
  · split
    · rename_i h
      unfold Vec.print
      rw [h]
      rfl
    · rename_i h
      obtain ⟨k, hk⟩ := Nat.exists_eq_succ_of_ne_zero h
      unfold Vec.print
      rw [hk]
      refine Op.bind_err (e := .err LinalgError.NotInit) (s' := out) ?_ _
      refine Op.bind_err (e := .err LinalgError.NotInit) (s' := out) ?_ _
      refine Op.bind_err (e := .err LinalgError.NotInit) (s' := out) ?_ _
      show (v.getElement 0, out) = _
      rw [show v.getElement 0 = .error (.err .NotInit) from (C86_vec_reads hv v 0 (lit 0)).2.1]
  · split
    · rename_i h
      unfold Mat.print
      refine (Op.bind_ok (forRange_say (g := fun _ => ['\n']) (n := m.rows) (fun i hi out => ?_) out) _).trans ?_
      · have hc : m.cols = 0 := by omega
        rw [hc]
        rfl
      · have : ((List.range m.rows).map fun _ => ['\n']).flatten = List.replicate m.rows '\n' := by
          generalize m.rows = k
          induction k with
          | zero => rfl
          | succ k ih => rw [List.range_succ, List.map_append, List.flatten_append, ih, List.replicate_succ']; rfl
        rw [this, List.replicate_succ', ← List.append_assoc]
        rfl
    · rename_i h
      obtain ⟨k, hk⟩ := Nat.exists_eq_succ_of_ne_zero (fun h0 => h (.inl h0))
      obtain ⟨l, hl⟩ := Nat.exists_eq_succ_of_ne_zero (fun h0 => h (.inr h0))
      unfold Mat.print
      rw [hk, hl]
      refine Op.bind_err (e := .err LinalgError.NotInit) (s' := out) ?_ _
      refine Op.bind_err (e := .err LinalgError.NotInit) (s' := out) ?_ _
      refine Op.bind_err (e := .err LinalgError.NotInit) (s' := out) ?_ _
      refine Op.bind_err (e := .err LinalgError.NotInit) (s' := out) ?_ _
      refine Op.bind_err (e := .err LinalgError.NotInit) (s' := out) ?_ _
      show (m.getElement 0 0, out) = _
      rw [hg]

/-- C109: `print_attitude` writes the attitude that `get_attitude` returns, as `print` does; where that fails, it fails
alike and writes nothing. -/
theorem C109_attitude [ScalarLawful F] {s : AR F} (hs : AR.Reachable s) (out : List Char) :
    (∀ v, AR.getAttitude s = .ok v → s.printAttitude out = (.ok (), (v.print out).2)) ∧
    (∀ e, AR.getAttitude s = .error e → s.printAttitude out = (.error e, out)) := by
  rcases AR.Reachable.cases hs with h | h | ⟨f, h⟩
  · have e : AR.getAttitude s = .error (.err .ARFilterNotInit) := by unfold AR.getAttitude; rw [h.initialized]; rfl
    rw [e]
    refine ⟨fun v h => (by cases h), fun x hx => ?_⟩
    cases hx
    unfold AR.printAttitude
    rw [h.initialized]
    rfl
  · have e : AR.getAttitude s = .error (.err .ARFilterNotInit) := by unfold AR.getAttitude; rw [h.initialized]; rfl
    rw [e]
    refine ⟨fun v h => (by cases h), fun x hx => ?_⟩
    cases hx
    unfold AR.printAttitude
    rw [h.initialized]
    rfl
  · obtain ⟨v, e, hv⟩ := h.getAttitude
    rw [e]
    refine ⟨fun w hw => ?_, fun x hx => (by cases hx)⟩
    cases hw
    unfold AR.printAttitude
    rw [h.initialized, C109_vec hv]
    show Op.mapErr _ s.attitude.print out = _
    unfold Op.mapErr
    rw [C109_vec h.attitude]
    rfl

end print

/-! ### Reading the text back -/

/-- Texts that each end with a separator. -/
theorem ended_inj {c : Char} : ∀ {L L' : List (List Char)}, (∀ a ∈ L, c ∉ a) → (∀ a ∈ L', c ∉ a) →
    (L.map (· ++ [c])).flatten = (L'.map (· ++ [c])).flatten → L = L'
  | [], [], _, _, _ => rfl
  | [], a :: L', _, _, h => by simp at h
  | a :: L, [], _, _, h => by simp at h
  | a :: L, a' :: L', h1, h2, h => by
    simp only [List.map_cons, List.flatten_cons, List.append_assoc, List.singleton_append] at h
    obtain ⟨e1, e2⟩ := split_unique (h1 a List.mem_cons_self) (h2 a' List.mem_cons_self) h
    rw [e1, ended_inj (fun x hx => h1 x (List.mem_cons_of_mem _ hx)) (fun x hx => h2 x (List.mem_cons_of_mem _ hx)) e2]

/-- Lists given by functions on ranges. -/
theorem range_map_inj {α : Type} {n m : Nat} {f g : Nat → α} (h : (List.range n).map f = (List.range m).map g) :
    n = m ∧ ∀ i, i < n → f i = g i := by
  have hl : n = m := by simpa using congrArg List.length h
  refine ⟨hl, fun i hi => ?_⟩
  subst hl
  have := congrArg (·[i]?) h
  simpa [hi] using this

section read
variable [Rounded F] [Text F] [TextLaw F] (out : List Char)

/-- C109: the text shows the number of elements, and each element up to a thousandth, with its sign: vectors with the same
text have the same number of elements, and elements of the same sign that differ by at most 0.001. -/
theorem C109_read_vec {v w : Vec F} {n m : Nat} {f g : Nat → F} (hv : VecIs v n f) (hw : VecIs w m g)
    (hf : ∀ i, i < n → Finite (f i)) (hg : ∀ i, i < m → Finite (g i)) (h : (v.print out).2 = (w.print out).2) :
    n = m ∧ ∀ i, i < n → |⟪f i⟫ - ⟪g i⟫| ≤ 1 / 1000 ∧ 0 ≤ ⟪f i⟫ * ⟪g i⟫ := by
  rw [C109_vec hv, C109_vec hw] at h
  have h := List.append_cancel_right h
  have h := List.append_cancel_left h
  have e : ∀ n (f : Nat → F), ((List.range n).map fun i => Text.fixed 3 (f i) ++ ['\n']) =
      ((List.range n).map fun i => Text.fixed 3 (f i)).map (· ++ ['\n']) := fun n f => by rw [List.map_map]; rfl
  rw [e, e] at h
  have nl : ∀ n (f : Nat → F), (∀ i, i < n → Finite (f i)) → ∀ a ∈ (List.range n).map fun i => Text.fixed 3 (f i), '\n' ∉ a := fun n f hf a ha => by
    obtain ⟨i, hi, rfl⟩ := List.mem_map.mp ha
    exact (fixed_chars (by norm_num) (hf i (List.mem_range.mp hi))).1
  obtain ⟨hn, hi⟩ := range_map_inj (ended_inj (nl n f hf) (nl m g hg) h)
  refine ⟨hn, fun i h1 => ?_⟩
  have := fixed_near (by norm_num) (hf i h1) (hg i (hn ▸ h1)) (hi i h1)
  norm_num at this ⊢
  exact this

/-- C109: the same for matrices: the text shows both dimensions and the elements. -/
theorem C109_read_mat {a b : Mat F} {r c r' c' : Nat} {f g : Nat → Nat → F} (ha : MatIs a r c f) (hb : MatIs b r' c' g)
    (hf : ∀ i j, i < r → j < c → Finite (f i j)) (hg : ∀ i j, i < r' → j < c' → Finite (g i j))
    (h : (a.print out).2 = (b.print out).2) :
    r = r' ∧ c = c' ∧ ∀ i j, i < r → j < c → |⟪f i j⟫ - ⟪g i j⟫| ≤ 1 / 1000 ∧ 0 ≤ ⟪f i j⟫ * ⟪g i j⟫ := by
  rw [C109_mat ha, C109_mat hb] at h
  have h := List.append_cancel_right h
  have h := List.append_cancel_left h
  have ec : ∀ c (f : Nat → F), ((List.range c).map fun j => Text.fixed 3 (f j) ++ ['\t']) =
      ((List.range c).map fun j => Text.fixed 3 (f j)).map (· ++ ['\t']) := fun n f => by rw [List.map_map]; rfl
  have er : ∀ r (f : Nat → List Char), ((List.range r).map fun i => f i ++ ['\n']) =
      ((List.range r).map f).map (· ++ ['\n']) := fun n f => by rw [List.map_map]; rfl
  have nt : ∀ n (f : Nat → F), (∀ i, i < n → Finite (f i)) → ∀ a ∈ (List.range n).map fun i => Text.fixed 3 (f i), '\t' ∉ a := fun n f hf a ha => by
    obtain ⟨i, hi, rfl⟩ := List.mem_map.mp ha
    exact (fixed_chars (by norm_num) (hf i (List.mem_range.mp hi))).2
  have nl : ∀ r c (f : Nat → Nat → F), (∀ i j, i < r → j < c → Finite (f i j)) →
      ∀ a ∈ (List.range r).map fun i => ((List.range c).map fun j => Text.fixed 3 (f i j) ++ ['\t']).flatten, '\n' ∉ a := fun r c f hf a ha hn => by
    obtain ⟨i, hi, rfl⟩ := List.mem_map.mp ha
    obtain ⟨l, hl, hn⟩ := List.mem_flatten.mp hn
    obtain ⟨j, hj, rfl⟩ := List.mem_map.mp hl
    rcases List.mem_append.mp hn with hn | hn
    · exact (fixed_chars (by norm_num) (hf i j (List.mem_range.mp hi) (List.mem_range.mp hj))).1 hn
    · simp at hn
  rw [er, er] at h
  obtain ⟨hr, hi⟩ := range_map_inj (ended_inj (nl r c f hf) (nl r' c' g hg) h)
  subst hr
  have hrow : ∀ i, i < r → c = c' ∧ ∀ j, j < c → Text.fixed 3 (f i j) = Text.fixed 3 (g i j) := fun i h1 => by
    have := hi i h1
    rw [ec, ec] at this
    exact range_map_inj (ended_inj (nt c (f i) fun j hj => hf i j h1 hj) (nt c' (g i) fun j hj => hg i j h1 hj) this)
  have hc := (hrow 0 ha.rpos).1
  refine ⟨rfl, hc, fun i j h1 h2 => ?_⟩
  have := fixed_near (by norm_num) (hf i j h1 h2) (hg i j h1 (hc ▸ h2)) ((hrow i h1).2 j h2)
  norm_num at this ⊢
  exact this

end read

/-! ### The programs -/

namespace TempDsp
variable [Rounded F] [Trig F] [Literals F] [Text F] [TextLaw F]

/-- C109: the text of the program of `temp/dsp` in binary32, with a sine and a cosine good to `2⁻²²`: sixteen lines, the same on
every machine except for the sign that a zero may carry. -/
theorem C109_main : ∃ (o : Output F) (re im : Nat → List Char), main F = .ok o ∧
    o.text = ((List.range 16).map fun k => "X[".toList ++ textNat k ++ "] = ".toList ++ re k ++ " + ".toList ++ im k ++ "i\n".toList).flatten ∧
    re 0 = "40.00".toList ∧ re 4 = "-8.00".toList ∧ re 8 = "-8.00".toList ∧ re 12 = "-8.00".toList ∧
    im 4 = "8.00".toList ∧ im 12 = "-8.00".toList ∧
    (∀ k, k < 16 → k ∉ [0, 4, 8, 12] → re k = "0.00".toList ∨ re k = "-0.00".toList) ∧
    (∀ k, k < 16 → k ∉ [4, 12] → im k = "0.00".toList ∨ im k = "-0.00".toList) := by
  obtain ⟨out, e, hl, h⟩ := C93_main (F := F)
  have d2 : ∀ {x : F} {k : ℤ}, Finite x → |⟪x⟫ - k| ≤ 2 / 1000 →
      Text.fixed 2 x = (if k < 0 then ['-'] else []) ++ decimal 2 (k.natAbs * 10 ^ 2) ∨ k = 0 ∧ Text.fixed 2 x = '-' :: decimal 2 0 :=
    fun hx h => fixed_int (by norm_num) hx (by linarith)
  have hre : ∀ k : Nat, (hk : k < out.length) → ∀ {n : ℤ}, (spectrum k).re = n →
      Text.fixed 2 out[k].2.1 = (if n < 0 then ['-'] else []) ++ decimal 2 (n.natAbs * 10 ^ 2) ∨
        n = 0 ∧ Text.fixed 2 out[k].2.1 = '-' :: decimal 2 0 := fun k hk n hn =>
    d2 (h k hk).2.1 (by rw [← hn]; exact (h k hk).2.2.2.1)
  have him : ∀ k : Nat, (hk : k < out.length) → ∀ {n : ℤ}, (spectrum k).im = n →
      Text.fixed 2 out[k].2.2 = (if n < 0 then ['-'] else []) ++ decimal 2 (n.natAbs * 10 ^ 2) ∨
        n = 0 ∧ Text.fixed 2 out[k].2.2 = '-' :: decimal 2 0 := fun k hk n hn =>
    d2 (h k hk).2.2.1 (by rw [← hn]; exact (h k hk).2.2.2.2)
  refine ⟨.values out, fun k => Text.fixed 2 (out.getD k (0, lit 0, lit 0)).2.1, fun k => Text.fixed 2 (out.getD k (0, lit 0, lit 0)).2.2,
    e, ?_, ?_⟩
  · show (out.map _).flatten = _
    congr 1
    apply List.ext_getElem
    · simp [hl]
    · intro k h1 h2
      have hk : k < out.length := by simpa using h1
      have e1 := (h k hk).1
      simp only [List.getElem_map, List.getElem_range, List.getD_eq_getElem?_getD, List.getElem?_eq_getElem hk, Option.getD_some, e1]
  · have hg : ∀ k, (hk : k < 16) → out.getD k (0, lit 0, lit 0) = out[k]'(by omega) := fun k hk => by
      rw [List.getD_eq_getElem?_getD, List.getElem?_eq_getElem (by omega), Option.getD_some]
    have zero : ∀ t : List Char, (t = (if (0 : ℤ) < 0 then ['-'] else []) ++ decimal 2 ((0 : ℤ).natAbs * 10 ^ 2) ∨
        (0 : ℤ) = 0 ∧ t = '-' :: decimal 2 0) → t = "0.00".toList ∨ t = "-0.00".toList := fun t ht => by
      rcases ht with ht | ⟨-, ht⟩
      · exact .inl (ht.trans (by decide +kernel))
      · exact .inr (ht.trans (by decide +kernel))
    have s0 : spectrum ((0 : ℕ) : ZMod 16) = 40 := by rw [spectrum, if_pos (by decide)]
    have s4 : spectrum ((4 : ℕ) : ZMod 16) = -8 + 8 * _root_.Complex.I := by
      rw [spectrum, if_neg (by decide), if_pos (by decide)]
    have s8 : spectrum ((8 : ℕ) : ZMod 16) = -8 := by
      rw [spectrum, if_neg (by decide), if_neg (by decide), if_pos (by decide)]
    have s12 : spectrum ((12 : ℕ) : ZMod 16) = -8 - 8 * _root_.Complex.I := by
      rw [spectrum, if_neg (by decide), if_neg (by decide), if_neg (by decide), if_pos (by decide)]
    have sz : ∀ k, k < 16 → k ∉ [0, 4, 8, 12] → spectrum ((k : ℕ) : ZMod 16) = 0 := fun k hk hn => by
      have : ∀ k, k < 16 → k ∉ [0, 4, 8, 12] → ((k : ℕ) : ZMod 16) ≠ 0 ∧ ((k : ℕ) : ZMod 16) ≠ 4 ∧ ((k : ℕ) : ZMod 16) ≠ 8 ∧
        ((k : ℕ) : ZMod 16) ≠ 12 := by decide
      obtain ⟨h0, h4, h8, h12⟩ := this k hk hn
      rw [spectrum, if_neg h0, if_neg h4, if_neg h8, if_neg h12]
    have pick : ∀ {t u : List Char} {n : ℤ}, n ≠ 0 → (if n < 0 then ['-'] else []) ++ decimal 2 (n.natAbs * 10 ^ 2) = u →
        (t = (if n < 0 then ['-'] else []) ++ decimal 2 (n.natAbs * 10 ^ 2) ∨ n = 0 ∧ t = '-' :: decimal 2 0) → t = u :=
      fun hn hu ht => by
        rcases ht with ht | ⟨h0, -⟩
        · exact ht.trans hu
        · exact absurd h0 hn
    refine ⟨?_, ?_, ?_, ?_, ?_, ?_, fun k hk hn => ?_, fun k hk hn => ?_⟩
    · simp only [hg 0 (by norm_num)]
      exact pick (n := 40) (by norm_num) (by decide +kernel) (hre 0 (by omega) (by rw [s0]; norm_num))
    · simp only [hg 4 (by norm_num)]
      exact pick (n := -8) (by norm_num) (by decide +kernel) (hre 4 (by omega) (by rw [s4]; norm_num))
    · simp only [hg 8 (by norm_num)]
      exact pick (n := -8) (by norm_num) (by decide +kernel) (hre 8 (by omega) (by rw [s8]; norm_num))
    · simp only [hg 12 (by norm_num)]
      exact pick (n := -8) (by norm_num) (by decide +kernel) (hre 12 (by omega) (by rw [s12]; norm_num))
    · simp only [hg 4 (by norm_num)]
      exact pick (n := 8) (by norm_num) (by decide +kernel) (him 4 (by omega) (by rw [s4]; norm_num))
    · simp only [hg 12 (by norm_num)]
      exact pick (n := -8) (by norm_num) (by decide +kernel) (him 12 (by omega) (by rw [s12]; norm_num))
    · simp only [hg k hk]
      exact zero _ (hre k (by omega) (by rw [sz k hk hn]; norm_num))
    · simp only [hg k hk]
      refine zero _ (him k (by omega) ?_)
      by_cases h0 : k = 0
      · subst h0; rw [s0]; norm_num
      · by_cases h8 : k = 8
        · subst h8; rw [s8]; norm_num
        · rw [sz k hk (by simp at hn ⊢; omega)]; norm_num

end TempDsp

namespace AhrsTest

/-- The text of a table with three rows. -/
def tableText [Text F] (c : Nat) (f : Nat → Nat → F) : List Char :=
  ((List.range 3).map fun i => ((List.range c).map fun j => Text.fixed 3 (f i j) ++ ['\t']).flatten ++ ['\n']).flatten ++ ['\n']

theorem labels_say {ε : Type} (c : List Char) (lo k : Nat) (out : List Char) :
    labels (ε := ε) c lo (lo + k) out =
      (.ok (), out ++ ((List.range k).map fun n => c ++ textNat (lo + n) ++ "Δt]\t".toList).flatten ++ "\n\n".toList) := by
  have := forRange_ok (ε := ε) (fun n => say (c ++ textNat n ++ "Δt]\t".toList))
    (fun n => out ++ ((List.range (n - lo)).map fun n => c ++ textNat (lo + n) ++ "Δt]\t".toList).flatten) lo (lo + k) (by omega) fun i h1 h2 => by
      rw [show i + 1 - lo = (i - lo) + 1 by omega, List.range_succ, List.map_append, List.flatten_append]
      show (_, _ ++ _) = _
      rw [← List.append_assoc]
      simp [show lo + (i - lo) = i by omega]
  rw [Nat.sub_self, Nat.add_sub_cancel_left] at this
  unfold labels
  rw [List.range_zero, List.map_nil, List.flatten_nil, List.append_nil] at this
  exact (Op.bind_ok this _).trans rfl

/-- C109: the labels of the test.  All the readings are labelled as angular rates.  The columns of the estimates of the AR
filter are labelled with the attitudes 1 to 3 that they estimate, those of the AQUA filter, which estimate the same
attitudes (C96), with 0 to 2. -/
theorem C109_report [Text F] {r : AhrsTest F} {a g c m p q : Nat → Nat → F} (h1 : MatIs r.attitudes 3 4 a) (h2 : MatIs r.gyr 3 3 g)
    (h3 : MatIs r.acc 3 3 c) (h4 : MatIs r.mag 3 3 m) (h5 : MatIs r.ar 3 3 p) (h6 : MatIs r.aqua 3 3 q) (out : List Char) :
    r.report out = (.ok (), out ++
      ("\nRandomly generated attitudes:\n\n[e0Δt]\t[e1Δt]\t[e2Δt]\t[e3Δt]\t\n\n".toList ++ tableText 4 a ++
      "Raw gyrometer measurements:\n\nω[0Δt]\tω[1Δt]\tω[2Δt]\t\n\n".toList ++ tableText 3 g ++
      "Raw accelerometer measurements:\n\nω[0Δt]\tω[1Δt]\tω[2Δt]\t\n\n".toList ++ tableText 3 c ++
      "Raw magnetometer measurements:\n\nω[0Δt]\tω[1Δt]\tω[2Δt]\t\n\n".toList ++ tableText 3 m ++
      "Estimated attitudes (AR filter):\n\n[e1Δt]\t[e2Δt]\t[e3Δt]\t\n\n".toList ++ tableText 3 p ++
      "Estimated attitudes (Aqua filter):\n\n[e0Δt]\t[e1Δt]\t[e2Δt]\t\n\n".toList ++ tableText 3 q)) := by
  have hs : ∀ (t out : List Char), say (ε := LinalgError) t out = (.ok (), out ++ t) := fun _ _ => rfl
  have ht : ∀ {m : Mat F} {k : Nat} {f : Nat → Nat → F}, MatIs m 3 k f → ∀ out, m.print out = (.ok (), out ++ tableText k f) :=
    fun hm out => by rw [C109_mat hm]; simp [tableText]
  have l1 := fun out => labels_say (ε := LinalgError) "[e".toList 0 4 out
  have l2 := fun out => labels_say (ε := LinalgError) "ω[".toList 0 3 out
  have l3 := fun out => labels_say (ε := LinalgError) "[e".toList 1 3 out
  have l4 := fun out => labels_say (ε := LinalgError) "[e".toList 0 3 out
  unfold report
  refine (Op.bind_ok (hs _ _) _).trans ?_
  refine (Op.bind_ok (l1 _) _).trans ?_
  refine (Op.bind_ok (ht h1 _) _).trans ?_
  refine (Op.bind_ok (hs _ _) _).trans ?_
  refine (Op.bind_ok (l2 _) _).trans ?_
  refine (Op.bind_ok (ht h2 _) _).trans ?_
  refine (Op.bind_ok (hs _ _) _).trans ?_
  refine (Op.bind_ok (l2 _) _).trans ?_
  refine (Op.bind_ok (ht h3 _) _).trans ?_
  refine (Op.bind_ok (hs _ _) _).trans ?_
  refine (Op.bind_ok (l2 _) _).trans ?_
  refine (Op.bind_ok (ht h4 _) _).trans ?_
  refine (Op.bind_ok (hs _ _) _).trans ?_
  refine (Op.bind_ok (l3 _) _).trans ?_
  refine (Op.bind_ok (ht h5 _) _).trans ?_
  refine (Op.bind_ok (hs _ _) _).trans ?_
  refine (Op.bind_ok (l4 _) _).trans ?_
  rw [ht h6]
  have e1 : "\nRandomly generated attitudes:\n\n[e0Δt]\t[e1Δt]\t[e2Δt]\t[e3Δt]\t\n\n".toList = "\nRandomly generated attitudes:\n\n".toList ++
    (((List.range 4).map fun n => "[e".toList ++ textNat (0 + n) ++ "Δt]\t".toList).flatten ++ "\n\n".toList) := by decide +kernel
  have e2 : ∀ s : List Char, s ++ "ω[0Δt]\tω[1Δt]\tω[2Δt]\t\n\n".toList = s ++
    (((List.range 3).map fun n => "ω[".toList ++ textNat (0 + n) ++ "Δt]\t".toList).flatten ++ "\n\n".toList) := fun s => by
      congr 1
  have e3 : "Raw gyrometer measurements:\n\nω[0Δt]\tω[1Δt]\tω[2Δt]\t\n\n".toList = "Raw gyrometer measurements:\n\n".toList ++
    "ω[0Δt]\tω[1Δt]\tω[2Δt]\t\n\n".toList := by decide +kernel
  have e4 : "Raw accelerometer measurements:\n\nω[0Δt]\tω[1Δt]\tω[2Δt]\t\n\n".toList = "Raw accelerometer measurements:\n\n".toList ++
    "ω[0Δt]\tω[1Δt]\tω[2Δt]\t\n\n".toList := by decide +kernel
  have e5 : "Raw magnetometer measurements:\n\nω[0Δt]\tω[1Δt]\tω[2Δt]\t\n\n".toList = "Raw magnetometer measurements:\n\n".toList ++
    "ω[0Δt]\tω[1Δt]\tω[2Δt]\t\n\n".toList := by decide +kernel
  have e6 : "Estimated attitudes (AR filter):\n\n[e1Δt]\t[e2Δt]\t[e3Δt]\t\n\n".toList = "Estimated attitudes (AR filter):\n\n".toList ++
    (((List.range 3).map fun n => "[e".toList ++ textNat (1 + n) ++ "Δt]\t".toList).flatten ++ "\n\n".toList) := by decide +kernel
  have e7 : "Estimated attitudes (Aqua filter):\n\n[e0Δt]\t[e1Δt]\t[e2Δt]\t\n\n".toList = "Estimated attitudes (Aqua filter):\n\n".toList ++
    (((List.range 3).map fun n => "[e".toList ++ textNat (0 + n) ++ "Δt]\t".toList).flatten ++ "\n\n".toList) := by decide +kernel
  rw [e1, e3, e4, e5, e2, e2, e2, e6, e7]
  simp only [List.append_assoc]

end AhrsTest

/-! ### Cases -/

/-- C109, a case: the number -0.0004 is printed as `-0.000`, and 0.0625, which is halfway, as `0.062`. -/
example : ((Vec.of 3 fun i => [lit (-(4 / 10000)), lit (1 / 16), lit 12].getD i (lit 0) : Vec F32).print []).2 =
    "-0.000\n0.062\n12.000\n\n".toList := by decide +kernel

example : ((Mat.of 2 2 fun i j => ([[lit 1, lit (-(1 / 2))], [lit 1000, lit (1 / 3)]].getD i []).getD j (lit 0) : Mat F32).print []).2 =
    "1.000\t-0.500\t\n1000.000\t0.333\t\n\n".toList := by decide +kernel

/-- C109, a case: on a binary32 with a good sine and cosine the program of `temp/dsp` prints the line of the fourth
frequency exactly. -/
example : ∃ o : TempDsp.Output F32T, TempDsp.main F32T = .ok o ∧ "X[4] = -8.00 + 8.00i\n".toList <:+: o.text := by
  obtain ⟨o, re, im, e, ht, -, r4, -, -, i4, -⟩ := TempDsp.C109_main (F := F32T)
  refine ⟨o, e, ?_⟩
  rw [ht]
  have h := List.infix_of_mem_flatten (List.mem_map_of_mem (f := fun k => "X[".toList ++ textNat k ++ "] = ".toList ++ re k ++
    " + ".toList ++ im k ++ "i\n".toList) (List.mem_range.mpr (show 4 < 16 by norm_num)))
  rw [r4, i4] at h
  exact h

/-- C109, a case: a filter that is not initialised prints nothing. -/
example : ∃ s : AR F32, AR.new = .ok s ∧ s.printAttitude "> ".toList = (.error (.err .ARFilterNotInit), "> ".toList) := by
  obtain ⟨s, e, h⟩ := AR.new_fresh (F := F32)
  refine ⟨s, e, (C109_attitude ⟨s, e, .refl s⟩ _).2 _ ?_⟩
  unfold AR.getAttitude
  rw [h.initialized]
  rfl

/-- C109, a case: two vectors with the same text, and the bound that the text gives. -/
example : ((Vec.of 2 fun i => [lit (1 / 3), lit 2].getD i (lit 0) : Vec F32).print []).2 =
      ((Vec.of 2 fun i => [lit (3331 / 10000), lit 2].getD i (lit 0) : Vec F32).print []).2 ∧
    ((Vec.of 2 fun i => [lit (1 / 3), lit 2].getD i (lit 0) : Vec F32).print []).2 ≠
      ((Vec.of 2 fun i => [lit (-(1 / 3)), lit 2].getD i (lit 0) : Vec F32).print []).2 := by decide +kernel

/-- C109, a case: tables of the shapes that the test prints. -/
example : ∃ r : AhrsTest F32, (r.report []).1 = .ok () :=
  ⟨⟨Mat.of 3 4 fun _ _ => lit 0, Mat.of 3 3 fun _ _ => lit 0, Mat.of 3 3 fun _ _ => lit 0, Mat.of 3 3 fun _ _ => lit 0,
      Mat.of 3 3 fun _ _ => lit 0, Mat.of 3 3 fun _ _ => lit 0⟩, by
    have h : MatIs (Mat.of 3 3 fun _ _ => (lit 0 : F32)) 3 3 fun _ _ => lit 0 :=
      Mat.of_is _ (by norm_num) (by norm_num) (by norm_num) (by norm_num)
    have h4 : MatIs (Mat.of 3 4 fun _ _ => (lit 0 : F32)) 3 4 fun _ _ => lit 0 :=
      Mat.of_is _ (by norm_num) (by norm_num) (by norm_num) (by norm_num)
    exact congrArg Prod.fst (AhrsTest.C109_report (r := ⟨_, _, _, _, _, _⟩) h4 h h h h h [])⟩

end Verif
