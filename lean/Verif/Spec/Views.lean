import Verif.Model.Decomp

/-
How the contents of vectors and matrices are described in theorem statements.
-/

namespace Verif
open Scalar

variable {F : Type} [Scalar F]

/-- Seen through the API, `v` is an initialised vector with `n` rows and elements
`f 0, …, f (n-1)`. -/
structure VecIs (v : Vec F) (n : Nat) (f : Nat → F) : Prop where
  pos : 1 ≤ n
  le : n ≤ 4
  rows : v.getRows = .ok n
  get : ∀ i, i < n → v.getElement i = .ok (f i)

/-- Seen through the API, `p` is an initialised `u8` vector with `n` rows and elements
`f 0, …, f (n-1)`. -/
structure U8Is (p : Vec Nat) (n : Nat) (f : Nat → Nat) : Prop where
  pos : 1 ≤ n
  le : n ≤ 4
  rows : p.getRows = .ok n
  get : ∀ i, i < n → p.getElementU8 i = .ok (f i)

/-- Seen through the API, `m` is an initialised matrix with `r` rows, `c` columns and elements
`f i j`. -/
structure MatIs (m : Mat F) (r c : Nat) (f : Nat → Nat → F) : Prop where
  rpos : 1 ≤ r
  rle : r ≤ 4
  cpos : 1 ≤ c
  cle : c ≤ 4
  rows : m.getRows = .ok r
  cols : m.getCols = .ok c
  get : ∀ i j, i < r → j < c → m.getElement i j = .ok (f i j)

/-- The error reported for a value that is NaN or infinite. -/
def valueErr (x : F) : LinalgError := .UtilsError (if isNaN x then .Nan else .Inf)

/-- `v` with its elements before position `k` replaced by `g 0, …, g (k-1)`; nothing else is
touched. -/
def Vec.overwrite (k : Nat) (g : Nat → F) (v : Vec F) : Vec F :=
  { v with elements := fun i => if i.val < k then g i.val else v.elements i }

/-- `m` with its first `k` elements, in row-major order, replaced by the values `g i j` that belong
to their positions; nothing else is touched. -/
def Mat.overwrite (k : Nat) (g : Nat → Nat → F) (m : Mat F) : Mat F :=
  { m with elements := fun p =>
      if p.val < k then g (p.val / m.cols) (p.val % m.cols) else m.elements p }

/-- The outcome of storing `g 0, …, g (n-1)` in this order into the vector `s`: all of them if they
are finite; otherwise those before the first one that is not, and its error. -/
def Vec.Stores (s : Vec F) (n : Nat) (g : Nat → F) (out : Res LinalgError Unit × Vec F) : Prop :=
  ((∀ i, i < n → Finite (g i)) → out = (.ok (), s.overwrite n g)) ∧
  ∀ k, k < n → (∀ i, i < k → Finite (g i)) → ¬ Finite (g k) →
    out = (.error (.err (valueErr (g k))), s.overwrite k g)

/-- The outcome of storing the values `g i j` in row-major order into the matrix `s` with `r` rows
and `c` columns: all of them if they are finite; otherwise those before the first one that is not,
and its error. -/
def Mat.Stores (s : Mat F) (r c : Nat) (g : Nat → Nat → F) (out : Res LinalgError Unit × Mat F) :
    Prop :=
  ((∀ i j, i < r → j < c → Finite (g i j)) → out = (.ok (), s.overwrite (r * c) g)) ∧
  ∀ i j, i < r → j < c →
    (∀ i' j', i' < r → j' < c → (i' < i ∨ i' = i ∧ j' < j) → Finite (g i' j')) →
    ¬ Finite (g i j) →
    out = (.error (.err (valueErr (g i j))), s.overwrite (i * c + j) g)

/-- The accumulation `((0.0 + t 0) + t 1) + … + t (n-1)`, from left to right. -/
def sumUp : Nat → (Nat → F) → F
  | 0, _ => lit 0
  | n + 1, t => sumUp n t +ᶠ t n

end Verif
