import Verif.Model.Matrix

/-
Model of `linalg/src/linalg.rs` and of the factorisations, determinants and dependent predicates of
`linalg/src/matrix.rs`.
-/

namespace Verif
open Scalar

namespace Linalg
variable {F : Type} [Scalar F]

/-- The pivot search of `lup` — linalg/src/linalg.rs:22-28. -/
def lupPivot (lu : Mat F) (p : Vec Nat) (row cols : Nat) : Res LinalgError Nat :=
  foldRange (row + 1) cols
    (fun col rowMax => do
      if (← lu.getElement (← p.getElementU8 col) row) >ᶠ
          (← lu.getElement (← p.getElementU8 rowMax) 0) then .ok col
      else .ok rowMax)
    row

/-- The exchange of two entries of the pivot vector — linalg/src/linalg.rs:30-32. -/
def lupSwap (p : Vec Nat) (row rowMax : Nat) : Res LinalgError (Vec Nat) := do
  let tmp ← p.getElementU8 row
  let p ← exec p (Vec.setElementU8 row (← p.getElementU8 rowMax))
  exec p (Vec.setElementU8 rowMax tmp)

/-- Elimination of one row — linalg/src/linalg.rs:41-48. -/
def lupElimRow (p : Vec Nat) (rows row col : Nat) (lu : Mat F) : Res LinalgError (Mat F) := do
  let element := (← lu.getElement (← p.getElementU8 col) row) /ᶠ
    (← lu.getElement (← p.getElementU8 row) row)
  let lu ← exec lu (Mat.setElement (← p.getElementU8 col) row element)
  foldRange (row + 1) rows
    (fun k (lu : Mat F) => do
      let element ← lu.getElement (← p.getElementU8 col) k
      let element := element -ᶠ ((← lu.getElement (← p.getElementU8 row) k) *ᶠ
        (← lu.getElement (← p.getElementU8 col) row))
      exec lu (Mat.setElement (← p.getElementU8 col) k element))
    lu

/-- One iteration of the main loop of `lup` — linalg/src/linalg.rs:22-49. -/
def lupStep (rows cols : Nat) (row : Nat) (st : Mat F × Vec Nat) :
    Res LinalgError (Mat F × Vec Nat) := do
  let (lu, p) := st
  let rowMax ← lupPivot lu p row cols
  let p ← lupSwap p row rowMax
  if Scalar.abs (← lu.getElement (← p.getElementU8 row) row) <ᶠ EPSILON then fail .Singular
  else do
    let lu ← foldRange (row + 1) rows (lupElimRow p rows row) lu
    .ok (lu, p)

/-- `lup` — linalg/src/linalg.rs:7-53. -/
def lup (mat : Mat F) : Res LinalgError (Mat F × Vec Nat) := do
  let lu ← exec Mat.new (Mat.init (← mat.getRows) (← mat.getCols))
  let lu ← exec lu (Mat.copyFrom mat)
  let p ← exec Vec.newU8 (Vec.init (← mat.getRows))
  let p ← foldRange 0 (← mat.getRows)
    (fun row (p : Vec Nat) => exec p (Vec.setElementU8 row row)) p
  let last ← (u8Sub F (← mat.getRows) 1 : Res LinalgError Nat)
  foldRange 0 last (lupStep (← mat.getRows) (← mat.getCols)) (lu, p)

/-- `x.set_element(row, x[row] - mat[p[row], col] * x[col])` — linalg/src/linalg.rs:70 and 77. -/
def solveElim (mat : Mat F) (p : Vec Nat) (row col : Nat) (x : Vec F) :
    Res LinalgError (Vec F) := do
  let v := (← x.getElement row) -ᶠ
    ((← mat.getElement (← p.getElementU8 row) col) *ᶠ (← x.getElement col))
  exec x (Vec.setElement row v)

/-- `solve` — linalg/src/linalg.rs:55-89. -/
def solve (mat : Mat F) (b : Vec F) (p : Vec Nat) : Res LinalgError (Vec F) := do
  if !(← mat.isSquare) then fail .NotSquare
  else do
    let x ← exec Vec.new (Vec.init (← mat.getRows))
    -- forward substitution
    let x ← foldRange 0 (← mat.getRows)
      (fun row (x : Vec F) => do
        let x ← exec x (Vec.setElement row (← b.getElement (← p.getElementU8 row)))
        foldRange 0 row (fun col x => solveElim mat p row col x) x)
      x
    -- backward substitution
    let n ← mat.getRows
    foldRangeRev 0 n
      (fun row (x : Vec F) => do
        let x ← foldRange (row + 1) n (fun col x => solveElim mat p row col x) x
        if Scalar.abs (← mat.getElement (← p.getElementU8 row) row) >ᶠ EPSILON then do
          let v := (← x.getElement row) /ᶠ (← mat.getElement (← p.getElementU8 row) row)
          exec x (Vec.setElement row v)
        else fail .Unsolvable)
      x

end Linalg

namespace Mat
variable {F : Type} [Scalar F]

/-- `match r { Ok(v) => v, Err(_) => return Err(e) }`; a panic is not caught. -/
def orElseErr {α : Type} (r : Res LinalgError α) (e : LinalgError) : Res LinalgError α :=
  r.mapErr fun _ => e

/-- The loop of `invert` — linalg/src/matrix.rs:918-931; `tmpVec` is a local variable. -/
def invertLoop (lu : Mat F) (p : Vec Nat) : (row len : Nat) → (tmpVec : Vec F) →
    Op LinalgError (Mat F) Unit
  | _, 0, _ => pure ()
  | row, len + 1, tmpVec => do
    let tmpVec ← exec tmpVec (Vec.setElement row (lit 1))
    let x ← orElseErr (Linalg.solve lu tmpVec p) .NotInversible
    let self ← Op.get
    forRange 0 self.cols fun col => do
      setElement row col (← x.getElement col)
    let tmpVec ← exec tmpVec (Vec.setElement row (lit 0))
    invertLoop lu p (row + 1) len tmpVec

/-- `Matrix::invert` — linalg/src/matrix.rs:901-936. -/
def invert : Op LinalgError (Mat F) Unit := do
  let self ← Op.get
  if !(← self.isSquare) then Op.fail .NotSquare
  else do
    let tmpVec ← exec Vec.new (Vec.init self.rows)
    let (lu, p) ← orElseErr (Linalg.lup self) .NotInversible
    invertLoop lu p 0 self.rows tmpVec
    transpose

/-- `Matrix::lr` — linalg/src/matrix.rs:991-1075.  The two `if !allclose(..)? {}` statements have an
empty body but can still return an error. -/
def lr (self : Mat F) : Res LinalgError (Mat F × Mat F) := do
  if !(← self.isSquare) then fail .NotSquare
  else do
    let n := self.rows
    let l ← exec new (init n n)
    let r ← exec new (init n n)
    let l ← exec l fillIdentity
    -- first row of R
    let r ← foldRange 0 n
      (fun col (r : Mat F) => do
        let element ← self.getElement 0 col
        exec r (setElement 0 col element)) r
    -- first column of L
    let l ← foldRange 0 n
      (fun row (l : Mat F) => do
        let rElement ← r.getElement 0 0
        let _ ← allcloseL rElement (lit 0) EPSILON
        let element := (← self.getElement row 0) /ᶠ rElement
        exec l (setElement row 0 element)) l
    let (l, r, _) ← foldRange 0 n
      (fun col (st : Mat F × Mat F × F) => do
        let (l, r, sum) := st
        let (r, sum) ← foldRange col n
          (fun j (st : Mat F × F) => do
            let (r, sum) := st
            let sum ← foldRange 0 col
              (fun k (sum : F) => do
                .ok (sum +ᶠ ((← l.getElement col k) *ᶠ (← r.getElement k j)))) sum
            let element := (← self.getElement col j) -ᶠ sum
            let r ← exec r (setElement col j element)
            .ok (r, sum)) (r, sum)
        let rElement ← r.getElement col col
        let _ ← allcloseL rElement (lit 0) EPSILON
        let (l, sum) ← foldRange (col + 1) n
          (fun row (st : Mat F × F) => do
            let (l, _) := st
            let sum ← foldRange 0 col
              (fun k (sum : F) => do
                .ok (sum +ᶠ ((← l.getElement row k) *ᶠ (← r.getElement k col)))) (lit 0)
            let element := ((← self.getElement row col) -ᶠ sum) /ᶠ rElement
            let l ← exec l (setElement row col element)
            .ok (l, sum)) (l, sum)
        .ok (l, r, sum)) (l, r, lit 0)
    .ok (l, r)

/-- `Matrix::lu_crout` — linalg/src/matrix.rs:1078-1145. -/
def luCrout (self : Mat F) : Res LinalgError (Mat F × Mat F) := do
  if !(← self.isSquare) then fail .NotSquare
  else do
    let n := self.rows
    let l ← exec new (init n n)
    let u ← exec new (init n n)
    let l ← exec l fillIdentity
    let (l, u, _) ← foldRange 0 n
      (fun row (st : Mat F × Mat F × F) => do
        let (l, u, sum) := st
        let (u, _) ← foldRange row n
          (fun col (st : Mat F × F) => do
            let (u, sum) := st
            let sum ← foldRange 0 col
              (fun k (sum : F) => do
                .ok (sum +ᶠ ((← l.getElement row k) *ᶠ (← u.getElement k col)))) sum
            let element := (← self.getElement row col) -ᶠ sum
            let u ← exec u (setElement row col element)
            .ok (u, sum)) (u, sum)
        let (l, sum) ← foldRange (row + 1) n
          (fun col (st : Mat F × F) => do
            let (l, sum) := st
            let sum ← foldRange 0 col
              (fun k (sum : F) => do
                .ok (sum +ᶠ ((← l.getElement col k) *ᶠ (← u.getElement k row)))) sum
            let uElement ← u.getElement row row
            if !(← allcloseL uElement (lit 0) EPSILON) then fail .Singular
            else do
              let element := ((← self.getElement col row) -ᶠ sum) /ᶠ uElement
              let l ← exec l (setElement col row element)
              .ok (l, sum)) (l, lit 0)
        .ok (l, u, sum)) (l, u, lit 0)
    .ok (l, u)

/-- Dot product of two columns — linalg/src/matrix.rs:1172-1176 and 1185-1189. -/
def colDot (q : Mat F) (rows c1 c2 : Nat) : Res LinalgError F :=
  foldRange 0 rows
    (fun k (acc : F) => do .ok (acc +ᶠ ((← q.getElement k c1) *ᶠ (← q.getElement k c2)))) (lit 0)

/-- One column of the Gram-Schmidt loop of `qr_decomp` — linalg/src/matrix.rs:1171-1200.  The
Boolean says whether the loop goes on (`false` = `break`). -/
def qrColumn (rows : Nat) (col : Nat) (q : Mat F) : Res LinalgError (Bool × Mat F) := do
  let q ← foldRange 0 col
    (fun row (q : Mat F) => do
      let dotProduct ← colDot q rows row col
      foldRange 0 rows
        (fun k (q : Mat F) => do
          let element := (← q.getElement k col) -ᶠ (dotProduct *ᶠ (← q.getElement k row))
          exec q (setElement k col element)) q) q
  let norm := Scalar.sqrt (← colDot q rows col col)
  if norm >ᶠ EPSILON then do
    let q ← foldRange 0 rows
      (fun k (q : Mat F) => do
        let element := (← q.getElement k col) /ᶠ norm
        exec q (setElement k col element)) q
    .ok (true, q)
  else .ok (false, q)

/-- `Matrix::qr_decomp` — linalg/src/matrix.rs:1158-1208. -/
def qrDecomp (self : Mat F) : Res LinalgError (Mat F × Mat F) := do
  let q ← exec new (init self.rows self.cols)
  let q ← exec q (copyFrom self)
  let r ← exec new (init self.rows self.cols)
  let tmp ← exec new (init self.rows self.cols)
  let q ← loopRange 0 self.cols (qrColumn self.rows) q
  let tmp ← exec tmp (copyFrom q)
  let tmp ← exec tmp transpose
  let r ← exec r (mul tmp self)
  .ok (q, r)

/-- `Matrix::det` — linalg/src/matrix.rs:1266-1294. -/
def det (self : Mat F) : Res LinalgError F := do
  if !(← self.isSquare) then fail .NotSquare
  else do
    let (lu, p) ← Linalg.lup self
    let determinant ← foldRange 0 self.rows
      (fun row (d : F) => do .ok (d *ᶠ (← lu.getElement (← p.getElementU8 row) row))) (lit 1)
    let col ← foldRange 0 self.rows
      (fun row (col : Nat) => do
        if (← p.getElementU8 row) ≠ row then .ok (col + 1) else .ok col) 0
    if col ≠ 0 ∧ (col - 1) % 2 = 1 then .ok (Scalar.neg determinant) else .ok determinant

/-- The mutable arguments of `permute` — linalg/src/matrix.rs:1309-1312. -/
structure PermState where
  permutations : Fin 24 → Fin 4 → Nat
  current : Fin 4 → Nat
  used : Fin 4 → Bool
  index : Nat

/-- `permute` — linalg/src/matrix.rs:1315-1339.  `fuel = n - depth`, hence the test `depth == n` is
`fuel = 0`. -/
def permute (n : Nat) : (fuel depth : Nat) → PermState → Res LinalgError PermState
  | 0, _, st => do
    let perms ← foldRange 0 n
      (fun i (perms : Fin 24 → Fin 4 → Nat) => do
        let c ← arrGet st.current i
        let row ← arrGet perms st.index
        arrSet perms st.index (← arrSet row i c)) st.permutations
    .ok { st with permutations := perms, index := st.index + 1 }
  | fuel + 1, depth, st =>
    foldRange 0 n
      (fun i (st : PermState) => do
        if !(← arrGet st.used i) then do
          let used ← arrSet st.used i true
          let current ← arrSet st.current depth i
          let st ← permute n fuel (depth + 1) { st with used := used, current := current }
          let used ← arrSet st.used i false
          .ok { st with used := used }
        else .ok st) st

/-- `Matrix::generate_permutations` — linalg/src/matrix.rs:1306-1344. -/
def generatePermutations (row : Nat) : Res LinalgError (Fin 24 → Fin 4 → Nat) := do
  isValidRowsNumber row
  let st ← permute row row 0
    { permutations := fun _ _ => 0, current := fun _ => 0, used := fun _ => false, index := 0 }
  .ok st.permutations

/-- `Matrix::count_inversions` — linalg/src/matrix.rs:1348-1360. -/
def countInversions (permutation : Fin 4 → Nat) (n : Nat) : Res LinalgError Nat :=
  foldRange 0 n
    (fun i (inv : Nat) => foldRange (i + 1) n
      (fun j (inv : Nat) => do
        if (← arrGet permutation i) > (← arrGet permutation j) then .ok (inv + 1) else .ok inv)
      inv) 0

/-- `Matrix::det_naive` — linalg/src/matrix.rs:1364-1393.  `permutations.iter().take(n!)` is a loop
over the first `min(n!, 24)` rows. -/
def detNaive (self : Mat F) : Res LinalgError F := do
  if !(← self.isSquare) then fail .NotSquare
  else do
    let permutations ← generatePermutations self.rows
    let count ← (Utils.factorial F self.rows : Res LinalgError Nat)
    foldRange 0 (Nat.min count 24)
      (fun i (determinant : F) => do
        let permutation ← arrGet permutations i
        let product ← foldRange 0 self.rows
          (fun row (product : F) => do
            .ok (product *ᶠ (← self.getElement row ((← arrGet permutation row) % 256)))) (lit 1)
        let inversions ← countInversions permutation self.rows
        let sign : F := if inversions % 2 = 0 then lit 1 else lit (-1)
        .ok (determinant +ᶠ (sign *ᶠ product))) (lit 0)

/-- `Matrix::is_positive_definite` — linalg/src/matrix.rs:1460-1486. -/
def isPositiveDefinite (self : Mat F) : Res LinalgError Bool := do
  if !(← self.isSymmetric) then fail .NotSymetric
  else
    allRange 0 self.rows fun k => do
      let tmp ← exec new (init (k + 1) (k + 1))
      let tmp ← exec tmp (forRange 0 (k + 1) fun row =>
        forRange 0 (k + 1) fun col => do
          setElement row col (← self.getElement row col) : Op LinalgError (Mat F) Unit)
      let d ← tmp.det
      .ok (!(d <ᶠ lit 0))

/-- One column of `chol` — linalg/src/matrix.rs:1529-1556. -/
def cholColumn (self : Mat F) (col : Nat) (l : Mat F) : Res LinalgError (Mat F) := do
  let s1 ← foldRange 0 col
    (fun k (s : F) => do .ok (s +ᶠ ((← l.getElement col k) *ᶠ (← l.getElement col k)))) (lit 0)
  let l ← (if (← l.getElement col col) <ᶠ EPSILON then exec l (setElement col col EPSILON)
    else .ok l)
  foldRange 0 self.rows
    (fun row (l : Mat F) => do
      let s2 ← foldRange 0 col
        (fun k (s : F) => do .ok (s +ᶠ ((← l.getElement row k) *ᶠ (← l.getElement col k)))) (lit 0)
      if row = col then
        exec l (setElement row col (Scalar.sqrt ((← self.getElement row col) -ᶠ s1)))
      else
        exec l (setElement row col
          ((lit 1 /ᶠ (← l.getElement col col)) *ᶠ ((← self.getElement row col) -ᶠ s2)))) l

/-- `Matrix::chol` — linalg/src/matrix.rs:1489-1560. -/
def chol (self : Mat F) : Res LinalgError (Mat F) := do
  if !(← self.isPositiveDefinite) then fail .NotPositiveDefinite
  else do
    let l ← exec new (init self.rows self.cols)
    foldRange 0 self.cols (cholColumn self) l

/-- `Matrix::dlyap` (a stub returning zeros) — linalg/src/matrix.rs:1573-1596. -/
def dlyap (self q : Mat F) : Res LinalgError (Mat F) := do
  if !(← self.isSquare) then fail .NotSquare
  else if !(← q.isPositiveDefinite) then fail .NotPositiveDefinite
  else if !(← self.isSameSizeAs q) then fail .NotSameSize
  else exec new (init self.rows self.cols)

/-- The common tail of `is_orthogonal` and `is_so_n` — linalg/src/matrix.rs:1611-1627 and
1643-1659. -/
def mulTransposeIsIdentity (self : Mat F) (m : Nat) : Res LinalgError Bool := do
  let transposedMat ← self.duplicate
  let transposedMat ← exec transposedMat transpose
  let identityMat ← exec new (init m m)
  let identityMat ← exec identityMat fillIdentity
  let resultMat ← self.mulNew transposedMat
  if !(← resultMat.isEqualTo identityMat EPSILON) then .ok false else .ok true

/-- `Matrix::is_orthogonal` — linalg/src/matrix.rs:1599-1628. -/
def isOrthogonal (self : Mat F) : Res LinalgError Bool := do
  let m := self.rows
  let determinantAbs := Scalar.abs (← self.det)
  if !(← allcloseL determinantAbs (lit 1) EPSILON) then .ok false
  else self.mulTransposeIsIdentity m

/-- `Matrix::is_so_n` — linalg/src/matrix.rs:1631-1660. -/
def isSoN (self : Mat F) : Res LinalgError Bool := do
  let m := self.rows
  let determinant ← self.det
  if !(← allcloseL determinant (lit 1) EPSILON) then .ok false
  else self.mulTransposeIsIdentity m

/-- `Matrix::log` — linalg/src/matrix.rs:1706-1727.  The result of `is_so_n` is ignored, its errors
are not. -/
def log (self : Mat F) : Res LinalgError (Mat F) := do
  let _ ← self.isSoN
  let theta := Scalar.acos (((← self.trace) -ᶠ lit 1) /ᶠ lit 2)
  let transposedMat ← self.duplicate
  let transposedMat ← exec transposedMat transpose
  let resultMat ← self.subNew transposedMat
  exec resultMat (mulByScalarInPlace (theta /ᶠ (lit 2 *ᶠ Scalar.sin theta)))

/-- `Matrix::log_in_place` — linalg/src/matrix.rs:1736-1752. -/
def logInPlace : Op LinalgError (Mat F) Unit := do
  let self ← Op.get
  let _ ← self.isSoN
  let theta := Scalar.acos (((← self.trace) -ᶠ lit 1) /ᶠ lit 2)
  let transposedMat ← self.duplicate
  let transposedMat ← exec transposedMat transpose
  subInPlace transposedMat
  mulByScalarInPlace (theta /ᶠ (lit 2 *ᶠ Scalar.sin theta))

/-- `Matrix::adjugate_in_place` — linalg/src/matrix.rs:1761-1775. -/
def adjugateInPlace : Op LinalgError (Mat F) Unit := do
  let self ← Op.get
  let _ ← self.isSoN
  let determinant ← self.det
  transpose
  mulByScalarInPlace determinant

end Mat

namespace Linalg
variable {F : Type} [Scalar F]

/-- The local variables of `eigen` that survive an iteration — linalg/src/linalg.rs:102-134. -/
structure EigenState (F : Type) where
  a : Mat F
  i : Mat F
  q : Mat F
  r : Mat F
  eigenvectors : Mat F
  eigenvalues : Vec F
  previous : Vec F
  delta : Vec F

/-- The Wilkinson shift — linalg/src/linalg.rs:142-155. -/
def eigenShift (a : Mat F) (m : Nat) : Res LinalgError F := do
  let m2 ← (u8Sub F m 2 : Res LinalgError Nat)
  let a_ ← a.getElement m2 m2
  let b ← a.getElement m2 (← u8Sub F m 1)
  let c ← a.getElement (← u8Sub F m 1) (← u8Sub F m 1)
  let delta := (((a_ -ᶠ c) /ᶠ lit 2) *ᶠ ((a_ -ᶠ c) /ᶠ lit 2)) +ᶠ (b *ᶠ b)
  if a_ <ᶠ c then .ok (c -ᶠ (delta /ᶠ (Scalar.abs b +ᶠ Scalar.sqrt delta)))
  else .ok (c +ᶠ (delta /ᶠ (Scalar.abs b +ᶠ Scalar.sqrt delta)))

/-- The QR step of one iteration — linalg/src/linalg.rs:140-179. -/
def eigenQr (m : Nat) (shifted : Bool) (tmp : Mat F) (st : EigenState F) :
    Res LinalgError (Mat F × EigenState F) := do
  if shifted then do
    let s ← eigenShift st.a m
    let i ← exec st.i (Mat.mulByScalarInPlace s)
    let tmp ← exec tmp (Mat.sub st.a i)
    let a ← exec st.a (Mat.copyFrom tmp)
    let (qTmp, rTmp) ← a.qrDecomp
    let q ← exec st.q (Mat.copyFrom qTmp)
    let r ← exec st.r (Mat.copyFrom rTmp)
    let tmp ← exec tmp (Mat.mul r q)
    let a ← exec a (Mat.add tmp i)
    let i ← exec i Mat.fillIdentity
    .ok (tmp, { st with a := a, i := i, q := q, r := r })
  else do
    let (qTmp, rTmp) ← st.a.qrDecomp
    let q ← exec st.q (Mat.copyFrom qTmp)
    let r ← exec st.r (Mat.copyFrom rTmp)
    let a ← exec st.a (Mat.mul r q)
    .ok (tmp, { st with a := a, q := q, r := r })

/-- One iteration of `eigen` — linalg/src/linalg.rs:137-206.  The Boolean says whether the loop
goes on (`false` = `break`). -/
def eigenStep (m : Nat) (shifted : Bool) (st : EigenState F) :
    Res LinalgError (Bool × EigenState F) := do
  let tmp ← exec Mat.new (Mat.init m m)
  let (tmp, st) ← eigenQr m shifted tmp st
  let tmp ← exec tmp (Mat.mul st.eigenvectors st.q)
  let eigenvectors ← exec st.eigenvectors (Mat.copyFrom tmp)
  let eigenvalues ← foldRange 0 m
    (fun k (ev : Vec F) => do exec ev (Vec.setElement k (← st.a.getElement k k))) st.eigenvalues
  let delta ← exec st.delta (Vec.sub eigenvalues st.previous)
  let relativeVariation := (← delta.calculateNorm) /ᶠ (← eigenvalues.calculateNorm)
  if relativeVariation <ᶠ EPSILON then
    .ok (false, { st with eigenvectors := eigenvectors, eigenvalues := eigenvalues, delta := delta })
  else do
    let (eigenvalues, previous) ← foldRange 0 m
      (fun k (p : Vec F × Vec F) => do
        let ev ← exec p.1 (Vec.setElement k (lit 0))
        let pr ← exec p.2 (Vec.setElement k (← st.a.getElement k k))
        .ok (ev, pr)) (eigenvalues, st.previous)
    .ok (true, { st with
      eigenvectors := eigenvectors, eigenvalues := eigenvalues, previous := previous,
      delta := delta })

/-- `eigen` — linalg/src/linalg.rs:92-210. -/
def eigen (mat : Mat F) (niter : Nat) (shifted : Bool) : Res LinalgError (Vec F × Mat F) := do
  if !(← mat.isSquare) then fail .NotSquare
  else do
    let m ← mat.getRows
    let a ← exec Mat.new (Mat.init m m)
    let a ← exec a (Mat.copyFrom mat)
    let i ← exec Mat.new (Mat.init m m)
    let i ← exec i Mat.fillIdentity
    let q ← exec Mat.new (Mat.init m m)
    let r ← exec Mat.new (Mat.init m m)
    let eigenvectors ← exec Mat.new (Mat.init m m)
    let eigenvectors ← exec eigenvectors Mat.fillIdentity
    let eigenvalues ← exec Vec.new (Vec.init m)
    let previous ← exec Vec.new (Vec.init m)
    let delta ← exec Vec.new (Vec.init m)
    let st ← loopRange 0 niter (fun _ st => eigenStep m shifted st)
      { a := a, i := i, q := q, r := r, eigenvectors := eigenvectors, eigenvalues := eigenvalues,
        previous := previous, delta := delta }
    .ok (st.eigenvalues, st.eigenvectors)

end Linalg
end Verif
