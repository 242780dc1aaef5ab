/-
Effects used by the model: Rust `Result`s, panics, `&mut self` methods and `for` loops.
-/

namespace Verif

/-- How a Rust call can fail to return `Ok`: it returns `Err(e)`, or it panics. -/
inductive Fail (ε : Type) where
  | err (e : ε)
  | panic
  deriving DecidableEq, Repr

/-- Result of a Rust function returning `Result<α, ε>` (and possibly panicking). -/
abbrev Res (ε α : Type) : Type := Except (Fail ε) α

/-- `return Err(e)`. -/
@[reducible] def fail {ε α : Type} (e : ε) : Res ε α := .error (.err e)

/-- `result.map_err(f)?` / the `From` conversion applied by `?`. A panic stays a panic. -/
def Res.mapErr {ε ε' α : Type} (f : ε → ε') : Res ε α → Res ε' α
  | .ok a => .ok a
  | .error (.err e) => .error (.err (f e))
  | .error .panic => .error .panic

/-- A `&mut self` method on an object of type `σ`.  The object is returned in all cases, so that
whatever was written before an error (or a panic) remains visible. -/
def Op (ε σ α : Type) : Type := σ → Res ε α × σ

namespace Op
variable {ε ε' σ τ α β : Type}

@[inline] protected def pure (a : α) : Op ε σ α := fun s => (.ok a, s)

/-- Sequencing with `?`: on failure the rest is skipped and the current state is kept. -/
@[inline] protected def bind (m : Op ε σ α) (f : α → Op ε σ β) : Op ε σ β := fun s =>
  match m s with
  | (.ok a, s') => f a s'
  | (.error e, s') => (.error e, s')

instance : Monad (Op ε σ) where
  pure := Op.pure
  bind := Op.bind

/-- Read the object. -/
@[inline] def get : Op ε σ σ := fun s => (.ok s, s)

/-- Overwrite the object. -/
@[inline] def set (s : σ) : Op ε σ Unit := fun _ => (.ok (), s)

/-- Change the object. -/
@[inline] def modify (f : σ → σ) : Op ε σ Unit := fun s => (.ok (), f s)

/-- Use a read-only computation inside a method. -/
@[inline] def lift (r : Res ε α) : Op ε σ α := fun s => (r, s)

instance : MonadLift (Except (Fail ε)) (Op ε σ) := ⟨Op.lift⟩

/-- `return Err(e)` inside a method. -/
@[inline] def fail (e : ε) : Op ε σ α := fun s => (.error (.err e), s)

/-- Call a method on a field of the object. -/
@[inline] def zoom (get : σ → τ) (put : τ → σ → σ) (m : Op ε τ α) : Op ε σ α := fun s =>
  ((m (get s)).1, put (m (get s)).2 s)

/-- Error conversion (`map_err`, or `From` used by `?`). -/
@[inline] def mapErr (f : ε → ε') (m : Op ε σ α) : Op ε' σ α := fun s =>
  (Res.mapErr f (m s).1, (m s).2)

end Op

/-- Call a method on a local variable: the updated local is returned; on failure it is dropped
(the enclosing function returns early with `?`). -/
def exec {ε σ α : Type} (s : σ) (m : Op ε σ α) : Res ε σ :=
  match m s with
  | (.ok _, s') => .ok s'
  | (.error e, _) => .error e

/-- Like `exec`, also returning the value of the call. -/
def execVal {ε σ α : Type} (s : σ) (m : Op ε σ α) : Res ε (α × σ) :=
  match m s with
  | (.ok a, s') => .ok (a, s')
  | (.error e, _) => .error e

/-- `for i in lo..lo+len { body(i)?; }` in a method. -/
def forFrom {ε σ : Type} (lo : Nat) : (len : Nat) → (body : Nat → Op ε σ Unit) → Op ε σ Unit
  | 0, _ => Op.pure ()
  | len + 1, body => Op.bind (body lo) fun _ => forFrom (lo + 1) len body

/-- `for i in lo..hi { body(i)?; }` in a method. -/
def forRange {ε σ : Type} (lo hi : Nat) (body : Nat → Op ε σ Unit) : Op ε σ Unit :=
  forFrom lo (hi - lo) body

/-- `for i in (lo..lo+len).rev() { body(i)?; }` in a method. -/
def forFromRev {ε σ : Type} (lo : Nat) : (len : Nat) → (body : Nat → Op ε σ Unit) → Op ε σ Unit
  | 0, _ => Op.pure ()
  | len + 1, body => Op.bind (body (lo + len)) fun _ => forFromRev lo len body

/-- `for i in (lo..hi).rev() { body(i)?; }` in a method. -/
def forRangeRev {ε σ : Type} (lo hi : Nat) (body : Nat → Op ε σ Unit) : Op ε σ Unit :=
  forFromRev lo (hi - lo) body

/-- `for i in lo..lo+len { acc = body(i, acc)?; }` over local variables `acc`. -/
def foldFrom {ε β : Type} (lo : Nat) : (len : Nat) → (body : Nat → β → Res ε β) → β → Res ε β
  | 0, _, acc => .ok acc
  | len + 1, body, acc =>
    match body lo acc with
    | .ok acc' => foldFrom (lo + 1) len body acc'
    | .error e => .error e

/-- `for i in lo..hi { acc = body(i, acc)?; }` over local variables `acc`. -/
def foldRange {ε β : Type} (lo hi : Nat) (body : Nat → β → Res ε β) (acc : β) : Res ε β :=
  foldFrom lo (hi - lo) body acc

/-- `for i in (lo..lo+len).rev() { acc = body(i, acc)?; }`. -/
def foldFromRev {ε β : Type} (lo : Nat) : (len : Nat) → (body : Nat → β → Res ε β) → β → Res ε β
  | 0, _, acc => .ok acc
  | len + 1, body, acc =>
    match body (lo + len) acc with
    | .ok acc' => foldFromRev lo len body acc'
    | .error e => .error e

/-- `for i in (lo..hi).rev() { acc = body(i, acc)?; }`. -/
def foldRangeRev {ε β : Type} (lo hi : Nat) (body : Nat → β → Res ε β) (acc : β) : Res ε β :=
  foldFromRev lo (hi - lo) body acc

/-- `for i in lo..lo+len { if !body(i)? { return Ok(false); } } Ok(true)`. -/
def allFrom {ε : Type} (lo : Nat) : (len : Nat) → (body : Nat → Res ε Bool) → Res ε Bool
  | 0, _ => .ok true
  | len + 1, body =>
    match body lo with
    | .ok true => allFrom (lo + 1) len body
    | .ok false => .ok false
    | .error e => .error e

/-- `for i in lo..hi { if !body(i)? { return Ok(false); } } Ok(true)`. -/
def allRange {ε : Type} (lo hi : Nat) (body : Nat → Res ε Bool) : Res ε Bool :=
  allFrom lo (hi - lo) body

/-- `for i in lo..lo+len { …; break; }`: the body says whether the loop goes on. -/
def loopFrom {ε β : Type} (lo : Nat) : (len : Nat) → (body : Nat → β → Res ε (Bool × β)) → β →
    Res ε β
  | 0, _, acc => .ok acc
  | len + 1, body, acc =>
    match body lo acc with
    | .ok (true, acc') => loopFrom (lo + 1) len body acc'
    | .ok (false, acc') => .ok acc'
    | .error e => .error e

/-- `for i in lo..hi { …; break; }`: the body says whether the loop goes on. -/
def loopRange {ε β : Type} (lo hi : Nat) (body : Nat → β → Res ε (Bool × β)) (acc : β) :
    Res ε β :=
  loopFrom lo (hi - lo) body acc

/-- Access to a fixed-size array: an index outside panics. -/
def arrGet {ε T : Type} {n : Nat} (a : Fin n → T) (i : Nat) : Res ε T :=
  if h : i < n then .ok (a ⟨i, h⟩) else .error .panic

/-- Write to a fixed-size array: an index outside panics. -/
def arrSet {ε T : Type} {n : Nat} (a : Fin n → T) (i : Nat) (v : T) : Res ε (Fin n → T) :=
  if i < n then .ok (fun j => if j.val = i then v else a j) else .error .panic

end Verif
