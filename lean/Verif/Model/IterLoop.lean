import Verif.Model.Iter

/-!
Loops over the iterator of src/iter.rs.  `Iter` implements `next`, `next_back` and `size_hint` only (src/iter.rs:37-197,
src/lib.rs:166); `for`, `collect`, `count`, `nth`, `last`, `find`, `rev` and `len` are the provided methods of `core`'s
`Iterator`, `DoubleEndedIterator` and `ExactSizeIterator`, modelled after their default implementations.

A loop need not end (C44).  It gets a bound `n` on the number of its iterations, and `none` says that it has not ended
within it.
-/

set_option autoImplicit false

namespace Veb.Iter
variable {I A B C : Type}

/-- `Iterator::try_fold`: `while let Some(x) = self.next() { acc = f(acc, x)?; } acc`.  `f` returns the next
accumulator or breaks off; it is user code and may panic. -/
def tryFold (next : I → R (I × Option A)) (f : B → A → R (B ⊕ C)) : Nat → I → B → R (Option (I × (B ⊕ C)))
  | 0, _, _ => pure none
  | n + 1, it, b => do
    match (← next it) with
    | (it, none) => pure (some (it, .inl b))
    | (it, some a) =>
      match (← f b a) with
      | .inl b => tryFold next f n it b
      | .inr c => pure (some (it, .inr c))

/-- `Iterator::fold`, the `for` loop -/
def fold (next : I → R (I × Option A)) (f : B → A → R B) : Nat → I → B → R (Option B)
  | 0, _, _ => pure none
  | n + 1, it, b => do
    match (← next it) with
    | (_, none) => pure (some b)
    | (it, some a) => fold next f n it (← f b a)

/-- `Iterator::collect` into a `Vec` -/
def collect (next : I → R (I × Option A)) (n : Nat) (it : I) : R (Option (List A)) :=
  fold next (fun l a => pure (l ++ [a])) n it []
/-- `Iterator::count` -/
def count (next : I → R (I × Option A)) (n : Nat) (it : I) : R (Option Nat) :=
  fold next (fun c _ => addUsize c 1) n it 0
/-- `Iterator::last` -/
def last (next : I → R (I × Option A)) (n : Nat) (it : I) : R (Option (Option A)) :=
  fold next (fun _ a => pure (some a)) n it none
/-- `Iterator::find`; the iterator can be used afterwards -/
def findItem (next : I → R (I × Option A)) (p : A → Bool) (n : Nat) (it : I) : R (Option (I × (Unit ⊕ A))) :=
  tryFold next (fun _ a => pure (if p a then .inr a else .inl ())) n it ()
/-- `Iterator::nth`: `advance_by(n)`, which stops at the first `None`, then `next` -/
def nth (next : I → R (I × Option A)) : Nat → I → R (I × Option A)
  | 0, it => next it
  | n + 1, it => do
    match (← next it) with
    | (it, none) => pure (it, none)
    | (it, some _) => nth next n it

variable {T K V : Type} [VebTree T K V] [DecidableEq K]

/-- `ExactSizeIterator::len`: `let (lower, upper) = self.size_hint(); assert_eq!(upper, Some(lower)); lower` -/
def exactLen (it : Iter T K) : R Nat := do
  let (lower, upper) ← it.sizeHint
  if upper = some lower then pure lower else .error (.expect "assertion `left == right` failed")

end Veb.Iter
