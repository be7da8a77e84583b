import Mathlib.Order.Basic
import Mathlib.Order.Defs.LinearOrder

/-!
Shared vocabulary of the model: panics, Rust's `Result`, and `Ord::cmp`.
-/

namespace Veb

/-- Ways in which the modelled code can panic.  `expect` carries the Rust message.
`debugAssert` is a failing `debug_assert!` (debug builds). `index` is an out-of-bounds slice /
`VecDeque` index. `arith` is an arithmetic over- or underflow (debug builds). -/
inductive Panic where
  | expect (msg : String)
  | unreachable
  | index
  | arith
  | debugAssert
  deriving DecidableEq, Repr

/-- Outcome of running Rust code: a value or a panic. -/
abbrev R := Except Panic

/-- Rust's `core::result::Result<A, E>`. -/
inductive Result (A E : Type) where
  | Ok (a : A)
  | Err (e : E)
  deriving DecidableEq, Repr

/-- `Option::expect(msg)`. -/
def expect {α : Type} (msg : String) : Option α → R α
  | some a => .ok a
  | none => .error (.expect msg)

@[simp] theorem expect_some {α : Type} (msg : String) (a : α) : expect msg (some a) = .ok a := rfl

/-- `debug_assert!(b)`, as in a debug build. -/
def debugAssert (b : Bool) : R Unit :=
  if b then .ok () else .error .debugAssert

@[simp] theorem debugAssert_true : debugAssert true = .ok () := rfl

/-- `a - b` on `usize` (panics on underflow in a debug build). -/
def subUsize (a b : Nat) : R Nat :=
  if b ≤ a then .ok (a - b) else .error .arith

/-- `usize::MAX` on a 64-bit target. -/
def usizeMax : Nat := 2 ^ 64 - 1

/-- `a + b` on `usize` (panics on overflow in a debug build). -/
def addUsize (a b : Nat) : R Nat :=
  if a + b ≤ usizeMax then .ok (a + b) else .error .arith

/-- `seq[i]` on a `VecDeque`/slice. -/
def index {α : Type} (l : List α) (i : Nat) : R α :=
  match l[i]? with
  | some a => .ok a
  | none => .error .index

/-- `Ord::cmp`.  Key types are totally ordered; `Ord`/`PartialOrd`/`Eq` are assumed to agree. -/
def cmp {K : Type} [LinearOrder K] (a b : K) : Ordering :=
  if a < b then .lt else if a = b then .eq else .gt

/-! `R` is `Except`; these let `simp` run straight-line model code. -/
@[simp] theorem R.ok_bind {α β : Type} (a : α) (f : α → R β) :
    (Except.ok a >>= f : R β) = f a := rfl
@[simp] theorem R.pure_eq {α : Type} (a : α) : (pure a : R α) = .ok a := rfl

end Veb
