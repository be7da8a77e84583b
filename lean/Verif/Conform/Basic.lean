import Verif.Model.Markers
import Verif.Model.Iter

/-!
# The crate's own unit tests, run on the model

The files in this directory transcribe the `#[cfg(test)]` modules of the crate, line by line, and let the kernel
evaluate them on the model.  They are *tests of the model*, not proofs about the code: each assertion that the crate's
authors expect of the Rust code must hold of the model too.  No property of MANIFEST.json rests on them.

A test is an `R Unit`; `assert` fails like `assert!`/`assert_eq!`.
-/

set_option autoImplicit false

namespace Veb.Conform

/-- `assert!(b)`; a failure is told apart from the panics of the code by its message. -/
def assert (b : Bool) : R Unit := if b then .ok () else .error (.expect "assertion failed")

/-- `Result::unwrap` (also `.ok().expect(..)`, `.ok().unwrap()`). -/
def unwrap {A E : Type} : Result A E → R A
  | .Ok a => .ok a
  | .Err _ => .error (.expect "unwrap")

/-- `Result::unwrap_err`. -/
def unwrapErr {A E : Type} : Result A E → R E
  | .Err a => .ok a
  | .Ok _ => .error (.expect "unwrap_err")

/-- `Option::unwrap`. -/
def get {A : Type} : Option A → R A := expect "unwrap"

/-- `Result::is_ok`. -/
def isOk {A E : Type} : Result A E → Bool
  | .Ok _ => true
  | .Err _ => false

/-- a `u8` literal -/
abbrev n8 (n : Nat) : U 8 := U.lit n
/-- a `u16` literal -/
abbrev n16 (n : Nat) : U 16 := U.lit n
/-- a `u32` literal -/
abbrev n32 (n : Nat) : U 32 := U.lit n
/-- an `i32` literal -/
abbrev i32 (n : Int) : S 32 := S.lit n

end Veb.Conform
