import Verif.Conform.Basic

/-!
Tests of src/tree.rs:739-1150.
-/

set_option autoImplicit false
set_option maxRecDepth 100000

namespace Veb.Conform
open VebTree

/-- What `assert_eq!` sees of a `…_mut` call: key and value. -/
def seen {K V T : Type} : Option (K × V × (V → T)) → Option (K × V)
  | none => none
  | some (k, v, _) => some (k, v)

/-- `verify`, src/tree.rs:749-795, for `u16` keys. `table` has for each queried key the expected answers of
`find`, `predecessor`, `successor`. -/
def verify (t : Map16 (U 16) String) (table : List (Nat × Option (Nat × String) × Option (Nat × String) × Option (Nat × String))) :
    R Unit := do
  let lit : Option (Nat × String) → Option (U 16 × String) := fun o => o.map fun p => (n16 p.1, p.2)
  for (i, f, p, s) in table do
    assert ((← find t (n16 i)) == lit f)
    assert (seen (← findMut t (n16 i)) == lit f)
    assert ((← predecessor t (n16 i)) == lit p)
    assert (seen (← predecessorMut t (n16 i)) == lit p)
    assert ((← successor t (n16 i)) == lit s)
    assert (seen (← successorMut t (n16 i)) == lit s)

/-- src/tree.rs:797-806 (the values are pairs of floats there) -/
def simple2 : R Unit := do
  let v : Map32 (S 32) (Nat × Nat) := fromMonad (i32 10) (2, 5)
  assert ((← minVal v) == (i32 10, (2, 5)))
  assert ((← maxVal v) == (i32 10, (2, 5)))
  let (v, _) ← insert v (i32 15) (3, 1)
  assert ((← minVal v) == (i32 10, (2, 5)))
  assert ((← maxVal v) == (i32 15, (3, 1)))
example : simple2 = .ok () := by decide +kernel

/-- src/tree.rs:807-999 -/
def simple : R Unit := do
  let a : Option (Nat × String) := some (10, "a")
  let b : Option (Nat × String) := some (15, "b")
  let c : Option (Nat × String) := some (13, "c")
  let v : Map16 (U 16) String := fromMonad (n16 10) "a"
  assert ((← minVal v) == (n16 10, "a"))
  assert ((← maxVal v) == (n16 10, "a"))
  verify v [(9, none, none, a), (10, a, none, none), (11, none, a, none), (12, none, a, none), (13, none, a, none),
    (14, none, a, none), (15, none, a, none), (16, none, a, none)]
  let (v, _) ← insert v (n16 15) "b"
  assert ((← minVal v) == (n16 10, "a"))
  assert ((← maxVal v) == (n16 15, "b"))
  verify v [(9, none, none, a), (10, a, none, b), (11, none, a, b), (12, none, a, b), (13, none, a, b),
    (14, none, a, b), (15, b, a, none), (16, none, b, none)]
  let (v, _) ← insert v (n16 13) "c"
  assert ((← minVal v) == (n16 10, "a"))
  assert ((← maxVal v) == (n16 15, "b"))
  let three := [(9, none, none, a), (10, a, none, c), (11, none, a, c), (12, none, a, c), (13, c, a, b),
    (14, none, c, b), (15, b, c, none), (16, none, b, none)]
  verify v three
  let (v, _) ← insert v (n16 14) "d"
  let (v, r) ← unwrap (← remove v (n16 14))
  let v ← get v
  assert (r == (n16 14, "d"))
  verify v three
  let (v, r) ← unwrap (← remove v (n16 15))
  let v ← get v
  assert (r == (n16 15, "b"))
  assert ((← minVal v) == (n16 10, "a"))
  assert ((← maxVal v) == (n16 13, "c"))
  verify v [(9, none, none, a), (10, a, none, c), (11, none, a, c), (12, none, a, c), (13, c, a, none),
    (14, none, c, none), (15, none, c, none), (16, none, c, none)]
example : simple = .ok () := by decide +kernel

/-- src/tree.rs:1001-1022 -/
def monadTransitions : R Unit := do
  let v : Map16 (U 16) Int := fromMonad (n16 10) 100
  assert (← isMonad v)
  let (v, _) ← insert v (n16 20) 200
  assert (!(← isMonad v))
  let (tree, kv) ← unwrap (← remove v (n16 20))
  assert (kv == (n16 20, 200))
  let v ← get tree
  assert (← isMonad v)
  assert ((← minVal v).1 == n16 10)
  assert ((← maxVal v).1 == n16 10)
example : monadTransitions = .ok () := by decide +kernel

/-- src/tree.rs:1024-1044 -/
def boundaryPredecessorSuccessor : R Unit := do
  let v : Map16 (U 16) String := fromMonad (n16 10) "a"
  let (v, _) ← insert v (n16 20) "b"
  let (v, _) ← insert v (n16 30) "c"
  assert ((← predecessor v (n16 10)) == none)
  assert ((← predecessor v (n16 9)) == none)
  assert ((← predecessor v (n16 0)) == none)
  assert ((← successor v (n16 30)) == none)
  assert ((← successor v (n16 31)) == none)
  assert ((← successor v (n16 65535)) == none)
  assert ((← predecessor v (n16 11)) == some (n16 10, "a"))
  assert ((← successor v (n16 29)) == some (n16 30, "c"))
example : boundaryPredecessorSuccessor = .ok () := by decide +kernel

/-- src/tree.rs:1046-1074 -/
def removeMinMaxOperations : R Unit := do
  let v : Map16 (U 16) Int := fromMonad (n16 10) 100
  let (v, _) ← insert v (n16 20) 200
  let (v, _) ← insert v (n16 30) 300
  let (v, _) ← insert v (n16 40) 400
  let (tree, kv) ← removeMin v
  assert (kv == (n16 10, 100))
  let v ← get tree
  assert ((← minVal v).1 == n16 20)
  let (tree, kv) ← removeMax v
  assert (kv == (n16 40, 400))
  let v ← get tree
  assert ((← maxVal v).1 == n16 30)
  let (tree, _) ← removeMin v
  let v ← get tree
  assert (← isMonad v)
  let (tree, kv) ← removeMin v
  assert (kv == (n16 30, 300))
  assert tree.isNone
example : removeMinMaxOperations = .ok () := by decide +kernel

/-- src/tree.rs:1076-1085 -/
def insertReplaceExisting : R Unit := do
  let v : Map16 (U 16) String := fromMonad (n16 10) "old"
  let (v, replaced) ← insert v (n16 10) "new"
  assert (replaced == some (n16 10, "old"))
  assert ((← find v (n16 10)) == some (n16 10, "new"))
example : insertReplaceExisting = .ok () := by decide +kernel

/-- src/tree.rs:1087-1101 -/
def removeNonexistentKey : R Unit := do
  let v : Map16 (U 16) Int := fromMonad (n16 10) 100
  let (v, _) ← insert v (n16 20) 200
  let v ← unwrapErr (← remove v (n16 15))
  assert (← find v (n16 10)).isSome
  assert (← find v (n16 20)).isSome
example : removeNonexistentKey = .ok () := by decide +kernel

/-- src/tree.rs:1103-1128 -/
def operationsOnLargeTree : R Unit := do
  let v ← (List.range 99).foldlM (fun v i => do pure (← insert v (n16 ((i + 1) * 10)) ((i + 1) * 10)).1)
    (fromMonad (n16 0) 0 : Map16 (U 16) Nat)
  for i in List.range 100 do
    assert ((← find v (n16 (i * 10))) == some (n16 (i * 10), i * 10))
  assert ((← minVal v).1 == n16 0)
  assert ((← maxVal v).1 == n16 990)
  assert ((← predecessor v (n16 505)) == some (n16 500, 500))
  assert ((← successor v (n16 505)) == some (n16 510, 510))
example : operationsOnLargeTree = .ok () := by decide +kernel

/-- src/tree.rs:1130-1139 -/
def intoMonadError : R Unit := do
  let v : Map16 (U 16) Int := fromMonad (n16 10) 100
  let (v, _) ← insert v (n16 20) 200
  assert (!isOk (← intoMonad v))
example : intoMonadError = .ok () := by decide +kernel

/-- src/tree.rs:1141-1149 -/
def intoMonadSuccess : R Unit := do
  let v : Map16 (U 16) Int := fromMonad (n16 42) 100
  assert ((← unwrap (← intoMonad v)) == (n16 42, 100))
example : intoMonadSuccess = .ok () := by decide +kernel

end Veb.Conform
