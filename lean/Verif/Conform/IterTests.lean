import Verif.Conform.Basic

/-!
Tests of src/iter.rs:199-764.
-/

set_option autoImplicit false
set_option maxRecDepth 100000

namespace Veb.Conform
open VebTree

/-- `U16Tree`, src/iter.rs:208 -/
abbrev U16Tree := Map16 (U 16) Int

/-- Insert a list of entries; the first one by `from_monad`. -/
def build {T K V : Type} [VebTree T K V] (k : K) (v : V) (l : List (K × V)) : R T :=
  l.foldlM (fun t p => do pure (← insert t p.1 p.2).1) (fromMonad k v)

/-- `i32` values as they occur: `u16` key and value. -/
def e (k : Nat) (v : Int) : U 16 × Int := (n16 k, v)

section
variable {T K V : Type} [VebTree T K V] [LinearOrder K] [DecidableEq V]

/-- `Iter` calls: `f` is `next`, `b` is `next_back`; with the item expected. -/
inductive Step (K V : Type) where
  | f (o : Option (K × V))
  | b (o : Option (K × V))
  /-- only the key is compared -/
  | fk (o : Option K)
  | bk (o : Option K)
  | hint (h : Nat × Option Nat)

def steps (it : Iter T K) : List (Step K V) → R Unit
  | [] => pure ()
  | .f o :: l => do
    let (it, r) ← it.next
    assert (r == o)
    steps it l
  | .b o :: l => do
    let (it, r) ← it.nextBack
    assert (r == o)
    steps it l
  | .fk o :: l => do
    let (it, r) ← it.next
    assert (r.map Prod.fst == o)
    steps it l
  | .bk o :: l => do
    let (it, r) ← it.nextBack
    assert (r.map Prod.fst == o)
    steps it l
  | .hint h :: l => do
    assert ((← it.sizeHint) == h)
    steps it l

/-- `Iterator::collect` (and of `rev()`), with fuel. -/
def collect (next : Iter T K → R (Iter T K × Option (K × V))) : Nat → Iter T K → R (List (K × V))
  | 0, _ => .error (.expect "fuel")
  | n + 1, it => do
    match (← next it) with
    | (_, none) => pure []
    | (it, some kv) => do pure (kv :: (← collect next n it))
end

/-- src/iter.rs:223-241 -/
def iterSingleElement : R Unit :=
  steps (Iter.new (fromMonad (n16 42) 100 : SizedVebTree U16Tree))
    [.hint (1, some 1), .f (some (e 42 100)), .hint (0, some 0), .f none, .hint (0, some 0)]
example : iterSingleElement = .ok () := by decide +kernel

/-- src/iter.rs:243-260 -/
def iterSingleElementBackwards : R Unit :=
  steps (Iter.new (fromMonad (n16 42) 100 : SizedVebTree U16Tree))
    [.hint (1, some 1), .b (some (e 42 100)), .hint (0, some 0), .b none]
example : iterSingleElementBackwards = .ok () := by decide +kernel

/-- src/iter.rs:262-283 -/
def iterTwoElementsForward : R Unit := do
  let tree : SizedVebTree U16Tree ← build (n16 10) 1 [e 20 2]
  steps (Iter.new tree) [.hint (2, some 2), .f (some (e 10 1)), .hint (1, some 1), .f (some (e 20 2)),
    .hint (0, some 0), .f none, .hint (0, some 0)]
example : iterTwoElementsForward = .ok () := by decide +kernel

/-- src/iter.rs:285-301 -/
def iterTwoElementsBackward : R Unit := do
  let tree : U16Tree ← build (n16 10) 1 [e 20 2]
  steps (Iter.new tree) [.b (some (e 20 2)), .b (some (e 10 1)), .b none]
example : iterTwoElementsBackward = .ok () := by decide +kernel

/-- src/iter.rs:303-326 -/
def iterStartToFront : R Unit := do
  let tree : U16Tree ← build (n16 10) 1 [e 20 2, e 30 3]
  steps (Iter.new tree) [.fk (some (n16 10)), .fk (some (n16 20)), .fk (some (n16 30)), .f none]
example : iterStartToFront = .ok () := by decide +kernel

/-- src/iter.rs:328-351 -/
def iterStartToBack : R Unit := do
  let tree : U16Tree ← build (n16 10) 1 [e 20 2, e 30 3]
  steps (Iter.new tree) [.bk (some (n16 30)), .bk (some (n16 20)), .bk (some (n16 10)), .b none]
example : iterStartToBack = .ok () := by decide +kernel

/-- src/iter.rs:353-385 -/
def iterFrontToBoth : R Unit := do
  let tree : U16Tree ← build (n16 10) 1 [e 20 2, e 30 3, e 40 4]
  steps (Iter.new tree) [.fk (some (n16 10)), .bk (some (n16 40)), .fk (some (n16 20)), .bk (some (n16 30)),
    .f none, .b none]
example : iterFrontToBoth = .ok () := by decide +kernel

/-- src/iter.rs:387-417 -/
def iterBackToBoth : R Unit := do
  let tree : U16Tree ← build (n16 10) 1 [e 20 2, e 30 3, e 40 4]
  steps (Iter.new tree) [.bk (some (n16 40)), .fk (some (n16 10)), .fk (some (n16 20)), .bk (some (n16 30)), .f none]
example : iterBackToBoth = .ok () := by decide +kernel

/-- src/iter.rs:419-454 -/
def iterAlternatingDirections : R Unit := do
  let tree : U16Tree ← build (n16 10) 1 [e 20 2, e 30 3, e 40 4, e 50 5]
  steps (Iter.new tree) [.fk (some (n16 10)), .bk (some (n16 50)), .fk (some (n16 20)), .fk (some (n16 30)),
    .bk (some (n16 40)), .f none, .b none]
example : iterAlternatingDirections = .ok () := by decide +kernel

/-- src/iter.rs:456-483 -/
def iterMeetInMiddle : R Unit := do
  let tree : U16Tree ← build (n16 10) 1 [e 20 2, e 30 3]
  steps (Iter.new tree) [.fk (some (n16 10)), .bk (some (n16 30)), .fk (some (n16 20)), .f none, .b none]
example : iterMeetInMiddle = .ok () := by decide +kernel

/-- src/iter.rs:485-508 -/
def iterSizeHintTracking : R Unit := do
  let tree : SizedVebTree U16Tree ← build (n16 10) 1 [e 20 2, e 30 3, e 40 4]
  steps (Iter.new tree) [.hint (4, some 4), .fk (some (n16 10)), .hint (3, some 3), .fk (some (n16 20)),
    .hint (2, some 2), .bk (some (n16 40)), .hint (1, some 1), .fk (some (n16 30)), .hint (0, some 0)]
example : iterSizeHintTracking = .ok () := by decide +kernel

/-- The tree with the entries `(i, i)`, `0 ≤ i < n`. -/
def upTo (n : Nat) : R U16Tree := build (n16 0) 0 ((List.range (n - 1)).map fun i => e (i + 1) (i + 1))

/-- src/iter.rs:510-525 -/
def iterManyElements : R Unit := do
  let l ← collect Iter.next 101 (Iter.new (← upTo 100))
  assert (l == (List.range 100).map fun i => e i i)
example : iterManyElements = .ok () := by decide +kernel

/-- src/iter.rs:527-548 -/
def iterBackwardsManyElements : R Unit := do
  let l ← collect Iter.nextBack 101 (Iter.new (← upTo 100))
  assert (l == (List.range 100).map fun i => e (99 - i) (99 - i : Nat))
example : iterBackwardsManyElements = .ok () := by decide +kernel

/-- src/iter.rs:550-573 -/
def iterBothStateCorrectTermination : R Unit := do
  let tree : U16Tree ← build (n16 5) 5 [e 10 10, e 15 15, e 20 20, e 25 25]
  steps (Iter.new tree) [.fk (some (n16 5)), .bk (some (n16 25)), .fk (some (n16 10)), .bk (some (n16 20)),
    .fk (some (n16 15)), .f none, .b none]
example : iterBothStateCorrectTermination = .ok () := by decide +kernel

/-- src/iter.rs:575-591 -/
def iterAfterExhaustion : R Unit :=
  steps (Iter.new (fromMonad (n16 42) 100 : U16Tree)) [.fk (some (n16 42)), .f none, .f none, .f none, .b none, .b none]
example : iterAfterExhaustion = .ok () := by decide +kernel

/-- src/iter.rs:593-605 -/
def iterEmptyAfterRemoval : R Unit := do
  let tree : U16Tree ← build (n16 10) 1 [e 20 2]
  let (tree, _) ← unwrap (← remove tree (n16 10))
  let (tree, _) ← unwrap (← remove (← get tree) (n16 20))
  assert tree.isNone
example : iterEmptyAfterRemoval = .ok () := by decide +kernel

/-- src/iter.rs:607-626 -/
def sizedIterExactSize : R Unit := do
  let tree : SizedVebTree U16Tree ← build (n16 10) 1 [e 20 2, e 30 3]
  steps (Iter.new tree) [.hint (3, some 3), .fk (some (n16 10)), .hint (2, some 2), .fk (some (n16 20)),
    .hint (1, some 1), .fk (some (n16 30)), .hint (0, some 0)]
example : sizedIterExactSize = .ok () := by decide +kernel

/-- src/iter.rs:628-645 (the map is built by `BTreeMap::insert` there) -/
def btreeMapIterCompatibility : R Unit := do
  let tree : BTreeMap (U 32) String ← build (n32 10) "ten" [(n32 20, "twenty"), (n32 30, "thirty")]
  steps (Iter.new tree) [.f (some (n32 10, "ten")), .b (some (n32 30, "thirty")), .f (some (n32 20, "twenty")), .f none]
example : btreeMapIterCompatibility = .ok () := by decide +kernel

/-- src/iter.rs:647-662 -/
def iterWithU32Keys : R Unit := do
  let tree : Map32 (U 32) String ← build (n32 1000) "a" [(n32 2000, "b"), (n32 3000, "c"), (n32 4000, "d")]
  assert ((← collect Iter.next 5 (Iter.new tree)) == [(n32 1000, "a"), (n32 2000, "b"), (n32 3000, "c"), (n32 4000, "d")])
example : iterWithU32Keys = .ok () := by decide +kernel

/-- src/iter.rs:664-677 -/
def iterFusedProperty : R Unit :=
  steps (Iter.new (fromMonad (n16 42) 100 : U16Tree)) (.fk (some (n16 42)) :: List.replicate 11 (.f none))
example : iterFusedProperty = .ok () := by decide +kernel

/-- src/iter.rs:679-694 -/
def iterValuesCorrectness : R Unit := do
  let tree : U16Tree ← build (n16 5) 10 [e 15 30, e 10 20, e 20 40]
  assert ((← collect Iter.next 5 (Iter.new tree)) == [e 5 10, e 10 20, e 15 30, e 20 40])
example : iterValuesCorrectness = .ok () := by decide +kernel

/-- src/iter.rs:696-710 -/
def iterSingleNextAfterNextBack : R Unit := do
  let tree : U16Tree ← build (n16 10) 1 [e 20 2]
  steps (Iter.new tree) [.bk (some (n16 20)), .fk (some (n16 10)), .f none]
example : iterSingleNextAfterNextBack = .ok () := by decide +kernel

/-- src/iter.rs:712-733 -/
def iterConsumesAllInBothState : R Unit := do
  let tree : U16Tree ← build (n16 1) 1 ((List.range 9).map fun i => e (i + 2) (i + 2))
  let (it, _) ← (Iter.new tree : Iter U16Tree (U 16)).next
  let (it, _) ← it.nextBack
  assert ((← collect Iter.next 11 it).length + 1 == 9)
example : iterConsumesAllInBothState = .ok () := by decide +kernel

/-- src/iter.rs:735-763 -/
def iterMixedPatternStress : R Unit := do
  let tree ← upTo 50
  let (it, _, _) ← (List.range 10).foldlM (fun (it, f, b) _ => do
      let (it, r) ← it.next
      assert (r.map Prod.fst == some (n16 f))
      let (it, r) ← it.next
      assert (r.map Prod.fst == some (n16 (f + 1)))
      let (it, r) ← it.nextBack
      assert (r.map Prod.fst == some (n16 b))
      pure (it, f + 2, b - 1)) ((Iter.new tree : Iter U16Tree (U 16)), 0, 49)
  assert ((← collect Iter.next 51 it).map Prod.fst == (List.range' 20 20).map n16)
example : iterMixedPatternStress = .ok () := by decide +kernel

end Veb.Conform
