import Verif.Conform.Basic

/-!
Tests of src/lib.rs:582-730, src/bitset/set.rs:247-379 and src/bitset/map/mod.rs:302-317.
-/

set_option autoImplicit false
set_option maxRecDepth 100000

namespace Veb.Conform
open VebTree

/-! ## src/lib.rs -/

/-- src/lib.rs:587-601 -/
def btreemapBasicOperations : R Unit := do
  let tree : BTreeMap (U 32) String := fromMonad (n32 10) "ten"
  assert (← isMonad tree)
  assert ((← find tree (n32 10)) == some (n32 10, "ten"))
  assert ((← find tree (n32 20)) == none)
  let (tree, _) ← insert tree (n32 20) "twenty"
  assert (!(← isMonad tree))
  assert ((← find tree (n32 20)) == some (n32 20, "twenty"))
example : btreemapBasicOperations = .ok () := by decide +kernel

/-- src/lib.rs:603-611 -/
def btreemapMinMax : R Unit := do
  let tree : BTreeMap (U 32) Int := fromMonad (n32 50) 500
  let (tree, _) ← insert tree (n32 10) 100
  let (tree, _) ← insert tree (n32 90) 900
  assert ((← minVal tree) == (n32 10, 100))
  assert ((← maxVal tree) == (n32 90, 900))
example : btreemapMinMax = .ok () := by decide +kernel

/-- src/lib.rs:613-629 -/
def btreemapPredecessorSuccessor : R Unit := do
  let tree : BTreeMap (U 32) String := fromMonad (n32 10) "a"
  let (tree, _) ← insert tree (n32 20) "b"
  let (tree, _) ← insert tree (n32 30) "c"
  assert ((← predecessor tree (n32 25)) == some (n32 20, "b"))
  assert ((← successor tree (n32 15)) == some (n32 20, "b"))
  assert ((← predecessor tree (n32 10)) == none)
  assert ((← successor tree (n32 30)) == none)
example : btreemapPredecessorSuccessor = .ok () := by decide +kernel

/-- src/lib.rs:631-651 -/
def btreemapRemoveOperations : R Unit := do
  let tree : BTreeMap (U 32) Int := fromMonad (n32 10) 100
  let (tree, _) ← insert tree (n32 20) 200
  let (tree, _) ← insert tree (n32 30) 300
  let (remaining, kv) ← unwrap (← remove tree (n32 20))
  assert (kv == (n32 20, 200))
  let (remaining, kv) ← removeMin (← get remaining)
  assert (kv == (n32 10, 100))
  let (remaining, kv) ← removeMax (← get remaining)
  assert (kv == (n32 30, 300))
  assert remaining.isNone
example : btreemapRemoveOperations = .ok () := by decide +kernel

/-- src/lib.rs:653-660 -/
def btreemapInsertReplace : R Unit := do
  let tree : BTreeMap (U 32) String := fromMonad (n32 10) "old"
  let (tree, replaced) ← insert tree (n32 10) "new"
  assert (replaced == some (n32 10, "old"))
  assert ((← find tree (n32 10)) == some (n32 10, "new"))
example : btreemapInsertReplace = .ok () := by decide +kernel

/-- src/lib.rs:662-668 -/
def btreemapIntoMonad : R Unit := do
  let tree : BTreeMap (U 32) Int := fromMonad (n32 42) 100
  assert ((← unwrap (← intoMonad tree)) == (n32 42, 100))
example : btreemapIntoMonad = .ok () := by decide +kernel

/-- src/lib.rs:670-694 -/
def sizedLenTracking : R Unit := do
  let tree : SizedVebTree (Map16 (U 16) Int) := fromMonad (n16 10) 100
  assert (tree.len == 1)
  assert ((← lenHint tree) == (1, some 1))
  let (tree, _) ← insert tree (n16 20) 200
  assert (tree.len == 2)
  let (tree, _) ← insert tree (n16 30) 300
  assert (tree.len == 3)
  let (tree, _) ← insert tree (n16 20) 250
  assert (tree.len == 3)
  let (remaining, _) ← unwrap (← remove tree (n16 20))
  let tree ← get remaining
  assert (tree.len == 2)
example : sizedLenTracking = .ok () := by decide +kernel

/-- src/lib.rs:696-710 -/
def sizedRemoveAll : R Unit := do
  let tree : SizedVebTree (Map16 (U 16) Int) := fromMonad (n16 10) 100
  let (tree, _) ← insert tree (n16 20) 200
  let (tree, _) ← removeMin tree
  let tree ← get tree
  assert (tree.len == 1)
  let (tree, _) ← removeMax tree
  assert tree.isNone
example : sizedRemoveAll = .ok () := by decide +kernel

/-- src/lib.rs:712-729; the removal is called on the boxed tree itself -/
def boxOperations : R Unit := do
  let tree : Box (Map16 (U 16) String) := fromMonad (n16 10) "a"
  assert (← isMonad tree)
  let (tree, _) ← insert tree (n16 20) "b"
  assert (!(← isMonad tree))
  assert ((← minVal tree).1 == n16 10)
  assert ((← maxVal tree).1 == n16 20)
  let (remaining, kv) ← unwrap (← remove tree.val (n16 10))
  assert (kv == (n16 10, "a"))
  assert remaining.isSome
example : boxOperations = .ok () := by decide +kernel

/-! ## src/bitset/set.rs -/

/-- src/bitset/set.rs:251-266 -/
def testMasks : R Unit := do
  for i in List.range 128 do
    assert (decide (ByteSet.maskLower (n8 i) = ⟨(1#128 <<< i) - 1, 0#128⟩))
  for i in List.range 127 do
    assert (decide (ByteSet.maskLower (n8 (128 + i)) = ⟨wordMax, (1#128 <<< i) - 1⟩))
  for i in List.range 256 do
    assert (decide (ByteSet.andWords (ByteSet.maskLower (n8 i)) (fromMonad (n8 i) ()) = ⟨0#128, 0#128⟩))
example : testMasks = .ok () := by decide +kernel

/-- src/bitset/set.rs:268-342 -/
def testMaskHigher : R Unit := do
  assert (decide (ByteSet.maskHigher (n8 0) = ⟨wordMax <<< 1, wordMax⟩))
  assert (decide (ByteSet.maskHigher (n8 255) = ⟨0#128, 0#128⟩))
  for i in List.range 127 do
    assert (decide (ByteSet.maskHigher (n8 i) = ⟨← get (checkedShl wordMax (1 + i)), wordMax⟩))
  assert (decide (ByteSet.maskHigher (n8 127) = ⟨0#128, wordMax⟩))
  for i in List.range' 128 127 do
    assert (decide (ByteSet.maskHigher (n8 i) = ⟨0#128, ← get (checkedShl wordMax (i - 127))⟩))
  for i in List.range 256 do
    assert (decide (ByteSet.andWords (ByteSet.maskHigher (n8 i)) (fromMonad (n8 i) ()) = ⟨0#128, 0#128⟩))
  for i in List.range 256 do
    let lower := ByteSet.maskLower (n8 i)
    let higher := ByteSet.maskHigher (n8 i)
    let bit := (ByteSet.fromMonad (n8 i) ()).words
    assert (decide ((⟨lower.w0 ||| bit.w0 ||| higher.w0, lower.w1 ||| bit.w1 ||| higher.w1⟩ : Words) = ⟨wordMax, wordMax⟩))
    assert (decide ((⟨lower.w0 &&& higher.w0, lower.w1 &&& higher.w1⟩ : Words) = ⟨0#128, 0#128⟩))
    assert (decide ((⟨lower.w0 &&& bit.w0, lower.w1 &&& bit.w1⟩ : Words) = ⟨0#128, 0#128⟩))
    assert (decide ((⟨higher.w0 &&& bit.w0, higher.w1 &&& bit.w1⟩ : Words) = ⟨0#128, 0#128⟩))
example : testMaskHigher = .ok () := by decide +kernel

/-- src/bitset/set.rs:344-358: the ascending half of `simple_set` -/
def simpleSetUp : R Unit := do
  let set ← (List.range' 1 255).foldlM (fun (set : ByteSet) i => do
    assert ((← set.lowest) == n8 0)
    assert ((← set.highest) == n8 (i - 1))
    assert ((← predecessor set (n8 i)) == some (n8 (i - 1), ()))
    let (set, _) ← insert set (n8 i) ()
    assert ((← successor set (n8 0)) == some (n8 1, ()))
    assert ((← successor set (n8 (i - 1))) == some (n8 i, ()))
    assert ((← predecessor set (n8 i)) == some (n8 (i - 1), ()))
    pure set) (fromMonad (n8 0) ())
  assert ((← set.highest) == n8 255)
example : simpleSetUp = .ok () := by decide +kernel

/-- src/bitset/set.rs:360-378: the second half of `simple_set` -/
def simpleSetMoving : R Unit := do
  let set ← (List.range' 1 255).foldlM (fun (set : ByteSet) i => do
    assert ((← successor set (n8 (i - 1))) == none)
    assert ((← set.lowest) == n8 (i - 1))
    assert ((← set.highest) == n8 (i - 1))
    assert ((← predecessor set (n8 (i - 1))) == none)
    assert ((← predecessor set (n8 i)) == some (n8 (i - 1), ()))
    let (set, _) ← insert set (n8 i) ()
    if i > 1 then
      assert ((← successor set (n8 0)) == some (n8 (i - 1), ()))
    assert ((← successor set (n8 (i - 1))) == some (n8 i, ()))
    assert ((← set.highest) == n8 i)
    let (set, kv) ← unwrap (← remove set (n8 (i - 1)))
    let set ← get set
    assert (kv == (n8 (i - 1), ()))
    assert ((← successor set (n8 0)) == some (n8 i, ()))
    pure set) (fromMonad (n8 0) ())
  assert ((← set.lowest) == n8 255)
  assert ((← set.highest) == n8 255)
example : simpleSetMoving = .ok () := by decide +kernel

/-! ## src/bitset/map/mod.rs -/

/-- src/bitset/map/mod.rs:309-316 (it only has to run) -/
def simpleMap : R Unit := do
  let m : ByteMap ByteSet ← TreeCollection.create (n8 0) (fromMonad (n8 0) ())
  let (m, _) ← TreeCollection.insertKey m (n8 0) (n8 5, ())
  let (_, _) ← TreeCollection.insertKey m (n8 1) (n8 5, ())
example : simpleMap = .ok () := by decide +kernel

end Veb.Conform
