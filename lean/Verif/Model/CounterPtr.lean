import Verif.Model.KeyPtr
import Verif.Model.Wrappers
import Verif.Model.Iter

/-!
The two counters of the crate that count without bound, on every target: the `size` of `SizedVebTree` (src/lib.rs:168-325)
and the `emitted` of `Iter` (src/iter.rs:6-9, 105, 192).  `Verif.Model.Wrappers` and `Verif.Model.Iter` are the 64-bit
target; here the width of `usize` is a parameter, at most 64 bits.
-/

set_option autoImplicit false

namespace Veb

/-- `usize::MAX` -/
def Ptr.usizeMax (P : Ptr) : Nat := 2 ^ P.bits - 1

/-- `SizedVebTree<V>` on the target `P`, src/lib.rs:168-172 -/
structure PSized (P : Ptr) (T : Type) where
  tree : T
  size : Nat
  deriving Repr

namespace PSized
variable {P : Ptr} {T K V : Type}

/-- the same fields on the 64-bit target -/
def wide (t : PSized P T) : SizedVebTree T := ⟨t.tree, t.size⟩
def ofWide (t : SizedVebTree T) : PSized P T := ⟨t.tree, t.size⟩

/-- `len`, src/lib.rs:174-180 -/
def len (t : PSized P T) : Nat := t.size

variable [VebTree T K V]

/-- `insert`, src/lib.rs:275-281: the only method that can make the number larger -/
def insert (t : PSized P T) (k : K) (v : V) : R (PSized P T × Option (K × V)) := do
  let (tree, o) ← VebTree.insert t.tree k v
  if o.isNone then
    let size ← expect "size overflowed" (if t.size + 1 ≤ P.usizeMax then some (t.size + 1) else none)
    pure (⟨tree, size⟩, o)
  else pure (⟨tree, t.size⟩, o)

/-- `impl VebTree for SizedVebTree<V>`, src/lib.rs:183-325; the methods that do not depend on the width are those of
`SizedVebTree`. -/
instance : VebTree (PSized P T) K V where
  fromMonad k v := ofWide (VebTree.fromMonad k v)
  isMonad t := VebTree.isMonad t.wide
  lenHint t := VebTree.lenHint t.wide
  intoMonad t := do
    match (← VebTree.intoMonad t.wide) with
    | .Ok kv => pure (.Ok kv)
    | .Err t => pure (.Err (ofWide t))
  minVal t := VebTree.minVal t.wide
  minValMut t := do pure (mapPut ofWide (← VebTree.minValMut t.wide))
  maxVal t := VebTree.maxVal t.wide
  maxValMut t := do pure (mapPut ofWide (← VebTree.maxValMut t.wide))
  find t := VebTree.find t.wide
  findMut t k := do pure ((← VebTree.findMut t.wide k).map (mapPut ofWide))
  predecessor t := VebTree.predecessor t.wide
  predecessorMut t k := do pure ((← VebTree.predecessorMut t.wide k).map (mapPut ofWide))
  successor t := VebTree.successor t.wide
  successorMut t k := do pure ((← VebTree.successorMut t.wide k).map (mapPut ofWide))
  insert := insert
  remove t k := do
    match (← VebTree.remove t.wide k) with
    | .Ok (t, kv) => pure (.Ok (t.map ofWide, kv))
    | .Err t => pure (.Err (ofWide t))
  removeMin t := do
    let (t, kv) ← VebTree.removeMin t.wide
    pure (t.map ofWide, kv)
  removeMax t := do
    let (t, kv) ← VebTree.removeMax t.wide
    pure (t.map ofWide, kv)

end PSized

namespace Iter
variable {T K V : Type} [VebTree T K V] [DecidableEq K]

/-- `self.emitted += 1` on the target `P` with overflow checks, src/iter.rs:105, 192.  Counting is the last thing that
`next` and `next_back` do, so it is checked on their result. -/
def counted (P : Ptr) : R (Iter T K × Option (K × V)) → R (Iter T K × Option (K × V))
  | .ok (it, o) => if it.emitted ≤ P.usizeMax then .ok (it, o) else .error .arith
  | .error e => .error e

/-- `next` on the target `P`, src/iter.rs:42-107 -/
def nextOn (P : Ptr) (it : Iter T K) : R (Iter T K × Option (K × V)) := counted P it.next
/-- `next_back` on the target `P`, src/iter.rs:129-194 -/
def nextBackOn (P : Ptr) (it : Iter T K) : R (Iter T K × Option (K × V)) := counted P it.nextBack

end Iter
end Veb
