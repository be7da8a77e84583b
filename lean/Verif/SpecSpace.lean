import Verif.SpecLedger

/-!
# What a tree occupies

Counts over the data structure itself: nodes, entries (those of the summaries included), array slots.  `levels` and
`width` depend on the type alone.
-/

set_option autoImplicit false

namespace Veb

/-- * `levels`: how many `Tree`s are nested;
* `width`: the greatest length of an array collection inside;
* `nodes`: how many tree structures there are, leaves, summaries and children included;
* `entries`: how many keys they store in total; a key stored in a summary counts again;
* `slots`: the total length of all arrays inside. -/
class Space (T : Type) where
  levels : Nat
  width : Nat
  nodes : T → Nat
  entries : T → Nat
  slots : T → Nat

/-- The trees in a collection, the length of its array (0 if it has none), and the bound for it the type gives. -/
class SpaceColl (C : Type) (T : outParam Type) where
  width : Nat
  children : C → List T
  slots : C → Nat

open SpaceColl (children)

/-- src/bitset/set/mod.rs: the keys whose bit is set -/
instance : Space ByteSet where
  levels := 0
  width := 0
  nodes _ := 1
  entries s := (List.range 256).countP fun n => s.isPresent (U.lit n)
  slots _ := 0

/-- src/bitset/map/mod.rs: one value per key -/
instance {V : Type} : Space (ByteMap V) where
  levels := 0
  width := 0
  nodes _ := 1
  entries m := m.list.length
  slots _ := 0

instance {K V : Type} : Space (BTreeMap K V) where
  levels := 0
  width := 0
  nodes _ := 1
  entries m := m.entries.length
  slots _ := 0

instance {T : Type} [Space T] : Space (Box T) where
  levels := Space.levels T
  width := Space.width T
  nodes t := Space.nodes t.val
  entries t := Space.entries t.val
  slots t := Space.slots t.val

instance {T : Type} [Space T] : Space (SizedVebTree T) where
  levels := Space.levels T
  width := Space.width T
  nodes t := Space.nodes t.tree
  entries t := Space.entries t.tree
  slots t := Space.slots t.tree

/-- src/tree.rs:29-43: a minimum; then a maximum; then a summary and a collection of children -/
instance {K V S C T : Type} [Space S] [Space T] [SpaceColl C T] : Space (Tree K V S C) where
  levels := max (Space.levels S) (Space.levels T) + 1
  width := max (SpaceColl.width C) (max (Space.width S) (Space.width T))
  nodes
    | ⟨_, some ⟨_, some (s, c)⟩⟩ => 1 + Space.nodes s + ((children c).map Space.nodes).sum
    | _ => 1
  entries
    | ⟨_, some ⟨_, some (s, c)⟩⟩ => 2 + Space.entries s + ((children c).map Space.entries).sum
    | ⟨_, some _⟩ => 2
    | _ => 1
  slots
    | ⟨_, some ⟨_, some (s, c)⟩⟩ => SpaceColl.slots c + Space.slots s + ((children c).map Space.slots).sum
    | _ => 0

/-- src/collection/array.rs:87-91 -/
instance {Hi T : Type} [SizedVebKey Hi] : SpaceColl (ArrayColl Hi T) T where
  width := SizedVebKey.cardinality Hi
  children c := (List.range c.array.len).filterMap c.array.slot
  slots c := c.array.len

instance {Hi T : Type} : SpaceColl (HashMap Hi T) T where
  width := 0
  children c := c.entries.map Prod.snd
  slots _ := 0

instance {T : Type} : SpaceColl (ByteMap T) T where
  width := 0
  children c := c.list
  slots _ := 0

instance {C T : Type} [SpaceColl C T] : SpaceColl (Box C) T where
  width := SpaceColl.width C
  children c := children c.val
  slots c := SpaceColl.slots c.val

/-- The collections of the crate (`CrateColl`), with their counts. -/
inductive CountedColl : (C Hi T Lo V : Type) → [LinearOrder Hi] → [VebTree T Lo V] →
    [TreeCollection C Hi T Lo V] → [SpaceColl C T] → Prop
  | array {Hi T Lo V : Type} [LinearOrder Hi] [SizedVebKey Hi] [VebTree T Lo V] (h : GoodIndex Hi) :
      CountedColl (ArrayColl Hi T) Hi T Lo V
  | hash {Hi T Lo V : Type} [LinearOrder Hi] [VebTree T Lo V] : CountedColl (HashMap Hi T) Hi T Lo V
  | byte {T Lo V : Type} [VebTree T Lo V] : CountedColl (ByteMap T) (U 8) T Lo V
  | box {C Hi T Lo V : Type} [LinearOrder Hi] [VebTree T Lo V] [TreeCollection C Hi T Lo V] [SpaceColl C T]
      (h : CountedColl C Hi T Lo V) : CountedColl (Box C) Hi T Lo V

/-- The tree types of the crate (`CrateTree`), with their counts.  `limited`: there is a `SizedVebTree` inside, whose
`usize` counter must not overflow. -/
inductive CountedTree : (T K V : Type) → [LinearOrder K] → [VebTree T K V] → [Space T] → (limited : Prop) → Prop
  | byteSet : CountedTree ByteSet (U 8) Unit False
  | byteMap {V : Type} : CountedTree (ByteMap V) (U 8) V False
  | btreeMap {K V : Type} [LinearOrder K] : CountedTree (BTreeMap K V) K V False
  | box {T K V : Type} [LinearOrder K] [VebTree T K V] [Space T] {l : Prop} (h : CountedTree T K V l) :
      CountedTree (Box T) K V l
  | sized {T K V : Type} [LinearOrder K] [VebTree T K V] [Space T] {l : Prop} (h : CountedTree T K V l) :
      CountedTree (SizedVebTree T) K V True
  | tree {K V S C Hi Lo T : Type} [LinearOrder K] [LinearOrder Hi] [LinearOrder Lo] [VebKey K Hi Lo] [VebKeyRef K Hi Lo]
      [VebTree S Hi Unit] [VebTree T Lo V] [TreeCollection C Hi T Lo V] [Space S] [Space T] [SpaceColl C T] {lS lT : Prop}
      (hk : GoodKey K Hi Lo) (hs : CountedTree S Hi Unit lS) (ht : CountedTree T Lo V lT)
      (hc : CountedColl C Hi T Lo V) : CountedTree (Tree K V S C) K V (lS ∨ lT)

end Veb
