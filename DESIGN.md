# Formal model of veb-tree in Lean 4

## Layout

| path | content |
|------|---------|
| `properties.jsonl` | the properties, in English |
| `MANIFEST.json` | which theorems state which property |
| `lean/Verif/Basic.lean` | panics, Rust `Result`, comparison |
| `lean/Verif/Spec*.lean` | the specification vocabulary used by the theorems |
| `lean/Verif/Model/*.lean` | the model; each definition cites file and lines of the Rust source |
| `lean/Verif/Proof/*.lean` | helper lemmas, representation invariants, refinement proofs |
| `lean/Verif/Props/*.lean` | the property theorems and, beside each, concrete cases meeting the hypotheses |
| `seeded/LOG.jsonl` | results of editing the model the way a bug would |

Build with `lake build` in `lean/`.

## Trusted base

* Lean's kernel (4.33) and the three standard axioms `propext`, `Quot.sound`, `Classical.choice`.  No other axiom
  occurs.  The last section lists the axioms of every property theorem.  No `sorry`, `native_decide`, `bv_decide`.
  Concrete witnesses are evaluated by the kernel (`rfl`, `decide +kernel`).
* Mathlib, as far as imported, is checked by the same kernel.
* That the model says what the Rust source says.  The model was written by reading the source; nothing in the sandbox
  could run the source.  The next two sections say what is in the model and what is not.
  As a check of the reading, `Verif/Conform/` transcribes every unit test of the crate (tree.rs, iter.rs, lib.rs, key.rs,
  set.rs, map/mod.rs, array.rs, hash.rs) and evaluates it on the model; all assertions hold.  These are tests of the
  model, and no property rests on them.
* That the hypotheses of the theorems can be met.  Each file of `Verif/Props/` ends with examples that meet them;
  `Verif/Conform/NonVacuous.lean` applies a further 120 theorems to concrete histories, trees and iterators.
* That the specification files say what the English says.  They are short: `Spec.lean` (maps, extremes, neighbours,
  the ordered association list, histories), `SpecTree.lean`, `SpecHist.lean` (API contracts and histories),
  `SpecColl.lean` (collections), `SpecIter.lean` (iterators), `SpecKey.lean` (keys), `SpecPanic.lean`,
  `SpecLedger.lean`, `SpecLook.lean`, `SpecCost.lean`, `SpecKeyObj.lean`, `SpecSame.lean`, `SpecClone.lean`, `SpecCanon.lean`, `SpecFlat.lean`, `SpecOn.lean`, `SpecLoop.lean`, `SpecUnwind.lean`, `SpecBench.lean`, `SpecAny.lean`, `SpecAlike.lean`, `SpecShuffle.lean`, `SpecMarker.lean`, `SpecCap.lean`, `SpecCounter.lean`, `SpecFixed.lean`,
  `SpecRelease.lean`, `SpecRewrite.lean`, `SpecSpace.lean`, `SpecOpen.lean`, `SpecAct.lean`, `SpecHonest.lean`, `SpecSound.lean`, `SpecActUnwind.lean`, `SpecNumber.lean`, `SpecList.lean`, `SpecArray.lean`, `SpecKeys.lean`, `SpecActClone.lean`, `SpecListLeft.lean`, `SpecCollLeft.lean`, `SpecCheck.lean`, `SpecCostFixed.lean`, `SpecLogged.lean`,
  `SpecAudit.lean`, `SpecIterCost.lean`, `SpecActIter.lean`, `SpecActList.lean`, `SpecTally.lean`, `SpecListCalls.lean`, `SpecRescue.lean`, `SpecCount.lean`, `SpecBorrow.lean`, `SpecDescend.lean`, `SpecActColl.lean`, `SpecOrder.lean`, `SpecWalk.lean`, `SpecOrders.lean`.

## What is modelled

| source | model |
|--------|-------|
| src/lib.rs:32-163 trait `VebTree` | `Model/Trait.lean` |
| src/tree.rs:49-78 and derived `Clone` | `Model/Clone.lean` |
| src/key.rs:27-90 `MaybeBorrowed` | `Model/MaybeBorrowed.lean` |
| src/lib.rs:166-180 `SizedVebTree`, `ExactSizeIterator` | `Model/Wrappers.lean`, `Model/Iter.lean` |
| src/lib.rs:183-325 `SizedVebTree`; 327-431 `Box`; 433-580 `BTreeMap` | `Model/Wrappers.lean` |
| src/tree.rs:29-737 `Tree`, all methods | `Model/Tree.lean`; what `insert` leaves when it panics: `Model/Unwind.lean` |
| src/collection/mod.rs `TreeCollection`, `Box` | `Model/Trait.lean`, `Model/Collection.lean` |
| src/collection/array.rs:40-198 | `Model/Collection.lean` |
| src/collection/array.rs:40-45, 87-198 for any array type, with the trait `OptionArray` | `Model/ArrayOf.lean` |
| src/bitset/map/mod.rs:36-300, src/collection/array.rs:40-198 over lists and arrays that have a state | `Model/ActList.lean` |
| src/lib.rs:91-150, 230-300, 363-420, 482-566, src/tree.rs, src/bitset: the calls of `borrow` and `drop` of a `Q` | `Model/ActBorrow.lean` |
| src/collection/hash.rs:33-124 | `Model/Collection.lean` |
| src/bitset/set.rs:7-245 `ByteSet` | `Model/ByteSet.lean` |
| src/bitset/map/mod.rs, list.rs `ByteMap` as map and as collection, with `L = VecDeque` | `Model/ByteMap.lean` |
| the same for any list type `L`, with the traits `List` and `TreeList` | `Model/ByteList.lean` |
| src/iter.rs:6-197 `Iter` | `Model/Iter.lean`; `core`'s loops over it: `Model/IterLoop.lean` |
| src/key.rs:94-740 all key types, for a 64-bit target | `Model/Key.lean` |
| src/key.rs `SizedVebKey` of the integers for every `target_pointer_width` | `Model/KeyPtr.lean` |
| src/markers.rs predefined types | `Model/Markers.lean` |
| benches/random/main.rs:26-197 `VEBOperations`, its two implementations, the makers | `Model/Bench.lean`; the `Option<tree>` wrapper extended to all methods: `Model/Exec.lean` (histories) |

`Model/CollExec.lean` runs histories on a collection alone.  `Model/Tick.lean` is a second copy of the methods with a
log of events; `C34_faithful` proves that forgetting the log gives back the first copy.  `Model/KeyObj.lean` is a copy
of `BTreeMap`, `HashMap` and `Tree` for keys with equal but distinguishable values; `C35_copies` proves that it behaves
like the first copy when the order is linear.  Its `Tree` takes comparisons without any contract (C61).  `Model/TreeFixed.lean` is not the code: it is `Tree` with the one
wrong comparison turned around, and is used only in C42 and C57; nor is `Model/Repaired.lean`, used only in C57.

* A Rust panic (`expect`, `unreachable!`, slice index, `debug_assert!`, arithmetic underflow) is an
  explicit error: every operation returns `R α := Except Panic α`.  `debug_assert!` is modelled as in a
  debug build (it panics), so "no panic" covers both build profiles.  The iterator is the only part
  where they differ; `Model/IterRelease.lean` is the iterator of a release build (C48).
* `&mut self` methods return the new value.  A method returning `&mut V` returns the value and a
  write-back function `V → T` (the tree after writing through the reference).
* `Result` stays data.  Owned and borrowed keys (`MaybeBorrowed`) are identified with the key they deref to;
  C54 shows what this relies on.
* Traits are type classes with the same methods; `impl` blocks are instances, so generic code (`Tree`, `Box`,
  `SizedVebTree`, `Iter`) stays generic.  Tree types of every nesting depth are covered (`CrateTree`),
  with one restriction: an array must be indexed by a type with fitting indices (`GoodIndex`; `u8`, `u16`, `u32`, but not
  `u64` or a signed integer, for which arrays fail, see C14 and C25).
* Integers of the key types and the words of `ByteSet` are bit vectors with Rust's shifts and casts.
* Counters (`usize`) are `Nat`; underflow and overflow are panics where the code has them.

## What is not modelled

* The loops of `core` (C58) are modelled after the default methods of `Iterator`, from their documentation.
* The inside of `std`'s `BTreeMap` and `VecDeque`, of `hashbrown`'s `HashMap` (hashing, probing, growth, the hasher) and
  of `vec_entry`: only their documented behaviour as ordered map, sequence, map and `replace_entry_with`.  So a custom
  `Hash` that disagrees with `Eq` is outside the model, except in C67, C70, C71 and C73, and so is a custom `Ord` that is no order, except in C35, C61 and C74.
* `typenum`, `generic-array`, `ghost`, `polonius`: type-level arithmetic is a number, which wraps when it is made a
  `usize`; the two array representations
  (boxed slice, `GenericArray`) have the same code and share a model.
* Memory: allocation failure, stack depth, drop order, aliasing.  There is no `unsafe` code in the crate.
* Unwinding: after a panic the model stops, except in C59, C76, C83, C86, C87 and C95, which describe what a caller who catches the panic finds
  in a `Tree`, a boxed and a counted tree, and in C76 in a `BTreeMap`, and in C73 and C78, for iterators.  A panic while a key or a
  value is dropped is not described (except in C95), nor is what a panic leaves of a mutable reference obtained from a tree.
* Running time other than the number of calls of tree methods (C34) and of comparisons, splits, joins, calls of collection
  methods and new array slots (C66, for iterators C72): what `HashMap`, `VecDeque`, `BTreeMap` and the bit operations do inside one call, and
  allocation.
* Targets whose pointers are not 64 bits wide, except for `SizedVebKey` of the integers and the length of arrays (C45), and
  the counters of `SizedVebTree` and `Iter` (C65).
* Keys whose `Ord` identifies distinguishable values, except in C35, and keys whose comparisons keep no contract at all,
  except in C61: elsewhere the order of keys is linear.
* Key types of users must obey the contract of `VebKey` (`GoodKey`), index types that of `SizedVebKey` (`GoodIndex`).
  `U4` and `U2` meet them only on their range: in the model, as in a Rust module that could name the private
  constructor, out-of-range values exist.  C05 shows that the crate's functions stay in range, and C56 proves the
  properties of trees over keys in range.
* `Debug` implementations; of the benchmarks, the measuring (criterion, the profiler, random numbers).  `Clone` is modelled in `Model/Clone.lean` (C52), with side effects and panics in `Model/ActClone.lean` (C83),
  equality of `MaybeBorrowed` in `Model/MaybeBorrowed.lean` (C54), derived equality of `ByteSet` is Lean's (C53).
* User code inside `Borrow`, and `Drop` of a key handed to a method, is pure in the main model and arbitrary in
  `Model/ActBorrow.lean` (C95), where the code between the two calls is that of the main model.  In `Ord`, `PartialOrd`, `PartialEq`,
  `split_*`, `join`, `index`, `Hash`, `Eq` and `Clone` it is pure in the main model and arbitrary in `Model/Act.lean` (C67);
  there `Drop` of keys and values is not modelled, and a hash table is trusted to change its entries by insertions and
  removals only, whatever it is told.  So is a `BTreeMap` (`Model/ActBTree.lean`, C74): comparisons decide where each of its
  searches ends, and which keys are compared is modelled only for maps of one node, after the code of `alloc`.

## How the properties are proved

`LawfulVebTree T` (Proof/Lawful.lean) says: there is an invariant and an abstraction to a partial map
`K → Option V` under which every method meets its relational specification without a panic.
It is proved for `ByteSet`, `ByteMap`, `BTreeMap`, `Box<V>`, `SizedVebTree<V>` and `Tree<..>`, each from the
lawfulness of its parts; `LawfulColl` is the analogue for the child collections.
One theorem then turns lawfulness into: *every operation history gives the outputs of a sorted
association list*.  Properties are stated about histories or reachable trees and the API only.

### The insertion defect and the shape of the tree theorems

`Tree::insert` (src/tree.rs:524-533) is wrong when a key smaller than the minimum is inserted into a tree that
already has two elements: it stores the old minimum as `max` and pushes the old maximum into the children.
The model has this code as it is.  Hence the properties over *every* history of the `Tree` types that depend on the
order are false of the code; each is (a) refuted in the model by a concrete history, and (b) proved, as a `_partial`
theorem, for all histories in which no insertion hits this case.  "Hits this case" is the predicate `Safe` on the *set
of stored keys*, not on model internals; for 16-bit trees it says exactly "at most one key is stored, or some
stored key is ≤ the inserted key".

The restriction cannot be weakened: C41 proves that a history is safe *if and only if* all its prefixes answer `max_val`
and `predecessor` as the ordered map does, at every nesting depth.  And the defect is the only obstacle: C42 proves the
unrestricted claim for the tree with that one comparison turned around.  C88 says how short a wrong history can be (four
calls, three keys), and C89 turns `Safe` into a program over the stored keys, with which a user can avoid the defect.

Several families hold in *all* histories, also those that run into the defect, and need other invariants:

* no panic (C25): `Proof/NoPanic.lean`, `Proof/Phys*.lean`, an order-free well-formedness `W` of the structure;
* conservation of keys and of entries (C37-C39, C43): `Proof/Ledger.lean`, `Proof/Entries.lean`, the multiset of
  physically stored entries;
* searching without removals (C40): `Proof/Look.lean`;
* what is left of the iterator's contract (C44): `Proof/IterAll.lean`;
* what a write through a reference changes (C49): `Proof/Rewrite.lean`;
* how much a tree occupies (C50): `Proof/Space.lean`;
* that neither the representation of the parts (C46, C51) nor the values (C47) matter: `Proof/Same*.lean`,
  `Proof/Open*.lean`, simulations;
* costs (C34, C66): `Proof/Tick.lean`, `Proof/Cost.lean`, which need no invariant at all.

### Other defects found

* `SizedVebKey::index` of `i8`, `i16`, `i32` sign-extends: keys that are not negative index beyond the array (C06), so a
  tree of `[i8; 2]` keys over an array panics at its third insertion (C25).
* `Cardinality` of `u64`, `i64` is 2^64, as a `usize` 0: a tree of `u128` or `i128` keys over an array panics at its third
  insertion (C14, C25).  On a 32-bit target the same happens to the predefined 64-bit trees, on a 16-bit target to the
  32-bit ones (C45).
* The constants `CARDINALITY` are off by one, or saturate (C07).
* `BTreeMap::insert` of the crate returns the new key object and keeps the old one; `Tree::insert` and the searches below
  the extremes return a key put together from the halves of two key objects (C35).
* Iterators over a tree spoiled by the insertion defect can go on forever, in either direction (C30, C44), or fail their own
  `debug_assert!(false)` (C44), and their `size_hint` can underflow (C31).
* `ByteMap::insert` and `insert_key` set the bit of the key before they call the list: if a list type of the user's panics
  there, and the panic is caught, keys answer with the values of others (C86).  Setting the bit last repairs it.
* `insert_key` of a hash table clones the key after the tree is in the table: if `clone` panics, and a program that holds the
  table itself catches the panic, the table has a tree although the call did not return (C87).

C57 corrects the defects of the first four items by one expression each (`Model/Repaired.lean`, not the code) and proves
the claims in full; the key objects of `Tree` cannot be corrected so easily, because the entries below the extremes share
their high halves.

## Seeded bugs

`seeded/LOG.jsonl` records edits of the model that a wrong program would correspond to.  How to read it:

* `failed_lemmas` are the declarations whose proof Lean rejected after the edit; `failed_theorems` are the property
  theorems that rest on one of them.  Lean does not say whether a rejected theorem has become false or only its proof
  has broken, so a kill shows that the theorem depends on the edited code, and no more.
* `survived: true` means that everything still compiled: the edit is equivalent, or no theorem sees it.  A `note` says
  which.
* An edit that does not elaborate in its own file says nothing about the theorems and is marked `ill_typed`.

## Per property

| id | model | proof |
|----|-------|-------|
| C01, C02 | integer keys as bit vectors, `split_val`/`join` literally | arithmetic on `toNat`, generic in the width |
| C03, C04 | arrays as fixed-length vectors; `split_val`, `split_ref`, `join` | lexicographic order lemmas |
| C05 | `U4`,`U2` as wrapped bytes with the private constructor | closure lemmas |
| C06, C07 | `index`, `Cardinality`, `CARDINALITY` for 64-bit `usize` | proved for unsigned; refuted for i8,i16,i32 / for all |
| C08, C09 | `ByteSet` as two 128-bit words, std bit intrinsics by definition | bit-level lemmas, lawfulness, history theorem |
| C10 | `ByteMap` with a list for `VecDeque` | rank lemmas, lawfulness, history theorem |
| C11 | `BTreeMap` as a sorted association list with the crate's wrappers | lawfulness |
| C12 | `Box` wrapper | simulation, for any `VebTree` instance |
| C13 | `SizedVebTree` | lawfulness and counting |
| C14-C16 | the `TreeCollection` instances | `LawfulColl`; arrays refuted for `u64`, `i64`, `i8`, `i16`, `i32` indices |
| C17-C27, C32, C33, C36 | `Tree` and the marker types | lawfulness under `Safe`, history theorem, refutations |
| C28-C31 | `Iter` over any lawful tree | simulation by a double-ended queue |
| C34 | counting copy of the methods | erasure and induction over nesting |
| C35 | copy of the methods for keys with a total preorder | refutations; simulation by linearly ordered keys |
| C37-C40 | as above | invariants that survive the defect |
| C41 | `Tree` as it is | the first unsafe insertion shows at `max_val` or at a predecessor, by induction over nesting |
| C42 | `FTree`, the corrected variant | lawfulness with no restriction |
| C43 | as above | multiset of stored entries |
| C44 | as above; `C44_ascending`: no removals | iterators on trees in any condition, `Proof/IterAll.lean` |
| C45 | `SizedVebKey` of the integers with the pointer width as a parameter | arithmetic; arrays and trees by C14, C17, C25 |
| C46 | all tree types nested alike, any leaves, collections, boxes | simulation step by step; leaves and collections are related by their contents |
| C47 | all tree types, any renaming of values | the same simulation, with values renamed |
| C48 | all tree types, all histories | the release iterator follows the debug one call by call; the tree's methods do not panic by the structure invariant `W` |
| C49 | all tree types, all tree values or all histories | induction on the tree type: the `_mut` accessor visits the same places as the shared one, and its write is invisible to all decisions; with C47's relation to a tree without values |
| C50 | all tree types, all histories | sums the bounds of summary and children over the structure invariant `W`, each child once per summary key |
| C51 | all implementations of the traits, all histories | two types that answer alike simulate each other through the relation "left by the same history"; `Tree.same` of C46 then needs no law of the parts |
| C52 | all cloneable types, all trees | a tree and its clone are related by `Tree.same` of C46 with values renamed by `clone`; all methods preserve the relation |
| C53 | all types (up to the order of hash tables), all pairs of safe histories | the abstraction is injective on the invariant, type by type: least and greatest key, then the children, then the summary are determined by the map |
| C54 | all content types | by cases on the two constructors |
| C55 | every history, spoiled ones included | a simulation between `Tree` and a three-field machine, C51 for the parts |
| C56 | keys right on a part: `U4`, `U2`, trees of `u8` and `i8` over them | C46 between the tree and one over the part |
| C57 | the defects of `SizedVebKey` and `BTreeMap::insert`, corrected | C45's lemmas, C14, C42; permutations of the stored pairs |
| C58 | `for`, `collect`, `count`, `nth`, `find`, `rev`, `len` over the iterator | loops with a bound on their iterations against the list of entries |
| C59 | panics in `insert` that are caught: what is left, and all histories with such panics | a second `insert` that also gives the tree left behind; equal to the first without faults |
| C60 | benches/random/main.rs: `VEBOperations`, its two implementations, the makers | random numbers are arguments; timing not modelled; std `BTreeMap` by its documentation |
| C61 | src/tree.rs `Tree` over a key type with arbitrary `Ord`, `PartialOrd`, `PartialEq`, `split`, `join` | comparisons are functions of their arguments; halves are ordinary |
| C62 | src/collection/hash.rs `HashMap` with its entries in any order, changing any time between operations | simulation between trees that are alike up to the order (C46's), closed under rearranging one side |
| C63 | src/markers.rs, the marker impls of src/tree.rs, src/bitset/{set,map/mod}.rs, src/collection/{array,hash}.rs | markers as a language (`Model/MarkerLang.lean`), interpreted as partial functions from key and value types to tree types; `none` is a type error |
| C64 | src/lib.rs:168-325 (`SizedVebTree`), tree types as in C25 | `CapTree` in `SpecCap.lean`: tree types with the number of entries they have room for, computed from the numbers of keys |
| C65 | src/lib.rs:168-325 (`SizedVebTree`), src/iter.rs:42-194 (`emitted`) on targets of 16, 32 and 64 bits | `Model/CounterPtr.lean`: the overflow checks at the width of the target; the rest as on 64 bits |
| C66 | src/tree.rs (comparisons, splits, joins, calls of collection methods), src/collection/array.rs:49-53, 76-78, 102-110 | `Model/Tick.lean`: a log of these events next to the results; `C34_faithful` ties it to the model |
| C67 | src/tree.rs, src/collection/, src/bitset/map/, src/lib.rs:183-325 with every call of user code an action on a state | `Model/Act.lean` |
| C68 | the same code as C67, and all of `Model/`: the two models agree | `Model/Act.lean`, `SpecHonest.lean` |
| C69 | the same code as C66 and C67: the cost log is what the keys see | `Model/Act.lean`, `Model/Tick.lean`, `SpecLogged.lean` |
| C70 | the same code as C67: which of its panics can be reached | `Model/Act.lean`, `SpecAudit.lean` |
| C71 | the same code as C67, with proper code about the high halves | `Model/Act.lean`, `SpecAudit.lean` |
| C72 | src/iter.rs with a log of what it does | `Model/TickIter.lean`, `SpecIterCost.lean` |
| C73 | src/iter.rs over code of the user; an iterator after a caught panic | `Model/ActIter.lean`, `SpecActIter.lean` |
| C74 | src/lib.rs:433-580 over code of the user that decides the searches | `Model/ActBTree.lean`, `SpecAct.lean`, `SpecAudit.lean`, `SpecHonest.lean` |
| C75 | the same code as C68 over code of the user that can also panic | `SpecSound.lean` |
| C76 | `insert` of `Tree`, `BTreeMap`, `Box`, `SizedVebTree` over panicking code of the user: what is left when the panic is caught | `Model/ActUnwind.lean`, `SpecActUnwind.lean` |
| C77 | src/bitset/set.rs: the bit operations of `ByteSet`, and the modelled operations of `u128` | `SpecNumber.lean` |
| C78 | src/iter.rs: `Iter`, over code that answers properly or panics; panics caught | `SpecActIter.lean`, `SpecActUnwind.lean`, `SpecSound.lean` |
| C79 | src/bitset/map/{mod,list}.rs: `ByteMap<L>` over any `List`/`TreeList` | `SpecList.lean`, `SpecOpen.lean`, `SpecHist.lean` |
| C80 | src/collection/array.rs: `ArrayTreeCollection<H, A>` over any `OptionArray` | `SpecArray.lean`, `SpecOpen.lean`, `SpecColl.lean` |
| C81 | src/bitset/map/mod.rs over any `List`/`TreeList` code | `SpecKeys.lean`; `Model/ByteList.lean` |
| C82 | src/tree.rs with the comparison of 524-533 repaired | `SpecFixed.lean`, `SpecTree.lean`, `SpecHist.lean`, `SpecPanic.lean`; `Model/TreeFixed.lean` |
| C83 | src/tree.rs:49-78 over `Clone` of the user | `SpecActClone.lean`; `Model/ActClone.lean` |
| C84 | src/lib.rs:433-580, src/collection/hash.rs:33-124 on maps not made by the crate | `Spec.lean`, `SpecColl.lean`; main model |
| C85 | the tree of C42 with the log of C66 (`Model/TickFixed.lean`) | `SpecCostFixed.lean`, `SpecCost.lean` |
| C86 | what is left of `ByteMap<L>` when `L` panics, and the insertion with the bit set last (`Model/ByteListLeft.lean`) | `SpecListLeft.lean` |
| C87 | what `insert_key` leaves of the collections when it panics (`Model/ActCollLeft.lean`) | `SpecCollLeft.lean` |
| C88 | `Tree` as it is | answers of insertions by induction over nesting (`Proof/Answers.lean`); the rest from C17 and C41 |
| C89 | `Tree` as it is; the check is a program over the stored keys (`SpecCheck.lean`) | the check decides `Tree.Safe` by induction over nesting; the rest from C41, C17, C36 |
| C90 | src/bitset/map/{mod,list}.rs and src/collection/array.rs over lists and arrays of the user that have a state (`Model/ActList.lean`) | `SpecActList.lean`, `SpecSound.lean`, `SpecKeys.lean` |
| C91 | src/bitset/map/mod.rs and src/collection/array.rs over any lists and arrays (`Model/ActList.lean`, `Model/ActCollExec.lean`) | `SpecTally.lean`, `SpecAudit.lean` |
| C92 | src/bitset/map/mod.rs and src/collection/array.rs over any lists and arrays (`Model/ActList.lean`, `Model/ActCollExec.lean`) | `SpecListCalls.lean` |
| C93 | src/tree.rs, damaged trees (`Model/Tree.lean`) | `SpecRescue.lean`, `SpecLook.lean` |
| C94 | src/lib.rs `SizedVebTree::len`, src/iter.rs, on damaged trees (`Model/Wrappers.lean`, `Model/Iter.lean`) | `SpecCount.lean`, `SpecLook.lean` |
| C95 | the user's `borrow` and `drop` of `Q` in every method with a `Q` (`Model/ActBorrow.lean`) | `SpecBorrow.lean` |
| C96 | descending insertions: what `Tree::insert` makes of them, exactly | `SpecDescend.lean` |
| C97 | insertions in any order: when `max_val` is right afterwards | `SpecOrder.lean` |
| C98 | insertions in any order: the items of `iter()`, exactly | `SpecWalk.lean` |
| C99 | the number of orders of insertion after which `max_val` is right | `SpecOrders.lean` |

## Axioms of the property theorems

Generated with `collectAxioms` over all theorems of `Verif/Props` (namespace `Veb.Props`).

**none**: `C07_cardinality_partial`, `C35_max`, `C35_min`, `C52_clone_eq`, `C54_cloned`, `C54_contract_needed`, `C54_deref`, `C54_eq`, `C54_equivalence`, `C54_equivalence_only`, `C54_from`, `C54_owned`, `C57_btreeMap_rest`, `C65_len_hint`, `C72_faithful`, `C73_caught_same`, `C73_fused`, `C74_leaf_panics`, `C76_left_one`, `C80_crate_array`, `OneSlot.a.sizeOf_spec`, `OneSlot.b.sizeOf_spec`, `OneSlot.ofNat_ctorIdx`, `Tally.rep_left`, `agree_eq`, `andThen_congr`, `bind_returns`, `blink_index`, `burnFor_outcome`, `burn_answers`, `burn_outcome`, `byRef_use`, `byte_index`, `copyKeys`, `countHash_honest`, `countIndex_honest`, `countIterKey_honest`, `counted_answers`, `fickle_panics`, `fuelArray_sound`, `fuelHash_sound`, `fuelIndex_sound`, `fuelIterKey_sound`, `instLawfulCloneBox`, `instLawfulCloneByteSet`, `instLawfulCloneOption`, `instLawfulCloneProd`, `instLawfulCloneS`, `instLawfulCloneTree`, `instLawfulCloneU`, `instLawfulCloneU2`, `instLawfulCloneU4`, `instLawfulCloneUnit`, `liar_hash`, `liar_panics`, `lookUp_eq`, `nextBool_aud`, `nextByte_aud`, `next_aud`, `outcome_of`, `steady_panics`, `tape_only`, `tape_seven`, `two_rejoins`, `whim_panics`

**propext**: `C06_full_refuted`, `C06_refuted`, `C07_full_refuted`, `C07_refuted`, `C12_box_transparent`, `C14_refuted_u64`, `C35_refuted`, `C35_refuted_chimera`, `C35_refuted_mixed`, `C35_refuted_tree`, `C44_fused`, `C45_agrees`, `C45_full_refuted`, `C45_unsigned`, `C48_fused`, `C48_same`, `C51_refl`, `C51_symm`, `C51_trans`, `C52_contract_needed`, `C54_clone`, `C54_indistinguishable`, `C54_join`, `C54_rejoin`, `C58_nth`, `C61_halves_refuted`, `C61_keys_refuted`, `C61_refuted_debug_assert`, `C73_item`, `C74_function`, `C74_is_monad`, `C74_len_refuted`, `C74_lost`, `C76_btree`, `C77_checked_shl`, `C77_checked_shr`, `C84_iter`, `C84_panics`, `C84_queries`, `C86_coll_tree_deque`, `C95_counts`, `C95_panics`, `C95_step`, `C96_box`, `C96_drain_box`, `C96_ends_wrapped`, `C96_sized`, `C96_turns_wrapped`, `C97_wrapped`, `Tally.rep_write`, `Watched.run_plain`, `Watched.step_plain`, `ask_eq`, `bad_20`, `byValue_use`, `card_le`, `clicked_price`, `countKey_honest`, `count_priceOf`, `deque_left`, `deque_maybe_outcome`, `deque_outcome`, `drain_unique`, `fuelKey_sound`, `fuelList_sound`, `fuelOrd_sound`, `fuelTrees_sound`, `larr`, `lhash`, `lit_lt`, `mem_set`, `opCost_log`, `run_split`, `same_log`, `spec_harmless`, `steady_leGt`, `step_harmless`, `step_none`, `totalCost_log`, `unTg_forgets`, `use_andThen`

**Quot.sound**: `opRename_id`

**Quot.sound, propext**: `Backwards.get_rev`, `Backwards.lt_of`, `C02_numeric_order`, `C17_refuted`, `C17_refuted_32`, `C17_refuted_32_inner`, `C17_refuted_64`, `C17_refuted_outputs`, `C17_refuted_signed16`, `C18_refuted`, `C18_refuted_remove`, `C19_refuted`, `C20_refuted`, `C21_refuted`, `C22_refuted`, `C23_refuted`, `C24_refuted`, `C24_refuted_drain`, `C25_refuted_u128`, `C25_third_insert_panics`, `C26_refuted`, `C28_refuted`, `C29_refuted`, `C30_refuted`, `C31_refuted`, `C32_refuted`, `C33_refuted`, `C34_faithful`, `C34_history`, `C34_predefined`, `C34_reached`, `C34_visits`, `C35_copies`, `C35_forget`, `C39_refuted_pops`, `C40_sharp`, `C44_assert_fails`, `C44_forward_forever`, `C45_array_refuted`, `C45_constant`, `C45_refuted`, `C48_size_hint_refuted`, `C51_contract_needed`, `C52_clone`, `C52_clone_after`, `C52_clone_iter`, `C52_cloneable_eq`, `C53_refuted`, `C55_machine_total`, `C56_out_of_range`, `C57_btreeMap`, `C57_btreeMap_find`, `C58_forever`, `C58_full_refuted`, `C59_exact`, `C59_faithful`, `C59_faithful_wrappers`, `C59_left`, `C59_sized`, `C60_refuted_insert`, `C65_agrees`, `C65_p64`, `C66_each`, `C66_full_partial`, `C66_history`, `C66_makes`, `C66_predefined`, `C66_prices`, `C66_reached`, `C69_calls`, `C69_log`, `C69_methods`, `C72_call`, `C72_calls`, `C72_one_way`, `C72_predefined`, `C73_calls`, `C73_caught`, `C73_endless`, `C73_log`, `C74_refuted`, `C75_honest`, `C76_left`, `C76_sized_worse`, `C77_words`, `C79_deque`, `C79_same_coll`, `C80_same`, `C81_is_monad`, `C83_clone`, `C83_clone_eq`, `C83_iter`, `C83_keys`, `C83_panics`, `C84_hash_empty`, `C85_faithful`, `C86_faithful`, `C86_refuted`, `C86_refuted_run`, `C87_faithful`, `C90_coll_agree`, `C91_array`, `C91_list`, `C91_tally`, `C92_two`, `C94_refuted_removals`, `C95_box`, `C95_coll`, `C95_first`, `C95_sized`, `C96_forever`, `C96_forward`, `C96_tree`, `C97_takes`, `C97_tree`, `C97_types`, `C98_complete`, `C98_lost`, `PlainColl.crate`, `Room.seqOrFull`, `arr_ne`, `bad2_reaches`, `bad3_reaches`, `bad4_reaches`, `bad_reaches`, `blink_inserts`, `blink_panics`, `byteSet_inserts`, `clickedSlots_price`, `cloneMap16`, `clone_map`, `coll_clone_eq`, `count16`, `count16s`, `count32`, `counted_of_crateColl`, `fair_elsewhere`, `fnested16`, `fnested32`, `fnested64`, `fnestedH`, `forget_id`, `forget_surj`, `forget_surjS`, `four_run`, `fuel16`, `fuel16s`, `fuel32`, `fuelCatch16`, `halves_eq`, `insertions_forget`, `instLawfulCloneArr`, `instLawfulCloneBTreeMap`, `instLawfulCloneHashMap`, `lbyte`, `listCalls_le`, `listed_coll`, `logged16`, `logged16s`, `logged32`, `mended_counts`, `moodySafe`, `nested16`, `nested32`, `nested64`, `nested8`, `nestedH`, `none_notMem_map`, `out_forget_id`, `same_tree`, `sample_safe`, `serialMap16`, `shown_aud`, `ticker_trees`, `turned_alike`, `turning_shuffled`, `use_map`

**Classical.choice, Quot.sound, propext**: `Backwards.rev_erase`, `Backwards.rev_insert`, `Backwards.seq`, `C01_integer_keys_roundtrip`, `C02_integer_keys_order`, `C03_array_keys`, `C04_split_ref_agrees`, `C05_low_bits`, `C05_range`, `C05_split_join`, `C06_index_partial`, `C06_signed_index`, `C07_cardinality_counts`, `C08_byteSet_history`, `C09_byteSet_len`, `C10_byteMap_history`, `C11_btreeMap_history`, `C13_only_panic`, `C13_replace`, `C13_sized`, `C14_array_collection_partial`, `C14_boxed_collection`, `C14_count_partial`, `C14_failure_keeps_partial`, `C14_full_refuted`, `C14_signed`, `C14_unsigned_partial`, `C15_failure_keeps`, `C15_hash_collection`, `C16_byte_collection`, `C16_failure_keeps`, `C16_in_step`, `C17_history_partial`, `C17_sixteen_bit_partial`, `C18_find_after_update_partial`, `C19_min_max_partial`, `C20_predecessor_partial`, `C21_successor_partial`, `C22_insert_result_partial`, `C23_remove_result_partial`, `C24_drain_partial`, `C25_every_method_partial`, `C25_every_method_uncounted_partial`, `C25_no_panic_partial`, `C25_no_panic_uncounted_partial`, `C25_refuted_i8`, `C25_summary_in_step_partial`, `C26_mut_accessors_partial`, `C27_exact_hints`, `C27_monad_len_hint_partial`, `C27_refuted`, `C28_answers_partial`, `C28_backward`, `C28_forward`, `C29_double_ended`, `C29_partition`, `C30_fused`, `C30_terminates`, `C31_exact_size_partial`, `C31_size_hint`, `C32_order_independence_partial`, `C33_implementations_agree_partial`, `C35_quotient`, `C35_upToEq_partial`, `C36_ascending_histories`, `C36_sorted_inserts`, `C37_conservation`, `C37_conservation_max`, `C37_no_invented_key`, `C37_remove_iff`, `C38_len`, `C38_len_hint`, `C38_monad`, `C39_no_key_lost`, `C40_find`, `C40_lookup`, `C40_successor`, `C41_below_min`, `C41_exact`, `C41_leaves`, `C41_optimal`, `C41_sixteen_bit`, `C42_fixed`, `C42_fixed_sized`, `C42_predefined`, `C42_same`, `C43_conservation`, `C43_conservation_max`, `C43_no_invented_entry`, `C43_values`, `C44_ascending`, `C44_items`, `C44_one_end`, `C44_only_assert`, `C45_array_partial`, `C45_length`, `C45_predefined_partial`, `C45_signed`, `C45_signed_index`, `C45_which`, `C46_iter`, `C46_lenHint_refuted`, `C46_representation`, `C46_representation_counted`, `C46_shape`, `C46_signed`, `C47_iter`, `C47_iter_keys_decide`, `C47_keys_decide`, `C47_predefined_maps`, `C47_sets`, `C47_values`, `C48_never_panics`, `C48_size_hint`, `C48_stops`, `C49_agree`, `C49_failing`, `C49_iter_keys_unaffected`, `C49_keys_unaffected`, `C49_write`, `C49_write_back`, `C49_write_twice`, `C50_covers`, `C50_entries`, `C50_ledger_size`, `C50_nodes`, `C50_predefined_sets`, `C50_slots`, `C50_slots_least`, `C51_box`, `C51_crate_coll`, `C51_iter`, `C51_leaf`, `C51_methods`, `C51_nested`, `C51_sized`, `C51_transfer`, `C51_tree`, `C51_user_parts`, `C51_user_parts_no_panic`, `C53_byteSet_eq`, `C53_canonical_partial`, `C53_fixed`, `C53_leaves`, `C53_observe_partial`, `C53_rebuild_partial`, `C53_undo_partial`, `C53_upToOrder_all`, `C53_upToOrder_fixed`, `C53_upToOrder_observe_partial`, `C53_upToOrder_partial`, `C53_upToOrder_plain`, `C55_alike`, `C55_crate`, `C55_decides`, `C55_drain`, `C55_exact`, `C55_foreign_entry`, `C55_insert_keys`, `C55_inside_sorted`, `C55_iter`, `C55_machine_map`, `C55_nested`, `C55_run`, `C55_sixteen_bit`, `C56_eight_bit`, `C56_history`, `C56_keys`, `C56_no_panic`, `C56_shape`, `C56_small`, `C56_used`, `C57_arrays`, `C57_keys`, `C57_same`, `C57_small`, `C57_trees`, `C58_collect`, `C58_collect_partial`, `C58_count`, `C58_find`, `C58_fold`, `C58_last`, `C58_len_partial`, `C58_try_fold`, `C58_yields`, `C59_history_partial`, `C59_lost_by_index`, `C59_no_panic`, `C59_nothing_twice`, `C59_refuted`, `C59_returns`, `C60_alike_partial`, `C60_benchmark_partial`, `C60_btree`, `C60_differ`, `C60_is_some`, `C60_makers`, `C60_refuted_next`, `C60_veb_partial`, `C60_veb_returns`, `C61_answers_stored`, `C61_entries`, `C61_len`, `C61_no_panic`, `C61_only_debug_assert`, `C61_sizes`, `C61_values`, `C62_exchange`, `C62_order`, `C62_order_counted`, `C62_order_uncounted`, `C62_ordinary`, `C63_array_halves`, `C63_crate_noArray`, `C63_crate_partial`, `C63_history_partial`, `C63_keys`, `C63_marker`, `C63_no_trees`, `C63_odd_arrays`, `C63_predefined`, `C63_predefined_keys`, `C63_refuted_i16`, `C63_refuted_u128`, `C64_capacity`, `C64_every_method`, `C64_history`, `C64_len`, `C64_no_panic`, `C64_overflow`, `C64_predefined`, `C64_predefined_no_panic`, `C64_refuted_u64`, `C64_sizedSafe`, `C65_history`, `C65_history_panics`, `C65_iter`, `C65_iter_full`, `C65_iter_overflow`, `C65_iter_refuted`, `C65_no_panic`, `C65_overflow`, `C65_panics`, `C65_refuted`, `C65_u16`, `C66_refill`, `C66_refill_predefined`, `C66_refuted`, `C67_answers`, `C67_conservation_partial`, `C67_emptiable`, `C67_emptied`, `C67_gone`, `C67_len`, `C67_len_hint`, `C67_lost`, `C67_monad`, `C67_no_duplication`, `C67_refuted`, `C68_agree`, `C68_len_hint`, `C68_map_partial`, `C68_no_panic_partial`, `C68_only`, `C68_two`, `C70_never`, `C70_panics`, `C70_short`, `C70_still`, `C71_bytes`, `C71_halves`, `C71_never`, `C71_tree`, `C72_crate`, `C72_pass`, `C73_agree`, `C73_entries_partial`, `C73_panics`, `C73_size_hint`, `C73_values`, `C74_answers`, `C74_conservation_partial`, `C74_honest`, `C74_leaf_honest`, `C74_len_partial`, `C74_no_duplication`, `C74_panics`, `C74_still`, `C75_agree`, `C75_len_hint`, `C75_map_partial`, `C75_no_panic_partial`, `C76_faithful`, `C76_map_partial`, `C76_no_panic`, `C76_nothing_twice`, `C76_panics`, `C76_returns`, `C76_short`, `C76_sound`, `C77_bits`, `C77_count_ones`, `C77_counts`, `C77_empty`, `C77_ends`, `C77_leading_zeros`, `C77_masks`, `C77_neighbours`, `C77_trailing_zeros`, `C78_agree`, `C78_agree_left`, `C78_caught`, `C78_entries_partial`, `C78_over`, `C79_alike`, `C79_coll`, `C79_contract_needed`, `C79_deque_trees`, `C79_len_hint`, `C79_same_tree`, `C79_tree`, `C79_tree_over`, `C79_tree_over_no_panic`, `C80_coll`, `C80_history`, `C80_index_needed`, `C80_overflow`, `C80_signed`, `C80_tree_over`, `C80_tree_over_no_panic`, `C80_wide`, `C81_book`, `C81_coll`, `C81_keys`, `C82_agree`, `C82_iter`, `C82_methods`, `C82_no_panic`, `C82_order`, `C82_sized`, `C83_made`, `C83_once`, `C84_hash_made`, `C84_insert`, `C84_made`, `C85_all`, `C85_history`, `C85_predefined`, `C85_prices`, `C85_visits`, `C86_coll`, `C86_coll_tree`, `C86_keys`, `C86_repair_same`, `C86_repaired`, `C86_returns_partial`, `C86_shift`, `C87_caught_partial`, `C87_count`, `C87_full_partial`, `C87_refuted`, `C88_four_calls`, `C88_last_insert`, `C88_three_calls`, `C88_two_keys`, `C89_decides`, `C89_exists`, `C89_next`, `C89_rebuilding`, `C89_rebuilding_idle`, `C89_sentinel`, `C89_sentinel_refuted`, `C90_byteMap`, `C90_coll`, `C90_keys`, `C90_map`, `C90_over_array`, `C90_over_array_panic`, `C90_over_list`, `C90_over_list_panic`, `C90_panic`, `C91_byteMap`, `C92_array`, `C92_count`, `C92_list`, `C93_ascending`, `C93_drain`, `C93_refuted_removals`, `C93_rescue`, `C94_count`, `C94_healthy`, `C94_len`, `C94_safe`, `C95_map`, `C96_crate`, `C96_drain`, `C96_drain_types`, `C96_ends`, `C96_exact`, `C96_exact16`, `C96_machine`, `C96_turns`, `C96_types`, `C96_wrong`, `C97_crate`, `C97_first`, `C97_half`, `C97_right`, `C97_unique`, `C97_wrong`, `C98_back`, `C98_iter`, `C98_machine`, `C98_sixteen_bit`, `C98_transfer`, `C99_count`, `C99_iter`, `C99_iter_count`, `C99_rev`, `C99_rev_count`, `C99_sets`, `C99_third`, `C99_types`, `C99_which`, `C99_wrapped`, `C99_wrong`, `MeetsAll.extremes`, `MeetsAll.find`, `MeetsAll.insert`, `MeetsAll.monad`, `MeetsAll.mono`, `MeetsAll.mutAccess`, `MeetsAll.pops`, `MeetsAll.pred`, `MeetsAll.remove`, `MeetsAll.succ`, `PlainTree.crate`, `Sparse.array`, `Sparse.look_filter`, `Tally.run_rep`, `Tally.runs`, `Tally.step_rep`, `Watched.answers`, `array_tree`, `ascending_answers`, `ascending_inserts`, `ascending_ledger`, `ask_step`, `byte_hash`, `checks`, `common_keys`, `countOrd_honest`, `count_phys`, `crate16`, `crate32`, `crate64`, `crate8`, `dist_bij`, `dist_mono`, `entries_snoc_le`, `exists_first`, `failureKeeps_of`, `fair_safe`, `findIdx_iff`, `fixed16`, `fixedSet16`, `hash16`, `indexWrap_inj`, `liar_audited`, `liar_caught`, `liar_caught_audit`, `listed_tree`, `makes_array`, `makes_byteSet`, `makes_byteTree`, `map16Shape`, `map32Shape`, `map64Shape`, `map8Shape`, `meetsAll_of`, `no_array_tree`, `odd16`, `pairwise_ext`, `run_inserts`, `runsLike_of`, `safe_caught`, `sample_reaches`, `set16Refl`, `set16Shape`, `set32Refl`, `set32Shape`, `set64Shape`, `set8Refl`, `set8Shape`, `shape_eq`, `signedShape`, `sorted_forget`, `tape_user`, `tree2`, `tree4`, `tree8`, `treeS8`, `twoTree`, `uncounted16`, `uncounted32`, `uncounted64`, `values_eq`
