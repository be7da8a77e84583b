{"id": "C01", "title": "Integer keys: split and join are inverse", "statement": "For every provided integer key type (u8,u16,u32,u64,u128,i8,i16,i32,i64,i128) splitting a key and joining the two halves gives the key back, and joining two halves and splitting gives the same two halves back.", "quantifier": "every value of every integer key type, and every pair of halves", "why_tests_cant": "The 64- and 128-bit key spaces cannot be enumerated; the unit tests sample boundary values.", "anchors": ["src/key.rs: impl VebKey for u8/u16/u32/u64/u128/i8/i16/i32/i64/i128 (split_val, join)"]}
{"id": "C02", "title": "Integer keys: splitting preserves the order", "statement": "For every two keys a, b of an integer key type, a.cmp(b) equals the lexicographic comparison of (hi(a),lo(a)) with (hi(b),lo(b)); in particular signed keys keep their signed order although their halves are unsigned.", "quantifier": "every pair of values of every integer key type", "why_tests_cant": "Pairs of 128-bit values cannot be enumerated, and a wrong boundary near MIN/MAX only shows on particular pairs.", "anchors": ["src/key.rs: trait VebKey doc contract; impl VebKey for all integers"]}
{"id": "C03", "title": "Array keys: split/join inverse and order preserving", "statement": "For [T;2], [T;3], [T;4], [T;5], [T;6], [T;7], [T;8] and [T;16] over any totally ordered T, split and join are mutually inverse and the lexicographic array order equals the lexicographic order of the (hi, lo) pair.", "quantifier": "every element type T with a total order, every array value of each supported length", "why_tests_cant": "The element type is an arbitrary user type; tests fix T=u8 and a handful of arrays.", "anchors": ["src/key.rs: impl VebKey for [T; 2] .. [T; 16]"]}
{"id": "C04", "title": "Splitting by reference agrees with splitting by value", "statement": "For every key type the pair handed to the closure of split_ref is exactly the pair returned by split_val, so that reading operations (which use split_ref) and insert (which uses split_val) look for a key in the same subtree.", "quantifier": "every key of every provided key type", "why_tests_cant": "The array implementations of split_ref use separate slice patterns; agreement is needed on every array of every element type.", "anchors": ["src/key.rs: trait VebKeyRef, CloneVebKeyRef blanket impl, impl VebKeyRef for [T; N]"]}
{"id": "C05", "title": "U4 and U2 never leave their range", "statement": "Every U4 (U2) obtainable from the public constructors, conversions, splits, joins, bit-or and shifts holds a value at most 15 (at most 3); converting u8 to U4/U2 keeps the low bits; U4/U2/u8 splits and joins are inverse and order preserving on such values.", "quantifier": "every u8, every U4/U2 and every shift amount below the overflow limit, closed under composition of the operations", "why_tests_cant": "It is a closure property over arbitrary compositions of the operations.", "anchors": ["src/key.rs: U4, U2, From<u8>, From<U4>, From<U2>, BitOr, Shl, Shr, VebKey for u8/U4/U2"]}
{"id": "C06", "title": "Index of a sized key fits the array", "statement": "For every type implementing SizedVebKey, index() is strictly smaller than the type-level Cardinality (the length of the arrays indexed with it) and two different keys have different indices.", "quantifier": "every value of every SizedVebKey type", "why_tests_cant": "Violations only appear for particular (non-negative signed) keys; no unit test calls index() on signed keys.", "anchors": ["src/key.rs: trait SizedVebKey and its impls", "src/collection/array.rs: ArrayTreeCollection (uses h.index())"]}
{"id": "C07", "title": "CARDINALITY is the number of values", "statement": "For every type implementing SizedVebKey the constant CARDINALITY equals the type-level Cardinality, i.e. the number of values of the type.", "quantifier": "every SizedVebKey type", "why_tests_cant": "No test mentions the constant; it is public API that nothing inside the crate reads.", "anchors": ["src/key.rs: SizedVebKey::CARDINALITY"]}
{"id": "C08", "title": "ByteSet is an ordered set of bytes under every history", "statement": "After every finite sequence of insert/remove/remove_min/remove_max/find/predecessor/successor/min/max/monad operations, a ByteSet returns exactly what an ordered set of u8 would return and never panics.", "quantifier": "every finite operation sequence with arbitrary u8 arguments (all 2^256 sets are reachable)", "why_tests_cant": "2^256 states; masks and shifts have boundary cases at bits 0, 127, 128 and 255 that interact.", "anchors": ["src/bitset/set.rs: ByteSet (all methods)"]}
{"id": "C09", "title": "ByteSet len, lowest and highest are exact", "statement": "For every ByteSet obtained from the API: len() is the number of bytes it contains, lowest()/highest() are its least and greatest element, and len() never panics.", "quantifier": "every reachable ByteSet", "why_tests_cant": "2^256 states.", "anchors": ["src/bitset/set.rs: len, lowest, highest, array_len"]}
{"id": "C10", "title": "ByteMap is an ordered map from bytes under every history", "statement": "After every finite sequence of operations (including writes through find_mut/min_val_mut/predecessor_mut/...), a ByteMap over a VecDeque returns exactly what an ordered map u8 -> V would return: each key is associated with the value stored for it although the values live in a dense list indexed by rank; no operation panics.", "quantifier": "every finite operation sequence, every value type V", "why_tests_cant": "The rank of every other key shifts on each insertion/removal; only an invariant over all sets settles that no value is ever attributed to a neighbouring key.", "anchors": ["src/bitset/map/mod.rs: impl VebTree for ByteMap<L>", "src/bitset/map/list.rs: impl List for VecDeque"]}
{"id": "C11", "title": "BTreeMap used as a VebTree is an ordered map under every history", "statement": "After every finite operation sequence starting from from_monad, the VebTree methods of BTreeMap return what an ordered map would return; the tree is reported gone exactly when its last element is removed; no expect() fires.", "quantifier": "every finite operation sequence, every totally ordered key type, every value type", "why_tests_cant": "Unbounded key type and history.", "anchors": ["src/lib.rs: impl VebTree for BTreeMap"]}
{"id": "C12", "title": "Box<V> is transparent", "statement": "For every VebTree V and every operation sequence, Box<V> produces the same outputs as V, including when removal returns the remaining tree or returns the tree unchanged.", "quantifier": "every VebTree implementation V (lawful or not), every finite operation sequence", "why_tests_cant": "Quantifies over all implementations of the trait.", "anchors": ["src/lib.rs: impl VebTree for Box<V>"]}
{"id": "C13", "title": "SizedVebTree counts its elements exactly", "statement": "For every VebTree V meeting the trait contract and every history, SizedVebTree<V> behaves like V, its len() equals the number of distinct keys currently stored, replacing a value does not change it, and the only panic is 'size overflowed' when usize::MAX keys are exceeded.", "quantifier": "every contract-abiding implementation V, every finite operation sequence", "why_tests_cant": "Unbounded histories mixing replacing inserts, failing removes and removals of the last element.", "anchors": ["src/lib.rs: SizedVebTree, impl VebTree for SizedVebTree<V>"]}
{"id": "C14", "title": "Array collection is a partial map from Hi to trees", "statement": "An ArrayTreeCollection indexed by an unsigned key behaves as a partial map: get/get_mut/insert_key/remove_key/maybe_remove_key affect only the addressed entry, an emptied subtree is removed from the map and reported (is_empty = true), and the collection is reported gone (None) exactly when its last subtree was emptied; a failed maybe_remove_key returns the collection unchanged; no panic.", "quantifier": "every reachable collection, every key, every subtree-removal function", "why_tests_cant": "Quantifies over arbitrary histories and arbitrary removal closures; correctness depends on the count matching the occupied slots in every state.", "anchors": ["src/collection/array.rs: impl TreeCollection for ArrayTreeCollection"]}
{"id": "C15", "title": "Hash collection is a partial map from Hi to trees", "statement": "The same contract as C14 for HashMap<Hi, Tree>: entries are independent, emptied subtrees disappear, None is returned exactly when the map becomes empty, failure leaves the map unchanged; the unreachable!() branches are never taken by contract-abiding callers.", "quantifier": "every reachable map, every key, every subtree-removal function", "why_tests_cant": "Unbounded key type and history.", "anchors": ["src/collection/hash.rs: impl TreeCollection for HashMap"]}
{"id": "C16", "title": "Byte collection is a partial map from u8 to trees", "statement": "The same contract as C14 for ByteMap used as a TreeCollection: the bit set of present keys and the dense list of trees stay in step in every reachable state.", "quantifier": "every reachable collection, every key, every subtree-removal function", "why_tests_cant": "The rank of every other entry shifts on each insertion/removal.", "anchors": ["src/bitset/map/mod.rs: impl TreeCollection for ByteMap<L>", "src/bitset/map/list.rs: impl TreeList for VecDeque"]}
{"id": "C17", "title": "Tree behaves as an ordered map under every history", "statement": "For every tree type of markers.rs (16-, 32- and 64-bit, set and map, unsigned and signed keys) and every finite operation sequence, the outputs are those of an ordered map and nothing panics.", "quantifier": "every finite operation sequence, every value type, every marker type", "why_tests_cant": "Key spaces of 2^16..2^64 and unbounded histories. (The unchanged code violates this: inserting a key below the current minimum of a tree that already has two elements swaps the wrong element into max.)", "anchors": ["src/tree.rs: impl VebTree for Tree", "src/markers.rs"]}
{"id": "C18", "title": "Removed keys are gone, inserted keys are found, others are untouched", "statement": "After insert(k,v), find(k) returns (k,v) and find(j) is unchanged for every j != k; after a successful remove(k), find(k) is None and find(j) is unchanged for every j != k.", "quantifier": "every reachable tree of every tree type, every k, v, j", "why_tests_cant": "Quantifies over all pairs of keys and all reachable trees.", "anchors": ["src/tree.rs: insert, remove, find", "src/bitset/set.rs", "src/bitset/map/mod.rs", "src/lib.rs"]}
{"id": "C19", "title": "min_val and max_val are the true extremes", "statement": "In every reachable tree min_val() (max_val()) returns a stored key with its value such that every stored key is >= (<=) it.", "quantifier": "every reachable tree, every stored key", "why_tests_cant": "Depends on every past insertion/removal having maintained the extremes.", "anchors": ["src/tree.rs: min_val, max_val, insert, remove_min, remove_max"]}
{"id": "C20", "title": "predecessor returns the greatest smaller key", "statement": "In every reachable tree predecessor(k) returns the stored pair with the greatest key strictly below k and None exactly when no stored key is below k, whether or not k itself is stored.", "quantifier": "every reachable tree, every k", "why_tests_cant": "All gaps between stored keys, across subtree boundaries and at min/max, in all reachable trees.", "anchors": ["src/tree.rs: predecessor", "src/bitset/set.rs: predecessor, mask_lower"]}
{"id": "C21", "title": "successor returns the least greater key", "statement": "In every reachable tree successor(k) returns the stored pair with the least key strictly above k and None exactly when no stored key is above k, whether or not k itself is stored.", "quantifier": "every reachable tree, every k", "why_tests_cant": "All gaps between stored keys, across subtree boundaries and at min/max, in all reachable trees.", "anchors": ["src/tree.rs: successor", "src/bitset/set.rs: successor, mask_higher"]}
{"id": "C22", "title": "insert reports exactly the replaced entry", "statement": "insert(k,v) returns Some((k,old)) exactly when k was stored with value old, and None exactly when k was not stored.", "quantifier": "every reachable tree, every k, v", "why_tests_cant": "insert displaces min/max and pushes them into subtrees; the result of the displaced insertion must never leak out.", "anchors": ["src/tree.rs: insert", "src/collection/mod.rs: TreeInsertResult"]}
{"id": "C23", "title": "remove returns the entry, or the unchanged tree", "statement": "remove(k) returns Ok((rest, (k,v))) exactly when k was stored with v, where rest is None exactly when k was the only key; otherwise it returns Err(tree) with the very same tree.", "quantifier": "every reachable tree, every k", "why_tests_cant": "Needs the whole tree unchanged on failure, after it has been taken apart (data.take()) and reassembled.", "anchors": ["src/tree.rs: remove", "src/lib.rs: MaybeRemoveResult doc"]}
{"id": "C24", "title": "remove_min / remove_max pop the extremes; draining sorts", "statement": "remove_min() (remove_max()) removes and returns the least (greatest) entry; calling it repeatedly until no tree is left yields every stored entry exactly once in ascending (descending) order.", "quantifier": "every reachable tree, drains of any length", "why_tests_cant": "Unbounded number of elements; each step restructures subtrees and summaries.", "anchors": ["src/tree.rs: remove_min, remove_max"]}
{"id": "C25", "title": "No operation panics", "statement": "No operation of any tree type panics on any reachable tree: every expect(), unreachable!(), index operation and debug_assert! succeeds (in particular every key in a summary has a child).", "quantifier": "every reachable tree, every operation and argument", "why_tests_cant": "Reachability of a panic is a property of all histories.", "anchors": ["src/tree.rs: 'child should exist for summary key', 'summary should have remaining elements after removal'", "src/bitset/map/mod.rs", "src/collection/array.rs"]}
{"id": "C26", "title": "The _mut accessors address the same entry and write only it", "statement": "find_mut, min_val_mut, max_val_mut, predecessor_mut and successor_mut return the same key and value as their shared counterparts, and a write through the returned reference changes the value of exactly that key.", "quantifier": "every reachable tree, every key argument, every written value", "why_tests_cant": "Each _mut method is a separate copy of its counterpart's code.", "anchors": ["src/tree.rs: *_mut", "src/bitset/map/mod.rs: *_mut", "src/lib.rs: *_mut"]}
{"id": "C27", "title": "Monad queries and length hints are truthful", "statement": "is_monad() is true exactly when one entry is stored; into_monad() returns that entry, or gives the unchanged tree back otherwise; len_hint() brackets the number of stored entries (and is exact for ByteSet, BTreeMap and SizedVebTree).", "quantifier": "every reachable tree", "why_tests_cant": "Depends on all histories keeping representation canonical (no tree with data but one element).", "anchors": ["src/lib.rs: is_monad, into_monad, len_hint", "src/tree.rs", "src/bitset/set.rs", "src/bitset/map/mod.rs"]}
{"id": "C28", "title": "Forward iteration yields the entries in ascending order", "statement": "For every tree meeting the VebTree contract, collecting Iter yields every stored entry exactly once in strictly ascending key order and then ends.", "quantifier": "every contract-abiding VebTree implementation, every tree", "why_tests_cant": "Unbounded trees and an abstract tree type.", "anchors": ["src/iter.rs: Iterator for Iter"]}
{"id": "C29", "title": "Double-ended iteration partitions the entries", "statement": "For every tree meeting the contract and every interleaving of next and next_back calls, the outputs are those of popping a double-ended queue holding the entries in ascending order: no entry is yielded twice or skipped when the ends meet, and the debug_assert!(false) branches are never reached.", "quantifier": "every interleaving of next/next_back of any length, every contract-abiding tree", "why_tests_cant": "All interleavings of unbounded length.", "anchors": ["src/iter.rs: next, next_back, IterData"]}
{"id": "C30", "title": "The iterator is fused and terminates", "statement": "Once next or next_back has returned None, every later call of either returns None; at most n calls return Some for a tree with n entries.", "quantifier": "every interleaving, every contract-abiding tree", "why_tests_cant": "Quantifies over all continuations.", "anchors": ["src/iter.rs: FusedIterator for Iter"]}
{"id": "C31", "title": "size_hint brackets what is left and never underflows", "statement": "At every point of every interleaving, size_hint() does not panic and brackets the number of entries still to come; for SizedVebTree (ExactSizeIterator) both bounds equal it.", "quantifier": "every interleaving, every contract-abiding tree", "why_tests_cant": "The subtraction max - emitted underflows if any state is miscounted.", "anchors": ["src/iter.rs: size_hint", "src/lib.rs: ExactSizeIterator for Iter<SizedVebTree>"]}
{"id": "C32", "title": "The order of insertions does not matter", "statement": "Two histories that leave the same set of entries leave trees that answer every query identically.", "quantifier": "every pair of histories of the same tree type", "why_tests_cant": "All permutations of unbounded insertion sequences.", "anchors": ["src/tree.rs: insert"]}
{"id": "C33", "title": "All implementations agree", "statement": "The same operation sequence gives the same outputs on every tree implementation with the same key type (for instance the u16 tree, its boxed and sized versions and BTreeMap<u16, V>).", "quantifier": "every finite operation sequence, every pair of implementations", "why_tests_cant": "Differential testing samples histories; this is all of them.", "anchors": ["src/lib.rs: trait VebTree and its implementations"]}
{"id": "C34", "title": "One deep recursion per operation (O(lg lg K))", "statement": "In every reachable tree, each operation makes at most one non-constant-time recursive call per level, so the number of tree nodes visited is at most a constant times the number of levels, i.e. O(lg lg K).", "quantifier": "every reachable tree, every operation", "why_tests_cant": "A worst-case bound over all trees and keys; timing tests cannot establish it.", "anchors": ["src/tree.rs: complexity docs", "src/lib.rs: complexity docs"]}
{"id": "C35", "title": "insert returns the previously stored key object", "statement": "insert(k,v) on a present key replaces the stored pair and returns the previously stored pair, also for key types with equal-but-distinguishable keys.", "quantifier": "every reachable tree over every key type whose Ord identifies some distinguishable keys", "why_tests_cant": "Needs a key type with equal but distinguishable values; the tests use integers.", "anchors": ["src/lib.rs: VebTree::insert doc, impl VebTree for BTreeMap::insert", "src/tree.rs: insert"]}
{"id": "C36", "title": "Ascending insertion histories are always safe", "statement": "For tree types of any depth, every history whose inserts either overwrite a stored key or add a key greater than all stored ones (with removals, queries and writes in any order in between) behaves as an ordered map and never panics.", "quantifier": "every such history, every nesting depth", "why_tests_cant": "Unbounded histories and nesting depth.", "anchors": ["src/tree.rs: insert"]}
{"id": "C37", "title": "Stored keys balance with the answers, whatever the history", "statement": "After any history, also one that breaks the order of a tree, popping until the tree is gone gives back exactly the multiset of keys inserted minus the keys the tree itself reported as replaced or removed; a removal succeeds exactly for these keys; and no call ever answers a key outside of them.", "quantifier": "every tree type of any nesting depth, every finite history in any key order, every prefix", "why_tests_cant": "It is about all histories including those that run into other defects; a test compares with a reference and stops at the first difference.", "anchors": ["src/tree.rs: insert, remove, remove_min, remove_max", "src/collection.rs"]}
{"id": "C38", "title": "The counter of SizedVebTree never drifts", "statement": "After any history SizedVebTree::len equals the number of keys that the answers account for, len_hint of every tree type brackets it, and is_monad/into_monad recognise exactly the trees with one such key.", "quantifier": "every tree type, every history (with at most usize::MAX insertions if a counter could overflow, C64)", "why_tests_cant": "A counter can drift only on histories where insert or remove answer something unexpected, which ordinary tests exclude.", "anchors": ["src/lib.rs: SizedVebTree", "src/tree.rs: len_hint, is_monad, into_monad"]}
{"id": "C39", "title": "No key is lost unless an end is popped", "statement": "As long as a history calls neither remove_min nor remove_max, every key that an ordered map would hold is stored in the tree and can be removed, whatever the order of the insertions.", "quantifier": "every tree type, every finite history without remove_min and remove_max", "why_tests_cant": "All insertion orders, including those that break the order of the tree.", "anchors": ["src/tree.rs: insert, remove"]}
{"id": "C40", "title": "Searching is right as long as nothing is removed", "statement": "In every history without removals, in any key order, every find, find_mut (with a write through the reference), min_val, min_val_mut, is_monad and into_monad is answered as by an ordered map, on every tree type; and none of the other answers (insert, max_val, predecessor, successor, or find after a removal) can be added to this list.", "quantifier": "every tree type of any nesting depth, every finite history without removals", "why_tests_cant": "All insertion orders of unboundedly many keys, including those for which other answers are wrong.", "anchors": ["src/tree.rs: insert, find, find_mut, min_val, is_monad, into_monad"]}
{"id": "C41", "title": "The safe histories are exactly the ones answered correctly", "statement": "On every tree type of the crate, at any nesting depth, a history is answered correctly at every moment (each prefix, followed by max_val or by predecessor of any key, behaves as the ordered map) if and only if none of its insertions runs into the defective arm of insert at any level or overflows a counter; for 16-bit keys: iff no insertion goes below the least key while two or more keys are stored. After such an insertion at the top level max_val answers the old minimum.", "quantifier": "every tree type of any nesting depth, every finite history", "why_tests_cant": "It characterises the failing histories completely, which needs an argument over all of them.", "anchors": ["src/tree.rs: insert, max_val, predecessor"]}
{"id": "C42", "title": "One comparison is all that is wrong with insert", "statement": "With the two operands of the comparison in src/tree.rs:526 exchanged, so that the old minimum is compared with the stored maximum, and nothing else changed, every history in any key order on every tree type of the crate behaves as the ordered map; the changed call agrees with the code unless the key is below the minimum of a tree of two or more entries.", "quantifier": "every tree type of any nesting depth, every finite history, no restriction on the order of keys", "why_tests_cant": "That a fix is complete, and no second defect hides behind the first, is a claim about all histories.", "anchors": ["src/tree.rs: insert"]}
{"id": "C43", "title": "Entries are neither lost, nor duplicated, nor taken apart", "statement": "Whatever the history, the entries that come back when the tree is emptied, together with those given back in answers (replaced, removed, or overwritten through a mutable reference), are exactly the entries handed over, each as often as it was handed over and with the value it was handed over with; and every entry that a call answers is one that was handed over and not given back before.", "quantifier": "every tree type, every finite history, also those that run into the defect of insert", "why_tests_cant": "All histories over unboundedly many keys and values; values have to be followed through every move between minimum, maximum and children.", "anchors": ["src/tree.rs: insert, remove, remove_min, remove_max, find_mut, predecessor_mut, successor_mut", "src/lib.rs: VebTree"]}
{"id": "C44", "title": "What the iterator keeps to on every tree", "statement": "Whatever the history that built the tree: an iterator that has returned None keeps returning None (on any VebTree implementation at all); advancing one end only never panics, and advancing both ends can only run into the iterator's own debug_assert!(false); every item is an entry that was handed over and not given back, with its value. If nothing was removed, iterating forwards gives strictly ascending stored keys starting with the least, and ends.", "quantifier": "every tree type, every finite history also with the defect of insert, every sequence of next and next_back calls (up to the overflow of the usize counter)", "why_tests_cant": "It includes the trees whose order is broken, where a test could only record one particular wrong answer.", "anchors": ["src/iter.rs: next, next_back, FusedIterator", "src/tree.rs: successor, predecessor"]}
{"id": "C45", "title": "Sized keys and arrays on every target", "statement": "On every target (usize of 16, 32, 64 or 128 bits) each integer type for which SizedVebKey is compiled has distinct indices below the length of an array indexed by it (Cardinality::USIZE), that length is the number of its values and equals CARDINALITY, and the predefined trees over such arrays work.", "quantifier": "every target_pointer_width, every integer width compiled there, every key, every finite history", "why_tests_cant": "Tests run on one target only, and on most of these targets not at all.", "anchors": ["src/key.rs: SizedVebKey", "src/collection/array.rs: create", "src/markers.rs"]}
{"id": "C46", "title": "The representation of a tree cannot be observed", "statement": "Two tree types that are nested alike and differ only in the map type used as leaf (ByteSet, ByteMap, BTreeMap), in the collection type (array, hash map, byte map) and in what is boxed give the same outputs and the same iterator items on every history, including histories that run into the defect of insert; the predefined trees over signed keys behave as those over unsigned keys with each key x read as x - MIN. Only len_hint tells the types apart.", "quantifier": "every pair of such types of any nesting depth, every finite history, every interleaving of next and next_back", "why_tests_cant": "Tests compare a few types with a model on random histories; none compares two representations, and no finite set of types covers the pairs.", "anchors": ["src/tree.rs", "src/collection/mod.rs: TreeCollection", "src/bitset/mod.rs", "src/lib.rs: impl VebTree for BTreeMap, Box", "src/key.rs: VebKey for signed integers"]}
{"id": "C47", "title": "A tree never looks at the values it stores", "statement": "Renaming the values of a history by any function, also one that makes values equal, renames the values in the outputs and iterator items and changes nothing else; two histories that differ only in values give outputs that differ only in values, and panic together; the predefined sets answer, on every history, the keys that the predefined maps answer.", "quantifier": "every tree type of any nesting depth, every value type, every renaming, every finite history including those that run into the defect of insert", "why_tests_cant": "Quantifies over all value types and functions; the tests instantiate maps with one or two value types and never compare a map with a set.", "anchors": ["src/tree.rs", "src/bitset/mod.rs", "src/lib.rs: VebTree", "src/markers.rs"]}
{"id": "C48", "title": "Iterators in a release build", "statement": "In a build without debug assertions and overflow checks the iterator returns what a debug build returns wherever that returns; after any history it never panics, however it is advanced and however often; where a debug build fails its assertion the iterator ends for good; size_hint is that of a debug build over every tree that answers correctly.", "quantifier": "every tree type, every finite history including those that run into the defect of insert, every sequence of next and next_back calls of any length", "why_tests_cant": "Tests run in the debug profile; the claim compares two builds on all histories and call sequences.", "anchors": ["src/iter.rs: next, next_back, size_hint"]}
{"id": "C49", "title": "References to values, on every tree", "statement": "On every tree value each _mut accessor returns the key and the value its shared version returns, and a value written through the reference is what the same accessor returns next. After every history, writing back the value that was there leaves the tree unchanged, no write changes any key returned by later operations or iterators, and a remove or into_monad that fails returns the same tree.", "quantifier": "every tree type of the crate, every tree value or every finite history including those that run into the defect of insert, every accessor, key and written value, every further history", "why_tests_cant": "A test writes a value and looks at a few keys; that nothing else changed, and that this holds on trees whose answers are wrong, is a statement about all later operations.", "anchors": ["src/lib.rs: *_mut", "src/tree.rs: *_mut, remove, into_monad", "src/collections.rs: get_mut"]}
{"id": "C50", "title": "How much a tree occupies", "statement": "A tree that stores n keys, whatever its history, consists of at most levels*(n-1)+1 structures, which store at least n and at most (levels+1)*(n-1)+1 keys in total, those of the summaries included; its arrays have at most as many slots per structure as the widest index type has values, and from the third key on at least as many as the outermost index type has values.", "quantifier": "every tree type of the crate, every finite history including those that run into the defect of insert", "why_tests_cant": "Memory use is not asserted by any test, and the bound is about all histories; a structure leaked on one path would not be noticed.", "anchors": ["src/tree.rs: Tree, TreeData", "src/collection/*.rs", "src/markers.rs"]}
{"id": "C51", "title": "Parts that answer alike can be exchanged, also parts the crate does not know", "statement": "Two implementations of VebTree that give the same answers on every history are interchangeable as summary and as children of a Tree and inside Box and SizedVebTree, and two implementations of TreeCollection that answer as collections are interchangeable as its collection: the resulting trees give the same answers on every history. So a Tree over any user-written parts that are ordered maps by their answers is an ordered map wherever the crate's own trees are, and never panics.", "quantifier": "all types with the trait methods, no matter how they are represented; all key types (correct ones for the comparison with an ordered map); all histories; iterators however advanced", "why_tests_cant": "The crate's tests use the crate's own leaves and collections; an implementation by a user is unknown, and a dependence on more than its answers (such as identical trees after a failing removal) would go unnoticed.", "anchors": ["src/lib.rs:32-161", "src/collection/mod.rs:58-106", "src/tree.rs: impl VebTree for Tree", "src/lib.rs:168-330"]}
{"id": "C52", "title": "A clone of a tree answers as the original", "statement": "After any history, also one that has spoiled the tree, a clone of a Tree, BTreeMap, ByteSet or box answers every further sequence of calls as the original does, with the values cloned; iterators over it return the cloned items; neither panics where the other does not. If keys and values are equal to their clones, the clone is equal to the original.", "quantifier": "all cloneable tree types of any nesting depth, all trees (reachable or not), all histories before and after, all behaviours of Clone on values; iterators however advanced", "why_tests_cant": "The crate has no test of clone; one that forgets a child or the maximum shows only on particular shapes.", "anchors": ["src/tree.rs:49-78", "src/bitset/set.rs:5-6", "src/key.rs:397", "src/key.rs:466"]}
{"id": "C53", "title": "The contents determine the tree", "statement": "Two histories after which the same entries are stored leave the same tree in every field: nothing of the order of insertions, of overwrites or removed keys remains. So a tree is the one that inserting its entries in ascending order gives, adding a key and removing it gives back the tree from before, and trees in which every search gives the same are equal. For ByteSet, == compares the elements.", "quantifier": "all tree types of any nesting depth, all pairs of histories; with hash tables inside, the same up to the order of their buckets", "why_tests_cant": "Leftovers of a history, such as an empty child or a stale summary, are invisible to most queries; tests compare answers, not structure, and only for few pairs of histories.", "anchors": ["src/tree.rs: impl VebTree for Tree", "src/bitset/set.rs", "src/bitset/map/mod.rs", "src/collection/array.rs", "src/lib.rs:168-330"]}
{"id": "C54", "title": "Borrowed or owned makes no difference", "statement": "MaybeBorrowed values are compared by what they refer to, == is an equivalence exactly if it is one for the contents, into_or_clone never clones an owned value, and a program that compares, dereferences, takes over and joins cannot tell a borrowed value from an owned one.", "quantifier": "all content types, all values, all Clone and PartialEq implementations (those that obey the contract of Clone where stated)", "why_tests_cant": "Tests compare Borrowed with Owned for a few numbers; they cannot show that no combination of the operations tells them apart for any type.", "anchors": ["src/key.rs:27-90", "src/key.rs:99"]}
{"id": "C55", "title": "What Tree computes, on every history", "statement": "A Tree whose parts are correct computes, on every history including those spoiled by the defect of insert, what a small machine computes that has a minimum, a maximum and one sorted list of other entries: same outputs, no panic, same iterator items. Insertion never loses a stored key, and draining by remove_min and by remove_max yields the same entries in opposite orders.", "quantifier": "all good key types, all correct summaries, children and collections (also user-written), all histories, no condition on insertions", "why_tests_cant": "The state space of spoiled trees is unbounded and tests only ever look at states that are right or at single failures; they cannot give the exact behaviour for all of them.", "anchors": ["src/tree.rs:80-737", "src/tree.rs:502-562"]}
{"id": "C56", "title": "Trees over keys that are right on a part of their values", "statement": "U4 and U2 wrap a u8 whose high bits must be zero; an array index or a join is right for such values only. A tree type put together from the crate over such keys (u8 and i8 split into U4, U4 into U2, U2 into bool, arrays indexed by U4 or U2) runs like the ordered map on every history of keys in range with safe insertions, and never panics on any history of such keys.", "quantifier": "all key types with a part on which splitting, joining and indexing are right, at every level; all nestings, collections, histories", "why_tests_cant": "The values out of range are unreachable only if every split, summary minimum and stored key at every level stays in range, for all histories; tests with a few keys cannot show it.", "anchors": ["src/key.rs:352-539", "src/collection/array.rs:93-198", "src/tree.rs:80-737"]}
{"id": "C57", "title": "The other defects are one expression each", "statement": "With index of the signed integers computed by abs_diff, CARDINALITY taken from the type-level number, no SizedVebKey for integers as wide as usize, and BTreeMap::insert taking the old entry out first, the claims C06, C07, C14, C35 (for BTreeMap) and C45 hold in full; together with the correction of C42, trees over arrays indexed by signed or unsigned integers run like the ordered map on every history.", "quantifier": "all targets, integers, keys, trees over such arrays, histories, sequences of insertions, total preorders", "why_tests_cant": "That a defect has one cause, and that nothing else is wrong behind it, is a statement about all keys, targets and histories.", "anchors": ["src/key.rs:160-539", "src/lib.rs:541-550", "src/collection/array.rs:40-60", "src/tree.rs:502-562"]}
{"id": "C58", "title": "Loops over the iterator", "statement": "The methods that core provides on top of next, next_back and size_hint (for, fold, try_fold, collect, count, last, find, nth, rev and len) do over the iterator of a tree what they do over the list of the entries that are left, from either end, and leave the iterator where it can be used further; on a tree spoiled by an unsafe insertion a for loop does not end before the counter of emitted items overflows.", "quantifier": "all trees that answer like some entries, all call sequences before the loop, all loop bodies (breaking off or panicking too), both ends", "why_tests_cant": "A loop's end is a property of unboundedly many calls of next, whatever the body does; that a loop on a spoiled tree never ends cannot be seen by running it.", "anchors": ["src/iter.rs:37-197", "src/lib.rs:166-166"]}
{"id": "C59", "title": "Panics that are caught", "statement": "If a call inside Tree::insert panics (a comparison, a hash function, an index, an allocation, an insertion further down) and the panic is caught, the tree left behind is in order and holds what it held, or the new entry instead of the greatest, or only its extremes; after any history of caught panics a tree (boxed or not) answers like an ordered map with those losses, the tree left holds the entries of that map, no call panics by itself, every method returns, and no entry is there twice. The stronger claim, that nothing is lost, is false: the children are taken out during the insertion.", "quantifier": "all Tree types of the crate, all choices of panicking calls at every step, all histories", "why_tests_cant": "The panicking call must be chosen in every possible way at every step of every history; a test covers one panic at one place.", "anchors": ["src/tree.rs:502-562", "src/lib.rs:275-281", "src/lib.rs:408-410"]}
{"id": "C60", "title": "The benchmark's two implementations", "statement": "The trait VEBOperations of the benchmark drives Option<SizedVebTree> and a standard BTreeMap alike. Starting from the benchmark's makers (any coin tosses, any width), the tree's side answers every sequence of calls with safe insertions like the ordered map with strict neighbours, and the standard map's side every sequence like the one with inclusive neighbours; the two agree whenever next and prev are not asked about a stored key. That they always agree is false: next and prev differ at every stored key (is_some() differs exactly at the greatest and at the least key), and the insert benchmark can run into the defect of insert. No call on the tree's side panics.", "quantifier": "all tree types of the crate, all widths and tosses of the makers, all sequences of calls of VEBOperations", "why_tests_cant": "Benchmarks check no results at all, and the random widths and keys cover a vanishing part of the sequences.", "anchors": ["benches/random/main.rs:26-36", "benches/random/main.rs:38-105", "benches/random/main.rs:106-151", "benches/random/main.rs:153-197"]}
{"id": "C61", "title": "Keys whose traits keep no contract", "statement": "Whatever Ord, PartialOrd, PartialEq, split_val, split_ref and join of a Tree's key type answer (as functions, without regard to each other), no history loses or duplicates a value: popping either end until nothing is left gives back exactly the values handed over and not given back, every entry answered was stored, and is_monad, into_monad, len_hint and SizedVebTree::len count truthfully. If join undoes split_val, each value also keeps its key. The only possible panic is the debug_assert! of predecessor_mut, and only if for some keys neither a <= b nor a > b. The halves that index summary and collection do need their contract.", "quantifier": "all key types with arbitrary comparison functions and arbitrary splitting, at every level of nesting; all histories", "why_tests_cant": "Tests use integers, whose comparisons are lawful; an unlawful comparison has unboundedly many shapes, and its effects show up only in particular trees.", "anchors": ["src/tree.rs:80-737", "src/key.rs:94-118"]}
{"id": "C62", "title": "The order of hash table entries is never seen", "statement": "However the hash tables inside a tree arrange their entries, and however they rearrange them before and after every operation, at every level of nesting, the outputs of a history are the same as those of the model, whose hash tables keep the order of insertion; iterators over the tree at the end yield the same, however they are advanced. Two trees equal up to the order of hash tables answer every further history alike. This includes histories on which the tree is wrong.", "quantifier": "all tree types of any nesting depth; all histories; all rearrangements between operations", "why_tests_cant": "hashbrown's order depends on a random seed and on when the table grows; tests see one order per run.", "anchors": ["src/collection/hash.rs:33-124", "src/tree.rs:80-737"]}
{"id": "C63", "title": "The tree types that markers make", "statement": "Every combination of the crate's markers that Rust accepts for a key type whose parts fit arrays (or that contains no array collection) makes a tree type covered by the other theorems, so that every safe history runs like the ordered map. The keys with a tree type are exactly u8 to u128, i16 to i128, and arrays of these of length 2 to 8 or 16, nested. The predefined markers make the predefined types, and accept no other keys than the integers of their width and arrays of two. Array collections are accepted only for keys with equal halves, because the child marker is asked for trees of the upper half. Accepted, but panicking on the third ascending insertion: arrays of children for u128 keys, and Marker32 for [i16; 2] keys.", "quantifier": "all markers, nested to any depth; all key types of the crate; all value types", "why_tests_cant": "Markers are an open-ended language of types; tests name a few.", "anchors": ["src/markers.rs:11-77", "src/collection/array.rs:18-70", "src/collection/hash.rs:20-31", "src/tree.rs:15-24", "src/bitset/set.rs:9-13", "src/bitset/map/mod.rs:19-28", "src/bitset/map/mod.rs:122-129"]}
{"id": "C64", "title": "Capacity, and where the counter can overflow", "statement": "A tree type put together over finite key types has room for a fixed number of entries (256 in a byte tree; two plus the number of upper halves times the room in a child in a Tree), and no history, safe or not, however long, stores more. Therefore a SizedVebTree whose inner capacity is at most usize::MAX never panics and its len is the number of entries stored: all counted trees with 16-bit and 32-bit keys. A counted tree over 64-bit keys does panic when the last of the 2^64 keys is inserted.", "quantifier": "all tree types over finite keys, counters anywhere inside them; all histories of any length", "why_tests_cant": "The overflow takes 2^64 insertions; its absence takes all histories.", "anchors": ["src/lib.rs:168-325", "src/tree.rs:492-552", "src/markers.rs:11-77"]}
{"id": "C65", "title": "The counters on targets of other widths", "statement": "On a target whose usize is narrower than 64 bits, a SizedVebTree over any tree does what it does on a 64-bit target as long as its length stays within usize::MAX, and panics with size overflowed as soon as it does not; an Iter yields the same items as long as there are at most usize::MAX of them, and one more is an arithmetic overflow. Counted trees with 16-bit keys never panic on targets of 32 or 64 bits, but on a 16-bit target a tree of all 65536 keys cannot be counted, nor iterated to the end.", "quantifier": "all targets of at most 64 bits; all trees (also incorrect ones); all histories; all sequences of next and next_back", "why_tests_cant": "Tests run on one target, and with few entries.", "anchors": ["src/lib.rs:168-325", "src/iter.rs:42-107", "src/iter.rs:129-194"]}
{"id": "C66", "title": "What an operation costs at any prices", "statement": "On a tree type with n levels every operation makes at most 5n-2 comparisons of keys, n splits, n joins and 2n calls of collection methods, whatever the tree and however many keys it stores, also when it panics; only insert makes new collections, at most one per call, and the methods that look only at the extremes do none of this. So at any prices the cost per operation is bounded by a constant of the type. The bounds are reached. But with array collections the slots of a new array are filled with None, and adding and removing a third key fills a whole array every time: if these slots are counted, the expected complexity O(lg lg K) of insert fails, also amortised over long histories.", "quantifier": "all tree types of the crate of any nesting; all trees, also those no history makes; all arguments; all price lists; all histories", "why_tests_cant": "Costs are not observable in results, and a benchmark sees only the average over the keys it tries.", "anchors": ["src/tree.rs:60-760", "src/collection/array.rs:49-53", "src/collection/array.rs:76-78", "src/collection/array.rs:102-110", "src/lib.rs:40-160"]}
{"id": "C67", "title": "Values under code of the user that answers as it likes", "statement": "Comparisons, split and join of keys, SizedVebKey::index, Hash, Eq and Clone of high halves are code of the user and can answer differently each time. In every history that returns: no value appears twice; a value answered is one in the tree; if no tree is left at the end, every value handed over was given back; SizedVebTree::len is the number of values handed over and not given back; is_monad and into_monad tell the truth. If index is a function of the key, no value is lost either, and with hash map or ByteMap collections that needs no condition. With an index that varies an array loses a whole child tree, and the values in it never come back.", "quantifier": "all nestings of Tree, Box and SizedVebTree over ByteMap, ByteSet, BTreeMap and everything proper at the bottom, with arrays, hash maps, ByteMap and boxes as collections; all states and all actions of the user's code on them; all histories", "why_tests_cant": "A test runs one implementation of Ord, Hash and index, and a well-behaved one; the claim is about all of them, with any state and any side effects.", "anchors": ["src/tree.rs:141-736", "src/collection/array.rs:101-197", "src/collection/hash.rs:42-123", "src/bitset/map/mod.rs:36-119", "src/lib.rs:183-325", "src/key.rs:90-125"]}
{"id": "C68", "title": "Side effects of proper user code do not matter", "statement": "If the comparisons, split and join of keys, SizedVebKey::index, Hash, Eq and Clone of high halves answer as the traits ask, they may have any side effects (count their calls, write to a log): every history gives the same tree, the same answers or the same panic as with code without a state, from every state; so with safe insertions the tree is an ordered map, and there is no panic up to usize::MAX insertions.", "quantifier": "all nestings of Tree, Box and SizedVebTree over any tree type without side effects, with arrays, hash maps, ByteMap and boxes as collections; all states; all code of the user that answers properly; all histories", "why_tests_cant": "The model of the other claims has functions for the user's code; tests run one implementation. The claim says that nothing proved there depends on how often and in which order that code is called.", "anchors": ["src/tree.rs:141-736", "src/collection/array.rs:101-197", "src/collection/hash.rs:42-123", "src/bitset/map/mod.rs:36-119", "src/lib.rs:183-431"]}
{"id": "C69", "title": "Keys see exactly the calls that the cost log says", "statement": "If every comparison, split and join of keys writes itself into a log when it runs, then every history leaves in that log exactly the comparisons, splits and joins of the cost log of C66, in the same order, and returns the same tree and answers; so each operation on n levels runs at most 5n-2 comparisons, n splits and n joins of the user.", "quantifier": "all keys, all nestings of Tree, Box, SizedVebTree, ByteSet, ByteMap and BTreeMap with arrays, hash maps, ByteMap and boxes as collections; all histories; all logs to begin with", "why_tests_cant": "Counting calls in tests checks the count for the histories tried; the claim is about the sequence of calls of every history.", "anchors": ["src/tree.rs:141-736", "src/collection/array.rs:101-197", "src/collection/hash.rs:42-123", "src/bitset/map/mod.rs:36-119", "src/lib.rs:183-431"]}
{"id": "C70", "title": "Which panics the code of the user can provoke", "statement": "Let comparisons, split, join, index, Hash, Eq and Clone of the user be arbitrary code with state, which may panic in its own ways. Then a history of operations that panics does so in that code, or at one of the listed places: the three expects and the assertion of predecessor_mut in tree.rs, an array index out of range (only if index answers one) or the expect in array.rs:150, hash.rs:45 and :76, map/mod.rs:76; and, only in histories longer than a usize can count, the counter of an array (only if index varies) or of SizedVebTree. All other panics in the source cannot happen, and the methods that call no code of the user always return.", "quantifier": "all code of the user, all states, all nestings of Tree, Box, SizedVebTree over any summaries and children, with arrays, hash maps, ByteMap and boxes as collections; all histories, all arguments", "why_tests_cant": "Tests can show that a hostile key makes some expect fail; they cannot show that no key whatever reaches the others.", "anchors": ["src/tree.rs:141-736", "src/collection/array.rs:101-197", "src/collection/hash.rs:42-123", "src/bitset/map/mod.rs:36-119", "src/lib.rs:183-431"]}
{"id": "C71", "title": "A collection that knows its keys never disagrees with the summary", "statement": "Let comparisons, split and join of the keys of a Tree be arbitrary code with state, as in C70, but let the code about the high halves answer properly when it answers; it may panic (index in range and injective; Hash, Eq and Clone consistent; a summary whose keys are compared properly). Then summary and collection always have the same keys, so none of the expects about them can fail: a history panics only in the code of the user, inside a child, or at the debug_assert of predecessor_mut, and there only if <= and > contradict each other. If the code of the user does not panic and a > b holds when a <= b was denied, no history panics at all, for instance for any key type that is split into two bytes.", "quantifier": "all code of the user about the keys, all states, all summaries and children of the crate without counters, with arrays, hash maps, ByteMap and boxes as collections; all histories", "why_tests_cant": "Tests can try some lying keys; they cannot show that no sequence of lies makes summary and collection disagree.", "anchors": ["src/tree.rs:141-736", "src/collection/array.rs:101-197", "src/collection/hash.rs:42-123", "src/bitset/map/mod.rs:36-119"]}
{"id": "C72", "title": "What iteration costs", "statement": "At any prices for calls of tree methods, comparisons, splits, joins and calls of collections: if no method of a tree type costs more than d (s where it looks at the extremes), one call of next or next_back costs at most d and one comparison, in any state of the iterator, on any tree whatsoever, also when it panics; the first call costs at most s, size_hint s and a call, and an iterator that has stopped does nothing at all. Calls in any order that yield k entries cost at most (k + 1) * (d + cmp), a loop in one direction s + k * d. So a pass over a predefined map of 64-bit keys that yields k entries makes at most 1 + 10 * k calls of tree methods and 13 * k comparisons.", "quantifier": "all tree types with a bound per method (for all compositions of the crate it is given by C66), all trees, well-formed or not, all iterator states, all sequences of calls of next and next_back, all prices", "why_tests_cant": "Tests measure some passes over some trees; they cannot bound the cost of every call in every state, on trees of any size.", "anchors": ["src/iter.rs:42-107", "src/iter.rs:109-122", "src/iter.rs:129-194", "src/tree.rs:332-520"]}
{"id": "C73", "title": "Iterators over code of the user", "statement": "The iterator runs over code of the user that does anything: every comparison, split, join, index, hash and clone of keys and high halves is an arbitrary action on a state that may answer differently each time or panic. (1) If the code answers properly, whatever it does to its state, then on a tree that any history has left all sequences of next and next_back and every size_hint end as they do without a state, so after a safe history the entries come from both ends in order. (2) If keys write a log of their calls, the log of an iteration is the cost log of C72, so in one direction each of the entries costs at most 5n-2 comparisons, n splits and n joins on n levels. (3) Whatever the code does: after a None, all calls answer None and run no code of the user; every value yielded is in the tree, the tree stays the same, and emitted counts what was yielded. (4) Whatever the code does, a call panics only in that code, where the tree can panic (C70), at the debug_assert that the two ends meet and then both ends have been used, or after usize::MAX entries. (5) size_hint runs no code of the user and panics only if more was yielded than the upper bound of len_hint. (6) If a panic is caught, the iterator is over, except after an overflow of emitted. (7) A key type whose < always says yes makes a map of two entries iterate without an end, and then size_hint panics.", "quantifier": "for all trees built from the crate's types to any depth, all key types and states, all code of the user (for 1 and 2 all code that answers properly), all histories, all sequences of calls of the iterator and all states", "why_tests_cant": "tests use one key type with proper comparisons; code that lies, panics or changes its answers is not written down anywhere, and no finite set of it would cover all there is", "anchors": ["src/iter.rs:42-107", "src/iter.rs:109-122", "src/iter.rs:129-194", "src/key.rs:27-41"]}
{"id": "C74", "title": "BTreeMap over comparisons that answer as they like", "statement": "In impl VebTree for BTreeMap, every search that BTreeMap makes with Ord of the keys can end at any position, differently each time, and panic. (1) If a search that found nothing finds nothing when repeated at once, no value is lost and none appears twice, and SizedVebTree around the map counts its values; every comparison that is a function, an order or not, meets this. Without the condition this is false: insert searches twice (get_mut, then insert), and when the second search finds what the first did not, the old value is dropped and None returned; SizedVebTree then counts one value too many and its is_monad panics. (2) With no condition: no value appears twice, every value answered is in the map, and the map is never left empty. (3) With no condition, a history panics only where the comparisons panic or in range_mut when the ends of k..=k are found in the wrong order; no expect of the crate's own code fails; is_monad, len_hint, into_monad and both ends always return, and is_monad and len_hint tell the number of values. (4) Comparisons with side effects that answer as an order give the same outcome as without side effects in every history, also for maps used as summaries and children of Tree. (5) For maps of one node, where the order of comparisons is known, proper comparisons lead every search where it should end, and the second message of range_mut does not occur.", "quantifier": "for all key and value types, all states and all code of the user that decides searches (for 4 and 5 all comparisons that answer as a linear order), all histories", "why_tests_cant": "tests compare integers; an Ord that lies or changes its mind between two searches is not written in any test, and there are infinitely many of them", "anchors": ["src/lib.rs:433-580", "src/lib.rs:541-550", "src/lib.rs:489-498", "src/lib.rs:195-203"]}
{"id": "C75", "title": "Code of the user that answers properly, or panics", "statement": "Let the code of the user (comparisons, split, join, index, hashing, cloning, searches in a BTreeMap) have side effects on a state, answer as the traits ask whenever it answers, and panic whenever it likes, depending on the state. Then every history ends in such a panic, or exactly as with code that has no state and does not panic: with the same tree and the same answers, or with the same panic. In particular, with safe insertions, a history that returns gives the answers of an ordered map, and up to usize::MAX insertions the crate adds no panic of its own; len_hint likewise.", "quantifier": "for all tree types of the crate over such code, all states, all such code, all sets of panics, all histories", "why_tests_cant": "tests have integer keys, whose code does not panic; when a panic interrupts which call cannot be enumerated", "anchors": ["src/tree.rs:165-737", "src/lib.rs:168-330", "src/lib.rs:433-580", "src/collection/array.rs:87-196", "src/collection/hash.rs:27-118", "src/bitset/map/mod.rs:28-124"]}
{"id": "C76", "title": "Caught panics of code of the user", "statement": "Let the code of the user answer anything and panic whenever it likes, depending on a state; let every panic be caught and the tree be used again, with any state. Then insertions end as in C67; no value is in the tree or given back more often than it was handed over; every panic is one of the user, or one that can happen without caught panics (C70), and of a counter also the debug_assert of is_monad, which does fail. A panic in Tree::insert leaves the least and the greatest entry that the comparisons answered so far asked for, and the children as before or, after split_val, none; a BTreeMap is left as it was. If the code answers properly whenever it answers, the history is one of C59: with safe insertions it runs like an ordered map that loses entries at panics, and the tree left holds its entries; without this condition only the code of the user panics.", "quantifier": "for all tree types of the crate over such code, all states before each call, all such code, all histories", "why_tests_cant": "tests have integer keys, whose code does not panic; when a panic interrupts which call cannot be enumerated", "anchors": ["src/tree.rs:502-562", "src/lib.rs:183-325", "src/lib.rs:404-410", "src/lib.rs:541-550"]}
{"id": "C77", "title": "ByteSet is a number of 256 bits", "statement": "Read the two words of a ByteSet as a number n. Then mask_lower(i) is 2^i - 1 and mask_higher(i) is 2^256 - 2^(i+1); is_present reads a binary digit of n, set_bit and unset_bit add and subtract a power of two if necessary, from_monad is a power of two; array_len is the sum of the binary digits, count_below that of n mod 2^k; lowest and highest are the exponents of the greatest powers of two dividing n and not above n, predecessor and successor those of the parts of n below and above; from_array refuses zero only, and on zero len, lowest and highest panic. count_ones, trailing_zeros, leading_zeros, checked_shl and checked_shr of u128, as modelled, are what their documentation says, also for zero and for distances of 128 and more.", "quantifier": "for all words, all pairs of words, all bytes", "why_tests_cant": "there are 2^256 pairs of words", "anchors": ["src/bitset/set.rs:15-108", "src/bitset/set.rs:168-207"]}
{"id": "C78", "title": "Iterators over code of the user that answers properly or panics", "statement": "Let the code of the user (comparisons, splits, joins, indices, hashes, clones and equality of keys) answer properly or panic, whenever it likes. On a tree that a history has left, also a history with caught panics: all sequences of next and next_back and every size_hint end in a panic of that code, or as they do without the panics. If the panics of the iteration are caught as well, the calls answer as without panics; or they do so up to a panic, which is one of the user, and then answer None for ever. If the insertions of the history were safe, the answers come from the two ends of the entries of the map of C59. Whatever the code does, after a caught panic of a call (with fewer than usize::MAX calls) all further calls answer None.", "quantifier": "for all tree types of the crate over such code, all states before each call, all histories, all sequences of calls of the iterator", "why_tests_cant": "when the code of the user panics cannot be enumerated; tests have integer keys, whose code does not panic", "anchors": ["src/iter.rs:42-107", "src/iter.rs:109-122", "src/iter.rs:129-194", "src/tree.rs:502-562"]}
{"id": "C79", "title": "ByteMap over any list type that is a sequence", "statement": "The traits List and TreeList are exported, so a user can give ByteMap<L> a list type of their own. If a list stands for a sequence and every call with an index in range does with it what its name says (nothing is asked of calls out of range, or of empty lists), then ByteMap<L> is an ordered map under every history, never panics, and cannot be told from ByteMap over a VecDeque, by len_hint neither. With a list of trees it answers as a collection, so that trees over it are the ordered maps of C51, and never panic. VecDeque is such a list type, and from every state, in order or not, ByteMap<VecDeque> does what the model of the other claims does, panics included. A list that gives itself back when it has become empty makes the removal of the last entry panic.", "quantifier": "for all list types, all histories, all value and tree types", "why_tests_cant": "list types of users are not there when the tests are written; the tests only use VecDeque", "anchors": ["src/bitset/map/list.rs:16-30", "src/bitset/map/list.rs:36-107", "src/bitset/map/list.rs:113-124", "src/bitset/map/list.rs:130-152", "src/bitset/map/mod.rs:30-300"]}
{"id": "C80", "title": "Array collections over any array type that is an array", "statement": "The trait OptionArray is exported, so a user can give ArrayTreeCollection<H, A> an array type of their own, for example a sparse one. If the array type reads and writes properly at the indices of the keys, and different keys have different indices, the collection answers as a collection: on all histories if there are at most usize::MAX keys, otherwise on all histories of at most usize::MAX calls; with more keys, some history makes the counter overflow. Trees over it are the ordered maps of C51 and never panic. So the defects of the indices of signed keys and of the length of arrays over u64 and i64 are harmless over an array type that takes every index. The arrays of the crate are such array types below their length, and from every state the collection over them does what the model of the other claims does. If two keys share an index, trees are found under the wrong key.", "quantifier": "for all array types, all index types, all histories, all tree types", "why_tests_cant": "array types of users are not there when the tests are written; 2^64 trees cannot be inserted in a test", "anchors": ["src/collection/array.rs:40-45", "src/collection/array.rs:47-60", "src/collection/array.rs:72-85", "src/collection/array.rs:87-198"]}
{"id": "C81", "title": "ByteMap over any list code whatever keeps its keys", "statement": "If the list type of a ByteMap<L> does not keep its contract at all (it may panic, lose values, answer nonsense), a history that does not panic still gives the right keys: every answer but those of is_monad carries the key of the ordered map, and a map is left exactly when a key is. The answers of is_monad come from the list and can be wrong. As a collection of trees, over any list and tree type, a tree is found exactly at the keys that were inserted and have not been reported empty since; the specified collection, which the collections of the crate follow, does the same.", "quantifier": "for all list types, all tree types, all histories that do not panic", "why_tests_cant": "no test has a list type that breaks its contract", "anchors": ["src/bitset/map/mod.rs:36-119", "src/bitset/map/mod.rs:131-300", "src/bitset/map/list.rs:16-30", "src/bitset/map/list.rs:113-124"]}
{"id": "C82", "title": "The repaired tree meets every claim about the methods in full", "statement": "With the one comparison of src/tree.rs that C42 turns around, the claims that hold of the code only in histories that avoid the defect hold in every history, for every tree type of the crate: find after update (C18), extremes (C19), predecessor and successor (C20, C21), what insert and remove report (C22, C23), pop at both ends (C24), mutable access (C26), is_monad and into_monad (C27), no panic in any method (C25), double-ended iteration and its size_hint (C28-C31), independence of the order of insertion (C32), agreement of all implementations (C33). With a counter they hold while the count fits usize, and len and size_hint are exact.", "quantifier": "for all tree types built from the repaired VEBTree with good keys and indices, all histories, all interleavings of next and next_back", "why_tests_cant": "the repaired program does not exist as a release; that one comparison is the only cause needs all histories", "anchors": ["src/tree.rs: insert (524-533)", "src/lib.rs: SizedVebTree", "src/iter.rs: Iterator for Iter"]}
{"id": "C83", "title": "Clones when Clone of keys and values is code with side effects", "statement": "Clone of keys answers the key if it returns and may change a state of the program; Clone of values can do and answer anything; both can panic. If cloning a tree returns, the clone answers as the tree does, up to whatever clones of values keep (all of the value, a part of it, or nothing but the keys); so do iterators over it. Each value in the tree is cloned exactly once, and the clone contains exactly the values these calls answered. If clones of values are equal to them, the clone is equal to the tree. Cloning a tree panics only with a panic of the user's Clone.", "quantifier": "for all cloneable tree types, all trees, all states, all Clone implementations of values, all calls afterwards", "why_tests_cant": "tests clone integers, where clones cannot be told from originals, and never a Clone that counts or panics", "anchors": ["src/tree.rs: Clone for TreeData, Clone for Tree (49-78)"]}
{"id": "C84", "title": "Maps of std and hashbrown that the user has made", "statement": "BTreeMap and HashMap belong to other crates, so a program can fill one by its own methods, or make an empty one, and then use it through VebTree or TreeCollection. A BTreeMap with entries, however made, is an ordered map under every history, and no call turns it into an empty map: where nothing is left there is no map. On an empty BTreeMap searches, removals of a key and monad queries answer as on no tree; the first call that needs an entry panics with \"tree should not be empty\"; an insertion before such a call makes the history run exactly as one that begins with no tree; an iterator over it says (0, Some(0)) and panics at the first call from either side. A HashMap with entries is under every history the partial map that it was; an empty one finds nothing, panics in remove_key, gives itself back from maybe_remove_key, and its first insert_key makes of it what create would have made.", "quantifier": "for all key types, all contents, all histories of calls", "why_tests_cant": "the crate's tests build every tree by from_monad; an empty map is outside what the trait describes", "anchors": ["src/lib.rs: VebTree for BTreeMap (433-580)", "src/collection/hash.rs: TreeCollection for HashMap (33-124)", "src/iter.rs: Iter (28-194)"]}
{"id": "C85", "title": "The repaired tree costs no more", "statement": "The tree with the repaired comparison (C42, C82) keeps the cost bounds that C34, C66 and C72 prove of the code: at any prices, on any tree whatsoever, every operation stays within the same bound, so O(lg lg K) calls of tree methods for the predefined types; every history answers as an ordered map and pays at most the bound for each call; a pass of an iterator over what a history left pays at most the bound for each entry.", "quantifier": "for all tree types put together with the repaired Tree, of any nesting depth; all prices; all histories, keys and values", "why_tests_cant": "the repair does not exist in the repository; counting work needs instrumented code and all inputs", "anchors": ["src/tree.rs: insert (502-562)", "src/lib.rs: complexity comments (47-164)"]}
{"id": "C86", "title": "Panics of the user's list type that are caught", "statement": "A ByteMap over a list type of the user's, when a panic of the list is caught and the map is used again: an insertion that panics because the list has no room does nothing, and all other calls answer as an ordered map.  Refuted: insert sets the bit of the key before it calls the list, so a key without a value is left; the key and those above it then answer with the value of the next key, and the greatest one panics or worse.  What holds: the keys of all answers are those of a set that has the key of every insertion, whatever the list does; the keys below the one that panicked keep their values; with the bit set after the call of the list the claim holds in full and nothing else changes.  The same for insert_key of a ByteMap that is a collection: a call that panics has occupied its key.", "quantifier": "for all list types, whatever their code does (keys, collections); for all list types that are sequences but may refuse a value (values); all histories with any number of caught panics", "why_tests_cant": "there are no tests with user list types or caught panics", "anchors": ["src/bitset/map/mod.rs: insert (239-252), insert_key (60-69)", "src/bitset/map/list.rs: trait List (113-124), trait TreeList (16-30)"]}
{"id": "C87", "title": "Panics caught while a program uses a collection itself", "statement": "A program that holds a collection of the crate, and catches the panics of its calls: the collection is a partial map of trees at all times; a call that panics leaves it as it was, except for the tree in which it was inserting, which is what the tree type leaves; a removal that panics takes the collection away; the counter of an array is the number of its trees.  Refuted for hash tables, which clone the key after the tree is in the table, and lose entries if Hash panics while they rehash; for them this is all that can happen.", "quantifier": "for all key and tree types, any code of theirs that answers properly or panics, all closures with side effects, all histories with any number of caught panics", "why_tests_cant": "no test catches a panic", "anchors": ["src/collection/array.rs: insert_key (120-132), remove_key (139-162), maybe_remove_key", "src/collection/hash.rs: insert_key (57-67), remove_key, maybe_remove_key", "src/bitset/map/mod.rs: insert_key (60-69)", "src/collection/mod.rs: Box (108-155)"]}
{"id": "C88", "title": "The shortest wrong history", "statement": "On every tree type of the crate, at any depth: a history that never stores more than two entries, and every history of at most three calls, runs like the ordered map; the insertion that damages a tree answers correctly itself.  Four calls suffice to see the damage, on every Tree over crate parts and with any three keys: inserting the middle and the greatest key, in any order, then the least, makes max_val answer the middle one.", "quantifier": "for all key, child, summary and collection types of the crate at any nesting depth, all histories of the stated kinds, all keys and values", "why_tests_cant": "a test that stores two keys, or makes three calls, can never fail, whatever its keys; the tests of the crate cannot say how much they can see", "anchors": ["src/tree.rs: insert (503-560), the defective arm (524-533)", "src/lib.rs: SizedVebTree::insert (541)"]}
{"id": "C89", "title": "The defect can be foreseen, and avoided, by a program", "statement": "For every tree type of the crate there is a program that sees only the stored keys and the new key, and decides exactly whether the insertion keeps the tree correct.  A user who rebuilds the tree in ascending order before each insertion that does not pass gets the ordered map on every history.  16-bit trees are correct while a least key stays stored; 32-bit trees are not.", "quantifier": "for all tree types of the crate at any nesting depth, all histories (with at most usize::MAX entries for the rebuilding)", "why_tests_cant": "the tests show neither which inputs are wrong nor that a workaround covers all of them", "anchors": ["src/tree.rs: insert (503-560), the defective arm (524-533)", "src/markers.rs: Marker16, Marker32, Marker64 (22-77)"]}
{"id": "C90", "title": "Lists and arrays of the user with side effects", "statement": "ByteMap<L> and ArrayTreeCollection<H, A> over List, TreeList and OptionArray implementations whose code keeps a state and may answer differently each time.  Whatever the list does, the keys in the answers of a ByteMap that returns are those of the ordered map, and the answers of a collection are in keeping with the book a caller can keep.  If the code does what stateless code does, or panics, then trees over it at any nesting do what they do over the stateless code, up to that panic: where that is an ordered map they are one, and the crate adds no panic.", "quantifier": "for all list and array code with any state, all starting states, all histories; the second half for all keys, trees and nestings of C75", "why_tests_cant": "the tests use VecDeque and the arrays of the crate, whose code keeps no state", "anchors": ["src/bitset/map/mod.rs: ByteMap (36-119, 131-300)", "src/bitset/map/list.rs: List, TreeList (16-30, 113-124)", "src/collection/array.rs: OptionArray, ArrayTreeCollection (40-45, 93-198)"]}
{"id": "C91", "title": "Lists and arrays of the user that do anything: panics, and the counter of an array", "statement": "The code of a List, TreeList or OptionArray implementation is arbitrary, with a state and panics of its own.  A history of ByteMap<L> that panics does so in that code or at one of the places where the map notices that list and set disagree (len() - 1, two debug_asserts, one expect, two unreachables), never in its set.  As a collection over any list it panics of its own accord only in the assertion of remove_key that the key is there.  An array collection, whatever index and array do, panics of its own accord only in the expect of remove_key, and in its counter after more than usize::MAX calls: the counter never goes below zero.  The collection goes exactly when, by its own answers, its last tree has gone; but unlike with lists the array decides which keys are there.", "quantifier": "for all list, array, index, tree and closure code with any state, all starting states, all histories", "why_tests_cant": "the tests use VecDeque and the arrays of the crate, which never disagree with the set or the counter", "anchors": ["src/bitset/map/mod.rs: ByteMap (36-119, 131-300)", "src/bitset/map/list.rs: List, TreeList (16-30, 113-124)", "src/collection/array.rs: OptionArray, ArrayTreeCollection (40-45, 93-198)"]}
{"id": "C92", "title": "How often a ByteMap calls its list, and an array collection its array", "statement": "The code of a List, OptionArray or key is arbitrary, with a state.  In a history of ByteMap<L> that does not panic the number of calls of the list is determined by the keys in the history alone, whatever the list answers: none where nothing is found, two for the greatest entry, one otherwise; so two per call at most, however many entries there are.  If each call costs between lo and hi by any measure of the state, the history costs between that number times lo and times hi.  An array collection computes an index and looks into its array once per call, and twice when a new tree is put there or something is taken out of a tree; this can be told from the answers, but for maybe_remove_key that removes nothing.", "quantifier": "for all list, array, index, tree and closure code with any state, all measures of the state, all starting states, all histories", "why_tests_cant": "the tests do not count calls of lists and arrays, and only use those of the crate", "anchors": ["src/bitset/map/mod.rs: ByteMap (131-300)", "src/bitset/map/list.rs: List (113-124)", "src/collection/array.rs: OptionArray, ArrayTreeCollection (40-45, 93-198)"]}
{"id": "C93", "title": "What can be saved from a damaged tree", "statement": "The defect of Tree::insert damages trees.  As long as nothing has been removed, a program can still get everything out: popping the minimum until no tree is left gives the keys that were inserted and no others, and each entry with its present value among what comes out, no more in all than was inserted; if it comes out in ascending order it is exactly what was put in.  Popping everything from a copy, sorting the keys, asking the tree for each and inserting the answers into a new tree makes a tree that holds the right entries and answers correctly.  After a removal nothing can be saved: there are a correct history and a wrong one, with different contents, that leave the very same tree.", "quantifier": "for all tree types of the crate at any depth, all histories without removals, in any order of insertion, with at most usize::MAX insertions", "why_tests_cant": "the tests insert in ascending order, and never meet a damaged tree", "anchors": ["src/tree.rs: insert (503-562), find, remove_min", "src/lib.rs: VebTree"]}
{"id": "C94", "title": "The counter of a tree shows the damage", "statement": "Insertions below the minimum damage trees.  As long as nothing has been removed, len of a SizedVebTree is at least the number of entries it should have, and if an iterator answers next with an entry as often as len says, these are exactly the entries that were put in, in ascending order and with their present values; and the other way round.  A tree that passes is in order however it was built: all that is done with it from then on, with safe insertions, is answered as by an ordered map.  After a safe history, with or without removals, the test succeeds.  After removals in a damaged tree it can succeed although a removed key is still there.", "quantifier": "for all counted tree types of the crate at any depth, all histories without removals, in any order of insertion, with at most usize::MAX insertions; all safe histories for the absence of false alarms", "why_tests_cant": "the tests never compare len with what an iterator yields on a tree built in descending order", "anchors": ["src/lib.rs: SizedVebTree::len (175-179), insert", "src/iter.rs: Iter::next", "src/tree.rs: insert (503-562), successor"]}
{"id": "C95", "title": "Keys borrowed and dropped by code of the user", "statement": "The methods that take k: Q with Q: Borrow<Key> run the user's borrow exactly once on a tree, before anything else, and drop k exactly once, whatever wrappers are around the tree.  A program that catches panics sees an ordered map: if borrow answers a key and drop returns, the call behaves as with that key; if one of them panics the call panics the same way; no call panics otherwise; queries and writes through _mut that panic leave every entry as it was, and a remove that panics has consumed the tree.  On a damaged tree too, a call is the user's borrow, the call with its answer, and the drop.  The removals of collections do the same.", "quantifier": "for all tree types of the crate at any depth of wrappers, all implementations of Borrow and Drop that change a state of their own and panic when they like (but for panics of drop during unwinding, which abort), all safe histories", "why_tests_cant": "the tests only pass references and plain keys, whose borrow is the identity of the standard library and whose drop does nothing", "anchors": ["src/lib.rs: find (91-96), remove (145-150), SizedVebTree (230-300), Box (363-420), BTreeMap (482-566)", "src/tree.rs: 147, 177, 206, 262, 356, 407, 569", "src/bitset/set.rs: 145-217", "src/bitset/map/mod.rs: 174-258", "src/collection/mod.rs: 92-154"]}
{"id": "C96", "title": "Keys inserted in descending order", "statement": "If three or more entries are inserted in descending order of their keys, no call panics, and the tree that is left finds exactly these entries and knows the least one; but max_val, max_val_mut, remove_max and predecessor of any later key give the second least entry as the greatest, predecessor of the second least key gives a greater entry, iter().rev() alternates between these two entries until the counter of emitted items is exhausted, iter() gives the first and the third entry and ends, and removing the least entry until nothing is left takes the second least out last.", "quantifier": "for all numbers of entries, keys, values, key types, summaries, collections and depths, behind Box and SizedVebTree too", "why_tests_cant": "the tests insert random keys and ask few of the ordered queries afterwards; none states what comes out after n insertions", "anchors": ["src/tree.rs: insert (502-562), max_val (121-139), predecessor (201-255), remove_min (651-693), remove_max (695-736)", "src/iter.rs: next_back (129-194)"]}
{"id": "C97", "title": "The order of insertions", "statement": "After any number of insertions of entries with pairwise different keys, in any order, no call has panicked, every entry is found and the least one is known; and max_val answers the greatest among the entries inserted after the least one and the least of the entries inserted before it. So max_val is right if the greatest entry was inserted after the least or was the only one before it, and wrong otherwise; of an order and its reverse, one gives the right answer and the other a wrong one (unless the two extremes come last).", "quantifier": "for all orders and numbers of entries, keys, values, key types, summaries, collections and depths, behind Box and SizedVebTree too", "why_tests_cant": "a test inserts keys in one order or in a few random ones; this says for every order whether the answer is right", "anchors": ["src/tree.rs: insert (502-562), max_val (121-139)"]}
{"id": "C98", "title": "Where iteration ends after insertions in any order", "statement": "After insertions of two or more entries with pairwise different keys in any order, into a tree whose summary, children and collection are correct (as in the 16-bit sets and maps), with a the answer of min_val and m the answer of max_val: iter() gives a, then the entries other than a and m in ascending order up to and including the first one above m, or m if no entry is above it, and then nothing however often next is called. So iteration is complete if m is the greatest entry, and otherwise leaves out m, which is stored, while iter().rev() gives m and the greatest entry in turn without end.", "quantifier": "for all orders and numbers of entries, keys, values, key types, correct parts, and numbers of calls of next", "why_tests_cant": "a test compares the items of an iterator for the orders it tries; this gives the items for every order, also where they are wrong", "anchors": ["src/iter.rs: next (42-107), next_back (129-194)", "src/tree.rs: insert (502-562), successor, min_val, max_val (121-139)"]}
{"id": "C99", "title": "How many orders of insertion are right", "statement": "Of the n! orders in which n >= 2 entries with pairwise different keys can be inserted into a tree, exactly n!/2 + (n-2)! leave a tree whose max_val answers the greatest entry: those in which the least entry comes before the greatest, and those that begin with the greatest and the least. The other n!/2 - (n-2)! orders, at least a third of all when n >= 3, leave a tree that answers another entry. In the 16-bit types iter() and iter().rev() give all entries after exactly the orders of the first kind, and so after as many.", "quantifier": "for all n, sets of keys, values, key types, summaries, collections and depths, and over all n! orders", "why_tests_cant": "a test tries some of the n! orders; a statement about how many of them are right needs all of them", "anchors": ["src/tree.rs: insert (502-562), max_val (121-139)", "src/iter.rs: next, next_back, IterData"]}
