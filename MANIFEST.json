{
 "claims": [
  {
   "property": "C01",
   "status": "proved",
   "theorems": [
    "Veb.Props.C01_integer_keys_roundtrip"
   ],
   "note": "all widths and both signs"
  },
  {
   "property": "C02",
   "status": "proved",
   "theorems": [
    "Veb.Props.C02_integer_keys_order",
    "Veb.Props.C02_numeric_order"
   ],
   "note": ""
  },
  {
   "property": "C03",
   "status": "proved",
   "theorems": [
    "Veb.Props.C03_array_keys"
   ],
   "note": ""
  },
  {
   "property": "C04",
   "status": "proved",
   "theorems": [
    "Veb.Props.C04_split_ref_agrees"
   ],
   "note": ""
  },
  {
   "property": "C05",
   "status": "proved",
   "theorems": [
    "Veb.Props.C05_range",
    "Veb.Props.C05_low_bits",
    "Veb.Props.C05_split_join"
   ],
   "note": ""
  },
  {
   "property": "C06",
   "status": "partial",
   "theorems": [
    "Veb.Props.C06_index_partial",
    "Veb.Props.C06_refuted",
    "Veb.Props.C06_full_refuted",
    "Veb.Props.C06_signed_index"
   ],
   "note": "holds for unsigned keys; false for i8, i16, i32 (sign extension), refuted"
  },
  {
   "property": "C07",
   "status": "partial",
   "theorems": [
    "Veb.Props.C07_cardinality_partial",
    "Veb.Props.C07_refuted",
    "Veb.Props.C07_full_refuted",
    "Veb.Props.C07_cardinality_counts"
   ],
   "note": "CARDINALITY constants are off by one; refuted, the type-level Cardinality proved"
  },
  {
   "property": "C08",
   "status": "proved",
   "theorems": [
    "Veb.Props.C08_byteSet_history"
   ],
   "note": ""
  },
  {
   "property": "C09",
   "status": "proved",
   "theorems": [
    "Veb.Props.C09_byteSet_len"
   ],
   "note": ""
  },
  {
   "property": "C10",
   "status": "proved",
   "theorems": [
    "Veb.Props.C10_byteMap_history"
   ],
   "note": ""
  },
  {
   "property": "C11",
   "status": "proved",
   "theorems": [
    "Veb.Props.C11_btreeMap_history"
   ],
   "note": "std BTreeMap trusted as a sorted association list"
  },
  {
   "property": "C12",
   "status": "proved",
   "theorems": [
    "Veb.Props.C12_box_transparent"
   ],
   "note": ""
  },
  {
   "property": "C13",
   "status": "proved",
   "theorems": [
    "Veb.Props.C13_sized",
    "Veb.Props.C13_only_panic",
    "Veb.Props.C13_replace"
   ],
   "note": ""
  },
  {
   "property": "C14",
   "status": "partial",
   "theorems": [
    "Veb.Props.C14_array_collection_partial",
    "Veb.Props.C14_unsigned_partial",
    "Veb.Props.C14_refuted_u64",
    "Veb.Props.C14_full_refuted",
    "Veb.Props.C14_signed",
    "Veb.Props.C14_failure_keeps_partial",
    "Veb.Props.C14_count_partial",
    "Veb.Props.C14_boxed_collection"
   ],
   "note": "for index types whose indices are distinct and in bounds and whose cardinality fits a usize; refuted for u64 and i64 (the array has length 0), exact description for i8, i16, i32"
  },
  {
   "property": "C15",
   "status": "proved",
   "theorems": [
    "Veb.Props.C15_hash_collection",
    "Veb.Props.C15_failure_keeps"
   ],
   "note": "hashbrown trusted as a map"
  },
  {
   "property": "C16",
   "status": "proved",
   "theorems": [
    "Veb.Props.C16_byte_collection",
    "Veb.Props.C16_failure_keeps",
    "Veb.Props.C16_in_step"
   ],
   "note": ""
  },
  {
   "property": "C17",
   "status": "partial",
   "theorems": [
    "Veb.Props.C17_history_partial",
    "Veb.Props.C17_sixteen_bit_partial",
    "Veb.Props.C17_refuted",
    "Veb.Props.C17_refuted_outputs",
    "Veb.Props.C17_refuted_signed16",
    "Veb.Props.C17_refuted_32",
    "Veb.Props.C17_refuted_64",
    "Veb.Props.C17_refuted_32_inner"
   ],
   "note": "src/tree.rs:524-533 (insert below the minimum) is wrong; refuted on a concrete history, proved for all histories without such an insertion"
  },
  {
   "property": "C18",
   "status": "partial",
   "theorems": [
    "Veb.Props.C18_find_after_update_partial",
    "Veb.Props.C18_refuted",
    "Veb.Props.C18_refuted_remove"
   ],
   "note": "src/tree.rs:524-533 (insert below the minimum) is wrong; refuted on a concrete history, proved for all histories without such an insertion"
  },
  {
   "property": "C19",
   "status": "partial",
   "theorems": [
    "Veb.Props.C19_min_max_partial",
    "Veb.Props.C19_refuted"
   ],
   "note": "src/tree.rs:524-533 (insert below the minimum) is wrong; refuted on a concrete history, proved for all histories without such an insertion"
  },
  {
   "property": "C20",
   "status": "partial",
   "theorems": [
    "Veb.Props.C20_predecessor_partial",
    "Veb.Props.C20_refuted"
   ],
   "note": "src/tree.rs:524-533 (insert below the minimum) is wrong; refuted on a concrete history, proved for all histories without such an insertion"
  },
  {
   "property": "C21",
   "status": "partial",
   "theorems": [
    "Veb.Props.C21_successor_partial",
    "Veb.Props.C21_refuted"
   ],
   "note": "src/tree.rs:524-533 (insert below the minimum) is wrong; refuted on a concrete history, proved for all histories without such an insertion"
  },
  {
   "property": "C22",
   "status": "partial",
   "theorems": [
    "Veb.Props.C22_insert_result_partial",
    "Veb.Props.C22_refuted"
   ],
   "note": "src/tree.rs:524-533 (insert below the minimum) is wrong; refuted on a concrete history, proved for all histories without such an insertion"
  },
  {
   "property": "C23",
   "status": "partial",
   "theorems": [
    "Veb.Props.C23_remove_result_partial",
    "Veb.Props.C23_refuted"
   ],
   "note": "src/tree.rs:524-533 (insert below the minimum) is wrong; refuted on a concrete history, proved for all histories without such an insertion"
  },
  {
   "property": "C24",
   "status": "partial",
   "theorems": [
    "Veb.Props.C24_drain_partial",
    "Veb.Props.C24_refuted",
    "Veb.Props.C24_refuted_drain"
   ],
   "note": "src/tree.rs:524-533 (insert below the minimum) is wrong; refuted on a concrete history, proved for all histories without such an insertion"
  },
  {
   "property": "C25",
   "status": "partial",
   "theorems": [
    "Veb.Props.C25_third_insert_panics",
    "Veb.Props.C25_refuted_u128",
    "Veb.Props.C25_refuted_i8",
    "Veb.Props.C25_no_panic_partial",
    "Veb.Props.C25_no_panic_uncounted_partial",
    "Veb.Props.C25_every_method_partial",
    "Veb.Props.C25_every_method_uncounted_partial",
    "Veb.Props.C25_summary_in_step_partial"
   ],
   "note": "all histories, also those that run into the defect, on all tree types whose arrays are indexed by u8, u16, u32 or another type with fitting indices; refuted for arrays indexed by u64 and by signed integers; tree types with a usize counter that could overflow (C64) for histories with at most usize::MAX insertions"
  },
  {
   "property": "C26",
   "status": "partial",
   "theorems": [
    "Veb.Props.C26_mut_accessors_partial",
    "Veb.Props.C26_refuted"
   ],
   "note": "src/tree.rs:524-533 (insert below the minimum) is wrong; refuted on a concrete history, proved for all histories without such an insertion"
  },
  {
   "property": "C27",
   "status": "partial",
   "theorems": [
    "Veb.Props.C27_monad_len_hint_partial",
    "Veb.Props.C27_exact_hints",
    "Veb.Props.C27_refuted"
   ],
   "note": "src/tree.rs:524-533 (insert below the minimum) is wrong; refuted on a concrete history, proved for all histories without such an insertion"
  },
  {
   "property": "C28",
   "status": "partial",
   "theorems": [
    "Veb.Props.C28_forward",
    "Veb.Props.C28_backward",
    "Veb.Props.C28_answers_partial",
    "Veb.Props.C28_refuted"
   ],
   "note": "iterator proved over any tree answering queries correctly; src/tree.rs:524-533 (insert below the minimum) is wrong; refuted on a concrete history, proved for all histories without such an insertion"
  },
  {
   "property": "C29",
   "status": "partial",
   "theorems": [
    "Veb.Props.C29_double_ended",
    "Veb.Props.C29_partition",
    "Veb.Props.C29_refuted"
   ],
   "note": "iterator proved over any tree answering queries correctly; src/tree.rs:524-533 (insert below the minimum) is wrong; refuted on a concrete history, proved for all histories without such an insertion"
  },
  {
   "property": "C30",
   "status": "partial",
   "theorems": [
    "Veb.Props.C30_fused",
    "Veb.Props.C30_terminates",
    "Veb.Props.C30_refuted"
   ],
   "note": "iterator proved over any tree answering queries correctly; src/tree.rs:524-533 (insert below the minimum) is wrong; refuted on a concrete history, proved for all histories without such an insertion"
  },
  {
   "property": "C31",
   "status": "partial",
   "theorems": [
    "Veb.Props.C31_size_hint",
    "Veb.Props.C31_exact_size_partial",
    "Veb.Props.C31_refuted"
   ],
   "note": "iterator proved over any tree answering queries correctly; src/tree.rs:524-533 (insert below the minimum) is wrong; refuted on a concrete history, proved for all histories without such an insertion"
  },
  {
   "property": "C32",
   "status": "partial",
   "theorems": [
    "Veb.Props.C32_order_independence_partial",
    "Veb.Props.C32_refuted"
   ],
   "note": "src/tree.rs:524-533 (insert below the minimum) is wrong; refuted on a concrete history, proved for all histories without such an insertion"
  },
  {
   "property": "C33",
   "status": "partial",
   "theorems": [
    "Veb.Props.C33_implementations_agree_partial",
    "Veb.Props.C33_refuted"
   ],
   "note": "src/tree.rs:524-533 (insert below the minimum) is wrong; refuted on a concrete history, proved for all histories without such an insertion"
  },
  {
   "property": "C34",
   "status": "proved",
   "theorems": [
    "Veb.Props.C34_visits",
    "Veb.Props.C34_faithful",
    "Veb.Props.C34_history",
    "Veb.Props.C34_predefined",
    "Veb.Props.C34_reached"
   ],
   "note": "calls of tree methods, on every tree whatsoever; work inside the containers is not counted"
  },
  {
   "property": "C35",
   "status": "partial",
   "theorems": [
    "Veb.Props.C35_upToEq_partial",
    "Veb.Props.C35_forget",
    "Veb.Props.C35_copies",
    "Veb.Props.C35_min",
    "Veb.Props.C35_max",
    "Veb.Props.C35_quotient",
    "Veb.Props.C35_refuted",
    "Veb.Props.C35_refuted_mixed",
    "Veb.Props.C35_refuted_tree",
    "Veb.Props.C35_refuted_chimera"
   ],
   "note": "refuted as stated: BTreeMap::insert returns the argument key, Tree::insert a mixture of both keys; proved up to Ord-equality for all types and safe histories, exactly at the minimum and maximum of a Tree"
  },
  {
   "property": "C36",
   "status": "proved",
   "theorems": [
    "Veb.Props.C36_ascending_histories",
    "Veb.Props.C36_sorted_inserts"
   ],
   "note": ""
  },
  {
   "property": "C37",
   "status": "proved",
   "theorems": [
    "Veb.Props.C37_conservation",
    "Veb.Props.C37_conservation_max",
    "Veb.Props.C37_no_invented_key",
    "Veb.Props.C37_remove_iff"
   ],
   "note": "all histories, also those that run into the defect"
  },
  {
   "property": "C38",
   "status": "proved",
   "theorems": [
    "Veb.Props.C38_len",
    "Veb.Props.C38_len_hint",
    "Veb.Props.C38_monad"
   ],
   "note": "all histories, also those that run into the defect"
  },
  {
   "property": "C39",
   "status": "proved",
   "theorems": [
    "Veb.Props.C39_no_key_lost"
   ],
   "note": "C39_refuted_pops shows that the exclusion of remove_min/remove_max is needed"
  },
  {
   "property": "C40",
   "status": "proved",
   "theorems": [
    "Veb.Props.C40_lookup",
    "Veb.Props.C40_find",
    "Veb.Props.C40_successor",
    "Veb.Props.C40_sharp"
   ],
   "note": "all histories without removals, also those that run into the defect"
  },
  {
   "property": "C41",
   "status": "proved",
   "theorems": [
    "Veb.Props.C41_exact",
    "Veb.Props.C41_optimal",
    "Veb.Props.C41_sixteen_bit",
    "Veb.Props.C41_leaves",
    "Veb.Props.C41_below_min"
   ],
   "note": "an equivalence: all histories, also those that run into the defect"
  },
  {
   "property": "C42",
   "status": "proved",
   "theorems": [
    "Veb.Props.C42_fixed",
    "Veb.Props.C42_fixed_sized",
    "Veb.Props.C42_predefined",
    "Veb.Props.C42_same"
   ],
   "note": "about Model/TreeFixed.lean, a variant of the code with one comparison turned around; not a claim about the code as it stands"
  },
  {
   "property": "C43",
   "status": "proved",
   "theorems": [
    "Veb.Props.C43_conservation",
    "Veb.Props.C43_conservation_max",
    "Veb.Props.C43_no_invented_entry",
    "Veb.Props.C43_values"
   ],
   "note": "all histories, also those that run into the defect; tree types with a usize counter that could overflow (C64) for histories with at most usize::MAX insertions"
  },
  {
   "property": "C44",
   "status": "proved",
   "theorems": [
    "Veb.Props.C44_fused",
    "Veb.Props.C44_one_end",
    "Veb.Props.C44_only_assert",
    "Veb.Props.C44_items",
    "Veb.Props.C44_ascending",
    "Veb.Props.C44_assert_fails",
    "Veb.Props.C44_forward_forever"
   ],
   "note": "all histories; C44_assert_fails and C44_forward_forever show that the exceptions named in the property occur"
  },
  {
   "property": "C45",
   "status": "partial",
   "theorems": [
    "Veb.Props.C45_unsigned",
    "Veb.Props.C45_signed",
    "Veb.Props.C45_signed_index",
    "Veb.Props.C45_length",
    "Veb.Props.C45_constant",
    "Veb.Props.C45_full_refuted",
    "Veb.Props.C45_array_partial",
    "Veb.Props.C45_array_refuted",
    "Veb.Props.C45_predefined_partial",
    "Veb.Props.C45_refuted",
    "Veb.Props.C45_which",
    "Veb.Props.C45_agrees"
   ],
   "note": "exact answers for every target and integer; refuted for signed integers narrower than usize, for arrays indexed by integers as wide as usize, and for every CARDINALITY constant; trees on targets of up to 64 bits"
  },
  {
   "property": "C46",
   "status": "proved",
   "theorems": [
    "Veb.Props.C46_shape",
    "Veb.Props.C46_iter",
    "Veb.Props.C46_representation",
    "Veb.Props.C46_representation_counted",
    "Veb.Props.C46_signed",
    "Veb.Props.C46_lenHint_refuted"
   ],
   "note": "all histories, also those that run into the defect; arrays indexed by types that meet their contract; both types may panic only by overflow of a usize counter, for which the message is not compared; C46_lenHint_refuted shows the exception named in the property"
  },
  {
   "property": "C47",
   "status": "proved",
   "theorems": [
    "Veb.Props.C47_values",
    "Veb.Props.C47_iter",
    "Veb.Props.C47_keys_decide",
    "Veb.Props.C47_iter_keys_decide",
    "Veb.Props.C47_predefined_maps",
    "Veb.Props.C47_sets"
   ],
   "note": "all histories, also those that run into the defect; panic messages are not compared"
  },
  {
   "property": "C48",
   "status": "proved",
   "theorems": [
    "Veb.Props.C48_same",
    "Veb.Props.C48_never_panics",
    "Veb.Props.C48_stops",
    "Veb.Props.C48_fused",
    "Veb.Props.C48_size_hint",
    "Veb.Props.C48_size_hint_refuted"
   ],
   "note": "about Model/IterRelease.lean, the iterator with wrapping arithmetic and without assertions; C48_size_hint_refuted shows that size_hint is wrong on spoiled trees, which the property excepts"
  },
  {
   "property": "C49",
   "status": "proved",
   "theorems": [
    "Veb.Props.C49_agree",
    "Veb.Props.C49_write",
    "Veb.Props.C49_write_twice",
    "Veb.Props.C49_write_back",
    "Veb.Props.C49_keys_unaffected",
    "Veb.Props.C49_iter_keys_unaffected",
    "Veb.Props.C49_failing"
   ],
   "note": "histories as in C25: any history for the tree types without element counter or with one that cannot overflow (C64), up to usize::MAX insertions for the others"
  },
  {
   "property": "C50",
   "status": "proved",
   "theorems": [
    "Veb.Props.C50_nodes",
    "Veb.Props.C50_entries",
    "Veb.Props.C50_slots",
    "Veb.Props.C50_slots_least",
    "Veb.Props.C50_ledger_size",
    "Veb.Props.C50_covers",
    "Veb.Props.C50_predefined_sets"
   ],
   "note": "n is the number of keys of the ledger of C37; SpecSpace.lean defines the counts on the data structures of the model; capacities of hash maps and deques beyond their length are not counted"
  },
  {
   "property": "C51",
   "status": "proved",
   "theorems": [
    "Veb.Props.C51_tree",
    "Veb.Props.C51_sized",
    "Veb.Props.C51_box",
    "Veb.Props.C51_refl",
    "Veb.Props.C51_symm",
    "Veb.Props.C51_trans",
    "Veb.Props.C51_iter",
    "Veb.Props.C51_methods",
    "Veb.Props.C51_crate_coll",
    "Veb.Props.C51_transfer",
    "Veb.Props.C51_leaf",
    "Veb.Props.C51_user_parts",
    "Veb.Props.C51_user_parts_no_panic",
    "Veb.Props.C51_nested",
    "Veb.Props.C51_contract_needed"
   ],
   "note": "Answers are those of all methods but len_hint. C51_user_parts restricts the comparison with an ordered map to the histories on which the crate's own trees are correct (C17). User code is modelled as pure functions that may panic: it has no state outside the tree, and always returns."
  },
  {
   "property": "C52",
   "status": "proved",
   "theorems": [
    "Veb.Props.C52_clone",
    "Veb.Props.C52_clone_after",
    "Veb.Props.C52_clone_iter",
    "Veb.Props.C52_clone_eq",
    "Veb.Props.C52_cloneable_eq",
    "Veb.Props.C52_contract_needed"
   ],
   "note": "Clone of keys must give an equal key (C52_contract_needed shows that this is necessary); clone of values is arbitrary but has no side effects. ByteMap, array collections and SizedVebTree do not implement Clone."
  },
  {
   "property": "C53",
   "status": "partial",
   "theorems": [
    "Veb.Props.C53_canonical_partial",
    "Veb.Props.C53_leaves",
    "Veb.Props.C53_fixed",
    "Veb.Props.C53_rebuild_partial",
    "Veb.Props.C53_undo_partial",
    "Veb.Props.C53_observe_partial",
    "Veb.Props.C53_byteSet_eq",
    "Veb.Props.C53_upToOrder_partial",
    "Veb.Props.C53_upToOrder_all",
    "Veb.Props.C53_upToOrder_plain",
    "Veb.Props.C53_upToOrder_observe_partial",
    "Veb.Props.C53_upToOrder_fixed",
    "Veb.Props.C53_refuted"
   ],
   "note": "Proved for all pairs of safe histories (C17), for all histories of ByteSet, ByteMap and BTreeMap, and for all histories of the corrected tree (C42). The full claim is false: C53_refuted. The order of the buckets of hash tables is not modelled: with hash tables inside, equal means equal up to that order (C53_upToOrder_*)."
  },
  {
   "property": "C54",
   "status": "proved",
   "theorems": [
    "Veb.Props.C54_eq",
    "Veb.Props.C54_equivalence",
    "Veb.Props.C54_equivalence_only",
    "Veb.Props.C54_deref",
    "Veb.Props.C54_owned",
    "Veb.Props.C54_from",
    "Veb.Props.C54_cloned",
    "Veb.Props.C54_clone",
    "Veb.Props.C54_join",
    "Veb.Props.C54_rejoin",
    "Veb.Props.C54_indistinguishable",
    "Veb.Props.C54_contract_needed"
   ],
   "note": "A reference is modelled by the value it refers to. This also justifies that the rest of the model uses keys in place of MaybeBorrowed keys."
  },
  {
   "property": "C55",
   "status": "proved",
   "theorems": [
    "Veb.Props.C55_machine_total",
    "Veb.Props.C55_alike",
    "Veb.Props.C55_run",
    "Veb.Props.C55_exact",
    "Veb.Props.C55_crate",
    "Veb.Props.C55_sixteen_bit",
    "Veb.Props.C55_iter",
    "Veb.Props.C55_nested",
    "Veb.Props.C55_machine_map",
    "Veb.Props.C55_decides",
    "Veb.Props.C55_inside_sorted",
    "Veb.Props.C55_insert_keys",
    "Veb.Props.C55_drain",
    "Veb.Props.C55_foreign_entry"
   ],
   "note": "The machine is given in SpecFlat without splits, summaries or collections. For nested types C55_nested reduces one level to a Tree of machines."
  },
  {
   "property": "C56",
   "status": "proved",
   "theorems": [
    "Veb.Props.C56_history",
    "Veb.Props.C56_no_panic",
    "Veb.Props.C56_shape",
    "Veb.Props.C56_keys",
    "Veb.Props.C56_used",
    "Veb.Props.C56_eight_bit",
    "Veb.Props.C56_small",
    "Veb.Props.C56_out_of_range"
   ],
   "note": "The values in range are types of their own (SpecOn); C46 is extended to arrays addressed alike and to leaves with renamed keys."
  },
  {
   "property": "C57",
   "status": "proved",
   "theorems": [
    "Veb.Props.C57_keys",
    "Veb.Props.C57_small",
    "Veb.Props.C57_same",
    "Veb.Props.C57_arrays",
    "Veb.Props.C57_trees",
    "Veb.Props.C57_btreeMap",
    "Veb.Props.C57_btreeMap_find",
    "Veb.Props.C57_btreeMap_rest"
   ],
   "note": "About corrected definitions (Model/Repaired.lean), which are not the code."
  },
  {
   "property": "C58",
   "status": "partial",
   "theorems": [
    "Veb.Props.C58_yields",
    "Veb.Props.C58_try_fold",
    "Veb.Props.C58_fold",
    "Veb.Props.C58_collect",
    "Veb.Props.C58_count",
    "Veb.Props.C58_last",
    "Veb.Props.C58_find",
    "Veb.Props.C58_nth",
    "Veb.Props.C58_collect_partial",
    "Veb.Props.C58_len_partial",
    "Veb.Props.C58_forever",
    "Veb.Props.C58_full_refuted"
   ],
   "note": "Proved over every tree that answers like some entries; refuted for all histories, since an unsafe insertion makes the iterator cycle (C44)."
  },
  {
   "property": "C59",
   "status": "partial",
   "theorems": [
    "Veb.Props.C59_faithful",
    "Veb.Props.C59_faithful_wrappers",
    "Veb.Props.C59_left",
    "Veb.Props.C59_exact",
    "Veb.Props.C59_history_partial",
    "Veb.Props.C59_no_panic",
    "Veb.Props.C59_returns",
    "Veb.Props.C59_nothing_twice",
    "Veb.Props.C59_refuted",
    "Veb.Props.C59_lost_by_index",
    "Veb.Props.C59_sized"
   ],
   "note": "C59_full (nothing is lost) is refuted, also by a panic of the crate itself; SizedVebTree's counter is wrong afterwards."
  },
  {
   "property": "C60",
   "status": "partial",
   "theorems": [
    "Veb.Props.C60_veb_partial",
    "Veb.Props.C60_veb_returns",
    "Veb.Props.C60_btree",
    "Veb.Props.C60_alike_partial",
    "Veb.Props.C60_differ",
    "Veb.Props.C60_is_some",
    "Veb.Props.C60_makers",
    "Veb.Props.C60_benchmark_partial",
    "Veb.Props.C60_refuted_next",
    "Veb.Props.C60_refuted_insert"
   ],
   "note": "C60_full (both sides always answer alike) is refuted by next at a stored key and by an unsafe insertion."
  },
  {
   "property": "C61",
   "status": "proved",
   "theorems": [
    "Veb.Props.C61_no_panic",
    "Veb.Props.C61_only_debug_assert",
    "Veb.Props.C61_values",
    "Veb.Props.C61_entries",
    "Veb.Props.C61_answers_stored",
    "Veb.Props.C61_sizes",
    "Veb.Props.C61_len",
    "Veb.Props.C61_refuted_debug_assert",
    "Veb.Props.C61_keys_refuted",
    "Veb.Props.C61_halves_refuted"
   ],
   "note": "The three refutations show that the conditions are needed: a key like NaN trips the debug_assert!, a join that is no inverse changes keys, and high halves whose Eq and Ord disagree make remove panic. Comparisons are functions of the two keys; comparisons with a state of their own are not modelled."
  },
  {
   "property": "C62",
   "status": "proved",
   "theorems": [
    "Veb.Props.C62_order",
    "Veb.Props.C62_order_uncounted",
    "Veb.Props.C62_order_counted",
    "Veb.Props.C62_exchange",
    "Veb.Props.C62_ordinary"
   ],
   "note": "Rearrangements happen between operations of the outermost tree."
  },
  {
   "property": "C63",
   "status": "partial",
   "theorems": [
    "Veb.Props.C63_crate_partial",
    "Veb.Props.C63_crate_noArray",
    "Veb.Props.C63_history_partial",
    "Veb.Props.C63_keys",
    "Veb.Props.C63_marker",
    "Veb.Props.C63_no_trees",
    "Veb.Props.C63_array_halves",
    "Veb.Props.C63_odd_arrays",
    "Veb.Props.C63_predefined",
    "Veb.Props.C63_predefined_keys",
    "Veb.Props.C63_refuted_u128",
    "Veb.Props.C63_refuted_i16"
   ],
   "note": "Partial: keys whose parts do not fit arrays, with array collections, are refuted; unsafe histories are refuted by C17."
  },
  {
   "property": "C64",
   "status": "proved",
   "theorems": [
    "Veb.Props.C64_capacity",
    "Veb.Props.C64_no_panic",
    "Veb.Props.C64_every_method",
    "Veb.Props.C64_len",
    "Veb.Props.C64_sizedSafe",
    "Veb.Props.C64_history",
    "Veb.Props.C64_predefined",
    "Veb.Props.C64_predefined_no_panic",
    "Veb.Props.C64_overflow",
    "Veb.Props.C64_refuted_u64"
   ],
   "note": "The capacities are upper bounds. C64_refuted_u64: with 64-bit keys the overflow can happen."
  },
  {
   "property": "C65",
   "status": "proved",
   "theorems": [
    "Veb.Props.C65_agrees",
    "Veb.Props.C65_panics",
    "Veb.Props.C65_p64",
    "Veb.Props.C65_len_hint",
    "Veb.Props.C65_history",
    "Veb.Props.C65_history_panics",
    "Veb.Props.C65_no_panic",
    "Veb.Props.C65_overflow",
    "Veb.Props.C65_iter",
    "Veb.Props.C65_iter_overflow",
    "Veb.Props.C65_iter_full",
    "Veb.Props.C65_u16",
    "Veb.Props.C65_refuted",
    "Veb.Props.C65_iter_refuted"
   ],
   "note": "C65_refuted and C65_iter_refuted: with as many keys as usize has values the counters overflow."
  },
  {
   "property": "C66",
   "status": "partial",
   "theorems": [
    "Veb.Props.C66_prices",
    "Veb.Props.C66_each",
    "Veb.Props.C66_history",
    "Veb.Props.C66_makes",
    "Veb.Props.C66_predefined",
    "Veb.Props.C66_reached",
    "Veb.Props.C66_refill",
    "Veb.Props.C66_refill_predefined",
    "Veb.Props.C66_refuted",
    "Veb.Props.C66_full_partial"
   ],
   "note": "The bounds on everything but the filling of new arrays are proved for all types (C66_prices, C66_each). Counting the slots too, the bound of C66_full is refuted for all array types (C66_refuted, C66_refill) and proved for types without arrays (C66_full_partial)."
  },
  {
   "property": "C67",
   "status": "partial",
   "theorems": [
    "Veb.Props.C67_conservation_partial",
    "Veb.Props.C67_no_duplication",
    "Veb.Props.C67_answers",
    "Veb.Props.C67_emptied",
    "Veb.Props.C67_emptiable",
    "Veb.Props.C67_gone",
    "Veb.Props.C67_monad",
    "Veb.Props.C67_len_hint",
    "Veb.Props.C67_len",
    "Veb.Props.C67_lost",
    "Veb.Props.C67_refuted"
   ],
   "note": "Conservation of values (C67_full) is refuted for an index that varies (C67_refuted) and proved for all other code of the user (C67_conservation_partial). The rest needs no condition."
  },
  {
   "property": "C68",
   "status": "proved",
   "theorems": [
    "Veb.Props.C68_agree",
    "Veb.Props.C68_only",
    "Veb.Props.C68_two",
    "Veb.Props.C68_len_hint",
    "Veb.Props.C68_map_partial",
    "Veb.Props.C68_no_panic_partial"
   ],
   "note": "The claim is C68_agree and C68_only. C68_map_partial and C68_no_panic_partial carry C17_history_partial and C25_no_panic_partial over, with their conditions (safe insertions; GoodIndex)."
  },
  {
   "property": "C69",
   "status": "proved",
   "theorems": [
    "Veb.Props.C69_log",
    "Veb.Props.C69_methods",
    "Veb.Props.C69_calls",
    "Veb.Props.totalCost_log"
   ],
   "note": "Comparisons inside std's BTreeMap and hashing are not logged on either side; what is written before a panic is lost with the state."
  },
  {
   "property": "C70",
   "status": "proved",
   "theorems": [
    "Veb.Props.C70_panics",
    "Veb.Props.C70_short",
    "Veb.Props.C70_still",
    "Veb.Props.C70_never"
   ],
   "note": "Every listed place is reached by an example, except the two overflows. Panics are told apart by kind and message, not by line."
  },
  {
   "property": "C71",
   "status": "proved",
   "theorems": [
    "Veb.Props.C71_tree",
    "Veb.Props.C71_halves",
    "Veb.Props.C71_never",
    "Veb.Props.C71_bytes"
   ],
   "note": "The debug_assert is reached by an example with contradictory comparisons. Children may be of any type of C70, with their own panics."
  },
  {
   "property": "C72",
   "status": "proved",
   "theorems": [
    "Veb.Props.C72_faithful",
    "Veb.Props.C72_call",
    "Veb.Props.C72_calls",
    "Veb.Props.C72_one_way",
    "Veb.Props.C72_pass",
    "Veb.Props.C72_crate",
    "Veb.Props.C72_predefined"
   ],
   "note": "Cloning and dereferencing keys is not logged. The count of entries in C72_pass needs a tree that answers properly (C28); the other theorems need nothing."
  },
  {
   "property": "C73",
   "status": "partial",
   "theorems": [
    "Veb.Props.C73_agree",
    "Veb.Props.C73_entries_partial",
    "Veb.Props.C73_log",
    "Veb.Props.C73_calls",
    "Veb.Props.C73_fused",
    "Veb.Props.C73_item",
    "Veb.Props.C73_values",
    "Veb.Props.C73_panics",
    "Veb.Props.C73_size_hint",
    "Veb.Props.C73_caught",
    "Veb.Props.C73_caught_same",
    "Veb.Props.C73_endless"
   ],
   "note": "All parts are proved. C73_entries_partial is for safe histories, since the bug of C16 falsifies the order of entries after others."
  },
  {
   "property": "C74",
   "status": "partial",
   "theorems": [
    "Veb.Props.C74_conservation_partial",
    "Veb.Props.C74_refuted",
    "Veb.Props.C74_lost",
    "Veb.Props.C74_no_duplication",
    "Veb.Props.C74_answers",
    "Veb.Props.C74_panics",
    "Veb.Props.C74_still",
    "Veb.Props.C74_honest",
    "Veb.Props.C74_leaf_honest",
    "Veb.Props.C74_function",
    "Veb.Props.C74_leaf_panics",
    "Veb.Props.C74_len_refuted",
    "Veb.Props.C74_is_monad",
    "Veb.Props.C74_len_partial"
   ],
   "note": "Conservation and the counter need a condition (searches repeated at once agree that nothing is there); without it they are refuted. The rest is proved without it."
  },
  {
   "property": "C75",
   "status": "partial",
   "theorems": [
    "Veb.Props.C75_agree",
    "Veb.Props.C75_map_partial",
    "Veb.Props.C75_no_panic_partial",
    "Veb.Props.C75_len_hint",
    "Veb.Props.C75_honest"
   ],
   "note": "The agreement is proved for all histories. What it means for the ordered map inherits the conditions of C17 and C25 (safe insertions), without which the claim is refuted there."
  },
  {
   "property": "C76",
   "status": "partial",
   "theorems": [
    "Veb.Props.C76_faithful",
    "Veb.Props.C76_nothing_twice",
    "Veb.Props.C76_panics",
    "Veb.Props.C76_short",
    "Veb.Props.C76_sound",
    "Veb.Props.C76_map_partial",
    "Veb.Props.C76_no_panic",
    "Veb.Props.C76_returns",
    "Veb.Props.C76_left",
    "Veb.Props.C76_left_one",
    "Veb.Props.C76_btree",
    "Veb.Props.C76_sized_worse"
   ],
   "note": "What it means for the ordered map inherits the condition of C59 and C17 (safe insertions), without which the claim is refuted there. That a counter adds no panic is refuted by C76_sized_worse."
  },
  {
   "property": "C77",
   "status": "proved",
   "theorems": [
    "Veb.Props.C77_count_ones",
    "Veb.Props.C77_trailing_zeros",
    "Veb.Props.C77_leading_zeros",
    "Veb.Props.C77_checked_shr",
    "Veb.Props.C77_checked_shl",
    "Veb.Props.C77_words",
    "Veb.Props.C77_masks",
    "Veb.Props.C77_bits",
    "Veb.Props.C77_counts",
    "Veb.Props.C77_ends",
    "Veb.Props.C77_neighbours",
    "Veb.Props.C77_empty"
   ],
   "note": ""
  },
  {
   "property": "C78",
   "status": "partial",
   "theorems": [
    "Veb.Props.C78_agree",
    "Veb.Props.C78_caught",
    "Veb.Props.C78_agree_left",
    "Veb.Props.C78_entries_partial",
    "Veb.Props.C78_over"
   ],
   "note": "The entries after a history are those of a map only if the insertions are safe, as in C76; the claim without that condition is refuted there. All else is proved in full."
  },
  {
   "property": "C79",
   "status": "proved",
   "theorems": [
    "Veb.Props.C79_tree",
    "Veb.Props.C79_alike",
    "Veb.Props.C79_len_hint",
    "Veb.Props.C79_coll",
    "Veb.Props.C79_tree_over",
    "Veb.Props.C79_tree_over_no_panic",
    "Veb.Props.C79_deque",
    "Veb.Props.C79_deque_trees",
    "Veb.Props.C79_same_tree",
    "Veb.Props.C79_same_coll",
    "Veb.Props.C79_contract_needed"
   ],
   "note": "That trees over it are ordered maps is for histories whose insertions are safe, as in C51 and C17; the collection itself has no such condition."
  },
  {
   "property": "C80",
   "status": "proved",
   "theorems": [
    "Veb.Props.C80_history",
    "Veb.Props.C80_coll",
    "Veb.Props.C80_tree_over",
    "Veb.Props.C80_tree_over_no_panic",
    "Veb.Props.C80_crate_array",
    "Veb.Props.C80_same",
    "Veb.Props.C80_signed",
    "Veb.Props.C80_wide",
    "Veb.Props.C80_overflow",
    "Veb.Props.C80_index_needed"
   ],
   "note": "That trees over it are ordered maps is for histories whose insertions are safe, as in C51 and C17; the collection itself has no such condition."
  },
  {
   "property": "C81",
   "status": "proved",
   "theorems": [
    "Veb.Props.C81_keys",
    "Veb.Props.C81_is_monad",
    "Veb.Props.C81_coll",
    "Veb.Props.C81_book"
   ],
   "note": ""
  },
  {
   "property": "C82",
   "status": "proved",
   "theorems": [
    "Veb.Props.C82_methods",
    "Veb.Props.C82_no_panic",
    "Veb.Props.C82_iter",
    "Veb.Props.C82_order",
    "Veb.Props.C82_agree",
    "Veb.Props.C82_sized"
   ],
   "note": "about the program with that comparison repaired (Model/TreeFixed.lean)"
  },
  {
   "property": "C83",
   "status": "proved",
   "theorems": [
    "Veb.Props.C83_clone",
    "Veb.Props.C83_iter",
    "Veb.Props.C83_keys",
    "Veb.Props.C83_clone_eq",
    "Veb.Props.C83_once",
    "Veb.Props.C83_made",
    "Veb.Props.C83_panics"
   ],
   "note": ""
  },
  {
   "property": "C84",
   "status": "proved",
   "theorems": [
    "Veb.Props.C84_made",
    "Veb.Props.C84_queries",
    "Veb.Props.C84_panics",
    "Veb.Props.C84_insert",
    "Veb.Props.C84_iter",
    "Veb.Props.C84_hash_made",
    "Veb.Props.C84_hash_empty"
   ],
   "note": ""
  },
  {
   "property": "C85",
   "status": "proved",
   "theorems": [
    "Veb.Props.C85_faithful",
    "Veb.Props.C85_prices",
    "Veb.Props.C85_visits",
    "Veb.Props.C85_history",
    "Veb.Props.C85_all",
    "Veb.Props.C85_predefined"
   ],
   "note": ""
  },
  {
   "property": "C86",
   "status": "partial",
   "theorems": [
    "Veb.Props.C86_faithful",
    "Veb.Props.C86_keys",
    "Veb.Props.C86_returns_partial",
    "Veb.Props.C86_shift",
    "Veb.Props.C86_refuted",
    "Veb.Props.C86_refuted_run",
    "Veb.Props.C86_repair_same",
    "Veb.Props.C86_repaired",
    "Veb.Props.C86_coll",
    "Veb.Props.C86_coll_tree"
   ],
   "note": "the full claim is C86_full, refuted by C86_refuted; it holds for the repaired insertion (C86_repaired)"
  },
  {
   "property": "C87",
   "status": "partial",
   "theorems": [
    "Veb.Props.C87_faithful",
    "Veb.Props.C87_caught_partial",
    "Veb.Props.C87_full_partial",
    "Veb.Props.C87_count",
    "Veb.Props.C87_refuted"
   ],
   "note": "the full claim is C87_full, refuted for hash tables by C87_refuted; C87_full_partial has it for all other collections and C87_caught_partial says what hash tables do"
  },
  {
   "property": "C88",
   "status": "proved",
   "theorems": [
    "Veb.Props.C88_two_keys",
    "Veb.Props.C88_last_insert",
    "Veb.Props.C88_three_calls",
    "Veb.Props.C88_four_calls"
   ],
   "note": "all claimed"
  },
  {
   "property": "C89",
   "status": "proved",
   "theorems": [
    "Veb.Props.C89_exists",
    "Veb.Props.C89_decides",
    "Veb.Props.C89_next",
    "Veb.Props.C89_rebuilding",
    "Veb.Props.C89_rebuilding_idle",
    "Veb.Props.C89_sentinel",
    "Veb.Props.C89_sentinel_refuted"
   ],
   "note": "all claimed"
  },
  {
   "property": "C90",
   "status": "proved",
   "theorems": [
    "Veb.Props.C90_keys",
    "Veb.Props.C90_coll",
    "Veb.Props.C90_coll_agree",
    "Veb.Props.C90_map",
    "Veb.Props.C90_panic",
    "Veb.Props.C90_byteMap",
    "Veb.Props.C90_over_list",
    "Veb.Props.C90_over_list_panic",
    "Veb.Props.C90_over_array",
    "Veb.Props.C90_over_array_panic"
   ],
   "note": "all claimed"
  },
  {
   "property": "C91",
   "status": "proved",
   "theorems": [
    "Veb.Props.C91_byteMap",
    "Veb.Props.C91_list",
    "Veb.Props.C91_array",
    "Veb.Props.C91_tally"
   ],
   "note": "all claimed"
  },
  {
   "property": "C92",
   "status": "proved",
   "theorems": [
    "Veb.Props.C92_list",
    "Veb.Props.C92_count",
    "Veb.Props.C92_two",
    "Veb.Props.C92_array"
   ],
   "note": "all claimed"
  },
  {
   "property": "C93",
   "status": "proved",
   "theorems": [
    "Veb.Props.C93_drain",
    "Veb.Props.C93_rescue",
    "Veb.Props.C93_ascending",
    "Veb.Props.C93_refuted_removals"
   ],
   "note": "all claimed, the last part by two concrete histories"
  },
  {
   "property": "C94",
   "status": "proved",
   "theorems": [
    "Veb.Props.C94_len",
    "Veb.Props.C94_count",
    "Veb.Props.C94_healthy",
    "Veb.Props.C94_safe",
    "Veb.Props.C94_refuted_removals"
   ],
   "note": "all claimed, the last part by a concrete history"
  },
  {
   "property": "C95",
   "status": "proved",
   "theorems": [
    "Veb.Props.C95_first",
    "Veb.Props.C95_box",
    "Veb.Props.C95_sized",
    "Veb.Props.C95_coll",
    "Veb.Props.C95_panics",
    "Veb.Props.C95_step",
    "Veb.Props.C95_map",
    "Veb.Props.C95_counts"
   ],
   "note": "all claimed"
  },
  {
   "property": "C96",
   "status": "proved",
   "theorems": [
    "Veb.Props.C96_tree",
    "Veb.Props.C96_box",
    "Veb.Props.C96_sized",
    "Veb.Props.C96_crate",
    "Veb.Props.C96_wrong",
    "Veb.Props.C96_turns",
    "Veb.Props.C96_turns_wrapped",
    "Veb.Props.C96_forever",
    "Veb.Props.C96_ends",
    "Veb.Props.C96_ends_wrapped",
    "Veb.Props.C96_forward",
    "Veb.Props.C96_drain",
    "Veb.Props.C96_drain_box",
    "Veb.Props.C96_drain_types",
    "Veb.Props.C96_types",
    "Veb.Props.C96_machine",
    "Veb.Props.C96_exact",
    "Veb.Props.C96_exact16"
   ],
   "note": "all claimed; it is the exact form of a defect of the code"
  },
  {
   "property": "C97",
   "status": "proved",
   "theorems": [
    "Veb.Props.C97_tree",
    "Veb.Props.C97_takes",
    "Veb.Props.C97_wrapped",
    "Veb.Props.C97_unique",
    "Veb.Props.C97_crate",
    "Veb.Props.C97_right",
    "Veb.Props.C97_wrong",
    "Veb.Props.C97_first",
    "Veb.Props.C97_half",
    "Veb.Props.C97_types"
   ],
   "note": "all claimed; it is the exact form of a defect of the code"
  },
  {
   "property": "C98",
   "status": "proved",
   "theorems": [
    "Veb.Props.C98_machine",
    "Veb.Props.C98_transfer",
    "Veb.Props.C98_iter",
    "Veb.Props.C98_back",
    "Veb.Props.C98_complete",
    "Veb.Props.C98_lost",
    "Veb.Props.C98_sixteen_bit"
   ],
   "note": "all claimed; it is the exact form of a defect of the code, for trees with correct parts"
  },
  {
   "property": "C99",
   "status": "proved",
   "theorems": [
    "Veb.Props.C99_which",
    "Veb.Props.C99_count",
    "Veb.Props.C99_wrong",
    "Veb.Props.C99_third",
    "Veb.Props.C99_iter",
    "Veb.Props.C99_iter_count",
    "Veb.Props.C99_rev",
    "Veb.Props.C99_rev_count",
    "Veb.Props.C99_sets",
    "Veb.Props.C99_wrapped",
    "Veb.Props.C99_types"
   ],
   "note": "all claimed; it says how often a defect of the code is met"
  }
 ]
}