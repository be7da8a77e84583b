import Verif.SpecTree
import Verif.Proof.Hist

/-!
# Properties of every tree type: C08, C10, C11, C17 – C27, C32, C33, C36

`CrateTree T K V safe` (Verif/SpecHist.lean) says that `T` is a tree type put together from the crate.  The
theorems hold for all of them at once; the leaf types have `safe = always`, for which the restriction to safe
histories is void.  For the recursive `Tree` the full statements are false of the code
(Verif/Props/TreeDefect.lean), and what is proved here is called `_partial`.
-/

set_option autoImplicit false

namespace Veb.Props
open VebTree

variable {T K V : Type} [LinearOrder K] [VebTree T K V] {safe : (K → Prop) → K → Prop}

/-! ## The predefined types are covered -/

/-- `u8` sets and maps, `Marker8Empty` and `Marker8`. -/
theorem crate8 (V : Type) : CrateTree Set8 (U 8) Unit always ∧ CrateTree (Map8 V) (U 8) V always :=
  ⟨.byteSet, .byteMap⟩
/-- `Marker16Empty` and `Marker16`, for `u16`, `i16` and `[u8; 2]` keys. -/
theorem crate16 (V : Type) :
    (CrateTree (Set16 (U 16)) (U 16) Unit safe16 ∧ CrateTree (Map16 (U 16) V) (U 16) V safe16) ∧
    (CrateTree (Set16 (S 16)) (S 16) Unit safe16 ∧ CrateTree (Map16 (S 16) V) (S 16) V safe16) ∧
    (CrateTree (Set16 (Arr (U 8) 2)) (Arr (U 8) 2) Unit safe16 ∧
     CrateTree (Map16 (Arr (U 8) 2) V) (Arr (U 8) 2) V safe16) :=
  ⟨⟨.tree goodKey .byteSet .byteSet (.array goodIndex), .tree goodKey .byteSet .byteMap (.array goodIndex)⟩,
   ⟨.tree goodKey .byteSet .byteSet (.array goodIndex), .tree goodKey .byteSet .byteMap (.array goodIndex)⟩,
   ⟨.tree goodKey .byteSet .byteSet (.array goodIndex), .tree goodKey .byteSet .byteMap (.array goodIndex)⟩⟩
/-- `Marker32Empty` and `Marker32`, for `u32` and `i32` keys. -/
theorem crate32 (V : Type) :
    (CrateTree (Set32 (U 32)) (U 32) Unit safe32 ∧ CrateTree (Map32 (U 32) V) (U 32) V safe32) ∧
    (CrateTree (Set32 (S 32)) (S 32) Unit safe32 ∧ CrateTree (Map32 (S 32) V) (S 32) V safe32) := by
  obtain ⟨⟨s, m⟩, -, -⟩ := crate16 V
  exact ⟨⟨.tree goodKey s s (.array goodIndex), .tree goodKey s m (.array goodIndex)⟩,
   ⟨.tree goodKey s s (.array goodIndex), .tree goodKey s m (.array goodIndex)⟩⟩
/-- `Marker64Empty` and `Marker64`, for `u64` and `i64` keys. -/
theorem crate64 (V : Type) :
    (CrateTree (Set64 (U 64)) (U 64) Unit safe64 ∧ CrateTree (Map64 (U 64) V) (U 64) V safe64) ∧
    (CrateTree (Set64 (S 64)) (S 64) Unit safe64 ∧ CrateTree (Map64 (S 64) V) (S 64) V safe64) := by
  obtain ⟨⟨s, m⟩, -⟩ := crate32 V
  exact ⟨⟨.tree goodKey s s (.array goodIndex), .tree goodKey s m (.array goodIndex)⟩,
   ⟨.tree goodKey s s (.array goodIndex), .tree goodKey s m (.array goodIndex)⟩⟩
/-- A type of the tests and benches: hash map children, boxed, counted. -/
example (V : Type) : CrateTree (SizedVebTree (Box (Tree (U 16) V (Box Set8) (HashMap (U 8) (Map8 V))))) (U 16) V
    (sizedSafe safe16) :=
  .sized (.box (.tree goodKey (.box .byteSet) .byteMap .hash))

/-! ## C08, C10, C11, C17: every history -/

/-- **C08.** `ByteSet` is an ordered set of bytes under every history. -/
theorem C08_byteSet_history (ops : List (Op (U 8) Unit)) : RunsLikeMap ByteSet ops := by
  obtain ⟨L, h, -⟩ := CrateTree.byteSet.lawful
  exact runsLikeMap_of L (h ▸ safeHist_always _ ops)

/-- **C10.** `ByteMap` is an ordered map from bytes under every history. -/
theorem C10_byteMap_history (V : Type) (ops : List (Op (U 8) V)) : RunsLikeMap (ByteMap V) ops := by
  obtain ⟨L, h, -⟩ := (CrateTree.byteMap (V := V)).lawful
  exact runsLikeMap_of L (h ▸ safeHist_always _ ops)

/-- **C11.** `BTreeMap`, used through `VebTree`, is an ordered map under every history. -/
theorem C11_btreeMap_history (K V : Type) [LinearOrder K] (ops : List (Op K V)) :
    RunsLikeMap (BTreeMap K V) ops := by
  obtain ⟨L, h, -⟩ := (CrateTree.btreeMap (K := K) (V := V)).lawful
  exact runsLikeMap_of L (h ▸ safeHist_always _ ops)

/-- The full claim of C17, for the predefined types. -/
def C17_full : Prop :=
  ∀ V : Type,
    ((∀ ops, RunsLikeMap (Set16 (U 16)) ops) ∧ (∀ ops, RunsLikeMap (Map16 (U 16) V) ops) ∧
     (∀ ops, RunsLikeMap (Set16 (S 16)) ops) ∧ (∀ ops, RunsLikeMap (Map16 (S 16) V) ops)) ∧
    ((∀ ops, RunsLikeMap (Set32 (U 32)) ops) ∧ (∀ ops, RunsLikeMap (Map32 (U 32) V) ops) ∧
     (∀ ops, RunsLikeMap (Set32 (S 32)) ops) ∧ (∀ ops, RunsLikeMap (Map32 (S 32) V) ops)) ∧
    ((∀ ops, RunsLikeMap (Set64 (U 64)) ops) ∧ (∀ ops, RunsLikeMap (Map64 (U 64) V) ops) ∧
     (∀ ops, RunsLikeMap (Set64 (S 64)) ops) ∧ (∀ ops, RunsLikeMap (Map64 (S 64) V) ops))

/-- **C17, the part that holds**: every history whose insertions are all `safe`, for every tree type of the
crate.  Missing: histories with an unsafe insertion, for which the claim is false (`C17_refuted`). -/
theorem C17_history_partial (h : CrateTree T K V safe) (ops : List (Op K V)) (hs : SL.SafeHist safe [] ops) :
    RunsLikeMap T ops := by
  obtain ⟨L, rfl, -⟩ := h.lawful
  exact runsLikeMap_of L hs

/-- **C17 for 16-bit keys, in plain words**: if no insertion goes below the least key while at least two keys are
stored (a decidable condition on the history), the 16-bit trees run like the ordered map.  Missing: the other
histories (`C17_refuted`). -/
theorem C17_sixteen_bit_partial {K V : Type} [LinearOrder K] [VebKey K (U 8) (U 8)] [VebKeyRef K (U 8) (U 8)]
    (hk : GoodKey K (U 8) (U 8)) :
    (∀ ops : List (Op K V), notBelowMin [] ops = true → RunsLikeMap (Map16 K V) ops) ∧
    (∀ ops : List (Op K Unit), notBelowMin [] ops = true → RunsLikeMap (Set16 K) ops) :=
  ⟨fun ops h => C17_history_partial (.tree hk .byteSet .byteMap (.array goodIndex)) ops
      ((notBelowMin_iff SL.sorted_nil ops).1 h),
   fun ops h => C17_history_partial (.tree hk .byteSet .byteSet (.array goodIndex)) ops
      ((notBelowMin_iff SL.sorted_nil ops).1 h)⟩

/-! Non-vacuity of the safe histories: a history that inserts in no particular order, overwrites, queries and
removes, in 16 bits; and, below under C36, one for every width. -/

/-- Keys 300, 7, 4000, 301, 7 again, 70, then removals and queries. -/
def sample : List (Op (U 16) Nat) :=
  [.insert (U.lit 300) 1, .insert (U.lit 7) 2, .insert (U.lit 4000) 3, .insert (U.lit 301) 4, .insert (U.lit 7) 5,
   .insert (U.lit 70) 6, .remove (U.lit 300), .remove (U.lit 9), .successor (U.lit 70), .predecessor (U.lit 4000)]

theorem sample_safe : SL.SafeHist (safe16 (K := U 16)) [] sample := (notBelowMin_iff SL.sorted_nil _).1 (by decide +kernel)

/-- the tree after `sample` exists, so the theorems about reachable trees speak about it -/
theorem sample_reaches : ∃ t : Map16 (U 16) Nat, Reaches sample t := by
  obtain ⟨t, h1, h2⟩ := C17_history_partial (crate16 Nat).1.2 sample sample_safe
  cases t with
  | none => exact absurd (h2.1 rfl) (by decide +kernel)
  | some t => exact ⟨t, _, h1⟩

example : (entries sample).map (fun e => (e.1.bits.toNat, e.2)) = [(7, 5), (70, 6), (301, 4), (4000, 3)] := by
  decide +kernel

/-! ## C18 inserted keys are found, removed keys are gone, others are untouched -/

/-- **C18, for trees reached by safe histories.** -/
theorem C18_find_after_update_partial (h : CrateTree T K V safe) :
    AllReachable T safe (FindAfterUpdate safe) := by
  obtain ⟨L, rfl, -⟩ := h.lawful
  refine allReachable_of L fun t I => ⟨fun k => L.find t k I, fun k v hk => ?_, fun k t' kv hr => ?_,
    fun k kv hr j hj => ?_⟩
  · obtain ⟨t', h1, h2, h3⟩ := L.insert t k v I hk
    refine ⟨t', _, h1, ?_, fun j hj => ?_⟩
    · rw [L.find t' k h2, h3]; simp
    · rw [L.find t' j h2, L.find t j I, h3]; simp [Map.upd_apply, hj]
  · rcases hk : L.abs t k with _ | v
    · rw [L.remove_none t k I hk] at hr; cases hr
    · obtain ⟨o, h1, h2⟩ := L.remove_some t k v I hk
      rw [h1] at hr
      cases hr
      refine ⟨?_, fun j hj => ?_⟩
      · rw [L.find t' k h2.1, h2.2]; simp
      · rw [L.find t' j h2.1, L.find t j I, h2.2]; simp [Map.upd_apply, hj]
  · rcases hk : L.abs t k with _ | v
    · rw [L.remove_none t k I hk] at hr; cases hr
    · obtain ⟨o, h1, h2⟩ := L.remove_some t k v I hk
      rw [h1] at hr
      cases hr
      have : (L.abs t).upd k none j = none := by rw [show (L.abs t).upd k none = Map.empty from h2]; rfl
      rw [Map.upd_apply, if_neg hj] at this
      rw [L.find t j I, this]; rfl

example : ∃ t : Map16 (U 16) Nat, Reaches sample t ∧ FindAfterUpdate safe16 (contents sample) t :=
  let ⟨t, h⟩ := sample_reaches
  ⟨t, h, C18_find_after_update_partial (crate16 Nat).1.2 sample t sample_safe h⟩

/-! ## C19 the extremes -/

/-- **C19, for trees reached by safe histories.** -/
theorem C19_min_max_partial (h : CrateTree T K V safe) : AllReachable T safe TrueExtremes := by
  obtain ⟨L, rfl, -⟩ := h.lawful
  refine allReachable_of L fun t I => ?_
  obtain ⟨⟨k, v⟩, h1, h2⟩ := L.minVal t I
  obtain ⟨⟨k', v'⟩, h3, h4⟩ := L.maxVal t I
  exact ⟨⟨k, v, h1, h2⟩, ⟨k', v', h3, h4⟩⟩

example : ∃ t : Map16 (U 16) Nat, Reaches sample t ∧ TrueExtremes (contents sample) t :=
  let ⟨t, h⟩ := sample_reaches
  ⟨t, h, C19_min_max_partial (crate16 Nat).1.2 sample t sample_safe h⟩

/-! ## C20, C21 neighbours -/

/-- **C20, for trees reached by safe histories.** -/
theorem C20_predecessor_partial (h : CrateTree T K V safe) : AllReachable T safe TruePredecessor := by
  obtain ⟨L, rfl, -⟩ := h.lawful
  refine allReachable_of L fun t I k => ?_
  obtain ⟨r, h1, h2⟩ := L.predecessor t k I
  cases r with
  | none => exact .inr ⟨h1, h2⟩
  | some e => exact .inl ⟨e.1, e.2, h1, h2⟩

example : ∃ t : Map16 (U 16) Nat, Reaches sample t ∧ TruePredecessor (contents sample) t :=
  let ⟨t, h⟩ := sample_reaches
  ⟨t, h, C20_predecessor_partial (crate16 Nat).1.2 sample t sample_safe h⟩

/-- **C21, for trees reached by safe histories.** -/
theorem C21_successor_partial (h : CrateTree T K V safe) : AllReachable T safe TrueSuccessor := by
  obtain ⟨L, rfl, -⟩ := h.lawful
  refine allReachable_of L fun t I k => ?_
  obtain ⟨r, h1, h2⟩ := L.successor t k I
  cases r with
  | none => exact .inr ⟨h1, h2⟩
  | some e => exact .inl ⟨e.1, e.2, h1, h2⟩

example : ∃ t : Map16 (U 16) Nat, Reaches sample t ∧ TrueSuccessor (contents sample) t :=
  let ⟨t, h⟩ := sample_reaches
  ⟨t, h, C21_successor_partial (crate16 Nat).1.2 sample t sample_safe h⟩

/-! ## C22, C23 what insert and remove return -/

/-- **C22, for safe insertions into trees reached by safe histories.** -/
theorem C22_insert_result_partial (h : CrateTree T K V safe) :
    AllReachable T safe (InsertReports safe) := by
  obtain ⟨L, rfl, -⟩ := h.lawful
  refine allReachable_of L fun t I k v hk => ?_
  obtain ⟨t', h1, -, -⟩ := L.insert t k v I hk
  exact ⟨fun old ho => ⟨t', by rw [h1, ho]; rfl⟩, fun hn => ⟨t', by rw [h1, hn]; rfl⟩⟩

example : ∃ t : Map16 (U 16) Nat, Reaches sample t ∧ InsertReports safe16 (contents sample) t :=
  let ⟨t, h⟩ := sample_reaches
  ⟨t, h, C22_insert_result_partial (crate16 Nat).1.2 sample t sample_safe h⟩

/-- **C23, for trees reached by safe histories.** -/
theorem C23_remove_result_partial (h : CrateTree T K V safe) : AllReachable T safe RemoveReports := by
  obtain ⟨L, rfl, -⟩ := h.lawful
  refine allReachable_of L fun t I k => ⟨L.remove_none t k I, fun v hv => ?_⟩
  obtain ⟨o, h1, h2⟩ := L.remove_some t k v I hv
  exact ⟨o, h1, rest_none L h2, fun t' e => finds_without L I (e ▸ h2)⟩

example : ∃ t : Map16 (U 16) Nat, Reaches sample t ∧ RemoveReports (contents sample) t :=
  let ⟨t, h⟩ := sample_reaches
  ⟨t, h, C23_remove_result_partial (crate16 Nat).1.2 sample t sample_safe h⟩

/-! ## C24 popping the extremes -/

/-- **C24, for trees reached by safe histories.** -/
theorem C24_drain_partial (h : CrateTree T K V safe) : AllReachable T safe PopsExtremes := by
  obtain ⟨L, rfl, -⟩ := h.lawful
  refine allReachable_of L fun t I => ⟨?_, ?_, ?_⟩
  · obtain ⟨o, kv, h1, h2, h3⟩ := L.removeMin t I
    exact ⟨o, kv.1, kv.2, h1, h2.1, h2.2, rest_none L h3, fun t' e => finds_without L I (e ▸ h3)⟩
  · obtain ⟨o, kv, h1, h2, h3⟩ := L.removeMax t I
    exact ⟨o, kv.1, kv.2, h1, h2.1, h2.2, rest_none L h3, fun t' e => finds_without L I (e ▸ h3)⟩
  · obtain ⟨l, hl⟩ := SL.exists_lists (L.finite t I)
    have hr : Rel (some t) l := ⟨I, hl⟩
    refine ⟨l, hl, ?_, ?_⟩
    · obtain ⟨t', h1, h2⟩ := run_ok hr _ (SL.safeHist_replicate L.Safe (.inl rfl) l l.length)
      rw [(SL.drain_min l).1] at h2
      rw [h1, (SL.drain_min l).2, rel_nil h2]
    · obtain ⟨t', h1, h2⟩ := run_ok hr _ (SL.safeHist_replicate L.Safe (.inr rfl) l l.length)
      rw [(SL.drain_max l).1] at h2
      rw [h1, (SL.drain_max l).2, rel_nil h2]

example : ∃ t : Map16 (U 16) Nat, Reaches sample t ∧ PopsExtremes (contents sample) t :=
  let ⟨t, h⟩ := sample_reaches
  ⟨t, h, C24_drain_partial (crate16 Nat).1.2 sample t sample_safe h⟩

/-! ## C26 writing through references -/

/-- **C26, for trees reached by safe histories.** -/
theorem C26_mut_accessors_partial (h : CrateTree T K V safe) : AllReachable T safe fun _ t => MutAccess t := by
  obtain ⟨L, rfl, -⟩ := h.lawful
  refine allReachable_of L fun t I => ?_
  have wr : ∀ {k : K} {put : V → T}, PutOk L.Inv L.abs t k put → Writes t k put := by
    intro k put hp w
    obtain ⟨h1, h2⟩ := hp w
    refine ⟨?_, fun j hj => ?_⟩
    · rw [L.find _ k h1, h2]; simp
    · rw [L.find _ j h1, L.find t j I, h2]; simp [Map.upd_apply, hj]
  obtain ⟨l, hl⟩ := SL.exists_lists (L.finite t I)
  refine ⟨?_, ?_, fun q => ?_, fun q => ?_, fun q => ?_⟩
  · obtain ⟨⟨k, v, put⟩, h1, h2, h3⟩ := L.minValMut t I
    obtain ⟨kv, h4, h5⟩ := L.minVal t I
    refine ⟨k, v, put, h1, ?_, wr h3⟩
    rw [h4, Option.some.inj ((hl.minE.2 h5).symm.trans (hl.minE.2 h2))]
  · obtain ⟨⟨k, v, put⟩, h1, h2, h3⟩ := L.maxValMut t I
    obtain ⟨kv, h4, h5⟩ := L.maxVal t I
    refine ⟨k, v, put, h1, ?_, wr h3⟩
    rw [h4, Option.some.inj ((hl.maxE.2 h5).symm.trans (hl.maxE.2 h2))]
  · obtain ⟨r, h1, h2, h3⟩ := L.findMut t q I
    rw [L.find t q I, ← h2]
    obtain _ | ⟨k, v, put⟩ := r
    · exact .inl ⟨h1, rfl⟩
    · exact .inr ⟨k, v, put, h1, rfl, wr (h3 k v put rfl)⟩
  · obtain ⟨r, h1, h2, h3⟩ := L.predecessorMut t q I
    obtain ⟨r', h4, h5⟩ := L.predecessor t q I
    rw [h4, hl.pred_eq h5, ← hl.pred_eq h2]
    obtain _ | ⟨k, v, put⟩ := r
    · exact .inl ⟨h1, rfl⟩
    · exact .inr ⟨k, v, put, h1, rfl, wr (h3 k v put rfl)⟩
  · obtain ⟨r, h1, h2, h3⟩ := L.successorMut t q I
    obtain ⟨r', h4, h5⟩ := L.successor t q I
    rw [h4, hl.succ_eq h5, ← hl.succ_eq h2]
    obtain _ | ⟨k, v, put⟩ := r
    · exact .inl ⟨h1, rfl⟩
    · exact .inr ⟨k, v, put, h1, rfl, wr (h3 k v put rfl)⟩

example : ∃ t : Map16 (U 16) Nat, Reaches sample t ∧ MutAccess t :=
  let ⟨t, h⟩ := sample_reaches
  ⟨t, h, C26_mut_accessors_partial (crate16 Nat).1.2 sample t sample_safe h⟩

/-! ## C27 monad queries and length hints -/

/-- **C27, for trees reached by safe histories.** -/
theorem C27_monad_len_hint_partial (h : CrateTree T K V safe) : AllReachable T safe MonadTruth := by
  obtain ⟨L, rfl, -⟩ := h.lawful
  refine allReachable_of L fun t I => ?_
  have one : (L.abs t).card = 1 ↔ (L.abs t).IsSingle := by
    obtain ⟨l, hl⟩ := SL.exists_lists (L.finite t I)
    rw [hl.card, hl.length_one]
  obtain ⟨b, h1, h2⟩ := L.isMonad t I
  refine ⟨?_, ?_, fun k v => ?_, fun hc => ?_, ?_⟩
  · cases b <;> simp [h1]
  · rw [h1, one, ← h2]; simp
  · rcases L.intoMonad t I with ⟨k', v', h3, h4⟩ | ⟨h3, h4⟩
    · rw [h3, h4]
      constructor
      · intro e; cases e; rfl
      · intro e
        have e1 := (SL.lists_single k' v')
        rw [e] at e1
        have := e1.unique (SL.lists_single k v)
        cases this; rfl
    · rw [h3]
      refine ⟨fun e => (by cases e), fun e => ?_⟩
      exact absurd (e ▸ ⟨k, (Map.mem_single _ _ _).2 rfl, fun j hj => (Map.mem_single _ _ _).1 hj⟩) h4
  · rcases L.intoMonad t I with ⟨k', v', h3, h4⟩ | ⟨h3, h4⟩
    · rw [h4, Map.card_single] at hc; exact absurd rfl hc
    · exact h3
  · obtain ⟨lo, hi, h3, h4, h5⟩ := L.lenHint t I
    exact ⟨lo, hi, h3, h4, fun n hn => (h5 n hn).le⟩

example : ∃ t : Map16 (U 16) Nat, Reaches sample t ∧ MonadTruth (contents sample) t :=
  let ⟨t, h⟩ := sample_reaches
  ⟨t, h, C27_monad_len_hint_partial (crate16 Nat).1.2 sample t sample_safe h⟩

/-! ## C32, C33 independence of order and of the implementation -/

/-- **C32, for safe histories.** Two histories that should leave the same entries leave trees that give the
same outputs from then on, for every continuation that is safe. -/
theorem C32_order_independence_partial (h : CrateTree T K V safe) (a b rest : List (Op K V)) (ta tb : T)
    (ha : SL.SafeHist safe [] (a ++ rest)) (hb : SL.SafeHist safe [] b)
    (ra : Reaches a ta) (rb : Reaches b tb) (he : contents a = contents b) :
    ∃ ta' tb' os, Exec.run (some ta) rest = .ok (ta', os) ∧ Exec.run (some tb) rest = .ok (tb', os) := by
  obtain ⟨L, rfl, -⟩ := h.lawful
  rw [SL.safeHist_append] at ha
  obtain ⟨Ia, ea⟩ := reach_inv L ha.1 ra
  obtain ⟨Ib, eb⟩ := reach_inv L hb rb
  have la : Rel (some ta) (entries a) := ⟨Ia, ea ▸ entries_lists a⟩
  have lb : Rel (some tb) (entries a) := ⟨Ib, eb.trans he.symm ▸ entries_lists a⟩
  obtain ⟨ta', h1, -⟩ := run_ok la rest ha.2
  obtain ⟨tb', h2, -⟩ := run_ok lb rest ha.2
  exact ⟨ta', tb', _, h1, h2⟩

/-- two orders of the same insertions, with a continuation -/
example : ∃ (a b rest : List (Op (U 16) Nat)) (ta tb : Map16 (U 16) Nat), a ≠ b ∧ rest ≠ [] ∧
    SL.SafeHist (safe16 (K := U 16)) [] (a ++ rest) ∧ SL.SafeHist (safe16 (K := U 16)) [] b ∧
    Reaches a ta ∧ Reaches b tb ∧ contents a = contents b := by
  let a : List (Op (U 16) Nat) := [.insert (U.lit 3) 1, .insert (U.lit 900) 2, .insert (U.lit 260) 3]
  let b : List (Op (U 16) Nat) := [.insert (U.lit 900) 2, .insert (U.lit 3) 1, .insert (U.lit 260) 3]
  have ha : SL.SafeHist (safe16 (K := U 16)) [] (a ++ sample.drop 2) :=
    (notBelowMin_iff SL.sorted_nil _).1 (by decide +kernel)
  have hb : SL.SafeHist (safe16 (K := U 16)) [] b := (notBelowMin_iff SL.sorted_nil _).1 (by decide +kernel)
  obtain ⟨ta, h1, h2⟩ := C17_history_partial (crate16 Nat).1.2 a ((SL.safeHist_append ..).1 ha).1
  obtain ⟨tb, h3, h4⟩ := C17_history_partial (crate16 Nat).1.2 b hb
  cases ta with
  | none => exact absurd (h2.1 rfl) (by decide +kernel)
  | some ta =>
    cases tb with
    | none => exact absurd (h4.1 rfl) (by decide +kernel)
    | some tb =>
      exact ⟨a, b, sample.drop 2, ta, tb, by decide +kernel, by decide +kernel, ha, hb, ⟨_, h1⟩, ⟨_, h3⟩,
        congrArg SL.toMap (by decide +kernel : entries a = entries b)⟩

/-- **C33, for histories that are safe for both types.** Any two tree types with the same keys and values give
the same outputs. -/
theorem C33_implementations_agree_partial {T' : Type} [VebTree T' K V] {safe' : (K → Prop) → K → Prop}
    (h : CrateTree T K V safe) (h' : CrateTree T' K V safe') (ops : List (Op K V))
    (hs : SL.SafeHist safe [] ops) (hs' : SL.SafeHist safe' [] ops) :
    ∃ (t : Option T) (t' : Option T') (os : _), Exec.run none ops = .ok (t, os) ∧ Exec.run none ops = .ok (t', os) ∧
      (t = none ↔ t' = none) := by
  obtain ⟨t, h1, h2⟩ := C17_history_partial h ops hs
  obtain ⟨t', h3, h4⟩ := C17_history_partial h' ops hs'
  exact ⟨t, t', _, h1, h3, h2.trans h4.symm⟩

/-- the predefined map, one with hash map children, and the standard library map give the same outputs -/
example : ∃ (t : Option (Map16 (U 16) Nat)) (t' : Option (Tree (U 16) Nat (Box Set8) (HashMap (U 8) (Map8 Nat))))
    (t'' : Option (BTreeMap (U 16) Nat)) (os : _), Exec.run none sample = .ok (t, os) ∧
      Exec.run none sample = .ok (t', os) ∧ Exec.run none sample = .ok (t'', os) := by
  obtain ⟨t, t', os, h1, h2, -⟩ := C33_implementations_agree_partial (crate16 Nat).1.2
    (CrateTree.tree goodKey (.box .byteSet) .byteMap .hash) sample sample_safe sample_safe
  obtain ⟨t2, t'', os', h3, h4, -⟩ := C33_implementations_agree_partial (crate16 Nat).1.2
    CrateTree.btreeMap sample sample_safe (safeHist_always _ _)
  rw [h1] at h3
  cases h3
  exact ⟨t, t', t'', os, h1, h2, h4⟩

/-! ## C36 ascending histories -/

/-- Every insertion of the history overwrites a stored key or adds a key above all stored ones, with fewer
than `usize::MAX` keys stored. -/
def Ascending (l : SL K V) : List (Op K V) → Prop := SL.SafeHist
  (fun P k => P k ∨ ((∀ j, P j → j < k) ∧ Set.ncard {j | P j} < usizeMax)) l

/-- **C36.** Ascending histories run like the ordered map on every tree type of the crate, at any depth. -/
theorem C36_ascending_histories (h : CrateTree T K V safe) (ops : List (Op K V)) (ha : Ascending [] ops) :
    RunsLikeMap T ops := by
  obtain ⟨L, rfl, M⟩ := h.lawful
  refine runsLikeMap_of L (SL.safeHist_mono (SL.sorted_nil) ?_ ha)
  rintro P k hf (hk | ⟨hk, hc⟩)
  · exact M.present P k hf hk
  · exact M.append P k hf hk hc

theorem ascending_inserts (ks : List (K × V)) : ∀ l : SL K V, SL.Sorted (l ++ ks) →
    (l ++ ks).length ≤ usizeMax → Ascending l (ks.map fun e => .insert e.1 e.2) := by
  induction ks with
  | nil => intro l _ _; trivial
  | cons e ks ih =>
    intro l hs hl
    have hlt : ∀ p ∈ l, p.1 < e.1 := fun p hp => (List.pairwise_append.1 hs).2.2 p hp e List.mem_cons_self
    have hll : SL.Sorted l := (List.pairwise_append.1 hs).1
    refine ⟨.inr (.inr ⟨?_, ?_⟩), ?_⟩
    · rintro j ⟨v, hv⟩; exact hlt _ hv
    · have hL := SL.lists_toMap hll
      have := hL.card
      rw [Map.card, ← hL.keys] at this
      rw [this]
      simp at hl
      omega
    · have e1 : (SL.step l (.insert e.1 e.2)).1 = l ++ [e] := by
        simp only [SL.step, SL.insert]
        rw [List.filter_eq_self.2 (by simpa using fun a b h => hlt (a, b) h),
          List.filter_eq_nil_iff.2 (by simpa using fun a b h => (hlt (a, b) h).le)]
      rw [e1]
      exact ih _ (by simpa using hs) (by simpa using hl)

/-- **C36, building a tree from sorted entries**: inserting the entries of a strictly ascending list (of at most
`usize::MAX` entries) runs like the ordered map, whatever is done afterwards without inserting. -/
theorem C36_sorted_inserts (h : CrateTree T K V safe) (es : SL K V) (hs : SL.Sorted es)
    (hl : es.length ≤ usizeMax) (rest : List (Op K V)) (hr : ∀ op ∈ rest, ∀ k v, op ≠ .insert k v) :
    RunsLikeMap T (es.map (fun e => .insert e.1 e.2) ++ rest) := by
  refine C36_ascending_histories h _ ?_
  unfold Ascending
  rw [SL.safeHist_append]
  refine ⟨ascending_inserts es [] hs hl, ?_⟩
  generalize (SL.run ([] : SL K V) _).1 = l
  induction rest generalizing l with
  | nil => trivial
  | cons op rest ih =>
    refine ⟨?_, ih (fun o ho => hr o (List.mem_cons_of_mem _ ho)) _⟩
    have := hr op List.mem_cons_self
    cases op with
    | insert k v => exact absurd rfl (this k v)
    | _ => trivial

/-- 64-bit keys -/
example : RunsLikeMap (Map64 (U 64) Nat) ([.insert (U.lit 0) 1, .insert (U.lit 5) 2, .insert (U.lit (2 ^ 40)) 3,
    .insert (U.lit (2 ^ 40 + 1)) 4] ++ [.removeMin, .successor (U.lit 6), .remove (U.lit (2 ^ 40))]) :=
  C36_sorted_inserts (crate64 Nat).1.2 [(U.lit 0, 1), (U.lit 5, 2), (U.lit (2 ^ 40), 3), (U.lit (2 ^ 40 + 1), 4)]
    (by unfold SL.Sorted; decide +kernel) (by decide) _ (by simp)

/-- an ascending history with a removal and an overwrite, at every width -/
example (w : Nat) : Ascending (K := U w) (V := Nat) []
    [.insert (U.lit 0) 1, .removeMin, .insert (U.lit 0) 2, .insert (U.lit 0) 3, .find (U.lit 0)] := by
  refine ⟨.inl rfl, trivial, .inl rfl, .inr (.inl ⟨2, ?_⟩), trivial, trivial⟩
  exact List.mem_singleton.2 rfl

end Veb.Props
