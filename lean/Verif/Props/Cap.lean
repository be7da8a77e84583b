import Verif.Proof.Rewrite
import Verif.Props.Ledger
import Verif.Props.Wrappers
import Verif.Props.Canon

/-!
# C64: how many entries fit into a tree type, and where the counter of `SizedVebTree` can overflow

C25 excludes the panic of `SizedVebTree::insert` by bounding the number of insertions made.  Here the bound comes from the
tree type: a tree whose key type is finite has room for finitely many entries, so that a counter that can count that far
never overflows, however long the history and whatever it does (it need not be safe in the sense of C17).
-/

set_option autoImplicit false

namespace Veb.Props

variable {T K V : Type} [LinearOrder K] [VebTree T K V] {safe : (K → Prop) → K → Prop} {n : Nat}

/-- **C64.** Whatever the history, a tree type with room for `n` entries never stores more than `n`. -/
theorem C64_capacity (h : CapTree T K V n) {ops : List (Op K V)} {t : Option T} {os : List (Out K V)}
    (hr : Exec.run none ops = .ok (t, os)) : (ledger 0 ops os).card ≤ n := by
  obtain ⟨P, hl, hc⟩ := h.phys
  have hb : obag t = _ := ledger_run (n := 0) (t := none) trivial ops (fun x => absurd x hl) hr
  have hW := phys_run_of (fun x => absurd x hl) hr
  change obag t = ledger 0 ops os at hb
  rw [← hb]
  cases t with
  | none => exact Nat.zero_le _
  | some t => exact (PhysTree.bag_card t).trans_le (hc t hW.1)

/-- **C64, no panic.** No history panics, however long: no counter of the tree type overflows. -/
theorem C64_no_panic (h : CapTree T K V n) (ops : List (Op K V)) : NeverPanics T ops := by
  obtain ⟨P, hl, -⟩ := h.phys
  obtain ⟨t, os, h1, -⟩ := phys_run (T := T) (n := 0) (t := none) trivial ops (fun x => absurd x hl)
  exact ⟨_, h1⟩

/-- **C64, method by method**, including those that a history does not call. -/
theorem C64_every_method (h : CapTree T K V n) (ops : List (Op K V)) (t : T) (hr : Reaches ops t) : AllReturn True t := by
  obtain ⟨P, hl, -⟩ := h.phys
  obtain ⟨h1, -⟩ := phys_reaches (fun x => absurd x hl) hr
  exact phys_allReturn h1 fun _ x => absurd x hl

/-- **C64, the counter** is the number of entries stored, and within the capacity, after every history. -/
theorem C64_len (h : CapTree T K V n) (hn : n ≤ usizeMax) {ops : List (Op K V)} {t : SizedVebTree T}
    {os : List (Out K V)} (hr : Exec.run none ops = .ok (some t, os)) :
    t.len = (ledger 0 ops os).card ∧ t.len ≤ n ∧ VebTree.lenHint t = .ok (t.len, some t.len) := by
  obtain ⟨P, hl, hc⟩ := h.phys
  let Q : PhysTree (SizedVebTree T) K V := PhysTree.sizedOf hl hc hn
  have hW : Q.W t := (phys_run_of (P := Q) (fun x => x.elim) hr).1
  have e : t.len = (ledger 0 ops os).card := by
    have hb : Q.bag t = _ := ledger_run (P := Q) (n := 0) (t := none) trivial ops (fun x => x.elim) hr
    exact hW.2.trans ((PhysTree.bag_card (P := Q) t).symm.trans (congrArg Multiset.card hb))
  exact ⟨e, e.trans_le (C64_capacity (.sized h hn) hr), rfl⟩

/-- **C64, the condition of C13 and C17 on counted trees** is that of the tree inside, if there are no more than
`usize::MAX` keys … -/
theorem C64_sizedSafe [Finite K] (hK : Nat.card K ≤ usizeMax) (P : K → Prop) (k : K) : sizedSafe safe P k ↔ safe P k := by
  refine ⟨fun h => h.1, fun h => ⟨h, ?_⟩⟩
  by_cases hk : P k
  · exact .inl hk
  · refine .inr (lt_of_lt_of_le ?_ hK)
    rw [← Set.ncard_univ]
    refine Set.ncard_lt_ncard ⟨Set.subset_univ _, fun h => hk (h (Set.mem_univ k))⟩ (Set.toFinite _)

/-- … so a counted tree runs like the ordered map on every history on which the tree inside does, and `len` is the number
of entries. -/
theorem C64_history [Finite K] (hK : Nat.card K ≤ usizeMax) (h : CrateTree T K V safe) (ops : List (Op K V))
    (hs : SL.SafeHist safe [] ops) :
    RunsLikeMap (SizedVebTree T) ops ∧ ∀ t : SizedVebTree T, Reaches ops t → t.len = (entries ops).length := by
  have hf : FitsUsize ops := fun pre _ => by
    rw [← (entries_lists pre).card]; exact (Map.card_le_card _).trans hK
  have := C13_sized (fun ops hs => C17_history_partial h ops hs) ops hs hf
  exact ⟨this.1, fun t ht => (this.2 t ht).1⟩

/-! ## The predefined trees -/

/-- `VebTree16` … `VebTree64` with their capacities (upper bounds), for every good key type with these halves. -/
theorem C64_predefined {K : Type} [LinearOrder K] :
    (∀ [VebKey K (U 8) (U 8)] [VebKeyRef K (U 8) (U 8)], GoodKey K (U 8) (U 8) →
      CapTree (Set16 K) K Unit (2 + 2 ^ 16) ∧ CapTree (Map16 K V) K V (2 + 2 ^ 16)) ∧
    (∀ [VebKey K (U 16) (U 16)] [VebKeyRef K (U 16) (U 16)], GoodKey K (U 16) (U 16) →
      CapTree (Set32 K) K Unit (2 + 2 ^ 16 * (2 + 2 ^ 16)) ∧ CapTree (Map32 K V) K V (2 + 2 ^ 16 * (2 + 2 ^ 16))) ∧
    (∀ [VebKey K (U 32) (U 32)] [VebKeyRef K (U 32) (U 32)], GoodKey K (U 32) (U 32) →
      CapTree (Set64 K) K Unit (2 + 2 ^ 32 * (2 + 2 ^ 16 * (2 + 2 ^ 16))) ∧
      CapTree (Map64 K V) K V (2 + 2 ^ 32 * (2 + 2 ^ 16 * (2 + 2 ^ 16)))) := by
  have h16 : ∀ {K V : Type} [LinearOrder K] [VebKey K (U 8) (U 8)] [VebKeyRef K (U 8) (U 8)], GoodKey K (U 8) (U 8) →
      CapTree (Set16 K) K Unit (2 + 2 ^ 16) ∧ CapTree (Map16 K V) K V (2 + 2 ^ 16) := fun hk => by
    rw [show 2 + 2 ^ 16 = 2 + Nat.card (U 8) * 2 ^ 8 by rw [card_U]; rfl]
    exact ⟨.tree hk .byteSet .byteSet (.array goodIndex), .tree hk .byteSet .byteMap (.array goodIndex)⟩
  have h32 : ∀ {K V : Type} [LinearOrder K] [VebKey K (U 16) (U 16)] [VebKeyRef K (U 16) (U 16)],
      GoodKey K (U 16) (U 16) → CapTree (Set32 K) K Unit (2 + 2 ^ 16 * (2 + 2 ^ 16)) ∧
      CapTree (Map32 K V) K V (2 + 2 ^ 16 * (2 + 2 ^ 16)) := fun {K V} _ _ _ hk => by
    rw [show 2 + 2 ^ 16 * (2 + 2 ^ 16) = 2 + Nat.card (U 16) * (2 + 2 ^ 16) by rw [card_U]]
    exact ⟨.tree hk (h16 (V := V) goodKey).1 (h16 (V := V) goodKey).1 (.array goodIndex),
      .tree hk (h16 (V := V) goodKey).1 (h16 goodKey).2 (.array goodIndex)⟩
  refine ⟨h16, h32, fun hk => ?_⟩
  rw [show 2 + 2 ^ 32 * (2 + 2 ^ 16 * (2 + 2 ^ 16)) = 2 + Nat.card (U 32) * (2 + 2 ^ 16 * (2 + 2 ^ 16)) by rw [card_U]]
  exact ⟨.tree hk (h32 (V := V) goodKey).1 (h32 (V := V) goodKey).1 (.array goodIndex),
    .tree hk (h32 (V := V) goodKey).1 (h32 goodKey).2 (.array goodIndex)⟩

/-- The counters of the predefined trees with 16-bit and 32-bit keys never overflow, whatever the history. -/
theorem C64_predefined_no_panic (ops16 : List (Op (U 16) V)) (ops32 : List (Op (U 32) V)) :
    NeverPanics (SizedVebTree (Box (Map16 (U 16) V))) ops16 ∧ NeverPanics (SizedVebTree (Box (Map32 (U 32) V))) ops32 :=
  ⟨C64_no_panic (.sized (.box (C64_predefined.1 goodKey).2) (by decide)) ops16,
   C64_no_panic (.sized (.box (C64_predefined.2.1 goodKey).2) (by decide)) ops32⟩

/-! ## Where the bound is reached -/

theorem ascending_answers (es : SL K V) : ∀ l : SL K V, SL.Sorted (l ++ es) →
    (SL.run l (es.map fun e => Op.insert e.1 e.2)).2 = List.replicate es.length (.kv none) := by
  induction es with
  | nil => intro l _; rfl
  | cons e es ih =>
    intro l hs
    have hlt : ∀ p ∈ l, p.1 < e.1 := fun p hp => (List.pairwise_append.1 hs).2.2 p hp e List.mem_cons_self
    have e1 : SL.step l (.insert e.1 e.2) = (l ++ [e], .kv none) := by
      have hf : SL.find l e.1 = none := by
        rw [SL.find, List.find?_eq_none]; intro p hp; simpa using (hlt p hp).ne
      simp only [SL.step, SL.insert]
      rw [List.filter_eq_self.2 (by simpa using fun a b h => hlt (a, b) h),
        List.filter_eq_nil_iff.2 (by simpa using fun a b h => (hlt (a, b) h).le)]
      simp [hf]
    have := ih (l ++ [e]) (by simpa using hs)
    rw [List.map_cons, SL.run, e1, List.length_cons, List.replicate_succ, ← this]

theorem ascending_ledger (es : SL K V) : ∀ m : Multiset K,
    ledger m (es.map fun e => Op.insert e.1 e.2) (List.replicate es.length (.kv none)) = (es.map Prod.fst : List K) + m := by
  induction es with
  | nil => intro m; simp [ledger]
  | cons e es ih =>
    intro m
    rw [List.map_cons, List.length_cons, List.replicate_succ, ledger, ih, ledgerStep, List.map_cons, ← Multiset.cons_coe,
      Multiset.add_cons, Multiset.cons_add]

/-- **C64, the other side.** Inserting `usize::MAX` keys in ascending order and one more above them into a counted tree
makes `insert` panic, whatever the tree inside … -/
theorem C64_overflow (h : UncountedTree T K V) (es : SL K V) (k : K) (v : V) (hs : SL.Sorted (es ++ [(k, v)]))
    (hl : es.length = usizeMax) :
    Exec.run (none : Option (SizedVebTree T)) ((es ++ [(k, v)]).map fun e => .insert e.1 e.2) =
      .error (.expect "size overflowed") := by
  have hes : SL.Sorted es := (List.pairwise_append.1 hs).1
  have hlt : ∀ e ∈ es, e.1 < k := fun e he => (List.pairwise_append.1 hs).2.2 e he (k, v) (by simp)
  have hne : es ≠ [] := by rintro rfl; cases hl
  obtain ⟨safe, hc⟩ := h.crate
  obtain ⟨P, hP⟩ := h.phys
  obtain ⟨t, h1, h2⟩ := C36_sorted_inserts (T := SizedVebTree T) (.sized hc) es hes hl.le [] (by simp)
  rw [List.append_nil] at h1 h2
  have he : entries (es.map fun e => Op.insert e.1 e.2) = es := by
    have := run_inserts es [] (by simpa using hes)
    simpa [entries] using this
  rw [he] at h2
  obtain _ | ⟨u, m⟩ := t
  · exact absurd (h2.1 rfl) hne
  rw [ascending_answers es [] (by simpa using hes)] at h1
  have hins : insertions (es.map fun e => Op.insert e.1 e.2) ≤ usizeMax := by
    rw [← hl]; exact (List.countP_le_length).trans (by simp)
  obtain ⟨hW, hm⟩ : P.W u ∧ m = (P.ents u).card := (phys_run_of (T := SizedVebTree T) (fun _ => hins) h1).1
  have hb : P.bag u = ledger 0 _ _ :=
    ledger_run (T := SizedVebTree T) (n := 0) (t := none) trivial _ (by simpa using fun _ => hins) h1
  rw [ascending_ledger, add_zero] at hb
  have hmax : m = usizeMax := by
    rw [hm, ← PhysTree.bag_card, hb, ← hl]; simp
  obtain ⟨u', o, g1, -, -, g2, -⟩ := P.insertE u k v hW fun x => absurd x hP
  have ho : o = none := by
    refine g2 ?_ ?_
    · show (P.bag u).Nodup
      rw [hb, Multiset.coe_nodup]
      exact List.Pairwise.imp (fun h => ne_of_lt h) (List.pairwise_map.2 hes)
    · show k ∉ P.bag u
      rw [hb, Multiset.mem_coe, List.mem_map]
      rintro ⟨e, he, rfl⟩
      exact lt_irrefl _ (hlt e he)
  rw [List.map_append]
  refine run_append_err h1 ?_
  subst ho
  simp only [List.map_cons, List.map_nil, Exec.run, Exec.step, Exec.stepTree, VebTree.insert, g1, R.ok_bind, hmax]
  rfl

/-- … which takes a key type with more than `usize::MAX` keys: the counted trees with 64-bit keys, when the last of their
2^64 keys is inserted. -/
theorem C64_refuted_u64 (v : V) :
    Exec.run (none : Option (SizedVebTree (Map64 (U 64) V)))
      ((List.range (2 ^ 64)).map fun i => .insert (U.lit i) v) = .error (.expect "size overflowed") := by
  have key : ∀ m, m < 2 ^ 64 → (U.lit m : U 64).bits.toNat = m := fun m hm => by
    show (BitVec.ofNat 64 m).toNat = m
    rw [BitVec.toNat_ofNat, Nat.mod_eq_of_lt hm]
  have e : ∀ m, (List.range (m + 1)).map (fun i => Op.insert (U.lit i : U 64) v) =
      (((List.range m).map fun i => ((U.lit i : U 64), v)) ++ [((U.lit m : U 64), v)]).map fun e : U 64 × V => Op.insert e.1 e.2 := fun m => by
    rw [List.range_succ, List.map_append, List.map_append, List.map_map]; rfl
  have hs : ∀ m, m < 2 ^ 64 → SL.Sorted (((List.range m).map fun i => ((U.lit i : U 64), v)) ++ [((U.lit m : U 64), v)]) := by
    intro m hm
    have : SL.Sorted ((List.range (m + 1)).map fun i => ((U.lit i : U 64), v)) := by
      refine List.pairwise_map.2 (List.Pairwise.imp_of_mem ?_ List.pairwise_lt_range)
      intro a b ha hb hab
      rw [List.mem_range] at ha hb
      rw [U.lt_iff, key a (by omega), key b (by omega)]; exact hab
    rwa [List.range_succ, List.map_append] at this
  have := fun m (hm : m < 2 ^ 64) => C64_overflow (uncounted64 V).1.2 ((List.range m).map fun i => ((U.lit i : U 64), v))
    (U.lit m) v (hs m hm)
  have := this usizeMax (by decide) (by rw [List.length_map, List.length_range])
  rw [← e] at this
  exact this

/-! ## Examples -/

/-- C37 on counted trees without a bound on the number of insertions. -/
example (ops : List (Op (U 32) V)) : Covered (SizedVebTree (Map32 (U 32) V)) ops :=
  .bounded (.sized (C64_predefined.2.1 goodKey).2 (by decide))
/-- A tree counted throughout: the whole, the summary and every child. -/
example : CapTree (SizedVebTree (Tree (U 16) V (SizedVebTree ByteSet) (HashMap (U 8) (SizedVebTree (ByteMap V))))) (U 16) V
    (2 + Nat.card (U 8) * 2 ^ 8) :=
  .sized (.tree goodKey (.sized .byteSet (by decide)) (.sized .byteMap (by decide)) .hash)
    (by rw [card_U]; decide)
/-- Key types with no more than `usize::MAX` keys (`C64_sizedSafe`, `C64_history`), and one with more. -/
example : Nat.card (U 32) ≤ usizeMax ∧ Nat.card (S 16) ≤ usizeMax ∧ ¬ Nat.card (U 64) ≤ usizeMax := by
  rw [card_U, card_S, card_U]; decide
/-- A history that is not safe: the counter still counts what is stored (`C64_len`). -/
example : ∃ t : SizedVebTree (Set16 (U 16)), Reaches bad t ∧ t.len ≤ 2 + 2 ^ 16 := by
  obtain ⟨⟨t, os⟩, h⟩ := C64_no_panic (T := SizedVebTree (Set16 (U 16)))
    (.sized (C64_predefined (V := Unit).1 goodKey).1 (by decide)) bad
  obtain _ | t := t
  · cases h
  · exact ⟨t, ⟨os, h⟩, (C64_len (C64_predefined (V := Unit).1 goodKey).1 (by decide) h).2.1⟩

end Veb.Props
