import Verif.Proof.Flat
import Verif.Props.Open
import Verif.Props.TreeDefect

/-!
# C55: what `Tree` computes, on every history

C17 says that a `Tree` is an ordered map as long as no insertion meets the defect of src/tree.rs:524-533.  Here is the
full answer, with no condition on the history: a `Tree` whose parts are correct computes what the machine `Flat` of
`Verif.SpecFlat` computes.  Nothing is left open about spoiled trees.
-/

set_option autoImplicit false

namespace Veb.Props

variable {K V S C Hi Lo T : Type} [LinearOrder K] [LinearOrder Hi] [LinearOrder Lo] [VebKey K Hi Lo]
    [VebKeyRef K Hi Lo] [VebTree S Hi Unit] [VebTree T Lo V] [TreeCollection C Hi T Lo V]

/-- **C55, the machine never panics.** -/
theorem C55_machine_total (K V : Type) [LinearOrder K] (ops : List (Op K V)) : NeverPanics (Flat K V) ops :=
  Flat.run_total none ops

/-- **C55.** A `Tree` whose summary, children and collection are correct by whatever means cannot be told from the
machine. -/
theorem C55_alike (hk : GoodKey K Hi Lo) (hs : ∀ ops : List (Op Hi Unit), RunsLikeMap S ops)
    (ht : ∀ ops : List (Op Lo V), RunsLikeMap T ops) (hc : AnswersAsColl C (T := T)) :
    AnswerAlike (Tree K V S C) (Flat K V) := by
  have LK := hk.lawful
  have h : AnswerAlike (Tree K V (BTreeMap Hi Unit) (HashMap Hi (BTreeMap Lo V))) (Flat K V) :=
    (Tree.sameFlat (fun _ _ => trivial) (fun _ _ => trivial)).alike
  exact C51_trans (C51_tree (C51_leaf.1 hs) (C51_leaf.1 ht) hc (C51_crate_coll (.hash (T := BTreeMap Lo V)))) h

/-- **C55, runs.** Both return, with the same outputs, and both or neither leave a tree. -/
theorem C55_run (hk : GoodKey K Hi Lo) (hs : ∀ ops : List (Op Hi Unit), RunsLikeMap S ops)
    (ht : ∀ ops : List (Op Lo V), RunsLikeMap T ops) (hc : AnswersAsColl C (T := T)) (ops : List (Op K V)) :
    ∃ (t : Option (Tree K V S C)) (f : Option (Flat K V)) (os : List (Out K V)),
      Exec.run none ops = .ok (t, os) ∧ Exec.run none ops = .ok (f, os) ∧ (t = none ↔ f = none) := by
  have h0 := (C55_alike hk hs ht hc).same.run ops (t := none) (t' := none) .none
  rw [show ops.map (Op.rename id id) = ops from List.map_id'' rename_ident ops] at h0
  obtain ⟨⟨f, os⟩, hf⟩ := C55_machine_total K V ops
  rw [hf] at h0
  cases hx : Exec.run (none : Option (Tree K V S C)) ops with
  | error e => rw [hx] at h0; cases h0
  | ok a =>
    rw [hx] at h0
    cases h0 with
    | ok h0 =>
      obtain ⟨t, os'⟩ := a
      obtain ⟨h1, h2⟩ := h0
      rw [List.map_id'' out_rename_ident] at h2
      dsimp only at h1 h2
      subst h2
      refine ⟨t, f, os, rfl, hf, ?_⟩
      cases h1 <;> simp

/-- **C55, outputs.** -/
theorem C55_exact (hk : GoodKey K Hi Lo) (hs : ∀ ops : List (Op Hi Unit), RunsLikeMap S ops)
    (ht : ∀ ops : List (Op Lo V), RunsLikeMap T ops) (hc : AnswersAsColl C (T := T)) (ops : List (Op K V)) :
    outputs (Tree K V S C) ops = outputs (Flat K V) ops := by
  obtain ⟨t, f, os, h1, h2, -⟩ := C55_run hk hs ht hc ops
  rw [outputs, outputs, h1, h2]
  rfl

/-- **C55 for the crate's types** without a `Tree` below: any byte set, byte map or B-tree map, boxed or not, in any
collection. -/
theorem C55_crate (hk : GoodKey K Hi Lo) (hs : CrateTree S Hi Unit always) (ht : CrateTree T Lo V always)
    (hc : CrateColl C Hi T Lo V) (ops : List (Op K V)) : outputs (Tree K V S C) ops = outputs (Flat K V) ops :=
  C55_exact hk (fun o => C17_history_partial hs o (safeHist_always _ o))
    (fun o => C17_history_partial ht o (safeHist_always _ o)) (C51_crate_coll hc) ops

/-- **C55 for the predefined 16-bit types.** -/
theorem C55_sixteen_bit {K V : Type} [LinearOrder K] [VebKey K (U 8) (U 8)] [VebKeyRef K (U 8) (U 8)]
    (hk : GoodKey K (U 8) (U 8)) :
    (∀ ops : List (Op K V), outputs (Map16 K V) ops = outputs (Flat K V) ops) ∧
    (∀ ops : List (Op K Unit), outputs (Set16 K) ops = outputs (Flat K Unit) ops) :=
  ⟨C55_crate hk .byteSet .byteMap (.array goodIndex), C55_crate hk .byteSet .byteSet (.array goodIndex)⟩

/-- **C55, iterators.** An iterator over such a tree returns what it returns over the machine, or both panic. -/
theorem C55_iter (hk : GoodKey K Hi Lo) (hs : ∀ ops : List (Op Hi Unit), RunsLikeMap S ops)
    (ht : ∀ ops : List (Op Lo V), RunsLikeMap T ops) (hc : AnswersAsColl C (T := T)) (ops : List (Op K V))
    (ss : List Side) :
    Agree (fun os os' => os' = os) (itemsAfter (Tree K V S C) ops ss) (itemsAfter (Flat K V) ops ss) :=
  C51_iter (C55_alike hk hs ht hc) ops ss

/-- **C55, nested.** One level up: a `Tree` whose summary and children answer as machines do answers as a `Tree` of
machines.  With `C55_alike` this describes the 32-bit types, and so on upwards. -/
theorem C55_nested (hs : AnswerAlike S (Flat Hi Unit)) (ht : AnswerAlike T (Flat Lo V)) (hc : AnswersAsColl C (T := T)) :
    AnswerAlike (Tree K V S C) (Tree K V (Flat Hi Unit) (HashMap Hi (Flat Lo V))) :=
  C51_tree hs ht hc (C51_crate_coll .hash)

/-- **C55, the machine is an ordered map** on the histories that never insert below the minimum of two or more entries,
for every ordered type of keys. -/
theorem C55_machine_map {K V : Type} [LinearOrder K] (ops : List (Op K V)) (h : notBelowMin [] ops = true) :
    RunsLikeMap (Flat K V) ops := by
  letI := Flat.idKey (K := K)
  letI := Flat.idKeyRef (K := K)
  refine C51_transfer (C51_symm (C55_alike (T := BTreeMap Unit V) (C := HashMap K (BTreeMap Unit V)) Flat.goodKey_id
    (C11_btreeMap_history K Unit) (C11_btreeMap_history Unit V) (C51_crate_coll .hash))) ?_
  exact C17_history_partial (.tree Flat.goodKey_id .btreeMap .btreeMap .hash) ops
    ((notBelowMin_iff (Hi := K) (Lo := Unit) SL.sorted_nil ops).1 h)

/-- **C55, the machine decides.** Whether a history gives the outputs of an ordered map can be computed without the
tree. -/
theorem C55_decides (hk : GoodKey K Hi Lo) (hs : ∀ ops : List (Op Hi Unit), RunsLikeMap S ops)
    (ht : ∀ ops : List (Op Lo V), RunsLikeMap T ops) (hc : AnswersAsColl C (T := T)) (ops : List (Op K V)) :
    outputs (Tree K V S C) ops = .ok (SL.run [] ops).2 ↔ outputs (Flat K V) ops = .ok (SL.run [] ops).2 := by
  rw [C55_exact hk hs ht hc]

/-! ## What the machine tells about spoiled trees -/

/-- **C55, inner entries.** The inner entries are always in strictly ascending order. -/
theorem C55_inside_sorted {K V : Type} [LinearOrder K] (ops : List (Op K V)) (f : Flat K V) (h : Reaches ops f) :
    SL.Sorted f.inside := by
  letI := Flat.idKey (K := K)
  letI := Flat.idKeyRef (K := K)
  have LK := (Flat.goodKey_id (K := K)).lawful
  have hS := Tree.sameFlat (K := K) (V := V) (S := BTreeMap K Unit) (C := HashMap K (BTreeMap Unit V))
    (fun _ _ => trivial) (fun _ _ => trivial)
  have h0 := hS.run ops (t := none) (t' := none) .none
  rw [show ops.map (Op.rename id id) = ops from List.map_id'' rename_ident ops] at h0
  obtain ⟨os, e⟩ := h
  rw [e] at h0
  generalize Exec.run (none : Option (Tree K V (BTreeMap K Unit) (HashMap K (BTreeMap Unit V)))) ops = x at h0
  generalize hy : (Except.ok (some f, os) : R (Option (Flat K V) × List (Out K V))) = y at h0
  cases h0 with
  | err => cases hy
  | @ok a b h0 =>
    obtain ⟨t, _⟩ := a
    cases hy
    obtain ⟨h1, -⟩ := h0
    dsimp only at h1
    generalize hz : some f = z at h1
    cases h1 with
    | none => cases hz
    | some h1 =>
      cases hz
      cases h1 with
      | one => exact List.Pairwise.nil
      | more h hl => exact hl.1

/-- **C55, nothing is lost by an insertion.** Afterwards the stored keys are those stored before and the inserted one,
in every state. -/
theorem C55_insert_keys {K V : Type} [LinearOrder K] (f : Flat K V) (k : K) (v : V) (j : K) :
    (∃ w, (j, w) ∈ (f.insert k v).1.line) ↔ j = k ∨ ∃ w, (j, w) ∈ f.line := by
  have hins : ∀ (l : SL K V) (e : K × V), (∃ w, (j, w) ∈ SL.insert l e.1 e.2) ↔ j = e.1 ∨ ∃ w, (j, w) ∈ l := by
    intro l e
    constructor
    · rintro ⟨w, h⟩
      simp only [SL.insert, List.mem_append, List.mem_filter, List.mem_cons, decide_eq_true_eq, Prod.mk.injEq] at h
      rcases h with ⟨h, -⟩ | ⟨h, -⟩ | ⟨h, -⟩
      · exact .inr ⟨_, h⟩
      · exact .inl h
      · exact .inr ⟨_, h⟩
    · rintro (rfl | ⟨w, h⟩)
      · exact ⟨e.2, by simp [SL.insert]⟩
      · rcases lt_trichotomy j e.1 with hj | rfl | hj
        · exact ⟨w, by simp [SL.insert, h, hj]⟩
        · exact ⟨e.2, by simp [SL.insert]⟩
        · exact ⟨w, by simp [SL.insert, h, hj]⟩
  have hline : ∀ (mn mx : K × V) (l : SL K V), (∃ w, (j, w) ∈ (⟨mn, some (mx, l)⟩ : Flat K V).line) ↔
      j = mn.1 ∨ j = mx.1 ∨ ∃ w, (j, w) ∈ l := by
    rintro ⟨a, va⟩ ⟨b, vb⟩ l
    simp only [Flat.line, List.mem_cons, List.mem_append, Prod.mk.injEq, List.not_mem_nil, or_false]
    constructor
    · rintro ⟨w, ⟨rfl, -⟩ | h | ⟨rfl, -⟩⟩
      · exact .inl rfl
      · exact .inr (.inr ⟨w, h⟩)
      · exact .inr (.inl rfl)
    · rintro (rfl | rfl | ⟨w, h⟩)
      · exact ⟨_, .inl ⟨rfl, rfl⟩⟩
      · exact ⟨_, .inr (.inr ⟨rfl, rfl⟩)⟩
      · exact ⟨w, .inr (.inl h)⟩
  have hone : ∀ (mn : K × V), (∃ w, (j, w) ∈ (⟨mn, none⟩ : Flat K V).line) ↔ j = mn.1 := by
    rintro ⟨a, va⟩
    simp [Flat.line]
  obtain ⟨mn, _ | ⟨mx, l⟩⟩ := f
  · simp only [Flat.insert]
    split
    · rename_i h
      rw [hone, hone]
      simp [h]
    · split
      · rw [hline, hone]; simp
      · rw [hline, hone]; simp [or_comm]
  · simp only [Flat.insert, Flat.store]
    have hins' : (∃ w, (j, w) ∈ SL.insert l k v) ↔ j = k ∨ ∃ w, (j, w) ∈ l := hins l (k, v)
    split_ifs with h1 h2 h3 h4 h5 h6 <;> simp only [hline, hins, hins']
    · rw [h1]; tauto
    · rw [h3]; tauto
    · tauto
    · rw [← h5]; tauto
    · tauto
    · tauto

/-- **C55, draining.** Take out the minimum of a reachable tree until nothing is left: out come the minimum, the inner
entries by ascending keys, and the maximum.  Taking out the maximum instead gives the same entries in the opposite order,
on every history, although the entries need not be in order. -/
theorem C55_drain (hk : GoodKey K Hi Lo) (hs : ∀ ops : List (Op Hi Unit), RunsLikeMap S ops)
    (ht : ∀ ops : List (Op Lo V), RunsLikeMap T ops) (hc : AnswersAsColl C (T := T)) (ops : List (Op K V))
    (t : Tree K V S C) (h : Reaches ops t) :
    ∃ f : Flat K V, Reaches ops f ∧ SL.Sorted f.inside ∧
      Exec.run (some t) (List.replicate f.line.length .removeMin) = .ok (none, f.line.map fun e => .kv (some e)) ∧
      Exec.run (some t) (List.replicate f.line.length .removeMax) =
        .ok (none, f.line.reverse.map fun e => .kv (some e)) := by
  obtain ⟨os, e⟩ := h
  obtain ⟨t', f, os', e1, e2, e3⟩ := C55_run hk hs ht hc ops
  rw [e1] at e
  cases e
  obtain ⟨f, rfl⟩ : ∃ g, f = some g := by
    cases f with
    | none => simp at e3
    | some f => exact ⟨f, rfl⟩
  have hr : Reaches ops f := ⟨_, e2⟩
  have hsort := C55_inside_sorted ops f hr
  have up : Exec.run (some f) (List.replicate f.line.length .removeMin) =
      .ok (none, f.line.map fun e => .kv (some e)) := by
    obtain ⟨mn, _ | ⟨mx, l⟩⟩ := f
    · rfl
    · have := Flat.drainUp mx l hsort mn
      simpa [Flat.line, Flat.inside] using this
  have down : Exec.run (some f) (List.replicate f.line.length .removeMax) =
      .ok (none, f.line.reverse.map fun e => .kv (some e)) := by
    obtain ⟨mn, _ | ⟨mx, l⟩⟩ := f
    · rfl
    · have := Flat.drainDown mn l hsort mx
      simpa [Flat.line, Flat.inside] using this
  have tr : ∀ (more : List (Op K V)) (r : List (Out K V)), Exec.run (some f) more = .ok (none, r) →
      Exec.run (some t) more = .ok (none, r) := by
    intro more r hm
    obtain ⟨t2, f2, os2, g1, g2, g3⟩ := C55_run hk hs ht hc (ops ++ more)
    rw [Flat.run_append e1] at g1
    rw [Flat.run_append e2, hm] at g2
    cases g2
    obtain rfl := g3.2 rfl
    cases hx : Exec.run (some t) more with
    | error e => rw [hx] at g1; cases g1
    | ok a =>
      rw [hx] at g1
      obtain ⟨a1, a2⟩ := a
      have g1 := Except.ok.inj g1
      simp only [Prod.mk.injEq, List.append_cancel_left_eq] at g1
      rw [g1.1, g1.2]
  exact ⟨f, hr, hsort, tr _ _ up, tr _ _ down⟩

/-! ## Not vacuous -/

/-- the machine on the history 10, 20, 5 of C17's refutation: minimum 5, maximum 10, and 20 inside -/
example : Exec.run (none : Option (Flat (U 16) Unit)) bad =
    .ok (some ⟨(k16 5, ()), some ((k16 10, ()), [(k16 20, ())])⟩, [.kv none, .kv none, .kv none]) := by decide +kernel
/-- … it is not an ordered map there, as the tree is not -/
example : outputs (Flat (U 16) Unit) (bad ++ [.maxVal]) ≠ .ok (SL.run [] (bad ++ [.maxVal])).2 := by decide +kernel
example : outputs (Set16 (U 16)) (bad ++ [.maxVal]) ≠ .ok (SL.run [] (bad ++ [.maxVal])).2 := by
  rw [(C55_sixteen_bit (V := Unit) goodKey).2]
  decide +kernel
/-- … and drains as 5, 20, 10 -/
example : Flat.line (⟨(k16 5, ()), some ((k16 10, ()), [(k16 20, ())])⟩ : Flat (U 16) Unit) =
    [(k16 5, ()), (k16 20, ()), (k16 10, ())] := rfl
example : ∃ t : Set16 (U 16), Reaches bad t := by
  obtain ⟨t, f, os, h1, h2, h3⟩ := C55_run (C := ArrayColl (U 8) ByteSet) (T := ByteSet) (S := ByteSet) goodKey
    (fun o => C17_history_partial .byteSet o (safeHist_always _ o))
    (fun o => C17_history_partial .byteSet o (safeHist_always _ o)) (C51_crate_coll (.array goodIndex)) bad
  cases t with
  | some t => exact ⟨t, os, h1⟩
  | none =>
    obtain rfl := h3.1 rfl
    revert h2
    have : (Exec.run (none : Option (Flat (U 16) Unit)) bad).map (fun r => r.1.isSome) = .ok true := by decide +kernel
    intro h2
    rw [h2] at this
    cases this

/-- **C55, a foreign entry.** After 10, 20, 5, 20 the key 20 is stored twice; inserting 3 then returns the entry of 20 as
the one that was replaced. -/
theorem C55_foreign_entry :
    outputs (Set16 (U 16)) (bad2 ++ [.insert (k16 3) ()]) =
      .ok [.kv none, .kv none, .kv none, .kv none, .kv (some (k16 20, ()))] := by
  rw [(C55_sixteen_bit (V := Unit) goodKey).2]
  decide +kernel

end Veb.Props
