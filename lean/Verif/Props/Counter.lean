import Verif.Proof.Counter
import Verif.Props.Cap
import Verif.Props.Iter

/-!
# C65: the counters on targets of other widths

`PSized P T` is `SizedVebTree<T>` and `Iter.callsOn P` the calls of an iterator on a target whose `usize` has the width of
`P`, at most 64 bits.
-/

set_option autoImplicit false

namespace Veb.Props

variable {P : Ptr} {T K V : Type} [VebTree T K V]

/-! ## `SizedVebTree` -/

/-- **C65.** Whatever the tree inside, correct or not: a counted tree on the target does what it does on the 64-bit target,
as long as its length there stays within `usize::MAX` of the target … -/
theorem C65_agrees (hP : P.bits ≤ 64) (ops : List (Op K V))
    (hf : ∀ pre, pre <+: ops → ∀ t : SizedVebTree T, Reaches pre t → t.len ≤ P.usizeMax) :
    Exec.run (none : Option (PSized P T)) ops =
      (Exec.run (none : Option (SizedVebTree T)) ops).map fun r => (r.1.map fun t => ⟨t.tree, t.len⟩, r.2) :=
  PSized.run_fits hP ops none fun pre hp u os hr => hf pre hp u ⟨os, hr⟩

/-- … and panics with `size overflowed` if at some moment it does not. -/
theorem C65_panics (hP : P.bits ≤ 64) (ops : List (Op K V)) (pre : List (Op K V)) (hp : pre <+: ops) (t : SizedVebTree T)
    (ht : Reaches pre t) (hl : P.usizeMax < t.len) :
    Exec.run (none : Option (PSized P T)) ops = .error (.expect "size overflowed") := by
  obtain ⟨os, ht⟩ := ht
  exact PSized.run_overflow hP ops none (fun u h => by cases h) pre hp t os ht hl

/-- On the 64-bit target there is no difference at all. -/
theorem C65_p64 (ops : List (Op K V)) :
    Exec.run (none : Option (PSized .p64 T)) ops =
      (Exec.run (none : Option (SizedVebTree T)) ops).map fun r => (r.1.map fun t => ⟨t.tree, t.len⟩, r.2) :=
  PSized.run_p64 ops none

/-- `len_hint` is exact on every target. -/
theorem C65_len_hint (t : PSized P T) : VebTree.lenHint t = .ok (t.len, some t.len) := rfl

section
variable [LinearOrder K] {safe : (K → Prop) → K → Prop}

/-- **C65, correct trees inside** (C13 on the target): as long as no more than `usize::MAX` entries are stored, the counted
tree answers as the ordered map, and its length is the number of entries … -/
theorem C65_history (hP : P.bits ≤ 64) (hT : ∀ ops : List (Op K V), SL.SafeHist safe [] ops → RunsLikeMap T ops)
    (ops : List (Op K V)) (hs : SL.SafeHist safe [] ops)
    (hf : ∀ pre, pre <+: ops → (entries pre).length ≤ P.usizeMax) :
    RunsLikeMap (PSized P T) ops ∧ ∀ t : PSized P T, Reaches ops t → t.len = (entries ops).length := by
  have hmax := PSized.max_le hP
  have hfit : FitsUsize ops := fun pre hp => (hf pre hp).trans hmax
  have hlen : ∀ pre, pre <+: ops → ∀ t : SizedVebTree T, Reaches pre t → t.len = (entries pre).length := by
    intro pre hp t ht
    obtain ⟨suf, rfl⟩ := hp
    exact ((C13_sized hT pre ((SL.safeHist_append safe [] pre suf).1 hs).1
      (fun q hq => hfit q (hq.trans (List.prefix_append _ _)))).2 t ht).1
  have h := C65_agrees hP (T := T) ops fun pre hp t ht => (hlen pre hp t ht).trans_le (hf pre hp)
  obtain ⟨t, h1, h2⟩ := (C13_sized hT ops hs hfit).1
  rw [h1] at h
  refine ⟨⟨_, h, by simp [h2]⟩, fun u hu => ?_⟩
  obtain ⟨os, hu⟩ := hu
  rw [h] at hu
  cases t with
  | none => cases hu
  | some t => cases hu; exact hlen ops (List.prefix_refl _) t ⟨_, h1⟩

theorem entries_snoc_le (ops : List (Op K V)) (op : Op K V) : (entries (ops ++ [op])).length ≤ (entries ops).length + 1 := by
  by_cases h : (SL.step (entries ops) op).1 = []
  · rw [entries_snoc, h]; exact Nat.zero_le _
  · rw [entries_snoc, SL.length_newSize (entries_lists ops).1 op h]
    cases op <;> simp only [newSize] <;> first | omega | (split <;> omega)

/-- The first moment at which a number of entries is exceeded. -/
theorem exists_first {m : Nat} (ops : List (Op K V)) (h : ∃ pre, pre <+: ops ∧ m < (entries pre).length) :
    ∃ pre, pre <+: ops ∧ (entries pre).length = m + 1 ∧ ∀ q, q <+: pre → (entries q).length ≤ m + 1 := by
  induction ops using List.reverseRecOn with
  | nil =>
    obtain ⟨pre, hp, h⟩ := h
    rw [List.prefix_nil.1 hp] at h
    simp [entries, SL.run] at h
  | append_singleton ops op ih =>
    by_cases hm : ∃ q, q <+: ops ∧ m < (entries q).length
    · obtain ⟨pre, h1, h2⟩ := ih hm
      exact ⟨pre, h1.trans (List.prefix_append _ _), h2⟩
    · simp only [not_exists, not_and, Nat.not_lt] at hm
      have h1 := hm ops (List.prefix_refl _)
      have h2 := entries_snoc_le ops op
      obtain ⟨pre, hp, h⟩ := h
      rcases List.prefix_concat_iff.1 hp with rfl | hp
      · refine ⟨_, List.prefix_refl _, by omega, fun q hq => ?_⟩
        rcases List.prefix_concat_iff.1 hq with rfl | hq
        · omega
        · have := hm q hq; omega
      · have := hm pre hp; omega

/-- … and if at some moment more would be stored, the panic is `size overflowed`. -/
theorem C65_history_panics (hP : P.bits ≤ 64) (hT : ∀ ops : List (Op K V), SL.SafeHist safe [] ops → RunsLikeMap T ops)
    (ops : List (Op K V)) (hs : SL.SafeHist safe [] ops) (pre : List (Op K V)) (hp : pre <+: ops)
    (hl : P.usizeMax < (entries pre).length) :
    Exec.run (none : Option (PSized P T)) ops = .error (.expect "size overflowed") := by
  have hmax := PSized.max_le hP
  rcases hmax.lt_or_eq with hlt | heq
  · obtain ⟨pre, ⟨suf, rfl⟩, h1, h2⟩ := exists_first ops ⟨pre, hp, hl⟩
    obtain ⟨⟨t, g1, g2⟩, g3⟩ := C13_sized hT pre ((SL.safeHist_append safe [] pre suf).1 hs).1
      fun q hq => (h2 q hq).trans hlt
    cases t with
    | none => rw [g2.1 rfl] at h1; cases h1
    | some t =>
      have := (g3 t ⟨_, g1⟩).1
      exact C65_panics hP _ pre (List.prefix_append _ _) t ⟨_, g1⟩ (by omega)
  · have hp64 : P = .p64 := by cases P <;> first | rfl | (exact absurd heq (by decide)) | (exact absurd hP (by decide))
    subst hp64
    rw [C65_p64, (C13_only_panic hT ops hs).1 fun h => ?_]
    · rfl
    · have := h pre hp
      rw [heq] at hl
      omega

/-- **C65, capacity** (C64 on the target): a tree type with room for `n` entries, where the counter of the target can count
to `n`, never panics. -/
theorem C65_no_panic (hP : P.bits ≤ 64) {n : Nat} (h : CapTree T K V n) (hn : n ≤ P.usizeMax) (ops : List (Op K V)) :
    NeverPanics (PSized P T) ops := by
  have hn' := hn.trans (PSized.max_le hP)
  obtain ⟨⟨t, os⟩, h1⟩ := C64_no_panic (.sized h hn') ops
  have := C65_agrees hP (T := T) ops fun pre hp t ⟨os, ht⟩ => ((C64_len h hn' ht).2.1).trans hn
  rw [h1] at this
  exact ⟨_, this⟩

/-- **C65, refuted where it cannot**: one more key than the counter can count, in ascending order. -/
theorem C65_overflow (hP : P.bits ≤ 64) (h : UncountedTree T K V) (es : SL K V) (hs : SL.Sorted es)
    (hl : P.usizeMax < es.length) :
    Exec.run (none : Option (PSized P T)) (es.map fun e => .insert e.1 e.2) = .error (.expect "size overflowed") := by
  have hmax := PSized.max_le hP
  rcases hmax.lt_or_eq with hlt | heq
  · have hes : SL.Sorted (es.take (P.usizeMax + 1)) := hs.sublist (List.take_sublist _ _)
    have hlen : (es.take (P.usizeMax + 1)).length = P.usizeMax + 1 := by rw [List.length_take]; omega
    obtain ⟨safe, hc⟩ := h.crate
    obtain ⟨t, h1, h2⟩ := C36_sorted_inserts (T := SizedVebTree T) (.sized hc) _ hes (by omega) [] (by simp)
    rw [List.append_nil] at h1 h2
    rw [ascending_answers _ [] (by simpa using hes)] at h1
    cases t with
    | none =>
      have he := run_inserts (es.take (P.usizeMax + 1)) [] (by simpa using hes)
      have := h2.1 rfl
      rw [entries, he] at this
      rw [List.nil_append] at this
      rw [this] at hlen; cases hlen
    | some t =>
      refine C65_panics hP _ _ ?_ t ⟨_, h1⟩ ?_
      · exact (List.take_prefix _ es).map _
      · have hi : insertions ((es.take (P.usizeMax + 1)).map fun e => Op.insert e.1 e.2) ≤ usizeMax :=
          (List.countP_le_length).trans (by rw [List.length_map]; omega)
        have := C38_len hc hi h1
        rw [this, ascending_ledger, add_zero, Multiset.coe_card, List.length_map]
        omega
  · have hp64 : P = .p64 := by cases P <;> first | rfl | (exact absurd heq (by decide)) | (exact absurd hP (by decide))
    subst hp64
    rw [heq] at hl
    obtain ⟨a, k, v, b, rfl, ha⟩ : ∃ a k v b, es = a ++ [(k, v)] ++ b ∧ a.length = usizeMax := by
      rcases hd : es.drop usizeMax with _ | ⟨⟨k, v⟩, b⟩
      · rw [List.drop_eq_nil_iff] at hd; omega
      · refine ⟨es.take usizeMax, k, v, b, ?_, by rw [List.length_take]; omega⟩
        rw [List.append_assoc, List.singleton_append, ← hd, List.take_append_drop]
    rw [C65_p64, List.map_append, run_err_append (C64_overflow h a k v (List.pairwise_append.1 hs).1 ha)]
    rfl

end

/-! ## `Iter` -/

section
variable [LinearOrder K]

/-- **C65, iterators**, over any tree: as long as no more than `usize::MAX` items are yielded, the iterator does what it
does on the 64-bit target; one item more is an arithmetic overflow (in builds with overflow checks). -/
theorem C65_iter (P : Ptr) (t : T) (ss : List Side) (it : Iter T K) (os : List (Option (K × V)))
    (h : (Iter.new t).calls ss = .ok (it, os)) :
    (Iter.new t).callsOn P ss = if (os.filterMap id).length ≤ P.usizeMax then .ok (it, os) else .error .arith := by
  split
  next hn => exact Iter.callsOn_fits P ss h (by simpa [Iter.new] using hn)
  next hn => exact Iter.callsOn_overflow P ss h (Nat.zero_le _) (by simpa [Iter.new] using hn)

/-- … so a tree with more entries than that cannot be iterated to the end. -/
theorem C65_iter_overflow (P : Ptr) {t : T} {l : SL K V} (ha : Answers t l) (hs : l.length ≤ usizeMax)
    (hl : P.usizeMax < l.length) :
    (∃ it, (Iter.new t).callsOn P (List.replicate P.usizeMax .front) = .ok (it, (l.take P.usizeMax).map some)) ∧
    (Iter.new t).callsOn P (List.replicate (P.usizeMax + 1) .front) = .error .arith := by
  have key : ∀ n, n ≤ l.length → ((l.take n).map some ++ List.replicate (n - l.length) none).filterMap id = l.take n := by
    intro n hn
    rw [Nat.sub_eq_zero_of_le hn, List.replicate_zero, List.append_nil, List.filterMap_map]
    exact List.filterMap_some
  obtain ⟨it, h1, -⟩ := C28_forward ha hs P.usizeMax
  obtain ⟨it', h2, -⟩ := C28_forward ha hs (P.usizeMax + 1)
  have e1 := C65_iter P t _ _ _ h1
  have e2 := C65_iter P t _ _ _ h2
  rw [key _ hl.le, List.length_take, if_pos (Nat.min_le_left _ _)] at e1
  rw [key _ hl, List.length_take, if_neg (by omega)] at e2
  refine ⟨⟨it, ?_⟩, e2⟩
  rw [e1, Nat.sub_eq_zero_of_le hl.le]; simp

end

/-! ## The predefined trees -/

/-- On every target of at least 32 bits the counters of the trees with 16-bit keys never overflow … -/
theorem C65_u16 (hP : P = .p32 ∨ P = .p64) {V : Type} (ops : List (Op (U 16) V)) :
    NeverPanics (PSized P (Map16 (U 16) V)) ops := by
  refine C65_no_panic ?_ (C64_predefined.1 goodKey).2 ?_ ops <;> rcases hP with rfl | rfl <;> decide

/-- … but on a 16-bit target that of a tree of all `u16` keys does, and on a 32-bit target that of a tree of all `u32`
keys. -/
theorem C65_refuted {V : Type} (v : V) :
    Exec.run (none : Option (PSized .p16 (Map16 (U 16) V))) ((List.range (2 ^ 16)).map fun i => .insert (U.lit i) v) =
      .error (.expect "size overflowed") ∧
    Exec.run (none : Option (PSized .p32 (Map32 (U 32) V))) ((List.range (2 ^ 32)).map fun i => .insert (U.lit i) v) =
      .error (.expect "size overflowed") := by
  have key : ∀ w m, m < 2 ^ w → (U.lit m : U w).bits.toNat = m := fun w m hm => by
    show (BitVec.ofNat w m).toNat = m
    rw [BitVec.toNat_ofNat, Nat.mod_eq_of_lt hm]
  have hs : ∀ w m, m ≤ 2 ^ w → SL.Sorted ((List.range m).map fun i => ((U.lit i : U w), v)) := by
    intro w m hm
    refine List.pairwise_map.2 (List.Pairwise.imp_of_mem ?_ List.pairwise_lt_range)
    intro a b ha hb hab
    rw [List.mem_range] at ha hb
    rw [U.lt_iff, key w a (by omega), key w b (by omega)]; exact hab
  have e : ∀ w m, ((List.range m).map fun i => ((U.lit i : U w), v)).map (fun e : U w × V => Op.insert e.1 e.2) =
      (List.range m).map fun i => Op.insert (U.lit i) v := fun w m => by rw [List.map_map]; rfl
  constructor
  · have := C65_overflow (P := .p16) (by decide) (uncounted16 V).2 _ (hs 16 (2 ^ 16) (le_refl _))
      (by rw [List.length_map, List.length_range]; decide)
    rwa [e] at this
  · have := C65_overflow (P := .p32) (by decide) (uncounted32 V).2 _ (hs 32 (2 ^ 32) (le_refl _))
      (by rw [List.length_map, List.length_range]; decide)
    rwa [e] at this

/-- A tree with one entry more than the counter of the target can count exists, if the tree inside counts nothing, but no
iterator comes to its end … -/
theorem C65_iter_full {T K V : Type} [LinearOrder K] [VebTree T K V] (P : Ptr) (h : UncountedTree T K V) (es : SL K V)
    (hs : SL.Sorted es) (hl : es.length = P.usizeMax + 1) (hP : es.length ≤ usizeMax) : ∃ t : T,
    Reaches (es.map fun e => .insert e.1 e.2) t ∧ Answers t es ∧
    (Iter.new t).callsOn P (List.replicate es.length .front) = .error .arith := by
  obtain ⟨safe, hc⟩ := h.crate
  have ha := ascending_inserts es [] (by simpa using hs) (by simpa using hP)
  have hsafe : SL.SafeHist safe [] (es.map fun e => Op.insert e.1 e.2) := by
    obtain ⟨L, rfl, M⟩ := hc.lawful
    refine SL.safeHist_mono SL.sorted_nil ?_ ha
    rintro Q k hf (hk | ⟨hk, hc⟩)
    · exact M.present Q k hf hk
    · exact M.append Q k hf hk hc
  have he : entries (es.map fun e => Op.insert e.1 e.2) = es := run_inserts es [] (by simpa using hs)
  obtain ⟨t, h1, h2⟩ := C17_history_partial hc _ hsafe
  cases t with
  | none =>
    have := h2.1 rfl
    rw [he] at this
    rw [this] at hl; cases hl
  | some t =>
    have hans := C28_answers_partial hc _ t hsafe ⟨_, h1⟩
    rw [he] at hans
    have := (C65_iter_overflow P hans hP (by omega)).2
    rw [← hl] at this
    exact ⟨t, ⟨_, h1⟩, hans, this⟩

/-- … as for all `u16` keys on a 16-bit target. -/
theorem C65_iter_refuted {V : Type} (v : V) : ∃ (es : SL (U 16) V) (t : Map16 (U 16) V), es.length = 2 ^ 16 ∧
    Reaches (es.map fun e => .insert e.1 e.2) t ∧ Answers t es ∧
    (Iter.new t).callsOn .p16 (List.replicate es.length .front) = .error .arith := by
  have hs : SL.Sorted ((List.range (2 ^ 16)).map fun i => ((U.lit i : U 16), v)) := by
    refine List.pairwise_map.2 (List.Pairwise.imp_of_mem ?_ List.pairwise_lt_range)
    intro a b ha hb hab
    rw [List.mem_range] at ha hb
    have key : ∀ m, m < 2 ^ 16 → (U.lit m : U 16).bits.toNat = m := fun m hm => by
      show (BitVec.ofNat 16 m).toNat = m
      rw [BitVec.toNat_ofNat, Nat.mod_eq_of_lt hm]
    rw [U.lt_iff, key a ha, key b hb]; exact hab
  have hlen : ((List.range (2 ^ 16)).map fun i => ((U.lit i : U 16), v)).length = 2 ^ 16 := by
    rw [List.length_map, List.length_range]
  generalize (List.range (2 ^ 16)).map (fun i => ((U.lit i : U 16), v)) = es at hs hlen
  obtain ⟨t, h⟩ := C65_iter_full .p16 (uncounted16 V).2 es hs (by rw [hlen]; decide) (by rw [hlen]; decide)
  exact ⟨es, t, hlen, h⟩

/-- Non-vacuity of `C65_agrees`, `C65_panics`: a history and a target on which the counter fits, and trees of any number
of entries (`C65_refuted`). -/
example : outputs (PSized .p16 (Map16 (U 16) Nat)) [.insert (U.lit 5) 1, .insert (U.lit 7) 2, .insert (U.lit 5) 3,
      .remove (U.lit 7), .intoMonad] =
    .ok [.kv none, .kv none, .kv (some (U.lit 5, 1)), .kv (some (U.lit 7, 2)), .kv (some (U.lit 5, 3))] := by
  decide +kernel
example : Ptr.p16.usizeMax < 2 ^ 16 ∧ 2 ^ 16 ≤ usizeMax ∧ Ptr.p16.usizeMax = 65535 := by decide

end Veb.Props
