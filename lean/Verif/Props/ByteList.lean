import Verif.Proof.ByteList
import Verif.Props.Open

/-!
# C79: `ByteMap<L>` over any list type that is a sequence

The other claims about `ByteMap` are about `L = VecDeque`.  The traits `List` and `TreeList` are exported, so a user may
bring a list type of their own.
-/

set_option autoImplicit false

namespace Veb.Props

variable {V : Type}

/-- **C79, maps.** Over any list type that behaves as a sequence, `ByteMap` is an ordered map under every history: it
never panics. -/
theorem C79_tree {L : Type} [ListT L V] (h : IsSeq L) (ops : List (Op (U 8) V)) : RunsLikeMap (ByteMapOf L) ops := by
  obtain ⟨r, S⟩ := h
  obtain ⟨m, e, hm⟩ := C10_byteMap_history V ops
  obtain ⟨⟨a, os⟩, ea, hr, ho⟩ := (seq_run S.sim ops (a := none) .none).1 _ e
  dsimp only at hr ho
  subst ho
  refine ⟨a, ea, ?_⟩
  rw [← hm]
  cases hr <;> simp

/-- **C79, answers.** Nobody can tell it from `ByteMap` over a `VecDeque`, … -/
theorem C79_alike {L : Type} [ListT L V] (h : IsSeq L) : AnswerAlike (ByteMapOf L) (ByteMap V) :=
  C51_trans (C51_leaf.1 (C79_tree h)) (C51_symm (C51_leaf.1 (C10_byteMap_history V)))

/-- **C79, `len_hint`.** … by `len_hint` neither. -/
theorem C79_len_hint {L : Type} [ListT L V] (h : IsSeq L) (ops : List (Op (U 8) V)) (a : ByteMapOf L) (m : ByteMap V)
    (ha : Reaches ops a) (hm : Reaches ops m) : VebTree.lenHint a = VebTree.lenHint m := by
  obtain ⟨r, S⟩ := h
  obtain ⟨os, e⟩ := hm
  obtain ⟨os', ea'⟩ := ha
  obtain ⟨⟨a, os⟩, ea, hr, ho⟩ := (seq_run S.sim ops (a := none) .none).1 _ e
  rw [ea'] at ea
  cases ea
  dsimp only at hr
  cases hr with
  | some hr =>
    have := ByteMapOf.rel_isMonad S.sim.toSeqCore hr
    show defaultLenHint ByteMapOf.isMonad _ = defaultLenHint ByteMap.isMonad _
    unfold defaultLenHint
    rw [this]

/-- **C79, collections.** Over any list type that behaves as a sequence of trees, `ByteMap` answers as a collection. -/
theorem C79_coll {L T Lo : Type} [VebTree T Lo V] [TreeListT L T Lo V] (h : IsTreeSeq L) :
    AnswersAsColl (ByteMapOf L) (T := T) := by
  obtain ⟨r, S⟩ := h
  intro ops
  have h1 := (tseq_run S ops (a := none) (m := none) .none (by rintro _ ⟨⟩)).map (Q := fun os os' => os' = os)
    (f := Prod.snd) (g := Prod.snd) (fun _ _ e => e.symm)
  have h2 := Rx.of_agree (C51_crate_coll (.byte (T := T) (Lo := Lo) (V := V)) ops)
  exact ((h1.trans h2).mono (by rintro a b ⟨c, e1, e2⟩; exact e2.trans e1)).agree

/-- **C79, trees.** A `Tree` over such a collection, with parts that are ordered maps, is one as far as `C51` goes, … -/
theorem C79_tree_over {L K S Lo T : Type} [LinearOrder K] [LinearOrder Lo] [VebKey K (U 8) Lo] [VebKeyRef K (U 8) Lo]
    [VebTree S (U 8) Unit] [VebTree T Lo V] [TreeListT L T Lo V] (h : IsTreeSeq L) (hk : GoodKey K (U 8) Lo)
    (hs : ∀ ops : List (Op (U 8) Unit), RunsLikeMap S ops) (ht : ∀ ops : List (Op Lo V), RunsLikeMap T ops)
    (ops : List (Op K V)) (hsafe : SL.SafeHist (Tree.Safe always always) [] ops) :
    RunsLikeMap (Tree K V S (ByteMapOf L)) ops :=
  C51_user_parts hk hs ht (C79_coll h) ops hsafe

/-- … and never panics. -/
theorem C79_tree_over_no_panic {L K S Lo T : Type} [LinearOrder K] [LinearOrder Lo] [VebKey K (U 8) Lo]
    [VebKeyRef K (U 8) Lo] [VebTree S (U 8) Unit] [VebTree T Lo V] [TreeListT L T Lo V] (h : IsTreeSeq L)
    (hk : GoodKey K (U 8) Lo) (hs : ∀ ops : List (Op (U 8) Unit), RunsLikeMap S ops)
    (ht : ∀ ops : List (Op Lo V), RunsLikeMap T ops) (ops : List (Op K V)) :
    NeverPanics (Tree K V S (ByteMapOf L)) ops :=
  C51_user_parts_no_panic hk hs ht (C79_coll h) ops

/-! ## `VecDeque` -/

/-- **C79, `VecDeque`.** The list type of the crate is such a sequence. -/
theorem C79_deque : IsSeq (Deque V) := ⟨_, Deque.seqBy⟩
theorem C79_deque_trees {T Lo : Type} [VebTree T Lo V] : IsTreeSeq (Deque T) (Lo := Lo) (V := V) := ⟨_, Deque.treeSeqBy⟩

/-- **C79, the two models.** From every state, in order or not, `ByteMap<L>` with `L = VecDeque` does what the model used
by the other claims does: the same states, the same outputs, the same panics. -/
theorem C79_same_tree (m : Option (ByteMap V)) (ops : List (Op (U 8) V)) :
    Exec.run (m.map asDeque) ops = (Exec.run m ops).map fun x => (x.1.map asDeque, x.2) := by
  have hm : Option.Rel (BRel (L := Deque V) fun a l => a.items = l) (m.map asDeque) m := by
    cases m with
    | none => exact .none
    | some m => exact .some ⟨rfl, rfl⟩
  have h := seq_run Deque.sim ops hm
  cases hx : Exec.run m ops with
  | error e => rw [h.2 rfl e hx]; rfl
  | ok y =>
    obtain ⟨⟨a, os⟩, e, hr, ho⟩ := h.1 _ hx
    obtain ⟨y, os'⟩ := y
    dsimp only at hr ho
    subst ho
    rw [e]
    cases hr with
    | none => rfl
    | some hr =>
      rename_i a b
      obtain ⟨s, ⟨l⟩⟩ := a
      obtain ⟨s', l'⟩ := b
      obtain ⟨h1, h2⟩ := hr
      dsimp only at h1 h2
      subst h1 h2
      rfl

theorem C79_same_coll {T Lo : Type} [VebTree T Lo V] (m : Option (ByteMap T)) (ops : List (COp (U 8) T Lo V)) :
    CollExec.run (m.map asDeque) ops = (CollExec.run m ops).map fun x => (x.1.map asDeque, x.2) := by
  have h := Deque.runColl ops m
  cases hx : CollExec.run m ops with
  | error e => rw [h.2 rfl e hx]; rfl
  | ok y =>
    obtain ⟨⟨a, os⟩, e, hr, ho⟩ := h.1 _ hx
    dsimp only at hr ho
    subst hr ho
    rw [e]
    rfl

/-! ## Not vacuous: a list type of a user -/

/-- A list stored backwards, with a counter of the calls; out of range, it answers whatever is at the front. -/
structure Backwards (A : Type) where
  items : List A
  calls : Nat

namespace Backwards
variable {A : Type}

instance : ListT (Backwards A) A where
  fromMonad v := ⟨[v], 0⟩
  len l := pure l.items.length
  get l i := expect "empty" (l.items[l.items.length - 1 - i]?)
  getMut l i := do
    let v ← expect "empty" (l.items[l.items.length - 1 - i]?)
    pure (v, fun w => ⟨l.items.set (l.items.length - 1 - i) w, l.calls + 1⟩)
  insertValue l i v := pure ⟨l.items.insertIdx (l.items.length - i) v, l.calls + 1⟩
  removeValue l i := do
    let v ← expect "empty" (l.items[l.items.length - 1 - i]?)
    pure (if l.items.length = 1 then none else some ⟨l.items.eraseIdx (l.items.length - 1 - i), l.calls + 1⟩, v)

theorem lt_of {l : List A} {i : Nat} {v : A} (h : l[i]? = some v) : i < l.length := by
  by_contra hc
  rw [List.getElem?_eq_none (by omega)] at h
  cases h

theorem get_rev {l : List A} {i : Nat} {v : A} (h : l[i]? = some v) : l.reverse[l.length - 1 - i]? = some v := by
  have := lt_of h
  rw [List.getElem?_reverse (by omega), show l.length - 1 - (l.length - 1 - i) = i by omega, h]

theorem rev_insert {l : List A} {i : Nat} (h : i ≤ l.length) (v : A) :
    l.reverse.insertIdx (l.length - i) v = (l.insertIdx i v).reverse := by
  have hl : (l.insertIdx i v).length = l.length + 1 := by simp [List.length_insertIdx, h]
  have hl' : (l.reverse.insertIdx (l.length - i) v).length = l.length + 1 := by simp [List.length_insertIdx]
  apply List.ext_getElem?
  intro j
  by_cases hj : j < l.length + 1
  · rw [List.getElem?_reverse (by omega), hl, List.getElem?_insertIdx, List.getElem?_insertIdx]
    rcases lt_trichotomy j (l.length - i) with c | c | c
    · rw [if_pos c, List.getElem?_reverse (by omega), if_neg (by omega), if_neg (by omega)]
      congr 1
      omega
    · rw [if_neg (by omega), if_pos c, if_pos (by simp; omega), if_neg (by omega), if_pos (by omega),
        if_pos (by omega)]
    · rw [if_neg (by omega), if_neg (by omega), List.getElem?_reverse (by omega), if_pos (by omega)]
      congr 1
      omega
  · rw [List.getElem?_eq_none (by omega), List.getElem?_eq_none (by simp only [List.length_reverse]; omega)]

theorem rev_erase {l : List A} {i : Nat} (h : i < l.length) :
    l.reverse.eraseIdx (l.length - 1 - i) = (l.eraseIdx i).reverse := by
  have hl : (l.eraseIdx i).length = l.length - 1 := List.length_eraseIdx_of_lt h
  have hl' : (l.reverse.eraseIdx (l.length - 1 - i)).length = l.length - 1 := by
    rw [List.length_eraseIdx_of_lt (by simp; omega), List.length_reverse]
  apply List.ext_getElem?
  intro j
  by_cases hj : j < l.length - 1
  · rw [List.getElem?_reverse (by omega), hl, List.getElem?_eraseIdx, List.getElem?_eraseIdx]
    by_cases c : j < l.length - 1 - i
    · rw [if_pos c, List.getElem?_reverse (by omega), if_neg (by omega)]
      congr 1
      omega
    · rw [if_neg c, List.getElem?_reverse (by omega), if_pos (by omega)]
      congr 1
      omega
  · rw [List.getElem?_eq_none (by omega), List.getElem?_eq_none (by simp only [List.length_reverse]; omega)]

theorem seq : IsSeq (Backwards A) := by
  refine ⟨fun a l => a.items = l.reverse, ?_, ?_, ?_, ?_, ?_, ?_, ?_⟩
  · exact fun v => rfl
  · rintro ⟨_, n⟩ l rfl
    show Except.ok l.reverse.length = _
    simp
  · rintro ⟨_, n⟩ l i v rfl h
    show expect _ _ = _
    simp only [List.length_reverse, get_rev h]
    rfl
  · rintro ⟨_, n⟩ l i v rfl h
    refine ⟨fun w => ⟨l.reverse.set (l.length - 1 - i) w, n + 1⟩, ?_, fun w => ?_⟩
    · show expect _ _ >>= _ = _
      simp only [List.length_reverse, get_rev h]
      rfl
    · have := lt_of h
      apply List.ext_getElem?
      intro j
      by_cases hj : j < l.length
      · simp only [List.getElem?_set, List.length_reverse]
        rw [List.getElem?_reverse hj, List.getElem?_reverse (by simpa using hj), List.getElem?_set, List.length_set]
        by_cases e : l.length - 1 - i = j
        · rw [if_pos e, if_pos (by omega), if_pos (by omega), if_pos (by omega)]
        · rw [if_neg e, if_neg (by omega)]
      · rw [List.getElem?_eq_none (by simp; omega), List.getElem?_eq_none (by simp; omega)]
  · rintro ⟨_, n⟩ l i v rfl h
    refine ⟨_, rfl, ?_⟩
    simp only [List.length_reverse]
    exact rev_insert h v
  · rintro ⟨_, n⟩ v rfl
    rfl
  · rintro ⟨_, n⟩ l i v rfl h1 h
    refine ⟨⟨l.reverse.eraseIdx (l.length - 1 - i), n + 1⟩, ?_, ?_⟩
    · show expect _ _ >>= _ = _
      simp only [List.length_reverse, get_rev h]
      rw [if_neg (by omega)]
      rfl
    · have := lt_of h
      exact rev_erase this
end Backwards

example : ListT.get (⟨[30, 20, 10], 0⟩ : Backwards Nat) 0 = .ok 10 := rfl
example (ops : List (Op (U 8) Nat)) : RunsLikeMap (ByteMapOf (Backwards Nat)) ops := C79_tree Backwards.seq ops
example : outputs (ByteMapOf (Backwards Nat)) [.insert (U.lit 9) 1, .insert (U.lit 200) 2, .insert (U.lit 4) 3, .minVal, .maxVal,
    .remove (U.lit 9), .successor (U.lit 4), .findSet (U.lit 200) 7, .removeMax, .removeMin, .minVal] =
    .ok [.kv none, .kv none, .kv none, .kv (some (U.lit 4, 3)), .kv (some (U.lit 200, 2)), .kv (some (U.lit 9, 1)),
      .kv (some (U.lit 200, 2)), .kv (some (U.lit 200, 2)), .kv (some (U.lit 200, 7)), .kv (some (U.lit 4, 3)), .kv none] := by
  decide +kernel
example (ops : List (Op (U 16) Nat)) :
    NeverPanics (Tree (U 16) Nat (ByteMapOf (Backwards Unit)) (ByteMapOf (Deque (ByteMapOf (Backwards Nat))))) ops :=
  C79_tree_over_no_panic C79_deque_trees goodKey (C79_tree Backwards.seq) (C79_tree Backwards.seq) ops

/-! ## What is asked of the list type is needed -/

/-- A list that always gives itself back, also when it has become empty. -/
structure Clingy (A : Type) where
  items : List A

instance {A : Type} : ListT (Clingy A) A where
  fromMonad v := ⟨[v]⟩
  len l := pure l.items.length
  get l i := VecDeque.get l.items i
  getMut l i := do
    let (a, put) ← VecDeque.getMut l.items i
    pure (a, fun b => ⟨put b⟩)
  insertValue l i v := do pure ⟨← VecDeque.insertAt l.items i v⟩
  removeValue l i := do
    let v ← VecDeque.get l.items i
    pure (some ⟨l.items.eraseIdx i⟩, v)

/-- **C79, needed.** Over a list that gives itself back when it has become empty, taking out the last entry panics. -/
theorem C79_contract_needed :
    outputs (ByteMapOf (Clingy Nat)) [.insert (U.lit 1) 0, .insert (U.lit 2) 5, .remove (U.lit 1)] =
      .ok [.kv none, .kv none, .kv (some (U.lit 1, 0))] ∧
    outputs (ByteMapOf (Clingy Nat)) [.insert (U.lit 1) 0, .insert (U.lit 2) 5, .remove (U.lit 1), .remove (U.lit 2)] =
      .error .debugAssert ∧
    ¬ IsSeq (Clingy Nat) := by
  have h2 : outputs (ByteMapOf (Clingy Nat)) [.insert (U.lit 1) 0, .insert (U.lit 2) 5, .remove (U.lit 1), .remove (U.lit 2)] =
      .error .debugAssert := by decide +kernel
  refine ⟨by decide +kernel, h2, fun h => ?_⟩
  obtain ⟨t, e, -⟩ := C79_tree h [.insert (U.lit 1) 0, .insert (U.lit 2) 5, .remove (U.lit 1), .remove (U.lit 2)]
  rw [outputs, e] at h2
  cases h2

end Veb.Props
