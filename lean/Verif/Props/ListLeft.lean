import Verif.Proof.ListLeft
import Verif.Props.ByteList

/-!
# C86: panics of the user's list type that are caught

`ByteMap::insert` sets the bit of the key before it calls the list.  If the list panics then, and the panic is caught, the
map has a key without a value, and the values of the keys above it belong to other keys.
-/

set_option autoImplicit false

namespace Veb.Props
open ByteMapOf

section
variable {L V : Type} [ListT L V] [ListLeft L V]

/-- **C86, how an insertion ends**: the insertions here are those of C79 and C81. -/
theorem C86_faithful (m : ByteMapOf L) (k : U 8) (v : V) :
    m.insert k v = (match m.insertLeft k v with | (m, .ok o) => .ok (m, o) | (_, .error e) => .error e) :=
  insertLeft_ok

/-- **C86, the keys.** Whatever the list does: the answers of every history have the keys of a set, into which an insertion
has put its key also if it panicked, and there is a map in the end exactly if there is a key. -/
theorem C86_keys (ops : List (Op (U 8) V)) : ∃ l, KeysKept [] ops (runLeft insertLeft (none : Option (ByteMapOf L)) ops).2 l ∧
    ((runLeft insertLeft (none : Option (ByteMapOf L)) ops).1 = none ↔ l = []) := by
  obtain ⟨l, h1, h2⟩ := keys_run (m := (none : Option (ByteMapOf L))) (l := []) rel_none ops
  refine ⟨l, h1, ?_⟩
  generalize (runLeft insertLeft (none : Option (ByteMapOf L)) ops).1 = m at h2
  cases m with
  | none => exact ⟨fun _ => h2, fun _ => rfl⟩
  | some m =>
    refine ⟨by rintro ⟨⟩, ?_⟩
    rintro rfl
    cases rel_nil h2

/-- The full claim: over every list type that is a sequence, but may refuse a value with a panic, an insertion that panics does
nothing, and all other calls answer as an ordered map. -/
def C86_full (L : Type) {V : Type} [ListT L V] [ListLeft L V] : Prop :=
  IsSeqOrFull L → ∀ ops : List (Op (U 8) V), ∃ l, Skips [] ops (runLeft insertLeft (none : Option (ByteMapOf L)) ops).2 l

/-- **C86, as long as nothing panics**, the answers are those of an ordered map.  Missing: what comes after an insertion that
panicked, see `C86_shift` and `C86_refuted`. -/
theorem C86_returns_partial (h : IsSeqOrFull L) {ops : List (Op (U 8) V)} {m : Option (ByteMapOf L)} {os : List (Out (U 8) V)}
    (e : Exec.run none ops = .ok (m, os)) : os = (SL.run [] ops).2 ∧ (m = none ↔ entries ops = []) := by
  obtain ⟨r, S⟩ := h
  obtain ⟨h1, h2⟩ := holds_run S (a := none) holds_none e
  exact ⟨h1, h2.none_iff⟩

/-- **C86, what an insertion that panics leaves.** Its key was not there; the keys below it have their values; the key itself and
those above it have the value of the next key. -/
theorem C86_shift (h : IsSeqOrFull L) {ops : List (Op (U 8) V)} {m m' : ByteMapOf L} {os : List (Out (U 8) V)}
    (hm : Exec.run none ops = .ok (some m, os)) {k : U 8} {v : V} {x : Panic} (e : m.insertLeft k v = (m', .error x)) :
    SL.find (entries ops) k = none ∧ (∀ j, j < k → m'.find j = .ok (SL.find (entries ops) j)) ∧
      ∀ j i w, (j = k ∨ k < j ∧ SL.find (entries ops) j ≠ none) → SL.succ (entries ops) j = some (i, w) →
        m'.find j = .ok (some (j, w)) := by
  obtain ⟨r, S⟩ := h
  exact shift S (holds_run S (a := none) holds_none hm).2 e

/-! ## The repair -/

/-- **C86, the repair changes nothing else**: with the bit set after the call of the list, an insertion ends in the same
way, and with the same map if it returns. -/
theorem C86_repair_same (m : ByteMapOf L) (k : U 8) (v : V) :
    m.insert k v = (match m.insertLate k v with | (m, .ok o) => .ok (m, o) | (_, .error e) => .error e) :=
  insertLate_ok

/-- **C86 holds for the repaired insertion.** -/
theorem C86_repaired (h : IsSeqOrFull L) (ops : List (Op (U 8) V)) :
    ∃ l, Skips [] ops (runLeft insertLate (none : Option (ByteMapOf L)) ops).2 l ∧
      ((runLeft insertLate (none : Option (ByteMapOf L)) ops).1 = none ↔ l = []) := by
  obtain ⟨r, S⟩ := h
  obtain ⟨l, h1, h2⟩ := late_run S (a := none) holds_none ops
  exact ⟨l, h1, h2.none_iff⟩

end

/-! ## A list with room for so many values -/

/-- A list with room for `n` values. -/
structure Room (n : Nat) (V : Type) where
  items : List V

namespace Room
variable {n : Nat} {V : Type}

instance : ListT (Room n V) V where
  fromMonad v := ⟨[v]⟩
  len l := .ok l.items.length
  get l i := VecDeque.get l.items i
  getMut l i := do
    let (a, put) ← VecDeque.getMut l.items i
    pure (a, fun b => ⟨put b⟩)
  insertValue l i v := do
    if n ≤ l.items.length then throw (.expect "full")
    pure ⟨← VecDeque.insertAt l.items i v⟩
  removeValue l i := do
    let (l, v) ← VecDeque.removeValue l.items i
    pure (l.map Room.mk, v)
instance : ListLeft (Room n V) V := ⟨fun l _ => l, fun l _ _ => l⟩

theorem seqOrFull : IsSeqOrFull (Room n V) := by
  have D := Deque.seqBy (A := V)
  refine ⟨fun a l => a.items = l, ⟨fun _ => rfl, ?_, ?_, ?_, ?_, ?_, ?_⟩⟩
  · rintro a _ rfl; rfl
  · rintro ⟨a⟩ _ i v rfl h
    exact D.get ⟨a⟩ _ i v rfl h
  · rintro ⟨a⟩ _ i v rfl h
    obtain ⟨put, h1, h2⟩ := D.getMut ⟨a⟩ _ i v rfl h
    change (VecDeque.getMut a i >>= _) = _ at h1
    cases e : VecDeque.getMut a i with
    | error x => rw [e] at h1; cases h1
    | ok p =>
      rw [e] at h1
      cases h1
      refine ⟨fun b => ⟨p.2 b⟩, ?_, h2⟩
      show (VecDeque.getMut a i >>= _) = _
      rw [e]
      rfl
  · rintro ⟨a⟩ _ i v rfl h
    by_cases hn : n ≤ a.length
    · refine .inr ⟨.expect "full", ?_, rfl⟩
      simp only [ListT.insertValue, hn, if_true]
      rfl
    · refine .inl ⟨⟨a.insertIdx i v⟩, ?_, rfl⟩
      simp only [ListT.insertValue, hn, if_false, VecDeque.insertAt]
      rw [if_pos (by simpa using h)]
      rfl
  · rintro ⟨a⟩ v rfl; rfl
  · rintro ⟨a⟩ _ i v rfl h1 h
    obtain ⟨a', h2, h3⟩ := D.removeValue ⟨a⟩ _ i v rfl h1 h
    change (VecDeque.removeValue a i >>= _) = _ at h2
    cases e : VecDeque.removeValue a i with
    | error x => rw [e] at h2; cases h2
    | ok p =>
      obtain ⟨o, w⟩ := p
      rw [e] at h2
      cases o with
      | none => cases h2
      | some o =>
        cases h2
        refine ⟨⟨o⟩, ?_, h3⟩
        show (VecDeque.removeValue a i >>= _) = _
        rw [e]
        rfl

end Room

/-- A history on a list with room for two values: the third insertion panics. -/
def tooMany : List (Op (U 8) Nat) :=
  [.insert (U.lit 10) 100, .insert (U.lit 20) 200, .insert (U.lit 5) 50, .find (U.lit 5), .find (U.lit 10), .find (U.lit 20),
    .minVal, .isMonad]

/-- **C86 refuted.** With room for two values, after the third insertion panicked: `5` has the value of `10`, `10` has
the value of `20`, and looking for `20` panics. -/
theorem C86_refuted_run : (runLeft insertLeft (none : Option (ByteMapOf (Room 2 Nat))) tooMany).2 =
    [.ok (.kv none), .ok (.kv none), .error (.expect "full"), .ok (.kv (some (U.lit 5, 100))),
      .ok (.kv (some (U.lit 10, 200))), .error .index, .ok (.kv (some (U.lit 5, 100))), .ok (.bool false)] := by
  decide +kernel
theorem C86_refuted : ¬ C86_full (Room 2 Nat) := by
  intro h
  obtain ⟨l, hl⟩ := h Room.seqOrFull tooMany
  rw [C86_refuted_run] at hl
  unfold tooMany at hl
  cases hl with
  | returns hl =>
  cases hl with
  | returns hl =>
  cases hl with
  | panics hk hl =>
  generalize ha : (Except.ok (Out.kv (some (U.lit 5, 100))) : R (Out (U 8) Nat)) = a at hl
  cases hl with
  | returns hl =>
    revert ha
    decide +kernel

/-- The hypotheses of `C86_shift` are met, with a key above the new one that takes over a value. -/
example : ∃ (m : ByteMapOf (Room 2 Nat)) (os : List (Out (U 8) Nat)), Exec.run none (tooMany.take 2) = .ok (some m, os) ∧
    (m.insertLeft (U.lit 5) 50).2 = .error (.expect "full") ∧
    SL.succ (entries (tooMany.take 2)) (U.lit 10) = some (U.lit 20, 200) :=
  ⟨_, _, rfl, by decide +kernel, by decide +kernel⟩
/-- The repaired insertion on the same history. -/
example : (runLeft insertLate (none : Option (ByteMapOf (Room 2 Nat))) tooMany).2 =
    [.ok (.kv none), .ok (.kv none), .error (.expect "full"), .ok (.kv none), .ok (.kv (some (U.lit 10, 100))),
      .ok (.kv (some (U.lit 20, 200))), .ok (.kv (some (U.lit 10, 100))), .ok (.bool false)] := by
  decide +kernel
example : ∃ l, Skips [] tooMany (runLeft insertLate (none : Option (ByteMapOf (Room 2 Nat))) tooMany).2 l ∧
    ((runLeft insertLate (none : Option (ByteMapOf (Room 2 Nat))) tooMany).1 = none ↔ l = []) :=
  C86_repaired Room.seqOrFull tooMany
example : ∃ l, KeysKept [] tooMany (runLeft insertLeft (none : Option (ByteMapOf (Room 2 Nat))) tooMany).2 l ∧
    ((runLeft insertLeft (none : Option (ByteMapOf (Room 2 Nat))) tooMany).1 = none ↔ l = []) :=
  C86_keys tooMany
/-- The keys, had the insertion not left its key: not what is answered. -/
example : ¬ ∃ l, KeysKept [] [.insert (U.lit 5) 50, .find (U.lit 5)]
    ([.ok (.kv none), .ok (.kv none)] : List (R (Out (U 8) Nat))) l := by
  rintro ⟨l, -, h, -⟩
  exact absurd (h _ rfl rfl) (by decide +kernel)

/-! ## Collections of trees -/

/-- **C86, collections.** Whatever the list and the trees do: an `insert_key` that panics has occupied its key. -/
theorem C86_coll {L T Lo V : Type} [VebTree T Lo V] [TreeListT L T Lo V] [TreeListLeft L T] (after : T → Lo → V → T)
    (c c' : ByteMapOf L) (h : U 8) (lv : Lo × V) (e : Panic) (he : Coll.insertKeyLeft after c h lv = (c', .error e)) :
    TreeCollection.get c' h ≠ .ok none ∧
      ∀ j, j ≠ h → (TreeCollection.get c' j = .ok none ↔ TreeCollection.get c j = .ok none) := by
  have hget : ∀ (c : ByteMapOf L) (j : U 8), TreeCollection.get c j = .ok none ↔ c.set.isPresent j = false := by
    intro c j
    show Coll.get c j = _ ↔ _
    unfold Coll.get
    cases c.set.isPresent j with
    | false => simp
    | true =>
      refine ⟨fun hc => ?_, by rintro ⟨⟩⟩
      simp only [Bool.not_true, Bool.false_eq_true, if_false] at hc
      cases hg : TreeListT.get c.list (c.set.countBelow j) with
      | error x => rw [hg] at hc; cases hc
      | ok x => rw [hg] at hc; cases hc
  have hset : c'.set = if c.set.isPresent h then c.set else c.set.setBit h := by
    unfold Coll.insertKeyLeft ByteSet.insert at he
    by_cases hp : c.set.isPresent h = true
    · rw [if_pos hp]
      simp only [hp, if_true, pure, Except.pure] at he
      split at he
      · cases he; rfl
      · split at he
        · cases he; rfl
        · cases he
    · rw [if_neg hp]
      simp only [hp, pure, Except.pure] at he
      simp only [Bool.false_eq_true, if_false] at he
      split at he
      · cases he; rfl
      · cases he
  have hbit : ∀ j : U 8, c'.set.isPresent j = (c.set.isPresent j || decide (j = h)) := by
    intro j
    rw [hset]
    split
    · rename_i hp
      by_cases hj : j = h
      · subst hj; simp [hp]
      · simp [hj]
    · rw [ByteSet.isPresent_eq, ByteSet.isPresent_eq]
      have := ByteSet.bitAt_arraySetBit c.set.words h (ByteSet.nat j)
      rw [show (c.set.setBit h).words = ByteSet.arraySetBit c.set.words h from rfl, this]
      congr 1
      simp only [decide_eq_decide]
      exact ⟨fun e => U.ext' e, fun e => by rw [e]⟩
  refine ⟨?_, fun j hj => ?_⟩
  · rw [Ne, hget, hbit]
    simp
  · rw [hget, hget, hbit]
    simp [hj]

/-- A list of trees that has no room for a second one. -/
structure OneTree where
  tree : ByteSet

instance : TreeListT OneTree ByteSet (U 8) Unit where
  fromMonad t := ⟨t⟩
  len _ := .ok 1
  get l i := if i = 0 then .ok l.tree else .error .index
  getMut l i := if i = 0 then .ok (l.tree, fun t => ⟨t⟩) else .error .index
  insertTree _ _ _ := .error (.expect "full")
  removeKey l _ f := do
    match (← f l.tree) with
    | (none, v) => pure (none, v)
    | (some t, v) => pure (some (⟨t⟩, false), v)
  maybeRemoveKey l _ f := do
    match (← f l.tree) with
    | .Err t => pure (.Err ⟨t⟩)
    | .Ok (none, v) => pure (.Ok (none, v))
    | .Ok (some t, v) => pure (.Ok (some (⟨t⟩, false), v))
instance : TreeListLeft OneTree ByteSet := ⟨fun l _ => l, fun l _ _ => l⟩

/-- **C86, collections: the tree that panicked.** Over a list that keeps what is written through `get_mut`: when the tree
of an occupied key panics in `insert_key`, the collection holds under that key what the tree left of itself, and every
other tree as it was. -/
theorem C86_coll_tree {L T Lo V : Type} [VebTree T Lo V] [TreeListT L T Lo V] [TreeListLeft L T] (after : T → Lo → V → T)
    (hput : ∀ (l : L) i t put, TreeListT.getMut l i = .ok (t, put) → TreeListT.get l i = .ok t ∧ ∀ u j,
      TreeListT.get (put u) j = if j = i then .ok u else TreeListT.get l j)
    (c : ByteMapOf L) (h : U 8) (lv : Lo × V) (t : T) (put : T → L) (e : Panic) (hh : TreeCollection.get c h ≠ .ok none)
    (hg : TreeListT.getMut c.list (c.set.countBelow h) = .ok (t, put)) (he : VebTree.insert t lv.1 lv.2 = .error e) :
    TreeCollection.get c h = .ok (some t) ∧ ∃ c', Coll.insertKeyLeft after c h lv = (c', .error e) ∧
      TreeCollection.get c' h = .ok (some (after t lv.1 lv.2)) ∧
      ∀ j, j ≠ h → TreeCollection.get c' j = TreeCollection.get c j := by
  have hp : c.set.isPresent h = true := by
    by_contra hn
    exact hh (by show Coll.get c h = _; simp [Coll.get, hn])
  obtain ⟨h1, h2⟩ := hput _ _ _ _ hg
  refine ⟨by show Coll.get c h = _; simp [Coll.get, hp, h1], ⟨c.set, put (after t lv.1 lv.2)⟩, ?_, ?_, ?_⟩
  · simp [Coll.insertKeyLeft, ByteSet.insert, hp, hg, he, pure, Except.pure]
  · show Coll.get _ h = _
    simp [Coll.get, hp, h2]
  · intro j hj
    show Coll.get _ j = Coll.get c j
    unfold Coll.get
    dsimp only
    by_cases hpj : c.set.isPresent j = true
    · have hne : c.set.countBelow j ≠ c.set.countBelow h := by
        rw [ByteSet.countBelow_eq, ByteSet.countBelow_eq]
        rw [ByteSet.isPresent_eq] at hp hpj
        have hnj : ByteSet.nat j ≠ ByteSet.nat h := fun hx => hj (U.ext' hx)
        rcases lt_or_gt_of_ne hnj with hl | hl
        · exact (cnt_lt hl hpj).ne
        · exact (cnt_lt hl hp).ne'
      rw [h2, if_neg hne]
    · simp [hpj]

/-- Non-vacuity: `VecDeque` keeps what is written through `get_mut`. -/
theorem C86_coll_tree_deque {A Lo V : Type} [VebTree A Lo V] (l : Deque A) (i : Nat) (t : A) (put : A → Deque A)
    (hg : TreeListT.getMut (Lo := Lo) (V := V) l i = .ok (t, put)) : TreeListT.get (Lo := Lo) (V := V) l i = .ok t ∧ ∀ u j,
      TreeListT.get (Lo := Lo) (V := V) (put u) j = if j = i then .ok u else TreeListT.get (Lo := Lo) (V := V) l j := by
  simp only [TreeListT.getMut, TreeListT.get, VecDeque.getMut, VecDeque.get, index] at hg ⊢
  rcases hi : l.items[i]? with _ | a <;> rw [hi] at hg <;> cases hg
  refine ⟨rfl, fun u j => ?_⟩
  dsimp only
  have hlt : i < l.items.length := by
    by_contra hn
    rw [List.getElem?_eq_none (not_lt.1 hn)] at hi
    cases hi
  by_cases hj : j = i
  · subst hj
    simp [hlt]
  · simp [hj, List.getElem?_set_ne (Ne.symm hj)]
/-- Non-vacuity: a full counter panics in `insert`. -/
example : ∃ e, VebTree.insert (⟨ByteSet.fromMonad (U.lit 7) (), usizeMax⟩ : SizedVebTree ByteSet) (U.lit 8) () = .error e :=
  ⟨_, rfl⟩

/-- After the panic, the tree of `10` is found at `5`. -/
example : (Coll.insertKeyLeft (fun t _ _ => t) (⟨ByteSet.fromMonad (U.lit 10) (), ⟨ByteSet.fromMonad (U.lit 7) ()⟩⟩ : ByteMapOf OneTree)
      (U.lit 5) (U.lit 1, ())).2 = .error (.expect "full") ∧
    TreeCollection.get (Coll.insertKeyLeft (fun t _ _ => t)
      (⟨ByteSet.fromMonad (U.lit 10) (), ⟨ByteSet.fromMonad (U.lit 7) ()⟩⟩ : ByteMapOf OneTree) (U.lit 5) (U.lit 1, ())).1 (U.lit 5) =
      .ok (some (ByteSet.fromMonad (U.lit 7) ())) := by
  decide +kernel

end Veb.Props
