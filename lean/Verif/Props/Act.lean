import Verif.Proof.ActLen
import Verif.Props.AnyOrd

/-!
# C67: what is left of the crate's promises when the code of its user answers as it likes

The comparisons, `split_*`, `join`, `index`, `Hash`, `Eq` and `Clone` of the user are arbitrary actions on a state: they can
answer differently each time, and panic.  Histories that return are considered.
-/

set_option autoImplicit false

namespace Veb.Props

variable {σ T K V : Type} [ActTree σ T K V] {f : Prop} {held : T → Multiset V}

/-- The full claim: whatever the code of the user does, no value is lost and none appears twice.  It is false:
`C67_refuted`. -/
def C67_full : Prop :=
  ∀ (σ T K V : Type) [ActTree σ T K V] (f : Prop) (held : T → Multiset V), UserTree σ T K V f held →
    ∀ (ops : List (Op K V)) (s s' : σ) (t : Option T) (os : List (Out K V)),
      ActExec.run none ops s = .ok ((t, os), s') → heldOpt held t + takenVals ops os = givenVals ops os

/-- **C67, under the condition it needs.** If `index` is a function of the key, no value is lost and none appears twice:
the values in the tree and the values given back are the values handed over, each as often.  Missing: an `index` that
varies, for which it is false.  Nothing is asked of the comparisons, of `split_*`, `join`, `Hash`, `Eq` and `Clone`, and
nothing at all if the collections are hash maps or `ByteMap`s. -/
theorem C67_conservation_partial (h : UserTree σ T K V f held) (hf : f) {ops : List (Op K V)} {s s' : σ} {t : Option T}
    {os : List (Out K V)} (hr : ActExec.run none ops s = .ok ((t, os), s')) :
    heldOpt held t + takenVals ops os = givenVals ops os := by
  obtain ⟨P, h1, h2⟩ := h.keeps
  obtain ⟨I, hm⟩ := moved_run (P := P) (t := none) (by rintro _ ⟨⟩) ops s _ s' hr
  have := (hm.eq fun u hu => P.okOf (h1 hf) u (I u hu)).2
  rw [held_eq h2 I, this]
  exact zero_add _

/-- **C67, the half that needs no condition.** No value appears twice: what is in the tree and what was given back is among
what was handed over, each as often at most. -/
theorem C67_no_duplication (h : UserTree σ T K V f held) {ops : List (Op K V)} {s s' : σ} {t : Option T}
    {os : List (Out K V)} (hr : ActExec.run none ops s = .ok ((t, os), s')) :
    heldOpt held t + takenVals ops os ≤ givenVals ops os := by
  obtain ⟨P, -, h2⟩ := h.keeps
  obtain ⟨I, hm⟩ := moved_run (P := P) (t := none) (by rintro _ ⟨⟩) ops s _ s' hr
  rw [held_eq h2 I]
  exact (hm.le.trans (zero_add _).le)

/-- **C67 for one call.** A value that a call answers is in the tree when the call is made. -/
theorem C67_answers (h : UserTree σ T K V f held) {ops : List (Op K V)} {op : Op K V} {s s' s'' : σ} {t t' : Option T}
    {os : List (Out K V)} {o : Out K V} (hr : ActExec.run none ops s = .ok ((t, os), s'))
    (hs : ActExec.step t op s' = .ok ((t', o), s'')) {e : K × V} (he : o.entry? = some e) : e.2 ∈ heldOpt held t := by
  obtain ⟨P, -, h2⟩ := h.keeps
  obtain ⟨I, -⟩ := moved_run (P := P) (t := none) (by rintro _ ⟨⟩) ops s _ s' hr
  rw [held_eq h2 I]
  exact (moved_step I op s' _ s'' hs).mem e he

/-- **C67 when the tree is used up.** If no tree is left at the end, all values handed over have been given back: this
needs no condition either.  An array that lost a tree keeps counting it, and is never given up as empty again. -/
theorem C67_emptied (h : UserTree σ T K V f held) {ops : List (Op K V)} {s s' : σ} {os : List (Out K V)}
    (hr : ActExec.run (none : Option T) ops s = .ok ((none, os), s')) : takenVals ops os = givenVals ops os := by
  obtain ⟨P, -, -⟩ := h.keeps
  obtain ⟨I, hm⟩ := moved_run (P := P) (t := none) (by rintro _ ⟨⟩) ops s _ s' hr
  have := (hm.eq optOk_none).2
  rwa [show ov P.vals (none : Option T) = 0 from rfl, zero_add, zero_add] at this

/-- **C67 for a tree that is later used up.** As long as the tree can still be used up, nothing has been lost. -/
theorem C67_emptiable (h : UserTree σ T K V f held) {ops ops' : List (Op K V)} {s s' s'' : σ} {t : Option T}
    {os os' : List (Out K V)} (hr : ActExec.run (none : Option T) ops s = .ok ((t, os), s'))
    (hr' : ActExec.run t ops' s' = .ok ((none, os'), s'')) : heldOpt held t + takenVals ops os = givenVals ops os := by
  obtain ⟨P, -, h2⟩ := h.keeps
  obtain ⟨I, hm⟩ := moved_run (P := P) (t := none) (by rintro _ ⟨⟩) ops s _ s' hr
  obtain ⟨-, hm'⟩ := moved_run (P := P) I ops' s' _ s'' hr'
  rw [held_eq h2 I, (hm.eq (hm'.eq optOk_none).1).2]
  exact zero_add _

/-- **C67 for lost values.** What is not in the tree does not come back: no answer to a later call contains it, unless it is
handed over again. -/
theorem C67_gone (h : UserTree σ T K V f held) {ops ops' : List (Op K V)} {s s' s'' : σ} {t t' : Option T}
    {os os' : List (Out K V)} (hr : ActExec.run (none : Option T) ops s = .ok ((t, os), s'))
    (hr' : ActExec.run t ops' s' = .ok ((t', os'), s'')) {v : V} (hv : v ∉ heldOpt held t)
    (hg : v ∉ givenVals ops' os') : v ∉ heldOpt held t' ∧ ∀ o ∈ os', ∀ e, o.entry? = some e → e.2 ≠ v := by
  obtain ⟨P, -, h2⟩ := h.keeps
  obtain ⟨I, -⟩ := moved_run (P := P) (t := none) (by rintro _ ⟨⟩) ops s _ s' hr
  rw [held_eq h2 I] at hv
  obtain ⟨I', hm⟩ := moved_run (P := P) I ops' s' _ s'' hr'
  rw [held_eq h2 I']
  exact ⟨fun x => (Multiset.mem_add.1 (Multiset.mem_of_le hm.le (Multiset.mem_add.2 (.inl x)))).elim hv hg,
    moved_answers I hv hr' hg⟩

/-- **C67 for `is_monad` and `into_monad`.** They tell the truth about the number of values in the tree. -/
theorem C67_monad (h : UserTree σ T K V f held) {ops : List (Op K V)} {s s' : σ} {t : T} {os : List (Out K V)}
    (hr : ActExec.run none ops s = .ok ((some t, os), s')) :
    (∀ b s'', ActTree.isMonad t s' = .ok (b, s'') → (b = true ↔ (held t).card = 1)) ∧
    ∀ r s'', ActTree.intoMonad t s' = .ok (r, s'') → ((∃ e, r = .Ok e) ↔ (held t).card = 1) := by
  obtain ⟨P, -, h2⟩ := h.keeps
  obtain ⟨I, -⟩ := moved_run (P := P) (t := none) (by rintro _ ⟨⟩) ops s _ s' hr
  have I := I t rfl
  rw [h2 t I]
  refine ⟨P.isMonad t I s', fun r s'' hs => ?_⟩
  have := P.intoMonad t I s' r s'' hs
  obtain e | u := r
  · exact ⟨fun _ => by rw [show P.vals t = _ from this.2]; rfl, fun _ => ⟨e, rfl⟩⟩
  · exact ⟨fun ⟨e, he⟩ => (by cases he), fun x => absurd x this.2.2.2⟩

/-- **C67 for `len_hint`.** If `index` is a function of the key, the bounds of `len_hint` are right. -/
theorem C67_len_hint (h : UserTree σ T K V f held) (hf : f) {ops : List (Op K V)} {s s' : σ} {t : T}
    {os : List (Out K V)} (hr : ActExec.run none ops s = .ok ((some t, os), s')) {lo : Nat} {hi : Option Nat} {s'' : σ}
    (hl : ActTree.lenHint t s' = .ok ((lo, hi), s'')) :
    lo ≤ (held t).card ∧ ∀ m, hi = some m → m = (held t).card := by
  obtain ⟨P, h1, h2⟩ := h.keeps
  obtain ⟨I, -⟩ := moved_run (P := P) (t := none) (by rintro _ ⟨⟩) ops s _ s' hr
  have I := I t rfl
  rw [h2 t I]
  exact P.lenHint t I s' _ s'' hl (P.okOf (h1 hf) t I)

/-- **C67 for the counter.** `SizedVebTree::len` is the number of values handed over and not given back, whatever the code
of the user does; so it still counts the values that were lost. -/
theorem C67_len (h : UserTree σ T K V f held) {ops : List (Op K V)} {s s' : σ} {t : SizedVebTree T} {os : List (Out K V)}
    (hr : ActExec.run none ops s = .ok ((some t, os), s')) :
    t.len + (takenVals ops os).card = (givenVals ops os).card := by
  obtain ⟨P, -, -⟩ := h.keeps
  have := osize_run (P := P) (t := (none : Option (SizedVebTree T))) (by rintro _ ⟨⟩) ops s _ s' hr
  exact this.trans (Nat.zero_add _)

/-! ## The condition is needed -/

/-- the next number on a tape, 0 when it has run out -/
def nextOf : Act (List Nat) Nat := do
  match (← get) with
  | [] => pure 0
  | x :: xs => set xs; pure x

/-- two numbers, compared by the first and then by the second, without any state -/
structure Pt where
  hi : Nat
  lo : U 8
  deriving DecidableEq

/-- an ordinary key type -/
instance : ActKey (List Nat) Pt Nat (U 8) where
  cmp a b := pure (if a.hi = b.hi then compare a.lo.1 b.lo.1 else compare a.hi b.hi)
  eq a b := pure (decide (a = b))
  lt a b := pure (decide (a.hi < b.hi ∨ a.hi = b.hi ∧ a.lo.1 < b.lo.1))
  le a b := pure (decide (a.hi < b.hi ∨ a.hi = b.hi ∧ a.lo.1 ≤ b.lo.1))
  gt a b := pure (decide (b.hi < a.hi ∨ a.hi = b.hi ∧ b.lo.1 < a.lo.1))
  ge a b := pure (decide (b.hi < a.hi ∨ a.hi = b.hi ∧ b.lo.1 ≤ a.lo.1))
  splitVal k := pure (k.hi, k.lo)
  splitRef k := pure (k.hi, k.lo)
  splitDone _ := pure ()
  join a b := pure ⟨a, b⟩
/-- an `index` that answers what is on the tape -/
instance : ActIndex (List Nat) Nat where
  cardinality := 2
  index _ := nextOf
/-- children and summaries without a state -/
instance : ActTree (List Nat) (ByteMap Nat) (U 8) Nat := ActTree.plain _
instance : ActTree (List Nat) (BTreeMap Nat Unit) Nat Unit := ActTree.plain _

/-- a tree over an array whose `index` varies -/
abbrev Tape := Tree Pt Nat (BTreeMap Nat Unit) (ArrayColl Nat (ByteMap Nat))

/-- the values in such a tree -/
noncomputable def tapeHeld : Tape → Multiset Nat := treeHeld (arrayHeld popped)

theorem tape_user : UserTree (List Nat) Tape Pt Nat (True ∧ IndexFixed (List Nat) Nat) tapeHeld :=
  .tree (.plain (.uncounted .byteMap)) .array

/-- four insertions, of the values 0, 1, 2 and 3 -/
def fourPts : List (Op Pt Nat) :=
  [.insert ⟨0, ⟨0, by decide⟩⟩ 0, .insert ⟨9, ⟨0, by decide⟩⟩ 1, .insert ⟨3, ⟨5, by decide⟩⟩ 2, .insert ⟨4, ⟨6, by decide⟩⟩ 3]
/-- `index` puts the first tree into slot 1, then finds slot 0 empty, and then stores the second tree into slot 1 -/
def badTape : List Nat := [1, 0, 1]

/-- the value in an answer to a single pop -/
def onlyVal {K : Type} : List (Out K Nat) → Option Nat
  | [.kv (some e)] => some e.2
  | _ => none
/-- minimum, maximum, length of the array, whether slot 0 is empty, and what one pop does with slot 1 -/
def tapeView (t : Tape) : Option (Nat × Nat × Nat × Bool × R (Bool × Option Nat)) := do
  let d ← t.data
  let p ← d.children
  let y ← p.2.array.slot 1
  pure (t.min.2, d.max.2, p.2.array.len, (p.2.array.slot 0).isNone,
    (Exec.run (some y) [.removeMin]).map fun r => (r.1.isNone, onlyVal r.2))

set_option synthInstance.maxSize 100000 in
/-- what is left of it: no slot but slot 1, and there only the value 3 -/
theorem four_run : ∃ (m x : Pt × Nat) (b : BTreeMap Nat Unit) (c : ArrayColl Nat (ByteMap Nat)) (y : ByteMap Nat) (k : U 8)
    (os : List (Out Pt Nat)) (s : List Nat),
    ActExec.run (none : Option Tape) fourPts badTape = .ok ((some ⟨m, some ⟨x, some (b, c)⟩⟩, os), s) ∧
    m.2 = 0 ∧ x.2 = 1 ∧ c.array.len = 2 ∧ c.array.slot 0 = none ∧ c.array.slot 1 = some y ∧
    Pops .removeMin (some y) [(k, 3)] ∧ os = List.replicate 4 (.kv none) := by
  have : ((ActExec.run (none : Option Tape) fourPts badTape).map fun r => (r.1.1.bind tapeView, r.1.2)) =
      .ok (some (0, 1, 2, true, .ok (true, some 3)), List.replicate 4 (.kv none)) := by
    decide +kernel
  generalize ActExec.run (none : Option Tape) fourPts badTape = r at this
  obtain _ | ⟨⟨_ | ⟨m, _ | ⟨x, _ | ⟨b, c⟩⟩⟩, os⟩, s⟩ := r
  · cases this
  · cases this
  · simp [Except.map, tapeView] at this
  · simp [Except.map, tapeView] at this
  · cases hy : c.array.slot 1 with
    | none => simp [Except.map, tapeView, hy] at this
    | some y =>
      simp only [Except.map, tapeView, Option.bind_some, Option.bind_eq_bind, hy, Except.ok.injEq, Prod.mk.injEq,
        Option.pure_def, Option.some.injEq] at this
      obtain ⟨⟨h1, h2, h3, h4, h5⟩, h6⟩ := this
      have key : ∃ k, Pops .removeMin (some y) [(k, 3)] := by
        show ∃ k, Exec.run (some y) [(.removeMin : Op (U 8) Nat)] = .ok (none, [.kv (some (k, 3))])
        generalize Exec.run (some y) [(.removeMin : Op (U 8) Nat)] = q at h5
        obtain _ | ⟨_ | q, qs⟩ := q
        · cases h5
        · simp only [Except.ok.injEq, Prod.mk.injEq] at h5
          unfold onlyVal at h5
          split at h5
          · rename_i e
            obtain ⟨k, v⟩ := e
            cases h5.2
            exact ⟨k, rfl⟩
          · cases h5.2
        · simp at h5
      obtain ⟨k, hk⟩ := key
      exact ⟨m, x, b, c, y, k, os, s, rfl, h1, h2, h3, by simpa using h4, hy, hk, h6⟩

/-- After these four insertions the tree does not contain the value 2. -/
theorem C67_lost : ∃ t os s, ActExec.run (none : Option Tape) fourPts badTape = .ok ((some t, os), s) ∧
    takenVals fourPts os = 0 ∧ 2 ∈ givenVals fourPts os ∧ 2 ∉ tapeHeld t := by
  obtain ⟨m, x, b, c, y, k, os, s, hr, h1, h2, h3, h4, h5, h6, rfl⟩ := four_run
  refine ⟨_, _, _, hr, by decide +kernel, by decide +kernel, ?_⟩
  have : tapeHeld ⟨m, some ⟨x, some (b, c)⟩⟩ = {m.2} + {x.2} + arrayHeld popped c := rfl
  rw [this, arrayHeld, h3, Finset.sum_range_succ, Finset.sum_range_succ, Finset.sum_range_zero, h4, h5, h1, h2]
  simp [popped_eq h6]

/-- **C67 refuted.** An `index` that answers differently for the same key makes the crate lose a value. -/
theorem C67_refuted : ¬ C67_full := by
  intro h
  obtain ⟨t, os, s, hr, h1, h2, h3⟩ := C67_lost
  have := h _ _ _ _ _ _ tape_user _ _ _ _ _ hr
  rw [h1, add_zero] at this
  exact h3 (show 2 ∈ heldOpt tapeHeld (some t) from this ▸ h2)

/-- No later call brings it back, whatever the code of the user does then. -/
example : ∃ t os s, ActExec.run (none : Option Tape) fourPts badTape = .ok ((some t, os), s) ∧
    ∀ ops' s1 t' os', ActExec.run (some t) ops' s = .ok ((t', os'), s1) → 2 ∉ givenVals ops' os' →
      t' ≠ none ∧ ∀ o ∈ os', ∀ e, o.entry? = some e → e.2 ≠ 2 := by
  obtain ⟨t, os, s, hr, h1, h2, h3⟩ := C67_lost
  refine ⟨t, os, s, hr, fun ops' s1 t' os' hr' hg => ⟨?_, (C67_gone tape_user hr hr' h3 hg).2⟩⟩
  rintro rfl
  have : tapeHeld t + _ = _ := C67_emptiable tape_user hr hr'
  rw [h1, add_zero] at this
  exact h3 (this ▸ h2)

/-! ## The hypotheses are met -/

/-- With a tape on which `index` keeps to one slot for each key nothing is lost. -/
example : ((ActExec.run (none : Option (SizedVebTree Tape)) (fourPts ++ List.replicate 4 .removeMin) [0, 1, 1, 0, 0, 1, 1]).map fun r =>
    (r.1.1.isNone, r.1.2)) = .ok (true, List.replicate 4 (.kv none) ++
      [.kv (some (⟨0, ⟨0, by decide⟩⟩, 0)), .kv (some (⟨3, ⟨5, by decide⟩⟩, 2)), .kv (some (⟨4, ⟨6, by decide⟩⟩, 3)),
        .kv (some (⟨9, ⟨0, by decide⟩⟩, 1))]) := by decide +kernel

/-- keys whose code answers what is on the tape: no two comparisons agree, halves and joined keys come from nowhere -/
structure Liar where
  no : Nat
  deriving DecidableEq, Repr
/-- a yes or no from the tape -/
def nextBool : Act (List Nat) Bool := do pure (decide ((← nextOf) ≠ 0))
/-- a byte from the tape -/
def nextByte : Act (List Nat) (U 8) := do pure ⟨(← nextOf) % 256, Nat.mod_lt _ (by decide)⟩
instance : ActKey (List Nat) Liar Nat (U 8) where
  cmp _ _ := do pure (match (← nextOf) with | 0 => .eq | 1 => .lt | _ => .gt)
  eq _ _ := nextBool
  lt _ _ := nextBool
  le _ _ := nextBool
  gt _ _ := nextBool
  ge _ _ := nextBool
  splitVal _ := do pure (← nextOf, ← nextByte)
  splitRef _ := do pure (← nextOf, ← nextByte)
  splitDone _ := do
    if (← nextOf) = 7 then throw (.expect "user")
  join _ _ := do pure ⟨← nextOf⟩
/-- a hash and an equality that find any entry, or none -/
instance : ActHash (List Nat) Nat where
  probe _ _ := do
    match (← nextOf) with
    | 0 => pure none
    | n + 1 => pure (some n)
  hashing _ := do
    if (← nextOf) = 7 then throw (.expect "user")
  clone _ := nextOf

/-- a tree over such keys and a hash map -/
abbrev LiarTree := Tree Liar Nat (BTreeMap Nat Unit) (HashMap Nat (ByteMap Nat))

/-- `C67_conservation_partial` asks nothing of them. -/
example : ∃ f held, f ∧ UserTree (List Nat) LiarTree Liar Nat f held :=
  ⟨_, _, ⟨trivial, trivial⟩, .tree (.plain (.uncounted .byteMap)) .hash⟩
example : ∃ f held, f ∧ UserTree (List Nat) (SizedVebTree (Box LiarTree)) Liar Nat f held :=
  ⟨_, _, ⟨trivial, trivial⟩, .sized (.box (.tree (.plain (.uncounted .byteMap)) .hash))⟩

/-- some calls -/
def lies : List (Op Liar Nat) :=
  [.insert ⟨0⟩ 10, .insert ⟨1⟩ 11, .insert ⟨2⟩ 12, .insert ⟨3⟩ 13, .insert ⟨4⟩ 14, .removeMin, .find ⟨7⟩]
/-- A history that returns, with entries in the children. -/
example : ((ActExec.run (none : Option LiarTree) lies [1, 2, 3, 1, 0, 3, 0, 1, 3, 2, 1, 2, 3, 1, 0, 3, 0, 1, 3, 2, 1]).map
    fun r => r.1.2) = .ok [.kv none, .kv none, .kv none, .kv none, .kv (some (⟨3⟩, 13)), .kv (some (⟨1⟩, 11)),
      .kv (some (⟨4⟩, 14))] := by decide +kernel
/-- Histories that do not: lies of a hash make the crate panic. -/
example : (ActExec.run (none : Option LiarTree) lies [2, 3, 1, 1, 3, 2, 3, 1, 1, 3, 2]).toOption.isNone = true := by
  decide +kernel

end Veb.Props
