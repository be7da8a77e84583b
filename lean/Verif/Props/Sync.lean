import Verif.Props.Audit

/-!
# C71: a collection that knows its keys never disagrees with the summary

In C70 all code of the user is arbitrary.  Here the code about the keys of a `Tree` is: comparisons, `split_*` and `join` are
arbitrary actions on a state that need not answer the same thing twice.  But the code about the high halves answers
properly, as it does for the integers of the crate, or panics.  Then summary and collection always have the same keys, and all the
`expect`s about them hold.
-/

set_option autoImplicit false

namespace Veb.Props

section
variable {σ K V S C Hi Lo T : Type} [ActKey σ K Hi Lo] [LinearOrder Hi] [ActTree σ S Hi Unit] [VebTree S Hi Unit]
  [ActTree σ T Lo V] [ActColl σ C Hi T Lo V] {Us E O : Panic → Prop}

/-- **C71.** If the high halves are treated properly, whenever they are, a history on a `Tree` panics only in the code of the user, in a child,
or at the `debug_assert` of `predecessor_mut`, and there only if `<=` and `>` contradict each other. -/
theorem C71_tree (hk : KeyPanics σ K Us) (hs : SoundTree σ Us S Hi Unit) (hu : UncountedTree S Hi Unit)
    (ht : AuditedTree σ Us T Lo V E O) (hc : SyncedColl σ Us C Hi T Lo V) (ops : List (Op K V)) {s : σ} {p : Panic}
    (hr : ActExec.run (none : Option (Tree K V S C)) ops s = .error p) :
    Us p ∨ E p ∨ O p ∨ p = .debugAssert ∧ ¬ LeGt σ K := by
  rcases C70_panics (.synced hk hs hu ht hc) ops hr with h | (h | h) | h
  · exact .inl h
  · exact .inr (.inl h)
  · exact .inr (.inr (.inr h))
  · exact .inr (.inr (.inl h))

end

section
variable {σ K V S C Hi Lo T : Type} [ActKey σ K Hi Lo] [LinearOrder Hi] [VebTree S Hi Unit] [LinearOrder Lo]
  [VebTree T Lo V] {Us : Panic → Prop}

/-- **C71 for halves that are integers of the crate, or as well-behaved.** Summary and children are trees of the crate
without counters.  Then the only panics are those of the user and that `debug_assert`. -/
theorem C71_halves (hk : KeyPanics σ K Us) (hs : UncountedTree S Hi Unit) (ht : UncountedTree T Lo V) :
    letI : ActTree σ S Hi Unit := ActTree.plain σ
    letI : ActTree σ T Lo V := ActTree.plain σ
    ∀ [ActColl σ C Hi T Lo V] (_ : SyncedColl σ Us C Hi T Lo V) (ops : List (Op K V)) (s : σ) (p : Panic),
      ActExec.run (none : Option (Tree K V S C)) ops s = .error p → Us p ∨ p = .debugAssert ∧ ¬ LeGt σ K := by
  intro _ hc ops s p hr
  let _ : ActTree σ S Hi Unit := ActTree.plain σ
  let _ : ActTree σ T Lo V := ActTree.plain σ
  rcases C71_tree hk .plain hs (.plain (.uncounted ht)) hc ops hr with h | ⟨-, h⟩ | h | h
  · exact .inl h
  · exact absurd trivial h
  · exact h.elim
  · exact .inr h

/-- **C71 for code of the user that does not panic.** Comparisons may answer as they like, except that `a > b` must be true
when `a <= b` was false: nothing panics. -/
theorem C71_never (hk : KeyPanics σ K NoPanics) (hg : LeGt σ K) (hs : UncountedTree S Hi Unit) (ht : UncountedTree T Lo V) :
    letI : ActTree σ S Hi Unit := ActTree.plain σ
    letI : ActTree σ T Lo V := ActTree.plain σ
    ∀ [ActColl σ C Hi T Lo V] (_ : SyncedColl σ NoPanics C Hi T Lo V) (ops : List (Op K V)) (s : σ),
      ∃ r, ActExec.run (none : Option (Tree K V S C)) ops s = .ok r := by
  intro _ hc ops s
  let _ : ActTree σ S Hi Unit := ActTree.plain σ
  let _ : ActTree σ T Lo V := ActTree.plain σ
  cases hr : ActExec.run (none : Option (Tree K V S C)) ops s with
  | ok r => exact ⟨r, rfl⟩
  | error p =>
    rcases C71_halves (S := S) (T := T) (C := C) hk hs ht hc ops s p hr with h | h
    · exact h.elim
    · exact absurd hg h.2

end

/-- **C71 for two bytes.** Whatever the code of a key type does that is split into two bytes. -/
theorem C71_bytes {σ K V : Type} [ActKey σ K (U 8) (U 8)] (hk : KeyPanics σ K NoPanics) (hg : LeGt σ K) :
    letI : ActTree σ ByteSet (U 8) Unit := ActTree.plain σ
    letI : ActTree σ (ByteMap V) (U 8) V := ActTree.plain σ
    ∀ (ops : List (Op K V)) (s : σ), ∃ r, ActExec.run (none : Option (Tree K V ByteSet (ByteMap (ByteMap V)))) ops s = .ok r := by
  let _ : ActTree σ ByteSet (U 8) Unit := ActTree.plain σ
  let _ : ActTree σ (ByteMap V) (U 8) V := ActTree.plain σ
  exact C71_never hk hg .byteSet .byteMap .byte

/-! ## The hypotheses are met, and the `debug_assert` is reached -/

section
/-- keys of two bytes that are compared, split and joined by what is on the tape -/
structure Fickle where
  no : Nat
  deriving DecidableEq
instance : ActKey (List Nat) Fickle (U 8) (U 8) where
  cmp _ _ := do pure (match (← nextOf) with | 0 => .eq | 1 => .lt | _ => .gt)
  eq _ _ := nextBool
  lt _ _ := nextBool
  le _ _ := nextBool
  gt _ _ := nextBool
  ge _ _ := nextBool
  splitVal _ := do pure (← nextByte, ← nextByte)
  splitRef _ := do pure (← nextByte, ← nextByte)
  splitDone _ := pure ()
  join _ _ := do pure ⟨← nextOf⟩
theorem fickle_panics : KeyPanics (List Nat) Fickle NoPanics where
  cmp _ _ := (next_aud.bind fun _ _ => .ret (Q := fun _ => True) trivial).only
  eq _ _ := nextBool_aud.only
  lt _ _ := nextBool_aud.only
  le _ _ := nextBool_aud.only
  gt _ _ := nextBool_aud.only
  ge _ _ := nextBool_aud.only
  splitVal _ := (nextByte_aud.bind fun _ _ => nextByte_aud.bind fun _ _ => .ret (Q := fun _ => True) trivial).only
  splitRef _ := (nextByte_aud.bind fun _ _ => nextByte_aud.bind fun _ _ => .ret (Q := fun _ => True) trivial).only
  splitDone _ := Aud.only (Q := fun _ => True) (.ret trivial)
  join _ _ := (next_aud.bind fun _ _ => .ret (Q := fun _ => True) trivial).only

local instance : ActTree (List Nat) ByteSet (U 8) Unit := ActTree.plain _
local instance : ActTree (List Nat) (ByteMap Nat) (U 8) Nat := ActTree.plain _

/-- Such a tree. -/
abbrev FickleTree := Tree Fickle Nat ByteSet (ByteMap (ByteMap Nat))

example (ops : List (Op Fickle Nat)) (s : List Nat) {p : Panic}
    (hr : ActExec.run (none : Option FickleTree) ops s = .error p) : p = .debugAssert := by
  rcases C71_halves fickle_panics .byteSet .byteMap .byte ops s p hr with h | h
  · exact h.elim
  · exact h.1

/-- A history that returns, with lies and children. -/
example : ((ActExec.run (none : Option FickleTree)
      [.insert ⟨0⟩ 10, .insert ⟨1⟩ 11, .insert ⟨2⟩ 12, .insert ⟨3⟩ 13, .predecessorSet ⟨9⟩ 5, .removeMin, .removeMax]
      [1, 1, 1, 5, 6, 2, 1, 5, 7, 0, 0, 1, 3, 8, 4]).map fun r => r.1.2) =
    .ok [.kv none, .kv none, .kv none, .kv none, .kv (some (⟨3⟩, 13)), .kv (some (⟨2⟩, 12)),
      .kv (some (⟨0⟩, 10))] := by decide +kernel
/-- The `debug_assert` of `predecessor_mut`. -/
example : endsIn (ActExec.run (none : Option FickleTree)
    [.insert ⟨0⟩ 10, .insert ⟨1⟩ 11, .insert ⟨2⟩ 12, .predecessorSet ⟨9⟩ 5] [1, 1, 1, 5, 6, 0, 0, 0]) = some .debugAssert := by
  decide +kernel

/-- keys as before, for which `>` is the negation of `<=` -/
structure Steady where
  no : Nat
  deriving DecidableEq
instance : ActKey (List Nat) Steady (U 8) (U 8) where
  cmp _ _ := do pure (match (← nextOf) with | 0 => .eq | 1 => .lt | _ => .gt)
  eq _ _ := nextBool
  lt _ _ := nextBool
  le a b := do let _ ← nextOf; pure (decide (a.no ≤ b.no))
  gt a b := pure (decide (b.no < a.no))
  ge _ _ := nextBool
  splitVal _ := do pure (← nextByte, ← nextByte)
  splitRef _ := do pure (← nextByte, ← nextByte)
  splitDone _ := pure ()
  join _ _ := do pure ⟨← nextOf⟩
theorem steady_panics : KeyPanics (List Nat) Steady NoPanics where
  cmp _ _ := (next_aud.bind fun _ _ => .ret (Q := fun _ => True) trivial).only
  eq _ _ := nextBool_aud.only
  lt _ _ := nextBool_aud.only
  le _ _ := (next_aud.bind fun _ _ => .ret (Q := fun _ => True) trivial).only
  gt _ _ := Aud.only (Q := fun _ => True) (.ret trivial)
  ge _ _ := nextBool_aud.only
  splitVal _ := (nextByte_aud.bind fun _ _ => nextByte_aud.bind fun _ _ => .ret (Q := fun _ => True) trivial).only
  splitRef _ := (nextByte_aud.bind fun _ _ => nextByte_aud.bind fun _ _ => .ret (Q := fun _ => True) trivial).only
  splitDone _ := Aud.only (Q := fun _ => True) (.ret trivial)
  join _ _ := (next_aud.bind fun _ _ => .ret (Q := fun _ => True) trivial).only
theorem steady_leGt : LeGt (List Nat) Steady := by
  intro a b s s' u u' x h1 h2
  have h3 : Post (ActKey.le a b : Act (List Nat) Bool) fun r => r = decide (a.no ≤ b.no) := .then_ fun _ => .ret rfl
  have h3 := h3 _ _ _ h1
  cases h2
  simpa using h3.symm

/-- `C71_bytes` applies: they never panic. -/
example (ops : List (Op Steady Nat)) (s : List Nat) :
    ∃ r, ActExec.run (none : Option (Tree Steady Nat ByteSet (ByteMap (ByteMap Nat)))) ops s = .ok r :=
  C71_bytes steady_panics steady_leGt ops s

theorem findIdx_iff {α : Type} [DecidableEq α] {l : List α} {h : α} (hn : l.Nodup) (i : Nat) :
    (l.findIdx? fun k => decide (k = h)) = some i ↔ l[i]? = some h := by
  rw [List.findIdx?_eq_some_iff_getElem]
  constructor
  · rintro ⟨h1, h2, -⟩
    rw [List.getElem?_eq_getElem h1, of_decide_eq_true h2]
  · intro e
    obtain ⟨h1, h2⟩ := List.getElem?_eq_some_iff.1 e
    refine ⟨h1, decide_eq_true h2, fun j hj hd => ?_⟩
    exact absurd ((hn.getElem_inj_iff).1 ((of_decide_eq_true hd).trans h2.symm)) (by omega)

/-- an `index` and a hash that answer properly, and read the tape -/
local instance : ActIndex (List Nat) (U 8) where
  cardinality := 256
  index h := do let _ ← nextOf; pure h.bits.toNat
local instance : ActHash (List Nat) (U 8) where
  probe l h := do let _ ← nextOf; pure (l.findIdx? fun k => decide (k = h))
  hashing _ := do let _ ← nextOf
  clone h := do let _ ← nextOf; pure h

theorem byte_index : IndexProper (List Nat) (U 8) :=
  ⟨fun h => h.bits.toNat, fun a b e => by cases a; cases b; exact congrArg _ (BitVec.eq_of_toNat_eq e), fun h => h.bits.isLt,
    fun h s s' i e => by
      have h1 : Post (ActIndex.index h : Act (List Nat) Nat) fun r => r = h.bits.toNat := .then_ fun _ => .ret rfl
      exact h1 _ _ _ e⟩
theorem byte_hash : HashProper (List Nat) (U 8) where
  probe l h s s' r hn e := by
    have h1 : Post (ActHash.probe l h : Act (List Nat) (Option Nat)) fun r => r = l.findIdx? fun k => decide (k = h) :=
      .then_ fun _ => .ret rfl
    cases h1 _ _ _ e
    exact findIdx_iff hn
  clone h h' s s' e := by
    have h1 : Post (ActHash.clone h : Act (List Nat) (U 8)) fun r => r = h := .then_ fun _ => .ret rfl
    exact h1 _ _ _ e

/-- With an array and a hash table of children: the same. -/
example (ops : List (Op Fickle Nat)) (s : List Nat) {p : Panic}
    (hr : ActExec.run (none : Option (Tree Fickle Nat ByteSet (ArrayColl (U 8) (ByteMap Nat)))) ops s = .error p) :
    p = .debugAssert := by
  rcases C71_halves fickle_panics .byteSet .byteMap
    (.array (fun _ => (next_aud.bind fun _ _ => .ret (Q := fun _ => True) trivial).only) byte_index) ops s p hr with h | h
  · exact h.elim
  · exact h.1
example (ops : List (Op Fickle Nat)) (s : List Nat) {p : Panic}
    (hr : ActExec.run (none : Option (Tree Fickle Nat ByteSet (HashMap (U 8) (ByteMap Nat)))) ops s = .error p) :
    p = .debugAssert := by
  rcases C71_halves fickle_panics .byteSet .byteMap
    (.hash ⟨fun _ _ => (next_aud.bind fun _ _ => .ret (Q := fun _ => True) trivial).only,
      fun _ => (next_aud.bind fun _ _ => .ret (Q := fun _ => True) trivial).only,
      fun _ => (next_aud.bind fun _ _ => .ret (Q := fun _ => True) trivial).only⟩ byte_hash) ops s p hr with h | h
  · exact h.elim
  · exact h.1

end
end Veb.Props
