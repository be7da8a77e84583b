import Verif.Proof.AuditRun
import Verif.Props.Act

/-!
# C70: which panics the code of the user can provoke

The comparisons, `split_*`, `join`, `index`, `Hash`, `Eq` and `Clone` of the user are arbitrary actions on a state, as in
C67.  They can panic; their panics are those in `Us`.  Which other panics are possible?
-/

set_option autoImplicit false

namespace Veb.Props

section
variable {σ T K V : Type} {Us : Panic → Prop} [ActTree σ T K V] {E O : Panic → Prop}

/-- **C70.** Whatever the code of the user does: a history that panics either panics in that code, or at one of the places
listed in `E`, or because it is too long to be counted, at one of the places listed in `O`. -/
theorem C70_panics (h : AuditedTree σ Us T K V E O) (ops : List (Op K V)) {s : σ} {p : Panic}
    (hr : ActExec.run (none : Option T) ops s = .error p) : Us p ∨ E p ∨ O p := by
  obtain ⟨P, N, hN⟩ := h.audit False
  rcases hN p ((aud_run (N := N) (n := 0) (t := none) ⟨optOk_none, optOk_none⟩ ops False.elim s).2 p hr) with h | h | h
  · exact .inl h
  · exact .inr (.inl h)
  · exact .inr (.inr h.2)

/-- **C70 for histories of which a `usize` can hold the length.** Nothing overflows. -/
theorem C70_short (h : AuditedTree σ Us T K V E O) {ops : List (Op K V)} (hl : ops.length ≤ usizeMax) {s : σ} {p : Panic}
    (hr : ActExec.run (none : Option T) ops s = .error p) : Us p ∨ E p := by
  obtain ⟨P, N, hN⟩ := h.audit True
  rcases hN p ((aud_run (N := N) (n := 0) (t := none) ⟨optOk_none, optOk_none⟩ ops (fun _ => by omega) s).2 p hr) with h | h | h
  · exact .inl h
  · exact .inr h
  · exact absurd trivial h.1

/-- **C70 for the methods that call no code of the user.** On a tree that a history has left, whatever that code did,
`is_monad`, `len_hint`, `into_monad`, `min_val`, `max_val`, `min_val_mut` and `max_val_mut` return. -/
theorem C70_still (h : AuditedTree σ Us T K V E O) {ops : List (Op K V)} {s s' : σ} {t : T} {os : List (Out K V)}
    (hr : ActExec.run none ops s = .ok ((some t, os), s')) (s₁ : σ) :
    (∃ r, ActTree.isMonad t s₁ = .ok r) ∧ (∃ r, ActTree.lenHint t s₁ = .ok r) ∧ (∃ r, ActTree.intoMonad t s₁ = .ok r) ∧
    (∃ r, ActTree.minVal t s₁ = .ok r) ∧ (∃ r, ActTree.maxVal t s₁ = .ok r) ∧
    (∃ r, ActTree.minValMut t s₁ = .ok r) ∧ ∃ r, ActTree.maxValMut t s₁ = .ok r := by
  obtain ⟨P, N, -⟩ := h.audit False
  have J := (aud_run (N := N) (n := 0) (t := none) ⟨optOk_none, optOk_none⟩ ops False.elim s).1 _ _ hr
  have I := J.1 t rfl
  have J := J.2 t rfl
  have key : ∀ {α : Type} {x : Act σ α} {Q : α → Prop}, Aud NoPanics x Q → ∃ r, x s₁ = .ok r := fun {α x Q} hx => by
    cases hs : x s₁ with
    | error p => exact ((hx s₁).2 p hs).elim
    | ok r => exact ⟨r, rfl⟩
  exact ⟨key (N.isMonad _ t I J), key (N.lenHint _ t I J), key (N.intoMonad _ t I J), key (N.minVal _ t I J),
    key (N.maxVal _ t I J), key (N.minValMut _ t I J), key (N.maxValMut _ t I J)⟩

end

/-- the kinds of panics in the lists -/
def Listed (p : Panic) : Prop :=
  p = .index ∨ p = .arith ∨ p = .unreachable ∨ p = .debugAssert ∨ ∃ m, p = .expect m ∧ m ∈
    ["array should contain tree at key index", "child should exist for summary key",
      "summary should have remaining elements after removal", "summary should contain key", "size overflowed",
      "range start is greater than range end in BTreeMap", "Ord is ill-defined in BTreeMap range"]

theorem listed_coll {σ C Hi T Lo V : Type} {Us : Panic → Prop} [ActTree σ T Lo V] [ActColl σ C Hi T Lo V]
    {E O : Panic → Prop} (h : AuditedColl σ Us C Hi T Lo V E O) : ∀ p, E p ∨ O p → Listed p := by
  induction h with
  | array h =>
    rintro p ((⟨rfl, -⟩ | rfl) | ⟨rfl, -⟩)
    · exact .inl rfl
    · exact .inr (.inr (.inr (.inr ⟨_, rfl, by decide⟩)))
    · exact .inr (.inl rfl)
  | hash h =>
    rintro p ((rfl | rfl) | h)
    · exact .inr (.inr (.inl rfl))
    · exact .inr (.inr (.inr (.inl rfl)))
    · exact h.elim
  | byte =>
    rintro p (rfl | h)
    · exact .inr (.inr (.inr (.inl rfl)))
    · exact h.elim
  | box h ih => exact ih

theorem listed_tree {σ T K V : Type} {Us : Panic → Prop} [ActTree σ T K V] {E O : Panic → Prop}
    (h : AuditedTree σ Us T K V E O) : ∀ p, E p ∨ O p → Listed p := by
  induction h with
  | plain h =>
    rintro p (⟨rfl, -⟩ | h)
    · exact .inr (.inr (.inr (.inl rfl)))
    · exact h.elim
  | box h ih => exact ih
  | sized h ih =>
    rintro p (h | h | rfl)
    · exact ih p (.inl h)
    · exact ih p (.inr h)
    · exact .inr (.inr (.inr (.inr ⟨_, rfl, by decide⟩)))
  | btree h hs =>
    rintro p ((rfl | rfl) | h)
    · exact .inr (.inr (.inr (.inr ⟨_, rfl, by decide⟩)))
    · exact .inr (.inr (.inr (.inr ⟨_, rfl, by decide⟩)))
    · exact h.elim
  | tree hk hs ht hc ihs iht =>
    rintro p ((h | h | h | rfl | rfl | rfl | rfl) | h | h | h)
    · exact ihs p (.inl h)
    · exact iht p (.inl h)
    · exact listed_coll hc p (.inl h)
    · exact .inr (.inr (.inr (.inr ⟨_, rfl, by decide⟩)))
    · exact .inr (.inr (.inr (.inr ⟨_, rfl, by decide⟩)))
    · exact .inr (.inr (.inr (.inr ⟨_, rfl, by decide⟩)))
    · exact .inr (.inr (.inr (.inl rfl)))
    · exact ihs p (.inr h)
    · exact iht p (.inr h)
    · exact listed_coll hc p (.inr h)
  | synced hk hs hu ht hc iht =>
    rintro p ((h | ⟨rfl, -⟩) | h)
    · exact iht p (.inl h)
    · exact .inr (.inr (.inr (.inl rfl)))
    · exact iht p (.inr h)

/-- **C70 for what can never happen.** If the code of the user does not panic itself, then all panics are of these kinds:
an index out of range, an overflow, an `unreachable!`, a `debug_assert!`, five of the messages of `expect`, and the two of `range_mut`.  The other
messages — “last item didn't remove tree”, “ByteSet should never be empty”, “list should not be empty”, “set is non-empty so
list should be non-empty”, “tree should not be empty”, “monad BTreeMap should have one element” — do not occur. -/
theorem C70_never {σ T K V : Type} [ActTree σ T K V] {E O : Panic → Prop} (h : AuditedTree σ NoPanics T K V E O)
    (ops : List (Op K V)) {s : σ} {p : Panic} (hr : ActExec.run (none : Option T) ops s = .error p) : Listed p := by
  rcases C70_panics h ops hr with h' | h'
  · exact h'.elim
  · exact listed_tree h p h'

/-! ## Every place in the lists is reached

Except the two overflows, which take more calls than can be made here. -/

section
/-- code that reads the tape does not panic -/
theorem next_aud : Aud NoPanics nextOf fun _ => True := by
  intro s
  refine ⟨fun _ _ _ => trivial, fun p hp => ?_⟩
  cases s <;> cases hp
theorem nextBool_aud : Aud NoPanics nextBool fun _ => True := next_aud.bind fun _ _ => .ret trivial
theorem nextByte_aud : Aud NoPanics nextByte fun _ => True := next_aud.bind fun _ _ => .ret trivial

/-- the panics of the code that reads the tape -/
def UserSays (p : Panic) : Prop := p = .expect "user"
theorem tape_only {α : Type} {x : Act (List Nat) α} (h : Aud NoPanics x fun _ => True) : Only UserSays x :=
  (h.more fun _ h => h.elim).only
theorem tape_seven : Only UserSays (do if (← nextOf) = 7 then throw (.expect "user") : Act (List Nat) Unit) :=
  Aud.only (Q := fun _ => True) ((next_aud.more fun _ h => h.elim).bind fun n _ => by
    split
    · exact .fail rfl
    · exact .ret trivial)

theorem liar_panics : KeyPanics (List Nat) Liar UserSays where
  cmp _ _ := tape_only (next_aud.bind fun _ _ => .ret trivial)
  eq _ _ := tape_only nextBool_aud
  lt _ _ := tape_only nextBool_aud
  le _ _ := tape_only nextBool_aud
  gt _ _ := tape_only nextBool_aud
  ge _ _ := tape_only nextBool_aud
  splitVal _ := tape_only (next_aud.bind fun _ _ => nextByte_aud.bind fun _ _ => .ret trivial)
  splitRef _ := tape_only (next_aud.bind fun _ _ => nextByte_aud.bind fun _ _ => .ret trivial)
  splitDone _ := tape_seven
  join _ _ := tape_only (next_aud.bind fun _ _ => .ret trivial)
theorem liar_hash : HashPanics (List Nat) Nat UserSays where
  probe _ _ := tape_only (next_aud.bind fun n _ => by cases n <;> exact .ret trivial)
  hashing _ := tape_seven
  clone _ := tape_only next_aud

/-- the hypothesis of the theorems is met -/
theorem liar_audited : ∃ E O, AuditedTree (List Nat) UserSays (SizedVebTree (Box LiarTree)) Liar Nat E O :=
  ⟨_, _, .sized (.box (.tree liar_panics (.plain (.uncounted .btreeMap)) (.plain (.uncounted .byteMap)) (.hash liar_hash)))⟩

/-- `n` insertions and then another call -/
def liarOps (n : Nat) (last : Op Liar Nat) : List (Op Liar Nat) :=
  (List.range n).map (fun i => .insert ⟨i⟩ (10 + i)) ++ [last]
/-- the panic at the end -/
def endsIn {α : Type} (x : R α) : Option Panic := match x with
  | .error p => some p
  | .ok _ => none
/-- `Tree` over a hash map: the panic of a history -/
def liarEnd (n : Nat) (last : Op Liar Nat) (s : List Nat) : Option Panic :=
  endsIn (ActExec.run (none : Option LiarTree) (liarOps n last) s)

example : liarEnd 3 (.predecessor ⟨9⟩) [3, 1, 2, 0, 0, 2, 1, 1, 0, 0, 3, 1, 0, 0] =
    some (.expect "child should exist for summary key") := by decide +kernel
example : liarEnd 3 (.successor ⟨9⟩) [2, 3, 2, 0, 0, 2, 3, 1, 0, 0, 3, 2, 1, 0] =
    some (.expect "child should exist for summary key") := by decide +kernel
example : liarEnd 3 (.predecessorSet ⟨9⟩ 5) [1, 3, 2, 0, 1, 1, 1, 1, 0, 1, 2, 0, 2, 0] =
    some (.expect "child should exist for summary key") := by decide +kernel
example : liarEnd 3 (.successorSet ⟨9⟩ 5) [2, 3, 2, 0, 0, 2, 3, 1, 0, 0, 3, 2, 1, 0] =
    some (.expect "child should exist for summary key") := by decide +kernel
example : liarEnd 4 .removeMin [1, 2, 2, 0, 2, 1, 3, 1, 3, 3, 1, 0, 2, 1, 0, 2, 1, 0, 2, 0] =
    some (.expect "summary should have remaining elements after removal") := by decide +kernel
example : liarEnd 4 .removeMax [1, 2, 2, 0, 2, 1, 3, 1, 3, 3, 1, 0, 2, 1, 0, 2, 1, 0, 2, 0] =
    some (.expect "summary should have remaining elements after removal") := by decide +kernel
example : liarEnd 4 (.remove ⟨9⟩) [1, 2, 2, 0, 2, 1, 3, 1, 3, 3, 1, 0, 2, 1, 0, 2, 1, 0, 2, 0] =
    some (.expect "summary should have remaining elements after removal") := by decide +kernel
example : liarEnd 4 (.remove ⟨9⟩) [1, 2, 1, 2, 1, 2, 0, 1, 3, 2, 2, 0, 0, 1, 1, 0, 0, 3, 0, 1] =
    some (.expect "summary should contain key") := by decide +kernel
/-- the assertion in `predecessor_mut` -/
example : liarEnd 3 (.predecessorSet ⟨9⟩ 5) [1, 3, 3, 2, 1, 3, 0, 1, 0, 0, 0, 2, 1, 3] = some .debugAssert := by
  decide +kernel
/-- a hash map that does not find the key to be removed -/
example : liarEnd 3 .removeMin [1, 2, 3, 3, 0, 1, 0, 1, 3, 3, 1, 0, 0, 1] = some .unreachable := by decide +kernel
/-- a hash map that does not find the key just inserted -/
example : liarEnd 2 (.insert ⟨9⟩ 5) [1, 2, 2, 3, 3, 0, 3, 0, 3, 1, 0, 1, 0, 3] = some .debugAssert := by decide +kernel
/-- a panic of the user -/
example : liarEnd 2 (.insert ⟨9⟩ 5) [1, 2, 2, 3, 3, 0, 7] = some (.expect "user") := by decide +kernel

/-- `Tree` over an array: the panic of a history -/
def liarArrayEnd (n : Nat) (last : Op Liar Nat) (s : List Nat) : Option Panic :=
  endsIn (ActExec.run (none : Option (Tree Liar Nat (BTreeMap Nat Unit) (ArrayColl Nat (ByteMap Nat)))) (liarOps n last) s)
example : liarArrayEnd 2 (.insert ⟨9⟩ 5) [2, 2, 2, 3, 3, 2, 0, 2, 3, 0, 3, 1, 2, 3] = some .index := by decide +kernel
example : liarArrayEnd 3 .removeMin [1, 2, 3, 3, 0, 1, 0, 1, 3, 3, 1, 0, 0, 1] =
    some (.expect "array should contain tree at key index") := by decide +kernel

/-- bytes, compared, split and joined by what is on the tape -/
local instance : ActKey (List Nat) (U 8) Nat (U 8) where
  cmp _ _ := do pure (match (← nextOf) with | 0 => .eq | 1 => .lt | _ => .gt)
  eq _ _ := nextBool
  lt _ _ := nextBool
  le _ _ := nextBool
  gt _ _ := nextBool
  ge _ _ := nextBool
  splitVal _ := do pure (← nextOf, ← nextByte)
  splitRef _ := do pure (← nextOf, ← nextByte)
  splitDone _ := pure ()
  join _ _ := nextByte
/-- keys with such halves -/
structure Liar8 where
  no : Nat
  deriving DecidableEq
local instance : ActKey (List Nat) Liar8 (U 8) (U 8) where
  cmp _ _ := do pure (match (← nextOf) with | 0 => .eq | 1 => .lt | _ => .gt)
  eq _ _ := nextBool
  lt _ _ := nextBool
  le _ _ := nextBool
  gt _ _ := nextBool
  ge _ _ := nextBool
  splitVal _ := do pure (← nextByte, ← nextByte)
  splitRef _ := do pure (← nextByte, ← nextByte)
  splitDone _ := pure ()
  join _ _ := do pure ⟨← nextOf⟩
local instance : ActTree (List Nat) (ByteMap Unit) (U 8) Unit := ActTree.plain _

/-- `Tree` over a `ByteMap`, with a summary whose keys answer what is on the tape: the `ByteMap` does not find the key to be
removed. -/
example : endsIn (ActExec.run (none : Option (Tree Liar8 Nat (Tree (U 8) Unit (BTreeMap Nat Unit) (HashMap Nat (ByteMap Unit)))
      (ByteMap (ByteMap Nat)))) ((List.range 5).map (fun i => .insert ⟨i⟩ (10 + i)) ++ [.removeMin, .removeMin])
    [1, 1, 1, 0, 2, 2, 1, 2, 0, 2, 2, 1, 1, 2, 1, 2, 0, 1, 1, 1, 1, 2, 1, 1, 2, 2, 1, 2, 2, 0, 2, 0, 2, 1, 1, 1, 1, 2, 2, 0,
      0, 1, 2, 1, 2, 1, 1, 0, 2, 2]) = some .debugAssert := by decide +kernel

end
end Veb.Props
