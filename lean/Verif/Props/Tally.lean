import Verif.Proof.Tally
import Verif.Props.ActList
import Verif.Props.Audit

/-!
# C91: lists and arrays of the user that do as they like: panics, and the counter of an array

As in the first half of C90, the code of lists and arrays is arbitrary and has a state.  Its panics are those in `Us`.
-/

set_option autoImplicit false

namespace Veb.Props

/-- **C91, `ByteMap`.** Whatever the list does: a history that panics does so in the list, or because `ByteMap` has noticed that
the list disagrees with its set, at one of the places listed in `AnyListPanics`.  The set itself does not panic. -/
theorem C91_byteMap {σ L V : Type} [ActList σ L V] {Us : Panic → Prop} (N : ListPanics σ L Us) (ops : List (Op (U 8) V))
    {s : σ} {p : Panic} (h : ActExec.run (none : Option (ByteMapOf L)) ops s = .error p) : Us p ∨ AnyListPanics p := by
  obtain ⟨u, e, -⟩ := C08_byteSet_history (ops.map Op.keys)
  exact (AuditList.run N ops none _ e s).2 p h

/-- **C91, lists of trees.** Whatever the list does: a history that panics does so in code of the user, or in the assertion of
`remove_key` that the key is there (src/bitset/map/mod.rs:76). -/
theorem C91_list {σ L T Lo V : Type} [ActTree σ T Lo V] [ActTreeList σ L T Lo V] {Us : Panic → Prop}
    (N : TreeListPanics σ L Us) (I : InsertPanics σ T Us) {ops : List (ACOp σ (U 8) T Lo V)} (hops : ∀ op ∈ ops, op.Within Us)
    {s : σ} {p : Panic} (h : ActCollExec.run (none : Option (ByteMapOf L)) ops s = .error p) :
    Us p ∨ p = .debugAssert ∧ ∃ op ∈ ops, op.IsRemove :=
  (AuditList.Coll.run N I ops none hops s).2 p h

section
variable {σ Hi A T Lo V : Type} [SizedVebKey Hi] [ActIndex σ Hi] [ActArray σ A (SizedVebKey.cardinality Hi) T] [ActTree σ T Lo V]

/-- **C91, arrays of trees.** Whatever `index` and the array do: a history that panics does so in code of the user, or in the
`expect` of `remove_key` (src/collection/array.rs:150), or in the counter when there are more calls than a `usize` can count
(:124); the subtractions (:154, :187) do not overflow. -/
theorem C91_array {Us : Panic → Prop} (hx : IndexPanics σ Hi Us) (N : SlotPanics σ A (SizedVebKey.cardinality Hi) Us)
    (I : InsertPanics σ T Us) {ops : List (ACOp σ Hi T Lo V)} (hops : ∀ op ∈ ops, op.Within Us) {s : σ} {p : Panic}
    (h : ActCollExec.run (none : Option (ArrayOf Hi A)) ops s = .error p) :
    Us p ∨ (p = .expect "array should contain tree at key index" ∧ ∃ op ∈ ops, op.IsRemove) ∨
      p = .arith ∧ usizeMax < ops.length := by
  have := (AuditArray.run hx N I ops none (by rintro _ ⟨⟩) 0 (by rintro _ ⟨⟩) hops s).2 p h
  rwa [Nat.zero_add] at this

/-- **C91, the counter.** Whatever `index`, the array, the trees and the code of the caller do: in a history that does not
panic the collection goes exactly when, by its own answers, its last tree has gone. -/
theorem C91_tally (ops : List (ACOp σ Hi T Lo V)) {s s' : σ} {c : Option (ArrayOf Hi A)} {os : List (COut Hi T Lo V)}
    (h : ActCollExec.run none ops s = .ok ((c, os), s')) : Tally.Kept none (ops.map ACOp.shape) os := by
  have any : ∀ {α : Type} (x : Act σ α), Only (fun _ => True) x := fun _ _ _ _ => trivial
  refine (AuditArray.run (Us := fun _ => True) (fun _ => any _) ⟨any _, fun _ _ => any _, fun _ _ => any _⟩
    (fun _ _ _ => any _) ops none (by rintro _ ⟨⟩) 0 (by rintro _ ⟨⟩) (fun op _ => ?_) s).1 _ _ h
  cases op <;> first | trivial | exact fun _ => any _
end

/-! ## The panics in `AnyListPanics` are reached -/

/-- It has no code but what the state says: the answers of `len`, and how many removals leave a list. -/
structure Whim where
  values : Nat

instance : ActList (List Nat) Whim Nat where
  fromMonad v := ⟨v⟩
  len _ := nextOf
  get l _ := do
    if (← nextOf) = 7 then throw (.expect "user")
    pure l.values
  getMut l _ := pure (l.values, fun v => ⟨v⟩)
  insertValue l _ _ := pure l
  removeValue l _ := do pure (if (← nextOf) = 0 then none else some l, l.values)

theorem whim_panics : ListPanics (List Nat) Whim UserSays where
  len _ := tape_only next_aud
  get _ _ := Aud.only (Q := fun _ => True) ((next_aud.more fun _ h => h.elim).bind fun n _ => by
    dsimp only
    split
    · exact .fail rfl
    · exact .ret trivial)
  getMut _ _ := Aud.only (Q := fun _ => True) (.ret trivial)
  insertValue _ _ _ := Aud.only (Q := fun _ => True) (.ret trivial)
  removeValue _ _ := tape_only (next_aud.bind fun _ _ => .ret trivial)

/-- the panic at the end of a history -/
def whimEnd (ops : List (Op (U 8) Nat)) (s : List Nat) : Option Panic :=
  endsIn (ActExec.run (none : Option (ByteMapOf Whim)) ops s)

example : whimEnd [.insert (U.lit 1) 1, .maxVal] [0] = some .arith := by decide +kernel
example : whimEnd [.insert (U.lit 1) 1, .maxSet 2] [0] = some .arith := by decide +kernel
example : whimEnd [.insert (U.lit 1) 1, .intoMonad] [1] = some .debugAssert := by decide +kernel
example : whimEnd [.insert (U.lit 1) 1, .remove (U.lit 1)] [1] = some .debugAssert := by decide +kernel
example : whimEnd [.insert (U.lit 1) 1, .insert (U.lit 2) 1, .remove (U.lit 1)] [0] =
    some (.expect "set is non-empty so list should be non-empty") := by decide +kernel
example : whimEnd [.insert (U.lit 1) 1, .removeMin] [1] = some .unreachable := by decide +kernel
example : whimEnd [.insert (U.lit 1) 1, .insert (U.lit 2) 1, .removeMax] [0] = some .unreachable := by decide +kernel
example : whimEnd [.insert (U.lit 1) 1, .minVal] [7] = some (.expect "user") := by decide +kernel
example {ops : List (Op (U 8) Nat)} {s : List Nat} {p : Panic} (h : ActExec.run (none : Option (ByteMapOf Whim)) ops s = .error p) :
    UserSays p ∨ AnyListPanics p := C91_byteMap whim_panics ops h

/-! ## Lists of trees -/

theorem ticker_trees : TreeListPanics Nat Ticker NoPanics where
  get _ _ := by rintro _ _ ⟨⟩
  getMut _ _ := by rintro _ _ ⟨⟩
  insertTree _ _ _ := by rintro _ _ ⟨⟩
  removeKey _ _ _ _ := by rintro _ _ ⟨⟩
  maybeRemoveKey _ _ _ _ := by rintro _ _ ⟨⟩
theorem byteSet_inserts : InsertPanics Nat ByteSet NoPanics := by
  intro t l v s p h
  have h : (liftM (t.insert l v) : Act Nat _) s = .error p := h
  unfold ByteSet.insert at h
  split at h <;> cases h

/-- a list of trees that answers nonsense cannot make `ByteMap` panic unless `remove_key` is called -/
example {ops : List (ACOp Nat (U 8) ByteSet (U 8) Unit)} (hops : ∀ op ∈ ops, op.Within NoPanics ∧ ¬ op.IsRemove) (s : Nat) :
    ∃ r, ActCollExec.run (none : Option (ByteMapOf Ticker)) ops s = .ok r := by
  cases h : ActCollExec.run (none : Option (ByteMapOf Ticker)) ops s with
  | ok r => exact ⟨r, rfl⟩
  | error p =>
    rcases C91_list ticker_trees byteSet_inserts (fun op ho => (hops op ho).1) h with h | ⟨-, op, ho, h⟩
    · exact h.elim
    · exact absurd h (hops op ho).2
/-- … and then it can -/
example : endsIn (ActCollExec.run (none : Option (ByteMapOf Ticker)) [.create (U.lit 1) (ByteSet.fromMonad (U.lit 2) ()),
    .remove (U.lit 3) (fun _ => throw .unreachable)] 0) = some .debugAssert := by decide +kernel

/-! ## Arrays -/

/-- An array that shows a tree when the state says so, whatever was written. -/
structure Blink where

/-- a tree, or none -/
def shown : Act (List Nat) (Option ByteSet) := do
  pure (if (← nextOf) = 0 then none else some (ByteSet.fromMonad (U.lit 2) ()))

instance {n : Nat} : ActArray (List Nat) Blink n ByteSet where
  create := pure ⟨⟩
  get _ _ := shown
  getMut a _ := do pure (← shown, fun _ => a)
local instance blinkIndex : ActIndex (List Nat) (U 8) where
  cardinality := 256
  index _ := nextOf
local instance blinkTree : ActTree (List Nat) ByteSet (U 8) Unit := ActTree.plain _

theorem shown_aud : Aud NoPanics shown fun _ => True := next_aud.bind fun _ _ => .ret trivial
theorem blink_panics (n : Nat) : SlotPanics (List Nat) Blink n UserSays where
  create := by rintro _ _ ⟨⟩
  get _ _ := tape_only shown_aud
  getMut _ _ := tape_only (shown_aud.bind fun _ _ => .ret trivial)
theorem blink_index : IndexPanics (List Nat) (U 8) UserSays := fun _ => tape_only next_aud
theorem blink_inserts : InsertPanics (List Nat) ByteSet UserSays := by
  intro t l v s p h
  have h : (liftM (t.insert l v) : Act (List Nat) _) s = .error p := h
  unfold ByteSet.insert at h
  split at h <;> cases h

/-- a removal that empties the tree -/
def emptied (_ : ByteSet) : Act (List Nat) (Option ByteSet × (U 8 × Unit)) := pure (none, (U.lit 1, ()))
/-- a key is inserted three times as if it were new, and removed three times: the collection counts that, although the array
shows nothing of it -/
def blinkOps : List (ACOp (List Nat) (U 8) ByteSet (U 8) Unit) :=
  [.create (U.lit 1) (ByteSet.fromMonad (U.lit 2) ()), .insert (U.lit 1) (U.lit 5) (), .get (U.lit 1), .insert (U.lit 1) (U.lit 5) (),
   .remove (U.lit 1) emptied, .remove (U.lit 1) emptied, .get (U.lit 1), .remove (U.lit 1) emptied, .get (U.lit 1)]
/-- the state for it: an index and whether a tree is shown, for each call of the array -/
def blinkTape : List Nat := [0, 0, 0, 0, 0, 0, 0, 0, 0, 0, 0, 0, 0, 1, 0, 0, 0, 1, 0, 0, 0, 0, 0, 1, 0, 0]

example : (ActCollExec.run (none : Option (ArrayOf (U 8) Blink)) blinkOps blinkTape).map (fun r => r.1.2) =
    .ok [.done, .inserted (.Ok (U.lit 1)), .tree none, .inserted (.Ok (U.lit 1)), .removed (U.lit 1, ()) (some true),
      .removed (U.lit 1, ()) (some true), .tree none, .removed (U.lit 1, ()) none, .gone] := by
  decide +kernel
/-- So the keys are not those of a book (`C90_coll` is about lists only): the array decides. -/
example : ¬ Book.Kept (Hi := U 8) (T := ByteSet) (Lo := U 8) (V := Unit) none (blinkOps.map ACOp.shape)
    [.done, .inserted (.Ok (U.lit 1)), .tree none, .inserted (.Ok (U.lit 1)), .removed (U.lit 1, ()) (some true),
      .removed (U.lit 1, ()) (some true), .tree none, .removed (U.lit 1, ()) none, .gone] := by
  rintro ⟨-, ⟨s, hs, h, -⟩, -⟩
  cases hs
  exact h rfl
/-- a tree that is not there -/
example : endsIn (ActCollExec.run (none : Option (ArrayOf (U 8) Blink)) (blinkOps.take 1 ++ [.remove (U.lit 1) emptied]) []) =
    some (.expect "array should contain tree at key index") := by decide +kernel

/-- short histories without `remove_key` do not panic, whatever the array shows -/
example {ops : List (ACOp (List Nat) (U 8) ByteSet (U 8) Unit)} (hops : ∀ op ∈ ops, op.Within UserSays ∧ ¬ op.IsRemove)
    (hl : ops.length ≤ usizeMax) {s : List Nat} {p : Panic}
    (h : ActCollExec.run (none : Option (ArrayOf (U 8) Blink)) ops s = .error p) : UserSays p := by
  rcases C91_array blink_index (blink_panics _) blink_inserts (fun op ho => (hops op ho).1) h with h | ⟨-, op, ho, h⟩ | ⟨-, h⟩
  · exact h
  · exact absurd h (hops op ho).2
  · omega
example : ∀ op ∈ blinkOps, op.Within UserSays := by
  intro op h
  simp only [blinkOps, List.mem_cons, List.not_mem_nil, or_false] at h
  rcases h with rfl | rfl | rfl | rfl | rfl | rfl | rfl | rfl | rfl <;> first | trivial | (rintro _ _ _ ⟨⟩)
/-- the first removal that takes the collection away takes the last tree, by its own answers -/
example {s s' : List Nat} {c : Option (ArrayOf (U 8) Blink)} {os : List (COut (U 8) ByteSet (U 8) Unit)}
    (h : ActCollExec.run none blinkOps s = .ok ((c, os), s')) : Tally.Kept none (blinkOps.map ACOp.shape) os := C91_tally _ h

end Veb.Props
