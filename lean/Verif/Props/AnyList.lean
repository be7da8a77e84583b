import Verif.Proof.AnyList
import Verif.Props.Tree

/-!
# C81: the keys of a `ByteMap<L>` over any list type whatever

C79 asks the list type to be a sequence.  Here nothing is asked of it: it may panic, lose values, or answer nonsense.
-/

set_option autoImplicit false

namespace Veb.Props

variable {V L : Type} [ListT L V]

/-- **C81.** Whatever the list does, a history that does not panic gives the keys of the ordered map in every answer but
those of `is_monad`; and a map is left exactly when a key is. -/
theorem C81_keys (ops : List (Op (U 8) V)) (t : Option (ByteMapOf L)) (os : List (Out (U 8) V))
    (h : Exec.run none ops = .ok (t, os)) :
    AgreeOn Op.notIsMonad (ops.map Op.keys) (os.map Out.keys) (SL.run [] (ops.map Op.keys)).2 ∧
      (t = none ↔ entries (ops.map Op.keys) = []) := by
  obtain ⟨s, e, hs⟩ := C08_byteSet_history (ops.map Op.keys)
  obtain ⟨h1, h2⟩ := AnyList.run ops (none : Option (ByteMapOf L)) _ _ h e
  refine ⟨h2, ?_⟩
  rw [← hs]
  dsimp only at h1
  rw [← h1]
  cases t <;> simp

/-- A list that forgets all values, answers `7`, and claims to have one element. -/
structure Sevens where
  left : Nat

instance : ListT Sevens Nat where
  fromMonad _ := ⟨1⟩
  len _ := pure 1
  get _ i := if i = 2 then .error .index else pure 7
  getMut l _ := pure (7, fun _ => l)
  insertValue l _ _ := pure ⟨l.left + 1⟩
  removeValue l _ := pure (if l.left = 1 then none else some ⟨l.left - 1⟩, 7)

/-- **C81, `is_monad`.** The answers of `is_monad` come from the list, and may be wrong. -/
theorem C81_is_monad : ¬ ∀ (ops : List (Op (U 8) Nat)) (t : Option (ByteMapOf Sevens)) (os : List (Out (U 8) Nat)),
    Exec.run none ops = .ok (t, os) → os.map Out.keys = (SL.run [] (ops.map Op.keys)).2 := by
  intro h
  have := h [.insert (U.lit 9) 1, .insert (U.lit 200) 2, .isMonad] _ _ rfl
  revert this
  decide +kernel

/-! The values are wrong, the keys are right; the list may also panic. -/
example : outputs (ByteMapOf Sevens) [.insert (U.lit 9) 1, .insert (U.lit 200) 2, .insert (U.lit 4) 3, .minVal, .maxVal,
    .remove (U.lit 9), .successor (U.lit 4), .findSet (U.lit 200) 7, .removeMax, .intoMonad, .minVal] =
    .ok [.kv none, .kv none, .kv none, .kv (some (U.lit 4, 7)), .kv (some (U.lit 200, 7)), .kv (some (U.lit 9, 7)),
      .kv (some (U.lit 200, 7)), .kv (some (U.lit 200, 7)), .kv (some (U.lit 200, 7)), .kv (some (U.lit 4, 7)), .kv none] := by
  decide +kernel
example : outputs (ByteMapOf Sevens) [.insert (U.lit 9) 1, .insert (U.lit 200) 2, .insert (U.lit 4) 3, .find (U.lit 200)] =
    .error .index := by
  decide +kernel
example : (SL.run [] ([Op.insert (U.lit 9) 1, .insert (U.lit 200) 2, .successor (U.lit 4)].map Op.keys)).2 =
    ([.kv none, .kv none, .kv (some (U.lit 9, ()))] : List (Out (U 8) Unit)) := by
  decide +kernel

/-! ## As a collection of trees -/

/-- **C81, collections.** Whatever the list and the trees in it do, the answers of a history that does not panic are in keeping
with the book the caller can keep: a tree is found exactly at the keys that were inserted and not reported empty since. -/
theorem C81_coll {M T Lo W : Type} [VebTree T Lo W] [TreeListT M T Lo W] (ops : List (COp (U 8) T Lo W))
    (c : Option (ByteMapOf M)) (os : List (COut (U 8) T Lo W)) (h : CollExec.run none ops = .ok (c, os)) :
    Book.Kept none ops os :=
  AnyList.Coll.run ops (none : Option (ByteMapOf M)) _ h

/-- **C81, the book.** The specified collection of trees, which the collections of the crate follow (C14, C15, C16), keeps the
book too. -/
theorem C81_book {Hi T Lo W : Type} [VebTree T Lo W] (absent : Panic) (ops : List (COp Hi T Lo W)) (M : Map Hi T)
    (os : List (COut Hi T Lo W)) (h : CollSpec.run absent Map.empty ops = .ok (M, os)) : Book.Kept none ops os := by
  have := AnyList.Coll.spec_run absent ops Map.empty _ h
  rwa [AnyList.Coll.book, if_pos rfl] at this

/-- A list of trees that always answers the set `{7}`, and reports every second removal as the end of a tree. -/
structure Stubborn where
  odd : Bool

instance : TreeListT Stubborn ByteSet (U 8) Unit where
  fromMonad _ := ⟨false⟩
  len _ := pure 1
  get _ _ := pure (ByteSet.fromMonad (U.lit 7) ())
  getMut l _ := pure (ByteSet.fromMonad (U.lit 7) (), fun _ => l)
  insertTree l _ _ := pure l
  removeKey l _ _ := pure (some (⟨!l.odd⟩, l.odd), (U.lit 7, ()))
  maybeRemoveKey l _ _ := pure (.Ok (some (⟨!l.odd⟩, l.odd), (U.lit 7, ())))

example : (do pure (← CollExec.run (none : Option (ByteMapOf Stubborn))
    [.create (U.lit 1) (ByteSet.fromMonad (U.lit 2) ()), .insert (U.lit 3) (U.lit 5) (), .get (U.lit 3), .get (U.lit 4),
     .remove (U.lit 3) (fun _ => .error .unreachable), .get (U.lit 3), .remove (U.lit 3) (fun _ => .error .unreachable),
     .get (U.lit 3), .insert (U.lit 1) (U.lit 9) ()]).2) =
    .ok [.done, .inserted (.Ok (U.lit 3)), .tree (some (ByteSet.fromMonad (U.lit 7) ())), .tree none,
      .removed (U.lit 7, ()) (some false), .tree (some (ByteSet.fromMonad (U.lit 7) ())), .removed (U.lit 7, ()) (some true),
      .tree none, .inserted (.Err (U.lit 1, none))] := by
  decide +kernel
/-! The book refuses what a collection that loses keys would answer. -/
example (t : ByteSet) : ¬ Book.Kept none [.create (U.lit 1) t, .get (U.lit 1)]
    ([.done, .tree none] : List (COut (U 8) ByteSet (U 8) Unit)) := by
  rintro ⟨-, ⟨s, hs, h⟩, -⟩
  cases hs
  exact absurd (h.2 rfl) (by simp)

end Veb.Props
