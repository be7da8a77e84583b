import Verif.SpecList
import Verif.SpecKeys
import Verif.SpecUnwind
import Verif.Model.ByteListLeft

/-!
# Vocabulary for list types that panic
-/

set_option autoImplicit false

namespace Veb

/-- The list type `L` behaves as a sequence, but `insert_value` may panic, and then leaves the sequence as it was.  A list with
room for so many values is one. -/
structure SeqOrFull {L V : Type} [ListT L V] [ListLeft L V] (r : L → List V → Prop) : Prop where
  fromMonad : ∀ v, r (ListT.fromMonad v) [v]
  len : ∀ a l, r a l → ListT.len a = .ok l.length
  get : ∀ a l i v, r a l → l[i]? = some v → ListT.get a i = .ok v
  getMut : ∀ a l i v, r a l → l[i]? = some v → ∃ put, ListT.getMut a i = .ok (v, put) ∧ ∀ w, r (put w) (l.set i w)
  insertValue : ∀ a l i v, r a l → i ≤ l.length →
    (∃ a', ListT.insertValue a i v = .ok a' ∧ r a' (l.insertIdx i v)) ∨
    ∃ e, ListT.insertValue a i v = .error e ∧ r (ListLeft.afterInsert a i v) l
  removeLast : ∀ a v, r a [v] → ListT.removeValue a 0 = .ok (none, v)
  removeValue : ∀ a l i v, r a l → 1 < l.length → l[i]? = some v →
    ∃ a', ListT.removeValue a i = .ok (some a', v) ∧ r a' (l.eraseIdx i)

/-- The list type `L` is such a sequence of values. -/
def IsSeqOrFull (L : Type) {V : Type} [ListT L V] [ListLeft L V] : Prop := ∃ r : L → List V → Prop, SeqOrFull r

section
variable {K V : Type} [LinearOrder K]

/-- A history runs like an ordered map in which an insertion that panics does nothing, and nothing else panics: from the
contents `l` it gives the answers `os` and ends with the contents `l'`. -/
inductive Skips : SL K V → List (Op K V) → List (R (Out K V)) → SL K V → Prop
  | nil (l : SL K V) : Skips l [] [] l
  | returns {l : SL K V} {op : Op K V} {ops : List (Op K V)} {os : List (R (Out K V))} {l' : SL K V}
      (h : Skips (SL.step l op).1 ops os l') : Skips l (op :: ops) (.ok (SL.step l op).2 :: os) l'
  | panics {l : SL K V} {k : K} {v : V} {ops : List (Op K V)} {os : List (R (Out K V))} {l' : SL K V} {e : Panic}
      (hk : SL.find l k = none) (h : Skips l ops os l') : Skips l (.insert k v :: ops) (.error e :: os) l'

/-- The keys stored after a call that ended in `o`, if `l` are those before it: an insertion that panics leaves its key, and a
call that takes `self` and panics leaves nothing. -/
def keysLeft (l : SL K Unit) (op : Op K V) : R (Out K V) → SL K Unit
  | .ok _ => (SL.step l op.keys).1
  | .error _ =>
    if takesSelf op then [] else
    match op with
    | .insert k _ => SL.insert l k ()
    | _ => l

/-- From the keys `l` on, all answers but those of `is_monad` have the keys they should, and `l'` are the keys in the end. -/
def KeysKept : SL K Unit → List (Op K V) → List (R (Out K V)) → SL K Unit → Prop
  | l, [], [], l' => l' = l
  | l, op :: ops, o :: os, l' =>
    (∀ a, o = .ok a → op.notIsMonad = true → a.keys = (SL.step l op.keys).2) ∧ KeysKept (keysLeft l op o) ops os l'
  | _, _, _, _ => False

end
end Veb
