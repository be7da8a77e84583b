import Verif.SpecHist
import Verif.SpecSound
import Verif.SpecActUnwind
import Verif.Model.ActCollLeft

/-!
# What to expect of a collection whose panics are caught

A collection that a program holds is a partial map from `Hi` to trees; if it holds none, that is `none`.  The specification
says for every call, and for every way in which it can end, what the map is afterwards.  It never looks into the trees: it
only asks what the tree type does in `insert`, and what the closures do, from some state.
-/

set_option autoImplicit false

namespace Veb

namespace CollLeft
open Classical
variable {σ Hi T Lo V : Type} [ActTree σ T Lo V] [ActUnwinds σ T Lo V]

/-- `M` with the tree at `h` replaced by `o` (`none`: taken out). -/
noncomputable def put (M : Map Hi T) (h : Hi) (o : Option T) : Map Hi T := fun j => if j = h then o else M j

/-- What is held, and what the caller learns, after a removal made the map `M`; `o` is what became of the tree. -/
def Removed (M : Map Hi T) (o : Option T) (val : Lo × V) (out : COut Hi T Lo V) (M' : Option (Map Hi T)) : Prop :=
  if M = Map.empty then out = .removed val none ∧ M' = none
  else out = .removed val (some o.isNone) ∧ M' = some M

/-- One call that returns `out`, on a map. -/
def Returns (M : Map Hi T) : ACOp σ Hi T Lo V → COut Hi T Lo V → Option (Map Hi T) → Prop
  | .create h t, out, M' => out = .done ∧ M' = some (put Map.empty h (some t))
  | .get h, out, M' => out = .tree (M h) ∧ M' = some M
  | .set h u, out, M' => out = .tree (M h) ∧ M' = some (if (M h).isSome then put M h (some u) else M)
  | .insert h l v, out, M' =>
    match M h with
    | none => out = .inserted (.Ok h) ∧ M' = some (put M h (some (ActTree.fromMonad σ l v)))
    | some t => ∃ (s : σ) (t' : T) (o : Option (Lo × V)) (s' : σ), ActUnwinds.insertUA t l v s = (t', .ok (o, s')) ∧
        out = .inserted (.Err (h, o)) ∧ M' = some (put M h (some t'))
  | .remove h r, out, M' => ∃ (t : T) (s : σ) (o : Option T) (val : Lo × V) (s' : σ), M h = some t ∧
      r t s = .ok ((o, val), s') ∧ Removed (put M h o) o val out M'
  | .maybeRemove h r, out, M' =>
    match M h with
    | none => out = .kept ∧ M' = some M
    | some t => (∃ (s : σ) (t' : T) (s' : σ), r t s = .ok (.Err t', s') ∧ out = .kept ∧ M' = some (put M h (some t'))) ∨
        ∃ (s : σ) (o : Option T) (val : Lo × V) (s' : σ), r t s = .ok (.Ok (o, val), s') ∧
          Removed (put M h o) o val out M'

/-- One call that panics with `e`, on a map.  `own`: the panics of code of the user that the collection itself calls.
`absent`: the panic of `remove_key` for a missing key.  `table`: a hash table, which can lose entries when it rehashes, and
which clones a new key when it is already there. -/
def Panics (own : Panic → Prop) (absent : Panic) (table : Prop) (M : Map Hi T) :
    ACOp σ Hi T Lo V → Panic → Option (Map Hi T) → Prop
  | .create _ _, e, M' => own e ∧ M' = some M
  | .get _, e, M' => own e ∧ M' = some M
  | .set _ _, e, M' => own e ∧ M' = some M
  | .insert h l v, e, M' =>
    match M h with
    | none => own e ∧ (M' = some M ∨ table ∧ (M' = some (put M h (some (ActTree.fromMonad σ l v))) ∨
        ∃ X : Set Hi, M' = some fun j => if j ∈ X then M j else none))
    | some t => own e ∧ M' = some M ∨
        ∃ (s : σ) (t' : T), ActUnwinds.insertUA t l v s = (t', .error e) ∧ M' = some (put M h (some t'))
  | .remove h r, e, M' => M' = none ∧ (own e ∨ match M h with
    | none => e = absent
    | some t => ∃ s : σ, r t s = .error e)
  | .maybeRemove h r, e, M' => M' = none ∧ (own e ∨ ∃ (t : T) (s : σ), M h = some t ∧ r t s = .error e)

/-- One call on what is held, and how it ends. -/
def Call (own : Panic → Prop) (absent : Panic) (table : Prop) (M : Option (Map Hi T)) (op : ACOp σ Hi T Lo V)
    (out : R (COut Hi T Lo V)) (M' : Option (Map Hi T)) : Prop :=
  match M, op, out with
  | some M, op, .ok out => Returns M op out M'
  | some M, op, .error e => Panics own absent table M op e M'
  | none, .create h t, .ok out => out = .done ∧ M' = some (put Map.empty h (some t))
  | none, .create _ _, .error e => own e ∧ M' = none
  | none, _, out => out = .ok .gone ∧ M' = none

/-- A history of calls, how they end, and what is held afterwards. -/
def Calls (own : Panic → Prop) (absent : Panic) (table : Prop) (M : Option (Map Hi T)) :
    List (ACOp σ Hi T Lo V) → List (R (COut Hi T Lo V)) → Option (Map Hi T) → Prop
  | [], outs, M' => outs = [] ∧ M' = M
  | op :: ops, outs, M' => ∃ out outs' M1, outs = out :: outs' ∧ Call own absent table M op out M1 ∧
      Calls own absent table M1 ops outs' M'

end CollLeft

/-- `insertKeyU` tells how `insert_key` ends, and with which collection if it returns. -/
def CollFaithful (σ C : Type) {Hi T Lo V : Type} [ActColl σ C Hi T Lo V] [CollUnwinds σ C Hi Lo V] : Prop :=
  ∀ (c : C) (h : Hi) (e : Lo × V) (s : σ),
    (∃ c' o s', ActColl.insertKey c h e s = .ok ((c', o), s') ∧ CollUnwinds.insertKeyU c h e s = (c', .ok (o, s'))) ∨
    ∃ p, ActColl.insertKey c h e s = .error p ∧ (CollUnwinds.insertKeyU c h e s).2 = .error p

/-- The collections of the crate, whatever code of the user they call. -/
inductive LeftColl (σ : Type) : (C Hi T Lo V : Type) → [ActTree σ T Lo V] → [ActUnwinds σ T Lo V] → [ActColl σ C Hi T Lo V] →
    [CollUnwinds σ C Hi Lo V] → Prop
  | array {Hi T Lo V : Type} [ActIndex σ Hi] [ActTree σ T Lo V] [ActUnwinds σ T Lo V] : LeftColl σ (ArrayColl Hi T) Hi T Lo V
  | hash {Hi T Lo V : Type} [ActHash σ Hi] [ActRehash σ Hi] [ActTree σ T Lo V] [ActUnwinds σ T Lo V] :
      LeftColl σ (HashMap Hi T) Hi T Lo V
  | byte {T Lo V : Type} [ActTree σ T Lo V] [ActUnwinds σ T Lo V] : LeftColl σ (ByteMap T) (U 8) T Lo V
  | box {C Hi T Lo V : Type} [ActTree σ T Lo V] [ActUnwinds σ T Lo V] [ActColl σ C Hi T Lo V] [CollUnwinds σ C Hi Lo V]
      (h : LeftColl σ C Hi T Lo V) : LeftColl σ (Box C) Hi T Lo V

/-- The collections of the crate over code of the user that answers properly, or panics with a panic in `Us`. -/
inductive CatchColl (σ : Type) (Us : Panic → Prop) : (C Hi T Lo V : Type) → [ActTree σ T Lo V] → [ActUnwinds σ T Lo V] →
    [ActColl σ C Hi T Lo V] → [CollUnwinds σ C Hi Lo V] → (own : Panic → Prop) → (absent : Panic) → (table : Prop) → Prop
  | array {Hi T Lo V : Type} [SizedVebKey Hi] [ActIndex σ Hi] [ActTree σ T Lo V] [ActUnwinds σ T Lo V] (h : SoundIndex σ Us Hi)
      (hg : GoodIndex Hi) :
      CatchColl σ Us (ArrayColl Hi T) Hi T Lo V Us (.expect "array should contain tree at key index") False
  | hash {Hi T Lo V : Type} [DecidableEq Hi] [ActHash σ Hi] [ActRehash σ Hi] [ActTree σ T Lo V] [ActUnwinds σ T Lo V]
      (h : SoundHash σ Us Hi) : CatchColl σ Us (HashMap Hi T) Hi T Lo V Us .unreachable True
  | byte {T Lo V : Type} [ActTree σ T Lo V] [ActUnwinds σ T Lo V] :
      CatchColl σ Us (ByteMap T) (U 8) T Lo V NoPanics .debugAssert False
  | box {C Hi T Lo V : Type} [ActTree σ T Lo V] [ActUnwinds σ T Lo V] [ActColl σ C Hi T Lo V] [CollUnwinds σ C Hi Lo V]
      {own : Panic → Prop} {absent : Panic} {table : Prop} (h : CatchColl σ Us C Hi T Lo V own absent table) :
      CatchColl σ Us (Box C) Hi T Lo V own absent table

end Veb
