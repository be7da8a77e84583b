import Verif.SpecUnwind
import Verif.Model.ActBorrow

/-!
# Vocabulary for keys that are borrowed and dropped by code of the user
-/

set_option autoImplicit false

namespace Veb
section
variable {σ K V : Type}

/-- The code of the user that a call runs, if any. -/
def AskOp.asks : AskOp σ K V → Option (Arg σ K)
  | .plain _ => none
  | .remove q => some q
  | .find q => some q
  | .predecessor q => some q
  | .successor q => some q
  | .findSet q _ => some q
  | .predecessorSet q _ => some q
  | .successorSet q _ => some q

/-- The call with the key `k` in place of the code of the user. -/
def AskOp.at (k : K) : AskOp σ K V → Op K V
  | .plain op => op
  | .remove _ => .remove k
  | .find _ => .find k
  | .predecessor _ => .predecessor k
  | .successor _ => .successor k
  | .findSet _ v => .findSet k v
  | .predecessorSet _ v => .predecessorSet k v
  | .successorSet _ v => .successorSet k v

/-- The call takes the tree and not a reference to it. -/
def AskOp.takes : AskOp σ K V → Bool
  | .remove _ => true
  | _ => false

/-- What a call on a tree comes to, if `g k` is what the call with the key `k` does and `lost` is what a panic leaves:
`borrow` runs, then the call with its answer, then `drop`, and the first panic is the panic of the call. -/
def Arg.outcome {T : Type} (q : Arg σ K) (lost : Option T) (g : K → R (Option T × Out K V)) (s : σ) :
    (Option T × R (Out K V)) × σ :=
  match q.borrow s with
  | (.error e, s) => ((lost, .error e), (q.drop s).2)
  | (.ok k, s) =>
    match g k, q.drop s with
    | .error e, (_, s) => ((lost, .error e), s)
    | .ok _, (.error e, s) => ((lost, .error e), s)
    | .ok (t, o), (.ok (), s) => ((t, .ok o), s)

variable [LinearOrder K]

/-- One call on an ordered map whose keys are borrowed and dropped by code of the user.  On an empty map it is not run.
Otherwise `borrow` and then `drop` run once.  If `borrow` answers a key and `drop` returns, the call is the one with that key.
If one of them panics, the call panics so (with the panic of `borrow`, if both do): the map is as before, but a removal has
lost it. -/
def SL.ask (l : SL K V) (s : σ) (op : AskOp σ K V) : SL K V × R (Out K V) × σ :=
  match op, op.asks with
  | .plain op, _ => ((SL.step l op).1, .ok (SL.step l op).2, s)
  | _, none => (l, .ok (.kv none), s)
  | op, some q =>
    if l = [] then (l, .ok (.kv none), s) else
    match q.borrow s with
    | (.error e, s) => (if op.takes then [] else l, .error e, (q.drop s).2)
    | (.ok k, s) =>
      match q.drop s with
      | (.error e, s) => (if op.takes then [] else l, .error e, s)
      | (.ok (), s) => ((SL.step l (op.at k)).1, .ok (SL.step l (op.at k)).2, s)

/-- A whole history. -/
def SL.askAll (l : SL K V) (s : σ) : List (AskOp σ K V) → SL K V × List (R (Out K V)) × σ
  | [] => (l, [], s)
  | op :: ops =>
    let (l, o, s) := SL.ask l s op
    let (l, os, s) := SL.askAll l s ops
    (l, o :: os, s)

/-- Every insertion of the history meets `Safe` on the keys stored at that moment. -/
def SL.SafeAsks (Safe : (K → Prop) → K → Prop) (l : SL K V) (s : σ) : List (AskOp σ K V) → Prop
  | [] => True
  | op :: ops =>
    (match op with
      | .plain (.insert k _) => l = [] ∨ Safe (SL.keys l) k
      | _ => True) ∧ SL.SafeAsks Safe (SL.ask l s op).1 (SL.ask l s op).2.2 ops

end

/-- Every method with a borrowed key runs `borrow` exactly once, before anything else, then is the method on the key that was
answered, and drops `k` once in the end.  `remove` of a counted tree counts after `k` is dropped; that makes no difference
unless the crate panics itself. -/
structure AsksOnce (σ T : Type) {K V : Type} [VebTree T K V] [AskTree σ T K V] : Prop where
  find : ∀ (t : T) (q : Arg σ K), AskTree.find t q = q.use (VebTree.find t)
  findMut : ∀ (t : T) (q : Arg σ K), AskTree.findMut t q = q.use (VebTree.findMut t)
  predecessor : ∀ (t : T) (q : Arg σ K), AskTree.predecessor t q = q.use (VebTree.predecessor t)
  predecessorMut : ∀ (t : T) (q : Arg σ K), AskTree.predecessorMut t q = q.use (VebTree.predecessorMut t)
  successor : ∀ (t : T) (q : Arg σ K), AskTree.successor t q = q.use (VebTree.successor t)
  successorMut : ∀ (t : T) (q : Arg σ K), AskTree.successorMut t q = q.use (VebTree.successorMut t)
  remove : ∀ (t : T) (q : Arg σ K) (s : σ),
    (∀ k, (q.borrow s).1 = .ok k → ∃ r, VebTree.remove t k = .ok r) → AskTree.remove t q s = q.use (VebTree.remove t) s

/-- The same for collections. -/
structure CollAsksOnce (σ C : Type) {Hi T Lo V : Type} [TreeCollection C Hi T Lo V] [AskColl σ C Hi T Lo V] : Prop where
  removeKey : ∀ (c : C) (q : Arg σ Hi) (r : T → R (Option T × (Lo × V))),
    AskColl.removeKey c q r = q.use fun h => TreeCollection.removeKey c h r
  maybeRemoveKey : ∀ (c : C) (q : Arg σ Hi) (r : T → R (Result (Option T × (Lo × V)) T)),
    AskColl.maybeRemoveKey c q r = q.use fun h => TreeCollection.maybeRemoveKey c h r

end Veb
