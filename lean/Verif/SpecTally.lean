import Verif.SpecAudit
import Verif.SpecActList
import Verif.Model.ActList

/-!
# Vocabulary for lists and arrays of the user that do as they like: panics, and the number of trees
-/

set_option autoImplicit false

namespace Veb

/-- The panics of the code of a list. -/
structure ListPanics (σ L : Type) {V : Type} [ActList σ L V] (Us : Panic → Prop) : Prop where
  len : ∀ l : L, Only Us (ActList.len (σ := σ) l)
  get : ∀ (l : L) (i : Nat), Only Us (ActList.get (σ := σ) l i)
  getMut : ∀ (l : L) (i : Nat), Only Us (ActList.getMut (σ := σ) l i)
  insertValue : ∀ (l : L) (i : Nat) (v : V), Only Us (ActList.insertValue (σ := σ) l i v)
  removeValue : ∀ (l : L) (i : Nat), Only Us (ActList.removeValue (σ := σ) l i)

/-- The panics of the code of a list of trees, which can run the code that its caller passes. -/
structure TreeListPanics (σ L : Type) {T Lo V : Type} [ActTreeList σ L T Lo V] (Us : Panic → Prop) : Prop where
  get : ∀ (l : L) (i : Nat), Only Us (ActTreeList.get (σ := σ) l i)
  getMut : ∀ (l : L) (i : Nat), Only Us (ActTreeList.getMut (σ := σ) l i)
  insertTree : ∀ (l : L) (i : Nat) (t : T), Only Us (ActTreeList.insertTree (σ := σ) l i t)
  removeKey : ∀ (l : L) (i : Nat) (r : T → Act σ (Option T × (Lo × V))), (∀ t, Only Us (r t)) →
    Only Us (ActTreeList.removeKey l i r)
  maybeRemoveKey : ∀ (l : L) (i : Nat) (r : T → Act σ (Result (Option T × (Lo × V)) T)), (∀ t, Only Us (r t)) →
    Only Us (ActTreeList.maybeRemoveKey l i r)

/-- The panics of the code of an array. -/
structure SlotPanics (σ A : Type) (n : Nat) {T : Type} [ActArray σ A n T] (Us : Panic → Prop) : Prop where
  create : Only Us (ActArray.create n : Act σ A)
  get : ∀ (a : A) (i : Nat), Only Us (ActArray.get (σ := σ) n a i)
  getMut : ∀ (a : A) (i : Nat), Only Us (ActArray.getMut (σ := σ) n a i)

/-- The panics of insertions into a tree. -/
def InsertPanics (σ T : Type) {Lo V : Type} [ActTree σ T Lo V] (Us : Panic → Prop) : Prop :=
  ∀ (t : T) (l : Lo) (v : V), Only Us (ActTree.insert (σ := σ) t l v)

/-- The panics of the code that the caller passes. -/
def ACOp.Within {σ Hi T Lo V : Type} (Us : Panic → Prop) : ACOp σ Hi T Lo V → Prop
  | .remove _ r => ∀ t, Only Us (r t)
  | .maybeRemove _ r => ∀ t, Only Us (r t)
  | _ => True
/-- `remove_key` -/
def ACOp.IsRemove {σ Hi T Lo V : Type} : ACOp σ Hi T Lo V → Prop
  | .remove _ _ => True
  | _ => False

/-- What a `ByteMap` itself can do when its list does as it likes: there is no value below length zero
(src/bitset/map/mod.rs:169, :173), a list is left where none should be (:150, :273), or none where one should be (:268), or
either (:286, :297). -/
def AnyListPanics (p : Panic) : Prop :=
  p = .arith ∨ p = .debugAssert ∨ p = .expect "set is non-empty so list should be non-empty" ∨ p = .unreachable

/-! ## The number of trees that a caller of a collection can keep

`n` is the number of trees according to the answers so far; `none` if there is no collection. -/

namespace Tally
variable {Hi T Lo V : Type}

/-- what the answer to a removal says of the number of trees -/
def removal (n : Option Nat) : Option Bool → Prop
  | none => n = some 1
  | some true => ∃ k, n = some k ∧ 2 ≤ k
  | some false => n.isSome = true

/-- The answer `o` to the call `op` is in keeping with the number. -/
def fits (n : Option Nat) : COp Hi T Lo V → COut Hi T Lo V → Prop
  | .create _ _, .done => True
  | .create _ _, _ => False
  | _, .gone => n = none
  | .get _, .tree _ => n.isSome = true
  | .set _ _, .tree _ => n.isSome = true
  | .insert h _ _, .inserted (.Ok h') => n.isSome = true ∧ h' = h
  | .insert h _ _, .inserted (.Err (h', _)) => n.isSome = true ∧ h' = h
  | .remove _ _, .removed _ b => removal n b
  | .maybeRemove _ _, .removed _ b => removal n b
  | .maybeRemove _ _, .kept => n.isSome = true
  | _, _ => False

/-- The number after this answer. -/
def after (n : Option Nat) : COut Hi T Lo V → Option Nat
  | .done => some 1
  | .inserted (.Ok _) => n.map (· + 1)
  | .removed _ none => none
  | .removed _ (some true) => n.map (· - 1)
  | _ => n

/-- All answers are in keeping with the number. -/
def Kept (n : Option Nat) : List (COp Hi T Lo V) → List (COut Hi T Lo V) → Prop
  | [], [] => True
  | op :: ops, o :: os => fits n op o ∧ Kept (after n o) ops os
  | _, _ => False

end Tally
end Veb
