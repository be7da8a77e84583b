import Verif.Model.Act
import Verif.Model.Markers

/-!
# Cloning, with the code of the user spelled out

src/tree.rs:49-78 and the implementations of `Clone` it rests on, as in Verif/Model/Clone.lean, but `Clone` of keys and
values is code of the user: it has a state, can answer anything, and can panic.

The order of the calls is that of the source; for `BTreeMap` of `alloc` it is that of the entries, each key before its
value; for `HashMap` of `hashbrown` that of the table.  Simplification: if a call panics, the parts cloned so far are
dropped; that is not modelled (the original is only borrowed).
-/

set_option autoImplicit false

namespace Veb

variable {σ : Type}

/-- `trait Clone`, as an action -/
class ActClone (σ α : Type) where
  clone : α → Act σ α

/-- `()`, `u8` … `u128`, `i8` … `i128`: `Copy` types of `core` -/
instance : ActClone σ Unit := ⟨pure⟩
instance {w : Nat} : ActClone σ (U w) := ⟨pure⟩
instance {w : Nat} : ActClone σ (S w) := ⟨pure⟩
/-- `#[derive(Clone, Copy)]`, src/bitset/set.rs:5-6 -/
instance : ActClone σ ByteSet := ⟨pure⟩

/-- the elements one after the other -/
def ActClone.list {α : Type} [ActClone σ α] : List α → Act σ (List α)
  | [] => pure []
  | a :: l => do
    let a ← ActClone.clone a
    let l ← ActClone.list l
    pure (a :: l)

/-- `impl Clone for (A, B)` of `core` -/
instance {α β : Type} [ActClone σ α] [ActClone σ β] : ActClone σ (α × β) := ⟨fun p => do
  let a ← ActClone.clone p.1
  let b ← ActClone.clone p.2
  pure (a, b)⟩
/-- `impl Clone for Option<A>` of `core` -/
instance {α : Type} [ActClone σ α] : ActClone σ (Option α) := ⟨fun
  | some a => do pure (some (← ActClone.clone a))
  | none => pure none⟩
/-- `impl Clone for Box<A>` of `alloc` -/
instance {α : Type} [ActClone σ α] : ActClone σ (Box α) := ⟨fun b => do pure ⟨← ActClone.clone b.val⟩⟩
/-- `impl Clone for BTreeMap` of `alloc` -/
instance {K V : Type} [ActClone σ K] [ActClone σ V] : ActClone σ (BTreeMap K V) := ⟨fun t => do
  pure ⟨← ActClone.list t.entries⟩⟩
/-- `impl Clone for HashMap` of `hashbrown` -/
instance {Hi T : Type} [ActClone σ Hi] [ActClone σ T] : ActClone σ (HashMap Hi T) := ⟨fun c => do
  pure ⟨← ActClone.list c.entries⟩⟩

/-- `impl Clone for TreeData`, src/tree.rs:49-63 -/
instance {K V S C : Type} [ActClone σ K] [ActClone σ V] [ActClone σ S] [ActClone σ C] : ActClone σ (TreeData K V S C) :=
  ⟨fun d => do
    let max ← ActClone.clone d.max
    let children ← ActClone.clone d.children
    pure { max, children }⟩
/-- `impl Clone for Tree`, src/tree.rs:64-78 -/
instance {K V S C : Type} [ActClone σ K] [ActClone σ V] [ActClone σ S] [ActClone σ C] : ActClone σ (Tree K V S C) :=
  ⟨fun t => do
    let min ← ActClone.clone t.min
    let data ← ActClone.clone t.data
    pure { min, data }⟩

end Veb
