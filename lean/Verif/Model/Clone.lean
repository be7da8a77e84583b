import Verif.Model.Markers

/-!
`Clone`: src/tree.rs:49-78, the derived implementations (src/bitset/set.rs:5, src/key.rs:397, 466), and the
implementations of `core`, `alloc` and `hashbrown` they rest on.  `ByteMap`, `ArrayTreeCollection` and `SizedVebTree` do
not implement `Clone`.
-/

set_option autoImplicit false

namespace Veb

/-- `trait Clone`.  Simplification: cloning has no side effects. -/
class Clone (α : Type) where
  clone : α → α
export Clone (clone)

/-- `()`, `u8` … `u128`, `i8` … `i128`: `Copy` types of `core` -/
instance : Clone Unit := ⟨id⟩
instance {w : Nat} : Clone (U w) := ⟨id⟩
instance {w : Nat} : Clone (S w) := ⟨id⟩
/-- `#[derive(Copy, Clone)]`, src/key.rs:397 -/
instance : Clone U4 := ⟨fun x => ⟨clone x.val⟩⟩
/-- `#[derive(Copy, Clone)]`, src/key.rs:466 -/
instance : Clone U2 := ⟨fun x => ⟨clone x.val⟩⟩
/-- `impl Clone for [T; N]` of `core`: element by element -/
instance {T : Type} {n : Nat} [Clone T] : Clone (Arr T n) := ⟨fun x => ⟨x.1.map clone, by simp [x.2]⟩⟩
/-- `impl Clone for (A, B)` of `core` -/
instance {α β : Type} [Clone α] [Clone β] : Clone (α × β) := ⟨fun p => (clone p.1, clone p.2)⟩
/-- `impl Clone for Option<A>` of `core` -/
instance {α : Type} [Clone α] : Clone (Option α) := ⟨fun
  | some a => some (clone a)
  | none => none⟩
/-- `impl Clone for Box<A>` of `alloc` -/
instance {α : Type} [Clone α] : Clone (Box α) := ⟨fun b => ⟨clone b.val⟩⟩

/-- `#[derive(Clone, Copy)]`, src/bitset/set.rs:5-6 -/
instance : Clone ByteSet := ⟨id⟩
/-- `impl Clone for BTreeMap` of `alloc`: the entries are cloned in place, without comparing keys -/
instance {K V : Type} [Clone K] [Clone V] : Clone (BTreeMap K V) := ⟨fun t => ⟨t.entries.map clone⟩⟩
/-- `impl Clone for HashMap` of `hashbrown`: the table is cloned bucket by bucket, without hashing -/
instance {Hi T : Type} [Clone Hi] [Clone T] : Clone (HashMap Hi T) := ⟨fun c => ⟨c.entries.map clone⟩⟩

/-- `impl Clone for TreeData`, src/tree.rs:49-63 -/
instance {K V S C : Type} [Clone K] [Clone V] [Clone S] [Clone C] : Clone (TreeData K V S C) :=
  ⟨fun d => { max := clone d.max, children := clone d.children }⟩
/-- `impl Clone for Tree`, src/tree.rs:64-78 -/
instance {K V S C : Type} [Clone K] [Clone V] [Clone S] [Clone C] : Clone (Tree K V S C) :=
  ⟨fun t => { min := clone t.min, data := clone t.data }⟩

end Veb
