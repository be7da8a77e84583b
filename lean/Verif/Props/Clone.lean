import Verif.Proof.Clone

/-!
# C52: a clone answers as the original does

No restriction to safe histories, nor to trees that a history can leave.
-/

set_option autoImplicit false

namespace Veb.Props

variable {T K V : Type}

/-- **C52.** A tree of any cloneable type, and a clone of it: the calls `ops` on the tree and the same calls, with the
values cloned, on the clone get the same answers, with the values cloned; or both panic. What `clone` does to values is
arbitrary. -/
theorem C52_clone [LinearOrder K] [VebTree T K V] [Clone T] [Clone V] (h : Cloneable T K V) (t : Option T)
    (ops : List (Op K V)) :
    Agree (fun r r' => r'.2 = r.2.map (Out.rename id clone)) (Exec.run t ops)
      (Exec.run (clone t) (ops.map (Op.rename id clone))) := by
  obtain ⟨S, hS, hc⟩ := h.same
  have ht : Option.Rel S t (clone t) := by
    cases t with
    | none => exact .none
    | some t => exact .some (hc t)
  exact ((hS.run ops ht).mono fun a b hab => hab.2).agree

/-- **C52, histories.** In particular after every history, also one that has spoiled the tree. -/
theorem C52_clone_after [LinearOrder K] [VebTree T K V] [Clone T] [Clone V] (h : Cloneable T K V)
    (ops more : List (Op K V)) :
    Agree (fun os os' => os' = os.map (Out.rename id clone)) (answersAfter T ops more)
      (cloneAnswersAfter T ops (more.map (Op.rename id clone))) := by
  refine Rx.agree (Rx.bindEq fun r => ?_)
  rcases C52_clone h r.1 more with ⟨a, b, e, e', hab⟩ | ⟨p, q, e, e'⟩
  · rw [e, e']; exact .ok hab
  · rw [e, e']; exact .err _ _

/-- **C52, iterators.** An iterator over the clone returns the cloned items, however it is advanced. -/
theorem C52_clone_iter [LinearOrder K] [VebTree T K V] [Clone T] [Clone V] (h : Cloneable T K V)
    (ops : List (Op K V)) (ss : List Side) :
    Agree (fun is is' => is' = is.map (Option.map fun e => (e.1, clone e.2))) (itemsAfter T ops ss)
      (cloneItemsAfter T ops ss) := by
  obtain ⟨S, hS, hc⟩ := h.same
  refine Rx.agree (Rx.bindEq fun r => ?_)
  obtain ⟨_ | t, os⟩ := r
  · exact .ok rfl
  · exact (hS.calls (fun _ _ e => e) ss (a := Iter.new t) (b := Iter.new (clone t)) ⟨hc t, rfl, rfl⟩).bind
      fun a b hab => .ok hab.2

/-! ### Values that obey the contract of `Clone` -/

instance : LawfulClone Unit := ⟨fun _ => rfl⟩
instance {w : Nat} : LawfulClone (U w) := ⟨fun _ => rfl⟩
instance {w : Nat} : LawfulClone (S w) := ⟨fun _ => rfl⟩
instance : LawfulClone U4 := ⟨fun _ => rfl⟩
instance : LawfulClone U2 := ⟨fun _ => rfl⟩
theorem clone_map {α : Type} [Clone α] [LawfulClone α] (l : List α) : l.map clone = l := by
  rw [show (clone : α → α) = id from funext LawfulClone.clone_eq, List.map_id]
instance {α : Type} {n : Nat} [Clone α] [LawfulClone α] : LawfulClone (Arr α n) := ⟨fun a => Subtype.ext (clone_map a.1)⟩
instance {α β : Type} [Clone α] [Clone β] [LawfulClone α] [LawfulClone β] : LawfulClone (α × β) :=
  ⟨fun p => Prod.ext (LawfulClone.clone_eq p.1) (LawfulClone.clone_eq p.2)⟩
instance {α : Type} [Clone α] [LawfulClone α] : LawfulClone (Option α) := ⟨fun o => by
  cases o with
  | none => rfl
  | some a => exact congrArg some (LawfulClone.clone_eq a)⟩
instance {α : Type} [Clone α] [LawfulClone α] : LawfulClone (Box α) := ⟨fun b => congrArg Box.mk (LawfulClone.clone_eq b.val)⟩
instance : LawfulClone ByteSet := ⟨fun _ => rfl⟩
instance [Clone K] [Clone V] [LawfulClone K] [LawfulClone V] : LawfulClone (BTreeMap K V) :=
  ⟨fun t => congrArg BTreeMap.mk (clone_map t.entries)⟩
instance {Hi : Type} [Clone Hi] [Clone T] [LawfulClone Hi] [LawfulClone T] : LawfulClone (HashMap Hi T) :=
  ⟨fun t => congrArg HashMap.mk (clone_map t.entries)⟩

/-- **C52, the contract is passed on.** If clones of keys, values and parts are equal to the originals, so is the clone of
a tree. -/
theorem C52_clone_eq {S C : Type} [Clone K] [Clone V] [Clone S] [Clone C] [LawfulClone K] [LawfulClone V] [LawfulClone S]
    [LawfulClone C] : LawfulClone (Tree K V S C) := ⟨fun t => by
  obtain ⟨p, _ | ⟨q, o⟩⟩ := t
  · show (⟨clone p, none⟩ : Tree K V S C) = _
    rw [LawfulClone.clone_eq]
  · show (⟨clone p, some ⟨clone q, clone o⟩⟩ : Tree K V S C) = _
    rw [LawfulClone.clone_eq, LawfulClone.clone_eq, LawfulClone.clone_eq]⟩
instance {S C : Type} [Clone K] [Clone V] [Clone S] [Clone C] [LawfulClone K] [LawfulClone V] [LawfulClone S]
    [LawfulClone C] : LawfulClone (Tree K V S C) := C52_clone_eq

theorem coll_clone_eq {C Hi Lo : Type} [VebTree T Lo V] [TreeCollection C Hi T Lo V] [Clone T] [Clone C]
    (h : CloneableColl C Hi T Lo V) (ht : LawfulClone T) : LawfulClone C := by
  induction h with
  | hash => infer_instance
  | box h ih => have := ih ht; infer_instance

/-- **C52, cloneable types.** All tree types that implement `Clone` pass the contract on. -/
theorem C52_cloneable_eq [LinearOrder K] [VebTree T K V] [Clone T] [Clone V] (h : Cloneable T K V)
    (hv : LawfulClone V) : LawfulClone T := by
  induction h with
  | byteSet => infer_instance
  | btreeMap => infer_instance
  | box h ih => have := ih hv; infer_instance
  | @tree K V S C Hi Lo T _ _ _ _ _ _ _ _ _ _ _ _ _ _ hs ht hc ihs iht =>
    have := ihs inferInstance
    have h2 := iht hv
    have := coll_clone_eq hc h2
    infer_instance

/-! ### The contract of keys is needed -/

/-- a key type whose clones are all equal -/
structure Forgetful where
  n : Nat
  deriving DecidableEq
instance : LinearOrder Forgetful := LinearOrder.lift' Forgetful.n (fun a b h => by cases a; cases b; cases h; rfl)
instance : Clone Forgetful := ⟨fun _ => ⟨0⟩⟩

/-- **C52, the contract of `Clone` for keys is needed.** A `BTreeMap` with keys whose clones are not equal to the
originals: the clone does not find a key of the original. -/
theorem C52_contract_needed : ∃ (ops : List (Op Forgetful Unit)) (k : Forgetful),
    answersAfter (BTreeMap Forgetful Unit) ops [.find k] = .ok [.kv (some (k, ()))] ∧
    cloneAnswersAfter (BTreeMap Forgetful Unit) ops [.find k] = .ok [.kv none] :=
  ⟨[.insert ⟨1⟩ ()], ⟨1⟩, by decide +kernel, by decide +kernel⟩

/-! ### Examples -/

/-- values whose clones count the generations -/
structure Gen where
  n : Nat
  deriving DecidableEq
instance : Clone Gen := ⟨fun g => ⟨g.n + 1⟩⟩

/-- 16-bit keys, a byte set as summary, hashed `BTreeMap`s as children -/
abbrev CloneMap16 (V : Type) := Tree (U 16) V ByteSet (HashMap (U 8) (BTreeMap (U 8) V))
theorem cloneMap16 [Clone V] : Cloneable (CloneMap16 V) (U 16) V := .tree .byteSet .btreeMap .hash

example : answersAfter (CloneMap16 Gen) [.insert (U.lit 1) ⟨0⟩, .insert (U.lit 300) ⟨5⟩, .insert (U.lit 700) ⟨7⟩]
    [.find (U.lit 300), .insert (U.lit 300) ⟨9⟩, .maxVal] =
    .ok [.kv (some (U.lit 300, ⟨5⟩)), .kv (some (U.lit 300, ⟨5⟩)), .kv (some (U.lit 700, ⟨7⟩))] := by decide +kernel
example : cloneAnswersAfter (CloneMap16 Gen) [.insert (U.lit 1) ⟨0⟩, .insert (U.lit 300) ⟨5⟩, .insert (U.lit 700) ⟨7⟩]
    [.find (U.lit 300), .insert (U.lit 300) ⟨10⟩, .maxVal] =
    .ok [.kv (some (U.lit 300, ⟨6⟩)), .kv (some (U.lit 300, ⟨6⟩)), .kv (some (U.lit 700, ⟨8⟩))] := by decide +kernel
example (ops more : List (Op (U 16) Gen)) := C52_clone_after cloneMap16 ops more
example (t : CloneMap16 Nat) [Clone Nat] [LawfulClone Nat] : clone t = t := LawfulClone.clone_eq t

end Veb.Props
