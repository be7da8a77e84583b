import Verif.Proof.SameTree
import Verif.Proof.Crate

/-!
Tree types of the same shape simulate each other; so do iterators over related trees.
-/

set_option autoImplicit false
set_option linter.unusedSectionVars false
namespace Veb

variable {T T' K K' V V' : Type}

theorem CrateTree.always_lawful [LinearOrder K] [VebTree T K V] (h : CrateTree T K V always) :
    ∃ L : LawfulVebTree T K V, ∀ P k, L.Safe P k := by
  obtain ⟨L, hL, -⟩ := h.lawful
  exact ⟨L, fun P k => by rw [hL]; trivial⟩

theorem CollShape.same {C C' Hi Hi' Lo Lo' : Type} [VebTree T Lo V] [VebTree T' Lo' V'] [TreeCollection C Hi T Lo V]
    [TreeCollection C' Hi' T' Lo' V'] {πh : Hi → Hi'} (h : CollShape C Hi T Lo V C' Hi' T' Lo' V' πh) {πl : Lo → Lo'}
    {f : V → V'} {ST : T → T' → Prop} (hT : SameTree πl f ST) : ∃ SC : C → C' → Prop, SameColl πh πl f ST SC := by
  induction h with
  | crate hi hc hc' =>
    obtain ⟨L⟩ := hc.lawful
    obtain ⟨L'⟩ := hc'.lawful
    exact ⟨_, CollX.same L L' hi hT⟩
  | array hx hn => exact ⟨_, ArrX.same hx hn hT⟩
  | boxL h ih => obtain ⟨SC, hC⟩ := ih hT; exact ⟨_, hC.boxL⟩
  | boxR h ih => obtain ⟨SC, hC⟩ := ih hT; exact ⟨_, hC.boxR⟩

theorem SameShape.same [VebTree T K V] [VebTree T' K' V'] {π : K → K'} {f : V → V'}
    (h : SameShape T K V T' K' V' π f) :
    ∃ S : T → T' → Prop, SameTree π f S := by
  induction h with
  | mapped hm h h' =>
    obtain ⟨L, hL⟩ := h.always_lawful
    obtain ⟨L', hL'⟩ := h'.always_lawful
    exact ⟨_, LeafR.same hm _ L L' hL hL'⟩
  | boxL h ih => obtain ⟨S, hS⟩ := ih; exact ⟨_, Box.sameL hS⟩
  | boxR h ih => obtain ⟨S, hS⟩ := ih; exact ⟨_, Box.sameR hS⟩
  | sized h ih => obtain ⟨S, hS⟩ := ih; exact ⟨_, SizedVebTree.same hS⟩
  | node hm hk hs ht hc ihs iht =>
    obtain ⟨SS, hSS⟩ := ihs
    obtain ⟨ST, hST⟩ := iht
    obtain ⟨SC, hSC⟩ := hc.same hST
    exact ⟨_, Tree.same hm hk hSS hST hSC⟩

theorem SameShape.injective [VebTree T K V] [VebTree T' K' V'] {π : K → K'} {f : V → V'}
    (h : SameShape T K V T' K' V' π f) :
    Function.Injective π := by
  induction h with
  | mapped hm h h' => exact hm.injective
  | boxL h ih => exact ih
  | boxR h ih => exact ih
  | sized h ih => exact ih
  | node hm hk hs ht hc ihs iht => exact hm.injective

theorem Rx.agree {α β : Type} {P : α → β → Prop} {x : R α} {y : R β} (h : Rx P x y) : Agree P x y := by
  cases h with
  | ok h => exact .inl ⟨_, _, rfl, rfl, h⟩
  | err e e' => exact .inr ⟨_, _, rfl, rfl⟩

theorem Rx.map {α β α' β' : Type} {P : α → β → Prop} {Q : α' → β' → Prop} {x : R α} {y : R β} {f : α → α'} {g : β → β'}
    (h : Rx P x y) (hf : ∀ a b, P a b → Q (f a) (g b)) : Rx Q (x.map f) (y.map g) := by
  cases h with
  | ok h => exact .ok (hf _ _ h)
  | err e e' => exact .err _ _

theorem Op.rename_id (π : K → K') : Op.rename (V := V) π id = Op.forget π := by
  funext op; cases op <;> rfl
theorem Out.rename_id (π : K → K') : Out.rename (V := V) π id = Out.forget π := by
  funext o; cases o <;> rfl

/-- a tree type of the crate has the shape of itself -/
theorem CrateTree.shape_refl [LinearOrder K] [VebTree T K V] {safe : (K → Prop) → K → Prop} (h : CrateTree T K V safe) :
    SameShape T K V T K V id id := by
  induction h with
  | byteSet => exact .leaf .byteSet .byteSet
  | byteMap => exact .leaf .byteMap .byteMap
  | btreeMap => exact .leaf .btreeMap .btreeMap
  | box h ih => exact .boxL (.boxR ih)
  | sized h ih => exact .sized ih
  | tree hk hs ht hc ihs iht =>
    exact .tree strictMono_id (fun _ _ e => e) ⟨fun _ => rfl, fun _ => rfl, fun _ _ => rfl⟩ ihs iht hc hc

/-- every tree type of the crate exists with other values -/
theorem CrateTree.shape_values [LinearOrder K] [VebTree T K V] {safe : (K → Prop) → K → Prop}
    (h : CrateTree T K V safe) (f : V → V') :
    ∃ (T' : Type) (_ : VebTree T' K V'), CrateTree T' K V' safe ∧ SameShape T K V T' K V' id f := by
  induction h with
  | byteSet => exact ⟨ByteMap V', inferInstance, .byteMap, .leaf .byteSet .byteMap⟩
  | byteMap => exact ⟨ByteMap V', inferInstance, .byteMap, .leaf .byteMap .byteMap⟩
  | @btreeMap K V _ => exact ⟨BTreeMap K V', inferInstance, .btreeMap, .leaf .btreeMap .btreeMap⟩
  | box h ih => obtain ⟨T', _, h1, h2⟩ := ih f; exact ⟨Box T', inferInstance, .box h1, .boxL (.boxR h2)⟩
  | sized h ih => obtain ⟨T', _, h1, h2⟩ := ih f; exact ⟨SizedVebTree T', inferInstance, .sized h1, .sized h2⟩
  | @tree K V S C Hi Lo T _ _ _ _ _ _ _ _ _ _ hk hs ht hc ihs iht =>
    obtain ⟨T', _, h1, h2⟩ := iht f
    exact ⟨Tree K V' S (HashMap Hi T'), inferInstance, .tree hk hs h1 .hash,
      .tree strictMono_id (fun _ _ e => e) ⟨fun _ => rfl, fun _ => rfl, fun _ _ => rfl⟩ hs.shape_refl h2 hc .hash⟩

/-! ## Iterators -/

section
variable [LinearOrder K] [LinearOrder K'] [VebTree T K V] [VebTree T' K' V'] {π : K → K'} {f : V → V'} {S : T → T' → Prop}

/-- a state of an iterator over renamed keys -/
def IterData.ren (π : K → K') : IterData K → IterData K'
  | .start => .start
  | .front k => .front (π k)
  | .back k => .back (π k)
  | .both a b => .both (π a) (π b)

/-- related iterators -/
def IterX (π : K → K') (S : T → T' → Prop) (a : Iter T K) (b : Iter T' K') : Prop :=
  S a.tree b.tree ∧ b.data = a.data.map (IterData.ren π) ∧ b.emitted = a.emitted

/-- related results of a call -/
def CallX (π : K → K') (f : V → V') (S : T → T' → Prop) (a : Iter T K × Option (K × V))
    (b : Iter T' K' × Option (K' × V')) : Prop :=
  IterX π S a.1 b.1 ∧ b.2 = a.2.map (kvf π f)

theorem callX_emit {a : Iter T K} {b : Iter T' K'} (h : IterX π S a b) (d : IterData K) (e : K × V) :
    Rx (CallX π f S) (a.emit d e) (b.emit (d.ren π) (kvf π f e)) := by
  unfold Iter.emit
  rw [h.2.2]
  exact Rx.bindEq fun n => .ok ⟨⟨h.1, rfl, rfl⟩, rfl⟩

theorem callX_stop {a : Iter T K} {b : Iter T' K'} (h : IterX π S a b) :
    Rx (CallX π f S) a.stop b.stop := .ok ⟨⟨h.1, rfl, h.2.2⟩, rfl⟩

theorem callX_ifEq (hi : Function.Injective π) {x y : K} {A B : Type} {Q : A → B → Prop}
    {a b : R A} {a' b' : R B} (h1 : Rx Q a a') (h2 : Rx Q b b') :
    Rx Q (if x = y then a else b) (if π x = π y then a' else b') := by
  by_cases h : x = y
  · rw [if_pos h, if_pos (congrArg π h)]; exact h1
  · rw [if_neg h, if_neg (fun e => h (hi e))]; exact h2

theorem SameTree.call (hS : SameTree π f S) (hi : Function.Injective π) {a : Iter T K} {b : Iter T' K'}
    (h : IterX π S a b) (s : Side) : Rx (CallX π f S) (a.call s) (b.call s) := by
  have hd := h.2.1
  cases s
  · show Rx _ a.next b.next
    unfold Iter.next
    rw [hd]
    rcases a.data with _ | _ | k | k | ⟨x, y⟩
    · exact callX_stop h
    · refine (hS.minVal h.1).bind ?_
      rintro e _ rfl
      exact callX_emit h _ _
    · refine (hS.successor h.1 k).bind ?_
      rintro (_ | e) _ rfl
      · exact callX_stop h
      · exact callX_emit h (.front e.1) _
    · refine (hS.minVal h.1).bind ?_
      rintro e _ rfl
      exact callX_ifEq hi (callX_stop h) (callX_emit h (.both e.1 k) _)
    · refine (hS.successor h.1 x).bind ?_
      rintro (_ | e) _ rfl
      · exact Rx.bindEq fun _ => callX_stop h
      · exact callX_ifEq hi (callX_stop h) (callX_emit h (.both e.1 y) _)
  · show Rx _ a.nextBack b.nextBack
    unfold Iter.nextBack
    rw [hd]
    rcases a.data with _ | _ | k | k | ⟨x, y⟩
    · exact callX_stop h
    · refine (hS.maxVal h.1).bind ?_
      rintro e _ rfl
      exact callX_emit h _ _
    · refine (hS.maxVal h.1).bind ?_
      rintro e _ rfl
      exact callX_ifEq hi (callX_stop h) (callX_emit h (.both k e.1) _)
    · refine (hS.predecessor h.1 k).bind ?_
      rintro (_ | e) _ rfl
      · exact callX_stop h
      · exact callX_emit h (.back e.1) _
    · refine (hS.predecessor h.1 y).bind ?_
      rintro (_ | e) _ rfl
      · exact Rx.bindEq fun _ => callX_stop h
      · exact callX_ifEq hi (callX_stop h) (callX_emit h (.both x e.1) _)

theorem SameTree.calls (hS : SameTree π f S) (hi : Function.Injective π) (ss : List Side) {a : Iter T K}
    {b : Iter T' K'} (h : IterX π S a b) :
    Rx (fun x y => IterX π S x.1 y.1 ∧ y.2 = x.2.map (Option.map (kvf π f))) (a.calls ss) (b.calls ss) := by
  induction ss generalizing a b with
  | nil => exact .ok ⟨h, rfl⟩
  | cons s ss ih =>
    refine (hS.call hi h s).bind ?_
    rintro ⟨i, o⟩ ⟨j, _⟩ ⟨hij, rfl⟩
    refine (ih hij).bind ?_
    rintro ⟨i, os⟩ ⟨j, _⟩ ⟨hij, rfl⟩
    exact .ok ⟨hij, rfl⟩
end
end Veb
