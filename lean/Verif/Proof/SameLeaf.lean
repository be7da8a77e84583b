import Verif.Proof.KeyObjColl
import Verif.SpecSame
import Verif.Proof.Lawful
import Verif.Proof.MapLemmas

/-!
Simulation between trees with different leaves and collections: what is related, and how leaves, boxes and counted trees
are.
-/

set_option autoImplicit false
set_option linter.unusedSectionVars false
namespace Veb

/-! ## Related outcomes -/

/-- both panic, or both return, related values -/
inductive Rx {α β : Type} (P : α → β → Prop) : R α → R β → Prop
  | ok {a : α} {b : β} (h : P a b) : Rx P (.ok a) (.ok b)
  | err (e e' : Panic) : Rx P (.error e) (.error e')

namespace Rx
variable {α β α' β' : Type} {P : α → β → Prop} {Q : α' → β' → Prop}
theorem bind {x : R α} {y : R β} {f : α → R α'} {g : β → R β'} (h : Rx P x y)
    (hf : ∀ a b, P a b → Rx Q (f a) (g b)) : Rx Q (x >>= f) (y >>= g) := by
  cases h with
  | ok h => exact hf _ _ h
  | err e e' => exact .err e e'
theorem bindL {Q : α' → β → Prop} {x : R α} {y : R β} {f : α → R α'} (h : Rx P x y)
    (hf : ∀ a b, P a b → Rx Q (f a) (.ok b)) : Rx Q (x >>= f) y := by
  cases h with
  | ok h => exact hf _ _ h
  | err e e' => exact .err e e'
theorem bindR {Q : α → β' → Prop} {x : R α} {y : R β} {g : β → R β'} (h : Rx P x y)
    (hf : ∀ a b, P a b → Rx Q (.ok a) (g b)) : Rx Q x (y >>= g) := by
  cases h with
  | ok h => exact hf _ _ h
  | err e e' => exact .err e e'
theorem refl (x : R α) : Rx (fun a b => b = a) x x := by
  cases x
  · exact .err _ _
  · exact .ok rfl
theorem mono {P' : α → β → Prop} {x : R α} {y : R β} (h : Rx P x y) (hP : ∀ a b, P a b → P' a b) : Rx P' x y := by
  cases h with
  | ok h => exact .ok (hP _ _ h)
  | err e e' => exact .err e e'
theorem bindEq {x : R α} {f : α → R α'} {g : α → R β'} (hf : ∀ a, Rx Q (f a) (g a)) :
    Rx Q (x >>= f) (x >>= g) := by
  cases x
  · exact .err _ _
  · exact hf _
theorem expect {x : Option α} {y : Option β} (m : String) (h : Option.Rel P x y) :
    Rx P (Veb.expect m x) (Veb.expect m y) := by
  cases h with
  | none => exact .err _ _
  | some h => exact .ok h
end Rx

variable {K K' Hi Hi' Lo Lo' V V' T T' C C' : Type}

/-- an entry with the key and the value renamed -/
def kvf (π : K → K') (f : V → V') (p : K × V) : K' × V' := (π p.1, f p.2)

/-- entries related by `π` and `f` -/
abbrev EntX (π : K → K') (f : V → V') (p : K × V) (q : K' × V') : Prop := q = kvf π f p
/-- optional entries -/
abbrev OptX (π : K → K') (f : V → V') (p : Option (K × V)) (q : Option (K' × V')) : Prop := q = p.map (kvf π f)
/-- a `&mut` result -/
def MutX {T T' : Type} (π : K → K') (f : V → V') (S : T → T' → Prop) (a : K × V × (V → T)) (b : K' × V' × (V' → T')) :
    Prop := b.1 = π a.1 ∧ b.2.1 = f a.2.1 ∧ ∀ w, S (a.2.2 w) (b.2.2 (f w))
/-- a removal -/
def RemX {T T' : Type} (π : K → K') (f : V → V') (S : T → T' → Prop) (a : Option T × (K × V))
    (b : Option T' × (K' × V')) : Prop := Option.Rel S a.1 b.1 ∧ b.2 = kvf π f a.2
/-- an insertion -/
def InsX {T T' : Type} (π : K → K') (f : V → V') (S : T → T' → Prop) (a : T × Option (K × V))
    (b : T' × Option (K' × V')) : Prop := S a.1 b.1 ∧ b.2 = a.2.map (kvf π f)
/-- outcome of `insert_key` -/
def insKeyX (πh : Hi → Hi') (πl : Lo → Lo') (f : V → V') :
    Result Hi (Hi × Option (Lo × V)) → Result Hi' (Hi' × Option (Lo' × V'))
  | .Ok h => .Ok (πh h)
  | .Err (h, o) => .Err (πh h, o.map (kvf πl f))
/-- outcome of `remove_key` -/
def RemKeyX {C C' : Type} (πl : Lo → Lo') (f : V → V') (SC : C → C' → Prop) (a : Option (C × Bool) × (Lo × V))
    (b : Option (C' × Bool) × (Lo' × V')) : Prop :=
  Option.Rel (fun x y => SC x.1 y.1 ∧ y.2 = x.2) a.1 b.1 ∧ b.2 = kvf πl f a.2

/-- `S` is a simulation between two tree types, up to the message of a panic and `len_hint`. -/
structure SameTree {T T' : Type} [VebTree T K V] [VebTree T' K' V'] (π : K → K') (f : V → V') (S : T → T' → Prop) : Prop where
  fromMonad (k : K) (v : V) : S (VebTree.fromMonad k v) (VebTree.fromMonad (π k) (f v))
  isMonad {t : T} {t' : T'} (h : S t t') : Rx (fun a b => b = a) (VebTree.isMonad t) (VebTree.isMonad t')
  intoMonad {t : T} {t' : T'} (h : S t t') : Rx (ResR (EntX π f) S) (VebTree.intoMonad t) (VebTree.intoMonad t')
  minVal {t : T} {t' : T'} (h : S t t') : Rx (EntX π f) (VebTree.minVal t) (VebTree.minVal t')
  minValMut {t : T} {t' : T'} (h : S t t') : Rx (MutX π f S) (VebTree.minValMut t) (VebTree.minValMut t')
  maxVal {t : T} {t' : T'} (h : S t t') : Rx (EntX π f) (VebTree.maxVal t) (VebTree.maxVal t')
  maxValMut {t : T} {t' : T'} (h : S t t') : Rx (MutX π f S) (VebTree.maxValMut t) (VebTree.maxValMut t')
  find {t : T} {t' : T'} (h : S t t') (k : K) : Rx (OptX π f) (VebTree.find t k) (VebTree.find t' (π k))
  findMut {t : T} {t' : T'} (h : S t t') (k : K) :
    Rx (Option.Rel (MutX π f S)) (VebTree.findMut t k) (VebTree.findMut t' (π k))
  predecessor {t : T} {t' : T'} (h : S t t') (k : K) :
    Rx (OptX π f) (VebTree.predecessor t k) (VebTree.predecessor t' (π k))
  predecessorMut {t : T} {t' : T'} (h : S t t') (k : K) :
    Rx (Option.Rel (MutX π f S)) (VebTree.predecessorMut t k) (VebTree.predecessorMut t' (π k))
  successor {t : T} {t' : T'} (h : S t t') (k : K) : Rx (OptX π f) (VebTree.successor t k) (VebTree.successor t' (π k))
  successorMut {t : T} {t' : T'} (h : S t t') (k : K) :
    Rx (Option.Rel (MutX π f S)) (VebTree.successorMut t k) (VebTree.successorMut t' (π k))
  insert {t : T} {t' : T'} (h : S t t') (k : K) (v : V) :
    Rx (InsX π f S) (VebTree.insert t k v) (VebTree.insert t' (π k) (f v))
  remove {t : T} {t' : T'} (h : S t t') (k : K) :
    Rx (ResR (RemX π f S) S) (VebTree.remove t k) (VebTree.remove t' (π k))
  removeMin {t : T} {t' : T'} (h : S t t') : Rx (RemX π f S) (VebTree.removeMin t) (VebTree.removeMin t')
  removeMax {t : T} {t' : T'} (h : S t t') : Rx (RemX π f S) (VebTree.removeMax t) (VebTree.removeMax t')


/-- The same for collections. -/
structure SameColl {T T' C C' : Type} [TreeCollection C Hi T Lo V] [TreeCollection C' Hi' T' Lo' V']
    (πh : Hi → Hi') (πl : Lo → Lo') (f : V → V') (ST : T → T' → Prop) (SC : C → C' → Prop) : Prop where
  create (h : Hi) {t : T} {t' : T'} (ht : ST t t') :
    Rx SC (TreeCollection.create h t) (TreeCollection.create (πh h) t')
  get {c : C} {c' : C'} (hc : SC c c') (h : Hi) :
    Rx (Option.Rel ST) (TreeCollection.get c h) (TreeCollection.get c' (πh h))
  getMut {c : C} {c' : C'} (hc : SC c c') (h : Hi) :
    Rx (Option.Rel fun a b => ST a.1 b.1 ∧ ∀ u u', ST u u' → SC (a.2 u) (b.2 u')) (TreeCollection.getMut c h)
      (TreeCollection.getMut c' (πh h))
  insertKey {c : C} {c' : C'} (hc : SC c c') (h : Hi) (l : Lo) (v : V) :
    Rx (fun a b => SC a.1 b.1 ∧ b.2 = insKeyX πh πl f a.2) (TreeCollection.insertKey c h (l, v))
      (TreeCollection.insertKey c' (πh h) (πl l, f v))
  removeKey {c : C} {c' : C'} (hc : SC c c') (h : Hi) {r : T → R (Option T × (Lo × V))}
    {r' : T' → R (Option T' × (Lo' × V'))} (hr : ∀ t t', ST t t' → Rx (RemX πl f ST) (r t) (r' t')) :
    Rx (RemKeyX πl f SC) (TreeCollection.removeKey c h r) (TreeCollection.removeKey c' (πh h) r')
  maybeRemoveKey {c : C} {c' : C'} (hc : SC c c') (h : Hi) {r : T → R (Result (Option T × (Lo × V)) T)}
    {r' : T' → R (Result (Option T' × (Lo' × V')) T')}
    (hr : ∀ t t', ST t t' → Rx (ResR (RemX πl f ST) ST) (r t) (r' t')) :
    Rx (ResR (RemKeyX πl f SC) SC) (TreeCollection.maybeRemoveKey c h r) (TreeCollection.maybeRemoveKey c' (πh h) r')

/-! ## Wrapped trees -/

theorem mutX_mapL {A A' B : Type} {π : K → K'} {f : V → V'} {S : A → A' → Prop} {S' : B → A' → Prop} {φ : A → B}
    (h : ∀ a a', S a a' → S' (φ a) a') {x : K × V × (V → A)} {y : K' × V' × (V' → A')} (hx : MutX π f S x y) :
    MutX π f S' (mapPut φ x) y := by
  obtain ⟨k, v, put⟩ := x
  exact ⟨hx.1, hx.2.1, fun w => h _ _ (hx.2.2 w)⟩
theorem mutX_mapR {A A' B : Type} {π : K → K'} {f : V → V'} {S : A → A' → Prop} {S' : A → B → Prop} {g : A' → B}
    (h : ∀ a a', S a a' → S' a (g a')) {x : K × V × (V → A)} {y : K' × V' × (V' → A')} (hx : MutX π f S x y) :
    MutX π f S' x (mapPut g y) := by
  obtain ⟨k, v, put⟩ := y
  exact ⟨hx.1, hx.2.1, fun w => h _ _ (hx.2.2 w)⟩
theorem mutX_mapOptL {A A' B : Type} {π : K → K'} {f : V → V'} {S : A → A' → Prop} {S' : B → A' → Prop} {φ : A → B}
    (h : ∀ a a', S a a' → S' (φ a) a') {x : Option (K × V × (V → A))} {y : Option (K' × V' × (V' → A'))}
    (hx : Option.Rel (MutX π f S) x y) : Option.Rel (MutX π f S') (x.map (mapPut φ)) y := by
  cases hx with
  | none => exact .none
  | some hx => exact .some (mutX_mapL h hx)
theorem mutX_mapOptR {A A' B : Type} {π : K → K'} {f : V → V'} {S : A → A' → Prop} {S' : A → B → Prop} {g : A' → B}
    (h : ∀ a a', S a a' → S' a (g a')) {x : Option (K × V × (V → A))} {y : Option (K' × V' × (V' → A'))}
    (hx : Option.Rel (MutX π f S) x y) : Option.Rel (MutX π f S') x (y.map (mapPut g)) := by
  cases hx with
  | none => exact .none
  | some hx => exact .some (mutX_mapR h hx)

theorem mutX_map {A A' B B' : Type} {π : K → K'} {f : V → V'} {S : A → A' → Prop} {S' : B → B' → Prop} {φ : A → B}
    {g : A' → B'} (h : ∀ a a', S a a' → S' (φ a) (g a')) {x : K × V × (V → A)} {y : K' × V' × (V' → A')}
    (hx : MutX π f S x y) : MutX π f S' (mapPut φ x) (mapPut g y) := by
  obtain ⟨k, v, put⟩ := x
  obtain ⟨k', v', put'⟩ := y
  exact ⟨hx.1, hx.2.1, fun w => h _ _ (hx.2.2 w)⟩
theorem mutX_mapOpt {A A' B B' : Type} {π : K → K'} {f : V → V'} {S : A → A' → Prop} {S' : B → B' → Prop} {φ : A → B}
    {g : A' → B'} (h : ∀ a a', S a a' → S' (φ a) (g a')) {x : Option (K × V × (V → A))}
    {y : Option (K' × V' × (V' → A'))} (hx : Option.Rel (MutX π f S) x y) :
    Option.Rel (MutX π f S') (x.map (mapPut φ)) (y.map (mapPut g)) := by
  cases hx with
  | none => exact .none
  | some hx => exact .some (mutX_map h hx)

section
variable [VebTree T K V] [VebTree T' K' V'] {π : K → K'} {f : V → V'} {S : T → T' → Prop}

/-- a boxed tree on the left -/
def BoxL (S : T → T' → Prop) (a : Box T) (b : T') : Prop := S a.val b
/-- a boxed tree on the right -/
def BoxRt (S : T → T' → Prop) (a : T) (b : Box T') : Prop := S a b.val

theorem boxL_map {x : Option T} {y : Option T'} (h : Option.Rel S x y) : Option.Rel (BoxL S) (x.map Box.mk) y := by
  cases h with
  | none => exact .none
  | some h => exact .some h
theorem boxRt_map {x : Option T} {y : Option T'} (h : Option.Rel S x y) : Option.Rel (BoxRt S) x (y.map Box.mk) := by
  cases h with
  | none => exact .none
  | some h => exact .some h

theorem Box.sameL (h : SameTree π f S) : SameTree (T := Box T) (T' := T') π f (BoxL S) := by
  constructor
  case fromMonad => intro k v; exact h.fromMonad k v
  case isMonad => intro t t' ht; exact h.isMonad ht
  case intoMonad =>
    intro t t' ht
    refine (h.intoMonad ht).bindL ?_
    rintro _ _ (h | h)
    · exact .ok (.ok h)
    · exact .ok (.err h)
  case minVal => intro t t' ht; exact h.minVal ht
  case maxVal => intro t t' ht; exact h.maxVal ht
  case minValMut => intro t t' ht; exact (h.minValMut ht).bindL fun a b hab => .ok (mutX_mapL (S' := BoxL S) (φ := Box.mk) (fun _ _ h => h) hab)
  case maxValMut => intro t t' ht; exact (h.maxValMut ht).bindL fun a b hab => .ok (mutX_mapL (S' := BoxL S) (φ := Box.mk) (fun _ _ h => h) hab)
  case find => intro t t' ht k; exact h.find ht k
  case predecessor => intro t t' ht k; exact h.predecessor ht k
  case successor => intro t t' ht k; exact h.successor ht k
  case findMut => intro t t' ht k; exact (h.findMut ht k).bindL fun a b hab => .ok (mutX_mapOptL (S' := BoxL S) (φ := Box.mk) (fun _ _ h => h) hab)
  case predecessorMut =>
    intro t t' ht k; exact (h.predecessorMut ht k).bindL fun a b hab => .ok (mutX_mapOptL (S' := BoxL S) (φ := Box.mk) (fun _ _ h => h) hab)
  case successorMut =>
    intro t t' ht k; exact (h.successorMut ht k).bindL fun a b hab => .ok (mutX_mapOptL (S' := BoxL S) (φ := Box.mk) (fun _ _ h => h) hab)
  case insert => intro t t' ht k v; exact (h.insert ht k v).bindL fun a b hab => .ok hab
  case remove =>
    intro t t' ht k
    refine (h.remove ht k).bindL ?_
    rintro _ _ (h | h)
    · exact .ok (.ok ⟨boxL_map h.1, h.2⟩)
    · exact .ok (.err h)
  case removeMin => intro t t' ht; exact (h.removeMin ht).bindL fun a b hab => .ok ⟨boxL_map hab.1, hab.2⟩
  case removeMax => intro t t' ht; exact (h.removeMax ht).bindL fun a b hab => .ok ⟨boxL_map hab.1, hab.2⟩


theorem Box.sameR (h : SameTree π f S) : SameTree (T := T) (T' := Box T') π f (BoxRt S) := by
  constructor
  case fromMonad => intro k v; exact h.fromMonad k v
  case isMonad => intro t t' ht; exact h.isMonad ht
  case intoMonad =>
    intro t t' ht
    refine (h.intoMonad ht).bindR ?_
    rintro _ _ (h | h)
    · exact .ok (.ok h)
    · exact .ok (.err h)
  case minVal => intro t t' ht; exact h.minVal ht
  case maxVal => intro t t' ht; exact h.maxVal ht
  case minValMut => intro t t' ht; exact (h.minValMut ht).bindR fun a b hab => .ok (mutX_mapR (S' := BoxRt S) (g := Box.mk) (fun _ _ h => h) hab)
  case maxValMut => intro t t' ht; exact (h.maxValMut ht).bindR fun a b hab => .ok (mutX_mapR (S' := BoxRt S) (g := Box.mk) (fun _ _ h => h) hab)
  case find => intro t t' ht k; exact h.find ht k
  case predecessor => intro t t' ht k; exact h.predecessor ht k
  case successor => intro t t' ht k; exact h.successor ht k
  case findMut => intro t t' ht k; exact (h.findMut ht k).bindR fun a b hab => .ok (mutX_mapOptR (S' := BoxRt S) (g := Box.mk) (fun _ _ h => h) hab)
  case predecessorMut =>
    intro t t' ht k; exact (h.predecessorMut ht k).bindR fun a b hab => .ok (mutX_mapOptR (S' := BoxRt S) (g := Box.mk) (fun _ _ h => h) hab)
  case successorMut =>
    intro t t' ht k; exact (h.successorMut ht k).bindR fun a b hab => .ok (mutX_mapOptR (S' := BoxRt S) (g := Box.mk) (fun _ _ h => h) hab)
  case insert => intro t t' ht k v; exact (h.insert ht k v).bindR fun a b hab => .ok hab
  case remove =>
    intro t t' ht k
    refine (h.remove ht k).bindR ?_
    rintro _ _ (h | h)
    · exact .ok (.ok ⟨boxRt_map h.1, h.2⟩)
    · exact .ok (.err h)
  case removeMin => intro t t' ht; exact (h.removeMin ht).bindR fun a b hab => .ok ⟨boxRt_map hab.1, hab.2⟩
  case removeMax => intro t t' ht; exact (h.removeMax ht).bindR fun a b hab => .ok ⟨boxRt_map hab.1, hab.2⟩


/-- counted trees are related when the trees are and the counts agree -/
def SizedX (S : T → T' → Prop) (a : SizedVebTree T) (b : SizedVebTree T') : Prop := S a.tree b.tree ∧ b.size = a.size

theorem SizedVebTree.same (h : SameTree π f S) : SameTree (T := SizedVebTree T) (T' := SizedVebTree T') π f (SizedX S) := by
  constructor
  case fromMonad => intro k v; exact ⟨h.fromMonad k v, rfl⟩
  case isMonad =>
    rintro ⟨t, n⟩ ⟨t', _⟩ ⟨ht, rfl⟩
    refine (h.isMonad ht).bind ?_
    rintro b _ rfl
    exact Rx.refl _
  case intoMonad =>
    rintro ⟨t, n⟩ ⟨t', _⟩ ⟨ht, rfl⟩
    refine (h.intoMonad ht).bind ?_
    rintro _ _ (h | h)
    · exact .ok (.ok h)
    · exact .ok (.err ⟨h, rfl⟩)
  case minVal => rintro ⟨t, n⟩ ⟨t', _⟩ ⟨ht, rfl⟩; exact h.minVal ht
  case maxVal => rintro ⟨t, n⟩ ⟨t', _⟩ ⟨ht, rfl⟩; exact h.maxVal ht
  case minValMut =>
    rintro ⟨t, n⟩ ⟨t', _⟩ ⟨ht, rfl⟩
    exact (h.minValMut ht).bind fun a b hab => .ok (mutX_map (fun _ _ h => ⟨h, rfl⟩) hab)
  case maxValMut =>
    rintro ⟨t, n⟩ ⟨t', _⟩ ⟨ht, rfl⟩
    exact (h.maxValMut ht).bind fun a b hab => .ok (mutX_map (fun _ _ h => ⟨h, rfl⟩) hab)
  case find => rintro ⟨t, n⟩ ⟨t', _⟩ ⟨ht, rfl⟩ k; exact h.find ht k
  case predecessor => rintro ⟨t, n⟩ ⟨t', _⟩ ⟨ht, rfl⟩ k; exact h.predecessor ht k
  case successor => rintro ⟨t, n⟩ ⟨t', _⟩ ⟨ht, rfl⟩ k; exact h.successor ht k
  case findMut =>
    rintro ⟨t, n⟩ ⟨t', _⟩ ⟨ht, rfl⟩ k
    exact (h.findMut ht k).bind fun a b hab => .ok (mutX_mapOpt (fun _ _ h => ⟨h, rfl⟩) hab)
  case predecessorMut =>
    rintro ⟨t, n⟩ ⟨t', _⟩ ⟨ht, rfl⟩ k
    exact (h.predecessorMut ht k).bind fun a b hab => .ok (mutX_mapOpt (fun _ _ h => ⟨h, rfl⟩) hab)
  case successorMut =>
    rintro ⟨t, n⟩ ⟨t', _⟩ ⟨ht, rfl⟩ k
    exact (h.successorMut ht k).bind fun a b hab => .ok (mutX_mapOpt (fun _ _ h => ⟨h, rfl⟩) hab)
  case insert =>
    rintro ⟨t, n⟩ ⟨t', _⟩ ⟨ht, rfl⟩ k v
    refine (h.insert ht k v).bind ?_
    rintro ⟨a, o⟩ ⟨b, _⟩ ⟨hab, rfl⟩
    cases o with
    | none => exact Rx.bindEq fun m => .ok ⟨⟨hab, rfl⟩, rfl⟩
    | some o => exact .ok ⟨⟨hab, rfl⟩, rfl⟩
  case remove =>
    rintro ⟨t, n⟩ ⟨t', _⟩ ⟨ht, rfl⟩ k
    refine (h.remove ht k).bind ?_
    rintro _ _ (@⟨⟨_, a⟩, ⟨_, b⟩, ⟨(h | _), rfl⟩⟩ | h)
    · exact Rx.bindEq fun m => Rx.bindEq fun m => .ok (.ok ⟨.some ⟨h, rfl⟩, rfl⟩)
    · exact .ok (.ok ⟨.none, rfl⟩)
    · exact .ok (.err ⟨h, rfl⟩)
  case removeMin =>
    rintro ⟨t, n⟩ ⟨t', _⟩ ⟨ht, rfl⟩
    refine Rx.bindEq fun m => (h.removeMin ht).bind ?_
    rintro ⟨_, a⟩ ⟨_, b⟩ ⟨(h | _), rfl⟩
    · exact Rx.bindEq fun m => .ok ⟨.some ⟨h, rfl⟩, rfl⟩
    · exact .ok ⟨.none, rfl⟩
  case removeMax =>
    rintro ⟨t, n⟩ ⟨t', _⟩ ⟨ht, rfl⟩
    refine Rx.bindEq fun m => (h.removeMax ht).bind ?_
    rintro ⟨_, a⟩ ⟨_, b⟩ ⟨(h | _), rfl⟩
    · exact Rx.bindEq fun m => .ok ⟨.some ⟨h, rfl⟩, rfl⟩
    · exact .ok ⟨.none, rfl⟩
end


/-! ## Leaves -/

section
variable [LinearOrder K] [LinearOrder K'] [VebTree T K V] [VebTree T' K' V']

/-- the second map is the first with renamed keys and values -/
structure Ren (π : K → K') (f : V → V') (M : Map K V) (M' : Map K' V') : Prop where
  val : ∀ k, M' (π k) = (M k).map f
  img : ∀ k', M'.Mem k' → ∃ k, π k = k'

variable {π : K → K'} {f : V → V'} {M : Map K V} {M' : Map K' V'}
namespace Ren

theorem empty : Ren π f (Map.empty : Map K V) Map.empty := ⟨fun _ => rfl, fun _ h => absurd h (Map.mem_empty _)⟩
theorem upd (hm : StrictMono π) (h : Ren π f M M') (k : K) (o : Option V) :
    Ren π f (M.upd k o) (M'.upd (π k) (o.map f)) := by
  refine ⟨fun j => ?_, fun j' hj => ?_⟩
  · simp only [Map.upd, hm.injective.eq_iff, h.val]; split <;> rfl
  · by_cases hk : j' = π k
    · exact ⟨k, hk.symm⟩
    · rw [Map.Mem, Map.upd_ne _ _ hk] at hj; exact h.img j' hj
theorem single (hm : StrictMono π) (k : K) (v : V) : Ren π f (Map.single k v) (Map.single (π k) (f v)) :=
  empty.upd hm k (some v)
theorem mem (h : Ren π f M M') {k : K} : M'.Mem (π k) ↔ M.Mem k := by
  simp only [Map.Mem, h.val, ne_eq, Option.map_eq_none_iff]
theorem isSingle (hm : StrictMono π) (h : Ren π f M M') : M'.IsSingle ↔ M.IsSingle := by
  constructor
  · rintro ⟨k', hk, hu⟩
    obtain ⟨k, rfl⟩ := h.img k' hk
    exact ⟨k, h.mem.1 hk, fun j hj => hm.injective (hu _ (h.mem.2 hj))⟩
  · rintro ⟨k, hk, hu⟩
    refine ⟨π k, h.mem.2 hk, fun j' hj => ?_⟩
    obtain ⟨j, rfl⟩ := h.img j' hj
    rw [hu j (h.mem.1 hj)]
theorem eq_empty (h : Ren π f M M') : M = Map.empty ↔ M' = Map.empty := by
  constructor
  · rintro rfl
    by_contra hne
    obtain ⟨k', hk⟩ : ∃ k', M'.Mem k' := by
      by_contra hn
      exact hne (funext fun k => not_not.1 fun e => hn ⟨k, e⟩)
    obtain ⟨k, rfl⟩ := h.img k' hk
    exact absurd (h.mem.1 hk) (Map.mem_empty k)
  · rintro rfl
    exact funext fun k => not_not.1 fun e => absurd (h.mem.2 e) (Map.mem_empty _)
theorem isMin (hm : StrictMono π) (h : Ren π f M M') {p : K × V} (hp : M.IsMin p) : M'.IsMin (kvf π f p) := by
  refine ⟨by simp only [kvf, h.val, hp.1, Option.map_some], fun j' hj => ?_⟩
  obtain ⟨j, rfl⟩ := h.img j' hj
  exact hm.le_iff_le.2 (hp.2 j (h.mem.1 hj))
theorem isMax (hm : StrictMono π) (h : Ren π f M M') {p : K × V} (hp : M.IsMax p) : M'.IsMax (kvf π f p) := by
  refine ⟨by simp only [kvf, h.val, hp.1, Option.map_some], fun j' hj => ?_⟩
  obtain ⟨j, rfl⟩ := h.img j' hj
  exact hm.le_iff_le.2 (hp.2 j (h.mem.1 hj))
theorem isPred (hm : StrictMono π) (h : Ren π f M M') {k : K} {o : Option (K × V)} (ho : M.IsPred k o) :
    M'.IsPred (π k) (o.map (kvf π f)) := by
  obtain _ | ⟨p, v⟩ := o
  · intro j' hj
    obtain ⟨j, rfl⟩ := h.img j' hj
    rw [hm.lt_iff_lt]; exact ho j (h.mem.1 hj)
  · refine ⟨by simp only [h.val, ho.1, Option.map_some], hm.lt_iff_lt.2 ho.2.1, fun j' hj hl => ?_⟩
    obtain ⟨j, rfl⟩ := h.img j' hj
    exact hm.le_iff_le.2 (ho.2.2 j (h.mem.1 hj) (hm.lt_iff_lt.1 hl))
theorem isSucc (hm : StrictMono π) (h : Ren π f M M') {k : K} {o : Option (K × V)} (ho : M.IsSucc k o) :
    M'.IsSucc (π k) (o.map (kvf π f)) := by
  obtain _ | ⟨p, v⟩ := o
  · intro j' hj
    obtain ⟨j, rfl⟩ := h.img j' hj
    rw [hm.lt_iff_lt]; exact ho j (h.mem.1 hj)
  · refine ⟨by simp only [h.val, ho.1, Option.map_some], hm.lt_iff_lt.2 ho.2.1, fun j' hj hl => ?_⟩
    obtain ⟨j, rfl⟩ := h.img j' hj
    exact hm.le_iff_le.2 (ho.2.2 j (h.mem.1 hj) (hm.lt_iff_lt.1 hl))
theorem entry (h : Ren π f M M') (k : K) :
    ((M' (π k)).map fun v => (π k, v)) = ((M k).map fun v => (k, v)).map (kvf π f) := by
  rw [h.val, Option.map_map, Option.map_map]; rfl
end Ren

/-- two correct maps with the same contents up to `π` and `f` -/
def LeafR (π : K → K') (f : V → V') (L : LawfulVebTree T K V) (L' : LawfulVebTree T' K' V') (t : T) (t' : T') : Prop :=
  L.Inv t ∧ L'.Inv t' ∧ Ren π f (L.abs t) (L'.abs t')

theorem mutX_leaf (hm : StrictMono π) {L : LawfulVebTree T K V} {L' : LawfulVebTree T' K' V'} {t : T} {t' : T'}
    (h : LeafR π f L L' t t')
    {Q : Option (K × V) → Prop} {Q' : Option (K' × V') → Prop} (hQ : ∀ a b, Q a → Q' b → b = a.map (kvf π f))
    {r : Option (K × V × (V → T))} {r' : Option (K' × V' × (V' → T'))} (hr : MutOk L.Inv L.abs t Q r)
    (hr' : MutOk L'.Inv L'.abs t' Q' r') : Option.Rel (MutX π f (LeafR π f L L')) r r' := by
  have he := hQ _ _ hr.1 hr'.1
  rcases r with _ | ⟨k, v, put⟩ <;> rcases r' with _ | ⟨k', v', put'⟩
  · exact .none
  · cases he
  · cases he
  · have he : some (k', v') = some (π k, f v) := he
    cases he
    refine .some ⟨rfl, rfl, fun w => ?_⟩
    have a := hr.2 _ _ _ rfl w
    have b := hr'.2 _ _ _ rfl (f w)
    refine ⟨a.1, b.1, ?_⟩
    show Ren π f (L.abs (put w)) (L'.abs (put' (f w)))
    rw [a.2, b.2]
    exact h.2.2.upd hm k (some w)

theorem remX_leaf {L : LawfulVebTree T K V} {L' : LawfulVebTree T' K' V'} (hM : Ren π f M M') {o : Option T}
    {o' : Option T'} (h : RemOk L.Inv L.abs M o) (h' : RemOk L'.Inv L'.abs M' o') :
    Option.Rel (LeafR π f L L') o o' := by
  rcases o with _ | t <;> rcases o' with _ | t'
  · exact .none
  · obtain ⟨k, hk⟩ := L'.nonempty t' h'.1
    rw [h'.2, hM.eq_empty.1 h] at hk
    exact absurd hk (Map.mem_empty k)
  · obtain ⟨k, hk⟩ := L.nonempty t h.1
    rw [h.2, hM.eq_empty.2 h'] at hk
    exact absurd hk (Map.mem_empty k)
  · exact .some ⟨h.1, h'.1, by rw [h.2, h'.2]; exact hM⟩

theorem LeafR.same (hm : StrictMono π) (f : V → V') (L : LawfulVebTree T K V) (L' : LawfulVebTree T' K' V')
    (hL : ∀ P k, L.Safe P k) (hL' : ∀ P k, L'.Safe P k) : SameTree π f (LeafR π f L L') := by
  constructor
  case fromMonad =>
    intro k v
    have a := L.fromMonad k v
    have b := L'.fromMonad (π k) (f v)
    exact ⟨a.1, b.1, by rw [a.2, b.2]; exact Ren.single hm k v⟩
  case isMonad =>
    rintro t t' ⟨h1, h2, h3⟩
    obtain ⟨b, e, hb⟩ := L.isMonad t h1
    obtain ⟨b', e', hb'⟩ := L'.isMonad t' h2
    rw [e, e']
    rw [h3.isSingle hm, ← hb] at hb'
    exact .ok (Bool.eq_iff_iff.2 hb')
  case intoMonad =>
    rintro t t' ⟨h1, h2, h3⟩
    rcases L.intoMonad t h1 with ⟨k, v, e, ha⟩ | ⟨e, ha⟩ <;> rcases L'.intoMonad t' h2 with ⟨k', v', e', ha'⟩ | ⟨e', ha'⟩ <;> rw [e, e']
    · rw [ha, ha'] at h3
      have hv := h3.val k
      rw [Map.single_self, Map.single_apply] at hv
      split at hv
      · rename_i hk
        subst hk
        cases hv
        exact .ok (.ok rfl)
      · cases hv
    · rw [ha] at h3
      exact absurd ((h3.isSingle hm).2 (Map.isSingle_single k _)) ha'
    · rw [ha'] at h3
      exact absurd ((h3.isSingle hm).1 (Map.isSingle_single k' v')) ha
    · exact .ok (.err ⟨h1, h2, h3⟩)
  case minVal =>
    rintro t t' ⟨h1, h2, h3⟩
    obtain ⟨p, e, hp⟩ := L.minVal t h1
    obtain ⟨p', e', hp'⟩ := L'.minVal t' h2
    rw [e, e']
    exact .ok (hp'.unique (h3.isMin hm hp))
  case minValMut =>
    rintro t t' ⟨h1, h2, h3⟩
    obtain ⟨⟨k, v, put⟩, e, hp, hw⟩ := L.minValMut t h1
    obtain ⟨⟨k', v', put'⟩, e', hp', hw'⟩ := L'.minValMut t' h2
    rw [e, e']
    have := (h3.isMin hm hp).unique hp'
    cases this
    refine .ok ⟨rfl, rfl, fun w => ⟨(hw w).1, (hw' (f w)).1, ?_⟩⟩
    show Ren π f (L.abs (put w)) (L'.abs (put' (f w)))
    rw [(hw w).2, (hw' (f w)).2]
    exact h3.upd hm k (some w)
  case removeMin =>
    rintro t t' ⟨h1, h2, h3⟩
    obtain ⟨o, p, e, hp, ho⟩ := L.removeMin t h1
    obtain ⟨o', p', e', hp', ho'⟩ := L'.removeMin t' h2
    have := (h3.isMin hm hp).unique hp'
    subst this
    rw [e, e']
    exact .ok ⟨remX_leaf (h3.upd hm p.1 none) ho ho', rfl⟩
  case maxVal =>
    rintro t t' ⟨h1, h2, h3⟩
    obtain ⟨p, e, hp⟩ := L.maxVal t h1
    obtain ⟨p', e', hp'⟩ := L'.maxVal t' h2
    rw [e, e']
    exact .ok (hp'.unique (h3.isMax hm hp))
  case maxValMut =>
    rintro t t' ⟨h1, h2, h3⟩
    obtain ⟨⟨k, v, put⟩, e, hp, hw⟩ := L.maxValMut t h1
    obtain ⟨⟨k', v', put'⟩, e', hp', hw'⟩ := L'.maxValMut t' h2
    rw [e, e']
    have := (h3.isMax hm hp).unique hp'
    cases this
    refine .ok ⟨rfl, rfl, fun w => ⟨(hw w).1, (hw' (f w)).1, ?_⟩⟩
    show Ren π f (L.abs (put w)) (L'.abs (put' (f w)))
    rw [(hw w).2, (hw' (f w)).2]
    exact h3.upd hm k (some w)
  case removeMax =>
    rintro t t' ⟨h1, h2, h3⟩
    obtain ⟨o, p, e, hp, ho⟩ := L.removeMax t h1
    obtain ⟨o', p', e', hp', ho'⟩ := L'.removeMax t' h2
    have := (h3.isMax hm hp).unique hp'
    subst this
    rw [e, e']
    exact .ok ⟨remX_leaf (h3.upd hm p.1 none) ho ho', rfl⟩
  case find =>
    rintro t t' ⟨h1, h2, h3⟩ k
    rw [L.find t k h1, L'.find t' (π k) h2]
    exact .ok (h3.entry k)
  case predecessor =>
    rintro t t' ⟨h1, h2, h3⟩ k
    obtain ⟨r, e, hr⟩ := L.predecessor t k h1
    obtain ⟨r', e', hr'⟩ := L'.predecessor t' (π k) h2
    rw [e, e']
    exact .ok (hr'.unique (h3.isPred hm hr))
  case predecessorMut =>
    rintro t t' h k
    obtain ⟨r, e, hr⟩ := L.predecessorMut t k h.1
    obtain ⟨r', e', hr'⟩ := L'.predecessorMut t' (π k) h.2.1
    rw [e, e']
    exact .ok (mutX_leaf hm h (fun a b ha hb => hb.unique (h.2.2.isPred hm ha)) hr hr')
  case successor =>
    rintro t t' ⟨h1, h2, h3⟩ k
    obtain ⟨r, e, hr⟩ := L.successor t k h1
    obtain ⟨r', e', hr'⟩ := L'.successor t' (π k) h2
    rw [e, e']
    exact .ok (hr'.unique (h3.isSucc hm hr))
  case successorMut =>
    rintro t t' h k
    obtain ⟨r, e, hr⟩ := L.successorMut t k h.1
    obtain ⟨r', e', hr'⟩ := L'.successorMut t' (π k) h.2.1
    rw [e, e']
    exact .ok (mutX_leaf hm h (fun a b ha hb => hb.unique (h.2.2.isSucc hm ha)) hr hr')
  case findMut =>
    rintro t t' h k
    obtain ⟨r, e, hr⟩ := L.findMut t k h.1
    obtain ⟨r', e', hr'⟩ := L'.findMut t' (π k) h.2.1
    rw [e, e']
    refine .ok (mutX_leaf hm h (fun a b ha hb => ?_) hr hr')
    rw [ha, hb]
    exact h.2.2.entry k
  case insert =>
    rintro t t' ⟨h1, h2, h3⟩ k v
    obtain ⟨u, e, hu, ha⟩ := L.insert t k v h1 (hL _ _)
    obtain ⟨u', e', hu', ha'⟩ := L'.insert t' (π k) (f v) h2 (hL' _ _)
    rw [e, e']
    exact .ok ⟨⟨hu, hu', by rw [ha, ha']; exact h3.upd hm k (some v)⟩, h3.entry k⟩
  case remove =>
    rintro t t' ⟨h1, h2, h3⟩ k
    cases hk : L.abs t k with
    | none =>
      rw [L.remove_none t k h1 hk, L'.remove_none t' (π k) h2 (by rw [h3.val, hk]; rfl)]
      exact .ok (.err ⟨h1, h2, h3⟩)
    | some v =>
      obtain ⟨o, e, ho⟩ := L.remove_some t k v h1 hk
      obtain ⟨o', e', ho'⟩ := L'.remove_some t' (π k) (f v) h2 (by rw [h3.val, hk]; rfl)
      rw [e, e']
      exact .ok (.ok ⟨remX_leaf (h3.upd hm k none) ho ho', rfl⟩)
end

/-! ## Collections -/

section
variable [DecidableEq Hi] [DecidableEq Hi'] [VebTree T Lo V] [VebTree T' Lo' V'] [TreeCollection C Hi T Lo V]
  [TreeCollection C' Hi' T' Lo' V'] {πh : Hi → Hi'} {πl : Lo → Lo'} {f : V → V'} {ST : T → T' → Prop}

/-- maps to related trees -/
def MapsR (πh : Hi → Hi') (ST : T → T' → Prop) (M : Map Hi T) (M' : Map Hi' T') : Prop :=
  (∀ h, Option.Rel ST (M h) (M' (πh h))) ∧ ∀ h', M'.Mem h' → ∃ h, πh h = h'

theorem MapsR.upd (hi : Function.Injective πh) {M : Map Hi T} {M' : Map Hi' T'} (h : MapsR πh ST M M') (k : Hi)
    {o : Option T} {o' : Option T'} (ho : Option.Rel ST o o') : MapsR πh ST (M.upd k o) (M'.upd (πh k) o') := by
  refine ⟨fun j => ?_, fun j' hj => ?_⟩
  · by_cases hj : j = k
    · subst hj; rw [Map.upd_self, Map.upd_self]; exact ho
    · rw [Map.upd_ne _ _ hj, Map.upd_ne _ _ (fun e => hj (hi e))]; exact h.1 j
  · by_cases hk : j' = πh k
    · exact ⟨k, hk.symm⟩
    · rw [Map.Mem, Map.upd_ne _ _ hk] at hj; exact h.2 j' hj

theorem MapsR.single (hi : Function.Injective πh) (k : Hi) {t : T} {t' : T'} (ht : ST t t') :
    MapsR πh ST (Map.single k t) (Map.single (πh k) t') :=
  MapsR.upd hi ⟨fun _ => .none, fun _ h => absurd h (Map.mem_empty _)⟩ k (.some ht)

theorem MapsR.empty_iff {M : Map Hi T} {M' : Map Hi' T'} (h : MapsR πh ST M M') :
    (∃ k, M.Mem k) ↔ ∃ k, M'.Mem k := by
  constructor
  · rintro ⟨k, hk⟩
    refine ⟨πh k, fun e => hk ?_⟩
    have := h.1 k
    rw [e] at this
    generalize M k = o at this
    cases this
    rfl
  · rintro ⟨k', hk⟩
    obtain ⟨k, rfl⟩ := h.2 k' hk
    refine ⟨k, fun e => hk ?_⟩
    have := h.1 k
    rw [e] at this
    generalize M' (πh k) = o at this
    cases this
    rfl

/-- two correct collections with related contents -/
def CollX (L : LawfulColl C Hi T Lo V) (L' : LawfulColl C' Hi' T' Lo' V') (πh : Hi → Hi') (ST : T → T' → Prop)
    (c : C) (c' : C') : Prop :=
  L.Inv c ∧ L'.Inv c' ∧ MapsR πh ST (L.abs c) (L'.abs c')

theorem CollX.rem {L : LawfulColl C Hi T Lo V} {L' : LawfulColl C' Hi' T' Lo' V'} (hi : Function.Injective πh) {c : C}
    {c' : C'} (hc : CollX L L' πh ST c c') (h : Hi) {o : Option T} {o' : Option T'} (ho : Option.Rel ST o o')
    {r : Option (C × Bool)} {r' : Option (C' × Bool)} (hr : CollRemOk L.Inv L.abs c h o r)
    (hr' : CollRemOk L'.Inv L'.abs c' (πh h) o' r') :
    Option.Rel (fun x y => CollX L L' πh ST x.1 y.1 ∧ y.2 = x.2) r r' := by
  have hm := hc.2.2.upd hi h ho
  rcases r with _ | ⟨d, b⟩ <;> rcases r' with _ | ⟨d', b'⟩
  · exact .none
  · obtain ⟨k, hk⟩ := L'.nonempty d' hr'.2.1
    rw [hr'.2.2] at hk
    obtain ⟨rfl, hr⟩ := hr
    rw [hr] at hm
    obtain ⟨j, hj⟩ := hm.empty_iff.2 ⟨k, hk⟩
    exact absurd hj (Map.mem_empty j)
  · obtain ⟨k, hk⟩ := L.nonempty d hr.2.1
    rw [hr.2.2] at hk
    obtain ⟨rfl, hr'⟩ := hr'
    rw [hr'] at hm
    obtain ⟨j, hj⟩ := hm.empty_iff.1 ⟨k, hk⟩
    exact absurd hj (Map.mem_empty j)
  · refine .some ⟨⟨hr.2.1, hr'.2.1, ?_⟩, ?_⟩
    · show MapsR πh ST (L.abs d) (L'.abs d')
      rw [hr.2.2, hr'.2.2]; exact hm
    · show b' = b
      rw [hr.1, hr'.1]; exact optRel_isNone ho

theorem CollX.same (L : LawfulColl C Hi T Lo V) (L' : LawfulColl C' Hi' T' Lo' V') (hi : Function.Injective πh)
    (hT : SameTree πl f ST) : SameColl πh πl f ST (CollX L L' πh ST) := by
  constructor
  case create =>
    intro h t t' ht
    obtain ⟨c, e, hc, ha⟩ := L.create h t
    obtain ⟨c', e', hc', ha'⟩ := L'.create (πh h) t'
    rw [e, e']
    exact .ok ⟨hc, hc', by rw [ha, ha']; exact MapsR.single hi h ht⟩
  case get =>
    intro c c' hc h
    rw [L.get c h hc.1, L'.get c' (πh h) hc.2.1]
    exact .ok (hc.2.2.1 h)
  case getMut =>
    intro c c' hc h
    have := hc.2.2.1 h
    cases ha : L.abs c h with
    | none =>
      rw [ha] at this
      have hb : L'.abs c' (πh h) = none := by
        generalize L'.abs c' (πh h) = o at this
        cases this
        rfl
      rw [L.getMut_none c h hc.1 ha, L'.getMut_none c' _ hc.2.1 hb]
      exact .ok .none
    | some t =>
      cases hb : L'.abs c' (πh h) with
      | none => rw [ha, hb] at this; cases this
      | some t' =>
        obtain ⟨put, e, hp⟩ := L.getMut_some c h t hc.1 ha
        obtain ⟨put', e', hp'⟩ := L'.getMut_some c' _ t' hc.2.1 hb
        rw [ha, hb] at this
        cases this with
        | some ht =>
        rw [e, e']
        exact .ok (.some ⟨ht, fun u u' hu =>
          ⟨(hp u).1, (hp' u').1, by rw [(hp u).2, (hp' u').2]; exact hc.2.2.upd hi h (.some hu)⟩⟩)
  case insertKey =>
    intro c c' hc h l v
    have := hc.2.2.1 h
    cases ha : L.abs c h with
    | none =>
      rw [ha] at this
      have hb : L'.abs c' (πh h) = none := by
        generalize L'.abs c' (πh h) = o at this
        cases this
        rfl
      obtain ⟨d, e, hd, hda⟩ := L.insert_none c h l v hc.1 ha
      obtain ⟨d', e', hd', hda'⟩ := L'.insert_none c' _ (πl l) (f v) hc.2.1 hb
      rw [e, e']
      exact .ok ⟨⟨hd, hd', by rw [hda, hda']; exact hc.2.2.upd hi h (.some (hT.fromMonad l v))⟩, rfl⟩
    | some t =>
      cases hb : L'.abs c' (πh h) with
      | none => rw [ha, hb] at this; cases this
      | some t' =>
        rw [ha, hb] at this
        cases this with
        | some ht =>
        have hI := hT.insert ht l v
        cases hx : VebTree.insert t l v with
        | error p =>
          cases hy : VebTree.insert t' (πl l) (f v) with
          | error p' =>
            rw [L.insert_panic c h l v t p hc.1 ha hx, L'.insert_panic c' _ (πl l) (f v) t' p' hc.2.1 hb hy]
            exact .err _ _
          | ok y => rw [hx, hy] at hI; cases hI
        | ok x =>
          cases hy : VebTree.insert t' (πl l) (f v) with
          | error p' => rw [hx, hy] at hI; cases hI
          | ok y =>
            rw [hx, hy] at hI
            cases hI with
            | ok hI =>
            obtain ⟨u, o⟩ := x
            obtain ⟨u', _⟩ := y
            obtain ⟨hu, rfl⟩ := hI
            obtain ⟨d, e, hd, hda⟩ := L.insert_some c h l v t u o hc.1 ha hx
            obtain ⟨d', e', hd', hda'⟩ := L'.insert_some c' _ (πl l) (f v) t' u' _ hc.2.1 hb hy
            rw [e, e']
            exact .ok ⟨⟨hd, hd', by rw [hda, hda']; exact hc.2.2.upd hi h (.some hu)⟩, rfl⟩
  case removeKey =>
    intro c c' hc h r r' hr
    have := hc.2.2.1 h
    cases ha : L.abs c h with
    | none =>
      rw [ha] at this
      have hb : L'.abs c' (πh h) = none := by
        generalize L'.abs c' (πh h) = o at this
        cases this
        rfl
      rw [L.removeKey_absent c h r hc.1 ha, L'.removeKey_absent c' _ r' hc.2.1 hb]
      exact .err _ _
    | some t =>
      cases hb : L'.abs c' (πh h) with
      | none => rw [ha, hb] at this; cases this
      | some t' =>
        rw [ha, hb] at this
        cases this with
        | some ht =>
        have hI := hr t t' ht
        cases hx : r t with
        | error p =>
          cases hy : r' t' with
          | error p' =>
            rw [L.removeKey_panic c h t r p hc.1 ha hx, L'.removeKey_panic c' _ t' r' p' hc.2.1 hb hy]
            exact .err _ _
          | ok y => rw [hx, hy] at hI; cases hI
        | ok x =>
          cases hy : r' t' with
          | error p' => rw [hx, hy] at hI; cases hI
          | ok y =>
            rw [hx, hy] at hI
            cases hI with
            | ok hI =>
            obtain ⟨o, p⟩ := x
            obtain ⟨o', _⟩ := y
            obtain ⟨ho, rfl⟩ := hI
            obtain ⟨s, e, hs⟩ := L.removeKey c h t r o p hc.1 ha hx
            obtain ⟨s', e', hs'⟩ := L'.removeKey c' _ t' r' o' _ hc.2.1 hb hy
            rw [e, e']
            exact .ok ⟨hc.rem hi h ho hs hs', rfl⟩
  case maybeRemoveKey =>
    intro c c' hc h r r' hr
    have := hc.2.2.1 h
    cases ha : L.abs c h with
    | none =>
      rw [ha] at this
      have hb : L'.abs c' (πh h) = none := by
        generalize L'.abs c' (πh h) = o at this
        cases this
        rfl
      rw [L.maybe_absent c h r hc.1 ha, L'.maybe_absent c' _ r' hc.2.1 hb]
      exact .ok (.err hc)
    | some t =>
      cases hb : L'.abs c' (πh h) with
      | none => rw [ha, hb] at this; cases this
      | some t' =>
        rw [ha, hb] at this
        cases this with
        | some ht =>
        have hI := hr t t' ht
        cases hx : r t with
        | error p =>
          cases hy : r' t' with
          | error p' =>
            rw [L.maybe_panic c h t r p hc.1 ha hx, L'.maybe_panic c' _ t' r' p' hc.2.1 hb hy]
            exact .err _ _
          | ok y => rw [hx, hy] at hI; cases hI
        | ok x =>
          cases hy : r' t' with
          | error p' => rw [hx, hy] at hI; cases hI
          | ok y =>
            rw [hx, hy] at hI
            cases hI with
            | ok hI =>
            cases hI with
            | @err u u' hu =>
              obtain ⟨d, e, hd, hda⟩ := L.maybe_err' c h t r u hc.1 ha hx
              obtain ⟨d', e', hd', hda'⟩ := L'.maybe_err' c' _ t' r' u' hc.2.1 hb hy
              rw [e, e']
              exact .ok (.err ⟨hd, hd', by rw [hda, hda']; exact hc.2.2.upd hi h (.some hu)⟩)
            | @ok x y hI =>
              obtain ⟨o, p⟩ := x
              obtain ⟨o', _⟩ := y
              obtain ⟨ho, rfl⟩ := hI
              obtain ⟨s, e, hs⟩ := L.maybe_ok c h t r o p hc.1 ha hx
              obtain ⟨s', e', hs'⟩ := L'.maybe_ok c' _ t' r' o' _ hc.2.1 hb hy
              rw [e, e']
              exact .ok (.ok ⟨hc.rem hi h ho hs hs', rfl⟩)
end

/-! ## Arrays addressed alike, boxed collections -/

section
variable [SizedVebKey Hi] [SizedVebKey Hi'] [VebTree T Lo V] [VebTree T' Lo' V'] {πh : Hi → Hi'} {πl : Lo → Lo'}
  {f : V → V'} {ST : T → T' → Prop}

/-- arrays with related slots -/
structure ArrX (ST : T → T' → Prop) (c : ArrayColl Hi T) (c' : ArrayColl Hi' T') : Prop where
  len : c'.array.len = c.array.len
  count : c'.count = c.count
  slot : ∀ i, Option.Rel ST (c.array.slot i) (c'.array.slot i)

/-- arrays with related slots, without the counter -/
structure OArrX (ST : T → T' → Prop) (a : OptionArray T) (a' : OptionArray T') : Prop where
  len : a'.len = a.len
  slot : ∀ i, Option.Rel ST (a.slot i) (a'.slot i)

theorem OArrX.set {a : OptionArray T} {a' : OptionArray T'} (h : OArrX ST a a') (i : Nat) {o : Option T} {o' : Option T'}
    (ho : Option.Rel ST o o') :
    OArrX ST { a with slot := fun j => if j = i then o else a.slot j }
      { a' with slot := fun j => if j = i then o' else a'.slot j } := by
  refine ⟨h.len, fun j => ?_⟩
  by_cases hj : j = i
  · simp only [hj, if_true]; exact ho
  · simp only [hj, if_false]; exact h.slot j
theorem OArrX.get {a : OptionArray T} {a' : OptionArray T'} (h : OArrX ST a a') (i : Nat) :
    Rx (Option.Rel ST) (a.get i) (a'.get i) := by
  unfold OptionArray.get
  rw [h.len]
  split
  · exact .ok (h.slot i)
  · exact .err _ _
theorem OArrX.put {a : OptionArray T} {a' : OptionArray T'} (h : OArrX ST a a') (i : Nat) {o : Option T} {o' : Option T'}
    (ho : Option.Rel ST o o') : Rx (OArrX ST) (a.put i o) (a'.put i o') := by
  unfold OptionArray.put
  by_cases hi : i < a.len
  · rw [if_pos hi, if_pos (h.len ▸ hi)]; exact .ok (h.set i ho)
  · rw [if_neg hi, if_neg (h.len ▸ hi)]; exact .err _ _
theorem ArrX.arr {c : ArrayColl Hi T} {c' : ArrayColl Hi' T'} (h : ArrX ST c c') : OArrX ST c.array c'.array :=
  ⟨h.len, h.slot⟩
theorem OArrX.coll {a : OptionArray T} {a' : OptionArray T'} (h : OArrX ST a a') (n : Nat) :
    ArrX (Hi := Hi) (Hi' := Hi') ST ⟨a, n⟩ ⟨a', n⟩ := ⟨h.len, rfl, h.slot⟩

theorem ArrX.same (hx : ∀ h : Hi, SizedVebKey.index (πh h) = SizedVebKey.index h)
    (hn : SizedVebKey.cardinality Hi' = SizedVebKey.cardinality Hi) (hT : SameTree πl f ST) :
    SameColl (C := ArrayColl Hi T) (C' := ArrayColl Hi' T') πh πl f ST (ArrX ST) := by
  constructor
  case create =>
    intro h t t' ht
    show Rx _ (ArrayColl.create h t) (ArrayColl.create (πh h) t')
    unfold ArrayColl.create
    rw [hx, hn]
    refine (OArrX.put (ST := ST) (a := OptionArray.create _) (a' := OptionArray.create _) ⟨rfl, fun _ => .none⟩ _ (.some ht)).bind ?_
    intro a b hab
    exact .ok (hab.coll 1)
  case get =>
    intro c c' hc h
    show Rx _ (c.array.get _) (c'.array.get _)
    rw [hx]
    exact hc.arr.get _
  case getMut =>
    intro c c' hc h
    show Rx _ (ArrayColl.getMut c h) (ArrayColl.getMut c' (πh h))
    unfold ArrayColl.getMut
    rw [hx]
    refine (hc.arr.get _).bind ?_
    intro a b hab
    cases hab with
    | none => exact .ok .none
    | some hab =>
      refine .ok (.some ⟨hab, fun u u' hu => ?_⟩)
      have := hc.arr.set (SizedVebKey.index h) (.some hu)
      exact ⟨this.len, hc.count, this.slot⟩
  case insertKey =>
    intro c c' hc h l v
    show Rx _ (ArrayColl.insertKey c h (l, v)) (ArrayColl.insertKey c' (πh h) (πl l, f v))
    unfold ArrayColl.insertKey
    rw [hx]
    refine (hc.arr.get _).bind ?_
    intro a b hab
    cases hab with
    | none =>
      refine (hc.arr.put _ (.some (hT.fromMonad l v))).bind fun a b hab => ?_
      rw [hc.count]
      exact Rx.bindEq fun n => .ok ⟨hab.coll n, rfl⟩
    | some hab =>
      refine (hT.insert hab l v).bind ?_
      rintro ⟨t, o⟩ ⟨t', _⟩ ⟨ht, rfl⟩
      refine (hc.arr.put _ (.some ht)).bind fun a b hab => ?_
      rw [hc.count]
      exact .ok ⟨hab.coll _, rfl⟩
  case removeKey =>
    intro c c' hc h r r' hr
    show Rx _ (ArrayColl.removeKey c h r) (ArrayColl.removeKey c' (πh h) r')
    unfold ArrayColl.removeKey
    rw [hx, hc.count]
    refine (hc.arr.get _).bind fun a b hab => (Rx.expect _ hab).bind fun t t' ht =>
      (hc.arr.put _ .none).bind fun a b hab => (hr t t' ht).bind ?_
    rintro ⟨o, e⟩ ⟨o', _⟩ ⟨ho, rfl⟩
    dsimp only at ho ⊢
    rw [optRel_isNone ho]
    split <;>
    · refine Rx.bindEq fun n => (hab.put _ ho).bind fun a b hab => ?_
      split
      · exact .ok ⟨.none, rfl⟩
      · exact .ok ⟨.some ⟨hab.coll _, rfl⟩, rfl⟩
  case maybeRemoveKey =>
    intro c c' hc h r r' hr
    show Rx _ (ArrayColl.maybeRemoveKey c h r) (ArrayColl.maybeRemoveKey c' (πh h) r')
    unfold ArrayColl.maybeRemoveKey
    rw [hx, hc.count]
    refine (hc.arr.get _).bind fun a b hab => ?_
    cases hab with
    | none => exact .ok (.err hc)
    | some ht =>
      refine (hc.arr.put _ .none).bind fun a b hab => (hr _ _ ht).bind ?_
      rintro _ _ (@⟨⟨o, e⟩, ⟨o', _⟩, ⟨ho, rfl⟩⟩ | h)
      · dsimp only at ho ⊢
        rw [optRel_isNone ho]
        split <;>
        · refine Rx.bindEq fun n => (hab.put _ ho).bind fun a b hab => ?_
          split
          · exact .ok (.ok ⟨.none, rfl⟩)
          · exact .ok (.ok ⟨.some ⟨hab.coll _, rfl⟩, rfl⟩)
      · exact (hab.put _ (.some h)).bind fun a b hab => .ok (.err (hab.coll _))
end

section
variable [TreeCollection C Hi T Lo V] [TreeCollection C' Hi' T' Lo' V'] {πh : Hi → Hi'} {πl : Lo → Lo'} {f : V → V'}
  {ST : T → T' → Prop} {SC : C → C' → Prop}

theorem SameColl.boxL (h : SameColl πh πl f ST SC) :
    SameColl (C := Box C) (C' := C') πh πl f ST (fun a b => SC a.val b) := by
  constructor
  case create => intro k t t' ht; exact (h.create k ht).bindL fun a b hab => .ok hab
  case get => intro c c' hc k; exact h.get hc k
  case getMut =>
    intro c c' hc k
    refine (h.getMut hc k).bindL fun a b hab => ?_
    cases hab with
    | none => exact .ok .none
    | some hab => exact .ok (.some hab)
  case insertKey => intro c c' hc k l v; exact (h.insertKey hc k l v).bindL fun a b hab => .ok hab
  case removeKey =>
    intro c c' hc k r r' hr
    refine (h.removeKey hc k hr).bindL ?_
    rintro ⟨o, e⟩ ⟨o', _⟩ ⟨ho, rfl⟩
    cases ho with
    | none => exact .ok ⟨.none, rfl⟩
    | some ho => exact .ok ⟨.some ho, rfl⟩
  case maybeRemoveKey =>
    intro c c' hc k r r' hr
    refine (h.maybeRemoveKey hc k hr).bindL ?_
    rintro _ _ (@⟨⟨o, e⟩, ⟨o', _⟩, ⟨ho, rfl⟩⟩ | h)
    · cases ho with
      | none => exact .ok (.ok ⟨.none, rfl⟩)
      | some ho => exact .ok (.ok ⟨.some ho, rfl⟩)
    · exact .ok (.err h)

theorem SameColl.boxR (h : SameColl πh πl f ST SC) :
    SameColl (C := C) (C' := Box C') πh πl f ST (fun a b => SC a b.val) := by
  constructor
  case create => intro k t t' ht; exact (h.create k ht).bindR fun a b hab => .ok hab
  case get => intro c c' hc k; exact h.get hc k
  case getMut =>
    intro c c' hc k
    refine (h.getMut hc k).bindR fun a b hab => ?_
    cases hab with
    | none => exact .ok .none
    | some hab => exact .ok (.some hab)
  case insertKey => intro c c' hc k l v; exact (h.insertKey hc k l v).bindR fun a b hab => .ok hab
  case removeKey =>
    intro c c' hc k r r' hr
    refine (h.removeKey hc k hr).bindR ?_
    rintro ⟨o, e⟩ ⟨o', _⟩ ⟨ho, rfl⟩
    cases ho with
    | none => exact .ok ⟨.none, rfl⟩
    | some ho => exact .ok ⟨.some ho, rfl⟩
  case maybeRemoveKey =>
    intro c c' hc k r r' hr
    refine (h.maybeRemoveKey hc k hr).bindR ?_
    rintro _ _ (@⟨⟨o, e⟩, ⟨o', _⟩, ⟨ho, rfl⟩⟩ | h)
    · cases ho with
      | none => exact .ok (.ok ⟨.none, rfl⟩)
      | some ho => exact .ok (.ok ⟨.some ho, rfl⟩)
    · exact .ok (.err h)
end

end Veb
