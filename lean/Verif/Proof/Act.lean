import Verif.SpecAct
import Verif.Proof.AnyOrdRun
import Mathlib.Algebra.BigOperators.Group.Finset.Basic
import Mathlib.Algebra.Order.Group.Multiset
import Mathlib.Tactic.Abel

/-!
# Values are moved around, whatever the code of the user does

Boxes, counters and collections; `Tree` is in `Verif.Proof.ActTree`.
-/

set_option autoImplicit false
set_option linter.unusedSectionVars false

namespace Veb

/-! ## What can be said of results without knowing the state -/

/-- every result of `x`, from any state, satisfies `Q` -/
def Post {σ α : Type} (x : Act σ α) (Q : α → Prop) : Prop := ∀ s a s', x s = .ok (a, s') → Q a

namespace Post
variable {σ α β : Type} {x : Act σ α} {Q Q' : α → Prop}

theorem ret {a : α} (h : Q a) : Post (pure a : Act σ α) Q := by
  rintro s b s' ⟨⟩; exact h
theorem bind {f : α → Act σ β} {P : β → Prop} (h : Post x Q) (h' : ∀ a, Q a → Post (f a) P) : Post (x >>= f) P := by
  intro s b s' e
  change (x s >>= fun p => f p.1 p.2) = _ at e
  cases hx : x s with
  | error p => rw [hx] at e; cases e
  | ok p =>
    obtain ⟨a, s1⟩ := p
    rw [hx] at e
    exact h' a (h s a s1 hx) s1 b s' e
theorem any : Post x fun _ => True := fun _ _ _ _ => trivial
theorem then_ {f : α → Act σ β} {P : β → Prop} (h' : ∀ a, Post (f a) P) : Post (x >>= f) P := any.bind fun a _ => h' a
theorem mono (h : Post x Q) (i : ∀ a, Q a → Q' a) : Post x Q' := fun s a s' e => i a (h s a s' e)
theorem fail {p : Panic} : Post (throw p : Act σ α) Q := by
  rintro s b s' ⟨⟩
theorem lift {r : R α} (h : ∀ a, r = .ok a → Q a) : Post (liftM r : Act σ α) Q := by
  intro s a s' e
  cases r with
  | error p => cases e
  | ok b => cases e; exact h _ rfl
theorem exp {o : Option α} {m : String} : Post (liftM (expect m o) : Act σ α) fun a => o = some a := by
  refine lift fun a h => ?_
  cases o with
  | none => cases h
  | some b => cases h; rfl
theorem assert {b : Bool} : Post (liftM (debugAssert b) : Act σ Unit) fun _ => b = true := by
  refine lift fun a h => ?_
  cases b with
  | false => cases h
  | true => rfl
theorem ite {b : Bool} {y : Act σ α} (h : Post x Q) (h' : Post y Q) : Post (if b = true then x else y) Q := by
  cases b
  · exact h'
  · exact h
theorem split {K Hi Lo : Type} [ActKey σ K Hi Lo] {k : K} {f : Hi → Lo → Act σ α} (h : ∀ hi lo, Post (f hi lo) Q) :
    Post (withSplit k f) Q := by
  refine then_ fun p => ?_
  exact (h p.1 p.2).bind fun r hr => then_ fun _ => .ret hr
end Post

/-! ## Values that come and go -/

/-- All that is in `b` was in `a`; if `f`, then nothing is missing, and `g`. -/
structure Flow {V : Type} (g f : Prop) (a b : Multiset V) : Prop where
  le : b ≤ a
  eq : f → g ∧ b = a

namespace Flow
variable {V : Type} {f g e : Prop} {a b c d : Multiset V}

theorem of_eq (i : f → g) (h : b = a) : Flow g f a b := ⟨h.le, fun x => ⟨i x, h⟩⟩
theorem trans (h : Flow g f a b) (h' : Flow f e b c) : Flow g e a c :=
  ⟨h'.le.trans h.le, fun x => ⟨(h.eq (h'.eq x).1).1, (h'.eq x).2.trans (h.eq (h'.eq x).1).2⟩⟩
/-- with the sums in any order -/
theorem frame (c : Multiset V) (h : Flow g f a b) {a' b' : Multiset V} (ha : a' = a + c) (hb : b' = b + c) :
    Flow g f a' b' := by
  subst ha hb
  exact ⟨add_le_add_left h.le c, fun x => ⟨(h.eq x).1, by rw [(h.eq x).2]⟩⟩
/-- … as part of something larger -/
theorem part {g' f' : Prop} (c : Multiset V) (h : Flow g f a b) (i : f' → f) (k : f' → g → g') {a' b' : Multiset V}
    (ha : a' = a + c) (hb : b' = b + c) : Flow g' f' a' b' := by
  subst ha hb
  exact ⟨add_le_add_left h.le c, fun x => ⟨k x (h.eq (i x)).1, by rw [(h.eq (i x)).2]⟩⟩
end Flow

/-- values of an optional tree -/
def ov {T V : Type} (vals : T → Multiset V) (o : Option T) : Multiset V := o.elim 0 vals
/-- the value of an optional entry -/
def oe {K V : Type} (o : Option (K × V)) : Multiset V := o.elim 0 fun e => {e.2}

/-- A `…_mut` result: it reports a stored value, and writing replaces that value. -/
def MutV {T K V : Type} (ok W : T → Prop) (vals : T → Multiset V) (t : T) : Option (K × V × (V → T)) → Prop
  | none => True
  | some (_, v, put) => ∃ r, vals t = v ::ₘ r ∧ ∀ w, W (put w) ∧ vals (put w) = w ::ₘ r ∧ (ok (put w) → ok t)

/-- an optional tree is in order -/
def OptOk {T : Type} (ok : T → Prop) (o : Option T) : Prop := ∀ t, o = some t → ok t

theorem optOk_none {T : Type} {ok : T → Prop} : OptOk ok none := by rintro t ⟨⟩
theorem optOk_some {T : Type} {ok : T → Prop} {t : T} : OptOk ok (some t) ↔ ok t :=
  ⟨fun h => h t rfl, by rintro h _ ⟨⟩; exact h⟩

/-- the result of a removal from a tree that is in order if `g` -/
def Rest {T V : Type} (g : Prop) (ok W : T → Prop) (vals : T → Multiset V) (b : Multiset V) (o : Option T) (v : V) : Prop :=
  OptOk W o ∧ Flow g (OptOk ok o) b (ov vals o + {v})

/-- the result of a removal that may find nothing -/
def MaybeRest {T K V : Type} (g : Prop) (ok W : T → Prop) (vals : T → Multiset V) (b : Multiset V) :
    Result (Option T × (K × V)) T → Prop
  | .Ok (o, e) => Rest g ok W vals b o e.2
  | .Err t => W t ∧ Flow g (ok t) b (vals t)

/-- the result of `into_monad` -/
def Monad1 {T K V : Type} (g : Prop) (ok W : T → Prop) (vals : T → Multiset V) (b : Multiset V) : Result (K × V) T → Prop
  | .Ok e => g ∧ b = {e.2}
  | .Err t => W t ∧ vals t = b ∧ (ok t → g) ∧ b.card ≠ 1

/-- What a tree type does with values.  `ok t`: nothing got lost, `fixed`: nothing gets lost. -/
class Keeps (σ T : Type) (K V : outParam Type) [ActTree σ T K V] where
  W : T → Prop
  vals : T → Multiset V
  ok : T → Prop
  fixed : Prop
  okOf : fixed → ∀ t, W t → ok t
  fromMonad : ∀ k v, W (ActTree.fromMonad σ k v) ∧ vals (ActTree.fromMonad σ k v) = {v}
  isMonad : ∀ t, W t → Post (ActTree.isMonad (σ := σ) t) fun b => b = true ↔ (vals t).card = 1
  lenHint : ∀ t, W t → Post (ActTree.lenHint (σ := σ) t) fun r =>
    ok t → r.1 ≤ (vals t).card ∧ ∀ n, r.2 = some n → n = (vals t).card
  intoMonad : ∀ t, W t → Post (ActTree.intoMonad (σ := σ) t) (Monad1 (ok t) ok W vals (vals t))
  minVal : ∀ t, W t → Post (ActTree.minVal (σ := σ) t) fun e => e.2 ∈ vals t
  minValMut : ∀ t, W t → Post (ActTree.minValMut (σ := σ) t) fun r => MutV ok W vals t (some r)
  maxVal : ∀ t, W t → Post (ActTree.maxVal (σ := σ) t) fun e => e.2 ∈ vals t
  maxValMut : ∀ t, W t → Post (ActTree.maxValMut (σ := σ) t) fun r => MutV ok W vals t (some r)
  find : ∀ t k, W t → Post (ActTree.find (σ := σ) t k) fun r => ∀ e, r = some e → e.2 ∈ vals t
  findMut : ∀ t k, W t → Post (ActTree.findMut (σ := σ) t k) (MutV ok W vals t)
  predecessor : ∀ t k, W t → Post (ActTree.predecessor (σ := σ) t k) fun r => ∀ e, r = some e → e.2 ∈ vals t
  predecessorMut : ∀ t k, W t → Post (ActTree.predecessorMut (σ := σ) t k) (MutV ok W vals t)
  successor : ∀ t k, W t → Post (ActTree.successor (σ := σ) t k) fun r => ∀ e, r = some e → e.2 ∈ vals t
  successorMut : ∀ t k, W t → Post (ActTree.successorMut (σ := σ) t k) (MutV ok W vals t)
  insert : ∀ t k v, W t → Post (ActTree.insert (σ := σ) t k v) fun r =>
    W r.1 ∧ Flow (ok t) (ok r.1) (vals t + {v}) (vals r.1 + oe r.2) ∧ ∀ e, r.2 = some e → e.2 ∈ vals t
  remove : ∀ t k, W t → Post (ActTree.remove (σ := σ) t k) (MaybeRest (ok t) ok W vals (vals t))
  removeMin : ∀ t, W t → Post (ActTree.removeMin (σ := σ) t) fun r => Rest (ok t) ok W vals (vals t) r.1 r.2.2
  removeMax : ∀ t, W t → Post (ActTree.removeMax (σ := σ) t) fun r => Rest (ok t) ok W vals (vals t) r.1 r.2.2

/-- What a collection does with values. -/
class KeepsColl (σ C : Type) (Hi T Lo V : outParam Type) [ActTree σ T Lo V] [P : Keeps σ T Lo V]
    [ActColl σ C Hi T Lo V] where
  W : C → Prop
  vals : C → Multiset V
  ok : C → Prop
  fixed : Prop
  okOf : fixed → ∀ c, W c → ok c
  create : ∀ h t, P.W t → Post (ActColl.create (σ := σ) h t) fun c => W c ∧ vals c = P.vals t
  get : ∀ c h, W c → Post (ActColl.get (σ := σ) c h) fun o => ∀ t, o = some t → P.W t ∧ P.vals t ≤ vals c
  getMut : ∀ c h, W c → Post (ActColl.getMut (σ := σ) c h) fun o => ∀ p, o = some p →
    P.W p.1 ∧ ∃ r, vals c = P.vals p.1 + r ∧ ∀ u, P.W u → W (p.2 u) ∧ vals (p.2 u) = P.vals u + r ∧
      ((P.ok u → P.ok p.1) → ok (p.2 u) → ok c)
  insertKey : ∀ c h (e : Lo × V), W c → Post (ActColl.insertKey (σ := σ) c h e) fun r => W r.1 ∧ match r.2 with
    | .Ok _ => Flow (ok c) (ok r.1) (vals c + {e.2}) (vals r.1)
    | .Err (_, o) => Flow (ok c) (ok r.1) (vals c + {e.2}) (vals r.1 + oe o) ∧ ∀ x, o = some x → x.2 ∈ vals c
  removeKey : ∀ c h f, W c →
    (∀ t, P.W t → Post (f t) fun r => Rest (P.ok t) P.ok P.W P.vals (P.vals t) r.1 r.2.2) →
    Post (ActColl.removeKey (σ := σ) c h f) fun r => Rest (ok c) ok W vals (vals c) (r.1.map Prod.fst) r.2.2
  maybeRemoveKey : ∀ c h f, W c → (∀ t, P.W t → Post (f t) (MaybeRest (P.ok t) P.ok P.W P.vals (P.vals t))) →
    Post (ActColl.maybeRemoveKey (σ := σ) c h f) fun r => match r with
      | .Ok r => Rest (ok c) ok W vals (vals c) (r.1.map Prod.fst) r.2.2
      | .Err c' => W c' ∧ Flow (ok c) (ok c') (vals c) (vals c')

namespace Keeps

/-! ## Trees whose keys do not depend on the state -/

theorem map_mut {T K V : Type} {W : T → Prop} {ents : T → Multiset (K × V)} {t : T} {r : Option (K × V × (V → T))}
    (h : MutPhysE W ents t r) : MutV (fun _ => True) W (fun t => (ents t).map Prod.snd) t r := by
  obtain _ | ⟨k, v, put⟩ := r
  · trivial
  · obtain ⟨b, h1, h2⟩ := h
    refine ⟨b.map Prod.snd, by simp [h1], fun w => ⟨(h2 w).1, ?_, fun _ => trivial⟩⟩
    show ((ents (put w)).map Prod.snd) = _
    simp [(h2 w).2]

theorem map_rest {T K V : Type} {W : T → Prop} {ents : T → Multiset (K × V)} {b : Multiset (K × V)} {e : K × V}
    {o : Option T} (h : RestRel W ents b e o) :
    Rest True (fun _ => True) W (fun t => (ents t).map Prod.snd) (b.map Prod.snd) o e.2 := by
  cases o with
  | none =>
    refine ⟨optOk_none, .of_eq (fun _ => trivial) ?_⟩
    rw [show b = _ from h]
    simp [ov]
  | some t =>
    refine ⟨optOk_some.2 h.1, .of_eq (fun _ => trivial) ?_⟩
    rw [h.2]
    simp [ov, ← Multiset.singleton_add, add_comm]

theorem ok_of {α : Type} {x : R α} {a b : α} (h : x = .ok a) (h' : x = .ok b) : a = b := by
  rw [h] at h'; cases h'; rfl

/-- Trees over keys that are functions, without a counter. -/
@[reducible] def plain (σ : Type) {T K V : Type} [VebTree T K V] (P : ObjTree T K V)
    (hl : ¬ P.limited) :
    @Keeps σ T K V (ActTree.plain σ) := by
  letI : ActTree σ T K V := ActTree.plain σ
  exact {
    W := P.W
    vals := fun t => (P.ents t).map Prod.snd
    ok := fun _ => True
    fixed := True
    okOf := fun _ _ _ => trivial
    fromMonad := fun k v => ⟨(P.fromMonad k v).1, by
      show (P.ents (VebTree.fromMonad k v)).map Prod.snd = _
      rw [(P.fromMonad k v).2]; rfl⟩
    isMonad := fun t I => .lift fun b h => by
      obtain ⟨b', h1, h2⟩ := P.isMonad t I
      rw [ok_of h h1, h2, Multiset.card_map]
    lenHint := fun t I => .lift fun r h => by
      obtain ⟨r', h1, h2, h3⟩ := P.lenHint t I
      rw [ok_of h h1, Multiset.card_map]
      exact fun _ => ⟨h2, h3⟩
    intoMonad := fun t I => .lift fun r h => by
      rcases P.intoMonad t I with ⟨k, v, h1, h2⟩ | ⟨h1, h2⟩
      · rw [ok_of h h1]
        refine ⟨trivial, ?_⟩
        show (P.ents t).map Prod.snd = _
        rw [h2]; rfl
      · rw [ok_of h h1]
        exact ⟨I, rfl, fun _ => trivial, by rwa [Multiset.card_map]⟩
    minVal := fun t I => .lift fun r h => by
      obtain ⟨k, v, h1, h2⟩ := P.minVal t I
      rw [ok_of h h1]
      exact Multiset.mem_map_of_mem Prod.snd h2
    minValMut := fun t I => .lift fun r h => by
      obtain ⟨r', h1, h2⟩ := P.minValMut t I
      rw [ok_of h h1]
      exact map_mut h2
    maxVal := fun t I => .lift fun r h => by
      obtain ⟨k, v, h1, h2⟩ := P.maxVal t I
      rw [ok_of h h1]
      exact Multiset.mem_map_of_mem Prod.snd h2
    maxValMut := fun t I => .lift fun r h => by
      obtain ⟨r', h1, h2⟩ := P.maxValMut t I
      rw [ok_of h h1]
      exact map_mut h2
    find := fun t k I => .lift fun r h => by
      obtain ⟨r', h1, h2⟩ := P.find t k I
      rw [ok_of h h1]
      exact fun e he => Multiset.mem_map_of_mem Prod.snd (h2 e he)
    findMut := fun t k I => .lift fun r h => by
      obtain ⟨r', h1, h2⟩ := P.findMut t k I
      rw [ok_of h h1]
      exact map_mut h2
    predecessor := fun t k I => .lift fun r h => by
      obtain ⟨r', h1, h2⟩ := P.predecessor t k I
      rw [ok_of h h1]
      exact fun e he => Multiset.mem_map_of_mem Prod.snd (h2 e he)
    predecessorMut := fun t k I => .lift fun r h => by
      rcases P.predecessorMut t k I with ⟨r', h1, h2⟩ | ⟨h1, -⟩
      · rw [ok_of h h1]
        exact map_mut h2
      · rw [h1] at h; cases h
    successor := fun t k I => .lift fun r h => by
      obtain ⟨r', h1, h2⟩ := P.successor t k I
      rw [ok_of h h1]
      exact fun e he => Multiset.mem_map_of_mem Prod.snd (h2 e he)
    successorMut := fun t k I => .lift fun r h => by
      obtain ⟨r', h1, h2⟩ := P.successorMut t k I
      rw [ok_of h h1]
      exact map_mut h2
    insert := fun t k v I => .lift fun r h => by
      obtain ⟨t', o, h1, h2, h3⟩ := P.insert t k v I fun x => absurd x hl
      cases ok_of h h1
      refine ⟨h2, .of_eq (fun _ => trivial) ?_, fun e he => Multiset.mem_map_of_mem Prod.snd (h3.mem e he)⟩
      have := h3.vals
      rw [← Multiset.singleton_add, add_comm _ (Multiset.map _ (P.ents t))] at this
      rw [← this]
      cases o <;> simp [om, oe]
    remove := fun t k I => .lift fun r h => by
      rcases P.remove t k I with h1 | ⟨o, e, h1, h2⟩
      · rw [ok_of h h1]
        exact ⟨I, .of_eq (fun _ => trivial) rfl⟩
      · rw [ok_of h h1]
        exact map_rest h2
    removeMin := fun t I => .lift fun r h => by
      obtain ⟨o, k, v, -, h1, h2⟩ := P.removeMin t I
      rw [ok_of h h1]
      exact map_rest h2
    removeMax := fun t I => .lift fun r h => by
      obtain ⟨o, k, v, -, h1, h2⟩ := P.removeMax t I
      rw [ok_of h h1]
      exact map_rest h2 }

/-! ## Box -/

section
variable {σ T K V : Type} [ActTree σ T K V] [P : Keeps σ T K V]

theorem box_mut {t : Box T} {r : Option (K × V × (V → T))} (h : MutV P.ok P.W P.vals t.val r) :
    MutV (fun t : Box T => P.ok t.val) (fun t : Box T => P.W t.val) (fun t => P.vals t.val) t (r.map (mapPut Box.mk)) := by
  obtain _ | ⟨k, v, put⟩ := r
  · trivial
  · exact h

theorem box_rest {f : Prop} {b : Multiset V} {o : Option T} {v : V} (h : Rest f P.ok P.W P.vals b o v) :
    Rest f (fun t : Box T => P.ok t.val) (fun t : Box T => P.W t.val) (fun t => P.vals t.val) b (o.map Box.mk) v := by
  cases o with
  | none => exact ⟨optOk_none, h.2.le, fun _ => h.2.eq optOk_none⟩
  | some t => exact ⟨optOk_some.2 (h.1 t rfl), h.2.le, fun x => h.2.eq (optOk_some.2 (x _ rfl))⟩

instance instBox : Keeps σ (Box T) K V where
  W t := P.W t.val
  vals t := P.vals t.val
  ok t := P.ok t.val
  fixed := P.fixed
  okOf f t := P.okOf f t.val
  fromMonad k v := P.fromMonad k v
  isMonad t := P.isMonad t.val
  lenHint t := P.lenHint t.val
  intoMonad t I := (P.intoMonad t.val I).bind fun r hr => by cases r <;> exact .ret hr
  minVal t := P.minVal t.val
  minValMut t I := (P.minValMut t.val I).bind fun _ hr => .ret (box_mut hr)
  maxVal t := P.maxVal t.val
  maxValMut t I := (P.maxValMut t.val I).bind fun _ hr => .ret (box_mut hr)
  find t := P.find t.val
  findMut t k I := (P.findMut t.val k I).bind fun _ hr => .ret (box_mut hr)
  predecessor t := P.predecessor t.val
  predecessorMut t k I := (P.predecessorMut t.val k I).bind fun _ hr => .ret (box_mut hr)
  successor t := P.successor t.val
  successorMut t k I := (P.successorMut t.val k I).bind fun _ hr => .ret (box_mut hr)
  insert t k v I := (P.insert t.val k v I).bind fun _ hr => .ret hr
  remove t k I := (P.remove t.val k I).bind fun r hr => by
    cases r with
    | Ok r => exact .ret (box_rest hr)
    | Err t => exact .ret hr
  removeMin t I := (P.removeMin t.val I).bind fun _ hr => .ret (box_rest hr)
  removeMax t I := (P.removeMax t.val I).bind fun _ hr => .ret (box_rest hr)

/-! ## SizedVebTree: the counter is the number of values, if none got lost -/

/-- the invariant of a counted tree -/
def SizedW (t : SizedVebTree T) : Prop := P.W t.tree ∧ (P.ok t.tree → t.size = (P.vals t.tree).card)

theorem sized_mut {t : SizedVebTree T} (I : SizedW (σ := σ) t) {r : Option (K × V × (V → T))} (h : MutV P.ok P.W P.vals t.tree r) :
    MutV (fun t : SizedVebTree T => P.ok t.tree) (SizedW (σ := σ) (T := T)) (fun t => P.vals t.tree) t (r.map (mapPut fun u => ⟨u, t.size⟩)) := by
  obtain _ | ⟨k, v, put⟩ := r
  · trivial
  · obtain ⟨r, h1, h2⟩ := h
    refine ⟨r, h1, fun w => ⟨⟨(h2 w).1, fun x => ?_⟩, (h2 w).2⟩⟩
    show t.size = (P.vals (put w)).card
    rw [(h2 w).2.1, I.2 ((h2 w).2.2 x), h1, Multiset.card_cons, Multiset.card_cons]

theorem sized_rest {t : SizedVebTree T} (I : SizedW (σ := σ) t) {v : V} {t' : T} {n : Nat} (hn : n + 1 = t.size)
    (h : Rest (P.ok t.tree) P.ok P.W P.vals (P.vals t.tree) (some t') v) :
    Rest (P.ok t.tree) (fun t : SizedVebTree T => P.ok t.tree) (SizedW (σ := σ) (T := T)) (fun t => P.vals t.tree)
      (P.vals t.tree) (some ⟨t', n⟩) v := by
  refine ⟨optOk_some.2 ⟨h.1 t' rfl, fun x => ?_⟩, h.2.le, fun x => h.2.eq (optOk_some.2 (x _ rfl))⟩
  obtain ⟨y, this⟩ := h.2.eq (optOk_some.2 x)
  have := congrArg Multiset.card this
  rw [Multiset.card_add, Multiset.card_singleton, ← I.2 y, ← hn] at this
  exact (Nat.succ.inj this).symm

theorem sized_none {t : SizedVebTree T} {v : V} (h : Rest (P.ok t.tree) P.ok P.W P.vals (P.vals t.tree) none v) :
    Rest (P.ok t.tree) (fun t : SizedVebTree T => P.ok t.tree) (SizedW (σ := σ) (T := T)) (fun t => P.vals t.tree)
      (P.vals t.tree) none v := ⟨optOk_none, h.2.le, fun _ => h.2.eq optOk_none⟩

theorem sub_one {n m : Nat} (h : subUsize n 1 = .ok m) : m + 1 = n := by
  unfold subUsize at h
  split at h
  · cases h; omega
  · cases h
theorem nonZero_eq {n m : Nat} (h : SizedVebTree.nonZero n = some m) : m = n := by
  unfold SizedVebTree.nonZero at h
  split at h
  · cases h
  · cases h; rfl

theorem post_sub {n : Nat} : Post (liftM (subUsize n 1) : Act σ Nat) fun m => m + 1 = n := .lift fun _ => sub_one

instance instSized : Keeps σ (SizedVebTree T) K V where
  W := SizedW (σ := σ)
  vals t := P.vals t.tree
  ok t := P.ok t.tree
  fixed := P.fixed
  okOf f t I := P.okOf f t.tree I.1
  fromMonad k v := ⟨⟨(P.fromMonad k v).1, fun _ => by
    show 1 = (P.vals (ActTree.fromMonad σ k v)).card
    rw [(P.fromMonad k v).2]; rfl⟩, (P.fromMonad k v).2⟩
  isMonad t I := (P.isMonad t.tree I.1).bind fun b hb => by
    cases b with
    | false => exact .ret hb
    | true => exact .then_ fun _ => .ret hb
  lenHint t I := .ret fun x => ⟨(I.2 x).le, by rintro _ ⟨⟩; exact I.2 x⟩
  intoMonad t I := (P.intoMonad t.tree I.1).bind fun r hr => by
    cases r with
    | Ok e => exact .ret hr
    | Err t' => exact .ret ⟨⟨hr.1, fun x => by rw [I.2 (hr.2.2.1 x)]; exact congrArg _ hr.2.1.symm⟩, hr.2⟩
  minVal t I := P.minVal t.tree I.1
  minValMut t I := (P.minValMut t.tree I.1).bind fun _ hr => .ret (sized_mut I hr)
  maxVal t I := P.maxVal t.tree I.1
  maxValMut t I := (P.maxValMut t.tree I.1).bind fun _ hr => .ret (sized_mut I hr)
  find t k I := P.find t.tree k I.1
  findMut t k I := (P.findMut t.tree k I.1).bind fun _ hr => .ret (sized_mut I hr)
  predecessor t k I := P.predecessor t.tree k I.1
  predecessorMut t k I := (P.predecessorMut t.tree k I.1).bind fun _ hr => .ret (sized_mut I hr)
  successor t k I := P.successor t.tree k I.1
  successorMut t k I := (P.successorMut t.tree k I.1).bind fun _ hr => .ret (sized_mut I hr)
  insert t k v I := (P.insert t.tree k v I.1).bind fun r hr => by
    obtain ⟨t', o⟩ := r
    obtain ⟨h1, h2, h3⟩ := hr
    have hc : P.ok t' → (P.vals t').card + (oe o).card = t.size + 1 := fun x => by
      rw [I.2 (h2.eq x).1]
      simpa using congrArg Multiset.card (h2.eq x).2
    cases o with
    | none =>
      refine Post.exp.bind fun m hm => .ret ⟨⟨h1, fun x => ?_⟩, h2, h3⟩
      split at hm
      · cases hm; exact (hc x).symm
      · cases hm
    | some e => exact .ret ⟨⟨h1, fun x => (Nat.succ.inj (hc x)).symm⟩, h2, h3⟩
  remove t k I := (P.remove t.tree k I.1).bind fun r hr => by
    obtain ⟨_ | t', e⟩ | t' := r
    · exact .ret (sized_none hr)
    · refine post_sub.bind fun n hn => Post.exp.bind fun m hm => .ret ?_
      cases nonZero_eq hm
      exact sized_rest I hn hr
    · refine .ret ⟨⟨hr.1, fun x => ?_⟩, hr.2⟩
      rw [I.2 (hr.2.eq x).1]
      exact congrArg _ (hr.2.eq x).2.symm
  removeMin t I := post_sub.bind fun n hn => (P.removeMin t.tree I.1).bind fun r hr => by
    obtain ⟨_ | t', e⟩ := r
    · exact .ret (sized_none hr)
    · refine Post.exp.bind fun m hm => .ret ?_
      cases nonZero_eq hm
      exact sized_rest I hn hr
  removeMax t I := post_sub.bind fun n hn => (P.removeMax t.tree I.1).bind fun r hr => by
    obtain ⟨_ | t', e⟩ := r
    · exact .ret (sized_none hr)
    · refine Post.exp.bind fun m hm => .ret ?_
      cases nonZero_eq hm
      exact sized_rest I hn hr

end
end Keeps

/-! ## Collections -/

namespace KeepsColl

/-! ### Lists of trees: hash tables and `ByteMap` -/

section lists
variable {A M : Type} [AddCommMonoid M] (g : A → M)

theorem sum_set {l : List A} {i : Nat} {a b : A} (h : l[i]? = some a) :
    ((l.set i b).map g).sum + g a = (l.map g).sum + g b := by
  induction l generalizing i with
  | nil => cases h
  | cons x l ih =>
    cases i with
    | zero => cases h; simp only [List.set_cons_zero, List.map_cons, List.sum_cons]; abel
    | succ i =>
      have := ih (i := i) h
      simp only [List.set_cons_succ, List.map_cons, List.sum_cons]
      rw [add_assoc, this, add_assoc]

theorem sum_erase {l : List A} {i : Nat} {a : A} (h : l[i]? = some a) :
    ((l.eraseIdx i).map g).sum + g a = (l.map g).sum := by
  induction l generalizing i with
  | nil => cases h
  | cons x l ih =>
    cases i with
    | zero => cases h; simp only [List.eraseIdx_cons_zero, List.map_cons, List.sum_cons]; abel
    | succ i =>
      have := ih (i := i) h
      simp only [List.eraseIdx_cons_succ, List.map_cons, List.sum_cons]
      rw [add_assoc, this]

theorem sum_insert {l : List A} {i : Nat} {a : A} (h : i ≤ l.length) :
    ((l.insertIdx i a).map g).sum = (l.map g).sum + g a := by
  induction l generalizing i with
  | nil => cases i with
    | zero => simp
    | succ i => cases h
  | cons x l ih =>
    cases i with
    | zero => simp only [List.insertIdx_zero, List.map_cons, List.sum_cons]; abel
    | succ i =>
      have := ih (i := i) (Nat.le_of_succ_le_succ h)
      simp only [List.insertIdx_succ_cons, List.map_cons, List.sum_cons]
      rw [this, add_assoc]
end lists

section
variable {σ Hi T Lo V : Type} [ActTree σ T Lo V] [P : Keeps σ T Lo V]

/-- values of a list of trees -/
def lvals {A : Type} (p : A → T) (l : List A) : Multiset V := (l.map fun a => P.vals (p a)).sum
/-- all trees of a list are in order -/
def LW {A : Type} (p : A → T) (l : List A) : Prop := ∀ a ∈ l, P.W (p a)

variable {A : Type} {p : A → T}

theorem lvals_le {l : List A} {i : Nat} {a : A} (h : l[i]? = some a) : P.vals (p a) ≤ lvals (σ := σ) p l := by
  have := sum_erase (fun a => P.vals (p a)) h
  rw [lvals, ← this]
  exact Multiset.le_add_left _ _
theorem LW.at {l : List A} {i : Nat} {a : A} (h : l[i]? = some a) (hl : LW (σ := σ) p l) : P.W (p a) :=
  hl a (List.mem_of_getElem? h)
theorem LW.set {l : List A} (hl : LW (σ := σ) p l) (i : Nat) {b : A} (hb : P.W (p b)) : LW (σ := σ) p (l.set i b) := by
  intro a ha
  rcases List.mem_or_eq_of_mem_set ha with h | rfl
  · exact hl a h
  · exact hb
theorem LW.erase {l : List A} (hl : LW (σ := σ) p l) (i : Nat) : LW (σ := σ) p (l.eraseIdx i) :=
  fun a ha => hl a (List.mem_of_mem_eraseIdx ha)

/-- nothing got lost in the trees of a list -/
def LO {A : Type} (p : A → T) (l : List A) : Prop := ∀ a ∈ l, P.ok (p a)

theorem LO.of_set {l : List A} {i : Nat} {a b : A} (h : l[i]? = some a) (ho : LO (σ := σ) p (l.set i b)) :
    P.ok (p b) ∧ (P.ok (p a) → LO (σ := σ) p l) := by
  have hi : i < l.length := (List.getElem?_eq_some_iff.1 h).1
  refine ⟨ho b (List.mem_set hi b), fun ha x hx => ?_⟩
  obtain ⟨j, hj⟩ := List.mem_iff_getElem?.1 hx
  by_cases e : i = j
  · subst e
    rw [h] at hj
    cases hj
    exact ha
  · refine ho x (List.mem_iff_getElem?.2 ⟨j, ?_⟩)
    rw [List.getElem?_set_ne e]
    exact hj
theorem LO.of_erase {l : List A} {i : Nat} {a : A} (h : l[i]? = some a) (ho : LO (σ := σ) p (l.eraseIdx i))
    (ha : P.ok (p a)) : LO (σ := σ) p l := by
  intro x hx
  obtain ⟨j, hj⟩ := List.mem_iff_getElem?.1 hx
  by_cases e : j = i
  · subst e
    rw [h] at hj
    cases hj
    exact ha
  · refine ho x (List.mem_eraseIdx_iff_getElem?.2 ⟨j, e, hj⟩)

/-- the tree at `i` is replaced by `o`, where `v` comes out -/
theorem list_rest {l : List A} {i : Nat} {a : A} (h : l[i]? = some a) (hl : LW (σ := σ) p l) {q : T → A}
    (hq : ∀ t, p (q t) = t) {o : Option T} {v : V} (hr : Rest (P.ok (p a)) P.ok P.W P.vals (P.vals (p a)) o v) :
    LW (σ := σ) p (o.elim (l.eraseIdx i) fun t => l.set i (q t)) ∧
    Flow (LO (σ := σ) p l) (LO (σ := σ) p (o.elim (l.eraseIdx i) fun t => l.set i (q t)))
      (lvals (σ := σ) p l) (lvals (σ := σ) p (o.elim (l.eraseIdx i) fun t => l.set i (q t)) + {v}) := by
  have h0 : lvals (σ := σ) p l = _ := (sum_erase (fun a => P.vals (p a)) h).symm
  cases o with
  | none =>
    refine ⟨hl.erase i, hr.2.part (lvals (σ := σ) p (l.eraseIdx i)) (fun _ => optOk_none) (fun x y => LO.of_erase h x y)
      (by rw [h0, add_comm]; rfl) ?_⟩
    show lvals p (l.eraseIdx i) + {v} = _
    rw [ov, Option.elim_none, zero_add, add_comm]
  | some t =>
    refine ⟨hl.set i (by rw [hq]; exact hr.1 t rfl),
      hr.2.part (lvals (σ := σ) p (l.eraseIdx i)) (fun x => optOk_some.2 (hq t ▸ (LO.of_set h x).1))
        (fun x => (LO.of_set h x).2) (by rw [h0, add_comm]; rfl) ?_⟩
    have h1 := sum_set (fun a => P.vals (p a)) (b := q t) h
    rw [← sum_erase (fun a => P.vals (p a)) h, hq, add_right_comm] at h1
    have h1 := add_right_cancel h1
    show lvals p (l.set i (q t)) + {v} = _
    rw [lvals, h1, ov, Option.elim_some, lvals]
    abel

theorem list_same {l : List A} {i : Nat} {a : A} (h : l[i]? = some a) (hl : LW (σ := σ) p l) {q : T → A}
    (hq : ∀ t, p (q t) = t) {t : T} (hr : P.W t ∧ Flow (P.ok (p a)) (P.ok t) (P.vals (p a)) (P.vals t)) :
    LW (σ := σ) p (l.set i (q t)) ∧ Flow (LO (σ := σ) p l) (LO (σ := σ) p (l.set i (q t)))
      (lvals (σ := σ) p l) (lvals (σ := σ) p (l.set i (q t))) := by
  refine ⟨hl.set i (by rw [hq]; exact hr.1), hr.2.part (lvals (σ := σ) p (l.eraseIdx i))
    (fun x => hq t ▸ (LO.of_set h x).1) (fun x => (LO.of_set h x).2)
    (by rw [lvals, ← sum_erase (fun a => P.vals (p a)) h, add_comm]; rfl) ?_⟩
  have h1 := sum_set (fun a => P.vals (p a)) (b := q t) h
  rw [← sum_erase (fun a => P.vals (p a)) h, hq, add_right_comm] at h1
  have h1 := add_right_cancel h1
  rw [lvals, h1, lvals, add_comm]

theorem lvals_nil {l : List A} (h : l.isEmpty = true) : lvals (σ := σ) p l = 0 := by
  rw [List.isEmpty_iff.1 h]; rfl

/-- the tree at `i` gets a new entry -/
theorem list_insert {l : List A} {i : Nat} {a : A} (h : l[i]? = some a) (hl : LW (σ := σ) p l) {q : T → A}
    (hq : ∀ t, p (q t) = t) {t : T} {v : V} {o : Option (Lo × V)}
    (hr : P.W t ∧ Flow (P.ok (p a)) (P.ok t) (P.vals (p a) + {v}) (P.vals t + oe o) ∧ ∀ e, o = some e → e.2 ∈ P.vals (p a)) :
    LW (σ := σ) p (l.set i (q t)) ∧ Flow (LO (σ := σ) p l) (LO (σ := σ) p (l.set i (q t)))
      (lvals (σ := σ) p l + {v}) (lvals (σ := σ) p (l.set i (q t)) + oe o) ∧
      ∀ e, o = some e → e.2 ∈ lvals (σ := σ) p l := by
  refine ⟨hl.set i (by rw [hq]; exact hr.1), hr.2.1.part (lvals (σ := σ) p (l.eraseIdx i))
    (fun x => hq t ▸ (LO.of_set h x).1) (fun x => (LO.of_set h x).2) ?_ ?_,
    fun e he => Multiset.mem_of_le (lvals_le h) (hr.2.2 e he)⟩
  · rw [lvals, ← sum_erase (fun a => P.vals (p a)) h, lvals]; abel
  · have h1 := sum_set (fun a => P.vals (p a)) (b := q t) h
    rw [← sum_erase (fun a => P.vals (p a)) h, hq, add_right_comm] at h1
    have h1 := add_right_cancel h1
    rw [lvals, h1, lvals]; abel

/-- writing to the tree at `i` -/
theorem list_mut {l : List A} {i : Nat} {a : A} (h : l[i]? = some a) (hl : LW (σ := σ) p l) {q : T → A}
    (hq : ∀ t, p (q t) = t) : ∃ r, lvals (σ := σ) p l = P.vals (p a) + r ∧ ∀ u, P.W u →
      LW (σ := σ) p (l.set i (q u)) ∧ lvals (σ := σ) p (l.set i (q u)) = P.vals u + r ∧
      ((P.ok u → P.ok (p a)) → LO (σ := σ) p (l.set i (q u)) → LO (σ := σ) p l) := by
  refine ⟨lvals (σ := σ) p (l.eraseIdx i), ?_, fun u hu => ⟨hl.set i (by rwa [hq]), ?_, fun x y => ?_⟩⟩
  · rw [lvals, ← sum_erase (fun a => P.vals (p a)) h, add_comm]; rfl
  · have h1 := sum_set (fun a => P.vals (p a)) (b := q u) h
    rw [← sum_erase (fun a => P.vals (p a)) h, hq, add_right_comm] at h1
    have h1 := add_right_cancel h1
    rw [lvals, h1, lvals, add_comm]
  · exact (LO.of_set h y).2 (x (hq u ▸ (LO.of_set h y).1))

theorem left_none {C : Type} {g : Prop} {okC WC : C → Prop} {valsC : C → Multiset V} {l : List A}
    {B : Multiset V} {v : V} (h : LW (σ := σ) p l ∧ Flow g (LO (σ := σ) p l) B (lvals (σ := σ) p l + {v}))
    (he : l.isEmpty = true) : Rest g okC WC valsC B none v := by
  have := h.2
  rw [lvals_nil he] at this
  refine ⟨optOk_none, this.le, fun _ => this.eq ?_⟩
  rw [List.isEmpty_iff.1 he]
  intro a ha
  cases ha

theorem left_some {C : Type} {g : Prop} {okC WC : C → Prop} {valsC : C → Multiset V} {l : List A} {c' : C}
    {B : Multiset V} {v : V} (h : LW (σ := σ) p l ∧ Flow g (LO (σ := σ) p l) B (lvals (σ := σ) p l + {v}))
    (hw : LW (σ := σ) p l → WC c') (ho : okC c' → LO (σ := σ) p l) (hv : valsC c' = lvals (σ := σ) p l) :
    Rest g okC WC valsC B (some c') v :=
  ⟨optOk_some.2 (hw h.1), by
    show Flow _ _ B (valsC c' + {v})
    rw [hv]; exact ⟨h.2.le, fun x => h.2.eq (ho (optOk_some.1 x))⟩⟩

/-! ### Hash tables -/

variable (σ Hi) in
/-- a lookup finds any key that is there, at a position that exists -/
def ProbeFinds [ActHash σ Hi] : Prop := ∀ (l : List Hi) (h : Hi) (s : σ) (r : Option Nat) (s' : σ),
  ActHash.probe l h s = .ok (r, s') → (r = none → h ∉ l) ∧ ∀ i, r = some i → i < l.length

theorem post_probe [ActHash σ Hi] (c : HashMap Hi T) (h : Hi) : Post (c.probeA (σ := σ) h) fun r =>
    (∀ x, r = some x → c.entries[x.1]? = some x.2) ∧ (ProbeFinds σ Hi → r = none → h ∉ c.entries.map Prod.fst) := by
  refine Post.bind (Q := fun r => ProbeFinds σ Hi → (r = none → h ∉ c.entries.map Prod.fst) ∧
    ∀ i, r = some i → i < (c.entries.map Prod.fst).length) (fun s r s' e f => f _ _ _ _ _ e) fun o ho => ?_
  cases o with
  | none => exact .ret ⟨by simp, fun f _ => (ho f).1 rfl⟩
  | some i =>
    refine .ret ⟨fun x hx => ?_, fun f hx => ?_⟩
    · obtain ⟨e, h1, rfl⟩ := Option.map_eq_some_iff.1 hx
      exact h1
    · have := (ho f).2 i rfl
      rw [List.length_map] at this
      rw [List.getElem?_eq_getElem this] at hx
      cases hx

variable (σ Hi T) in
/-- the invariant of a hash table -/
def HashW [ActHash σ Hi] (c : HashMap Hi T) : Prop :=
  LW (σ := σ) Prod.snd c.entries ∧ (ProbeFinds σ Hi → (c.entries.map Prod.fst).Nodup)

theorem keys_set {l : List (Hi × T)} {i : Nat} {h : Hi} {t : T} (e : l[i]? = some (h, t)) (u : T) :
    (l.set i (h, u)).map Prod.fst = l.map Prod.fst := by
  rw [List.map_set]
  refine List.ext_getElem? fun j => ?_
  by_cases x : i = j
  · subst x
    have hi : i < l.length := (List.getElem?_eq_some_iff.1 e).1
    rw [List.getElem?_set_self (by simpa using hi), List.getElem?_map, e]
    rfl
  · rw [List.getElem?_set_ne x]

theorem HashW.assign [ActHash σ Hi] {c : HashMap Hi T} (I : HashW σ Hi T c) {i : Nat} {h : Hi} {t : T}
    (e : c.entries[i]? = some (h, t)) {u : T} (hu : LW (σ := σ) Prod.snd (c.entries.set i (h, u))) :
    HashW σ Hi T (c.assignAt i h u) := ⟨hu, fun f => by
  show ((c.entries.set i (h, u)).map Prod.fst).Nodup
  rw [keys_set e]
  exact I.2 f⟩
theorem HashW.replace [ActHash σ Hi] {c : HashMap Hi T} (I : HashW σ Hi T c) {i : Nat} {h : Hi} {t : T}
    (e : c.entries[i]? = some (h, t)) {o : Option T} (hu : LW (σ := σ) Prod.snd (c.replaceAt i h o).entries) :
    HashW σ Hi T (c.replaceAt i h o) := by
  cases o with
  | some u => exact I.assign e hu
  | none => exact ⟨hu, fun f => (I.2 f).sublist ((List.eraseIdx_sublist _ _).map _)⟩

instance instHash [ActHash σ Hi] : KeepsColl σ (HashMap Hi T) Hi T Lo V where
  W := HashW σ Hi T
  vals c := lvals (σ := σ) Prod.snd c.entries
  ok c := LO (σ := σ) Prod.snd c.entries
  fixed := P.fixed
  okOf f c I a ha := P.okOf f _ (I.1 a ha)
  create h t ht := by
    show Post (HashMap.createA h t) _
    unfold HashMap.createA
    exact .then_ fun h' => .then_ fun _ => .then_ fun _ => .then_ fun _ => .then_ fun _ => .ret
      ⟨⟨by intro a ha; rw [List.mem_singleton.1 ha]; exact ht, fun _ => List.nodup_singleton _⟩, by simp [lvals]⟩
  get c h I := by
    show Post (HashMap.getA c h) _
    unfold HashMap.getA
    refine (post_probe c h).bind fun r hr => .ret fun t ht => ?_
    obtain ⟨e, h1, rfl⟩ := Option.map_eq_some_iff.1 ht
    exact ⟨LW.at (p := Prod.snd) (hr.1 e h1) I.1, lvals_le (p := Prod.snd) (hr.1 e h1)⟩
  getMut c h I := by
    show Post (HashMap.getMutA c h) _
    unfold HashMap.getMutA
    refine (post_probe c h).bind fun r hr => .ret fun t ht => ?_
    obtain ⟨e, h1, rfl⟩ := Option.map_eq_some_iff.1 ht
    obtain ⟨b, g1, g2⟩ := list_mut (p := Prod.snd) (q := fun t => (e.2.1, t)) (hr.1 e h1) I.1 fun _ => rfl
    exact ⟨LW.at (p := Prod.snd) (hr.1 e h1) I.1, b, g1, fun u hu => ⟨I.assign (hr.1 e h1) (g2 u hu).1, (g2 u hu).2⟩⟩
  insertKey c h e I := by
    show Post (HashMap.insertKeyA c h e) _
    unfold HashMap.insertKeyA
    refine (post_probe c h).bind fun r hr => ?_
    obtain _ | ⟨i, h', t⟩ := r
    · refine .then_ fun _ => .then_ fun _ => .ret ⟨⟨?_, fun f => ?_⟩,
        .of_eq (fun x a ha => x a (List.mem_cons_of_mem _ ha)) ?_⟩
      · intro a ha
        rcases List.mem_cons.1 ha with rfl | ha
        · exact (P.fromMonad _ _).1
        · exact I.1 a ha
      · exact List.nodup_cons.2 ⟨hr.2 f rfl, I.2 f⟩
      · simp [lvals, (P.fromMonad e.1 e.2).2, add_comm]
    · have h0 := hr.1 _ rfl
      refine (P.insert t e.1 e.2 (LW.at (p := Prod.snd) h0 I.1)).bind fun r hr => .ret ?_
      have h1 := list_insert (p := Prod.snd) (q := fun t => (h', t)) h0 I.1 (fun _ => rfl) hr
      exact ⟨I.assign h0 h1.1, h1.2⟩
  removeKey c h f I hf := by
    show Post (HashMap.removeKeyA c h f) _
    unfold HashMap.removeKeyA
    refine (post_probe c h).bind fun r hr => ?_
    obtain _ | ⟨i, h', t⟩ := r
    · exact .fail
    · have h0 := hr.1 _ rfl
      refine (hf t (LW.at (p := Prod.snd) h0 I.1)).bind fun r hr => ?_
      obtain ⟨o, x, v⟩ := r
      have h1 := list_rest (p := Prod.snd) (q := fun t => (h', t)) h0 I.1 (fun _ => rfl) hr
      have h2 : (c.replaceAt i h' o).entries = o.elim (c.entries.eraseIdx i) fun t => c.entries.set i (h', t) := by
        cases o <;> rfl
      rw [← h2] at h1
      dsimp only
      cases he : (c.replaceAt i h' o).entries.isEmpty
      · exact .ret (left_some h1 (I.replace h0) id rfl)
      · exact .ret (left_none h1 he)
  maybeRemoveKey c h f I hf := by
    show Post (HashMap.maybeRemoveKeyA c h f) _
    unfold HashMap.maybeRemoveKeyA
    refine (post_probe c h).bind fun r hr => ?_
    obtain _ | ⟨i, h', t⟩ := r
    · exact .ret ⟨I, .of_eq id rfl⟩
    · have h0 := hr.1 _ rfl
      refine (hf t (LW.at (p := Prod.snd) h0 I.1)).bind fun r hr => ?_
      · obtain ⟨o, x, v⟩ | t' := r
        rotate_left
        · have h1 := list_same (p := Prod.snd) (q := fun t => (h', t)) h0 I.1 (fun _ => rfl) hr
          dsimp only
          rw [pure_bind]
          dsimp only
          cases he : (c.replaceAt i h' (some t')).entries.isEmpty
          · exact .ret ⟨I.assign h0 h1.1, h1.2⟩
          · exact .fail
        · have h1 := list_rest (p := Prod.snd) (q := fun t => (h', t)) h0 I.1 (fun _ => rfl) hr
          have h2 : (c.replaceAt i h' o).entries = o.elim (c.entries.eraseIdx i) fun t => c.entries.set i (h', t) := by
            cases o <;> rfl
          rw [← h2] at h1
          dsimp only
          rw [pure_bind]
          dsimp only
          cases he : (c.replaceAt i h' o).entries.isEmpty
          · exact .ret (left_some h1 (I.replace h0) id rfl)
          · exact .ret (left_none h1 he)

/-! ### `ByteMap` -/

theorem post_index {B : Type} {l : List B} {i : Nat} : Post (liftM (index l i) : Act σ B) fun a => l[i]? = some a := by
  refine .lift fun a h => ?_
  unfold index at h
  split at h
  · next e => cases h; exact e
  · cases h

instance instByte : KeepsColl σ (ByteMap T) (U 8) T Lo V where
  W c := LW (σ := σ) id c.list
  vals c := lvals (σ := σ) id c.list
  ok c := LO (σ := σ) id c.list
  fixed := P.fixed
  okOf f c I a ha := P.okOf f _ (I a ha)
  create h t ht := .lift fun c hc => by
    cases hc
    exact ⟨by intro a ha; rw [List.mem_singleton.1 ha]; exact ht, by simp [lvals]⟩
  get c h I := .lift fun o ho => by
    rintro t rfl
    change ByteMap.Coll.get c h = _ at ho
    unfold ByteMap.Coll.get VecDeque.get index at ho
    split at ho
    · cases ho
    · split at ho
      · next e => cases ho; exact ⟨LW.at (p := id) e I, lvals_le (p := id) e⟩
      · cases ho
  getMut c h I := .lift fun o ho => by
    rintro t rfl
    change ByteMap.Coll.getMut c h = _ at ho
    unfold ByteMap.Coll.getMut VecDeque.getMut index at ho
    split at ho
    · cases ho
    · split at ho
      · next e => cases ho; exact ⟨LW.at (p := id) e I, list_mut (p := id) (q := id) e I fun _ => rfl⟩
      · cases ho
  insertKey c h e I := by
    show Post (ByteMap.Coll.insertKeyA c h e) _
    unfold ByteMap.Coll.insertKeyA
    refine .then_ fun r => ?_
    obtain ⟨set, _ | r⟩ := r
    · refine (Post.lift (Q := fun l => c.set.countBelow h ≤ c.list.length ∧
        l = c.list.insertIdx (c.set.countBelow h) (ActTree.fromMonad σ e.1 e.2)) fun l hl => ?_).bind
        fun l hl => .ret ?_
      · unfold VecDeque.insertAt at hl
        split at hl
        · next h => cases hl; exact ⟨h, rfl⟩
        · cases hl
      · obtain ⟨h1, rfl⟩ := hl
        refine ⟨fun a ha => ?_, .of_eq (fun x a ha => x a ((List.mem_insertIdx h1).2 (.inr ha))) ?_⟩
        · rcases List.eq_or_mem_of_mem_insertIdx ha with rfl | ha
          · exact (P.fromMonad _ _).1
          · exact I a ha
        · show lvals _ (List.insertIdx _ _ _) = _
          rw [lvals, sum_insert _ h1]
          exact congrArg _ (P.fromMonad _ _).2
    · refine (Post.lift (Q := fun q : T × (T → List T) => c.list[c.set.countBelow h]? = some q.1 ∧
        ∀ u, q.2 u = c.list.set (c.set.countBelow h) u) fun q hq => ?_).bind fun q hq => ?_
      · unfold VecDeque.getMut index at hq
        split at hq
        · next h => cases hq; exact ⟨h, fun _ => rfl⟩
        · cases hq
      · obtain ⟨t, put⟩ := q
        obtain ⟨h0, h1⟩ := hq
        refine (P.insert t e.1 e.2 (LW.at (p := id) h0 I)).bind fun r hr => .ret ?_
        obtain ⟨t', o⟩ := r
        obtain rfl : put = fun u => c.list.set (c.set.countBelow h) u := funext h1
        exact list_insert (p := id) (q := id) h0 I (fun _ => rfl) hr
  removeKey c h f I hf := by
    show Post (ByteMap.Coll.removeKeyA c h f) _
    unfold ByteMap.Coll.removeKeyA
    refine .then_ fun _ => .then_ fun _ => Post.bind (Q := fun r : Option (List T × Bool) × (Lo × V) =>
      Rest (LO (σ := σ) id c.list) (LO (σ := σ) id) (LW (σ := σ) id) (lvals (σ := σ) id) (lvals (σ := σ) id c.list) (r.1.map Prod.fst) r.2.2) ?_ ?_
    · unfold VecDeque.removeKeyA
      split
      · exact .fail
      · next t h0 =>
        refine (hf t (LW.at (p := id) h0 I)).bind fun r hr => ?_
        obtain ⟨o, x, v⟩ := r
        have h1 := list_rest (p := id) (q := id) h0 I (fun _ => rfl) hr
        cases o
        all_goals
          dsimp only [Option.elim] at h1 ⊢
          split
          · next he => exact .then_ fun _ => .ret (left_none h1 he)
          · exact .ret (left_some h1 id id rfl)
    · rintro ⟨_ | ⟨l, b⟩, x, v⟩ hr
      · exact .ret ⟨optOk_none, hr.2.le, fun _ => hr.2.eq optOk_none⟩
      · refine .ite (.then_ fun _ => .ret ?_) (.ret ?_)
        all_goals exact ⟨optOk_some.2 (hr.1 _ rfl), hr.2.le, fun x => hr.2.eq (optOk_some.2 (x _ rfl))⟩
  maybeRemoveKey c h f I hf := by
    show Post (ByteMap.Coll.maybeRemoveKeyA c h f) _
    unfold ByteMap.Coll.maybeRemoveKeyA
    refine .then_ fun o => .ite (.ret ⟨I, .of_eq id rfl⟩) ?_
    refine Post.bind (Q := fun r : Result (Option (List T × Bool) × (Lo × V)) (List T) => match r with
      | .Ok r => Rest (LO (σ := σ) id c.list) (LO (σ := σ) id) (LW (σ := σ) id) (lvals (σ := σ) id) (lvals (σ := σ) id c.list) (r.1.map Prod.fst) r.2.2
      | .Err l => LW (σ := σ) id l ∧ Flow (LO (σ := σ) id c.list) (LO (σ := σ) id l) (lvals (σ := σ) id c.list) (lvals (σ := σ) id l)) ?_ ?_
    · unfold VecDeque.maybeRemoveKeyA
      split
      · exact .fail
      · next t h0 =>
        refine (hf t (LW.at (p := id) h0 I)).bind fun r hr => ?_
        obtain ⟨o, x, v⟩ | t' := r
        · have h1 := list_rest (p := id) (q := id) h0 I (fun _ => rfl) hr
          cases o
          all_goals
            dsimp only [Option.elim] at h1 ⊢
            split
            · next he => exact .then_ fun _ => .ret (left_none h1 he)
            · exact .ret (left_some h1 id id rfl)
        · exact .ret (list_same (p := id) (q := id) h0 I (fun _ => rfl) hr)
    · rintro (⟨_ | ⟨l, b⟩, x, v⟩ | l) hr
      · exact .ret ⟨optOk_none, hr.2.le, fun _ => hr.2.eq optOk_none⟩
      · refine .ite (.then_ fun _ => .ret ?_) (.ret ?_)
        all_goals exact ⟨optOk_some.2 (hr.1 _ rfl), hr.2.le, fun x => hr.2.eq (optOk_some.2 (x _ rfl))⟩
      · exact .ret hr

/-! ### Boxes -/

theorem boxc_rest {C : Type} {g : Prop} {ok W : C → Prop} {vals : C → Multiset V} {b : Multiset V} {o : Option (C × Bool)}
    {v : V} (h : Rest g ok W vals b (o.map Prod.fst) v) :
    Rest g (fun c : Box C => ok c.val) (fun c : Box C => W c.val) (fun c => vals c.val) b
      ((o.map fun x : C × Bool => ((⟨x.1⟩ : Box C), x.2)).map Prod.fst) v := by
  cases o with
  | none => exact ⟨optOk_none, h.2.le, fun _ => h.2.eq optOk_none⟩
  | some x => exact ⟨optOk_some.2 (h.1 _ rfl), h.2.le, fun y => h.2.eq (optOk_some.2 (y _ rfl))⟩

@[reducible] def box {C : Type} [ActColl σ C Hi T Lo V] (Q : KeepsColl σ C Hi T Lo V) : KeepsColl σ (Box C) Hi T Lo V where
  W c := Q.W c.val
  vals c := Q.vals c.val
  ok c := Q.ok c.val
  fixed := Q.fixed
  okOf f c := Q.okOf f c.val
  create h t ht := (Q.create h t ht).bind fun _ hc => .ret hc
  get c h I := Q.get c.val h I
  getMut c h I := (Q.getMut c.val h I).bind fun o ho => by
    obtain _ | ⟨t, put⟩ := o
    · exact .ret (by simp)
    · exact .ret (by rintro _ ⟨⟩; exact ho _ rfl)
  insertKey c h e I := (Q.insertKey c.val h e I).bind fun _ hr => .ret hr
  removeKey c h f I hf := (Q.removeKey c.val h f I hf).bind fun _ hr => .ret (boxc_rest hr)
  maybeRemoveKey c h f I hf := (Q.maybeRemoveKey c.val h f I hf).bind fun r hr => by
    cases r with
    | Ok r => exact .ret (boxc_rest hr)
    | Err c => exact .ret hr
end
end KeepsColl
end Veb
