import Verif.SpecAudit
import Verif.Proof.ActArray
import Verif.Proof.ActTree
import Verif.Proof.ByteMap

/-!
# Which panics code of the user can provoke: boxes, counters and collections

`Tree` is in `Verif.Proof.AuditTree`.
-/

set_option autoImplicit false
set_option linter.unusedSectionVars false

namespace Veb

/-- Every result of `x`, from any state, satisfies `Q`, and every panic `E`. -/
def Aud {σ α : Type} (E : Panic → Prop) (x : Act σ α) (Q : α → Prop) : Prop :=
  ∀ s, (∀ a s', x s = .ok (a, s') → Q a) ∧ ∀ p, x s = .error p → E p

namespace Aud
variable {σ α β : Type} {E F : Panic → Prop} {x : Act σ α} {Q Q' : α → Prop}

theorem only (h : Aud E x Q) : Only E x := fun s => (h s).2
theorem ret {a : α} (h : Q a) : Aud E (pure a : Act σ α) Q := fun s =>
  ⟨by rintro b s' ⟨⟩; exact h, by rintro p ⟨⟩⟩
theorem bind {f : α → Act σ β} {P : β → Prop} (h : Aud E x Q) (h' : ∀ a, Q a → Aud E (f a) P) : Aud E (x >>= f) P := by
  intro s
  show (∀ b s', (x s >>= fun p => f p.1 p.2) = .ok (b, s') → P b) ∧ ∀ p, (x s >>= fun p => f p.1 p.2) = .error p → E p
  cases hx : x s with
  | error p => exact ⟨by rintro b s' ⟨⟩, by rintro q ⟨⟩; exact (h s).2 p hx⟩
  | ok p => exact h' p.1 ((h s).1 _ _ hx) p.2
theorem mono (h : Aud E x Q) (i : ∀ a, Q a → Q' a) : Aud E x Q' := fun s => ⟨fun a s' e => i a ((h s).1 a s' e), (h s).2⟩
theorem more (h : Aud E x Q) (i : ∀ p, E p → F p) : Aud F x Q := fun s => ⟨(h s).1, fun p e => i p ((h s).2 p e)⟩
/-- together with what is known of the results -/
theorem and (h : Aud E x Q) (h' : Post x Q') : Aud E x fun a => Q a ∧ Q' a := fun s =>
  ⟨fun a s' e => ⟨(h s).1 a s' e, h' s a s' e⟩, (h s).2⟩
theorem fail {p : Panic} (h : E p) : Aud E (throw p : Act σ α) Q := fun s =>
  ⟨by rintro b s' ⟨⟩, by rintro q ⟨⟩; exact h⟩
/-- code of the user -/
theorem user {Us : Panic → Prop} (h : Only Us x) (i : ∀ p, Us p → E p) : Aud E x fun _ => True :=
  fun s => ⟨fun _ _ _ => trivial, fun p e => i p (h s p e)⟩
theorem ok {r : R α} {a : α} (h : r = .ok a) (hq : Q a) : Aud E (liftM r : Act σ α) Q := by
  subst h
  exact ret hq
theorem lift {r : R α} (h : ∀ a, r = .ok a → Q a) (h' : ∀ p, r = .error p → E p) : Aud E (liftM r : Act σ α) Q := by
  cases r with
  | ok a => exact ret (h a rfl)
  | error p => exact fail (h' p rfl)
theorem exp {o : Option α} {m : String} (h : o = none → E (.expect m)) :
    Aud E (liftM (expect m o) : Act σ α) fun a => o = some a := by
  cases o with
  | none => exact fail (h rfl)
  | some a => exact ret rfl
theorem assert {b : Bool} (h : b = false → E .debugAssert) : Aud E (liftM (debugAssert b) : Act σ Unit) fun _ => b = true := by
  cases b with
  | false => exact fail (h rfl)
  | true => exact ret rfl
theorem ite {b : Bool} {y : Act σ α} (h : b = true → Aud E x Q) (h' : b = false → Aud E y Q) :
    Aud E (if b = true then x else y) Q := by
  cases b
  · exact h' rfl
  · exact h rfl
theorem split {K Hi Lo : Type} [ActKey σ K Hi Lo] {Us : Panic → Prop} (hk : KeyPanics σ K Us) (i : ∀ p, Us p → E p)
    {k : K} {f : Hi → Lo → Act σ α} (h : ∀ hi lo, Aud E (f hi lo) Q) : Aud E (withSplit k f) Q :=
  (user (hk.splitRef k) i).bind fun p _ => (h p.1 p.2).bind fun _ hr => (user (hk.splitDone k) i).bind fun _ _ => ret hr
theorem sub {n : Nat} (h : 1 ≤ n) : Aud E (liftM (subUsize n 1) : Act σ Nat) fun m => m + 1 = n :=
  ok (a := n - 1) (if_pos h) (by omega)
end Aud

/-- the result of a `…_mut` method -/
def MutA {T K V : Type} (A : T → Prop) (r : Option (K × V × (V → T))) : Prop := ∀ e, r = some e → ∀ w, A (e.2.2 w)
/-- the result of a removal that may find nothing -/
def MaybeA {T K V : Type} (A : T → Prop) : Result (Option T × (K × V)) T → Prop
  | .Ok (o, _) => OptOk A o
  | .Err t => A t

/-- The panics of a tree type over code of the user that panics in `Us`; `L`: histories are short. -/
class Audit (Us : Panic → Prop) (L : Prop) (σ T : Type) (K V : outParam Type) [ActTree σ T K V] [P : Keeps σ T K V] where
  /-- the rest of the invariant: there were at most so many insertions -/
  A : Nat → T → Prop
  E : Panic → Prop
  user : ∀ p, Us p → E p
  up : ∀ n m t, n ≤ m → A n t → A m t
  pos : ∀ t, P.W t → 1 ≤ (P.vals t).card
  monadOk : ∀ t, P.W t → (P.vals t).card = 1 → P.ok t
  fromMonad : ∀ k v, A 1 (ActTree.fromMonad σ k v)
  isMonad : ∀ n t, P.W t → A n t → Aud NoPanics (ActTree.isMonad (σ := σ) t) fun _ => True
  lenHint : ∀ n t, P.W t → A n t → Aud NoPanics (ActTree.lenHint (σ := σ) t) fun _ => True
  intoMonad : ∀ n t, P.W t → A n t → Aud NoPanics (ActTree.intoMonad (σ := σ) t) fun r => ∀ u, r = .Err u → A n u
  minVal : ∀ n t, P.W t → A n t → Aud NoPanics (ActTree.minVal (σ := σ) t) fun _ => True
  minValMut : ∀ n t, P.W t → A n t → Aud NoPanics (ActTree.minValMut (σ := σ) t) fun r => MutA (A n) (some r)
  maxVal : ∀ n t, P.W t → A n t → Aud NoPanics (ActTree.maxVal (σ := σ) t) fun _ => True
  maxValMut : ∀ n t, P.W t → A n t → Aud NoPanics (ActTree.maxValMut (σ := σ) t) fun r => MutA (A n) (some r)
  find : ∀ n t k, P.W t → A n t → Aud E (ActTree.find (σ := σ) t k) fun _ => True
  findMut : ∀ n t k, P.W t → A n t → Aud E (ActTree.findMut (σ := σ) t k) (MutA (A n))
  predecessor : ∀ n t k, P.W t → A n t → Aud E (ActTree.predecessor (σ := σ) t k) fun _ => True
  predecessorMut : ∀ n t k, P.W t → A n t → Aud E (ActTree.predecessorMut (σ := σ) t k) (MutA (A n))
  successor : ∀ n t k, P.W t → A n t → Aud E (ActTree.successor (σ := σ) t k) fun _ => True
  successorMut : ∀ n t k, P.W t → A n t → Aud E (ActTree.successorMut (σ := σ) t k) (MutA (A n))
  insert : ∀ n t k v, P.W t → A n t → (L → n < usizeMax) →
    Aud E (ActTree.insert (σ := σ) t k v) fun r => A (n + 1) r.1
  remove : ∀ n t k, P.W t → A n t → Aud E (ActTree.remove (σ := σ) t k) (MaybeA (A n))
  removeMin : ∀ n t, P.W t → A n t → Aud E (ActTree.removeMin (σ := σ) t) fun r => OptOk (A n) r.1
  removeMax : ∀ n t, P.W t → A n t → Aud E (ActTree.removeMax (σ := σ) t) fun r => OptOk (A n) r.1

/-- The panics of a collection. -/
class AuditC (Us : Panic → Prop) (L : Prop) (σ C : Type) (Hi T Lo V : outParam Type) [ActTree σ T Lo V]
    [P : Keeps σ T Lo V] [N : Audit Us L σ T Lo V] [ActColl σ C Hi T Lo V] [Q : KeepsColl σ C Hi T Lo V] where
  A : Nat → C → Prop
  E : Panic → Prop
  tree : ∀ p, N.E p → E p
  up : ∀ n m c, n ≤ m → A n c → A m c
  create : ∀ n h t, 1 ≤ n → N.A n t → Aud E (ActColl.create (σ := σ) h t) (A n)
  get : ∀ n c h, Q.W c → A n c → Aud E (ActColl.get (σ := σ) c h) fun o => OptOk (N.A n) o
  getMut : ∀ n c h, Q.W c → A n c → Aud E (ActColl.getMut (σ := σ) c h) fun o => ∀ p, o = some p →
    N.A n p.1 ∧ ∀ u, N.A n u → A n (p.2 u)
  insertKey : ∀ n c h e, Q.W c → A n c → (L → n < usizeMax) →
    Aud E (ActColl.insertKey (σ := σ) c h e) fun r => A (n + 1) r.1
  removeKey : ∀ n c h f, Q.W c → A n c → (∀ t, P.W t → N.A n t → Aud E (f t) fun r => OptOk (N.A n) r.1) →
    Aud E (ActColl.removeKey (σ := σ) c h f) fun r => OptOk (A n) (r.1.map Prod.fst)
  maybeRemoveKey : ∀ n c h f, Q.W c → A n c → (∀ t, P.W t → N.A n t → Aud E (f t) (MaybeA (N.A n))) →
    Aud E (ActColl.maybeRemoveKey (σ := σ) c h f) fun r => match r with
      | .Ok r => OptOk (A n) (r.1.map Prod.fst)
      | .Err c' => A n c'

namespace Audit
variable {Us : Panic → Prop} {L : Prop}

/-! ## Trees whose keys do not depend on the state -/

theorem is_ok {σ α : Type} {E : Panic → Prop} {r : R α} {Q : α → Prop} (h : ∃ a, r = .ok a ∧ Q a) :
    Aud E (liftM r : Act σ α) fun _ => True := by
  obtain ⟨a, h, -⟩ := h
  exact .ok h trivial

theorem mut_true {T K V : Type} (r : Option (K × V × (V → T))) : MutA (fun _ => True) r := fun _ _ _ => trivial
theorem opt_true {T : Type} (o : Option T) : OptOk (fun _ => True) o := fun _ _ => trivial

/-- Trees over keys that are functions, without a counter. -/
@[reducible] def plain (Us : Panic → Prop) (L : Prop) (σ : Type) {T K V : Type} [VebTree T K V] (P : ObjTree T K V)
    (hl : ¬ P.limited) : @Audit Us L σ T K V (ActTree.plain σ) (Keeps.plain σ P hl) := by
  letI : ActTree σ T K V := ActTree.plain σ
  letI : Keeps σ T K V := Keeps.plain σ P hl
  exact {
    A := fun _ _ => True
    E := fun p => Us p ∨ p = .debugAssert ∧ ¬ P.agree
    user := fun p h => .inl h
    up := fun _ _ _ _ _ => trivial
    pos := fun t I => by
      obtain ⟨k, v, -, h⟩ := P.minVal t I
      show 1 ≤ ((P.ents t).map Prod.snd).card
      rw [Multiset.card_map]
      exact Multiset.card_pos_iff_exists_mem.2 ⟨_, h⟩
    monadOk := fun _ _ _ => trivial
    fromMonad := fun _ _ => trivial
    isMonad := fun n t I _ => is_ok (P.isMonad t I)
    lenHint := fun n t I _ => is_ok (P.lenHint t I)
    intoMonad := fun n t I _ => by
      rcases P.intoMonad t I with ⟨k, v, h1, -⟩ | ⟨h1, -⟩
      · exact .ok h1 fun _ _ => trivial
      · exact .ok h1 fun _ _ => trivial
    minVal := fun n t I _ => by
      obtain ⟨k, v, h1, h2⟩ := P.minVal t I
      exact .ok h1 trivial
    minValMut := fun n t I _ => (is_ok (P.minValMut t I)).mono fun _ _ => mut_true _
    maxVal := fun n t I _ => by
      obtain ⟨k, v, h1, h2⟩ := P.maxVal t I
      exact .ok h1 trivial
    maxValMut := fun n t I _ => (is_ok (P.maxValMut t I)).mono fun _ _ => mut_true _
    find := fun n t k I _ => is_ok (P.find t k I)
    findMut := fun n t k I _ => (is_ok (P.findMut t k I)).mono fun _ _ => mut_true _
    predecessor := fun n t k I _ => is_ok (P.predecessor t k I)
    predecessorMut := fun n t k I _ => by
      rcases P.predecessorMut t k I with h | ⟨h1, h2⟩
      · exact (is_ok h).mono fun _ _ => mut_true _
      · refine .lift (fun a e => ?_) fun p e => ?_
        · rw [h1] at e; cases e
        · rw [h1] at e; cases e; exact .inr ⟨rfl, h2⟩
    successor := fun n t k I _ => is_ok (P.successor t k I)
    successorMut := fun n t k I _ => (is_ok (P.successorMut t k I)).mono fun _ _ => mut_true _
    insert := fun n t k v I _ _ => by
      obtain ⟨t', o, h1, -, -⟩ := P.insert t k v I fun x => absurd x hl
      exact .ok h1 trivial
    remove := fun n t k I _ => by
      rcases P.remove t k I with h1 | ⟨o, e, h1, -⟩
      · exact .ok h1 trivial
      · exact .ok h1 (opt_true _)
    removeMin := fun n t I _ => by
      obtain ⟨o, k, v, -, h1, -⟩ := P.removeMin t I
      exact .ok h1 (opt_true _)
    removeMax := fun n t I _ => by
      obtain ⟨o, k, v, -, h1, -⟩ := P.removeMax t I
      exact .ok h1 (opt_true _) }

/-! ## Boxes -/

section
variable {σ T K V : Type} [ActTree σ T K V] [P : Keeps σ T K V] [N : Audit Us L σ T K V]

theorem opt_map {T B : Type} {A : T → Prop} {A' : B → Prop} {f : T → B} {o : Option T} (h : OptOk A o)
    (i : ∀ t, A t → A' (f t)) : OptOk A' (o.map f) := by
  cases o with
  | none => exact optOk_none
  | some t => exact optOk_some.2 (i t (h t rfl))
theorem mut_map {T B : Type} {A : T → Prop} {A' : B → Prop} {f : T → B} {r : Option (K × V × (V → T))} (h : MutA A r)
    (i : ∀ t, A t → A' (f t)) : MutA A' (r.map (mapPut f)) := by
  obtain _ | ⟨k, v, put⟩ := r
  · rintro e ⟨⟩
  · rintro e ⟨⟩ w
    exact i _ (h _ rfl w)

instance instBox : Audit Us L σ (Box T) K V where
  A n t := N.A n t.val
  E := N.E
  user := N.user
  up n m t := N.up n m t.val
  pos t := N.pos t.val
  monadOk t := N.monadOk t.val
  fromMonad k v := N.fromMonad k v
  isMonad n t := N.isMonad n t.val
  lenHint n t := N.lenHint n t.val
  intoMonad n t I h := (N.intoMonad n t.val I h).bind fun r hr => by
    cases r with
    | Ok e => exact .ret (by rintro u ⟨⟩)
    | Err u => exact .ret (by rintro u ⟨⟩; exact hr _ rfl)
  minVal n t := N.minVal n t.val
  minValMut n t I h := (N.minValMut n t.val I h).bind fun _ hr => .ret (mut_map (A' := fun t : Box T => N.A n t.val) hr fun _ => id)
  maxVal n t := N.maxVal n t.val
  maxValMut n t I h := (N.maxValMut n t.val I h).bind fun _ hr => .ret (mut_map (A' := fun t : Box T => N.A n t.val) hr fun _ => id)
  find n t := N.find n t.val
  findMut n t k I h := (N.findMut n t.val k I h).bind fun _ hr => .ret (mut_map (A' := fun t : Box T => N.A n t.val) hr fun _ => id)
  predecessor n t := N.predecessor n t.val
  predecessorMut n t k I h := (N.predecessorMut n t.val k I h).bind fun _ hr => .ret (mut_map (A' := fun t : Box T => N.A n t.val) hr fun _ => id)
  successor n t := N.successor n t.val
  successorMut n t k I h := (N.successorMut n t.val k I h).bind fun _ hr => .ret (mut_map (A' := fun t : Box T => N.A n t.val) hr fun _ => id)
  insert n t k v I h l := (N.insert n t.val k v I h l).bind fun _ hr => .ret hr
  remove n t k I h := (N.remove n t.val k I h).bind fun r hr => by
    cases r with
    | Ok r => exact .ret (opt_map hr fun _ => id)
    | Err t => exact .ret hr
  removeMin n t I h := (N.removeMin n t.val I h).bind fun _ hr => .ret (opt_map hr fun _ => id)
  removeMax n t I h := (N.removeMax n t.val I h).bind fun _ hr => .ret (opt_map hr fun _ => id)

/-! ## SizedVebTree -/

variable (σ) in
/-- the counter is at least the number of values, and at most the number of insertions -/
def SizedA (N : Audit Us L σ T K V) (n : Nat) (t : SizedVebTree T) : Prop :=
  N.A n t.tree ∧ (P.vals t.tree).card ≤ t.size ∧ t.size ≤ n

theorem sized_mutA {n : Nat} {t : SizedVebTree T}
    (h : SizedA σ N n t) {r : Option (K × V × (V → T))}
    (hr : MutA (N.A n) r ∧ MutV P.ok P.W P.vals t.tree r) :
    MutA (SizedA σ N n) (r.map (mapPut fun u => (⟨u, t.size⟩ : SizedVebTree T))) := by
  obtain _ | ⟨k, v, put⟩ := r
  · rintro e ⟨⟩
  · obtain ⟨h1, b, h2, h3⟩ := hr
    rintro e ⟨⟩ w
    refine ⟨h1 _ rfl w, ?_, h.2.2⟩
    show (P.vals (put w)).card ≤ t.size
    have := h.2.1
    rw [h2, Multiset.card_cons] at this
    rw [(h3 w).2.1, Multiset.card_cons]
    exact this

/-- one value less -/
theorem sized_less {n m : Nat} {t : SizedVebTree T} {u : T} {v : V} (h : SizedA σ N n t) (hm : m + 1 = t.size)
    (hu : N.A n u) (hr : Rest (P.ok t.tree) P.ok P.W P.vals (P.vals t.tree) (some u) v) :
    m ≠ 0 ∧ SizedA σ N n ⟨u, m⟩ := by
  have h1 := Multiset.card_le_card hr.2.le
  rw [Multiset.card_add, Multiset.card_singleton] at h1
  have h2 := h.2.1
  have h3 := h.2.2
  have h4 := N.pos u (hr.1 u rfl)
  change (P.vals u).card + 1 ≤ _ at h1
  refine ⟨by omega, hu, ?_, ?_⟩
  · show (P.vals u).card ≤ m
    omega
  · show m ≤ n
    omega

theorem nonZero_of {m : Nat} (h : m ≠ 0) : SizedVebTree.nonZero m = some m := if_neg h

instance instSized : Audit Us L σ (SizedVebTree T) K V where
  A := SizedA σ N
  E p := N.E p ∨ ¬ L ∧ p = .expect "size overflowed"
  user p h := .inl (N.user p h)
  up n m t l h := ⟨N.up n m t.tree l h.1, h.2.1, h.2.2.trans l⟩
  pos t I := N.pos t.tree I.1
  monadOk t I := N.monadOk t.tree I.1
  fromMonad k v := ⟨N.fromMonad k v, by
    show (P.vals (ActTree.fromMonad σ k v)).card ≤ 1
    rw [(P.fromMonad k v).2]; rfl, le_refl 1⟩
  isMonad n t I h := ((N.isMonad n t.tree I.1 h.1).and (P.isMonad t.tree I.1)).bind fun b hb => by
    cases b with
    | false => exact .ret trivial
    | true =>
      have h1 := hb.2.1 rfl
      have h2 := I.2 (N.monadOk t.tree I.1 h1)
      refine (Aud.assert fun e => ?_).bind fun _ _ => .ret trivial
      rw [h2, h1] at e
      cases e
  lenHint n t I h := .ret trivial
  intoMonad n t I h := ((N.intoMonad n t.tree I.1 h.1).and (P.intoMonad t.tree I.1)).bind fun r hr => by
    cases r with
    | Ok e => exact .ret (by rintro u ⟨⟩)
    | Err u =>
      refine .ret ?_
      rintro _ ⟨⟩
      refine ⟨hr.1 _ rfl, ?_, h.2.2⟩
      show (P.vals u).card ≤ t.size
      rw [hr.2.2.1]
      exact h.2.1
  minVal n t I h := N.minVal n t.tree I.1 h.1
  minValMut n t I h := ((N.minValMut n t.tree I.1 h.1).and (P.minValMut t.tree I.1)).bind fun _ hr => .ret (sized_mutA h hr)
  maxVal n t I h := N.maxVal n t.tree I.1 h.1
  maxValMut n t I h := ((N.maxValMut n t.tree I.1 h.1).and (P.maxValMut t.tree I.1)).bind fun _ hr => .ret (sized_mutA h hr)
  find n t k I h := (N.find n t.tree k I.1 h.1).more fun _ => .inl
  findMut n t k I h := (((N.findMut n t.tree k I.1 h.1).more fun _ => .inl).and (P.findMut t.tree k I.1)).bind
    fun _ hr => .ret (sized_mutA h hr)
  predecessor n t k I h := (N.predecessor n t.tree k I.1 h.1).more fun _ => .inl
  predecessorMut n t k I h := (((N.predecessorMut n t.tree k I.1 h.1).more fun _ => .inl).and (P.predecessorMut t.tree k I.1)).bind
    fun _ hr => .ret (sized_mutA h hr)
  successor n t k I h := (N.successor n t.tree k I.1 h.1).more fun _ => .inl
  successorMut n t k I h := (((N.successorMut n t.tree k I.1 h.1).more fun _ => .inl).and (P.successorMut t.tree k I.1)).bind
    fun _ hr => .ret (sized_mutA h hr)
  insert n t k v I h l := (((N.insert n t.tree k v I.1 h.1 l).more fun _ => .inl).and (P.insert t.tree k v I.1)).bind fun r hr => by
    obtain ⟨u, o⟩ := r
    obtain ⟨h1, h2, h3, -⟩ := hr
    have h4 := Multiset.card_le_card h3.le
    rw [Multiset.card_add, Multiset.card_add, Multiset.card_singleton] at h4
    have h5 := h.2.1
    have h6 := h.2.2
    dsimp only at h4
    cases o with
    | none =>
      refine (Aud.exp fun e => ?_).bind fun m hm => .ret ?_
      · refine .inr ⟨fun x => ?_, rfl⟩
        have := l x
        rw [if_pos (by omega)] at e
        cases e
      · split at hm
        · cases hm
          refine ⟨h1, ?_, ?_⟩
          · show (P.vals u).card ≤ t.size + 1
            rw [show (oe (none : Option (K × V))).card = 0 from rfl] at h4
            omega
          · show t.size + 1 ≤ n + 1
            omega
        · cases hm
    | some e =>
      refine .ret ⟨h1, ?_, ?_⟩
      · show (P.vals u).card ≤ t.size
        rw [show (oe (some e)).card = 1 from rfl] at h4
        omega
      · show t.size ≤ n + 1
        omega
  remove n t k I h := (((N.remove n t.tree k I.1 h.1).more fun _ => .inl).and (P.remove t.tree k I.1)).bind fun r hr => by
    obtain ⟨_ | u, e⟩ | u := r
    · exact .ret optOk_none
    · have hp : 1 ≤ t.size := (N.pos t.tree I.1).trans h.2.1
      refine (Aud.sub hp).bind fun m hm => ?_
      obtain ⟨h1, h2⟩ := sized_less h hm (hr.1 u rfl) hr.2
      rw [nonZero_of h1]
      exact .ret (optOk_some.2 h2)
    · refine .ret ⟨hr.1, ?_, h.2.2⟩
      have := Multiset.card_le_card hr.2.2.le
      show (P.vals u).card ≤ t.size
      exact this.trans h.2.1
  removeMin n t I h := (Aud.sub ((N.pos t.tree I.1).trans h.2.1)).bind fun m hm =>
    (((N.removeMin n t.tree I.1 h.1).more fun _ => .inl).and (P.removeMin t.tree I.1)).bind fun r hr => by
    obtain ⟨_ | u, e⟩ := r
    · exact .ret optOk_none
    · obtain ⟨h1, h2⟩ := sized_less h hm (hr.1 u rfl) hr.2
      rw [nonZero_of h1]
      exact .ret (optOk_some.2 h2)
  removeMax n t I h := (Aud.sub ((N.pos t.tree I.1).trans h.2.1)).bind fun m hm =>
    (((N.removeMax n t.tree I.1 h.1).more fun _ => .inl).and (P.removeMax t.tree I.1)).bind fun r hr => by
    obtain ⟨_ | u, e⟩ := r
    · exact .ret optOk_none
    · obtain ⟨h1, h2⟩ := sized_less h hm (hr.1 u rfl) hr.2
      rw [nonZero_of h1]
      exact .ret (optOk_some.2 h2)

end
end Audit
end Veb
