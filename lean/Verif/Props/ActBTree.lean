import Verif.Proof.ActBTreeAny
import Verif.Proof.ActBTreeLeaf
import Verif.Props.Audit
import Verif.Props.Sync
import Verif.Props.Honest

/-!
# C74: `BTreeMap` when the comparisons of its keys answer as they like

`impl VebTree for BTreeMap` calls `BTreeMap` of `alloc`, which calls `Ord` of the keys.  Here every search in the map can end
anywhere, differently each time, and panic.
-/

set_option autoImplicit false

namespace Veb.Props

section
variable {σ K V : Type} [ActOrd σ K]

/-- the values in a `BTreeMap` -/
def mapVals (t : BTreeMap K V) : Multiset V := (t.entries.map Prod.snd : List V)

/-- The full claim: whatever `Ord` answers, no value is lost and none appears twice.  It is false: `C74_refuted`. -/
def C74_full : Prop :=
  ∀ (σ K V : Type) [ActOrd σ K] (ops : List (Op K V)) (s s' : σ) (t : Option (BTreeMap K V)) (os : List (Out K V)),
    ActExec.run none ops s = .ok ((t, os), s') → heldOpt mapVals t + takenVals ops os = givenVals ops os

/-- **C74, under the condition it needs.** If a search that found nothing finds nothing when it is repeated at once, no value
is lost and none appears twice.  Missing: an `Ord` that changes its mind between the two searches of `insert`
(src/lib.rs:542, :545), for which it is false.  The condition holds for every comparison that is a function, be it an order
or not: `C74_function`. -/
theorem C74_conservation_partial (h : OrdSteady σ K) {ops : List (Op K V)} {s s' : σ} {t : Option (BTreeMap K V)}
    {os : List (Out K V)} (hr : ActExec.run none ops s = .ok ((t, os), s')) :
    heldOpt mapVals t + takenVals ops os = givenVals ops os :=
  C67_conservation_partial (.btree h) trivial hr

/-- **C74, the half that needs no condition.** No value appears twice. -/
theorem C74_no_duplication {ops : List (Op K V)} {s s' : σ} {t : Option (BTreeMap K V)} {os : List (Out K V)}
    (hr : ActExec.run none ops s = .ok ((t, os), s')) : heldOpt mapVals t + takenVals ops os ≤ givenVals ops os := by
  have := ((BTreeMap.any_run (t := none) BTreeMap.no_panics (by rintro _ ⟨⟩) ops s).1 _ _ hr).2
  have e : heldOpt mapVals t = BTreeMap.ovals t := by cases t <;> rfl
  rw [e]
  exact this.trans (zero_add _).le

/-- **C74 for one call.** A value that a call answers is in the map when the call is made. -/
theorem C74_answers {ops : List (Op K V)} {op : Op K V} {s s' s'' : σ} {t t' : Option (BTreeMap K V)} {os : List (Out K V)}
    {o : Out K V} (hr : ActExec.run none ops s = .ok ((t, os), s')) (hs : ActExec.step t op s' = .ok ((t', o), s''))
    {e : K × V} (he : o.entry? = some e) : e.2 ∈ heldOpt mapVals t := by
  have I := ((BTreeMap.any_run (t := none) BTreeMap.no_panics (by rintro _ ⟨⟩) ops s).1 _ _ hr).1
  have := ((BTreeMap.any_step BTreeMap.no_panics I op s').1 _ _ hs).mem e he
  cases t <;> exact this

/-- **C74 for panics.** Whatever `Ord` answers, a history panics only where `Ord` itself panics, or in `range_mut`, when
`k > k` is answered with yes or the ends of `k..=k` are found in the wrong order (src/lib.rs:495).  None of the messages in
the crate's own code occurs: “tree should not be empty” and “monad BTreeMap should have one element”. -/
theorem C74_panics {Us : Panic → Prop} (h : OrdPanics σ K Us) {ops : List (Op K V)} {s : σ} {p : Panic}
    (hr : ActExec.run (none : Option (BTreeMap K V)) ops s = .error p) : Us p ∨ RangePanics p :=
  (BTreeMap.any_run (t := none) h (by rintro _ ⟨⟩) ops s).2 p hr

/-- **C74 for the methods that compare nothing.** On a map that a history has left, `is_monad`, `len_hint`, `into_monad`,
`min_val`, `max_val` and their mutable versions return, and `is_monad` and `len_hint` tell the number of values in it. -/
theorem C74_still {ops : List (Op K V)} {s s' : σ} {t : BTreeMap K V} {os : List (Out K V)}
    (hr : ActExec.run none ops s = .ok ((some t, os), s')) (s₁ : σ) :
    ActTree.isMonad t s₁ = .ok (decide ((mapVals t).card = 1), s₁) ∧
    ActTree.lenHint t s₁ = .ok (((mapVals t).card, some (mapVals t).card), s₁) ∧ 1 ≤ (mapVals t).card ∧
    (∃ r, ActTree.intoMonad t s₁ = .ok r) ∧ (∃ r, ActTree.minVal t s₁ = .ok r) ∧ (∃ r, ActTree.maxVal t s₁ = .ok r) ∧
    (∃ r, ActTree.minValMut t s₁ = .ok r) ∧ ∃ r, ActTree.maxValMut t s₁ = .ok r := by
  have I := ((BTreeMap.any_run (t := none) BTreeMap.no_panics (by rintro _ ⟨⟩) ops s).1 _ _ hr).1 t rfl
  have len : (mapVals t).card = t.entries.length := by simp [mapVals]
  let A : ActTree σ (BTreeMap K V) K V := BTreeMap.treeWith BTreeMap.front
  let P : Keeps σ (BTreeMap K V) K V := BTreeMap.keepsWith BTreeMap.front BTreeMap.front_ok
  let N : Audit (fun _ => True) False σ (BTreeMap K V) K V :=
    BTreeMap.auditWith BTreeMap.no_panics BTreeMap.front BTreeMap.front_ok BTreeMap.front_aud False
  have key : ∀ {α : Type} {x : Act σ α} {Q : α → Prop}, Aud NoPanics x Q → ∃ r, x s₁ = .ok r := fun {α x Q} hx => by
    cases hs : x s₁ with
    | error p => exact ((hx s₁).2 p hs).elim
    | ok r => exact ⟨r, rfl⟩
  rw [len]
  exact ⟨rfl, rfl, List.length_pos_iff.2 I, key (N.intoMonad 0 t I trivial), key (N.minVal 0 t I trivial),
    key (N.maxVal 0 t I trivial), key (N.minValMut 0 t I trivial), key (N.maxValMut 0 t I trivial)⟩

/-- **C74 for comparisons that answer properly.** A `BTreeMap` whose comparisons have side effects but answer as an order
does what it does without the side effects, in every history. -/
theorem C74_honest [LinearOrder K] (h : HonestOrd σ K) (ops : List (Op K V)) :
    SameOutcome (ActExec.run (σ := σ) (none : Option (BTreeMap K V)) ops) (Exec.run none ops) :=
  C68_agree (.btree h) ops
end

/-! ## Maps of one node: from comparisons to searches -/

section
variable {σ K : Type} {cmp : K → K → Act σ Ordering} {gt : K → K → Act σ Bool}

/-- **C74, comparisons that answer as an order does** lead every search in a map of one node where it should end. -/
theorem C74_leaf_honest [LinearOrder K] (hc : ∀ a b, AlwaysAnswers (cmp a b) (compare a b))
    (hg : ∀ a b, AlwaysAnswers (gt a b) (decide (a > b))) : @HonestOrd σ K _ (.leaf cmp gt) := Leaf.honest hc hg

/-- **C74, comparisons that are functions**, of whatever kind, give the same answer to a repeated search. -/
theorem C74_function (f : K → K → Ordering) : @OrdSteady σ K (.leaf (fun a b => pure (f a b)) gt) := Leaf.steady f gt

/-- **C74, the panics of searches in a map of one node** are those of the comparisons and the first of the two messages of
`range_mut`; the second does not occur. -/
theorem C74_leaf_panics {Us : Panic → Prop} (hc : ∀ a b, Only Us (cmp a b)) (hg : ∀ a b, Only Us (gt a b)) :
    @OrdPanics σ K (.leaf cmp gt) Us ∧ ∀ ks k, Only (fun p => Us p ∨ p = .expect "range start is greater than range end in BTreeMap")
      ((ActOrd.leaf cmp gt).around ks k) :=
  ⟨Leaf.panics hc hg, Leaf.around_only hc hg⟩
end

/-! ## The condition is needed -/

/-- keys whose comparisons answer what is on the tape -/
structure Moody where
  no : Nat
  deriving DecidableEq, Repr
/-- an ordering from the tape -/
def nextOrdering : Act (List Nat) Ordering := do pure (match (← nextOf) with | 0 => .eq | 1 => .lt | _ => .gt)
instance : ActOrd (List Nat) Moody := .leaf (fun _ _ => nextOrdering) (fun _ _ => nextBool)

/-- two insertions -/
def twoMoody : List (Op Moody Nat) := [.insert ⟨0⟩ 10, .insert ⟨1⟩ 11]

/-- The second insertion does not find the key when it looks for it, and finds it when it inserts. -/
theorem C74_lost : ActExec.run (none : Option (BTreeMap Moody Nat)) twoMoody [1, 0] =
    .ok ((some ⟨[(⟨0⟩, 11)]⟩, [.kv none, .kv none]), []) := rfl

/-- **C74 refuted.** An `Ord` that changes its mind makes `insert` drop a value that it does not return. -/
theorem C74_refuted : ¬ C74_full := by
  intro h
  have := congrArg Multiset.card (h _ _ _ _ _ _ _ _ C74_lost)
  exact absurd this (by decide +kernel)

/-- **C74 for the counter**: the full claim, that `SizedVebTree` around a `BTreeMap` counts the values in it. -/
def C74_len_full : Prop :=
  ∀ (σ K V : Type) [ActOrd σ K] (ops : List (Op K V)) (s s' : σ) (t : SizedVebTree (BTreeMap K V)) (os : List (Out K V)),
    ActExec.run none ops s = .ok ((some t, os), s') → t.len = (mapVals t.tree).card
/-- It is false: the counter counts a value that is not there … -/
theorem C74_len_refuted : ¬ C74_len_full := by
  intro h
  have e : ActExec.run (none : Option (SizedVebTree (BTreeMap Moody Nat))) twoMoody [1, 0] =
    .ok ((some ⟨⟨[(⟨0⟩, 11)]⟩, 2⟩, [.kv none, .kv none]), []) := rfl
  exact absurd (h _ _ _ _ _ _ _ _ e) (by decide +kernel)
/-- … and then `is_monad` panics, though it compares nothing (src/lib.rs:199). -/
theorem C74_is_monad : ActExec.run (none : Option (SizedVebTree (BTreeMap Moody Nat))) (twoMoody ++ [.isMonad]) [1, 0] =
    .error .debugAssert := rfl
/-- **C74 for the counter, under the condition it needs.** Missing: as for `C74_conservation_partial`. -/
theorem C74_len_partial {σ K V : Type} [ActOrd σ K] (h : OrdSteady σ K) {ops : List (Op K V)} {s s' : σ}
    {t : SizedVebTree (BTreeMap K V)} {os : List (Out K V)} (hr : ActExec.run none ops s = .ok ((some t, os), s')) :
    t.len = (mapVals t.tree).card := by
  have h1 := C67_len (.btree h) hr
  have h2 := congrArg Multiset.card (C67_conservation_partial (.sized (.btree h)) trivial hr)
  rw [Multiset.card_add] at h2
  change (mapVals t.tree).card + _ = _ at h2
  omega

/-! ## The hypotheses are met -/

/-- `range_mut` panics when `k > k` is answered with yes. -/
example : ActExec.run (none : Option (BTreeMap Moody Nat)) [.insert ⟨0⟩ 10, .findSet ⟨0⟩ 11] [1] =
    .error (.expect "range start is greater than range end in BTreeMap") := rfl
/-- The comparisons of `Moody` do not panic. -/
example : OrdPanics (List Nat) Moody NoPanics := by
  have nx : Only NoPanics nextOf := fun s p hp => by cases s <;> cases hp
  have h1 : Only NoPanics nextOrdering := only_bind nx fun _ => only_pure _
  have h2 : Only NoPanics nextBool := only_bind nx fun _ => only_pure _
  exact (C74_leaf_panics (fun _ _ => h1) fun _ _ => h2).1
/-- A history with changing answers that loses nothing: the key is inserted twice. -/
example : ActExec.run (none : Option (BTreeMap Moody Nat)) (twoMoody ++ [.insert ⟨1⟩ 12, .removeMax]) [1, 1, 2, 2, 2, 2] =
    .ok ((some ⟨[(⟨1⟩, 11), (⟨0⟩, 10)]⟩, [.kv none, .kv none, .kv none, .kv (some (⟨1⟩, 12))]), []) := rfl

/-- comparisons that say all keys are smaller than all others -/
structure Small where
  no : Nat
  deriving DecidableEq, Repr
instance : ActOrd Unit Small := .leaf (fun _ _ => pure .lt) (fun _ _ => pure false)
example : OrdSteady Unit Small := C74_function (gt := fun _ _ => pure false) fun _ _ => .lt
example : AuditedTree Unit NoPanics (SizedVebTree (BTreeMap Small Nat)) Small Nat RangePanics
    (fun p => NoPanics p ∨ p = .expect "size overflowed") :=
  .sized (.btree (C74_leaf_panics (fun _ _ => only_pure _) fun _ _ => only_pure _).1
    (C74_function (gt := fun _ _ => pure false) fun _ _ => .lt))
/-- Equal keys pile up, and every value is there. -/
example : ActExec.run (none : Option (BTreeMap Small Nat)) [.insert ⟨0⟩ 10, .insert ⟨0⟩ 11, .insert ⟨0⟩ 12, .find ⟨0⟩] () =
    .ok ((some ⟨[(⟨0⟩, 12), (⟨0⟩, 11), (⟨0⟩, 10)]⟩, [.kv none, .kv none, .kv none, .kv none]), ()) := rfl

/-- comparisons that count themselves -/
instance countOrd {K : Type} [LinearOrder K] : ActOrd Calls K :=
  .leaf (fun a b => counted (compare a b)) (fun a b => counted (decide (a > b)))
theorem countOrd_honest {K : Type} [LinearOrder K] : HonestOrd Calls K :=
  C74_leaf_honest (fun _ _ => counted_answers _) fun _ _ => counted_answers _
/-- `BTreeMap`s as they are, as summaries and as children -/
example {V : Type} : HonestTree Calls (BTreeMap Nat V) Nat V := .btree countOrd_honest
example {V : Type} : HonestTree Calls (SizedVebTree (Tree (U 16) V (BTreeMap (U 8) Unit) (HashMap (U 8) (BTreeMap (U 8) V)))) (U 16) V :=
  .sized (.tree countKey_honest (.btree countOrd_honest) (.btree countOrd_honest) (.hash countHash_honest))
/-- Three insertions and a search: nothing is compared for the first, one key twice for the second, two keys twice for the
third, and two keys once for the search. -/
example : ((ActExec.run (none : Option (BTreeMap Nat Nat)) [.insert 1 10, .insert 2 20, .insert 3 30, .find 2] (⟨0⟩ : Calls)).map
    fun r => (r.1.2, r.2)) = .ok ([.kv none, .kv none, .kv none, .kv (some (2, 20))], ⟨8⟩) := rfl

end Veb.Props
