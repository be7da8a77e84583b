import Verif.Proof.AnyOrdRun
import Verif.Props.KeyObj

/-!
# C61: keys whose traits keep no contract

`Ord`, `PartialOrd`, `PartialEq` and the splitting of a key type are code of the caller.  Whatever they answer, `Tree`
neither panics nor loses nor duplicates a value; the one exception is a `debug_assert!`.
-/

set_option autoImplicit false

namespace Veb.Props

variable {T K V : Type} [VebTree T K V] {n a e : Prop}

/-- **C61.** Whatever the comparisons and the splitting of the keys do: if of `k <= l` and `k > l` one always holds, no
history panics. -/
theorem C61_no_panic (h : AnyTree T K V n a e) (ha : a) {ops : List (Op K V)} (hn : n → insertions ops ≤ usizeMax) :
    NeverPanics T ops := by
  obtain ⟨P, h1, h2, -⟩ := h.obj
  rcases any_run (T := T) (n := 0) (t := none) trivial ops (by simpa using fun x => hn (h1 x)) with
    ⟨t, os, e, -⟩ | ⟨-, x, -⟩
  · exact ⟨_, e⟩
  · exact absurd (h2 ha) x

/-- **C61 without that condition.** The only panic left is a `debug_assert!`, and only a call of `predecessor_mut`
reaches it. -/
theorem C61_only_debug_assert (h : AnyTree T K V n a e) {ops : List (Op K V)} (hn : n → insertions ops ≤ usizeMax)
    {p : Panic} (hp : Exec.run (none : Option T) ops = .error p) :
    p = .debugAssert ∧ ¬ a ∧ ∃ k w, Op.predecessorSet k w ∈ ops := by
  obtain ⟨P, h1, h2, -⟩ := h.obj
  rcases any_run (T := T) (n := 0) (t := none) trivial ops (by simpa using fun x => hn (h1 x)) with
    ⟨t, os, e, -⟩ | ⟨e, x, y⟩
  · rw [e] at hp; cases hp
  · rw [e] at hp
    cases hp
    exact ⟨rfl, fun ha => x (h2 ha), y⟩

/-- **C61 for values.** Popping the minimum until no tree is left gives back exactly the values handed over and not yet
given back, each as often; so does popping the maximum. -/
theorem C61_values (h : AnyTree T K V n a e) {ops : List (Op K V)} (hn : n → insertions ops ≤ usizeMax)
    {t : Option T} {os : List (Out K V)} (hr : Exec.run none ops = .ok (t, os)) :
    (∃ es, Pops .removeMin t es ∧
      (es.map Prod.snd : Multiset V) + (taken ops os).map Prod.snd = (given ops os).map Prod.snd) ∧
    ∃ es, Pops .removeMax t es ∧
      (es.map Prod.snd : Multiset V) + (taken ops os).map Prod.snd = (given ops os).map Prod.snd := by
  obtain ⟨P, h1, -, -⟩ := h.obj
  obtain ⟨I, h2, -⟩ := any_run_of (T := T) (n := 0) (t := none) trivial (by simpa using fun x => hn (h1 x)) hr
  have h2 : Multiset.map Prod.snd (ooents t) + _ = 0 + _ := h2
  rw [zero_add] at h2
  obtain ⟨es, e1, e2⟩ := any_drain_min I
  obtain ⟨fs, f1, f2⟩ := any_drain_max I
  exact ⟨⟨es, e1, by rw [← h2, ← e2]; rfl⟩, fs, f1, by rw [← h2, ← f2]; rfl⟩

/-- **C61 for entries.** If joining the parts of a key gives the key back, the same holds of the entries: whatever the
comparisons do, each value keeps its key. -/
theorem C61_entries (h : AnyTree T K V n a e) (he : e) {ops : List (Op K V)} (hn : n → insertions ops ≤ usizeMax)
    {t : Option T} {os : List (Out K V)} (hr : Exec.run none ops = .ok (t, os)) :
    (∃ es, Pops .removeMin t es ∧ (es : Multiset (K × V)) + taken ops os = given ops os) ∧
    ∃ es, Pops .removeMax t es ∧ (es : Multiset (K × V)) + taken ops os = given ops os := by
  obtain ⟨P, h1, -, h3⟩ := h.obj
  obtain ⟨I, -, h2⟩ := any_run_of (T := T) (n := 0) (t := none) trivial (by simpa using fun x => hn (h1 x)) hr
  have h2 : ooents t + _ = 0 + _ := h2 (h3 he)
  rw [zero_add] at h2
  obtain ⟨es, e1, e2⟩ := any_drain_min I
  obtain ⟨fs, f1, f2⟩ := any_drain_max I
  exact ⟨⟨es, e1, by rw [← h2, ← e2]⟩, fs, f1, by rw [← h2, ← f2]⟩

/-- **C61 for one call.** An entry that a call answers is one of those stored when it was made. -/
theorem C61_answers_stored (h : AnyTree T K V n a e) {ops : List (Op K V)} {op : Op K V}
    (hn : n → insertions (ops ++ [op]) ≤ usizeMax) {t t' : Option T} {os : List (Out K V)} {o : Out K V}
    (hr : Exec.run none ops = .ok (t, os)) (hs : Exec.step t op = .ok (t', o)) {x : K × V} (hx : o.entry? = some x) :
    ∃ es, Pops .removeMin t es ∧ x ∈ es := by
  obtain ⟨P, h1, -, -⟩ := h.obj
  have hn' : P.limited → insertions ops + insertions [op] ≤ usizeMax := fun y => by
    have := hn (h1 y)
    rwa [insertions, List.countP_append] at this
  obtain ⟨I, -, -⟩ := any_run_of (T := T) (n := 0) (t := none) trivial
    (fun y => by have := hn' y; omega) hr
  obtain ⟨es, e1, e2⟩ := any_drain_min I
  refine ⟨es, e1, ?_⟩
  rcases any_step I op (fun y => by have := hn' y; omega) with ⟨t1, o1, s1, -, s2⟩ | ⟨s1, -⟩
  · rw [s1] at hs
    cases hs
    have := s2.mem x hx
    rwa [← e2] at this
  · rw [s1] at hs; cases hs

/-- **C61 for sizes.** `is_monad`, `into_monad` and `len_hint` tell the truth about the number of entries. -/
theorem C61_sizes (h : AnyTree T K V n a e) {ops : List (Op K V)} (hn : n → insertions ops ≤ usizeMax)
    {t : T} {os : List (Out K V)} (hr : Exec.run none ops = .ok (some t, os)) : ∃ es, Pops .removeMin (some t) es ∧
      VebTree.isMonad t = .ok (decide (es.length = 1)) ∧
      ((∃ x, VebTree.intoMonad t = .ok (.Ok x)) ↔ es.length = 1) ∧
      ∃ lo hi, VebTree.lenHint t = .ok (lo, hi) ∧ lo ≤ es.length ∧ ∀ m, hi = some m → m = es.length := by
  obtain ⟨P, h1, -, -⟩ := h.obj
  obtain ⟨I, -, -⟩ := any_run_of (T := T) (n := 0) (t := none) trivial (by simpa using fun x => hn (h1 x)) hr
  obtain ⟨es, e1, e2⟩ := any_drain_min I
  have hc : es.length = (P.ents t).card := congrArg Multiset.card e2
  refine ⟨es, e1, ?_⟩
  rw [hc]
  refine ⟨?_, ?_, ?_⟩
  · obtain ⟨b, b1, b2⟩ := P.isMonad t I.1
    rw [b1]; congr 1; rw [Bool.eq_iff_iff, b2, decide_eq_true_iff]
  · rcases P.intoMonad t I.1 with ⟨k, v, x, y⟩ | ⟨x, y⟩
    · exact ⟨fun _ => by rw [y]; rfl, fun _ => ⟨_, x⟩⟩
    · exact ⟨fun ⟨kv, z⟩ => by rw [x] at z; exact (by cases z), fun z => absurd z y⟩
  · obtain ⟨⟨lo, hi⟩, l1, l2, l3⟩ := P.lenHint t I.1
    exact ⟨lo, hi, l1, l2, l3⟩

/-- **C61 for the counter.** `SizedVebTree::len` counts the entries. -/
theorem C61_len (h : AnyTree T K V n a e) {ops : List (Op K V)} (hn : insertions ops ≤ usizeMax)
    {t : SizedVebTree T} {os : List (Out K V)} (hr : Exec.run none ops = .ok (some t, os)) :
    ∃ es, Pops .removeMin (some t) es ∧ t.len = es.length := by
  obtain ⟨P, -, -, -⟩ := h.obj
  obtain ⟨I, -, -⟩ := any_run_of (T := SizedVebTree T) (n := 0) (t := none) trivial (by simpa using fun _ => hn) hr
  obtain ⟨es, e1, e2⟩ := any_drain_min I
  exact ⟨es, e1, I.1.2.trans (congrArg Multiset.card e2).symm⟩

/-! ## The conditions are needed -/

/-- Two bytes, and a comparison for each of the six ways to compare them.  `W` names the type, so that several
implementations can be told apart. -/
structure Two (W : Type) where
  hi : U 8
  lo : U 8
  deriving DecidableEq

/-- two bytes -/
def two (W : Type) (h l : Nat) : Two W := ⟨U.lit h, U.lit l⟩

instance {W : Type} : VebKey (Two W) (U 8) (U 8) := ⟨fun k => (k.hi, k.lo), fun h l => ⟨h, l⟩⟩
instance {W : Type} : VebKeyRef (Two W) (U 8) (U 8) := ⟨fun k => (k.hi, k.lo)⟩

/-- a `Tree` over such keys -/
abbrev TwoTree (W : Type) [AnyOrd (Two W)] :=
  OTree (Two W) Nat (BTreeMap (U 8) Unit) (HashMap (U 8) (BTreeMap (U 8) Nat))

/-- It is one of the trees in question, without counter, and its keys can be joined. -/
theorem twoTree (W : Type) [AnyOrd (Two W)] :
    AnyTree (TwoTree W) (Two W) Nat False (True ∧ LeOrGt (Two W)) (True ∧ Rejoins (Two W)) :=
  .tree .btreeMap (.inr .btreeMap) (.uncounted .btreeMap) .hash
theorem two_rejoins (W : Type) : Rejoins (Two W) := fun _ => rfl

/-- Numbers with a value (255, _) that is not a number, compared as floating point numbers are: the operators of
`PartialOrd` are false for it, and `cmp` is `partial_cmp(..).unwrap_or(Equal)`. -/
inductive Nan
  deriving DecidableEq
/-- the number, if it is one -/
def Two.num? (k : Two Nan) : Option Nat := if k.hi.1 = 255 then none else some (k.hi.1.toNat * 256 + k.lo.1.toNat)
instance : AnyOrd (Two Nan) where
  cmp a b := match a.num?, b.num? with | some x, some y => compare x y | _, _ => .eq
  eq a b := match a.num?, b.num? with | some x, some y => x == y | _, _ => false
  lt a b := match a.num?, b.num? with | some x, some y => decide (x < y) | _, _ => false
  le a b := match a.num?, b.num? with | some x, some y => decide (x ≤ y) | _, _ => false
  gt a b := match a.num?, b.num? with | some x, some y => decide (x > y) | _, _ => false
  ge a b := match a.num?, b.num? with | some x, some y => decide (x ≥ y) | _, _ => false

/-- **C61 refuted without `LeOrGt`** (src/tree.rs:280): 1, 5 and 9 are stored, and `predecessor_mut` is called for a key
that is not a number. -/
theorem C61_refuted_debug_assert :
    outputs (TwoTree Nan) [.insert (two _ 0 1) 1, .insert (two _ 0 9) 9, .insert (two _ 0 5) 5,
      .predecessorSet (two _ 255 0) 7] = .error .debugAssert := by
  decide +kernel

/-- Numbers whose low half is lost when a key is joined. -/
structure Lossy where
  hi : U 8
  lo : U 8
  deriving DecidableEq
instance : OrdKey Lossy := ⟨fun a b => match cmp a.hi b.hi with | .eq => cmp a.lo b.lo | o => o⟩
instance : VebKey Lossy (U 8) (U 8) := ⟨fun k => (k.hi, k.lo), fun h _ => ⟨h, U.lit 0⟩⟩
instance : VebKeyRef Lossy (U 8) (U 8) := ⟨fun k => (k.hi, k.lo)⟩

/-- **C61_entries needs `Rejoins`**: the values come back, their keys do not. -/
theorem C61_keys_refuted :
    outputs (OTree Lossy Nat (BTreeMap (U 8) Unit) (HashMap (U 8) (BTreeMap (U 8) Nat)))
      [.insert ⟨U.lit 1, U.lit 1⟩ 1, .insert ⟨U.lit 9, U.lit 9⟩ 9, .insert ⟨U.lit 5, U.lit 5⟩ 5, .removeMin, .removeMin,
        .removeMin] =
      .ok [.kv none, .kv none, .kv none, .kv (some (⟨U.lit 1, U.lit 1⟩, 1)), .kv (some (⟨U.lit 5, U.lit 0⟩, 5)),
        .kv (some (⟨U.lit 9, U.lit 9⟩, 9))] := by
  decide +kernel

/-- **The halves need a contract**: the order of the high halves does not see a tag, their `Eq` and `Hash` do.  The
summary takes two children for one, and removing the second panics (src/tree.rs:629-634). -/
theorem C61_halves_refuted :
    outputs (OTree Tg2 Nat (OBTreeMap Tg Unit) (HashMap Tg LoTree))
      [.insert (tg2 1 false false) 1, .insert (tg2 9 false false) 9, .insert ⟨tg 5 false, tg 5 false⟩ 5,
        .insert ⟨tg 5 true, tg 6 false⟩ 6, .remove ⟨tg 5 false, tg 5 false⟩] =
      .error (.expect "summary should have remaining elements after removal") := by
  decide +kernel

/-! ## Not vacuous -/

/-- Comparisons that have nothing to do with an order, nor with each other. -/
inductive Chaos
  deriving DecidableEq
instance : AnyOrd (Two Chaos) where
  cmp a b := if (a.lo.1 + b.hi.1) % 3 = 0 then .lt else if (a.hi.1 + b.lo.1) % 5 = 0 then .eq else .gt
  eq a b := a.lo.1 % 2 = 0 || b.lo.1 = 7
  lt a b := a.hi.1 * b.lo.1 % 3 = 1
  le a b := a.lo.1 * b.hi.1 % 5 = 2
  gt _ _ := true
  ge a b := a.lo.1 % 2 = 0 && b.hi.1 % 3 = 1

/-- `C61_no_panic` and `C61_entries` apply to them, and to a counted tree of them. -/
example : AnyTree (TwoTree Chaos) (Two Chaos) Nat False (True ∧ LeOrGt (Two Chaos)) (True ∧ Rejoins (Two Chaos)) :=
  twoTree Chaos
example : True ∧ LeOrGt (Two Chaos) := ⟨trivial, fun _ _ _ => rfl⟩
example : True ∧ Rejoins (Two Chaos) := ⟨trivial, two_rejoins _⟩
example : AnyTree (SizedVebTree (Box (TwoTree Chaos))) (Two Chaos) Nat True (True ∧ LeOrGt (Two Chaos))
    (True ∧ Rejoins (Two Chaos)) := .sized (.box (twoTree Chaos))

/-- some calls on such a tree -/
def chaotic : List (Op (Two Chaos) Nat) :=
  [.insert (two _ 1 3) 0, .insert (two _ 4 4) 1, .insert (two _ 2 9) 2, .insert (two _ 3 3) 3, .insert (two _ 2 8) 4,
    .insert (two _ 7 1) 5, .insert (two _ 6 5) 7, .remove (two _ 5 5), .find (two _ 2 9), .predecessorSet (two _ 3 5) 6]
/-- It stores something after them, in the children too. -/
example : ∃ t os, Exec.run (none : Option (TwoTree Chaos)) chaotic = .ok (some t, os) ∧ ∃ d, t.data = some d ∧
    d.children.isSome = true := by
  have : ((Exec.run (none : Option (TwoTree Chaos)) chaotic).map fun r => r.1.map fun t => t.data.map fun d => d.children.isSome) =
      .ok (some (some true)) := by decide +kernel
  generalize Exec.run (none : Option (TwoTree Chaos)) chaotic = r at this
  obtain _ | ⟨_ | ⟨mn, _ | d⟩, os⟩ := r
  · cases this
  · cases this
  · cases this
  · exact ⟨_, _, rfl, d, rfl, by simpa [Except.map] using this⟩

end Veb.Props
