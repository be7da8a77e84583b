import Verif.Proof.CollLeft
import Verif.Props.Sound

/-!
# C87: panics caught while a program uses a collection itself
-/

set_option autoImplicit false

namespace Veb.Props
open CollLeft

section
variable {σ C Hi T Lo V : Type} {Us : Panic → Prop} [ActTree σ T Lo V] [ActUnwinds σ T Lo V] [ActColl σ C Hi T Lo V]
  [CollUnwinds σ C Hi Lo V]

/-- **C87, how an insertion ends**: whatever code of the user the collection calls, `insertKeyU` ends as `insert_key`, and
with the same collection if it returns. -/
theorem C87_faithful (hT : ActFaithful σ T (K := Lo) (V := V)) (h : LeftColl σ C Hi T Lo V) :
    CollFaithful σ C (Hi := Hi) (T := T) (Lo := Lo) (V := V) :=
  LeftColl.faithful hT h

/-- The full claim: whatever panics are caught, the collection is a partial map, and a call that panics leaves it as it was,
except for the tree in which it was inserting. -/
def C87_full (σ C : Type) {Hi T Lo V : Type} [ActTree σ T Lo V] [ActUnwinds σ T Lo V] [ActColl σ C Hi T Lo V]
    [CollUnwinds σ C Hi Lo V] (own : Panic → Prop) (absent : Panic) : Prop :=
  ∀ es : List (σ × ACOp σ Hi T Lo V), ∃ M, CollLeft.Calls own absent False none (es.map Prod.snd)
    (ActCollExec.runU (none : Option C) es).2 M

/-- **C87.** Every history of calls, from any states, with any number of caught panics: the answers and the panics are those of
a partial map of trees, and a collection is held in the end exactly if there is a map.  `own` are the panics of the code that
the collection calls itself; `absent` is that of `remove_key` for a missing key.  Missing from the full claim: hash tables
(`table`), see `C87_refuted`. -/
theorem C87_caught_partial {own : Panic → Prop} {absent : Panic} {table : Prop}
    (h : CatchColl σ Us C Hi T Lo V own absent table) (es : List (σ × ACOp σ Hi T Lo V)) :
    ∃ M, CollLeft.Calls own absent table none (es.map Prod.snd) (ActCollExec.runU (none : Option C) es).2 M ∧
      ((ActCollExec.runU (none : Option C) es).1 = none ↔ M = none) := by
  obtain ⟨Inv, abs, L⟩ := CatchColl.laws h
  obtain ⟨M, h1, h2⟩ := L.run (c := none) (M := none) rfl es
  refine ⟨M, h1, ?_⟩
  generalize (ActCollExec.runU (none : Option C) es).1 = c at h2
  cases c with
  | none => exact ⟨fun _ => h2, fun _ => rfl⟩
  | some c =>
    rw [h2.2]
    exact ⟨nofun, nofun⟩

/-- **C87, all but hash tables**: the full claim. -/
theorem C87_full_partial {own : Panic → Prop} {absent : Panic} (h : CatchColl σ Us C Hi T Lo V own absent False) :
    C87_full σ C (T := T) own absent :=
  fun es => (C87_caught_partial h es).imp fun _ h => h.1

end

/-- **C87, the counter of an array** is the number of its trees, whatever panics were caught. -/
theorem C87_count {σ Hi T Lo V : Type} {Us : Panic → Prop} [SizedVebKey Hi] [ActIndex σ Hi] [ActTree σ T Lo V]
    [ActUnwinds σ T Lo V] (h : SoundIndex σ Us Hi) (hg : GoodIndex Hi) {es : List (σ × ACOp σ Hi T Lo V)} {c : ArrayColl Hi T}
    {os : List (R (COut Hi T Lo V))} (e : ActCollExec.runU none es = (some c, os)) :
    c.count = Set.ncard {h : Hi | c.get h ≠ .ok none} ∧ 0 < c.count := by
  have := hg.lawful
  have := Classical.decEq Hi
  obtain ⟨M, h1, h2⟩ := (array_laws (T := T) (Lo := Lo) (V := V) h hg).run (c := none) (M := none) rfl es
  rw [e] at h2
  obtain ⟨I, -⟩ := h2
  refine ⟨?_, I.2.2.1⟩
  rw [I.2.1]
  unfold Map.card
  congr 1
  ext k
  simp only [Set.mem_ofPred_eq, ArrayColl.get, ArrayColl.get_eq I, Map.Mem, ne_eq, Except.ok.injEq]

/-! ## Examples -/

/-- a table that loses the entries with odd keys when `Hash` panics -/
instance oddRehash : ActRehash Fuel (U 8) := ⟨fun _ _ _ j => j.bits.toNat % 2 == 0⟩

abbrev at8 (n : Nat) : U 8 := ⟨BitVec.ofNat 8 n⟩
abbrev LArr := ArrayColl (U 8) (BTreeMap Nat Nat)
abbrev LHash := HashMap (U 8) (BTreeMap Nat Nat)
abbrev LByte := ByteMap (BTreeMap Nat Nat)
abbrev LOp := ACOp Fuel (U 8) (BTreeMap Nat Nat) Nat Nat

theorem larr : CatchColl Fuel NoFuel LArr (U 8) (BTreeMap Nat Nat) Nat Nat NoFuel
    (.expect "array should contain tree at key index") False := .array fuelIndex_sound goodIndex
theorem lhash : CatchColl Fuel NoFuel LHash (U 8) (BTreeMap Nat Nat) Nat Nat NoFuel .unreachable True := .hash fuelHash_sound
theorem lbyte : CatchColl Fuel NoFuel LByte (U 8) (BTreeMap Nat Nat) Nat Nat NoPanics .debugAssert False := .byte

/-- two trees; an insertion that panics in the collection or in the tree; one that returns; a removal that finds no key -/
def leftHistory (n : Nat) : List (Fuel × LOp) :=
  [(⟨9⟩, .create (at8 1) ⟨[(5, 50)]⟩), (⟨9⟩, .insert (at8 2) 6 60), (⟨n⟩, .insert (at8 1) 7 70), (⟨n⟩, .insert (at8 3) 7 70), (⟨9⟩, .get (at8 1)),
    (⟨9⟩, .get (at8 3)), (⟨9⟩, .remove (at8 4) fun t s => .ok ((some t, (0, 0)), s)), (⟨9⟩, .get (at8 1))]

/-- A collection's answer as far as it can be compared. -/
def seen : R (COut (U 8) (BTreeMap Nat Nat) Nat Nat) → Option (Option (List (Nat × Nat))) × Option Panic
  | .ok (.tree t) => (some (t.map BTreeMap.entries), none)
  | .ok _ => (none, none)
  | .error e => (none, some e)

example : ∃ M, CollLeft.Calls NoFuel (.expect "array should contain tree at key index") False none ((leftHistory 1).map Prod.snd)
    (ActCollExec.runU (none : Option LArr) (leftHistory 1)).2 M :=
  C87_full_partial larr _
/-- The insertions panic, in the tree and in the array, and nothing is changed; the removal takes the array away. -/
example : (ActCollExec.runU (none : Option LArr) (leftHistory 1)).2.map seen =
    [(none, none), (none, none), (none, some (.expect "out of fuel")), (none, some (.expect "out of fuel")),
      (some (some [(5, 50)]), none), (some none, none),
      (none, some (.expect "array should contain tree at key index")), (none, none)] := by decide +kernel
example : (ActCollExec.runU (none : Option LArr) (leftHistory 9)).2.map seen =
    [(none, none), (none, none), (none, none), (none, none), (some (some [(5, 50), (7, 70)]), none),
      (some (some [(7, 70)]), none), (none, some (.expect "array should contain tree at key index")), (none, none)] := by
  decide +kernel
example : ((ActCollExec.runU (none : Option LArr) ((leftHistory 1).take 6)).1.map ArrayColl.count) = some 2 := by decide +kernel
/-- `ByteMap` calls no code of the user but the trees'. -/
example : (ActCollExec.runU (none : Option LByte) (leftHistory 0)).2.map seen =
    [(none, none), (none, none), (none, some (.expect "out of fuel")), (none, none),
      (some (some [(5, 50)]), none), (some (some [(7, 70)]), none),
      (none, some .debugAssert), (none, none)] := by decide +kernel

/-- A table whose `insert_key` panics in `clone` has the new tree; one that panics in `Hash` has lost its trees. -/
def tableHistory (n : Nat) : List (Fuel × LOp) :=
  [(⟨9⟩, .create (at8 1) ⟨[(5, 50)]⟩), (⟨n⟩, .insert (at8 2) 6 60), (⟨9⟩, .get (at8 1)), (⟨9⟩, .get (at8 2))]
example : (ActCollExec.runU (none : Option LHash) (tableHistory 2)).2.map seen =
    [(none, none), (none, some (.expect "out of fuel")), (some (some [(5, 50)]), none), (some (some [(6, 60)]), none)] := by
  decide +kernel
example : (ActCollExec.runU (none : Option LHash) (tableHistory 1)).2.map seen =
    [(none, none), (none, some (.expect "out of fuel")), (some none, none), (some none, none)] := by
  decide +kernel
example : ∃ M, CollLeft.Calls NoFuel .unreachable True none ((tableHistory 1).map Prod.snd)
    (ActCollExec.runU (none : Option LHash) (tableHistory 1)).2 M ∧
      ((ActCollExec.runU (none : Option LHash) (tableHistory 1)).1 = none ↔ M = none) :=
  C87_caught_partial lhash _

/-- **C87 is violated** by hash tables: `insert_key` clones the key after the tree is in the table (src/collection/hash.rs:60-62),
so a panic of `clone` leaves a tree that the caller was told nothing about. -/
theorem C87_refuted : ¬ C87_full Fuel LHash (T := BTreeMap Nat Nat) NoFuel .unreachable := by
  intro h
  obtain ⟨M, o1, _, M1, e1, h1, o2, _, M2, e2, h2, o3, _, M3, e3, h3, o4, _, M4, e4, h4, -⟩ := h (tableHistory 2)
  have e : (ActCollExec.runU (none : Option LHash) (tableHistory 2)).2 =
      [.ok .done, .error (.expect "out of fuel"), .ok (.tree (some ⟨[(5, 50)]⟩)), .ok (.tree (some ⟨[(6, 60)]⟩))] := rfl
  rw [e] at e1
  cases e1; cases e2; cases e3; cases e4
  obtain ⟨-, rfl⟩ := h1
  have hM : put (Map.empty : Map (U 8) (BTreeMap Nat Nat)) (at8 1) (some ⟨[(5, 50)]⟩) (at8 2) = none := by
    rw [put, if_neg (by decide)]; rfl
  simp only [Call, Panics, hM] at h2
  obtain ⟨-, rfl | ⟨h, -⟩⟩ := h2
  · obtain ⟨-, rfl⟩ := h3
    have := h4.1
    rw [hM] at this
    cases this
  · exact h

end Veb.Props
