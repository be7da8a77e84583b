import Verif.Proof.Space
import Verif.Props.NoPanic

/-!
# C50: how much a tree occupies

`ledger 0 ops os` are the keys stored according to the answers received (C37); if these are the answers of an ordered
map, it has as many keys as the map has entries (`C50_ledger_size`).
-/

set_option autoImplicit false

namespace Veb.Props

variable {T K V : Type} [LinearOrder K] [VebTree T K V] [Space T] {limited : Prop}

/-! ## The tree types of the crate have these counts -/

theorem counted_of_crateColl {C Hi T Lo V : Type} [LinearOrder Hi] [VebTree T Lo V] [TreeCollection C Hi T Lo V]
    (h : CrateColl C Hi T Lo V) : ∃ _ : SpaceColl C T, CountedColl C Hi T Lo V := by
  induction h with
  | array h => exact ⟨_, .array h⟩
  | hash => exact ⟨_, .hash⟩
  | byte => exact ⟨_, .byte⟩
  | box _ ih => obtain ⟨_, h⟩ := ih; exact ⟨_, .box h⟩

/-- Every tree type of the crate is covered by C50. -/
theorem C50_covers {T K V : Type} [LinearOrder K] [VebTree T K V] {safe : (K → Prop) → K → Prop}
    (h : CrateTree T K V safe) : ∃ (_ : Space T) (l : Prop), CountedTree T K V l := by
  induction h with
  | byteSet => exact ⟨_, _, .byteSet⟩
  | byteMap => exact ⟨_, _, .byteMap⟩
  | btreeMap => exact ⟨_, _, .btreeMap⟩
  | box _ ih => obtain ⟨_, _, h⟩ := ih; exact ⟨_, _, .box h⟩
  | sized _ ih => obtain ⟨_, _, h⟩ := ih; exact ⟨_, _, .sized h⟩
  | tree hk _ _ hc ihs iht =>
    obtain ⟨_, _, hs⟩ := ihs
    obtain ⟨_, _, ht⟩ := iht
    obtain ⟨_, hc⟩ := counted_of_crateColl hc
    exact ⟨_, _, .tree hk hs ht hc⟩

private theorem map16 : CountedTree (Map16 (U 16) Nat) (U 16) Nat (False ∨ False) :=
  .tree goodKey .byteSet .byteMap (.array goodIndex)

private def hist : List (Op (U 16) Nat) :=
  [.insert (k16 10) 1, .insert (k16 20) 2, .insert (k16 5) 3, .insert (k16 20) 4]

private theorem hist_run : ∃ (t : Map16 (U 16) Nat) (os : List (Out (U 16) Nat)), Exec.run none hist = .ok (some t, os) ∧
    (ledger 0 hist os).card = 4 := ⟨_, _, rfl, by decide +kernel⟩

/-! ## Bounds -/

/-- **C50, nodes.** After any history, unsafe insertions included, a tree that stores `n` keys consists of at most
`levels * (n - 1) + 1` structures, summaries and children included; the history does not matter otherwise. -/
theorem C50_nodes (h : CountedTree T K V limited) {ops : List (Op K V)} (hl : limited → insertions ops ≤ usizeMax) {t : T}
    {os : List (Out K V)} (hr : Exec.run none ops = .ok (some t, os)) :
    Space.nodes t ≤ Space.levels T * ((ledger 0 ops os).card - 1) + 1 := by
  obtain ⟨h1, h2, -⟩ := h.space_run hl hr
  exact h2.le h1

example : ∃ t : Map16 (U 16) Nat, Reaches hist t ∧ Space.nodes t ≤ 4 := by
  obtain ⟨t, os, h1, h2⟩ := hist_run
  have := C50_nodes map16 (fun h => (h.elim id id).elim) h1
  rw [h2] at this
  exact ⟨t, ⟨os, h1⟩, this⟩

/-- **C50, entries.** In total they store at least `n` keys, and at most `(levels + 1) * (n - 1) + 1`, keys of summaries
included. -/
theorem C50_entries (h : CountedTree T K V limited) {ops : List (Op K V)} (hl : limited → insertions ops ≤ usizeMax) {t : T}
    {os : List (Out K V)} (hr : Exec.run none ops = .ok (some t, os)) :
    (ledger 0 ops os).card ≤ Space.entries t ∧
    Space.entries t ≤ (Space.levels T + 1) * ((ledger 0 ops os).card - 1) + 1 := by
  obtain ⟨h1, -, h2, h3, -⟩ := h.space_run hl hr
  exact ⟨h3, h2.le h1⟩

example : ∃ t : Map16 (U 16) Nat, Reaches hist t ∧ 4 ≤ Space.entries t ∧ Space.entries t ≤ 7 := by
  obtain ⟨t, os, h1, h2⟩ := hist_run
  have := C50_entries map16 (fun h => (h.elim id id).elim) h1
  rw [h2] at this
  exact ⟨t, ⟨os, h1⟩, this⟩

/-- **C50, arrays.** All arrays together have at most `width` slots for every structure. -/
theorem C50_slots (h : CountedTree T K V limited) {ops : List (Op K V)} (hl : limited → insertions ops ≤ usizeMax) {t : T}
    {os : List (Out K V)} (hr : Exec.run none ops = .ok (some t, os)) :
    Space.slots t ≤ Space.width T * (Space.levels T * ((ledger 0 ops os).card - 1) + 1) :=
  (h.space_run hl hr).2.2.2.2.trans (Nat.mul_le_mul_left _ (C50_nodes h hl hr))

example : ∃ t : Map16 (U 16) Nat, Reaches hist t ∧ Space.slots t ≤ 256 * 4 := by
  obtain ⟨t, os, h1, h2⟩ := hist_run
  have := C50_slots map16 (fun h => (h.elim id id).elim) h1
  rw [h2] at this
  exact ⟨t, ⟨os, h1⟩, this⟩

/-- **C50, arrays are not cheap.** A `Tree` with an array of children has, from the third key on, a slot for every
possible high half. -/
theorem C50_slots_least {S Hi Lo : Type} [LinearOrder Hi] [LinearOrder Lo] [VebKey K Hi Lo] [VebKeyRef K Hi Lo]
    {T : Type} [VebTree S Hi Unit] [VebTree T Lo V] [Space S] [Space T] [SizedVebKey Hi] {lS lT : Prop} (hk : GoodKey K Hi Lo)
    (hs : CountedTree S Hi Unit lS) (ht : CountedTree T Lo V lT) (hi : GoodIndex Hi)
    {ops : List (Op K V)} (hl : lS ∨ lT → insertions ops ≤ usizeMax) {t : Tree K V S (ArrayColl Hi T)} {os : List (Out K V)}
    (hr : Exec.run none ops = .ok (some t, os)) (hn : 3 ≤ (ledger 0 ops os).card) :
    SizedVebKey.cardinality Hi ≤ Space.slots t := Tree.array_slots hk hs ht hi hl hr hn

example : ∃ t : Map16 (U 16) Nat, Reaches hist t ∧ 256 ≤ Space.slots t := by
  obtain ⟨t, os, h1, h2⟩ := hist_run
  exact ⟨t, ⟨os, h1⟩, C50_slots_least goodKey .byteSet .byteMap goodIndex (fun h => (h.elim id id).elim) h1 (by omega)⟩

/-- **C50, `n` is what it should be** where the answers are right: if the tree has answered like the ordered map, `n` is
the number of entries of the map. -/
theorem C50_ledger_size {K V : Type} [LinearOrder K] (ops : List (Op K V)) :
    (ledger 0 ops (SL.run [] ops).2).card = (entries ops).length := ledger_entries ops

example : (ledger 0 hist (SL.run [] hist).2).card = 3 := by rw [C50_ledger_size]; decide +kernel

/-- **C50, the predefined sets.** Keys of 16, 32, 64 bits that split correctly, any history: at most `n`, `2n - 1`,
`3n - 2` structures, and at most 2⁸, 2¹⁶, 2³² array slots for each; but never fewer than that many slots from three keys
on. -/
theorem C50_predefined_sets :
    (∀ (K : Type) [LinearOrder K] [VebKey K (U 8) (U 8)] [VebKeyRef K (U 8) (U 8)], GoodKey K (U 8) (U 8) →
      ∀ ops (t : Set16 K) os, Exec.run none ops = .ok (some t, os) →
        Space.nodes t ≤ 1 * ((ledger 0 ops os).card - 1) + 1 ∧
        Space.slots t ≤ 2 ^ 8 * (1 * ((ledger 0 ops os).card - 1) + 1) ∧
        (3 ≤ (ledger 0 ops os).card → 2 ^ 8 ≤ Space.slots t)) ∧
    (∀ (K : Type) [LinearOrder K] [VebKey K (U 16) (U 16)] [VebKeyRef K (U 16) (U 16)], GoodKey K (U 16) (U 16) →
      ∀ ops (t : Set32 K) os, Exec.run none ops = .ok (some t, os) →
        Space.nodes t ≤ 2 * ((ledger 0 ops os).card - 1) + 1 ∧
        Space.slots t ≤ 2 ^ 16 * (2 * ((ledger 0 ops os).card - 1) + 1) ∧
        (3 ≤ (ledger 0 ops os).card → 2 ^ 16 ≤ Space.slots t)) ∧
    (∀ (K : Type) [LinearOrder K] [VebKey K (U 32) (U 32)] [VebKeyRef K (U 32) (U 32)], GoodKey K (U 32) (U 32) →
      ∀ ops (t : Set64 K) os, Exec.run none ops = .ok (some t, os) →
        Space.nodes t ≤ 3 * ((ledger 0 ops os).card - 1) + 1 ∧
        Space.slots t ≤ 2 ^ 32 * (3 * ((ledger 0 ops os).card - 1) + 1) ∧
        (3 ≤ (ledger 0 ops os).card → 2 ^ 32 ≤ Space.slots t)) := by
  have s16 : CountedTree (Set16 (U 16)) (U 16) Unit _ := .tree goodKey .byteSet .byteSet (.array goodIndex)
  have s32 : CountedTree (Set32 (U 32)) (U 32) Unit _ := .tree goodKey s16 s16 (.array goodIndex)
  refine ⟨?_, ?_, ?_⟩
  · intro K _ _ _ hk ops t os hr
    have h := CountedTree.tree (K := K) hk .byteSet .byteSet (.array (T := Set8) goodIndex)
    have hl : (False ∨ False) → insertions ops ≤ usizeMax := fun h => by simp at h
    exact ⟨C50_nodes h hl hr, C50_slots h hl hr, C50_slots_least hk .byteSet .byteSet goodIndex hl hr⟩
  · intro K _ _ _ hk ops t os hr
    have h := CountedTree.tree (K := K) hk s16 s16 (.array goodIndex)
    have hl : ((False ∨ False) ∨ (False ∨ False)) → insertions ops ≤ usizeMax := fun h => by simp at h
    exact ⟨C50_nodes h hl hr, C50_slots h hl hr, C50_slots_least hk s16 s16 goodIndex hl hr⟩
  · intro K _ _ _ hk ops t os hr
    have h := CountedTree.tree (K := K) hk s32 s32 (.array goodIndex)
    have hl : (((False ∨ False) ∨ (False ∨ False)) ∨ ((False ∨ False) ∨ (False ∨ False))) → insertions ops ≤ usizeMax :=
      fun h => by simp at h
    exact ⟨C50_nodes h hl hr, C50_slots h hl hr, C50_slots_least hk s32 s32 goodIndex hl hr⟩

example : ∃ t : Set16 (U 16), Reaches [.insert (k16 1) (), .insert (k16 2) (), .insert (k16 3) ()] t ∧
    Space.nodes t = 3 ∧ Space.slots t = 256 := ⟨_, ⟨_, rfl⟩, by decide +kernel, by decide +kernel⟩

end Veb.Props
