import Verif.Proof.Shuffle
import Verif.Props.Canon
import Verif.Props.Same

/-!
# C62: the order of the entries of hash tables is never seen

Hash tables may rearrange their entries at any level of a tree, before and after every operation. The outputs stay what
they are in the model, whose hash tables keep the order of insertion. No restriction to safe histories is needed.
-/

set_option autoImplicit false

namespace Veb.Props

variable {T K V : Type} [LinearOrder K] [VebTree T K V] {safe : (K → Prop) → K → Prop} {r : T → T → Prop}

/-- **C62.** However the hash tables of a tree are rearranged during a history, the outputs are the same, and an iterator
over the tree at the end yields the same, however it is advanced; or the history panics with and without
rearrangements. -/
theorem C62_order (h : AlikeTree T K V safe r) {ops : List (Op K V)} {x : R (Option T × List (Out K V))}
    (hx : Shuffled r none ops x) :
    Agree (fun (a b : Option T × List (Out K V)) => b.2 = a.2 ∧ ∀ ss, Agree (fun i j => j = i) (itemsOf (K := K) a.1 ss) (itemsOf (K := K) b.1 ss))
      (Exec.run none ops) x := by
  obtain ⟨S, hS, hc⟩ := h.closed
  exact ((hS.shuffled hc hx .none).mono fun a b hab => ⟨hab.2, fun ss => (hS.itemsOf hab.1 ss).agree⟩).agree

/-- **C62, without counters.** A tree type without `SizedVebTree` does not panic, and gives the outputs of the model. -/
theorem C62_order_uncounted (h : AlikeTree T K V safe r) (hu : UncountedTree T K V) {ops : List (Op K V)}
    {x : R (Option T × List (Out K V))} (hx : Shuffled r none ops x) :
    ∃ u os, x = .ok (u, os) ∧ outputs T ops = .ok os := by
  obtain ⟨⟨t, os⟩, hr⟩ := C25_no_panic_uncounted_partial hu ops
  rcases C62_order h hx with ⟨a, ⟨u, os'⟩, e, e', h1, -⟩ | ⟨e, e', h1, h2⟩
  · rw [hr] at e; cases e
    dsimp only at h1; subst h1
    exact ⟨u, _, e', by rw [outputs, hr]; rfl⟩
  · rw [hr] at h1; cases h1

/-- **C62, with counters.** So does every tree type of the crate, up to `usize::MAX` insertions. -/
theorem C62_order_counted (h : AlikeTree T K V safe r) {ops : List (Op K V)} (hn : insertions ops ≤ usizeMax)
    {x : R (Option T × List (Out K V))} (hx : Shuffled r none ops x) :
    ∃ u os, x = .ok (u, os) ∧ outputs T ops = .ok os := by
  obtain ⟨⟨t, os⟩, hr⟩ := C25_no_panic_partial h.crate ops hn
  rcases C62_order h hx with ⟨a, ⟨u, os'⟩, e, e', h1, -⟩ | ⟨e, e', h1, h2⟩
  · rw [hr] at e; cases e
    dsimp only at h1; subst h1
    exact ⟨u, _, e', by rw [outputs, hr]; rfl⟩
  · rw [hr] at h1; cases h1

/-- **C62, exchanged trees.** Two trees that are equal up to the order of hash tables, one of which is left by a history,
give the same outputs on every further history, and their iterators yield the same; or both panic. -/
theorem C62_exchange (h : AlikeTree T K V safe r) {before : List (Op K V)} {t t' : T} (ht : Reaches before t)
    (hr : r t t') (ops : List (Op K V)) (ss : List Side) :
    Agree (fun (a b : Option T × List (Out K V)) => b.2 = a.2 ∧ Agree (fun i j => j = i) (itemsOf (K := K) a.1 ss) (itemsOf (K := K) b.1 ss))
      (Exec.run (some t) ops) (Exec.run (some t') ops) := by
  obtain ⟨S, hS, hc⟩ := h.closed
  obtain ⟨os, ht⟩ := ht
  have h1 := hS.shuffled hc (shuffled_run h.refl before none) .none
  rw [ht] at h1
  generalize hx : (Except.ok (some t, os) : R (Option T × List (Out K V))) = x at h1
  cases h1 with
  | err => cases hx
  | ok h1 =>
    cases hx
    exact ((hS.shuffled hc (shuffled_run h.refl ops _) (hc.opt _ _ _ h1.1 (.some hr))).mono
      fun a b hab => ⟨hab.2, (hS.itemsOf hab.1 ss).agree⟩).agree

/-- **C62, the model is among them.** Rearranging nothing is allowed. -/
theorem C62_ordinary (h : AlikeTree T K V safe r) (ops : List (Op K V)) : Shuffled r none ops (Exec.run none ops) :=
  shuffled_run h.refl ops none

/-! ## Not vacuous -/

/-- a 16-bit map with a hash table -/
abbrev Hash16 := Tree (U 16) Nat (BTreeMap (U 8) Unit) (HashMap (U 8) (BTreeMap (U 8) Nat))

theorem hash16 : AlikeTree Hash16 (U 16) Nat (Tree.Safe always always) (Tree.Alike Eq (HashMap.Alike Eq)) :=
  .tree goodKey .btreeMap .btreeMap .hash

/-- the entries of the hash table in the opposite order -/
def turned (t : Hash16) : Hash16 :=
  { t with data := t.data.map fun d => { d with children := d.children.map fun c => (c.1, ⟨c.2.entries.reverse⟩) } }

theorem turned_alike (t : Hash16) : Tree.Alike Eq (HashMap.Alike Eq) t (turned t) := by
  obtain ⟨m, d⟩ := t
  refine ⟨rfl, ?_⟩
  rcases d with _ | ⟨q, c⟩
  · exact .none
  · refine .some ⟨rfl, ?_⟩
    rcases c with _ | ⟨s, c⟩
    · exact .none
    · exact .some ⟨rfl, _, (List.reverse_perm _).symm, List.forall₂_same.2 fun p _ => ⟨rfl, rfl⟩⟩

/-- the same history, the table turned after every operation -/
def turning (t : Option Hash16) : List (Op (U 16) Nat) → R (Option Hash16 × List (Out (U 16) Nat))
  | [] => .ok (t.map turned, [])
  | op :: ops =>
    match Exec.step (t.map turned) op with
    | .error e => .error e
    | .ok (t, o) =>
      match turning t ops with
      | .error e => .error e
      | .ok (t, os) => .ok (t, o :: os)

theorem turning_shuffled (ops : List (Op (U 16) Nat)) (t : Option Hash16) :
    Shuffled (Tree.Alike Eq (HashMap.Alike Eq)) t ops (turning t ops) := by
  have ht : ∀ t : Option Hash16, Option.Rel (Tree.Alike Eq (HashMap.Alike Eq)) t (t.map turned) := by
    rintro (_ | t)
    · exact .none
    · exact .some (turned_alike t)
  induction ops generalizing t with
  | nil => exact .nil (ht t)
  | cons op ops ih =>
    unfold turning
    split
    · exact .panic (ht t) ‹_›
    · rename_i v o hv
      have := ih v
      split <;> rename_i e
      · exact .later (ht t) hv (e ▸ this)
      · exact .step (ht t) hv (e ▸ this)

/-- Turning the table after every operation: another tree, the same outputs, by the theorem and by calculation. -/
example :
    let ops : List (Op (U 16) Nat) := [.insert (k16 7) 5, .insert (k16 4000) 3, .insert (k16 70) 6, .insert (k16 301) 4,
      .insert (k16 900) 1, .successor (k16 302), .remove (k16 301), .predecessor (k16 900), .maxVal]
    (∃ u os, turning none ops = .ok (u, os) ∧ outputs Hash16 ops = .ok os) ∧
    (turning none ops).map (·.2) = outputs Hash16 ops ∧
    ((turning none ops).map fun p => p.1.bind fun t => t.data.bind fun d => d.children.map fun c => c.2.entries.map (·.1)) ≠
      ((Exec.run none ops).map fun p => p.1.bind fun t : Hash16 => t.data.bind fun d =>
        d.children.map fun c => c.2.entries.map (·.1)) :=
  ⟨C62_order_uncounted hash16 (.tree goodKey .btreeMap .btreeMap .hash) (turning_shuffled _ _), by decide +kernel⟩

end Veb.Props
