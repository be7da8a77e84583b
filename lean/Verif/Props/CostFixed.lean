import Verif.Proof.CostFixed
import Verif.Props.IterCost
import Verif.Props.RepairedApi

/-!
# C85: the repaired tree costs no more

C34, C66 and C72 bound what the code does; C42 and C82 are about a tree with one comparison of `insert` turned around.
Here the bounds are proved for that tree, so that answers and costs hold of one and the same tree, on every history.
-/

set_option autoImplicit false
set_option synthInstance.maxHeartbeats 200000
set_option synthInstance.maxSize 1000

namespace Veb.Props
open Veb Iter

section
variable {b N : Nat} {T K V : Type} [VebTree T K V] [TickTree T K V] {n r : Nat}

/-- **C85, forgetting the log** gives the repaired tree. -/
theorem C85_faithful (h : FNested b N T K V n r) : CountsFaithfully T := by
  have e := h.er
  exact ⟨e.fromMonad, e.isMonad, e.lenHint, e.intoMonad, e.minVal, e.minValMut, e.maxVal, e.maxValMut, e.find,
    e.findMut, e.predecessor, e.predecessorMut, e.successor, e.successorMut, e.insert, e.remove, e.removeMin,
    e.removeMax⟩

/-- **C85.** At any prices the bounds of C66 hold of the repaired tree, on every tree whatsoever. -/
theorem C85_prices (h : FNested b N T K V n r) (w : Ev → Nat) {m : Nat} (hm : ∀ k ≤ N, w (.make k) ≤ m) :
    CostsAtMost w T ((1 + r) * w .visit)
      ((1 + r) * w .visit + n * (3 * ((b + 1) * w .visit) + w .split + w .join + 2 * w .call) + (5 * n - 2) * w .cmp) m :=
  (h.cost hm).costs

/-- **C85, calls of tree methods**: the bound of C34. -/
theorem C85_visits (h : FNested b N T K V n r) : VisitsAtMost T (1 + r) (1 + r + n * (3 * (b + 1))) := by
  have hm : ∀ k ≤ N, priceOf .visit (.make k) ≤ 0 := fun _ _ => Nat.le_refl _
  have := (h.cost hm).costs.visits
  simpa [priceOf] using this

/-- **C85 over histories.** -/
theorem C85_history (h : FNested b N T K V n r) (w : Ev → Nat) {m : Nat} (hm : ∀ k ≤ N, w (.make k) ≤ m)
    (ops : List (Op K V)) :
    totalCost w (none : Option T) ops ≤ ops.length *
      ((1 + r) * w .visit + n * (3 * ((b + 1) * w .visit) + w .split + w .join + 2 * w .call) + (5 * n - 2) * w .cmp +
        w .visit + m) :=
  (C85_prices h w hm).total ((h.cost hm).xs.trans (h.cost hm).le) ops none

/-- **C85, answers and costs together.** After every history, whatever it is, the repaired tree has answered as an ordered
map and has paid at most the bound for each call; and a pass of an iterator over what it left costs at most the bound for
each entry. -/
theorem C85_all [LinearOrder K] (h : FNested b N T K V n r) (hf : FixedTree T K V) (w : Ev → Nat) {m : Nat}
    (hm : ∀ k ≤ N, w (.make k) ≤ m) (ops : List (Op K V)) :
    let d := (1 + r) * w .visit + n * (3 * ((b + 1) * w .visit) + w .split + w .join + 2 * w .call) + (5 * n - 2) * w .cmp
    RunsLikeMap T ops ∧ totalCost w (none : Option T) ops ≤ ops.length * (d + w .visit + m) ∧
    ∀ t : T, Reaches ops t → (entries ops).length ≤ usizeMax →
      (∀ ss, ((Iter.new t).callsT ss : Tk (Iter T K × List (Option (K × V)))).bill w ≤
        ((entries ops).length + 1) * (d + w .cmp)) ∧
      ∀ si k, ((Iter.new t).callsT (List.replicate k si) : Tk (Iter T K × List (Option (K × V)))).bill w ≤
        (1 + r) * w .visit + (entries ops).length * d := by
  refine ⟨C42_fixed hf ops, C85_history h w hm ops, fun t hr hl => ?_⟩
  obtain ⟨L, A⟩ := hf.lawful
  obtain ⟨I, e⟩ := reach_inv L (safeHist_of_always A _ _) hr
  have ha : Answers t (entries ops) := answers_of L I (e ▸ entries_lists ops)
  exact C72_pass (C85_faithful h) (C85_prices h w hm) (by omega) ha hl
end

theorem fnested16 (K V : Type) {N : Nat} (h : 2 ^ 8 ≤ N) [LinearOrder K] [VebKey K (U 8) (U 8)] [VebKeyRef K (U 8) (U 8)] :
    FNested 0 N (FSet16 K) K Unit 1 0 ∧ FNested 0 N (FMap16 K V) K V 1 0 := by
  have a := card_le (by decide) h
  exact ⟨.tree .byteSet .byteSet (.array a) (by omega) (by omega) (by omega) (by omega),
   .tree .byteSet .byteMap (.array a) (by omega) (by omega) (by omega) (by omega)⟩
theorem fnested32 (K V : Type) {N : Nat} (h : 2 ^ 16 ≤ N) [LinearOrder K] [VebKey K (U 16) (U 16)]
    [VebKeyRef K (U 16) (U 16)] : FNested 0 N (FSet32 K) K Unit 2 0 ∧ FNested 0 N (FMap32 K V) K V 2 0 := by
  have a := card_le (by decide) h
  have c := fnested16 (U 16) V (le_trans (by decide) h)
  exact ⟨.tree c.1 c.1 (.array a) (by omega) (by omega) (by omega) (by omega),
   .tree c.1 c.2 (.array a) (by omega) (by omega) (by omega) (by omega)⟩
theorem fnested64 (K V : Type) {N : Nat} (h : 2 ^ 32 ≤ N) [LinearOrder K] [VebKey K (U 32) (U 32)]
    [VebKeyRef K (U 32) (U 32)] : FNested 0 N (FSet64 K) K Unit 3 0 ∧ FNested 0 N (FMap64 K V) K V 3 0 := by
  have a := card_le (by decide) h
  have c := fnested32 (U 32) V (le_trans (by decide) h)
  exact ⟨.tree c.1 c.1 (.array a) (by omega) (by omega) (by omega) (by omega),
   .tree c.1 c.2 (.array a) (by omega) (by omega) (by omega) (by omega)⟩

/-- **C85 for the predefined types**: `O(lg lg K)`. -/
theorem C85_predefined (V : Type) :
    (VisitsAtMost (FSet16 (U 16)) 1 (3 * Nat.log 2 (16 / 8) + 1) ∧
      VisitsAtMost (FMap16 (U 16) V) 1 (3 * Nat.log 2 (16 / 8) + 1)) ∧
    (VisitsAtMost (FSet32 (U 32)) 1 (3 * Nat.log 2 (32 / 8) + 1) ∧
      VisitsAtMost (FMap32 (U 32) V) 1 (3 * Nat.log 2 (32 / 8) + 1)) ∧
    VisitsAtMost (FSet64 (U 64)) 1 (3 * Nat.log 2 (64 / 8) + 1) ∧
      VisitsAtMost (FMap64 (U 64) V) 1 (3 * Nat.log 2 (64 / 8) + 1) := by
  have e2 : Nat.log 2 (16 / 8) = 1 := by decide
  have e3 : Nat.log 2 (32 / 8) = 2 := by decide
  have e4 : Nat.log 2 (64 / 8) = 3 := by decide
  rw [e2, e3, e4]
  exact ⟨⟨C85_visits (fnested16 _ V (Nat.le_refl _)).1, C85_visits (fnested16 _ V (Nat.le_refl _)).2⟩,
    ⟨C85_visits (fnested32 _ V (Nat.le_refl _)).1, C85_visits (fnested32 _ V (Nat.le_refl _)).2⟩,
    C85_visits (fnested64 _ V (Nat.le_refl _)).1, C85_visits (fnested64 _ V (Nat.le_refl _)).2⟩

/-! Non-vacuity: the bound is reached, and the history that the code answers wrongly. -/

/-- A 16-bit set and a 32-bit set with hash tables. -/
abbrev FHSet16 := FTree (U 16) Unit ByteSet (HashMap (U 8) ByteSet)
abbrev FHSet32 := FTree (U 32) Unit FHSet16 (HashMap (U 16) FHSet16)

theorem fnestedH (b N : Nat) : FNested b N FHSet16 (U 16) Unit 1 0 ∧ FNested b N FHSet32 (U 32) Unit 2 0 := by
  have h : FNested b N FHSet16 (U 16) Unit 1 0 :=
    .tree .byteSet .byteSet .hash (by omega) (by omega) (by omega) (by omega)
  exact ⟨h, .tree h h .hash (by omega) (by omega) (by omega) (by omega)⟩

example : ∃ t : FHSet32, Exec.run none spread = .ok (some t, spread.map fun _ => .kv none) ∧
    (TickTree.removeMin t).cost = 7 ∧ (TickTree.remove t (U.lit 0)).cost = 8 := ⟨_, rfl, rfl, rfl⟩
example : visits (none : Option FHSet16) bad = 5 := by decide +kernel
example (w : Ev → Nat) {m : Nat} (hm : ∀ k ≤ 2 ^ 8, w (.make k) ≤ m) (ops : List (Op (U 16) Unit)) :
    RunsLikeMap (FSet16 (U 16)) ops :=
  (C85_all (fnested16 (U 16) Unit (Nat.le_refl _)).1 fixedSet16 w hm ops).1

end Veb.Props
