import Verif.Proof.Cost
import Mathlib.Data.Nat.Log

/-!
# C34: one deep recursion per level

Visits are calls of tree methods, nested calls included.  What the containers do inside a call (hash table, `VecDeque`,
`BTreeMap`, bit set; filling a new array with `None`) is not counted here; for everything else that `Tree` does, and for
the filling, see C66.
-/

set_option autoImplicit false
set_option synthInstance.maxHeartbeats 200000
set_option synthInstance.maxSize 1000

namespace Veb.Props

variable {T K V : Type} [VebTree T K V] [TickTree T K V] {b N n w : Nat}

/-- The counting copy of the model is the model: on every tree whatsoever, forgetting the counter gives what the
method returns. -/
theorem C34_faithful (h : Nested b N T K V n w) : CountsFaithfully T := by
  have e := h.er
  exact ⟨e.fromMonad, e.isMonad, e.lenHint, e.intoMonad, e.minVal, e.minValMut, e.maxVal, e.maxValMut, e.find,
    e.findMut, e.predecessor, e.predecessorMut, e.successor, e.successorMut, e.insert, e.remove, e.removeMin,
    e.removeMax⟩

/-- **C34.** On every tree of a type with `n` levels and no wrappers every operation makes at most `3 * n + 1` calls of
tree methods, `remove` at most `3 * n + 2`, however many keys are stored; `w` wrappers on top cost one call each, and
at most `b` wrappers between levels multiply the cost of a level by at most `b + 1`. -/
theorem C34_visits (h : Nested b N T K V n w) : VisitsAtMost T (1 + w) (1 + w + n * (3 * (b + 1))) :=
  by
  have hm : ∀ k ≤ N, priceOf .visit (.make k) ≤ 0 := fun _ _ => Nat.le_refl _
  have := (h.cost hm).costs.visits
  simpa [priceOf] using this

/-- **C34 over histories.** A history makes at most a constant number of calls per operation. -/
theorem C34_history (h : Nested b N T K V n w) (ops : List (Op K V)) :
    visits (none : Option T) ops ≤ ops.length * (2 + w + n * (3 * (b + 1))) := by
  have H := C34_visits h
  have h1 : ∀ (t : Option T) (op : Op K V), opVisits t op ≤ 2 + w + n * (3 * (b + 1)) := by
    intro t op
    obtain _ | t := t
    · cases op with
      | insert k v => have := H.fromMonad k v; simp only [opVisits]; omega
      | _ => exact Nat.zero_le _
    · cases op with
      | insert k v => have := H.insert t k v; simp only [opVisits]; omega
      | remove k => have := H.remove t k; simp only [opVisits]; omega
      | removeMin => have := H.removeMin t; simp only [opVisits]; omega
      | removeMax => have := H.removeMax t; simp only [opVisits]; omega
      | find k => have := H.find t k; simp only [opVisits]; omega
      | predecessor k => have := H.predecessor t k; simp only [opVisits]; omega
      | successor k => have := H.successor t k; simp only [opVisits]; omega
      | minVal => have := H.minVal t; simp only [opVisits]; omega
      | maxVal => have := H.maxVal t; simp only [opVisits]; omega
      | isMonad => have := H.isMonad t; simp only [opVisits]; omega
      | intoMonad => have := H.intoMonad t; simp only [opVisits]; omega
      | findSet k w => have := H.findMut t k; simp only [opVisits]; omega
      | predecessorSet k w => have := H.predecessorMut t k; simp only [opVisits]; omega
      | successorSet k w => have := H.successorMut t k; simp only [opVisits]; omega
      | minSet w => have := H.minValMut t; simp only [opVisits]; omega
      | maxSet w => have := H.maxValMut t; simp only [opVisits]; omega
  have h2 : ∀ (ops : List (Op K V)) (t : Option T), visits t ops ≤ ops.length * (2 + w + n * (3 * (b + 1))) := by
    intro ops
    induction ops with
    | nil => exact fun _ => Nat.zero_le _
    | cons op ops ih =>
      intro t
      have h3 := h1 t op
      rw [List.length_cons, Nat.succ_mul]
      show opVisits t op + _ ≤ _
      cases Exec.step t op with
      | error e => dsimp only; omega
      | ok r => have := ih r.1; dsimp only; omega
  exact h2 ops none

theorem nested8 (V : Type) :
    Nested 0 0 Set8 (U 8) Unit 0 0 ∧ Nested 0 0 (Map8 V) (U 8) V 0 0 := ⟨.byteSet, .byteMap⟩
theorem card_le {u N : Nat} (hu : 2 ^ u < 2 ^ 64) (h : 2 ^ u ≤ N) : OptionArray.typenumUsize (2 ^ u) ≤ N := by
  rw [OptionArray.typenumUsize, Nat.mod_eq_of_lt (show _ < usizeMax + 1 from hu)]
  exact h
theorem nested16 (K V : Type) {N : Nat} (h : 2 ^ 8 ≤ N) [LinearOrder K] [VebKey K (U 8) (U 8)] [VebKeyRef K (U 8) (U 8)] :
    Nested 0 N (Set16 K) K Unit 1 0 ∧ Nested 0 N (Map16 K V) K V 1 0 := by
  have a := card_le (by decide) h
  exact ⟨.tree .byteSet .byteSet (.array a) (by omega) (by omega) (by omega) (by omega),
   .tree .byteSet .byteMap (.array a) (by omega) (by omega) (by omega) (by omega)⟩
theorem nested32 (K V : Type) {N : Nat} (h : 2 ^ 16 ≤ N) [LinearOrder K] [VebKey K (U 16) (U 16)]
    [VebKeyRef K (U 16) (U 16)] : Nested 0 N (Set32 K) K Unit 2 0 ∧ Nested 0 N (Map32 K V) K V 2 0 := by
  have a := card_le (by decide) h
  have c := nested16 (U 16) V (le_trans (by decide) h)
  exact ⟨.tree c.1 c.1 (.array a) (by omega) (by omega) (by omega) (by omega),
   .tree c.1 c.2 (.array a) (by omega) (by omega) (by omega) (by omega)⟩
theorem nested64 (K V : Type) {N : Nat} (h : 2 ^ 32 ≤ N) [LinearOrder K] [VebKey K (U 32) (U 32)]
    [VebKeyRef K (U 32) (U 32)] : Nested 0 N (Set64 K) K Unit 3 0 ∧ Nested 0 N (Map64 K V) K V 3 0 := by
  have a := card_le (by decide) h
  have c := nested32 (U 32) V (le_trans (by decide) h)
  exact ⟨.tree c.1 c.1 (.array a) (by omega) (by omega) (by omega) (by omega),
   .tree c.1 c.2 (.array a) (by omega) (by omega) (by omega) (by omega)⟩

/-- **C34 for the predefined types.** With `u`-bit keys an operation makes at most `3 * lg (u / 8) + 1` calls of tree
methods (`remove` one more): `O(lg lg K)` for the `K = 2 ^ u` possible keys. -/
theorem C34_predefined (V : Type) :
    (VisitsAtMost Set8 1 (3 * Nat.log 2 (8 / 8) + 1) ∧ VisitsAtMost (Map8 V) 1 (3 * Nat.log 2 (8 / 8) + 1)) ∧
    (VisitsAtMost (Set16 (U 16)) 1 (3 * Nat.log 2 (16 / 8) + 1) ∧
      VisitsAtMost (Map16 (U 16) V) 1 (3 * Nat.log 2 (16 / 8) + 1)) ∧
    (VisitsAtMost (Set32 (U 32)) 1 (3 * Nat.log 2 (32 / 8) + 1) ∧
      VisitsAtMost (Map32 (U 32) V) 1 (3 * Nat.log 2 (32 / 8) + 1)) ∧
    VisitsAtMost (Set64 (U 64)) 1 (3 * Nat.log 2 (64 / 8) + 1) ∧
      VisitsAtMost (Map64 (U 64) V) 1 (3 * Nat.log 2 (64 / 8) + 1) := by
  have e1 : Nat.log 2 (8 / 8) = 0 := by decide
  have e2 : Nat.log 2 (16 / 8) = 1 := by decide
  have e3 : Nat.log 2 (32 / 8) = 2 := by decide
  have e4 : Nat.log 2 (64 / 8) = 3 := by decide
  rw [e1, e2, e3, e4]
  exact ⟨⟨C34_visits (nested8 V).1, C34_visits (nested8 V).2⟩,
    ⟨C34_visits (nested16 _ V (Nat.le_refl _)).1, C34_visits (nested16 _ V (Nat.le_refl _)).2⟩,
    ⟨C34_visits (nested32 _ V (Nat.le_refl _)).1, C34_visits (nested32 _ V (Nat.le_refl _)).2⟩,
    C34_visits (nested64 _ V (Nat.le_refl _)).1, C34_visits (nested64 _ V (Nat.le_refl _)).2⟩

/-! ## The bound is reached -/

/-- A 16-bit set with hash tables. -/
abbrev HSet16 := Tree (U 16) Unit ByteSet (HashMap (U 8) ByteSet)
/-- A 32-bit set with hash tables. -/
abbrev HSet32 := Tree (U 32) Unit HSet16 (HashMap (U 16) HSet16)

theorem nestedH (b N : Nat) : Nested b N HSet16 (U 16) Unit 1 0 ∧ Nested b N HSet32 (U 32) Unit 2 0 := by
  have h : Nested b N HSet16 (U 16) Unit 1 0 :=
    .tree .byteSet .byteSet .hash (by omega) (by omega) (by omega) (by omega)
  exact ⟨h, .tree h h .hash (by omega) (by omega) (by omega) (by omega)⟩

/-- Keys in five different blocks. -/
def spread : List (Op (U 32) Unit) :=
  [0, 1, 0x01000001, 0x02000001, 0x03000001, 0x04000001].map fun n => .insert (U.lit n) ()

/-- A tree built by insertions in ascending order on which `remove_min` makes exactly `3 * 2 + 1` calls and `remove`
exactly `3 * 2 + 2`. -/
theorem C34_reached : ∃ t : HSet32, Exec.run none spread = .ok (some t, spread.map fun _ => .kv none) ∧
    (TickTree.removeMin t).cost = 7 ∧ (TickTree.remove t (U.lit 0)).cost = 8 :=
  ⟨_, rfl, rfl, rfl⟩

/-! Non-vacuity: a counted 32-bit set with boxed halves and a boxed hash table of boxed halves; a short history that
makes eighteen calls, within the bound. -/

example : Nested 1 0 (SizedVebTree (Tree (U 32) Unit (Box HSet16) (Box (HashMap (U 16) (Box HSet16))))) (U 32) Unit 2 1 :=
  .sized (.tree (.box (nestedH 1 0).1) (.box (nestedH 1 0).1) (.box .hash) (by omega) (by omega) (by omega) (by omega))
example : visits (none : Option HSet32) spread = 18 := by decide +kernel
example : visits (none : Option HSet32) spread ≤ 48 := C34_history (nestedH 0 0).2 spread

end Veb.Props
