import Verif.Proof.ListCalls

/-!
# C92: how often a `ByteMap` calls its list, and an array collection its array

The code of lists, arrays and keys is arbitrary and has a state, as in C91.  What its calls cost is measured by any function
of the state.
-/

set_option autoImplicit false

namespace Veb.Props

/-- **C92, `ByteMap`.** If each call of the list costs between `lo` and `hi` by some measure of the state, then a history that
does not panic costs between `n` times that, where the number of calls `n` depends on the keys in the history alone, not on
what the list answers. -/
theorem C92_list {σ L V : Type} [ActList σ L V] {m : σ → Nat} {lo hi : Nat} (N : ListPrice σ L m lo hi) (ops : List (Op (U 8) V))
    {s s' : σ} {r : Option (ByteMapOf L) × List (Out (U 8) V)} (h : ActExec.run none ops s = .ok (r, s')) :
    m s + listCallsAll [] (ops.map Op.keys) * lo ≤ m s' ∧ m s' ≤ m s + listCallsAll [] (ops.map Op.keys) * hi :=
  ListCalls.run N ops none rel_none _ _ _ h

/-- **C92, number of calls.** A list that counts its calls counts exactly that number. -/
theorem C92_count {σ L V : Type} [ActList σ L V] {m : σ → Nat} (N : ListPrice σ L m 1 1) (ops : List (Op (U 8) V))
    {s s' : σ} {r : Option (ByteMapOf L) × List (Out (U 8) V)} (h : ActExec.run none ops s = .ok (r, s')) :
    m s' = m s + listCallsAll [] (ops.map Op.keys) := by
  have := C92_list N ops h
  omega

theorem listCalls_le {K V : Type} (op : Op K V) (o : Out K V) : listCalls op o ≤ 2 := by
  unfold listCalls
  split <;> omega

/-- **C92, two calls.** There are two calls of the list in a call of the map at most, however many entries there are. -/
theorem C92_two {K V : Type} [LinearOrder K] (ops : List (Op K V)) (l : SL K V) : listCallsAll l ops ≤ 2 * ops.length := by
  induction ops generalizing l with
  | nil => exact Nat.le_refl 0
  | cons op ops ih =>
    have h1 := ih (SL.step l op).1
    have h2 := listCalls_le op (SL.step l op).2
    rw [listCallsAll, List.length_cons]
    split <;> omega

/-- **C92, arrays.** If computing an index costs between `lo` and `hi`, a look into the array between `lo'` and `hi'`, and
nothing else anything, then a history that does not panic costs what its answers say: whatever `index`, the array, the trees
and the code of the caller do. -/
theorem C92_array {σ Hi A T Lo V : Type} [SizedVebKey Hi] [ActIndex σ Hi] [ActArray σ A (SizedVebKey.cardinality Hi) T]
    [ActTree σ T Lo V] {m : σ → Nat} {lo hi lo' hi' : Nat}
    (N : SlotPrice σ Hi A T (SizedVebKey.cardinality Hi) m lo hi lo' hi') {ops : List (ACOp σ Hi T Lo V)}
    (hops : ∀ op ∈ ops, op.Free m) {s s' : σ} {c : Option (ArrayOf Hi A)} {os : List (COut Hi T Lo V)}
    (h : ActCollExec.run none ops s = .ok ((c, os), s')) :
    m s + looks looksMin (ops.map ACOp.shape) os * (lo + lo') ≤ m s' ∧
      m s' ≤ m s + looks looksMax (ops.map ACOp.shape) os * (hi + hi') := by
  have := SlotLooks.run N ops hops none _ _ _ h
  dsimp only at this
  omega

/-! ## A list that counts -/

/-- the state counts calls -/
def click : Act Nat Unit := fun n => .ok ((), n + 1)
/-- a list with the calls counted -/
structure Clicked where
  values : List Nat

instance clickedList : ActList Nat Clicked Nat where
  fromMonad v := ⟨[v]⟩
  len l := do click; pure l.values.length
  get l i := do click; pure (l.values.getD i 0)
  getMut l i := do click; pure (l.values.getD i 0, fun v => ⟨l.values.set i v⟩)
  insertValue l i v := do click; pure ⟨l.values.insertIdx i v⟩
  removeValue l i := do
    click
    let rest := l.values.eraseIdx i
    pure (if rest = [] then none else some ⟨rest⟩, l.values.getD i 0)

theorem clicked_price : ListPrice Nat Clicked id 1 1 where
  len _ := by rintro s _ _ ⟨⟩; exact ⟨Nat.le_refl _, Nat.le_refl _⟩
  get _ _ := by rintro s _ _ ⟨⟩; exact ⟨Nat.le_refl _, Nat.le_refl _⟩
  getMut _ _ := by rintro s _ _ ⟨⟩; exact ⟨Nat.le_refl _, Nat.le_refl _⟩
  insertValue _ _ _ := by rintro s _ _ ⟨⟩; exact ⟨Nat.le_refl _, Nat.le_refl _⟩
  removeValue _ _ := by rintro s _ _ ⟨⟩; exact ⟨Nat.le_refl _, Nat.le_refl _⟩

/-- every kind of call -/
def clickOps : List (Op (U 8) Nat) :=
  [.minVal, .insert (U.lit 9) 1, .insert (U.lit 200) 2, .insert (U.lit 9) 3, .find (U.lit 9), .find (U.lit 8), .predecessor (U.lit 9),
   .predecessor (U.lit 255), .successor (U.lit 0), .successor (U.lit 200), .minVal, .maxVal, .isMonad, .intoMonad,
   .findSet (U.lit 9) 4, .findSet (U.lit 7) 4, .predecessorSet (U.lit 9) 4, .successorSet (U.lit 9) 4, .minSet 5, .maxSet 6,
   .remove (U.lit 3), .remove (U.lit 9), .insert (U.lit 3) 7, .removeMin, .intoMonad, .insert (U.lit 3) 7, .removeMax, .removeMax]

/-- what the list counted is what the keys say -/
example : (ActExec.run (none : Option (ByteMapOf Clicked)) clickOps 100).map (fun r => (r.1.2.length, r.2)) = .ok (28, 119) ∧
    listCallsAll [] (clickOps.map Op.keys) = 19 := by decide +kernel
example {r : Option (ByteMapOf Clicked) × List (Out (U 8) Nat)} {n n' : Nat} (h : ActExec.run none clickOps n = .ok (r, n')) :
    n' = n + 19 := by
  have := C92_count clicked_price clickOps h
  rwa [show listCallsAll [] (clickOps.map Op.keys) = 19 by decide +kernel] at this
/-- two calls in a call, and no fewer -/
example : listCallsAll ([(U.lit 3, ())] : SL (U 8) Unit) [.maxVal] = 2 * 1 := by decide +kernel
example : listCallsAll ([] : SL (U 8) Unit) (clickOps.map Op.keys) ≤ 2 * (clickOps.map Op.keys).length := C92_two _ _

/-! ## An array that counts -/

/-- an array of trees with the calls counted -/
structure ClickedSlots where
  slots : List (Option ByteSet)

local instance clickedSlots {n : Nat} : ActArray Nat ClickedSlots n ByteSet where
  create := pure ⟨List.replicate 256 none⟩
  get a i := do click; pure (a.slots.getD i none)
  getMut a i := do click; pure (a.slots.getD i none, fun t => ⟨a.slots.set i t⟩)
local instance clickedIndex : ActIndex Nat (U 8) where
  cardinality := 256
  index k := do click; click; pure k.bits.toNat
local instance clickedTree : ActTree Nat ByteSet (U 8) Unit := ActTree.plain _

theorem clickedSlots_price : SlotPrice Nat (U 8) ClickedSlots ByteSet (SizedVebKey.cardinality (U 8)) id 2 2 1 1 where
  index _ := by rintro s _ _ ⟨⟩; exact ⟨Nat.le_refl _, Nat.le_refl _⟩
  create := by rintro s _ _ ⟨⟩; exact ⟨Nat.le_refl _, Nat.le_refl _⟩
  get _ _ := by rintro s _ _ ⟨⟩; exact ⟨Nat.le_refl _, Nat.le_refl _⟩
  getMut _ _ := by rintro s _ _ ⟨⟩; exact ⟨Nat.le_refl _, Nat.le_refl _⟩
  insert t l v := by
    intro s a s' h
    have h : (liftM (t.insert l v) : Act Nat _) s = .ok (a, s') := h
    unfold ByteSet.insert at h
    split at h <;> (cases h; exact ⟨Nat.le_refl _, Nat.le_refl _⟩)

/-- every kind of call -/
def slotOps : List (ACOp Nat (U 8) ByteSet (U 8) Unit) :=
  [.get (U.lit 1), .create (U.lit 1) (ByteSet.fromMonad (U.lit 2) ()), .get (U.lit 1), .set (U.lit 1) (ByteSet.fromMonad (U.lit 3) ()),
   .insert (U.lit 1) (U.lit 5) (), .insert (U.lit 2) (U.lit 5) (), .maybeRemove (U.lit 9) (fun t => pure (.Err t)),
   .maybeRemove (U.lit 1) (fun t => pure (.Err t)), .maybeRemove (U.lit 1) (fun _ => pure (.Ok (none, (U.lit 5, ())))),
   .remove (U.lit 2) (fun _ => pure (none, (U.lit 5, ())))]

/-- between twelve and fourteen looks at three clicks each; there are thirteen, as one of the two calls that remove nothing finds
a tree -/
example : (ActCollExec.run (none : Option (ArrayOf (U 8) ClickedSlots)) slotOps 0).map
      (fun r => (looks looksMin (slotOps.map ACOp.shape) r.1.2, r.2, looks looksMax (slotOps.map ACOp.shape) r.1.2)) =
    .ok (12, 39, 14) := by decide +kernel
example {n n' : Nat} {c : Option (ArrayOf (U 8) ClickedSlots)} {os : List (COut (U 8) ByteSet (U 8) Unit)}
    (h : ActCollExec.run none slotOps n = .ok ((c, os), n')) :
    n + looks looksMin (slotOps.map ACOp.shape) os * 3 ≤ n' ∧ n' ≤ n + looks looksMax (slotOps.map ACOp.shape) os * 3 := by
  refine C92_array clickedSlots_price (fun op ho => ?_) h
  simp only [slotOps, List.mem_cons, List.not_mem_nil, or_false] at ho
  rcases ho with rfl | rfl | rfl | rfl | rfl | rfl | rfl | rfl | rfl | rfl <;>
    first | trivial | (rintro _ s _ _ ⟨⟩; exact ⟨Nat.le_refl _, Nat.le_refl _⟩)

end Veb.Props
