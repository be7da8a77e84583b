import Verif.Proof.IterLoop
import Verif.Props.IterAll
import Verif.Props.Iter

/-!
# C58: loops over the iterator

`for`, `collect`, `count`, `last`, `nth`, `find` and their reversed versions call `next` or `next_back` until they are
done.  `Iter.call · .front` is `next`, `Iter.call · .back` is `next_back`, i.e. the loop over `iter.rev()`.
-/

set_option autoImplicit false

namespace Veb.Props
open Iter

variable {T K V : Type} [LinearOrder K] [VebTree T K V]

/-- **C58, where a loop starts.** An iterator over a tree that answers as one with the entries `l`, after any calls of
`next` and `next_back`, yields the entries that are left. -/
theorem C58_yields {t : T} {l : SL K V} (ha : Answers t l) (hs : l.length ≤ usizeMax) (ss : List Side)
    (it : Iter T K) (os : List (Option (K × V))) (h : (Iter.new t).calls ss = .ok (it, os)) :
    Yields it (popAll l ss).1 :=
  Yields.calls (fun ss => C29_double_ended ha hs ss) ss h

/-- **C58, `try_fold`**, from either end: the loop ends within one iteration more than there are entries; its body sees
the entries in order until it breaks off or panics; and the iterator goes on from there. -/
theorem C58_try_fold {B C : Type} {it : Iter T K} {rem : List (K × V)} (h : Yields it rem) (s : Side)
    (f : B → K × V → R (B ⊕ C)) (b : B) (n : Nat) (hn : rem.length < n) :
    match foldUntil f b (s.order rem) with
    | .error e => Iter.tryFold (Iter.call · s) f n it b = .error e
    | .ok (left, r) => ∃ it', Iter.tryFold (Iter.call · s) f n it b = .ok (some (it', r)) ∧ Yields it' (s.order left) :=
  Yields.tryFold s f (s.order rem) n it b (by cases s <;> simpa [Side.order] using hn) (by rwa [Side.order_order])

/-- **C58, `fold` and `for`.** -/
theorem C58_fold {B : Type} {it : Iter T K} {rem : List (K × V)} (h : Yields it rem) (s : Side)
    (f : B → K × V → R B) (b : B) (n : Nat) (hn : rem.length < n) :
    Iter.fold (Iter.call · s) f n it b = ((s.order rem).foldlM f b).map some :=
  Yields.fold s f (s.order rem) n it b (by cases s <;> simpa [Side.order] using hn) (by rwa [Side.order_order])

/-- **C58, `collect`.** -/
theorem C58_collect {it : Iter T K} {rem : List (K × V)} (h : Yields it rem) (s : Side) (n : Nat)
    (hn : rem.length < n) : Iter.collect (Iter.call · s) n it = .ok (some (s.order rem)) := by
  rw [Iter.collect, C58_fold h s _ _ n hn, foldlM_collect]; rfl

/-- **C58, `count`.** -/
theorem C58_count {it : Iter T K} {rem : List (K × V)} (h : Yields it rem) (s : Side) (n : Nat)
    (hn : rem.length < n) (hs : rem.length ≤ usizeMax) : Iter.count (Iter.call · s) n it = .ok (some rem.length) := by
  have e : (s.order rem).length = rem.length := by cases s <;> simp [Side.order]
  rw [Iter.count, C58_fold h s _ _ n hn, foldlM_count _ _ (by omega), e, Nat.zero_add]; rfl

/-- **C58, `last`.** -/
theorem C58_last {it : Iter T K} {rem : List (K × V)} (h : Yields it rem) (s : Side) (n : Nat)
    (hn : rem.length < n) : Iter.last (Iter.call · s) n it = .ok (some (s.order rem).getLast?) := by
  rw [Iter.last, C58_fold h s _ _ n hn, foldlM_last, Option.or_none]; rfl

/-- **C58, `find`**: the first match, and the iterator goes on behind it. -/
theorem C58_find {it : Iter T K} {rem : List (K × V)} (h : Yields it rem) (s : Side) (p : K × V → Bool) (n : Nat)
    (hn : rem.length < n) :
    ∃ it', Iter.findItem (Iter.call · s) p n it = .ok (some (it',
        match (s.order rem).find? p with | some a => .inr a | none => .inl ())) ∧
      Yields it' (s.order ((s.order rem).dropWhile (fun a => !p a)).tail) := by
  have := C58_try_fold h s (fun (_ : Unit) a => (pure (if p a then .inr a else .inl ()) : R (Unit ⊕ (K × V)))) () n hn
  rw [foldUntil_find] at this
  revert this
  cases (s.order rem).find? p <;> exact id

/-- **C58, `nth`**: the entry at that position, and the iterator goes on behind it. -/
theorem C58_nth {it : Iter T K} {rem : List (K × V)} (h : Yields it rem) (s : Side) (n : Nat) :
    ∃ it', Iter.nth (Iter.call · s) n it = .ok (it', (s.order rem)[n]?) ∧
      Yields it' (s.order ((s.order rem).drop (n + 1))) :=
  Yields.nth s (s.order rem) n it (by rwa [Side.order_order])

/-- **C58, the trees of the crate**: after every safe history `collect` gives the entries that should be stored, in
ascending order, and `rev().collect()` gives them in descending order.  Missing: unsafe histories, `C58_forever`. -/
theorem C58_collect_partial {safe : (K → Prop) → K → Prop} (h : CrateTree T K V safe) (ops : List (Op K V)) (t : T)
    (hs : SL.SafeHist safe [] ops) (hr : Reaches ops t) (hl : (entries ops).length ≤ usizeMax) (n : Nat)
    (hn : (entries ops).length < n) :
    Iter.collect (Iter.call · .front) n (Iter.new t) = .ok (some (entries ops)) ∧
    Iter.collect (Iter.call · .back) n (Iter.new t) = .ok (some (entries ops).reverse) ∧
    Iter.count (Iter.call · .front) n (Iter.new t) = .ok (some (entries ops).length) := by
  have y := C58_yields (C28_answers_partial h ops t hs hr) hl [] (Iter.new t) [] rfl
  exact ⟨C58_collect y .front n hn, C58_collect y .back n hn, C58_count y .front n hn hl⟩

/-- **C58, `ExactSizeIterator::len`** on the trees it is implemented for: the assertion in it holds, and it is the number
of entries left. -/
theorem C58_len_partial {safe : (K → Prop) → K → Prop} (h : CrateTree T K V safe) (ops : List (Op K V))
    (t : SizedVebTree T) (hs : SL.SafeHist (sizedSafe safe) [] ops) (hr : Reaches ops t)
    (ss : List Side) (it : Iter (SizedVebTree T) K) (os : List (Option (K × V)))
    (hc : (Iter.new t).calls ss = .ok (it, os)) :
    it.exactLen = .ok (popAll (entries ops) ss).1.length := by
  have := C31_exact_size_partial h ops t hs hr ss it os hc
  simp only [Iter.exactLen, this, R.ok_bind, if_pos]
  rfl

/-- The full claim of C58 for the trees of the crate: after every history, safe or not, a loop from the front ends. -/
def C58_full : Prop :=
  ∀ (ops : List (Op (U 16) Unit)) (t : Set16 (U 16)), Reaches ops t →
    ∃ n ≤ usizeMax, ∃ l, Iter.collect (Iter.call · .front) n (Iter.new t) = .ok (some l)

/-- **C58 refuted** for all histories: on the tree of `C44_forward_forever` no `for` loop or `collect` ends within
`usize::MAX` iterations (then the counter `emitted` overflows), whatever its body does, if it neither breaks off nor
panics. -/
theorem C58_forever (t : Set16 (U 16)) (ht : Reaches badLoop t) {B : Type} (f : B → U 16 × Unit → R B)
    (hf : ∀ b a, ∃ b', f b a = .ok b') (b : B) (n : Nat) (hn : n ≤ usizeMax) :
    Iter.fold (Iter.call · .front) f n (Iter.new t) b = .ok none := by
  obtain ⟨it, h⟩ := C44_forward_forever t ht n hn
  refine fold_of_calls .front f n _ it b ((List.range n).map fun i => (if i % 2 = 0 then k16 15 else k16 10, ())) hf ?_
  rw [h, List.map_map]; rfl

theorem C58_full_refuted : ¬ C58_full := by
  intro h
  obtain ⟨t, ht⟩ : ∃ t : Set16 (U 16), Reaches badLoop t := ⟨_, _, rfl⟩
  obtain ⟨n, hn, l, hl⟩ := h badLoop t ht
  rw [Iter.collect, C58_forever t ht (fun l a => pure (l ++ [a])) (fun _ _ => ⟨_, rfl⟩) _ n hn] at hl
  cases hl

/-! Non-vacuity. -/

/-- a history, a tree it reaches and calls on its iterator, as in `C58_len_partial`; a sized tree of another length than
its iterator's -/
example : ∃ (t : SizedVebTree (BTreeMap Nat Char)) (it : Iter (SizedVebTree (BTreeMap Nat Char)) Nat) (os : List (Option (Nat × Char))),
    Reaches [.insert (3 : Nat) 'a', .insert 9 'b', .insert 5 'c'] t ∧ (Iter.new t).calls [.back] = .ok (it, os) ∧
      it.exactLen = .ok 2 := ⟨_, _, _, ⟨_, rfl⟩, rfl, rfl⟩

/-- an iterator that yields three entries, and the loops over it -/
example : ∃ t : BTreeMap Nat Char, Yields (Iter.new t : Iter _ Nat) [(3, 'a'), (5, 'c'), (9, 'b')] := by
  refine ⟨⟨[(3, 'a'), (5, 'c'), (9, 'b')]⟩, C58_yields (l := [(3, 'a'), (5, 'c'), (9, 'b')])
    (C28_answers_partial .btreeMap [.insert (3 : Nat) 'a', .insert 9 'b', .insert 5 'c'] _ (safeHist_always _ _) ⟨_, rfl⟩)
    (by decide) [] _ [] rfl⟩
example : Iter.collect (Iter.call · .back) 4 (Iter.new (⟨[(3, 'a'), (5, 'c'), (9, 'b')]⟩ : BTreeMap Nat Char)) =
    .ok (some [(9, 'b'), (5, 'c'), (3, 'a')]) := by decide
example : (Iter.nth (Iter.call · .front) 1 (Iter.new (⟨[(3, 'a'), (5, 'c'), (9, 'b')]⟩ : BTreeMap Nat Char))).map Prod.snd =
    .ok (some (5, 'c')) := by decide
/-- three iterations are not enough for three entries -/
example : Iter.collect (Iter.call · .front) 3 (Iter.new (⟨[(3, 'a'), (5, 'c'), (9, 'b')]⟩ : BTreeMap Nat Char)) =
    .ok none := by decide

end Veb.Props
