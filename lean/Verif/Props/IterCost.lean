import Verif.Proof.IterCost
import Verif.Props.Iter
import Verif.Props.Work

/-!
# C72: what iteration costs

`Verif.Model.TickIter` logs what `Iter` asks of the tree and the comparisons of keys it makes itself.  Nothing here needs a
well-formed tree, except where `Answers` says so.
-/

set_option autoImplicit false
set_option synthInstance.maxHeartbeats 200000
set_option synthInstance.maxSize 1000

namespace Veb.Props
open Iter

section
variable {T K V : Type} [LinearOrder K] [VebTree T K V] [TickTree T K V]

/-- **C72, forgetting the log** gives the iterator of C28 – C31, if it gives the tree. -/
theorem C72_faithful (h : CountsFaithfully T) (it : Iter T K) :
    (it.nextT : Tk (Iter T K × Option (K × V))).run = it.next ∧
    (it.nextBackT : Tk (Iter T K × Option (K × V))).run = it.nextBack ∧
    it.sizeHintT.run = it.sizeHint ∧
    ∀ ss, (it.callsT ss : Tk (Iter T K × List (Option (K × V)))).run = it.calls ss :=
  ⟨er_call h it .front, er_call h it .back, er_sizeHint h it, fun ss => er_calls h ss it⟩

variable {w : Ev → Nat} {s d m : Nat}

/-- **C72, one call.** If no method of the tree costs more than `d` (`s` where it looks at the extremes), then one call of
`next` or `next_back`, in any state of the iterator and on any tree whatsoever, costs at most `d` and one comparison, also
when it panics; the first one costs at most `s`; `size_hint` costs at most `s` and a call; and an iterator that has stopped
does nothing at all. -/
theorem C72_call (H : CostsAtMost w T s d m) (hsd : s ≤ d) :
    (∀ (it : Iter T K) (si : Side), (it.callT si : Tk (Iter T K × Option (K × V))).bill w ≤ d + w .cmp) ∧
    (∀ (t : T) (si : Side), ((Iter.new t).callT si : Tk (Iter T K × Option (K × V))).bill w ≤ s) ∧
    (∀ it : Iter T K, it.sizeHintT.bill w ≤ s + w .visit) ∧
    ∀ (it : Iter T K) (ss : List Side), it.data = none →
      (it.callsT ss : Tk (Iter T K × List (Option (K × V)))).log = [] ∧ it.sizeHintT.log = [] := by
  refine ⟨fun it si => (call_cost H hsd it si).1, fun t si => (first_call H si t).1, fun it => ?_, fun it ss h => ?_⟩
  · unfold sizeHintT
    rcases it.data with _ | a
    · exact Nat.zero_le _
    · have hb := H.lenHint it.tree
      dsimp only
      cases e : (TickTree.lenHint it.tree).run with
      | error p => rw [Tk.bill_bind_error w _ _ e]; exact hb
      | ok p =>
        rw [Tk.bill_bind w _ _ e]
        obtain ⟨x, _ | y⟩ := p
        · exact hb
        · have e2 : ∀ (z : R Nat) (f : Nat → Nat × Option Nat), (liftM z >>= fun a => pure (f a) : Tk _).bill w = 0 :=
            fun z f => by cases z <;> rfl
          exact (Nat.add_le_add_left (Nat.le_of_eq (e2 (subUsize y it.emitted) fun a => (x - it.emitted, some a))) _).trans hb
  · refine ⟨by rw [calls_none_left ss it h], ?_⟩
    unfold sizeHintT
    rw [h]
    rfl

/-- **C72, calls.** Any interleaving of calls, in any state of the iterator and on any tree whatsoever, costs at most
`d` and a comparison for every entry it yields, and once more; also at most that for every call, and this also when it
panics. -/
theorem C72_calls (H : CostsAtMost w T s d m) (hsd : s ≤ d) (it : Iter T K) (ss : List Side) :
    (it.callsT ss : Tk (Iter T K × List (Option (K × V)))).bill w ≤ ss.length * (d + w .cmp) ∧
    ∀ r : Iter T K × List (Option (K × V)), (it.callsT ss).run = .ok r →
      (it.callsT ss).bill w ≤ (items r.2 + 1) * (d + w .cmp) :=
  ⟨calls_any H hsd ss it, fun _ h => calls_cost H hsd ss it h⟩

/-- **C72, one direction.** A loop that only calls `next`, or only `next_back`, pays for the first entry like `min_val` and
`d` for each step; the iterator compares no keys. -/
theorem C72_one_way (H : CostsAtMost w T s d m) (t : T) (si : Side) (n : Nat) (r : Iter T K × List (Option (K × V)))
    (h : ((Iter.new t).callsT (List.replicate n si)).run = .ok r) :
    ((Iter.new t).callsT (List.replicate n si)).bill w ≤ s + items r.2 * d :=
  pass_cost H si n t h

/-- **C72, a whole pass.** On a tree that answers as one with the entries `l`, calls in any order and any number cost at
most `(l.length + 1) * (d + cmp)`, and in one direction `s + l.length * d`. -/
theorem C72_pass (h : CountsFaithfully T) (H : CostsAtMost w T s d m) (hsd : s ≤ d) {t : T} {l : SL K V}
    (ha : Answers t l) (hl : l.length ≤ usizeMax) :
    (∀ ss, ((Iter.new t).callsT ss : Tk (Iter T K × List (Option (K × V)))).bill w ≤ (l.length + 1) * (d + w .cmp)) ∧
    ∀ si n, ((Iter.new t).callsT (List.replicate n si) : Tk (Iter T K × List (Option (K × V)))).bill w ≤
      s + l.length * d := by
  have key : ∀ ss, ∃ r : Iter T K × List (Option (K × V)), ((Iter.new t).callsT ss).run = .ok r ∧
      items r.2 ≤ l.length := fun ss => by
    obtain ⟨it, h1, -⟩ := calls_ok (good_new ha hl) ss
    refine ⟨_, (er_calls h ss (Iter.new t)).trans h1, ?_⟩
    unfold items
    rw [List.countP_eq_length_filter]
    exact (C30_terminates ha hl ss it _ h1).1
  refine ⟨fun ss => ?_, fun si n => ?_⟩
  · obtain ⟨r, h1, h2⟩ := key ss
    exact (calls_cost H hsd ss _ h1).trans (Nat.mul_le_mul_right _ (by omega))
  · obtain ⟨r, h1, h2⟩ := key (List.replicate n si)
    exact (pass_cost H si n t h1).trans (Nat.add_le_add_left (Nat.mul_le_mul_right _ h2) _)

/-- **C72 for the trees of the crate.** After a safe history that leaves `k` entries, a pass in one direction makes at most
`1 + r + k * (1 + r + n * (3 * (b + 1)))` calls of tree methods and `k * (5 * n - 2)` comparisons, splits and joins at most
`k * n` keys and calls at most `2 * k * n` methods of collections; in any other order, that for `k + 1` entries and
`k + 1` comparisons more. -/
theorem C72_crate {b N n r : Nat} {safe : (K → Prop) → K → Prop} (h : Nested b N T K V n r) (hc : CrateTree T K V safe)
    (ops : List (Op K V)) (t : T) (hs : SL.SafeHist safe [] ops) (hr : Reaches ops t)
    (hl : (entries ops).length ≤ usizeMax) (w : Ev → Nat) :
    let d := (1 + r) * w .visit + n * (3 * ((b + 1) * w .visit) + w .split + w .join + 2 * w .call) + (5 * n - 2) * w .cmp
    (∀ ss, ((Iter.new t).callsT ss : Tk (Iter T K × List (Option (K × V)))).bill w ≤
      ((entries ops).length + 1) * (d + w .cmp)) ∧
    ∀ si k, ((Iter.new t).callsT (List.replicate k si) : Tk (Iter T K × List (Option (K × V)))).bill w ≤
      (1 + r) * w .visit + (entries ops).length * d := by
  have hm : ∃ m, ∀ k ≤ N, w (.make k) ≤ m := by
    clear h
    induction N with
    | zero => exact ⟨_, fun k hk => by obtain rfl : k = 0 := by omega
                                       exact Nat.le_refl _⟩
    | succ N ih =>
      obtain ⟨m, hm⟩ := ih
      refine ⟨m + w (.make (N + 1)), fun k hk => ?_⟩
      rcases Nat.lt_or_ge N k with h | h
      · obtain rfl : k = N + 1 := by omega
        omega
      · have := hm k h
        omega
  obtain ⟨m, hm⟩ := hm
  exact C72_pass (C34_faithful h) (C66_prices h w hm) (by omega) (C28_answers_partial hc ops t hs hr) hl

end

/-- **C72, predefined types.** On any tree of 64-bit keys whatsoever a loop over `next` that yields `k` entries makes at
most `1 + 10 * k` calls of tree methods and `13 * k` comparisons of keys; of 32-bit keys `1 + 7 * k` and `8 * k`; of 16-bit
keys `1 + 4 * k` and `3 * k`. -/
theorem C72_predefined (V : Type) (si : Side) (n : Nat) :
    (∀ (t : Map64 (U 64) V) r, ((Iter.new t).callsT (List.replicate n si)).run = .ok r →
      ((Iter.new t).callsT (List.replicate n si)).bill (priceOf .visit) ≤ 1 + items r.2 * 10 ∧
      ((Iter.new t).callsT (List.replicate n si)).bill (priceOf .cmp) ≤ items r.2 * 13) ∧
    (∀ (t : Map32 (U 32) V) r, ((Iter.new t).callsT (List.replicate n si)).run = .ok r →
      ((Iter.new t).callsT (List.replicate n si)).bill (priceOf .visit) ≤ 1 + items r.2 * 7 ∧
      ((Iter.new t).callsT (List.replicate n si)).bill (priceOf .cmp) ≤ items r.2 * 8) ∧
    ∀ (t : Map16 (U 16) V) r, ((Iter.new t).callsT (List.replicate n si)).run = .ok r →
      ((Iter.new t).callsT (List.replicate n si)).bill (priceOf .visit) ≤ 1 + items r.2 * 4 ∧
      ((Iter.new t).callsT (List.replicate n si)).bill (priceOf .cmp) ≤ items r.2 * 3 := by
  have v (T K : Type) [LinearOrder K] [VebTree T K V] [TickTree T K V] (n N : Nat) (h : Nested 0 N T K V n 0) :
      CostsAtMost (priceOf .visit) T 1 (1 + n * 3) 0 := by
    simpa [priceOf] using C66_prices h (priceOf .visit) (m := 0) fun k _ => Nat.le_refl _
  refine ⟨fun t r h => ⟨?_, ?_⟩, fun t r h => ⟨?_, ?_⟩, fun t r h => ⟨?_, ?_⟩⟩
  · exact C72_one_way (v _ _ 3 _ (nested64 _ V (Nat.le_refl _)).2) t si n r h
  · simpa using C72_one_way (C66_each (nested64 _ V (Nat.le_refl _)).2).1 t si n r h
  · exact C72_one_way (v _ _ 2 _ (nested32 _ V (Nat.le_refl _)).2) t si n r h
  · simpa using C72_one_way (C66_each (nested32 _ V (Nat.le_refl _)).2).1 t si n r h
  · exact C72_one_way (v _ _ 1 _ (nested16 _ V (Nat.le_refl _)).2) t si n r h
  · simpa using C72_one_way (C66_each (nested16 _ V (Nat.le_refl _)).2).1 t si n r h

/-! Non-vacuity: the six keys of `spread`, forwards, and from both ends until the iterator has stopped. -/

example : ∃ t : HSet32, Exec.run none spread = .ok (some t, spread.map fun _ => .kv none) ∧
    (∃ r, ((Iter.new t).callsT (List.replicate 8 .front)).run = .ok r ∧ items r.2 = 6) ∧
    ((Iter.new t).callsT (List.replicate 8 .front)).bill (priceOf .visit) = 27 ∧
    ((Iter.new t).callsT (List.replicate 8 .front)).bill (priceOf .cmp) = 32 ∧
    (∃ r, ((Iter.new t).callsT [.front, .back, .front, .back, .front, .back, .front, .front]).run = .ok r ∧
      items r.2 = 6) ∧
    ((Iter.new t).callsT [.front, .back, .front, .back, .front, .back, .front, .front]).bill (priceOf .cmp) = 30 := by
  refine ⟨_, rfl, ⟨_, rfl, by decide⟩, by decide +kernel, by decide +kernel, ⟨_, rfl, by decide⟩, by decide +kernel⟩

end Veb.Props
