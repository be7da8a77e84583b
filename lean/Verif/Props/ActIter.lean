import Verif.Proof.ActIter
import Verif.Props.Audit
import Verif.Props.Logged
import Verif.Props.IterCost

/-!
# C73: iterators over code of the user

The iterator calls the code that the tree calls, and `PartialEq` and `Clone` of keys.  All of it is an arbitrary action on
a state, as in C67.
-/

set_option autoImplicit false

namespace Veb.Props
open Iter

section
variable {σ T K V : Type} [LinearOrder K] [ActTree σ T K V] [VebTree T K V] [ActIterKey σ K]

/-- **C73, side effects of proper code.** On a tree that a history has left, all calls of an iterator end as they do
without a state: so C28 – C31 and C44 hold for code of the user that answers properly and changes its state as it likes. -/
theorem C73_agree (h : HonestTree σ T K V) (hk : HonestIterKey σ K) {ops : List (Op K V)} {s s' : σ} {t : T}
    {os : List (Out K V)} (hr : ActExec.run none ops s = .ok ((some t, os), s')) :
    (∀ ss, SameOutcome ((Iter.new t).callsA (σ := σ) ss) ((Iter.new t).calls ss)) ∧
    ∀ it : Iter T K, it.tree = t → SameOutcome (it.sizeHintA (σ := σ)) it.sizeHint := by
  obtain ⟨P⟩ := h.sim
  have := ((honest_run (P := P) (t := none) allO_none ops).ok hr).2
  refine ⟨fun ss => outcome_of (honest_calls hk.sound ss (Iter.new t) (this t rfl)), ?_⟩
  rintro it rfl
  exact outcome_of (honest_sizeHint it (this _ rfl))

/-- **C73, what it means for C29.** After a safe history, whatever the side effects, calls of `next` and `next_back` in any
order take the entries from the ends of the list of what should be stored. -/
theorem C73_entries_partial {safe : (K → Prop) → K → Prop} (h : HonestTree σ T K V) (hk : HonestIterKey σ K)
    (hc : CrateTree T K V safe) {ops : List (Op K V)} (hs : SL.SafeHist safe [] ops)
    (hl : (entries ops).length ≤ usizeMax) {s s' : σ} {t : T} {os : List (Out K V)}
    (hr : ActExec.run none ops s = .ok ((some t, os), s')) (ss : List Side) (s₁ : σ) :
    ∃ it s₂, (Iter.new t).callsA ss s₁ = .ok ((it, (popAll (entries ops) ss).2), s₂) := by
  have ha := C28_answers_partial hc ops t hs ⟨_, C68_only h hr⟩
  obtain ⟨it, h1, -⟩ := calls_ok (good_new ha hl) ss
  obtain ⟨s₂, h2⟩ := ((C73_agree h hk hr).1 ss).1 _ h1 s₁
  exact ⟨it, s₂, h2⟩
end

section
variable {T K V : Type} [LinearOrder K] [VebTree T K V] [TickTree T K V] [ActTree (List Ev) T K V]

/-- **C73, keys that write a log.** What they write while an iterator runs is what the cost log of C72 says, call for call
and in its order. -/
theorem C73_log (h : LoggedTree T K V) {ops : List (Op K V)} {t : T} {os : List (Out K V)}
    (hr : Exec.run (none : Option T) ops = .ok (some t, os)) (ss : List Side) :
    SameLog ((Iter.new t).callsA ss) ((Iter.new t).callsT ss) := by
  obtain ⟨⟨P⟩, _⟩ := h.sim
  have := logged_run (P := P) (t := none) allO_none ops []
  rw [hr] at this
  exact same_log (logged_calls ss (Iter.new t) (this.1 t rfl))

/-- **C73 and C72.** How often code of the keys runs while an iterator yields `items os` entries, on `n` levels: in one
direction at most `5 * n - 2` comparisons, `n` splits and `n` joins for each; in any order, one comparison more for each and
the same once more. -/
theorem C73_calls (h : LoggedTree T K V) {b N n r : Nat} (hn : Nested b N T K V n r) {ops : List (Op K V)} {t : T}
    {os : List (Out K V)} (hr : Exec.run (none : Option T) ops = .ok (some t, os)) {ss : List Side}
    {it : Iter T K} {as : List (Option (K × V))} {log : List Ev}
    (hi : (Iter.new t).callsA ss [] = .ok ((it, as), log)) :
    (log.count .cmp ≤ (items as + 1) * (5 * n - 2 + 1) ∧ log.count .split ≤ (items as + 1) * n ∧
      log.count .join ≤ (items as + 1) * n) ∧
    ∀ si k, ss = List.replicate k si → log.count .cmp ≤ items as * (5 * n - 2) ∧ log.count .split ≤ items as * n ∧
      log.count .join ≤ items as * n := by
  rw [C73_log h hr] at hi
  cases e : ((Iter.new t).callsT ss : Tk (Iter T K × List (Option (K × V)))).run with
  | error p => rw [e] at hi; cases hi
  | ok a =>
    rw [e] at hi
    cases hi
    have key : ∀ e : Ev, e.ofKey = true →
        ([] ++ ((Iter.new t).callsT ss : Tk (Iter T K × List (Option (K × V)))).log.filter Ev.ofKey).count e =
          ((Iter.new t).callsT ss : Tk (Iter T K × List (Option (K × V)))).bill (priceOf e) := fun e he => by
      rw [List.nil_append, List.count_filter he, count_priceOf]; rfl
    obtain ⟨h1, h2, h3, -⟩ := C66_each hn
    rw [key .cmp rfl, key .split rfl, key .join rfl]
    refine ⟨⟨?_, ?_, ?_⟩, ?_⟩
    · simpa [priceOf] using (C72_calls h1 (Nat.zero_le _) (Iter.new t) ss).2 _ e
    · simpa [priceOf] using (C72_calls h2 (Nat.zero_le _) (Iter.new t) ss).2 _ e
    · simpa [priceOf] using (C72_calls h3 (Nat.zero_le _) (Iter.new t) ss).2 _ e
    · rintro si k rfl
      exact ⟨by simpa using C72_one_way h1 t si k _ e, by simpa using C72_one_way h2 t si k _ e,
        by simpa using C72_one_way h3 t si k _ e⟩
end

section
variable {σ T K V : Type} [ActTree σ T K V] [ActIterKey σ K]

/-- the key an iterator has left at its front, or at its back, if it has been advanced there -/
def heldKey {T K : Type} (it : Iter T K) : Side → Option K
  | .front => match it.data with
    | some (.front k) | some (.both k _) => some k
    | _ => none
  | .back => match it.data with
    | some (.back k) | some (.both _ k) => some k
    | _ => none

/-- **C73, where the items come from.** An item is, key and value, what the tree has answered: its end if the iterator has not
been advanced at this side, and otherwise the neighbour of the key kept from the item before.  A clone of the key is kept for
the next call, and what is kept for the other side stays.  This holds over any code of the user. -/
theorem C73_item {it it' : Iter T K} {s s' : σ} {e : K × V} :
    (it.callA .front s = .ok ((it', some e), s') →
      (match heldKey it .front with
        | none => ∃ s₁, ActTree.minVal it.tree s = .ok (e, s₁)
        | some k => ∃ s₁, ActTree.successor it.tree k s = .ok (some e, s₁)) ∧
      (∃ (s₂ : σ) (k : K) (s₃ : σ), ActIterKey.clone e.1 s₂ = .ok (k, s₃) ∧ heldKey it' .front = some k) ∧ heldKey it' .back = heldKey it .back) ∧
    (it.callA .back s = .ok ((it', some e), s') →
      (match heldKey it .back with
        | none => ∃ s₁, ActTree.maxVal it.tree s = .ok (e, s₁)
        | some k => ∃ s₁, ActTree.predecessor it.tree k s = .ok (some e, s₁)) ∧
      (∃ (s₂ : σ) (k : K) (s₃ : σ), ActIterKey.clone e.1 s₂ = .ok (k, s₃) ∧ heldKey it' .back = some k) ∧ heldKey it' .front = heldKey it .front) := by
  have bo : ∀ {α β : Type} {x : Act σ α} {f : α → Act σ β} {s s'' : σ} {b : β}, (x >>= f) s = .ok (b, s'') →
      ∃ a s', x s = .ok (a, s') ∧ f a s' = .ok (b, s'') := by
    intro α β x f s s'' b h
    change (x s >>= fun p => f p.1 p.2) = _ at h
    rcases hx : x s with e | ⟨a, s'⟩
    · rw [hx] at h; cases h
    · rw [hx] at h; exact ⟨a, s', rfl, h⟩
  have fin : ∀ {o : Option (IterData K × (K × V))} {s s' : σ}, it.finishA o s = .ok ((it', some e), s') →
      ∃ d, o = some (d, e) ∧ it'.data = some d := by
    intro o s s' h
    rcases o with _ | ⟨d, kv⟩
    · cases h
    · obtain ⟨n, s1, -, h⟩ := bo h
      cases h
      exact ⟨d, rfl, rfl⟩
  obtain ⟨tr, da, em⟩ := it
  constructor
  · intro h
    obtain ⟨o, s1, h1, h⟩ := bo h
    obtain ⟨d, rfl, hd⟩ := fin h
    rcases da with _ | _ | k | k | ⟨k, b⟩
    · cases h1
    · obtain ⟨⟨k, v⟩, s2, h2, h1⟩ := bo h1
      obtain ⟨c, s3, h3, h1⟩ := bo h1
      cases h1
      exact ⟨⟨_, h2⟩, ⟨_, _, _, h3, by simp [heldKey, hd]⟩, by simp [heldKey, hd]⟩
    · obtain ⟨_ | ⟨k', v⟩, s2, h2, h1⟩ := bo h1
      · cases h1
      obtain ⟨c, s3, h3, h1⟩ := bo h1
      cases h1
      exact ⟨⟨_, h2⟩, ⟨_, _, _, h3, by simp [heldKey, hd]⟩, by simp [heldKey, hd]⟩
    · obtain ⟨⟨k', v⟩, s2, h2, h1⟩ := bo h1
      obtain ⟨q, s3, -, h1⟩ := bo h1
      cases q
      · obtain ⟨c, s3, h3, h1⟩ := bo h1
        cases h1
        exact ⟨⟨_, h2⟩, ⟨_, _, _, h3, by simp [heldKey, hd]⟩, by simp [heldKey, hd]⟩
      · cases h1
    · obtain ⟨_ | ⟨k', v⟩, s2, h2, h1⟩ := bo h1
      · cases h1
      obtain ⟨q, s3, -, h1⟩ := bo h1
      cases q
      · obtain ⟨c, s3, h3, h1⟩ := bo h1
        cases h1
        exact ⟨⟨_, h2⟩, ⟨_, _, _, h3, by simp [heldKey, hd]⟩, by simp [heldKey, hd]⟩
      · cases h1
  · intro h
    obtain ⟨o, s1, h1, h⟩ := bo h
    obtain ⟨d, rfl, hd⟩ := fin h
    rcases da with _ | _ | k | k | ⟨k, b⟩
    · cases h1
    · obtain ⟨⟨k, v⟩, s2, h2, h1⟩ := bo h1
      obtain ⟨c, s3, h3, h1⟩ := bo h1
      cases h1
      exact ⟨⟨_, h2⟩, ⟨_, _, _, h3, by simp [heldKey, hd]⟩, by simp [heldKey, hd]⟩
    · obtain ⟨⟨k', v⟩, s2, h2, h1⟩ := bo h1
      obtain ⟨q, s3, -, h1⟩ := bo h1
      cases q
      · obtain ⟨c, s3, h3, h1⟩ := bo h1
        cases h1
        exact ⟨⟨_, h2⟩, ⟨_, _, _, h3, by simp [heldKey, hd]⟩, by simp [heldKey, hd]⟩
      · cases h1
    · obtain ⟨_ | ⟨k', v⟩, s2, h2, h1⟩ := bo h1
      · cases h1
      obtain ⟨c, s3, h3, h1⟩ := bo h1
      cases h1
      exact ⟨⟨_, h2⟩, ⟨_, _, _, h3, by simp [heldKey, hd]⟩, by simp [heldKey, hd]⟩
    · obtain ⟨_ | ⟨k', v⟩, s2, h2, h1⟩ := bo h1
      · cases h1
      obtain ⟨q, s3, -, h1⟩ := bo h1
      cases q
      · obtain ⟨c, s3, h3, h1⟩ := bo h1
        cases h1
        exact ⟨⟨_, h2⟩, ⟨_, _, _, h3, by simp [heldKey, hd]⟩, by simp [heldKey, hd]⟩
      · cases h1

/-- **C73, the iterator is fused whatever the code of the user does.** After a `None`, all calls answer `None`, and no code
of the user runs: the state stays as it is. -/
theorem C73_fused {it it' : Iter T K} {si : Side} {s s' : σ} (h : it.callA si s = .ok ((it', none), s')) :
    ∀ (ss : List Side) (s₁ : σ), it'.callsA ss s₁ = .ok ((it', ss.map fun _ => none), s₁) := by
  have key : it'.data = none := by
    have key : ∀ m : Act σ (Option (IterData K × (K × V))), (m >>= it.finishA) s = .ok ((it', none), s') → it'.data = none := by
      intro m h
      change (m s >>= fun p => it.finishA p.1 p.2) = _ at h
      cases hm : m s with
      | error p => rw [hm] at h; cases h
      | ok p =>
        rw [hm] at h
        obtain ⟨_ | ⟨d, e⟩, s1⟩ := p
        · cases h; rfl
        · change ((liftM (addUsize it.emitted 1) : Act σ Nat) s1 >>= _) = _ at h
          cases ha : addUsize it.emitted 1 with
          | error p => rw [ha] at h; cases h
          | ok n => rw [ha] at h; cases h
    cases si with
    | front => exact key it.frontA h
    | back => exact key it.backA h
  exact fun ss s₁ => stopped_calls ss it' key s₁

/-- **C73, values.** Whatever the code of the user does, every value that the iterator yields is in the tree; the tree stays
the same; and `emitted` counts what was yielded. -/
theorem C73_values {f : Prop} {held : T → Multiset V} (h : UserTree σ T K V f held) {ops : List (Op K V)} {s s' : σ} {t : T}
    {os : List (Out K V)} (hr : ActExec.run none ops s = .ok ((some t, os), s')) {ss : List Side} {s₁ s₂ : σ}
    {it : Iter T K} {as : List (Option (K × V))} (hi : (Iter.new t).callsA ss s₁ = .ok ((it, as), s₂)) :
    (∀ e, some e ∈ as → e.2 ∈ held t) ∧ it.tree = t ∧ it.emitted = items as ∧ it.emitted ≤ usizeMax := by
  obtain ⟨P, -, h2⟩ := h.keeps
  obtain ⟨I, -⟩ := moved_run (P := P) (t := none) (by rintro _ ⟨⟩) ops s _ s' hr
  have I := I t rfl
  rw [h2 t I]
  have key : ∀ (ss : List Side) (i : Iter T K), P.W i.tree → i.emitted ≤ usizeMax → Post (i.callsA (σ := σ) ss) fun r =>
      (∀ e, some e ∈ r.2 → e.2 ∈ P.vals i.tree) ∧ r.1.tree = i.tree ∧ r.1.emitted = i.emitted + items r.2 ∧
        r.1.emitted ≤ usizeMax := by
    intro ss
    induction ss with
    | nil => exact fun i hi hl => .ret ⟨by rintro e ⟨⟩, rfl, rfl, hl⟩
    | cons si ss ih =>
      intro i hi hl
      refine (went_call i hi si).bind fun p hp => ?_
      have hl' : p.1.emitted ≤ usizeMax := by
        cases ho : p.2 with
        | none => rw [(hp.over ho).2]; exact hl
        | some e => exact (hp.next e ho).2
      refine (ih p.1 (hp.tree ▸ hi) hl').bind fun q hq => .ret ?_
      obtain ⟨q1, q2, q3, q4⟩ := hq
      refine ⟨fun e he => ?_, q2.trans hp.tree, ?_, q4⟩
      · rcases List.mem_cons.1 he with he | he
        · exact hp.mem e he.symm
        · exact hp.tree ▸ q1 e he
      · rw [q3]
        cases ho : p.2 with
        | none => rw [items_none, (hp.over ho).2]
        | some e => rw [items_some, (hp.next e ho).1]; omega
  obtain ⟨h1, h2, h3, h4⟩ := key ss (Iter.new t) I (Nat.zero_le _) s₁ _ s₂ hi
  exact ⟨h1, h2, h3.trans (Nat.zero_add _), h4⟩

variable {Us : Panic → Prop} {E O : Panic → Prop}

/-- **C73, panics.** Whatever the code of the user does: calls of an iterator that panic, panic in that code, at a place
where the tree can panic (C70), at the `debug_assert!` that the two ends meet, or because more than `usize::MAX` entries
were yielded. -/
theorem C73_panics (h : AuditedTree σ Us T K V E O) (hk : IterKeyPanics σ K Us) {ops : List (Op K V)}
    (hl : ops.length ≤ usizeMax) {s s' : σ} {t : T} {os : List (Out K V)}
    (hr : ActExec.run none ops s = .ok ((some t, os), s')) {ss : List Side} {s₁ : σ} {p : Panic}
    (hi : (Iter.new t).callsA ss s₁ = .error p) :
    Us p ∨ E p ∨ (p = .debugAssert ∧ Side.front ∈ ss ∧ Side.back ∈ ss) ∨ p = .arith ∧ usizeMax < ss.length := by
  obtain ⟨P, N, hN⟩ := h.audit True
  have J := (aud_run (N := N) (n := 0) (t := none) ⟨optOk_none, optOk_none⟩ ops (fun _ => by omega) s).1 _ _ hr
  have I := J.1 t rfl
  have J := J.2 t rfl
  rcases (aud_calls hk ss (Iter.new t) I J (F := False) (B := False) trivial (Nat.zero_le _) s₁).2 p hi with h | ⟨h, h1, h2⟩ | ⟨h, h1⟩
  · rcases hN p h with h | h | h
    · exact .inl h
    · exact .inr (.inl h)
    · exact absurd trivial h.1
  · exact .inr (.inr (.inl ⟨h, h1.resolve_left id, h2.resolve_left id⟩))
  · exact .inr (.inr (.inr ⟨h, by simpa [Iter.new] using h1⟩))

omit [ActIterKey σ K] in
/-- **C73, `size_hint`.** It calls no code of the user.  On an iterator over a tree that a history has left, it panics only
if the iterator has yielded more entries than the upper bound of `len_hint`, with an underflow. -/
theorem C73_size_hint (h : AuditedTree σ Us T K V E O) {ops : List (Op K V)} {s s' : σ} {t : T} {os : List (Out K V)}
    (hr : ActExec.run none ops s = .ok ((some t, os), s')) {it : Iter T K} (ht : it.tree = t) {s₁ : σ} {p : Panic}
    (hi : it.sizeHintA s₁ = .error p) :
    p = .arith ∧ ∃ lo hi s₂, ActTree.lenHint t s₁ = .ok ((lo, some hi), s₂) ∧ hi < it.emitted := by
  obtain ⟨-, ⟨⟨⟨lo, hi'⟩, s₂⟩, h1⟩, -⟩ := C70_still h hr s₁
  subst ht
  unfold sizeHintA at hi
  cases hd : it.data with
  | none => rw [hd] at hi; cases hi
  | some d =>
    rw [hd] at hi
    change (ActTree.lenHint it.tree s₁ >>= _) = _ at hi
    rw [h1] at hi
    cases hi' with
    | none => cases hi
    | some m =>
      change ((liftM (subUsize m it.emitted) : Act σ Nat) s₂ >>= _) = _ at hi
      unfold subUsize at hi
      by_cases hm : it.emitted ≤ m
      · rw [if_pos hm] at hi; cases hi
      · rw [if_neg hm] at hi
        cases hi
        exact ⟨rfl, lo, m, s₂, h1, by omega⟩

omit [ActTree σ T K V] [ActIterKey σ K] in
/-- **C73, panics that are caught.** When a call has panicked and the caller goes on with the iterator, it is over: all
further calls answer `None` and run no code.  The exception is an overflow of `emitted`, after which it goes on behind the
entry that was not returned. -/
theorem C73_caught (m : Act σ (Option (IterData K × (K × V)))) (it it' : Iter T K) (s : σ) (p : Panic)
    (h : it.caughtA m s = (it', .error p)) :
    (it'.data = none ∧ it'.tree = it.tree ∧ m s = .error p) ∨ (p = .arith ∧ usizeMax ≤ it.emitted ∧
      it'.tree = it.tree ∧ it'.emitted = it.emitted ∧ ∃ d e s', m s = .ok (some (d, e), s') ∧ it'.data = some d) := by
  unfold caughtA at h
  split at h
  · rename_i e; cases h; exact .inl ⟨rfl, rfl, e⟩
  · cases h
  · split at h
    · rename_i e' _ _ e
      cases h
      exact .inr ⟨(add_error e).1, (add_error e).2, rfl, rfl, _, _, _, e', rfl⟩
    · cases h
end

/-- **C73, `caughtA` is the iterator** when there is no panic, and panics as it does. -/
theorem C73_caught_same {σ T K V : Type} [ActTree σ T K V] [ActIterKey σ K] (it : Iter T K) (si : Side) (s : σ) :
    (it.caughtA (it.matchA si) s).2.map (fun r => ((it.caughtA (it.matchA si) s).1, r.1, r.2)) =
      (it.callA si s).map fun r : (Iter T K × Option (K × V)) × σ => (r.1.1, r.1.2, r.2) := by
  have key : ∀ m : Act σ (Option (IterData K × (K × V))), (it.caughtA m s).2.map (fun r => ((it.caughtA m s).1, r.1, r.2)) =
      ((m >>= it.finishA) s).map fun r : (Iter T K × Option (K × V)) × σ => (r.1.1, r.1.2, r.2) := fun m => by
    change _ = (m s >>= fun p => it.finishA p.1 p.2).map _
    unfold caughtA
    rcases m s with p | ⟨_ | ⟨d, e⟩, s1⟩
    · rfl
    · rfl
    · change _ = ((liftM (addUsize it.emitted 1) : Act σ Nat) s1 >>= fun p => _).map _
      rcases addUsize it.emitted 1 with p | n <;> rfl
  cases si with
  | front => exact key it.frontA
  | back => exact key it.backA

/-! ## Nothing bounds an iteration over keys that lie -/

/-- keys whose `<` always says yes; all other code is proper -/
structure Under where
  key : U 16
  deriving DecidableEq

instance : ActKey Unit Under (U 8) (U 8) where
  cmp a b := pure (cmp a.key b.key)
  eq a b := pure (decide (a = b))
  lt _ _ := pure true
  le a b := pure (decide (a.key ≤ b.key))
  gt a b := pure (decide (b.key < a.key))
  ge a b := pure (decide (b.key ≤ a.key))
  splitVal k := pure (VebKey.splitVal k.key)
  splitRef k := pure (VebKeyRef.splitRef k.key)
  splitDone _ := pure ()
  join h l := pure ⟨VebKey.join h l⟩
instance : ActIterKey Unit Under where
  eq a b := pure (decide (a = b))
  clone a := pure a
instance : ActTree Unit ByteSet (U 8) Unit := ActTree.plain _
instance {V : Type} : ActTree Unit (ByteMap V) (U 8) V := ActTree.plain _

/-- a counted map over such keys -/
abbrev UnderMap := SizedVebTree (Tree Under Nat ByteSet (ByteMap (ByteMap Nat)))

/-- two insertions -/
def twoUnder : List (Op Under Nat) := [.insert ⟨U.lit 3⟩ 0, .insert ⟨U.lit 700⟩ 1]

/-- **C73 needs its conditions.** With a `<` that always says yes, a map of two entries is iterated without an end:
however often `next` is called, it answers the least entry, and after three answers `size_hint` panics. -/
theorem C73_endless : ∃ (t : UnderMap) (os : List (Out Under Nat)),
    ActExec.run none twoUnder () = .ok ((some t, os), ()) ∧ t.size = 2 ∧
    (∀ n ≤ usizeMax, ∃ it, (Iter.new t).callsA (List.replicate n .front) () =
      .ok ((it, List.replicate n (some (⟨U.lit 3⟩, 0))), ()) ∧ (3 ≤ n → it.sizeHintA () = .error .arith)) := by
  let t : UnderMap := ⟨⟨(⟨U.lit 3⟩, 0), some ⟨(⟨U.lit 700⟩, 1), none⟩⟩, 2⟩
  refine ⟨t, _, rfl, rfl, fun n hn => ?_⟩
  have step : ∀ (d : IterData Under) (e : Nat), d = .start ∨ d = .front ⟨U.lit 3⟩ → e < usizeMax →
      (⟨t, some d, e⟩ : Iter UnderMap Under).callA .front () =
        .ok ((⟨t, some (.front ⟨U.lit 3⟩), e + 1⟩, some (⟨U.lit 3⟩, 0)), ()) := by
    intro d e hd he
    have ha : addUsize e 1 = .ok (e + 1) := if_pos he
    rcases hd with rfl | rfl <;>
    · change ((liftM (addUsize e 1) : Act Unit Nat) () >>= _) = _
      rw [ha]; rfl
  have all : ∀ (n : Nat) (d : IterData Under) (e : Nat), d = .start ∨ d = .front ⟨U.lit 3⟩ → e + n ≤ usizeMax →
      ∃ d', (⟨t, some d, e⟩ : Iter UnderMap Under).callsA (List.replicate n .front) () =
        .ok ((⟨t, some d', e + n⟩, List.replicate n (some (⟨U.lit 3⟩, 0))), ()) := by
    intro n
    induction n with
    | zero => exact fun d e _ _ => ⟨d, rfl⟩
    | succ n ih =>
      intro d e hd he
      obtain ⟨d', h⟩ := ih (.front ⟨U.lit 3⟩) (e + 1) (.inr rfl) (by omega)
      refine ⟨d', ?_⟩
      change ((⟨t, some d, e⟩ : Iter UnderMap Under).callA .front () >>= _) = _
      rw [step d e hd (by omega)]
      change ((⟨t, some (.front ⟨U.lit 3⟩), e + 1⟩ : Iter UnderMap Under).callsA (List.replicate n .front) () >>= _) = _
      rw [h, show e + 1 + n = e + (n + 1) by omega]
      rfl
  obtain ⟨d, h⟩ := all n .start 0 (.inl rfl) (by omega)
  refine ⟨_, h, fun h3 => ?_⟩
  change ((liftM (subUsize 2 (0 + n)) : Act Unit Nat) () >>= _) = _
  rw [show subUsize 2 (0 + n) = .error .arith from if_neg (by omega)]
  rfl

/-! ## Examples -/

/-- equality that counts its calls, and cloning that does -/
instance countIterKey {K : Type} [DecidableEq K] : ActIterKey Calls K where
  eq a b := counted (decide (a = b))
  clone a := counted a
theorem countIterKey_honest {K : Type} [DecidableEq K] : HonestIterKey Calls K :=
  ⟨fun _ _ => counted_answers _, fun _ => counted_answers _⟩

example {s s' : Calls} {t : Map16 (U 16) Nat} {os : List (Out (U 16) Nat)}
    (hr : ActExec.run none sample s = .ok ((some t, os), s')) (s₁ : Calls) :
    ∃ it s₂, (Iter.new t).callsA [.front, .back, .front, .back, .front] s₁ =
      .ok ((it, [some (U.lit 7, 5), some (U.lit 4000, 3), some (U.lit 70, 6), some (U.lit 301, 4), none]), s₂) :=
  C73_entries_partial count16 countIterKey_honest (.tree goodKey .byteSet .byteMap (.array goodIndex)) sample_safe
    (by decide +kernel) hr [.front, .back, .front, .back, .front] s₁

/-- the calls of code of the user: 40 in the history (C68) and the rest in the iteration -/
example : ((do
    let (t, _) ← ActExec.run (none : Option (Map16 (U 16) Nat)) sample
    match t with
    | some t => (Iter.new t).callsA [.front, .back, .front, .back, .front]
    | none => throw .unreachable : Act Calls _) ⟨0⟩).map (fun r => r.2.n) = .ok 65 := by decide +kernel

example {t : Map16 (U 16) Nat} {os : List (Out (U 16) Nat)} (hr : Exec.run none sample = .ok (some t, os))
    {it : Iter (Map16 (U 16) Nat) (U 16)} {as : List (Option (U 16 × Nat))} {log : List Ev}
    (hi : (Iter.new t).callsA [.front, .front, .front, .front, .front] [] = .ok ((it, as), log)) :
    log.count .cmp ≤ items as * 3 :=
  ((C73_calls logged16 (nested16 (U 16) Nat (Nat.le_refl _)).2 hr hi).2 .front 5 rfl).1

section
/-- bytes that are compared properly by the map, but differ from themselves when the iterator asks -/
local instance : ActIterKey Unit (U 8) where
  eq _ _ := pure false
  clone a := pure a

/-- the two ends pass each other, which the `debug_assert!` notices -/
example : ((do
    let (t, _) ← ActExec.run (none : Option (ByteMap Nat)) [.insert (U.lit 3) 0, .insert (U.lit 7) 1]
    match t with
    | some t => (Iter.new t).callsA [.front, .back, .front, .front]
    | none => throw .unreachable : Act Unit _) ()).map (fun r => r.1.2) = .error .debugAssert := by decide +kernel
end

end Veb.Props
