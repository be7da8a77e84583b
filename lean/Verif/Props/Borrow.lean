import Verif.SpecBorrow
import Verif.Props.Tree

/-!
# C95: keys that are borrowed and dropped by code of the user
-/

set_option autoImplicit false

namespace Veb.Props

variable {σ T K V : Type}

/-! ## The code of the user runs once -/

/-- **C95, the leaves and `Tree`.** -/
theorem C95_first : AsksOnce σ ByteSet ∧ (∀ V : Type, AsksOnce σ (ByteMap V)) ∧
    (∀ (K V : Type) [LinearOrder K], AsksOnce σ (BTreeMap K V)) ∧
    ∀ (K V S C Hi Lo T : Type) [LinearOrder K] [LinearOrder Hi] [VebKey K Hi Lo] [VebKeyRef K Hi Lo] [VebTree S Hi Unit]
      [VebTree T Lo V] [TreeCollection C Hi T Lo V], AsksOnce σ (Tree K V S C) := by
  refine ⟨?_, ?_, ?_, ?_⟩ <;> intros <;> constructor <;> intros <;> rfl

variable [VebTree T K V] [AskTree σ T K V]

theorem use_andThen {α β : Type} (q : Arg σ K) (f : K → R α) (g : α → R β) (s : σ)
    (hg : ∀ k a, (q.borrow s).1 = .ok k → f k = .ok a → ∃ b, g a = .ok b) :
    ((q.use f).andThen g) s = q.use (fun a => f a >>= g) s := by
  unfold Ask.andThen Arg.use
  rcases hb : q.borrow s with ⟨_ | k, s'⟩
  · rfl
  · simp only
    cases hf : f k with
    | error e => rfl
    | ok a =>
      obtain ⟨b, hb⟩ := hg k a (by rw [hb]) hf
      have e : (Except.ok a >>= g : R β) = .ok b := hb
      simp only [e]
      rcases q.drop s' with ⟨_ | _, s''⟩
      · rfl
      · simp only [hb]

theorem use_map {α β : Type} (q : Arg σ K) (f : K → R α) (g : α → β) :
    (q.use f).andThen (fun a => pure (g a)) = q.use (fun a => f a >>= fun a => pure (g a)) :=
  funext fun s => use_andThen q f _ s fun _ a _ _ => ⟨g a, rfl⟩

theorem andThen_congr {α β : Type} {m m' : Ask σ α} {s : σ} (h : m s = m' s) (g : α → R β) :
    m.andThen g s = m'.andThen g s := by
  unfold Ask.andThen
  rw [h]

/-- **C95, `Box`.** -/
theorem C95_box (h : AsksOnce σ T) : AsksOnce σ (Box T) := by
  constructor <;> intro t q
  · exact h.find t.val q
  · show (AskTree.findMut t.val q).andThen _ = _
    rw [h.findMut, use_map]; rfl
  · exact h.predecessor t.val q
  · show (AskTree.predecessorMut t.val q).andThen _ = _
    rw [h.predecessorMut, use_map]; rfl
  · exact h.successor t.val q
  · show (AskTree.successorMut t.val q).andThen _ = _
    rw [h.successorMut, use_map]; rfl
  · intro s hs
    have inner : ∀ k, (q.borrow s).1 = .ok k → ∃ r, VebTree.remove t.val k = .ok r := by
      intro k hk
      obtain ⟨r, hr⟩ := hs k hk
      cases e : VebTree.remove t.val k with
      | ok r => exact ⟨r, rfl⟩
      | error x => simp only [VebTree.remove, e] at hr; cases hr
    show (Ask.andThen (AskTree.remove t.val q) _) s = _
    rw [andThen_congr (h.remove t.val q s inner), use_andThen]
    · rfl
    · rintro k (⟨_, _⟩ | _) _ _ <;> exact ⟨_, rfl⟩

/-- **C95, `SizedVebTree`.** -/
theorem C95_sized (h : AsksOnce σ T) : AsksOnce σ (SizedVebTree T) := by
  constructor <;> intro t q
  · exact h.find t.tree q
  · show (AskTree.findMut t.tree q).andThen _ = _
    rw [h.findMut, use_map]; rfl
  · exact h.predecessor t.tree q
  · show (AskTree.predecessorMut t.tree q).andThen _ = _
    rw [h.predecessorMut, use_map]; rfl
  · exact h.successor t.tree q
  · show (AskTree.successorMut t.tree q).andThen _ = _
    rw [h.successorMut, use_map]; rfl
  · intro s hs
    have inner : ∀ k, (q.borrow s).1 = .ok k → ∃ r, VebTree.remove t.tree k = .ok r := by
      intro k hk
      obtain ⟨r, hr⟩ := hs k hk
      cases e : VebTree.remove t.tree k with
      | ok r => exact ⟨r, rfl⟩
      | error x => simp only [VebTree.remove, e] at hr; cases hr
    show (Ask.andThen (AskTree.remove t.tree q) _) s = _
    rw [andThen_congr (h.remove t.tree q s inner), use_andThen]
    · congr 1
    · intro k a hk ha
      obtain ⟨r, hr⟩ := hs k hk
      simp only [VebTree.remove, ha] at hr
      exact ⟨r, hr⟩

/-- **C95, collections.** -/
theorem C95_coll {Hi T Lo V : Type} [VebTree T Lo V] : CollAsksOnce σ (ByteMap T) ∧
    (∀ [SizedVebKey Hi], CollAsksOnce σ (ArrayColl Hi T)) ∧ (∀ [LinearOrder Hi], CollAsksOnce σ (HashMap Hi T)) ∧
    ∀ (C : Type) [TreeCollection C Hi T Lo V] [AskColl σ C Hi T Lo V], CollAsksOnce σ C → CollAsksOnce σ (Box C) := by
  refine ⟨⟨fun _ _ _ => rfl, fun _ _ _ => rfl⟩, ⟨fun _ _ _ => rfl, fun _ _ _ => rfl⟩,
    ⟨fun _ _ _ => rfl, fun _ _ _ => rfl⟩, fun C _ _ h => ⟨fun c q r => ?_, fun c q r => ?_⟩⟩
  · show (AskColl.removeKey c.val q r).andThen _ = _
    rw [h.removeKey, use_map]; rfl
  · show (AskColl.maybeRemoveKey c.val q r).andThen _ = _
    rw [h.maybeRemoveKey]
    funext s
    rw [use_andThen]
    · congr 1
      funext k
      show _ >>= _ = _ >>= _
      congr 1
      funext x
      obtain ⟨_, _⟩ | _ := x <;> rfl
    · rintro k (⟨_, _⟩ | _) _ _ <;> exact ⟨_, rfl⟩
example : CollAsksOnce σ (Box (ArrayColl (U 8) ByteSet)) := C95_coll.2.2.2 _ C95_coll.2.1

/-! ## Histories -/

omit [VebTree T K V] [AskTree σ T K V] in
theorem byRef_use {α : Type} (t : T) (f : α → Option T × Out K V) (m : K → R α) (q : Arg σ K) (s : σ) :
    AskExec.byRef t f (q.use m s) = q.outcome (some t) (fun k => m k >>= fun a => pure (f a)) s := by
  unfold Arg.use Arg.outcome
  rcases q.borrow s with ⟨_ | k, s'⟩
  · rfl
  · simp only
    cases m k with
    | error e => rfl
    | ok a => rcases q.drop s' with ⟨_ | _, s''⟩ <;> rfl

omit [AskTree σ T K V] in
theorem byValue_use (t : T) (q : Arg σ K) (s : σ) : AskExec.byValue (q.use (VebTree.remove t) s) =
    q.outcome none (fun k => Exec.step (some t) (.remove k)) s := by
  unfold Arg.use Arg.outcome
  rcases q.borrow s with ⟨_ | k, s'⟩
  · rfl
  · simp only [Exec.step, Exec.stepTree]
    cases VebTree.remove t k with
    | error e => rfl
    | ok a => rcases q.drop s' with ⟨_ | _, s''⟩ <;> cases a <;> rfl

/-- **C95, any tree.** One call on a tree in any state, damaged or not: `borrow` runs, then the call with the key that it
answered, then `drop`.  Whoever panics, only a removal loses the tree. -/
theorem C95_step (h : AsksOnce σ T) (t : T) {op : AskOp σ K V} {q : Arg σ K} (hq : op.asks = some q) (s : σ)
    (hn : op.takes = true → ∀ k, (q.borrow s).1 = .ok k → ∃ r, VebTree.remove t k = .ok r) :
    AskExec.step (some t) op s =
      q.outcome (if op.takes then none else some t) (fun k => Exec.step (some t) (op.at k)) s := by
  cases op with
  | plain op => cases hq
  | remove q' => cases hq; simp only [AskExec.step, h.remove t q s (hn rfl)]; exact byValue_use t q s
  | find q' => cases hq; simp only [AskExec.step, h.find]; exact byRef_use t _ _ q s
  | predecessor q' => cases hq; simp only [AskExec.step, h.predecessor]; exact byRef_use t _ _ q s
  | successor q' => cases hq; simp only [AskExec.step, h.successor]; exact byRef_use t _ _ q s
  | findSet q' v => cases hq; simp only [AskExec.step, h.findMut]; exact byRef_use t _ _ q s
  | predecessorSet q' v => cases hq; simp only [AskExec.step, h.predecessorMut]; exact byRef_use t _ _ q s
  | successorSet q' v => cases hq; simp only [AskExec.step, h.successorMut]; exact byRef_use t _ _ q s

/-- **C95, panics.** If `borrow` panics, the call panics so, `k` is dropped, and only a removal loses the tree. -/
theorem C95_panics (h : AsksOnce σ T) (t : T) {op : AskOp σ K V} {q : Arg σ K} (hq : op.asks = some q) {s s' : σ} {e : Panic}
    (hk : q.borrow s = (.error e, s')) :
    AskExec.step (some t) op s = ((if op.takes then none else some t, .error e), (q.drop s').2) := by
  rw [C95_step h t hq s fun _ k hk' => by rw [hk] at hk'; cases hk']
  simp only [Arg.outcome, hk]

/-- **C95, how often.** If the code of the user counts its own calls, a call on a tree adds one `borrow` and one `drop`, and a
call without a tree adds none. -/
theorem C95_counts [AskTree (Nat × Nat) T K V] (h : AsksOnce (Nat × Nat) T) (t : Option T) {op : AskOp (Nat × Nat) K V}
    {q : Arg (Nat × Nat) K} (hq : op.asks = some q) (hb : ∀ n, (q.borrow n).2 = (n.1 + 1, n.2))
    (hd : ∀ n, (q.drop n).2 = (n.1, n.2 + 1)) (n : Nat × Nat)
    (hn : op.takes = true → ∀ u, t = some u → ∀ k, (q.borrow n).1 = .ok k → ∃ r, VebTree.remove u k = .ok r) :
    (AskExec.step t op n).2 = if t = none then n else (n.1 + 1, n.2 + 1) := by
  cases t with
  | none => rw [if_pos rfl]; cases op <;> first | rfl | cases hq
  | some t =>
    rw [if_neg (by simp), C95_step h t hq n fun h => hn h t rfl]
    have h1 := hb n
    unfold Arg.outcome
    rcases hk : q.borrow n with ⟨_ | k, s'⟩ <;> rw [hk] at h1 <;> cases h1
    · exact hd _
    · simp only
      have h2 := hd (n.1 + 1, n.2)
      rcases Exec.step (some t) (op.at k) with _ | ⟨_, _⟩ <;> rcases hk' : q.drop (n.1 + 1, n.2) with ⟨_ | _, s''⟩ <;>
        (rw [hk'] at h2; exact h2)

variable [LinearOrder K]

theorem ask_eq {op : AskOp σ K V} {q : Arg σ K} (hq : op.asks = some q) (l : SL K V) (s : σ) : SL.ask l s op =
    if l = [] then (l, .ok (.kv none), s) else
    match q.borrow s with
    | (.error e, s) => (if op.takes then [] else l, .error e, (q.drop s).2)
    | (.ok k, s) =>
      match q.drop s with
      | (.error e, s) => (if op.takes then [] else l, .error e, s)
      | (.ok (), s) => ((SL.step l (op.at k)).1, .ok (SL.step l (op.at k)).2, s) := by
  cases op <;> cases hq <;> rfl

theorem ask_step (L : LawfulVebTree T K V) (h : AsksOnce σ T) {t : Option T} {l : SL K V} (hr : Rel t l) (s : σ)
    (op : AskOp σ K V) (hs : ∀ k v, op = .plain (.insert k v) → l = [] ∨ L.Safe (SL.keys l) k) :
    ∃ t', AskExec.step t op s = ((t', (SL.ask l s op).2.1), (SL.ask l s op).2.2) ∧ Rel t' (SL.ask l s op).1 := by
  cases hq : op.asks with
  | none =>
    cases op with
    | plain op =>
      obtain ⟨t', h1, h2⟩ := step_ok hr op (fun k v e => hs k v (by rw [e]))
      refine ⟨t', ?_, h2⟩
      simp only [AskExec.step, h1]; rfl
    | _ => cases hq
  | some q =>
    rw [ask_eq hq]
    cases t with
    | none =>
      have hl : l = [] := hr
      subst hl
      rw [if_pos rfl]
      refine ⟨none, ?_, rfl⟩
      cases op <;> first | rfl | cases hq
    | some t =>
      have hl : l ≠ [] := fun e => by subst e; cases rel_nil hr
      have lost : Rel (if op.takes then none else some t) (if op.takes then [] else l) := by
        cases op.takes
        · exact hr
        · rfl
      have ok : ∀ k, ∃ t', Exec.step (some t) (op.at k) = .ok (t', (SL.step l (op.at k)).2) ∧ Rel t' (SL.step l (op.at k)).1 :=
        fun k => step_ok hr (op.at k) (fun j v e => by cases op <;> first | (cases hq; done) | cases e)
      rw [if_neg hl, C95_step h t hq s]
      · unfold Arg.outcome
        rcases hk : q.borrow s with ⟨e | k, s'⟩
        · exact ⟨_, rfl, lost⟩
        · obtain ⟨t', h1, h2⟩ := ok k
          simp only [h1]
          rcases hd : q.drop s' with ⟨e | _, s''⟩
          · exact ⟨_, rfl, lost⟩
          · exact ⟨t', rfl, h2⟩
      · intro ht k _
        cases op with
        | remove q' =>
          obtain ⟨t', h1, -⟩ := ok k
          simp only [AskOp.at, Exec.step, Exec.stepTree] at h1
          cases e : VebTree.remove t k with
          | ok r => exact ⟨r, rfl⟩
          | error x => rw [e] at h1; cases h1
        | _ => cases ht

/-- **C95.** A program calls the methods of a tree of the crate with keys that are borrowed and dropped by its own code, and
catches the panics of that code.  After any safe history it has got the answers and the panics of an ordered map whose keys
are borrowed and dropped in the same way: the code runs once per call on a tree and not at all without one, every panic is its
own, queries and writes that panic leave the entries as they were, and a removal that panics loses them all. -/
theorem C95_map {safe : (K → Prop) → K → Prop} (hc : CrateTree T K V safe) (h : AsksOnce σ T) (s : σ)
    (ops : List (AskOp σ K V)) (hs : SL.SafeAsks safe [] s ops) :
    ∃ t : Option T, AskExec.run none s ops = ((t, (SL.askAll [] s ops).2.1), (SL.askAll [] s ops).2.2) ∧
      (t = none ↔ (SL.askAll [] s ops).1 = []) ∧
      ∀ u, t = some u → ∀ k, VebTree.find u k = .ok (SL.find (SL.askAll [] s ops).1 k) := by
  obtain ⟨L, hL, -⟩ := hc.lawful
  subst hL
  have key : ∀ (ops : List (AskOp σ K V)) (t : Option T) (l : SL K V) (s : σ), Rel t l → SL.SafeAsks L.Safe l s ops →
      ∃ t' : Option T, AskExec.run t s ops = ((t', (SL.askAll l s ops).2.1), (SL.askAll l s ops).2.2) ∧
        Rel t' (SL.askAll l s ops).1 := by
    intro ops
    induction ops with
    | nil => intro t l s hr _; exact ⟨t, rfl, hr⟩
    | cons op ops ih =>
      intro t l s hr hs
      obtain ⟨t1, e1, r1⟩ := ask_step L h hr s op (by rintro k v rfl; exact hs.1)
      obtain ⟨t2, e2, r2⟩ := ih t1 _ _ r1 hs.2
      refine ⟨t2, ?_, r2⟩
      simp only [AskExec.run, e1, e2]; rfl
  obtain ⟨t, e, r⟩ := key ops none [] s rel_none hs
  refine ⟨t, e, ⟨fun ht => ?_, fun hl => ?_⟩, ?_⟩
  · subst ht; exact r
  · rw [hl] at r; exact rel_nil r
  · rintro u rfl k
    rw [L.find u k r.1, r.2.find]

/-! ## Non-vacuity -/

/-- A key that counts its calls; its `borrow` panics at every second call and its destructor at every fifth. -/
def moody (k : Nat) : Arg (Nat × Nat) (U 16) where
  borrow n := (if n.1 % 2 = 1 then .error .unreachable else .ok (U.lit k), (n.1 + 1, n.2))
  drop n := (if n.2 % 5 = 4 then .error .index else .ok (), (n.1, n.2 + 1))

/-- a history with answers, panics and lost trees -/
def moodyOps : List (AskOp (Nat × Nat) (U 16) Nat) :=
  [.find (moody 3), .plain (.insert (U.lit 3) 30), .plain (.insert (U.lit 700) 7), .find (moody 3), .successor (moody 3),
   .successorSet (moody 3) 8, .findSet (moody 700) 9, .plain .maxVal, .findSet (moody 700) 10, .remove (moody 3), .plain .minVal]

theorem moodySafe : SL.SafeAsks safe16 [] (0, 0) moodyOps := by
  refine ⟨trivial, .inl rfl, .inr ?_, trivial, trivial, trivial, trivial, trivial, trivial, trivial, trivial, trivial⟩
  rintro mn mx ⟨_, h1⟩ ⟨_, h2⟩ hne
  refine absurd ?_ hne
  have h1 := List.mem_singleton.1 h1
  have h2 := List.mem_singleton.1 h2
  cases h1; cases h2; rfl

example : ∃ t : Option (Box (Map16 (U 16) Nat)), AskExec.run none (0, 0) moodyOps =
    ((t, [.ok (.kv none), .ok (.kv none), .ok (.kv none), .ok (.kv (some (U.lit 3, 30))),
      .error .unreachable, .ok (.kv (some (U.lit 700, 7))), .error .unreachable, .ok (.kv (some (U.lit 700, 8))),
      .error .index, .error .unreachable, .ok (.kv none)]), (6, 6)) ∧ t = none := by
  obtain ⟨t, h1, h2, -⟩ := C95_map (.box (crate16 Nat).1.2) (C95_box (C95_first.2.2.2 ..)) (0, 0) moodyOps moodySafe
  refine ⟨t, h1.trans ?_, h2.2 ?_⟩
  · exact congrArg (fun p : List (R (Out (U 16) Nat)) × Nat × Nat => ((t, p.1), p.2))
      (show (SL.askAll [] (0, 0) moodyOps).2 = (_, (6, 6)) by rfl)
  · decide +kernel
example : AsksOnce σ (SizedVebTree (Box (Map16 (U 16) Nat))) := C95_sized (C95_box (C95_first.2.2.2 ..))
example (t : Option ByteSet) : (AskExec.step t (.find ⟨fun n => (.ok (U.lit 3), (n.1 + 1, n.2)), fun n => (.ok (), (n.1, n.2 + 1))⟩)
    (0, 0)).2 = if t = none then (0, 0) else (1, 1) :=
  C95_counts C95_first.1 t rfl (fun _ => rfl) (fun _ => rfl) (0, 0) (fun h => by cases h)

end Veb.Props
