import Verif.Proof.Tick
import Verif.SpecCost

/-!
Bounds on the visits counted in `Verif.Model.Tick`.
-/

set_option autoImplicit false
set_option linter.unusedSectionVars false

namespace Veb

/-- At the prices `w`, when `k` is already spent, `x` brings the total to at most `n`, and to at most `q a` when it returns
`a`. -/
def Le (w : Ev → Nat) {α : Type} (k : Nat) (x : Tk α) (n : Nat) (q : α → Nat) : Prop :=
  k + x.bill w ≤ n ∧ ∀ a, x.run = .ok a → k + x.bill w ≤ q a

theorem Tk.bill_bind {α β : Type} (w : Ev → Nat) (x : Tk α) (f : α → Tk β) {a : α} (h : x.run = .ok a) :
    (x >>= f).bill w = x.bill w + (f a).bill w := by
  rcases x with ⟨_, l⟩
  cases h
  show ((l ++ (f a).log).map w).sum = _
  rw [List.map_append, List.sum_append]
  rfl
theorem Tk.bill_bind_error {α β : Type} (w : Ev → Nat) (x : Tk α) (f : α → Tk β) {e : Panic} (h : x.run = .error e) :
    (x >>= f).bill w = x.bill w := by
  rcases x with ⟨_, l⟩
  cases h
  rfl
theorem Tk.bill_evBind {β : Type} (w : Ev → Nat) (e : Ev) (f : Unit → Tk β) :
    (Tk.ev e >>= f).bill w = w e + (f ()).bill w := by
  rw [Tk.bill_bind w (Tk.ev e) f rfl]
  rfl
/-- the number of visits is the bill at the price 1 for visits -/
theorem Tk.cost_eq {α : Type} (x : Tk α) : x.cost = x.bill (priceOf .visit) := by
  rcases x with ⟨r, l⟩
  show l.count .visit = (l.map (priceOf .visit)).sum
  induction l with
  | nil => rfl
  | cons e l ih =>
    rw [List.count_cons, List.map_cons, List.sum_cons, ih, priceOf, Nat.add_comm]
    by_cases h : e = .visit <;> simp [h]

namespace Le
variable {w : Ev → Nat} {α β : Type} {k n : Nat} {q : α → Nat}

theorem bill {x : Tk α} (h : Le w 0 x n q) : x.bill w ≤ n := by have := h.1; omega
theorem pure {a : α} (h : k ≤ n) (hq : k ≤ q a) : Le w k (Pure.pure a) n q :=
  ⟨h, fun b hb => by cases hb; exact hq⟩
theorem error {e : Panic} (h : k ≤ n) : Le w k (Tk.lift (.error e) : Tk α) n q :=
  ⟨h, fun b hb => by cases hb⟩
theorem weaken {x : Tk α} {n' : Nat} {q' : α → Nat} (h : Le w k x n q) (hn : n ≤ n')
    (hq : ∀ a, q a ≤ q' a) : Le w k x n' q' :=
  ⟨h.1.trans hn, fun a ha => (h.2 a ha).trans (hq a)⟩
theorem shift {x : Tk α} {k' n' : Nat} {q' : α → Nat} (h : Le w k x n q) (hn : k' + n ≤ k + n')
    (hq : ∀ a, k' + q a ≤ k + q' a) : Le w k' x n' q' :=
  ⟨by have := h.1; omega, fun a ha => by have := h.2 a ha; have := hq a; omega⟩
theorem bind {x : Tk α} {f : α → Tk β} {n0 : Nat} {p : α → Nat} {q : β → Nat} (h : Le w 0 x n0 p)
    (hn : k + n0 ≤ n) (hf : ∀ a, Le w (k + p a) (f a) n q) : Le w k (x >>= f) n q := by
  have h1 := h.1
  cases hx : x.run with
  | error e =>
    refine ⟨by rw [Tk.bill_bind_error w x f hx]; omega, fun b hb => ?_⟩
    rcases x with ⟨_, l⟩
    cases hx
    cases hb
  | ok a =>
    have h2 := h.2 a hx
    obtain ⟨h3, h4⟩ := hf a
    rw [Le, Tk.bill_bind w x f hx]
    refine ⟨by omega, fun b hb => ?_⟩
    have : (f a).run = .ok b := by
      rcases x with ⟨_, l⟩
      cases hx
      exact hb
    have := h4 b this
    omega
theorem evBind {e : Ev} {f : Unit → Tk β} {q : β → Nat} (hf : Le w (k + w e) (f ()) n q) :
    Le w k (Tk.ev e >>= f) n q := by
  rw [Le, Tk.bill_evBind]
  exact ⟨by have := hf.1; omega, fun b hb => by have := hf.2 b hb; omega⟩
theorem tickBind {f : Unit → Tk β} {q : β → Nat} (hf : Le w (k + w .visit) (f ()) n q) :
    Le w k (Tk.tick >>= f) n q := evBind hf
theorem liftBind {x : R α} {f : α → Tk β} {q : β → Nat} (hn : k ≤ n) (hf : ∀ a, Le w k (f a) n q) :
    Le w k ((liftM x : Tk α) >>= f) n q := by
  refine bind (n0 := 0) (p := fun _ => 0) ⟨?_, fun _ _ => ?_⟩ (by omega) fun a => hf a
  · exact Nat.le_refl 0
  · exact Nat.le_refl 0
theorem liftM {x : R α} (hn : k ≤ n) (hq : ∀ a, k ≤ q a) : Le w k (liftM x : Tk α) n q :=
  ⟨hn, fun a _ => hq a⟩
theorem pureBind {a : α} {f : α → Tk β} {q : β → Nat} (hf : Le w k (f a) n q) : Le w k (Pure.pure a >>= f) n q := by
  rw [Le, Tk.bill_bind w (Pure.pure a) f rfl, show (Pure.pure a : Tk α).bill w = 0 from rfl, Nat.zero_add]
  exact hf
theorem of_bill {x : Tk α} (h : x.bill w ≤ n) : Le w 0 x n (fun _ => n) :=
  ⟨by omega, fun _ _ => by show 0 + x.bill w ≤ n; omega⟩
end Le

/-- bound for an answer: `s` when nothing is found -/
def onNone {α : Type} (s d : Nat) : Option α → Nat
  | none => s
  | some _ => d
/-- bound for a removal: `s` when the tree goes away -/
def onGone {α β : Type} (s d : Nat) : Option α × β → Nat
  | (none, _) => s
  | (some _, _) => d
/-- bound for `remove` -/
def onGone' {α β : Type} (s d : Nat) : Result (Option α × β) α → Nat
  | .Ok (none, _) => s
  | .Ok (some _, _) => d
  | .Err _ => d
/-- bound for the removal of a collection: `s` when the child goes away -/
def onLost {α β : Type} (s d : Nat) : Option (α × Bool) × β → Nat
  | (some (_, true), _) => s
  | (some (_, false), _) => d
  | (none, _) => d
/-- bound for `maybe_remove_key` -/
def onLost' {α β : Type} (s d : Nat) : Result (Option (α × Bool) × β) α → Nat
  | .Ok (some (_, true), _) => s
  | .Ok (some (_, false), _) => d
  | .Ok (none, _) => d
  | .Err _ => d
/-- bound for `insert_key`: `s` when the child is new -/
def onNew {α β γ : Type} (s d : Nat) : α × Result β γ → Nat
  | (_, .Ok _) => s
  | (_, .Err _) => d

/-- The bounds on the bills of a tree type: `x` for the extremes, `s` when nothing is found or the tree goes away, `d` in
general, `m` more for a new collection. -/
structure CostTree (w : Ev → Nat) (m : Nat) (T : Type) {K V : Type} [TickTree T K V] (x s d : Nat) : Prop where
  pos : w .visit ≤ x
  xs : x ≤ s
  le : s ≤ d
  fromMonad (k : K) (v : V) : (TickTree.fromMonad k v : Tk T).bill w ≤ x
  isMonad (t : T) : (TickTree.isMonad t).bill w ≤ x
  lenHint (t : T) : (TickTree.lenHint t).bill w ≤ x + w .visit
  intoMonad (t : T) : (TickTree.intoMonad t).bill w ≤ x + w .visit
  minVal (t : T) : (TickTree.minVal t).bill w ≤ x
  minValMut (t : T) : (TickTree.minValMut t).bill w ≤ x
  maxVal (t : T) : (TickTree.maxVal t).bill w ≤ x
  maxValMut (t : T) : (TickTree.maxValMut t).bill w ≤ x
  find (t : T) (k : K) : (TickTree.find t k).bill w ≤ d
  findMut (t : T) (k : K) : (TickTree.findMut t k).bill w ≤ d
  predecessor (t : T) (k : K) : Le w 0 (TickTree.predecessor t k) d (onNone s d)
  predecessorMut (t : T) (k : K) : Le w 0 (TickTree.predecessorMut t k) d (onNone s d)
  successor (t : T) (k : K) : Le w 0 (TickTree.successor t k) d (onNone s d)
  successorMut (t : T) (k : K) : Le w 0 (TickTree.successorMut t k) d (onNone s d)
  insert (t : T) (k : K) (v : V) : (TickTree.insert t k v).bill w ≤ d + m
  remove (t : T) (k : K) : Le w 0 (TickTree.remove t k) (d + w .visit) (onGone' (s + w .visit) (d + w .visit))
  removeMin (t : T) : Le w 0 (TickTree.removeMin t) d (onGone s d)
  removeMax (t : T) : Le w 0 (TickTree.removeMax t) d (onGone s d)

theorem CostTree.costs {w : Ev → Nat} {m : Nat} {T K V : Type} [TickTree T K V] {x s d : Nat}
    (h : CostTree w m T x s d) : CostsAtMost w T x d m where
  fromMonad := h.fromMonad
  isMonad := h.isMonad
  lenHint := h.lenHint
  intoMonad := h.intoMonad
  minVal := h.minVal
  minValMut := h.minValMut
  maxVal := h.maxVal
  maxValMut := h.maxValMut
  find := h.find
  findMut := h.findMut
  predecessor t k := (h.predecessor t k).bill
  predecessorMut t k := (h.predecessorMut t k).bill
  successor t k := (h.successor t k).bill
  successorMut t k := (h.successorMut t k).bill
  insert := h.insert
  remove t k := (h.remove t k).bill
  removeMin t := (h.removeMin t).bill
  removeMax t := (h.removeMax t).bill

/-- visits are the events at the price 1 for visits -/
theorem CostsAtMost.visits {T K V : Type} [TickTree T K V] {x d : Nat} (h : CostsAtMost (priceOf .visit) T x d 0) :
    VisitsAtMost T x d := by
  constructor <;> intros <;> rw [Tk.cost_eq]
  case fromMonad => exact h.fromMonad _ _
  case isMonad => exact h.isMonad _
  case lenHint => exact h.lenHint _
  case intoMonad => exact h.intoMonad _
  case minVal => exact h.minVal _
  case minValMut => exact h.minValMut _
  case maxVal => exact h.maxVal _
  case maxValMut => exact h.maxValMut _
  case find => exact h.find _ _
  case findMut => exact h.findMut _ _
  case predecessor => exact h.predecessor _ _
  case predecessorMut => exact h.predecessorMut _ _
  case successor => exact h.successor _ _
  case successorMut => exact h.successorMut _ _
  case insert => exact h.insert _ _ _
  case remove => exact h.remove _ _
  case removeMin => exact h.removeMin _
  case removeMax => exact h.removeMax _

/-- compute a bound -/
macro "ob" : tactic => `(tactic| ((try dsimp only [onNone, onGone, onGone', onLost, onLost', onNew, Option.map_none, Option.map_some,
    Option.isNone_none, Option.isNone_some]) <;> omega))

theorem onNone_mono {α : Type} {s d s' d' : Nat} (hs : s ≤ s') (hd : d ≤ d') (o : Option α) :
    onNone s d o ≤ onNone s' d' o := by cases o <;> assumption
theorem onGone_mono {α β : Type} {s d s' d' : Nat} (hs : s ≤ s') (hd : d ≤ d') (o : Option α × β) :
    onGone s d o ≤ onGone s' d' o := by rcases o with ⟨_ | _, _⟩ <;> assumption
theorem onGone'_mono {α β : Type} {s d s' d' : Nat} (hs : s ≤ s') (hd : d ≤ d') (o : Result (Option α × β) α) :
    onGone' s d o ≤ onGone' s' d' o := by rcases o with ⟨_ | _, _⟩ | _ <;> assumption

theorem CostTree.mono {w : Ev → Nat} {m : Nat} {T K V : Type} [TickTree T K V] {x s d x' s' d' : Nat}
    (h : CostTree w m T x s d) (hx : x ≤ x') (hs : s ≤ s') (hd : d ≤ d') (hxs : x' ≤ s') (hs' : s' ≤ d') :
    CostTree w m T x' s' d' where
  pos := h.pos.trans hx
  xs := hxs
  le := hs'
  fromMonad k v := (h.fromMonad k v).trans hx
  isMonad t := (h.isMonad t).trans hx
  lenHint t := (h.lenHint t).trans (Nat.add_le_add_right hx _)
  intoMonad t := (h.intoMonad t).trans (Nat.add_le_add_right hx _)
  minVal t := (h.minVal t).trans hx
  minValMut t := (h.minValMut t).trans hx
  maxVal t := (h.maxVal t).trans hx
  maxValMut t := (h.maxValMut t).trans hx
  find t k := (h.find t k).trans hd
  findMut t k := (h.findMut t k).trans hd
  predecessor t k := (h.predecessor t k).weaken hd (onNone_mono hs hd)
  predecessorMut t k := (h.predecessorMut t k).weaken hd (onNone_mono hs hd)
  successor t k := (h.successor t k).weaken hd (onNone_mono hs hd)
  successorMut t k := (h.successorMut t k).weaken hd (onNone_mono hs hd)
  insert t k v := (h.insert t k v).trans (Nat.add_le_add_right hd _)
  remove t k := (h.remove t k).weaken (Nat.add_le_add_right hd _)
    (onGone'_mono (Nat.add_le_add_right hs _) (Nat.add_le_add_right hd _))
  removeMin t := (h.removeMin t).weaken hd (onGone_mono hs hd)
  removeMax t := (h.removeMax t).weaken hd (onGone_mono hs hd)

theorem CostTree.ofLeaf (w : Ev → Nat) (m : Nat) (T : Type) {K V : Type} [VebTree T K V] :
    @CostTree w m T K V (TickTree.leaf T) (w .visit) (w .visit) (w .visit) := by
  let := TickTree.leaf T
  have h2 : ∀ {α : Type} (x : R α) {n : Nat} {q : α → Nat}, w .visit ≤ n → (∀ a, w .visit ≤ q a) →
      Le w 0 (do Tk.tick; x : Tk α) n q :=
    fun x n q hn hq => Le.tickBind (Le.liftM (by ob) fun a => by have := hq a; omega)
  have h : ∀ {α : Type} (x : R α) {n : Nat}, w .visit ≤ n → (do Tk.tick; x : Tk α).bill w ≤ n :=
    fun x n hn => (h2 x (q := fun _ => n) hn fun _ => hn).bill
  constructor <;> intros
  case fromMonad => exact h (.ok _) (by ob)
  case predecessor => exact h2 _ (by ob) fun a => by cases a <;> ob
  case predecessorMut => exact h2 _ (by ob) fun a => by cases a <;> ob
  case successor => exact h2 _ (by ob) fun a => by cases a <;> ob
  case successorMut => exact h2 _ (by ob) fun a => by cases a <;> ob
  case remove => exact h2 _ (by ob) fun a => by rcases a with ⟨_ | _, _⟩ | _ <;> ob
  case removeMin => exact h2 _ (by ob) fun a => by rcases a with ⟨_ | _, _⟩ <;> ob
  case removeMax => exact h2 _ (by ob) fun a => by rcases a with ⟨_ | _, _⟩ <;> ob
  all_goals first | exact Nat.le_refl _ | exact h _ (by ob)

/-- The bounds on the bills of a collection, given those of its children. -/
structure CostColl (w : Ev → Nat) (m : Nat) (C : Type) {Hi T Lo V : Type} [TickTree T Lo V]
    [TickColl C Hi T Lo V] : Prop where
  create (h : Hi) (t : T) : (TickColl.create h t : Tk C).bill w ≤ m
  insertKey {x s d : Nat} (ht : CostTree w m T x s d) (c : C) (h : Hi) (lv : Lo × V) :
    Le w 0 (TickColl.insertKey c h lv) (d + m) (onNew x (d + m))
  removeKey {s d : Nat} (c : C) (h : Hi) {r : T → Tk (Option T × (Lo × V))} (hsd : s ≤ d)
    (hr : ∀ t, Le w 0 (r t) d (onGone s d)) : Le w 0 (TickColl.removeKey c h r) d (onLost s d)
  maybeRemoveKey {s d : Nat} (c : C) (h : Hi) {r : T → Tk (Result (Option T × (Lo × V)) T)} (hsd : s ≤ d)
    (hr : ∀ t, Le w 0 (r t) d (onGone' s d)) : Le w 0 (TickColl.maybeRemoveKey c h r) d (onLost' s d)

section
variable {w : Ev → Nat} {m : Nat} {T K V : Type} [TickTree T K V] {x s d : Nat}

theorem CostTree.box (h : CostTree w m T x s d) :
    CostTree w m (Box T) (x + w .visit) (s + w .visit) (d + w .visit) := by
  have hb : ∀ {α β : Type} {y : Tk α} {n : Nat} (hx : y.bill w ≤ n) (f : α → β),
      (do Tk.tick; let a ← y; pure (f a) : Tk β).bill w ≤ n + w .visit := fun {α β y n} hx f =>
    (Le.tickBind (q := fun _ => n + w .visit) (Le.bind (Le.of_bill hx) (by ob)
      fun a => Le.pure (by ob) (by ob))).bill
  have hd : ∀ {α : Type} {y : Tk α} {n : Nat} (hx : y.bill w ≤ n), (do Tk.tick; y : Tk α).bill w ≤ n + w .visit :=
    fun {α y n} hx => (Le.tickBind (q := fun _ => n + w .visit) ((Le.of_bill hx).shift (by ob)
      fun _ => by omega)).bill
  have := h.pos
  have := h.xs
  have := h.le
  constructor
  case pos => omega
  case xs => have := h.xs; omega
  case le => have := h.le; omega
  case fromMonad => exact fun k v => hb (h.fromMonad k v) _
  case isMonad => exact fun t => hd (h.isMonad _)
  case lenHint => exact fun t => (hd (h.lenHint _)).trans (by ob)
  case intoMonad =>
    exact fun t => (Le.tickBind (q := fun _ => x + w .visit + w .visit) (Le.bind (Le.of_bill (h.intoMonad _)) (by ob) fun a => by
      cases a <;> exact Le.pure (by ob) (by ob))).bill
  case minVal => exact fun t => hd (h.minVal _)
  case minValMut => exact fun t => hb (h.minValMut _) _
  case maxVal => exact fun t => hd (h.maxVal _)
  case maxValMut => exact fun t => hb (h.maxValMut _) _
  case find => exact fun t k => hd (h.find _ _)
  case findMut => exact fun t k => hb (h.findMut _ _) _
  case predecessor =>
    exact fun t k => Le.tickBind ((h.predecessor _ _).shift (by ob) fun a => by
      cases a <;> ob)
  case predecessorMut =>
    exact fun t k => Le.tickBind (Le.bind (h.predecessorMut _ _) (by ob) fun a => by
      have := h.le
      cases a <;> (exact Le.pure (by ob) (by ob)))
  case successor =>
    exact fun t k => Le.tickBind ((h.successor _ _).shift (by ob) fun a => by
      cases a <;> ob)
  case successorMut =>
    exact fun t k => Le.tickBind (Le.bind (h.successorMut _ _) (by ob) fun a => by
      have := h.le
      cases a <;> (exact Le.pure (by ob) (by ob)))
  case insert => exact fun t k v => (hb (h.insert _ _ _) _).trans (by ob)
  case remove =>
    exact fun t k => Le.tickBind (Le.bind (h.remove _ _) (by ob) fun a => by
      have := h.le
      rcases a with ⟨_ | _, _⟩ | _ <;> (exact Le.pure (by ob) (by ob)))
  case removeMin =>
    exact fun t => Le.tickBind (Le.bind (h.removeMin _) (by ob) fun a => by
      have := h.le
      rcases a with ⟨_ | _, _⟩ <;> (exact Le.pure (by ob) (by ob)))
  case removeMax =>
    exact fun t => Le.tickBind (Le.bind (h.removeMax _) (by ob) fun a => by
      have := h.le
      rcases a with ⟨_ | _, _⟩ <;> (exact Le.pure (by ob) (by ob)))

theorem CostTree.sized (h : CostTree w m T x s d) :
    CostTree w m (SizedVebTree T) (x + w .visit) (s + w .visit) (d + w .visit) := by
  have hb : ∀ {α β : Type} {y : Tk α} {n : Nat} (hx : y.bill w ≤ n) (f : α → β),
      (do Tk.tick; let a ← y; pure (f a) : Tk β).bill w ≤ n + w .visit := fun {α β y n} hx f =>
    (Le.tickBind (q := fun _ => n + w .visit) (Le.bind (Le.of_bill hx) (by ob)
      fun a => Le.pure (by ob) (by ob))).bill
  have hd : ∀ {α : Type} {y : Tk α} {n : Nat} (hx : y.bill w ≤ n), (do Tk.tick; y : Tk α).bill w ≤ n + w .visit :=
    fun {α y n} hx => (Le.tickBind (q := fun _ => n + w .visit) ((Le.of_bill hx).shift (by ob)
      fun _ => by omega)).bill
  have hle := h.le
  have := h.pos
  have := h.xs
  have := h.le
  constructor
  case pos => omega
  case xs => have := h.xs; omega
  case le => have := h.le; omega
  case fromMonad => exact fun k v => hb (h.fromMonad k v) _
  case isMonad =>
    exact fun t => (Le.tickBind (q := fun _ => x + w .visit) (Le.bind (Le.of_bill (h.isMonad _)) (by ob) fun a => by
      cases a
      · exact Le.pure (by ob) (by ob)
      · exact Le.liftBind (by ob) fun _ => Le.pure (by ob) (by ob))).bill
  case lenHint =>
    exact fun t => (Le.tickBind (q := fun _ => x + w .visit + w .visit) (Le.pure (by ob) (by ob))).bill
  case intoMonad =>
    exact fun t => (Le.tickBind (q := fun _ => x + w .visit + w .visit) (Le.bind (Le.of_bill (h.intoMonad _)) (by ob) fun a => by
      cases a <;> exact Le.pure (by ob) (by ob))).bill
  case minVal => exact fun t => hd (h.minVal _)
  case minValMut => exact fun t => hb (h.minValMut _) _
  case maxVal => exact fun t => hd (h.maxVal _)
  case maxValMut => exact fun t => hb (h.maxValMut _) _
  case find => exact fun t k => hd (h.find _ _)
  case findMut => exact fun t k => hb (h.findMut _ _) _
  case predecessor =>
    exact fun t k => Le.tickBind ((h.predecessor _ _).shift (by ob) fun a => by
      cases a <;> ob)
  case predecessorMut =>
    exact fun t k => Le.tickBind (Le.bind (h.predecessorMut _ _) (by ob) fun a => by
      cases a <;> (exact Le.pure (by ob) (by ob)))
  case successor =>
    exact fun t k => Le.tickBind ((h.successor _ _).shift (by ob) fun a => by
      cases a <;> ob)
  case successorMut =>
    exact fun t k => Le.tickBind (Le.bind (h.successorMut _ _) (by ob) fun a => by
      cases a <;> (exact Le.pure (by ob) (by ob)))
  case insert =>
    refine fun t k v => Nat.le_trans (m := d + m + w .visit) ?_ (by ob)
    exact (Le.tickBind (q := fun _ => d + m + w .visit) (Le.bind (Le.of_bill (h.insert _ _ _)) (by ob) fun a => by
      rcases a with ⟨_, _ | _⟩
      · exact Le.liftBind (by ob) fun _ => Le.pure (by ob) (by ob)
      · exact Le.pure (by ob) (by ob))).bill
  case remove =>
    exact fun t k => Le.tickBind (Le.bind (h.remove _ _) (by ob) fun a => by
      rcases a with ⟨_ | _, _⟩ | _
      · exact Le.pure (by ob) (by ob)
      · exact Le.liftBind (by ob) fun _ => Le.liftBind (by ob) fun _ =>
          Le.pure (by ob) (by ob)
      · exact Le.pure (by ob) (by ob))
  case removeMin =>
    exact fun t => Le.tickBind (Le.liftBind (by ob) fun _ => Le.bind (h.removeMin _) (by ob) fun a => by
      rcases a with ⟨_ | _, _⟩
      · exact Le.pure (by ob) (by ob)
      · exact Le.liftBind (by ob) fun _ =>
          Le.pure (by ob) (by ob))
  case removeMax =>
    exact fun t => Le.tickBind (Le.liftBind (by ob) fun _ => Le.bind (h.removeMax _) (by ob) fun a => by
      rcases a with ⟨_ | _, _⟩
      · exact Le.pure (by ob) (by ob)
      · exact Le.liftBind (by ob) fun _ =>
          Le.pure (by ob) (by ob))
end


section
variable {w : Ev → Nat} {m : Nat} {Hi T Lo V : Type} [TickTree T Lo V]

theorem CostColl.array [SizedVebKey Hi] (hm : w (.make (OptionArray.typenumUsize (SizedVebKey.cardinality Hi))) ≤ m) :
    CostColl w m (ArrayColl Hi T) := by
  constructor
  · intro h t
    show (ArrayColl.createT h t).bill w ≤ m
    unfold ArrayColl.createT
    refine (Le.evBind (w := w) (e := .make (OptionArray.typenumUsize (SizedVebKey.cardinality Hi))) (n := m)
      (q := fun _ => m) ?_).bill
    exact Le.liftM (by omega) fun _ => by omega
  · intro x s d ht c h lv
    have := ht.le
    have := ht.xs
    refine Le.liftBind (by ob) ?_
    rintro (_ | t)
    · exact Le.bind (Le.of_bill (ht.fromMonad _ _)) (by ob) fun _ => Le.liftBind (by ob) fun _ =>
        Le.liftBind (by ob) fun _ => Le.pure (by ob) (by ob)
    · exact Le.bind (Le.of_bill (ht.insert _ _ _)) (by ob) fun _ => Le.liftBind (by ob) fun _ =>
        Le.pure (by ob) (by ob)
  · intro s d c h r hsd hr
    refine Le.liftBind (by ob) fun _ => Le.liftBind (by ob) fun t => Le.liftBind (by ob) fun _ =>
      Le.bind (hr t) (by ob) ?_
    rintro ⟨_ | t, v⟩
    · refine Le.liftBind (by ob) fun n => Le.liftBind (by ob) fun _ => ?_
      by_cases hn : n = 0
      · simp only [hn, if_true]; exact Le.pure (by ob) (by ob)
      · simp only [hn, if_false]; exact Le.pure (by ob) (by ob)
    · refine Le.pureBind (Le.liftBind (by ob) fun _ => ?_)
      split
      · exact Le.pure (by ob) (by ob)
      · exact Le.pure (by ob) (by ob)
  · intro s d c h r hsd hr
    refine Le.liftBind (by ob) ?_
    rintro (_ | t)
    · exact Le.pure (by ob) (by ob)
    refine Le.liftBind (by ob) fun _ => Le.bind (hr t) (by ob) ?_
    rintro (⟨_ | t, v⟩ | _)
    · refine Le.liftBind (by ob) fun n => Le.liftBind (by ob) fun _ => ?_
      by_cases hn : n = 0
      · simp only [hn, if_true]; exact Le.pure (by ob) (by ob)
      · simp only [hn, if_false]; exact Le.pure (by ob) (by ob)
    · refine Le.pureBind (Le.liftBind (by ob) fun _ => ?_)
      split
      · exact Le.pure (by ob) (by ob)
      · exact Le.pure (by ob) (by ob)
    · exact Le.liftBind (by ob) fun _ => Le.pure (by ob) (by ob)

theorem CostColl.hash [DecidableEq Hi] (hm : w (.make 0) ≤ m) : CostColl w m (HashMap Hi T) := by
  constructor
  · intro h t
    show (HashMap.createT h t).bill w ≤ m
    unfold HashMap.createT
    refine (Le.evBind (w := w) (e := .make 0) (n := m) (q := fun _ => m) ?_).bill
    exact Le.liftM (by omega) fun _ => by omega
  · intro x s d ht c h lv
    have := ht.le
    have := ht.xs
    show Le w 0 (HashMap.insertKeyT c h lv) _ _
    unfold HashMap.insertKeyT
    cases c.lookup h
    · exact Le.bind (Le.of_bill (ht.fromMonad _ _)) (by ob) fun _ => Le.pure (by ob) (by ob)
    · exact Le.bind (Le.of_bill (ht.insert _ _ _)) (by ob) fun _ => Le.pure (by ob) (by ob)
  · intro s d c h r hsd hr
    show Le w 0 (HashMap.removeKeyT c h r) _ _
    unfold HashMap.removeKeyT
    cases c.lookup h with
    | none => exact Le.error (by ob)
    | some t =>
      refine Le.bind (hr t) (by ob) ?_
      rintro ⟨_ | t, v⟩ <;> dsimp only <;> split <;>
        (exact Le.pure (by ob) (by ob))
  · intro s d c h r hsd hr
    show Le w 0 (HashMap.maybeRemoveKeyT c h r) _ _
    unfold HashMap.maybeRemoveKeyT
    cases c.lookup h with
    | none => exact Le.pure (by ob) (by ob)
    | some t =>
      refine Le.bind (hr t) (by ob) ?_
      rintro (⟨o, v⟩ | o)
      · refine Le.pureBind ?_
        cases hc : (c.replaceEntry h o).entries.isEmpty <;> simp only [hc] <;> cases o <;>
          (exact Le.pure (by ob) (by ob))
      · refine Le.pureBind ?_
        cases hc : (c.replaceEntry h (some o)).entries.isEmpty
        · simp only [hc]; exact Le.pure (by ob) (by ob)
        · simp only [hc]; exact Le.error (by ob)

theorem VecDeque.le_removeKey {A Lo V : Type} {w : Ev → Nat} {s d : Nat} (l : List A) (i : Nat) {r : A → Tk (Option A × (Lo × V))}
    (hsd : s ≤ d) (hr : ∀ t, Le w 0 (r t) d (onGone s d)) :
    Le w 0 (VecDeque.removeKeyT l i r) d (onLost s d) := by
  unfold VecDeque.removeKeyT
  cases l[i]? with
  | none => exact Le.error (by ob)
  | some t =>
    refine Le.bind (hr t) (by ob) ?_
    rintro ⟨_ | t, v⟩ <;> dsimp only <;> split
    · exact Le.liftBind (by ob) fun _ => Le.pure (by ob) (by ob)
    · exact Le.pure (by ob) (by ob)
    · exact Le.liftBind (by ob) fun _ => Le.pure (by ob) (by ob)
    · exact Le.pure (by ob) (by ob)

theorem VecDeque.le_maybeRemoveKey {A Lo V : Type} {w : Ev → Nat} {s d : Nat} (l : List A) (i : Nat)
    {r : A → Tk (Result (Option A × (Lo × V)) A)} (hsd : s ≤ d) (hr : ∀ t, Le w 0 (r t) d (onGone' s d)) :
    Le w 0 (VecDeque.maybeRemoveKeyT l i r) d (onLost' s d) := by
  unfold VecDeque.maybeRemoveKeyT
  cases l[i]? with
  | none => exact Le.error (by ob)
  | some t =>
    refine Le.bind (hr t) (by ob) ?_
    rintro (⟨_ | t, v⟩ | _)
    · dsimp only
      split
      · exact Le.liftBind (by ob) fun _ => Le.pure (by ob) (by ob)
      · exact Le.pure (by ob) (by ob)
    · dsimp only
      split
      · exact Le.liftBind (by ob) fun _ => Le.pure (by ob) (by ob)
      · exact Le.pure (by ob) (by ob)
    · exact Le.pure (by ob) (by ob)

theorem CostColl.byte (hm : w (.make 0) ≤ m) : CostColl w m (ByteMap T) := by
  constructor
  · intro h t
    show (ByteMap.Coll.createT h t).bill w ≤ m
    unfold ByteMap.Coll.createT
    refine (Le.evBind (w := w) (e := .make 0) (n := m) (q := fun _ => m) ?_).bill
    exact Le.liftM (by omega) fun _ => by omega
  · intro x s d ht c h lv
    have := ht.le
    have := ht.xs
    refine Le.liftBind (by ob) ?_
    rintro ⟨_, _ | r⟩
    · exact Le.bind (Le.of_bill (ht.fromMonad _ _)) (by ob) fun _ => Le.liftBind (by ob) fun _ =>
        Le.pure (by ob) (by ob)
    · exact Le.liftBind (by ob) fun _ => Le.bind (Le.of_bill (ht.insert _ _ _)) (by ob) fun _ =>
        Le.pure (by ob) (by ob)
  · intro s d c h r hsd hr
    refine Le.liftBind (by ob) fun _ => Le.liftBind (by ob) fun _ =>
      Le.bind (VecDeque.le_removeKey _ _ hsd hr) (by ob) ?_
    rintro ⟨_ | ⟨_, _ | _⟩, _⟩
    · exact Le.pure (by ob) (by ob)
    · exact Le.pure (by ob) (by ob)
    · exact Le.liftBind (by ob) fun _ => Le.pure (by ob) (by ob)
  · intro s d c h r hsd hr
    refine Le.liftBind (by ob) ?_
    rintro (_ | _)
    · exact Le.pure (by ob) (by ob)
    · refine Le.bind (VecDeque.le_maybeRemoveKey _ _ hsd hr) (by ob) ?_
      rintro (⟨_ | ⟨_, _ | _⟩, _⟩ | _)
      · exact Le.pure (by ob) (by ob)
      · exact Le.pure (by ob) (by ob)
      · exact Le.liftBind (by ob) fun _ => Le.pure (by ob) (by ob)
      · exact Le.pure (by ob) (by ob)

theorem CostColl.box {C : Type} [TickColl C Hi T Lo V] (hC : CostColl w m C) : CostColl w m (Box C) := by
  constructor
  · exact fun h t => (Le.bind (q := fun _ => m) (Le.of_bill (hC.create h t)) (by omega) fun _ =>
      Le.pure (by omega) (by omega)).bill
  · intro x s d ht c h lv
    have := ht.le
    have := ht.xs
    refine Le.bind (hC.insertKey ht _ _ _) (by ob) ?_
    rintro ⟨_, _ | _⟩ <;> (exact Le.pure (by ob) (by ob))
  · intro s d c h r hsd hr
    refine Le.bind (hC.removeKey _ _ hsd hr) (by ob) ?_
    rintro ⟨_ | ⟨_, _ | _⟩, _⟩ <;> (exact Le.pure (by ob) (by ob))
  · intro s d c h r hsd hr
    refine Le.bind (hC.maybeRemoveKey _ _ hsd hr) (by ob) ?_
    rintro (⟨_ | ⟨_, _ | _⟩, _⟩ | _) <;> (exact Le.pure (by ob) (by ob))
end

namespace Tree
variable {w : Ev → Nat} {m : Nat} {K V S C Hi Lo T : Type} [LinearOrder K] [VebKey K Hi Lo] [VebKeyRef K Hi Lo]
  [TickTree S Hi Unit] [TickTree T Lo V] [TreeCollection C Hi T Lo V] [TickColl C Hi T Lo V] {x s d : Nat}

/-- What one level adds: one deep call, one that finds nothing, one for an extreme, and the work of `Tree` itself. -/
def deep (w : Ev → Nat) (x s d : Nat) : Nat :=
  w .visit + 3 * w .cmp + w .split + w .join + 2 * w .call + x + s + d

/-- spend what is logged next -/
macro "les" : tactic => `(tactic| repeat (first | refine Le.tickBind ?_ | refine Le.evBind ?_))

/-- compute a bound -/
macro "od" : tactic =>
  `(tactic| ((try dsimp only [deep, onNone, onGone, onGone', onLost, onLost', onNew, Option.map_none, Option.map_some,
    Option.isNone_none, Option.isNone_some]) <;> omega))

theorem le_insertBelow (hS : CostTree w m S x s d) (hT : CostTree w m T x s d) (hC : CostColl w m C) (min : K × V)
    (data : TreeData K V S C) (k : K) (v : V) :
    Le w (w .visit + 2 * w .cmp) (insertBelowT min data k v) (deep w x s d + m) (fun _ => deep w x s d + m) := by
  have := hS.le
  have := hS.xs
  have := hS.pos
  unfold insertBelowT
  dsimp only
  les
  rcases data.children with _ | ⟨su, c⟩
  · exact Le.bind (Le.of_bill (hT.fromMonad _ _)) (by od) fun _ => Le.evBind <| Le.bind (Le.of_bill (hC.create _ _)) (by od)
      fun _ => Le.bind (Le.of_bill (hS.fromMonad _ _)) (by od) fun _ => Le.pure (by od) (by od)
  · les
    refine Le.bind (hC.insertKey hT _ _ _) (by od) ?_
    rintro ⟨_, (_ | ⟨_, _ | _⟩)⟩
    · exact Le.bind (Le.of_bill (hS.insert _ _ _)) (by od) fun _ => Le.pure (by od) (by od)
    · exact Le.pure (by od) (by od)
    · exact Le.evBind (Le.pure (by od) (by od))

theorem le_insert (hS : CostTree w m S x s d) (hT : CostTree w m T x s d) (hC : CostColl w m C) (t : Tree K V S C)
    (k : K) (v : V) : Le w 0 (t.insertT k v) (deep w x s d + m) (fun _ => deep w x s d + m) := by
  have hb : ∀ (min : K × V) (data : TreeData K V S C) (k : K) (v : V),
      Le w (0 + w .visit + w .cmp + w .cmp) (insertBelowT min data k v) (deep w x s d + m) (fun _ => deep w x s d + m) :=
    fun min data k v => (le_insertBelow hS hT hC min data k v).shift (by omega) fun _ => by omega
  unfold insertT
  les
  cases cmp k t.min.1 <;> rcases t.data with _ | dt
  · exact Le.pure (by od) (by od)
  · dsimp only
    les
    cases cmp dt.max.1 t.min.1
    · exact hb _ _ _ _
    · exact Le.pure (by od) (by od)
    · exact hb _ _ _ _
  · exact Le.pure (by od) (by od)
  · exact Le.pure (by od) (by od)
  · exact Le.pure (by od) (by od)
  · dsimp only
    les
    cases cmp k dt.max.1
    · exact hb _ _ _ _
    · exact Le.pure (by od) (by od)
    · exact hb _ _ _ _

theorem le_removeMin (hS : CostTree w m S x s d) (hT : CostTree w m T x s d) (hC : CostColl w m C) (t : Tree K V S C) :
    Le w 0 t.removeMinT (deep w x s d - 2 * w .cmp) (onGone (w .visit) (deep w x s d - 2 * w .cmp)) := by
  have := hS.le
  have := hS.pos
  unfold removeMinT
  les
  rcases t.data with _ | ⟨m, _ | ⟨su, c⟩⟩
  · exact Le.pure (by od) (by od)
  · exact Le.pure (by od) (by od)
  refine Le.bind (Le.of_bill (hS.minVal _)) (by od) fun _ =>
    Le.evBind <| Le.bind (hC.removeKey _ _ hT.le fun t => hT.removeMin t) (by od) ?_
  rintro ⟨_ | ⟨c, _ | _⟩, lo, v⟩
  · exact Le.evBind <| Le.pureBind (Le.pure (by od) (by od))
  · exact Le.evBind <| Le.pureBind (Le.pure (by od) (by od))
  · refine Le.evBind <| Le.bind (n0 := d) (p := fun _ => d) ?_ (by od) fun _ => Le.pure (by od) (by od)
    exact Le.bind ((hS.removeMin _).weaken (q' := fun _ => d) (Nat.le_refl _) (by
      rintro ⟨_ | _, _⟩ <;> od)) (by od) fun _ => Le.liftBind (by od) fun _ => Le.pure (by od) (by od)

theorem le_removeMax (hS : CostTree w m S x s d) (hT : CostTree w m T x s d) (hC : CostColl w m C) (t : Tree K V S C) :
    Le w 0 t.removeMaxT (deep w x s d - 2 * w .cmp) (onGone (w .visit) (deep w x s d - 2 * w .cmp)) := by
  have := hS.le
  have := hS.pos
  unfold removeMaxT
  les
  rcases t.data with _ | ⟨m, _ | ⟨su, c⟩⟩
  · exact Le.pure (by od) (by od)
  · exact Le.pure (by od) (by od)
  refine Le.bind (Le.of_bill (hS.maxVal _)) (by od) fun _ =>
    Le.evBind <| Le.bind (hC.removeKey _ _ hT.le fun t => hT.removeMax t) (by od) ?_
  rintro ⟨_ | ⟨c, _ | _⟩, lo, v⟩
  · exact Le.evBind <| Le.pureBind (Le.pure (by od) (by od))
  · exact Le.evBind <| Le.pureBind (Le.pure (by od) (by od))
  · refine Le.evBind <| Le.bind (n0 := d) (p := fun _ => d) ?_ (by od) fun _ => Le.pure (by od) (by od)
    exact Le.bind ((hS.removeMax _).weaken (q' := fun _ => d) (Nat.le_refl _) (by
      rintro ⟨_ | _, _⟩ <;> od)) (by od) fun _ => Le.liftBind (by od) fun _ => Le.pure (by od) (by od)

theorem le_remove (hS : CostTree w m S x s d) (hT : CostTree w m T x s d) (hC : CostColl w m C) (t : Tree K V S C)
    (k : K) : Le w 0 (t.removeT k) (deep w x s d + w .visit)
      (onGone' (w .visit + w .cmp + w .visit) (deep w x s d + w .visit)) := by
  have := hS.le
  have := hS.pos
  unfold removeT
  les
  split
  · refine Le.bind (le_removeMin hS hT hC t) (by od) ?_
    rintro ⟨_ | _, _⟩
    · exact Le.pure (by od) (by od)
    · exact Le.pure (by od) (by od)
  rcases t.data with _ | ⟨m, _ | ⟨su, c⟩⟩
  · exact Le.pure (by od) (by od)
  · dsimp only
    les
    split <;> exact Le.pure (by od) (by od)
  dsimp only
  les
  split
  · refine Le.bind (Le.of_bill (hS.maxVal _)) (by od) fun _ =>
      Le.evBind <| Le.bind (hC.removeKey _ _ hT.le fun t => hT.removeMax t) (by od) ?_
    rintro ⟨_ | ⟨c, _ | _⟩, lo, v⟩
    · exact Le.evBind <| Le.pureBind (Le.pure (by od) (by od))
    · exact Le.evBind <| Le.pureBind (Le.pure (by od) (by od))
    · refine Le.evBind <| Le.bind (n0 := d) (p := fun _ => d) ?_ (by od) fun _ => Le.pure (by od) (by od)
      exact Le.bind ((hS.removeMax _).weaken (q' := fun _ => d) (Nat.le_refl _) (by
        rintro ⟨_ | _, _⟩ <;> od)) (by od) fun _ => Le.liftBind (by od) fun _ => Le.pure (by od) (by od)
  · les
    refine Le.bind (hC.maybeRemoveKey _ _ (Nat.add_le_add_right hT.le _) fun t => hT.remove t _) (by od) ?_
    rintro (⟨_ | ⟨c, _ | _⟩, lo, v⟩ | _)
    · exact Le.evBind <| Le.pure (by od) (by od)
    · exact Le.evBind <| Le.pure (by od) (by od)
    · refine Le.bind ((hS.remove _ _).weaken (q' := fun _ => d + w .visit) (Nat.le_refl _) ?_) (by od) ?_
      · rintro (⟨_ | _, _⟩ | _) <;> od
      · rintro (_ | _)
        · exact Le.pureBind (Le.liftBind (by od) fun _ => Le.evBind <| Le.pure (by od) (by od))
        · exact Le.liftBind (x := .error _) (by od) fun _ =>
            Le.liftBind (by od) fun _ => Le.evBind <| Le.pure (by od) (by od)
    · exact Le.pure (by od) (by od)

theorem le_find (hT : CostTree w m T x s d) (t : Tree K V S C) (k : K) :
    Le w 0 (t.findT k) (deep w x s d) (fun _ => deep w x s d) := by
  unfold findT
  les
  cases cmp k t.min.1
  · exact Le.pure (by od) (by od)
  · exact Le.pure (by od) (by od)
  rcases t.data with _ | ⟨m, dt⟩
  · exact Le.pure (by od) (by od)
  dsimp only
  les
  split
  · exact Le.pure (by od) (by od)
  rcases dt with _ | ⟨su, c⟩
  · exact Le.pure (by od) (by od)
  les
  refine Le.liftBind (by od) ?_
  rintro (_ | c)
  · exact Le.pure (by od) (by od)
  refine Le.bind (Le.of_bill (hT.find _ _)) (by od) ?_
  rintro (_ | c)
  · exact Le.pure (by od) (by od)
  · exact Le.evBind <| Le.pure (by od) (by od)

theorem le_findMut (hT : CostTree w m T x s d) (t : Tree K V S C) (k : K) :
    Le w 0 (t.findMutT k) (deep w x s d) (fun _ => deep w x s d) := by
  unfold findMutT
  les
  cases cmp k t.min.1
  · exact Le.pure (by od) (by od)
  · exact Le.pure (by od) (by od)
  rcases t.data with _ | ⟨m, dt⟩
  · exact Le.pure (by od) (by od)
  dsimp only
  les
  split
  · exact Le.pure (by od) (by od)
  rcases dt with _ | ⟨su, c⟩
  · exact Le.pure (by od) (by od)
  les
  refine Le.liftBind (by od) ?_
  rintro (_ | c)
  · exact Le.pure (by od) (by od)
  refine Le.bind (Le.of_bill (hT.findMut _ _)) (by od) ?_
  rintro (_ | c)
  · exact Le.pure (by od) (by od)
  · exact Le.evBind <| Le.pure (by od) (by od)

theorem le_predecessor (hS : CostTree w m S x s d) (hT : CostTree w m T x s d) (t : Tree K V S C) (k : K) :
    Le w 0 (t.predecessorT k) (deep w x s d) (onNone (w .visit + 2 * w .cmp) (deep w x s d)) := by
  have := hS.le
  have := hS.xs
  have := hS.pos
  unfold predecessorT
  les
  split
  · exact Le.pure (by od) (by od)
  rcases t.data with _ | ⟨m, dt⟩
  · exact Le.pure (by od) (by od)
  dsimp only
  les
  cases cmp k m.1 <;> rcases dt with _ | ⟨su, c⟩
  · exact Le.pure (by od) (by od)
  · les
    refine Le.bind (n0 := w .call + d) (p := onNone (w .call + s) (w .call + d)) ?_ (by od) ?_
    · les
      refine Le.liftBind (by od) ?_
      rintro (_ | c)
      · exact Le.pure (by od) (by od)
      · exact (hT.predecessor _ _).shift (by od) fun a => by cases a <;> od
    · rintro (_ | _)
      · refine Le.bind (hS.predecessor _ _) (by od) ?_
        rintro (_ | _)
        · exact Le.pure (by od) (by od)
        · exact Le.evBind <| Le.liftBind (by od) fun _ => Le.liftBind (by od) fun _ =>
            Le.bind (Le.of_bill (hT.maxVal _)) (by od) fun _ => Le.evBind <| Le.pure (by od) (by od)
      · exact Le.evBind <| Le.pure (by od) (by od)
  · exact Le.pure (by od) (by od)
  · exact Le.bind (Le.of_bill (hS.maxVal _)) (by od) fun _ => Le.evBind <| Le.liftBind (by od) fun _ =>
      Le.liftBind (by od) fun _ => Le.bind (Le.of_bill (hT.maxVal _)) (by od) fun _ =>
      Le.evBind <| Le.pure (by od) (by od)
  · exact Le.pure (by od) (by od)
  · exact Le.pure (by od) (by od)

theorem le_predecessorMut (hS : CostTree w m S x s d) (hT : CostTree w m T x s d) (t : Tree K V S C) (k : K) :
    Le w 0 (t.predecessorMutT k) (deep w x s d) (onNone (w .visit + 2 * w .cmp) (deep w x s d)) := by
  have := hS.le
  have := hS.xs
  have := hS.pos
  unfold predecessorMutT
  les
  split
  · exact Le.pure (by od) (by od)
  rcases t.data with _ | ⟨m, dt⟩
  · exact Le.pure (by od) (by od)
  dsimp only
  les
  cases cmp k m.1 <;> rcases dt with _ | ⟨su, c⟩
  · exact Le.pure (by od) (by od)
  · les
    refine Le.bind (n0 := w .call + d) (p := onNone (w .call + s) (w .call + d)) ?_ (by od) ?_
    · les
      refine Le.liftBind (by od) ?_
      rintro (_ | ⟨c, _⟩)
      · exact Le.pure (by od) (by od)
      · refine Le.bind (hT.predecessorMut _ _) (by od) ?_
        rintro (_ | _) <;> exact Le.pure (by od) (by od)
    · rintro (_ | _)
      · refine Le.bind (hS.predecessor _ _) (by od) ?_
        rintro (_ | _)
        · exact Le.pure (by od) (by od)
        · exact Le.evBind <| Le.liftBind (by od) fun _ => Le.liftBind (by od) fun _ =>
            Le.bind (Le.of_bill (hT.maxValMut _)) (by od) fun _ => Le.evBind <| Le.pure (by od) (by od)
      · exact Le.evBind <| Le.pure (by od) (by od)
  · exact Le.pure (by od) (by od)
  · exact Le.evBind <| Le.liftBind (by od) fun _ => Le.bind (Le.of_bill (hS.maxVal _)) (by od) fun _ =>
      Le.evBind <| Le.liftBind (by od) fun _ =>
      Le.liftBind (by od) fun _ => Le.bind (Le.of_bill (hT.maxValMut _)) (by od) fun _ =>
      Le.evBind <| Le.pure (by od) (by od)
  · exact Le.pure (by od) (by od)
  · exact Le.pure (by od) (by od)

theorem le_successor (hS : CostTree w m S x s d) (hT : CostTree w m T x s d) (t : Tree K V S C) (k : K) :
    Le w 0 (t.successorT k) (deep w x s d) (onNone (w .visit + 2 * w .cmp) (deep w x s d)) := by
  have := hS.le
  have := hS.xs
  have := hS.pos
  unfold successorT
  les
  split
  · exact Le.pure (by od) (by od)
  rcases t.data with _ | ⟨m, dt⟩
  · exact Le.pure (by od) (by od)
  dsimp only
  les
  split
  · exact Le.pure (by od) (by od)
  rcases dt with _ | ⟨su, c⟩
  · exact Le.pure (by od) (by od)
  dsimp only
  les
  split
  · exact Le.bind (Le.of_bill (hS.minVal _)) (by od) fun _ => Le.evBind <| Le.liftBind (by od) fun _ =>
      Le.liftBind (by od) fun _ => Le.bind (Le.of_bill (hT.minVal _)) (by od) fun _ =>
      Le.evBind <| Le.pure (by od) (by od)
  · les
    refine Le.bind (n0 := w .call + d) (p := onNone (w .call + s) (w .call + d)) ?_ (by od) ?_
    · les
      refine Le.liftBind (by od) ?_
      rintro (_ | c)
      · exact Le.pure (by od) (by od)
      · exact (hT.successor _ _).shift (by od) fun a => by cases a <;> od
    · rintro (_ | _)
      · refine Le.bind (hS.successor _ _) (by od) ?_
        rintro (_ | _)
        · exact Le.pure (by od) (by od)
        · exact Le.evBind <| Le.liftBind (by od) fun _ => Le.liftBind (by od) fun _ =>
            Le.bind (Le.of_bill (hT.minVal _)) (by od) fun _ => Le.evBind <| Le.pure (by od) (by od)
      · exact Le.evBind <| Le.pure (by od) (by od)

theorem le_successorMut (hS : CostTree w m S x s d) (hT : CostTree w m T x s d) (t : Tree K V S C) (k : K) :
    Le w 0 (t.successorMutT k) (deep w x s d) (onNone (w .visit + 2 * w .cmp) (deep w x s d)) := by
  have := hS.le
  have := hS.xs
  have := hS.pos
  unfold successorMutT
  les
  split
  · exact Le.pure (by od) (by od)
  rcases t.data with _ | ⟨m, dt⟩
  · exact Le.pure (by od) (by od)
  dsimp only
  les
  split
  · exact Le.pure (by od) (by od)
  rcases dt with _ | ⟨su, c⟩
  · exact Le.pure (by od) (by od)
  dsimp only
  les
  split
  · exact Le.bind (Le.of_bill (hS.minVal _)) (by od) fun _ => Le.evBind <| Le.liftBind (by od) fun _ =>
      Le.liftBind (by od) fun _ => Le.bind (Le.of_bill (hT.minValMut _)) (by od) fun _ =>
      Le.evBind <| Le.pure (by od) (by od)
  · les
    refine Le.bind (n0 := w .call + d) (p := onNone (w .call + s) (w .call + d)) ?_ (by od) ?_
    · les
      refine Le.liftBind (by od) ?_
      rintro (_ | ⟨c, _⟩)
      · exact Le.pure (by od) (by od)
      · refine Le.bind (hT.successorMut _ _) (by od) ?_
        rintro (_ | _) <;> exact Le.pure (by od) (by od)
    · rintro (_ | _)
      · refine Le.bind (hS.successor _ _) (by od) ?_
        rintro (_ | _)
        · exact Le.pure (by od) (by od)
        · exact Le.evBind <| Le.liftBind (by od) fun _ => Le.liftBind (by od) fun _ =>
            Le.bind (Le.of_bill (hT.minValMut _)) (by od) fun _ => Le.evBind <| Le.pure (by od) (by od)
      · exact Le.evBind <| Le.pure (by od) (by od)

/-- One deep recursion per level, and two shallow calls. -/
theorem cost (hS : CostTree w m S x s d) (hT : CostTree w m T x s d) (hC : CostColl w m C) :
    CostTree w m (Tree K V S C) (w .visit) (w .visit + 2 * w .cmp) (deep w x s d) where
  pos := Nat.le_refl _
  xs := by omega
  le := by have := hS.xs; have := hS.pos; unfold deep; omega
  fromMonad _ _ := Nat.le_refl _
  isMonad _ := Nat.le_refl _
  lenHint t := by rcases t with ⟨_, _ | _⟩ <;> exact Nat.le_refl _
  intoMonad t := by rcases t with ⟨_, _ | _⟩ <;> exact Nat.le_refl _
  minVal _ := Nat.le_refl _
  minValMut _ := Nat.le_refl _
  maxVal t := by rcases t with ⟨_, _ | _⟩ <;> exact Nat.le_refl _
  maxValMut t := by rcases t with ⟨_, _ | _⟩ <;> exact Nat.le_refl _
  find t k := (le_find hT t k).bill
  findMut t k := (le_findMut hT t k).bill
  predecessor := le_predecessor hS hT
  predecessorMut := le_predecessorMut hS hT
  successor := le_successor hS hT
  successorMut := le_successorMut hS hT
  insert t k v := (le_insert hS hT hC t k v).bill
  remove t k := (le_remove hS hT hC t k).weaken (Nat.le_refl _) (onGone'_mono (by omega) (Nat.le_refl _))
  removeMin t := (le_removeMin hS hT hC t).weaken (by omega) (onGone_mono (by omega) (by omega))
  removeMax t := (le_removeMax hS hT hC t).weaken (by omega) (onGone_mono (by omega) (by omega))

end Tree

theorem NestedColl.cost {w : Ev → Nat} {m N : Nat} (hm : ∀ k ≤ N, w (.make k) ≤ m) {C Hi T Lo V : Type} [VebTree T Lo V]
    [TickTree T Lo V] [TreeCollection C Hi T Lo V] [TickColl C Hi T Lo V] (h : NestedColl N C Hi T Lo V) :
    CostColl w m C := by
  induction h with
  | array h => exact .array (hm _ h)
  | hash => exact .hash (hm _ (Nat.zero_le _))
  | byte => exact .byte (hm _ (Nat.zero_le _))
  | box _ ih => exact ih.box

theorem Nested.cost {w : Ev → Nat} {m N : Nat} (hm : ∀ k ≤ N, w (.make k) ≤ m) {b : Nat} {T K V : Type} [VebTree T K V]
    [TickTree T K V] {n r : Nat} (h : Nested b N T K V n r) :
    CostTree w m T ((1 + r) * w .visit) ((1 + r) * w .visit + min n 1 * (2 * w .cmp))
      ((1 + r) * w .visit + n * (3 * ((b + 1) * w .visit) + w .split + w .join + 2 * w .call) +
        (5 * n - 2) * w .cmp) := by
  induction h with
  | byteSet =>
    rw [show min 0 1 = 0 from rfl]
    exact (CostTree.ofLeaf w m ByteSet).mono (by omega) (by omega) (by omega) (by omega) (by omega)
  | byteMap =>
    rw [show min 0 1 = 0 from rfl]
    exact (CostTree.ofLeaf w m (ByteMap _)).mono (by omega) (by omega) (by omega) (by omega) (by omega)
  | btreeMap =>
    rw [show min 0 1 = 0 from rfl]
    exact (CostTree.ofLeaf w m (BTreeMap _ _)).mono (by omega) (by omega) (by omega) (by omega) (by omega)
  | @box _ _ _ _ _ _ r _ ih =>
    have e : (1 + (r + 1)) * w .visit = (1 + r) * w .visit + w .visit := Nat.succ_mul (1 + r) _
    have := ih.xs
    have := ih.le
    rw [e]
    exact ih.box.mono (by omega) (by omega) (by omega) (by omega) (by omega)
  | @sized _ _ _ _ _ _ r _ ih =>
    have e : (1 + (r + 1)) * w .visit = (1 + r) * w .visit + w .visit := Nat.succ_mul (1 + r) _
    have := ih.xs
    have := ih.le
    rw [e]
    exact ih.sized.mono (by omega) (by omega) (by omega) (by omega) (by omega)
  | @tree _ _ S _ _ _ T _ _ _ _ _ _ _ _ _ n nS nT rS rT hs ht hc hnS hnT hrS hrT ihS ihT =>
    generalize hL : 3 * ((b + 1) * w .visit) + w .split + w .join + 2 * w .call = L at ihS ihT ⊢
    have up : ∀ {k r : Nat}, k ≤ n → r ≤ b →
        (1 + r) * w .visit ≤ (b + 1) * w .visit ∧ min k 1 * (2 * w .cmp) ≤ min n 1 * (2 * w .cmp) ∧
        k * L ≤ n * L ∧ (5 * k - 2) * w .cmp ≤ (5 * n - 2) * w .cmp := fun h h' =>
      ⟨Nat.mul_le_mul_right _ (by omega), Nat.mul_le_mul_right _ (by omega), Nat.mul_le_mul_right _ h,
        Nat.mul_le_mul_right _ (by omega)⟩
    obtain ⟨a1, a2, a3, a4⟩ := up hnS hrS
    obtain ⟨b1, b2, b3, b4⟩ := up hnT hrT
    have z : min n 1 * (2 * w .cmp) ≤ (5 * n - 2) * w .cmp := by
      rw [← Nat.mul_assoc]; exact Nat.mul_le_mul_right _ (by omega)
    have hS : CostTree w m S ((b + 1) * w .visit) ((b + 1) * w .visit + min n 1 * (2 * w .cmp))
        ((b + 1) * w .visit + n * L + (5 * n - 2) * w .cmp) :=
      ihS.mono a1 (by omega) (by omega) (by omega) (by omega)
    have hT : CostTree w m T ((b + 1) * w .visit) ((b + 1) * w .visit + min n 1 * (2 * w .cmp))
        ((b + 1) * w .visit + n * L + (5 * n - 2) * w .cmp) :=
      ihT.mono b1 (by omega) (by omega) (by omega) (by omega)
    have c1 : min (n + 1) 1 * (2 * w .cmp) = 2 * w .cmp := by
      rw [Nat.min_eq_right (by omega), Nat.one_mul]
    have c2 : (n + 1) * L = n * L + L := Nat.succ_mul _ _
    have c3 : (5 * (n + 1) - 2) * w .cmp = (5 * n - 2) * w .cmp + min n 1 * (2 * w .cmp) + 3 * w .cmp := by
      rw [← Nat.mul_assoc, ← Nat.add_mul, ← Nat.add_mul]
      congr 1
      omega
    have c4 : (1 + 0) * w .visit = w .visit := Nat.one_mul _
    have := hS.pos
    rw [c1, c2, c3, c4]
    exact (Tree.cost hS hT (hc.cost hm)).mono (by omega) (by omega) (by unfold Tree.deep; omega) (by omega) (by omega)

theorem NestedColl.er {N : Nat} {C Hi T Lo V : Type} [VebTree T Lo V] [TickTree T Lo V] [TreeCollection C Hi T Lo V]
    [TickColl C Hi T Lo V] (h : NestedColl N C Hi T Lo V) (hT : ErTree T) : ErColl C := by
  induction h with
  | array => infer_instance
  | hash => infer_instance
  | byte => infer_instance
  | box _ ih => have := ih hT; infer_instance

theorem Nested.er {b N : Nat} {T K V : Type} [VebTree T K V] [TickTree T K V] {n r : Nat} (h : Nested b N T K V n r) :
    ErTree T := by
  induction h with
  | byteSet => infer_instance
  | byteMap => infer_instance
  | btreeMap => infer_instance
  | box _ ih => infer_instance
  | sized _ ih => infer_instance
  | tree _ _ hc _ _ _ _ ihS ihT => have := hc.er ihT; infer_instance

theorem CostsAtMost.op {w : Ev → Nat} {T K V : Type} [VebTree T K V] [TickTree T K V] {s d m : Nat}
    (H : CostsAtMost w T s d m) (hs : s ≤ d) (t : Option T) (op : Op K V) : opCost w t op ≤ d + w .visit + m := by
  obtain _ | t := t
  · cases op with
    | insert k v => have := H.fromMonad k v; simp only [opCost]; omega
    | _ => exact Nat.zero_le _
  · cases op with
    | insert k v => have := H.insert t k v; simp only [opCost]; omega
    | remove k => have := H.remove t k; simp only [opCost]; omega
    | removeMin => have := H.removeMin t; simp only [opCost]; omega
    | removeMax => have := H.removeMax t; simp only [opCost]; omega
    | find k => have := H.find t k; simp only [opCost]; omega
    | predecessor k => have := H.predecessor t k; simp only [opCost]; omega
    | successor k => have := H.successor t k; simp only [opCost]; omega
    | minVal => have := H.minVal t; simp only [opCost]; omega
    | maxVal => have := H.maxVal t; simp only [opCost]; omega
    | isMonad => have := H.isMonad t; simp only [opCost]; omega
    | intoMonad => have := H.intoMonad t; simp only [opCost]; omega
    | findSet k w => have := H.findMut t k; simp only [opCost]; omega
    | predecessorSet k w => have := H.predecessorMut t k; simp only [opCost]; omega
    | successorSet k w => have := H.successorMut t k; simp only [opCost]; omega
    | minSet w => have := H.minValMut t; simp only [opCost]; omega
    | maxSet w => have := H.maxValMut t; simp only [opCost]; omega

theorem CostsAtMost.total {w : Ev → Nat} {T K V : Type} [VebTree T K V] [TickTree T K V] {s d m : Nat}
    (H : CostsAtMost w T s d m) (hs : s ≤ d) (ops : List (Op K V)) (t : Option T) :
    totalCost w t ops ≤ ops.length * (d + w .visit + m) := by
  induction ops generalizing t with
  | nil => exact Nat.zero_le _
  | cons op ops ih =>
    have h3 := H.op hs t op
    rw [List.length_cons, Nat.succ_mul]
    show opCost w t op + _ ≤ _
    cases Exec.step t op with
    | error e => dsimp only; omega
    | ok r => have := ih r.1; dsimp only; omega

end Veb
