import Verif.Proof.OpenColl
import Verif.Props.Same

/-!
# C51: parts that answer alike can be exchanged, also parts that the crate does not know

C17 and C46 are about trees put together from the types of the crate.  `Tree` is generic, so a user may supply a
summary, a collection and child trees of their own.  What matters about them is only what they answer: not how they are
represented, not whether a failing `remove` gives back an identical tree, not the message of a panic.
-/

set_option autoImplicit false

namespace Veb.Props

variable {T T' T'' K V : Type} [VebTree T K V] [VebTree T' K V] [VebTree T'' K V]

/-! ## Answering alike is an equivalence … -/

theorem C51_refl : AnswerAlike T T := fun ops => (Rx.refl (outputs T ops)).agree
theorem C51_symm (h : AnswerAlike T T') : AnswerAlike T' T := fun ops =>
  ((Rx.of_agree (h ops)).symm.mono fun _ _ e => e.symm).agree
theorem C51_trans (h : AnswerAlike T T') (h' : AnswerAlike T' T'') : AnswerAlike T T'' := fun ops =>
  ((Rx.of_agree (h ops)).trans (Rx.of_agree (h' ops)) |>.mono
    (by rintro a b ⟨c, e1, e2⟩; exact e2.trans e1)).agree

/-! ## … kept by everything the crate builds from a tree type -/

/-- **C51, `Box`.** A boxed tree answers as the tree does. -/
theorem C51_box : AnswerAlike (Box T) T := (Box.sameL (C51_refl (T := T)).same).alike

/-- **C51, `SizedVebTree`.** -/
theorem C51_sized (h : AnswerAlike T T') : AnswerAlike (SizedVebTree T) (SizedVebTree T') :=
  (SizedVebTree.same h.same).alike

/-- **C51, `Tree`.** Exchange the summary and the children of a `Tree` for types that answer alike, and the collection
for any that answers as a collection: the two `Tree`s answer alike, on every history. -/
theorem C51_tree {K V S C Hi Lo T S' C' T' : Type} [LinearOrder K] [LinearOrder Hi] [VebKey K Hi Lo] [VebKeyRef K Hi Lo]
    [VebTree S Hi Unit] [VebTree T Lo V] [TreeCollection C Hi T Lo V] [VebTree S' Hi Unit] [VebTree T' Lo V]
    [TreeCollection C' Hi T' Lo V] (hs : AnswerAlike S S') (ht : AnswerAlike T T') (hc : AnswersAsColl C (T := T))
    (hc' : AnswersAsColl C' (T := T')) : AnswerAlike (Tree K V S C) (Tree K V S' C') := by
  have L : LawfulColl (HashMap Hi T) Hi T Lo V := inferInstance
  have L' : LawfulColl (HashMap Hi T') Hi T' Lo V := inferInstance
  have h := SameColl.comp (hc.alike L.answers).exact (CollX.same L L' Function.injective_id ht.same)
    (L'.answers.alike hc').exact
  exact (Tree.same strictMono_id ⟨fun _ => rfl, fun _ => rfl, fun _ _ => rfl⟩ hs.same ht.same h).alike

/-- **C51, iterators.** Iterators over trees that answer alike return the same items, however they are advanced. -/
theorem C51_iter [LinearOrder K] (h : AnswerAlike T T') (ops : List (Op K V)) (ss : List Side) :
    Agree (fun os os' => os' = os) (itemsAfter T ops ss) (itemsAfter T' ops ss) := by
  have hS := h.same
  have h0 := hS.run ops (t := none) (t' := none) .none
  rw [show ops.map (Op.rename id id) = ops from List.map_id'' rename_ident ops] at h0
  refine Rx.agree (h0.bind ?_)
  rintro ⟨t, os⟩ ⟨t', _⟩ ⟨ht, rfl⟩
  cases ht with
  | none => exact .ok rfl
  | some ht =>
    refine (hS.calls Function.injective_id ss (a := Iter.new _) (b := Iter.new _) ⟨ht, rfl, rfl⟩).bind fun a b hab => .ok ?_
    show b.2 = a.2
    rw [hab.2]
    exact List.map_id'' (fun o => by cases o <;> rfl) _

/-- **C51, methods.** Trees left by the same history agree method by method: both panic or both return the same,
`is_monad`, `min_val`, `max_val`, `find`, `predecessor` and `successor`. -/
theorem C51_methods (h : AnswerAlike T T') (ops : List (Op K V)) (t : T) (t' : T') (ht : Reaches ops t) (ht' : Reaches ops t') :
    Agree (fun a b => b = a) (VebTree.isMonad t) (VebTree.isMonad t') ∧
    Agree (fun a b => b = a) (VebTree.minVal t) (VebTree.minVal t') ∧
    Agree (fun a b => b = a) (VebTree.maxVal t) (VebTree.maxVal t') ∧
    (∀ k, Agree (fun a b => b = a) (VebTree.find t k) (VebTree.find t' k)) ∧
    (∀ k, Agree (fun a b => b = a) (VebTree.predecessor t k) (VebTree.predecessor t' k)) ∧
    ∀ k, Agree (fun a b => b = a) (VebTree.successor t k) (VebTree.successor t' k) := by
  have hS := h.same
  have hT : Together t t' := by
    obtain ⟨os, e⟩ := ht
    obtain ⟨os', e'⟩ := ht'
    exact ⟨ops, os, os', e, e'⟩
  have ho : ∀ (a b : Option (K × V)), OptX id id a b → b = a := fun a b e => by rw [e]; cases a <;> rfl
  exact ⟨(hS.isMonad hT).agree, ((hS.minVal hT).mono fun _ _ e => e).agree, ((hS.maxVal hT).mono fun _ _ e => e).agree,
    fun k => ((hS.find hT k).mono ho).agree, fun k => ((hS.predecessor hT k).mono ho).agree,
    fun k => ((hS.successor hT k).mono ho).agree⟩

/-! ## What the crate's types satisfy -/

/-- **C51, collections.** Every collection of the crate answers as a collection. -/
theorem C51_crate_coll {C Hi T Lo V : Type} [LinearOrder Hi] [VebTree T Lo V] [TreeCollection C Hi T Lo V]
    (h : CrateColl C Hi T Lo V) : AnswersAsColl C (T := T) := by
  obtain ⟨L⟩ := h.lawful
  exact L.answers

/-- **C51, transfer.** A type that answers as some tree type does is an ordered map on the histories on which that type
is. -/
theorem C51_transfer [LinearOrder K] (h : AnswerAlike T T') {ops : List (Op K V)} (h' : RunsLikeMap T' ops) :
    RunsLikeMap T ops := by
  have h0 := h.same.run ops (t := none) (t' := none) .none
  rw [show ops.map (Op.rename id id) = ops from List.map_id'' rename_ident ops] at h0
  obtain ⟨u, e, hu⟩ := h'
  rw [e] at h0
  cases hx : Exec.run (none : Option T) ops with
  | error x => rw [hx] at h0; cases h0
  | ok a =>
    rw [hx] at h0
    cases h0 with
    | ok h0 =>
    obtain ⟨t, os⟩ := a
    obtain ⟨h1, h2⟩ := h0
    rw [List.map_id'' out_rename_ident] at h2
    dsimp only at h1 h2
    refine ⟨t, by rw [hx, h2], ?_⟩
    rw [← hu]
    cases h1 <;> simp

/-- **C51, leaves.** To be an ordered map on every history is to answer as the crate's `BTreeMap`. -/
theorem C51_leaf [LinearOrder K] : (∀ ops : List (Op K V), RunsLikeMap T ops) ↔ AnswerAlike T (BTreeMap K V) := by
  constructor
  · intro h ops
    obtain ⟨t, e, -⟩ := h ops
    obtain ⟨t', e', -⟩ := C11_btreeMap_history K V ops
    exact .inl ⟨_, _, by rw [outputs, e]; rfl, by rw [outputs, e']; rfl, rfl⟩
  · exact fun h ops => C51_transfer h (C11_btreeMap_history K V ops)

/-! ## Trees made from parts of the user -/

/-- **C51.** A `Tree` with a summary and children that are ordered maps by whatever means, and with a collection that is
one by whatever means, is an ordered map on every history whose insertions do not meet the defect of `Tree::insert`
(in this tree: there is no other `Tree` below it that is known to have it). -/
theorem C51_user_parts {K V S C Hi Lo T : Type} [LinearOrder K] [LinearOrder Hi] [LinearOrder Lo] [VebKey K Hi Lo]
    [VebKeyRef K Hi Lo] [VebTree S Hi Unit] [VebTree T Lo V] [TreeCollection C Hi T Lo V] (hk : GoodKey K Hi Lo)
    (hs : ∀ ops : List (Op Hi Unit), RunsLikeMap S ops) (ht : ∀ ops : List (Op Lo V), RunsLikeMap T ops)
    (hc : AnswersAsColl C (T := T)) (ops : List (Op K V)) (hsafe : SL.SafeHist (Tree.Safe always always) [] ops) :
    RunsLikeMap (Tree K V S C) ops :=
  C51_transfer (C51_tree (C51_leaf.1 hs) (C51_leaf.1 ht) hc (C51_crate_coll (.hash (T := BTreeMap Lo V))))
    (C17_history_partial (.tree hk .btreeMap .btreeMap .hash) ops hsafe)

/-- **C51, no panic.** Such a tree never panics, on any history. -/
theorem C51_user_parts_no_panic {K V S C Hi Lo T : Type} [LinearOrder K] [LinearOrder Hi] [LinearOrder Lo] [VebKey K Hi Lo]
    [VebKeyRef K Hi Lo] [VebTree S Hi Unit] [VebTree T Lo V] [TreeCollection C Hi T Lo V] (hk : GoodKey K Hi Lo)
    (hs : ∀ ops : List (Op Hi Unit), RunsLikeMap S ops) (ht : ∀ ops : List (Op Lo V), RunsLikeMap T ops)
    (hc : AnswersAsColl C (T := T)) (ops : List (Op K V)) : NeverPanics (Tree K V S C) ops := by
  have h := C51_tree (K := K) (V := V) (C := C) (C51_leaf.1 hs) (C51_leaf.1 ht) hc
    (C51_crate_coll (.hash (Hi := Hi) (T := BTreeMap Lo V))) ops
  obtain ⟨r, hr⟩ := C25_no_panic_uncounted_partial (T := Tree K V (BTreeMap Hi Unit) (HashMap Hi (BTreeMap Lo V)))
    (.tree hk .btreeMap .btreeMap .hash) ops
  cases hx : Exec.run (none : Option (Tree K V S C)) ops with
  | ok r' => exact ⟨r', hx⟩
  | error e =>
    rw [outputs, outputs, hx, hr] at h
    rcases h with ⟨_, _, e, -, -⟩ | ⟨_, _, -, e⟩ <;> cases e

/-- **C51, nested.** The parts may also be types that answer as tree types of the crate do, with the restrictions these
have. -/
theorem C51_nested {K V S C Hi Lo T S' T' : Type} [LinearOrder K] [LinearOrder Hi] [LinearOrder Lo] [VebKey K Hi Lo]
    [VebKeyRef K Hi Lo] [VebTree S Hi Unit] [VebTree T Lo V] [TreeCollection C Hi T Lo V] [VebTree S' Hi Unit]
    [VebTree T' Lo V] {safeS : (Hi → Prop) → Hi → Prop} {safeT : (Lo → Prop) → Lo → Prop} (hk : GoodKey K Hi Lo)
    (hs : AnswerAlike S S') (hs' : CrateTree S' Hi Unit safeS) (ht : AnswerAlike T T') (ht' : CrateTree T' Lo V safeT)
    (hc : AnswersAsColl C (T := T)) (ops : List (Op K V)) (hsafe : SL.SafeHist (Tree.Safe safeS safeT) [] ops) :
    RunsLikeMap (Tree K V S C) ops :=
  C51_transfer (C51_tree hs ht hc (C51_crate_coll (.hash (T := T'))))
    (C17_history_partial (.tree hk hs' ht' .hash) ops hsafe)

/-! ## Not vacuous: a leaf written by a user -/

/-- A leaf that the crate does not know: a sorted list, with a counter of the calls that found nothing to take out.
Its `remove` and `into_monad` do not give back an identical tree when they fail. -/
structure Tally (K V : Type) where
  list : SL K V
  misses : Nat

namespace Tally
variable {K V : Type} [LinearOrder K]

def left (t : Tally K V) (l : SL K V) : Option (Tally K V) := if l = [] then none else some { t with list := l }
def write (t : Tally K V) (e : K × V) : K × V × (V → Tally K V) := (e.1, e.2, fun w => { t with list := SL.set t.list e.1 w })

instance : VebTree (Tally K V) K V where
  fromMonad k v := ⟨[(k, v)], 0⟩
  isMonad t := pure (t.list.length == 1)
  lenHint t := pure (t.list.length, none)
  intoMonad t := if t.list.length = 1 then do pure (.Ok (← expect "empty" t.list.head?)) else pure (.Err ⟨t.list, t.misses + 1⟩)
  minVal t := expect "empty" (SL.minE t.list)
  minValMut t := do pure (write t (← expect "empty" (SL.minE t.list)))
  maxVal t := expect "empty" (SL.maxE t.list)
  maxValMut t := do pure (write t (← expect "empty" (SL.maxE t.list)))
  find t k := pure (SL.find t.list k)
  findMut t k := pure ((SL.find t.list k).map (write t))
  predecessor t k := pure (SL.pred t.list k)
  predecessorMut t k := pure ((SL.pred t.list k).map (write t))
  successor t k := pure (SL.succ t.list k)
  successorMut t k := pure ((SL.succ t.list k).map (write t))
  insert t k v := pure ({ t with list := SL.insert t.list k v }, SL.find t.list k)
  remove t k := pure (match SL.find t.list k with
    | none => .Err ⟨t.list, t.misses + 1⟩
    | some e => .Ok (t.left (SL.erase t.list k), e))
  removeMin t := do pure (t.left t.list.tail, ← expect "empty" (SL.minE t.list))
  removeMax t := do pure (t.left t.list.dropLast, ← expect "empty" (SL.maxE t.list))

/-- an optional `Tally` and the entries it should hold -/
def Rep : Option (Tally K V) → SL K V → Prop
  | none, l => l = []
  | some t, l => t.list = l ∧ l ≠ []

theorem rep_left (t : Tally K V) (l : SL K V) : Rep (t.left l) l := by
  unfold left
  split
  · assumption
  · exact ⟨rfl, by assumption⟩

theorem rep_write {t : Tally K V} (h : t.list ≠ []) (e : Option (K × V)) (w : V) :
    Rep (Exec.writeOpt t w (e.map (write t))).1 (SL.setAt t.list e w) ∧
      (Exec.writeOpt t w (e.map (write t))).2 = .kv e := by
  cases e with
  | none => exact ⟨⟨rfl, h⟩, rfl⟩
  | some e => exact ⟨⟨rfl, by simp [SL.setAt, SL.set, h]⟩, rfl⟩

theorem step_rep {t : Option (Tally K V)} {l : SL K V} (h : Rep t l) (op : Op K V) :
    ∃ t', Exec.step t op = .ok (t', (SL.step l op).2) ∧ Rep t' (SL.step l op).1 := by
  cases t with
  | none =>
    have h : l = [] := h
    subst h
    cases op with
    | insert k v => exact ⟨_, rfl, ⟨rfl, by simp [SL.step, SL.insert]⟩⟩
    | _ => exact ⟨none, rfl, rfl⟩
  | some t =>
    obtain ⟨rfl, hne⟩ := h
    obtain ⟨a, ha⟩ : ∃ a, t.list.head? = some a := by
      cases hl : t.list with
      | nil => exact absurd hl hne
      | cons a _ => exact ⟨a, rfl⟩
    obtain ⟨z, hz⟩ : ∃ z, t.list.getLast? = some z := ⟨_, List.getLast?_eq_some_getLast hne⟩
    cases op with
    | insert k v => exact ⟨_, rfl, ⟨rfl, by simp [SL.step, SL.insert]⟩⟩
    | remove k =>
      simp only [Exec.step, Exec.stepTree, SL.step, VebTree.remove]
      cases hf : SL.find t.list k with
      | none =>
        refine ⟨_, rfl, ?_⟩
        have : SL.erase t.list k = t.list := by
          rw [SL.erase, List.filter_eq_self]
          intro p hp
          simp only [SL.find, List.find?_eq_none] at hf
          simpa using hf p hp
        rw [this]
        exact ⟨rfl, hne⟩
      | some e => exact ⟨_, rfl, rep_left _ _⟩
    | removeMin => exact ⟨t.left t.list.tail, by simp only [Exec.step, Exec.stepTree, VebTree.removeMin, SL.minE, SL.step, ha]; rfl, rep_left _ _⟩
    | removeMax => exact ⟨t.left t.list.dropLast, by simp only [Exec.step, Exec.stepTree, VebTree.removeMax, SL.maxE, SL.step, hz]; rfl, rep_left _ _⟩
    | find k => exact ⟨_, rfl, ⟨rfl, hne⟩⟩
    | predecessor k => exact ⟨_, rfl, ⟨rfl, hne⟩⟩
    | successor k => exact ⟨_, rfl, ⟨rfl, hne⟩⟩
    | minVal => exact ⟨some t, by simp only [Exec.step, Exec.stepTree, VebTree.minVal, SL.minE, SL.step, ha]; rfl, ⟨rfl, hne⟩⟩
    | maxVal => exact ⟨some t, by simp only [Exec.step, Exec.stepTree, VebTree.maxVal, SL.maxE, SL.step, hz]; rfl, ⟨rfl, hne⟩⟩
    | isMonad => exact ⟨_, rfl, ⟨rfl, hne⟩⟩
    | intoMonad =>
      simp only [Exec.step, Exec.stepTree, VebTree.intoMonad, SL.step]
      by_cases h1 : t.list.length = 1
      · simp only [h1, if_true, ha]; exact ⟨none, rfl, rfl⟩
      · simp only [h1, if_false]; exact ⟨_, rfl, ⟨rfl, hne⟩⟩
    | findSet k w => exact ⟨_, congrArg (fun o => Except.ok (_, o)) (rep_write hne _ w).2, (rep_write hne _ w).1⟩
    | predecessorSet k w => exact ⟨_, congrArg (fun o => Except.ok (_, o)) (rep_write hne _ w).2, (rep_write hne _ w).1⟩
    | successorSet k w => exact ⟨_, congrArg (fun o => Except.ok (_, o)) (rep_write hne _ w).2, (rep_write hne _ w).1⟩
    | minSet w =>
      refine ⟨some (write t a |>.2.2 w), ?_, ?_⟩
      · simp only [Exec.step, Exec.stepTree, VebTree.minValMut, SL.minE, SL.step, ha]; rfl
      · simp only [SL.step, SL.minE, ha]; exact (rep_write hne (some a) w).1
    | maxSet w =>
      refine ⟨some (write t z |>.2.2 w), ?_, ?_⟩
      · simp only [Exec.step, Exec.stepTree, VebTree.maxValMut, SL.maxE, SL.step, hz]; rfl
      · simp only [SL.step, SL.maxE, hz]; exact (rep_write hne (some z) w).1

theorem run_rep (ops : List (Op K V)) {t : Option (Tally K V)} {l : SL K V} (h : Rep t l) :
    ∃ t', Exec.run t ops = .ok (t', (SL.run l ops).2) ∧ Rep t' (SL.run l ops).1 := by
  induction ops generalizing t l with
  | nil => exact ⟨t, rfl, h⟩
  | cons op ops ih =>
    obtain ⟨u, e, hu⟩ := step_rep h op
    obtain ⟨u', e', hu'⟩ := ih hu
    refine ⟨u', ?_, hu'⟩
    simp only [Exec.run, e, R.ok_bind, e']
    rfl

/-- `Tally` is an ordered map on every history. -/
theorem runs (ops : List (Op K V)) : RunsLikeMap (Tally K V) ops := by
  obtain ⟨t, e, h⟩ := run_rep ops (t := none) (l := []) rfl
  refine ⟨t, e, ?_⟩
  cases t with
  | none => exact ⟨fun _ => h, fun _ => rfl⟩
  | some t => exact ⟨fun e => (by cases e), fun e => absurd e h.2⟩

end Tally

/-- A collection that the crate does not know: a hash map with a counter of the `maybe_remove_key` calls that took
nothing out. -/
structure Watched (Hi T : Type) where
  map : HashMap Hi T
  misses : Nat

namespace Watched
variable {Hi T Lo V : Type} [LinearOrder Hi] [VebTree T Lo V]

def after (n : Nat) : Option (HashMap Hi T × Bool) × (Lo × V) → Option (Watched Hi T × Bool) × (Lo × V)
  | (o, val) => (o.map fun p => (⟨p.1, n⟩, p.2), val)
def afterMaybe (n : Nat) : Result (Option (HashMap Hi T × Bool) × (Lo × V)) (HashMap Hi T) →
    Result (Option (Watched Hi T × Bool) × (Lo × V)) (Watched Hi T)
  | .Ok r => .Ok (after n r)
  | .Err m => .Err ⟨m, n + 1⟩

instance : TreeCollection (Watched Hi T) Hi T Lo V where
  create h t := do pure ⟨← TreeCollection.create h t, 0⟩
  get c h := TreeCollection.get c.map h
  getMut c h := do pure ((← TreeCollection.getMut c.map h).map fun p => (p.1, fun u => ⟨p.2 u, c.misses⟩))
  insertKey c h lv := do let p ← TreeCollection.insertKey c.map h lv; pure (⟨p.1, c.misses⟩, p.2)
  removeKey c h r := do pure (after c.misses (← TreeCollection.removeKey c.map h r))
  maybeRemoveKey c h r := do pure (afterMaybe c.misses (← TreeCollection.maybeRemoveKey c.map h r))

/-- the counter forgotten -/
def plain {O : Type} (x : R (Option (Watched Hi T) × O)) : R (Option (HashMap Hi T) × O) :=
  x.map fun p => (p.1.map Watched.map, p.2)

theorem step_plain (c : Option (Watched Hi T)) (op : COp Hi T Lo V) :
    plain (CollExec.step c op) = CollExec.step (c.map Watched.map) op := by
  cases c with
  | none =>
    cases op with
    | create h t =>
      show plain ((TreeCollection.create h t : R (HashMap Hi T)) >>= _ >>= _) = (TreeCollection.create h t : R (HashMap Hi T)) >>= _
      cases (TreeCollection.create h t : R (HashMap Hi T)) <;> rfl
    | _ => rfl
  | some c =>
    cases op with
    | create h t =>
      show plain ((TreeCollection.create h t : R (HashMap Hi T)) >>= _ >>= _) = (TreeCollection.create h t : R (HashMap Hi T)) >>= _
      cases (TreeCollection.create h t : R (HashMap Hi T)) <;> rfl
    | get h =>
      show plain (TreeCollection.get c.map h >>= _) = TreeCollection.get c.map h >>= _
      cases TreeCollection.get c.map h <;> rfl
    | set h u =>
      show plain (TreeCollection.getMut c.map h >>= _ >>= _) = TreeCollection.getMut c.map h >>= _
      cases TreeCollection.getMut c.map h with
      | error e => rfl
      | ok a => cases a <;> rfl
    | insert h l v =>
      show plain (TreeCollection.insertKey c.map h (l, v) >>= _ >>= _) = TreeCollection.insertKey c.map h (l, v) >>= _
      cases TreeCollection.insertKey c.map h (l, v) <;> rfl
    | remove h r =>
      show plain (TreeCollection.removeKey c.map h r >>= _ >>= _) = TreeCollection.removeKey c.map h r >>= _
      rcases TreeCollection.removeKey c.map h r with e | ⟨_ | ⟨m, b⟩, val⟩ <;> rfl
    | maybeRemove h r =>
      show plain (TreeCollection.maybeRemoveKey c.map h r >>= _ >>= _) = TreeCollection.maybeRemoveKey c.map h r >>= _
      rcases TreeCollection.maybeRemoveKey c.map h r with e | ⟨⟨_ | ⟨m, b⟩, val⟩⟩ | m <;> rfl

theorem run_plain (ops : List (COp Hi T Lo V)) (c : Option (Watched Hi T)) :
    plain (CollExec.run c ops) = CollExec.run (c.map Watched.map) ops := by
  induction ops generalizing c with
  | nil => rfl
  | cons op ops ih =>
    simp only [CollExec.run, ← step_plain]
    cases CollExec.step c op with
    | error e => rfl
    | ok p =>
      show plain (CollExec.run p.1 ops >>= _) = CollExec.run (p.1.map Watched.map) ops >>= _
      rw [← ih]
      cases CollExec.run p.1 ops <;> rfl

/-- `Watched` answers as a collection on every history. -/
theorem answers : AnswersAsColl (Watched Hi T) (T := T) := by
  intro ops
  have h := C51_crate_coll (.hash (Hi := Hi) (T := T)) ops
  have e : plain (CollExec.run (none : Option (Watched Hi T)) ops) = CollExec.run (none : Option (HashMap Hi T)) ops := run_plain ops none
  rw [collOutputs, ← e] at h
  rw [collOutputs]
  cases hx : CollExec.run (none : Option (Watched Hi T)) ops <;> rw [hx] at h <;> exact h

end Watched

/-- the crate's proof obligation for leaves (a failing `remove` gives back an identical tree, C23) does not hold of
`Tally` … -/
example : VebTree.remove (⟨[(3, 'a')], 0⟩ : Tally Nat Char) 4 = .ok (.Err ⟨[(3, 'a')], 1⟩) := rfl
/-- … but a 16-bit tree made from such leaves is an ordered map where `Map16` is one. -/
example (V : Type) (ops : List (Op (U 16) V)) (h : SL.SafeHist (safe16 (K := U 16)) [] ops) :
    RunsLikeMap (Tree (U 16) V (Tally (U 8) Unit) (ArrayColl (U 8) (Tally (U 8) V))) ops :=
  C51_user_parts goodKey Tally.runs Tally.runs (C51_crate_coll (.array goodIndex)) ops h
/-- The same with a collection of the user. -/
example (V : Type) (ops : List (Op (U 16) V)) (h : SL.SafeHist (safe16 (K := U 16)) [] ops) :
    RunsLikeMap (Tree (U 16) V (Tally (U 8) Unit) (Watched (U 8) (Tally (U 8) V))) ops :=
  C51_user_parts goodKey Tally.runs Tally.runs Watched.answers ops h
example : SL.SafeHist (safe16 (K := U 16)) [] sample := sample_safe
/-- it gives the answers of `Map16` also where these are wrong -/
example (V : Type) : AnswerAlike (Tree (U 16) V (Tally (U 8) Unit) (ArrayColl (U 8) (Tally (U 8) V))) (Map16 (U 16) V) :=
  C51_tree (C51_trans (C51_leaf.1 Tally.runs) (C51_symm (C51_leaf.1 C08_byteSet_history)))
    (C51_trans (C51_leaf.1 Tally.runs) (C51_symm (C51_leaf.1 (C10_byteMap_history V))))
    (C51_crate_coll (.array goodIndex)) (C51_crate_coll (.array goodIndex))
example : outputs (Tree (U 16) Nat (Tally (U 8) Unit) (ArrayColl (U 8) (Tally (U 8) Nat)))
    [.insert (U.lit 10) 0, .insert (U.lit 20) 1, .insert (U.lit 5) 2, .maxVal] =
    .ok [.kv none, .kv none, .kv none, .kv (some (U.lit 10, 0))] := by decide +kernel

/-! ## The contract is needed -/

/-- A leaf that forgets the old entry when it replaces one: an ordered map but for the outcome of `insert`. -/
structure Mute (K V : Type) where
  tree : Tally K V

instance {K V : Type} [LinearOrder K] : VebTree (Mute K V) K V where
  fromMonad k v := ⟨VebTree.fromMonad k v⟩
  isMonad t := VebTree.isMonad t.tree
  lenHint t := VebTree.lenHint t.tree
  intoMonad t := do
    match (← VebTree.intoMonad t.tree) with
    | .Ok kv => pure (.Ok kv)
    | .Err t => pure (.Err ⟨t⟩)
  minVal t := VebTree.minVal t.tree
  minValMut t := do let (k, v, put) ← VebTree.minValMut t.tree; pure (k, v, fun w => ⟨put w⟩)
  maxVal t := VebTree.maxVal t.tree
  maxValMut t := do let (k, v, put) ← VebTree.maxValMut t.tree; pure (k, v, fun w => ⟨put w⟩)
  find t k := VebTree.find t.tree k
  findMut t k := do pure ((← VebTree.findMut t.tree k).map fun (k, v, put) => (k, v, fun w => ⟨put w⟩))
  predecessor t k := VebTree.predecessor t.tree k
  predecessorMut t k := do pure ((← VebTree.predecessorMut t.tree k).map fun (k, v, put) => (k, v, fun w => ⟨put w⟩))
  successor t k := VebTree.successor t.tree k
  successorMut t k := do pure ((← VebTree.successorMut t.tree k).map fun (k, v, put) => (k, v, fun w => ⟨put w⟩))
  insert t k v := do let (t, _) ← VebTree.insert t.tree k v; pure (⟨t⟩, none)
  remove t k := do
    match (← VebTree.remove t.tree k) with
    | .Ok (t, kv) => pure (.Ok (t.map Mute.mk, kv))
    | .Err t => pure (.Err ⟨t⟩)
  removeMin t := do let (t, kv) ← VebTree.removeMin t.tree; pure (t.map Mute.mk, kv)
  removeMax t := do let (t, kv) ← VebTree.removeMax t.tree; pure (t.map Mute.mk, kv)

/-- **C51, the contract is needed.** Children that do not report replaced entries make a tree that does not. -/
theorem C51_contract_needed :
    outputs (Tree (U 16) Nat (Tally (U 8) Unit) (HashMap (U 8) (Mute (U 8) Nat)))
      [.insert (U.lit 1) 0, .insert (U.lit 9) 1, .insert (U.lit 5) 2, .insert (U.lit 5) 3] =
      .ok [.kv none, .kv none, .kv none, .kv none] ∧
    (SL.run [] [.insert (U.lit 1 : U 16) 0, .insert (U.lit 9) 1, .insert (U.lit 5) 2, .insert (U.lit 5) 3]).2 =
      [.kv none, .kv none, .kv none, .kv (some (U.lit 5, 2))] := by decide +kernel

end Veb.Props
