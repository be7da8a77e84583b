import Verif.Proof.Unwind
import Verif.Proof.Iter
import Verif.Props.NoPanic

/-!
# C59: panics that are caught

`Tree::insert` takes its children out while it works on them (src/tree.rs:545).  If a call in between panics – a
comparison, a hash function, an allocation, an index – and the panic is caught, the tree is left without them: a valid
tree that holds its least and its greatest entry only.
-/

set_option autoImplicit false

namespace Veb.Props

/-- **C59, the model.** Without faults `insertU` is the `insert` of the other properties: it ends in the same way and
leaves the same tree.  For `Tree`, boxed and counted trees. -/
def UnwindFaithful (T : Type) {K V : Type} [VebTree T K V] [Unwinds T K V] : Prop :=
  ∀ (t : T) (k : K) (v : V),
    (∀ t' o, VebTree.insert t k v = .ok (t', o) → Unwinds.insertU noFaults t k v = (t', .ok o)) ∧
    (∀ e, VebTree.insert t k v = .error e → (Unwinds.insertU noFaults t k v).2 = .error e)

theorem C59_faithful {K V S C Hi Lo T : Type} [LinearOrder K] [VebKey K Hi Lo] [VebKeyRef K Hi Lo] [VebTree S Hi Unit]
    [VebTree T Lo V] [TreeCollection C Hi T Lo V] : UnwindFaithful (Tree K V S C) := by
  intro t k v
  have hi : (VebTree.insert t k v : R (Tree K V S C × Option (K × V))) = Tree.insert t k v := rfl
  rcases Tree.insertU_cases noFaults t k v with ⟨t', o, h1, h2⟩ | ⟨t', e, h1, -, ⟨s, h2⟩ | h2⟩
  · exact ⟨fun _ _ h => by rw [hi, h2] at h; cases h; exact h1, fun _ h => by rw [hi, h2] at h; cases h⟩
  · cases h2
  · refine ⟨fun _ _ h => ?_, fun _ h => ?_⟩
    · rw [hi, h2] at h; cases h
    · rw [hi, h2] at h; cases h
      change (Tree.insertU noFaults t k v).2 = _
      rw [h1]

theorem C59_faithful_wrappers {T K V : Type} [VebTree T K V] [Unwinds T K V] (h : UnwindFaithful T) :
    UnwindFaithful (Box T) ∧ UnwindFaithful (SizedVebTree T) := by
  refine ⟨fun t k v => ?_, fun t k v => ?_⟩
  · obtain ⟨h1, h2⟩ := h t.val k v
    rcases hi : VebTree.insert t.val k v with e | ⟨t', o⟩
    · have hU := h2 e hi
      refine ⟨fun t'' o h' => ?_, fun e' h' => ?_⟩
      · simp only [VebTree.insert, hi] at h'; cases h'
      · simp only [VebTree.insert, hi] at h'; cases h'
        simp only [Unwinds.insertU]; exact hU
    · have hU := h1 t' o hi
      refine ⟨fun t'' o' h' => ?_, fun e' h' => ?_⟩
      · simp only [VebTree.insert, hi] at h'; cases h'
        simp only [Unwinds.insertU, hU]
      · simp only [VebTree.insert, hi] at h'; cases h'
  · obtain ⟨h1, h2⟩ := h t.tree k v
    rcases hi : VebTree.insert t.tree k v with e | ⟨t', o⟩
    · have hU := h2 e hi
      rcases hI : Unwinds.insertU noFaults t.tree k v with ⟨t', r⟩
      rw [hI] at hU
      simp only at hU
      subst hU
      refine ⟨fun t'' o h' => ?_, fun e' h' => ?_⟩
      · simp only [VebTree.insert, hi] at h'; cases h'
      · simp only [VebTree.insert, hi] at h'; cases h'
        simp only [Unwinds.insertU, hI]
    · have hU := h1 t' o hi
      simp only [VebTree.insert, hi, R.ok_bind]
      simp only [Unwinds.insertU, hU]
      cases o with
      | none =>
        by_cases hs : t.size + 1 ≤ usizeMax
        · simp [hs]
        · simp only [Option.isNone_none, if_true, hs, if_false, expect]
          refine ⟨fun _ _ h => ?_, fun _ h => ?_⟩
          · cases h
          · cases h; rfl
      | some e => simp

/-- **C59 for one call**, whatever the tree and whichever call panics: an insertion that panics leaves a tree of which
the least and the greatest entry were there before or are the new entry, and the children are all there or all gone. -/
theorem C59_left {K V S C Hi Lo T : Type} [LinearOrder K] [VebKey K Hi Lo] [VebKeyRef K Hi Lo] [VebTree S Hi Unit]
    [VebTree T Lo V] [TreeCollection C Hi T Lo V] (φ : Faults) (t t' : Tree K V S C) (k : K) (v : V) {e : Panic}
    (h : Unwinds.insertU φ t k v = (t', .error e)) :
    t' = t ∨ ∃ d d', t.data = some d ∧ t'.data = some d' ∧ (d'.children = d.children ∨ d'.children = none) ∧
      (t'.min = t.min ∧ d'.max = d.max ∧ t.min.1 < k ∧ k < d.max.1 ∨
       t'.min = t.min ∧ d'.max = (k, v) ∧ t.min.1 < k ∧ d.max.1 < k ∨
       t'.min = (k, v) ∧ (d'.max = d.max ∨ d'.max = t.min) ∧ k < t.min.1) := by
  rcases Tree.insertU_cases φ t k v with ⟨t', o, h1, h2⟩ | ⟨t'', e', h1, h2, -⟩
  · rw [show Unwinds.insertU φ t k v = _ from h1] at h; cases h
  rw [show Unwinds.insertU φ t k v = _ from h1] at h
  cases h
  have hc : ∀ {mn : K × V} {d : TreeData K V S C} {t' : Tree K V S C}, Tree.LeftBelow mn d t' →
      ∃ d', t'.data = some d' ∧ (d'.children = d.children ∨ d'.children = none) ∧ t'.min = mn ∧ d'.max = d.max := by
    rintro mn d t' (rfl | rfl)
    · exact ⟨_, rfl, .inl rfl, rfl, rfl⟩
    · exact ⟨_, rfl, .inr rfl, rfl, rfl⟩
  cases h2 with
  | same => exact .inl rfl
  | @newMin d hd hk => exact .inr ⟨d, d, hd, rfl, .inl rfl, .inr (.inr ⟨rfl, .inl rfl, hk⟩)⟩
  | @below d hd h1 h2 _ hb =>
    obtain ⟨d', c1, c2, c3, c4⟩ := hc hb
    exact .inr ⟨d, d', hd, c1, c2, .inl ⟨c3, c4, h1, h2⟩⟩
  | @newMax d hd h1 h2 _ hb =>
    obtain ⟨d', c1, c2, c3, c4⟩ := hc hb
    exact .inr ⟨d, d', hd, c1, c2, .inr (.inl ⟨c3, c4, h1, h2⟩)⟩
  | @swapped d hd h1 h2 _ hb =>
    obtain ⟨d', c1, c2, c3, c4⟩ := hc hb
    exact .inr ⟨d, d', hd, c1, c2, .inr (.inr ⟨c3, .inr c4, h1⟩)⟩
  | @wrong d hd h1 h2 _ hb =>
    obtain ⟨d', c1, c2, c3, c4⟩ := hc hb
    exact .inr ⟨d, d', hd, c1, c2, .inr (.inr ⟨c3, .inl c4, h1⟩)⟩

/-- **C59, exactly.** The new entry takes the place of the least one as soon as the first comparison has returned, an
entry takes the place of the greatest as soon as the second has; and the children are lost by every panic after the key
was split, and by no other. -/
theorem C59_exact {K V S C Hi Lo T : Type} [LinearOrder K] [VebKey K Hi Lo] [VebKeyRef K Hi Lo] [VebTree S Hi Unit]
    [VebTree T Lo V] [TreeCollection C Hi T Lo V] (φ : Faults) (t t' : Tree K V S C) (k : K) (v : V) {e : Panic}
    (h : Unwinds.insertU φ t k v = (t', .error e)) :
    t'.min = (if φ .cmpMin = none ∧ k < t.min.1 then (k, v) else t.min) ∧
    (t'.data = none ↔ t.data = none) ∧
    ∀ d d', t.data = some d → t'.data = some d' →
      d'.max = (if φ .cmpMin = none ∧ φ .cmpMax = none then
          if k < t.min.1 ∧ t.min.1 < d.max.1 then t.min else if d.max.1 < k ∧ t.min.1 < k then (k, v) else d.max
        else d.max) ∧
      d'.children = (if φ .cmpMin = none ∧ φ .cmpMax = none ∧ φ .split = none then none else d.children) := by
  change Tree.insertU φ t k v = _ at h
  obtain ⟨mn, d⟩ := t
  unfold Tree.insertU at h
  rcases φ.call_cases .cmpMin (pure (cmp k mn.1) : R Ordering) with ⟨h0, hc⟩ | ⟨e', he, hc⟩
  swap
  · rw [hc] at h
    cases h
    simp only [he, reduceCtorEq, false_and, if_false, true_and]
    exact fun d d' h1 h2 => by rw [h1] at h2; cases h2; exact ⟨rfl, rfl⟩
  rw [hc] at h
  simp only [R.pure_eq, orLeave] at h
  have below : ∀ (mn : K × V) (d : TreeData K V S C) (k' : K) (v' : V),
      Tree.insertBelowU φ mn d k' v' = (t', .error e) → t'.min = mn ∧ ∃ d', t'.data = some d' ∧ d'.max = d.max ∧
        d'.children = if φ .split = none then none else d.children := by
    intro mn d k' v' h
    unfold Tree.insertBelowU at h
    rcases φ.call_cases .split (pure (VebKey.splitVal k') : R (Hi × Lo)) with ⟨hs, hc⟩ | ⟨e', he, hc⟩
    swap
    · rw [hc] at h; cases h
      exact ⟨rfl, d, rfl, rfl, by simp [he]⟩
    rw [hc] at h
    simp only [R.pure_eq, orLeave] at h
    simp only [hs, if_true]
    obtain ⟨mx, _ | ⟨s, c⟩⟩ := d
    · simp only at h
      split at h
      · cases h; exact ⟨rfl, _, rfl, rfl, rfl⟩
      · split at h
        · cases h; exact ⟨rfl, _, rfl, rfl, rfl⟩
        · cases h
    · simp only at h
      split at h
      · cases h; exact ⟨rfl, _, rfl, rfl, rfl⟩
      · split at h
        · split at h
          · cases h; exact ⟨rfl, _, rfl, rfl, rfl⟩
          · cases h
        · cases h
        · split at h
          · cases h; exact ⟨rfl, _, rfl, rfl, rfl⟩
          · cases h
  rcases lt_trichotomy k mn.1 with hk | hk | hk
  · simp only [cmp_lt hk] at h
    obtain _ | d := d
    · cases h
    simp only at h
    rcases φ.call_cases .cmpMax (.ok (cmp d.max.1 mn.1) : R Ordering) with ⟨h1, hc⟩ | ⟨e', he, hc⟩
    swap
    · rw [hc] at h
      cases h
      simp [h0, he, hk]
    rw [hc] at h
    simp only [h0, h1, hk, true_and, if_true]
    rcases lt_trichotomy d.max.1 mn.1 with hx | hx | hx
    · simp only [cmp_lt hx] at h
      obtain ⟨b1, d', b2, b3, b4⟩ := below _ _ _ _ h
      refine ⟨b1, by simp [b2], fun d1 d2 e1 e2 => ?_⟩
      rw [b2] at e2
      cases e1; cases e2
      rw [b3, b4]
      simp [hx.not_gt, hk.not_gt]
    · simp only [hx, cmp_self] at h; cases h
    · simp only [cmp_gt hx] at h
      obtain ⟨b1, d', b2, b3, b4⟩ := below _ _ _ _ h
      refine ⟨b1, by simp [b2], fun d1 d2 e1 e2 => ?_⟩
      rw [b2] at e2
      cases e1; cases e2
      rw [b3, b4]
      simp [hx]
  · simp only [hk, cmp_self] at h; cases h
  · simp only [cmp_gt hk] at h
    obtain _ | d := d
    · cases h
    simp only at h
    rcases φ.call_cases .cmpMax (.ok (cmp k d.max.1) : R Ordering) with ⟨h1, hc⟩ | ⟨e', he, hc⟩
    swap
    · rw [hc] at h
      cases h
      simp [h0, he, hk.not_gt]
    rw [hc] at h
    simp only [h0, h1, hk, hk.not_gt, true_and, and_true, false_and, and_false, if_true, if_false]
    rcases lt_trichotomy k d.max.1 with hx | hx | hx
    · simp only [cmp_lt hx] at h
      obtain ⟨b1, d', b2, b3, b4⟩ := below _ _ _ _ h
      refine ⟨b1, by simp [b2], fun d1 d2 e1 e2 => ?_⟩
      rw [b2] at e2
      cases e1; cases e2
      rw [b3, b4]
      simp [hx.not_gt]
    · simp only [hx, cmp_self] at h; cases h
    · simp only [cmp_gt hx] at h
      obtain ⟨b1, d', b2, b3, b4⟩ := below _ _ _ _ h
      refine ⟨b1, by simp [b2], fun d1 d2 e1 e2 => ?_⟩
      rw [b2] at e2
      cases e1; cases e2
      rw [b3, b4]
      simp [hx]

section
variable {T K V : Type} [LinearOrder K] [VebTree T K V] [Unwinds T K V]

/-- **C59 in full**: a caught panic loses nothing but what the call had been given, so that the tree then holds what it
held, with or without the new entry in place of another with its key. -/
def C59_full : Prop :=
  ∀ (T K V : Type) [LinearOrder K] [VebTree T K V] [Unwinds T K V] (safe : (K → Prop) → K → Prop),
    CatchTree T K V safe → ∀ (ops : List (Op K V)) (φ : Faults) (k : K) (v : V) (t : T),
      SL.SafeHist safe [] (ops ++ [.insert k v]) → Reaches ops t → ∀ t' e, Unwinds.insertU φ t k v = (t', .error e) →
        ∀ j w, j ≠ k → VebTree.find t j = .ok (some (j, w)) → VebTree.find t' j = .ok (some (j, w))

/-- **C59, the part that holds.** After every history of calls, any of which may panic and be caught, a `Tree` (boxed or
not) answers like an ordered map that lost, at each panic, nothing, its greatest entry to the new one, or all entries but
the least and the greatest; a call panics only if a call inside it does; and the tree left in the end has the entries of that map.
The insertions must be safe. -/
theorem C59_history_partial {safe : (K → Prop) → K → Prop} (h : CatchTree T K V safe) (es : List (Faults × Op K V))
    (hs : SafeWith safe [] es) :
    ∃ l, RunsWith [] es (Exec.runU (none : Option T) es).2 l ∧
      ((Exec.runU (none : Option T) es).1 = none ↔ l = []) ∧ ∀ t, (Exec.runU (none : Option T) es).1 = some t → Answers t l := by
  obtain ⟨L, rfl, hU⟩ := h.unwinds
  obtain ⟨l, h1, h2⟩ := runU_ok hU (t := none) (l := []) rfl es hs
  refine ⟨l, h1, ⟨fun e => ?_, fun e => ?_⟩, fun t e => ?_⟩
  · rw [e] at h2; exact h2
  · rw [e] at h2; exact rel_nil h2
  · rw [e] at h2; exact answers_of L h2.1 h2.2

/-- **C59 without the condition on insertions**: no history of caught panics brings a tree into a condition in which a
call panics by itself: every panic is that of a call inside. -/
theorem C59_no_panic (es : List (Faults × Op K V)) (h : CatchCovered T K V (insertions (es.map Prod.snd))) :
    OnlyFaults es (Exec.runU (none : Option T) es).2 := by
  obtain ⟨P, hU, hl⟩ := h.phys
  exact (physU_run hU (n := 0) (t := none) trivial es (by simpa using hl)).2.1

/-- **C59, every method afterwards**: all methods return on the tree left. -/
theorem C59_returns (es : List (Faults × Op K V)) (h : CatchCovered T K V (insertions (es.map Prod.snd) + 1)) (t : T)
    (ht : (Exec.runU (none : Option T) es).1 = some t) : AllReturn True t := by
  obtain ⟨P, hU, hl⟩ := h.phys
  have hW := (physU_run hU (n := 0) (t := none) trivial es (fun x => by have := hl x; omega)).1
  rw [ht] at hW
  exact phys_allReturn hW.1 fun _ x => by have := hl x; have := hW.2; omega

/-- **C59, nothing twice**: what is stored in the end, together with what was given back, was handed over before, each
entry as often at least: unwinding duplicates nothing. -/
theorem C59_nothing_twice (es : List (Faults × Op K V)) (h : CatchCovered T K V (insertions (es.map Prod.snd))) :
    NothingTwice T es := by
  obtain ⟨P, hU, hl⟩ := h.phys
  obtain ⟨h1, -, h3⟩ := physU_run hU (n := 0) (t := none) trivial es (by simpa using hl)
  obtain ⟨xs, x1, x2⟩ := drain_min_ents h1
  refine ⟨xs, x1, ?_⟩
  rw [x2]
  exact h3.trans (le_of_eq (zero_add _))

end

/-! ## The refutation -/

/-- three entries, the second of them in a child -/
def three : List (Op (U 16) Nat) := [.insert (k16 1) 10, .insert (k16 5) 50, .insert (k16 900) 90]
/-- a key of two signed bytes -/
def i82 (a b : Int) : Arr (S 8) 2 := ⟨[⟨BitVec.ofInt 8 a⟩, ⟨BitVec.ofInt 8 b⟩], rfl⟩
/-- the call of `insert_key` panics -/
def atInsertKey : Faults := fun s => if s = .insertKey then some (.expect "hash function panicked") else none

/-- **C59 refuted**: a caught panic of `insert_key` loses the entry of key 5. -/
theorem C59_refuted : ¬ C59_full := by
  intro h
  have := h (Map16 (U 16) Nat) (U 16) Nat _ (.tree goodKey .byteSet .byteMap (.array goodIndex)) three atInsertKey (k16 6)
    60 _ ((notBelowMin_iff SL.sorted_nil _).1 (by decide +kernel)) ⟨_, rfl⟩ _ _ rfl (k16 5) 50 (by decide) (by decide +kernel)
  revert this
  decide +kernel

/-- **C59, the crate's own panics**: a tree of `[i8; 2]` over an array holds three keys; inserting one whose first half is
not negative panics, as the index of such a half is out of bounds (Bug 2, `C25_refuted_i8`), and when the panic is caught
the second of the three is gone. -/
theorem C59_lost_by_index :
    ∃ t t' : Tree (Arr (S 8) 2) Nat (BTreeMap (S 8) Unit) (ArrayColl (S 8) (BTreeMap (S 8) Nat)),
      Reaches [.insert (i82 (-3) 0) 30, .insert (i82 (-2) 0) 20, .insert (i82 7 0) 70] t ∧
      Unwinds.insertU noFaults t (i82 1 0) 10 = (t', .error .index) ∧
      VebTree.find t (i82 (-2) 0) = .ok (some (i82 (-2) 0, 20)) ∧ VebTree.find t' (i82 (-2) 0) = .ok none ∧
      VebTree.find t' (i82 (-3) 0) = .ok (some (i82 (-3) 0, 30)) ∧ VebTree.find t' (i82 7 0) = .ok (some (i82 7 0, 70)) :=
  ⟨_, _, ⟨_, rfl⟩, rfl, by decide +kernel, by decide +kernel, by decide +kernel, by decide +kernel⟩

/-- **C59 fails for `SizedVebTree`**: the counter keeps its value when the children are lost; `len` is then wrong, and
`is_monad` fails its `debug_assert` once one entry is left. -/
theorem C59_sized :
    ∃ t t' t'' : SizedVebTree (Map16 (U 16) Nat), Reaches three t ∧
      Unwinds.insertU atInsertKey t (k16 6) 60 = (t', .error (.expect "hash function panicked")) ∧
      t'.len = 3 ∧ VebTree.find t' (k16 5) = .ok none ∧
      Exec.run (some t') [.removeMin] = .ok (some t'', [.kv (some (k16 1, 10))]) ∧ t''.len = 2 ∧
      VebTree.isMonad t'' = .error .debugAssert :=
  ⟨_, _, _, ⟨_, rfl⟩, rfl, rfl, by decide +kernel, rfl, rfl, by decide +kernel⟩

/-! Non-vacuity -/

/-- a history with two caught panics: at the first the entry of key 5 is lost, at the second the greatest entry -/
def caughtTwice : List (Faults × Op (U 16) Nat) :=
  (noFaults, .insert (k16 1) 10) :: List.map (fun e : Faults × U 16 × Nat => (e.1, .insert e.2.1 e.2.2))
    [(noFaults, k16 5, 50), (noFaults, k16 900, 90), (atInsertKey, k16 6, 60),
     (fun s => if s = .create then some .arith else none, k16 901, 91), (noFaults, k16 902, 92)]

example : SafeWith safe16 [] caughtTwice := safeWith_of_first _ _ _ _ (by decide)
example : ∃ l, RunsWith [] caughtTwice (Exec.runU (none : Option (Map16 (U 16) Nat)) caughtTwice).2 l ∧
      ((Exec.runU (none : Option (Map16 (U 16) Nat)) caughtTwice).1 = none ↔ l = []) ∧
      ∀ t, (Exec.runU (none : Option (Map16 (U 16) Nat)) caughtTwice).1 = some t → Answers t l :=
  C59_history_partial (.tree goodKey .byteSet .byteMap (.array goodIndex)) _ (safeWith_of_first _ _ _ _ (by decide))
example : (Exec.runU (none : Option (Map16 (U 16) Nat)) caughtTwice).2 =
    [.ok (.kv none), .ok (.kv none), .ok (.kv none), .error (.expect "hash function panicked"), .error .arith,
     .ok (.kv none)] := rfl
example : ∃ t, (Exec.runU (none : Option (Map16 (U 16) Nat)) caughtTwice).1 = some t ∧
    Exec.run (some t) (List.replicate 3 .removeMin) =
      .ok (none, [.kv (some (k16 1, 10)), .kv (some (k16 901, 91)), .kv (some (k16 902, 92))]) := ⟨_, rfl, rfl⟩
/-- the hypothesis of `C59_left` and `C59_exact`, and the children lost -/
example : ∃ t t' : Map16 (U 16) Nat, Reaches three t ∧
    Unwinds.insertU atInsertKey t (k16 6) 60 = (t', .error (.expect "hash function panicked")) ∧
    t.data.any (·.children.isSome) = true ∧ t'.data.any (·.children.isNone) = true :=
  ⟨_, _, ⟨_, rfl⟩, rfl, rfl, rfl⟩
example (es : List (Faults × Op (U 64) Nat)) : OnlyFaults es (Exec.runU (none : Option (Map64 (U 64) Nat)) es).2 ∧
    NothingTwice (Map64 (U 64) Nat) es :=
  have h : ∀ n, CatchCovered (Map64 (U 64) Nat) (U 64) Nat n := fun _ =>
    .uncounted goodKey (uncounted32 Nat).1 (uncounted32 Nat).2 (.array goodIndex)
  ⟨C59_no_panic es (h _), C59_nothing_twice es (h _)⟩

end Veb.Props
