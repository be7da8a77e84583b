import Verif.Proof.Honest
import Verif.Proof.BTreeMap

/-!
# `BTreeMap` over code of the user that answers properly
-/

set_option autoImplicit false

namespace Veb.BTreeMap
variable {Us : Panic → Prop}
variable {σ K V : Type} [LinearOrder K]

/-- a list of entries, cut at a key -/
structure Cut (l : List (K × V)) (k : K) (l1 l2 : List (K × V)) : Prop where
  lo : ∀ p ∈ l1, p.1 < k
  hi : ∀ p ∈ l2, k < p.1

theorem cut {l : List (K × V)} (h : SL.Sorted l) (k : K) : ∃ l1 l2, Cut l k l1 l2 ∧ (l = l1 ++ l2 ∨ ∃ v, l = l1 ++ (k, v) :: l2) := by
  induction l with
  | nil => exact ⟨[], [], ⟨by simp, by simp⟩, .inl rfl⟩
  | cons p l ih =>
    rcases lt_trichotomy p.1 k with hp | hp | hp
    · obtain ⟨l1, l2, c, e⟩ := ih h.tail
      refine ⟨p :: l1, l2, ⟨?_, c.hi⟩, e.imp (fun e => by rw [e]; rfl) fun ⟨v, e⟩ => ⟨v, by rw [e]; rfl⟩⟩
      rintro q hq
      rcases List.mem_cons.1 hq with rfl | hq
      · exact hp
      · exact c.lo q hq
    · exact ⟨[], l, ⟨by simp, fun q hq => hp ▸ h.head q hq⟩, .inr ⟨p.2, by rw [← hp]; rfl⟩⟩
    · refine ⟨[], p :: l, ⟨by simp, fun q hq => ?_⟩, .inl rfl⟩
      rcases List.mem_cons.1 hq with rfl | hq
      · exact hp
      · exact hp.trans (h.head q hq)

namespace Cut
variable {l : List (K × V)} {k : K} {l1 l2 : List (K × V)}

theorem lt1 (c : Cut l k l1 l2) : l1.filter (fun p => decide (p.1 < k)) = l1 :=
  List.filter_eq_self.2 fun p hp => decide_eq_true (c.lo p hp)
theorem lt2 (c : Cut l k l1 l2) : l2.filter (fun p => decide (p.1 < k)) = [] :=
  List.filter_eq_nil_iff.2 fun p hp => by simpa using (c.hi p hp).le
theorem gt1 (c : Cut l k l1 l2) : l1.filter (fun p => decide (k < p.1)) = [] :=
  List.filter_eq_nil_iff.2 fun p hp => by simpa using (c.lo p hp).le
theorem gt2 (c : Cut l k l1 l2) : l2.filter (fun p => decide (k < p.1)) = l2 :=
  List.filter_eq_self.2 fun p hp => decide_eq_true (c.hi p hp)
theorem in1 (c : Cut l k l1 l2) : l1.filter (fun p => decide (k ≤ p.1 ∧ p.1 ≤ k)) = [] :=
  List.filter_eq_nil_iff.2 fun p hp => by simpa using fun h => absurd (c.lo p hp) (not_lt.2 h)
theorem in2 (c : Cut l k l1 l2) : l2.filter (fun p => decide (k ≤ p.1 ∧ p.1 ≤ k)) = [] :=
  List.filter_eq_nil_iff.2 fun p hp => by simpa using fun _ => c.hi p hp
theorem le1 (c : Cut l k l1 l2) : l1.filter (fun p => decide (p.1 ≤ k)) = l1 :=
  List.filter_eq_self.2 fun p hp => decide_eq_true (c.lo p hp).le
theorem le2 (c : Cut l k l1 l2) : l2.filter (fun p => decide (p.1 ≤ k)) = [] :=
  List.filter_eq_nil_iff.2 fun p hp => by simpa using c.hi p hp
theorem ne1 (c : Cut l k l1 l2) : ∀ p ∈ l1, p.1 ≠ k := fun p hp => (c.lo p hp).ne
theorem ne2 (c : Cut l k l1 l2) : ∀ p ∈ l2, p.1 ≠ k := fun p hp => (c.hi p hp).ne'
theorem put1 (c : Cut l k l1 l2) (v : V) : stdPut l1 k v = l1 := by
  exact (List.map_congr_left fun p hp => if_neg (c.ne1 p hp)).trans (List.map_id l1)
theorem put2 (c : Cut l k l1 l2) (v : V) : stdPut l2 k v = l2 := by
  exact (List.map_congr_left fun p hp => if_neg (c.ne2 p hp)).trans (List.map_id l2)
theorem ins2 (c : Cut l k l1 l2) (v : V) : stdInsert k v l2 = (k, v) :: l2 := by
  cases l2 with
  | nil => rfl
  | cons p l2 =>
    have := cmp_lt (c.hi p (List.mem_cons_self ..))
    rw [stdInsert, this]
theorem ins (c : Cut l k l1 l2) (v : V) : stdInsert k v (l1 ++ l2) = l1 ++ (k, v) :: l2 := by
  have h := c.lo
  induction l1 with
  | nil => exact c.ins2 v
  | cons p l1 ih =>
    have hp := cmp_gt (h p (List.mem_cons_self ..))
    rw [List.cons_append, stdInsert, hp]
    exact congrArg _ (ih ⟨fun q hq => h q (List.mem_cons_of_mem _ hq), c.hi⟩ fun q hq => h q (List.mem_cons_of_mem _ hq))

/-- the number of keys below -/
theorem count_lt (l : List (K × V)) (k : K) : (l.map Prod.fst).countP (· < k) = (l.filter fun p => decide (p.1 < k)).length := by
  rw [List.countP_map, List.countP_eq_length_filter]; rfl
theorem count_le (l : List (K × V)) (k : K) : (l.map Prod.fst).countP (· ≤ k) = (l.filter fun p => decide (p.1 ≤ k)).length := by
  rw [List.countP_map, List.countP_eq_length_filter]; rfl
end Cut

theorem keys_sorted {l : List (K × V)} (h : SL.Sorted l) : (l.map Prod.fst).Pairwise (· < ·) := List.pairwise_map.2 h

theorem set_put {l : List (K × V)} (h : SL.Sorted l) {i : Nat} {k : K} {v : V} (e : l[i]? = some (k, v)) (w : V) :
    l.set i (k, w) = stdPut l k w := by
  induction l generalizing i with
  | nil => cases e
  | cons x l ih =>
    cases i with
    | zero =>
      cases e
      have : stdPut l k w = l :=
        (List.map_congr_left fun p hp => if_neg (h.head p hp).ne').trans (List.map_id l)
      rw [List.set_cons_zero, stdPut, List.map_cons, if_pos rfl]
      exact congrArg _ this.symm
    | succ i =>
      have hx : x.1 ≠ k := (h.head (k, v) (List.mem_of_getElem? (i := i) e)).ne
      rw [List.set_cons_succ, stdPut, List.map_cons, if_neg hx]
      exact congrArg _ (ih h.tail e)

/-- writing at the position of an entry is writing at its key -/
theorem mutIdx_eq {t : BTreeMap K V} (h : SL.Sorted t.entries) (i : Nat) : t.mutIdx i = t.entries[i]?.map t.mutAt := by
  unfold mutIdx
  cases e : t.entries[i]? with
  | none => rfl
  | some p =>
    obtain ⟨k, v⟩ := p
    refine congrArg some (congrArg (Prod.mk k) (congrArg (Prod.mk v) (funext fun w => ?_)))
    exact congrArg BTreeMap.mk (set_put h e w)

/-- where the searches of a proper order end -/
structure Ends (l : List (K × V)) (k : K) (n m : Nat) : Prop where
  below : lastBefore (fun i => l[i]?) n = (l.filter fun p => decide (p.1 < k)).getLast?
  above : l[m]? = (l.filter fun p => decide (k < p.1)).head?
  around : firstIn (fun i => l[i]?) (n, m) = (l.filter fun p => decide (k ≤ p.1 ∧ p.1 ≤ k)).head?
  got : k ∈ l.map Prod.fst → ∃ v, l[n]? = some (k, v) ∧ stdGet l k = some (k, v) ∧ (∀ w, l.set n (k, w) = stdPut l k w) ∧
    l.eraseIdx n = stdErase l k
  not : k ∉ l.map Prod.fst → stdGet l k = none ∧ ∀ v, l.take n ++ (k, v) :: l.drop n = stdInsert k v l

omit [LinearOrder K] in
theorem last_before (l1 l2 : List (K × V)) : lastBefore (fun i => (l1 ++ l2)[i]?) l1.length = l1.getLast? := by
  rcases List.eq_nil_or_concat l1 with rfl | ⟨l, a, rfl⟩
  · rfl
  · rw [List.length_concat]
    show (l.concat a ++ l2)[l.length]? = _
    simp

theorem ends {l : List (K × V)} (h : SL.Sorted l) (k : K) :
    Ends l k ((l.map Prod.fst).countP (· < k)) ((l.map Prod.fst).countP (· ≤ k)) := by
  obtain ⟨l1, l2, c, e⟩ := cut h k
  rw [Cut.count_lt, Cut.count_le]
  rcases e with rfl | ⟨v, rfl⟩
  · have n : ((l1 ++ l2).filter fun p => decide (p.1 < k)) = l1 := by rw [List.filter_append, c.lt1, c.lt2, List.append_nil]
    have m : ((l1 ++ l2).filter fun p => decide (p.1 ≤ k)) = l1 := by rw [List.filter_append, c.le1, c.le2, List.append_nil]
    have u : ((l1 ++ l2).filter fun p => decide (k < p.1)) = l2 := by rw [List.filter_append, c.gt1, c.gt2, List.nil_append]
    have no : k ∉ (l1 ++ l2).map Prod.fst := fun hk => by
      obtain ⟨p, hp, rfl⟩ := List.mem_map.1 hk
      rcases List.mem_append.1 hp with hp | hp
      · exact c.ne1 p hp rfl
      · exact c.ne2 p hp rfl
    refine ⟨?_, ?_, ?_, fun hk => absurd hk no, fun _ => ⟨?_, fun v => ?_⟩⟩
    · rw [n]; exact last_before l1 l2
    · rw [m, u, List.getElem?_append_right (Nat.le_refl _), Nat.sub_self, List.head?_eq_getElem?]
    · rw [n, m, List.filter_append, c.in1, c.in2]
      exact if_neg (Nat.lt_irrefl _)
    · refine List.find?_eq_none.2 fun p hp => ?_
      simpa using fun e : p.1 = k => no (e ▸ List.mem_map_of_mem hp)
    · rw [n, List.take_left', List.drop_left', c.ins v] <;> rfl
  · have n : ((l1 ++ (k, v) :: l2).filter fun p => decide (p.1 < k)) = l1 := by
      rw [List.filter_append, c.lt1, List.filter_cons_of_neg (by simp), c.lt2, List.append_nil]
    have m : ((l1 ++ (k, v) :: l2).filter fun p => decide (p.1 ≤ k)) = l1 ++ [(k, v)] := by
      rw [List.filter_append, c.le1, List.filter_cons_of_pos (by simp), c.le2]
    have u : ((l1 ++ (k, v) :: l2).filter fun p => decide (k < p.1)) = l2 := by
      rw [List.filter_append, c.gt1, List.filter_cons_of_neg (by simp), c.gt2, List.nil_append]
    have yes : (l1 ++ (k, v) :: l2)[l1.length]? = some (k, v) := by
      rw [List.getElem?_append_right (Nat.le_refl _), Nat.sub_self]; rfl
    have get : stdGet (l1 ++ (k, v) :: l2) k = some (k, v) := by
      rw [stdGet, List.find?_append, List.find?_eq_none.2 fun p hp => by simpa using c.ne1 p hp]
      simp
    refine ⟨?_, ?_, ?_, fun _ => ⟨v, by rw [n]; exact yes, get, fun w => ?_, ?_⟩, fun no => ?_⟩
    · rw [n]; exact last_before l1 _
    · rw [m, u, List.length_append, List.getElem?_append_right (by simp)]
      simp [List.head?_eq_getElem?]
    · rw [n, m, List.filter_append, c.in1, List.filter_cons_of_pos (by simp), c.in2]
      exact (if_pos (by simp)).trans yes
    · rw [n]; exact set_put h yes w
    · have e1 : l1.filter (fun p => decide (p.1 ≠ k)) = l1 := List.filter_eq_self.2 fun p hp => decide_eq_true (c.ne1 p hp)
      have e2 : l2.filter (fun p => decide (p.1 ≠ k)) = l2 := List.filter_eq_self.2 fun p hp => decide_eq_true (c.ne2 p hp)
      rw [n, stdErase, List.filter_append, e1, List.filter_cons_of_neg (by simp), e2,
        List.eraseIdx_append_of_length_le (Nat.le_refl _), Nat.sub_self]
      rfl
    · exact absurd (by simp) no

theorem good {α : Type} {x : Act σ α} {r : R α} {Q : α → Prop} (h : Follows Us (fun _ => True) x r) (hq : ∀ a, r = .ok a → Q a) :
    Follows Us Q x r := by
  exact fun s => (h s).imp_left fun ⟨a, s', h1, h2, _⟩ => ⟨a, s', h1, h2, hq a h1⟩
theorem same {α : Type} {a b : α} (h : a = b) : Follows Us (fun _ => True) (pure a : Act σ α) (pure b) := h ▸ .ret trivial

theorem lastBefore_map {α β : Type} (f : Nat → Option α) (g : α → β) (n : Nat) :
    lastBefore (fun i => (f i).map g) n = (lastBefore f n).map g := by cases n <;> rfl
theorem firstIn_map {α β : Type} (f : Nat → Option α) (g : α → β) (e : Nat × Nat) :
    firstIn (fun i => (f i).map g) e = (firstIn f e).map g := by
  unfold firstIn
  split <;> rfl

theorem law {α : Type} {r : R α} {Q Q' : α → Prop} (h : ∃ a, r = .ok a ∧ Q' a) (i : ∀ a, Q' a → Q a) : ∀ a, r = .ok a → Q a := by
  obtain ⟨a, rfl, h⟩ := h
  rintro _ ⟨⟩
  exact i a h
theorem putO_of {t : BTreeMap K V} {Q : Option (K × V) → Prop} (o : Option (K × V × (V → BTreeMap K V)))
    (h : MutOk Inv abs t Q o) : PutO Inv o := by
  rintro ⟨k, v, put⟩ rfl w
  exact (h.2 _ _ _ rfl w).1
theorem allO_of {M : Map K V} {o : Option (BTreeMap K V)} (h : RemOk Inv abs M o) : AllO Inv o := by
  rintro t rfl
  exact h.1

theorem entry_got {t : BTreeMap K V} {k : K} {n : Nat} {w : V} (hk : k ∈ t.entries.map Prod.fst) (e : t.entries[n]? = some (k, w)) :
    Search.entry t.entries (if k ∈ t.keys then Search.found n else Search.gap n) = some (n, (k, w)) := by
  rw [if_pos (show k ∈ t.keys from hk)]
  exact congrArg (Option.map _) e
theorem entry_not {t : BTreeMap K V} {k : K} {n : Nat} (hk : k ∉ t.entries.map Prod.fst) :
    Search.entry t.entries (if k ∈ t.keys then Search.found n else Search.gap n) = none := by
  rw [if_neg (show k ∉ t.keys from hk)]
  rfl
theorem place_not {t : BTreeMap K V} {k : K} {n : Nat} (hk : k ∉ t.entries.map Prod.fst) :
    Search.place (if k ∈ t.keys then Search.found n else Search.gap n) = n := by
  rw [if_neg (show k ∉ t.keys from hk)]
  rfl

theorem E {t : BTreeMap K V} (h : SL.Sorted t.entries) (k : K) :
    Ends t.entries k (t.keys.countP (· < k)) (t.keys.countP (· ≤ k)) := ends h k

/-- `BTreeMap` over code that answers properly does what it does without a state. -/
@[reducible] def agreeTree [ActOrd σ K] (h : SoundOrd σ Us K) : HTree Us σ (BTreeMap K V) K V where
  W := Inv
  fromMonad k v := ⟨rfl, (LawfulVebTree.fromMonad (T := BTreeMap K V) k v).1⟩
  isMonad t I := .ret trivial
  lenHint t I := .ret trivial
  intoMonad t I := by
    show Follows _ _ (if decide (t.entries.length = 1) = true then _ else _) (if decide (t.entries.length = 1) = true then _ else _)
    split
    · exact Follows.lift'.bind fun e _ => .ret (by rintro _ ⟨⟩)
    · exact .ret (by rintro _ ⟨⟩; exact I)
  minVal t I := .lift'
  minValMut t I := by
    refine good ?_ (law (LawfulVebTree.minValMut t I) fun r h w => (h.2 w).1)
    show Follows _ _ (liftM (expect _ (t.mutIdx 0))) (expect _ t.entries.head? >>= fun e => pure (t.mutAt e))
    rw [mutIdx_eq I.1, List.head?_eq_getElem?]
    cases t.entries[0]? with
    | none => exact Follows.lift'
    | some e => exact Follows.lift'
  maxVal t I := .lift'
  maxValMut t I := by
    refine good ?_ (law (LawfulVebTree.maxValMut t I) fun r h w => (h.2 w).1)
    show Follows _ _ (liftM (expect _ (t.mutIdx _))) (expect _ t.entries.getLast? >>= fun e => pure (t.mutAt e))
    rw [mutIdx_eq I.1, List.getLast?_eq_getElem?]
    cases t.entries[t.entries.length - 1]? with
    | none => exact Follows.lift'
    | some e => exact Follows.lift'
  find t k I := by
    show Follows _ _ (ActOrd.search t.keys k >>= fun r => pure ((r.entry t.entries).map Prod.snd)) (pure (stdGet t.entries k))
    refine .left (h.search _ _ (keys_sorted I.1)) (same ?_)
    split
    · rename_i hk
      obtain ⟨v, h1, h2, -⟩ := (ends I.1 k).got hk
      rw [h2]
      exact congrArg (fun o : Option (K × V) => (o.map fun a => (_, a)).map Prod.snd) h1
    · rename_i hk
      rw [((ends I.1 k).not hk).1]
      rfl
  findMut t k I := by
    refine good ?_ (law (LawfulVebTree.findMut t k I) putO_of)
    show Follows _ _ (ActOrd.around t.keys k >>= fun e => pure (firstIn t.mutIdx e)) (pure _)
    refine .left (h.around _ _ (keys_sorted I.1)) (same ?_)
    rw [← (ends I.1 k).around, ← firstIn_map]
    exact congrArg (firstIn · _) (funext fun i => mutIdx_eq I.1 i)
  predecessor t k I := by
    show Follows _ _ (ActOrd.below t.keys k >>= fun n => pure (lastBefore (fun i => t.entries[i]?) n)) (pure _)
    exact .left (h.below _ _ (keys_sorted I.1)) (same (ends I.1 k).below)
  predecessorMut t k I := by
    refine good ?_ (law (LawfulVebTree.predecessorMut t k I) putO_of)
    show Follows _ _ (ActOrd.below t.keys k >>= fun n => pure (lastBefore t.mutIdx n)) (pure _)
    refine .left (h.below _ _ (keys_sorted I.1)) (same ?_)
    rw [← (ends I.1 k).below, ← lastBefore_map]
    exact congrArg (lastBefore · _) (funext fun i => mutIdx_eq I.1 i)
  successor t k I := by
    show Follows _ _ (ActOrd.above t.keys k >>= fun n => pure t.entries[n]?) (pure _)
    exact .left (h.above _ _ (keys_sorted I.1)) (same (ends I.1 k).above)
  successorMut t k I := by
    refine good ?_ (law (LawfulVebTree.successorMut t k I) putO_of)
    show Follows _ _ (ActOrd.above t.keys k >>= fun n => pure (t.mutIdx n)) (pure _)
    refine .left (h.above _ _ (keys_sorted I.1)) (same ?_)
    rw [← (ends I.1 k).above]
    exact mutIdx_eq I.1 _
  insert t k v I := by
    refine good ?_ (law (Q' := fun r => Inv r.1) ?_ fun _ h => h)
    · show Follows _ _ (t.insertA k v) (t.insert k v)
      refine .left (h.search _ _ (keys_sorted I.1)) ?_
      by_cases hk : k ∈ t.entries.map Prod.fst
      · obtain ⟨w, h1, h2, h3, -⟩ := (E I.1 k).got hk
        unfold BTreeMap.insert
        rw [entry_got hk h1, h2]
        exact same (by rw [h3]) 
      · obtain ⟨h1, h2⟩ := (E I.1 k).not hk
        unfold BTreeMap.insert
        rw [entry_not hk, h1]
        refine .left (h.search _ _ (keys_sorted I.1)) ?_
        rw [entry_not hk]
        refine same ?_
        rw [place_not hk, h2]
    · obtain ⟨t', h1, h2, -⟩ := LawfulVebTree.insert t k v I trivial
      exact ⟨_, h1, h2⟩
  remove t k I := by
    refine good ?_ ?_
    · show Follows _ _ (t.removeA k) (t.remove k)
      refine .left (fun s => .inl ⟨s, rfl⟩ : AnswersOr Us t.isMonadA (decide (t.entries.length = 1))) ?_
      refine .left (h.search _ _ (keys_sorted I.1)) ?_
      unfold BTreeMap.remove BTreeMap.isMonad
      by_cases hk : k ∈ t.entries.map Prod.fst
      · obtain ⟨w, h1, h2, -, h4⟩ := (E I.1 k).got hk
        rw [entry_got hk h1, h2]
        cases decide (t.entries.length = 1) with
        | true => exact same rfl
        | false => exact same (by rw [h4])
      · rw [entry_not hk, ((E I.1 k).not hk).1]
        cases decide (t.entries.length = 1) <;> exact same rfl
    · cases e : abs t k with
      | none =>
        rw [LawfulVebTree.remove_none t k I e]
        rintro _ ⟨⟩
        exact I
      | some v =>
        obtain ⟨o, h1, h2⟩ := LawfulVebTree.remove_some t k v I e
        rw [h1]
        rintro _ ⟨⟩
        exact allO_of h2
  removeMin t I := by
    refine good ?_ ?_
    · exact Follows.lift'.bind fun e _ => .ret trivial
    · obtain ⟨o, e, h1, -, h2⟩ := LawfulVebTree.removeMin t I
      rw [h1]
      rintro _ ⟨⟩
      exact allO_of h2
  removeMax t I := by
    refine good ?_ ?_
    · exact Follows.lift'.bind fun e _ => .ret trivial
    · obtain ⟨o, e, h1, -, h2⟩ := LawfulVebTree.removeMax t I
      rw [h1]
      rintro _ ⟨⟩
      exact allO_of h2

end Veb.BTreeMap
