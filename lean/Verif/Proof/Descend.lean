import Verif.SpecDescend
import Verif.Proof.Black
import Verif.Proof.Look
import Verif.Proof.Ledger
import Verif.SpecIter

/-! Helper lemmas for C96: histories of descending insertions. -/

set_option autoImplicit false

namespace Veb
open VebTree

section
variable {T K V : Type} [VebTree T K V]

theorem descending_cons (a : K × V) (l : SL K V) :
    descending (a :: l) = descending l ++ [.insert a.1 a.2] := by
  simp [descending]

theorem reaches_single {a : K × V} {t : T} (h : Reaches (descending [a]) t) : t = fromMonad a.1 a.2 := by
  obtain ⟨os, h⟩ := h
  cases h
  rfl

theorem reaches_cons {a b : K × V} {l : SL K V} {t : T} (h : Reaches (descending (a :: b :: l)) t) :
    ∃ (u : T) (o : Option (K × V)), Reaches (descending (b :: l)) u ∧ VebTree.insert u a.1 a.2 = .ok (t, o) := by
  have key : ∀ (l : SL K V) (os : List (Out K V)), Exec.run (none : Option T) (descending (b :: l)) ≠ .ok (none, os) := by
    intro l os h
    rw [descending_cons] at h
    obtain ⟨t', os1, os2, -, h2, -, -⟩ := run_append_inv h
    rw [run_single] at h2
    obtain _ | u := t'
    · cases h2
    · simp only [Exec.step, Exec.stepTree] at h2
      rcases hq : VebTree.insert u b.1 b.2 with e | ⟨t1, o1⟩ <;> rw [hq] at h2 <;> cases h2
  obtain ⟨os, h⟩ := h
  rw [descending_cons] at h
  obtain ⟨t', os1, os2, h1, h2, -, -⟩ := run_append_inv h
  rw [run_single] at h2
  obtain _ | u := t'
  · exact absurd h1 (key l os1)
  · simp only [Exec.step, Exec.stepTree] at h2
    rcases hq : VebTree.insert u a.1 a.2 with e | ⟨t1, o1⟩ <;> rw [hq] at h2 <;> cases h2
    exact ⟨u, o1, ⟨_, h1⟩, hq⟩

theorem sized_inner (l : SL K V) {t : SizedVebTree T} (h : Reaches (descending l) t) :
    Reaches (descending l) t.tree := by
  induction l generalizing t with
  | nil => obtain ⟨os, h⟩ := h; cases h
  | cons a l ih =>
    obtain _ | ⟨b, l⟩ := l
    · rw [reaches_single h]; exact ⟨_, rfl⟩
    · obtain ⟨u, o, h1, h2⟩ := reaches_cons h
      obtain ⟨os, h3⟩ := ih h1
      have h4 : VebTree.insert u.tree a.1 a.2 = .ok (t.tree, o) := by
        simp only [VebTree.insert] at h2 ⊢
        rcases hq : VebTree.insert u.tree a.1 a.2 with e | ⟨t1, o1⟩
        · rw [hq] at h2; cases h2
        · rw [hq] at h2
          obtain _ | o1 := o1
          · by_cases hs : u.size + 1 ≤ usizeMax
            · simp [hs, expect, bind, Except.bind, pure, Except.pure] at h2
              obtain ⟨rfl, rfl⟩ := h2; rfl
            · simp [hs, expect, bind, Except.bind] at h2
          · simp [bind, Except.bind, pure, Except.pure] at h2
            obtain ⟨rfl, rfl⟩ := h2; rfl
      refine ⟨os ++ [.kv o], ?_⟩
      rw [descending_cons]
      refine run_append_ok h3 ?_
      rw [run_single]
      simp only [Exec.step, Exec.stepTree, h4]
      rfl

theorem descending_reaches {a : K × V} {l : SL K V} (h : NeverPanics T (descending (a :: l))) :
    ∃ t : T, Reaches (descending (a :: l)) t := by
  obtain ⟨⟨_ | t, os⟩, h⟩ := h
  · rw [descending_cons] at h
    obtain ⟨t', os1, os2, -, h2, -, -⟩ := run_append_inv h
    rw [run_single] at h2
    obtain _ | u := t'
    · cases h2
    · simp only [Exec.step, Exec.stepTree] at h2
      rcases hq : VebTree.insert u a.1 a.2 with e | ⟨t1, o1⟩ <;> rw [hq] at h2 <;> cases h2
  · exact ⟨t, os, h⟩

omit [VebTree T K V] in
theorem insertions_descending (l : SL K V) : insertions (descending l) = l.length := by
  simp [insertions, descending, List.countP_map, Function.comp_def]

omit [VebTree T K V] in
theorem keeps_descending (l : SL K V) : ∀ op ∈ descending l, op.keeps = true := by
  intro op h
  simp only [descending, List.mem_map] at h
  obtain ⟨e, -, rfl⟩ := h
  rfl

omit [VebTree T K V] in
theorem entries_descending [LinearOrder K] {l : SL K V} (h : SL.Sorted l) : entries (descending l) = l := by
  induction l with
  | nil => rfl
  | cons a l ih =>
    obtain ⟨h1, h2⟩ := List.pairwise_cons.1 h
    rw [descending_cons, entries_snoc, ih h2]
    simp only [SL.step, SL.insert]
    rw [List.filter_eq_nil_iff.2 (fun p hp => by simpa using (h1 p hp).le),
      List.filter_eq_self.2 (fun p hp => by simpa using h1 p hp)]
    rfl

theorem box_inner (l : SL K V) {t : Box T} (h : Reaches (descending l) t) : Reaches (descending l) t.val := by
  obtain ⟨os, h⟩ := h
  have h1 := box_run (none : Option T) (descending l)
  rw [Option.map_none, h] at h1
  rcases hq : Exec.run (none : Option T) (descending l) with e | ⟨t1, o1⟩ <;> rw [hq] at h1
  · cases h1
  · obtain _ | t1 := t1 <;> cases h1
    exact ⟨_, hq⟩

end

section
variable {K V S C Hi Lo T : Type} [LinearOrder K] [LinearOrder Hi] [LinearOrder Lo] [VebKey K Hi Lo]
  [VebKeyRef K Hi Lo] [VebTree S Hi Unit] [VebTree T Lo V] [TreeCollection C Hi T Lo V]

omit [LinearOrder K] [LinearOrder Hi] [LinearOrder Lo] [VebKeyRef K Hi Lo] in
theorem insertBelow_top {m : K × V} {d : TreeData K V S C} {k : K} {v : V} {t : Tree K V S C}
    {o : Option (K × V)} (h : Tree.insertBelow m d k v = .ok (t, o)) :
    t.min = m ∧ ∃ d', t.data = some d' ∧ d'.max = d.max := by
  simp only [Tree.insertBelow] at h
  rcases hc : d.children with _ | ⟨s, c⟩ <;> rw [hc] at h <;> simp only at h
  · rcases hq : (TreeCollection.create (VebKey.splitVal k).1
        (VebTree.fromMonad (VebKey.splitVal k).2 v : T) : R C) with e | c1 <;> rw [hq] at h <;> cases h
    exact ⟨rfl, _, rfl, rfl⟩
  · rcases hq : TreeCollection.insertKey c (VebKey.splitVal k).1 ((VebKey.splitVal k).2, v) with e | ⟨c1, r⟩ <;>
      rw [hq] at h
    · cases h
    · obtain hi | ⟨hi, _ | ⟨lo, w⟩⟩ := r
      · simp only [bind, Except.bind] at h
        rcases hq2 : VebTree.insert s hi () with e | ⟨s1, o1⟩ <;> rw [hq2] at h <;> cases h
        exact ⟨rfl, _, rfl, rfl⟩
      · cases h
        exact ⟨rfl, _, rfl, rfl⟩
      · cases h
        exact ⟨rfl, _, rfl, rfl⟩

omit [LinearOrder Hi] [LinearOrder Lo] in
theorem descending_top {a b : K × V} {rest : SL K V} (hs : SL.Sorted (a :: b :: rest)) {t : Tree K V S C}
    (hr : Reaches (descending (a :: b :: rest)) t) : t.min = a ∧ ∃ d, t.data = some d ∧ d.max = b := by
  induction rest generalizing a b t with
  | nil =>
    obtain ⟨u, o, h1, h2⟩ := reaches_cons hr
    rw [reaches_single h1] at h2
    have hab : a.1 < b.1 := by simp [SL.Sorted] at hs; exact hs
    have : cmp a.1 b.1 = .lt := by exact cmp_lt hab
    simp only [VebTree.insert, Tree.insert, VebTree.fromMonad, Tree.fromMonad, this] at h2
    cases h2
    exact ⟨rfl, _, rfl, rfl⟩
  | cons c rest ih =>
    obtain ⟨u, o, h1, h2⟩ := reaches_cons hr
    obtain ⟨hab, hs'⟩ := List.pairwise_cons.1 hs
    obtain ⟨h3, d, h4, h5⟩ := ih hs' h1
    have hbc : b.1 < c.1 := (List.pairwise_cons.1 hs').1 c (by simp)
    have e1 : cmp a.1 u.min.1 = .lt := by rw [h3]; exact cmp_lt (hab b (by simp))
    have e2 : cmp d.max.1 u.min.1 = .gt := by rw [h3, h5]; exact cmp_gt hbc
    simp only [VebTree.insert, Tree.insert, e1, h4, e2] at h2
    obtain ⟨g1, d', g2, g3⟩ := insertBelow_top h2
    exact ⟨g1, d', g2, by rw [g3, h3]⟩

end

section
variable {T K V : Type} [LinearOrder K] [VebTree T K V] [P : PhysTree T K V]

theorem descending_ents {l : SL K V} (hs : SL.Sorted l) (hn : l.length ≤ usizeMax) {t : T}
    (hr : Reaches (descending l) t) : P.W t ∧ P.ents t = (l : Multiset (K × V)) := by
  induction l generalizing t with
  | nil => obtain ⟨os, h⟩ := hr; cases h
  | cons a l ih =>
    obtain _ | ⟨b, l⟩ := l
    · rw [reaches_single hr]; exact P.fromMonadE _ _
    · obtain ⟨u, o, h1, h2⟩ := reaches_cons hr
      obtain ⟨ha, hs'⟩ := List.pairwise_cons.1 hs
      obtain ⟨h3, h4⟩ := ih hs' (by simp at hn ⊢; omega) h1
      obtain ⟨t', o', h5, h6, h7, h8, -⟩ := P.insertE u a.1 a.2 h3 fun _ => by rw [h4]; simpa using hn
      rw [h2] at h5
      cases h5
      have hk : keysOf (P.ents u) = (((b :: l).map Prod.fst : List K) : Multiset K) := by rw [h4]; rfl
      have ho : o = none := by
        refine h8 ?_ ?_
        · rw [hk, Multiset.coe_nodup]
          exact (List.pairwise_map.2 (hs'.imp fun h => h)).imp fun h => ne_of_lt h
        · rw [hk, Multiset.mem_coe, List.mem_map]
          rintro ⟨e, he, h⟩
          exact absurd (ha e he) (by rw [h]; exact lt_irrefl _)
      subst ho
      exact ⟨h6, by rw [show P.ents t = _ from h7, h4]; rfl⟩

omit P in
theorem back_calls {t : T} {b m : K × V} (h1 : VebTree.predecessor t b.1 = .ok (some m))
    (h2 : VebTree.predecessor t m.1 = .ok (some b)) (n i e : Nat) (he : e + n ≤ usizeMax) :
    ∃ it, (⟨t, some (.back (alternating b m i).1), e⟩ : Iter T K).calls (List.replicate n .back) =
      .ok (it, (List.range n).map fun j => some (alternating b m (i + 1 + j))) := by
  induction n generalizing i e with
  | zero => exact ⟨_, rfl⟩
  | succ n ih =>
    obtain ⟨it, h⟩ := ih (i + 1) (e + 1) (by omega)
    have hp : VebTree.predecessor t (alternating b m i).1 = .ok (some (alternating b m (i + 1))) := by
      rcases Nat.mod_two_eq_zero_or_one i with hi | hi
      · simp [alternating, hi, h1, Nat.add_mod]
      · simp [alternating, hi, h2, Nat.add_mod]
    refine ⟨it, ?_⟩
    rw [List.replicate_succ, List.range_succ_eq_map]
    have ha : addUsize e 1 = .ok (e + 1) := by simp [addUsize, show e + 1 ≤ usizeMax by omega]
    simp only [Iter.calls, Iter.call, Iter.nextBack, hp, Iter.emit, ha, R.ok_bind, R.pure_eq, h]
    rw [List.map_cons, List.map_map]
    refine congrArg Except.ok (congrArg (Prod.mk it) (congrArg₂ List.cons rfl (List.map_congr_left fun j _ => ?_)))
    show _ = some (alternating b m (i + 1 + (j + 1)))
    rw [show i + 1 + 1 + j = i + 1 + (j + 1) by omega]

end

section
variable {K V S C Hi Lo T : Type} [LinearOrder K] [LinearOrder Hi] [LinearOrder Lo] [VebKey K Hi Lo]
  [VebKeyRef K Hi Lo] [LK : LawfulVebKey K Hi Lo] [VebTree S Hi Unit] [PS : PhysTree S Hi Unit] [VebTree T Lo V]
  [PT : PhysTree T Lo V] [TreeCollection C Hi T Lo V] [LC : LawfulColl C Hi T Lo V]

theorem pred_top {t : Tree K V S C} {d : TreeData K V S C} {s : S} {c : C} (hW : Tree.W t) (hd : t.data = some d)
    (hc : d.children = some (s, c)) (hlt : t.min.1 < d.max.1) :
    ∃ m, m ∈ Tree.chbag K s c ∧ VebTree.predecessor t d.max.1 = .ok (some m) := by
  have I : Tree.ChW K s c := by simpa [Tree.W, hd, Tree.OChW, hc] using hW
  obtain ⟨hi, ⟨⟩, h1, h2⟩ := PS.maxVal s I.sW
  obtain ⟨u, hu, hw⟩ := Tree.ch_child I h2
  obtain ⟨lo, v, h3, h4⟩ := PT.maxValE u hw
  refine ⟨(VebKey.join hi lo, v), I.join_mem hu h4, ?_⟩
  simp [VebTree.predecessor, Tree.predecessor, hd, hc, not_le.2 hlt, cmp_self, h1, LC.get _ _ I.cInv, hu, h3]

theorem descending_turns {a b : K × V} {rest : SL K V} (hs : SL.Sorted (a :: b :: rest)) (hne : rest ≠ [])
    (hn : (a :: b :: rest).length ≤ usizeMax) {t : Tree K V S C} (hr : Reaches (descending (a :: b :: rest)) t) :
    ∃ m ∈ rest, VebTree.predecessor t b.1 = .ok (some m) := by
  obtain ⟨hW, he⟩ := descending_ents hs hn hr
  obtain ⟨rfl, d, hd, rfl⟩ := descending_top hs hr
  have he : Tree.ents t = _ := he
  have hc : Tree.ochbag K d.children = (rest : Multiset (K × V)) := by
    simp only [Tree.ents, hd] at he
    rw [← Multiset.cons_coe, ← Multiset.cons_coe, Multiset.cons_inj_right, Multiset.cons_inj_right] at he
    exact he
  rcases hch : d.children with _ | ⟨s, c⟩
  · rw [hch] at hc
    exact absurd (Multiset.coe_eq_zero _ |>.1 hc.symm) hne
  · rw [hch] at hc
    obtain ⟨m, h1, h2⟩ := pred_top hW hd hch ((List.pairwise_cons.1 hs).1 _ (by simp))
    exact ⟨m, by rw [← Multiset.mem_coe, ← hc]; exact h1, h2⟩

end

/-! ### The summary of a tree without removals -/

section
variable {K V S C Hi Lo T : Type} [LinearOrder K] [LinearOrder Hi] [LinearOrder Lo] [VebKey K Hi Lo]
  [VebKeyRef K Hi Lo] [LK : LawfulVebKey K Hi Lo] [VebTree S Hi Unit] [LS : LookTree S Hi Unit] [VebTree T Lo V]
  [LT : LookTree T Lo V] [TreeCollection C Hi T Lo V] [LC : LawfulColl C Hi T Lo V]

/-- The summary shows the keys of the children. -/
def SumOk (Lo V T : Type) {S C Hi : Type} [LinearOrder Hi] [VebTree S Hi Unit] [LS : LookTree S Hi Unit] [LinearOrder Lo]
    [VebTree T Lo V] [TreeCollection C Hi T Lo V] [LC : LawfulColl C Hi T Lo V] : Option (S × C) → Prop
  | none => True
  | some (s, c) => ∀ h, (LS.look s).Mem h ↔ (LC.abs c).Mem h

omit [LinearOrder K] [VebKeyRef K Hi Lo] LK in
theorem sum_insertBelow {mn mx : K × V} {ch : Option (S × C)} {k : K} {v : V} {t' : Tree K V S C}
    {o : Option (K × V)} (h : Tree.ChG K ch) (hs : SumOk Lo V T ch)
    (hi : Tree.insertBelow mn ⟨mx, ch⟩ k v = .ok (t', o)) : ∃ d, t'.data = some d ∧ SumOk Lo V T d.children := by
  rcases hk : VebKey.splitVal k with ⟨h0, lo⟩
  simp only [Tree.insertBelow, hk] at hi
  obtain _ | ⟨s, c⟩ := ch
  · obtain ⟨c', hc1, hc2, hc3⟩ := LC.create h0 (VebTree.fromMonad lo v)
    simp only [hc1, R.ok_bind, R.pure_eq, Except.ok.injEq, Prod.mk.injEq] at hi
    obtain ⟨rfl, -⟩ := hi
    refine ⟨_, rfl, fun j => ?_⟩
    rw [(LS.fromMonad h0 ()).2, hc3, Map.mem_single, Map.mem_single]
  · obtain ⟨hci, hsg, hg⟩ := h
    rcases hc : LC.abs c h0 with _ | u
    · obtain ⟨c', hc1, hc2, hc3⟩ := LC.insert_none c h0 lo v hci hc
      simp only [hc1, R.ok_bind] at hi
      obtain ⟨⟨s', o'⟩, h1, h2⟩ := R.bind_ok hi
      cases h2
      refine ⟨_, rfl, fun j => ?_⟩
      rw [(LS.insert _ _ _ _ _ hsg h1).2, hc3, Map.mem_upd_some, Map.mem_upd_some, hs j]
    · rcases hu : VebTree.insert u lo v with e | ⟨u', o'⟩
      · simp only [LC.insert_panic c h0 lo v u e hci hc hu] at hi
        cases hi
      · obtain ⟨c', hc1, hc2, hc3⟩ := LC.insert_some c h0 lo v u u' _ hci hc hu
        simp only [hc1, R.ok_bind] at hi
        have : t'.data = some ⟨mx, some (s, c')⟩ := by
          obtain _ | ⟨l', v'⟩ := o' <;> cases hi <;> rfl
        refine ⟨_, this, fun j => ?_⟩
        rw [hc3, Map.mem_upd_some, hs j]
        exact ⟨.inr, fun x => x.elim (fun y => y ▸ Map.mem_of hc) id⟩

theorem descending_look {l : SL K V} (hs : SL.Sorted l) {t : Tree K V S C} (hr : Reaches (descending l) t) :
    Tree.G t ∧ SL.Lists l (Tree.look t) := by
  obtain ⟨os, h⟩ := hr
  obtain ⟨⟨h1, h2⟩, -⟩ := look_run (T := Tree K V S C) (t := none) (l := []) rfl _ (keeps_descending l) h
  have h2 : SL.Lists (entries (descending l)) _ := h2
  rw [entries_descending hs] at h2
  exact ⟨h1, h2⟩

theorem descending_sum {a b : K × V} {rest : SL K V} (hs : SL.Sorted (a :: b :: rest)) {t : Tree K V S C}
    (hr : Reaches (descending (a :: b :: rest)) t) : ∃ d, t.data = some d ∧ SumOk Lo V T d.children := by
  induction rest generalizing a b t with
  | nil =>
    obtain ⟨u, o, h1, h2⟩ := reaches_cons hr
    rw [reaches_single h1] at h2
    have : cmp a.1 b.1 = .lt := cmp_lt ((List.pairwise_cons.1 hs).1 b (by simp))
    simp only [VebTree.insert, Tree.insert, VebTree.fromMonad, Tree.fromMonad, this] at h2
    cases h2
    exact ⟨_, rfl, trivial⟩
  | cons c rest ih =>
    obtain ⟨u, o, h1, h2⟩ := reaches_cons hr
    obtain ⟨hab, hs'⟩ := List.pairwise_cons.1 hs
    obtain ⟨h3, d, h4, h5⟩ := descending_top hs' h1
    obtain ⟨d', h6, h7⟩ := ih hs' h1
    rw [h4] at h6
    cases h6
    have hG := (descending_look hs' h1).1
    simp only [Tree.G, h4] at hG
    have hbc : b.1 < c.1 := (List.pairwise_cons.1 hs').1 c (by simp)
    have e1 : cmp a.1 u.min.1 = .lt := by rw [h3]; exact cmp_lt (hab b (by simp))
    have e2 : cmp d.max.1 u.min.1 = .gt := by rw [h3, h5]; exact cmp_gt hbc
    simp only [VebTree.insert, Tree.insert, e1, h4, e2] at h2
    exact sum_insertBelow hG.2.1 h7 h2

end

section
variable {K V S C Hi Lo T : Type} [LinearOrder K] [LinearOrder Hi] [LinearOrder Lo] [VebKey K Hi Lo]
  [VebKeyRef K Hi Lo] [LK : LawfulVebKey K Hi Lo] [VebTree S Hi Unit] [LS : LookTree S Hi Unit]
  [PS : PhysTree S Hi Unit] [VebTree T Lo V] [LT : LookTree T Lo V] [PT : PhysTree T Lo V] [TreeCollection C Hi T Lo V]
  [LC : LawfulColl C Hi T Lo V]

theorem succ_min {t : Tree K V S C} {d : TreeData K V S C} {s : S} {c : C} (hG : Tree.G t) (hW : Tree.W t)
    (hd : t.data = some d) (hc : d.children = some (s, c)) (hsum : SumOk Lo V T d.children) :
    ∃ m, m ∈ Tree.chbag K s c ∧ VebTree.successor t t.min.1 = .ok (some m) ∧
      ∀ k, (Tree.chlook K d.children).Mem k → m.1 ≤ k := by
  have I : Tree.ChW K s c := by simpa [Tree.W, hd, Tree.OChW, hc] using hW
  simp only [Tree.G, hd] at hG
  obtain ⟨hlt, hch, -⟩ := hG
  rw [hc] at hch hsum ⊢
  obtain ⟨hci, hsg, hg⟩ := hch
  obtain ⟨⟨hi, ⟨⟩⟩, h1, h2, h2'⟩ := LS.minVal s hsg
  obtain ⟨u, hu⟩ := Map.mem_iff.1 ((hsum hi).1 (Map.mem_of h2))
  obtain ⟨⟨lo, v⟩, h3, h4, h4'⟩ := LT.minVal u (hg hi u hu).1
  obtain ⟨lo', v', h5, h6⟩ := PT.minValE u (I.child hi u hu)
  rw [h3] at h5
  cases h5
  have hsp := (hg hi u hu).2 lo (Map.mem_of h4)
  refine ⟨(VebKey.join hi lo, v), I.join_mem hu h6, ?_, ?_⟩
  · simp [VebTree.successor, Tree.successor, hd, hc, not_le.2 hlt, h1, LC.get _ _ I.cInv, hu, h3]
  · intro k hk
    obtain ⟨w, hk⟩ := Map.mem_iff.1 hk
    simp only [Tree.chlook] at hk
    obtain ⟨u', h7, h8⟩ := Option.bind_eq_some_iff.1 hk
    have h9 := h2' _ ((hsum _).2 (Map.mem_of h7))
    refine not_lt.1 fun hlt => ?_
    rcases (LK.lt_iff _ _).1 hlt with hl | ⟨he, hl⟩
    · rw [hsp] at hl
      exact absurd hl (not_lt.2 h9)
    · rw [hsp] at hl he
      simp only at he hl
      rw [he, hu] at h7
      cases h7
      exact absurd hl (not_lt.2 (h4' _ (Map.mem_of h8)))

theorem descending_ends {a b c : K × V} {rest : SL K V} (hs : SL.Sorted (a :: b :: c :: rest))
    (hn : (a :: b :: c :: rest).length ≤ usizeMax) {t : Tree K V S C}
    (hr : Reaches (descending (a :: b :: c :: rest)) t) :
    VebTree.successor t a.1 = .ok (some c) ∧ ∀ k, b.1 ≤ k → VebTree.successor t k = .ok none := by
  obtain ⟨hW, he⟩ := descending_ents hs hn hr
  obtain ⟨hG, hL⟩ := descending_look hs hr
  obtain ⟨d, hd, hsum⟩ := descending_sum hs hr
  obtain ⟨rfl, d', hd', rfl⟩ := descending_top hs hr
  rw [hd] at hd'
  cases hd'
  obtain ⟨ha, hs1⟩ := List.pairwise_cons.1 hs
  obtain ⟨hb, hs2⟩ := List.pairwise_cons.1 hs1
  have he : Tree.ents t = _ := he
  have hc : Tree.ochbag K d.children = ((c :: rest : SL K V) : Multiset (K × V)) := by
    simp only [Tree.ents, hd] at he
    rw [← Multiset.cons_coe, ← Multiset.cons_coe, Multiset.cons_inj_right, Multiset.cons_inj_right] at he
    exact he
  constructor
  · rcases hch : d.children with _ | ⟨s, c'⟩
    · rw [hch] at hc
      exact absurd ((Multiset.coe_eq_zero _).1 hc.symm) (by simp)
    · rw [hch] at hc
      obtain ⟨m, h1, h2, h3⟩ := succ_min hG hW hd hch hsum
      have hm : m ∈ c :: rest := by rw [← Multiset.mem_coe, ← hc]; exact h1
      have hcl : (Tree.chlook K d.children).Mem c.1 := by
        have := (hL.2 c.1 c.2).1 (by simp)
        simp only [Tree.look, hd, Map.upd_apply] at this
        rw [if_neg (ha c (by simp)).ne', if_neg (hb c (by simp)).ne'] at this
        exact Map.mem_of this
      have h4 := h3 _ hcl
      rcases List.mem_cons.1 hm with rfl | hm
      · exact h2
      · exact absurd ((List.pairwise_cons.1 hs2).1 m hm) (not_lt.2 h4)
  · intro k hk
    have h1 : ¬ k < t.min.1 := not_lt.2 ((ha d.max (by simp)).le.trans hk)
    simp [VebTree.successor, Tree.successor, hd, h1, hk]

end

section
variable {K V S C Hi Lo T : Type} [LinearOrder K] [LinearOrder Hi] [LinearOrder Lo] [VebKey K Hi Lo]
  [VebKeyRef K Hi Lo] [LK : LawfulVebKey K Hi Lo] [VebTree S Hi Unit] [PS : PhysTree S Hi Unit] [VebTree T Lo V]
  [PT : PhysTree T Lo V] [TreeCollection C Hi T Lo V] [LC : LawfulColl C Hi T Lo V]

omit [LinearOrder K] [LinearOrder Hi] [LinearOrder Lo] [VebKeyRef K Hi Lo] LK PS PT LC in
theorem removeMin_top {t : Tree K V S C} {d : TreeData K V S C} (hd : t.data = some d) {r : Option (Tree K V S C) × (K × V)}
    (h : Tree.removeMin t = .ok r) : r.2 = t.min ∧ (d.children = none ∧ r.1 = some ⟨d.max, none⟩ ∨
      ∃ t' d', r.1 = some t' ∧ t'.data = some d' ∧ d'.max = d.max) := by
  simp only [Tree.removeMin, hd] at h
  rcases hc : d.children with _ | ⟨s, c⟩ <;> rw [hc] at h <;> simp only [bind, Except.bind] at h
  · cases h; exact ⟨rfl, .inl ⟨rfl, rfl⟩⟩
  · split at h
    · cases h
    · split at h
      · cases h
      · split at h
        · cases h
        · cases h; exact ⟨rfl, .inr ⟨_, _, rfl, rfl, rfl⟩⟩

omit [LinearOrder K] [LinearOrder Hi] [LinearOrder Lo] [VebKeyRef K Hi Lo] LK PS PT LC in
theorem removeMax_top {t : Tree K V S C} {d : TreeData K V S C} (hd : t.data = some d) {r : Option (Tree K V S C) × (K × V)}
    (h : Tree.removeMax t = .ok r) : r.2 = d.max ∧ (d.children = none ∧ r.1 = some ⟨t.min, none⟩ ∨
      ∃ t' d', r.1 = some t' ∧ t'.data = some d' ∧ t'.min = t.min) := by
  simp only [Tree.removeMax, hd] at h
  rcases hc : d.children with _ | ⟨s, c⟩ <;> rw [hc] at h <;> simp only [bind, Except.bind] at h
  · cases h; exact ⟨rfl, .inl ⟨rfl, rfl⟩⟩
  · split at h
    · cases h
    · split at h
      · cases h
      · split at h
        · cases h
        · cases h; exact ⟨rfl, .inr ⟨_, _, rfl, rfl, rfl⟩⟩

theorem pop_min (n : Nat) {t : Tree K V S C} {d : TreeData K V S C} (hW : Tree.W t) (hd : t.data = some d)
    (hn : (Tree.ochbag K d.children).card = n) : ∃ es : SL K V,
      Exec.run (some t) (List.replicate (es.length + 2) .removeMin) =
        .ok (none, (t.min :: es ++ [d.max]).map fun e => .kv (some e)) ∧
      (es : Multiset (K × V)) = Tree.ochbag K d.children := by
  induction n generalizing t d with
  | zero =>
    have hc : d.children = none := by
      obtain ⟨o, k, v, -, h2, h3⟩ := Tree.instPhys.removeMinE t hW
      have h2 : Tree.removeMin t = .ok (o, (k, v)) := h2
      obtain ⟨h4, ⟨h5, -⟩ | ⟨t', d', rfl, h6, h7⟩⟩ := removeMin_top hd h2
      · exact h5
      · have h8 : Tree.ents t = _ ::ₘ Tree.ents t' := h3.2
        have := congrArg Multiset.card h8
        simp [Tree.ents, hd, h6, hn] at this
    refine ⟨[], ?_, by rw [hc]; rfl⟩
    simp [List.replicate_succ, Exec.run, Exec.step, Exec.stepTree, VebTree.removeMin, Tree.removeMin, hd, hc,
      Exec.removed]
  | succ n ih =>
    obtain ⟨o, k, v, -, h2, h3⟩ := Tree.instPhys.removeMinE t hW
    have h2' : Tree.removeMin t = .ok (o, (k, v)) := h2
    obtain ⟨h4, ⟨h5, -⟩ | ⟨t', d', h5, h6, h7⟩⟩ := removeMin_top hd h2'
    · rw [h5] at hn; cases hn
    · simp only at h4 h5
      subst h5
      obtain ⟨hW', h8⟩ : Tree.W t' ∧ Tree.ents t = (k, v) ::ₘ Tree.ents t' := h3
      simp only [Tree.ents, hd, h6, h4, h7, Multiset.cons_inj_right] at h8
      rw [Multiset.cons_swap, Multiset.cons_inj_right] at h8
      obtain ⟨es, h9, h10⟩ := ih hW' h6 (by rw [h8] at hn; simpa using hn)
      refine ⟨t'.min :: es, ?_, by rw [h8, ← h10]; rfl⟩
      rw [List.length_cons, Nat.add_right_comm, List.replicate_succ]
      simp only [Exec.run, Exec.step, Exec.stepTree, h2, R.ok_bind, R.pure_eq, Exec.removed, h9, h4, h7]
      rfl

theorem pop_max (n : Nat) {t : Tree K V S C} {d : TreeData K V S C} (hW : Tree.W t) (hd : t.data = some d)
    (hn : (Tree.ochbag K d.children).card = n) : ∃ es : SL K V,
      Exec.run (some t) (List.replicate (es.length + 2) .removeMax) =
        .ok (none, (d.max :: es ++ [t.min]).map fun e => .kv (some e)) ∧
      (es : Multiset (K × V)) = Tree.ochbag K d.children := by
  induction n generalizing t d with
  | zero =>
    have hc : d.children = none := by
      obtain ⟨o, k, v, -, h2, h3⟩ := Tree.instPhys.removeMaxE t hW
      have h2 : Tree.removeMax t = .ok (o, (k, v)) := h2
      obtain ⟨h4, ⟨h5, -⟩ | ⟨t', d', rfl, h6, h7⟩⟩ := removeMax_top hd h2
      · exact h5
      · have h8 : Tree.ents t = _ ::ₘ Tree.ents t' := h3.2
        have := congrArg Multiset.card h8
        simp [Tree.ents, hd, h6, hn] at this
    refine ⟨[], ?_, by rw [hc]; rfl⟩
    simp [List.replicate_succ, Exec.run, Exec.step, Exec.stepTree, VebTree.removeMax, Tree.removeMax, hd, hc,
      Exec.removed]
  | succ n ih =>
    obtain ⟨o, k, v, -, h2, h3⟩ := Tree.instPhys.removeMaxE t hW
    have h2' : Tree.removeMax t = .ok (o, (k, v)) := h2
    obtain ⟨h4, ⟨h5, -⟩ | ⟨t', d', h5, h6, h7⟩⟩ := removeMax_top hd h2'
    · rw [h5] at hn; cases hn
    · simp only at h4 h5
      subst h5
      obtain ⟨hW', h8⟩ : Tree.W t' ∧ Tree.ents t = (k, v) ::ₘ Tree.ents t' := h3
      simp only [Tree.ents, hd, h6, h4, h7] at h8
      rw [Multiset.cons_swap, Multiset.cons_inj_right, Multiset.cons_inj_right] at h8
      obtain ⟨es, h9, h10⟩ := ih hW' h6 (by rw [h8] at hn; simpa using hn)
      refine ⟨d'.max :: es, ?_, by rw [h8, ← h10]; rfl⟩
      rw [List.length_cons, Nat.add_right_comm, List.replicate_succ]
      simp only [Exec.run, Exec.step, Exec.stepTree, h2, R.ok_bind, R.pure_eq, Exec.removed, h9, h4, h7]
      rfl

theorem descending_drains {a b : K × V} {rest : SL K V} (hs : SL.Sorted (a :: b :: rest))
    (hn : (a :: b :: rest).length ≤ usizeMax) {t : Tree K V S C} (hr : Reaches (descending (a :: b :: rest)) t) :
    (∃ es : SL K V, es.Perm rest ∧ Exec.run (some t) (List.replicate (es.length + 2) .removeMin) =
      .ok (none, (a :: es ++ [b]).map fun e => .kv (some e))) ∧
    ∃ es : SL K V, es.Perm rest ∧ Exec.run (some t) (List.replicate (es.length + 2) .removeMax) =
      .ok (none, (b :: es ++ [a]).map fun e => .kv (some e)) := by
  obtain ⟨hW, he⟩ := descending_ents hs hn hr
  obtain ⟨rfl, d, hd, rfl⟩ := descending_top hs hr
  have he : Tree.ents t = _ := he
  have hc : Tree.ochbag K d.children = (rest : Multiset (K × V)) := by
    simp only [Tree.ents, hd] at he
    rw [← Multiset.cons_coe, ← Multiset.cons_coe, Multiset.cons_inj_right, Multiset.cons_inj_right] at he
    exact he
  obtain ⟨es, h1, h2⟩ := pop_min _ hW hd rfl
  obtain ⟨es', h3, h4⟩ := pop_max _ hW hd rfl
  exact ⟨⟨es, Multiset.coe_eq_coe.1 (h2.trans hc), h1⟩, es', Multiset.coe_eq_coe.1 (h4.trans hc), h3⟩

end

section
variable {T K V : Type} [VebTree T K V]

theorem box_replicate {t : Box T} {n : Nat} {op : Op K V} {os : List (Out K V)}
    (h : Exec.run (some t.val) (List.replicate n op) = .ok (none, os)) :
    Exec.run (some t) (List.replicate n op) = .ok (none, os) := by
  have h1 := box_run (some t.val) (List.replicate n op)
  rw [h] at h1
  exact h1

end

end Veb
