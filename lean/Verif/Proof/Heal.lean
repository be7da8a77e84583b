import Verif.SpecCount
import Verif.Proof.Look
import Verif.Proof.NoPanic
import Verif.Proof.IterAll

/-!
A tree that has only been inserted into, that stores no key twice, and whose `successor` answers the next key from every stored
key, is in order: it meets the invariant of a correct tree.
-/

set_option autoImplicit false
set_option linter.unusedSectionVars false

namespace Veb

/-- `r` has the least key above `k`. -/
def NextKey {K V : Type} [LinearOrder K] (M : Map K V) (k : K) : Option (K × V) → Prop
  | none => ∀ j, M.Mem j → j ≤ k
  | some e => ∀ j, M.Mem j → k < j → e.1 ≤ j

class HealTree (T : Type) (K V : outParam Type) [LinearOrder K] [VebTree T K V] [I : LawfulVebTree T K V] [P : PhysTree T K V]
    [L : LookTree T K V] : Prop where
  shows : ∀ t k, L.G t → P.W t → k ∈ P.bag t → (L.look t).Mem k
  heal : ∀ t, L.G t → P.W t → (P.bag t).Nodup →
    (∀ k, (L.look t).Mem k → ∀ r, VebTree.successor t k = .ok r → NextKey (L.look t) k r) → I.Inv t ∧ I.abs t = L.look t

section
variable {T K V : Type} [LinearOrder K] [VebTree T K V]

theorem bag_of_look [P : PhysTree T K V] [L : LookTree T K V] {t : T} {k : K} (g : L.G t) (w : P.W t) (h : (L.look t).Mem k) :
    k ∈ P.bag t := by
  obtain ⟨r, e1, e2⟩ := P.findE t k w
  obtain ⟨v, hv⟩ := Map.mem_iff.1 h
  rw [L.find t k g, hv] at e1
  cases e1
  exact mem_keysOf_of (e2 _ rfl)

theorem HealTree.ofLawful [I : LawfulVebTree T K V] (hs : ∀ P k, I.Safe P k) :
    @HealTree T K V _ _ I (PhysTree.ofLawful hs) (LookTree.ofLawful hs) := by
  let P := PhysTree.ofLawful hs
  let L := LookTree.ofLawful hs
  refine ⟨fun t k g w hk => ?_, fun t g _ _ _ => ⟨g, rfl⟩⟩
  obtain ⟨v, hv⟩ := mem_keysOf.1 hk
  exact Map.mem_of ((PhysTree.mem_mapBag (I.finite t g)).1 hv)

instance [I : LawfulVebTree T K V] [P : PhysTree T K V] [L : LookTree T K V] [H : HealTree T K V] : HealTree (Box T) K V where
  shows t := H.shows t.val
  heal t := H.heal t.val

instance [I : LawfulVebTree T K V] [P : PhysTree T K V] [L : LookTree T K V] [H : HealTree T K V] :
    HealTree (SizedVebTree T) K V where
  shows t k g w := H.shows t.tree k g w.1
  heal t g w n s := by
    obtain ⟨h1, h2⟩ := H.heal t.tree g w.1 n s
    refine ⟨⟨h1, ?_⟩, h2⟩
    have hs : {k | (I.abs t.tree).Mem k} = ((P.bag t.tree).toFinset : Set K) := by
      ext k
      rw [h2]
      simp only [Set.mem_ofPred_eq, Finset.mem_coe, Multiset.mem_toFinset]
      exact ⟨bag_of_look g w.1, H.shows t.tree k g w.1⟩
    have hw : t.size = (P.ents t.tree).card := w.2
    rw [Map.card, hs, Set.ncard_coe_finset, Multiset.toFinset_card_of_nodup (show (P.bag t.tree).Nodup from n), hw, P.bag_card]

end

namespace Tree
variable {K V S C Hi Lo T : Type} [LinearOrder K] [LinearOrder Hi] [LinearOrder Lo]
  [VebKey K Hi Lo] [VebKeyRef K Hi Lo] [LK : LawfulVebKey K Hi Lo]
  [VebTree S Hi Unit] [LS : LawfulVebTree S Hi Unit] [PS : PhysTree S Hi Unit] [QS : LookTree S Hi Unit] [HS : HealTree S Hi Unit]
  [VebTree T Lo V] [LT : LawfulVebTree T Lo V] [PT : PhysTree T Lo V] [QT : LookTree T Lo V] [HT : HealTree T Lo V]
  [TreeCollection C Hi T Lo V] [LC : LawfulColl C Hi T Lo V]

open VebKey (splitVal join)

theorem shows_children {s : S} {c : C} (g : ChG K (some (s, c))) (I : ChW K s c) (k : K) :
    k ∈ keysOf (chbag K s c) ↔ (chlook K (some (s, c)) : Map K V).Mem k := by
  rcases hs : splitVal k with ⟨h, l⟩
  rw [I.mem_chkeys hs]
  simp only [chlook, Map.Mem, hs]
  constructor
  · rintro ⟨u, hu, hl⟩
    rw [hu]
    exact HT.shows u l (g.2.2 h u hu).1 (I.child h u hu) hl
  · intro hm
    rcases hu : LC.abs c h with _ | u
    · rw [hu] at hm; exact absurd rfl hm
    · rw [hu] at hm
      exact ⟨u, rfl, bag_of_look (g.2.2 h u hu).1 (I.child h u hu) hm⟩

theorem shows_tree (t : Tree K V S C) (k : K) (g : G t) (w : W t) (hk : k ∈ PhysTree.bag t) : (look t).Mem k := by
  obtain ⟨mn, _ | ⟨mx, ch⟩⟩ := t
  · obtain ⟨v, hv⟩ := mem_keysOf.1 hk
    have hv := Multiset.mem_singleton.1 hv
    simp only [look, Map.mem_single]
    exact congrArg Prod.fst hv
  · obtain ⟨v, hv⟩ := mem_keysOf.1 hk
    simp only [look, Map.mem_upd_some]
    rcases Multiset.mem_cons.1 hv with e | hv
    · exact .inl (congrArg Prod.fst e)
    rcases Multiset.mem_cons.1 hv with e | hv
    · exact .inr (.inl (congrArg Prod.fst e))
    refine .inr (.inr ?_)
    obtain _ | ⟨s, c⟩ := ch
    · exact absurd hv (Multiset.notMem_zero _)
    · exact (shows_children g.2.1 w k).1 (mem_keysOf_of hv)

/-- `successor` of a key between the extremes that has a child. -/
theorem successor_child {mn mx : K × V} {s : S} {c : C} (hc : LC.Inv c) {k : K} {h : Hi} {l : Lo} {u : T}
    (hs : splitVal k = (h, l)) (hu : LC.abs c h = some u) (h1 : mn.1 < k) (h2 : k < mx.1) :
    (⟨mn, some ⟨mx, some (s, c)⟩⟩ : Tree K V S C).successor k = (do
      match (← VebTree.successor u l) with
      | some (lo, val) => pure (some (join h lo, val))
      | none =>
        match (← VebTree.successor s h) with
        | some (hi, ()) =>
          let child ← expect "child should exist for summary key" (LC.abs c hi)
          let (lo, val) ← VebTree.minVal child
          pure (some (join hi lo, val))
        | none => pure (some mx)) := by
  simp only [successor, if_neg (not_lt.2 h1.le), if_neg (not_le.2 h2), if_neg h1.ne', LK.ref_eq, hs, LC.get _ _ hc, R.ok_bind,
    hu]
  rfl

theorem heal_tree (t : Tree K V S C) (g : G t) (w : W t) (nd : (PhysTree.bag t).Nodup)
    (hx : ∀ k, (look t).Mem k → ∀ r, t.successor k = .ok r → NextKey (look t) k r) : Inv t ∧ abs t = look t := by
  obtain ⟨mn, _ | ⟨mx, _ | ⟨s, c⟩⟩⟩ := t
  · exact ⟨trivial, rfl⟩
  · exact ⟨⟨g.1, trivial⟩, rfl⟩
  obtain ⟨hmm, gc, hb⟩ := g
  obtain ⟨hci, hsg, hg⟩ := id gc
  have I : ChW K s c := w
  have sh := shows_children gc I
  have lk : ∀ j, (look (⟨mn, some ⟨mx, some (s, c)⟩⟩ : Tree K V S C)).Mem j ↔
      j = mn.1 ∨ j = mx.1 ∨ (chlook K (some (s, c)) : Map K V).Mem j := fun j => by
    simp only [look, Map.mem_upd_some]
  have nd' : (mn.1 ::ₘ mx.1 ::ₘ keysOf (chbag K s c)).Nodup := by
    have h : (keysOf (mn ::ₘ mx ::ₘ chbag K s c)).Nodup := nd
    rwa [keysOf_cons, keysOf_cons] at h
  have ndc := (Multiset.nodup_cons.1 (Multiset.nodup_cons.1 nd').2).2
  have hlt : ∀ k, (chlook K (some (s, c)) : Map K V).Mem k → k < mx.1 := by
    intro k hk
    refine lt_of_le_of_ne ?_ fun e => ?_
    · refine hx mx.1 ((lk _).2 (.inr (.inl rfl))) none ?_ k ((lk _).2 (.inr (.inr hk)))
      simp [successor, not_lt.2 hmm.le]
    · exact (Multiset.nodup_cons.1 (Multiset.nodup_cons.1 nd').2).1 ((sh mx.1).2 (e ▸ hk))
  -- keys of children
  have chmem : ∀ a b u, LC.abs c a = some u → (QT.look u).Mem b →
      splitVal (join a b : K) = (a, b) ∧ (chlook K (some (s, c)) : Map K V).Mem (join a b) := by
    intro a b u hu hbu
    have h1 := (hg a u hu).2 b hbu
    exact ⟨h1, by rw [Map.Mem]; simpa [chlook, h1, hu, Map.Mem] using hbu⟩
  have step : ∀ a b u, LC.abs c a = some u → (QT.look u).Mem b → ∀ r,
      (⟨mn, some ⟨mx, some (s, c)⟩⟩ : Tree K V S C).successor (join a b) = .ok r →
      ∀ a' b' u', LC.abs c a' = some u' → (QT.look u').Mem b' → (join a b : K) < join a' b' →
        ∃ e, r = some e ∧ e.1 ≤ join a' b' := by
    intro a b u hu hbu r hr a' b' u' hu' hb' hlt'
    obtain ⟨-, m1⟩ := chmem a b u hu hbu
    obtain ⟨-, m2⟩ := chmem a' b' u' hu' hb'
    have hn := hx _ ((lk _).2 (.inr (.inr m1))) r hr
    cases r with
    | none => exact absurd (hn _ ((lk _).2 (.inr (.inr m2)))) (not_le.2 hlt')
    | some e => exact ⟨e, rfl, hn _ ((lk _).2 (.inr (.inr m2))) hlt'⟩
  have ltj : ∀ {a b u a' b' u'}, LC.abs c a = some u → (QT.look u).Mem b → LC.abs c a' = some u' → (QT.look u').Mem b' →
      ((join a b : K) < join a' b' ↔ a < a' ∨ a = a' ∧ b < b') := fun hu h1 hu' h2 =>
    lt_of_split (chmem _ _ _ hu h1).1 (chmem _ _ _ hu' h2).1
  -- a child by way of the summary
  have viaMin : ∀ h', h' ∈ PS.bag s → ∃ u b v, LC.abs c h' = some u ∧ (QT.look u).Mem b ∧
      (expect "child should exist for summary key" (LC.abs c h') >>= fun child =>
        VebTree.minVal child >>= fun p => pure (some ((join h' p.1 : K), p.2))) = .ok (some (join h' b, v)) := by
    intro h' hh
    obtain ⟨u, hu⟩ := Map.mem_iff.1 ((I.sum h').1 hh)
    obtain ⟨kv, h5, h6⟩ := QT.minVal u (hg _ _ hu).1
    exact ⟨u, kv.1, kv.2, hu, Map.mem_of h6.1, by rw [hu]; simp [expect, h5]⟩
  have child : ∀ a u, LC.abs c a = some u → LT.Inv u ∧ LT.abs u = QT.look u := by
    intro a u hu
    refine HT.heal u (hg a u hu).1 (I.child a u hu) ?_ ?_
    · obtain ⟨r, -, -, e⟩ := I.split hu
      rw [e, keysOf, Multiset.map_add] at ndc
      have := (Multiset.nodup_add.1 ndc).1
      have hmap : ((PT.ents u).map (lift K a)).map Prod.fst = (PT.bag u).map fun l => (join a l : K) := by
        simp only [keysOf, PhysTree.bag, Multiset.map_map]
        rfl
      rw [hmap] at this
      exact Multiset.Nodup.of_map _ this
    · intro l hl r hr
      obtain ⟨e0, m0⟩ := chmem a l u hu hl
      have ev := successor_child (mn := mn) (mx := mx) (s := s) hci e0 hu (hb _ m0) (hlt _ m0)
      rw [hr, R.ok_bind] at ev
      cases r with
      | some e =>
        obtain ⟨q1, q2⟩ := QT.successor u l e (hg a u hu).1 hr
        intro j hj hlj
        obtain ⟨e', he', hle⟩ := step a l u hu hl _ ev a j u hu hj ((ltj hu hl hu hj).2 (.inr ⟨rfl, hlj⟩))
        cases he'
        by_contra hc
        exact absurd ((ltj hu hj hu q2).2 (.inr ⟨rfl, not_le.1 hc⟩)) (not_lt.2 hle)
      | none =>
        intro j hj
        by_contra hc
        have hlj := not_le.1 hc
        obtain ⟨r', hr', hm'⟩ := PS.successorE s a I.sW
        dsimp only at ev
        rw [hr', R.ok_bind] at ev
        cases r' with
        | none =>
          obtain ⟨e', he', hle⟩ := step a l u hu hl _ ev a j u hu hj ((ltj hu hl hu hj).2 (.inr ⟨rfl, hlj⟩))
          cases he'
          exact absurd hle (not_le.2 (hlt _ (chmem a j u hu hj).2))
        | some e =>
          obtain ⟨h', ⟨⟩⟩ := e
          obtain ⟨u', b, v, hu', hb', e1⟩ := viaMin h' (mem_keysOf_of (hm' _ rfl))
          have ev' := ev.trans e1
          obtain ⟨e', he', hle⟩ := step a l u hu hl _ ev' a j u hu hj ((ltj hu hl hu hj).2 (.inr ⟨rfl, hlj⟩))
          cases he'
          exact absurd ((ltj hu hj hu' hb').2 (.inl (QS.successor s a _ hsg hr').1)) (not_lt.2 hle)
  have sbag : ∀ h, (QS.look s).Mem h ↔ h ∈ PS.bag s := fun h => ⟨bag_of_look hsg I.sW, HS.shows s h hsg I.sW⟩
  have summ : LS.Inv s ∧ LS.abs s = QS.look s := by
    refine HS.heal s hsg I.sW I.nodup fun a ha r hr => ?_
    obtain ⟨u, hu⟩ := Map.mem_iff.1 ((I.sum a).1 ((sbag a).1 ha))
    obtain ⟨iu, au⟩ := child a u hu
    obtain ⟨⟨l, v⟩, -, hmax⟩ := LT.maxVal u iu
    rw [au] at hmax
    have hl : (QT.look u).Mem l := Map.mem_of hmax.1
    obtain ⟨e0, m0⟩ := chmem a l u hu hl
    have ev := successor_child (mn := mn) (mx := mx) (s := s) hci e0 hu (hb _ m0) (hlt _ m0)
    obtain ⟨r', hr', -⟩ := PT.successorE u l (I.child a u hu)
    have hr0 : r' = none := by
      cases r' with
      | none => rfl
      | some e =>
        obtain ⟨q1, q2⟩ := QT.successor u l e (hg a u hu).1 hr'
        exact absurd (hmax.2 _ q2) (not_le.2 q1)
    subst hr0
    rw [hr', R.ok_bind] at ev
    dsimp only at ev
    rw [hr, R.ok_bind] at ev
    have other : ∀ j, (QS.look s).Mem j → ∃ u' l', LC.abs c j = some u' ∧ (QT.look u').Mem l' := by
      intro j hj
      obtain ⟨u', hu'⟩ := Map.mem_iff.1 ((I.sum j).1 ((sbag j).1 hj))
      obtain ⟨l', hl'⟩ := QT.nonempty u' (hg j u' hu').1
      exact ⟨u', l', hu', hl'⟩
    cases r with
    | none =>
      intro j hj
      by_contra hc
      obtain ⟨u', l', hu', hl'⟩ := other j hj
      obtain ⟨e', he', hle⟩ := step a l u hu hl _ ev j l' u' hu' hl' ((ltj hu hl hu' hl').2 (.inl (not_le.1 hc)))
      cases he'
      exact absurd hle (not_le.2 (hlt _ (chmem j l' u' hu' hl').2))
    | some e =>
      obtain ⟨h', ⟨⟩⟩ := e
      obtain ⟨q1, q2⟩ := QS.successor s a _ hsg hr
      obtain ⟨u2, b, v2, hu2, hb2, e1⟩ := viaMin h' ((sbag h').1 q2)
      have ev' := ev.trans e1
      intro j hj haj
      by_contra hc
      obtain ⟨u', l', hu', hl'⟩ := other j hj
      obtain ⟨e', he', hle⟩ := step a l u hu hl _ ev' j l' u' hu' hl' ((ltj hu hl hu' hl').2 (.inl haj))
      cases he'
      exact absurd ((ltj hu' hl' hu2 hb2).2 (.inl (not_le.1 hc))) (not_lt.2 hle)
  have hcm : cmap K c = (chlook K (some (s, c)) : Map K V) := by
    funext k
    simp only [cmap, chlook]
    rcases hu : LC.abs c (splitVal k).1 with _ | u
    · rfl
    · simp only [Option.bind_some, (child _ u hu).2]
  refine ⟨⟨hmm, summ.1, hci, fun h => ?_, fun h u hu => (child h u hu).1, fun h u l hu hl => ?_, fun k hk => ?_⟩, ?_⟩
  · rw [summ.2, sbag, I.sum]
  · rw [(child h u hu).2] at hl; exact (hg h u hu).2 l hl
  · rw [hcm] at hk; exact ⟨hb k hk, hlt k hk⟩
  · simp only [abs, look, chmap, hcm, Map.ends]

instance instHeal : HealTree (Tree K V S C) K V where
  shows := shows_tree
  heal := heal_tree

end Tree

theorem CrateTree.heal {T K V : Type} [LinearOrder K] [VebTree T K V] {safe : (K → Prop) → K → Prop}
    (h : CrateTree T K V safe) : ∃ (I : LawfulVebTree T K V) (P : PhysTree T K V) (L : LookTree T K V),
      I.Safe = safe ∧ @HealTree T K V _ _ I P L := by
  induction h with
  | byteSet => exact ⟨inferInstance, _, _, rfl, HealTree.ofLawful fun _ _ => trivial⟩
  | byteMap => exact ⟨inferInstance, _, _, rfl, HealTree.ofLawful fun _ _ => trivial⟩
  | btreeMap => exact ⟨inferInstance, _, _, rfl, HealTree.ofLawful fun _ _ => trivial⟩
  | box _ ih => obtain ⟨I, P, L, rfl, H⟩ := ih; exact ⟨inferInstance, inferInstance, inferInstance, rfl, inferInstance⟩
  | sized _ ih => obtain ⟨I, P, L, rfl, H⟩ := ih; exact ⟨inferInstance, inferInstance, inferInstance, rfl, inferInstance⟩
  | tree hk _ _ hc ihs iht =>
    have := hk.lawful
    obtain ⟨LC⟩ := hc.lawful
    obtain ⟨_, _, _, rfl, _⟩ := ihs
    obtain ⟨_, _, _, rfl, _⟩ := iht
    exact ⟨inferInstance, inferInstance, inferInstance, rfl, inferInstance⟩

namespace Iter
variable {T K V : Type} [LinearOrder K] [VebTree T K V] [L : LookTree T K V]

/-- An iterator that has shown all keys has asked `successor` for the next key of each. -/
theorem front_next {t : T} (I : L.G t) (es : List (K × V)) {k : K} {m : Nat} {it : Iter T K}
    (h : (⟨t, some (.front k), m⟩ : Iter T K).calls (List.replicate es.length .front) = .ok (it, es.map some))
    (hs : es.Pairwise fun a b => a.1 < b.1) (ha : ∀ j, (L.look t).Mem j → k < j → j ∈ es.map Prod.fst) :
    ∀ j, j = k ∨ j ∈ es.map Prod.fst → ∀ r, VebTree.successor t j = .ok r → NextKey (L.look t) j r := by
  induction es generalizing k m with
  | nil =>
    intro j hj r _
    have hj : j = k := hj.resolve_right (by simp)
    subst hj
    have no : ∀ i, (L.look t).Mem i → ¬ j < i := fun i hi hlt => absurd (ha i hi hlt) (by simp)
    cases r with
    | none => exact fun i hi => not_lt.1 (no i hi)
    | some e => exact fun i hi hlt => absurd hlt (no i hi)
  | cons e es ih =>
    rw [List.length_cons, List.replicate_succ] at h
    obtain ⟨i1, o, os', h1, h2, h3⟩ := calls_cons h
    rw [List.map_cons, List.cons.injEq] at h3
    obtain ⟨rfl, rfl⟩ := h3
    simp only [call, next] at h1
    obtain ⟨_ | e', h4, h5⟩ := R.bind_ok h1
    · cases h5
    · rcases i1 with ⟨t1, d1, m1⟩
      obtain ⟨e1, e2, -, e4⟩ := of_emit h5
      dsimp only at e1 e2
      cases e4
      subst e1 e2
      obtain ⟨s1, s2⟩ := List.pairwise_cons.1 hs
      rintro j (rfl | hj) r hr
      · rw [h4] at hr
        cases hr
        intro i hi hlt
        have := ha i hi hlt
        rcases List.mem_cons.1 this with rfl | h
        · exact le_rfl
        · obtain ⟨x, hx, rfl⟩ := List.mem_map.1 h
          exact (s1 x hx).le
      · refine ih h2 s2 (fun i hi hlt => ?_) j (List.mem_cons.1 hj) r hr
        rcases List.mem_cons.1 (ha i hi ((L.successor _ _ _ I h4).1.trans hlt)) with rfl | h
        · exact absurd hlt (lt_irrefl _)
        · exact h

end Iter

end Veb
