import Verif.Proof.Exact

/-!
Every insertion into a tree reached by safe insertions, also one that is not safe, succeeds and returns the
replaced entry, as long as the counters of the wrappers have room: what goes wrong is seen only later.
-/

set_option autoImplicit false
set_option linter.unusedSectionVars false

namespace Veb
open VebKey (splitVal join)

section
variable {T K V : Type} [LinearOrder K] [VebTree T K V]

/-- Every insertion answers what the map would answer. -/
def InsertAnswers (L : LawfulVebTree T K V) : Prop :=
  ∀ t k v, L.Inv t → ((L.abs t).Mem k ∨ (L.abs t).card < usizeMax) →
    ∃ t', VebTree.insert t k v = .ok (t', (L.abs t k).map fun v => (k, v))

theorem answers_of_always {L : LawfulVebTree T K V} (h : L.Safe = always) : InsertAnswers L := by
  intro t k v I _
  obtain ⟨t', h1, -⟩ := L.insert t k v I (by rw [h]; trivial)
  exact ⟨t', h1⟩

theorem Box.answers {L : LawfulVebTree T K V} (A : InsertAnswers L) :
    InsertAnswers (inferInstance : LawfulVebTree (Box T) K V) := by
  intro t k v I hf
  obtain ⟨u, hu⟩ := A t.val k v I hf
  refine ⟨⟨u⟩, ?_⟩
  show (do let (u, o) ← VebTree.insert t.val k v; pure ((⟨u⟩ : Box T), o) : R (Box T × Option (K × V))) = _
  rw [hu]; rfl

theorem SizedVebTree.answers {L : LawfulVebTree T K V} (A : InsertAnswers L) :
    InsertAnswers (inferInstance : LawfulVebTree (SizedVebTree T) K V) := by
  intro t k v I hf
  have I : L.Inv t.tree ∧ t.size = (L.abs t.tree).card := I
  have hf : (L.abs t.tree).Mem k ∨ (L.abs t.tree).card < usizeMax := hf
  obtain ⟨u, hu⟩ := A t.tree k v I.1 hf
  show ∃ t', VebTree.insert t k v = .ok (t', (L.abs t.tree k).map fun v => (k, v))
  simp only [VebTree.insert, hu, R.ok_bind]
  rcases ho : L.abs t.tree k with _ | w
  · have hle : t.size + 1 ≤ usizeMax := by
      rcases hf with hf | hf
      · exact absurd ho hf
      · omega
    simp [hle]
  · simp
end

namespace Tree
variable {K V Hi Lo S T C : Type} [LinearOrder K] [LinearOrder Hi] [LinearOrder Lo]
  [VebKey K Hi Lo] [VebKeyRef K Hi Lo] [LK : LawfulVebKey K Hi Lo]
  [VebTree S Hi Unit] [LS : LawfulVebTree S Hi Unit]
  [VebTree T Lo V] [LT : LawfulVebTree T Lo V]
  [TreeCollection C Hi T Lo V] [LC : LawfulColl C Hi T Lo V]

theorem insertBelow_answers (AS : InsertAnswers LS) (AT : InsertAnswers LT) {B : K → Prop} {mn mx : K × V}
    {ch : Option (S × C)} {x : K} {v : V} (hb : ChOK B ch)
    (hf : (chmap K ch).Mem x ∨ (chmap K ch).card < usizeMax) :
    ∃ t', insertBelow mn ⟨mx, ch⟩ x v = .ok (t', (chmap K ch x).map fun v => (x, v)) := by
  rcases hs : splitVal x with ⟨hi, lo⟩
  simp only [insertBelow, hs]
  obtain _ | ⟨s, c⟩ := ch
  · obtain ⟨c', hc1, -⟩ := LC.create hi (VebTree.fromMonad lo v)
    exact ⟨_, by simp [hc1, chmap]; rfl⟩
  · have I : ChInv B s c := hb
    have hf : (cmap K c).Mem x ∨ (cmap K c).card < usizeMax := hf
    have hx : (cmap K c) x = (LC.abs c hi).bind fun u => LT.abs u lo := by rw [cmap_split hs]
    rcases hc : LC.abs c hi with _ | u
    · obtain ⟨c', hc1, -⟩ := LC.insert_none c hi lo v I.cInv hc
      have hsm : (LS.abs s).card < usizeMax := by
        rcases hf with hf | hf
        · refine absurd ?_ hf
          rw [hx, hc]; rfl
        refine lt_of_le_of_lt ?_ hf
        refine le_trans (Set.ncard_le_ncard (t := (fun j => (splitVal j).1) '' {j : K | (cmap K c).Mem j}) ?_
          (I.finite.image _)) (Set.ncard_image_le I.finite)
        intro h hh
        obtain ⟨u, hu, hui⟩ := I.child_of_sum hh
        obtain ⟨l, hl⟩ := LT.nonempty u hui
        exact ⟨join h l, by
          show (cmap K c).Mem _
          rw [Map.Mem, I.cmap_join hu hl]; exact hl, by simp [I.good _ u l hu hl]⟩
      obtain ⟨s', hs1⟩ := AS s hi () I.sInv (.inr hsm)
      exact ⟨_, by simp [hc1, hs1, chmap, cmap_split hs, hc]; rfl⟩
    · have hfu : (LT.abs u).Mem lo ∨ (LT.abs u).card < usizeMax := by
        rcases hf with hf | hf
        · left
          rw [Map.Mem, hx, hc] at hf
          exact hf
        right
        refine lt_of_le_of_lt ?_ hf
        refine le_trans (Set.ncard_le_ncard (t := (fun j => (splitVal j).2) '' {j : K | (cmap K c).Mem j}) ?_
          (I.finite.image _)) (Set.ncard_image_le I.finite)
        intro l hl
        exact ⟨join hi l, by
          show (cmap K c).Mem _
          rw [Map.Mem, I.cmap_join hc hl]; exact hl, by simp [I.good _ u l hc hl]⟩
      obtain ⟨u', hu1⟩ := AT u lo v (I.child _ _ hc) hfu
      obtain ⟨c', hc1, -⟩ := LC.insert_some c hi lo v u u' _ I.cInv hc hu1
      refine ⟨⟨mn, some ⟨mx, some (s, c')⟩⟩, ?_⟩
      simp only [hc1, R.ok_bind, chmap, cmap_split hs, hc, Option.bind_some]
      rcases LT.abs u lo with _ | w
      · simp
      · simp [join_of_split hs]

theorem card_inner_le {mn mx : K × V} {ch : Option (S × C)} (hb : ChOK (Btw mn.1 mx.1) ch) :
    (chmap K ch).card ≤ (⟨mn, some ⟨mx, ch⟩⟩ : Tree K V S C).abs.card := by
  obtain _ | ⟨s, c⟩ := ch
  · have : {j : K | (chmap K (none : Option (S × C)) : Map K V).Mem j} = ∅ := by
      ext j; simp [chmap, Map.Mem, Map.empty]
    show Set.ncard _ ≤ _
    rw [this]; simp
  · have I : ChInv (Btw mn.1 mx.1) s c := hb
    refine Set.ncard_le_ncard (fun j hj => (Map.mem_ends _).2 (.inr (.inr hj))) ?_
    refine Set.Finite.subset ((Set.finite_singleton mn.1).union ((Set.finite_singleton mx.1).union I.finite)) ?_
    intro j hj
    exact (Map.mem_ends _).1 hj

theorem answers [MonoSafe S Hi Unit] [MonoSafe T Lo V] (AS : InsertAnswers LS) (AT : InsertAnswers LT) :
    InsertAnswers (inferInstance : LawfulVebTree (Tree K V S C) K V) := by
  intro t k v I hf
  have hf : t.abs.Mem k ∨ t.abs.card < usizeMax := hf
  have I : t.Inv := I
  show ∃ t', t.insert k v = .ok (t', (t.abs k).map fun v => (k, v))
  obtain ⟨mn, _ | ⟨mx, ch⟩⟩ := t
  · obtain ⟨t', h1, -⟩ := insert_ok ⟨mn, none⟩ k v I (by
      intro a b ha hb' hab
      have ha : a = mn.1 := (Map.mem_single (v := mn.2) _ _).1 ha
      have hb' : b = mn.1 := (Map.mem_single (v := mn.2) _ _).1 hb'
      exact absurd (ha.trans hb'.symm) hab)
    exact ⟨t', h1⟩
  · have h1 : mn.1 < mx.1 := I.1
    have h2 : ChOK (Btw mn.1 mx.1) ch := I.2
    have hin := card_inner_le h2
    have hmn := Map.isMin_ends (mn := mn) (mx := mx) h1 h2.between
    have hmx := Map.isMax_ends (mn := mn) (mx := mx) h1 h2.between
    rcases lt_trichotomy k mn.1 with hk | rfl | hk
    · have hn : (⟨mn, some ⟨mx, ch⟩⟩ : Tree K V S C).abs k = none :=
        Map.not_mem.1 fun hm => absurd (hmn.2 k hm) (not_le.2 hk)
      rcases hf with hf | hf
      · exact absurd hn hf
      obtain ⟨t', ht⟩ := insert_below_min_ok (v := v) I hk hf.le
      exact ⟨t', by rw [ht, hn]; rfl⟩
    · refine ⟨⟨(mn.1, v), some ⟨mx, ch⟩⟩, ?_⟩
      simp [insert, cmp_self, abs_some, Map.ends_min]
    · rcases lt_trichotomy k mx.1 with hx | rfl | hx
      · have he : (⟨mn, some ⟨mx, ch⟩⟩ : Tree K V S C).abs k = chmap K ch k := by
          rw [abs_some]; exact Map.ends_inner h1 h2.between hk.ne' hx.ne
        obtain ⟨t', ht⟩ := insertBelow_answers (mn := mn) (mx := mx) (x := k) (v := v) AS AT h2
          (hf.imp (fun h => by rw [Map.Mem, he] at h; exact h) fun h => lt_of_le_of_lt hin h)
        exact ⟨t', by rw [he, ← ht]; simp [insert, cmp_gt hk, cmp_lt hx]⟩
      · refine ⟨⟨mn, some ⟨(mx.1, v), ch⟩⟩, ?_⟩
        have hm : (⟨mn, some ⟨mx, ch⟩⟩ : Tree K V S C).abs mx.1 = some mx.2 := hmx.1
        simp [insert, cmp_gt hk, cmp_self, hm]
      · have hn : (⟨mn, some ⟨mx, ch⟩⟩ : Tree K V S C).abs k = none :=
          Map.not_mem.1 fun hm => absurd (hmx.2 k hm) (not_le.2 hx)
        have hn' : chmap K ch mx.1 = none := Map.not_mem.1 fun hm => lt_irrefl _ (h2.between _ hm).2
        rcases hf with hf | hf
        · exact absurd hn hf
        obtain ⟨t', ht⟩ := insertBelow_answers (mn := mn) (mx := (k, v)) (x := mx.1) (v := mx.2) AS AT h2
          (.inr (lt_of_le_of_lt hin hf))
        refine ⟨t', ?_⟩
        rw [hn'] at ht
        rw [hn]
        simp [insert, cmp_gt hk, cmp_gt hx, ht]

end Tree

theorem CrateTree.answers {T K V : Type} [LinearOrder K] [VebTree T K V] {safe : (K → Prop) → K → Prop}
    (h : CrateTree T K V safe) : ∃ L : LawfulVebTree T K V, L.Safe = safe ∧ MonoSafe T K V ∧ InsertAnswers L := by
  induction h with
  | byteSet => exact ⟨inferInstance, rfl, inferInstance, answers_of_always rfl⟩
  | byteMap => exact ⟨inferInstance, rfl, inferInstance, answers_of_always rfl⟩
  | btreeMap => exact ⟨inferInstance, rfl, inferInstance, answers_of_always rfl⟩
  | box _ ih => obtain ⟨L, rfl, M, A⟩ := ih; exact ⟨inferInstance, rfl, inferInstance, Box.answers A⟩
  | sized _ ih => obtain ⟨L, rfl, M, A⟩ := ih; exact ⟨inferInstance, rfl, inferInstance, SizedVebTree.answers A⟩
  | tree hk _ _ hc ihs iht =>
    have := hk.lawful
    obtain ⟨LC⟩ := hc.lawful
    obtain ⟨LS, rfl, MS, AS⟩ := ihs
    obtain ⟨LT, rfl, MT, AT⟩ := iht
    exact ⟨inferInstance, rfl, inferInstance, Tree.answers AS AT⟩

end Veb
