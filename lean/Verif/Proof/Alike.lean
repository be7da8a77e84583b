import Verif.SpecAlike
import Verif.Proof.Canon
import Verif.Proof.Space

/-!
The contents determine the structure, up to the order of hash tables.
-/

set_option autoImplicit false
set_option linter.unusedSectionVars false
namespace Veb

/-- good trees with the same contents are related -/
def CanonR {T K V : Type} [LinearOrder K] [VebTree T K V] (L : LawfulVebTree T K V) (r : T → T → Prop) : Prop :=
  ∀ t t', L.Inv t → L.Inv t' → L.abs t = L.abs t' → r t t'
/-- good collections with related contents are related -/
def CanonCollR {C Hi T Lo V : Type} [DecidableEq Hi] [VebTree T Lo V] [TreeCollection C Hi T Lo V]
    (L : LawfulColl C Hi T Lo V) (rc : (T → T → Prop) → C → C → Prop) : Prop :=
  ∀ r c c', L.Inv c → L.Inv c' → (∀ h, Option.Rel r (L.abs c h) (L.abs c' h)) → rc r c c'

theorem rel_none_iff {X Y : Type} {r : X → Y → Prop} {o : Option X} {o' : Option Y} (h : Option.Rel r o o') :
    o = none ↔ o' = none := by cases h <;> simp
theorem rel_some {X Y : Type} {r : X → Y → Prop} {x : X} {o' : Option Y} (h : Option.Rel r (some x) o') :
    ∃ y, o' = some y ∧ r x y := by cases h with | some h => exact ⟨_, rfl, h⟩
theorem rel_some' {X Y : Type} {r : X → Y → Prop} {y : Y} {o : Option X} (h : Option.Rel r o (some y)) :
    ∃ x, o = some x ∧ r x y := by cases h with | some h => exact ⟨_, rfl, h⟩

theorem HashMap.alike {Hi T : Type} [LinearOrder Hi] {r : T → T → Prop} {c c' : HashMap Hi T} (I : c.Inv) (I' : c'.Inv)
    (h : ∀ k, Option.Rel r (c.lookup k) (c'.lookup k)) : HashMap.Alike r c c' := by
  obtain ⟨l⟩ := c; obtain ⟨l'⟩ := c'
  have hl : NodupKeys l := I.1
  have hl' : NodupKeys l' := I'.1
  have main : ∀ q ∈ l', ∃ u, (⟨l⟩ : HashMap Hi T).lookup q.1 = some u ∧ r u q.2 := by
    intro q hq
    have := h q.1
    rw [lookup_of_mem hl' hq] at this
    exact rel_some' this
  refine ⟨l'.map fun q => (q.1, ((⟨l⟩ : HashMap Hi T).lookup q.1).getD q.2), ?_, ?_⟩
  · have n1 : l.Nodup := List.Nodup.of_map _ hl
    have n2 : (l'.map fun q => (q.1, ((⟨l⟩ : HashMap Hi T).lookup q.1).getD q.2)).Nodup := by
      refine List.Nodup.of_map Prod.fst ?_
      rw [List.map_map]
      exact hl'
    refine (List.perm_ext_iff_of_nodup n1 n2).2 fun p => ?_
    rw [List.mem_map]
    constructor
    · intro hp
      have e := lookup_of_mem hl hp
      have := h p.1
      rw [e] at this
      obtain ⟨u', hu', -⟩ := rel_some this
      exact ⟨_, mem_of_lookup hu', by simp [e]⟩
    · rintro ⟨q, hq, rfl⟩
      obtain ⟨u, hu, -⟩ := main q hq
      simp only [hu, Option.getD_some]
      exact mem_of_lookup hu
  · show List.Forall₂ _ _ l'
    rw [List.forall₂_map_left_iff, List.forall₂_same]
    intro q hq
    obtain ⟨u, hu, hr⟩ := main q hq
    exact ⟨rfl, by simpa [hu] using hr⟩

theorem ArrayColl.alike {Hi T : Type} [SizedVebKey Hi] {r : T → T → Prop} {c c' : ArrayColl Hi T} (I : c.Inv) (I' : c'.Inv)
    (h : ∀ k, Option.Rel r (c.abs k) (c'.abs k)) : ArrayColl.Alike r c c' := by
  obtain ⟨h1, h2, -, h3⟩ := I
  obtain ⟨h1', h2', -, h3'⟩ := I'
  refine ⟨h1.trans h1'.symm, ?_, fun i => ?_⟩
  · rw [h2, h2']
    unfold Map.card
    congr 1
    ext k
    exact not_congr (rel_none_iff (h k))
  · by_cases hj : ∃ k : Hi, SizedVebKey.index k = i
    · obtain ⟨k, rfl⟩ := hj
      exact h k
    · have e : c.array.slot i = none := by
        by_contra hne
        exact hj (h3 i hne)
      have e' : c'.array.slot i = none := by
        by_contra hne
        exact hj (h3' i hne)
      rw [e, e']
      exact .none

theorem ByteMap.alike {T : Type} {r : T → T → Prop} {c c' : ByteMap T} (I : c.Inv) (I' : c'.Inv)
    (h : ∀ k, Option.Rel r (c.abs k) (c'.abs k)) : ByteMap.Alike r c c' := by
  have hs : c.set = c'.set := by
    refine ByteSet.abs_inj (funext fun k => ?_)
    have h1 := mem_abs I (k := k)
    have h2 := mem_abs I' (k := k)
    rw [show c.abs.Mem k ↔ c'.abs.Mem k from not_congr (rel_none_iff (h k)), h2] at h1
    simp only [ByteSet.abs]
    revert h1
    cases c.set.words.bitAt (ByteSet.nat k) <;> cases c'.set.words.bitAt (ByteSet.nat k) <;> simp
  refine ⟨hs, ?_⟩
  obtain ⟨s, l⟩ := c; obtain ⟨s', l'⟩ := c'
  obtain rfl : s = s' := hs
  have hl : l.length = l'.length := I.2.trans I'.2.symm
  refine List.forall₂_iff_get.2 ⟨hl, fun i hi hi' => ?_⟩
  have hc : i < cnt s.words.bitAt 256 := by have := I.2; dsimp only at this hi; omega
  obtain ⟨n, hn, hp, rfl⟩ := cnt_onto _ hc
  obtain ⟨k, rfl⟩ := ByteSet.of_nat n hn
  have := h k
  simp only [abs, hp, if_true] at this
  rw [List.getElem?_eq_getElem hi, List.getElem?_eq_getElem hi'] at this
  cases this with | some h => exact h

section
variable {K V S C Hi Lo T : Type} [LinearOrder K] [LinearOrder Hi] [LinearOrder Lo]
  [VebKey K Hi Lo] [VebKeyRef K Hi Lo] [LK : LawfulVebKey K Hi Lo]
  [VebTree S Hi Unit] [LS : LawfulVebTree S Hi Unit]
  [VebTree T Lo V] [LT : LawfulVebTree T Lo V]
  [TreeCollection C Hi T Lo V] [LC : LawfulColl C Hi T Lo V]
open VebKey (splitVal join)

theorem ChInv.alike {rs : S → S → Prop} {rt : T → T → Prop} (hS : CanonR LS rs) (hT : CanonR LT rt) {B : K → Prop}
    {s s' : S} {c c' : C} (I : ChInv B s c) (I' : ChInv B s' c') (h : cmap K c = cmap K c') :
    rs s s' ∧ ∀ h, Option.Rel rt (LC.abs c h) (LC.abs c' h) := by
  have key : ∀ {s s' : S} {c c' : C}, ChInv B s c → ChInv B s' c' → cmap K c = cmap K c' → ∀ h u,
      LC.abs c h = some u → ∃ u', LC.abs c' h = some u' ∧ ∀ l v, LT.abs u l = some v → LT.abs u' l = some v := by
    intro s s' c c' I I' hcc h u hu
    obtain ⟨l, hl⟩ := LT.nonempty u (I.child h u hu)
    have hg := I.good h u l hu hl
    obtain ⟨v, hv⟩ := Map.mem_iff.1 hl
    have e : cmap K c (join h l) = some v := by rw [I.cmap_join hu hl, hv]
    rw [hcc] at e
    obtain ⟨u', hu', -⟩ := cmap_eq_some.1 e
    rw [hg] at hu'
    refine ⟨u', hu', fun l v hv => ?_⟩
    have hl := Map.mem_of hv
    have hg := I.good h u l hu hl
    have e : cmap K c (join h l) = some v := by rw [I.cmap_join hu hl, hv]
    rw [hcc] at e
    obtain ⟨u'', h1, h2⟩ := cmap_eq_some.1 e
    rw [hg] at h1 h2
    rw [hu'] at h1
    cases h1
    exact h2
  have habs : ∀ h, Option.Rel rt (LC.abs c h) (LC.abs c' h) := by
    intro h
    rcases hu : LC.abs c h with _ | u
    · rcases hu' : LC.abs c' h with _ | u'
      · exact .none
      · obtain ⟨u, h1, -⟩ := key I' I (Eq.symm ‹_›) h u' hu'
        rw [hu] at h1; cases h1
    · obtain ⟨u', h1, h2⟩ := key I I' ‹_› h u hu
      obtain ⟨u2, h3, h4⟩ := key I' I (Eq.symm ‹_›) h u' h1
      rw [hu] at h3; cases h3
      rw [h1]
      refine .some (hT u u' (I.child h u hu) (I'.child h u' h1) (funext fun l => ?_))
      rcases e : LT.abs u l with _ | v
      · rcases e' : LT.abs u' l with _ | v'
        · rfl
        · rw [h4 l v' e'] at e; cases e
      · exact (h2 l v e).symm
  refine ⟨hS s s' I.sInv I'.sInv ?_, habs⟩
  funext h
  have h1 := I.sum h
  have h2 := I'.sum h
  have h3 : (LC.abs c).Mem h ↔ (LC.abs c').Mem h := by
    unfold Map.Mem
    have := habs h
    generalize LC.abs c h = x at this
    generalize LC.abs c' h = y at this
    cases this <;> simp
  rw [h3, ← h2] at h1
  rcases e : LS.abs s h with _ | u
  · rcases e' : LS.abs s' h with _ | u'
    · rfl
    · exact absurd (Map.mem_iff.1 (h1.2 (Map.mem_of e'))) (by simp [e])
  · rcases e' : LS.abs s' h with _ | u'
    · exact absurd (Map.mem_iff.1 (h1.1 (Map.mem_of e))) (by simp [e'])
    · rfl

theorem Tree.abs_alike {rs : S → S → Prop} {rt : T → T → Prop} {rc : (T → T → Prop) → C → C → Prop} (hS : CanonR LS rs)
    (hT : CanonR LT rt) (hC : CanonCollR LC rc) {t t' : Tree K V S C} (I : t.Inv) (I' : t'.Inv) (h : t.abs = t'.abs) :
    Tree.Alike rs (rc rt) t t' := by
  obtain ⟨mn, _ | ⟨mx, ch⟩⟩ := t <;> obtain ⟨mn', _ | ⟨mx', ch'⟩⟩ := t'
  · rw [Tree.abs_none, Tree.abs_none] at h
    have h1 := congrFun h mn.1
    simp only [Map.single, Map.upd, if_true] at h1
    by_cases e : mn.1 = mn'.1
    · rw [if_pos e] at h1
      obtain ⟨a, b⟩ := mn; obtain ⟨c, d⟩ := mn'
      dsimp only at e h1; subst e; cases h1; exact ⟨rfl, .none⟩
    · rw [if_neg e] at h1; cases h1
  · rw [Tree.abs_none, Tree.abs_some] at h
    exact absurd (h ▸ ⟨mn.1, by simp [Map.single, Map.upd, Map.empty, Map.Mem], fun j hj => by simpa [Map.single, Map.upd, Map.empty, Map.Mem] using hj⟩)
      (Map.ends_not_single (M := Tree.chmap K ch') I'.1)
  · rw [Tree.abs_none, Tree.abs_some] at h
    exact absurd (h ▸ ⟨mn'.1, by simp [Map.single, Map.upd, Map.empty, Map.Mem], fun j hj => by simpa [Map.single, Map.upd, Map.empty, Map.Mem] using hj⟩)
      (Map.ends_not_single (M := Tree.chmap K ch) I.1)
  · rw [Tree.abs_some, Tree.abs_some] at h
    dsimp only at h
    have hb := I.2.between
    have hb' := I'.2.between
    obtain ⟨hlt, hch⟩ := I
    obtain ⟨hlt', hch'⟩ := I'
    dsimp only at hlt hlt' hch hch' hb hb'
    have a1 := Map.isMin_ends (M := Tree.chmap K ch) hlt hb
    have a2 := Map.isMin_ends (M := Tree.chmap K ch') hlt' hb'
    have b1 := Map.isMax_ends (M := Tree.chmap K ch) hlt hb
    have b2 := Map.isMax_ends (M := Tree.chmap K ch') hlt' hb'
    rw [h] at a1 b1
    obtain rfl : mn = mn' := by
      have e : mn.1 = mn'.1 := le_antisymm (a1.2 _ (Map.mem_of a2.1)) (a2.2 _ (Map.mem_of a1.1))
      have := a1.1; rw [e, a2.1] at this
      exact Prod.ext e (Option.some.inj this).symm
    obtain rfl : mx = mx' := by
      have e : mx.1 = mx'.1 := le_antisymm (b2.2 _ (Map.mem_of b1.1)) (b1.2 _ (Map.mem_of b2.1))
      have := b1.1; rw [e, b2.1] at this
      exact Prod.ext e (Option.some.inj this).symm
    have hm : (Tree.chmap K ch : Map K V) = Tree.chmap K ch' := by
      funext k
      by_cases e1 : k = mn.1
      · have n1 : Tree.chmap K ch k = none := by
          by_contra hne; exact absurd e1 (hb k hne).1.ne'
        have n2 : Tree.chmap K ch' k = none := by
          by_contra hne; exact absurd e1 (hb' k hne).1.ne'
        rw [n1, n2]
      · by_cases e2 : k = mx.1
        · have n1 : Tree.chmap K ch k = none := by
            by_contra hne; exact absurd e2 (hb k hne).2.ne
          have n2 : Tree.chmap K ch' k = none := by
            by_contra hne; exact absurd e2 (hb' k hne).2.ne
          rw [n1, n2]
        · have := congrFun h k
          rwa [Map.ends_inner hlt hb e1 e2, Map.ends_inner hlt hb' e1 e2] at this
    refine ⟨rfl, .some ⟨rfl, ?_⟩⟩
    obtain _ | ⟨s, c⟩ := ch <;> obtain _ | ⟨s', c'⟩ := ch'
    · exact .none
    · obtain ⟨k, hk⟩ := ChInv.exists_mem hch'
      rw [show cmap K c' = _ from hm.symm] at hk
      exact absurd hk (Map.mem_empty k)
    · obtain ⟨k, hk⟩ := ChInv.exists_mem hch
      rw [show cmap K c = _ from hm] at hk
      exact absurd hk (Map.mem_empty k)
    · obtain ⟨h1, h2⟩ := ChInv.alike hS hT hch hch' hm
      exact .some ⟨h1, hC rt c c' hch.cInv hch'.cInv h2⟩
end

/-! ## Composition -/

theorem AlikeColl.canon {C Hi T Lo V : Type} [LinearOrder Hi] [VebTree T Lo V] [TreeCollection C Hi T Lo V]
    {rc : (T → T → Prop) → C → C → Prop} (h : AlikeColl C Hi T Lo V rc) :
    ∃ L : LawfulColl C Hi T Lo V, CanonCollR L rc := by
  induction h with
  | array h => have := h.lawful; exact ⟨inferInstance, fun r c c' I I' e => ArrayColl.alike I I' e⟩
  | hash => exact ⟨inferInstance, fun r c c' I I' e => HashMap.alike I I' e⟩
  | byte => exact ⟨inferInstance, fun r c c' I I' e => ByteMap.alike I I' e⟩
  | box _ ih => obtain ⟨L, hL⟩ := ih; exact ⟨inferInstance, fun r c c' I I' e => hL r c.val c'.val I I' e⟩

theorem AlikeTree.canon {T K V : Type} [LinearOrder K] [VebTree T K V] {safe : (K → Prop) → K → Prop} {r : T → T → Prop}
    (h : AlikeTree T K V safe r) : ∃ L : LawfulVebTree T K V, L.Safe = safe ∧ CanonR L r := by
  induction h with
  | byteSet => exact ⟨inferInstance, rfl, fun t t' _ _ e => ByteSet.abs_inj e⟩
  | byteMap => exact ⟨inferInstance, rfl, fun t t' I I' e => ByteMap.abs_inj I I' e⟩
  | btreeMap => exact ⟨inferInstance, rfl, fun t t' I I' e => BTreeMap.abs_inj I I' e⟩
  | box _ ih =>
    obtain ⟨L, rfl, hL⟩ := ih
    exact ⟨inferInstance, rfl, fun t t' I I' e => hL t.val t'.val I I' e⟩
  | sized _ ih =>
    obtain ⟨L, rfl, hL⟩ := ih
    refine ⟨inferInstance, rfl, fun t t' I I' e => ⟨hL t.tree t'.tree I.1 I'.1 e, ?_⟩⟩
    rw [I.2, I'.2]
    exact congrArg Map.card e
  | tree hk _ _ hc ihs iht =>
    have := hk.lawful
    obtain ⟨LC, hC⟩ := hc.canon
    obtain ⟨LS, rfl, hS⟩ := ihs
    obtain ⟨LT, rfl, hT⟩ := iht
    exact ⟨inferInstance, rfl, fun t t' I I' e => Tree.abs_alike hS hT hC I I' e⟩

theorem AlikeFixed.canon {T K V : Type} [LinearOrder K] [VebTree T K V] {r : T → T → Prop} (h : AlikeFixed T K V r) :
    ∃ L : LawfulVebTree T K V, (∀ P k, L.Safe P k) ∧ CanonR L r := by
  induction h with
  | byteSet => exact ⟨inferInstance, fun _ _ => trivial, fun t t' _ _ e => ByteSet.abs_inj e⟩
  | byteMap => exact ⟨inferInstance, fun _ _ => trivial, fun t t' I I' e => ByteMap.abs_inj I I' e⟩
  | btreeMap => exact ⟨inferInstance, fun _ _ => trivial, fun t t' I I' e => BTreeMap.abs_inj I I' e⟩
  | box _ ih =>
    obtain ⟨L, A, hL⟩ := ih
    exact ⟨inferInstance, A, fun t t' I I' e => hL t.val t'.val I I' e⟩
  | tree hk _ _ hc ihs iht =>
    have := hk.lawful
    obtain ⟨LC, hC⟩ := hc.canon
    obtain ⟨LS, AS, hS⟩ := ihs
    obtain ⟨LT, AT, hT⟩ := iht
    exact ⟨FTree.lawful AS AT, fun _ _ => trivial, fun t t' I I' e => Tree.abs_alike hS hT hC I I' e⟩

theorem CanonR.canonical {T K V : Type} [LinearOrder K] [VebTree T K V] {L : LawfulVebTree T K V} {r : T → T → Prop}
    (hL : CanonR L r) : CanonicalUpTo L.Safe r := by
  intro ops ops' hs hs' he
  obtain ⟨t, h1, h2⟩ := run_ok (L := L) rel_none ops hs
  obtain ⟨t', h1', h2'⟩ := run_ok (L := L) rel_none ops' hs'
  rw [show (SL.run [] ops).1 = (SL.run [] ops').1 from he] at h2
  refine ⟨t, t', _, _, h1, h1', ?_⟩
  cases t with
  | none =>
    have h2 : (SL.run [] ops').1 = [] := h2
    rw [h2] at h2'
    rw [rel_nil h2']
    exact .none
  | some t =>
    cases t' with
    | none =>
      have h2' : (SL.run [] ops').1 = [] := h2'
      rw [h2'] at h2
      exact absurd (rel_nil h2) (by simp)
    | some t' => exact .some (hL t t' h2.1 h2'.1 (h2.2.ext h2'.2))

/-- every tree type of the crate has such a relation -/
theorem CrateColl.alike {C Hi T Lo V : Type} [LinearOrder Hi] [VebTree T Lo V] [TreeCollection C Hi T Lo V]
    (h : CrateColl C Hi T Lo V) : ∃ rc, AlikeColl C Hi T Lo V rc := by
  induction h with
  | array h => exact ⟨_, .array h⟩
  | hash => exact ⟨_, .hash⟩
  | byte => exact ⟨_, .byte⟩
  | box _ ih => obtain ⟨_, ih⟩ := ih; exact ⟨_, .box ih⟩

theorem CrateTree.alike {T K V : Type} [LinearOrder K] [VebTree T K V] {safe : (K → Prop) → K → Prop}
    (h : CrateTree T K V safe) : ∃ r, AlikeTree T K V safe r := by
  induction h with
  | byteSet => exact ⟨_, .byteSet⟩
  | byteMap => exact ⟨_, .byteMap⟩
  | btreeMap => exact ⟨_, .btreeMap⟩
  | box _ ih => obtain ⟨_, ih⟩ := ih; exact ⟨_, .box ih⟩
  | sized _ ih => obtain ⟨_, ih⟩ := ih; exact ⟨_, .sized ih⟩
  | tree hk _ _ hc ihs iht =>
    obtain ⟨_, ihs⟩ := ihs
    obtain ⟨_, iht⟩ := iht
    obtain ⟨_, hc⟩ := hc.alike
    exact ⟨_, .tree hk ihs iht hc⟩

theorem AlikeColl.crate {C Hi T Lo V : Type} [LinearOrder Hi] [VebTree T Lo V] [TreeCollection C Hi T Lo V]
    {rc : (T → T → Prop) → C → C → Prop} (h : AlikeColl C Hi T Lo V rc) : CrateColl C Hi T Lo V := by
  induction h with
  | array h => exact .array h
  | hash => exact .hash
  | byte => exact .byte
  | box _ ih => exact .box ih

theorem AlikeTree.crate {T K V : Type} [LinearOrder K] [VebTree T K V] {safe : (K → Prop) → K → Prop} {r : T → T → Prop}
    (h : AlikeTree T K V safe r) : CrateTree T K V safe := by
  induction h with
  | byteSet => exact .byteSet
  | byteMap => exact .byteMap
  | btreeMap => exact .btreeMap
  | box _ ih => exact .box ih
  | sized _ ih => exact .sized ih
  | tree hk _ _ hc ihs iht => exact .tree hk ihs iht hc.crate

/-! ## Without hash tables, alike is equal -/

theorem PlainColl.alike_eq {C Hi T Lo V : Type} [LinearOrder Hi] [VebTree T Lo V] [TreeCollection C Hi T Lo V]
    (h : PlainColl C Hi T Lo V) : ∃ rc, AlikeColl C Hi T Lo V rc ∧
      ∀ r : T → T → Prop, (∀ t t', r t t' → t = t') → ∀ c c', rc r c c' → c = c' := by
  induction h with
  | array h =>
    refine ⟨_, .array h, ?_⟩
    rintro r hr ⟨⟨n, f⟩, m⟩ ⟨⟨n', f'⟩, m'⟩ ⟨h1, h2, h3⟩
    dsimp only at h1 h2 h3
    obtain rfl : f = f' := funext fun i => by
      have := h3 i
      generalize f i = x at this
      generalize f' i = y at this
      cases this with
      | some h => rw [hr _ _ h]
      | none => rfl
    rw [h1, h2]
  | byte =>
    refine ⟨_, .byte, ?_⟩
    rintro r hr ⟨s, l⟩ ⟨s', l'⟩ ⟨h1, h2⟩
    dsimp only at h1 h2
    have h2 := h2.imp hr
    rw [List.forall₂_eq_eq_eq] at h2
    rw [h1, h2]
  | box _ ih =>
    obtain ⟨rc, h1, h2⟩ := ih
    exact ⟨_, .box h1, fun r hr c c' h => congrArg Box.mk (h2 r hr _ _ h)⟩

theorem PlainTree.alike_eq {T K V : Type} [LinearOrder K] [VebTree T K V] {safe : (K → Prop) → K → Prop}
    (h : PlainTree T K V safe) : ∃ r, AlikeTree T K V safe r ∧ ∀ t t', r t t' → t = t' := by
  induction h with
  | byteSet => exact ⟨_, .byteSet, fun _ _ h => h⟩
  | byteMap => exact ⟨_, .byteMap, fun _ _ h => h⟩
  | btreeMap => exact ⟨_, .btreeMap, fun _ _ h => h⟩
  | box _ ih => obtain ⟨r, h1, h2⟩ := ih; exact ⟨_, .box h1, fun t t' h => congrArg Box.mk (h2 _ _ h)⟩
  | sized _ ih =>
    obtain ⟨r, h1, h2⟩ := ih
    refine ⟨_, .sized h1, ?_⟩
    rintro ⟨a, b⟩ ⟨c, d⟩ ⟨h3, h4⟩
    dsimp only at h3 h4
    rw [h2 _ _ h3, h4]
  | tree hk _ _ hc ihs iht =>
    obtain ⟨rs, hs1, hs2⟩ := ihs
    obtain ⟨rt, ht1, ht2⟩ := iht
    obtain ⟨rc, hc1, hc2⟩ := hc.alike_eq
    refine ⟨_, .tree hk hs1 ht1 hc1, ?_⟩
    rintro ⟨mn, d⟩ ⟨mn', d'⟩ ⟨h1, h2⟩
    dsimp only at h1 h2
    subst h1
    cases h2 with
    | none => rfl
    | @some d d' h =>
      obtain ⟨mx, ch⟩ := d
      obtain ⟨mx', ch'⟩ := d'
      obtain ⟨h3, h4⟩ := h
      dsimp only at h3 h4
      subst h3
      cases h4 with
      | none => rfl
      | @some p p' h =>
        obtain ⟨s, c⟩ := p
        obtain ⟨s', c'⟩ := p'
        obtain rfl : s = s' := hs2 _ _ h.1
        obtain rfl : c = c' := hc2 _ ht2 _ _ h.2
        rfl

end Veb
