import Verif.SpecCanon
import Verif.Proof.Crate
import Verif.Proof.TreeFixed
import Verif.Proof.Hist

/-!
The contents determine the structure.
-/

set_option autoImplicit false
set_option linter.unusedSectionVars false
namespace Veb

/-- good trees with the same contents are equal -/
def Canon {T K V : Type} [LinearOrder K] [VebTree T K V] (L : LawfulVebTree T K V) : Prop :=
  ∀ t t', L.Inv t → L.Inv t' → L.abs t = L.abs t' → t = t'
/-- good collections with the same contents are equal -/
def CanonColl {C Hi T Lo V : Type} [DecidableEq Hi] [VebTree T Lo V] [TreeCollection C Hi T Lo V]
    (L : LawfulColl C Hi T Lo V) : Prop :=
  ∀ c c', L.Inv c → L.Inv c' → L.abs c = L.abs c' → c = c'

theorem ByteSet.abs_inj {s s' : ByteSet} (h : s.abs = s'.abs) : s = s' := by
  obtain ⟨w⟩ := s; obtain ⟨w'⟩ := s'
  congr 1
  refine words_ext fun n hn => ?_
  obtain ⟨k, rfl⟩ := of_nat n hn
  have := congrFun h k
  simp only [abs] at this
  revert this
  cases w.bitAt (nat k) <;> cases w'.bitAt (nat k) <;> simp

theorem cnt_onto (p : Nat → Bool) {i : Nat} : ∀ {N : Nat}, i < cnt p N → ∃ n, n < N ∧ p n = true ∧ cnt p n = i
  | 0, h => absurd h (by simp [cnt])
  | N + 1, h => by
    by_cases hi : i < cnt p N
    · obtain ⟨n, h1, h2⟩ := cnt_onto p hi
      exact ⟨n, by omega, h2⟩
    · rw [cnt_succ] at h
      by_cases hp : p N = true
      · rw [if_pos hp] at h
        exact ⟨N, by omega, hp, by omega⟩
      · rw [if_neg hp] at h
        omega

theorem ByteMap.abs_inj {A : Type} {m m' : ByteMap A} (I : m.Inv) (I' : m'.Inv) (h : m.abs = m'.abs) : m = m' := by
  have hs : m.set = m'.set := by
    refine ByteSet.abs_inj (funext fun k => ?_)
    have h1 := mem_abs I (k := k)
    have h2 := mem_abs I' (k := k)
    rw [h, h2] at h1
    simp only [ByteSet.abs]
    revert h1
    cases m.set.words.bitAt (ByteSet.nat k) <;> cases m'.set.words.bitAt (ByteSet.nat k) <;> simp
  obtain ⟨s, l⟩ := m; obtain ⟨s', l'⟩ := m'
  obtain rfl : s = s' := hs
  congr 1
  refine List.ext_getElem? fun i => ?_
  have hl : l.length = l'.length := I.2.trans I'.2.symm
  by_cases hi : i < l.length
  · have hi' : i < cnt s.words.bitAt 256 := by have := I.2; dsimp only at this; omega
    obtain ⟨n, hn, hp, rfl⟩ := cnt_onto _ hi'
    obtain ⟨k, rfl⟩ := ByteSet.of_nat n hn
    have := congrFun h k
    simpa only [abs, hp, if_true] using this
  · rw [List.getElem?_eq_none (by omega), List.getElem?_eq_none (by omega)]

theorem BTreeMap.abs_inj {K V : Type} [LinearOrder K] {t t' : BTreeMap K V} (I : t.Inv) (I' : t'.Inv) (h : t.abs = t'.abs) :
    t = t' := by
  have h1 := lists I
  have h2 := lists I'
  rw [h] at h1
  obtain ⟨l⟩ := t; obtain ⟨l'⟩ := t'
  congr 1
  exact h1.unique h2

theorem ArrayColl.abs_inj {Hi T : Type} [SizedVebKey Hi] {c c' : ArrayColl Hi T} (I : c.Inv) (I' : c'.Inv)
    (h : c.abs = c'.abs) : c = c' := by
  obtain ⟨⟨n, f⟩, m⟩ := c; obtain ⟨⟨n', f'⟩, m'⟩ := c'
  obtain ⟨h1, h2, -, h3⟩ := I
  obtain ⟨h1', h2', -, h3'⟩ := I'
  dsimp only at h1 h1' h2 h2' h3 h3'
  have hf : f = f' := by
    funext j
    by_cases hj : ∃ k : Hi, SizedVebKey.index k = j
    · obtain ⟨k, rfl⟩ := hj
      exact congrFun h k
    · have e : f j = none := by
        by_contra hne
        exact hj (h3 j hne)
      have e' : f' j = none := by
        by_contra hne
        exact hj (h3' j hne)
      rw [e, e']
  subst hf
  rw [h1, h1', h2, h2']
  exact congrArg _ (congrArg Map.card h)

section
variable {K V S C Hi Lo T : Type} [LinearOrder K] [LinearOrder Hi] [LinearOrder Lo]
  [VebKey K Hi Lo] [VebKeyRef K Hi Lo] [LK : LawfulVebKey K Hi Lo]
  [VebTree S Hi Unit] [LS : LawfulVebTree S Hi Unit]
  [VebTree T Lo V] [LT : LawfulVebTree T Lo V]
  [TreeCollection C Hi T Lo V] [LC : LawfulColl C Hi T Lo V]
open VebKey (splitVal join)

theorem ChInv.inj (hS : Canon LS) (hT : Canon LT) (hC : CanonColl LC) {B : K → Prop} {s s' : S} {c c' : C}
    (I : ChInv B s c) (I' : ChInv B s' c') (h : cmap K c = cmap K c') : s = s' ∧ c = c' := by
  have key : ∀ {s s' : S} {c c' : C}, ChInv B s c → ChInv B s' c' → cmap K c = cmap K c' → ∀ h u,
      LC.abs c h = some u → ∃ u', LC.abs c' h = some u' ∧ ∀ l v, LT.abs u l = some v → LT.abs u' l = some v := by
    intro s s' c c' I I' hcc h u hu
    obtain ⟨l, hl⟩ := LT.nonempty u (I.child h u hu)
    have hg := I.good h u l hu hl
    obtain ⟨v, hv⟩ := Map.mem_iff.1 hl
    have e : cmap K c (join h l) = some v := by rw [I.cmap_join hu hl, hv]
    rw [hcc] at e
    obtain ⟨u', hu', -⟩ := cmap_eq_some.1 e
    rw [hg] at hu'
    refine ⟨u', hu', fun l v hv => ?_⟩
    have hl := Map.mem_of hv
    have hg := I.good h u l hu hl
    have e : cmap K c (join h l) = some v := by rw [I.cmap_join hu hl, hv]
    rw [hcc] at e
    obtain ⟨u'', h1, h2⟩ := cmap_eq_some.1 e
    rw [hg] at h1 h2
    rw [hu'] at h1
    cases h1
    exact h2
  have habs : LC.abs c = LC.abs c' := by
    funext h
    rcases hu : LC.abs c h with _ | u
    · rcases hu' : LC.abs c' h with _ | u'
      · rfl
      · obtain ⟨u, h1, -⟩ := key I' I (Eq.symm ‹_›) h u' hu'
        rw [hu] at h1; cases h1
    · obtain ⟨u', h1, h2⟩ := key I I' ‹_› h u hu
      obtain ⟨u2, h3, h4⟩ := key I' I (Eq.symm ‹_›) h u' h1
      rw [hu] at h3; cases h3
      rw [h1]
      congr 1
      refine hT u u' (I.child h u hu) (I'.child h u' h1) (funext fun l => ?_)
      rcases e : LT.abs u l with _ | v
      · rcases e' : LT.abs u' l with _ | v'
        · rfl
        · rw [h4 l v' e'] at e; cases e
      · exact (h2 l v e).symm
  refine ⟨hS s s' I.sInv I'.sInv ?_, hC c c' I.cInv I'.cInv habs⟩
  funext h
  have h1 := I.sum h
  have h2 := I'.sum h
  rw [habs, ← h2] at h1
  rcases e : LS.abs s h with _ | u
  · rcases e' : LS.abs s' h with _ | u'
    · rfl
    · exact absurd (Map.mem_iff.1 (h1.2 (Map.mem_of e'))) (by simp [e])
  · rcases e' : LS.abs s' h with _ | u'
    · exact absurd (Map.mem_iff.1 (h1.1 (Map.mem_of e))) (by simp [e'])
    · rfl

theorem Tree.abs_inj (hS : Canon LS) (hT : Canon LT) (hC : CanonColl LC) {t t' : Tree K V S C} (I : t.Inv) (I' : t'.Inv)
    (h : t.abs = t'.abs) : t = t' := by
  obtain ⟨mn, _ | ⟨mx, ch⟩⟩ := t <;> obtain ⟨mn', _ | ⟨mx', ch'⟩⟩ := t'
  · rw [Tree.abs_none, Tree.abs_none] at h
    have h1 := congrFun h mn.1
    simp only [Map.single, Map.upd, if_true] at h1
    by_cases e : mn.1 = mn'.1
    · rw [if_pos e] at h1
      obtain ⟨a, b⟩ := mn; obtain ⟨c, d⟩ := mn'
      dsimp only at e h1; subst e; cases h1; rfl
    · rw [if_neg e] at h1; cases h1
  · rw [Tree.abs_none, Tree.abs_some] at h
    exact absurd (h ▸ ⟨mn.1, by simp [Map.single, Map.upd, Map.empty, Map.Mem], fun j hj => by simpa [Map.single, Map.upd, Map.empty, Map.Mem] using hj⟩)
      (Map.ends_not_single (M := Tree.chmap K ch') I'.1)
  · rw [Tree.abs_none, Tree.abs_some] at h
    exact absurd (h ▸ ⟨mn'.1, by simp [Map.single, Map.upd, Map.empty, Map.Mem], fun j hj => by simpa [Map.single, Map.upd, Map.empty, Map.Mem] using hj⟩)
      (Map.ends_not_single (M := Tree.chmap K ch) I.1)
  · rw [Tree.abs_some, Tree.abs_some] at h
    dsimp only at h
    have hb := I.2.between
    have hb' := I'.2.between
    obtain ⟨hlt, hch⟩ := I
    obtain ⟨hlt', hch'⟩ := I'
    dsimp only at hlt hlt' hch hch' hb hb'
    have a1 := Map.isMin_ends (M := Tree.chmap K ch) hlt hb
    have a2 := Map.isMin_ends (M := Tree.chmap K ch') hlt' hb'
    have b1 := Map.isMax_ends (M := Tree.chmap K ch) hlt hb
    have b2 := Map.isMax_ends (M := Tree.chmap K ch') hlt' hb'
    rw [h] at a1 b1
    obtain rfl : mn = mn' := by
      have e : mn.1 = mn'.1 := le_antisymm (a1.2 _ (Map.mem_of a2.1)) (a2.2 _ (Map.mem_of a1.1))
      have := a1.1; rw [e, a2.1] at this
      exact Prod.ext e (Option.some.inj this).symm
    obtain rfl : mx = mx' := by
      have e : mx.1 = mx'.1 := le_antisymm (b2.2 _ (Map.mem_of b1.1)) (b1.2 _ (Map.mem_of b2.1))
      have := b1.1; rw [e, b2.1] at this
      exact Prod.ext e (Option.some.inj this).symm
    have hm : (Tree.chmap K ch : Map K V) = Tree.chmap K ch' := by
      funext k
      by_cases e1 : k = mn.1
      · have n1 : Tree.chmap K ch k = none := by
          by_contra hne; exact absurd e1 (hb k hne).1.ne'
        have n2 : Tree.chmap K ch' k = none := by
          by_contra hne; exact absurd e1 (hb' k hne).1.ne'
        rw [n1, n2]
      · by_cases e2 : k = mx.1
        · have n1 : Tree.chmap K ch k = none := by
            by_contra hne; exact absurd e2 (hb k hne).2.ne
          have n2 : Tree.chmap K ch' k = none := by
            by_contra hne; exact absurd e2 (hb' k hne).2.ne
          rw [n1, n2]
        · have := congrFun h k
          rwa [Map.ends_inner hlt hb e1 e2, Map.ends_inner hlt hb' e1 e2] at this
    obtain _ | ⟨s, c⟩ := ch <;> obtain _ | ⟨s', c'⟩ := ch'
    · rfl
    · obtain ⟨k, hk⟩ := ChInv.exists_mem hch'
      rw [show cmap K c' = _ from hm.symm] at hk
      exact absurd hk (Map.mem_empty k)
    · obtain ⟨k, hk⟩ := ChInv.exists_mem hch
      rw [show cmap K c = _ from hm] at hk
      exact absurd hk (Map.mem_empty k)
    · obtain ⟨rfl, rfl⟩ := ChInv.inj hS hT hC hch hch' hm
      rfl
end

/-! ## Composition -/

theorem PlainColl.canon {C Hi T Lo V : Type} [LinearOrder Hi] [VebTree T Lo V] [TreeCollection C Hi T Lo V]
    (h : PlainColl C Hi T Lo V) : ∃ L : LawfulColl C Hi T Lo V, CanonColl L := by
  induction h with
  | array h => have := h.lawful; exact ⟨inferInstance, fun c c' I I' e => ArrayColl.abs_inj I I' e⟩
  | byte => exact ⟨inferInstance, fun c c' I I' e => ByteMap.abs_inj I I' e⟩
  | box _ ih => obtain ⟨L, hL⟩ := ih; exact ⟨inferInstance, fun c c' I I' e => congrArg Box.mk (hL c.val c'.val I I' e)⟩

theorem PlainTree.canon {T K V : Type} [LinearOrder K] [VebTree T K V] {safe : (K → Prop) → K → Prop}
    (h : PlainTree T K V safe) : ∃ L : LawfulVebTree T K V, L.Safe = safe ∧ Canon L := by
  induction h with
  | byteSet => exact ⟨inferInstance, rfl, fun t t' _ _ e => ByteSet.abs_inj e⟩
  | byteMap => exact ⟨inferInstance, rfl, fun t t' I I' e => ByteMap.abs_inj I I' e⟩
  | btreeMap => exact ⟨inferInstance, rfl, fun t t' I I' e => BTreeMap.abs_inj I I' e⟩
  | box _ ih =>
    obtain ⟨L, rfl, hL⟩ := ih
    exact ⟨inferInstance, rfl, fun t t' I I' e => congrArg Box.mk (hL t.val t'.val I I' e)⟩
  | sized _ ih =>
    obtain ⟨L, rfl, hL⟩ := ih
    refine ⟨inferInstance, rfl, fun t t' I I' e => ?_⟩
    have h1 := hL t.tree t'.tree I.1 I'.1 e
    have h2 : t.size = t'.size := by rw [I.2, I'.2, h1]
    obtain ⟨a, b⟩ := t; obtain ⟨c, d⟩ := t'
    dsimp only at h1 h2; subst h1 h2; rfl
  | tree hk _ _ hc ihs iht =>
    have := hk.lawful
    obtain ⟨LC, hC⟩ := hc.canon
    obtain ⟨LS, rfl, hS⟩ := ihs
    obtain ⟨LT, rfl, hT⟩ := iht
    exact ⟨inferInstance, rfl, fun t t' I I' e => Tree.abs_inj hS hT hC I I' e⟩

theorem PlainFixed.canon {T K V : Type} [LinearOrder K] [VebTree T K V] (h : PlainFixed T K V) :
    ∃ L : LawfulVebTree T K V, (∀ P k, L.Safe P k) ∧ Canon L := by
  induction h with
  | byteSet => exact ⟨inferInstance, fun _ _ => trivial, fun t t' _ _ e => ByteSet.abs_inj e⟩
  | byteMap => exact ⟨inferInstance, fun _ _ => trivial, fun t t' I I' e => ByteMap.abs_inj I I' e⟩
  | btreeMap => exact ⟨inferInstance, fun _ _ => trivial, fun t t' I I' e => BTreeMap.abs_inj I I' e⟩
  | box _ ih =>
    obtain ⟨L, A, hL⟩ := ih
    exact ⟨inferInstance, A, fun t t' I I' e => congrArg Box.mk (hL t.val t'.val I I' e)⟩
  | tree hk _ _ hc ihs iht =>
    have := hk.lawful
    obtain ⟨LC, hC⟩ := hc.canon
    obtain ⟨LS, AS, hS⟩ := ihs
    obtain ⟨LT, AT, hT⟩ := iht
    exact ⟨FTree.lawful AS AT, fun _ _ => trivial,
      fun t t' I I' e => congrArg FTree.mk (Tree.abs_inj hS hT hC I I' e)⟩

theorem Canon.canonical {T K V : Type} [LinearOrder K] [VebTree T K V] {L : LawfulVebTree T K V} (hL : Canon L) :
    Canonical T L.Safe := by
  intro ops ops' hs hs' he
  obtain ⟨t, h1, h2⟩ := run_ok (L := L) rel_none ops hs
  obtain ⟨t', h1', h2'⟩ := run_ok (L := L) rel_none ops' hs'
  rw [show (SL.run [] ops).1 = (SL.run [] ops').1 from he] at h2
  suffices e : t = t' by
    subst e; exact ⟨t, _, _, h1, h1'⟩
  cases t with
  | none =>
    have h2 : (SL.run [] ops').1 = [] := h2
    rw [h2] at h2'
    exact (rel_nil h2').symm
  | some t =>
    cases t' with
    | none =>
      have h2' : (SL.run [] ops').1 = [] := h2'
      rw [h2'] at h2
      exact rel_nil h2
    | some t' => rw [hL t t' h2.1 h2'.1 (h2.2.ext h2'.2)]

end Veb
