import Verif.SpecFixed
import Verif.Proof.Hist

/-!
The corrected tree is lawful for every insertion.
-/

set_option autoImplicit false
set_option linter.unusedSectionVars false

namespace Veb
open VebKey (splitVal join)

variable {K V S C Hi Lo T : Type} [LinearOrder K] [LinearOrder Hi] [LinearOrder Lo]
  [VebKey K Hi Lo] [VebKeyRef K Hi Lo] [LK : LawfulVebKey K Hi Lo]
  [VebTree S Hi Unit] [LS : LawfulVebTree S Hi Unit]
  [VebTree T Lo V] [LT : LawfulVebTree T Lo V]
  [TreeCollection C Hi T Lo V] [LC : LawfulColl C Hi T Lo V]

theorem Tree.insertFixed_ok (AS : ∀ P k, LS.Safe P k) (AT : ∀ P k, LT.Safe P k) (t : Tree K V S C) (k : K)
    (v : V) (h : t.Inv) : ∃ t', t.insertFixed k v = .ok (t', (t.abs k).map fun v => (k, v)) ∧ t'.Inv ∧
      t'.abs = t.abs.upd k (some v) := by
  obtain ⟨mn, d⟩ := t
  by_cases hd : k < mn.1 ∧ d ≠ none
  · obtain ⟨hk, hd⟩ := hd
    obtain ⟨⟨mx, ch⟩, rfl⟩ := Option.ne_none_iff_exists'.1 hd
    have h1 : mn.1 < mx.1 := h.1
    have h2 : ChOK (Btw mn.1 mx.1) ch := h.2
    have h2' : ChOK (Btw k mx.1) ch := h2.rebound fun j hj => ⟨hk.trans (h2.between j hj).1, (h2.between j hj).2⟩
    obtain ⟨ch', e1, e2, e3⟩ := insertBelow_ok (mn := (k, v)) (mx := mx) (k := mn.1) (v := mn.2) h2' ⟨hk, h1⟩
      fun s c _ => ⟨fun _ _ => AT _ _, fun _ => AS _ _⟩
    have hn : chmap K ch mn.1 = none := Map.inner_min h1 h2.between
    have hn' : Map.ends mn mx (chmap K ch) k = none := by
      by_contra hc
      exact absurd ((Map.isMin_ends h1 h2.between).2 _ hc) (not_le.mpr hk)
    refine ⟨_, ?_, inv_some (mn := (k, v)) (d := ⟨mx, ch'⟩) (hk.trans h1) e2, ?_⟩
    · simp [insertFixed, cmp_lt hk, cmp_lt h1, e1, abs_some, hn, hn']
    · simp only [abs_some, e3]
      rw [Map.ends_new_min _ h1 hk]
  · have e : (⟨mn, d⟩ : Tree K V S C).insertFixed k v = (⟨mn, d⟩ : Tree K V S C).insert k v := by
      simp only [insertFixed]
      split
      · rename_i _ _ hc
        refine absurd ⟨?_, by simp⟩ hd
        rcases lt_trichotomy k mn.1 with h | h | h
        · exact h
        · rw [h, cmp_self] at hc; cases hc
        · rw [cmp_gt h] at hc; cases hc
      · rfl
    rw [e]
    refine insert_ok _ k v h ?_
    intro a b ha hb hab hbd
    refine ⟨?_, .inr (.inr fun _ _ => ⟨fun _ _ _ => AT _ _, fun _ _ _ _ => AS _ _⟩)⟩
    by_contra hlt
    rw [not_le] at hlt
    obtain _ | d := d
    · have e1 : a = mn.1 := (Map.mem_single (v := mn.2) _ _).1 ha
      have e2 : b = mn.1 := (Map.mem_single (v := mn.2) _ _).1 hb
      exact hab (e1.trans e2.symm)
    · have hm := Map.isMin_ends h.1 h.2.between
      exact hd ⟨hlt.trans_le (hbd _ (Map.mem_of hm.1)).1, by simp⟩

namespace FTree

theorem remOk {M : Map K V} {o : Option (Tree K V S C)} (h : RemOk Tree.Inv Tree.abs M o) :
    RemOk (fun t : FTree K V S C => t.val.Inv) (fun t : FTree K V S C => t.val.abs) M (o.map FTree.mk) := by
  cases o <;> exact h

theorem mutOk {t : FTree K V S C} {Q : Option (K × V) → Prop} {r : Option (K × V × (V → Tree K V S C))}
    (h : MutOk Tree.Inv Tree.abs t.val Q r) :
    MutOk (fun t : FTree K V S C => t.val.Inv) (fun t : FTree K V S C => t.val.abs) t Q
      (r.map (mapPut FTree.mk)) :=
  h.map fun _ _ _ _ _ h1 h2 => ⟨h1, h2⟩

@[reducible] def lawful (AS : ∀ P k, LS.Safe P k) (AT : ∀ P k, LT.Safe P k) :
    LawfulVebTree (FTree K V S C) K V :=
  let L : LawfulVebTree (Tree K V S C) K V := inferInstance
  { Inv := fun t => t.val.Inv
    abs := fun t => t.val.abs
    Safe := always
    nonempty := fun t => L.nonempty t.val
    finite := fun t => L.finite t.val
    fromMonad := L.fromMonad
    isMonad := fun t => L.isMonad t.val
    lenHint := fun t => L.lenHint t.val
    intoMonad := fun t h => by
      rcases L.intoMonad t.val h with ⟨k, v, h1, h2⟩ | ⟨h1, h2⟩
      · refine .inl ⟨k, v, ?_, h2⟩
        replace h1 : t.val.intoMonad = .ok (.Ok (k, v)) := h1
        simp [VebTree.intoMonad, h1]
      · refine .inr ⟨?_, h2⟩
        replace h1 : t.val.intoMonad = .ok (.Err t.val) := h1
        simp [VebTree.intoMonad, h1]
    minVal := fun t => L.minVal t.val
    minValMut := fun t h => by
      obtain ⟨⟨k, v, put⟩, h1, h2, h3⟩ := L.minValMut t.val h
      replace h1 : t.val.minValMut = .ok (k, v, put) := h1
      exact ⟨(k, v, fun w => ⟨put w⟩), by simp only [VebTree.minValMut, h1]; rfl, h2, h3⟩
    maxVal := fun t => L.maxVal t.val
    maxValMut := fun t h => by
      obtain ⟨⟨k, v, put⟩, h1, h2, h3⟩ := L.maxValMut t.val h
      replace h1 : t.val.maxValMut = .ok (k, v, put) := h1
      exact ⟨(k, v, fun w => ⟨put w⟩), by simp only [VebTree.maxValMut, h1]; rfl, h2, h3⟩
    find := fun t => L.find t.val
    findMut := fun t k h => by
      obtain ⟨r, h1, h2⟩ := L.findMut t.val k h
      replace h1 : t.val.findMut k = .ok r := h1
      exact ⟨_, by simp only [VebTree.findMut, h1]; rfl, mutOk h2⟩
    predecessor := fun t => L.predecessor t.val
    predecessorMut := fun t k h => by
      obtain ⟨r, h1, h2⟩ := L.predecessorMut t.val k h
      replace h1 : t.val.predecessorMut k = .ok r := h1
      exact ⟨_, by simp only [VebTree.predecessorMut, h1]; rfl, mutOk h2⟩
    successor := fun t => L.successor t.val
    successorMut := fun t k h => by
      obtain ⟨r, h1, h2⟩ := L.successorMut t.val k h
      replace h1 : t.val.successorMut k = .ok r := h1
      exact ⟨_, by simp only [VebTree.successorMut, h1]; rfl, mutOk h2⟩
    insert := fun t k v h _ => by
      obtain ⟨t', h1, h2⟩ := Tree.insertFixed_ok AS AT t.val k v h
      exact ⟨⟨t'⟩, by simp [VebTree.insert, h1], h2⟩
    remove_none := fun t k h hk => by
      have h1 : t.val.remove k = .ok (.Err t.val) := L.remove_none t.val k h hk
      simp [VebTree.remove, h1]
    remove_some := fun t k v h hk => by
      obtain ⟨o, h1, h2⟩ := L.remove_some t.val k v h hk
      replace h1 : t.val.remove k = .ok (.Ok (o, (k, v))) := h1
      exact ⟨_, by simp only [VebTree.remove, h1]; rfl, remOk h2⟩
    removeMin := fun t h => by
      obtain ⟨o, kv, h1, h2, h3⟩ := L.removeMin t.val h
      replace h1 : t.val.removeMin = .ok (o, kv) := h1
      exact ⟨_, kv, by simp only [VebTree.removeMin, h1]; rfl, h2, remOk h3⟩
    removeMax := fun t h => by
      obtain ⟨o, kv, h1, h2, h3⟩ := L.removeMax t.val h
      replace h1 : t.val.removeMax = .ok (o, kv) := h1
      exact ⟨_, kv, by simp only [VebTree.removeMax, h1]; rfl, h2, remOk h3⟩ }

end FTree

omit K V S C Hi Lo T in
theorem FixedTree.lawful {T K V : Type} [LinearOrder K] [VebTree T K V] (h : FixedTree T K V) :
    ∃ L : LawfulVebTree T K V, ∀ P k, L.Safe P k := by
  induction h with
  | byteSet => exact ⟨inferInstance, fun _ _ => trivial⟩
  | byteMap => exact ⟨inferInstance, fun _ _ => trivial⟩
  | btreeMap => exact ⟨inferInstance, fun _ _ => trivial⟩
  | box _ ih => obtain ⟨L, A⟩ := ih; exact ⟨inferInstance, A⟩
  | tree hk _ _ hc ihs iht =>
    have := hk.lawful
    obtain ⟨LC⟩ := hc.lawful
    obtain ⟨LS, AS⟩ := ihs
    obtain ⟨LT, AT⟩ := iht
    exact ⟨FTree.lawful AS AT, fun _ _ => trivial⟩

end Veb
