import Verif.Proof.Collection
import Verif.Model.Wrappers

/-!
`Box`, `SizedVebTree` and `BTreeMap` are lawful.
-/

set_option linter.unusedSectionVars false

namespace Veb

section mapPut
variable {T T' K V : Type} [LinearOrder K]

/-- transport of `MutOk` along a wrapper -/
theorem MutOk.map {Inv : T → Prop} {abs : T → Map K V} {Inv' : T' → Prop} {abs' : T' → Map K V} {t : T}
    {t' : T'} {f : T → T'} {Q : Option (K × V) → Prop} {r : Option (K × V × (V → T))}
    (h : MutOk Inv abs t Q r)
    (hf : ∀ k v put, r = some (k, v, put) → ∀ w, Inv (put w) → abs (put w) = (abs t).upd k (some w) →
      Inv' (f (put w)) ∧ abs' (f (put w)) = (abs' t').upd k (some w)) :
    MutOk Inv' abs' t' Q (r.map (mapPut f)) := by
  obtain ⟨h1, h2⟩ := h
  obtain _ | ⟨k, v, put⟩ := r
  · exact ⟨h1, by simp⟩
  · refine ⟨h1, ?_⟩
    rintro _ _ _ ⟨⟩ w
    exact hf _ _ _ rfl w (h2 _ _ _ rfl w).1 (h2 _ _ _ rfl w).2

end mapPut

/-! ## Box -/

namespace Box
variable {T K V : Type} [LinearOrder K] [VebTree T K V] [LT : LawfulVebTree T K V]

theorem remOk {M : Map K V} {o : Option T} (h : RemOk LT.Inv LT.abs M o) :
    RemOk (fun t : Box T => LT.Inv t.val) (fun t : Box T => LT.abs t.val) M (o.map Box.mk) := by
  cases o <;> exact h

theorem mutOk {t : Box T} {Q : Option (K × V) → Prop} {r : Option (K × V × (V → T))}
    (h : MutOk LT.Inv LT.abs t.val Q r) :
    MutOk (fun t : Box T => LT.Inv t.val) (fun t : Box T => LT.abs t.val) t Q (r.map (mapPut Box.mk)) :=
  h.map fun _ _ _ _ _ h1 h2 => ⟨h1, h2⟩

instance : LawfulVebTree (Box T) K V where
  Inv t := LT.Inv t.val
  abs t := LT.abs t.val
  Safe := LT.Safe
  nonempty t := LT.nonempty t.val
  finite t := LT.finite t.val
  fromMonad := LT.fromMonad
  isMonad t := LT.isMonad t.val
  lenHint t := LT.lenHint t.val
  intoMonad t h := by
    rcases LT.intoMonad t.val h with ⟨k, v, h1, h2⟩ | ⟨h1, h2⟩
    · exact .inl ⟨k, v, by simp [VebTree.intoMonad, h1], h2⟩
    · exact .inr ⟨by simp [VebTree.intoMonad, h1], h2⟩
  minVal t := LT.minVal t.val
  minValMut t h := by
    obtain ⟨⟨k, v, put⟩, h1, h2, h3⟩ := LT.minValMut t.val h
    exact ⟨(k, v, fun w => ⟨put w⟩), by simp only [VebTree.minValMut, h1]; rfl, h2, h3⟩
  maxVal t := LT.maxVal t.val
  maxValMut t h := by
    obtain ⟨⟨k, v, put⟩, h1, h2, h3⟩ := LT.maxValMut t.val h
    exact ⟨(k, v, fun w => ⟨put w⟩), by simp only [VebTree.maxValMut, h1]; rfl, h2, h3⟩
  find t := LT.find t.val
  findMut t k h := by
    obtain ⟨r, h1, h2⟩ := LT.findMut t.val k h
    exact ⟨_, by simp only [VebTree.findMut, h1]; rfl, mutOk h2⟩
  predecessor t := LT.predecessor t.val
  predecessorMut t k h := by
    obtain ⟨r, h1, h2⟩ := LT.predecessorMut t.val k h
    exact ⟨_, by simp only [VebTree.predecessorMut, h1]; rfl, mutOk h2⟩
  successor t := LT.successor t.val
  successorMut t k h := by
    obtain ⟨r, h1, h2⟩ := LT.successorMut t.val k h
    exact ⟨_, by simp only [VebTree.successorMut, h1]; rfl, mutOk h2⟩
  insert t k v h hs := by
    obtain ⟨t', h1, h2⟩ := LT.insert t.val k v h hs
    exact ⟨⟨t'⟩, by simp [VebTree.insert, h1], h2⟩
  remove_none t k h hk := by simp [VebTree.remove, LT.remove_none t.val k h hk]
  remove_some t k v h hk := by
    obtain ⟨o, h1, h2⟩ := LT.remove_some t.val k v h hk
    exact ⟨_, by simp only [VebTree.remove, h1]; rfl, remOk h2⟩
  removeMin t h := by
    obtain ⟨o, kv, h1, h2, h3⟩ := LT.removeMin t.val h
    exact ⟨_, kv, by simp only [VebTree.removeMin, h1]; rfl, h2, remOk h3⟩
  removeMax t h := by
    obtain ⟨o, kv, h1, h2, h3⟩ := LT.removeMax t.val h
    exact ⟨_, kv, by simp only [VebTree.removeMax, h1]; rfl, h2, remOk h3⟩

instance [M : MonoSafe T K V] : MonoSafe (Box T) K V where
  present := M.present
  append := M.append

end Box

/-! ## SizedVebTree -/

namespace SizedVebTree
variable {T K V : Type} [LinearOrder K] [VebTree T K V] [LT : LawfulVebTree T K V]

def Inv (t : SizedVebTree T) : Prop := LT.Inv t.tree ∧ t.size = (LT.abs t.tree).card
def abs (t : SizedVebTree T) : Map K V := LT.abs t.tree

/-- The inner insertion is safe and the counter does not overflow. -/
def Safe (P : K → Prop) (k : K) : Prop := LT.Safe P k ∧ (P k ∨ Set.ncard {j | P j} < usizeMax)

theorem mutOk {t : SizedVebTree T} (I : t.Inv) {Q : Option (K × V) → Prop}
    {r : Option (K × V × (V → T))} (h : MutOk LT.Inv LT.abs t.tree Q r)
    (hm : ∀ k v, Q (some (k, v)) → (LT.abs t.tree).Mem k) :
    MutOk Inv abs t Q (r.map (mapPut fun u => ⟨u, t.size⟩)) := by
  have hq := h.1
  refine h.map fun k v put e w h1 h2 => ⟨⟨h1, ?_⟩, h2⟩
  subst e
  show t.size = (LT.abs (put w)).card
  rw [h2, Map.card_upd_of_mem (hm k v hq), I.2]

theorem putOk {t : SizedVebTree T} (I : t.Inv) {k : K} {put : V → T} (hm : (LT.abs t.tree).Mem k)
    (h : PutOk LT.Inv LT.abs t.tree k put) :
    PutOk Inv abs t k fun w => (⟨put w, t.size⟩ : SizedVebTree T) := by
  intro w
  refine ⟨⟨(h w).1, ?_⟩, (h w).2⟩
  show t.size = (LT.abs (put w)).card
  rw [(h w).2, Map.card_upd_of_mem hm, I.2]

theorem card_pos {t : SizedVebTree T} (I : t.Inv) : 0 < t.size := by
  rw [I.2]; exact (Set.ncard_pos (LT.finite _ I.1)).2 (LT.nonempty _ I.1)

theorem size_after {t : SizedVebTree T} (I : t.Inv) {k : K} (hk : (LT.abs t.tree).Mem k) {t' : T}
    (h : RemOk LT.Inv LT.abs ((LT.abs t.tree).upd k none) (some t')) :
    nonZero (t.size - 1) = some (t.size - 1) ∧ (⟨t', t.size - 1⟩ : SizedVebTree T).Inv := by
  have h1 := Map.card_upd_none (LT.finite _ I.1) hk
  have h2 : 0 < (LT.abs t').card := (Set.ncard_pos (LT.finite _ h.1)).2 (LT.nonempty _ h.1)
  rw [h.2] at h2
  have h3 := I.2
  refine ⟨?_, h.1, ?_⟩
  · have : t.size - 1 ≠ 0 := by omega
    simp [nonZero, this]
  · simp only [h.2]; omega

instance : LawfulVebTree (SizedVebTree T) K V where
  Inv := Inv
  abs := abs
  Safe := Safe (LT := LT)
  nonempty t I := LT.nonempty t.tree I.1
  finite t I := LT.finite t.tree I.1
  fromMonad k v := by
    obtain ⟨h1, h2⟩ := LT.fromMonad k v
    refine ⟨⟨h1, ?_⟩, h2⟩
    show 1 = Map.card (LT.abs (VebTree.fromMonad k v))
    rw [h2, Map.card_single]
  isMonad t I := by
    obtain ⟨b, h1, h2⟩ := LT.isMonad t.tree I.1
    refine ⟨b, ?_, h2⟩
    cases b with
    | false => simp [VebTree.isMonad, h1]
    | true =>
      obtain ⟨k, hk, hu⟩ := h2.1 rfl
      have : t.size = 1 := by
        rw [I.2, Map.card, Set.ncard_eq_one]
        refine ⟨k, ?_⟩
        ext j
        simp only [Set.mem_ofPred_eq, Set.mem_singleton_iff]
        exact ⟨hu j, fun e => e ▸ hk⟩
      simp [VebTree.isMonad, h1, this]
  lenHint t I := ⟨t.size, some t.size, rfl, I.2.le, by rintro _ ⟨⟩; exact I.2.symm⟩
  intoMonad t I := by
    rcases LT.intoMonad t.tree I.1 with ⟨k, v, h1, h2⟩ | ⟨h1, h2⟩
    · exact .inl ⟨k, v, by simp [VebTree.intoMonad, h1], h2⟩
    · exact .inr ⟨by simp [VebTree.intoMonad, h1], h2⟩
  minVal t I := LT.minVal t.tree I.1
  minValMut t I := by
    obtain ⟨⟨k, v, put⟩, h1, h2, h3⟩ := LT.minValMut t.tree I.1
    exact ⟨(k, v, fun w => ⟨put w, t.size⟩), by simp only [VebTree.minValMut, h1]; rfl, h2,
      putOk I (Map.mem_of h2.1) h3⟩
  maxVal t I := LT.maxVal t.tree I.1
  maxValMut t I := by
    obtain ⟨⟨k, v, put⟩, h1, h2, h3⟩ := LT.maxValMut t.tree I.1
    exact ⟨(k, v, fun w => ⟨put w, t.size⟩), by simp only [VebTree.maxValMut, h1]; rfl, h2,
      putOk I (Map.mem_of h2.1) h3⟩
  find t k I := LT.find t.tree k I.1
  findMut t k I := by
    obtain ⟨r, h1, h2⟩ := LT.findMut t.tree k I.1
    refine ⟨_, by simp only [VebTree.findMut, h1]; rfl, mutOk I h2 ?_⟩
    intro k' v hq
    obtain ⟨w, hw, he⟩ := Option.map_eq_some_iff.1 hq.symm
    cases he
    exact Map.mem_of hw
  predecessor t k I := LT.predecessor t.tree k I.1
  predecessorMut t k I := by
    obtain ⟨r, h1, h2⟩ := LT.predecessorMut t.tree k I.1
    exact ⟨_, by simp only [VebTree.predecessorMut, h1]; rfl, mutOk I h2 fun _ _ hq => Map.mem_of hq.1⟩
  successor t k I := LT.successor t.tree k I.1
  successorMut t k I := by
    obtain ⟨r, h1, h2⟩ := LT.successorMut t.tree k I.1
    exact ⟨_, by simp only [VebTree.successorMut, h1]; rfl, mutOk I h2 fun _ _ hq => Map.mem_of hq.1⟩
  insert t k v I hs := by
    obtain ⟨t', h1, h2, h3⟩ := LT.insert t.tree k v I.1 hs.1
    rcases he : LT.abs t.tree k with _ | w
    · have hlt : t.size + 1 ≤ usizeMax := by
        rcases hs.2 with h | h
        · exact absurd he h
        · rw [I.2]; exact h
      refine ⟨⟨t', t.size + 1⟩, ?_, ⟨h2, ?_⟩, h3⟩
      · have he' : abs t k = none := he
        simp [VebTree.insert, h1, he, he', hlt]
      · simp only [h3, Map.card_upd_new (LT.finite _ I.1) he, I.2]
    · refine ⟨⟨t', t.size⟩, ?_, ⟨h2, ?_⟩, h3⟩
      · have he' : abs t k = some w := he
        simp [VebTree.insert, h1, he, he']
      · simp only [h3, Map.card_upd_of_mem (Map.mem_of he), I.2]
  remove_none t k I hk := by simp [VebTree.remove, LT.remove_none t.tree k I.1 hk]
  remove_some t k v I hk := by
    obtain ⟨o, h1, h2⟩ := LT.remove_some t.tree k v I.1 hk
    have hp : 1 ≤ t.size := card_pos I
    cases o with
    | none => exact ⟨none, by simp [VebTree.remove, h1], h2⟩
    | some t' =>
      obtain ⟨h3, h4⟩ := size_after I (Map.mem_of hk) h2
      exact ⟨some ⟨t', t.size - 1⟩, by simp [VebTree.remove, h1, subUsize, hp, h3], h4, h2.2⟩
  removeMin t I := by
    obtain ⟨o, kv, h1, hm, h2⟩ := LT.removeMin t.tree I.1
    have hp : 1 ≤ t.size := card_pos I
    cases o with
    | none => exact ⟨none, kv, by simp [VebTree.removeMin, h1, subUsize, hp], hm, h2⟩
    | some t' =>
      obtain ⟨h3, h4⟩ := size_after I (Map.mem_of hm.1) h2
      exact ⟨some ⟨t', t.size - 1⟩, kv, by simp [VebTree.removeMin, h1, subUsize, hp, h3], hm, h4, h2.2⟩
  removeMax t I := by
    obtain ⟨o, kv, h1, hm, h2⟩ := LT.removeMax t.tree I.1
    have hp : 1 ≤ t.size := card_pos I
    cases o with
    | none => exact ⟨none, kv, by simp [VebTree.removeMax, h1, subUsize, hp], hm, h2⟩
    | some t' =>
      obtain ⟨h3, h4⟩ := size_after I (Map.mem_of hm.1) h2
      exact ⟨some ⟨t', t.size - 1⟩, kv, by simp [VebTree.removeMax, h1, subUsize, hp, h3], hm, h4, h2.2⟩

instance [M : MonoSafe T K V] : MonoSafe (SizedVebTree T) K V where
  present P k hf hk := ⟨M.present P k hf hk, .inl hk⟩
  append P k hf ha hc := ⟨M.append P k hf ha hc, .inr hc⟩

end SizedVebTree
end Veb
