import Verif.SpecAny
import Verif.Proof.NoPanic
import Verif.Proof.PhysTree

/-!
# Stored entries, whatever the comparisons of the keys do

The counterpart of `PhysTree` for keys without any contract.
-/

set_option autoImplicit false
set_option linter.unusedSectionVars false

namespace Veb

/-- an optional entry as a collection -/
def om {X : Type} (o : Option X) : Multiset X := o.elim 0 fun e => {e}

/-- How an insertion of the entry `x` that returns `o` changes the stored entries: their values are conserved; if `ex`,
so are the entries. -/
structure InsAny {K V : Type} (ex : Prop) (x : K × V) (b b' : Multiset (K × V)) (o : Option (K × V)) : Prop where
  vals : b'.map Prod.snd + (om o).map Prod.snd = x.2 ::ₘ b.map Prod.snd
  ents : ex → b' + om o = x ::ₘ b
  mem : ∀ e, o = some e → e ∈ b

namespace InsAny
variable {K V : Type} {ex : Prop} {x a : K × V} {b b' : Multiset (K × V)} {o : Option (K × V)}

theorem of (h : b' + om o = x ::ₘ b) (hm : ∀ e, o = some e → e ∈ b) : InsAny ex x b b' o :=
  ⟨by rw [← Multiset.map_add, h, Multiset.map_cons], fun _ => h, hm⟩
theorem ofE (h : InsRelE x b b' o) : InsAny ex x b b' o := by
  cases o with
  | none => exact of (by rw [show b' = _ from h]; exact add_zero _) (by simp)
  | some e =>
    obtain ⟨r, rfl, rfl⟩ := h
    refine of ?_ (by rintro _ ⟨⟩; exact Multiset.mem_cons_self _ _)
    show x ::ₘ r + {e} = _
    rw [Multiset.cons_add, add_comm, Multiset.singleton_add]
theorem mono {ex' : Prop} (h : InsAny ex x b b' o) (i : ex' → ex) : InsAny ex' x b b' o := ⟨h.vals, h.ents ∘ i, h.mem⟩
theorem swap (h : InsAny ex x b b' o) : InsAny ex a (x ::ₘ b) (a ::ₘ b') o where
  vals := by rw [Multiset.map_cons, Multiset.map_cons, Multiset.cons_add, h.vals]
  ents i := by rw [Multiset.cons_add, h.ents i]
  mem e he := Multiset.mem_cons_of_mem (h.mem e he)
theorem cons (h : InsAny ex x b b' o) : InsAny ex x (a ::ₘ b) (a ::ₘ b') o where
  vals := by rw [Multiset.map_cons, Multiset.map_cons, Multiset.cons_add, h.vals, Multiset.cons_swap]
  ents i := by rw [Multiset.cons_add, h.ents i, Multiset.cons_swap]
  mem e he := Multiset.mem_cons_of_mem (h.mem e he)
theorem card (h : InsAny ex x b b' o) : b'.card + (om o).card = b.card + 1 := by
  simpa using congrArg Multiset.card h.vals
end InsAny

/-- The structural behaviour of a tree type over keys without a contract.  `limited` says that it contains a `usize`
counter, `agree` that no comparison contradicts the `debug_assert!` of `predecessor_mut`, `exact` that keys are not
altered by taking them apart. -/
class ObjTree (T : Type) (K V : outParam Type) [VebTree T K V] where
  W : T → Prop
  ents : T → Multiset (K × V)
  limited : Prop
  agree : Prop
  exact : Prop
  fromMonad : ∀ k v, W (VebTree.fromMonad k v) ∧ ents (VebTree.fromMonad k v) = {(k, v)}
  isMonad : ∀ t, W t → ∃ b, VebTree.isMonad t = .ok b ∧ (b = true ↔ (ents t).card = 1)
  lenHint : ∀ t, W t → ∃ r, VebTree.lenHint t = .ok r ∧ r.1 ≤ (ents t).card ∧ ∀ n, r.2 = some n → n = (ents t).card
  intoMonad : ∀ t, W t → (∃ k v, VebTree.intoMonad t = .ok (.Ok (k, v)) ∧ ents t = {(k, v)}) ∨
    (VebTree.intoMonad t = .ok (.Err t) ∧ (ents t).card ≠ 1)
  minVal : ∀ t, W t → ∃ k v, VebTree.minVal t = .ok (k, v) ∧ (k, v) ∈ ents t
  minValMut : ∀ t, W t → ∃ r, VebTree.minValMut t = .ok r ∧ MutPhysE W ents t (some r)
  maxVal : ∀ t, W t → ∃ k v, VebTree.maxVal t = .ok (k, v) ∧ (k, v) ∈ ents t
  maxValMut : ∀ t, W t → ∃ r, VebTree.maxValMut t = .ok r ∧ MutPhysE W ents t (some r)
  find : ∀ t k, W t → ∃ r, VebTree.find t k = .ok r ∧ ∀ e, r = some e → e ∈ ents t
  findMut : ∀ t k, W t → ∃ r, VebTree.findMut t k = .ok r ∧ MutPhysE W ents t r
  predecessor : ∀ t k, W t → ∃ r, VebTree.predecessor t k = .ok r ∧ ∀ e, r = some e → e ∈ ents t
  predecessorMut : ∀ t k, W t → (∃ r, VebTree.predecessorMut t k = .ok r ∧ MutPhysE W ents t r) ∨
    (VebTree.predecessorMut t k = .error .debugAssert ∧ ¬ agree)
  successor : ∀ t k, W t → ∃ r, VebTree.successor t k = .ok r ∧ ∀ e, r = some e → e ∈ ents t
  successorMut : ∀ t k, W t → ∃ r, VebTree.successorMut t k = .ok r ∧ MutPhysE W ents t r
  insert : ∀ t k v, W t → (limited → (ents t).card < usizeMax) →
    ∃ t' o, VebTree.insert t k v = .ok (t', o) ∧ W t' ∧ InsAny exact (k, v) (ents t) (ents t') o
  remove : ∀ t k, W t → VebTree.remove t k = .ok (.Err t) ∨
    ∃ o e, VebTree.remove t k = .ok (.Ok (o, e)) ∧ RestRel W ents (ents t) e o
  removeMin : ∀ t, W t → ∃ o k v, VebTree.minVal t = .ok (k, v) ∧ VebTree.removeMin t = .ok (o, (k, v)) ∧
    RestRel W ents (ents t) (k, v) o
  removeMax : ∀ t, W t → ∃ o k v, VebTree.maxVal t = .ok (k, v) ∧ VebTree.removeMax t = .ok (o, (k, v)) ∧
    RestRel W ents (ents t) (k, v) o

namespace ObjTree

/-- Trees over proper keys. -/
@[reducible] def ofPhys {T K V : Type} [LinearOrder K] [VebTree T K V] (P : PhysTree T K V) : ObjTree T K V where
  W := P.W
  ents := P.ents
  limited := P.limited
  agree := True
  exact := True
  fromMonad := P.fromMonadE
  isMonad := P.isMonadE
  lenHint := P.lenHintE
  intoMonad := P.intoMonadE
  minVal := P.minValE
  minValMut := P.minValMutE
  maxVal := P.maxValE
  maxValMut := P.maxValMutE
  find := P.findE
  findMut := P.findMutE
  predecessor := P.predecessorE
  predecessorMut t k h := .inl (P.predecessorMutE t k h)
  successor := P.successorE
  successorMut := P.successorMutE
  insert t k v h hl := by
    obtain ⟨t', o, h1, h2, h3, -⟩ := P.insertE t k v h hl
    exact ⟨t', o, h1, h2, .ofE h3⟩
  remove t k h := by
    rcases P.removeE t k h with ⟨h1, -⟩ | ⟨o, v, h1, h2⟩
    · exact .inl h1
    · exact .inr ⟨o, _, h1, h2⟩
  removeMin := P.removeMinE
  removeMax := P.removeMaxE

section
variable {T K V : Type} [VebTree T K V] [P : ObjTree T K V]

theorem ents_pos {t : T} (h : P.W t) : 1 ≤ (P.ents t).card := by
  obtain ⟨k, v, -, h2⟩ := P.minVal t h
  exact Multiset.card_pos_iff_exists_mem.2 ⟨_, h2⟩

/-! ## Box -/

theorem box_mut {t : Box T} {r : Option (K × V × (V → T))} (h : MutPhysE P.W P.ents t.val r) :
    MutPhysE (fun t : Box T => P.W t.val) (fun t => P.ents t.val) t (r.map (mapPut Box.mk)) := by
  obtain _ | ⟨k, v, put⟩ := r
  · trivial
  · exact h

theorem box_rest {b : Multiset (K × V)} {k : K × V} {o : Option T} (h : RestRel P.W P.ents b k o) :
    RestRel (fun t : Box T => P.W t.val) (fun t => P.ents t.val) b k (o.map Box.mk) := by
  cases o <;> exact h

instance instBox : ObjTree (Box T) K V where
  W t := P.W t.val
  ents t := P.ents t.val
  limited := P.limited
  agree := P.agree
  exact := P.exact
  fromMonad k v := P.fromMonad k v
  isMonad t := P.isMonad t.val
  lenHint t := P.lenHint t.val
  intoMonad t h := by
    rcases P.intoMonad t.val h with ⟨k, v, h1, h2⟩ | ⟨h1, h2⟩
    · exact .inl ⟨k, v, by simp [VebTree.intoMonad, h1], h2⟩
    · exact .inr ⟨by simp [VebTree.intoMonad, h1], h2⟩
  minVal t := P.minVal t.val
  minValMut t h := by
    obtain ⟨r, h1, h2⟩ := P.minValMut t.val h
    exact ⟨_, by simp only [VebTree.minValMut, h1]; rfl, box_mut h2⟩
  maxVal t := P.maxVal t.val
  maxValMut t h := by
    obtain ⟨r, h1, h2⟩ := P.maxValMut t.val h
    exact ⟨_, by simp only [VebTree.maxValMut, h1]; rfl, box_mut h2⟩
  find t := P.find t.val
  findMut t k h := by
    obtain ⟨r, h1, h2⟩ := P.findMut t.val k h
    exact ⟨_, by simp only [VebTree.findMut, h1]; rfl, box_mut h2⟩
  predecessor t := P.predecessor t.val
  predecessorMut t k h := by
    rcases P.predecessorMut t.val k h with ⟨r, h1, h2⟩ | ⟨h1, h2⟩
    · exact .inl ⟨_, by simp only [VebTree.predecessorMut, h1]; rfl, box_mut h2⟩
    · exact .inr ⟨by simp only [VebTree.predecessorMut, h1]; rfl, h2⟩
  successor t := P.successor t.val
  successorMut t k h := by
    obtain ⟨r, h1, h2⟩ := P.successorMut t.val k h
    exact ⟨_, by simp only [VebTree.successorMut, h1]; rfl, box_mut h2⟩
  insert t k v h hl := by
    obtain ⟨t', o, h1, h2⟩ := P.insert t.val k v h hl
    exact ⟨⟨t'⟩, o, by simp [VebTree.insert, h1], h2⟩
  remove t k h := by
    rcases P.remove t.val k h with h1 | ⟨o, v, h1, h2⟩
    · exact .inl (by simp [VebTree.remove, h1])
    · exact .inr ⟨_, v, by simp only [VebTree.remove, h1]; rfl, box_rest h2⟩
  removeMin t h := by
    obtain ⟨o, k, v, h1, h2, h3⟩ := P.removeMin t.val h
    exact ⟨_, k, v, h1, by simp only [VebTree.removeMin, h2]; rfl, box_rest h3⟩
  removeMax t h := by
    obtain ⟨o, k, v, h1, h2, h3⟩ := P.removeMax t.val h
    exact ⟨_, k, v, h1, by simp only [VebTree.removeMax, h2]; rfl, box_rest h3⟩

/-! ## SizedVebTree: the counter is the number of stored entries -/

/-- the structural invariant of a counted tree -/
def SizedW (t : SizedVebTree T) : Prop := P.W t.tree ∧ t.size = (P.ents t.tree).card

theorem sized_mut {t : SizedVebTree T} (I : SizedW t) {r : Option (K × V × (V → T))}
    (h : MutPhysE P.W P.ents t.tree r) :
    MutPhysE (SizedW (T := T)) (fun t => P.ents t.tree) t (r.map (mapPut fun u => ⟨u, t.size⟩)) := by
  obtain _ | ⟨k, v, put⟩ := r
  · trivial
  · obtain ⟨r, h1, h2⟩ := h
    refine ⟨r, h1, fun w => ⟨⟨(h2 w).1, ?_⟩, (h2 w).2⟩⟩
    show t.size = (P.ents (put w)).card
    rw [(h2 w).2, I.2, h1, Multiset.card_cons, Multiset.card_cons]

theorem sized_rest {t : SizedVebTree T} (I : SizedW t) {k : K × V} {t' : T}
    (h : RestRel P.W P.ents (P.ents t.tree) k (some t')) :
    SizedVebTree.nonZero (t.size - 1) = some (t.size - 1) ∧
      RestRel (SizedW (T := T)) (fun t => P.ents t.tree) (P.ents t.tree) k (some ⟨t', t.size - 1⟩) := by
  have h1 := ents_pos h.1
  have h2 := I.2
  rw [h.2, Multiset.card_cons] at h2
  refine ⟨?_, ⟨h.1, ?_⟩, h.2⟩
  · have : t.size - 1 ≠ 0 := by omega
    simp [SizedVebTree.nonZero, this]
  · show t.size - 1 = (P.ents t').card
    omega

theorem sized_pos {t : SizedVebTree T} (I : SizedW t) : 1 ≤ t.size := by rw [I.2]; exact ents_pos I.1

instance instSized : ObjTree (SizedVebTree T) K V where
  W := SizedW
  ents t := P.ents t.tree
  limited := True
  agree := P.agree
  exact := P.exact
  fromMonad k v := by
    obtain ⟨h1, h2⟩ := P.fromMonad k v
    refine ⟨⟨h1, ?_⟩, h2⟩
    show 1 = (P.ents (VebTree.fromMonad k v)).card
    rw [h2]; rfl
  isMonad t I := by
    obtain ⟨b, h1, h2⟩ := P.isMonad t.tree I.1
    refine ⟨b, ?_, h2⟩
    cases b with
    | false => simp [VebTree.isMonad, h1]
    | true =>
      have : t.size = 1 := I.2.trans (h2.1 rfl)
      simp [VebTree.isMonad, h1, this]
  lenHint t I := ⟨_, rfl, I.2.le, fun n hn => by cases hn; exact I.2⟩
  intoMonad t I := by
    rcases P.intoMonad t.tree I.1 with ⟨k, v, h1, h2⟩ | ⟨h1, h2⟩
    · exact .inl ⟨k, v, by simp [VebTree.intoMonad, h1], h2⟩
    · exact .inr ⟨by simp [VebTree.intoMonad, h1], h2⟩
  minVal t I := P.minVal t.tree I.1
  minValMut t I := by
    obtain ⟨r, h1, h2⟩ := P.minValMut t.tree I.1
    exact ⟨_, by simp only [VebTree.minValMut, h1]; rfl, sized_mut I h2⟩
  maxVal t I := P.maxVal t.tree I.1
  maxValMut t I := by
    obtain ⟨r, h1, h2⟩ := P.maxValMut t.tree I.1
    exact ⟨_, by simp only [VebTree.maxValMut, h1]; rfl, sized_mut I h2⟩
  find t k I := P.find t.tree k I.1
  findMut t k I := by
    obtain ⟨r, h1, h2⟩ := P.findMut t.tree k I.1
    exact ⟨_, by simp only [VebTree.findMut, h1]; rfl, sized_mut I h2⟩
  predecessor t k I := P.predecessor t.tree k I.1
  predecessorMut t k I := by
    rcases P.predecessorMut t.tree k I.1 with ⟨r, h1, h2⟩ | ⟨h1, h2⟩
    · exact .inl ⟨_, by simp only [VebTree.predecessorMut, h1]; rfl, sized_mut I h2⟩
    · exact .inr ⟨by simp only [VebTree.predecessorMut, h1]; rfl, h2⟩
  successor t k I := P.successor t.tree k I.1
  successorMut t k I := by
    obtain ⟨r, h1, h2⟩ := P.successorMut t.tree k I.1
    exact ⟨_, by simp only [VebTree.successorMut, h1]; rfl, sized_mut I h2⟩
  insert t k v I hl := by
    obtain ⟨t', o, h1, h2, h3⟩ := P.insert t.tree k v I.1 fun _ => hl trivial
    have hc := h3.card
    rw [← I.2] at hc
    cases o with
    | none =>
      have hlt : t.size + 1 ≤ usizeMax := by rw [I.2]; exact hl trivial
      refine ⟨⟨t', t.size + 1⟩, none, ?_, ⟨h2, hc.symm⟩, h3⟩
      simp [VebTree.insert, h1, hlt]
    | some e =>
      refine ⟨⟨t', t.size⟩, some e, ?_, ⟨h2, ?_⟩, h3⟩
      · simp [VebTree.insert, h1]
      · exact (Nat.succ.inj hc).symm
  remove t k I := by
    rcases P.remove t.tree k I.1 with h1 | ⟨o, v, h1, h2⟩
    · exact .inl (by simp [VebTree.remove, h1])
    · have hp := sized_pos I
      cases o with
      | none => exact .inr ⟨none, v, by simp [VebTree.remove, h1], h2⟩
      | some t' =>
        obtain ⟨h3, h4⟩ := sized_rest I h2
        exact .inr ⟨some ⟨t', t.size - 1⟩, v, by simp [VebTree.remove, h1, subUsize, hp, h3], h4⟩
  removeMin t I := by
    obtain ⟨o, k, v, h0, h1, h2⟩ := P.removeMin t.tree I.1
    have hp := sized_pos I
    cases o with
    | none => exact ⟨none, k, v, h0, by simp [VebTree.removeMin, h1, subUsize, hp], h2⟩
    | some t' =>
      obtain ⟨h3, h4⟩ := sized_rest I h2
      exact ⟨some ⟨t', t.size - 1⟩, k, v, h0, by simp [VebTree.removeMin, h1, subUsize, hp, h3], h4⟩
  removeMax t I := by
    obtain ⟨o, k, v, h0, h1, h2⟩ := P.removeMax t.tree I.1
    have hp := sized_pos I
    cases o with
    | none => exact ⟨none, k, v, h0, by simp [VebTree.removeMax, h1, subUsize, hp], h2⟩
    | some t' =>
      obtain ⟨h3, h4⟩ := sized_rest I h2
      exact ⟨some ⟨t', t.size - 1⟩, k, v, h0, by simp [VebTree.removeMax, h1, subUsize, hp, h3], h4⟩

end
end ObjTree
end Veb
