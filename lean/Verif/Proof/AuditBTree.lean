import Verif.Proof.ActBTree
import Verif.Proof.Audit

/-!
# The panics of `BTreeMap` over code of the user
-/

set_option autoImplicit false

namespace Veb.BTreeMap
variable {σ K V : Type} [ActOrd σ K] {Us : Panic → Prop}

/-- the panics of `insert` -/
theorem ins_aud (h : OrdPanics σ K Us) (t : BTreeMap K V) (k : K) (v : V) :
    Aud (fun p => Us p ∨ RangePanics p) (t.insertA (σ := σ) k v) fun _ => True := by
  have srch : ∀ (l : List K) (k : K), Aud (fun p => Us p ∨ RangePanics p) (ActOrd.search (σ := σ) l k) fun _ => True :=
    fun l k => .user (h.search l k) fun _ h => .inl h
  refine (srch _ _).bind fun r _ => ?_
  cases r.entry t.entries with
  | some p => exact .ret trivial
  | none =>
    refine (srch _ _).bind fun r _ => ?_
    cases r.entry t.entries with
    | some p => exact .ret trivial
    | none => exact .ret trivial

/-- The panics of a `BTreeMap` with some `insert`. -/
@[reducible] def auditWith (h : OrdPanics σ K Us) (ins : BTreeMap K V → K → V → Act σ (BTreeMap K V × Option (K × V)))
    (hi : InsOk ins) (ha : ∀ t k v, Aud (fun p => Us p ∨ RangePanics p) (ins t k v) fun _ => True) (L : Prop) :
    @Audit Us L σ (BTreeMap K V) K V (treeWith ins) (keepsWith ins hi) := by
  letI : ActTree σ (BTreeMap K V) K V := treeWith ins
  letI : Keeps σ (BTreeMap K V) K V := keepsWith ins hi
  have us : ∀ p, Us p → Us p ∨ RangePanics p := fun _ h => .inl h
  have srch : ∀ (l : List K) (k : K), Aud (fun p => Us p ∨ RangePanics p) (ActOrd.search (σ := σ) l k) fun _ => True :=
    fun l k => .user (h.search l k) us
  have blw : ∀ (l : List K) (k : K), Aud (fun p => Us p ∨ RangePanics p) (ActOrd.below (σ := σ) l k) fun _ => True :=
    fun l k => .user (h.below l k) us
  have abv : ∀ (l : List K) (k : K), Aud (fun p => Us p ∨ RangePanics p) (ActOrd.above (σ := σ) l k) fun _ => True :=
    fun l k => .user (h.above l k) us
  have arnd : ∀ (l : List K) (k : K), Aud (fun p => Us p ∨ RangePanics p) (ActOrd.around (σ := σ) l k) fun _ => True :=
    fun l k => .user (h.around l k) fun _ h => h
  have head : ∀ (t : BTreeMap K V), t.entries ≠ [] → ∃ e, t.entries.head? = some e := fun t I => by
    obtain ⟨_ | ⟨x, l⟩⟩ := t
    · exact absurd rfl I
    · exact ⟨x, rfl⟩
  have last : ∀ (t : BTreeMap K V), t.entries ≠ [] → ∃ e, t.entries.getLast? = some e := fun t I =>
    ⟨_, List.getLast?_eq_getLast_of_ne_nil I⟩
  have idx : ∀ (t : BTreeMap K V) (i : Nat), i < t.entries.length → ∃ r, t.mutIdx i = some r := fun t i hi => by
    unfold mutIdx
    rw [List.getElem?_eq_getElem hi]
    exact ⟨_, rfl⟩
  have ex : ∀ {E : Panic → Prop} {α : Type} {o : Option α} (m : String), (∃ e, o = some e) →
      Aud (σ := σ) E (liftM (expect m o)) fun _ => True := fun m ⟨e, he⟩ => by
    subst he; exact .ok rfl trivial
  have len : ∀ (t : BTreeMap K V), t.entries ≠ [] → 0 < t.entries.length := fun t I => List.length_pos_iff.2 I
  exact {
    A := fun _ _ => True
    E := fun p => Us p ∨ RangePanics p
    user := us
    up := fun _ _ _ _ _ => trivial
    pos := fun t I => by
      show 1 ≤ Multiset.card ((t.entries.map Prod.snd : List V) : Multiset V)
      rw [Multiset.coe_card, List.length_map]
      exact len t I
    monadOk := fun _ _ _ => trivial
    fromMonad := fun _ _ => trivial
    isMonad := fun n t I _ => .ret trivial
    lenHint := fun n t I _ => .ret trivial
    intoMonad := fun n t I _ => by
      show Aud _ (if decide (t.entries.length = 1) = true then _ else _) _
      split
      · exact (ex _ (head t I)).bind fun e _ => .ret fun _ _ => trivial
      · exact .ret fun _ _ => trivial
    minVal := fun n t I _ => ex _ (head t I)
    minValMut := fun n t I _ => (ex _ (idx t 0 (len t I))).mono fun _ _ => Audit.mut_true _
    maxVal := fun n t I _ => ex _ (last t I)
    maxValMut := fun n t I _ => (ex _ (idx t _ (by have := len t I; omega))).mono fun _ _ => Audit.mut_true _
    find := fun n t k I _ => by
      show Aud _ (t.findA k) _
      exact (srch _ _).bind fun _ _ => .ret trivial
    findMut := fun n t k I _ => (arnd _ _).bind fun _ _ => .ret (Audit.mut_true _)
    predecessor := fun n t k I _ => (blw _ _).bind fun _ _ => .ret trivial
    predecessorMut := fun n t k I _ => (blw _ _).bind fun _ _ => .ret (Audit.mut_true _)
    successor := fun n t k I _ => (abv _ _).bind fun _ _ => .ret trivial
    successorMut := fun n t k I _ => (abv _ _).bind fun _ _ => .ret (Audit.mut_true _)
    insert := fun n t k v I _ _ => ha t k v
    remove := fun n t k I _ => by
      show Aud _ (t.removeA k) _
      refine Aud.bind (Q := fun _ => True) (.ret trivial) fun b _ => (srch _ _).bind fun r _ => ?_
      cases r.entry t.entries with
      | none => exact .ret trivial
      | some p => cases b <;> exact .ret (Audit.opt_true _)
    removeMin := fun n t I _ => by
      show Aud _ t.removeMinA _
      exact (ex _ (head t I)).bind fun _ _ => .ret (Audit.opt_true _)
    removeMax := fun n t I _ => by
      show Aud _ t.removeMaxA _
      exact (ex _ (last t I)).bind fun _ _ => .ret (Audit.opt_true _) }

/-- The panics of a `BTreeMap`. -/
@[reducible] def audit (h : OrdPanics σ K Us) (hs : OrdSteady σ K) (L : Prop) :
    @Audit Us L σ (BTreeMap K V) K V _ (keeps hs) := auditWith h insertA (ins_ok hs) (ins_aud h) L

end Veb.BTreeMap
