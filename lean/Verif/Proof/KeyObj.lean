import Verif.SpecKeyObj
import Mathlib.Data.List.Forall2

/-!
Trees over keys with equal but distinguishable values simulate trees over linearly ordered keys.
-/

set_option autoImplicit false
set_option linter.unusedSectionVars false
namespace Veb

/-! ## Related outcomes -/

/-- both panic alike, or both return, related values -/
inductive Rl {α β : Type} (P : α → β → Prop) : R α → R β → Prop
  | ok {a : α} {b : β} (h : P a b) : Rl P (.ok a) (.ok b)
  | err (e : Panic) : Rl P (.error e) (.error e)

namespace Rl
variable {α β α' β' : Type} {P : α → β → Prop} {Q : α' → β' → Prop}
theorem bind {x : R α} {y : R β} {f : α → R α'} {g : β → R β'} (h : Rl P x y)
    (hf : ∀ a b, P a b → Rl Q (f a) (g b)) : Rl Q (x >>= f) (y >>= g) := by
  cases h with
  | ok h => exact hf _ _ h
  | err e => exact .err e
theorem pure {a : α} {b : β} (h : P a b) : Rl P (Pure.pure a) (Pure.pure b) := .ok h
theorem refl (x : R α) : Rl (fun a b => b = a) x x := by
  cases x
  · exact .err _
  · exact .ok rfl
theorem mono {P' : α → β → Prop} {x : R α} {y : R β} (h : Rl P x y) (hP : ∀ a b, P a b → P' a b) : Rl P' x y := by
  cases h with
  | ok h => exact .ok (hP _ _ h)
  | err e => exact .err e
theorem bindEq {x : R α} {f : α → R α'} {g : α → R β'} (hf : ∀ a, Rl Q (f a) (g a)) :
    Rl Q (x >>= f) (x >>= g) := by
  cases x
  · exact .err _
  · exact hf _
theorem expect {x : Option α} {y : Option β} (m : String) (h : Option.Rel P x y) :
    Rl P (Veb.expect m x) (Veb.expect m y) := by
  cases h with
  | none => exact .err _
  | some h => exact .ok h
end Rl

variable {K K' Hi Hi' Lo Lo' V : Type}

/-- the key of an entry, forgotten -/
def kvm (π : K → K') (p : K × V) : K' × V := (π p.1, p.2)

/-- entries related by `π` -/
abbrev EntR (π : K → K') (p : K × V) (q : K' × V) : Prop := q = kvm π p
/-- optional entries -/
abbrev OptR (π : K → K') (p : Option (K × V)) (q : Option (K' × V)) : Prop := q = p.map (kvm π)
/-- a `&mut` result -/
def MutR {T T' : Type} (π : K → K') (S : T → T' → Prop) (a : K × V × (V → T)) (b : K' × V × (V → T')) : Prop :=
  b.1 = π a.1 ∧ b.2.1 = a.2.1 ∧ ∀ w, S (a.2.2 w) (b.2.2 w)
/-- a removal -/
def RemR {T T' : Type} (π : K → K') (S : T → T' → Prop) (a : Option T × (K × V)) (b : Option T' × (K' × V)) : Prop :=
  Option.Rel S a.1 b.1 ∧ b.2 = kvm π a.2
/-- an insertion -/
def InsR {T T' : Type} (π : K → K') (S : T → T' → Prop) (a : T × Option (K × V)) (b : T' × Option (K' × V)) : Prop :=
  S a.1 b.1 ∧ b.2 = a.2.map (kvm π)
/-- a `Result` -/
inductive ResR {A E A' E' : Type} (P : A → A' → Prop) (Q : E → E' → Prop) : Result A E → Result A' E' → Prop
  | ok {a : A} {a' : A'} (h : P a a') : ResR P Q (.Ok a) (.Ok a')
  | err {e : E} {e' : E'} (h : Q e e') : ResR P Q (.Err e) (.Err e')

/-- `S` is a simulation between two tree types. -/
structure SimTree {T T' : Type} [VebTree T K V] [VebTree T' K' V] (π : K → K') (S : T → T' → Prop) : Prop where
  fromMonad (k : K) (v : V) : S (VebTree.fromMonad k v) (VebTree.fromMonad (π k) v)
  isMonad {t : T} {t' : T'} (h : S t t') : Rl (fun a b => b = a) (VebTree.isMonad t) (VebTree.isMonad t')
  lenHint {t : T} {t' : T'} (h : S t t') : Rl (fun a b => b = a) (VebTree.lenHint t) (VebTree.lenHint t')
  intoMonad {t : T} {t' : T'} (h : S t t') : Rl (ResR (EntR π) S) (VebTree.intoMonad t) (VebTree.intoMonad t')
  minVal {t : T} {t' : T'} (h : S t t') : Rl (EntR π) (VebTree.minVal t) (VebTree.minVal t')
  minValMut {t : T} {t' : T'} (h : S t t') : Rl (MutR π S) (VebTree.minValMut t) (VebTree.minValMut t')
  maxVal {t : T} {t' : T'} (h : S t t') : Rl (EntR π) (VebTree.maxVal t) (VebTree.maxVal t')
  maxValMut {t : T} {t' : T'} (h : S t t') : Rl (MutR π S) (VebTree.maxValMut t) (VebTree.maxValMut t')
  find {t : T} {t' : T'} (h : S t t') (k : K) : Rl (OptR π) (VebTree.find t k) (VebTree.find t' (π k))
  findMut {t : T} {t' : T'} (h : S t t') (k : K) :
    Rl (Option.Rel (MutR π S)) (VebTree.findMut t k) (VebTree.findMut t' (π k))
  predecessor {t : T} {t' : T'} (h : S t t') (k : K) :
    Rl (OptR π) (VebTree.predecessor t k) (VebTree.predecessor t' (π k))
  predecessorMut {t : T} {t' : T'} (h : S t t') (k : K) :
    Rl (Option.Rel (MutR π S)) (VebTree.predecessorMut t k) (VebTree.predecessorMut t' (π k))
  successor {t : T} {t' : T'} (h : S t t') (k : K) : Rl (OptR π) (VebTree.successor t k) (VebTree.successor t' (π k))
  successorMut {t : T} {t' : T'} (h : S t t') (k : K) :
    Rl (Option.Rel (MutR π S)) (VebTree.successorMut t k) (VebTree.successorMut t' (π k))
  insert {t : T} {t' : T'} (h : S t t') (k : K) (v : V) :
    Rl (InsR π S) (VebTree.insert t k v) (VebTree.insert t' (π k) v)
  remove {t : T} {t' : T'} (h : S t t') (k : K) :
    Rl (ResR (RemR π S) S) (VebTree.remove t k) (VebTree.remove t' (π k))
  removeMin {t : T} {t' : T'} (h : S t t') : Rl (RemR π S) (VebTree.removeMin t) (VebTree.removeMin t')
  removeMax {t : T} {t' : T'} (h : S t t') : Rl (RemR π S) (VebTree.removeMax t) (VebTree.removeMax t')

/-- outcome of `insert_key` -/
def insKeyM (πh : Hi → Hi') (πl : Lo → Lo') : Result Hi (Hi × Option (Lo × V)) → Result Hi' (Hi' × Option (Lo' × V))
  | .Ok h => .Ok (πh h)
  | .Err (h, o) => .Err (πh h, o.map (kvm πl))

/-- outcome of `remove_key` -/
def RemKeyR {C C' : Type} (πl : Lo → Lo') (SC : C → C' → Prop) (a : Option (C × Bool) × (Lo × V))
    (b : Option (C' × Bool) × (Lo' × V)) : Prop :=
  Option.Rel (fun x y => SC x.1 y.1 ∧ y.2 = x.2) a.1 b.1 ∧ b.2 = kvm πl a.2

/-- The same for collections. -/
structure SimColl {T T' C C' : Type} [TreeCollection C Hi T Lo V] [TreeCollection C' Hi' T' Lo' V]
    (πh : Hi → Hi') (πl : Lo → Lo') (ST : T → T' → Prop) (SC : C → C' → Prop) : Prop where
  create (h : Hi) {t : T} {t' : T'} (ht : ST t t') :
    Rl SC (TreeCollection.create h t) (TreeCollection.create (πh h) t')
  get {c : C} {c' : C'} (hc : SC c c') (h : Hi) :
    Rl (Option.Rel ST) (TreeCollection.get c h) (TreeCollection.get c' (πh h))
  getMut {c : C} {c' : C'} (hc : SC c c') (h : Hi) :
    Rl (Option.Rel fun a b => ST a.1 b.1 ∧ ∀ u u', ST u u' → SC (a.2 u) (b.2 u')) (TreeCollection.getMut c h)
      (TreeCollection.getMut c' (πh h))
  insertKey {c : C} {c' : C'} (hc : SC c c') (h : Hi) (l : Lo) (v : V) :
    Rl (fun a b => SC a.1 b.1 ∧ b.2 = insKeyM πh πl a.2) (TreeCollection.insertKey c h (l, v))
      (TreeCollection.insertKey c' (πh h) (πl l, v))
  removeKey {c : C} {c' : C'} (hc : SC c c') (h : Hi) {r : T → R (Option T × (Lo × V))}
    {r' : T' → R (Option T' × (Lo' × V))} (hr : ∀ t t', ST t t' → Rl (RemR πl ST) (r t) (r' t')) :
    Rl (RemKeyR πl SC) (TreeCollection.removeKey c h r) (TreeCollection.removeKey c' (πh h) r')
  maybeRemoveKey {c : C} {c' : C'} (hc : SC c c') (h : Hi) {r : T → R (Result (Option T × (Lo × V)) T)}
    {r' : T' → R (Result (Option T' × (Lo' × V)) T')}
    (hr : ∀ t t', ST t t' → Rl (ResR (RemR πl ST) ST) (r t) (r' t')) :
    Rl (ResR (RemKeyR πl SC) SC) (TreeCollection.maybeRemoveKey c h r) (TreeCollection.maybeRemoveKey c' (πh h) r')

/-! ## Leaves -/

theorem kvm_id (p : K × V) : kvm id p = p := rfl
theorem map_kvm_id (p : Option (K × V)) : p.map (kvm id) = p := by cases p <;> rfl
theorem optRel_refl {A : Type} {P : A → A → Prop} (h : ∀ a, P a a) (o : Option A) : Option.Rel P o o := by
  cases o
  · exact .none
  · exact .some (h _)
theorem rl_refl {A : Type} {P : A → A → Prop} (h : ∀ a, P a a) (x : R A) : Rl P x x :=
  (Rl.refl x).mono (by rintro a _ rfl; exact h _)
theorem mutR_refl {T : Type} (a : K × V × (V → T)) : MutR id Eq a a := ⟨rfl, rfl, fun _ => rfl⟩
theorem remR_refl {T : Type} (a : Option T × (K × V)) : RemR id Eq a a := ⟨optRel_refl (fun _ => rfl) _, rfl⟩

theorem SimTree.same {T : Type} [VebTree T K V] : SimTree (T := T) (T' := T) id Eq := by
  constructor
  case fromMonad => intros; rfl
  case isMonad => rintro t _ rfl; exact Rl.refl _
  case lenHint => rintro t _ rfl; exact Rl.refl _
  case intoMonad => rintro t _ rfl; exact rl_refl (by rintro (_ | _); exacts [.ok rfl, .err rfl]) _
  case minVal => rintro t _ rfl; exact Rl.refl _
  case maxVal => rintro t _ rfl; exact Rl.refl _
  case minValMut => rintro t _ rfl; exact rl_refl mutR_refl _
  case maxValMut => rintro t _ rfl; exact rl_refl mutR_refl _
  case find => rintro t _ rfl k; exact rl_refl (fun a => (map_kvm_id a).symm) _
  case predecessor => rintro t _ rfl k; exact rl_refl (fun a => (map_kvm_id a).symm) _
  case successor => rintro t _ rfl k; exact rl_refl (fun a => (map_kvm_id a).symm) _
  case findMut => rintro t _ rfl k; exact rl_refl (optRel_refl mutR_refl) _
  case predecessorMut => rintro t _ rfl k; exact rl_refl (optRel_refl mutR_refl) _
  case successorMut => rintro t _ rfl k; exact rl_refl (optRel_refl mutR_refl) _
  case insert => rintro t _ rfl k v; exact rl_refl (fun a => ⟨rfl, (map_kvm_id _).symm⟩) _
  case remove => rintro t _ rfl k; exact rl_refl (by rintro (_ | _); exacts [.ok (remR_refl _), .err rfl]) _
  case removeMin => rintro t _ rfl; exact rl_refl remR_refl _
  case removeMax => rintro t _ rfl; exact rl_refl remR_refl _

theorem Forgets.eq [OrdKey K] [LinearOrder K'] {π : K → K'} (h : Forgets π) (a b : K) :
    OrdKey.eq a b = true ↔ π a = π b := by
  unfold OrdKey.eq
  rw [h, cmp]
  split_ifs with h1 h2
  · simp [h1.ne]
  · simp [h2]
  · simp [h2]
theorem Forgets.lt [OrdKey K] [LinearOrder K'] {π : K → K'} (h : Forgets π) (a b : K) :
    OrdKey.lt a b = true ↔ π a < π b := by
  unfold OrdKey.lt
  rw [h, cmp]
  split_ifs with h1 h2
  · simp [h1]
  · simp [h2]
  · simp [h1]
theorem Forgets.le [OrdKey K] [LinearOrder K'] {π : K → K'} (h : Forgets π) (a b : K) :
    OrdKey.le a b = true ↔ π a ≤ π b := by
  unfold OrdKey.le
  rw [h, cmp]
  split_ifs with h1 h2
  · simp [h1.le]
  · simp [h2]
  · simpa using lt_of_le_of_ne (not_lt.1 h1) (Ne.symm h2)

/-! ## `BTreeMap` -/

section
variable [OrdKey K] [LinearOrder K'] {π : K → K'}

/-- forgetting in a `BTreeMap` -/
def OBTreeMap.forget (π : K → K') (t : OBTreeMap K V) : BTreeMap K' V := ⟨t.entries.map (kvm π)⟩

theorem OBTreeMap.stdInsert_forget (h : Forgets π) (k : K) (v : V) (l : List (K × V)) :
    (stdInsert k v l).map (kvm π) = BTreeMap.stdInsert (π k) v (l.map (kvm π)) := by
  induction l with
  | nil => rfl
  | cons p l ih =>
    obtain ⟨k', v'⟩ := p
    simp only [stdInsert, BTreeMap.stdInsert, List.map_cons, kvm]
    rw [h]
    cases cmp (π k) (π k')
    · rfl
    · rfl
    · simp only [List.map_cons, kvm]; rw [ih]
theorem OBTreeMap.stdGet_forget (h : Forgets π) (k : K) (l : List (K × V)) :
    BTreeMap.stdGet (l.map (kvm π)) (π k) = (stdGet l k).map (kvm π) := by
  unfold BTreeMap.stdGet stdGet
  rw [List.find?_map]
  congr 1
  congr 1
  funext p
  rw [Bool.eq_iff_iff]
  simp only [h.eq, kvm, Function.comp]
  exact decide_eq_true_iff
theorem OBTreeMap.stdPut_forget (h : Forgets π) (k : K) (v : V) (l : List (K × V)) :
    (stdPut l k v).map (kvm π) = BTreeMap.stdPut (l.map (kvm π)) (π k) v := by
  unfold BTreeMap.stdPut stdPut
  rw [List.map_map, List.map_map]
  refine List.map_congr_left fun p _ => ?_
  simp only [Function.comp, h.eq, kvm]
  by_cases hk : π p.1 = π k <;> simp [hk]
theorem OBTreeMap.stdErase_forget (h : Forgets π) (k : K) (l : List (K × V)) :
    (stdErase l k).map (kvm π) = BTreeMap.stdErase (l.map (kvm π)) (π k) := by
  unfold BTreeMap.stdErase stdErase
  rw [List.filter_map]
  congr 1
  refine List.filter_congr fun p _ => ?_
  rw [Bool.eq_iff_iff]
  simp [← h.eq, kvm]

theorem OBTreeMap.mutAt_forget (h : Forgets π) (t : OBTreeMap K V) (p : K × V) :
    MutR π (fun a b => b = OBTreeMap.forget π a) (t.mutAt p) ((t.forget π).mutAt (kvm π p)) :=
  ⟨rfl, rfl, fun w => by
    show (⟨_⟩ : BTreeMap K' V) = ⟨_⟩
    congr 1
    exact (OBTreeMap.stdPut_forget h _ _ _).symm⟩

theorem OBTreeMap.mutOpt_forget (h : Forgets π) (t : OBTreeMap K V) (p : Option (K × V)) :
    Option.Rel (MutR π (fun a b => b = OBTreeMap.forget π a)) (p.map t.mutAt) ((p.map (kvm π)).map (t.forget π).mutAt) := by
  cases p
  · exact .none
  · exact .some (mutAt_forget h _ _)

theorem filter_forget {l : List (K × V)} {f : K' × V → Bool} {g : K × V → Bool} (h : ∀ p, f (kvm π p) = g p) :
    (l.map (kvm π)).filter f = (l.filter g).map (kvm π) := by
  rw [List.filter_map]
  congr 1
  exact List.filter_congr fun p _ => h p

theorem expect_map {A B : Type} (m : String) (f : A → B) (o : Option A) :
    Rl (fun a b => b = f a) (expect m o) (expect m (o.map f)) := by
  cases o
  · exact .err _
  · exact .ok rfl

theorem OBTreeMap.sim (h : Forgets π) :
    SimTree (T := OBTreeMap K V) (T' := BTreeMap K' V) π (fun a b => b = OBTreeMap.forget π a) := by
  constructor
  case fromMonad => intros; rfl
  case isMonad => rintro t _ rfl; exact .ok (by simp [forget])
  case lenHint => rintro t _ rfl; exact .ok (by simp [forget])
  case intoMonad =>
    rintro t _ rfl
    show Rl _ (intoMonad t) (BTreeMap.intoMonad _)
    unfold intoMonad BTreeMap.intoMonad isMonad BTreeMap.isMonad
    simp only [pure_bind, forget, List.length_map, List.head?_map]
    split
    · exact (expect_map _ _ _).bind (by rintro a _ rfl; exact .ok (.ok rfl))
    · exact .ok (.err rfl)
  case minVal => rintro t _ rfl; show Rl _ (minVal t) (BTreeMap.minVal _)
                 unfold minVal BTreeMap.minVal; simp only [forget, List.head?_map]; exact expect_map _ _ _
  case maxVal => rintro t _ rfl; show Rl _ (maxVal t) (BTreeMap.maxVal _)
                 unfold maxVal BTreeMap.maxVal; simp only [forget, List.getLast?_map]; exact expect_map _ _ _
  case minValMut =>
    rintro t _ rfl; show Rl _ (minValMut t) (BTreeMap.minValMut _)
    unfold minValMut BTreeMap.minValMut
    have : (forget π t).entries.head? = t.entries.head?.map (kvm π) := List.head?_map ..
    rw [this]
    exact (expect_map _ _ _).bind (by rintro a _ rfl; exact .ok (mutAt_forget h _ _))
  case maxValMut =>
    rintro t _ rfl; show Rl _ (maxValMut t) (BTreeMap.maxValMut _)
    unfold maxValMut BTreeMap.maxValMut
    have : (forget π t).entries.getLast? = t.entries.getLast?.map (kvm π) := List.getLast?_map ..
    rw [this]
    exact (expect_map _ _ _).bind (by rintro a _ rfl; exact .ok (mutAt_forget h _ _))
  case find => rintro t _ rfl k; exact .ok (stdGet_forget h _ _)
  case findMut =>
    rintro t _ rfl k; show Rl _ (findMut t k) (BTreeMap.findMut _ _)
    unfold findMut BTreeMap.findMut
    have : ((forget π t).entries.filter (fun p => decide (π k ≤ p.1 ∧ p.1 ≤ π k))).head? =
        ((t.entries.filter (fun p => OrdKey.le k p.1 && OrdKey.le p.1 k)).head?).map (kvm π) := by
      rw [← List.head?_map]
      congr 1
      exact filter_forget (by intro p; rw [Bool.eq_iff_iff]; simp only [h.le, kvm, Bool.and_eq_true]; exact decide_eq_true_iff)
    rw [this]
    exact .ok (mutOpt_forget h _ _)
  case predecessor =>
    rintro t _ rfl k; refine .ok ?_
    show _ = Option.map _ (List.getLast? _)
    rw [← List.getLast?_map]
    congr 1
    exact filter_forget (by intro p; rw [Bool.eq_iff_iff]; simp only [h.lt, kvm]; exact decide_eq_true_iff)
  case predecessorMut =>
    rintro t _ rfl k; show Rl _ (predecessorMut t k) (BTreeMap.predecessorMut _ _)
    unfold predecessorMut BTreeMap.predecessorMut
    have : ((forget π t).entries.filter (fun p => decide (p.1 < π k))).getLast? =
        ((t.entries.filter (fun p => OrdKey.lt p.1 k)).getLast?).map (kvm π) := by
      rw [← List.getLast?_map]
      congr 1
      exact filter_forget (by intro p; rw [Bool.eq_iff_iff]; simp only [h.lt, kvm]; exact decide_eq_true_iff)
    rw [this]
    exact .ok (mutOpt_forget h _ _)
  case successor =>
    rintro t _ rfl k; refine .ok ?_
    show _ = Option.map _ (List.head? _)
    rw [← List.head?_map]
    congr 1
    exact filter_forget (by intro p; rw [Bool.eq_iff_iff]; simp only [h.lt, kvm]; exact decide_eq_true_iff)
  case successorMut =>
    rintro t _ rfl k; show Rl _ (successorMut t k) (BTreeMap.successorMut _ _)
    unfold successorMut BTreeMap.successorMut
    have : ((forget π t).entries.filter (fun p => decide (π k < p.1))).head? =
        ((t.entries.filter (fun p => OrdKey.lt k p.1)).head?).map (kvm π) := by
      rw [← List.head?_map]
      congr 1
      exact filter_forget (by intro p; rw [Bool.eq_iff_iff]; simp only [h.lt, kvm]; exact decide_eq_true_iff)
    rw [this]
    exact .ok (mutOpt_forget h _ _)
  case insert =>
    rintro t _ rfl k v; show Rl _ (insert t k v) (BTreeMap.insert _ _ _)
    unfold insert BTreeMap.insert
    have : BTreeMap.stdGet (forget π t).entries (π k) = _ := stdGet_forget h k t.entries
    rw [this]
    cases stdGet t.entries k with
    | none => exact .ok ⟨congrArg BTreeMap.mk (stdInsert_forget h _ _ _).symm, rfl⟩
    | some p => exact .ok ⟨congrArg BTreeMap.mk (stdPut_forget h _ _ _).symm, rfl⟩
  case remove =>
    rintro t _ rfl k; show Rl _ (remove t k) (BTreeMap.remove _ _)
    unfold remove BTreeMap.remove isMonad BTreeMap.isMonad
    have : BTreeMap.stdGet (forget π t).entries (π k) = _ := stdGet_forget h k t.entries
    rw [this]
    simp only [pure_bind, forget, List.length_map]
    cases stdGet t.entries k with
    | none => exact .ok (.err rfl)
    | some p =>
      cases decide (t.entries.length = 1)
      · exact .ok (.ok ⟨.some (congrArg BTreeMap.mk (stdErase_forget h _ _).symm), rfl⟩)
      · exact .ok (.ok ⟨.none, rfl⟩)
  case removeMin =>
    rintro t _ rfl; show Rl _ (removeMin t) (BTreeMap.removeMin _)
    unfold removeMin BTreeMap.removeMin
    have : (forget π t).entries.head? = t.entries.head?.map (kvm π) := List.head?_map ..
    rw [this]
    refine (expect_map _ _ _).bind ?_
    rintro a _ rfl
    refine .ok ⟨?_, rfl⟩
    simp only [forget, ← List.map_tail, List.isEmpty_map]
    cases t.entries.tail.isEmpty
    · exact .some rfl
    · exact .none
  case removeMax =>
    rintro t _ rfl; show Rl _ (removeMax t) (BTreeMap.removeMax _)
    unfold removeMax BTreeMap.removeMax
    have : (forget π t).entries.getLast? = t.entries.getLast?.map (kvm π) := List.getLast?_map ..
    rw [this]
    refine (expect_map _ _ _).bind ?_
    rintro a _ rfl
    refine .ok ⟨?_, rfl⟩
    simp only [forget, ← List.map_dropLast, List.isEmpty_map]
    cases t.entries.dropLast.isEmpty
    · exact .some rfl
    · exact .none
end
end Veb
