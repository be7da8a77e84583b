import Verif.SpecClone
import Verif.Proof.Same

/-!
Clones: positional simulations of `BTreeMap` and `HashMap`, and the clone of every cloneable tree.
-/

set_option autoImplicit false
set_option linter.unusedSectionVars false
namespace Veb

variable {K Hi Lo V V' T T' C C' : Type}

/-! ## `BTreeMap`, entry by entry -/

section
variable [LinearOrder K] {f : V → V'}

/-- the same entries with renamed values -/
def BTreeV (f : V → V') (t : BTreeMap K V) (t' : BTreeMap K V') : Prop := t'.entries = t.entries.map (kvf id f)

theorem btv_get (l : List (K × V)) (k : K) :
    BTreeMap.stdGet (l.map (kvf id f)) k = (BTreeMap.stdGet l k).map (kvf id f) := by
  unfold BTreeMap.stdGet
  rw [List.find?_map]; rfl
theorem btv_put (l : List (K × V)) (k : K) (v : V) :
    BTreeMap.stdPut (l.map (kvf id f)) k (f v) = (BTreeMap.stdPut l k v).map (kvf id f) := by
  unfold BTreeMap.stdPut
  simp only [List.map_map]
  refine List.map_congr_left fun p _ => ?_
  by_cases h : p.1 = k
  · simp only [Function.comp, kvf, id, h, if_true]
  · simp only [Function.comp, kvf, id, h, if_false]
theorem btv_erase (l : List (K × V)) (k : K) :
    BTreeMap.stdErase (l.map (kvf id f)) k = (BTreeMap.stdErase l k).map (kvf id f) := by
  unfold BTreeMap.stdErase
  rw [List.filter_map]; rfl
theorem btv_insert (l : List (K × V)) (k : K) (v : V) :
    BTreeMap.stdInsert k (f v) (l.map (kvf id f)) = (BTreeMap.stdInsert k v l).map (kvf id f) := by
  induction l with
  | nil => rfl
  | cons p l ih =>
    obtain ⟨k', v'⟩ := p
    simp only [List.map_cons, BTreeMap.stdInsert, kvf, id]
    cases cmp k k' with
    | lt => rfl
    | eq => rfl
    | gt => simp only [List.map_cons]; exact congrArg _ ih

theorem btv_mutAt {t : BTreeMap K V} {t' : BTreeMap K V'} (h : BTreeV f t t') (p : K × V) :
    MutX id f (BTreeV f) (t.mutAt p) (t'.mutAt (kvf id f p)) := by
  refine ⟨rfl, rfl, fun w => ?_⟩
  show BTreeMap.stdPut t'.entries _ _ = (BTreeMap.stdPut t.entries _ _).map _
  rw [h]; exact btv_put _ _ _
theorem btv_mutOpt {t : BTreeMap K V} {t' : BTreeMap K V'} (h : BTreeV f t t') (o : Option (K × V)) :
    Option.Rel (MutX id f (BTreeV f)) (o.map t.mutAt) ((o.map (kvf id f)).map t'.mutAt) := by
  cases o with
  | none => exact .none
  | some p => exact .some (btv_mutAt h p)

theorem rx_expect_map {m : String} {o : Option (K × V)} :
    Rx (EntX id f) (expect m o) (expect m (o.map (kvf (id : K → K) f))) := by
  cases o with
  | none => exact .err _ _
  | some p => exact .ok rfl

theorem btv_left {t : BTreeMap K V} {t' : BTreeMap K V'} (h : BTreeV f t t') (l : List (K × V)) :
    Option.Rel (BTreeV f) (if l.isEmpty then none else some (⟨l⟩ : BTreeMap K V))
      (if (l.map (kvf id f)).isEmpty then none else some (⟨l.map (kvf id f)⟩ : BTreeMap K V')) := by
  cases l with
  | nil => exact .none
  | cons p l => exact .some rfl

theorem BTreeMap.sameV : SameTree (T := BTreeMap K V) (T' := BTreeMap K V') id f (BTreeV f) where
  fromMonad k v := rfl
  isMonad h := .ok (by rw [h]; simp)
  intoMonad {t t'} h := by
    show Rx _ (BTreeMap.intoMonad t) (BTreeMap.intoMonad t')
    unfold BTreeMap.intoMonad BTreeMap.isMonad
    rw [h]
    simp only [List.length_map, R.pure_eq, R.ok_bind]
    by_cases hl : t.entries.length = 1
    · simp only [hl, decide_true, if_true]
      rw [List.head?_map]
      refine rx_expect_map.bind ?_
      rintro a _ rfl
      exact .ok (.ok rfl)
    · simp only [hl, decide_false, Bool.false_eq_true, if_false]
      exact .ok (.err h)
  minVal {t t'} h := by
    show Rx _ (BTreeMap.minVal t) (BTreeMap.minVal t')
    unfold BTreeMap.minVal
    rw [h, List.head?_map]; exact rx_expect_map
  minValMut {t t'} h := by
    show Rx _ (BTreeMap.minValMut t) (BTreeMap.minValMut t')
    unfold BTreeMap.minValMut
    have := h
    rw [show t'.entries.head? = t.entries.head?.map (kvf id f) by rw [this, List.head?_map]]
    refine rx_expect_map.bind ?_
    rintro a _ rfl
    exact .ok (btv_mutAt h a)
  maxVal {t t'} h := by
    show Rx _ (BTreeMap.maxVal t) (BTreeMap.maxVal t')
    unfold BTreeMap.maxVal
    rw [h, List.getLast?_map]; exact rx_expect_map
  maxValMut {t t'} h := by
    show Rx _ (BTreeMap.maxValMut t) (BTreeMap.maxValMut t')
    unfold BTreeMap.maxValMut
    have := h
    rw [show t'.entries.getLast? = t.entries.getLast?.map (kvf id f) by rw [this, List.getLast?_map]]
    refine rx_expect_map.bind ?_
    rintro a _ rfl
    exact .ok (btv_mutAt h a)
  find {t t'} h k := by
    show Rx _ (BTreeMap.find t k) (BTreeMap.find t' k)
    unfold BTreeMap.find
    rw [h, btv_get]; exact .ok rfl
  findMut {t t'} h k := by
    show Rx _ (BTreeMap.findMut t k) (BTreeMap.findMut t' k)
    unfold BTreeMap.findMut
    rw [show t'.entries.filter (fun p => decide (k ≤ p.1 ∧ p.1 ≤ k)) =
      (t.entries.filter (fun p => decide (k ≤ p.1 ∧ p.1 ≤ k))).map (kvf id f) by
        rw [show t'.entries = _ from h, List.filter_map]; rfl, List.head?_map]
    exact .ok (btv_mutOpt h _)
  predecessor {t t'} h k := by
    show Rx _ (BTreeMap.predecessor t k) (BTreeMap.predecessor t' k)
    unfold BTreeMap.predecessor
    rw [show t'.entries = _ from h, List.filter_map, List.getLast?_map]
    exact .ok rfl
  predecessorMut {t t'} h k := by
    show Rx _ (BTreeMap.predecessorMut t k) (BTreeMap.predecessorMut t' k)
    unfold BTreeMap.predecessorMut
    rw [show t'.entries.filter (fun p => decide (p.1 < k)) = (t.entries.filter (fun p => decide (p.1 < k))).map (kvf id f) by
        rw [show t'.entries = _ from h, List.filter_map]; rfl, List.getLast?_map]
    exact .ok (btv_mutOpt h _)
  successor {t t'} h k := by
    show Rx _ (BTreeMap.successor t k) (BTreeMap.successor t' k)
    unfold BTreeMap.successor
    rw [show t'.entries = _ from h, List.filter_map, List.head?_map]
    exact .ok rfl
  successorMut {t t'} h k := by
    show Rx _ (BTreeMap.successorMut t k) (BTreeMap.successorMut t' k)
    unfold BTreeMap.successorMut
    rw [show t'.entries.filter (fun p => decide (k < p.1)) = (t.entries.filter (fun p => decide (k < p.1))).map (kvf id f) by
        rw [show t'.entries = _ from h, List.filter_map]; rfl, List.head?_map]
    exact .ok (btv_mutOpt h _)
  insert {t t'} h k v := by
    show Rx _ (BTreeMap.insert t k v) (BTreeMap.insert t' k (f v))
    unfold BTreeMap.insert
    rw [show t'.entries = _ from h, btv_get]
    cases BTreeMap.stdGet t.entries k with
    | none => exact .ok ⟨btv_insert _ _ _, rfl⟩
    | some p => exact .ok ⟨btv_put _ _ _, rfl⟩
  remove {t t'} h k := by
    show Rx _ (BTreeMap.remove t k) (BTreeMap.remove t' k)
    unfold BTreeMap.remove BTreeMap.isMonad
    rw [show t'.entries = _ from h, btv_get, List.length_map]
    cases BTreeMap.stdGet t.entries k with
    | none => exact .ok (.err h)
    | some p =>
      simp only [R.pure_eq, R.ok_bind, Option.map_some]
      by_cases hl : t.entries.length = 1
      · simp only [hl, decide_true]
        exact .ok (.ok ⟨.none, rfl⟩)
      · simp only [hl, decide_false]
        exact .ok (.ok ⟨.some (btv_erase _ _), rfl⟩)
  removeMin {t t'} h := by
    show Rx _ (BTreeMap.removeMin t) (BTreeMap.removeMin t')
    unfold BTreeMap.removeMin
    rw [show t'.entries = _ from h, List.head?_map, ← List.map_tail]
    refine rx_expect_map.bind ?_
    rintro a _ rfl
    exact .ok ⟨btv_left h _, rfl⟩
  removeMax {t t'} h := by
    show Rx _ (BTreeMap.removeMax t) (BTreeMap.removeMax t')
    unfold BTreeMap.removeMax
    rw [show t'.entries = _ from h, List.getLast?_map, ← List.map_dropLast]
    refine rx_expect_map.bind ?_
    rintro a _ rfl
    exact .ok ⟨btv_left h _, rfl⟩

end

/-! ## `HashMap`, entry by entry -/

section
variable [DecidableEq Hi] [VebTree T Lo V] [VebTree T' Lo V'] {f : V → V'} {ST : T → T' → Prop}

/-- the same keys at the same places, with related trees -/
def HashV (ST : T → T' → Prop) (c : HashMap Hi T) (c' : HashMap Hi T') : Prop :=
  List.Forall₂ (fun p q => q.1 = p.1 ∧ ST p.2 q.2) c.entries c'.entries

theorem hashV_lookup {c : HashMap Hi T} {c' : HashMap Hi T'} (hc : HashV ST c c') (h : Hi) :
    Option.Rel ST (c.lookup h) (c'.lookup h) := by
  obtain ⟨l⟩ := c; obtain ⟨l'⟩ := c'
  unfold HashV at hc
  unfold HashMap.lookup
  dsimp only at hc ⊢
  induction hc with
  | nil => exact .none
  | @cons p q l l' hp hl ih =>
    by_cases e : p.1 = h
    · rw [List.find?_cons_of_pos (by simpa using e), List.find?_cons_of_pos (by simpa [hp.1] using e)]
      exact .some hp.2
    · rw [List.find?_cons_of_neg (by simpa using e), List.find?_cons_of_neg (by simpa [hp.1] using e)]
      exact ih

theorem hashV_assign {c : HashMap Hi T} {c' : HashMap Hi T'} (hc : HashV ST c c') (h : Hi) {t : T} {t' : T'} (ht : ST t t') :
    HashV ST (c.assign h t) (c'.assign h t') := by
  obtain ⟨l⟩ := c; obtain ⟨l'⟩ := c'
  unfold HashV at hc ⊢
  unfold HashMap.assign
  dsimp only at hc ⊢
  induction hc with
  | nil => exact .nil
  | @cons p q l l' hp hl ih =>
    refine .cons ?_ ih
    show (if q.1 = h then (q.1, t') else q).1 = (if p.1 = h then (p.1, t) else p).1 ∧
      ST (if p.1 = h then (p.1, t) else p).2 (if q.1 = h then (q.1, t') else q).2
    by_cases e : p.1 = h
    · rw [if_pos e, if_pos (hp.1.trans e)]; exact ⟨hp.1, ht⟩
    · rw [if_neg e, if_neg (fun x => e (hp.1.symm.trans x))]; exact hp

theorem hashV_erase {c : HashMap Hi T} {c' : HashMap Hi T'} (hc : HashV ST c c') (h : Hi) :
    HashV ST (c.erase h) (c'.erase h) := by
  obtain ⟨l⟩ := c; obtain ⟨l'⟩ := c'
  unfold HashV at hc ⊢
  unfold HashMap.erase
  dsimp only at hc ⊢
  induction hc with
  | nil => exact .nil
  | @cons p q l l' hp hl ih =>
    by_cases e : p.1 = h
    · rw [List.filter_cons_of_neg (by simpa using e), List.filter_cons_of_neg (by simpa [hp.1] using e)]
      exact ih
    · rw [List.filter_cons_of_pos (by simpa using e), List.filter_cons_of_pos (by simpa [hp.1] using e)]
      exact .cons hp ih

theorem hashV_replace {c : HashMap Hi T} {c' : HashMap Hi T'} (hc : HashV ST c c') (h : Hi) {o : Option T} {o' : Option T'}
    (ho : Option.Rel ST o o') : HashV ST (c.replaceEntry h o) (c'.replaceEntry h o') := by
  cases ho with
  | none => exact hashV_erase hc h
  | some ht => exact hashV_assign hc h ht

theorem hashV_isEmpty {c : HashMap Hi T} {c' : HashMap Hi T'} (hc : HashV ST c c') :
    c'.entries.isEmpty = c.entries.isEmpty := by
  obtain ⟨l⟩ := c; obtain ⟨l'⟩ := c'
  unfold HashV at hc
  dsimp only at hc ⊢
  cases hc <;> rfl

theorem rel_isNone {α β : Type} {P : α → β → Prop} {o : Option α} {o' : Option β} (h : Option.Rel P o o') :
    o'.isNone = o.isNone := by cases h <;> rfl

theorem HashMap.sameV (hT : SameTree (id : Lo → Lo) f ST) :
    SameColl (C := HashMap Hi T) (C' := HashMap Hi T') (id : Hi → Hi) (id : Lo → Lo) f ST (HashV ST) where
  create h t t' ht := by
    show Rx _ (HashMap.create h t) (HashMap.create h t')
    unfold HashMap.create
    have e : ∀ {X : Type} (x : X), (HashMap.lookup (⟨[(h, x)]⟩ : HashMap Hi X) h).isSome = true := by
      intro X x; simp [HashMap.lookup]
    simp only [List.length_singleton, decide_true, debugAssert_true, e, R.ok_bind, R.pure_eq]
    exact .ok (.cons ⟨rfl, ht⟩ .nil)
  get hc h := .ok (hashV_lookup hc h)
  getMut {c c'} hc h := by
    show Rx _ (HashMap.getMut c h) (HashMap.getMut c' h)
    unfold HashMap.getMut
    have hl := hashV_lookup hc h
    generalize c.lookup h = o at hl; generalize c'.lookup h = o' at hl
    cases hl with
    | none => exact .ok .none
    | some ht => exact .ok (.some ⟨ht, fun u u' hu => hashV_assign hc h hu⟩)
  insertKey {c c'} hc h l v := by
    show Rx _ (HashMap.insertKey c h (l, v)) (HashMap.insertKey c' h (l, f v))
    unfold HashMap.insertKey
    have hl := hashV_lookup hc h
    generalize c.lookup h = o at hl; generalize c'.lookup h = o' at hl
    cases hl with
    | none => exact .ok ⟨.cons ⟨rfl, hT.fromMonad l v⟩ hc, rfl⟩
    | some ht =>
      refine (hT.insert ht l v).bind ?_
      rintro ⟨t, o⟩ ⟨t', _⟩ ⟨h1, rfl⟩
      exact .ok ⟨hashV_assign hc h h1, rfl⟩
  removeKey {c c'} hc h r r' hr := by
    show Rx _ (HashMap.removeKey c h r) (HashMap.removeKey c' h r')
    unfold HashMap.removeKey
    have hl := hashV_lookup hc h
    generalize c.lookup h = o at hl; generalize c'.lookup h = o' at hl
    cases hl with
    | none => exact .err _ _
    | some ht =>
      refine (hr _ _ ht).bind ?_
      rintro ⟨t, v⟩ ⟨t', _⟩ ⟨h1, rfl⟩
      dsimp only at h1 ⊢
      have h2 := hashV_replace hc h h1
      rw [hashV_isEmpty h2, rel_isNone h1]
      cases (c.replaceEntry h t).entries.isEmpty with
      | true => exact .ok ⟨.none, rfl⟩
      | false => exact .ok ⟨.some ⟨h2, rfl⟩, rfl⟩
  maybeRemoveKey {c c'} hc h r r' hr := by
    show Rx _ (HashMap.maybeRemoveKey c h r) (HashMap.maybeRemoveKey c' h r')
    unfold HashMap.maybeRemoveKey
    have hl := hashV_lookup hc h
    generalize c.lookup h = o at hl; generalize c'.lookup h = o' at hl
    cases hl with
    | none => exact .ok (.err hc)
    | some ht =>
      have hr := hr _ _ ht
      dsimp only
      generalize r _ = x at hr; generalize r' _ = x' at hr
      cases hr with
      | err e e' => exact .err _ _
      | ok hx =>
        cases hx with
        | err hx =>
          have h2 := hashV_replace hc h (.some hx)
          simp only [R.pure_eq, R.ok_bind]
          rw [hashV_isEmpty h2]
          cases (c.replaceEntry h _).entries.isEmpty with
          | true => exact .err _ _
          | false => exact .ok (.err h2)
        | @ok a b hx =>
          obtain ⟨t, v⟩ := a
          obtain ⟨t', _⟩ := b
          obtain ⟨h1, rfl⟩ := hx
          have h2 := hashV_replace hc h h1
          simp only [R.pure_eq, R.ok_bind]
          rw [hashV_isEmpty h2, rel_isNone h1]
          cases (c.replaceEntry h t).entries.isEmpty with
          | true => exact .ok (.ok ⟨.none, rfl⟩)
          | false => exact .ok (.ok ⟨.some ⟨h2, rfl⟩, rfl⟩)
end

/-! ## Boxed collections -/

section
variable {Hi' Lo' : Type} [VebTree T Lo V] [VebTree T' Lo' V'] [TreeCollection C Hi T Lo V] [TreeCollection C' Hi' T' Lo' V']
  {πh : Hi → Hi'} {πl : Lo → Lo'} {f : V → V'} {ST : T → T' → Prop} {SC : C → C' → Prop}

/-- boxes with related contents -/
def BoxX (SC : C → C' → Prop) (c : Box C) (c' : Box C') : Prop := SC c.val c'.val

theorem boxX_rem {a : Option (C × Bool) × (Lo × V)} {b : Option (C' × Bool) × (Lo' × V')} (h : RemKeyX πl f SC a b) :
    RemKeyX πl f (BoxX SC) (a.1.map (fun (t, b) => ((⟨t⟩ : Box C), b)), a.2)
      (b.1.map (fun (t, b) => ((⟨t⟩ : Box C'), b)), b.2) := by
  obtain ⟨a, v⟩ := a; obtain ⟨b, v'⟩ := b
  refine ⟨?_, h.2⟩
  have h' := h.1
  dsimp only at h' ⊢
  cases h' with
  | none => exact .none
  | some h' => exact .some h'

theorem Box.sameColl (h : SameColl πh πl f ST SC) :
    SameColl (C := Box C) (C' := Box C') πh πl f ST (BoxX SC) where
  create k t t' ht := (h.create k ht).bind fun a b hab => .ok hab
  get hc k := h.get hc k
  getMut {c c'} hc k := by
    refine (h.getMut (c := c.val) (c' := c'.val) hc k).bind ?_
    intro a b hab
    cases hab with
    | none => exact .ok .none
    | some hab => exact .ok (.some ⟨hab.1, fun u u' hu => hab.2 u u' hu⟩)
  insertKey {c c'} hc k l v := (h.insertKey (c := c.val) (c' := c'.val) hc k l v).bind fun a b hab => .ok hab
  removeKey {c c'} hc k r r' hr := (h.removeKey (c := c.val) (c' := c'.val) hc k hr).bind fun a b hab => .ok (boxX_rem hab)
  maybeRemoveKey {c c'} hc k r r' hr := by
    refine (h.maybeRemoveKey (c := c.val) (c' := c'.val) hc k hr).bind ?_
    intro a b hab
    cases hab with
    | err hab => exact .ok (.err hab)
    | ok hab => exact .ok (.ok (boxX_rem hab))
end

/-! ## Equality -/

theorem rx_eq {α : Type} {P : α → α → Prop} (h : ∀ a, P a a) (x : R α) : Rx P x x := by
  cases x with
  | error e => exact .err _ _
  | ok a => exact .ok (h a)
theorem optRel_eq {α : Type} {P : α → α → Prop} (h : ∀ a, P a a) (x : Option α) : Option.Rel P x x := by
  cases x with
  | none => exact .none
  | some a => exact .some (h a)
theorem resR_eq {A E : Type} {P : A → A → Prop} {Q : E → E → Prop} (h : ∀ a, P a a) (h' : ∀ a, Q a a) (x : Result A E) :
    ResR P Q x x := by
  cases x with
  | Ok a => exact .ok (h a)
  | Err a => exact .err (h' a)

/-- equality, the way simulations have it -/
abbrev IsEq (a b : T) : Prop := b = a
theorem rx_ent (x : R (K × V)) : Rx (EntX id id) x x := rx_eq (P := EntX id id) (fun _ => rfl) x
theorem rx_mut (x : R (K × V × (V → T))) : Rx (MutX id id IsEq) x x :=
  rx_eq (P := MutX id id IsEq) (fun _ => ⟨rfl, rfl, fun _ => rfl⟩) x
theorem rx_opt (x : R (Option (K × V))) : Rx (OptX id id) x x :=
  rx_eq (P := OptX id id) (fun o => by cases o <;> rfl) x
theorem rx_mutOpt (x : R (Option (K × V × (V → T)))) : Rx (Option.Rel (MutX id id IsEq)) x x :=
  rx_eq (optRel_eq (P := MutX id id IsEq) fun _ => ⟨rfl, rfl, fun _ => rfl⟩) x
theorem remX_eq (a : Option T × (K × V)) : RemX id id IsEq a a := ⟨optRel_eq (P := IsEq) (fun _ => rfl) _, rfl⟩

/-- equality is a simulation -/
theorem SameTree.refl [VebTree T K V] : SameTree (T := T) (T' := T) (id : K → K) (id : V → V) IsEq where
  fromMonad k v := rfl
  isMonad h := by rw [h]; exact rx_eq (P := fun a b => b = a) (fun _ => rfl) _
  intoMonad h := by rw [h]; exact rx_eq (resR_eq (P := EntX id id) (Q := IsEq) (fun _ => rfl) fun _ => rfl) _
  minVal h := by rw [h]; exact rx_ent _
  minValMut h := by rw [h]; exact rx_mut _
  maxVal h := by rw [h]; exact rx_ent _
  maxValMut h := by rw [h]; exact rx_mut _
  find h k := by rw [h]; exact rx_opt _
  findMut h k := by rw [h]; exact rx_mutOpt _
  predecessor h k := by rw [h]; exact rx_opt _
  predecessorMut h k := by rw [h]; exact rx_mutOpt _
  successor h k := by rw [h]; exact rx_opt _
  successorMut h k := by rw [h]; exact rx_mutOpt _
  insert h k v := by
    rw [h]; exact rx_eq (P := InsX id id IsEq) (fun o => ⟨rfl, by rcases o with ⟨_, _ | _⟩ <;> rfl⟩) _
  remove h k := by rw [h]; exact rx_eq (resR_eq (Q := IsEq) remX_eq fun _ => rfl) _
  removeMin h := by rw [h]; exact rx_eq remX_eq _
  removeMax h := by rw [h]; exact rx_eq remX_eq _

/-! ## Clones -/

theorem clone_kv [Clone K] [LawfulClone K] [Clone V] (p : K × V) : clone p = kvf id clone p := by
  show (clone p.1, clone p.2) = (p.1, clone p.2)
  rw [LawfulClone.clone_eq]

theorem CloneableColl.same [VebTree T Lo V] [TreeCollection C Hi T Lo V] [Clone T] [Clone C]
    (h : CloneableColl C Hi T Lo V) : ∀ {f : V → V} {ST : T → T → Prop}, SameTree (id : Lo → Lo) f ST →
    (∀ t, ST t (clone t)) →
    ∃ SC : C → C → Prop, SameColl (id : Hi → Hi) (id : Lo → Lo) f ST SC ∧ ∀ c, SC c (clone c) := by
  induction h with
  | hash =>
    intro f ST hT hc
    refine ⟨_, HashMap.sameV hT, fun c => ?_⟩
    show List.Forall₂ _ c.entries (c.entries.map clone)
    rw [List.forall₂_map_right_iff]
    exact List.forall₂_same.2 fun p _ => ⟨LawfulClone.clone_eq p.1, hc p.2⟩
  | box h ih =>
    intro f ST hT hc
    obtain ⟨SC, h1, h2⟩ := ih hT hc
    exact ⟨_, Box.sameColl h1, fun c => h2 c.val⟩

theorem Cloneable.same [LinearOrder K] [VebTree T K V] [Clone T] [Clone V] (h : Cloneable T K V) :
    ∃ S : T → T → Prop, SameTree (K := K) (K' := K) id (clone : V → V) S ∧ ∀ t, S t (clone t) := by
  induction h with
  | byteSet => exact ⟨_, SameTree.refl, fun t => rfl⟩
  | btreeMap =>
    refine ⟨_, BTreeMap.sameV, fun t => ?_⟩
    show t.entries.map clone = t.entries.map (kvf id clone)
    exact List.map_congr_left fun p _ => clone_kv p
  | box h ih =>
    obtain ⟨S, h1, h2⟩ := ih
    exact ⟨_, Box.sameL (Box.sameR h1), fun t => h2 t.val⟩
  | tree hs ht hc ihs iht =>
    obtain ⟨SS, h1, h2⟩ := ihs
    obtain ⟨ST, h3, h4⟩ := iht
    obtain ⟨SC, h5, h6⟩ := hc.same h3 h4
    refine ⟨_, Tree.same strictMono_id ⟨fun _ => rfl, fun _ => rfl, fun _ _ => rfl⟩ h1 h3 h5, ?_⟩
    rintro ⟨p, _ | ⟨q, _ | ⟨s, c⟩⟩⟩
    · show NodeR _ _ _ _ _ ⟨clone p, none⟩
      rw [clone_kv]; exact .one p
    · show NodeR _ _ _ _ _ ⟨clone p, some ⟨clone q, none⟩⟩
      rw [clone_kv, clone_kv]; exact .two p q
    · show NodeR _ _ _ _ _ ⟨clone p, some ⟨clone q, some (clone s, clone c)⟩⟩
      rw [clone_kv, clone_kv]; exact .more p q (h2 s) (h6 c)

end Veb
