import Verif.Proof.NoPanic
import Verif.Proof.Cap
import Verif.Proof.Same
import Verif.SpecRewrite

/-!
The five accessors that hand out `&mut V`: they agree with the shared ones, see what was written, and writing the old value
back leaves the very same tree.  The first two hold of every tree value, whatever its state.
-/

set_option autoImplicit false
set_option linter.unusedSectionVars false
namespace Veb

variable {T K V C Hi Lo S : Type}

/-- key and value of a `&mut` result -/
def kvOf (r : K × V × (V → T)) : K × V := (r.1, r.2.1)

/-- a `&mut` accessor and its shared version both panic or report the same entry -/
abbrev AgreeM (a : R (K × V × (V → T))) (b : R (K × V)) : Prop := Rx (fun x y => y = kvOf x) a b
/-- the same for optional results -/
abbrev AgreeO (a : R (Option (K × V × (V → T)))) (b : R (Option (K × V))) : Prop := Rx (fun x y => y = x.map kvOf) a b

/-- after writing `w`, the same accessor reports the same key with `w`, and writes the same trees -/
def AgainM (F : T → R (K × V × (V → T))) : Prop := ∀ t r, F t = .ok r → ∀ w, F (r.2.2 w) = .ok (r.1, w, r.2.2)
/-- the same for optional results -/
def AgainO (F : T → R (Option (K × V × (V → T)))) : Prop :=
  ∀ t r, F t = .ok (some r) → ∀ w, F (r.2.2 w) = .ok (some (r.1, w, r.2.2))

/-- what the `&mut` accessors of a tree do, in any state -/
structure RWTree (T K V : Type) [VebTree T K V] : Prop where
  minAgree (t : T) : AgreeM (VebTree.minValMut t) (VebTree.minVal t)
  maxAgree (t : T) : AgreeM (VebTree.maxValMut t) (VebTree.maxVal t)
  findAgree (t : T) (k : K) : AgreeO (VebTree.findMut t k) (VebTree.find t k)
  predAgree (t : T) (k : K) : AgreeO (VebTree.predecessorMut t k) (VebTree.predecessor t k)
  succAgree (t : T) (k : K) : AgreeO (VebTree.successorMut t k) (VebTree.successor t k)
  minAgain : AgainM (T := T) VebTree.minValMut
  maxAgain : AgainM (T := T) VebTree.maxValMut
  findAgain (k : K) : AgainO (T := T) (VebTree.findMut · k)
  predAgain (k : K) : AgainO (T := T) (VebTree.predecessorMut · k)
  succAgain (k : K) : AgainO (T := T) (VebTree.successorMut · k)
  maxPred (t : T) (r : K × V × (V → T)) (k : K) : VebTree.maxValMut t = .ok r → VebTree.predecessorMut t k = .ok none →
    ∀ w, VebTree.predecessorMut (r.2.2 w) k = .ok none
  minSucc (t : T) (r : K × V × (V → T)) (k : K) : VebTree.minValMut t = .ok r → VebTree.successorMut t k = .ok none →
    ∀ w, VebTree.successorMut (r.2.2 w) k = .ok none

/-- the same for a collection: `get_mut` agrees with `get`, and a tree written under one key is seen there; under another key
there is what was there, unless the two keys share their tree -/
structure RWColl (C Hi T Lo V : Type) [TreeCollection C Hi T Lo V] : Prop where
  agree (c : C) (h : Hi) : Rx (fun x y => y = x.map Prod.fst) (TreeCollection.getMut c h) (TreeCollection.get c h)
  again (c : C) (h : Hi) (t : T) (put : T → C) : TreeCollection.getMut c h = .ok (some (t, put)) →
    ∀ u, TreeCollection.getMut (put u) h = .ok (some (u, put))
  other (c : C) (h h' : Hi) (t : T) (put : T → C) (o : Option (T × (T → C))) :
    TreeCollection.getMut c h = .ok (some (t, put)) → TreeCollection.getMut c h' = .ok o →
    ∀ u, ∃ o', TreeCollection.getMut (put u) h' = .ok o' ∧
      (o'.map Prod.fst = o.map Prod.fst ∨ (o.map Prod.fst = some t ∧ o'.map Prod.fst = some u))

/-- writing the old value back changes nothing -/
structure Noop [VebTree T K V] (W : T → Prop) : Prop where
  min (t : T) (r : K × V × (V → T)) : W t → VebTree.minValMut t = .ok r → r.2.2 r.2.1 = t
  max (t : T) (r : K × V × (V → T)) : W t → VebTree.maxValMut t = .ok r → r.2.2 r.2.1 = t
  find (t : T) (k : K) (r : K × V × (V → T)) : W t → VebTree.findMut t k = .ok (some r) → r.2.2 r.2.1 = t
  pred (t : T) (k : K) (r : K × V × (V → T)) : W t → VebTree.predecessorMut t k = .ok (some r) → r.2.2 r.2.1 = t
  succ (t : T) (k : K) (r : K × V × (V → T)) : W t → VebTree.successorMut t k = .ok (some r) → r.2.2 r.2.1 = t

/-- the same for a collection -/
def NoopColl [TreeCollection C Hi T Lo V] (I : C → Prop) : Prop :=
  ∀ c h t put, I c → TreeCollection.getMut c h = .ok (some (t, put)) → put t = c

/-! ## Leaves -/

theorem ByteSet.rw : RWTree ByteSet (U 8) Unit where
  minAgree t := by
    show AgreeM (ByteSet.minValMut t) (ByteSet.minVal t)
    unfold ByteSet.minValMut ByteSet.minVal
    exact Rx.bindEq fun _ => .ok rfl
  maxAgree t := by
    show AgreeM (ByteSet.maxValMut t) (ByteSet.maxVal t)
    unfold ByteSet.maxValMut ByteSet.maxVal
    exact Rx.bindEq fun _ => .ok rfl
  findAgree t k := by
    show AgreeO (ByteSet.findMut t k) (ByteSet.find t k)
    unfold ByteSet.findMut ByteSet.find
    split
    · exact .ok rfl
    · exact .ok rfl
  predAgree t k := by
    show AgreeO (ByteSet.predecessorMut t k) (ByteSet.predecessor t k)
    unfold ByteSet.predecessorMut ByteSet.predecessor
    split
    · exact .ok rfl
    · exact Rx.bindEq fun _ => .ok rfl
  succAgree t k := by
    show AgreeO (ByteSet.successorMut t k) (ByteSet.successor t k)
    unfold ByteSet.successorMut ByteSet.successor
    split
    · exact .ok rfl
    · exact Rx.bindEq fun _ => .ok rfl
  minAgain t r h w := by
    have h : ByteSet.minValMut t = .ok r := h
    show ByteSet.minValMut _ = _
    unfold ByteSet.minValMut at h ⊢
    cases hl : t.lowest with
    | error e => rw [hl] at h; cases h
    | ok k => rw [hl] at h; cases h; dsimp only; rw [hl]; rfl
  maxAgain t r h w := by
    have h : ByteSet.maxValMut t = .ok r := h
    show ByteSet.maxValMut _ = _
    unfold ByteSet.maxValMut at h ⊢
    cases hl : t.highest with
    | error e => rw [hl] at h; cases h
    | ok k => rw [hl] at h; cases h; dsimp only; rw [hl]; rfl
  findAgain k t r h w := by
    have h : ByteSet.findMut t k = .ok (some r) := h
    show ByteSet.findMut _ k = _
    unfold ByteSet.findMut at h ⊢
    by_cases hp : t.isPresent k
    · rw [if_pos hp] at h; cases h; dsimp only; rw [if_pos hp]; rfl
    · rw [if_neg hp] at h; cases h
  predAgain k t r h w := by
    have h : ByteSet.predecessorMut t k = .ok (some r) := h
    show ByteSet.predecessorMut _ k = _
    unfold ByteSet.predecessorMut at h ⊢
    cases hf : fromArray (andWords (maskLower k) t) with
    | none => rw [hf] at h; cases h
    | some v =>
      rw [hf] at h
      cases hl : v.highest with
      | error e => simp only [hl] at h; cases h
      | ok k => simp only [hl] at h; cases h; dsimp only; rw [hf]; simp only [hl]; rfl
  succAgain k t r h w := by
    have h : ByteSet.successorMut t k = .ok (some r) := h
    show ByteSet.successorMut _ k = _
    unfold ByteSet.successorMut at h ⊢
    cases hf : fromArray (andWords (maskHigher k) t) with
    | none => rw [hf] at h; cases h
    | some v =>
      rw [hf] at h
      cases hl : v.lowest with
      | error e => simp only [hl] at h; cases h
      | ok k => simp only [hl] at h; cases h; dsimp only; rw [hf]; simp only [hl]; rfl
  maxPred t r k h h' w := by
    have h : ByteSet.maxValMut t = .ok r := h
    unfold ByteSet.maxValMut at h
    cases hl : t.highest with
    | error e => rw [hl] at h; cases h
    | ok k => rw [hl] at h; cases h; exact h'
  minSucc t r k h h' w := by
    have h : ByteSet.minValMut t = .ok r := h
    unfold ByteSet.minValMut at h
    cases hl : t.lowest with
    | error e => rw [hl] at h; cases h
    | ok k => rw [hl] at h; cases h; exact h'

theorem VecDeque.getMut_agree {A : Type} (l : List A) (i : Nat) :
    Rx (fun x y => y = x.1) (VecDeque.getMut l i) (VecDeque.get l i) := by
  unfold VecDeque.getMut VecDeque.get
  cases index l i
  · exact .err _ _
  · exact .ok rfl
theorem index_iff {A : Type} {l : List A} {i : Nat} {a : A} : index l i = .ok a ↔ l[i]? = some a := by
  unfold index
  cases l[i]? <;> simp
theorem VecDeque.getMut_ok {A : Type} {l : List A} {i : Nat} {r : A × (A → List A)} (h : VecDeque.getMut l i = .ok r) :
    l[i]? = some r.1 ∧ r.2 = fun b => l.set i b := by
  unfold VecDeque.getMut at h
  cases hi : index l i with
  | error e => rw [hi] at h; cases h
  | ok a => rw [hi] at h; cases h; exact ⟨index_iff.1 hi, rfl⟩
theorem VecDeque.getMut_again {A : Type} {l : List A} {i : Nat} {a : A} (h : l[i]? = some a) (b : A) :
    VecDeque.getMut (l.set i b) i = .ok (b, fun c => l.set i c) := by
  obtain ⟨hi, -⟩ := List.getElem?_eq_some_iff.1 h
  have : index (l.set i b) i = .ok b := index_iff.2 (by rw [List.getElem?_set_self hi])
  unfold VecDeque.getMut
  rw [this]
  simp [List.set_set]
theorem list_set_same {A : Type} {l : List A} {i : Nat} {a : A} (h : l[i]? = some a) : l.set i a = l := by
  obtain ⟨hi, rfl⟩ := List.getElem?_eq_some_iff.1 h
  exact List.set_getElem_self hi

namespace ByteMap

/-- what the accessors of a byte map hand out: slot `i`, reported under `k` -/
private def slot (m : ByteMap V) (k : U 8) (i : Nat) : R (U 8 × V × (V → ByteMap V)) := do
  let (v, put) ← VecDeque.getMut m.list i
  pure (k, v, fun w => { m with list := put w })

private theorem slot_ok {m : ByteMap V} {k : U 8} {i : Nat} {r : U 8 × V × (V → ByteMap V)} (h : slot m k i = .ok r) :
    m.list[i]? = some r.2.1 ∧ r = (k, r.2.1, fun w => { m with list := m.list.set i w }) := by
  unfold slot at h
  cases hg : VecDeque.getMut m.list i with
  | error e => rw [hg] at h; cases h
  | ok a =>
    obtain ⟨a, p⟩ := a
    obtain ⟨h1, h2⟩ := VecDeque.getMut_ok hg
    dsimp only at h1 h2
    subst h2
    rw [hg] at h; cases h
    exact ⟨h1, rfl⟩
private theorem slot_agree (m : ByteMap V) (k : U 8) (i : Nat) :
    AgreeM (slot m k i) (do let v ← VecDeque.get m.list i; pure (k, v)) := by
  unfold slot
  refine (VecDeque.getMut_agree m.list i).bind ?_
  rintro ⟨a, p⟩ _ rfl
  exact .ok rfl
private theorem slot_again {m : ByteMap V} {k : U 8} {i : Nat} {r : U 8 × V × (V → ByteMap V)} (h : slot m k i = .ok r)
    (w : V) : slot (r.2.2 w) k i = .ok (r.1, w, r.2.2) := by
  obtain ⟨h1, h2⟩ := slot_ok h
  rw [h2]
  unfold slot
  dsimp only
  rw [VecDeque.getMut_again h1]
  rfl
private theorem slot_noop {m : ByteMap V} {k : U 8} {i : Nat} {r : U 8 × V × (V → ByteMap V)} (h : slot m k i = .ok r) :
    r.2.2 r.2.1 = m := by
  obtain ⟨h1, h2⟩ := slot_ok h
  have : r.2.2 r.2.1 = { m with list := m.list.set i r.2.1 } := by rw [h2]
  rw [this, list_set_same h1]
private theorem slot_set {m : ByteMap V} {k : U 8} {i : Nat} {r : U 8 × V × (V → ByteMap V)} (h : slot m k i = .ok r)
    (w : V) : (r.2.2 w).set = m.set ∧ (r.2.2 w).list.length = m.list.length := by
  obtain ⟨h1, h2⟩ := slot_ok h
  rw [h2]
  exact ⟨rfl, List.length_set⟩

private theorem min_eq (m : ByteMap V) : VebTree.minValMut m = (do slot m (← m.set.minVal).1 0) := by
  show ByteMap.minValMut m = _
  unfold ByteMap.minValMut slot
  cases m.set.minVal <;> rfl
private theorem max_eq (m : ByteMap V) :
    VebTree.maxValMut m = (do let p ← m.set.maxVal; slot m p.1 (← subUsize m.list.length 1)) := by
  show ByteMap.maxValMut m = _
  unfold ByteMap.maxValMut slot
  cases m.set.maxVal <;> rfl

/-- the three optional accessors: `q` is the answer of the key set -/
private def slotOpt (m : ByteMap V) (q : R (Option (U 8 × Unit))) : R (Option (U 8 × V × (V → ByteMap V))) := do
  match (← q) with
  | none => pure none
  | some (k, ()) => pure (some (← slot m k (m.set.countBelow k)))

private theorem find_eq (m : ByteMap V) (k : U 8) : VebTree.findMut m k = slotOpt m (m.set.find k) := by
  show ByteMap.findMut m k = _
  unfold ByteMap.findMut slotOpt slot
  rcases m.set.find k with _ | _ | ⟨k, ⟨⟩⟩
  · rfl
  · rfl
  · simp only [R.ok_bind]; cases VecDeque.getMut m.list (m.set.countBelow k) <;> rfl
private theorem pred_eq (m : ByteMap V) (k : U 8) : VebTree.predecessorMut m k = slotOpt m (m.set.predecessor k) := by
  show ByteMap.predecessorMut m k = _
  unfold ByteMap.predecessorMut slotOpt slot
  rcases m.set.predecessor k with _ | _ | ⟨k, ⟨⟩⟩
  · rfl
  · rfl
  · simp only [R.ok_bind]; cases VecDeque.getMut m.list (m.set.countBelow k) <;> rfl
private theorem succ_eq (m : ByteMap V) (k : U 8) : VebTree.successorMut m k = slotOpt m (m.set.successor k) := by
  show ByteMap.successorMut m k = _
  unfold ByteMap.successorMut slotOpt slot
  rcases m.set.successor k with _ | _ | ⟨k, ⟨⟩⟩
  · rfl
  · rfl
  · simp only [R.ok_bind]; cases VecDeque.getMut m.list (m.set.countBelow k) <;> rfl

private theorem slotOpt_agree (m : ByteMap V) (q : R (Option (U 8 × Unit))) :
    AgreeO (slotOpt m q) (do match (← q) with
      | none => pure none
      | some (k, ()) => pure (some (k, ← VecDeque.get m.list (m.set.countBelow k)))) := by
  unfold slotOpt
  refine Rx.bindEq ?_
  rintro (_ | ⟨k, ⟨⟩⟩)
  · exact .ok rfl
  · have := slot_agree m k (m.set.countBelow k)
    dsimp only
    generalize slot m k (m.set.countBelow k) = x at this
    generalize VecDeque.get m.list (m.set.countBelow k) = y at this
    rcases y with e | y
    · cases this with
      | err => exact .err _ _
    · cases this with
      | ok h => exact .ok (congrArg some h)
private theorem slotOpt_ok {m : ByteMap V} {q : R (Option (U 8 × Unit))} {r : U 8 × V × (V → ByteMap V)}
    (h : slotOpt m q = .ok (some r)) : ∃ k, q = .ok (some (k, ())) ∧ slot m k (m.set.countBelow k) = .ok r := by
  unfold slotOpt at h
  rcases q with e | _ | ⟨k, ⟨⟩⟩
  · cases h
  · cases h
  · refine ⟨k, rfl, ?_⟩
    simp only [R.ok_bind] at h
    cases hs : slot m k (m.set.countBelow k) with
    | error e => rw [hs] at h; cases h
    | ok a => rw [hs] at h; cases h; rfl
private theorem slotOpt_again {m : ByteMap V} {q : R (Option (U 8 × Unit))} {r : U 8 × V × (V → ByteMap V)}
    (h : slotOpt m q = .ok (some r)) (w : V) : slotOpt (r.2.2 w) q = .ok (some (r.1, w, r.2.2)) := by
  obtain ⟨k, rfl, hs⟩ := slotOpt_ok h
  unfold slotOpt
  simp only [R.ok_bind]
  rw [(slot_set hs w).1, slot_again hs]
  rfl
private theorem slotOpt_none {m m' : ByteMap V} {q : R (Option (U 8 × Unit))} (h : slotOpt m q = .ok none) :
    slotOpt m' q = .ok none := by
  unfold slotOpt at h ⊢
  rcases q with e | _ | ⟨k, ⟨⟩⟩
  · cases h
  · rfl
  · simp only [R.ok_bind] at h
    cases hs : slot m k (m.set.countBelow k) with
    | error e => rw [hs] at h; cases h
    | ok a => rw [hs] at h; cases h
private theorem max_ok {m : ByteMap V} {r : U 8 × V × (V → ByteMap V)} (h : VebTree.maxValMut m = .ok r) :
    ∃ p i, m.set.maxVal = .ok p ∧ subUsize m.list.length 1 = .ok i ∧ slot m p.1 i = .ok r := by
  rw [max_eq] at h
  cases hm : m.set.maxVal with
  | error e => rw [hm] at h; cases h
  | ok p =>
    rw [hm, R.ok_bind] at h
    cases hi : subUsize m.list.length 1 with
    | error e => rw [hi] at h; cases h
    | ok i => rw [hi, R.ok_bind] at h; exact ⟨p, i, rfl, rfl, h⟩
private theorem min_ok {m : ByteMap V} {r : U 8 × V × (V → ByteMap V)} (h : VebTree.minValMut m = .ok r) :
    ∃ p, m.set.minVal = .ok p ∧ slot m p.1 0 = .ok r := by
  rw [min_eq] at h
  cases hm : m.set.minVal with
  | error e => rw [hm] at h; cases h
  | ok p => rw [hm, R.ok_bind] at h; exact ⟨p, rfl, h⟩

theorem rw : RWTree (ByteMap V) (U 8) V where
  minAgree m := by
    rw [min_eq]
    show AgreeM _ (ByteMap.minVal m)
    unfold ByteMap.minVal
    exact Rx.bindEq fun p => slot_agree m p.1 0
  maxAgree m := by
    rw [max_eq]
    show AgreeM _ (ByteMap.maxVal m)
    unfold ByteMap.maxVal
    exact Rx.bindEq fun p => Rx.bindEq fun i => slot_agree m p.1 i
  findAgree m k := by rw [find_eq]; exact slotOpt_agree m _
  predAgree m k := by rw [pred_eq]; exact slotOpt_agree m _
  succAgree m k := by rw [succ_eq]; exact slotOpt_agree m _
  minAgain m r h w := by
    obtain ⟨p, h1, h2⟩ := min_ok h
    rw [min_eq, (slot_set h2 w).1, h1, R.ok_bind, slot_again h2]
  maxAgain m r h w := by
    obtain ⟨p, i, h1, h2, h3⟩ := max_ok h
    rw [max_eq, (slot_set h3 w).1, (slot_set h3 w).2, h1, R.ok_bind, h2, R.ok_bind, slot_again h3]
  findAgain k m r h w := by
    dsimp only at h ⊢
    rw [find_eq] at h ⊢
    obtain ⟨_, _, hs⟩ := slotOpt_ok h
    rw [(slot_set hs w).1]; exact slotOpt_again h w
  predAgain k m r h w := by
    dsimp only at h ⊢
    rw [pred_eq] at h ⊢
    obtain ⟨_, _, hs⟩ := slotOpt_ok h
    rw [(slot_set hs w).1]; exact slotOpt_again h w
  succAgain k m r h w := by
    dsimp only at h ⊢
    rw [succ_eq] at h ⊢
    obtain ⟨_, _, hs⟩ := slotOpt_ok h
    rw [(slot_set hs w).1]; exact slotOpt_again h w
  maxPred m r k h h' w := by
    obtain ⟨p, i, h1, h2, h3⟩ := max_ok h
    rw [pred_eq] at h' ⊢
    rw [(slot_set h3 w).1]; exact slotOpt_none h'
  minSucc m r k h h' w := by
    obtain ⟨p, h1, h2⟩ := min_ok h
    rw [succ_eq] at h' ⊢
    rw [(slot_set h2 w).1]; exact slotOpt_none h'

theorem noop (W : ByteMap V → Prop) : Noop W where
  min m r _ h := by obtain ⟨p, h1, h2⟩ := min_ok h; exact slot_noop h2
  max m r _ h := by obtain ⟨p, i, h1, h2, h3⟩ := max_ok h; exact slot_noop h3
  find m k r _ h := by rw [find_eq] at h; obtain ⟨_, _, hs⟩ := slotOpt_ok h; exact slot_noop hs
  pred m k r _ h := by rw [pred_eq] at h; obtain ⟨_, _, hs⟩ := slotOpt_ok h; exact slot_noop hs
  succ m k r _ h := by rw [succ_eq] at h; obtain ⟨_, _, hs⟩ := slotOpt_ok h; exact slot_noop hs

theorem coll_ok {c : ByteMap T} {h : U 8} {t : T} {put : T → ByteMap T} (hg : Coll.getMut c h = .ok (some (t, put))) :
    c.set.isPresent h ∧ c.list[c.set.countBelow h]? = some t ∧
      put = fun u => { c with list := c.list.set (c.set.countBelow h) u } := by
  unfold Coll.getMut at hg
  by_cases hp : c.set.isPresent h
  · simp only [hp, Bool.not_true, Bool.false_eq_true, if_false] at hg
    cases hi : VecDeque.getMut c.list (c.set.countBelow h) with
    | error e => rw [hi] at hg; cases hg
    | ok a =>
      obtain ⟨a, p⟩ := a
      obtain ⟨h1, h2⟩ := VecDeque.getMut_ok hi
      dsimp only at h1 h2
      subst h2
      rw [hi] at hg; cases hg
      exact ⟨hp, h1, rfl⟩
  · simp only [hp, Bool.not_false, if_true] at hg
    cases hg
theorem coll_mk {c : ByteMap T} {h : U 8} {t : T} (hp : c.set.isPresent h) (hl : c.list[c.set.countBelow h]? = some t) :
    Coll.getMut c h = .ok (some (t, fun u => { c with list := c.list.set (c.set.countBelow h) u })) := by
  have : VecDeque.getMut c.list (c.set.countBelow h) = .ok (t, fun u => c.list.set (c.set.countBelow h) u) := by
    unfold VecDeque.getMut
    rw [index_iff.2 hl]; rfl
  unfold Coll.getMut
  simp only [hp, Bool.not_true, Bool.false_eq_true, if_false]
  rw [this]
  rfl

theorem rwColl [VebTree T Lo V] : RWColl (ByteMap T) (U 8) T Lo V where
  agree c h := by
    show Rx _ (Coll.getMut c h) (Coll.get c h)
    unfold Coll.getMut Coll.get
    split
    · exact .ok rfl
    · refine (VecDeque.getMut_agree _ _).bind ?_
      rintro ⟨a, p⟩ _ rfl
      exact .ok rfl
  again c h t put hg u := by
    obtain ⟨h1, h2, rfl⟩ := coll_ok hg
    have h3 := (List.getElem?_eq_some_iff.1 h2).1
    refine (coll_mk (c := { c with list := c.list.set (c.set.countBelow h) u }) (t := u) h1 ?_).trans ?_
    · dsimp only; rw [List.getElem?_set_self h3]
    · simp [List.set_set]
  other c h h' t put o hg hg' u := by
    obtain ⟨h1, h2, rfl⟩ := coll_ok hg
    have h3 := (List.getElem?_eq_some_iff.1 h2).1
    rcases o with _ | ⟨t', put'⟩
    · refine ⟨none, ?_, .inl rfl⟩
      have hg' : Coll.getMut c h' = .ok none := hg'
      show Coll.getMut _ h' = _
      unfold Coll.getMut at hg' ⊢
      by_cases hp : c.set.isPresent h'
      · simp only [hp, Bool.not_true, Bool.false_eq_true, if_false] at hg'
        cases hi : VecDeque.getMut c.list (c.set.countBelow h') with
        | error e => rw [hi] at hg'; cases hg'
        | ok a => rw [hi] at hg'; cases hg'
      · simp only [hp, Bool.not_false, if_true]; rfl
    · obtain ⟨h1', h2', rfl⟩ := coll_ok hg'
      by_cases he : c.set.countBelow h = c.set.countBelow h'
      · refine ⟨_, coll_mk (c := { c with list := c.list.set (c.set.countBelow h) u }) (t := u) h1' ?_, .inr ⟨?_, rfl⟩⟩
        · dsimp only; rw [← he, List.getElem?_set_self h3]
        · rw [← he, h2] at h2'; cases h2'; rfl
      · refine ⟨_, coll_mk (c := { c with list := c.list.set (c.set.countBelow h) u }) (t := t') h1' ?_, .inl rfl⟩
        dsimp only; rw [List.getElem?_set_ne he, h2']

theorem noopColl [VebTree T Lo V] (I : ByteMap T → Prop) : NoopColl (T := T) (Hi := U 8) I := by
  intro c h t put _ hg
  obtain ⟨h1, h2, rfl⟩ := coll_ok hg
  dsimp only
  rw [list_set_same h2]
end ByteMap

theorem ByteSet.noop (W : ByteSet → Prop) : Noop W where
  min t r _ h := by
    have h : ByteSet.minValMut t = .ok r := h
    unfold ByteSet.minValMut at h
    cases hl : t.lowest with
    | error e => rw [hl] at h; cases h
    | ok k => rw [hl] at h; cases h; rfl
  max t r _ h := by
    have h : ByteSet.maxValMut t = .ok r := h
    unfold ByteSet.maxValMut at h
    cases hl : t.highest with
    | error e => rw [hl] at h; cases h
    | ok k => rw [hl] at h; cases h; rfl
  find t k r _ h := by
    have h : ByteSet.findMut t k = .ok (some r) := h
    unfold ByteSet.findMut at h
    by_cases hp : t.isPresent k
    · rw [if_pos hp] at h; cases h; rfl
    · rw [if_neg hp] at h; cases h
  pred t k r _ h := by
    have h : ByteSet.predecessorMut t k = .ok (some r) := h
    unfold ByteSet.predecessorMut at h
    cases hf : fromArray (andWords (maskLower k) t) with
    | none => rw [hf] at h; cases h
    | some v =>
      rw [hf] at h
      cases hl : v.highest with
      | error e => simp only [hl] at h; cases h
      | ok k => simp only [hl] at h; cases h; rfl
  succ t k r _ h := by
    have h : ByteSet.successorMut t k = .ok (some r) := h
    unfold ByteSet.successorMut at h
    cases hf : fromArray (andWords (maskHigher k) t) with
    | none => rw [hf] at h; cases h
    | some v =>
      rw [hf] at h
      cases hl : v.lowest with
      | error e => simp only [hl] at h; cases h
      | ok k => simp only [hl] at h; cases h; rfl

namespace BTreeMap
variable [LinearOrder K]

/-- the entry list after writing `w` under `k` -/
private def wr (k : K) (w : V) (p : K × V) : K × V := if p.1 = k then (p.1, w) else p

private theorem wr_fst (k : K) (w : V) (p : K × V) : (wr k w p).1 = p.1 := by unfold wr; split <;> rfl
private theorem wr_at (p : K × V) (w : V) : wr p.1 w p = (p.1, w) := by unfold wr; rw [if_pos rfl]
private theorem wr_wr (k : K) (w w' : V) (p : K × V) : wr k w' (wr k w p) = wr k w' p := by
  unfold wr; split <;> simp_all
private theorem put_eq (l : List (K × V)) (k : K) (w : V) : stdPut l k w = l.map (wr k w) := rfl
private theorem filter_put (l : List (K × V)) (k : K) (w : V) (q : K → Bool) :
    (l.map (wr k w)).filter (fun p => q p.1) = (l.filter (fun p => q p.1)).map (wr k w) := by
  rw [List.filter_map]
  congr 2
  funext p
  simp [wr_fst]
/-- the same entry after a write -/
private theorem mutAt_again (t : BTreeMap K V) (p : K × V) (w : V) :
    mutAt ((t.mutAt p).2.2 w) (wr p.1 w p) = (p.1, w, (t.mutAt p).2.2) := by
  unfold mutAt
  rw [wr_at]
  dsimp only
  congr 2
  funext w'
  rw [put_eq, put_eq, put_eq, List.map_map]
  congr 2
  funext q
  exact wr_wr _ _ _ _
private theorem kvOf_mutAt (t : BTreeMap K V) (o : Option (K × V)) : o = (o.map t.mutAt).map kvOf := by
  cases o <;> rfl
/-- an accessor that picks an entry of the list, looking at the keys only -/
private theorem pick_again {F : List (K × V) → Option (K × V)}
    (hF : ∀ l k w, F (l.map (wr k w)) = (F l).map (wr k w)) {t : BTreeMap K V} {r : K × V × (V → BTreeMap K V)}
    (h : (F t.entries).map t.mutAt = some r) (w : V) :
    (F (r.2.2 w).entries).map (mutAt (r.2.2 w)) = some (r.1, w, r.2.2) := by
  cases hp : F t.entries with
  | none => rw [hp] at h; cases h
  | some p =>
    rw [hp] at h; cases h
    show (F (t.entries.map (wr p.1 w))).map _ = _
    rw [hF, hp]
    exact congrArg some (mutAt_again t p w)
private theorem pick_none {F : List (K × V) → Option (K × V)}
    (hF : ∀ l k w, F (l.map (wr k w)) = (F l).map (wr k w)) {t : BTreeMap K V} (p : K × V)
    (h : (F t.entries).map t.mutAt = none) (w : V) :
    (F ((t.mutAt p).2.2 w).entries).map (mutAt ((t.mutAt p).2.2 w)) = none := by
  show (F (t.entries.map (wr p.1 w))).map _ = _
  rw [hF]
  cases hp : F t.entries with
  | none => rfl
  | some p => rw [hp] at h; cases h
private theorem head_wr (l : List (K × V)) (k : K) (w : V) : (l.map (wr k w)).head? = l.head?.map (wr k w) := List.head?_map
private theorem last_wr (l : List (K × V)) (k : K) (w : V) : (l.map (wr k w)).getLast? = l.getLast?.map (wr k w) :=
  List.getLast?_map
private def findL (k : K) (l : List (K × V)) : Option (K × V) := (l.filter (fun p => decide (k ≤ p.1 ∧ p.1 ≤ k))).head?
private theorem find_wr (k₀ : K) (l : List (K × V)) (k : K) (w : V) : findL k₀ (l.map (wr k w)) = (findL k₀ l).map (wr k w) := by
  unfold findL
  rw [filter_put l k w (fun x => decide (k₀ ≤ x ∧ x ≤ k₀)), head_wr]
private theorem find_eq (t : BTreeMap K V) (k : K) : VebTree.findMut t k = .ok ((findL k t.entries).map t.mutAt) := rfl
private def predL (k : K) (l : List (K × V)) : Option (K × V) := (l.filter (fun p => decide (p.1 < k))).getLast?
private theorem pred_wr (k₀ : K) (l : List (K × V)) (k : K) (w : V) : predL k₀ (l.map (wr k w)) = (predL k₀ l).map (wr k w) := by
  unfold predL
  rw [filter_put l k w (fun x => decide (x < k₀)), last_wr]
private theorem pred_eq (t : BTreeMap K V) (k : K) : VebTree.predecessorMut t k = .ok ((predL k t.entries).map t.mutAt) := rfl
private def succL (k : K) (l : List (K × V)) : Option (K × V) := (l.filter (fun p => decide (k < p.1))).head?
private theorem succ_wr (k₀ : K) (l : List (K × V)) (k : K) (w : V) : succL k₀ (l.map (wr k w)) = (succL k₀ l).map (wr k w) := by
  unfold succL
  rw [filter_put l k w (fun x => decide (k₀ < x)), head_wr]
private theorem succ_eq (t : BTreeMap K V) (k : K) : VebTree.successorMut t k = .ok ((succL k t.entries).map t.mutAt) := rfl
private theorem min_eq (t : BTreeMap K V) :
    VebTree.minValMut t = expect "tree should not be empty" (t.entries.head?.map t.mutAt) := by
  show BTreeMap.minValMut t = _
  unfold BTreeMap.minValMut
  cases t.entries.head? <;> rfl
private theorem max_eq (t : BTreeMap K V) :
    VebTree.maxValMut t = expect "tree should not be empty" (t.entries.getLast?.map t.mutAt) := by
  show BTreeMap.maxValMut t = _
  unfold BTreeMap.maxValMut
  cases t.entries.getLast? <;> rfl
private theorem expect_iff {α : Type} {m : String} {o : Option α} {a : α} : expect m o = .ok a ↔ o = some a := by
  cases o <;> simp [expect]
private theorem pick_mut {o : Option (K × V)} {t : BTreeMap K V} {r : K × V × (V → BTreeMap K V)}
    (h : o.map t.mutAt = some r) : ∃ p, o = some p ∧ r = t.mutAt p := by
  cases o with
  | none => cases h
  | some p => cases h; exact ⟨p, rfl, rfl⟩

theorem rw : RWTree (BTreeMap K V) K V where
  minAgree t := by
    rw [min_eq]
    show AgreeM _ (BTreeMap.minVal t)
    unfold BTreeMap.minVal
    cases t.entries.head?
    · exact .err _ _
    · exact .ok rfl
  maxAgree t := by
    rw [max_eq]
    show AgreeM _ (BTreeMap.maxVal t)
    unfold BTreeMap.maxVal
    cases t.entries.getLast?
    · exact .err _ _
    · exact .ok rfl
  findAgree t k := by
    refine .ok ?_
    rw [← kvOf_mutAt, List.head?_filter]
    unfold stdGet
    congr 1
    funext p
    exact decide_eq_decide.2 ⟨fun h => ⟨h.ge, h.le⟩, fun h => le_antisymm h.2 h.1⟩
  predAgree t k := .ok (kvOf_mutAt t _)
  succAgree t k := .ok (kvOf_mutAt t _)
  minAgain t r h w := by
    rw [min_eq] at h ⊢
    exact expect_iff.2 (pick_again head_wr (expect_iff.1 h) w)
  maxAgain t r h w := by
    rw [max_eq] at h ⊢
    exact expect_iff.2 (pick_again last_wr (expect_iff.1 h) w)
  findAgain k t r h w := by
    dsimp only at h ⊢
    rw [find_eq] at h ⊢
    exact congrArg Except.ok (pick_again (find_wr k) (Except.ok.inj h) w)
  predAgain k t r h w := by
    dsimp only at h ⊢
    rw [pred_eq] at h ⊢
    exact congrArg Except.ok (pick_again (pred_wr k) (Except.ok.inj h) w)
  succAgain k t r h w := by
    dsimp only at h ⊢
    rw [succ_eq] at h ⊢
    exact congrArg Except.ok (pick_again (succ_wr k) (Except.ok.inj h) w)
  maxPred t r k h h' w := by
    rw [max_eq] at h
    obtain ⟨p, -, rfl⟩ := pick_mut (expect_iff.1 h)
    rw [pred_eq] at h' ⊢
    exact congrArg Except.ok (pick_none (pred_wr k) p (Except.ok.inj h') w)
  minSucc t r k h h' w := by
    rw [min_eq] at h
    obtain ⟨p, -, rfl⟩ := pick_mut (expect_iff.1 h)
    rw [succ_eq] at h' ⊢
    exact congrArg Except.ok (pick_none (succ_wr k) p (Except.ok.inj h') w)

private theorem put_same {t : BTreeMap K V} (hn : (t.entries.map Prod.fst).Nodup) {p : K × V} (hp : p ∈ t.entries) :
    (t.mutAt p).2.2 (t.mutAt p).2.1 = t := by
  obtain ⟨l⟩ := t
  show BTreeMap.mk (l.map (wr p.1 p.2)) = ⟨l⟩
  congr 1
  conv_rhs => rw [← List.map_id l]
  refine List.map_congr_left fun q hq => ?_
  unfold wr
  split
  · rename_i he
    rw [List.inj_on_of_nodup_map hn hq hp he]; rfl
  · rfl

theorem noop {W : BTreeMap K V → Prop} (hW : ∀ t, W t → (t.entries.map Prod.fst).Nodup) : Noop W where
  min t r h hm := by
    rw [min_eq] at hm
    obtain ⟨p, hp, rfl⟩ := pick_mut (expect_iff.1 hm)
    exact put_same (hW t h) (List.mem_of_head? hp)
  max t r h hm := by
    rw [max_eq] at hm
    obtain ⟨p, hp, rfl⟩ := pick_mut (expect_iff.1 hm)
    exact put_same (hW t h) (List.mem_of_getLast? hp)
  find t k r h hm := by
    obtain ⟨p, hp, rfl⟩ := pick_mut (Except.ok.inj hm)
    exact put_same (hW t h) (List.mem_of_mem_filter (List.mem_of_head? hp))
  pred t k r h hm := by
    obtain ⟨p, hp, rfl⟩ := pick_mut (Except.ok.inj hm)
    exact put_same (hW t h) (List.mem_of_mem_filter (List.mem_of_getLast? hp))
  succ t k r h hm := by
    obtain ⟨p, hp, rfl⟩ := pick_mut (Except.ok.inj hm)
    exact put_same (hW t h) (List.mem_of_mem_filter (List.mem_of_head? hp))
end BTreeMap

/-! ## Collections -/

namespace ArrayColl
variable [SizedVebKey Hi]

/-- the collection after writing `u` under `h` -/
private def wrSlot (c : ArrayColl Hi T) (h : Hi) (u : T) : ArrayColl Hi T :=
  { c with array := { c.array with slot := fun j => if j = SizedVebKey.index h then some u else c.array.slot j } }
private theorem get_ok {a : OptionArray T} {i : Nat} {o : Option T} (h : a.get i = .ok o) : i < a.len ∧ a.slot i = o := by
  unfold OptionArray.get at h
  split at h
  · cases h; exact ⟨‹_›, rfl⟩
  · cases h
private theorem coll_ok {c : ArrayColl Hi T} {h : Hi} {t : T} {put : T → ArrayColl Hi T}
    (hg : getMut c h = .ok (some (t, put))) : SizedVebKey.index h < c.array.len ∧ c.array.slot (SizedVebKey.index h) = some t ∧
      put = fun u => { c with array := { c.array with slot := fun j => if (j = SizedVebKey.index h) then some u else c.array.slot j } } := by
  unfold getMut at hg
  cases hi : c.array.get (SizedVebKey.index h) with
  | error e => simp only [hi] at hg; cases hg
  | ok o =>
    simp only [hi, R.ok_bind] at hg
    obtain ⟨h1, h2⟩ := get_ok hi
    cases o with
    | none => cases hg
    | some t' => cases hg; exact ⟨h1, h2, rfl⟩
private theorem coll_none {c : ArrayColl Hi T} {h : Hi} (hg : getMut c h = .ok none) :
    SizedVebKey.index h < c.array.len ∧ c.array.slot (SizedVebKey.index h) = none := by
  unfold getMut at hg
  cases hi : c.array.get (SizedVebKey.index h) with
  | error e => simp only [hi] at hg; cases hg
  | ok o =>
    simp only [hi, R.ok_bind] at hg
    cases o with
    | none => exact get_ok hi
    | some t' => cases hg
private theorem coll_mk {c : ArrayColl Hi T} {h : Hi} {o : Option T} (h1 : SizedVebKey.index h < c.array.len)
    (h2 : c.array.slot (SizedVebKey.index h) = o) : getMut c h = .ok (o.map fun t => (t, fun u =>
      { c with array := { c.array with slot := fun j => if (j = SizedVebKey.index h) then some u else c.array.slot j } })) := by
  have : c.array.get (SizedVebKey.index h) = .ok o := by
    unfold OptionArray.get
    rw [if_pos h1, h2]
  unfold getMut
  simp only [this, R.ok_bind]
  cases o <;> rfl

theorem rwColl [VebTree T Lo V] : RWColl (ArrayColl Hi T) Hi T Lo V where
  agree c h := by
    show Rx _ (getMut c h) (get c h)
    unfold getMut get
    dsimp only
    rcases c.array.get (SizedVebKey.index h) with e | _ | t
    · exact .err _ _
    · exact .ok rfl
    · exact .ok rfl
  again c h t put hg u := by
    obtain ⟨h1, h2, rfl⟩ := coll_ok hg
    refine (coll_mk (c := wrSlot c h u) (o := some u) h1 (if_pos rfl)).trans ?_
    refine congrArg (fun f => Except.ok (some (u, f))) (funext fun u' => ?_)
    refine congrArg (fun s => ArrayColl.mk ⟨c.array.len, s⟩ c.count) (funext fun j => ?_)
    split
    · rfl
    · exact if_neg ‹_›
  other c h h' t put o hg hg' u := by
    obtain ⟨h1, h2, rfl⟩ := coll_ok hg
    have key : SizedVebKey.index h' < c.array.len ∧ c.array.slot (SizedVebKey.index h') = o.map Prod.fst := by
      rcases o with _ | ⟨t', put'⟩
      · exact coll_none hg'
      · obtain ⟨h1', h2', -⟩ := coll_ok hg'
        exact ⟨h1', h2'⟩
    refine ⟨_, coll_mk (c := wrSlot c h u) key.1 rfl, ?_⟩
    unfold wrSlot
    dsimp only
    by_cases he : SizedVebKey.index h' = SizedVebKey.index h
    · rw [if_pos he]
      exact .inr ⟨by rw [← key.2, he, h2], rfl⟩
    · rw [if_neg he, key.2]
      refine .inl ?_
      cases o <;> rfl

theorem noopColl [VebTree T Lo V] (I : ArrayColl Hi T → Prop) : NoopColl (T := T) (Hi := Hi) I := by
  intro c h t put _ hg
  obtain ⟨h1, h2, rfl⟩ := coll_ok hg
  obtain ⟨⟨n, s⟩, m⟩ := c
  dsimp only at h2 ⊢
  congr 2
  funext j
  split
  · rename_i he; rw [he, h2]
  · rfl
end ArrayColl

namespace HashMap
variable [DecidableEq Hi]

private def wr (k : Hi) (w : T) (p : Hi × T) : Hi × T := if p.1 = k then (p.1, w) else p
private theorem wr_fst (k : Hi) (w : T) (p : Hi × T) : (wr k w p).1 = p.1 := by unfold wr; split <;> rfl
private theorem wr_wr (k : Hi) (w w' : T) (p : Hi × T) : wr k w' (wr k w p) = wr k w' p := by
  unfold wr; split <;> simp_all
private theorem lookup_wr (c : HashMap Hi T) (h h' : Hi) (u : T) :
    (c.assign h u).lookup h' = if h' = h then (c.lookup h').map fun _ => u else c.lookup h' := by
  obtain ⟨l⟩ := c
  unfold lookup
  show ((l.map (wr h u)).find? _).map _ = _
  rw [List.find?_map]
  have : ((fun p : Hi × T => decide (p.1 = h')) ∘ wr h u) = fun p => decide (p.1 = h') := by
    funext p; simp [wr_fst]
  rw [this]
  cases hf : l.find? (fun p => decide (p.1 = h')) with
  | none => simp
  | some p =>
    have hp := List.find?_some hf
    simp only [decide_eq_true_eq] at hp
    simp only [Option.map_some]
    unfold wr
    rw [hp]
    split <;> rfl
private theorem assign_assign (c : HashMap Hi T) (h : Hi) (u u' : T) : (c.assign h u).assign h u' = c.assign h u' := by
  obtain ⟨l⟩ := c
  show HashMap.mk ((l.map (wr h u)).map (wr h u')) = ⟨l.map (wr h u')⟩
  rw [List.map_map]
  congr 2
  funext p
  exact wr_wr _ _ _ _
private theorem getMut_eq (c : HashMap Hi T) (h : Hi) :
    getMut c h = .ok ((c.lookup h).map fun t => (t, fun u => c.assign h u)) := by
  unfold getMut
  cases c.lookup h <;> rfl
private theorem coll_ok {c : HashMap Hi T} {h : Hi} {t : T} {put : T → HashMap Hi T}
    (hg : getMut c h = .ok (some (t, put))) : c.lookup h = some t ∧ put = fun u => c.assign h u := by
  rw [getMut_eq] at hg
  cases hl : c.lookup h with
  | none => rw [hl] at hg; cases hg
  | some t' => rw [hl] at hg; cases hg; exact ⟨rfl, rfl⟩

theorem rwColl [VebTree T Lo V] : RWColl (HashMap Hi T) Hi T Lo V where
  agree c h := by
    show Rx _ (getMut c h) (get c h)
    rw [getMut_eq]
    refine .ok ?_
    cases c.lookup h <;> rfl
  again c h t put hg u := by
    obtain ⟨h1, rfl⟩ := coll_ok hg
    show getMut _ h = _
    rw [getMut_eq, lookup_wr, if_pos rfl, h1]
    simp only [Option.map_some, assign_assign]
  other c h h' t put o hg hg' u := by
    obtain ⟨h1, rfl⟩ := coll_ok hg
    have hg' : getMut c h' = .ok o := hg'
    rw [getMut_eq] at hg'
    cases hg'
    refine ⟨_, getMut_eq _ _, ?_⟩
    rw [lookup_wr]
    by_cases he : h' = h
    · subst he
      rw [h1]
      exact .inr ⟨rfl, by rw [if_pos rfl]; rfl⟩
    · rw [if_neg he]
      refine .inl ?_
      cases c.lookup h' <;> rfl

theorem noopColl [VebTree T Lo V] {I : HashMap Hi T → Prop} (hI : ∀ c, I c → (c.entries.map Prod.fst).Nodup) :
    NoopColl (T := T) (Hi := Hi) I := by
  intro c h t put hc hg
  obtain ⟨h1, rfl⟩ := coll_ok hg
  have hn := hI c hc
  obtain ⟨l⟩ := c
  show HashMap.mk (l.map (wr h t)) = ⟨l⟩
  congr 1
  conv_rhs => rw [← List.map_id l]
  unfold lookup at h1
  cases hf : l.find? (fun p => decide (p.1 = h)) with
  | none => simp only [hf] at h1; cases h1
  | some p =>
    simp only [hf] at h1; cases h1
    have hp := List.find?_some hf
    simp only [decide_eq_true_eq] at hp
    have hm := List.mem_of_find?_eq_some hf
    refine List.map_congr_left fun q hq => ?_
    unfold wr
    split
    · rename_i he
      rw [List.inj_on_of_nodup_map hn hq hm (he.trans hp.symm)]; rfl
    · rfl
end HashMap

/-- `get_mut` through a box -/
private def viaBox (o : Option (T × (T → C))) : Option (T × (T → Box C)) := o.map fun p => (p.1, fun u => ⟨p.2 u⟩)
private theorem viaBox_fst (o : Option (T × (T → C))) : (viaBox o).map Prod.fst = o.map Prod.fst := by cases o <;> rfl
private theorem box_getMut [TreeCollection C Hi T Lo V] (c : Box C) (h : Hi) :
    TreeCollection.getMut c h = (do pure (viaBox (← TreeCollection.getMut c.val h))) := by
  show (TreeCollection.getMut c.val h >>= _) = _
  rcases TreeCollection.getMut c.val h with e | _ | ⟨t, put⟩ <;> rfl
private theorem box_ok [TreeCollection C Hi T Lo V] {c : Box C} {h : Hi} {o : Option (T × (T → Box C))}
    (hg : TreeCollection.getMut c h = .ok o) : ∃ q, TreeCollection.getMut c.val h = .ok q ∧ o = viaBox q := by
  rw [box_getMut] at hg
  cases hi : TreeCollection.getMut c.val h with
  | error e => rw [hi] at hg; cases hg
  | ok q => rw [hi] at hg; cases hg; exact ⟨q, rfl, rfl⟩

theorem Box.rwColl [TreeCollection C Hi T Lo V] (H : RWColl C Hi T Lo V) : RWColl (Box C) Hi T Lo V where
  agree c h := by
    rw [box_getMut]
    show Rx _ _ (TreeCollection.get c.val h)
    refine (H.agree c.val h).bindL ?_
    rintro o _ rfl
    exact .ok (viaBox_fst o).symm
  again c h t put hg u := by
    obtain ⟨q, h1, h2⟩ := box_ok hg
    rcases q with _ | ⟨t', put'⟩
    · cases h2
    · cases h2
      rw [box_getMut]
      dsimp only
      rw [H.again _ _ _ _ h1 u]
      rfl
  other c h h' t put o hg hg' u := by
    obtain ⟨q, h1, h2⟩ := box_ok hg
    obtain ⟨q', h1', rfl⟩ := box_ok hg'
    rcases q with _ | ⟨t', put'⟩
    · cases h2
    · cases h2
      obtain ⟨o', h3, h4⟩ := H.other _ _ _ _ _ _ h1 h1' u
      refine ⟨viaBox o', ?_, ?_⟩
      · rw [box_getMut]
        dsimp only
        rw [h3]
        rfl
      · rw [viaBox_fst, viaBox_fst]; exact h4

theorem Box.noopColl [TreeCollection C Hi T Lo V] {I : C → Prop} (H : NoopColl (T := T) (Hi := Hi) I) :
    NoopColl (T := T) (Hi := Hi) (fun c : Box C => I c.val) := by
  intro c h t put hc hg
  obtain ⟨q, h1, h2⟩ := box_ok hg
  rcases q with _ | ⟨t', put'⟩
  · cases h2
  · cases h2
    exact congrArg Box.mk (H _ _ _ _ hc h1)

/-! ## Boxes and counted trees -/

section
variable {T' : Type} {g : T → T'}

private theorem agreeM_map {a : R (K × V × (V → T))} {b : R (K × V)} (h : AgreeM a b) :
    AgreeM (do pure (mapPut g (← a))) b := by
  cases h with
  | ok h => exact .ok h
  | err => exact .err _ _
theorem agreeO_map {a : R (Option (K × V × (V → T)))} {b : R (Option (K × V))} (h : AgreeO a b) :
    AgreeO (do pure ((← a).map (mapPut g))) b := by
  cases h with
  | ok h => subst h; refine .ok ?_; rename_i a; cases a <;> rfl
  | err => exact .err _ _
theorem mapM_ok {a : R (K × V × (V → T))} {r : K × V × (V → T')} (h : (do pure (mapPut g (← a))) = (.ok r : R _)) :
    ∃ q, a = .ok q ∧ r = mapPut g q := by
  rcases a with e | q
  · cases h
  · cases h; exact ⟨q, rfl, rfl⟩
theorem mapO_ok {a : R (Option (K × V × (V → T)))} {r : K × V × (V → T')}
    (h : (do pure ((← a).map (mapPut g))) = (.ok (some r) : R _)) : ∃ q, a = .ok (some q) ∧ r = mapPut g q := by
  rcases a with e | _ | q
  · cases h
  · cases h
  · cases h; exact ⟨q, rfl, rfl⟩
theorem mapO_none {a : R (Option (K × V × (V → T)))}
    (h : (do pure ((← a).map (mapPut g))) = (.ok none : R (Option (K × V × (V → T'))))) : a = .ok none := by
  rcases a with e | _ | q
  · cases h
  · rfl
  · cases h
end

theorem Box.rw [VebTree T K V] (H : RWTree T K V) : RWTree (Box T) K V where
  minAgree t := agreeM_map (H.minAgree t.val)
  maxAgree t := agreeM_map (H.maxAgree t.val)
  findAgree t k := agreeO_map (H.findAgree t.val k)
  predAgree t k := agreeO_map (H.predAgree t.val k)
  succAgree t k := agreeO_map (H.succAgree t.val k)
  minAgain t r h w := by
    obtain ⟨q, h1, rfl⟩ := mapM_ok (g := Box.mk) h
    exact (congrArg (fun x : R _ => (do pure (mapPut Box.mk (← x)) : R _)) (H.minAgain _ _ h1 w)).trans rfl
  maxAgain t r h w := by
    obtain ⟨q, h1, rfl⟩ := mapM_ok (g := Box.mk) h
    exact (congrArg (fun x : R _ => (do pure (mapPut Box.mk (← x)) : R _)) (H.maxAgain _ _ h1 w)).trans rfl
  findAgain k t r h w := by
    obtain ⟨q, h1, rfl⟩ := mapO_ok (g := Box.mk) h
    exact (congrArg (fun x : R _ => (do pure ((← x).map (mapPut Box.mk)) : R _)) (H.findAgain k _ _ h1 w)).trans rfl
  predAgain k t r h w := by
    obtain ⟨q, h1, rfl⟩ := mapO_ok (g := Box.mk) h
    exact (congrArg (fun x : R _ => (do pure ((← x).map (mapPut Box.mk)) : R _)) (H.predAgain k _ _ h1 w)).trans rfl
  succAgain k t r h w := by
    obtain ⟨q, h1, rfl⟩ := mapO_ok (g := Box.mk) h
    exact (congrArg (fun x : R _ => (do pure ((← x).map (mapPut Box.mk)) : R _)) (H.succAgain k _ _ h1 w)).trans rfl
  maxPred t r k h h' w := by
    obtain ⟨q, h1, rfl⟩ := mapM_ok (g := Box.mk) h
    exact (congrArg (fun x : R _ => (do pure ((← x).map (mapPut Box.mk)) : R _)) (H.maxPred _ _ k h1 (mapO_none h') w)).trans rfl
  minSucc t r k h h' w := by
    obtain ⟨q, h1, rfl⟩ := mapM_ok (g := Box.mk) h
    exact (congrArg (fun x : R _ => (do pure ((← x).map (mapPut Box.mk)) : R _)) (H.minSucc _ _ k h1 (mapO_none h') w)).trans rfl

theorem Box.noop [VebTree T K V] {W : T → Prop} (H : Noop W) : Noop (fun t : Box T => W t.val) where
  min t r h hm := by obtain ⟨q, h1, rfl⟩ := mapM_ok (g := Box.mk) hm; exact congrArg Box.mk (H.min _ _ h h1)
  max t r h hm := by obtain ⟨q, h1, rfl⟩ := mapM_ok (g := Box.mk) hm; exact congrArg Box.mk (H.max _ _ h h1)
  find t k r h hm := by obtain ⟨q, h1, rfl⟩ := mapO_ok (g := Box.mk) hm; exact congrArg Box.mk (H.find _ _ _ h h1)
  pred t k r h hm := by obtain ⟨q, h1, rfl⟩ := mapO_ok (g := Box.mk) hm; exact congrArg Box.mk (H.pred _ _ _ h h1)
  succ t k r h hm := by obtain ⟨q, h1, rfl⟩ := mapO_ok (g := Box.mk) hm; exact congrArg Box.mk (H.succ _ _ _ h h1)

namespace SizedVebTree
variable [VebTree T K V]

theorem rw (H : RWTree T K V) : RWTree (SizedVebTree T) K V where
  minAgree t := agreeM_map (H.minAgree t.tree)
  maxAgree t := agreeM_map (H.maxAgree t.tree)
  findAgree t k := agreeO_map (H.findAgree t.tree k)
  predAgree t k := agreeO_map (H.predAgree t.tree k)
  succAgree t k := agreeO_map (H.succAgree t.tree k)
  minAgain t r h w := by
    obtain ⟨q, h1, rfl⟩ := mapM_ok (g := fun u : T => SizedVebTree.mk u t.size) h
    exact (congrArg (fun x : R _ => (do pure (mapPut (fun u => SizedVebTree.mk u t.size) (← x)) : R _))
      (H.minAgain _ _ h1 w)).trans rfl
  maxAgain t r h w := by
    obtain ⟨q, h1, rfl⟩ := mapM_ok (g := fun u : T => SizedVebTree.mk u t.size) h
    exact (congrArg (fun x : R _ => (do pure (mapPut (fun u => SizedVebTree.mk u t.size) (← x)) : R _))
      (H.maxAgain _ _ h1 w)).trans rfl
  findAgain k t r h w := by
    obtain ⟨q, h1, rfl⟩ := mapO_ok (g := fun u : T => SizedVebTree.mk u t.size) h
    exact (congrArg (fun x : R _ => (do pure ((← x).map (mapPut fun u => SizedVebTree.mk u t.size)) : R _))
      (H.findAgain k _ _ h1 w)).trans rfl
  predAgain k t r h w := by
    obtain ⟨q, h1, rfl⟩ := mapO_ok (g := fun u : T => SizedVebTree.mk u t.size) h
    exact (congrArg (fun x : R _ => (do pure ((← x).map (mapPut fun u => SizedVebTree.mk u t.size)) : R _))
      (H.predAgain k _ _ h1 w)).trans rfl
  succAgain k t r h w := by
    obtain ⟨q, h1, rfl⟩ := mapO_ok (g := fun u : T => SizedVebTree.mk u t.size) h
    exact (congrArg (fun x : R _ => (do pure ((← x).map (mapPut fun u => SizedVebTree.mk u t.size)) : R _))
      (H.succAgain k _ _ h1 w)).trans rfl
  maxPred t r k h h' w := by
    obtain ⟨q, h1, rfl⟩ := mapM_ok (g := fun u : T => SizedVebTree.mk u t.size) h
    exact (congrArg (fun x : R _ => (do pure ((← x).map (mapPut fun u => SizedVebTree.mk u t.size)) : R _))
      (H.maxPred _ _ k h1 (mapO_none h') w)).trans rfl
  minSucc t r k h h' w := by
    obtain ⟨q, h1, rfl⟩ := mapM_ok (g := fun u : T => SizedVebTree.mk u t.size) h
    exact (congrArg (fun x : R _ => (do pure ((← x).map (mapPut fun u => SizedVebTree.mk u t.size)) : R _))
      (H.minSucc _ _ k h1 (mapO_none h') w)).trans rfl

theorem noop {W : T → Prop} {W' : SizedVebTree T → Prop} (hW : ∀ t, W' t → W t.tree) (H : Noop W) : Noop W' where
  min t r h hm := by
    obtain ⟨q, h1, rfl⟩ := mapM_ok (g := fun u : T => SizedVebTree.mk u t.size) hm
    exact congrArg (fun u => SizedVebTree.mk u t.size) (H.min _ _ (hW t h) h1)
  max t r h hm := by
    obtain ⟨q, h1, rfl⟩ := mapM_ok (g := fun u : T => SizedVebTree.mk u t.size) hm
    exact congrArg (fun u => SizedVebTree.mk u t.size) (H.max _ _ (hW t h) h1)
  find t k r h hm := by
    obtain ⟨q, h1, rfl⟩ := mapO_ok (g := fun u : T => SizedVebTree.mk u t.size) hm
    exact congrArg (fun u => SizedVebTree.mk u t.size) (H.find _ _ _ (hW t h) h1)
  pred t k r h hm := by
    obtain ⟨q, h1, rfl⟩ := mapO_ok (g := fun u : T => SizedVebTree.mk u t.size) hm
    exact congrArg (fun u => SizedVebTree.mk u t.size) (H.pred _ _ _ (hW t h) h1)
  succ t k r h hm := by
    obtain ⟨q, h1, rfl⟩ := mapO_ok (g := fun u : T => SizedVebTree.mk u t.size) hm
    exact congrArg (fun u => SizedVebTree.mk u t.size) (H.succ _ _ _ (hW t h) h1)
end SizedVebTree

/-! ## Trees -/

namespace Tree
variable [LinearOrder K] [VebKey K Hi Lo] [VebKeyRef K Hi Lo] [VebTree S Hi Unit] [VebTree T Lo V]
  [TreeCollection C Hi T Lo V]

/-- the part of the accessors that goes to a child the summary knows: `F` is `min_val_mut` or `max_val_mut` -/
private def viaKnown (t : Tree K V S C) (data : TreeData K V S C) (s : S) (c : C) (hi : Hi)
    (F : T → R (Lo × V × (V → T))) : R (Option (K × V × (V → Tree K V S C))) := do
  let (child, putC) ← expect "child should exist for summary key" (← TreeCollection.getMut c hi)
  let (lo, val, put) ← F child
  pure (some (VebKey.join hi lo, val, fun w => t.putChildren data s (putC (put w))))

/-- the part that looks into the child of the key -/
private def inChild (c : C) (hi : Hi) (F : T → R (Option (Lo × V × (V → T)))) : R (Option (Lo × V × (V → C))) := do
  match (← TreeCollection.getMut c hi) with
  | none => pure none
  | some (child, putC) => pure ((← F child).map (mapPut putC))

private theorem viaKnown_agree (HC : RWColl C Hi T Lo V) (t : Tree K V S C) (data : TreeData K V S C) (s : S) (c : C) (hi : Hi)
    {F : T → R (Lo × V × (V → T))} {G : T → R (Lo × V)} (hF : ∀ u, AgreeM (F u) (G u)) :
    AgreeO (viaKnown t data s c hi F) (do
      let child ← expect "child should exist for summary key" (← TreeCollection.get c hi)
      let (lo, val) ← G child
      pure (some (VebKey.join hi lo, val))) := by
  unfold viaKnown
  refine (HC.agree c hi).bind ?_
  rintro (_ | ⟨u, putC⟩) _ rfl
  · exact .err _ _
  · refine (hF u).bind ?_
    rintro ⟨lo, val, put⟩ _ rfl
    exact .ok rfl

private theorem viaKnown_ok {t : Tree K V S C} {data : TreeData K V S C} {s : S} {c : C} {hi : Hi}
    {F : T → R (Lo × V × (V → T))} {o : Option (K × V × (V → Tree K V S C))} (h : viaKnown t data s c hi F = .ok o) :
    ∃ u putC r, TreeCollection.getMut c hi = .ok (some (u, putC)) ∧ F u = .ok r ∧
      o = some (VebKey.join hi r.1, r.2.1, fun w => t.putChildren data s (putC (r.2.2 w))) := by
  unfold viaKnown at h
  rcases hg : TreeCollection.getMut c hi with e | _ | ⟨u, putC⟩
  · rw [hg] at h; cases h
  · rw [hg] at h; cases h
  · rw [hg] at h
    have h : (do
      let (lo, val, put) ← F u
      pure (some (VebKey.join hi lo, val, fun w => t.putChildren data s (putC (put w))))) = (.ok o : R _) := h
    rcases hF : F u with e | ⟨lo, val, put⟩
    · rw [hF] at h; cases h
    · rw [hF] at h; cases h
      exact ⟨u, putC, (lo, val, put), rfl, hF, rfl⟩

private theorem viaKnown_mk {t : Tree K V S C} {data : TreeData K V S C} {s : S} {c : C} {hi : Hi} {u : T} {putC : T → C}
    {F : T → R (Lo × V × (V → T))} {r : Lo × V × (V → T)} (h1 : TreeCollection.getMut c hi = .ok (some (u, putC)))
    (h2 : F u = .ok r) : viaKnown t data s c hi F =
      .ok (some (VebKey.join hi r.1, r.2.1, fun w => t.putChildren data s (putC (r.2.2 w)))) := by
  unfold viaKnown
  rw [h1]
  show (do
      let (lo, val, put) ← F u
      pure (some (VebKey.join hi lo, val, fun w => t.putChildren data s (putC (put w))))) = (.ok _ : R _)
  rw [h2]
  rfl

/-- the same answer after a write through it -/
private theorem viaKnown_again (HC : RWColl C Hi T Lo V) {t : Tree K V S C} {data : TreeData K V S C} {s : S} {c : C}
    {hi : Hi} {F : T → R (Lo × V × (V → T))} (hF : AgainM F) {r : K × V × (V → Tree K V S C)}
    (h : viaKnown t data s c hi F = .ok (some r)) (w : V) :
    ∃ c', r.2.2 w = t.putChildren data s c' ∧ ∀ t' data', (∀ c', t'.putChildren data' s c' = t.putChildren data s c') →
      viaKnown t' data' s c' hi F = .ok (some (r.1, w, r.2.2)) := by
  obtain ⟨u, putC, q, h1, h2, h3⟩ := viaKnown_ok h
  cases h3
  refine ⟨putC (q.2.2 w), rfl, fun t' data' hp => ?_⟩
  rw [viaKnown_mk (HC.again _ _ _ _ h1 _) (hF _ _ h2 w)]
  simp only [hp]

private theorem inChild_agree (HC : RWColl C Hi T Lo V) (c : C) (hi : Hi) {F : T → R (Option (Lo × V × (V → T)))}
    {G : T → R (Option (Lo × V))} (hF : ∀ u, AgreeO (F u) (G u)) :
    AgreeO (inChild c hi F) (do
      match (← TreeCollection.get c hi) with
      | none => pure none
      | some child => G child) := by
  unfold inChild
  refine (HC.agree c hi).bind ?_
  rintro (_ | ⟨u, putC⟩) _ rfl
  · exact .ok rfl
  · exact agreeO_map (hF u)

private theorem inChild_ok {c : C} {hi : Hi} {F : T → R (Option (Lo × V × (V → T)))} {r : Lo × V × (V → C)}
    (h : inChild c hi F = .ok (some r)) :
    ∃ u putC q, TreeCollection.getMut c hi = .ok (some (u, putC)) ∧ F u = .ok (some q) ∧ r = mapPut putC q := by
  unfold inChild at h
  rcases hg : TreeCollection.getMut c hi with e | _ | ⟨u, putC⟩
  · rw [hg] at h; cases h
  · rw [hg] at h; cases h
  · rw [hg] at h
    obtain ⟨q, h1, h2⟩ := mapO_ok (g := putC) h
    exact ⟨u, putC, q, rfl, h1, h2⟩
private theorem inChild_mk {c : C} {hi : Hi} {F : T → R (Option (Lo × V × (V → T)))} {o : Option (T × (T → C))}
    (h1 : TreeCollection.getMut c hi = .ok o) (h2 : ∀ u, o.map Prod.fst = some u → F u = .ok none) :
    inChild c hi F = .ok none := by
  unfold inChild
  rw [h1]
  rcases o with _ | ⟨u, putC⟩
  · rfl
  · show (do pure ((← F u).map (mapPut putC))) = (.ok none : R _)
    rw [h2 u rfl]
    rfl
private theorem inChild_none {c : C} {hi : Hi} {F : T → R (Option (Lo × V × (V → T)))} (h : inChild c hi F = .ok none) :
    ∃ o, TreeCollection.getMut c hi = .ok o ∧ ∀ u, o.map Prod.fst = some u → F u = .ok none := by
  unfold inChild at h
  rcases hg : TreeCollection.getMut c hi with e | _ | ⟨u, putC⟩
  · rw [hg] at h; cases h
  · refine ⟨none, rfl, ?_⟩; rintro u ⟨⟩
  · rw [hg] at h
    refine ⟨_, rfl, ?_⟩
    rintro _ ⟨⟩
    exact mapO_none (g := putC) h
private theorem inChild_again (HC : RWColl C Hi T Lo V) {c : C} {hi : Hi} {F : T → R (Option (Lo × V × (V → T)))}
    (hF : AgainO F) : ∀ r, inChild c hi F = .ok (some r) → ∀ w, inChild (r.2.2 w) hi F = .ok (some (r.1, w, r.2.2)) := by
  intro r h w
  obtain ⟨u, putC, q, h1, h2, rfl⟩ := inChild_ok h
  unfold inChild
  show (do
    match (← TreeCollection.getMut (putC (q.2.2 w)) hi) with
    | none => pure none
    | some (child, putC) => pure ((← F child).map (mapPut putC))) = (.ok _ : R _)
  rw [HC.again _ _ _ _ h1 _]
  show (do pure ((← F (q.2.2 w)).map (mapPut putC))) = (.ok _ : R _)
  rw [hF _ _ h2 w]
  rfl
/-- a write elsewhere does not put anything in the way -/
private theorem inChild_stays (HC : RWColl C Hi T Lo V) {c : C} {hi h' : Hi} {F : T → R (Option (Lo × V × (V → T)))}
    {G : T → R (Lo × V × (V → T))} (hFG : ∀ u r, G u = .ok r → F u = .ok none → ∀ w, F (r.2.2 w) = .ok none)
    {u : T} {putC : T → C} {q : Lo × V × (V → T)} (h1 : TreeCollection.getMut c h' = .ok (some (u, putC)))
    (h2 : G u = .ok q) (hn : inChild c hi F = .ok none) (w : V) : inChild (putC (q.2.2 w)) hi F = .ok none := by
  obtain ⟨o, h3, h4⟩ := inChild_none hn
  obtain ⟨o', h5, h6⟩ := HC.other _ _ _ _ _ _ h1 h3 (q.2.2 w)
  refine inChild_mk h5 fun x hx => ?_
  rcases h6 with h6 | ⟨h6, h7⟩
  · exact h4 x (h6 ▸ hx)
  · rw [h7] at hx; cases hx
    exact hFG u q h2 (h4 u h6) w

/-- the accessors of a node with children, below the extremes -/
private def look (t : Tree K V S C) (data : TreeData K V S C) (s : S) (c : C) (hi : Hi)
    (F : T → R (Option (Lo × V × (V → T)))) (q : R (Option (Hi × Unit))) (G : T → R (Lo × V × (V → T)))
    (dflt : K × V × (V → Tree K V S C)) : R (Option (K × V × (V → Tree K V S C))) := do
  match (← inChild c hi F) with
  | some (lo, val, put) => pure (some (VebKey.join hi lo, val, fun w => t.putChildren data s (put w)))
  | none =>
    match (← q) with
    | some (hi, ()) => viaKnown t data s c hi G
    | none => pure (some dflt)

private theorem look_agree (HC : RWColl C Hi T Lo V) (t : Tree K V S C) (data : TreeData K V S C) (s : S) (c : C) (hi : Hi)
    {F : T → R (Option (Lo × V × (V → T)))} {F' : T → R (Option (Lo × V))} (hF : ∀ u, AgreeO (F u) (F' u))
    (q : R (Option (Hi × Unit))) {G : T → R (Lo × V × (V → T))} {G' : T → R (Lo × V)} (hG : ∀ u, AgreeM (G u) (G' u))
    (dflt : K × V × (V → Tree K V S C)) :
    AgreeO (look t data s c hi F q G dflt) (do
      let inC ← (do
        match (← TreeCollection.get c hi) with
        | none => pure none
        | some child => F' child : R (Option (Lo × V)))
      match inC with
      | some (lo, val) => pure (some (VebKey.join hi lo, val))
      | none =>
        match (← q) with
        | some (hi, ()) =>
          let child ← expect "child should exist for summary key" (← TreeCollection.get c hi)
          let (lo, val) ← G' child
          pure (some (VebKey.join hi lo, val))
        | none => pure (some (kvOf dflt))) := by
  unfold look
  refine (inChild_agree HC c hi hF).bind ?_
  rintro (_ | ⟨lo, val, put⟩) _ rfl
  · refine Rx.bindEq ?_
    rintro (_ | ⟨hi, ⟨⟩⟩)
    · exact .ok rfl
    · exact viaKnown_agree HC t data s c hi hG
  · exact .ok rfl

/-- what `look` answers: from the child, through the summary, or the default -/
private theorem look_ok {t : Tree K V S C} {data : TreeData K V S C} {s : S} {c : C} {hi : Hi}
    {F : T → R (Option (Lo × V × (V → T)))} {q : R (Option (Hi × Unit))} {G : T → R (Lo × V × (V → T))}
    {dflt : K × V × (V → Tree K V S C)} {o : Option (K × V × (V → Tree K V S C))}
    (h : look t data s c hi F q G dflt = .ok o) :
    (∃ r, inChild c hi F = .ok (some r) ∧
      o = some (VebKey.join hi r.1, r.2.1, fun w => t.putChildren data s (r.2.2 w))) ∨
    (∃ h', inChild c hi F = .ok none ∧ q = .ok (some (h', ())) ∧ viaKnown t data s c h' G = .ok o) ∨
    (inChild c hi F = .ok none ∧ q = .ok none ∧ o = some dflt) := by
  unfold look at h
  rcases hc : inChild c hi F with e | _ | ⟨lo, val, put⟩
  · rw [hc] at h; cases h
  · rw [hc] at h
    rcases q with e | _ | ⟨h', ⟨⟩⟩
    · cases h
    · cases h; exact .inr (.inr ⟨rfl, rfl, rfl⟩)
    · exact .inr (.inl ⟨h', rfl, rfl, h⟩)
  · rw [hc] at h; cases h; exact .inl ⟨_, rfl, rfl⟩
private theorem look_child {t : Tree K V S C} {data : TreeData K V S C} {s : S} {c : C} {hi : Hi}
    {F : T → R (Option (Lo × V × (V → T)))} {q : R (Option (Hi × Unit))} {G : T → R (Lo × V × (V → T))}
    {dflt : K × V × (V → Tree K V S C)} {r : Lo × V × (V → C)} (h : inChild c hi F = .ok (some r)) :
    look t data s c hi F q G dflt = .ok (some (VebKey.join hi r.1, r.2.1, fun w => t.putChildren data s (r.2.2 w))) := by
  unfold look; rw [h]; rfl
private theorem look_known {t : Tree K V S C} {data : TreeData K V S C} {s : S} {c : C} {hi : Hi}
    {F : T → R (Option (Lo × V × (V → T)))} {q : R (Option (Hi × Unit))} {G : T → R (Lo × V × (V → T))}
    {dflt : K × V × (V → Tree K V S C)} {h' : Hi} (h : inChild c hi F = .ok none) (hq : q = .ok (some (h', ()))) :
    look t data s c hi F q G dflt = viaKnown t data s c h' G := by
  unfold look; rw [h, hq]; rfl
private theorem look_dflt {t : Tree K V S C} {data : TreeData K V S C} {s : S} {c : C} {hi : Hi}
    {F : T → R (Option (Lo × V × (V → T)))} {q : R (Option (Hi × Unit))} {G : T → R (Lo × V × (V → T))}
    {dflt : K × V × (V → Tree K V S C)} (h : inChild c hi F = .ok none) (hq : q = .ok none) :
    look t data s c hi F q G dflt = .ok (some dflt) := by
  unfold look; rw [h, hq]; rfl

/-- an answer from below, after a write through it -/
private theorem look_again (HC : RWColl C Hi T Lo V) {t : Tree K V S C} {data : TreeData K V S C} {s : S} {c : C}
    {hi : Hi} {F : T → R (Option (Lo × V × (V → T)))} {q : R (Option (Hi × Unit))} {G : T → R (Lo × V × (V → T))}
    (hF : AgainO F) (hG : AgainM G) (hFG : ∀ u r, G u = .ok r → F u = .ok none → ∀ w, F (r.2.2 w) = .ok none)
    {dflt : K × V × (V → Tree K V S C)} {r : K × V × (V → Tree K V S C)}
    (h : look t data s c hi F q G dflt = .ok (some r)) (w : V) :
    (∃ c', r.2.2 w = t.putChildren data s c' ∧ ∀ t' data' dflt',
      (∀ c', t'.putChildren data' s c' = t.putChildren data s c') →
      look t' data' s c' hi F q G dflt' = .ok (some (r.1, w, r.2.2))) ∨
    (r = dflt ∧ ∀ (t' : Tree K V S C) (data' : TreeData K V S C) (dflt' : K × V × (V → Tree K V S C)),
      look t' data' s c hi F q G dflt' = .ok (some dflt')) := by
  rcases look_ok h with ⟨a, h1, h2⟩ | ⟨h', h1, h2, h3⟩ | ⟨h1, h2, h3⟩
  · cases h2
    refine .inl ⟨a.2.2 w, rfl, fun t' data' dflt' hp => ?_⟩
    rw [look_child (inChild_again HC hF a h1 w)]
    simp only [hp]
  · obtain ⟨u, putC, b, h4, h5, h6⟩ := viaKnown_ok h3
    cases h6
    refine .inl ⟨putC (b.2.2 w), rfl, fun t' data' dflt' hp => ?_⟩
    rw [look_known (inChild_stays HC hFG h4 h5 h1 w) h2, viaKnown_mk (HC.again _ _ _ _ h4 _) (hG _ _ h5 w)]
    simp only [hp]
  · cases h3
    exact .inr ⟨rfl, fun _ _ _ => look_dflt h1 h2⟩

private theorem pred_lt {mn mx : K × V} {s : S} {c : C} {k : K} (h : ¬ k ≤ mn.1) (hc : cmp k mx.1 = .lt) :
    predecessorMut (⟨mn, some ⟨mx, some (s, c)⟩⟩ : Tree K V S C) k =
      look ⟨mn, some ⟨mx, some (s, c)⟩⟩ ⟨mx, some (s, c)⟩ s c (VebKeyRef.splitRef k).1
        (VebTree.predecessorMut · (VebKeyRef.splitRef k).2) (VebTree.predecessor s (VebKeyRef.splitRef k).1)
        VebTree.maxValMut (mn.1, mn.2, putMin ⟨mn, some ⟨mx, some (s, c)⟩⟩) := by
  unfold predecessorMut
  rw [if_neg h]
  dsimp only
  rw [hc]
  dsimp only
  unfold look inChild
  rcases TreeCollection.getMut c (VebKeyRef.splitRef k).1 with e | _ | ⟨u, putC⟩
  · rfl
  · rcases VebTree.predecessor s (VebKeyRef.splitRef k).1 with e | _ | ⟨hi, ⟨⟩⟩ <;> rfl
  · simp only [R.ok_bind]
    rcases VebTree.predecessorMut u (VebKeyRef.splitRef k).2 with e | _ | ⟨lo, val, put⟩
    · rfl
    · rcases VebTree.predecessor s (VebKeyRef.splitRef k).1 with e | _ | ⟨hi, ⟨⟩⟩ <;> rfl
    · rfl
private theorem pred_lt' {mn mx : K × V} {s : S} {c : C} {k : K} (h : ¬ k ≤ mn.1) (hc : cmp k mx.1 = .eq) :
    predecessorMut (⟨mn, some ⟨mx, some (s, c)⟩⟩ : Tree K V S C) k = (do
      let p ← VebTree.maxVal s
      viaKnown ⟨mn, some ⟨mx, some (s, c)⟩⟩ ⟨mx, some (s, c)⟩ s c p.1 VebTree.maxValMut) := by
  unfold predecessorMut
  rw [if_neg h]
  dsimp only
  rw [hc]
  have : decide (mn.1 < k) = true := decide_eq_true (not_le.1 h)
  simp only [this]
  rfl
private theorem succ_lt {mn mx : K × V} {s : S} {c : C} {k : K} (h : ¬ k < mn.1) (hm : ¬ mx.1 ≤ k) (hc : ¬ k = mn.1) :
    successorMut (⟨mn, some ⟨mx, some (s, c)⟩⟩ : Tree K V S C) k =
      look ⟨mn, some ⟨mx, some (s, c)⟩⟩ ⟨mx, some (s, c)⟩ s c (VebKeyRef.splitRef k).1
        (VebTree.successorMut · (VebKeyRef.splitRef k).2) (VebTree.successor s (VebKeyRef.splitRef k).1)
        VebTree.minValMut (mx.1, mx.2, putMax ⟨mn, some ⟨mx, some (s, c)⟩⟩ ⟨mx, some (s, c)⟩) := by
  unfold successorMut
  rw [if_neg h]
  dsimp only
  rw [if_neg hm, if_neg hc]
  unfold look inChild
  rcases TreeCollection.getMut c (VebKeyRef.splitRef k).1 with e | _ | ⟨u, putC⟩
  · rfl
  · rcases VebTree.successor s (VebKeyRef.splitRef k).1 with e | _ | ⟨hi, ⟨⟩⟩ <;> rfl
  · simp only [R.ok_bind]
    rcases VebTree.successorMut u (VebKeyRef.splitRef k).2 with e | _ | ⟨lo, val, put⟩
    · rfl
    · rcases VebTree.successor s (VebKeyRef.splitRef k).1 with e | _ | ⟨hi, ⟨⟩⟩ <;> rfl
    · rfl
private theorem succ_eq {mn mx : K × V} {s : S} {c : C} {k : K} (h : ¬ k < mn.1) (hm : ¬ mx.1 ≤ k) (hc : k = mn.1) :
    successorMut (⟨mn, some ⟨mx, some (s, c)⟩⟩ : Tree K V S C) k = (do
      let p ← VebTree.minVal s
      viaKnown ⟨mn, some ⟨mx, some (s, c)⟩⟩ ⟨mx, some (s, c)⟩ s c p.1 VebTree.minValMut) := by
  unfold successorMut
  rw [if_neg h]
  dsimp only
  rw [if_neg hm, if_pos hc]
  rfl
/-- `find_mut` below the extremes -/
private theorem find_gt {mn mx : K × V} {s : S} {c : C} {k : K} (h : cmp k mn.1 = .gt) (hm : ¬ k = mx.1) :
    findMut (⟨mn, some ⟨mx, some (s, c)⟩⟩ : Tree K V S C) k = (do
      match (← inChild c (VebKeyRef.splitRef k).1 (VebTree.findMut · (VebKeyRef.splitRef k).2)) with
      | none => pure none
      | some (lo, val, put) => pure (some (VebKey.join (VebKeyRef.splitRef k).1 lo, val, fun w =>
          putChildren ⟨mn, some ⟨mx, some (s, c)⟩⟩ ⟨mx, some (s, c)⟩ s (put w)))) := by
  unfold findMut inChild
  dsimp only
  rw [h]
  dsimp only
  rw [if_neg hm]
  rcases TreeCollection.getMut c (VebKeyRef.splitRef k).1 with e | _ | ⟨u, putC⟩
  · rfl
  · rfl
  · simp only [R.ok_bind]
    rcases VebTree.findMut u (VebKeyRef.splitRef k).2 with e | _ | ⟨lo, val, put⟩ <;> rfl

theorem rw (HT : RWTree T Lo V) (HC : RWColl C Hi T Lo V) : RWTree (Tree K V S C) K V where
  minAgree t := .ok rfl
  maxAgree t := by
    obtain ⟨mn, _ | ⟨mx, d⟩⟩ := t
    · exact .ok rfl
    · exact .ok rfl
  findAgree t k := by
    show AgreeO (findMut t k) (find t k)
    obtain ⟨mn, _ | ⟨mx, _ | ⟨s, c⟩⟩⟩ := t
    · unfold findMut find
      dsimp only
      cases cmp k mn.1
      · exact .ok rfl
      · exact .ok rfl
      · exact .ok rfl
    · unfold findMut find
      dsimp only
      cases cmp k mn.1
      · exact .ok rfl
      · exact .ok rfl
      · dsimp only; split
        · exact .ok rfl
        · exact .ok rfl
    · cases h : cmp k mn.1
      · unfold findMut find; simp only [h]; exact .ok rfl
      · unfold findMut find; simp only [h]; exact .ok rfl
      · by_cases hm : k = mx.1
        · unfold findMut find; simp only [h]; rw [if_pos hm, if_pos hm]; exact .ok rfl
        · rw [find_gt h hm]
          unfold find
          simp only [h]
          rw [if_neg hm]
          unfold inChild
          have := HC.agree c (VebKeyRef.splitRef k).1
          generalize TreeCollection.getMut c (VebKeyRef.splitRef k).1 = x at this
          generalize TreeCollection.get c (VebKeyRef.splitRef k).1 = y at this
          cases this with
          | err => exact .err _ _
          | @ok a _ h =>
            subst h
            rcases a with _ | ⟨u, putC⟩
            · exact .ok rfl
            · simp only [R.ok_bind, Option.map_some]
              have := HT.findAgree u (VebKeyRef.splitRef k).2
              generalize VebTree.findMut u (VebKeyRef.splitRef k).2 = x at this
              generalize VebTree.find u (VebKeyRef.splitRef k).2 = y at this
              cases this with
              | err => exact .err _ _
              | @ok a _ h => subst h; rcases a with _ | ⟨lo, val, put⟩ <;> exact .ok rfl
  predAgree t k := by
    show AgreeO (predecessorMut t k) (predecessor t k)
    obtain ⟨mn, _ | ⟨mx, _ | ⟨s, c⟩⟩⟩ := t
    · unfold predecessorMut predecessor
      dsimp only
      split <;> exact .ok rfl
    · unfold predecessorMut predecessor
      dsimp only
      cases cmp k mx.1 <;> dsimp only <;> split <;> exact .ok rfl
    · by_cases h : k ≤ mn.1
      · unfold predecessorMut predecessor; rw [if_pos h, if_pos h]; exact .ok rfl
      · cases hc : cmp k mx.1
        · rw [pred_lt h hc]
          unfold predecessor
          rw [if_neg h]
          dsimp only
          rw [hc]
          exact look_agree HC _ _ _ _ _ (fun u => HT.predAgree u _) _ (fun u => HT.maxAgree u) _
        · rw [pred_lt' h hc]
          unfold predecessor
          rw [if_neg h]
          dsimp only
          rw [hc]
          exact Rx.bindEq fun p => viaKnown_agree HC _ _ _ _ _ fun u => HT.maxAgree u
        · unfold predecessorMut predecessor; rw [if_neg h, if_neg h]; dsimp only; rw [hc]; exact .ok rfl
  succAgree t k := by
    show AgreeO (successorMut t k) (successor t k)
    obtain ⟨mn, _ | ⟨mx, _ | ⟨s, c⟩⟩⟩ := t
    · unfold successorMut successor
      dsimp only
      split <;> exact .ok rfl
    · unfold successorMut successor
      dsimp only
      split
      · exact .ok rfl
      · split <;> exact .ok rfl
    · by_cases h : k < mn.1
      · unfold successorMut successor; rw [if_pos h, if_pos h]; exact .ok rfl
      · by_cases hm : mx.1 ≤ k
        · unfold successorMut successor; rw [if_neg h, if_neg h]; dsimp only; rw [if_pos hm, if_pos hm]; exact .ok rfl
        · by_cases hc : k = mn.1
          · rw [succ_eq h hm hc]
            unfold successor
            rw [if_neg h]
            dsimp only
            rw [if_neg hm, if_pos hc]
            exact Rx.bindEq fun p => viaKnown_agree HC _ _ _ _ _ fun u => HT.minAgree u
          · rw [succ_lt h hm hc]
            unfold successor
            rw [if_neg h]
            dsimp only
            rw [if_neg hm, if_neg hc]
            exact look_agree HC _ _ _ _ _ (fun u => HT.succAgree u _) _ (fun u => HT.minAgree u) _
  minAgain t r h w := by cases h; rfl
  maxAgain t r h w := by
    obtain ⟨mn, _ | ⟨mx, d⟩⟩ := t
    · cases h; rfl
    · cases h; rfl
  findAgain k t r h w := by
    have h : findMut t k = .ok (some r) := h
    show findMut _ k = _
    have heq : ∀ {mn : K × V} {d : Option (TreeData K V S C)}, cmp k mn.1 = .eq → findMut ⟨mn, d⟩ k =
        .ok (some (mn.1, mn.2, putMin ⟨mn, d⟩)) := by
      intro mn d h; unfold findMut; simp only [h]; rfl
    have hmax : ∀ {mn mx : K × V} {d : Option (S × C)}, cmp k mn.1 = .gt → k = mx.1 → findMut ⟨mn, some ⟨mx, d⟩⟩ k =
        .ok (some (mx.1, mx.2, putMax ⟨mn, some ⟨mx, d⟩⟩ ⟨mx, d⟩)) := by
      intro mn mx d h h'; unfold findMut; simp only [h]; rw [if_pos h']; rfl
    obtain ⟨mn, d⟩ := t
    cases hk : cmp k mn.1
    · unfold findMut at h; simp only [hk] at h; cases h
    · rw [heq hk] at h
      cases h
      exact heq hk
    · rcases d with _ | ⟨mx, d⟩
      · unfold findMut at h; simp only [hk] at h; cases h
      · by_cases hm : k = mx.1
        · rw [hmax hk hm] at h
          cases h
          exact hmax hk hm
        · rcases d with _ | ⟨s, c⟩
          · unfold findMut at h; simp only [hk] at h; rw [if_neg hm] at h; cases h
          · rw [find_gt hk hm] at h
            rcases hi : inChild c (VebKeyRef.splitRef k).1 (VebTree.findMut · (VebKeyRef.splitRef k).2) with e | _ | q
            · rw [hi] at h; cases h
            · rw [hi] at h; cases h
            · rw [hi] at h; cases h
              refine (find_gt (mx := mx) (s := s) (c := q.2.2 w) hk hm).trans ?_
              rw [inChild_again HC (HT.findAgain _) q hi w]
              rfl
  predAgain k t r h w := by
    have h : predecessorMut t k = .ok (some r) := h
    show predecessorMut _ k = _
    obtain ⟨mn, _ | ⟨mx, _ | ⟨s, c⟩⟩⟩ := t
    · have key : ∀ mn' : K × V, mn'.1 = mn.1 → predecessorMut (⟨mn', none⟩ : Tree K V S C) k =
          if k ≤ mn.1 then .ok none else .ok (some (mn'.1, mn'.2, putMin ⟨mn', none⟩)) := by
        intro mn' e; unfold predecessorMut; rw [e]; rfl
      rw [key mn rfl] at h
      by_cases hk : k ≤ mn.1
      · rw [if_pos hk] at h; cases h
      · rw [if_neg hk] at h; cases h
        exact (key (mn.1, w) rfl).trans (if_neg hk)
    · have key : ∀ mn' mx' : K × V, mn'.1 = mn.1 → mx'.1 = mx.1 →
          predecessorMut (⟨mn', some ⟨mx', none⟩⟩ : Tree K V S C) k = if k ≤ mn.1 then .ok none else
            if cmp k mx.1 = .gt then .ok (some (mx'.1, mx'.2, putMax ⟨mn', some ⟨mx', none⟩⟩ ⟨mx', none⟩))
            else .ok (some (mn'.1, mn'.2, putMin ⟨mn', some ⟨mx', none⟩⟩)) := by
        intro mn' mx' e e'
        unfold predecessorMut
        dsimp only
        rw [e, e']
        cases cmp k mx.1 <;> rfl
      rw [key mn mx rfl rfl] at h
      by_cases hk : k ≤ mn.1
      · rw [if_pos hk] at h; cases h
      · rw [if_neg hk] at h
        by_cases hm : cmp k mx.1 = .gt
        · rw [if_pos hm] at h; cases h
          exact (key mn (mx.1, w) rfl rfl).trans ((if_neg hk).trans (if_pos hm))
        · rw [if_neg hm] at h; cases h
          exact (key (mn.1, w) mx rfl rfl).trans ((if_neg hk).trans (if_neg hm))
    · by_cases hk : k ≤ mn.1
      · unfold predecessorMut at h; rw [if_pos hk] at h; cases h
      · cases hc : cmp k mx.1
        · rw [pred_lt hk hc] at h
          rcases look_again HC (HT.predAgain _) HT.maxAgain (fun u r h1 h2 w => HT.maxPred u r _ h1 h2 w) h w with
            ⟨c', h1, h2⟩ | ⟨h1, h2⟩
          · rw [h1]
            exact (pred_lt (mx := mx) (s := s) (c := c') hk hc).trans (h2 _ _ _ fun _ => rfl)
          · subst h1
            exact (pred_lt (mn := (mn.1, w)) (mx := mx) (s := s) (c := c) hk hc).trans (h2 _ _ _)
        · rw [pred_lt' hk hc] at h
          rcases hs : VebTree.maxVal s with e | p
          · rw [hs] at h; cases h
          · rw [hs, R.ok_bind] at h
            obtain ⟨c', h1, h2⟩ := viaKnown_again HC HT.maxAgain h w
            rw [h1]
            refine (pred_lt' (mx := mx) (s := s) (c := c') hk hc).trans ?_
            rw [hs]
            exact h2 _ _ fun _ => rfl
        · have key : ∀ mx' : K × V, mx'.1 = mx.1 → predecessorMut (⟨mn, some ⟨mx', some (s, c)⟩⟩ : Tree K V S C) k =
              .ok (some (mx'.1, mx'.2, putMax ⟨mn, some ⟨mx', some (s, c)⟩⟩ ⟨mx', some (s, c)⟩)) := by
            intro mx' e
            unfold predecessorMut
            dsimp only
            rw [if_neg hk, e, hc]
            rfl
          rw [key mx rfl] at h
          cases h
          exact key (mx.1, w) rfl
  succAgain k t r h w := by
    have h : successorMut t k = .ok (some r) := h
    show successorMut _ k = _
    have hlt : ∀ {mn : K × V} {d : Option (TreeData K V S C)}, k < mn.1 → successorMut ⟨mn, d⟩ k =
        .ok (some (mn.1, mn.2, putMin ⟨mn, d⟩)) := by
      intro mn d h; unfold successorMut; rw [if_pos h]; rfl
    obtain ⟨mn, d⟩ := t
    by_cases hk : k < mn.1
    · rw [hlt hk] at h
      cases h
      exact hlt hk
    · rcases d with _ | ⟨mx, d⟩
      · unfold successorMut at h; rw [if_neg hk] at h; cases h
      · by_cases hm : mx.1 ≤ k
        · unfold successorMut at h; rw [if_neg hk] at h; dsimp only at h; rw [if_pos hm] at h; cases h
        · rcases d with _ | ⟨s, c⟩
          · have key : ∀ mx' : K × V, mx'.1 = mx.1 → successorMut (⟨mn, some ⟨mx', none⟩⟩ : Tree K V S C) k =
                .ok (some (mx'.1, mx'.2, putMax ⟨mn, some ⟨mx', none⟩⟩ ⟨mx', none⟩)) := by
              intro mx' e
              unfold successorMut
              dsimp only
              rw [if_neg hk, e, if_neg hm]
              rfl
            rw [key mx rfl] at h
            cases h
            exact key (mx.1, w) rfl
          · by_cases hc : k = mn.1
            · rw [succ_eq hk hm hc] at h
              rcases hs : VebTree.minVal s with e | p
              · rw [hs] at h; cases h
              · rw [hs, R.ok_bind] at h
                obtain ⟨c', h1, h2⟩ := viaKnown_again HC HT.minAgain h w
                rw [h1]
                refine (succ_eq (mx := mx) (s := s) (c := c') hk hm hc).trans ?_
                rw [hs]
                exact h2 _ _ fun _ => rfl
            · rw [succ_lt hk hm hc] at h
              rcases look_again HC (HT.succAgain _) HT.minAgain (fun u r h1 h2 w => HT.minSucc u r _ h1 h2 w) h w with
                ⟨c', h1, h2⟩ | ⟨h1, h2⟩
              · rw [h1]
                exact (succ_lt (mx := mx) (s := s) (c := c') hk hm hc).trans (h2 _ _ _ fun _ => rfl)
              · subst h1
                exact (succ_lt (mx := (mx.1, w)) (s := s) (c := c) hk hm hc).trans (h2 _ _ _)
  maxPred t r k h h' w := by
    have h' : predecessorMut t k = .ok none := h'
    show predecessorMut _ k = _
    have hle : k ≤ t.min.1 := by
      by_contra hk
      obtain ⟨mn, _ | ⟨mx, _ | ⟨s, c⟩⟩⟩ := t
      · unfold predecessorMut at h'; rw [if_neg hk] at h'; cases h'
      · unfold predecessorMut at h'; rw [if_neg hk] at h'; dsimp only at h'
        revert h'
        cases cmp k mx.1 <;> intro h' <;> cases h'
      · cases hc : cmp k mx.1
        · rw [pred_lt hk hc] at h'
          rcases look_ok h' with ⟨_, _, h2⟩ | ⟨_, _, _, h3⟩ | ⟨_, _, h3⟩
          · cases h2
          · obtain ⟨_, _, _, _, _, h6⟩ := viaKnown_ok h3; cases h6
          · cases h3
        · rw [pred_lt' hk hc] at h'
          rcases hs : VebTree.maxVal s with e | p
          · rw [hs] at h'; cases h'
          · rw [hs, R.ok_bind] at h'
            obtain ⟨_, _, _, _, _, h6⟩ := viaKnown_ok h'; cases h6
        · unfold predecessorMut at h'; rw [if_neg hk] at h'; dsimp only at h'; rw [hc] at h'; cases h'
    have hmin : (r.2.2 w).min.1 = t.min.1 := by
      obtain ⟨mn, _ | ⟨mx, d⟩⟩ := t <;> cases h <;> rfl
    unfold predecessorMut
    rw [hmin, if_pos hle]
    rfl
  minSucc t r k h h' w := by
    have h' : successorMut t k = .ok none := h'
    show successorMut _ k = _
    cases h
    obtain ⟨mn, d⟩ := t
    show successorMut ⟨(mn.1, w), d⟩ k = _
    by_cases hk : k < mn.1
    · unfold successorMut at h'; rw [if_pos hk] at h'; cases h'
    · rcases d with _ | ⟨mx, d⟩
      · unfold successorMut; rw [if_neg hk]; rfl
      · by_cases hm : mx.1 ≤ k
        · unfold successorMut; rw [if_neg hk]; dsimp only; rw [if_pos hm]; rfl
        · exfalso
          rcases d with _ | ⟨s, c⟩
          · unfold successorMut at h'; rw [if_neg hk] at h'; dsimp only at h'; rw [if_neg hm] at h'; cases h'
          · by_cases hc : k = mn.1
            · rw [succ_eq hk hm hc] at h'
              rcases hs : VebTree.minVal s with e | p
              · rw [hs] at h'; cases h'
              · rw [hs, R.ok_bind] at h'
                obtain ⟨_, _, _, _, _, h6⟩ := viaKnown_ok h'; cases h6
            · rw [succ_lt hk hm hc] at h'
              rcases look_ok h' with ⟨_, _, h2⟩ | ⟨_, _, _, h3⟩ | ⟨_, _, h3⟩
              · cases h2
              · obtain ⟨_, _, _, _, _, h6⟩ := viaKnown_ok h3; cases h6
              · cases h3

section
variable [LinearOrder Hi] [LinearOrder Lo] [LK : LawfulVebKey K Hi Lo] [PS : PhysTree S Hi Unit] [PT : PhysTree T Lo V]
  [LC : LawfulColl C Hi T Lo V]

private theorem child_W {s : S} {c : C} (I : ChW K s c) {hi : Hi} {u : T} {putC : T → C}
    (h : TreeCollection.getMut c hi = .ok (some (u, putC))) : PT.W u := by
  cases hu : LC.abs c hi with
  | none => rw [LC.getMut_none c hi I.cInv hu] at h; cases h
  | some u' =>
    obtain ⟨put, h1, -⟩ := LC.getMut_some c hi u' I.cInv hu
    rw [h1] at h
    cases h
    exact I.child hi u hu

private theorem viaKnown_noop (HC : NoopColl (T := T) (Hi := Hi) LC.Inv) {mn mx : K × V} {s : S} {c : C} (I : ChW K s c)
    {hi : Hi} {F : T → R (Lo × V × (V → T))} (hF : ∀ u r, PT.W u → F u = .ok r → r.2.2 r.2.1 = u)
    {r : K × V × (V → Tree K V S C)}
    (h : viaKnown ⟨mn, some ⟨mx, some (s, c)⟩⟩ ⟨mx, some (s, c)⟩ s c hi F = .ok (some r)) :
    r.2.2 r.2.1 = ⟨mn, some ⟨mx, some (s, c)⟩⟩ := by
  obtain ⟨u, putC, q, h1, h2, h3⟩ := viaKnown_ok h
  cases h3
  show putChildren _ _ _ (putC (q.2.2 q.2.1)) = _
  rw [hF u q (child_W I h1) h2, HC _ _ _ _ I.cInv h1]
  rfl

private theorem inChild_noop (HC : NoopColl (T := T) (Hi := Hi) LC.Inv) {s : S} {c : C} (I : ChW K s c) {hi : Hi}
    {F : T → R (Option (Lo × V × (V → T)))} (hF : ∀ u r, PT.W u → F u = .ok (some r) → r.2.2 r.2.1 = u)
    {r : Lo × V × (V → C)} (h : inChild c hi F = .ok (some r)) : r.2.2 r.2.1 = c := by
  obtain ⟨u, putC, q, h1, h2, rfl⟩ := inChild_ok h
  show putC (q.2.2 q.2.1) = _
  rw [hF u q (child_W I h1) h2, HC _ _ _ _ I.cInv h1]

private theorem look_noop (HC : NoopColl (T := T) (Hi := Hi) LC.Inv) {mn mx : K × V} {s : S} {c : C} (I : ChW K s c)
    {hi : Hi} {F : T → R (Option (Lo × V × (V → T)))} (hF : ∀ u r, PT.W u → F u = .ok (some r) → r.2.2 r.2.1 = u)
    {q : R (Option (Hi × Unit))} {G : T → R (Lo × V × (V → T))} (hG : ∀ u r, PT.W u → G u = .ok r → r.2.2 r.2.1 = u)
    {dflt r : K × V × (V → Tree K V S C)} (hd : dflt.2.2 dflt.2.1 = ⟨mn, some ⟨mx, some (s, c)⟩⟩)
    (h : look ⟨mn, some ⟨mx, some (s, c)⟩⟩ ⟨mx, some (s, c)⟩ s c hi F q G dflt = .ok (some r)) :
    r.2.2 r.2.1 = ⟨mn, some ⟨mx, some (s, c)⟩⟩ := by
  rcases look_ok h with ⟨a, h1, h2⟩ | ⟨h', h1, h2, h3⟩ | ⟨h1, h2, h3⟩
  · cases h2
    show putChildren _ _ _ (a.2.2 a.2.1) = _
    rw [inChild_noop HC I hF h1]
    rfl
  · exact viaKnown_noop HC I hG h3
  · cases h3
    exact hd

theorem noop (HT : Noop PT.W) (HC : NoopColl (T := T) (Hi := Hi) LC.Inv) : Noop (W : Tree K V S C → Prop) where
  min t r _ h := by cases h; rfl
  max t r _ h := by
    obtain ⟨mn, _ | ⟨mx, d⟩⟩ := t
    · cases h; rfl
    · cases h; rfl
  find t k r I h := by
    have h : findMut t k = .ok (some r) := h
    obtain ⟨mn, d⟩ := t
    cases hk : cmp k mn.1
    · unfold findMut at h; simp only [hk] at h; cases h
    · unfold findMut at h; simp only [hk] at h; cases h; rfl
    · rcases d with _ | ⟨mx, d⟩
      · unfold findMut at h; simp only [hk] at h; cases h
      · by_cases hm : k = mx.1
        · unfold findMut at h; simp only [hk] at h; rw [if_pos hm] at h; cases h; rfl
        · rcases d with _ | ⟨s, c⟩
          · unfold findMut at h; simp only [hk] at h; rw [if_neg hm] at h; cases h
          · rw [find_gt hk hm] at h
            rcases hi : inChild c (VebKeyRef.splitRef k).1 (VebTree.findMut · (VebKeyRef.splitRef k).2) with e | _ | q
            · rw [hi] at h; cases h
            · rw [hi] at h; cases h
            · rw [hi] at h; cases h
              show putChildren _ _ _ (q.2.2 q.2.1) = _
              rw [inChild_noop HC I (fun u r => HT.find u _ r) hi]
              rfl
  pred t k r I h := by
    have h : predecessorMut t k = .ok (some r) := h
    obtain ⟨mn, _ | ⟨mx, _ | ⟨s, c⟩⟩⟩ := t
    · unfold predecessorMut at h
      split at h <;> cases h; rfl
    · unfold predecessorMut at h
      split at h
      · cases h
      · dsimp only at h
        revert h
        cases cmp k mx.1 <;> intro h <;> cases h <;> rfl
    · by_cases hk : k ≤ mn.1
      · unfold predecessorMut at h; rw [if_pos hk] at h; cases h
      · cases hc : cmp k mx.1
        · rw [pred_lt hk hc] at h
          exact look_noop HC I (fun u r => HT.pred u _ r) HT.max rfl h
        · rw [pred_lt' hk hc] at h
          rcases hs : VebTree.maxVal s with e | p
          · rw [hs] at h; cases h
          · rw [hs, R.ok_bind] at h
            exact viaKnown_noop HC I HT.max h
        · unfold predecessorMut at h; rw [if_neg hk] at h; dsimp only at h; rw [hc] at h; cases h; rfl
  succ t k r I h := by
    have h : successorMut t k = .ok (some r) := h
    obtain ⟨mn, d⟩ := t
    by_cases hk : k < mn.1
    · unfold successorMut at h; rw [if_pos hk] at h; cases h; rfl
    · rcases d with _ | ⟨mx, d⟩
      · unfold successorMut at h; rw [if_neg hk] at h; cases h
      · by_cases hm : mx.1 ≤ k
        · unfold successorMut at h; rw [if_neg hk] at h; dsimp only at h; rw [if_pos hm] at h; cases h
        · rcases d with _ | ⟨s, c⟩
          · unfold successorMut at h; rw [if_neg hk] at h; dsimp only at h; rw [if_neg hm] at h; cases h; rfl
          · by_cases hc : k = mn.1
            · rw [succ_eq hk hm hc] at h
              rcases hs : VebTree.minVal s with e | p
              · rw [hs] at h; cases h
              · rw [hs, R.ok_bind] at h
                exact viaKnown_noop HC I HT.min h
            · rw [succ_lt hk hm hc] at h
              exact look_noop HC I (fun u r => HT.succ u _ r) HT.min rfl h
end
end Tree

/-! ## All types of the crate -/

theorem CrateColl.rw [LinearOrder Hi] [VebTree T Lo V] [TreeCollection C Hi T Lo V] (h : CrateColl C Hi T Lo V) :
    RWColl C Hi T Lo V := by
  induction h with
  | array => exact ArrayColl.rwColl
  | hash => exact HashMap.rwColl
  | byte => exact ByteMap.rwColl
  | box _ ih => exact Box.rwColl ih

theorem CrateColl.noop [LinearOrder Hi] [VebTree T Lo V] [TreeCollection C Hi T Lo V] (h : CrateColl C Hi T Lo V) :
    ∃ L : LawfulColl C Hi T Lo V, NoopColl (T := T) (Hi := Hi) L.Inv := by
  induction h with
  | array h => have := h.lawful; exact ⟨inferInstance, ArrayColl.noopColl _⟩
  | hash => exact ⟨inferInstance, HashMap.noopColl fun c I => I.1⟩
  | byte => exact ⟨inferInstance, ByteMap.noopColl _⟩
  | box _ ih => obtain ⟨L, hL⟩ := ih; exact ⟨inferInstance, Box.noopColl hL⟩

theorem CrateTree.rw [LinearOrder K] [VebTree T K V] {safe : (K → Prop) → K → Prop} (h : CrateTree T K V safe) :
    RWTree T K V := by
  induction h with
  | byteSet => exact ByteSet.rw
  | byteMap => exact ByteMap.rw
  | btreeMap => exact BTreeMap.rw
  | box _ ih => exact Box.rw ih
  | sized _ ih => exact SizedVebTree.rw ih
  | tree _ _ _ hc _ iht => exact Tree.rw iht hc.rw

theorem CrateTree.noop [LinearOrder K] [VebTree T K V] {safe : (K → Prop) → K → Prop} (h : CrateTree T K V safe) :
    ∃ P : PhysTree T K V, Noop P.W := by
  induction h with
  | byteSet => exact ⟨PhysTree.ofLawful fun _ _ => trivial, ByteSet.noop _⟩
  | byteMap => exact ⟨PhysTree.ofLawful fun _ _ => trivial, ByteMap.noop _⟩
  | btreeMap =>
    refine ⟨PhysTree.ofLawful fun _ _ => trivial, BTreeMap.noop fun t I => ?_⟩
    exact (List.pairwise_map.2 I.1).imp fun h => ne_of_lt h
  | box _ ih => obtain ⟨P, hP⟩ := ih; exact ⟨inferInstance, Box.noop hP⟩
  | sized _ ih => obtain ⟨P, hP⟩ := ih; exact ⟨inferInstance, SizedVebTree.noop (fun _ I => I.1) hP⟩
  | tree hk _ _ hc ihs iht =>
    have := hk.lawful
    obtain ⟨LC, hC⟩ := hc.noop
    obtain ⟨PS, -⟩ := ihs
    obtain ⟨PT, hT⟩ := iht
    exact ⟨inferInstance, Tree.noop hT hC⟩

theorem UncountedTree.noop [LinearOrder K] [VebTree T K V] (h : UncountedTree T K V) :
    ∃ P : PhysTree T K V, ¬ P.limited ∧ Noop P.W := by
  induction h with
  | byteSet => exact ⟨PhysTree.ofLawful fun _ _ => trivial, id, ByteSet.noop _⟩
  | byteMap => exact ⟨PhysTree.ofLawful fun _ _ => trivial, id, ByteMap.noop _⟩
  | btreeMap =>
    refine ⟨PhysTree.ofLawful fun _ _ => trivial, id, BTreeMap.noop fun t I => ?_⟩
    exact (List.pairwise_map.2 I.1).imp fun h => ne_of_lt h
  | box _ ih => obtain ⟨P, h, hP⟩ := ih; exact ⟨inferInstance, h, Box.noop hP⟩
  | tree hk _ _ hc ihs iht =>
    have := hk.lawful
    obtain ⟨LC, hC⟩ := hc.noop
    obtain ⟨PS, hs, -⟩ := ihs
    obtain ⟨PT, ht, hT⟩ := iht
    exact ⟨inferInstance, fun h => h.elim hs ht, Tree.noop hT hC⟩

theorem UncountedTree.crate [LinearOrder K] [VebTree T K V] (h : UncountedTree T K V) :
    ∃ safe, CrateTree T K V safe := by
  induction h with
  | byteSet => exact ⟨_, .byteSet⟩
  | byteMap => exact ⟨_, .byteMap⟩
  | btreeMap => exact ⟨_, .btreeMap⟩
  | box _ ih => obtain ⟨_, h⟩ := ih; exact ⟨_, .box h⟩
  | tree hk _ _ hc ihs iht =>
    obtain ⟨_, hs⟩ := ihs
    obtain ⟨_, ht⟩ := iht
    exact ⟨_, .tree hk hs ht hc⟩

theorem UncountedTree.shape_values {V' : Type} [LinearOrder K] [VebTree T K V] (h : UncountedTree T K V) (f : V → V') :
    ∃ (T' : Type) (_ : VebTree T' K V'), UncountedTree T' K V' ∧ SameShape T K V T' K V' id f := by
  induction h with
  | byteSet => exact ⟨ByteMap V', inferInstance, .byteMap, .leaf .byteSet .byteMap⟩
  | byteMap => exact ⟨ByteMap V', inferInstance, .byteMap, .leaf .byteMap .byteMap⟩
  | @btreeMap K V _ => exact ⟨BTreeMap K V', inferInstance, .btreeMap, .leaf .btreeMap .btreeMap⟩
  | box h ih => obtain ⟨T', _, h1, h2⟩ := ih f; exact ⟨Box T', inferInstance, .box h1, .boxL (.boxR h2)⟩
  | @tree K V S C Hi Lo T _ _ _ _ _ _ _ _ hk hs ht hc ihs iht =>
    obtain ⟨T', _, h1, h2⟩ := iht f
    obtain ⟨_, hs'⟩ := hs.crate
    exact ⟨Tree K V' S (HashMap Hi T'), inferInstance, .tree hk hs h1 .hash,
      .tree strictMono_id (fun _ _ e => e) ⟨fun _ => rfl, fun _ => rfl, fun _ _ => rfl⟩ hs'.shape_refl h2 hc .hash⟩

theorem CapTree.noop [LinearOrder K] [VebTree T K V] {n : Nat} (h : CapTree T K V n) :
    ∃ P : PhysTree T K V, ¬ P.limited ∧ (∀ t, P.W t → (P.ents t).card ≤ n) ∧ Noop P.W := by
  induction h with
  | byteSet =>
    refine ⟨PhysTree.ofLawful fun _ _ => trivial, id, fun t h => ?_, ByteSet.noop _⟩
    rw [← card_U 8]; exact PhysTree.ofLawful_cap _ t h
  | byteMap =>
    refine ⟨PhysTree.ofLawful fun _ _ => trivial, id, fun t h => ?_, ByteMap.noop _⟩
    rw [← card_U 8]; exact PhysTree.ofLawful_cap _ t h
  | btreeMap =>
    refine ⟨PhysTree.ofLawful fun _ _ => trivial, id, fun t h => PhysTree.ofLawful_cap _ t h, BTreeMap.noop fun t I => ?_⟩
    exact (List.pairwise_map.2 I.1).imp fun h => ne_of_lt h
  | box _ ih => obtain ⟨P, h, hc, hP⟩ := ih; exact ⟨inferInstance, h, fun t => hc t.val, Box.noop hP⟩
  | sized _ hn ih =>
    obtain ⟨P, h, hc, hP⟩ := ih
    exact ⟨PhysTree.sizedOf h hc hn, id, fun t ht => hc t.tree ht.1, SizedVebTree.noop (fun _ I => I.1) hP⟩
  | tree hk _ _ hc ihs iht =>
    have := hk.lawful
    obtain ⟨LC, hC⟩ := hc.noop
    obtain ⟨PS, hs, -⟩ := ihs
    obtain ⟨PT, ht, hcap, hT⟩ := iht
    exact ⟨inferInstance, fun h => h.elim hs ht, fun t => Tree.cap hcap t, Tree.noop hT hC⟩

theorem CapTree.shape_values {V' : Type} [LinearOrder K] [VebTree T K V] {n : Nat} (h : CapTree T K V n) (f : V → V') :
    ∃ (T' : Type) (_ : VebTree T' K V'), CapTree T' K V' n ∧ SameShape T K V T' K V' id f := by
  induction h with
  | byteSet => exact ⟨ByteMap V', inferInstance, .byteMap, .leaf .byteSet .byteMap⟩
  | byteMap => exact ⟨ByteMap V', inferInstance, .byteMap, .leaf .byteMap .byteMap⟩
  | @btreeMap K V _ _ => exact ⟨BTreeMap K V', inferInstance, .btreeMap, .leaf .btreeMap .btreeMap⟩
  | box h ih => obtain ⟨T', _, h1, h2⟩ := ih f; exact ⟨Box T', inferInstance, .box h1, .boxL (.boxR h2)⟩
  | sized h hn ih => obtain ⟨T', _, h1, h2⟩ := ih f; exact ⟨SizedVebTree T', inferInstance, .sized h1 hn, .sized h2⟩
  | @tree K V S C Hi Lo T _ _ _ _ _ _ _ _ _ _ _ hk hs ht hc ihs iht =>
    obtain ⟨T', _, h1, h2⟩ := iht f
    obtain ⟨_, hs'⟩ := hs.crate
    exact ⟨Tree K V' S (HashMap Hi T'), inferInstance, .tree hk hs h1 .hash,
      .tree strictMono_id (fun _ _ e => e) ⟨fun _ => rfl, fun _ => rfl, fun _ _ => rfl⟩ hs'.shape_refl h2 hc .hash⟩

theorem Covered.crate [LinearOrder K] [VebTree T K V] {ops : List (Op K V)} (h : Covered T ops) :
    ∃ safe, CrateTree T K V safe := by
  cases h with
  | counted h _ => exact ⟨_, h⟩
  | uncounted h => exact h.crate
  | bounded h => exact h.crate

theorem Covered.noop [LinearOrder K] [VebTree T K V] {ops : List (Op K V)} (h : Covered T ops) :
    ∃ P : PhysTree T K V, (P.limited → insertions ops ≤ usizeMax) ∧ Noop P.W := by
  cases h with
  | counted h hn => obtain ⟨P, hP⟩ := h.noop; exact ⟨P, fun _ => hn, hP⟩
  | uncounted h => obtain ⟨P, h1, h2⟩ := h.noop; exact ⟨P, fun h => (h1 h).elim, h2⟩
  | bounded h => obtain ⟨P, h1, -, h2⟩ := h.noop; exact ⟨P, fun h => (h1 h).elim, h2⟩

theorem insertions_rename {K' V' : Type} (π : K → K') (f : V → V') (ops : List (Op K V)) :
    insertions (ops.map (Op.rename π f)) = insertions ops := by
  unfold insertions
  rw [List.countP_map]
  congr 1
  funext op
  cases op <;> rfl

theorem Covered.values {V' : Type} [LinearOrder K] [VebTree T K V] {ops : List (Op K V)} (h : Covered T ops) (f : V → V') :
    ∃ (T' : Type) (_ : VebTree T' K V'), Covered T' (ops.map (Op.rename id f)) ∧ SameShape T K V T' K V' id f := by
  cases h with
  | counted h hn =>
    obtain ⟨T', _, h1, h2⟩ := h.shape_values f
    exact ⟨T', _, .counted h1 ((insertions_rename _ _ _).trans_le hn), h2⟩
  | uncounted h =>
    obtain ⟨T', _, h1, h2⟩ := h.shape_values f
    exact ⟨T', _, .uncounted h1, h2⟩
  | bounded h =>
    obtain ⟨T', _, h1, h2⟩ := h.shape_values f
    exact ⟨T', _, .bounded h1, h2⟩

/-! ## The five accessors at once -/

section
variable [VebTree T K V]

theorem Rx.map_some {α β : Type} {P : α → β → Prop} {P' : Option α → Option β → Prop} {x : R α} {y : R β} (h : Rx P x y)
    (f : ∀ {a b}, P a b → P' (some a) (some b)) : Rx P' (x.map some) (y.map some) := by
  cases h with
  | ok h => exact .ok (f h)
  | err => exact .err _ _

theorem RWTree.agree (H : RWTree T K V) (t : T) (a : Accessor K) : AgreeO (a.getMut t) (a.get t) := by
  cases a with
  | find k => exact H.findAgree t k
  | predecessor k => exact H.predAgree t k
  | successor k => exact H.succAgree t k
  | minVal =>
    exact (H.minAgree t).map_some fun h => congrArg some h
  | maxVal =>
    exact (H.maxAgree t).map_some fun h => congrArg some h

theorem map_some_ok {α : Type} {x : R α} {a : α} : x.map some = .ok (some a) ↔ x = .ok a := by
  cases x <;> simp [Except.map]

theorem RWTree.again (H : RWTree T K V) (a : Accessor K) : AgainO (T := T) (a.getMut ·) := by
  intro t r h w
  cases a with
  | find k => exact H.findAgain k t r h w
  | predecessor k => exact H.predAgain k t r h w
  | successor k => exact H.succAgain k t r h w
  | minVal => exact map_some_ok.2 (H.minAgain t r (map_some_ok.1 h) w)
  | maxVal => exact map_some_ok.2 (H.maxAgain t r (map_some_ok.1 h) w)

theorem Noop.any {W : T → Prop} (H : Noop W) {t : T} (I : W t) {a : Accessor K} {r : K × V × (V → T)}
    (h : a.getMut t = .ok (some r)) : r.2.2 r.2.1 = t := by
  cases a with
  | find k => exact H.find t k r I h
  | predecessor k => exact H.pred t k r I h
  | successor k => exact H.succ t k r I h
  | minVal => exact H.min t r I (map_some_ok.1 h)
  | maxVal => exact H.max t r I (map_some_ok.1 h)

theorem SameTree.getMut {T' V' : Type} [VebTree T' K V'] {f : V → V'} {Q : T → T' → Prop} (H : SameTree id f Q)
    {t : T} {t' : T'} (h : Q t t') (a : Accessor K) :
    Rx (Option.Rel (MutX id f Q)) (a.getMut t) (a.getMut t') := by
  cases a with
  | find k => exact H.findMut h k
  | predecessor k => exact H.predecessorMut h k
  | successor k => exact H.successorMut h k
  | minVal =>
    exact (H.minValMut h).map_some .some
  | maxVal =>
    exact (H.maxValMut h).map_some .some
end

end Veb
