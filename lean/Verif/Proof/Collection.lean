import Verif.Proof.Lawful
import Verif.Proof.MapLemmas
import Verif.Model.Collection
import Mathlib.Data.Set.Finite.Basic
import Mathlib.Data.Set.Finite.Range

/-!
The array, hash and boxed collections are lawful.
-/

set_option linter.unusedSectionVars false

namespace Veb

/-! ## Arrays -/

namespace ArrayColl
variable {Hi T Lo V : Type} [DecidableEq Hi] [SizedVebKey Hi] [LH : LawfulSizedKey Hi]

local notation "ix" => SizedVebKey.index

def abs (c : ArrayColl Hi T) : Map Hi T := fun h => c.array.slot (ix h)

/-- every tree is at the index of a key -/
def Owned (f : Nat → Option T) : Prop := ∀ j, f j ≠ none → ∃ h : Hi, ix h = j

def Inv (c : ArrayColl Hi T) : Prop :=
  c.array.len = SizedVebKey.cardinality Hi ∧ c.count = c.abs.card ∧ 0 < c.count ∧ Owned (Hi := Hi) c.array.slot

theorem finite_hi : Finite Hi :=
  Finite.of_injective (fun h : Hi => (⟨ix h, LH.index_lt h⟩ : Fin (SizedVebKey.cardinality Hi)))
    fun a b e => LH.index_inj a b (by simpa using e)

theorem card_le (c : ArrayColl Hi T) : c.abs.card ≤ usizeMax := by
  have := finite_hi (Hi := Hi)
  have h1 : c.abs.card ≤ Nat.card Hi := by
    rw [← Set.ncard_univ]; exact Set.ncard_le_ncard (Set.subset_univ _) (Set.toFinite _)
  have h2 : Nat.card Hi ≤ SizedVebKey.cardinality Hi := by
    have := Nat.card_le_card_of_injective
      (fun h : Hi => (⟨ix h, LH.index_lt h⟩ : Fin (SizedVebKey.cardinality Hi)))
      (fun a b e => LH.index_inj a b (by simpa using e))
    simpa using this
  exact h1.trans (h2.trans LH.card_le)

theorem card_lt {c : ArrayColl Hi T} {h : Hi} (hn : c.abs h = none) : c.abs.card < usizeMax := by
  have := finite_hi (Hi := Hi)
  have h1 : c.abs.card < Nat.card Hi := by
    rw [← Set.ncard_univ]
    refine Set.ncard_lt_ncard ?_ (Set.toFinite _)
    rw [Set.ssubset_univ_iff]
    intro he
    have : h ∈ {k | c.abs.Mem k} := by rw [he]; trivial
    exact this hn
  have h2 : Nat.card Hi ≤ SizedVebKey.cardinality Hi := by
    have := Nat.card_le_card_of_injective
      (fun h : Hi => (⟨ix h, LH.index_lt h⟩ : Fin (SizedVebKey.cardinality Hi)))
      (fun a b e => LH.index_inj a b (by simpa using e))
    simpa using this
  exact h1.trans_le (h2.trans LH.card_le)

end ArrayColl

namespace Map
variable {K V : Type} [DecidableEq K] {M : Map K V}

theorem card_upd_of_mem {k : K} {v : V} (h : M.Mem k) : (M.upd k (some v)).card = M.card := by
  have : {j | (M.upd k (some v)).Mem j} = {j | M.Mem j} := by
    ext j
    simp only [Set.mem_ofPred_eq, mem_upd_some]
    constructor
    · rintro (rfl | hj)
      · exact h
      · exact hj
    · exact .inr
  rw [card, this, card]

theorem card_upd_new {k : K} {v : V} (hf : Set.Finite {j | M.Mem j}) (h : M k = none) :
    (M.upd k (some v)).card = M.card + 1 := by
  have : {j | (M.upd k (some v)).Mem j} = Set.insert k {j | M.Mem j} := by
    ext j
    simp only [Set.mem_ofPred_eq, mem_upd_some]
    rfl
  rw [card, this]
  exact Set.ncard_insert_of_notMem (by simpa [not_mem] using h) hf

theorem card_upd_none {k : K} (hf : Set.Finite {j | M.Mem j}) (h : M.Mem k) :
    (M.upd k none).card + 1 = M.card := by
  have : {j | (M.upd k none).Mem j} = {j | M.Mem j} \ {k} := by
    ext j
    simp only [Set.mem_ofPred_eq, mem_upd_none, Set.mem_sdiff, Set.mem_singleton_iff]
    tauto
  rw [card, this]
  exact Set.ncard_sdiff_singleton_add_one h hf

theorem card_single (k : K) (v : V) : (single k v).card = 1 := by
  simp [card, mem_single]

theorem card_eq_zero (hf : Set.Finite {j | M.Mem j}) : M.card = 0 ↔ M = empty := by
  rw [card, Set.ncard_eq_zero hf]
  constructor
  · intro h
    funext j
    have : j ∉ {j | M.Mem j} := by rw [h]; exact Set.notMem_empty j
    exact not_mem.1 this
  · rintro rfl
    ext j
    simp

end Map

namespace ArrayColl
variable {Hi T Lo V : Type} [DecidableEq Hi] [SizedVebKey Hi] [LH : LawfulSizedKey Hi]
local notation "ix" => SizedVebKey.index

theorem abs_upd (c : ArrayColl Hi T) (h : Hi) (o : Option T) (n m : Nat) :
    (⟨⟨n, fun j => if j = ix h then o else c.array.slot j⟩, m⟩ : ArrayColl Hi T).abs = c.abs.upd h o := by
  funext j
  simp only [abs, Map.upd_apply]
  have : ix j = ix h ↔ j = h := ⟨LH.index_inj j h, fun e => by rw [e]⟩
  simp only [this]

theorem Owned.upd {f : Nat → Option T} (H : Owned (Hi := Hi) f) (h : Hi) (o : Option T) :
    Owned (Hi := Hi) fun j => if j = ix h then o else f j := by
  intro j hj
  by_cases e : j = ix h
  · exact ⟨h, e.symm⟩
  · exact H j (by simpa [e] using hj)

theorem get_eq {c : ArrayColl Hi T} (I : c.Inv) (h : Hi) : c.array.get (ix h) = .ok (c.abs h) := by
  have := LH.index_lt h
  simp [OptionArray.get, I.1, this, abs]

theorem put_eq {a : OptionArray T} (I : a.len = SizedVebKey.cardinality Hi) (h : Hi) (o : Option T) :
    a.put (ix h) o = .ok ⟨a.len, fun j => if j = ix h then o else a.slot j⟩ := by
  have := LH.index_lt h
  simp [OptionArray.put, I, this]

theorem put_put {n : Nat} {f : Nat → Option T} (I : n = SizedVebKey.cardinality Hi) (h : Hi) (o o' : Option T) :
    (⟨n, fun j => if j = ix h then o' else f j⟩ : OptionArray T).put (ix h) o =
      .ok ⟨n, fun j => if j = ix h then o else f j⟩ := by
  rw [put_eq (by exact I)]
  simp only [Except.ok.injEq, OptionArray.mk.injEq, true_and]
  funext j
  split <;> rfl

variable [VebTree T Lo V]

theorem removeKey_ok (c : ArrayColl Hi T) (h : Hi) (t : T) (r : T → R (Option T × (Lo × V)))
    (o : Option T) (val : Lo × V) (I : c.Inv) (ht : c.abs h = some t) (hr : r t = .ok (o, val)) :
    ∃ res, c.removeKey h r = .ok (res, val) ∧ CollRemOk Inv abs c h o res := by
  have := finite_hi (Hi := Hi)
  have hf : Set.Finite {k | c.abs.Mem k} := Set.toFinite _
  have hm : c.abs.Mem h := Map.mem_of ht
  obtain ⟨h1, h2, h3, h4⟩ := I
  simp only [removeKey, get_eq ⟨h1, h2, h3, h4⟩, ht, R.ok_bind, expect_some, put_eq h1, hr]
  cases o with
  | some u =>
    refine ⟨some (⟨⟨c.array.len, fun j => if j = ix h then some u else c.array.slot j⟩, c.count⟩, false),
      ?_, rfl, ⟨h1, ?_, h3, h4.upd h _⟩, abs_upd c h _ _ _⟩
    · have : ¬ c.count = 0 := by omega
      simp only [Option.isNone_some, Bool.false_eq_true, if_false, R.pure_eq, R.ok_bind]
      rw [put_put h1]
      simp only [R.ok_bind, this, if_false]
    · rw [abs_upd, Map.card_upd_of_mem hm]; exact h2
  | none =>
    have hc := Map.card_upd_none hf hm
    have hle : 1 ≤ c.count := h3
    simp only [Option.isNone_none, if_true, subUsize, hle, R.ok_bind]
    rw [put_put h1]
    simp only [R.ok_bind]
    by_cases h0 : c.count - 1 = 0
    · refine ⟨none, by simp [h0], rfl, ?_⟩
      rw [← Map.card_eq_zero (Set.toFinite _)]
      omega
    · refine ⟨some (⟨⟨c.array.len, fun j => if j = ix h then none else c.array.slot j⟩, c.count - 1⟩, true),
        ?_, rfl, ⟨h1, ?_, Nat.pos_of_ne_zero h0, h4.upd h _⟩, abs_upd c h _ _ _⟩
      · simp only [h0, if_false, R.pure_eq]
      · rw [abs_upd]; simp only; omega

theorem maybe_ok (c : ArrayColl Hi T) (h : Hi) (t : T) (r : T → R (Result (Option T × (Lo × V)) T))
    (o : Option T) (val : Lo × V) (I : c.Inv) (ht : c.abs h = some t) (hr : r t = .ok (.Ok (o, val))) :
    ∃ res, c.maybeRemoveKey h r = .ok (.Ok (res, val)) ∧ CollRemOk Inv abs c h o res := by
  obtain ⟨res, h1, h2⟩ := removeKey_ok c h t (fun _ => .ok (o, val)) o val I ht rfl
  refine ⟨res, ?_, h2⟩
  simp only [removeKey, get_eq I, ht, R.ok_bind, expect_some, put_eq I.1, put_put I.1, R.pure_eq] at h1
  simp only [maybeRemoveKey, get_eq I, ht, R.ok_bind, put_eq I.1, put_put I.1, hr, R.pure_eq]
  cases o with
  | some u =>
    simp only [Option.isNone_some, Bool.false_eq_true, if_false] at h1 ⊢
    split at h1 <;> cases h1 <;> simp_all
  | none =>
    have hle : 1 ≤ c.count := I.2.2.1
    simp only [Option.isNone_none, if_true, subUsize, hle, R.ok_bind] at h1 ⊢
    split at h1 <;> cases h1 <;> simp_all

instance : LawfulColl (ArrayColl Hi T) Hi T Lo V where
  Inv := Inv
  abs := abs
  nonempty c I := by
    have := finite_hi (Hi := Hi)
    have h : 0 < c.abs.card := I.2.1 ▸ I.2.2.1
    obtain ⟨h, hh⟩ := (Set.ncard_pos (Set.toFinite _)).1 h
    exact ⟨h, hh⟩
  create h t := by
    refine ⟨⟨⟨SizedVebKey.cardinality Hi, fun j => if j = ix h then some t else none⟩, 1⟩, ?_, ?_, ?_⟩
    · have hl : OptionArray.typenumUsize (SizedVebKey.cardinality Hi) = SizedVebKey.cardinality Hi :=
        Nat.mod_eq_of_lt (Nat.lt_succ_of_le LH.card_le)
      have := put_eq (a := (OptionArray.create (SizedVebKey.cardinality Hi) : OptionArray T)) hl h (some t)
      show create h t = _
      simp only [create, this, R.ok_bind]
      simp only [OptionArray.create, hl]
      rfl
    · refine ⟨rfl, ?_, Nat.one_pos, Owned.upd (f := fun _ => none) (fun _ x => (x rfl).elim) h _⟩
      have := abs_upd (⟨⟨0, fun _ => none⟩, 0⟩ : ArrayColl Hi T) h (some t) (SizedVebKey.cardinality Hi) 1
      simp only at this
      rw [this]
      exact (Map.card_single h t).symm
    · exact abs_upd (⟨⟨0, fun _ => none⟩, 0⟩ : ArrayColl Hi T) h (some t) _ _
  get c h I := get_eq I h
  getMut_none c h I hn := by
    show getMut c h = _
    simp only [getMut, get_eq I, hn]; rfl
  getMut_some c h t I ht := by
    refine ⟨fun u => ⟨⟨c.array.len, fun j => if j = ix h then some u else c.array.slot j⟩, c.count⟩,
      by show getMut c h = _; simp only [getMut, get_eq I, ht]; rfl, fun u => ⟨⟨I.1, ?_, I.2.2.1, I.2.2.2.upd h _⟩, ?_⟩⟩
    · show c.count = _
      rw [abs_upd, Map.card_upd_of_mem (Map.mem_of ht)]
      exact I.2.1
    · exact abs_upd c h _ _ _
  insert_none c h l v I hn := by
    have := finite_hi (Hi := Hi)
    have hlt := card_lt hn
    have : c.count + 1 ≤ usizeMax := by rw [I.2.1]; omega
    refine ⟨⟨⟨c.array.len, fun j => if j = ix h then some (VebTree.fromMonad l v) else c.array.slot j⟩,
      c.count + 1⟩, ?_, ⟨I.1, ?_, Nat.succ_pos _, I.2.2.2.upd h _⟩, abs_upd c h _ _ _⟩
    · show insertKey c h (l, v) = _
      simp only [insertKey, get_eq I, hn, R.ok_bind, put_eq I.1, addUsize, this, if_true]; rfl
    · rw [abs_upd, Map.card_upd_new (Set.toFinite _) hn]
      simp only [I.2.1]
  insert_some c h l v t t' o I ht hi := by
    refine ⟨⟨⟨c.array.len, fun j => if j = ix h then some t' else c.array.slot j⟩, c.count⟩, ?_,
      ⟨I.1, ?_, I.2.2.1, I.2.2.2.upd h _⟩, abs_upd c h _ _ _⟩
    · show insertKey c h (l, v) = _
      simp only [insertKey, get_eq I, ht, R.ok_bind, hi, put_eq I.1]; rfl
    · rw [abs_upd, Map.card_upd_of_mem (Map.mem_of ht)]
      exact I.2.1
  removeKey := removeKey_ok
  insert_panic c h l v t e I ht hi := by
    show insertKey c h (l, v) = _
    simp only [insertKey, get_eq I, ht, R.ok_bind, hi]; rfl
  removeKey_panic c h t r e I ht hr := by
    show removeKey c h r = _
    simp only [removeKey, get_eq I, ht, R.ok_bind, expect_some, put_eq I.1, hr]; rfl
  absent := .expect "array should contain tree at key index"
  removeKey_absent c h r I hn := by
    show removeKey c h r = _
    simp only [removeKey, get_eq I, hn, R.ok_bind]; rfl
  maybe_err' c h t r t' I ht hr := by
    refine ⟨⟨⟨c.array.len, fun j => if j = ix h then some t' else c.array.slot j⟩, c.count⟩, ?_,
      ⟨I.1, ?_, I.2.2.1, I.2.2.2.upd h _⟩, abs_upd c h _ _ _⟩
    · show maybeRemoveKey c h r = _
      simp only [maybeRemoveKey, get_eq I, ht, R.ok_bind, put_eq I.1, hr]
      rw [put_put I.1]
      rfl
    · rw [abs_upd, Map.card_upd_of_mem (Map.mem_of ht)]
      exact I.2.1
  maybe_panic c h t r e I ht hr := by
    show maybeRemoveKey c h r = _
    simp only [maybeRemoveKey, get_eq I, ht, R.ok_bind, put_eq I.1, hr]; rfl
  maybe_absent c h r I hn := by
    show maybeRemoveKey c h r = _
    simp only [maybeRemoveKey, get_eq I, hn]; rfl
  maybe_err c h t r I ht hr := by
    show maybeRemoveKey c h r = _
    simp only [maybeRemoveKey, get_eq I, ht, R.ok_bind, put_eq I.1, hr]
    rw [put_put I.1]
    simp only [R.ok_bind, R.pure_eq, Except.ok.injEq, Result.Err.injEq]
    obtain ⟨⟨n, s⟩, m⟩ := c
    simp only [ArrayColl.mk.injEq, OptionArray.mk.injEq, true_and, and_true]
    funext j
    split
    · rename_i e
      rw [e]; exact ht.symm
    · rfl
  maybe_ok := maybe_ok

end ArrayColl

/-! ## Hash maps -/

namespace HashMap
variable {Hi T Lo V : Type} [DecidableEq Hi]

def NodupKeys (l : List (Hi × T)) : Prop := (l.map Prod.fst).Nodup

def Inv (c : HashMap Hi T) : Prop := NodupKeys c.entries ∧ c.entries ≠ []

theorem lookup_cons (p : Hi × T) (l : List (Hi × T)) (h : Hi) :
    (⟨p :: l⟩ : HashMap Hi T).lookup h = if p.1 = h then some p.2 else (⟨l⟩ : HashMap Hi T).lookup h := by
  simp only [lookup, List.find?_cons]
  by_cases e : p.1 = h <;> simp [e]

theorem lookup_assign (c : HashMap Hi T) (h : Hi) (t u : T) (ht : c.lookup h = some t) :
    (c.assign h u).lookup = Map.upd c.lookup h (some u) := by
  funext j
  obtain ⟨l⟩ := c
  induction l with
  | nil => simp [lookup] at ht
  | cons p l ih =>
    simp only [assign, List.map_cons, Map.upd_apply]
    rw [lookup_cons] at ht
    by_cases e : p.1 = h
    · subst e
      simp only [if_true, lookup_cons]
      by_cases e' : j = p.1
      · simp [e']
      · have hne : ¬ p.1 = j := fun a => e' a.symm
        simp only [hne, if_false, e']
        -- the tail is searched for another key
        clear ih ht
        induction l with
        | nil => rfl
        | cons q l ih =>
          simp only [List.map_cons, lookup_cons, ih]
          by_cases e2 : q.1 = j
          · have : ¬ q.1 = p.1 := fun a => hne (a.symm.trans e2)
            rw [if_neg this, if_pos e2]
          · rw [if_neg e2]
            split <;> rfl
    · simp only [e, if_false] at ht ⊢
      rw [lookup_cons, lookup_cons]
      have := ih ht
      simp only [assign, Map.upd_apply] at this
      rw [this]
      by_cases e' : j = h
      · have : ¬ p.1 = j := fun a => e (a.trans e')
        simp [e', e]
      · simp only [e', if_false]

theorem lookup_erase (c : HashMap Hi T) (h : Hi) :
    (c.erase h).lookup = Map.upd c.lookup h none := by
  funext j
  obtain ⟨l⟩ := c
  rw [Map.upd_apply]
  induction l with
  | nil => simp [erase, lookup]
  | cons p l ih =>
    simp only [erase] at ih ⊢
    by_cases e : p.1 = h
    · rw [List.filter_cons_of_neg (by simp [e]), ih, lookup_cons]
      by_cases e' : j = h
      · simp [e']
      · have : ¬ p.1 = j := fun a => e' (a.symm.trans e)
        simp [e', this]
    · rw [List.filter_cons_of_pos (by simp [e]), lookup_cons, lookup_cons, ih]
      by_cases e' : j = h
      · have : ¬ p.1 = j := fun a => e (a.trans e')
        simp [e', e]
      · simp [e']

theorem lookup_add (c : HashMap Hi T) (h : Hi) (t : T) :
    (c.add h t).lookup = Map.upd c.lookup h (some t) := by
  funext j
  rw [add, lookup_cons, Map.upd_apply]
  by_cases e : h = j
  · simp [e]
  · have : ¬ j = h := fun a => e a.symm
    simp [e, this]

theorem lookup_none {c : HashMap Hi T} {h : Hi} : c.lookup h = none ↔ h ∉ c.entries.map Prod.fst := by
  simp only [lookup, Option.map_eq_none_iff, List.find?_eq_none, List.mem_map]
  constructor
  · rintro a ⟨p, hp, e⟩
    have := a p hp
    simp [e] at this
  · intro a p hp
    simp only [decide_eq_true_eq]
    exact fun e => a ⟨p, hp, e⟩

theorem assign_inv {c : HashMap Hi T} (I : c.Inv) (h : Hi) (u : T) : (c.assign h u).Inv := by
  refine ⟨?_, by simpa [assign] using I.2⟩
  have : ((c.entries.map fun p => if p.1 = h then (p.1, u) else p).map Prod.fst) = c.entries.map Prod.fst := by
    rw [List.map_map]
    apply List.map_congr_left
    intro p _
    simp only [Function.comp]
    split <;> rfl
  simpa [NodupKeys, assign, this] using I.1

theorem assign_same {c : HashMap Hi T} (I : c.Inv) {h : Hi} {t : T} (ht : c.lookup h = some t) :
    c.assign h t = c := by
  obtain ⟨l⟩ := c
  obtain ⟨hn, -⟩ := I
  simp only [assign, HashMap.mk.injEq]
  conv_rhs => rw [← List.map_id l]
  apply List.map_congr_left
  intro p hp
  simp only [id]
  split
  · rename_i e
    subst e
    revert hn ht hp
    induction l with
    | nil => intro _ hp _; cases hp
    | cons q l ih =>
      intro hn hp ht
      simp only [NodupKeys, List.map_cons, List.nodup_cons] at hn
      rw [lookup_cons] at ht
      rcases List.mem_cons.1 hp with rfl | hp'
      · simp only [if_true, Option.some.injEq] at ht
        simp [← ht]
      · have hne : ¬ q.1 = p.1 := fun e => hn.1 (e ▸ List.mem_map_of_mem hp')
        rw [if_neg hne] at ht
        exact ih hn.2 hp' ht
  · rfl

theorem erase_nodup {c : HashMap Hi T} (I : c.Inv) (h : Hi) : NodupKeys (c.erase h).entries :=
  List.Nodup.sublist (List.Sublist.map _ List.filter_sublist) I.1

theorem lookup_eq_empty {c : HashMap Hi T} : (c.lookup : Map Hi T) = Map.empty ↔ c.entries = [] := by
  constructor
  · intro h
    rw [List.eq_nil_iff_forall_not_mem]
    intro p hp
    have := congrFun h p.1
    simp only [Map.empty_apply] at this
    exact lookup_none.1 this (List.mem_map_of_mem hp)
  · intro h
    funext j
    simp [lookup, h]

theorem replace_ok (c : HashMap Hi T) (h : Hi) (t : T) (o : Option T) (I : c.Inv) (ht : c.lookup h = some t) :
    CollRemOk Inv lookup c h o
      (if (c.replaceEntry h o).entries.isEmpty then none else some (c.replaceEntry h o, o.isNone)) := by
  have hl : ((c.replaceEntry h o).lookup : Map Hi T) = Map.upd c.lookup h o := by
    cases o with
    | none => exact lookup_erase c h
    | some u => exact lookup_assign c h t u ht
  split
  · rename_i he
    have he' := lookup_eq_empty.2 (List.isEmpty_iff.1 he)
    rw [hl] at he'
    cases o with
    | some u =>
      have := congrFun he' h
      simp at this
    | none => exact ⟨rfl, he'⟩
  · rename_i he
    have hne : (c.replaceEntry h o).entries ≠ [] := by simpa using he
    refine ⟨rfl, ⟨?_, hne⟩, hl⟩
    cases o with
    | none => exact erase_nodup I h
    | some u => exact (assign_inv I h u).1

variable [VebTree T Lo V]

theorem removeKey_ok (c : HashMap Hi T) (h : Hi) (t : T) (r : T → R (Option T × (Lo × V)))
    (o : Option T) (val : Lo × V) (I : c.Inv) (ht : c.lookup h = some t) (hr : r t = .ok (o, val)) :
    ∃ res, c.removeKey h r = .ok (res, val) ∧ CollRemOk Inv lookup c h o res := by
  refine ⟨_, ?_, replace_ok c h t o I ht⟩
  simp only [removeKey, ht, hr, R.ok_bind]
  split <;> rfl

theorem maybe_ok (c : HashMap Hi T) (h : Hi) (t : T) (r : T → R (Result (Option T × (Lo × V)) T))
    (o : Option T) (val : Lo × V) (I : c.Inv) (ht : c.lookup h = some t) (hr : r t = .ok (.Ok (o, val))) :
    ∃ res, c.maybeRemoveKey h r = .ok (.Ok (res, val)) ∧ CollRemOk Inv lookup c h o res := by
  refine ⟨_, ?_, replace_ok c h t o I ht⟩
  simp only [maybeRemoveKey, ht, hr, R.ok_bind, R.pure_eq]
  cases (c.replaceEntry h o).entries.isEmpty <;> rfl

instance : LawfulColl (HashMap Hi T) Hi T Lo V where
  Inv := Inv
  abs := lookup
  nonempty c I := by
    obtain ⟨l⟩ := c
    obtain ⟨-, hne⟩ := I
    cases l with
    | nil => exact absurd rfl hne
    | cons p l => exact ⟨p.1, Map.mem_of (by rw [lookup_cons, if_pos rfl])⟩
  create h t := by
    refine ⟨⟨[(h, t)]⟩, ?_, ⟨by simp [NodupKeys], by simp⟩, ?_⟩
    · show create h t = _
      simp [create, lookup]
    · funext j
      rw [lookup_cons, Map.single_apply]
      by_cases e : h = j
      · simp [e]
      · have : ¬ j = h := fun a => e a.symm
        simp [e, this, lookup]
  get c h I := rfl
  getMut_none c h I hn := by
    show getMut c h = _
    simp [getMut, hn]
  getMut_some c h t I ht := by
    refine ⟨_, by show getMut c h = _; simp only [getMut, ht]; rfl, fun u => ⟨assign_inv I h u, ?_⟩⟩
    exact lookup_assign c h t u ht
  insert_none c h l v I hn := by
    refine ⟨c.add h (VebTree.fromMonad l v), ?_, ⟨?_, by simp [add]⟩, lookup_add c h _⟩
    · show insertKey c h (l, v) = _
      simp only [insertKey, hn]; rfl
    · simp only [NodupKeys, add, List.map_cons, List.nodup_cons]
      exact ⟨lookup_none.1 hn, I.1⟩
  insert_some c h l v t t' o I ht hi := by
    refine ⟨c.assign h t', ?_, assign_inv I h t', lookup_assign c h t t' ht⟩
    show insertKey c h (l, v) = _
    simp only [insertKey, ht, hi]; rfl
  removeKey := removeKey_ok
  insert_panic c h l v t e I ht hi := by
    show insertKey c h (l, v) = _
    simp only [insertKey, ht, hi]; rfl
  removeKey_panic c h t r e I ht hr := by
    show removeKey c h r = _
    simp only [removeKey, ht, hr]; rfl
  absent := .unreachable
  removeKey_absent c h r I hn := by
    show removeKey c h r = _
    simp only [removeKey, hn]
  maybe_err' c h t r t' I ht hr := by
    refine ⟨c.assign h t', ?_, assign_inv I h t', lookup_assign c h t t' ht⟩
    show maybeRemoveKey c h r = _
    have hne : (c.assign h t').entries.isEmpty = false := by simpa using (assign_inv I h t').2
    simp only [maybeRemoveKey, ht, hr, R.ok_bind, R.pure_eq, replaceEntry, hne]
  maybe_panic c h t r e I ht hr := by
    show maybeRemoveKey c h r = _
    simp only [maybeRemoveKey, ht, hr]; rfl
  maybe_absent c h r I hn := by
    show maybeRemoveKey c h r = _
    simp only [maybeRemoveKey, hn]; rfl
  maybe_err c h t r I ht hr := by
    show maybeRemoveKey c h r = _
    have hne : c.entries.isEmpty = false := by simpa using I.2
    simp only [maybeRemoveKey, ht, hr, R.ok_bind, R.pure_eq, replaceEntry, assign_same I ht, hne]
  maybe_ok := maybe_ok

end HashMap

/-! ## Boxes -/

namespace Box
variable {C Hi T Lo V : Type} [DecidableEq Hi] [VebTree T Lo V] [TreeCollection C Hi T Lo V]
  [LC : LawfulColl C Hi T Lo V]

theorem collRem {c : Box C} {h : Hi} {o : Option T} {res : Option (C × Bool)}
    (hr : CollRemOk LC.Inv LC.abs c.val h o res) :
    CollRemOk (fun c : Box C => LC.Inv c.val) (fun c : Box C => LC.abs c.val) c h o
      (res.map fun p => (⟨p.1⟩, p.2)) := by
  obtain _ | ⟨c', b⟩ := res
  · exact hr
  · exact hr

instance : LawfulColl (Box C) Hi T Lo V where
  Inv c := LC.Inv c.val
  abs c := LC.abs c.val
  nonempty c I := LC.nonempty c.val I
  create h t := by
    obtain ⟨c, h1, h2⟩ := LC.create h t
    exact ⟨⟨c⟩, by simp [TreeCollection.create, h1], h2⟩
  get c h I := LC.get c.val h I
  getMut_none c h I hn := by simp [TreeCollection.getMut, LC.getMut_none c.val h I hn]
  getMut_some c h t I ht := by
    obtain ⟨put, h1, h2⟩ := LC.getMut_some c.val h t I ht
    exact ⟨_, by simp only [TreeCollection.getMut, h1]; rfl, h2⟩
  insert_none c h l v I hn := by
    obtain ⟨c', h1, h2⟩ := LC.insert_none c.val h l v I hn
    exact ⟨⟨c'⟩, by simp [TreeCollection.insertKey, h1], h2⟩
  insert_some c h l v t t' o I ht hi := by
    obtain ⟨c', h1, h2⟩ := LC.insert_some c.val h l v t t' o I ht hi
    exact ⟨⟨c'⟩, by simp [TreeCollection.insertKey, h1], h2⟩
  removeKey c h t r o val I ht hr := by
    obtain ⟨res, h1, h2⟩ := LC.removeKey c.val h t r o val I ht hr
    exact ⟨_, by simp only [TreeCollection.removeKey, h1]; rfl, collRem h2⟩
  insert_panic c h l v t e I ht hi := by
    simp only [TreeCollection.insertKey, LC.insert_panic c.val h l v t e I ht hi]; rfl
  removeKey_panic c h t r e I ht hr := by
    simp only [TreeCollection.removeKey, LC.removeKey_panic c.val h t r e I ht hr]; rfl
  absent := LC.absent
  removeKey_absent c h r I hn := by
    simp only [TreeCollection.removeKey, LC.removeKey_absent c.val h r I hn]; rfl
  maybe_err' c h t r t' I ht hr := by
    obtain ⟨c', h1, h2⟩ := LC.maybe_err' c.val h t r t' I ht hr
    exact ⟨⟨c'⟩, by simp [TreeCollection.maybeRemoveKey, h1], h2⟩
  maybe_panic c h t r e I ht hr := by
    simp only [TreeCollection.maybeRemoveKey, LC.maybe_panic c.val h t r e I ht hr]; rfl
  maybe_absent c h r I hn := by simp [TreeCollection.maybeRemoveKey, LC.maybe_absent c.val h r I hn]
  maybe_err c h t r I ht hr := by
    simp [TreeCollection.maybeRemoveKey, LC.maybe_err c.val h t r I ht hr]
  maybe_ok c h t r o val I ht hr := by
    obtain ⟨res, h1, h2⟩ := LC.maybe_ok c.val h t r o val I ht hr
    exact ⟨_, by simp only [TreeCollection.maybeRemoveKey, h1]; rfl, collRem h2⟩

end Box
end Veb
