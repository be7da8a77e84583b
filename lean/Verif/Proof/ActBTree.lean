import Verif.Proof.Act

/-!
# `BTreeMap` moves values around, whatever the code of the user does
-/

set_option autoImplicit false

namespace Veb.BTreeMap
variable {σ K V : Type} [ActOrd σ K]

/-- the values -/
def bvals (t : BTreeMap K V) : Multiset V := (t.entries.map Prod.snd : List V)

theorem vals_set {l : List (K × V)} {i : Nat} {e e' : K × V} (h : l[i]? = some e) :
    ∃ r : Multiset V, ((l.map Prod.snd : List V) : Multiset V) = e.2 ::ₘ r ∧
      (((l.set i e').map Prod.snd : List V) : Multiset V) = e'.2 ::ₘ r ∧
      (((l.eraseIdx i).map Prod.snd : List V) : Multiset V) = r := by
  induction l generalizing i with
  | nil => cases h
  | cons x l ih =>
    cases i with
    | zero => cases h; exact ⟨_, rfl, rfl, rfl⟩
    | succ i =>
      obtain ⟨r, h1, h2, h3⟩ := ih (i := i) h
      refine ⟨x.2 ::ₘ r, ?_, ?_, ?_⟩
      · rw [List.map_cons, ← Multiset.cons_coe, h1, Multiset.cons_swap]
      · rw [List.set_cons_succ, List.map_cons, ← Multiset.cons_coe, h2, Multiset.cons_swap]
      · rw [List.eraseIdx_cons_succ, List.map_cons, ← Multiset.cons_coe, h3]

theorem vals_insert (l : List (K × V)) (i : Nat) (e : K × V) :
    (((l.take i ++ e :: l.drop i).map Prod.snd : List V) : Multiset V) = e.2 ::ₘ ((l.map Prod.snd : List V) : Multiset V) := by
  have : (l.take i ++ e :: l.drop i).Perm (e :: l) := by
    refine List.perm_middle.trans ?_
    rw [List.take_append_drop]
  exact Multiset.coe_eq_coe.2 (this.map Prod.snd)

theorem mutIdx_ok (t : BTreeMap K V) (i : Nat) :
    MutV (fun _ : BTreeMap K V => True) (fun t => t.entries ≠ []) bvals t (t.mutIdx i) := by
  unfold mutIdx
  cases h : t.entries[i]? with
  | none => trivial
  | some e =>
    obtain ⟨r, h1, -, -⟩ := vals_set (e' := e) h
    refine ⟨r, h1, fun w => ⟨?_, ?_, fun _ => trivial⟩⟩
    · intro e0
      have := congrArg List.length e0
      rw [List.length_set] at this
      rw [List.eq_nil_of_length_eq_zero this] at h
      cases h
    · obtain ⟨r', h1', h2, -⟩ := vals_set (e' := (e.1, w)) h
      have : r' = r := by rw [h1] at h1'; exact (Multiset.cons_inj_right _).1 h1'.symm
      exact this ▸ h2
theorem before_ok {t : BTreeMap K V} (n : Nat) :
    MutV (fun _ : BTreeMap K V => True) (fun t => t.entries ≠ []) bvals t (lastBefore t.mutIdx n) := by
  cases n with
  | zero => trivial
  | succ n => exact mutIdx_ok t n
theorem first_ok {t : BTreeMap K V} (e : Nat × Nat) :
    MutV (fun _ : BTreeMap K V => True) (fun t => t.entries ≠ []) bvals t (firstIn t.mutIdx e) := by
  unfold firstIn
  split
  · exact mutIdx_ok t e.1
  · trivial

theorem mem_vals {t : BTreeMap K V} {e : K × V} (h : e ∈ t.entries) : e.2 ∈ bvals t :=
  Multiset.mem_coe.2 (List.mem_map_of_mem h)
theorem mem_at {t : BTreeMap K V} {i : Nat} {e : K × V} (h : t.entries[i]? = some e) : e.2 ∈ bvals t :=
  mem_vals (List.mem_of_getElem? h)

theorem entry_some {α : Type} {l : List α} {r : Search} {p : Nat × α} (h : r.entry l = some p) : l[p.1]? = some p.2 := by
  cases r with
  | gap i => cases h
  | found i =>
    change l[i]?.map (fun a => (i, a)) = some p at h
    cases e : l[i]? with
    | none => rw [e] at h; cases h
    | some a => rw [e] at h; cases h; exact e
theorem entry_map {α β : Type} {l : List α} (f : α → β) (r : Search) : r.entry (l.map f) = (r.entry l).map fun p => (p.1, f p.2) := by
  cases r with
  | gap i => rfl
  | found i =>
    change (l.map f)[i]?.map (fun a => (i, a)) = (l[i]?.map fun a => (i, a)).map _
    rw [List.getElem?_map]
    cases l[i]? <;> rfl
theorem entry_keys {t : BTreeMap K V} {r : Search} : r.entry t.keys = none ↔ r.entry t.entries = none := by
  rw [keys, entry_map, Option.map_eq_none_iff]

theorem set_ne {l : List (K × V)} (h : l ≠ []) (i : Nat) (e : K × V) : l.set i e ≠ [] := fun h0 =>
  h (List.eq_nil_of_length_eq_zero (by simpa using congrArg List.length h0))

theorem rest_of {t : BTreeMap K V} {l : List (K × V)} {e : K × V}
    (h : bvals t = e.2 ::ₘ ((l.map Prod.snd : List V) : Multiset V)) :
    Rest True (fun _ : BTreeMap K V => True) (fun t => t.entries ≠ []) bvals (bvals t)
      (if (⟨l⟩ : BTreeMap K V).entries.isEmpty then none else some ⟨l⟩) e.2 := by
  cases l with
  | nil =>
    refine ⟨optOk_none, .of_eq (fun _ => trivial) ?_⟩
    rw [h]; rfl
  | cons x l =>
    refine ⟨optOk_some.2 (List.cons_ne_nil _ _), .of_eq (fun _ => trivial) ?_⟩
    rw [h, add_comm]; rfl

/-- what `insert` should do with values -/
def InsOk (ins : BTreeMap K V → K → V → Act σ (BTreeMap K V × Option (K × V))) : Prop :=
  ∀ t k v, t.entries ≠ [] → Post (ins t k v) fun r =>
    r.1.entries ≠ [] ∧ Flow True True (bvals t + {v}) (bvals r.1 + oe r.2) ∧ ∀ e, r.2 = some e → e.2 ∈ bvals t

/-- `BTreeMap` with another `insert` -/
@[reducible] def treeWith (ins : BTreeMap K V → K → V → Act σ (BTreeMap K V × Option (K × V))) : ActTree σ (BTreeMap K V) K V :=
  { (inferInstance : ActTree σ (BTreeMap K V) K V) with insert := ins }

/-- What `BTreeMap` does with values, if `insert` does what it should. -/
@[reducible] def keepsWith (ins : BTreeMap K V → K → V → Act σ (BTreeMap K V × Option (K × V))) (hi : InsOk ins) :
    @Keeps σ (BTreeMap K V) K V (treeWith ins) :=
  letI : ActTree σ (BTreeMap K V) K V := treeWith ins
  { W t := t.entries ≠ []
    vals := bvals
    ok _ := True
    fixed := True
    okOf _ _ _ := trivial
    fromMonad k v := ⟨List.cons_ne_nil _ _, rfl⟩
    isMonad t I := .ret (by rw [decide_eq_true_iff]; simp [bvals])
    lenHint t I := .ret fun _ => ⟨by simp [bvals], by rintro n ⟨⟩; simp [bvals]⟩
    intoMonad t I := by
      show Post (if decide (t.entries.length = 1) = true then _ else _) _
      obtain ⟨_ | ⟨x, _ | ⟨y, l⟩⟩⟩ := t
      · exact absurd rfl I
      · exact .ret ⟨trivial, rfl⟩
      · exact .ret ⟨I, rfl, fun _ => trivial, by simp [bvals]⟩
    minVal t I := Post.exp.mono fun e h => mem_vals (List.mem_of_head? h)
    minValMut t I := Post.exp.mono fun e h => h ▸ mutIdx_ok t 0
    maxVal t I := Post.exp.mono fun e h => mem_vals (List.mem_of_getLast? h)
    maxValMut t I := Post.exp.mono fun e h => h ▸ mutIdx_ok t _
    find t k I := by
      show Post (t.findA k) _
      refine .then_ fun r => .ret fun e h => ?_
      cases hr : r.entry t.entries with
      | none => rw [hr] at h; cases h
      | some p => rw [hr] at h; cases h; exact mem_at (entry_some hr)
    findMut t k I := .then_ fun r => .ret (first_ok r)
    predecessor t k I := .then_ fun n => .ret fun e h => by
      cases n with
      | zero => cases h
      | succ n => exact mem_at h
    predecessorMut t k I := .then_ fun n => .ret (before_ok n)
    successor t k I := .then_ fun n => .ret fun e h => mem_at h
    successorMut t k I := .then_ fun n => .ret (mutIdx_ok t n)
    insert := hi
    remove t k I := by
      show Post (t.removeA k) _
      refine Post.bind (Q := fun b => b = decide (t.entries.length = 1)) (.ret rfl) fun b hb => .then_ fun r => ?_
      subst hb
      cases hr : r.entry t.entries with
      | none => exact .ret ⟨I, .of_eq (fun _ => trivial) rfl⟩
      | some p =>
        obtain ⟨i, e⟩ := p
        obtain ⟨x, h1, -, h3⟩ := vals_set (e' := e) (entry_some hr)
        by_cases hl : t.entries.length = 1
        · rw [decide_eq_true hl]
          refine .ret ⟨optOk_none, .of_eq (fun _ => trivial) ?_⟩
          have : x = 0 := by
            have := congrArg Multiset.card h1
            simp only [Multiset.coe_card, List.length_map, Multiset.card_cons, hl] at this
            exact Multiset.card_eq_zero.1 (by omega)
          subst this
          show 0 + {e.2} = bvals t
          rw [show bvals t = _ from h1]; rfl
        · rw [decide_eq_false hl]
          refine .ret ⟨optOk_some.2 fun h0 => ?_, .of_eq (fun _ => trivial) ?_⟩
          · have h2 := congrArg List.length h0
            have h4 := (List.getElem?_eq_some_iff.1 (entry_some hr)).1
            rw [List.length_eraseIdx_of_lt h4] at h2
            have : t.entries.length ≠ 0 := fun h => I (List.eq_nil_of_length_eq_zero h)
            simp only [List.length_nil] at h2
            omega
          · show bvals ⟨t.entries.eraseIdx i⟩ + {e.2} = bvals t
            rw [show bvals t = _ from h1, show bvals ⟨t.entries.eraseIdx i⟩ = _ from h3, add_comm]
            rfl
    removeMin t I := by
      show Post t.removeMinA _
      refine Post.exp.bind fun e h => .ret (rest_of ?_)
      obtain ⟨_ | ⟨x, l⟩⟩ := t
      · cases h
      · cases h; rfl
    removeMax t I := by
      show Post t.removeMaxA _
      refine Post.exp.bind fun e h => .ret (rest_of ?_)
      have : t.entries = t.entries.dropLast ++ [e] := (List.dropLast_append_getLast? e h).symm
      show ((t.entries.map Prod.snd : List V) : Multiset V) = _
      conv_lhs => rw [this]
      rw [List.map_append, Multiset.cons_coe]
      exact Multiset.coe_eq_coe.2 (List.perm_append_comm (l₂ := [e.2])) }

theorem ins_ok (hs : OrdSteady σ K) : InsOk (insertA (σ := σ) (K := K) (V := V)) := by
  intro t k v I s a s' e
  change (ActOrd.search t.keys k s >>= _) = _ at e
  cases h1 : ActOrd.search t.keys k s with
  | error p => rw [h1] at e; cases e
  | ok p =>
    obtain ⟨r, s1⟩ := p
    rw [h1] at e
    change (match r.entry t.entries with | some (i, k', old) => _ | none => _ : Act σ _) s1 = _ at e
    cases hr : r.entry t.entries with
    | some p =>
      rw [hr] at e
      obtain ⟨i, k', old⟩ := p
      cases e
      obtain ⟨x, h2, h3, -⟩ := vals_set (e' := (k', v)) (entry_some hr)
      refine ⟨set_ne I _ _, .of_eq (fun _ => trivial) ?_, ?_⟩
      · change bvals ⟨_⟩ + {old} = bvals t + {v}
        rw [show bvals t = old ::ₘ x from h2, show bvals ⟨t.entries.set i (k', v)⟩ = v ::ₘ x from h3,
          ← Multiset.singleton_add, ← Multiset.singleton_add]
        abel
      · rintro _ ⟨⟩
        exact mem_at (e := (k', old)) (entry_some hr)
    | none =>
      rw [hr] at e
      change (ActOrd.search t.keys k s1 >>= _) = _ at e
      cases h2 : ActOrd.search t.keys k s1 with
      | error p => rw [h2] at e; cases e
      | ok p =>
        obtain ⟨r', s2⟩ := p
        have h3 := entry_keys.1 (hs _ _ _ _ _ _ _ h1 (entry_keys.2 hr) h2)
        rw [h2] at e
        change (match r'.entry t.entries with | some (i, k', _) => _ | none => _ : Act σ _) s2 = _ at e
        rw [h3] at e
        cases e
        refine ⟨by simp, .of_eq (fun _ => trivial) ?_, by rintro _ ⟨⟩⟩
        change bvals ⟨_⟩ + 0 = _
        rw [show bvals ⟨_⟩ = _ from vals_insert t.entries r'.place (k, v), ← Multiset.singleton_add]
        change {v} + bvals t + 0 = bvals t + {v}
        abel

/-- What `BTreeMap` does with values, if `Ord` is steady. -/
@[reducible] def keeps (hs : OrdSteady σ K) : Keeps σ (BTreeMap K V) K V := keepsWith insertA (ins_ok hs)

end Veb.BTreeMap
