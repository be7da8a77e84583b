import Verif.Proof.AuditRun

/-!
# `BTreeMap` over an `Ord` that changes its mind
-/

set_option autoImplicit false
set_option linter.unusedSectionVars false

namespace Veb.BTreeMap
variable {σ K V : Type} [ActOrd σ K] {Us : Panic → Prop}

/-- the values of an optional map -/
def ovals (t : Option (BTreeMap K V)) : Multiset V := ov bvals t
/-- no map is empty -/
def Full (t : Option (BTreeMap K V)) : Prop := ∀ u, t = some u → u.entries ≠ []

/-- what one call does with values -/
structure Fair (t : Option (BTreeMap K V)) (op : Op K V) (r : Option (BTreeMap K V) × Out K V) : Prop where
  full : Full r.1
  le : ovals r.1 + (takenStep op r.2).map Prod.snd ≤ ovals t + (givenStep op r.2).map Prod.snd
  mem : ∀ e, r.2.entry? = some e → e.2 ∈ ovals t

/-- an `insert` for the calls of other methods -/
def front (t : BTreeMap K V) (k : K) (v : V) : Act σ (BTreeMap K V × Option (K × V)) := pure (⟨(k, v) :: t.entries⟩, none)
theorem front_ok : InsOk (front (σ := σ) (K := K) (V := V)) := fun t k v I => .ret ⟨List.cons_ne_nil _ _,
  .of_eq (fun _ => trivial) (by
    show v ::ₘ bvals t + 0 = bvals t + {v}
    rw [← Multiset.singleton_add]; abel), by rintro _ ⟨⟩⟩
theorem front_aud {E : Panic → Prop} (t : BTreeMap K V) (k : K) (v : V) : Aud E (front (σ := σ) t k v) fun _ => True := .ret trivial

theorem any_insert (t : BTreeMap K V) (k : K) (v : V) (I : t.entries ≠ []) :
    Post (t.insertA (σ := σ) k v) fun r => Fair (some t) (.insert k v) (some r.1, .kv r.2) := by
  have one : ∀ {r : Search} {i : Nat} {k' : K} {old : V}, r.entry t.entries = some (i, (k', old)) → ∀ w : V,
      ∃ x, bvals t = old ::ₘ x ∧ bvals ⟨t.entries.set i (k', w)⟩ = w ::ₘ x := fun hr w => by
    obtain ⟨x, h2, h3, -⟩ := vals_set (e' := (_, w)) (entry_some hr)
    exact ⟨x, h2, h3⟩
  refine .then_ fun r => ?_
  cases hr : r.entry t.entries with
  | some p =>
    obtain ⟨i, k', old⟩ := p
    obtain ⟨x, h2, h3⟩ := one hr v
    refine .ret ⟨by rintro _ ⟨⟩; exact set_ne I _ _, ?_, ?_⟩
    · change bvals ⟨_⟩ + {old} ≤ bvals t + {v}
      rw [h2, h3, ← Multiset.singleton_add, ← Multiset.singleton_add]
      exact le_of_eq (by abel)
    · rintro _ ⟨⟩
      exact mem_at (e := (k', old)) (entry_some hr)
  | none =>
    refine .then_ fun r => ?_
    cases hr : r.entry t.entries with
    | some p =>
      obtain ⟨i, k', old⟩ := p
      obtain ⟨x, h2, h3⟩ := one hr v
      refine .ret ⟨by rintro _ ⟨⟩; exact set_ne I _ _, ?_, by rintro _ ⟨⟩⟩
      change bvals ⟨_⟩ + 0 ≤ bvals t + {v}
      rw [h2, h3, add_zero, ← Multiset.singleton_add, ← Multiset.singleton_add, add_comm]
      exact add_le_add_left (Multiset.le_add_left _ _) _
    | none =>
      refine .ret ⟨by rintro _ ⟨⟩; simp, ?_, by rintro _ ⟨⟩⟩
      change bvals ⟨_⟩ + 0 ≤ bvals t + {v}
      rw [show bvals ⟨_⟩ = _ from vals_insert t.entries r.place (k, v), ← Multiset.singleton_add]
      exact le_of_eq (by show {v} + bvals t + 0 = _; abel)

theorem any_step (h : OrdPanics σ K Us) {t : Option (BTreeMap K V)} (I : Full t) (op : Op K V) :
    Aud (fun p => Us p ∨ RangePanics p) (ActExec.step (σ := σ) t op) (Fair t op) := by
  have main : (∀ k v, op ≠ .insert k v) → Aud (fun p => Us p ∨ RangePanics p) (ActExec.step (σ := σ) t op) (Fair t op) := by
    intro hop
    let A : ActTree σ (BTreeMap K V) K V := treeWith front
    let P : Keeps σ (BTreeMap K V) K V := keepsWith front front_ok
    let N : Audit Us False σ (BTreeMap K V) K V := auditWith h front front_ok front_aud False
    have := (aud_step (N := N) (n := 0) (t := t) ⟨I, fun _ _ => trivial⟩ False.elim op).and (moved_step (P := P) I op)
    have := this.mono (Q' := Fair t op) fun r hr => ⟨hr.2.good, hr.2.flow.le, hr.2.mem⟩
    cases op with
    | insert k v => exact absurd rfl (hop k v)
    | _ => cases t <;> exact this
  cases op with
  | insert k v =>
    obtain _ | t := t
    · refine .ret ⟨by rintro _ ⟨⟩; exact List.cons_ne_nil _ _, ?_, by rintro _ ⟨⟩⟩
      show ({v} : Multiset V) + 0 ≤ 0 + {v}
      exact le_of_eq (add_comm _ _)
    · refine ((ins_aud h t k v).and (any_insert t k v (I t rfl))).bind fun r hr => .ret hr.2
  | _ => exact main (by rintro _ _ ⟨⟩)

theorem any_run (h : OrdPanics σ K Us) {t : Option (BTreeMap K V)} (I : Full t) (ops : List (Op K V)) :
    Aud (fun p => Us p ∨ RangePanics p) (ActExec.run (σ := σ) t ops) fun r => Full r.1 ∧
      ovals r.1 + takenVals ops r.2 ≤ ovals t + givenVals ops r.2 := by
  induction ops generalizing t with
  | nil => exact .ret ⟨I, le_rfl⟩
  | cons op ops ih =>
    refine (any_step h I op).bind fun r hr => ?_
    obtain ⟨t1, o⟩ := r
    refine (ih hr.full).bind fun r h2 => .ret ⟨h2.1, ?_⟩
    obtain ⟨t2, os⟩ := r
    have e1 : givenVals (op :: ops) (o :: os) = (givenStep op o).map Prod.snd + givenVals ops os := Multiset.map_add _ _ _
    have e2 : takenVals (op :: ops) (o :: os) = (takenStep op o).map Prod.snd + takenVals ops os := Multiset.map_add _ _ _
    dsimp only
    rw [e1, e2]
    have l1 := hr.le
    have l2 := h2.2
    dsimp only at l1 l2
    calc ovals t2 + ((takenStep op o).map Prod.snd + takenVals ops os)
        = ovals t2 + takenVals ops os + (takenStep op o).map Prod.snd := by abel
      _ ≤ ovals t1 + givenVals ops os + (takenStep op o).map Prod.snd := by gcongr
      _ = ovals t1 + (takenStep op o).map Prod.snd + givenVals ops os := by abel
      _ ≤ ovals t + (givenStep op o).map Prod.snd + givenVals ops os := by gcongr
      _ = _ := by abel

theorem no_panics : OrdPanics σ K fun _ => True :=
  ⟨fun _ _ _ _ _ => trivial, fun _ _ _ _ _ => trivial, fun _ _ _ _ _ => trivial, fun _ _ _ _ _ => .inl trivial⟩

end Veb.BTreeMap
