import Verif.SpecRescue
import Verif.Proof.Entries
import Verif.Proof.Look

/-!
What a tree that has only been inserted into stores: the keys it shows, and among the entries stored those it shows.
-/

set_option autoImplicit false

namespace Veb
variable {T K V : Type} [LinearOrder K] [VebTree T K V] [P : PhysTree T K V] [L : LookTree T K V]

theorem keys_setAt {l : SL K V} {k : K} (e : Option (K × V)) (w : V) (h : l.keys k) : (SL.setAt l e w).keys k := by
  obtain ⟨v, hv⟩ := h
  obtain _ | e := e
  · exact ⟨v, hv⟩
  · simp only [SL.setAt, SL.set, SL.keys, List.mem_map]
    by_cases hk : k = e.1
    · exact ⟨w, _, hv, by rw [if_pos hk, hk]⟩
    · exact ⟨v, _, hv, by rw [if_neg hk]⟩

/-- One call brings no key in that is not shown. -/
theorem shown_step {n : Nat} {t : Option T} (h : OptW n t) {l : SL K V} (hl : LookRel t l) (op : Op K V) (hk : op.keeps = true)
    (hn : P.limited → n + insertions [op] ≤ usizeMax) {t' : Option T} {o : Out K V} (hs : Exec.step t op = .ok (t', o))
    (hb : ∀ k ∈ obag t, l.keys k) : ∀ k ∈ obag t', (SL.step l op).1.keys k := by
  obtain ⟨e, -⟩ := ledger_step h op hn hs
  obtain ⟨r, ho⟩ := look_step hl op hk hs
  intro j hj
  have same : obag t' = obag t → l.keys j := fun e => hb j (e ▸ hj)
  cases op with
  | insert k v =>
    have ins : ∀ i, i = k ∨ l.keys i → (SL.insert l k v).keys i := by
      rintro i (rfl | ⟨w, hw⟩)
      · exact ⟨v, by simp [SL.insert]⟩
      · rcases lt_trichotomy i k with hi | rfl | hi
        · exact ⟨w, by simp [SL.insert, hw, hi]⟩
        · exact ⟨v, by simp [SL.insert]⟩
        · exact ⟨w, by simp [SL.insert, hw, hi]⟩
    refine ins j ?_
    rw [e] at hj
    rcases o with (_ | e') | b
    · rcases Multiset.mem_cons.1 hj with rfl | hj
      · exact .inl rfl
      · exact .inr (hb j hj)
    · rcases Multiset.mem_cons.1 hj with rfl | hj
      · exact .inl rfl
      · exact .inr (hb j (Multiset.mem_of_mem_erase hj))
    · exact .inr (hb j hj)
  | find k => exact same (e.trans (by cases o <;> rfl))
  | predecessor k => exact same (e.trans (by cases o <;> rfl))
  | successor k => exact same (e.trans (by cases o <;> rfl))
  | minVal => exact same (e.trans (by cases o <;> rfl))
  | maxVal => exact same (e.trans (by cases o <;> rfl))
  | isMonad => exact same (e.trans (by cases o <;> rfl))
  | findSet k w => exact keys_setAt _ _ (same (e.trans (by cases o <;> rfl)))
  | minSet w => exact keys_setAt _ _ (same (e.trans (by cases o <;> rfl)))
  | intoMonad =>
    have ho := ho rfl
    simp only [SL.step] at ho r ⊢
    split at ho
    · next h1 =>
      rw [if_pos h1] at r
      cases t' with
      | none => exact absurd hj (Multiset.notMem_zero j)
      | some t' =>
        obtain ⟨k, hk⟩ := L.nonempty t' r.1
        rw [r.2.nil_iff.1 rfl] at hk
        exact absurd hk (Map.mem_empty k)
    · next h1 =>
      rw [if_neg h1]
      subst ho
      exact same e
  | _ => cases hk

theorem shown_run {n : Nat} {t : Option T} (h : OptW n t) {l : SL K V} (hl : LookRel t l) (ops : List (Op K V))
    (hk : ∀ op ∈ ops, op.keeps = true) (hn : P.limited → n + insertions ops ≤ usizeMax) {t' : Option T} {os : List (Out K V)}
    (hr : Exec.run t ops = .ok (t', os)) (hb : ∀ k ∈ obag t, l.keys k) : ∀ k ∈ obag t', (SL.run l ops).1.keys k := by
  induction ops generalizing n t l os with
  | nil => cases hr; exact hb
  | cons op ops ih =>
    rw [insertions_cons] at hn
    obtain ⟨t1, o, h1, h2⟩ := phys_step h op fun x => by have := hn x; omega
    obtain ⟨t2, os', h3, -⟩ := phys_run h2 ops fun x => by have := hn x; omega
    have h4 : Exec.run t (op :: ops) = .ok (t2, o :: os') := by simp [Exec.run, h1, h3]
    rw [h4] at hr
    cases hr
    have ho := hk op List.mem_cons_self
    exact ih h2 (look_step hl op ho h1).1 (fun op h => hk op (List.mem_cons_of_mem _ h)) (fun x => by have := hn x; omega) h3
      (shown_step h hl op ho (fun x => by have := hn x; omega) h1 hb)

end Veb
