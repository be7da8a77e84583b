import Verif.Proof.NoPanic
import Verif.Proof.Cap
import Verif.Proof.Hist
import Verif.SpecLedger

/-!
The stored keys are the ones accounted for.
-/

set_option autoImplicit false
set_option linter.unusedSectionVars false

namespace Veb

theorem Covered.phys {T K V : Type} [LinearOrder K] [VebTree T K V] {ops : List (Op K V)} (h : Covered T ops) :
    ∃ P : PhysTree T K V, P.limited → insertions ops ≤ usizeMax := by
  cases h with
  | counted h hn => obtain ⟨P⟩ := h.phys; exact ⟨P, fun _ => hn⟩
  | uncounted h => obtain ⟨P, hP⟩ := h.phys; exact ⟨P, fun h => absurd h hP⟩
  | bounded h => obtain ⟨P, hP, -⟩ := h.phys; exact ⟨P, fun h => absurd h hP⟩

variable {T K V : Type} [LinearOrder K] [VebTree T K V] [P : PhysTree T K V]

/-- stored keys of an optional tree -/
def obag : Option T → Multiset K
  | none => 0
  | some t => P.bag t

theorem InsRel.ledger {k : K} {v : V} {b b' : Multiset K} {o : Option (K × V)} (h : InsRel k b b' o) :
    b' = ledgerStep b (.insert k v) (.kv o) := by
  cases o with
  | none => exact h
  | some e => obtain ⟨r, rfl, rfl⟩ := h; simp [ledgerStep]

theorem RestRel.obag_eq {t : T} {k : K} {o : Option T} (h : RestRel P.W P.bag (P.bag t) k o) :
    obag o = (P.bag t).erase k := by
  cases o with
  | none => rw [show P.bag t = {k} from h, Multiset.erase_singleton]; rfl
  | some t' => rw [h.2, Multiset.erase_cons_head]; rfl

theorem obag_mut {t : T} (w : V) {r : Option (K × V × (V → T))} (hr : MutPhys P.W P.bag t r) :
    obag (Exec.writeOpt t w r).1 = P.bag t ∧ ∀ j, (Exec.writeOpt t w r).2.key? = some j → j ∈ P.bag t := by
  obtain _ | ⟨k, v, put⟩ := r
  · exact ⟨rfl, fun j hj => by cases hj⟩
  · exact ⟨(hr.2 w).2, fun j hj => by cases hj; exact hr.1⟩

/-- the books balance over one step, and every key reported was stored (or is the argument) -/
theorem ledger_step {n : Nat} {t : Option T} (h : OptW n t) (op : Op K V)
    (hl : P.limited → n + insertions [op] ≤ usizeMax) {t' : Option T} {o : Out K V}
    (hs : Exec.step t op = .ok (t', o)) :
    obag t' = ledgerStep (obag t) op o ∧ ∀ j, o.key? = some j → j ∈ obag t := by
  obtain _ | t := t
  · cases op with
    | insert k v => cases hs; exact ⟨(P.fromMonad k v).2, fun j hj => by cases hj⟩
    | _ => cases hs; exact ⟨rfl, fun j hj => by cases hj⟩
  · obtain ⟨I, hn⟩ := h
    have same : ∀ {op : Op K V} {e : Option (K × V)}, ledgerStep (P.bag t) op (.kv e) = P.bag t →
        (∀ x, e = some x → x.1 ∈ P.bag t) → 
        obag (some t) = ledgerStep (obag (some t)) op (.kv e) ∧
          ∀ j, (Out.kv e : Out K V).key? = some j → j ∈ obag (some t) := by
      intro op e h1 h2
      refine ⟨h1.symm, fun j hj => ?_⟩
      obtain _ | e := e
      · cases hj
      · cases hj; exact h2 _ rfl
    have rest : ∀ {op : Op K V} {k : K} {v : V} {o : Option T}, RestRel P.W P.bag (P.bag t) k o →
        ledgerStep (P.bag t) op (.kv (some (k, v))) = (P.bag t).erase k →
        obag o = ledgerStep (obag (some t)) op (.kv (some (k, v))) ∧
          ∀ j, (Out.kv (some (k, v)) : Out K V).key? = some j → j ∈ obag (some t) := by
      intro op k v o h1 h2
      refine ⟨h1.obag_eq.trans h2.symm, fun j hj => ?_⟩
      cases hj
      cases o with
      | none => rw [obag, show P.bag t = {k} from h1]; exact Multiset.mem_singleton_self _
      | some t' => rw [obag, h1.2]; exact Multiset.mem_cons_self _ _
    cases op with
    | insert k v =>
      obtain ⟨t1, o1, h1, h2, h3, -, -⟩ := P.insert t k v I fun hlim => by
        have := hl hlim
        simp only [insertions, List.countP_singleton, if_true] at this
        omega
      simp only [Exec.step, Exec.stepTree, h1] at hs
      cases hs
      refine ⟨h3.ledger, fun j hj => ?_⟩
      obtain _ | e := o1
      · cases hj
      · cases hj
        obtain ⟨r, hr, -⟩ := h3
        rw [obag, hr]; exact Multiset.mem_cons_self _ _
    | remove k =>
      rcases P.remove t k I with ⟨h1, -⟩ | ⟨o, v, h1, h2⟩
      · simp only [Exec.step, Exec.stepTree, h1] at hs
        cases hs
        exact same rfl (by simp)
      · simp only [Exec.step, Exec.stepTree, h1] at hs
        cases hs
        exact rest h2 rfl
    | removeMin =>
      obtain ⟨o, k, v, -, h1, h2⟩ := P.removeMin t I
      simp only [Exec.step, Exec.stepTree, h1] at hs
      cases hs
      exact rest h2 rfl
    | removeMax =>
      obtain ⟨o, k, v, -, h1, h2⟩ := P.removeMax t I
      simp only [Exec.step, Exec.stepTree, h1] at hs
      cases hs
      exact rest h2 rfl
    | find k =>
      obtain ⟨r, h1, h2⟩ := P.find t k I
      simp only [Exec.step, Exec.stepTree, h1] at hs
      cases hs
      exact same (by cases r <;> rfl) h2
    | predecessor k =>
      obtain ⟨r, h1, h2⟩ := P.predecessor t k I
      simp only [Exec.step, Exec.stepTree, h1] at hs
      cases hs
      exact same (by cases r <;> rfl) h2
    | successor k =>
      obtain ⟨r, h1, h2⟩ := P.successor t k I
      simp only [Exec.step, Exec.stepTree, h1] at hs
      cases hs
      exact same (by cases r <;> rfl) h2
    | minVal =>
      obtain ⟨k, v, h1, h2⟩ := P.minVal t I
      simp only [Exec.step, Exec.stepTree, h1] at hs
      cases hs
      exact same rfl (by rintro _ ⟨⟩; exact h2)
    | maxVal =>
      obtain ⟨k, v, h1, h2⟩ := P.maxVal t I
      simp only [Exec.step, Exec.stepTree, h1] at hs
      cases hs
      exact same rfl (by rintro _ ⟨⟩; exact h2)
    | isMonad =>
      obtain ⟨b, h1, -⟩ := P.isMonad t I
      simp only [Exec.step, Exec.stepTree, h1] at hs
      cases hs
      exact ⟨rfl, fun j hj => by cases hj⟩
    | intoMonad =>
      rcases P.intoMonad t I with ⟨k, v, h1, h2⟩ | ⟨h1, -⟩
      · simp only [Exec.step, Exec.stepTree, h1] at hs
        cases hs
        exact rest (o := none) h2 rfl
      · simp only [Exec.step, Exec.stepTree, h1] at hs
        cases hs
        exact same rfl (by simp)
    | findSet k w =>
      obtain ⟨r, h1, h2⟩ := P.findMut t k I
      simp only [Exec.step, Exec.stepTree, h1] at hs
      have h3 := obag_mut w h2
      have hs : Exec.writeOpt t w r = (t', o) := by simpa using hs
      rw [hs] at h3
      exact ⟨h3.1.trans (by cases o <;> rfl), h3.2⟩
    | predecessorSet k w =>
      obtain ⟨r, h1, h2⟩ := P.predecessorMut t k I
      simp only [Exec.step, Exec.stepTree, h1] at hs
      have h3 := obag_mut w h2
      have hs : Exec.writeOpt t w r = (t', o) := by simpa using hs
      rw [hs] at h3
      exact ⟨h3.1.trans (by cases o <;> rfl), h3.2⟩
    | successorSet k w =>
      obtain ⟨r, h1, h2⟩ := P.successorMut t k I
      simp only [Exec.step, Exec.stepTree, h1] at hs
      have h3 := obag_mut w h2
      have hs : Exec.writeOpt t w r = (t', o) := by simpa using hs
      rw [hs] at h3
      exact ⟨h3.1.trans (by cases o <;> rfl), h3.2⟩
    | minSet w =>
      obtain ⟨r, h1, h2⟩ := P.minValMut t I
      simp only [Exec.step, Exec.stepTree, h1] at hs
      have h3 := obag_mut w h2
      have hs : Exec.writeOpt t w (some r) = (t', o) := by simpa using hs
      rw [hs] at h3
      exact ⟨h3.1.trans (by cases o <;> rfl), h3.2⟩
    | maxSet w =>
      obtain ⟨r, h1, h2⟩ := P.maxValMut t I
      simp only [Exec.step, Exec.stepTree, h1] at hs
      have h3 := obag_mut w h2
      have hs : Exec.writeOpt t w (some r) = (t', o) := by simpa using hs
      rw [hs] at h3
      exact ⟨h3.1.trans (by cases o <;> rfl), h3.2⟩

theorem ledger_run {n : Nat} {t : Option T} (h : OptW n t) (ops : List (Op K V))
    (hl : P.limited → n + insertions ops ≤ usizeMax) {t' : Option T} {os : List (Out K V)}
    (hr : Exec.run t ops = .ok (t', os)) : obag t' = ledger (obag t) ops os := by
  induction ops generalizing n t os with
  | nil => cases hr; rfl
  | cons op ops ih =>
    rw [insertions_cons] at hl
    obtain ⟨t1, o, h1, h2⟩ := phys_step h op fun x => by have := hl x; omega
    obtain ⟨t2, os', h3, -⟩ := phys_run h2 ops fun x => by have := hl x; omega
    have h4 : Exec.run t (op :: ops) = .ok (t2, o :: os') := by simp [Exec.run, h1, h3]
    rw [h4] at hr
    cases hr
    rw [ledger, ih h2 (fun x => by have := hl x; omega) h3,
      (ledger_step h op (fun x => by have := hl x; omega) h1).1]

theorem drain_min {t : Option T} {n : Nat} (h : OptW n t) : ∃ es : List (K × V),
    Exec.run t (List.replicate es.length .removeMin) = .ok (none, es.map fun e => .kv (some e)) ∧
      ((es.map Prod.fst : List K) : Multiset K) = obag t := by
  induction hn : (obag t).card using Nat.strong_induction_on generalizing t with
  | _ m ih =>
    obtain _ | t := t
    · exact ⟨[], rfl, rfl⟩
    · obtain ⟨o, k, v, -, h1, h2⟩ := P.removeMin t h.1
      have hc : P.bag t = k ::ₘ obag o := by
        cases o with
        | none => exact h2
        | some t' => exact h2.2
      obtain ⟨es, h3, h4⟩ := ih _ (by rw [← hn, obag, hc, Multiset.card_cons]; omega) (optW_rest h.2 h2) rfl
      refine ⟨(k, v) :: es, ?_, ?_⟩
      · simp [List.replicate_succ, Exec.run, Exec.step, Exec.stepTree, h1, Exec.removed, h3]
      · rw [obag, hc, ← h4]; rfl

theorem drain_max {t : Option T} {n : Nat} (h : OptW n t) : ∃ es : List (K × V),
    Exec.run t (List.replicate es.length .removeMax) = .ok (none, es.map fun e => .kv (some e)) ∧
      ((es.map Prod.fst : List K) : Multiset K) = obag t := by
  induction hn : (obag t).card using Nat.strong_induction_on generalizing t with
  | _ m ih =>
    obtain _ | t := t
    · exact ⟨[], rfl, rfl⟩
    · obtain ⟨o, k, v, -, h1, h2⟩ := P.removeMax t h.1
      have hc : P.bag t = k ::ₘ obag o := by
        cases o with
        | none => exact h2
        | some t' => exact h2.2
      obtain ⟨es, h3, h4⟩ := ih _ (by rw [← hn, obag, hc, Multiset.card_cons]; omega) (optW_rest h.2 h2) rfl
      refine ⟨(k, v) :: es, ?_, ?_⟩
      · simp [List.replicate_succ, Exec.run, Exec.step, Exec.stepTree, h1, Exec.removed, h3]
      · rw [obag, hc, ← h4]; rfl

/-! ### no key is lost unless an end is popped -/

theorem mem_setAt (l : SL K V) (e : Option (K × V)) (w : V) (k : K) :
    (SL.setAt l e w).keys k → l.keys k := by
  rintro ⟨v, hv⟩
  obtain _ | e := e
  · exact ⟨v, hv⟩
  · simp only [SL.setAt, SL.set, List.mem_map] at hv
    obtain ⟨p, hp, he⟩ := hv
    split at he
    · next h =>
      cases he
      exact ⟨p.2, by rw [← h]; exact hp⟩
    · subst he; exact ⟨_, hp⟩

theorem kept_step {n : Nat} {t : Option T} (h : OptW n t) (op : Op K V) (hp : noPops [op] = true)
    (hl : P.limited → n + insertions [op] ≤ usizeMax) {t' : Option T} {o : Out K V}
    (hs : Exec.step t op = .ok (t', o)) {l : SL K V} (hsort : l.Sorted)
    (hk : ∀ k, l.keys k → k ∈ obag t) :
    ∀ k, (SL.step l op).1.keys k → k ∈ obag t' := by
  have hb := (ledger_step h op hl hs).1
  cases op with
  | removeMin => cases hp
  | removeMax => cases hp
  | insert k v =>
    have h1 : ∀ j, j = k ∨ j ∈ obag t → j ∈ obag t' := by
      obtain _ | t := t
      · cases hs
        rintro j (rfl | hj)
        · rw [obag, (P.fromMonad _ v).2]; exact Multiset.mem_singleton_self _
        · exact absurd hj (Multiset.notMem_zero j)
      · obtain ⟨t1, o1, h1, h2, h3, -, h5⟩ := P.insert t k v h.1 fun hlim => by
          have := hl hlim
          simp only [insertions, List.countP_singleton, if_true] at this
          have := h.2
          omega
        simp only [Exec.step, Exec.stepTree, h1] at hs
        cases hs
        change ∀ j, j = k ∨ j ∈ P.bag t → j ∈ P.bag t1
        intro j hj
        obtain _ | e := o1
        · rw [show P.bag t1 = _ from h3, Multiset.mem_cons]; exact hj
        · obtain ⟨r, hr1, hr2⟩ := h3
          rw [hr1, Multiset.mem_cons] at hj
          rcases hj with rfl | rfl | hj
          · rw [hr2]; exact Multiset.mem_cons_self _ _
          · exact h5 e rfl
          · rw [hr2]; exact Multiset.mem_cons_of_mem hj
    rintro j ⟨w, hw⟩
    simp only [SL.step, SL.insert, List.mem_append, List.mem_filter, List.mem_cons] at hw
    rcases hw with hw | hw | hw
    · exact h1 j (.inr (hk j ⟨w, hw.1⟩))
    · cases hw; exact h1 _ (.inl rfl)
    · exact h1 j (.inr (hk j ⟨w, hw.1⟩))
  | remove k =>
    rintro j ⟨w, hw⟩
    simp only [SL.step, SL.erase, List.mem_filter, decide_eq_true_eq] at hw
    have hj := hk j ⟨w, hw.1⟩
    obtain _ | t := t
    · exact absurd hj (Multiset.notMem_zero j)
    · rcases P.remove t k h.1 with ⟨h1, -⟩ | ⟨o', v, h1, h2⟩
      · simp only [Exec.step, Exec.stepTree, h1] at hs
        cases hs
        exact hj
      · simp only [Exec.step, Exec.stepTree, h1] at hs
        cases hs
        rw [h2.obag_eq]
        exact (Multiset.mem_erase_of_ne hw.2).2 hj
  | intoMonad =>
    obtain _ | t := t
    · cases hs
      intro j hj
      refine hk j ?_
      simp only [SL.step] at hj
      split at hj
      · obtain ⟨w, hw⟩ := hj; cases hw
      · exact hj
    · intro j hj
      simp only [SL.step] at hj
      split at hj
      · obtain ⟨w, hw⟩ := hj; cases hw
      · next hlen =>
        have hj' := hk j hj
        rcases P.intoMonad t h.1 with ⟨k, v, h1, h2⟩ | ⟨h1, -⟩
        · refine absurd (show l.length = 1 from ?_) hlen
          obtain ⟨w, hw⟩ := hj
          have hall : ∀ e ∈ l, e.1 = k := fun e he => by
            have := hk e.1 ⟨e.2, he⟩
            rw [obag, h2] at this
            exact Multiset.mem_singleton.1 this
          match l, hsort, hall, hw with
          | [_], _, _, _ => rfl
          | a :: b :: l, hsort, hall, _ =>
            have h3 := (List.pairwise_cons.1 hsort).1 b (by simp)
            rw [hall a (by simp), hall b (by simp)] at h3
            exact absurd h3 (lt_irrefl _)
        · simp only [Exec.step, Exec.stepTree, h1] at hs
          cases hs
          exact hj'
  | findSet k w => intro j hj; rw [hb]; cases o <;> exact hk j (mem_setAt _ _ _ _ hj)
  | predecessorSet k w => intro j hj; rw [hb]; cases o <;> exact hk j (mem_setAt _ _ _ _ hj)
  | successorSet k w => intro j hj; rw [hb]; cases o <;> exact hk j (mem_setAt _ _ _ _ hj)
  | minSet w => intro j hj; rw [hb]; cases o <;> exact hk j (mem_setAt _ _ _ _ hj)
  | maxSet w => intro j hj; rw [hb]; cases o <;> exact hk j (mem_setAt _ _ _ _ hj)
  | _ => intro j hj; rw [hb]; cases o <;> exact hk j hj

theorem kept_run {n : Nat} {t : Option T} (h : OptW n t) (ops : List (Op K V)) (hp : noPops ops = true)
    (hl : P.limited → n + insertions ops ≤ usizeMax) {t' : Option T} {os : List (Out K V)}
    (hr : Exec.run t ops = .ok (t', os)) {l : SL K V} (hsort : l.Sorted) (hk : ∀ k, l.keys k → k ∈ obag t) :
    ∀ k, (SL.run l ops).1.keys k → k ∈ obag t' := by
  induction ops generalizing n t os l with
  | nil => cases hr; exact hk
  | cons op ops ih =>
    rw [insertions_cons] at hl
    obtain ⟨t1, o, h1, h2⟩ := phys_step h op fun x => by have := hl x; omega
    obtain ⟨t2, os', h3, -⟩ := phys_run h2 ops fun x => by have := hl x; omega
    have h4 : Exec.run t (op :: ops) = .ok (t2, o :: os') := by simp [Exec.run, h1, h3]
    rw [h4] at hr
    cases hr
    have hp' : noPops [op] = true ∧ noPops ops = true := by
      simpa [noPops] using hp
    exact ih h2 hp'.2 (fun x => by have := hl x; omega) h3 (SL.sorted_step hsort op)
      (kept_step h op hp'.1 (fun x => by have := hl x; omega) h1 hsort hk)

theorem phys_run_of {ops : List (Op K V)} (hl : P.limited → insertions ops ≤ usizeMax) {t : Option T}
    {os : List (Out K V)} (hr : Exec.run none ops = .ok (t, os)) : OptW (insertions ops) t := by
  obtain ⟨t', os', h1, h2⟩ := phys_run (T := T) (n := 0) (t := none) trivial ops (by simpa using hl)
  rw [hr] at h1
  cases h1
  simpa using h2

end Veb
