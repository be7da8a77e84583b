import Verif.Proof.Ledger

/-!
The stored entries are those handed over and not given back.
-/

set_option autoImplicit false
set_option linter.unusedSectionVars false

namespace Veb
variable {T K V : Type} [LinearOrder K] [VebTree T K V] [P : PhysTree T K V]

/-- stored entries of an optional tree -/
def oents : Option T → Multiset (K × V)
  | none => 0
  | some t => P.ents t

/-- one call balances, and an entry reported was stored -/
def Balanced (t t' : Option T) (op : Op K V) (o : Out K V) : Prop :=
  oents t' + takenStep op o = oents t + givenStep op o ∧ ∀ e, o.entry? = some e → e ∈ oents t

theorem balanced_mut {t : T} {r : Option (K × V × (V → T))} (hr : MutPhysE P.W P.ents t r) (op : Op K V) (w : V)
    (h0 : takenStep op (.kv none) = 0 ∧ givenStep op (.kv none) = 0)
    (h1 : ∀ e, takenStep op (.kv (some e)) = {e} ∧ givenStep op (.kv (some e)) = {(e.1, w)}) :
    Balanced (some t) (Exec.writeOpt t w r).1 op (Exec.writeOpt t w r).2 := by
  obtain _ | ⟨k, v, put⟩ := r
  · exact ⟨by simp only [Exec.writeOpt, h0], fun e he => by cases he⟩
  · obtain ⟨b, g1, g2⟩ := hr
    constructor
    · simp only [Exec.writeOpt, h1]
      change P.ents (put w) + {(k, v)} = P.ents t + {(k, w)}
      rw [(g2 w).2, g1, ← Multiset.singleton_add, ← Multiset.singleton_add, add_right_comm, add_comm {(k, w)}, add_right_comm]
    · intro e he
      cases he
      change _ ∈ P.ents t
      rw [g1]; exact Multiset.mem_cons_self _ _


theorem balanced_step {n : Nat} {t : Option T} (h : OptW n t) (op : Op K V)
    (hl : P.limited → n + insertions [op] ≤ usizeMax) {t' : Option T} {o : Out K V}
    (hs : Exec.step t op = .ok (t', o)) : Balanced t t' op o := by
  obtain _ | t := t
  · cases op with
    | insert k v =>
      cases hs
      refine ⟨?_, fun e he => by cases he⟩
      show P.ents (VebTree.fromMonad k v) + 0 = 0 + {(k, v)}
      rw [(P.fromMonadE k v).2, add_zero, zero_add]
    | _ => cases hs; exact ⟨rfl, fun e he => by cases he⟩
  · obtain ⟨I, hn⟩ := h
    have same : ∀ {op : Op K V} {e : Option (K × V)}, takenStep op (.kv e) = 0 → givenStep op (.kv e) = 0 →
        (∀ x, e = some x → x ∈ P.ents t) → Balanced (some t) (some t) op (.kv e) :=
      fun h1 h2 h3 => ⟨by rw [h1, h2], h3⟩
    have rest : ∀ {op : Op K V} {e : K × V} {o : Option T}, RestRel P.W P.ents (P.ents t) e o →
        takenStep op (.kv (some e)) = {e} → givenStep op (.kv (some e)) = 0 →
        Balanced (some t) o op (.kv (some e)) := by
      intro op e o h1 h2 h3
      have hc : P.ents t = e ::ₘ oents o := by
        cases o with
        | none => exact h1
        | some t' => exact h1.2
      refine ⟨?_, fun x hx => ?_⟩
      · rw [h2, h3, add_zero, oents.eq_2, hc, ← Multiset.singleton_add, add_comm]
      · cases hx
        change _ ∈ P.ents t
        rw [hc]; exact Multiset.mem_cons_self _ _
    cases op with
    | insert k v =>
      obtain ⟨t1, o1, h1, h2, h3, -, -⟩ := P.insertE t k v I fun hlim => by
        have := hl hlim
        simp only [insertions, List.countP_singleton, if_true] at this
        rw [PhysTree.bag_card] at hn
        omega
      simp only [Exec.step, Exec.stepTree, h1] at hs
      cases hs
      obtain _ | e := o1
      · refine ⟨?_, fun x hx => by cases hx⟩
        have h3 : P.ents t1 = _ := h3
        show P.ents t1 + 0 = P.ents t + {(k, v)}
        rw [h3, add_zero, ← Multiset.singleton_add, add_comm]
      · obtain ⟨r, e1, e2⟩ := h3
        refine ⟨?_, fun x hx => ?_⟩
        · show P.ents t1 + {e} = P.ents t + {(k, v)}
          rw [e1, e2, ← Multiset.singleton_add, ← Multiset.singleton_add, add_right_comm, add_comm {(k, v)},
            add_right_comm]
        · cases hx
          change _ ∈ P.ents t
          rw [e1]; exact Multiset.mem_cons_self _ _
    | remove k =>
      rcases P.removeE t k I with ⟨h1, -⟩ | ⟨o, v, h1, h2⟩
      · simp only [Exec.step, Exec.stepTree, h1] at hs
        cases hs
        exact same rfl rfl (by simp)
      · simp only [Exec.step, Exec.stepTree, h1] at hs
        cases hs
        exact rest h2 rfl rfl
    | removeMin =>
      obtain ⟨o, k, v, -, h1, h2⟩ := P.removeMinE t I
      simp only [Exec.step, Exec.stepTree, h1] at hs
      cases hs
      exact rest h2 rfl rfl
    | removeMax =>
      obtain ⟨o, k, v, -, h1, h2⟩ := P.removeMaxE t I
      simp only [Exec.step, Exec.stepTree, h1] at hs
      cases hs
      exact rest h2 rfl rfl
    | find k =>
      obtain ⟨r, h1, h2⟩ := P.findE t k I
      simp only [Exec.step, Exec.stepTree, h1] at hs
      cases hs
      exact same rfl rfl h2
    | predecessor k =>
      obtain ⟨r, h1, h2⟩ := P.predecessorE t k I
      simp only [Exec.step, Exec.stepTree, h1] at hs
      cases hs
      exact same rfl rfl h2
    | successor k =>
      obtain ⟨r, h1, h2⟩ := P.successorE t k I
      simp only [Exec.step, Exec.stepTree, h1] at hs
      cases hs
      exact same rfl rfl h2
    | minVal =>
      obtain ⟨k, v, h1, h2⟩ := P.minValE t I
      simp only [Exec.step, Exec.stepTree, h1] at hs
      cases hs
      exact same rfl rfl (by rintro _ ⟨⟩; exact h2)
    | maxVal =>
      obtain ⟨k, v, h1, h2⟩ := P.maxValE t I
      simp only [Exec.step, Exec.stepTree, h1] at hs
      cases hs
      exact same rfl rfl (by rintro _ ⟨⟩; exact h2)
    | isMonad =>
      obtain ⟨b, h1, -⟩ := P.isMonadE t I
      simp only [Exec.step, Exec.stepTree, h1] at hs
      cases hs
      exact ⟨rfl, fun j hj => by cases hj⟩
    | intoMonad =>
      rcases P.intoMonadE t I with ⟨k, v, h1, h2⟩ | ⟨h1, -⟩
      · simp only [Exec.step, Exec.stepTree, h1] at hs
        cases hs
        exact rest (o := none) h2 rfl rfl
      · simp only [Exec.step, Exec.stepTree, h1] at hs
        cases hs
        exact same rfl rfl (by simp)
    | findSet k w =>
      obtain ⟨r, h1, h2⟩ := P.findMutE t k I
      simp only [Exec.step, Exec.stepTree, h1] at hs
      have h3 := balanced_mut h2 (.findSet k w) w ⟨rfl, rfl⟩ fun e => ⟨rfl, rfl⟩
      have hs : Exec.writeOpt t w r = (t', o) := by simpa using hs
      rwa [hs] at h3
    | predecessorSet k w =>
      obtain ⟨r, h1, h2⟩ := P.predecessorMutE t k I
      simp only [Exec.step, Exec.stepTree, h1] at hs
      have h3 := balanced_mut h2 (.predecessorSet k w) w ⟨rfl, rfl⟩ fun e => ⟨rfl, rfl⟩
      have hs : Exec.writeOpt t w r = (t', o) := by simpa using hs
      rwa [hs] at h3
    | successorSet k w =>
      obtain ⟨r, h1, h2⟩ := P.successorMutE t k I
      simp only [Exec.step, Exec.stepTree, h1] at hs
      have h3 := balanced_mut h2 (.successorSet k w) w ⟨rfl, rfl⟩ fun e => ⟨rfl, rfl⟩
      have hs : Exec.writeOpt t w r = (t', o) := by simpa using hs
      rwa [hs] at h3
    | minSet w =>
      obtain ⟨r, h1, h2⟩ := P.minValMutE t I
      simp only [Exec.step, Exec.stepTree, h1] at hs
      have h3 := balanced_mut h2 (.minSet w) w ⟨rfl, rfl⟩ fun e => ⟨rfl, rfl⟩
      have hs : Exec.writeOpt t w (some r) = (t', o) := by simpa using hs
      rwa [hs] at h3
    | maxSet w =>
      obtain ⟨r, h1, h2⟩ := P.maxValMutE t I
      simp only [Exec.step, Exec.stepTree, h1] at hs
      have h3 := balanced_mut h2 (.maxSet w) w ⟨rfl, rfl⟩ fun e => ⟨rfl, rfl⟩
      have hs : Exec.writeOpt t w (some r) = (t', o) := by simpa using hs
      rwa [hs] at h3

theorem balanced_run {n : Nat} {t : Option T} (h : OptW n t) (ops : List (Op K V))
    (hl : P.limited → n + insertions ops ≤ usizeMax) {t' : Option T} {os : List (Out K V)}
    (hr : Exec.run t ops = .ok (t', os)) : oents t' + taken ops os = oents t + given ops os := by
  induction ops generalizing n t os with
  | nil => cases hr; rfl
  | cons op ops ih =>
    rw [insertions_cons] at hl
    obtain ⟨t1, o, h1, h2⟩ := phys_step h op fun x => by have := hl x; omega
    obtain ⟨t2, os', h3, -⟩ := phys_run h2 ops fun x => by have := hl x; omega
    have h4 : Exec.run t (op :: ops) = .ok (t2, o :: os') := by simp [Exec.run, h1, h3]
    rw [h4] at hr
    cases hr
    have e1 := ih h2 (fun x => by have := hl x; omega) h3
    have e2 := (balanced_step h op (fun x => by have := hl x; omega) h1).1
    rw [taken, given, add_left_comm, e1, ← add_assoc, add_comm (takenStep op o), e2, add_assoc]

theorem drain_min_ents {t : Option T} {n : Nat} (h : OptW n t) : ∃ es : List (K × V),
    Exec.run t (List.replicate es.length .removeMin) = .ok (none, es.map fun e => .kv (some e)) ∧
      (es : Multiset (K × V)) = oents t := by
  induction hn : (oents t).card using Nat.strong_induction_on generalizing t with
  | _ m ih =>
    obtain _ | t := t
    · exact ⟨[], rfl, rfl⟩
    · obtain ⟨o, k, v, -, h1, h2⟩ := P.removeMinE t h.1
      have hc : P.ents t = (k, v) ::ₘ oents o := by
        cases o with
        | none => exact h2
        | some t' => exact h2.2
      obtain ⟨es, h3, h4⟩ := ih _ (by rw [← hn, oents.eq_2, hc, Multiset.card_cons]; omega)
        (optW_rest h.2 h2.keys) rfl
      refine ⟨(k, v) :: es, ?_, ?_⟩
      · simp [List.replicate_succ, Exec.run, Exec.step, Exec.stepTree, h1, Exec.removed, h3]
      · rw [oents.eq_2, hc, ← h4]; rfl

theorem drain_max_ents {t : Option T} {n : Nat} (h : OptW n t) : ∃ es : List (K × V),
    Exec.run t (List.replicate es.length .removeMax) = .ok (none, es.map fun e => .kv (some e)) ∧
      (es : Multiset (K × V)) = oents t := by
  induction hn : (oents t).card using Nat.strong_induction_on generalizing t with
  | _ m ih =>
    obtain _ | t := t
    · exact ⟨[], rfl, rfl⟩
    · obtain ⟨o, k, v, -, h1, h2⟩ := P.removeMaxE t h.1
      have hc : P.ents t = (k, v) ::ₘ oents o := by
        cases o with
        | none => exact h2
        | some t' => exact h2.2
      obtain ⟨es, h3, h4⟩ := ih _ (by rw [← hn, oents.eq_2, hc, Multiset.card_cons]; omega)
        (optW_rest h.2 h2.keys) rfl
      refine ⟨(k, v) :: es, ?_, ?_⟩
      · simp [List.replicate_succ, Exec.run, Exec.step, Exec.stepTree, h1, Exec.removed, h3]
      · rw [oents.eq_2, hc, ← h4]; rfl

end Veb
