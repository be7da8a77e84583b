import Verif.Proof.AnyOrdTree

/-!
Histories on trees over keys without any contract.
-/

set_option autoImplicit false
set_option linter.unusedSectionVars false

namespace Veb
variable {T K V : Type} [VebTree T K V] [P : ObjTree T K V]

/-- entries of an optional tree -/
def ooents : Option T → Multiset (K × V)
  | none => 0
  | some t => P.ents t

/-- structure of an optional tree with at most `n` entries -/
def OptO (n : Nat) : Option T → Prop
  | none => True
  | some t => P.W t ∧ (P.ents t).card ≤ n

/-- one call balances, and an entry reported was stored -/
structure BalAny (ex : Prop) (b b' : Multiset (K × V)) (op : Op K V) (o : Out K V) : Prop where
  vals : b'.map Prod.snd + (takenStep op o).map Prod.snd = b.map Prod.snd + (givenStep op o).map Prod.snd
  ents : ex → b' + takenStep op o = b + givenStep op o
  mem : ∀ e, o.entry? = some e → e ∈ b

/-- the outcome of one call -/
def StepAny (n : Nat) (t : Option T) (op : Op K V) : Prop :=
  (∃ t' o, Exec.step t op = .ok (t', o) ∧ OptO (n + insertions [op]) t' ∧
    BalAny P.exact (ooents t) (ooents t') op o) ∨
  (Exec.step t op = .error .debugAssert ∧ ¬ P.agree ∧ ∃ k w, op = .predecessorSet k w)

theorem StepAny.same {n : Nat} {t : T} {op : Op K V} {o : Out K V} (I : P.W t) (hn : (P.ents t).card ≤ n)
    (h : Exec.step (some t) op = .ok (some t, o)) (h1 : takenStep op o = 0) (h2 : givenStep op o = 0)
    (h3 : ∀ e, o.entry? = some e → e ∈ P.ents t) : StepAny n (some t) op :=
  .inl ⟨some t, o, h, ⟨I, by omega⟩, by rw [h1, h2], fun _ => by rw [h1, h2], h3⟩

theorem StepAny.rest {n : Nat} {t : T} {op : Op K V} {e : K × V} {o : Option T} (hn : (P.ents t).card ≤ n)
    (h : Exec.step (some t) op = .ok (o, .kv (some e))) (hr : RestRel P.W P.ents (P.ents t) e o)
    (h1 : takenStep op (.kv (some e)) = {e}) (h2 : givenStep op (.kv (some e)) = 0) : StepAny n (some t) op := by
  have hc : P.ents t = e ::ₘ ooents o := by
    cases o with
    | none => exact hr
    | some t' => exact hr.2
  have hb : ooents o + takenStep op (.kv (some e)) = ooents (some t) + givenStep op (.kv (some e)) := by
    rw [h1, h2, add_zero, ooents.eq_2, hc, ← Multiset.singleton_add, add_comm]
  refine .inl ⟨o, _, h, ?_, ?_, fun _ => hb, fun x hx => ?_⟩
  · cases o with
    | none => trivial
    | some t' =>
      refine ⟨hr.1, ?_⟩
      rw [hr.2, Multiset.card_cons] at hn
      omega
  · rw [← Multiset.map_add, hb, Multiset.map_add]
  · cases hx
    change _ ∈ P.ents t
    rw [hc]; exact Multiset.mem_cons_self _ _

theorem StepAny.write {n : Nat} {t : T} {op : Op K V} {w : V} {r : Option (K × V × (V → T))} (I : P.W t)
    (hn : (P.ents t).card ≤ n) (h : Exec.step (some t) op = .ok (Exec.writeOpt t w r))
    (hr : MutPhysE P.W P.ents t r) (h0 : takenStep op (.kv none) = 0 ∧ givenStep op (.kv none) = 0)
    (h1 : ∀ e, takenStep op (.kv (some e)) = {e} ∧ givenStep op (.kv (some e)) = {(e.1, w)}) :
    StepAny n (some t) op := by
  obtain _ | ⟨k, v, put⟩ := r
  · exact .same I hn h h0.1 h0.2 (by rintro _ ⟨⟩)
  · obtain ⟨b, g1, g2⟩ := hr
    have hb : ooents (some (put w)) + takenStep op (.kv (some (k, v))) =
        ooents (some t) + givenStep op (.kv (some (k, v))) := by
      rw [(h1 _).1, (h1 _).2]
      change P.ents (put w) + {(k, v)} = P.ents t + {(k, w)}
      rw [(g2 w).2, g1, ← Multiset.singleton_add, ← Multiset.singleton_add, add_right_comm, add_comm {(k, w)},
        add_right_comm]
    refine .inl ⟨some (put w), .kv (some (k, v)), h, ⟨(g2 w).1, ?_⟩, ?_, fun _ => hb, fun e he => ?_⟩
    · rw [g1, Multiset.card_cons] at hn
      rw [(g2 w).2, Multiset.card_cons]
      omega
    · rw [← Multiset.map_add, hb, Multiset.map_add]
    · cases he
      change _ ∈ P.ents t
      rw [g1]; exact Multiset.mem_cons_self _ _

theorem any_step {n : Nat} {t : Option T} (h : OptO n t) (op : Op K V)
    (hl : P.limited → n + insertions [op] ≤ usizeMax) : StepAny n t op := by
  obtain _ | t := t
  · cases op with
    | insert k v =>
      have hf := P.fromMonad k v
      have hb : P.ents (VebTree.fromMonad k v) + 0 = 0 + {(k, v)} := by rw [hf.2, add_zero, zero_add]
      refine .inl ⟨_, _, rfl, ⟨hf.1, ?_⟩, ?_, fun _ => hb, by rintro _ ⟨⟩⟩
      · rw [hf.2]; simp [insertions]
      · exact (by simpa using congrArg (Multiset.map Prod.snd) hb : (P.ents (VebTree.fromMonad k v)).map _ + 0 = 0 + _)
    | _ => exact .inl ⟨_, _, rfl, trivial, rfl, fun _ => rfl, by rintro _ ⟨⟩⟩
  · obtain ⟨I, hn⟩ := h
    cases op with
    | insert k v =>
      obtain ⟨t1, o1, h1, h2, h3⟩ := P.insert t k v I fun hlim => by
        have := hl hlim
        simp only [insertions, List.countP_singleton, if_true] at this
        omega
      have hm : takenStep (.insert k v) (.kv o1) = om o1 := by cases o1 <;> rfl
      refine .inl ⟨some t1, .kv o1, by simp [Exec.step, Exec.stepTree, h1], ⟨h2, ?_⟩, ?_, fun x => ?_, h3.mem⟩
      · have := h3.card
        simp only [insertions, List.countP_singleton, if_true]
        omega
      · rw [hm]
        change (P.ents t1).map _ + _ = (P.ents t).map _ + Multiset.map _ {(k, v)}
        rw [h3.vals, Multiset.map_singleton, ← Multiset.singleton_add, add_comm]
      · rw [hm]
        change P.ents t1 + _ = P.ents t + {(k, v)}
        rw [h3.ents x, ← Multiset.singleton_add, add_comm]
    | remove k =>
      rcases P.remove t k I with h1 | ⟨o, e, h1, h2⟩
      · exact .same I hn (by simp only [Exec.step, Exec.stepTree, h1]; rfl) rfl rfl (by rintro _ ⟨⟩)
      · exact .rest hn (by simp only [Exec.step, Exec.stepTree, h1]; rfl) h2 rfl rfl
    | removeMin =>
      obtain ⟨o, k, v, -, h1, h2⟩ := P.removeMin t I
      exact .rest hn (by simp only [Exec.step, Exec.stepTree, h1]; rfl) h2 rfl rfl
    | removeMax =>
      obtain ⟨o, k, v, -, h1, h2⟩ := P.removeMax t I
      exact .rest hn (by simp only [Exec.step, Exec.stepTree, h1]; rfl) h2 rfl rfl
    | find k =>
      obtain ⟨r, h1, h2⟩ := P.find t k I
      exact .same (o := .kv r) I hn (by simp only [Exec.step, Exec.stepTree, h1]; rfl) rfl rfl h2
    | predecessor k =>
      obtain ⟨r, h1, h2⟩ := P.predecessor t k I
      exact .same (o := .kv r) I hn (by simp only [Exec.step, Exec.stepTree, h1]; rfl) rfl rfl h2
    | successor k =>
      obtain ⟨r, h1, h2⟩ := P.successor t k I
      exact .same (o := .kv r) I hn (by simp only [Exec.step, Exec.stepTree, h1]; rfl) rfl rfl h2
    | minVal =>
      obtain ⟨k, v, h1, h2⟩ := P.minVal t I
      exact .same I hn (by simp only [Exec.step, Exec.stepTree, h1]; rfl) rfl rfl (by rintro _ ⟨⟩; exact h2)
    | maxVal =>
      obtain ⟨k, v, h1, h2⟩ := P.maxVal t I
      exact .same I hn (by simp only [Exec.step, Exec.stepTree, h1]; rfl) rfl rfl (by rintro _ ⟨⟩; exact h2)
    | isMonad =>
      obtain ⟨b, h1, -⟩ := P.isMonad t I
      exact .same I hn (by simp only [Exec.step, Exec.stepTree, h1]; rfl) rfl rfl (by rintro _ ⟨⟩)
    | intoMonad =>
      rcases P.intoMonad t I with ⟨k, v, h1, h2⟩ | ⟨h1, -⟩
      · exact .rest (o := none) hn (by simp only [Exec.step, Exec.stepTree, h1]; rfl) h2 rfl rfl
      · exact .same I hn (by simp only [Exec.step, Exec.stepTree, h1]; rfl) rfl rfl (by rintro _ ⟨⟩)
    | findSet k w =>
      obtain ⟨r, h1, h2⟩ := P.findMut t k I
      exact .write I hn (by simp only [Exec.step, Exec.stepTree, h1]; rfl) h2 ⟨rfl, rfl⟩ fun e => ⟨rfl, rfl⟩
    | predecessorSet k w =>
      rcases P.predecessorMut t k I with ⟨r, h1, h2⟩ | ⟨h1, h2⟩
      · exact .write I hn (by simp only [Exec.step, Exec.stepTree, h1]; rfl) h2 ⟨rfl, rfl⟩ fun e => ⟨rfl, rfl⟩
      · exact .inr ⟨by simp only [Exec.step, Exec.stepTree, h1]; rfl, h2, k, w, rfl⟩
    | successorSet k w =>
      obtain ⟨r, h1, h2⟩ := P.successorMut t k I
      exact .write I hn (by simp only [Exec.step, Exec.stepTree, h1]; rfl) h2 ⟨rfl, rfl⟩ fun e => ⟨rfl, rfl⟩
    | minSet w =>
      obtain ⟨r, h1, h2⟩ := P.minValMut t I
      exact .write I hn (by simp only [Exec.step, Exec.stepTree, h1]; rfl) h2 ⟨rfl, rfl⟩ fun e => ⟨rfl, rfl⟩
    | maxSet w =>
      obtain ⟨r, h1, h2⟩ := P.maxValMut t I
      exact .write I hn (by simp only [Exec.step, Exec.stepTree, h1]; rfl) h2 ⟨rfl, rfl⟩ fun e => ⟨rfl, rfl⟩

/-- a whole history -/
theorem any_run {n : Nat} {t : Option T} (h : OptO n t) (ops : List (Op K V))
    (hl : P.limited → n + insertions ops ≤ usizeMax) :
    (∃ t' os, Exec.run t ops = .ok (t', os) ∧ OptO (n + insertions ops) t' ∧
      (ooents t').map Prod.snd + (taken ops os).map Prod.snd = (ooents t).map Prod.snd + (given ops os).map Prod.snd ∧
      (P.exact → ooents t' + taken ops os = ooents t + given ops os)) ∨
    (Exec.run t ops = .error .debugAssert ∧ ¬ P.agree ∧ ∃ k w, Op.predecessorSet k w ∈ ops) := by
  induction ops generalizing n t with
  | nil => exact .inl ⟨t, [], rfl, h, rfl, fun _ => rfl⟩
  | cons op ops ih =>
    have hi : insertions (op :: ops) = insertions [op] + insertions ops := by
      simp only [insertions, List.countP_cons, List.countP_nil]; omega
    rw [hi] at hl ⊢
    rcases any_step h op fun x => by have := hl x; omega with ⟨t1, o, h1, h2, h3⟩ | ⟨h1, h2, k, w, rfl⟩
    · rcases ih h2 fun x => by have := hl x; omega with ⟨t2, os, h4, h5, h6, h7⟩ | ⟨h4, h5, k, w, h6⟩
      · refine .inl ⟨t2, o :: os, by simp [Exec.run, h1, h4], by rwa [← add_assoc], ?_, fun x => ?_⟩
        · rw [taken, given, Multiset.map_add, Multiset.map_add, add_left_comm, h6, ← add_assoc, add_comm (Multiset.map _ (takenStep op o)),
            h3.vals, add_assoc]
        · rw [taken, given, add_left_comm, h7 x, ← add_assoc, add_comm (takenStep op o), h3.ents x, add_assoc]
      · exact .inr ⟨by simp only [Exec.run, h1, R.ok_bind, h4]; rfl, h5, k, w, List.mem_cons_of_mem _ h6⟩
    · exact .inr ⟨by simp only [Exec.run, h1]; rfl, h2, k, w, List.mem_cons_self⟩

theorem any_run_of {n : Nat} {t : Option T} (h : OptO n t) {ops : List (Op K V)}
    (hl : P.limited → n + insertions ops ≤ usizeMax) {t' : Option T} {os : List (Out K V)}
    (hr : Exec.run t ops = .ok (t', os)) : OptO (n + insertions ops) t' ∧
      (ooents t').map Prod.snd + (taken ops os).map Prod.snd = (ooents t).map Prod.snd + (given ops os).map Prod.snd ∧
      (P.exact → ooents t' + taken ops os = ooents t + given ops os) := by
  rcases any_run h ops hl with ⟨t2, os2, h1, h2⟩ | ⟨h1, -⟩
  · rw [h1] at hr
    cases hr
    exact h2
  · rw [h1] at hr
    cases hr

theorem any_drain_min {n : Nat} {t : Option T} (h : OptO n t) : ∃ es : List (K × V),
    Exec.run t (List.replicate es.length .removeMin) = .ok (none, es.map fun e => .kv (some e)) ∧
      (es : Multiset (K × V)) = ooents t := by
  induction hn : (ooents t).card using Nat.strong_induction_on generalizing t with
  | _ m ih =>
    obtain _ | t := t
    · exact ⟨[], rfl, rfl⟩
    · obtain ⟨o, k, v, -, h1, h2⟩ := P.removeMin t h.1
      have hc : P.ents t = (k, v) ::ₘ ooents o := by
        cases o with
        | none => exact h2
        | some t' => exact h2.2
      have ho : OptO n o := by
        cases o with
        | none => trivial
        | some t' =>
          have := h.2
          rw [h2.2, Multiset.card_cons] at this
          exact ⟨h2.1, by omega⟩
      obtain ⟨es, h3, h4⟩ := ih _ (by rw [← hn, ooents.eq_2, hc, Multiset.card_cons]; omega) ho rfl
      refine ⟨(k, v) :: es, ?_, ?_⟩
      · simp [List.replicate_succ, Exec.run, Exec.step, Exec.stepTree, h1, Exec.removed, h3]
      · rw [ooents.eq_2, hc, ← h4]; rfl

theorem any_drain_max {n : Nat} {t : Option T} (h : OptO n t) : ∃ es : List (K × V),
    Exec.run t (List.replicate es.length .removeMax) = .ok (none, es.map fun e => .kv (some e)) ∧
      (es : Multiset (K × V)) = ooents t := by
  induction hn : (ooents t).card using Nat.strong_induction_on generalizing t with
  | _ m ih =>
    obtain _ | t := t
    · exact ⟨[], rfl, rfl⟩
    · obtain ⟨o, k, v, -, h1, h2⟩ := P.removeMax t h.1
      have hc : P.ents t = (k, v) ::ₘ ooents o := by
        cases o with
        | none => exact h2
        | some t' => exact h2.2
      have ho : OptO n o := by
        cases o with
        | none => trivial
        | some t' =>
          have := h.2
          rw [h2.2, Multiset.card_cons] at this
          exact ⟨h2.1, by omega⟩
      obtain ⟨es, h3, h4⟩ := ih _ (by rw [← hn, ooents.eq_2, hc, Multiset.card_cons]; omega) ho rfl
      refine ⟨(k, v) :: es, ?_, ?_⟩
      · simp [List.replicate_succ, Exec.run, Exec.step, Exec.stepTree, h1, Exec.removed, h3]
      · rw [ooents.eq_2, hc, ← h4]; rfl

end Veb
