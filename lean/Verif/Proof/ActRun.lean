import Verif.Proof.ActArray
import Verif.Proof.ActTree
import Verif.Proof.ActBTree

/-!
Histories over code of the user with a state.
-/

set_option autoImplicit false
set_option linter.unusedSectionVars false

namespace Veb

section
variable {σ T K V : Type} [ActTree σ T K V] [P : Keeps σ T K V]

/-- the invariant of an optional tree -/
def OW (o : Option T) : Prop := ∀ t, o = some t → P.W t

/-- one call moves values -/
structure Moved (t : Option T) (op : Op K V) (r : Option T × Out K V) : Prop where
  good : OW (σ := σ) r.1
  flow : Flow (OptOk P.ok t) (OptOk P.ok r.1) (ov P.vals t + (givenStep op r.2).map Prod.snd) (ov P.vals r.1 + (takenStep op r.2).map Prod.snd)
  mem : ∀ e, r.2.entry? = some e → e.2 ∈ ov P.vals t

theorem Moved.same {t : T} {op : Op K V} {o : Out K V} (I : P.W t) (h1 : takenStep op o = 0) (h2 : givenStep op o = 0)
    (h3 : ∀ e, o.entry? = some e → e.2 ∈ P.vals t) : Moved (σ := σ) (some t) op (some t, o) :=
  ⟨by rintro _ ⟨⟩; exact I, by dsimp only; rw [h1, h2]; exact .of_eq id rfl, h3⟩

theorem Moved.rest {t : T} {op : Op K V} {o : Option T} {e : K × V} (h : Rest (P.ok t) P.ok P.W P.vals (P.vals t) o e.2)
    (h1 : takenStep op (.kv (some e)) = {e}) (h2 : givenStep op (.kv (some e)) = 0) :
    Moved (σ := σ) (some t) op (o, .kv (some e)) := by
  refine ⟨h.1, ?_, ?_⟩
  · dsimp only
    rw [h1, h2]
    exact h.2.part 0 id (fun _ => optOk_some.2) rfl (add_zero _).symm
  · rintro _ ⟨⟩
    exact Multiset.mem_of_le h.2.le (Multiset.mem_add.2 (.inr (Multiset.mem_singleton_self _)))

theorem Moved.write {t : T} {op : Op K V} {w : V} {r : Option (K × V × (V → T))} (I : P.W t) (h : MutV P.ok P.W P.vals t r)
    (h0 : takenStep op (.kv none) = 0 ∧ givenStep op (.kv none) = 0)
    (h1 : ∀ e, takenStep op (.kv (some e)) = {e} ∧ givenStep op (.kv (some e)) = {(e.1, w)}) :
    Moved (σ := σ) (some t) op (Exec.writeOpt t w r) := by
  obtain _ | ⟨k, v, put⟩ := r
  · exact .same I h0.1 h0.2 (by rintro _ ⟨⟩)
  · obtain ⟨b, g1, g2⟩ := h
    refine ⟨by rintro _ ⟨⟩; exact (g2 w).1, ?_, ?_⟩
    · show Flow _ _ (P.vals t + (givenStep op (.kv (some (k, v)))).map _) (P.vals (put w) + (takenStep op (.kv (some (k, v)))).map _)
      rw [(h1 _).1, (h1 _).2, g1, (g2 w).2.1]
      refine .of_eq (fun x => optOk_some.2 ((g2 w).2.2 (x _ rfl))) ?_
      show w ::ₘ b + {v} = v ::ₘ b + {w}
      simp only [← Multiset.singleton_add]
      abel
    · rintro _ ⟨⟩
      show v ∈ P.vals t
      rw [g1]
      exact Multiset.mem_cons_self _ _

theorem moved_step {t : Option T} (I : OW (σ := σ) t) (op : Op K V) :
    Post (ActExec.step (σ := σ) t op) (Moved (σ := σ) t op) := by
  obtain _ | t := t
  · cases op with
    | insert k v =>
      refine .ret ⟨by rintro _ ⟨⟩; exact (P.fromMonad k v).1, .of_eq (fun _ => optOk_none) ?_, by rintro _ ⟨⟩⟩
      show P.vals (ActTree.fromMonad σ k v) + 0 = 0 + {v}
      rw [(P.fromMonad k v).2, add_zero, zero_add]
    | _ => exact .ret ⟨by rintro _ ⟨⟩, .of_eq id rfl, by rintro _ ⟨⟩⟩
  · have I := I t rfl
    cases op with
    | insert k v =>
      refine (P.insert t k v I).bind fun r hr => .ret ⟨by rintro _ ⟨⟩; exact hr.1, ?_, hr.2.2⟩
      obtain ⟨t', o⟩ := r
      have := hr.2.1.part 0 (f' := OptOk P.ok (some t')) (fun x => x _ rfl) (fun _ => optOk_some.2) (add_zero _).symm (add_zero _).symm
      cases o <;> exact this
    | remove k =>
      refine (P.remove t k I).bind fun r hr => ?_
      obtain ⟨o, e⟩ | t' := r
      · exact .ret (.rest hr rfl rfl)
      · refine .ret ⟨by rintro _ ⟨⟩; exact hr.1, ?_, by rintro _ ⟨⟩⟩
        exact hr.2.part 0 (fun x => x _ rfl) (fun _ => optOk_some.2) rfl rfl
    | removeMin => exact (P.removeMin t I).bind fun r hr => .ret (.rest hr rfl rfl)
    | removeMax => exact (P.removeMax t I).bind fun r hr => .ret (.rest hr rfl rfl)
    | find k => exact (P.find t k I).bind fun r hr => .ret (.same I rfl rfl hr)
    | predecessor k => exact (P.predecessor t k I).bind fun r hr => .ret (.same I rfl rfl hr)
    | successor k => exact (P.successor t k I).bind fun r hr => .ret (.same I rfl rfl hr)
    | minVal => exact (P.minVal t I).bind fun r hr => .ret (.same I rfl rfl (by rintro _ ⟨⟩; exact hr))
    | maxVal => exact (P.maxVal t I).bind fun r hr => .ret (.same I rfl rfl (by rintro _ ⟨⟩; exact hr))
    | isMonad => exact .then_ fun b => .ret (.same I rfl rfl (by rintro _ ⟨⟩))
    | intoMonad =>
      refine (P.intoMonad t I).bind fun r hr => ?_
      obtain e | t' := r
      · refine .ret (.rest (o := none) ⟨by rintro _ ⟨⟩, .of_eq (fun _ => hr.1) ?_⟩ rfl rfl)
        rw [show P.vals t = _ from hr.2]
        exact zero_add _
      · exact .ret ⟨by rintro _ ⟨⟩; exact hr.1, .of_eq (fun x => optOk_some.2 (hr.2.2.1 (x _ rfl)))
          (congrArg (· + 0) hr.2.1), by rintro _ ⟨⟩⟩
    | findSet k w => exact (P.findMut t k I).bind fun r hr => .ret (.write I hr ⟨rfl, rfl⟩ fun e => ⟨rfl, rfl⟩)
    | predecessorSet k w => exact (P.predecessorMut t k I).bind fun r hr => .ret (.write I hr ⟨rfl, rfl⟩ fun e => ⟨rfl, rfl⟩)
    | successorSet k w => exact (P.successorMut t k I).bind fun r hr => .ret (.write I hr ⟨rfl, rfl⟩ fun e => ⟨rfl, rfl⟩)
    | minSet w => exact (P.minValMut t I).bind fun r hr => .ret (.write I hr ⟨rfl, rfl⟩ fun e => ⟨rfl, rfl⟩)
    | maxSet w => exact (P.maxValMut t I).bind fun r hr => .ret (.write I hr ⟨rfl, rfl⟩ fun e => ⟨rfl, rfl⟩)

/-- a whole history moves values -/
theorem moved_run {t : Option T} (I : OW (σ := σ) t) (ops : List (Op K V)) :
    Post (ActExec.run (σ := σ) t ops) fun r => OW (σ := σ) r.1 ∧
      Flow (OptOk P.ok t) (OptOk P.ok r.1) (ov P.vals t + givenVals ops r.2) (ov P.vals r.1 + takenVals ops r.2) := by
  induction ops generalizing t with
  | nil => exact .ret ⟨I, .of_eq id rfl⟩
  | cons op ops ih =>
    refine (moved_step I op).bind fun r hr => ?_
    obtain ⟨t1, o⟩ := r
    refine (ih hr.good).bind fun r h2 => .ret ⟨h2.1, ?_⟩
    obtain ⟨t2, os⟩ := r
    have e1 : givenVals (op :: ops) (o :: os) = (givenStep op o).map Prod.snd + givenVals ops os := Multiset.map_add _ _ _
    have e2 : takenVals (op :: ops) (o :: os) = (takenStep op o).map Prod.snd + takenVals ops os := Multiset.map_add _ _ _
    dsimp only
    rw [e1, e2]
    refine (hr.flow.frame (givenVals ops os) (b' := ov P.vals t1 + givenVals ops os + (takenStep op o).map Prod.snd)
      (by abel) (by dsimp only; abel)).trans ?_
    exact h2.2.frame ((takenStep op o).map Prod.snd) rfl (by dsimp only; abel)

/-- no answer in a history contains a value that is neither stored nor handed over -/
theorem moved_answers {t t' : Option T} (I : OW (σ := σ) t) {v : V} (hv : v ∉ ov P.vals t) {ops : List (Op K V)}
    {os : List (Out K V)} {s s' : σ} (hr : ActExec.run t ops s = .ok ((t', os), s')) (hg : v ∉ givenVals ops os) :
    ∀ o ∈ os, ∀ e, o.entry? = some e → e.2 ≠ v := by
  induction ops generalizing t s os with
  | nil => cases hr; rintro o ⟨⟩
  | cons op ops ih =>
    change (ActExec.step (σ := σ) t op s >>= _) = _ at hr
    cases hs : ActExec.step (σ := σ) t op s with
    | error p => rw [hs] at hr; cases hr
    | ok r =>
      obtain ⟨⟨t1, o1⟩, s1⟩ := r
      rw [hs] at hr
      change (ActExec.run (σ := σ) t1 ops s1 >>= _) = _ at hr
      cases hs' : ActExec.run (σ := σ) t1 ops s1 with
      | error p => rw [hs'] at hr; cases hr
      | ok r =>
        obtain ⟨⟨t2, os2⟩, s2⟩ := r
        rw [hs'] at hr
        cases hr
        have hm := moved_step I op s _ s1 hs
        have e1 : givenVals (op :: ops) (o1 :: os2) = (givenStep op o1).map Prod.snd + givenVals ops os2 :=
          Multiset.map_add _ _ _
        rw [e1, Multiset.mem_add, not_or] at hg
        have hv1 : v ∉ ov P.vals t1 := fun x =>
          (Multiset.mem_add.1 (Multiset.mem_of_le hm.flow.le (Multiset.mem_add.2 (.inl x)))).elim hv hg.1
        intro o ho e he
        rcases List.mem_cons.1 ho with rfl | ho
        · rintro rfl
          exact hv (hm.mem e he)
        · exact ih hm.good hv1 hs' hg.2 o ho e he

end

/-! ## All types in question -/

theorem pops_unique {T K V : Type} [VebTree T K V] {t : Option T} {es fs : List (K × V)} (h1 : Pops .removeMin t es)
    (h2 : Pops .removeMin t fs) : es = fs := by
  have key : ∀ (n : Nat) (t : Option T) (es fs : List (K × V)), es.length = n → n ≤ fs.length → Pops .removeMin t es →
      Pops .removeMin t fs → es = fs := by
    intro n
    induction n with
    | zero =>
      intro t es fs h h' h1 h2
      obtain rfl := List.length_eq_zero_iff.1 h
      cases h1
      cases fs with
      | nil => rfl
      | cons f fs =>
        exfalso
        unfold Pops at h2
        rw [List.length_cons, List.replicate_succ] at h2
        cases hr : Exec.run (none : Option T) (List.replicate fs.length (.removeMin : Op K V)) with
        | error p =>
          have : Exec.run (none : Option T) (.removeMin :: List.replicate fs.length (.removeMin : Op K V)) =
            (Exec.run (none : Option T) (List.replicate fs.length (.removeMin : Op K V))).map fun r => (r.1, .kv none :: r.2) := by
              rw [hr]; show (Exec.run _ _ >>= _) = _; rw [hr]; rfl
          rw [this, hr] at h2
          cases h2
        | ok r =>
          have : Exec.run (none : Option T) (.removeMin :: List.replicate fs.length (.removeMin : Op K V)) =
            .ok (r.1, .kv none :: r.2) := by
              show (Exec.run _ _ >>= _) = _; rw [hr]; rfl
          rw [this] at h2
          injection h2 with h2
          injection h2 with _ h2
          injection h2 with h2
          cases h2
    | succ n ih =>
      intro t es fs h h' h1 h2
      obtain _ | ⟨e, es⟩ := es
      · cases h
      obtain _ | ⟨f, fs⟩ := fs
      · cases h'
      unfold Pops at h1 h2
      rw [List.length_cons, List.replicate_succ] at h1 h2
      cases hs : Exec.step t (.removeMin : Op K V) with
      | error p =>
        have : Exec.run t (.removeMin :: List.replicate es.length (.removeMin : Op K V)) = .error p := by
          show (Exec.step _ _ >>= _) = _; rw [hs]; rfl
        rw [this] at h1
        cases h1
      | ok r =>
        have fin : ∀ {gs : List (K × V)} {g : K × V}, Exec.run t (.removeMin :: List.replicate gs.length (.removeMin : Op K V)) =
            .ok (none, (g :: gs).map fun e => .kv (some e)) → r.2 = .kv (some g) ∧ Pops .removeMin r.1 gs := by
          intro gs g hg
          change (Exec.step _ _ >>= _) = _ at hg
          rw [hs] at hg
          change (Exec.run _ _ >>= _) = _ at hg
          unfold Pops
          cases hr : Exec.run r.1 (List.replicate gs.length (.removeMin : Op K V)) with
          | error p => rw [hr] at hg; cases hg
          | ok x =>
            rw [hr] at hg
            obtain ⟨x1, x2⟩ := x
            have hg : (Except.ok (x1, r.2 :: x2) : R _) = _ := hg
            injection hg with hg
            injection hg with g1 g2
            injection g2 with g2 g3
            subst g1 g3
            exact ⟨g2, rfl⟩
        obtain ⟨a1, a2⟩ := fin h1
        obtain ⟨b1, b2⟩ := fin h2
        rw [a1] at b1
        injection b1 with b1
        injection b1 with b1
        rw [b1, ih _ _ _ (Nat.succ.inj h) (Nat.le_of_succ_le_succ h') a2 b2]
  rcases Nat.le_total es.length fs.length with h | h
  · exact key _ _ _ _ rfl h h1 h2
  · exact (key _ _ _ _ rfl h h2 h1).symm

theorem popped_eq {T K V : Type} [VebTree T K V] {t : T} {es : List (K × V)} (h : Pops .removeMin (some t) es) :
    popped t = (es.map Prod.snd : List V) := by
  have hx : ∃ es, Pops .removeMin (some t) es := ⟨es, h⟩
  rw [popped, dif_pos hx, pops_unique hx.choose_spec h]

theorem UserColl.keeps {σ C Hi T Lo V : Type} [ActTree σ T Lo V] [ActColl σ C Hi T Lo V] {g : Prop}
    {hc : (T → Multiset V) → C → Multiset V} (h : UserColl σ C Hi T Lo V g hc) (P : Keeps σ T Lo V) {ht : T → Multiset V}
    (hP : ∀ t, P.W t → ht t = P.vals t) :
    ∃ Q : KeepsColl σ C Hi T Lo V, (P.fixed → g → Q.fixed) ∧ ∀ c, Q.W c → hc ht c = Q.vals c := by
  induction h with
  | array =>
    refine ⟨KeepsColl.instArray, fun a b => ⟨a, b⟩, fun c I => Finset.sum_congr rfl fun i hi => ?_⟩
    cases hs : c.array.slot i with
    | none => rfl
    | some t => exact hP t (I.1 i t hs)
  | hash =>
    refine ⟨KeepsColl.instHash, fun a _ => a, fun c I => ?_⟩
    exact congrArg List.sum (List.map_congr_left fun e he => hP _ (I.1 e he))
  | byte =>
    refine ⟨KeepsColl.instByte, fun a _ => a, fun c I => ?_⟩
    exact congrArg List.sum (List.map_congr_left fun e he => hP _ (I e he))
  | box h ih =>
    obtain ⟨Q, hQ, hv⟩ := ih P hP
    exact ⟨.box Q, hQ, fun c I => hv _ I⟩

theorem UserTree.keeps {σ T K V : Type} [i : ActTree σ T K V] {f : Prop} {held : T → Multiset V}
    (h : UserTree σ T K V f held) :
    ∃ P : Keeps σ T K V, (f → P.fixed) ∧ ∀ t, P.W t → held t = P.vals t := by
  induction h with
  | plain h =>
    obtain ⟨P, h1, -, -⟩ := h.obj
    refine ⟨.plain σ P h1, fun _ => trivial, fun t I => ?_⟩
    obtain ⟨es, e1, e2⟩ := any_drain_min (t := some t) (n := (P.ents t).card) ⟨I, le_rfl⟩
    rw [popped_eq e1, ← Multiset.map_coe, e2]
    rfl
  | box h ih =>
    obtain ⟨P, hP, hv⟩ := ih
    exact ⟨Keeps.instBox, hP, fun t I => hv _ I⟩
  | sized h ih =>
    obtain ⟨P, hP, hv⟩ := ih
    exact ⟨Keeps.instSized, hP, fun t I => hv _ I.1⟩
  | btree h => exact ⟨BTreeMap.keeps h, fun _ => trivial, fun _ _ => rfl⟩
  | tree ht hc ih =>
    obtain ⟨P, hP, hv⟩ := ih
    obtain ⟨Q, hQ, hw⟩ := hc.keeps P hv
    refine ⟨Tree.instKeeps, fun a => hQ (hP a.1) a.2, fun t I => ?_⟩
    obtain ⟨m, _ | ⟨x, _ | p⟩⟩ := t
    · rfl
    · rfl
    · have := hw _ (I _ rfl _ rfl)
      show {m.2} + {x.2} + _ = m.2 ::ₘ x.2 ::ₘ Q.vals p.2
      rw [← this, ← Multiset.singleton_add, ← Multiset.singleton_add, add_assoc]
      rfl

theorem held_eq {σ T K V : Type} [ActTree σ T K V] {P : Keeps σ T K V} {held : T → Multiset V}
    (h : ∀ t, P.W t → held t = P.vals t) {t : Option T} (I : OW (σ := σ) t) : heldOpt held t = ov P.vals t := by
  cases t with
  | none => rfl
  | some t => exact h t (I t rfl)

end Veb
