import Verif.SpecActColl
import Verif.Proof.HonestRun
import Verif.Proof.HonestList

/-! Histories of collections whose code has a state, next to those without: helper lemmas for C90. -/

set_option autoImplicit false

namespace Veb
variable {Us : Panic → Prop} {σ C Hi T Lo V : Type} [ActTree σ T Lo V] [VebTree T Lo V] [P : HTree Us σ T Lo V]
  [ActColl σ C Hi T Lo V] [TreeCollection C Hi T Lo V] [Q : HColl Us σ C Hi T Lo V]

theorem collRemoved_good {r : Option (C × Bool) × (Lo × V)} (h : AllO (fun p : C × Bool => Q.W p.1) r.1) :
    AllO Q.W (CollExec.removed (Hi := Hi) (T := T) r).1 := by
  obtain ⟨_ | ⟨c, b⟩, val⟩ := r
  · exact allO_none
  · exact allO_some (h _ rfl)

theorem coll_removed_eq (r : Option (C × Bool) × (Lo × V)) :
    ActCollExec.removed (Hi := Hi) (T := T) r = CollExec.removed r := by
  obtain ⟨_ | ⟨c, b⟩, val⟩ := r <;> rfl

theorem honest_collStep (hP : ∀ t, P.W t) {c : Option C} (hc : AllO Q.W c) {op : ACOp σ Hi T Lo V} {op' : COp Hi T Lo V}
    (h : op.Like Us op') : Follows Us (fun r => AllO Q.W r.1) (ActCollExec.step c op) (CollExec.step c op') := by
  obtain _ | c := c
  · cases h with
    | create h t => exact (Q.create h t (hP t)).bind fun r hr => .ret (allO_some hr)
    | _ => exact .ret allO_none
  · have I := hc c rfl
    cases h with
    | create h t => exact (Q.create h t (hP t)).bind fun r hr => .ret (allO_some hr)
    | get h => exact (Q.get c h I).bind fun _ _ => .ret hc
    | set h u =>
      refine (Q.getMut c h I).bind fun r hr => ?_
      obtain _ | ⟨t, put⟩ := r
      · exact .ret hc
      · exact .ret (allO_some ((hr _ rfl).2 u (hP u)))
    | insert h l v => exact (Q.insertKey c h (l, v) I).bind fun r hr => .ret (allO_some hr)
    | remove h hr =>
      refine (Q.removeKey c h _ _ I fun t _ => (Follows.of (hr t)).mono fun _ _ _ _ => hP _).bind fun r hr => ?_
      rw [coll_removed_eq]
      exact .ret (collRemoved_good hr)
    | maybeRemove h hr =>
      refine (Q.maybeRemoveKey c h _ _ I fun t _ => (Follows.of (hr t)).mono fun r _ => ?_).bind fun r hr => ?_
      · obtain r | u := r
        · exact fun _ _ => hP _
        · exact hP _
      · obtain r | u := r
        · show Follows _ _ (pure (ActCollExec.removed r)) _
          rw [coll_removed_eq]
          exact .ret (collRemoved_good hr)
        · exact .ret (allO_some hr)

theorem honest_collRun (hP : ∀ t, P.W t) {c : Option C} (hc : AllO Q.W c) {ops : List (ACOp σ Hi T Lo V)}
    {ops' : List (COp Hi T Lo V)} (h : List.Forall₂ (ACOp.Like Us) ops ops') :
    Follows Us (fun r => AllO Q.W r.1) (ActCollExec.run c ops) (CollExec.run c ops') := by
  induction h generalizing c with
  | nil => exact .ret hc
  | cons h _ ih => exact (honest_collStep hP hc h).bind fun r hr => (ih hr).bind fun r hr => .ret hr

end Veb
