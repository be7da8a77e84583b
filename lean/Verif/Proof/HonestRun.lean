import Verif.Proof.HonestTree
import Verif.Proof.HonestBTree
import Verif.Proof.HonestList

/-!
Whole histories over proper code of the user with side effects.
-/

set_option autoImplicit false
set_option linter.unusedSectionVars false

namespace Veb
variable {Us : Panic → Prop}

theorem SoundColl.sim {σ C Hi T Lo V : Type} [ActTree σ T Lo V] [VebTree T Lo V] [ActColl σ C Hi T Lo V]
    [TreeCollection C Hi T Lo V] (h : SoundColl σ Us C Hi T Lo V) :
    ∀ [P : HTree Us σ T Lo V], Nonempty (HColl Us σ C Hi T Lo V) := by
  induction h with
  | array h => intro P; exact ⟨ArrayColl.agreeColl h⟩
  | hash h => intro P; exact ⟨HashMap.agreeColl h⟩
  | byte => intro P; exact ⟨ByteMap.Coll.agreeColl⟩
  | box _ ih =>
    intro P
    obtain ⟨Q⟩ := ih (P := P)
    exact ⟨agreeCollBox⟩
  | byteList h => intro P; exact ⟨ByteMapOf.Coll.agreeColl h⟩
  | arrayOf hi h => intro P; exact ⟨ArrayOf.agreeColl hi h⟩

theorem SoundTree.sim {σ T K V : Type} [ActTree σ T K V] [VebTree T K V] (h : SoundTree σ Us T K V) :
    Nonempty (HTree Us σ T K V) := by
  induction h with
  | plain => exact ⟨HTree.plain σ⟩
  | box _ ih =>
    obtain ⟨P⟩ := ih
    exact ⟨HTree.instBox⟩
  | sized _ ih =>
    obtain ⟨P⟩ := ih
    exact ⟨HTree.instSized⟩
  | btree h => exact ⟨BTreeMap.agreeTree h⟩
  | byteList h => exact ⟨ByteMapOf.agreeTree h⟩
  | tree hk _ _ hc ihs iht =>
    obtain ⟨PS⟩ := ihs
    obtain ⟨PT⟩ := iht
    obtain ⟨PC⟩ := hc.sim
    exact ⟨Tree.agreeTree hk⟩

/-! Code that always answers is a special case. -/

theorem HonestKey.sound {σ K Hi Lo : Type} [LinearOrder K] [VebKey K Hi Lo] [VebKeyRef K Hi Lo] [ActKey σ K Hi Lo]
    (h : HonestKey σ K Hi Lo) : SoundKey σ Us K Hi Lo :=
  ⟨fun a b => (h.cmp a b).or, fun a b => (h.eq a b).or, fun a b => (h.lt a b).or, fun a b => (h.le a b).or,
    fun a b => (h.gt a b).or, fun a b => (h.ge a b).or, fun k => (h.splitVal k).or, fun k => (h.splitRef k).or,
    fun k => (h.splitDone k).or, fun a b => (h.join a b).or⟩
theorem HonestIndex.sound {σ Hi : Type} [SizedVebKey Hi] [ActIndex σ Hi] (h : HonestIndex σ Hi) : SoundIndex σ Us Hi :=
  ⟨h.cardinality, fun a => (h.index a).or⟩
theorem HonestHash.sound {σ Hi : Type} [DecidableEq Hi] [ActHash σ Hi] (h : HonestHash σ Hi) : SoundHash σ Us Hi :=
  ⟨fun l a n => (h.probe l a n).or, fun a => (h.hashing a).or, fun a => (h.clone a).or⟩
theorem HonestOrd.sound {σ K : Type} [LinearOrder K] [ActOrd σ K] (h : HonestOrd σ K) : SoundOrd σ Us K :=
  ⟨fun l a n => (h.search l a n).or, fun l a n => (h.below l a n).or, fun l a n => (h.above l a n).or,
    fun l a n => (h.around l a n).or⟩
theorem HonestColl.sound {σ C Hi T Lo V : Type} [ActTree σ T Lo V] [VebTree T Lo V] [ActColl σ C Hi T Lo V]
    [TreeCollection C Hi T Lo V] (h : HonestColl σ C Hi T Lo V) : SoundColl σ Us C Hi T Lo V := by
  induction h with
  | array h => exact .array h.sound
  | hash h => exact .hash h.sound
  | byte => exact .byte
  | box _ ih => exact .box ih
theorem HonestTree.sound {σ T K V : Type} [ActTree σ T K V] [VebTree T K V] (h : HonestTree σ T K V) : SoundTree σ Us T K V := by
  induction h with
  | plain => exact .plain
  | btree h => exact .btree h.sound
  | box _ ih => exact .box ih
  | sized _ ih => exact .sized ih
  | tree hk _ _ hc ihs iht => exact .tree hk.sound ihs iht hc.sound
theorem HonestTree.sim {σ T K V : Type} [ActTree σ T K V] [VebTree T K V] (h : HonestTree σ T K V) :
    Nonempty (HTree NoPanics σ T K V) := h.sound.sim

variable {σ T K V : Type} [ActTree σ T K V] [VebTree T K V] [P : HTree Us σ T K V]

theorem writeOpt_good {t : T} (ht : P.W t) (w : V) {o : Option (K × V × (V → T))} (h : PutO P.W o) :
    AllO P.W (Exec.writeOpt t w o).1 := by
  obtain _ | ⟨k, v, put⟩ := o
  · exact allO_some ht
  · exact allO_some (h _ rfl w)
theorem removed_good {r : Option T × (K × V)} (h : AllO P.W r.1) : AllO P.W (Exec.removed r).1 := h

theorem honest_stepTree {t : T} (ht : P.W t) (op : Op K V) :
    Follows Us (fun r => AllO P.W r.1) (ActExec.stepTree (σ := σ) t op) (Exec.stepTree t op) := by
  have hs := allO_some ht
  cases op with
  | insert k v => exact (P.insert t k v ht).bind fun r hr => .ret (allO_some hr)
  | remove k =>
    refine (P.remove t k ht).bind fun r hr => ?_
    obtain r | u := r
    · exact .ret (removed_good hr)
    · exact .ret (allO_some hr)
  | removeMin => exact (P.removeMin t ht).bind fun r hr => .ret (removed_good hr)
  | removeMax => exact (P.removeMax t ht).bind fun r hr => .ret (removed_good hr)
  | find k => exact (P.find t k ht).bind fun _ _ => .ret hs
  | predecessor k => exact (P.predecessor t k ht).bind fun _ _ => .ret hs
  | successor k => exact (P.successor t k ht).bind fun _ _ => .ret hs
  | minVal => exact (P.minVal t ht).bind fun _ _ => .ret hs
  | maxVal => exact (P.maxVal t ht).bind fun _ _ => .ret hs
  | isMonad => exact (P.isMonad t ht).bind fun _ _ => .ret hs
  | intoMonad =>
    refine (P.intoMonad t ht).bind fun r hr => ?_
    obtain r | u := r
    · exact .ret allO_none
    · exact .ret (allO_some (hr u rfl))
  | findSet k w => exact (P.findMut t k ht).bind fun _ h => .ret (writeOpt_good ht w h)
  | predecessorSet k w => exact (P.predecessorMut t k ht).bind fun _ h => .ret (writeOpt_good ht w h)
  | successorSet k w => exact (P.successorMut t k ht).bind fun _ h => .ret (writeOpt_good ht w h)
  | minSet w => exact (P.minValMut t ht).bind fun _ h => .ret (writeOpt_good ht w (putO_some h))
  | maxSet w => exact (P.maxValMut t ht).bind fun _ h => .ret (writeOpt_good ht w (putO_some h))

theorem honest_step {t : Option T} (ht : AllO P.W t) (op : Op K V) :
    Follows Us (fun r => AllO P.W r.1) (ActExec.step (σ := σ) t op) (Exec.step t op) := by
  obtain _ | t := t
  · cases op with
    | insert k v =>
      have h := P.fromMonad k v
      show Follows _ _ (pure (some (ActTree.fromMonad σ k v), _)) _
      rw [h.1]
      exact .ret (allO_some h.2)
    | _ => exact .ret allO_none
  · exact honest_stepTree (ht t rfl) op

theorem honest_run {t : Option T} (ht : AllO P.W t) (ops : List (Op K V)) :
    Follows Us (fun r => AllO P.W r.1) (ActExec.run (σ := σ) t ops) (Exec.run t ops) := by
  induction ops generalizing t with
  | nil => exact .ret ht
  | cons op ops ih =>
    refine (honest_step ht op).bind fun r hr => ?_
    exact (ih hr).bind fun r hr => .ret hr

end Veb
