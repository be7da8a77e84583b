import Verif.Proof.AuditTree
import Verif.Proof.AuditBTree
import Verif.Proof.SyncTree
import Verif.Proof.HonestRun
import Verif.Proof.NoPanic
import Verif.Proof.ActRun

/-!
# Which panics code of the user can provoke: histories
-/

set_option autoImplicit false
set_option linter.unusedSectionVars false

namespace Veb

section
variable {Us : Panic → Prop} {L : Prop} {σ T K V : Type} [ActTree σ T K V] [P : Keeps σ T K V] [N : Audit Us L σ T K V]

/-- the invariant of an optional tree -/
def OA (N : Audit Us L σ T K V) (n : Nat) (o : Option T) : Prop := OptOk P.W o ∧ OptOk (N.A n) o

theorem aud_write {n : Nat} {t : T} {w : V} {r : Option (K × V × (V → T))} (J : N.A n t) (h : MutA (N.A n) r) :
    OptOk (N.A (n + 1)) (Exec.writeOpt t w r).1 := by
  obtain _ | ⟨k, v, put⟩ := r
  · exact optOk_some.2 (N.up _ _ _ (Nat.le_succ n) J)
  · exact optOk_some.2 (N.up _ _ _ (Nat.le_succ n) (h _ rfl w))

theorem opt_up {n : Nat} {o : Option T} (h : OptOk (N.A n) o) : OptOk (N.A (n + 1)) o := fun t e =>
  N.up _ _ _ (Nat.le_succ n) (h t e)

theorem aud_step {n : Nat} {t : Option T} (I : OA N n t) (l : L → n < usizeMax) (op : Op K V) :
    Aud N.E (ActExec.step (σ := σ) t op) fun r => OA N (n + 1) r.1 := by
  suffices h : Aud N.E (ActExec.step (σ := σ) t op) fun r => OptOk (N.A (n + 1)) r.1 from
    (h.and (moved_step I.1 op)).mono fun _ h => ⟨h.2.good, h.1⟩
  obtain ⟨I, J⟩ := I
  obtain _ | t := t
  · cases op with
    | insert k v => exact .ret (optOk_some.2 (N.up _ _ _ (by omega) (N.fromMonad k v)))
    | _ => exact .ret optOk_none
  · have I := I t rfl
    have J := J t rfl
    have J' := N.up _ _ _ (Nat.le_succ n) J
    have no : ∀ p, NoPanics p → N.E p := fun _ h => h.elim
    cases op with
    | insert k v => exact (N.insert n t k v I J l).bind fun r hr => .ret (optOk_some.2 hr)
    | remove k =>
      refine (N.remove n t k I J).bind fun r hr => ?_
      obtain ⟨o, e⟩ | t' := r
      · exact .ret (opt_up hr)
      · exact .ret (opt_up (optOk_some.2 hr))
    | removeMin => exact (N.removeMin n t I J).bind fun r hr => .ret (opt_up hr)
    | removeMax => exact (N.removeMax n t I J).bind fun r hr => .ret (opt_up hr)
    | find k => exact (N.find n t k I J).bind fun r hr => .ret (optOk_some.2 J')
    | predecessor k => exact (N.predecessor n t k I J).bind fun r hr => .ret (optOk_some.2 J')
    | successor k => exact (N.successor n t k I J).bind fun r hr => .ret (optOk_some.2 J')
    | minVal => exact ((N.minVal n t I J).more no).bind fun r hr => .ret (optOk_some.2 J')
    | maxVal => exact ((N.maxVal n t I J).more no).bind fun r hr => .ret (optOk_some.2 J')
    | isMonad => exact ((N.isMonad n t I J).more no).bind fun r hr => .ret (optOk_some.2 J')
    | intoMonad =>
      refine ((N.intoMonad n t I J).more no).bind fun r hr => ?_
      obtain e | t' := r
      · exact .ret optOk_none
      · exact .ret (opt_up (optOk_some.2 (hr _ rfl)))
    | findSet k w => exact (N.findMut n t k I J).bind fun r hr => .ret (aud_write J hr)
    | predecessorSet k w => exact (N.predecessorMut n t k I J).bind fun r hr => .ret (aud_write J hr)
    | successorSet k w => exact (N.successorMut n t k I J).bind fun r hr => .ret (aud_write J hr)
    | minSet w => exact ((N.minValMut n t I J).more no).bind fun r hr => .ret (aud_write J hr)
    | maxSet w => exact ((N.maxValMut n t I J).more no).bind fun r hr => .ret (aud_write J hr)

theorem aud_run {n : Nat} {t : Option T} (I : OA N n t) (ops : List (Op K V)) (l : L → n + ops.length ≤ usizeMax) :
    Aud N.E (ActExec.run (σ := σ) t ops) fun r => OA N (n + ops.length) r.1 := by
  induction ops generalizing t n with
  | nil => exact .ret I
  | cons op ops ih =>
    have e : n + (op :: ops).length = n + 1 + ops.length := by rw [List.length_cons]; omega
    rw [e] at l ⊢
    refine (aud_step I (fun x => ?_) op).bind fun r hr => (ih hr l).bind fun r hr => .ret hr
    have := l x
    omega

end

/-! ## All types in question -/

theorem AuditedColl.audit {σ C Hi T Lo V : Type} {Us : Panic → Prop} [ActTree σ T Lo V] [ActColl σ C Hi T Lo V]
    {E O : Panic → Prop} (h : AuditedColl σ Us C Hi T Lo V E O) (L : Prop) :
    ∀ (_ : Keeps σ T Lo V) (N : Audit Us L σ T Lo V), ∃ _ : KeepsColl σ C Hi T Lo V, ∃ B : AuditC Us L σ C Hi T Lo V, ∀ p, B.E p → N.E p ∨ E p ∨ ¬ L ∧ O p := by
  induction h with
  | array h => exact fun P N => ⟨KeepsColl.instArray, .array h, fun p hp => hp⟩
  | hash h => exact fun P N => ⟨KeepsColl.instHash, .hash h, fun p hp => hp.imp_right .inl⟩
  | byte => exact fun P N => ⟨KeepsColl.instByte, .byte, fun p hp => hp.imp_right .inl⟩
  | box h ih =>
    intro P N
    obtain ⟨Q, B, hB⟩ := ih P N
    exact ⟨.box Q, .box Q B, hB⟩

theorem SyncedColl.sync {σ C Hi T Lo V : Type} {Us : Panic → Prop} [ActTree σ T Lo V] [ActColl σ C Hi T Lo V]
    (h : SyncedColl σ Us C Hi T Lo V) (L : Prop) :
    ∀ (_ : Keeps σ T Lo V) (_ : Audit Us L σ T Lo V), ∃ _ : KeepsColl σ C Hi T Lo V, Nonempty (SyncC Us L σ C Hi T Lo V) := by
  induction h with
  | array h hi =>
    obtain ⟨f, hf⟩ := hi
    exact fun P N => ⟨KeepsColl.instArray, ⟨.array h hf⟩⟩
  | hash h hi => exact fun P N => ⟨KeepsColl.instHash, ⟨.hash h hi⟩⟩
  | byte => exact fun P N => ⟨KeepsColl.instByte, ⟨.byte⟩⟩
  | box h ih =>
    intro P N
    obtain ⟨Q, ⟨B⟩⟩ := ih P N
    exact ⟨.box Q, ⟨.box Q B⟩⟩

theorem AuditedTree.audit {σ T K V : Type} {Us : Panic → Prop} [ActTree σ T K V] {E O : Panic → Prop}
    (h : AuditedTree σ Us T K V E O) (L : Prop) :
    ∃ _ : Keeps σ T K V, ∃ N : Audit Us L σ T K V, ∀ p, N.E p → Us p ∨ E p ∨ ¬ L ∧ O p := by
  induction h with
  | plain h =>
    obtain ⟨P, h1, h2, -⟩ := h.obj
    refine ⟨.plain σ P h1, .plain Us L σ P h1, fun p hp => ?_⟩
    exact hp.imp_right fun hp => .inl ⟨hp.1, fun x => hp.2 (h2 x)⟩
  | box h ih =>
    obtain ⟨P, N, hN⟩ := ih
    exact ⟨Keeps.instBox, Audit.instBox, hN⟩
  | sized h ih =>
    obtain ⟨P, N, hN⟩ := ih
    refine ⟨Keeps.instSized, Audit.instSized, fun p hp => ?_⟩
    rcases hp with hp | hp
    · rcases hN p hp with h | h | h
      · exact .inl h
      · exact .inr (.inl h)
      · exact .inr (.inr ⟨h.1, .inl h.2⟩)
    · exact .inr (.inr ⟨hp.1, .inr hp.2⟩)
  | btree h hs => exact ⟨BTreeMap.keeps hs, BTreeMap.audit h hs L, fun p hp => hp.imp_right .inl⟩
  | tree hk hs ht hc ihs iht =>
    obtain ⟨PS, NS, hS⟩ := ihs
    obtain ⟨P, N, hN⟩ := iht
    obtain ⟨Q, B, hB⟩ := hc.audit L P N
    refine ⟨Tree.instKeeps, Tree.audit hk, fun p hp => ?_⟩
    rcases hp with hp | hp | hp
    · rcases hS p hp with h | h | h
      · exact .inl h
      · exact .inr (.inl (.inl h))
      · exact .inr (.inr ⟨h.1, .inl h.2⟩)
    · rcases hB p hp with hp | h | h
      · rcases hN p hp with h | h | h
        · exact .inl h
        · exact .inr (.inl (.inr (.inl h)))
        · exact .inr (.inr ⟨h.1, .inr (.inl h.2)⟩)
      · exact .inr (.inl (.inr (.inr (.inl h))))
      · exact .inr (.inr ⟨h.1, .inr (.inr h.2)⟩)
    · exact .inr (.inl (.inr (.inr (.inr hp))))
  | synced hk hs hu ht hc iht =>
    obtain ⟨HS⟩ := hs.sim
    obtain ⟨PS, hl⟩ := hu.phys
    obtain ⟨P, N, hN⟩ := iht
    obtain ⟨Q, ⟨B⟩⟩ := hc.sync L P N
    refine ⟨Tree.instKeeps, Sync.audit hl hk, fun p hp => ?_⟩
    rcases hp with hp | hp
    · rcases hN p hp with h | h | h
      · exact .inl h
      · exact .inr (.inl (.inl h))
      · exact .inr (.inr h)
    · exact .inr (.inl (.inr hp))

end Veb
