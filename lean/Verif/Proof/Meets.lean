import Verif.SpecTree
import Verif.Proof.Hist
import Verif.SpecPanic

/-!
Every lawful tree meets the claims C18 – C24, C26 and C27 after histories that are safe for it.
-/

set_option autoImplicit false

namespace Veb.Meets
open VebTree

variable {T K V : Type} [LinearOrder K] [VebTree T K V]

theorem findAfterUpdate (L : LawfulVebTree T K V) : AllReachable T L.Safe (FindAfterUpdate L.Safe) := by
  refine allReachable_of L fun t I => ⟨fun k => L.find t k I, fun k v hk => ?_, fun k t' kv hr => ?_,
    fun k kv hr j hj => ?_⟩
  · obtain ⟨t', h1, h2, h3⟩ := L.insert t k v I hk
    refine ⟨t', _, h1, ?_, fun j hj => ?_⟩
    · rw [L.find t' k h2, h3]; simp
    · rw [L.find t' j h2, L.find t j I, h3]; simp [Map.upd_apply, hj]
  · rcases hk : L.abs t k with _ | v
    · rw [L.remove_none t k I hk] at hr; cases hr
    · obtain ⟨o, h1, h2⟩ := L.remove_some t k v I hk
      rw [h1] at hr
      cases hr
      refine ⟨?_, fun j hj => ?_⟩
      · rw [L.find t' k h2.1, h2.2]; simp
      · rw [L.find t' j h2.1, L.find t j I, h2.2]; simp [Map.upd_apply, hj]
  · rcases hk : L.abs t k with _ | v
    · rw [L.remove_none t k I hk] at hr; cases hr
    · obtain ⟨o, h1, h2⟩ := L.remove_some t k v I hk
      rw [h1] at hr
      cases hr
      have : (L.abs t).upd k none j = none := by rw [show (L.abs t).upd k none = Map.empty from h2]; rfl
      rw [Map.upd_apply, if_neg hj] at this
      rw [L.find t j I, this]; rfl

theorem trueExtremes (L : LawfulVebTree T K V) : AllReachable T L.Safe (TrueExtremes) := by
  refine allReachable_of L fun t I => ?_
  obtain ⟨⟨k, v⟩, h1, h2⟩ := L.minVal t I
  obtain ⟨⟨k', v'⟩, h3, h4⟩ := L.maxVal t I
  exact ⟨⟨k, v, h1, h2⟩, ⟨k', v', h3, h4⟩⟩

theorem truePredecessor (L : LawfulVebTree T K V) : AllReachable T L.Safe (TruePredecessor) := by
  refine allReachable_of L fun t I k => ?_
  obtain ⟨r, h1, h2⟩ := L.predecessor t k I
  cases r with
  | none => exact .inr ⟨h1, h2⟩
  | some e => exact .inl ⟨e.1, e.2, h1, h2⟩

theorem trueSuccessor (L : LawfulVebTree T K V) : AllReachable T L.Safe (TrueSuccessor) := by
  refine allReachable_of L fun t I k => ?_
  obtain ⟨r, h1, h2⟩ := L.successor t k I
  cases r with
  | none => exact .inr ⟨h1, h2⟩
  | some e => exact .inl ⟨e.1, e.2, h1, h2⟩

theorem insertReports (L : LawfulVebTree T K V) : AllReachable T L.Safe (InsertReports L.Safe) := by
  refine allReachable_of L fun t I k v hk => ?_
  obtain ⟨t', h1, -, -⟩ := L.insert t k v I hk
  exact ⟨fun old ho => ⟨t', by rw [h1, ho]; rfl⟩, fun hn => ⟨t', by rw [h1, hn]; rfl⟩⟩

theorem removeReports (L : LawfulVebTree T K V) : AllReachable T L.Safe (RemoveReports) := by
  refine allReachable_of L fun t I k => ⟨L.remove_none t k I, fun v hv => ?_⟩
  obtain ⟨o, h1, h2⟩ := L.remove_some t k v I hv
  exact ⟨o, h1, rest_none L h2, fun t' e => finds_without L I (e ▸ h2)⟩

theorem popsExtremes (L : LawfulVebTree T K V) : AllReachable T L.Safe (PopsExtremes) := by
  refine allReachable_of L fun t I => ⟨?_, ?_, ?_⟩
  · obtain ⟨o, kv, h1, h2, h3⟩ := L.removeMin t I
    exact ⟨o, kv.1, kv.2, h1, h2.1, h2.2, rest_none L h3, fun t' e => finds_without L I (e ▸ h3)⟩
  · obtain ⟨o, kv, h1, h2, h3⟩ := L.removeMax t I
    exact ⟨o, kv.1, kv.2, h1, h2.1, h2.2, rest_none L h3, fun t' e => finds_without L I (e ▸ h3)⟩
  · obtain ⟨l, hl⟩ := SL.exists_lists (L.finite t I)
    have hr : Rel (some t) l := ⟨I, hl⟩
    refine ⟨l, hl, ?_, ?_⟩
    · obtain ⟨t', h1, h2⟩ := run_ok hr _ (SL.safeHist_replicate L.Safe (.inl rfl) l l.length)
      rw [(SL.drain_min l).1] at h2
      rw [h1, (SL.drain_min l).2, rel_nil h2]
    · obtain ⟨t', h1, h2⟩ := run_ok hr _ (SL.safeHist_replicate L.Safe (.inr rfl) l l.length)
      rw [(SL.drain_max l).1] at h2
      rw [h1, (SL.drain_max l).2, rel_nil h2]

theorem mutAccess (L : LawfulVebTree T K V) : AllReachable T L.Safe (fun _ t => MutAccess t) := by
  refine allReachable_of L fun t I => ?_
  have wr : ∀ {k : K} {put : V → T}, PutOk L.Inv L.abs t k put → Writes t k put := by
    intro k put hp w
    obtain ⟨h1, h2⟩ := hp w
    refine ⟨?_, fun j hj => ?_⟩
    · rw [L.find _ k h1, h2]; simp
    · rw [L.find _ j h1, L.find t j I, h2]; simp [Map.upd_apply, hj]
  obtain ⟨l, hl⟩ := SL.exists_lists (L.finite t I)
  refine ⟨?_, ?_, fun q => ?_, fun q => ?_, fun q => ?_⟩
  · obtain ⟨⟨k, v, put⟩, h1, h2, h3⟩ := L.minValMut t I
    obtain ⟨kv, h4, h5⟩ := L.minVal t I
    refine ⟨k, v, put, h1, ?_, wr h3⟩
    rw [h4, Option.some.inj ((hl.minE.2 h5).symm.trans (hl.minE.2 h2))]
  · obtain ⟨⟨k, v, put⟩, h1, h2, h3⟩ := L.maxValMut t I
    obtain ⟨kv, h4, h5⟩ := L.maxVal t I
    refine ⟨k, v, put, h1, ?_, wr h3⟩
    rw [h4, Option.some.inj ((hl.maxE.2 h5).symm.trans (hl.maxE.2 h2))]
  · obtain ⟨r, h1, h2, h3⟩ := L.findMut t q I
    rw [L.find t q I, ← h2]
    obtain _ | ⟨k, v, put⟩ := r
    · exact .inl ⟨h1, rfl⟩
    · exact .inr ⟨k, v, put, h1, rfl, wr (h3 k v put rfl)⟩
  · obtain ⟨r, h1, h2, h3⟩ := L.predecessorMut t q I
    obtain ⟨r', h4, h5⟩ := L.predecessor t q I
    rw [h4, hl.pred_eq h5, ← hl.pred_eq h2]
    obtain _ | ⟨k, v, put⟩ := r
    · exact .inl ⟨h1, rfl⟩
    · exact .inr ⟨k, v, put, h1, rfl, wr (h3 k v put rfl)⟩
  · obtain ⟨r, h1, h2, h3⟩ := L.successorMut t q I
    obtain ⟨r', h4, h5⟩ := L.successor t q I
    rw [h4, hl.succ_eq h5, ← hl.succ_eq h2]
    obtain _ | ⟨k, v, put⟩ := r
    · exact .inl ⟨h1, rfl⟩
    · exact .inr ⟨k, v, put, h1, rfl, wr (h3 k v put rfl)⟩

theorem monadTruth (L : LawfulVebTree T K V) : AllReachable T L.Safe (MonadTruth) := by
  refine allReachable_of L fun t I => ?_
  have one : (L.abs t).card = 1 ↔ (L.abs t).IsSingle := by
    obtain ⟨l, hl⟩ := SL.exists_lists (L.finite t I)
    rw [hl.card, hl.length_one]
  obtain ⟨b, h1, h2⟩ := L.isMonad t I
  refine ⟨?_, ?_, fun k v => ?_, fun hc => ?_, ?_⟩
  · cases b <;> simp [h1]
  · rw [h1, one, ← h2]; simp
  · rcases L.intoMonad t I with ⟨k', v', h3, h4⟩ | ⟨h3, h4⟩
    · rw [h3, h4]
      constructor
      · intro e; cases e; rfl
      · intro e
        have e1 := (SL.lists_single k' v')
        rw [e] at e1
        have := e1.unique (SL.lists_single k v)
        cases this; rfl
    · rw [h3]
      refine ⟨fun e => (by cases e), fun e => ?_⟩
      exact absurd (e ▸ ⟨k, (Map.mem_single _ _ _).2 rfl, fun j hj => (Map.mem_single _ _ _).1 hj⟩) h4
  · rcases L.intoMonad t I with ⟨k', v', h3, h4⟩ | ⟨h3, h4⟩
    · rw [h4, Map.card_single] at hc; exact absurd rfl hc
    · exact h3
  · obtain ⟨lo, hi, h3, h4, h5⟩ := L.lenHint t I
    exact ⟨lo, hi, h3, h4, fun n hn => (h5 n hn).le⟩

theorem allReturn (L : LawfulVebTree T K V) {t : T} (I : L.Inv t) (hs : ∀ k, L.Safe (L.abs t).Mem k) : AllReturn True t where
  isMonad := let ⟨_, h, _⟩ := L.isMonad t I; ⟨_, h⟩
  lenHint := let ⟨_, _, h, _⟩ := L.lenHint t I; ⟨_, h⟩
  intoMonad := by rcases L.intoMonad t I with ⟨k', v', h3, h4⟩ | ⟨h3, h4⟩ <;> exact ⟨_, h3⟩
  minVal := let ⟨_, h, _⟩ := L.minVal t I; ⟨_, h⟩
  minValMut := let ⟨_, h, _⟩ := L.minValMut t I; ⟨_, h⟩
  maxVal := let ⟨_, h, _⟩ := L.maxVal t I; ⟨_, h⟩
  maxValMut := let ⟨_, h, _⟩ := L.maxValMut t I; ⟨_, h⟩
  find k := ⟨_, L.find t k I⟩
  findMut k := let ⟨_, h, _⟩ := L.findMut t k I; ⟨_, h⟩
  predecessor k := let ⟨_, h, _⟩ := L.predecessor t k I; ⟨_, h⟩
  predecessorMut k := let ⟨_, h, _⟩ := L.predecessorMut t k I; ⟨_, h⟩
  successor k := let ⟨_, h, _⟩ := L.successor t k I; ⟨_, h⟩
  successorMut k := let ⟨_, h, _⟩ := L.successorMut t k I; ⟨_, h⟩
  insert _ k v := let ⟨_, h, _⟩ := L.insert t k v I (hs k); ⟨_, h⟩
  remove k := by
    rcases hk : L.abs t k with _ | v
    · exact ⟨_, L.remove_none t k I hk⟩
    · obtain ⟨o, h1, -⟩ := L.remove_some t k v I hk
      exact ⟨_, h1⟩
  removeMin := let ⟨_, _, h, _⟩ := L.removeMin t I; ⟨_, h⟩
  removeMax := let ⟨_, _, h, _⟩ := L.removeMax t I; ⟨_, h⟩

/-- If every insertion is safe for the tree, every insertion that keeps the count within `usize` is for the counted tree. -/
theorem sized_safe (L : LawfulVebTree T K V) (A : ∀ P k, L.Safe P k) {ops : List (Op K V)} (hfit : FitsUsize ops) :
    SL.SafeHist (inferInstance : LawfulVebTree (SizedVebTree T) K V).Safe [] ops := by
  by_contra hns
  obtain ⟨pre, k, v, hp, -, -, hk⟩ := SL.first_unsafe hns
  have hl := entries_lists pre
  have hk : ¬ (L.Safe (SL.keys (entries pre)) k ∧
    (SL.keys (entries pre) k ∨ Set.ncard {j | SL.keys (entries pre) j} < usizeMax)) := hk
  rw [hl.keys] at hk
  have h1 : ¬ (contents pre).Mem k := fun h => hk ⟨A _ _, .inl h⟩
  have h2 : ¬ (contents pre).card < usizeMax := fun h => hk ⟨A _ _, .inr h⟩
  have h3 := hfit _ hp
  have h4 : SL.Lists (entries (pre ++ [.insert k v])) ((contents pre).upd k (some v)) := by
    rw [entries, SL.run_append]
    exact hl.insert k v
  rw [← h4.card, Map.card_upd_new hl.finite (Map.not_mem.1 h1)] at h3
  omega

end Veb.Meets
