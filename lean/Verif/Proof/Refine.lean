import Verif.Model.Exec
import Verif.Proof.Lawful
import Verif.Proof.SLLemmas

/-!
Every history whose insertions are `Safe` runs like the ordered association list.
-/

namespace Veb
open Exec

section
variable {T K V : Type} [LinearOrder K] [VebTree T K V] [L : LawfulVebTree T K V]

/-- The optional tree `t` holds exactly the entries listed in `l`. -/
def Rel (t : Option T) (l : SL K V) : Prop :=
  match t with
  | none => l = []
  | some t => L.Inv t ∧ SL.Lists l (L.abs t)

theorem rel_remOk {M : Map K V} {l : SL K V} {o : Option T} (h : RemOk L.Inv L.abs M o) (hl : SL.Lists l M) :
    Rel o l := by
  cases o with
  | none => exact hl.nil_iff.2 h
  | some t => exact ⟨h.1, h.2 ▸ hl⟩

theorem minE_some {t : T} {l : SL K V} {e : K × V} (hl : SL.Lists l (L.abs t)) (h : (L.abs t).IsMin e) :
    SL.minE l = some e := hl.minE.2 h
theorem maxE_some {t : T} {l : SL K V} {e : K × V} (hl : SL.Lists l (L.abs t)) (h : (L.abs t).IsMax e) :
    SL.maxE l = some e := hl.maxE.2 h

theorem rel_write {t : T} {l : SL K V} {w : V} {r : Option (K × V × (V → T))} {Q : Option (K × V) → Prop}
    {e : Option (K × V)} (I : L.Inv t) (hl : SL.Lists l (L.abs t)) (h : MutOk L.Inv L.abs t Q r)
    (hQ : ∀ r, Q r → r = e) (hm : ∀ p, e = some p → (L.abs t).Mem p.1) :
    (writeOpt t w r).2 = .kv e ∧ Rel (writeOpt t w r).1 (SL.setAt l e w) := by
  have he := hQ _ h.1
  obtain _ | ⟨k, v, put⟩ := r
  · simp only [Option.map_none] at he
    subst he
    exact ⟨rfl, I, hl⟩
  · simp only [Option.map_some] at he
    subst he
    refine ⟨rfl, ?_⟩
    have := h.2 k v put rfl w
    refine ⟨this.1, ?_⟩
    show SL.Lists (SL.set l k w) (L.abs (put w))
    rw [this.2]
    exact hl.set w (hm _ rfl)

theorem pred_mem {t : T} {l : SL K V} (hl : SL.Lists l (L.abs t)) {k : K} :
    ∀ p, SL.pred l k = some p → (L.abs t).Mem p.1 := by
  intro p hp
  have := hl.pred k
  rw [hp] at this
  exact Map.mem_of this.1
theorem succ_mem {t : T} {l : SL K V} (hl : SL.Lists l (L.abs t)) {k : K} :
    ∀ p, SL.succ l k = some p → (L.abs t).Mem p.1 := by
  intro p hp
  have := hl.succ k
  rw [hp] at this
  exact Map.mem_of this.1

/-- One call. -/
theorem step_ok {t : Option T} {l : SL K V} (h : Rel t l) (op : Op K V)
    (hs : ∀ k v, op = .insert k v → l = [] ∨ L.Safe (SL.keys l) k) :
    ∃ t', Exec.step t op = .ok (t', (SL.step l op).2) ∧ Rel t' (SL.step l op).1 := by
  obtain _ | t := t
  · have h : l = [] := h
    subst h
    cases op with
    | insert k v =>
      refine ⟨_, rfl, (L.fromMonad k v).1, ?_⟩
      rw [(L.fromMonad k v).2]
      exact SL.lists_single k v
    | _ => exact ⟨none, rfl, rfl⟩
  · obtain ⟨I, hl⟩ := h
    have hne : l ≠ [] := by
      intro e
      obtain ⟨k, hk⟩ := L.nonempty t I
      rw [hl.nil_iff.1 e] at hk
      exact Map.mem_empty k hk
    cases op with
    | insert k v =>
      have hsafe : L.Safe (L.abs t).Mem k := by
        rcases hs k v rfl with h | h
        · exact absurd h hne
        · rwa [hl.keys] at h
      obtain ⟨t', h1, h2, h3⟩ := L.insert t k v I hsafe
      refine ⟨some t', ?_, h2, h3 ▸ hl.insert k v⟩
      simp [Exec.step, stepTree, h1, SL.step, hl.find k]
    | remove k =>
      rcases hk : L.abs t k with _ | v
      · refine ⟨some t, ?_, I, ?_⟩
        · simp [Exec.step, stepTree, L.remove_none t k I hk, SL.step, hl.find k, hk]
        · have := hl.erase k
          rw [Map.upd_none_of_none hk] at this
          exact this
      · obtain ⟨o, h1, h2⟩ := L.remove_some t k v I hk
        refine ⟨o, ?_, rel_remOk h2 (hl.erase k)⟩
        simp [Exec.step, stepTree, h1, SL.step, hl.find k, hk, removed]
    | removeMin =>
      obtain ⟨o, kv, h1, h2, h3⟩ := L.removeMin t I
      have he := minE_some hl h2
      refine ⟨o, ?_, rel_remOk h3 (hl.tail he)⟩
      simp [Exec.step, stepTree, h1, SL.step, removed, he]
    | removeMax =>
      obtain ⟨o, kv, h1, h2, h3⟩ := L.removeMax t I
      have he := maxE_some hl h2
      refine ⟨o, ?_, rel_remOk h3 (hl.dropLast he)⟩
      simp [Exec.step, stepTree, h1, SL.step, removed, he]
    | find k =>
      exact ⟨some t, by simp [Exec.step, stepTree, L.find t k I, SL.step, hl.find k], I, hl⟩
    | predecessor k =>
      obtain ⟨r, h1, h2⟩ := L.predecessor t k I
      exact ⟨some t, by simp [Exec.step, stepTree, h1, SL.step, hl.pred_eq h2], I, hl⟩
    | successor k =>
      obtain ⟨r, h1, h2⟩ := L.successor t k I
      exact ⟨some t, by simp [Exec.step, stepTree, h1, SL.step, hl.succ_eq h2], I, hl⟩
    | minVal =>
      obtain ⟨kv, h1, h2⟩ := L.minVal t I
      exact ⟨some t, by simp [Exec.step, stepTree, h1, SL.step, minE_some hl h2], I, hl⟩
    | maxVal =>
      obtain ⟨kv, h1, h2⟩ := L.maxVal t I
      exact ⟨some t, by simp [Exec.step, stepTree, h1, SL.step, maxE_some hl h2], I, hl⟩
    | isMonad =>
      obtain ⟨b, h1, h2⟩ := L.isMonad t I
      refine ⟨some t, ?_, I, hl⟩
      have : b = (l.length == 1) := by
        rw [Bool.eq_iff_iff, h2, ← hl.length_one, beq_iff_eq]
      simp [Exec.step, stepTree, h1, SL.step, this]
    | intoMonad =>
      rcases L.intoMonad t I with ⟨k, v, h1, h2⟩ | ⟨h1, h2⟩
      · rw [h2] at hl
        have := hl.unique (SL.lists_single k v)
        subst this
        exact ⟨none, by simp [Exec.step, stepTree, h1, SL.step], by simp [SL.step, Rel]⟩
      · have h3 : l.length ≠ 1 := mt hl.length_one.1 h2
        exact ⟨some t, by simp [Exec.step, stepTree, h1, SL.step, h3], by simp [SL.step, h3, Rel, I, hl]⟩
    | findSet k w =>
      obtain ⟨r, h1, h2⟩ := L.findMut t k I
      have := rel_write (w := w) (e := SL.find l k) I hl h2
        (fun r hr => by rw [hr, hl.find]) (fun p hp => by
          rw [hl.find] at hp
          rcases hk : L.abs t k with _ | v
          · rw [hk] at hp; cases hp
          · rw [hk] at hp; cases hp; exact Map.mem_of hk)
      refine ⟨_, ?_, this.2⟩
      simp [Exec.step, stepTree, h1, SL.step, ← this.1]
    | predecessorSet k w =>
      obtain ⟨r, h1, h2⟩ := L.predecessorMut t k I
      have := rel_write (w := w) (e := SL.pred l k) I hl h2 (fun r hr => hl.pred_eq hr) (pred_mem hl)
      refine ⟨_, ?_, this.2⟩
      simp [Exec.step, stepTree, h1, SL.step, ← this.1]
    | successorSet k w =>
      obtain ⟨r, h1, h2⟩ := L.successorMut t k I
      have := rel_write (w := w) (e := SL.succ l k) I hl h2 (fun r hr => hl.succ_eq hr) (succ_mem hl)
      refine ⟨_, ?_, this.2⟩
      simp [Exec.step, stepTree, h1, SL.step, ← this.1]
    | minSet w =>
      obtain ⟨p, h1, h2, h3⟩ := L.minValMut t I
      have he := minE_some hl h2
      refine ⟨some (p.2.2 w), ?_, (h3 w).1, ?_⟩
      · simp [Exec.step, stepTree, h1, SL.step, writeOpt, he]
      · simp only [SL.step, he, SL.setAt]
        rw [(h3 w).2]
        exact hl.set w (Map.mem_of h2.1)
    | maxSet w =>
      obtain ⟨p, h1, h2, h3⟩ := L.maxValMut t I
      have he := maxE_some hl h2
      refine ⟨some (p.2.2 w), ?_, (h3 w).1, ?_⟩
      · simp [Exec.step, stepTree, h1, SL.step, writeOpt, he]
      · simp only [SL.step, he, SL.setAt]
        rw [(h3 w).2]
        exact hl.set w (Map.mem_of h2.1)

/-- A whole history. -/
theorem run_ok {t : Option T} {l : SL K V} (h : Rel t l) (ops : List (Op K V))
    (hs : SL.SafeHist L.Safe l ops) :
    ∃ t', Exec.run t ops = .ok (t', (SL.run l ops).2) ∧ Rel t' (SL.run l ops).1 := by
  induction ops generalizing t l with
  | nil => exact ⟨t, rfl, h⟩
  | cons op ops ih =>
    obtain ⟨h1, h2⟩ := hs
    obtain ⟨t1, e1, r1⟩ := step_ok h op (by rintro k v rfl; exact h1)
    obtain ⟨t2, e2, r2⟩ := ih r1 h2
    exact ⟨t2, by simp [Exec.run, e1, e2, SL.run], r2⟩

theorem rel_none : Rel (none : Option T) ([] : SL K V) := rfl

/-- `Safe` everywhere makes every history safe. -/
theorem safeHist_of_always (h : ∀ P k, L.Safe P k) (l : SL K V) (ops : List (Op K V)) :
    SL.SafeHist L.Safe l ops := by
  induction ops generalizing l with
  | nil => trivial
  | cons op ops ih =>
    refine ⟨?_, ih _⟩
    cases op <;> first | trivial | exact .inr (h _ _)

end
end Veb
