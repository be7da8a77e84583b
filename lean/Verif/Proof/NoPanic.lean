import Verif.Proof.PhysTree
import Verif.Proof.Crate
import Verif.SpecPanic

/-!
All tree types of the crate keep their structure; no history panics.
-/

set_option autoImplicit false
set_option linter.unusedSectionVars false

namespace Veb

theorem CrateTree.phys {T K V : Type} [LinearOrder K] [VebTree T K V] {safe : (K → Prop) → K → Prop}
    (h : CrateTree T K V safe) : Nonempty (PhysTree T K V) := by
  induction h with
  | byteSet => exact ⟨PhysTree.ofLawful fun _ _ => trivial⟩
  | byteMap => exact ⟨PhysTree.ofLawful fun _ _ => trivial⟩
  | btreeMap => exact ⟨PhysTree.ofLawful fun _ _ => trivial⟩
  | box _ ih => obtain ⟨P⟩ := ih; exact ⟨inferInstance⟩
  | sized _ ih => obtain ⟨P⟩ := ih; exact ⟨inferInstance⟩
  | tree hk _ _ hc ihs iht =>
    have := hk.lawful
    obtain ⟨LC⟩ := hc.lawful
    obtain ⟨PS⟩ := ihs
    obtain ⟨PT⟩ := iht
    exact ⟨inferInstance⟩

theorem UncountedTree.phys {T K V : Type} [LinearOrder K] [VebTree T K V] (h : UncountedTree T K V) :
    ∃ P : PhysTree T K V, ¬ P.limited := by
  induction h with
  | byteSet => exact ⟨PhysTree.ofLawful fun _ _ => trivial, id⟩
  | byteMap => exact ⟨PhysTree.ofLawful fun _ _ => trivial, id⟩
  | btreeMap => exact ⟨PhysTree.ofLawful fun _ _ => trivial, id⟩
  | box _ ih => obtain ⟨P, h⟩ := ih; exact ⟨inferInstance, h⟩
  | tree hk _ _ hc ihs iht =>
    have := hk.lawful
    obtain ⟨LC⟩ := hc.lawful
    obtain ⟨PS, hs⟩ := ihs
    obtain ⟨PT, ht⟩ := iht
    exact ⟨inferInstance, fun h => h.elim hs ht⟩

section
variable {T K V : Type} [LinearOrder K] [VebTree T K V] [P : PhysTree T K V]

/-- the structure of an optional tree with at most `n` stored keys -/
def OptW (n : Nat) : Option T → Prop
  | none => True
  | some t => P.W t ∧ (P.bag t).card ≤ n

theorem optW_mono {n m : Nat} (h : n ≤ m) {t : Option T} (ht : OptW n t) : OptW m t := by
  cases t with
  | none => trivial
  | some t => exact ⟨ht.1, ht.2.trans h⟩

theorem InsRel.card {k : K} {b b' : Multiset K} {o : Option (K × V)} (h : InsRel k b b' o) :
    b'.card = b.card + (if o.isNone then 1 else 0) := by
  cases o with
  | none => simp only [InsRel] at h; simp [h]
  | some e => obtain ⟨r, rfl, rfl⟩ := h; simp

theorem optW_rest {t : T} {n : Nat} (h : (P.bag t).card ≤ n) {k : K} {o : Option T}
    (hr : RestRel P.W P.bag (P.bag t) k o) : OptW n o := by
  cases o with
  | none => trivial
  | some t' =>
    refine ⟨hr.1, ?_⟩
    have := hr.2
    rw [this, Multiset.card_cons] at h
    omega

theorem optW_mut {t : T} {n : Nat} (I : P.W t) (h : (P.bag t).card ≤ n) (w : V) {r : Option (K × V × (V → T))}
    (hr : MutPhys P.W P.bag t r) : OptW n (Exec.writeOpt t w r).1 := by
  obtain _ | ⟨k, v, put⟩ := r
  · exact ⟨I, h⟩
  · exact ⟨(hr.2 w).1, by rw [(hr.2 w).2]; exact h⟩

theorem phys_step {n : Nat} {t : Option T} (h : OptW n t) (op : Op K V)
    (hl : P.limited → n + insertions [op] ≤ usizeMax) :
    ∃ t' o, Exec.step t op = .ok (t', o) ∧ OptW (n + insertions [op]) t' := by
  obtain _ | t := t
  · cases op with
    | insert k v =>
      refine ⟨_, _, rfl, (P.fromMonad k v).1, ?_⟩
      rw [(P.fromMonad k v).2]
      simp [insertions]
    | _ => exact ⟨none, _, rfl, trivial⟩
  · obtain ⟨I, hn⟩ := h
    cases op with
    | insert k v =>
      obtain ⟨t', o, h1, h2, h3, -⟩ := P.insert t k v I fun hlim => by
        have := hl hlim
        simp only [insertions, List.countP_singleton, if_true] at this
        omega
      refine ⟨some t', .kv o, by simp [Exec.step, Exec.stepTree, h1], h2, ?_⟩
      rw [h3.card]
      simp only [insertions, List.countP_singleton, if_true]
      split <;> omega
    | remove k =>
      rcases P.remove t k I with ⟨h1, -⟩ | ⟨o, v, h1, h2⟩
      · exact ⟨some t, _, by simp only [Exec.step, Exec.stepTree, h1]; rfl, I, hn⟩
      · exact ⟨_, _, by simp only [Exec.step, Exec.stepTree, h1]; rfl, optW_rest hn h2⟩
    | removeMin =>
      obtain ⟨o, k, v, -, h1, h2⟩ := P.removeMin t I
      exact ⟨_, _, by simp only [Exec.step, Exec.stepTree, h1]; rfl, optW_rest hn h2⟩
    | removeMax =>
      obtain ⟨o, k, v, -, h1, h2⟩ := P.removeMax t I
      exact ⟨_, _, by simp only [Exec.step, Exec.stepTree, h1]; rfl, optW_rest hn h2⟩
    | find k =>
      obtain ⟨r, h1, -⟩ := P.find t k I
      exact ⟨some t, _, by simp only [Exec.step, Exec.stepTree, h1]; rfl, I, hn⟩
    | predecessor k =>
      obtain ⟨r, h1, -⟩ := P.predecessor t k I
      exact ⟨some t, _, by simp only [Exec.step, Exec.stepTree, h1]; rfl, I, hn⟩
    | successor k =>
      obtain ⟨r, h1, -⟩ := P.successor t k I
      exact ⟨some t, _, by simp only [Exec.step, Exec.stepTree, h1]; rfl, I, hn⟩
    | minVal =>
      obtain ⟨k, v, h1, -⟩ := P.minVal t I
      exact ⟨some t, _, by simp only [Exec.step, Exec.stepTree, h1]; rfl, I, hn⟩
    | maxVal =>
      obtain ⟨k, v, h1, -⟩ := P.maxVal t I
      exact ⟨some t, _, by simp only [Exec.step, Exec.stepTree, h1]; rfl, I, hn⟩
    | isMonad =>
      obtain ⟨b, h1, -⟩ := P.isMonad t I
      exact ⟨some t, _, by simp only [Exec.step, Exec.stepTree, h1]; rfl, I, hn⟩
    | intoMonad =>
      rcases P.intoMonad t I with ⟨k, v, h1, -⟩ | ⟨h1, -⟩
      · exact ⟨none, _, by simp only [Exec.step, Exec.stepTree, h1]; rfl, trivial⟩
      · exact ⟨some t, _, by simp only [Exec.step, Exec.stepTree, h1]; rfl, I, hn⟩
    | findSet k w =>
      obtain ⟨r, h1, h2⟩ := P.findMut t k I
      exact ⟨_, _, by simp only [Exec.step, Exec.stepTree, h1]; rfl, optW_mut I hn w h2⟩
    | predecessorSet k w =>
      obtain ⟨r, h1, h2⟩ := P.predecessorMut t k I
      exact ⟨_, _, by simp only [Exec.step, Exec.stepTree, h1]; rfl, optW_mut I hn w h2⟩
    | successorSet k w =>
      obtain ⟨r, h1, h2⟩ := P.successorMut t k I
      exact ⟨_, _, by simp only [Exec.step, Exec.stepTree, h1]; rfl, optW_mut I hn w h2⟩
    | minSet w =>
      obtain ⟨r, h1, h2⟩ := P.minValMut t I
      exact ⟨_, _, by simp only [Exec.step, Exec.stepTree, h1]; rfl, optW_mut I hn w h2⟩
    | maxSet w =>
      obtain ⟨r, h1, h2⟩ := P.maxValMut t I
      exact ⟨_, _, by simp only [Exec.step, Exec.stepTree, h1]; rfl, optW_mut I hn w h2⟩

theorem insertions_cons (op : Op K V) (ops : List (Op K V)) :
    insertions (op :: ops) = insertions [op] + insertions ops := by
  rw [insertions, insertions, insertions, ← List.countP_append]; rfl

theorem phys_run {n : Nat} {t : Option T} (h : OptW n t) (ops : List (Op K V))
    (hl : P.limited → n + insertions ops ≤ usizeMax) :
    ∃ t' os, Exec.run t ops = .ok (t', os) ∧ OptW (n + insertions ops) t' := by
  induction ops generalizing n t with
  | nil => exact ⟨t, [], rfl, h⟩
  | cons op ops ih =>
    rw [insertions_cons] at hl ⊢
    obtain ⟨t1, o, h1, h2⟩ := phys_step h op fun x => by have := hl x; omega
    obtain ⟨t2, os, h3, h4⟩ := ih h2 fun x => by have := hl x; omega
    refine ⟨t2, o :: os, by simp [Exec.run, h1, h3], ?_⟩
    rwa [Nat.add_assoc] at h4

theorem phys_reaches {ops : List (Op K V)} {t : T} (hl : P.limited → insertions ops ≤ usizeMax)
    (hr : Reaches ops t) : P.W t ∧ (P.bag t).card ≤ insertions ops := by
  obtain ⟨os, hr⟩ := hr
  obtain ⟨t', os', h1, h2⟩ := phys_run (T := T) (n := 0) (t := none) trivial ops (by simpa using hl)
  rw [hr] at h1
  cases h1
  simpa [OptW] using h2

theorem phys_allReturn {t : T} (I : P.W t) {small : Prop} (hs : small → P.limited → (P.bag t).card < usizeMax) :
    AllReturn small t where
  isMonad := by obtain ⟨r, h, -⟩ := P.isMonad t I; exact ⟨r, h⟩
  lenHint := by obtain ⟨r, h, -⟩ := P.lenHint t I; exact ⟨r, h⟩
  intoMonad := by
    rcases P.intoMonad t I with ⟨k, v, h, -⟩ | ⟨h, -⟩
    · exact ⟨_, h⟩
    · exact ⟨_, h⟩
  minVal := by obtain ⟨k, v, h, -⟩ := P.minVal t I; exact ⟨_, h⟩
  minValMut := by obtain ⟨r, h, -⟩ := P.minValMut t I; exact ⟨_, h⟩
  maxVal := by obtain ⟨k, v, h, -⟩ := P.maxVal t I; exact ⟨_, h⟩
  maxValMut := by obtain ⟨r, h, -⟩ := P.maxValMut t I; exact ⟨_, h⟩
  find k := by obtain ⟨r, h, -⟩ := P.find t k I; exact ⟨_, h⟩
  findMut k := by obtain ⟨r, h, -⟩ := P.findMut t k I; exact ⟨_, h⟩
  predecessor k := by obtain ⟨r, h, -⟩ := P.predecessor t k I; exact ⟨_, h⟩
  predecessorMut k := by obtain ⟨r, h, -⟩ := P.predecessorMut t k I; exact ⟨_, h⟩
  successor k := by obtain ⟨r, h, -⟩ := P.successor t k I; exact ⟨_, h⟩
  successorMut k := by obtain ⟨r, h, -⟩ := P.successorMut t k I; exact ⟨_, h⟩
  insert hsm k v := by obtain ⟨t', o, h, -⟩ := P.insert t k v I (hs hsm); exact ⟨_, h⟩
  remove k := by
    rcases P.remove t k I with ⟨h, -⟩ | ⟨o, v, h, -⟩
    · exact ⟨_, h⟩
    · exact ⟨_, h⟩
  removeMin := by obtain ⟨o, k, v, -, h, -⟩ := P.removeMin t I; exact ⟨_, h⟩
  removeMax := by obtain ⟨o, k, v, -, h, -⟩ := P.removeMax t I; exact ⟨_, h⟩

end
end Veb
