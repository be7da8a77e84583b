import Verif.Model.Repaired
import Verif.SpecKeyObj
import Verif.Proof.KeyPtr
import Mathlib.Data.List.Perm.Basic

/-!
Lemmas for `Verif.Props.Repaired`.
-/

set_option autoImplicit false

namespace Veb

variable {K V : Type} [OrdKey K]

namespace TotalPreorder

theorem eq_symm (h : TotalPreorder K) {a b : K} (e : OrdKey.cmp a b = .eq) : OrdKey.cmp b a = .eq := by
  rw [h.swap, e]; rfl

theorem eq_trans (h : TotalPreorder K) {a b c : K} (e : OrdKey.cmp a b = .eq) (f : OrdKey.cmp b c = .eq) :
    OrdKey.cmp a c = .eq := by
  have h1 : OrdKey.cmp a c ≠ .gt := h.trans a b c (by rw [e]; decide) (by rw [f]; decide)
  have h2 : OrdKey.cmp c a ≠ .gt := h.trans c b a (by rw [h.eq_symm f]; decide) (by rw [h.eq_symm e]; decide)
  rw [h.swap a c] at h2
  revert h1 h2
  cases OrdKey.cmp a c <;> decide

end TotalPreorder

/-- no two keys are equal -/
def Apart (l : List (K × V)) : Prop := l.Pairwise (fun p q => OrdKey.cmp p.1 q.1 ≠ .eq)

theorem Apart.perm (h : TotalPreorder K) {l m : List (K × V)} (hp : l.Perm m) (ha : Apart l) : Apart m :=
  (hp.pairwise_iff (fun {_ _} hn e => hn (h.eq_symm e))).1 ha

theorem Apart.unique (h : TotalPreorder K) {l : List (K × V)} (ha : Apart l) {p q : K × V} (hp : p ∈ l) (hq : q ∈ l)
    (e : OrdKey.cmp p.1 q.1 = .eq) : p = q := by
  induction l with
  | nil => cases hp
  | cons a l ih =>
    obtain ⟨h1, h2⟩ := List.pairwise_cons.1 ha
    rcases List.mem_cons.1 hp with rfl | hp' <;> rcases List.mem_cons.1 hq with rfl | hq'
    · rfl
    · exact absurd e (h1 _ hq')
    · exact absurd (h.eq_symm e) (h1 _ hp')
    · exact ih h2 hp' hq'

theorem Apart.find (h : TotalPreorder K) {l m : List (K × V)} (hp : l.Perm m) (ha : Apart l) (k : K) :
    l.find? (fun p => OrdKey.cmp p.1 k == .eq) = m.find? (fun p => OrdKey.cmp p.1 k == .eq) := by
  have key : ∀ {l m : List (K × V)}, l.Perm m → Apart l → ∀ p,
      l.find? (fun p => OrdKey.cmp p.1 k == .eq) = some p → m.find? (fun p => OrdKey.cmp p.1 k == .eq) = some p := by
    intro l m hp ha p e
    have h1 : OrdKey.cmp p.1 k = .eq := by simpa using List.find?_some e
    have h2 : p ∈ m := hp.mem_iff.1 (List.mem_of_find?_eq_some e)
    cases e' : m.find? (fun p => OrdKey.cmp p.1 k == .eq) with
    | none => exact absurd h1 (by simpa using List.find?_eq_none.1 e' p h2)
    | some q =>
      have h3 : OrdKey.cmp q.1 k = .eq := by simpa using List.find?_some e'
      exact congrArg some ((ha.perm h hp).unique h (List.mem_of_find?_eq_some e') h2 (h.eq_trans h3 (h.eq_symm h1)))
  apply Option.ext
  intro p
  exact ⟨key hp ha p, key hp.symm (ha.perm h hp) p⟩

theorem stdInsert_perm (k : K) (v : V) (l : List (K × V)) (ha : ∀ p ∈ l, OrdKey.cmp k p.1 ≠ .eq) :
    (OBTreeMap.stdInsert k v l).Perm ((k, v) :: l) := by
  induction l with
  | nil => exact .refl _
  | cons p l ih =>
    obtain ⟨k', v'⟩ := p
    unfold OBTreeMap.stdInsert
    have h1 : OrdKey.cmp k k' ≠ .eq := ha _ (.head _)
    cases e : OrdKey.cmp k k' with
    | lt => exact .refl _
    | eq => exact absurd e h1
    | gt => exact ((ih fun p hp => ha p (.tail _ hp)).cons _).trans (.swap _ _ _)

/-- One insertion on the model and on the specification. -/
theorem RBTreeMap.insert_ok (h : TotalPreorder K) {e l : List (K × V)} (hp : e.Perm l) (ha : Apart e) (k : K) (v : V) :
    ∃ e', VebTree.insert (⟨⟨e⟩⟩ : RBTreeMap K V) k v = .ok (⟨⟨e'⟩⟩, (objInsert l k v).2) ∧
      e'.Perm (objInsert l k v).1 ∧ Apart e' := by
  have h1 : OBTreeMap.stdErase e k = e.filter (fun p => OrdKey.cmp p.1 k != .eq) := rfl
  have h2 : ∀ p ∈ OBTreeMap.stdErase e k, OrdKey.cmp k p.1 ≠ .eq := by
    intro p hq hc
    rw [h1, List.mem_filter] at hq
    have := hq.2
    rw [h.eq_symm hc] at this
    exact absurd this (by decide)
  have h3 := stdInsert_perm k v _ h2
  refine ⟨_, ?_, h3.trans ?_, ?_⟩
  · show Except.ok _ = Except.ok _
    congr 2
    exact ha.find h hp k
  · exact (hp.filter _).cons _
  · refine Apart.perm h h3.symm (List.pairwise_cons.2 ⟨h2, ?_⟩)
    exact List.Pairwise.filter _ ha

theorem RBTreeMap.run_ok (h : TotalPreorder K) (ins : List (K × V)) : ∀ {e l : List (K × V)}, e.Perm l → Apart e →
    ∃ e', Exec.run (some (⟨⟨e⟩⟩ : RBTreeMap K V)) (ins.map fun (p : K × V) => Op.insert p.1 p.2) =
        .ok (some ⟨⟨e'⟩⟩, (objRun l ins).map Out.kv) ∧
      e'.Perm (objAfter l ins) ∧ Apart e' := by
  induction ins with
  | nil => intro e l hp ha; exact ⟨e, rfl, hp, ha⟩
  | cons p ins ih =>
    intro e l hp ha
    obtain ⟨e1, h1, hp1, ha1⟩ := RBTreeMap.insert_ok h hp ha p.1 p.2
    obtain ⟨e2, h2, hp2, ha2⟩ := ih hp1 ha1
    refine ⟨e2, ?_, hp2, ha2⟩
    show (do
      let (t, o) ← Exec.stepTree (⟨⟨e⟩⟩ : RBTreeMap K V) (.insert p.1 p.2)
      let (t, os) ← Exec.run t (ins.map fun (p : K × V) => Op.insert p.1 p.2)
      pure (t, o :: os)) = _
    have : Exec.stepTree (⟨⟨e⟩⟩ : RBTreeMap K V) (.insert p.1 p.2) =
        .ok (some ⟨⟨e1⟩⟩, .kv (objInsert l p.1 p.2).2) := by
      show (do
        let (t, o) ← VebTree.insert (⟨⟨e⟩⟩ : RBTreeMap K V) p.1 p.2
        pure (some t, Out.kv o)) = _
      rw [h1]; rfl
    rw [this]
    show (do
      let (t, os) ← Exec.run (some (⟨⟨e1⟩⟩ : RBTreeMap K V)) (ins.map fun (p : K × V) => Op.insert p.1 p.2)
      pure (t, Out.kv (objInsert l p.1 p.2).2 :: os)) = _
    rw [h2]; rfl

namespace Ptr

theorem fixedU_ok {P : Ptr} {w : Nat} (h : P.hasFixed w) : @IndexOk (U w) (P.seen (P.fixedU w)) (fun _ => True) := by
  have e : P.typenumUsize (2 ^ w) = 2 ^ w := Nat.mod_eq_of_lt (Nat.pow_lt_pow_right (by decide) h.2)
  have i : ∀ x : U w, P.asUsize x = x.bits.toNat := asUsize_eq h.2.le
  refine ⟨fun k _ => ?_, fun a b _ _ hab => ?_⟩
  · show P.asUsize k < P.typenumUsize (2 ^ w)
    rw [e, i]; exact k.toNat_lt
  · exact U.ext' ((i a).symm.trans (Eq.trans hab (i b)))

theorem fixedS_ok {P : Ptr} {w : Nat} (h : P.hasFixed w) : @IndexOk (S w) (P.seen (P.fixedS w)) (fun _ => True) := by
  have e : P.typenumUsize (2 ^ w) = 2 ^ w := Nat.mod_eq_of_lt (Nat.pow_lt_pow_right (by decide) h.2)
  have i : ∀ x : U w, P.asUsize x = x.bits.toNat := asUsize_eq h.2.le
  have hw := has_pos h.1
  refine ⟨fun k _ => ?_, fun a b _ _ hab => ?_⟩
  · show P.asUsize (k.absDiff S.MIN) < P.typenumUsize (2 ^ w)
    rw [e, i]; exact (k.absDiff S.MIN).toNat_lt
  · have := U.ext' ((i _).symm.trans (Eq.trans hab (i _)))
    rw [← S.ofU_absDiff hw a, ← S.ofU_absDiff hw b, this]

end Ptr
end Veb
