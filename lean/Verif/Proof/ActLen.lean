import Verif.Proof.ActRun

/-!
`SizedVebTree::len` over code of the user with a state: it counts the answers, whatever the tree does.
-/

set_option autoImplicit false
set_option linter.unusedSectionVars false

namespace Veb
open Keeps

section
variable {σ T K V : Type} [ActTree σ T K V]

/-- one call changes the counter as its answer says, if a tree is left -/
def Counts (t : SizedVebTree T) (op : Op K V) (r : Option (SizedVebTree T) × Out K V) : Prop :=
  ∀ u, r.1 = some u → u.size + (takenStep op r.2).card = t.size + (givenStep op r.2).card

theorem Counts.read {t : SizedVebTree T} {op : Op K V} {o : Out K V} (h1 : takenStep op o = 0) (h2 : givenStep op o = 0) :
    Counts t op (some t, o) := by
  rintro _ ⟨⟩; rw [h1, h2]

theorem Counts.write {t : SizedVebTree T} {op : Op K V} {w : V} {r : Option (K × V × (V → T))}
    (h0 : takenStep op (.kv none) = 0 ∧ givenStep op (.kv none) = 0)
    (h1 : ∀ e, takenStep op (.kv (some e)) = {e} ∧ givenStep op (.kv (some e)) = {(e.1, w)}) :
    Counts t op (Exec.writeOpt t w (r.map (mapPut fun u => ⟨u, t.size⟩))) := by
  obtain _ | ⟨k, v, put⟩ := r
  · exact .read h0.1 h0.2
  · rintro _ ⟨⟩
    show t.size + (takenStep op (.kv (some (k, v)))).card = t.size + (givenStep op (.kv (some (k, v)))).card
    rw [(h1 _).1, (h1 _).2]; rfl

theorem counts_step (t : SizedVebTree T) (op : Op K V) : Post (ActExec.stepTree (σ := σ) t op) (Counts t op) := by
  cases op with
  | insert k v =>
    refine .bind (Q := fun r => r.1.size + (oe r.2).card = t.size + 1) (.then_ fun r => ?_) fun r hr => .ret ?_
    · obtain ⟨u, _ | e⟩ := r
      · refine Post.exp.bind fun m hm => .ret ?_
        split at hm
        · cases hm; rfl
        · cases hm
      · exact .ret rfl
    · obtain ⟨u, _ | e⟩ := r <;> rintro _ ⟨⟩ <;> exact hr
  | remove k =>
    refine .bind (Q := fun r => match r with
      | .Ok (some u, _) => u.size + 1 = t.size
      | .Ok (none, _) => True
      | .Err u => u.size = t.size) (.then_ fun r => ?_) fun r hr => ?_
    · obtain ⟨_ | u, e⟩ | u := r
      · exact .ret trivial
      · exact post_sub.bind fun m hm => Post.exp.bind fun m' hm' => .ret (by rw [nonZero_eq hm']; exact hm)
      · exact .ret rfl
    · obtain ⟨_ | u, e⟩ | u := r
      · exact .ret (by rintro _ ⟨⟩)
      · exact .ret (by rintro _ ⟨⟩; exact hr)
      · exact .ret (by rintro _ ⟨⟩; exact hr)
  | removeMin =>
    refine .bind (Q := fun r => ∀ u, r.1 = some u → u.size + 1 = t.size) (post_sub.bind fun m hm => .then_ fun r => ?_)
      fun r hr => .ret (by rintro u hu; exact hr u hu)
    obtain ⟨_ | u, e⟩ := r
    · exact .ret (by rintro _ ⟨⟩)
    · exact Post.exp.bind fun m' hm' => .ret (by rintro _ ⟨⟩; rw [nonZero_eq hm']; exact hm)
  | removeMax =>
    refine .bind (Q := fun r => ∀ u, r.1 = some u → u.size + 1 = t.size) (post_sub.bind fun m hm => .then_ fun r => ?_)
      fun r hr => .ret (by rintro u hu; exact hr u hu)
    obtain ⟨_ | u, e⟩ := r
    · exact .ret (by rintro _ ⟨⟩)
    · exact Post.exp.bind fun m' hm' => .ret (by rintro _ ⟨⟩; rw [nonZero_eq hm']; exact hm)
  | find k => exact .then_ fun r => .ret (.read rfl rfl)
  | predecessor k => exact .then_ fun r => .ret (.read rfl rfl)
  | successor k => exact .then_ fun r => .ret (.read rfl rfl)
  | minVal => exact .then_ fun r => .ret (.read rfl rfl)
  | maxVal => exact .then_ fun r => .ret (.read rfl rfl)
  | isMonad => exact .then_ fun r => .ret (.read rfl rfl)
  | intoMonad =>
    refine .bind (Q := fun r => ∀ u, r = .Err u → u.size = t.size) (.then_ fun r => ?_) fun r hr => ?_
    · obtain e | u := r
      · exact .ret (by rintro _ ⟨⟩)
      · exact .ret (by rintro _ ⟨⟩; rfl)
    · obtain e | u := r
      · exact .ret (by rintro _ ⟨⟩)
      · exact .ret (by rintro _ ⟨⟩; exact hr _ rfl)
  | findSet k w =>
    refine .bind (Q := fun r => ∃ x : Option (K × V × (V → T)), r = x.map (mapPut fun u => ⟨u, t.size⟩))
      (.then_ fun r => .ret ⟨r, rfl⟩) fun r hr => ?_
    obtain ⟨x, rfl⟩ := hr
    exact .ret (.write ⟨rfl, rfl⟩ fun e => ⟨rfl, rfl⟩)
  | predecessorSet k w =>
    refine .bind (Q := fun r => ∃ x : Option (K × V × (V → T)), r = x.map (mapPut fun u => ⟨u, t.size⟩))
      (.then_ fun r => .ret ⟨r, rfl⟩) fun r hr => ?_
    obtain ⟨x, rfl⟩ := hr
    exact .ret (.write ⟨rfl, rfl⟩ fun e => ⟨rfl, rfl⟩)
  | successorSet k w =>
    refine .bind (Q := fun r => ∃ x : Option (K × V × (V → T)), r = x.map (mapPut fun u => ⟨u, t.size⟩))
      (.then_ fun r => .ret ⟨r, rfl⟩) fun r hr => ?_
    obtain ⟨x, rfl⟩ := hr
    exact .ret (.write ⟨rfl, rfl⟩ fun e => ⟨rfl, rfl⟩)
  | minSet w =>
    refine .bind (Q := fun r => ∃ x : K × V × (V → T), r = mapPut (fun u => ⟨u, t.size⟩) x)
      (.then_ fun r => .ret ⟨r, rfl⟩) fun r hr => ?_
    obtain ⟨x, rfl⟩ := hr
    exact .ret (.write (r := some x) ⟨rfl, rfl⟩ fun e => ⟨rfl, rfl⟩)
  | maxSet w =>
    refine .bind (Q := fun r => ∃ x : K × V × (V → T), r = mapPut (fun u => ⟨u, t.size⟩) x)
      (.then_ fun r => .ret ⟨r, rfl⟩) fun r hr => ?_
    obtain ⟨x, rfl⟩ := hr
    exact .ret (.write (r := some x) ⟨rfl, rfl⟩ fun e => ⟨rfl, rfl⟩)

/-- the counter of an optional tree -/
def osize (t : Option (SizedVebTree T)) : Nat := t.elim 0 SizedVebTree.size

variable [P : Keeps σ T K V]

theorem osize_step {t : Option (SizedVebTree T)} (I : OW (σ := σ) t) (op : Op K V) :
    Post (ActExec.step (σ := σ) t op) fun r => OW (σ := σ) r.1 ∧
      osize r.1 + (takenStep op r.2).card = osize t + (givenStep op r.2).card := by
  intro s r s' e
  have hm := moved_step I op s r s' e
  refine ⟨hm.good, ?_⟩
  obtain ⟨t', o⟩ := r
  cases t' with
  | none =>
    obtain ⟨h1, h2⟩ := hm.flow.eq optOk_none
    have h2 := congrArg Multiset.card h2
    simp only [Multiset.card_add, Multiset.card_map] at h2
    cases t with
    | none => simpa [ov, osize] using h2
    | some u =>
      have h3 : u.size = (P.vals u.tree).card := (I u rfl).2 (h1 u rfl)
      have h2 : 0 + (takenStep op o).card = (P.vals u.tree).card + (givenStep op o).card := h2
      rw [← h3] at h2
      exact h2
  | some u' =>
    cases t with
    | none =>
      cases op <;> try (cases e; done)
      cases e
      rfl
    | some u => exact counts_step u op s _ s' e u' rfl

theorem osize_run {t : Option (SizedVebTree T)} (I : OW (σ := σ) t) (ops : List (Op K V)) :
    Post (ActExec.run (σ := σ) t ops) fun r =>
      osize r.1 + (takenVals ops r.2).card = osize t + (givenVals ops r.2).card := by
  simp only [takenVals, givenVals, Multiset.card_map]
  induction ops generalizing t with
  | nil => exact .ret rfl
  | cons op ops ih =>
    refine (osize_step I op).bind fun r hr => ?_
    obtain ⟨t1, o⟩ := r
    refine (ih hr.1).bind fun r h2 => .ret ?_
    obtain ⟨t2, os⟩ := r
    have e1 : (given (op :: ops) (o :: os)).card = (givenStep op o).card + (given ops os).card := Multiset.card_add _ _
    have e2 : (taken (op :: ops) (o :: os)).card = (takenStep op o).card + (taken ops os).card := Multiset.card_add _ _
    dsimp only at h2 hr ⊢
    rw [e1, e2]
    omega

end
end Veb
