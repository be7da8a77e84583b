import Verif.Proof.Hist

/-!
`Box` and `SizedVebTree` over an arbitrary `VebTree`, without assuming it lawful.
-/

set_option autoImplicit false
set_option linter.unusedSectionVars false

namespace Veb
open VebTree

section box
variable {T K V : Type} [VebTree T K V]

/-- Wrapping the tree part of a step. -/
def boxed {α : Type} (r : Option T × α) : Option (Box T) × α := (r.1.map Box.mk, r.2)

theorem writeOpt_box (t : T) (w : V) (r : Option (K × V × (V → T))) :
    Exec.writeOpt (⟨t⟩ : Box T) w (r.map (mapPut Box.mk)) = boxed (Exec.writeOpt t w r) := by
  obtain _ | ⟨k, v, put⟩ := r <;> rfl

theorem box_stepTree (t : T) (op : Op K V) :
    Exec.stepTree (⟨t⟩ : Box T) op = (Exec.stepTree t op).map boxed := by
  cases op with
  | insert k v =>
    simp only [Exec.stepTree, VebTree.insert]
    rcases VebTree.insert t k v with e | ⟨t', o⟩ <;> rfl
  | remove k =>
    simp only [Exec.stepTree, remove]
    rcases VebTree.remove t k with e | (⟨_ | t', o⟩ | t') <;> rfl
  | removeMin =>
    simp only [Exec.stepTree, removeMin]
    rcases VebTree.removeMin t with e | ⟨_ | t', o⟩ <;> rfl
  | removeMax =>
    simp only [Exec.stepTree, removeMax]
    rcases VebTree.removeMax t with e | ⟨_ | t', o⟩ <;> rfl
  | find k =>
    simp only [Exec.stepTree, find]
    rcases VebTree.find t k with e | o <;> rfl
  | predecessor k =>
    simp only [Exec.stepTree, predecessor]
    rcases VebTree.predecessor t k with e | o <;> rfl
  | successor k =>
    simp only [Exec.stepTree, successor]
    rcases VebTree.successor t k with e | o <;> rfl
  | minVal =>
    simp only [Exec.stepTree, minVal]
    rcases VebTree.minVal t with e | o <;> rfl
  | maxVal =>
    simp only [Exec.stepTree, maxVal]
    rcases VebTree.maxVal t with e | o <;> rfl
  | isMonad =>
    simp only [Exec.stepTree, isMonad]
    rcases VebTree.isMonad t with e | o <;> rfl
  | intoMonad =>
    simp only [Exec.stepTree, intoMonad]
    rcases VebTree.intoMonad t with e | (o | o) <;> rfl
  | findSet k w =>
    simp only [Exec.stepTree, findMut]
    rcases VebTree.findMut t k with e | o
    · rfl
    · simp only [R.ok_bind, R.pure_eq, writeOpt_box]; rfl
  | predecessorSet k w =>
    simp only [Exec.stepTree, predecessorMut]
    rcases VebTree.predecessorMut t k with e | o
    · rfl
    · simp only [R.ok_bind, R.pure_eq, writeOpt_box]; rfl
  | successorSet k w =>
    simp only [Exec.stepTree, successorMut]
    rcases VebTree.successorMut t k with e | o
    · rfl
    · simp only [R.ok_bind, R.pure_eq, writeOpt_box]; rfl
  | minSet w =>
    simp only [Exec.stepTree, minValMut]
    rcases VebTree.minValMut t with e | ⟨k, v, put⟩ <;> rfl
  | maxSet w =>
    simp only [Exec.stepTree, maxValMut]
    rcases VebTree.maxValMut t with e | ⟨k, v, put⟩ <;> rfl

theorem box_step (t : Option T) (op : Op K V) :
    Exec.step (t.map Box.mk) op = (Exec.step t op).map boxed := by
  cases t with
  | none => cases op <;> rfl
  | some t => exact box_stepTree t op

theorem box_run (t : Option T) (ops : List (Op K V)) :
    Exec.run (t.map Box.mk) ops = (Exec.run t ops).map boxed := by
  induction ops generalizing t with
  | nil => rfl
  | cons op ops ih =>
    simp only [Exec.run, box_step]
    rcases Exec.step t op with e | ⟨t', o⟩
    · rfl
    · show (Exec.run (t'.map Box.mk) ops >>= fun x => pure (x.1, o :: x.2)) = _
      rw [ih]
      simp only [R.ok_bind]
      rcases Exec.run t' ops with e | ⟨t'', os⟩ <;> rfl

end box

section sized
variable {T K V : Type} [VebTree T K V]

/-- How an operation with output `o` changes the number of entries. -/
def newSize (n : Nat) : Op K V → Out K V → Nat
  | .insert _ _, .kv none => n + 1
  | .remove _, .kv (some _) => n - 1
  | .removeMin, _ => n - 1
  | .removeMax, _ => n - 1
  | _, _ => n

theorem newSize_le {n : Nat} {op : Op K V} (h : ∀ k v, op ≠ .insert k v) (o : Out K V) : newSize n op o ≤ n := by
  cases op with
  | insert k v => exact absurd rfl (h k v)
  | _ => rcases o with (_ | _) | _ <;> simp [newSize]

/-- Wrapping the tree part of a step, with a size. -/
def counted {α : Type} (n : Nat) (r : Option T × α) : Option (SizedVebTree T) × α :=
  (r.1.map (fun t => ⟨t, n⟩), r.2)

theorem writeOpt_sized (t : T) (n : Nat) (w : V) (r : Option (K × V × (V → T))) :
    Exec.writeOpt (⟨t, n⟩ : SizedVebTree T) w (r.map (mapPut fun u => ⟨u, n⟩)) = counted n (Exec.writeOpt t w r) := by
  obtain _ | ⟨k, v, put⟩ := r <;> rfl

theorem sized_stepTree {t : T} {n : Nat} {op : Op K V} {t' : Option T} {o : Out K V}
    (h : Exec.stepTree t op = .ok (t', o)) (hn : 1 ≤ n) (hmon : op = .isMonad → o = .bool true → n = 1)
    (hle : newSize n op o ≤ usizeMax) (hpos : t' ≠ none → newSize n op o ≠ 0) :
    Exec.stepTree (⟨t, n⟩ : SizedVebTree T) op = .ok (counted (newSize n op o) (t', o)) := by
  cases op with
  | insert k v =>
    simp only [Exec.stepTree, VebTree.insert] at h ⊢
    rcases hq : VebTree.insert t k v with e | ⟨t1, _ | o1⟩
    · rw [hq] at h; cases h
    · rw [hq] at h; cases h
      have : n + 1 ≤ usizeMax := hle
      simp [this, counted, newSize]
    · rw [hq] at h; cases h
      simp [counted, newSize]
  | remove k =>
    simp only [Exec.stepTree, remove] at h ⊢
    rcases hq : VebTree.remove t k with e | (⟨_ | t1, o1⟩ | t1)
    · rw [hq] at h; cases h
    · rw [hq] at h; cases h; rfl
    · rw [hq] at h; cases h
      have : n - 1 ≠ 0 := hpos (by simp)
      simp [subUsize, hn, SizedVebTree.nonZero, this, counted, newSize, Exec.removed]
    · rw [hq] at h; cases h; rfl
  | removeMin =>
    simp only [Exec.stepTree, removeMin] at h ⊢
    rcases hq : VebTree.removeMin t with e | ⟨_ | t1, o1⟩
    · rw [hq] at h; cases h
    · rw [hq] at h; cases h; simp [subUsize, hn, counted, Exec.removed]
    · rw [hq] at h; cases h
      have : n - 1 ≠ 0 := hpos (by simp)
      simp [subUsize, hn, SizedVebTree.nonZero, this, counted, newSize, Exec.removed]
  | removeMax =>
    simp only [Exec.stepTree, removeMax] at h ⊢
    rcases hq : VebTree.removeMax t with e | ⟨_ | t1, o1⟩
    · rw [hq] at h; cases h
    · rw [hq] at h; cases h; simp [subUsize, hn, counted, Exec.removed]
    · rw [hq] at h; cases h
      have : n - 1 ≠ 0 := hpos (by simp)
      simp [subUsize, hn, SizedVebTree.nonZero, this, counted, newSize, Exec.removed]
  | find k =>
    simp only [Exec.stepTree, find] at h ⊢
    rcases hq : VebTree.find t k with e | o1
    · rw [hq] at h; cases h
    · rw [hq] at h; cases h; rfl
  | predecessor k =>
    simp only [Exec.stepTree, predecessor] at h ⊢
    rcases hq : VebTree.predecessor t k with e | o1
    · rw [hq] at h; cases h
    · rw [hq] at h; cases h; rfl
  | successor k =>
    simp only [Exec.stepTree, successor] at h ⊢
    rcases hq : VebTree.successor t k with e | o1
    · rw [hq] at h; cases h
    · rw [hq] at h; cases h; rfl
  | minVal =>
    simp only [Exec.stepTree, minVal] at h ⊢
    rcases hq : VebTree.minVal t with e | o1
    · rw [hq] at h; cases h
    · rw [hq] at h; cases h; rfl
  | maxVal =>
    simp only [Exec.stepTree, maxVal] at h ⊢
    rcases hq : VebTree.maxVal t with e | o1
    · rw [hq] at h; cases h
    · rw [hq] at h; cases h; rfl
  | isMonad =>
    simp only [Exec.stepTree, isMonad] at h ⊢
    rcases hq : VebTree.isMonad t with e | (_ | _)
    · rw [hq] at h; cases h
    · rw [hq] at h; cases h; rfl
    · rw [hq] at h; cases h
      have := hmon rfl rfl
      subst this
      rfl
  | intoMonad =>
    simp only [Exec.stepTree, intoMonad] at h ⊢
    rcases hq : VebTree.intoMonad t with e | (o1 | t1)
    · rw [hq] at h; cases h
    · rw [hq] at h; cases h; rfl
    · rw [hq] at h; cases h; rfl
  | findSet k w =>
    simp only [Exec.stepTree, findMut] at h ⊢
    rcases hq : VebTree.findMut t k with e | o1
    · rw [hq] at h; cases h
    · rw [hq] at h
      simp only [R.ok_bind, R.pure_eq, Except.ok.injEq] at h
      simp only [R.ok_bind, R.pure_eq, writeOpt_sized, h]; rfl
  | predecessorSet k w =>
    simp only [Exec.stepTree, predecessorMut] at h ⊢
    rcases hq : VebTree.predecessorMut t k with e | o1
    · rw [hq] at h; cases h
    · rw [hq] at h
      simp only [R.ok_bind, R.pure_eq, Except.ok.injEq] at h
      simp only [R.ok_bind, R.pure_eq, writeOpt_sized, h]; rfl
  | successorSet k w =>
    simp only [Exec.stepTree, successorMut] at h ⊢
    rcases hq : VebTree.successorMut t k with e | o1
    · rw [hq] at h; cases h
    · rw [hq] at h
      simp only [R.ok_bind, R.pure_eq, Except.ok.injEq] at h
      simp only [R.ok_bind, R.pure_eq, writeOpt_sized, h]; rfl
  | minSet w =>
    simp only [Exec.stepTree, minValMut] at h ⊢
    rcases hq : VebTree.minValMut t with e | ⟨k, v, put⟩
    · rw [hq] at h; cases h
    · rw [hq] at h; cases h; rfl
  | maxSet w =>
    simp only [Exec.stepTree, maxValMut] at h ⊢
    rcases hq : VebTree.maxValMut t with e | ⟨k, v, put⟩
    · rw [hq] at h; cases h
    · rw [hq] at h; cases h; rfl

/-- An insertion of a new key that would take the counter beyond `usize::MAX`. -/
theorem sized_overflow {t : T} {n : Nat} {k : K} {v : V} {t' : Option T}
    (h : Exec.stepTree t (.insert k v) = .ok (t', .kv none)) (hn : usizeMax < n + 1) :
    Exec.stepTree (⟨t, n⟩ : SizedVebTree T) (.insert k v) = .error (.expect "size overflowed") := by
  simp only [Exec.stepTree, VebTree.insert] at h ⊢
  rcases hq : VebTree.insert t k v with e | ⟨t1, _ | o1⟩
  · rw [hq] at h; cases h
  · rw [hq] at h; cases h
    have : ¬ n + 1 ≤ usizeMax := by omega
    simp [this, expect]
    rfl
  · rw [hq] at h; cases h

end sized

section
variable {T K V : Type} [VebTree T K V]

theorem run_append_inv {t t'' : Option T} {a b : List (Op K V)} {os : List (Out K V)}
    (h : Exec.run t (a ++ b) = .ok (t'', os)) :
    ∃ t' os1 os2, Exec.run t a = .ok (t', os1) ∧ Exec.run t' b = .ok (t'', os2) ∧ os = os1 ++ os2 ∧
      os1.length = a.length := by
  induction a generalizing t os with
  | nil => exact ⟨t, [], os, rfl, h, rfl, rfl⟩
  | cons op a ih =>
    simp only [List.cons_append, Exec.run] at h
    rcases hs : Exec.step t op with e | ⟨t1, o⟩
    · rw [hs] at h; cases h
    · rw [hs] at h
      simp only [R.ok_bind] at h
      rcases hr : Exec.run t1 (a ++ b) with e | ⟨t2, os'⟩
      · rw [hr] at h; cases h
      · rw [hr] at h
        cases h
        obtain ⟨t', os1, os2, h1, h2, h3, h4⟩ := ih hr
        refine ⟨t', o :: os1, os2, ?_, h2, by rw [h3]; rfl, by simp [h4]⟩
        simp only [Exec.run, hs, R.ok_bind, h1]; rfl

theorem run_append_err {t t' : Option T} {a b : List (Op K V)} {os : List (Out K V)} {e : Panic}
    (h : Exec.run t a = .ok (t', os)) (h' : Exec.run t' b = .error e) : Exec.run t (a ++ b) = .error e := by
  induction a generalizing t os with
  | nil => cases h; exact h'
  | cons op a ih =>
    simp only [Exec.run] at h
    rcases hs : Exec.step t op with e' | ⟨t1, o⟩
    · rw [hs] at h; cases h
    · rw [hs] at h
      simp only [R.ok_bind] at h
      rcases hr : Exec.run t1 a with e' | ⟨t2, os2⟩
      · rw [hr] at h; cases h
      · rw [hr] at h
        cases h
        simp only [List.cons_append, Exec.run, hs, R.ok_bind, ih hr]
        rfl

theorem run_err_append {t : Option T} {a b : List (Op K V)} {e : Panic}
    (h : Exec.run t a = .error e) : Exec.run t (a ++ b) = .error e := by
  induction a generalizing t with
  | nil => cases h
  | cons op a ih =>
    simp only [List.cons_append, Exec.run] at h ⊢
    rcases hs : Exec.step t op with e' | ⟨t1, o⟩
    · rw [hs] at h; exact h
    · rw [hs] at h
      simp only [R.ok_bind] at h ⊢
      rcases hr : Exec.run t1 a with e' | ⟨t2, os2⟩
      · rw [hr] at h
        cases h
        rw [ih hr]; rfl
      · rw [hr] at h; cases h

theorem run_single (t : Option T) (op : Op K V) :
    Exec.run t [op] = (Exec.step t op).map fun r => (r.1, [r.2]) := by
  simp only [Exec.run]
  rcases Exec.step t op with e | ⟨t', o⟩ <;> rfl

end

section
variable {T K V : Type} [LinearOrder K] [VebTree T K V]

theorem SL.run_length (l : SL K V) (ops : List (Op K V)) : (SL.run l ops).2.length = ops.length := by
  induction ops generalizing l with
  | nil => rfl
  | cons op ops ih => simp [SL.run, ih]

theorem entries_snoc (ops : List (Op K V)) (op : Op K V) : entries (ops ++ [op]) = (SL.step (entries ops) op).1 := by
  rw [entries, SL.run_append]; rfl
theorem outs_snoc (ops : List (Op K V)) (op : Op K V) :
    (SL.run [] (ops ++ [op])).2 = (SL.run [] ops).2 ++ [(SL.step (entries ops) op).2] := by
  rw [SL.run_append]; rfl

/-- The specification's own size bookkeeping. -/
theorem SL.length_newSize {l : SL K V} (hl : SL.Sorted l) (op : Op K V) (h : (SL.step l op).1 ≠ []) :
    (SL.step l op).1.length = newSize l.length op (SL.step l op).2 := by
  have L := SL.lists_toMap hl
  cases op with
  | insert k v =>
    show (SL.insert l k v).length = _
    rw [← (L.insert k v).card]
    simp only [SL.step, L.find k]
    rcases hk : SL.toMap l k with _ | w
    · rw [Map.card_upd_new L.finite hk, L.card]; rfl
    · rw [Map.card_upd_of_mem (Map.mem_of hk), L.card]; rfl
  | remove k =>
    show (SL.erase l k).length = _
    rw [← (L.erase k).card]
    simp only [SL.step, L.find k]
    rcases hk : SL.toMap l k with _ | w
    · rw [Map.upd_none_of_none hk, L.card]; rfl
    · have := Map.card_upd_none L.finite (Map.mem_of hk)
      rw [L.card] at this
      simp only [Option.map_some, newSize]; omega
  | removeMin => simp [SL.step, newSize]
  | removeMax => simp [SL.step, newSize]
  | intoMonad =>
    by_cases e : l.length = 1
    · simp [SL.step, e] at h
    · simp [SL.step, e, newSize]
  | find k => rfl
  | predecessor k => rfl
  | successor k => rfl
  | minVal => rfl
  | maxVal => rfl
  | isMonad => rfl
  | findSet k v => exact SL.setAt_length _ _ _
  | predecessorSet k v => exact SL.setAt_length _ _ _
  | successorSet k v => exact SL.setAt_length _ _ _
  | minSet v => exact SL.setAt_length _ _ _
  | maxSet v => exact SL.setAt_length _ _ _

/-- One call, from two runs. -/
theorem runsLike_snoc {ops : List (Op K V)} {op : Op K V} (h : RunsLikeMap T ops)
    (h' : RunsLikeMap T (ops ++ [op])) :
    ∃ t t' : Option T, Exec.run none ops = .ok (t, (SL.run [] ops).2) ∧
      Exec.step t op = .ok (t', (SL.step (entries ops) op).2) ∧
      (t = none ↔ entries ops = []) ∧ (t' = none ↔ entries (ops ++ [op]) = []) := by
  obtain ⟨t, h1, h2⟩ := h
  obtain ⟨t', h3, h4⟩ := h'
  obtain ⟨s, os1, os2, h5, h6, h7, -⟩ := run_append_inv h3
  rw [h1] at h5
  cases h5
  rw [outs_snoc] at h7
  have : os2 = [(SL.step (entries ops) op).2] := (List.append_cancel_left h7).symm
  subst this
  rw [run_single] at h6
  rcases hs : Exec.step t op with e | ⟨t1, o⟩
  · rw [hs] at h6; cases h6
  · rw [hs] at h6
    cases h6
    exact ⟨t, _, h1, hs, h2, h4⟩

theorem fits_snoc {ops : List (Op K V)} {op : Op K V} :
    FitsUsize (ops ++ [op]) ↔ FitsUsize ops ∧ (entries (ops ++ [op])).length ≤ usizeMax := by
  constructor
  · intro h
    exact ⟨fun pre hp => h pre (hp.trans (List.prefix_append _ _)), h _ (List.prefix_refl _)⟩
  · rintro ⟨h1, h2⟩ pre hp
    rcases List.prefix_concat_iff.1 hp with rfl | hp
    · exact h2
    · exact h1 pre hp

theorem sized_black {safe : (K → Prop) → K → Prop}
    (hT : ∀ ops : List (Op K V), SL.SafeHist safe [] ops → RunsLikeMap T ops)
    (ops : List (Op K V)) (hs : SL.SafeHist safe [] ops) :
    (FitsUsize ops → ∃ t : Option T, Exec.run none ops = .ok (t, (SL.run [] ops).2) ∧
      (t = none ↔ entries ops = []) ∧
      Exec.run (none : Option (SizedVebTree T)) ops =
        .ok (t.map fun u => ⟨u, (entries ops).length⟩, (SL.run [] ops).2)) ∧
    (¬ FitsUsize ops → Exec.run (none : Option (SizedVebTree T)) ops = .error (.expect "size overflowed")) := by
  induction ops using List.reverseRecOn with
  | nil =>
    refine ⟨fun _ => ⟨none, rfl, ⟨fun _ => rfl, fun _ => rfl⟩, rfl⟩, fun h => absurd ?_ h⟩
    intro pre hp
    rw [List.prefix_nil.1 hp]
    exact Nat.zero_le _
  | append_singleton ops op ih =>
    have hs' := ((SL.safeHist_append safe [] ops [op]).1 hs).1
    obtain ⟨ih1, ih2⟩ := ih hs'
    obtain ⟨t, t', h1, h2, h3, h4⟩ := runsLike_snoc (hT _ hs') (hT _ hs)
    have hsorted : SL.Sorted (entries ops) := SL.sorted_run SL.sorted_nil ops
    by_cases hf : FitsUsize ops
    · obtain ⟨u, e1, -, e2⟩ := ih1 hf
      rw [h1] at e1
      cases e1
      rw [fits_snoc]
      simp only [hf, true_and]
      cases t with
      | none =>
        have hn : entries ops = [] := h3.1 rfl
        have hok : (entries (ops ++ [op])).length ≤ usizeMax := by
          rw [entries_snoc, hn]
          cases op with
          | insert k v => simp [SL.step, SL.insert]; decide
          | _ => simp [SL.step, SL.setAt, SL.erase, SL.find, SL.pred, SL.succ, SL.minE, SL.maxE]
        refine ⟨fun _ => ⟨t', ?_, h4, ?_⟩, fun h => absurd hok h⟩
        · rw [outs_snoc]
          exact run_append_ok h1 (by rw [run_single, h2]; rfl)
        · rw [outs_snoc]
          refine run_append_ok e2 ?_
          rw [run_single, entries_snoc, hn]
          rw [hn] at h2
          cases op with
          | insert k v =>
            cases h2
            rfl
          | _ => cases h2; rfl
      | some t =>
        have hne : entries ops ≠ [] := fun e => by cases h3.2 e
        have hpos : 1 ≤ (entries ops).length := List.length_pos_iff.2 hne
        have hrun : ∀ s, Exec.stepTree (⟨t, (entries ops).length⟩ : SizedVebTree T) op = s →
            Exec.run (none : Option (SizedVebTree T)) (ops ++ [op]) =
              s.map fun r => (r.1, (SL.run [] ops).2 ++ [r.2]) := by
          intro s hs
          have h5 : Exec.step (some (⟨t, (entries ops).length⟩ : SizedVebTree T)) op = s := hs
          rcases s with e | ⟨s, o⟩
          · exact run_append_err e2 (by simp only [Option.map_some, run_single, h5]; rfl)
          · exact run_append_ok e2 (by simp only [Option.map_some, run_single, h5]; rfl)
        have h2' : Exec.stepTree t op = .ok (t', (SL.step (entries ops) op).2) := h2
        constructor
        · intro hok
          refine ⟨t', ?_, h4, ?_⟩
          · rw [outs_snoc]
            exact run_append_ok h1 (by rw [run_single, h2]; rfl)
          · rw [outs_snoc]
            have hmon : op = .isMonad → (SL.step (entries ops) op).2 = .bool true → (entries ops).length = 1 := by
              rintro rfl h
              simpa [SL.step] using h
            by_cases hz : entries (ops ++ [op]) = []
            · have hz' := h4.2 hz
              have hle : newSize (entries ops).length op (SL.step (entries ops) op).2 ≤ usizeMax := by
                have hx := hf ops (List.prefix_refl _)
                rw [entries_snoc] at hz
                cases op with
                | insert k v => simp [SL.step, SL.insert] at hz
                | _ => exact (newSize_le (by simp) _).trans hx
              rw [hrun _ (sized_stepTree h2' hpos hmon hle (fun h => absurd hz' h)), hz']
              rfl
            · have e := SL.length_newSize hsorted op (by rwa [entries_snoc] at hz)
              rw [← entries_snoc] at e
              rw [hrun _ (sized_stepTree h2' hpos hmon (e ▸ hok) (fun _ => by
                rw [← e]; exact fun h => hz (List.length_eq_zero_iff.1 h)))]
              rw [← e]
              rfl
        · intro hover
          have hx := hf ops (List.prefix_refl _)
          have hz : entries (ops ++ [op]) ≠ [] := by
            intro h; rw [h] at hover; exact hover (Nat.zero_le _)
          have e := SL.length_newSize hsorted op (by rwa [entries_snoc] at hz)
          rw [← entries_snoc] at e
          cases op with
          | insert k v =>
            rcases ho : SL.find (entries ops) k with _ | p
            · have : (SL.step (entries ops) (.insert k v)).2 = .kv none := by simp [SL.step, ho]
              rw [this] at h2' e
              simp only [newSize] at e
              rw [hrun _ (sized_overflow h2' (by omega))]; rfl
            · simp only [SL.step, ho, newSize] at e
              omega
          | _ => exact absurd (e.le.trans ((newSize_le (by simp) _).trans hx)) hover
    · refine ⟨fun h => absurd (fits_snoc.1 h).1 hf, fun _ => run_err_append (ih2 hf)⟩

end
end Veb
