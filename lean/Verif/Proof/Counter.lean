import Verif.SpecCounter
import Verif.SpecHist
import Verif.Proof.Black
import Verif.Proof.IterAll

/-!
Counters on other targets, compared with those of the 64-bit target.
-/

set_option autoImplicit false

namespace Veb
namespace PSized
variable {P : Ptr} {T K V : Type} [VebTree T K V]

theorem max_le (h : P.bits ≤ 64) : P.usizeMax ≤ usizeMax :=
  Nat.sub_le_sub_right (Nat.pow_le_pow_right (by decide) h) 1
theorem one_le_max : 1 ≤ P.usizeMax := by cases P <;> decide

/-- What the step of a counted tree becomes if it must fit into the counter of the target. -/
def narrow : R (Option (SizedVebTree T) × Out K V) → R (Option (PSized P T) × Out K V)
  | .ok (some t, o) => if t.size ≤ P.usizeMax then .ok (some (ofWide t), o) else .error (.expect "size overflowed")
  | .ok (none, o) => .ok (none, o)
  | .error e => .error e

theorem narrow_some {u : T} {n : Nat} {o : Out K V} (h : n ≤ P.usizeMax) :
    (.ok (some ⟨u, n⟩, o) : R (Option (PSized P T) × Out K V)) = narrow (.ok (some ⟨u, n⟩, o)) := (if_pos h).symm

theorem stepTree_eq (hP : P.bits ≤ 64) (u : T) {n : Nat} (hn : n ≤ P.usizeMax) (op : Op K V) :
    Exec.stepTree (⟨u, n⟩ : PSized P T) op = narrow (Exec.stepTree (⟨u, n⟩ : SizedVebTree T) op) := by
  have hmax := max_le hP
  cases op with
  | insert k v =>
    simp only [Exec.stepTree, VebTree.insert, insert]
    rcases VebTree.insert u k v with e | ⟨t, o⟩
    · rfl
    cases o with
    | some e => exact narrow_some hn
    | none =>
      simp only [R.ok_bind, Option.isNone_none, if_true]
      by_cases h : n + 1 ≤ P.usizeMax
      · rw [if_pos h, if_pos (h.trans hmax)]; exact narrow_some h
      · rw [if_neg h]
        by_cases h' : n + 1 ≤ usizeMax
        · rw [if_pos h']; exact (if_neg h).symm
        · rw [if_neg h']; rfl
  | remove k =>
    simp only [Exec.stepTree, VebTree.remove, wide]
    rcases VebTree.remove u k with e | r
    · rfl
    rcases r with ⟨_ | t, kv⟩ | t
    · rfl
    · obtain _ | _ | n := n
      · rfl
      · rfl
      · exact narrow_some (show n + 1 ≤ _ by omega)
    · exact narrow_some hn
  | removeMin =>
    simp only [Exec.stepTree, VebTree.removeMin, wide]
    obtain _ | n := n
    · rfl
    rcases VebTree.removeMin u with e | ⟨_ | t, kv⟩
    · rfl
    · rfl
    · obtain _ | n := n
      · rfl
      · exact narrow_some (show n + 1 ≤ _ by omega)
  | removeMax =>
    simp only [Exec.stepTree, VebTree.removeMax, wide]
    obtain _ | n := n
    · rfl
    rcases VebTree.removeMax u with e | ⟨_ | t, kv⟩
    · rfl
    · rfl
    · obtain _ | n := n
      · rfl
      · exact narrow_some (show n + 1 ≤ _ by omega)
  | isMonad =>
    change (do pure (some (⟨u, n⟩ : PSized P T), Out.bool (← VebTree.isMonad (⟨u, n⟩ : SizedVebTree T)))) =
      narrow (do pure (some ⟨u, n⟩, Out.bool (← VebTree.isMonad (⟨u, n⟩ : SizedVebTree T))))
    rcases VebTree.isMonad (⟨u, n⟩ : SizedVebTree T) with e | r
    · rfl
    · exact narrow_some hn
  | intoMonad =>
    simp only [Exec.stepTree, VebTree.intoMonad, wide]
    rcases VebTree.intoMonad u with e | (r | r)
    · rfl
    · rfl
    · exact narrow_some hn
  | find k =>
    simp only [Exec.stepTree, VebTree.find, wide]
    rcases VebTree.find u k with e | r
    · rfl
    · exact narrow_some hn
  | predecessor k =>
    simp only [Exec.stepTree, VebTree.predecessor, wide]
    rcases VebTree.predecessor u k with e | r
    · rfl
    · exact narrow_some hn
  | successor k =>
    simp only [Exec.stepTree, VebTree.successor, wide]
    rcases VebTree.successor u k with e | r
    · rfl
    · exact narrow_some hn
  | minVal =>
    simp only [Exec.stepTree, VebTree.minVal, wide]
    rcases VebTree.minVal u with e | r
    · rfl
    · exact narrow_some hn
  | maxVal =>
    simp only [Exec.stepTree, VebTree.maxVal, wide]
    rcases VebTree.maxVal u with e | r
    · rfl
    · exact narrow_some hn
  | findSet k w =>
    simp only [Exec.stepTree, VebTree.findMut, wide]
    rcases VebTree.findMut u k with e | (_ | ⟨k, v, f⟩)
    · rfl
    · exact narrow_some hn
    · exact narrow_some hn
  | predecessorSet k w =>
    simp only [Exec.stepTree, VebTree.predecessorMut, wide]
    rcases VebTree.predecessorMut u k with e | (_ | ⟨k, v, f⟩)
    · rfl
    · exact narrow_some hn
    · exact narrow_some hn
  | successorSet k w =>
    simp only [Exec.stepTree, VebTree.successorMut, wide]
    rcases VebTree.successorMut u k with e | (_ | ⟨k, v, f⟩)
    · rfl
    · exact narrow_some hn
    · exact narrow_some hn
  | minSet w =>
    simp only [Exec.stepTree, VebTree.minValMut, wide]
    rcases VebTree.minValMut u with e | ⟨k, v, f⟩
    · rfl
    · exact narrow_some hn
  | maxSet w =>
    simp only [Exec.stepTree, VebTree.maxValMut, wide]
    rcases VebTree.maxValMut u with e | ⟨k, v, f⟩
    · rfl
    · exact narrow_some hn

theorem step_eq (hP : P.bits ≤ 64) {t : Option (SizedVebTree T)} (hn : ∀ u, t = some u → u.size ≤ P.usizeMax)
    (op : Op K V) : Exec.step (t.map ofWide : Option (PSized P T)) op = narrow (Exec.step t op) := by
  cases t with
  | some t => exact stepTree_eq hP t.tree (hn t rfl) op
  | none =>
    cases op with
    | insert k v => exact (if_pos one_le_max).symm
    | _ => rfl

/-- The run on the target: that of the 64-bit target as long as the numbers fit … -/
theorem run_fits (hP : P.bits ≤ 64) (ops : List (Op K V)) : ∀ t : Option (SizedVebTree T),
    (∀ pre, pre <+: ops → ∀ u os, Exec.run t pre = .ok (some u, os) → u.size ≤ P.usizeMax) →
    Exec.run (t.map ofWide : Option (PSized P T)) ops = (Exec.run t ops).map fun r => (r.1.map ofWide, r.2) := by
  induction ops with
  | nil => intro t _; rfl
  | cons op ops ih =>
    intro t h
    have h0 : ∀ u, t = some u → u.size ≤ P.usizeMax := fun u e => h [] (List.nil_prefix) u [] (by rw [e]; rfl)
    simp only [Exec.run]
    rw [step_eq hP h0 op]
    rcases hs : Exec.step t op with e | ⟨t', o⟩
    · rfl
    have h1 : ∀ u, t' = some u → u.size ≤ P.usizeMax := by
      rintro u rfl
      exact h [op] (by simp) u [o] (by rw [run_single, hs]; rfl)
    have h2 : (narrow (.ok (t', o)) : R (Option (PSized P T) × Out K V)) = .ok (t'.map ofWide, o) := by
      cases t' with
      | none => rfl
      | some u => exact if_pos (h1 u rfl)
    rw [h2]
    simp only [R.ok_bind]
    rw [ih t' fun pre hp u os hr => h (op :: pre) (by simpa using hp) u (o :: os) (by simp only [Exec.run, hs, R.ok_bind, hr]; rfl)]
    rcases Exec.run t' ops with e | ⟨t2, os⟩ <;> rfl

/-- … and the overflow as soon as one does not. -/
theorem run_overflow (hP : P.bits ≤ 64) (ops : List (Op K V)) : ∀ t : Option (SizedVebTree T),
    (∀ u, t = some u → u.size ≤ P.usizeMax) → ∀ pre, pre <+: ops → ∀ u os, Exec.run t pre = .ok (some u, os) →
    P.usizeMax < u.size → Exec.run (t.map ofWide : Option (PSized P T)) ops = .error (.expect "size overflowed") := by
  induction ops with
  | nil =>
    intro t h0 pre hp u os hr hu
    rw [List.prefix_nil.1 hp] at hr
    cases hr
    exact absurd (h0 u rfl) (by omega)
  | cons op ops ih =>
    intro t h0 pre hp u os hr hu
    obtain _ | ⟨op', pre⟩ := pre
    · cases hr
      exact absurd (h0 u rfl) (by omega)
    obtain ⟨rfl, hp'⟩ := List.cons_prefix_cons.1 hp
    simp only [Exec.run] at hr ⊢
    rw [step_eq hP h0 op']
    rcases hs : Exec.step t op' with e | ⟨t', o⟩
    · rw [hs] at hr; cases hr
    rw [hs] at hr
    simp only [R.ok_bind] at hr
    rcases hr' : Exec.run t' pre with e | ⟨t2, os2⟩
    · rw [hr'] at hr; cases hr
    rw [hr'] at hr
    cases hr
    by_cases h1 : ∀ u, t' = some u → u.size ≤ P.usizeMax
    · have h2 : (narrow (.ok (t', o)) : R (Option (PSized P T) × Out K V)) = .ok (t'.map ofWide, o) := by
        cases t' with
        | none => rfl
        | some u => exact if_pos (h1 u rfl)
      rw [h2]
      simp only [R.ok_bind]
      rw [ih t' h1 pre hp' _ _ hr' hu]
      rfl
    · simp only [not_forall] at h1
      obtain ⟨u', rfl, h1⟩ := h1
      rw [show (narrow (.ok (some u', o)) : R (Option (PSized P T) × Out K V)) = _ from if_neg h1]
      rfl

/-- On the 64-bit target nothing else than `SizedVebTree`. -/
theorem stepTree_p64 (t : SizedVebTree T) (op : Op K V) :
    Exec.stepTree (ofWide t : PSized .p64 T) op = (Exec.stepTree t op).map fun r => (r.1.map ofWide, r.2) := by
  cases op with
  | insert k v =>
    simp only [Exec.stepTree, VebTree.insert, insert, ofWide]
    rcases VebTree.insert t.tree k v with e | ⟨u, o⟩
    · rfl
    cases o with
    | some e => rfl
    | none =>
      simp only [R.ok_bind, Option.isNone_none, if_true, show Ptr.p64.usizeMax = usizeMax from rfl]
      by_cases h : t.size + 1 ≤ usizeMax
      · rw [if_pos h]; rfl
      · rw [if_neg h]; rfl
  | remove k =>
    have h : (VebTree.remove (ofWide t : PSized .p64 T) k : R _) = (VebTree.remove t k).map fun r => match r with
      | .Ok (t, kv) => .Ok (t.map ofWide, kv)
      | .Err t => .Err (ofWide t) := by
      show Except.bind (VebTree.remove t k) _ = _
      rcases VebTree.remove t k with e | (⟨r, kv⟩ | r) <;> rfl
    simp only [Exec.stepTree, h]
    rcases VebTree.remove t k with e | (⟨r, kv⟩ | r) <;> rfl
  | removeMin =>
    have h : (VebTree.removeMin (ofWide t : PSized .p64 T) : R _) = (VebTree.removeMin t).map fun r => (r.1.map ofWide, r.2) := by
      show Except.bind (VebTree.removeMin t) _ = _
      rcases VebTree.removeMin t with e | ⟨r, kv⟩ <;> rfl
    simp only [Exec.stepTree, h]
    rcases VebTree.removeMin t with e | ⟨r, kv⟩ <;> rfl
  | removeMax =>
    have h : (VebTree.removeMax (ofWide t : PSized .p64 T) : R _) = (VebTree.removeMax t).map fun r => (r.1.map ofWide, r.2) := by
      show Except.bind (VebTree.removeMax t) _ = _
      rcases VebTree.removeMax t with e | ⟨r, kv⟩ <;> rfl
    simp only [Exec.stepTree, h]
    rcases VebTree.removeMax t with e | ⟨r, kv⟩ <;> rfl
  | isMonad =>
    simp only [Exec.stepTree, show VebTree.isMonad (ofWide t : PSized .p64 T) = VebTree.isMonad t from rfl]
    rcases VebTree.isMonad t with e | r <;> rfl
  | intoMonad =>
    simp only [Exec.stepTree, VebTree.intoMonad, ofWide, wide]
    rcases VebTree.intoMonad t.tree with e | (r | r) <;> rfl
  | find k =>
    simp only [Exec.stepTree, VebTree.find, ofWide, wide]
    rcases VebTree.find t.tree k with e | r <;> rfl
  | predecessor k =>
    simp only [Exec.stepTree, VebTree.predecessor, ofWide, wide]
    rcases VebTree.predecessor t.tree k with e | r <;> rfl
  | successor k =>
    simp only [Exec.stepTree, VebTree.successor, ofWide, wide]
    rcases VebTree.successor t.tree k with e | r <;> rfl
  | minVal =>
    simp only [Exec.stepTree, VebTree.minVal, ofWide, wide]
    rcases VebTree.minVal t.tree with e | r <;> rfl
  | maxVal =>
    simp only [Exec.stepTree, VebTree.maxVal, ofWide, wide]
    rcases VebTree.maxVal t.tree with e | r <;> rfl
  | findSet k w =>
    simp only [Exec.stepTree, VebTree.findMut, ofWide, wide]
    rcases VebTree.findMut t.tree k with e | (_ | ⟨k, v, f⟩) <;> rfl
  | predecessorSet k w =>
    simp only [Exec.stepTree, VebTree.predecessorMut, ofWide, wide]
    rcases VebTree.predecessorMut t.tree k with e | (_ | ⟨k, v, f⟩) <;> rfl
  | successorSet k w =>
    simp only [Exec.stepTree, VebTree.successorMut, ofWide, wide]
    rcases VebTree.successorMut t.tree k with e | (_ | ⟨k, v, f⟩) <;> rfl
  | minSet w =>
    simp only [Exec.stepTree, VebTree.minValMut, ofWide, wide]
    rcases VebTree.minValMut t.tree with e | ⟨k, v, f⟩ <;> rfl
  | maxSet w =>
    simp only [Exec.stepTree, VebTree.maxValMut, ofWide, wide]
    rcases VebTree.maxValMut t.tree with e | ⟨k, v, f⟩ <;> rfl

theorem run_p64 (ops : List (Op K V)) : ∀ t : Option (SizedVebTree T),
    Exec.run (t.map ofWide : Option (PSized .p64 T)) ops = (Exec.run t ops).map fun r => (r.1.map ofWide, r.2) := by
  induction ops with
  | nil => intro t; rfl
  | cons op ops ih =>
    intro t
    have hs : Exec.step (t.map ofWide : Option (PSized .p64 T)) op = (Exec.step t op).map fun r => (r.1.map ofWide, r.2) := by
      cases t with
      | some t => exact stepTree_p64 t op
      | none => cases op <;> rfl
    simp only [Exec.run, hs]
    rcases Exec.step t op with e | ⟨t', o⟩
    · rfl
    show (Exec.run (t'.map ofWide) ops >>= fun r => pure (r.1, o :: r.2)) = _
    rw [ih]
    simp only [R.ok_bind]
    rcases Exec.run t' ops with e | ⟨t2, os⟩ <;> rfl

end PSized

namespace Iter
variable {T K V : Type} [LinearOrder K] [VebTree T K V]

/-- The counter counts the items. -/
theorem call_emitted {it it' : Iter T K} {o : Option (K × V)} (s : Side) (h : it.call s = .ok (it', o)) :
    it'.emitted = it.emitted + o.toList.length := by
  rcases it with ⟨u, dd, n⟩
  have hemit : ∀ d kv, (⟨u, dd, n⟩ : Iter T K).emit d kv = .ok (it', o) → it'.emitted = n + o.toList.length := by
    intro d kv h
    simp only [emit, addUsize] at h
    split at h
    · cases h; rfl
    · cases h
  have hstop : ((⟨u, dd, n⟩ : Iter T K).stop : R (Iter T K × Option (K × V))) = .ok (it', o) → it'.emitted = n + o.toList.length := by
    intro h; cases h; rfl
  cases s <;> simp only [call, next, nextBack] at h
  · rcases dd with _ | _ | a | a | ⟨a, b⟩
    · exact hstop h
    · obtain ⟨kv, -, h2⟩ := R.bind_ok h
      exact hemit _ _ h2
    · obtain ⟨_ | kv, -, h2⟩ := R.bind_ok h
      · exact hstop h2
      · exact hemit _ _ h2
    · obtain ⟨kv, -, h2⟩ := R.bind_ok h
      split at h2
      · exact hstop h2
      · exact hemit _ _ h2
    · obtain ⟨_ | kv, -, h2⟩ := R.bind_ok h
      · cases h2
      · simp only at h2
        split at h2
        · exact hstop h2
        · exact hemit _ _ h2
  · rcases dd with _ | _ | a | a | ⟨a, b⟩
    · exact hstop h
    · obtain ⟨kv, -, h2⟩ := R.bind_ok h
      exact hemit _ _ h2
    · obtain ⟨kv, -, h2⟩ := R.bind_ok h
      split at h2
      · exact hstop h2
      · exact hemit _ _ h2
    · obtain ⟨_ | kv, -, h2⟩ := R.bind_ok h
      · exact hstop h2
      · exact hemit _ _ h2
    · obtain ⟨_ | kv, -, h2⟩ := R.bind_ok h
      · cases h2
      · simp only at h2
        split at h2
        · exact hstop h2
        · exact hemit _ _ h2

theorem callOn_eq (P : Ptr) (it : Iter T K) (s : Side) : it.callOn P s = counted P (it.call s) := by cases s <;> rfl

/-- A sequence of calls on the target: that of the 64-bit target as long as the number of items fits … -/
theorem callsOn_fits (P : Ptr) (ss : List Side) : ∀ {it it' : Iter T K} {os : List (Option (K × V))},
    it.calls ss = .ok (it', os) → it.emitted + (os.filterMap id).length ≤ P.usizeMax → it.callsOn P ss = .ok (it', os) := by
  induction ss with
  | nil => intro it it' os h _; exact h
  | cons s ss ih =>
    intro it it' os h hn
    simp only [calls] at h
    rcases hc : it.call s with e | ⟨it1, o⟩
    · rw [hc] at h; cases h
    rw [hc] at h
    simp only [R.ok_bind] at h
    rcases hr : it1.calls ss with e | ⟨it2, os2⟩
    · rw [hr] at h; cases h
    rw [hr] at h
    cases h
    have he := call_emitted s hc
    have hl : ((o :: os2).filterMap id).length = o.toList.length + (os2.filterMap id).length := by
      cases o <;> simp [Nat.add_comm]
    rw [hl] at hn
    have h1 : counted P (it.call s) = .ok (it1, o) := by
      rw [hc]; exact if_pos (by omega)
    simp only [callsOn, callOn_eq, h1, R.ok_bind, ih hr (by omega)]
    rfl

/-- … and an arithmetic overflow as soon as it does not. -/
theorem callsOn_overflow (P : Ptr) (ss : List Side) : ∀ {it it' : Iter T K} {os : List (Option (K × V))},
    it.calls ss = .ok (it', os) → it.emitted ≤ P.usizeMax → P.usizeMax < it.emitted + (os.filterMap id).length →
    it.callsOn P ss = .error .arith := by
  induction ss with
  | nil => intro it it' os h h0 hn; cases h; simp at hn; omega
  | cons s ss ih =>
    intro it it' os h h0 hn
    simp only [calls] at h
    rcases hc : it.call s with e | ⟨it1, o⟩
    · rw [hc] at h; cases h
    rw [hc] at h
    simp only [R.ok_bind] at h
    rcases hr : it1.calls ss with e | ⟨it2, os2⟩
    · rw [hr] at h; cases h
    rw [hr] at h
    cases h
    have he := call_emitted s hc
    have hl : ((o :: os2).filterMap id).length = o.toList.length + (os2.filterMap id).length := by
      cases o <;> simp [Nat.add_comm]
    rw [hl] at hn
    simp only [callsOn, callOn_eq, hc]
    by_cases h1 : it1.emitted ≤ P.usizeMax
    · rw [show counted P (.ok (it1, o)) = .ok (it1, o) from if_pos h1]
      simp only [R.ok_bind, ih hr h1 (by omega)]
      rfl
    · rw [show counted P (.ok (it1, o)) = .error .arith from if_neg h1]
      rfl

end Iter
end Veb
