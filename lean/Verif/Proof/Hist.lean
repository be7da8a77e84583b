import Verif.SpecTree
import Verif.Proof.Crate

/-!
From lawful trees to statements about histories and reachable trees.
-/

set_option autoImplicit false

namespace Veb
section spec
variable {K V : Type} [LinearOrder K]

theorem SL.Lists.setAt {l : SL K V} {M : Map K V} (h : SL.Lists l M) {e : Option (K × V)} (v : V)
    (he : ∀ p, e = some p → M.Mem p.1) :
    SL.Lists (SL.setAt l e v) (match e with | none => M | some p => M.upd p.1 (some v)) := by
  cases e with
  | none => exact h
  | some p => exact h.set v (he p rfl)

theorem SL.Lists.mem_of_find {l : SL K V} {M : Map K V} (h : SL.Lists l M) {k : K} {p : K × V}
    (hp : SL.find l k = some p) : M.Mem p.1 := by
  rw [h.find] at hp
  rcases hk : M k with _ | v
  · rw [hk] at hp; cases hp
  · rw [hk] at hp; cases hp; exact Map.mem_of hk

theorem SL.Lists.mem_of_minE {l : SL K V} {M : Map K V} (h : SL.Lists l M) {p : K × V}
    (hp : SL.minE l = some p) : M.Mem p.1 := Map.mem_of (h.minE.1 hp).1
theorem SL.Lists.mem_of_maxE {l : SL K V} {M : Map K V} (h : SL.Lists l M) {p : K × V}
    (hp : SL.maxE l = some p) : M.Mem p.1 := Map.mem_of (h.maxE.1 hp).1
theorem SL.Lists.mem_of_pred {l : SL K V} {M : Map K V} (h : SL.Lists l M) {k : K} {p : K × V}
    (hp : SL.pred l k = some p) : M.Mem p.1 := by
  have := h.pred k
  rw [hp] at this
  exact Map.mem_of this.1
theorem SL.Lists.mem_of_succ {l : SL K V} {M : Map K V} (h : SL.Lists l M) {k : K} {p : K × V}
    (hp : SL.succ l k = some p) : M.Mem p.1 := by
  have := h.succ k
  rw [hp] at this
  exact Map.mem_of this.1

theorem SL.sorted_step {l : SL K V} (h : SL.Sorted l) (op : Op K V) : SL.Sorted (SL.step l op).1 := by
  have hl := SL.lists_toMap h
  cases op with
  | insert k v => exact (hl.insert k v).1
  | remove k => exact (hl.erase k).1
  | removeMin => exact h.sublist (List.tail_sublist l)
  | removeMax => exact h.sublist (List.dropLast_sublist l)
  | find k => exact h
  | predecessor k => exact h
  | successor k => exact h
  | minVal => exact h
  | maxVal => exact h
  | isMonad => exact h
  | intoMonad =>
    by_cases e : l.length = 1
    · simp only [SL.step, e, if_true]; exact List.Pairwise.nil
    · simp only [SL.step, e, if_false]; exact h
  | findSet k v => exact (hl.setAt v fun p hp => hl.mem_of_find hp).1
  | predecessorSet k v => exact (hl.setAt v fun p hp => hl.mem_of_pred hp).1
  | successorSet k v => exact (hl.setAt v fun p hp => hl.mem_of_succ hp).1
  | minSet v => exact (hl.setAt v fun p hp => hl.mem_of_minE hp).1
  | maxSet v => exact (hl.setAt v fun p hp => hl.mem_of_maxE hp).1

theorem SL.sorted_run {l : SL K V} (h : SL.Sorted l) (ops : List (Op K V)) : SL.Sorted (SL.run l ops).1 := by
  induction ops generalizing l with
  | nil => exact h
  | cons op ops ih => exact ih (SL.sorted_step h op)

theorem entries_lists (ops : List (Op K V)) : SL.Lists (entries ops) (contents ops) :=
  SL.lists_toMap (SL.sorted_run List.Pairwise.nil ops)

theorem SL.run_append (l : SL K V) (a b : List (Op K V)) :
    SL.run l (a ++ b) = ((SL.run (SL.run l a).1 b).1, (SL.run l a).2 ++ (SL.run (SL.run l a).1 b).2) := by
  induction a generalizing l with
  | nil => rfl
  | cons op a ih => simp only [List.cons_append, SL.run, ih]

theorem SL.safeHist_append (Safe : (K → Prop) → K → Prop) (l : SL K V) (a b : List (Op K V)) :
    SL.SafeHist Safe l (a ++ b) ↔ SL.SafeHist Safe l a ∧ SL.SafeHist Safe (SL.run l a).1 b := by
  induction a generalizing l with
  | nil => simp [SL.SafeHist, SL.run]
  | cons op a ih => simp only [List.cons_append, SL.SafeHist, ih, SL.run, and_assoc]

theorem safeHist_always (l : SL K V) (ops : List (Op K V)) : SL.SafeHist always l ops := by
  induction ops generalizing l with
  | nil => trivial
  | cons op ops ih =>
    refine ⟨?_, ih _⟩
    cases op <;> first | trivial | exact .inr trivial

theorem SL.sorted_nil : SL.Sorted ([] : SL K V) := List.Pairwise.nil

theorem SL.safeHist_mono {S1 S2 : (K → Prop) → K → Prop} {l : SL K V} (hl : SL.Sorted l)
    (h : ∀ P k, Set.Finite {j | P j} → S1 P k → S2 P k) {ops : List (Op K V)} (hs : SL.SafeHist S1 l ops) :
    SL.SafeHist S2 l ops := by
  induction ops generalizing l with
  | nil => trivial
  | cons op ops ih =>
    refine ⟨?_, ih (SL.sorted_step hl op) hs.2⟩
    have h1 := hs.1
    cases op with
    | insert k v =>
      refine h1.imp_right (h _ _ ?_)
      have := (SL.lists_toMap hl)
      rw [this.keys]
      exact this.finite
    | _ => trivial

theorem SL.safeHist_replicate (Safe : (K → Prop) → K → Prop) {op : Op K V}
    (hop : op = .removeMin ∨ op = .removeMax) (l : SL K V) (n : Nat) :
    SL.SafeHist Safe l (List.replicate n op) := by
  induction n generalizing l with
  | zero => trivial
  | succ n ih =>
    refine ⟨?_, ih _⟩
    rcases hop with rfl | rfl <;> trivial

theorem SL.drain_min (l : SL K V) : (SL.run l (List.replicate l.length .removeMin)).1 = [] ∧
    (SL.run l (List.replicate l.length .removeMin)).2 = l.map fun e => .kv (some e) := by
  induction l with
  | nil => exact ⟨rfl, rfl⟩
  | cons p l ih =>
    simp only [List.length_cons, List.replicate_succ, SL.run, SL.step, List.tail_cons]
    exact ⟨ih.1, by rw [ih.2]; rfl⟩

theorem SL.drain_max (l : SL K V) : (SL.run l (List.replicate l.length .removeMax)).1 = [] ∧
    (SL.run l (List.replicate l.length .removeMax)).2 = l.reverse.map fun e => .kv (some e) := by
  induction l using List.reverseRecOn with
  | nil => exact ⟨rfl, rfl⟩
  | append_singleton l p ih =>
    simp only [List.length_append, List.length_singleton, List.replicate_succ, SL.run, SL.step,
      List.dropLast_concat]
    exact ⟨ih.1, by rw [ih.2]; simp [SL.maxE]⟩

theorem SL.setAt_length (l : SL K V) (e : Option (K × V)) (v : V) : (SL.setAt l e v).length = l.length := by
  cases e <;> simp [SL.setAt, SL.set]

theorem SL.length_step {l : SL K V} (op : Op K V) :
    (∀ k v, op ≠ .insert k v) → (SL.step l op).1.length ≤ l.length := by
  intro hop
  cases op with
  | insert k v => exact absurd rfl (hop k v)
  | remove k => exact List.length_filter_le _ _
  | intoMonad =>
    by_cases e : l.length = 1
    · simp [SL.step, e]
    · simp [SL.step, e]
  | _ => simp [SL.step, SL.setAt_length]

/-- Under `sizedSafe`, at most `usize::MAX` entries are ever stored. -/
theorem SL.run_small {safe : (K → Prop) → K → Prop} {l : SL K V} (hl : SL.Sorted l) (hn : l.length ≤ usizeMax)
    {ops : List (Op K V)} (hs : SL.SafeHist (sizedSafe safe) l ops) : (SL.run l ops).1.length ≤ usizeMax := by
  induction ops generalizing l with
  | nil => exact hn
  | cons op ops ih =>
    refine ih (SL.sorted_step hl op) ?_ hs.2
    have h1 := hs.1
    by_cases hop : ∀ k v, op ≠ .insert k v
    · exact (SL.length_step op hop).trans hn
    · push Not at hop
      obtain ⟨k, v, rfl⟩ := hop
      have L := SL.lists_toMap hl
      have hcard : (SL.insert l k v).length = ((SL.toMap l).upd k (some v)).card := (L.insert k v).card.symm
      show (SL.insert l k v).length ≤ _
      rcases h1 with rfl | ⟨-, hp | hp⟩
      · simp [SL.insert]; decide
      · rw [L.keys] at hp
        rw [hcard, Map.card_upd_of_mem hp, L.card]; exact hn
      · rw [L.keys] at hp
        have h2 : (SL.toMap l).card < usizeMax := hp
        by_cases hm : (SL.toMap l).Mem k
        · rw [hcard, Map.card_upd_of_mem hm, L.card]; exact hn
        · rw [hcard, Map.card_upd_new L.finite (by simpa [Map.Mem] using hm)]; omega

/-- The first insertion of a history that is not safe. -/
theorem SL.first_unsafe {Safe : (K → Prop) → K → Prop} {l : SL K V} {ops : List (Op K V)}
    (h : ¬ SL.SafeHist Safe l ops) : ∃ pre k v, pre ++ [.insert k v] <+: ops ∧ SL.SafeHist Safe l pre ∧
      (SL.run l pre).1 ≠ [] ∧ ¬ Safe (SL.keys (SL.run l pre).1) k := by
  induction ops generalizing l with
  | nil => exact absurd trivial h
  | cons op ops ih =>
    by_cases h1 : (match op with | .insert k _ => l = [] ∨ Safe (SL.keys l) k | _ => True)
    · obtain ⟨pre, k, v, e1, e2, e3, e4⟩ := ih (l := (SL.step l op).1) fun h2 => h ⟨h1, h2⟩
      exact ⟨op :: pre, k, v, by simpa using e1, ⟨h1, e2⟩, e3, e4⟩
    · cases op with
      | insert k v =>
        rw [not_or] at h1
        exact ⟨[], k, v, by simp, trivial, h1.1, h1.2⟩
      | _ => exact absurd trivial h1

end spec

section
variable {T K V : Type} [LinearOrder K] [VebTree T K V]

theorem reach_inv (L : LawfulVebTree T K V) {ops : List (Op K V)} {t : T}
    (hs : SL.SafeHist L.Safe [] ops) (hr : Reaches ops t) : L.Inv t ∧ L.abs t = contents ops := by
  obtain ⟨t', h1, h2⟩ := run_ok (L := L) rel_none ops hs
  obtain ⟨os, hr⟩ := hr
  rw [h1] at hr
  cases hr
  exact ⟨h2.1, h2.2.ext (entries_lists ops)⟩

theorem rel_nil [L : LawfulVebTree T K V] {t : Option T} (h : Rel t ([] : SL K V)) : t = none := by
  cases t with
  | none => rfl
  | some t =>
    obtain ⟨k, hk⟩ := L.nonempty t h.1
    have := h.2.nil_iff.1 rfl
    rw [this] at hk
    exact absurd hk (Map.mem_empty k)

theorem rest_none (L : LawfulVebTree T K V) {t : T} {k : K} {rest : Option T}
    (h : RemOk L.Inv L.abs ((L.abs t).upd k none) rest) : rest = none ↔ ∀ j, (L.abs t).Mem j → j = k := by
  cases rest with
  | none =>
    refine ⟨fun _ j hj => ?_, fun _ => rfl⟩
    by_contra hne
    have : (L.abs t).upd k none j = none := by rw [show (L.abs t).upd k none = Map.empty from h]; rfl
    rw [Map.upd_apply, if_neg hne] at this
    exact hj this
  | some t' =>
    refine ⟨fun e => (by cases e), fun e => ?_⟩
    obtain ⟨j, hj⟩ := L.nonempty t' h.1
    rw [h.2, Map.mem_upd_none] at hj
    exact absurd (e j hj.2) hj.1

theorem finds_without (L : LawfulVebTree T K V) {t t' : T} {k : K} (I : L.Inv t)
    (h : RemOk L.Inv L.abs ((L.abs t).upd k none) (some t')) : FindsWithout t t' k := by
  refine ⟨?_, fun j hj => ?_⟩
  · rw [L.find t' k h.1, h.2]; simp
  · rw [L.find t' j h.1, L.find t j I, h.2]; simp [Map.upd_apply, hj]

theorem allReachable_of (L : LawfulVebTree T K V) {P : Map K V → T → Prop}
    (h : ∀ t, L.Inv t → P (L.abs t) t) : AllReachable T L.Safe P := by
  intro ops t hs hr
  obtain ⟨I, e⟩ := reach_inv L hs hr
  rw [← e]
  exact h t I

theorem runsLikeMap_of (L : LawfulVebTree T K V) {ops : List (Op K V)} (hs : SL.SafeHist L.Safe [] ops) :
    RunsLikeMap T ops := by
  obtain ⟨t', h1, h2⟩ := run_ok (L := L) rel_none ops hs
  refine ⟨t', h1, ?_⟩
  cases t' with
  | none => exact ⟨fun _ => h2, fun _ => rfl⟩
  | some t =>
    refine ⟨fun h => (by cases h), fun h => ?_⟩
    obtain ⟨k, hk⟩ := L.nonempty t h2.1
    have := h2.2.nil_iff.1 h
    rw [this] at hk
    exact absurd hk (Map.mem_empty k)

end


section
variable {T K V : Type} [VebTree T K V]

theorem run_append_ok {t t' t'' : Option T} {a b : List (Op K V)} {os os' : List (Out K V)}
    (h : Exec.run t a = .ok (t', os)) (h' : Exec.run t' b = .ok (t'', os')) :
    Exec.run t (a ++ b) = .ok (t'', os ++ os') := by
  induction a generalizing t os with
  | nil => cases h; exact h'
  | cons op a ih =>
    simp only [Exec.run] at h
    rcases hs : Exec.step t op with e | ⟨t1, o⟩
    · rw [hs] at h; cases h
    · rw [hs] at h
      simp only [R.ok_bind] at h
      rcases hr : Exec.run t1 a with e | ⟨t2, os2⟩
      · rw [hr] at h; cases h
      · rw [hr] at h
        cases h
        simp only [List.cons_append, Exec.run, hs, R.ok_bind, ih hr]
        rfl

theorem out_of {ops : List (Op K V)} {t : T} {q : Op K V} {t' : Option T} {o : Out K V}
    (hr : Reaches ops t) (hs : Exec.stepTree t q = .ok (t', o)) :
    (outputs T (ops ++ [q])).map List.getLast? = .ok (some o) := by
  obtain ⟨os, hr⟩ := hr
  have := run_append_ok hr (b := [q]) (t'' := t') (os' := [o]) (by simp [Exec.run, Exec.step, hs])
  rw [outputs, this]
  simp [Except.map]

/-- What the last operation of a history outputs is what it outputs on the tree the rest of it reaches. -/
theorem of_out {ops : List (Op K V)} {t : T} {q : Op K V} {o : Out K V} (hr : Reaches ops t)
    (h : (outputs T (ops ++ [q])).map List.getLast? = .ok (some o)) : ∃ t', Exec.stepTree t q = .ok (t', o) := by
  rcases hs : Exec.stepTree t q with e | ⟨t', o'⟩
  · exfalso
    obtain ⟨os, hr⟩ := hr
    have : ∀ (s : Option T) (a : List (Op K V)) os', Exec.run s a = .ok (some t, os') →
        Exec.run s (a ++ [q]) = .error e := by
      intro s a
      induction a generalizing s with
      | nil => intro os' h; cases h; simp [Exec.run, Exec.step, hs]; rfl
      | cons op a ih =>
        intro os' h
        simp only [List.cons_append, Exec.run] at h ⊢
        rcases hs' : Exec.step s op with e' | ⟨t1, o1⟩
        · rw [hs'] at h; cases h
        · rw [hs'] at h
          simp only [R.ok_bind] at h ⊢
          rcases hr' : Exec.run t1 a with e' | ⟨t2, os2⟩
          · rw [hr'] at h; cases h
          · rw [hr'] at h
            cases h
            rw [ih _ _ hr']; rfl
    rw [outputs, this _ _ _ hr] at h
    cases h
  · have := out_of hr hs
    rw [h] at this
    cases this
    exact ⟨t', rfl⟩

end

/-- For a tree over leaf types, a history is safe iff it does not insert below the minimum. -/
theorem notBelowMin_iff {K V Hi Lo : Type} [LinearOrder K] [VebKey K Hi Lo] {l : SL K V} (hl : SL.Sorted l)
    (ops : List (Op K V)) :
    notBelowMin l ops = true ↔ SL.SafeHist (Tree.Safe (K := K) (Hi := Hi) (Lo := Lo) always always) l ops := by
  induction ops generalizing l with
  | nil => simp [notBelowMin, SL.SafeHist]
  | cons op ops ih =>
    have ih := ih (SL.sorted_step hl op)
    cases op with
    | insert k v =>
      simp only [notBelowMin, SL.SafeHist, Bool.and_eq_true, ih]
      refine and_congr_left fun _ => ?_
      rcases l with _ | ⟨a, _ | ⟨b, l⟩⟩
      · simp
      · simp only [List.length_singleton, le_refl, decide_true, Bool.true_or, true_iff]
        refine .inr fun mn mx h1 h2 h3 _ => ?_
        obtain ⟨v1, h1⟩ := h1
        obtain ⟨v2, h2⟩ := h2
        rw [List.mem_singleton] at h1 h2
        exact absurd (congrArg Prod.fst (h1.trans h2.symm)) h3
      · simp only [List.length_cons, List.head?_cons, Option.all_some]
        rw [decide_eq_false (by omega), Bool.false_or, decide_eq_true_eq]
        have hab : ∀ e ∈ b :: l, a.1 < e.1 := (List.pairwise_cons.1 hl).1
        have ha : ∀ j, SL.keys (a :: b :: l) j → a.1 ≤ j := by
          rintro j ⟨w, hw⟩
          rcases List.mem_cons.1 hw with h | h
          · rw [← h]
          · exact (hab _ h).le
        constructor
        · intro h
          refine .inr fun mn mx h1 h2 h3 h4 => ⟨?_, ?_⟩
          · exact ((h4 a.1 ⟨a.2, List.mem_cons_self⟩).1).trans h
          · exact .inr (.inr fun x _ => ⟨fun _ _ _ => trivial, fun _ _ _ _ => trivial⟩)
        · rintro (h | h)
          · cases h
          · obtain ⟨z, hz, hm⟩ : ∃ z ∈ b :: l, ∀ e ∈ b :: l, e.1 ≤ z.1 := by
              have hs := (List.pairwise_cons.1 hl).2
              refine ⟨(b :: l).getLast (by simp), List.getLast_mem _, fun e he => ?_⟩
              have := List.dropLast_append_getLast (l := b :: l) (by simp)
              rw [← this] at hs he
              rcases List.mem_append.1 he with h | h
              · exact ((List.pairwise_append.1 hs).2.2 e h _ (by simp)).le
              · rw [List.mem_singleton.1 h]
            exact (h a.1 z.1 ⟨a.2, List.mem_cons_self⟩ ⟨z.2, List.mem_cons_of_mem _ hz⟩ (hab z hz).ne fun j hj =>
              ⟨ha j hj, by
                obtain ⟨w, hw⟩ := hj
                rcases List.mem_cons.1 hw with h | h
                · rw [← h] at hab; exact (hab z hz).le
                · exact hm _ h⟩).1
    | _ => simpa [notBelowMin, SL.SafeHist] using ih

end Veb
