import Verif.SpecArray
import Verif.Proof.ByteList

/-!
`ArrayTreeCollection<H, A>` over an array type that behaves as an array follows the specification of collections.
-/

set_option autoImplicit false

namespace Veb

namespace Map
variable {K V : Type} [DecidableEq K] {M : Map K V}

theorem finite_upd (hf : Set.Finite {j | M.Mem j}) (k : K) (o : Option V) : Set.Finite {j | (M.upd k o).Mem j} := by
  refine (hf.insert k).subset fun j hj => ?_
  by_cases e : j = k
  · exact .inl e
  · refine .inr fun hn => hj ?_
    simp only [upd, if_neg e]
    exact hn
theorem card_pos (hf : Set.Finite {j | M.Mem j}) (h : M ≠ empty) : 0 < M.card :=
  Nat.pos_of_ne_zero fun h0 => h ((card_eq_zero hf).1 h0)
theorem card_upd_le (hf : Set.Finite {j | M.Mem j}) (k : K) (o : Option V) : (M.upd k o).card ≤ M.card + 1 := by
  have : {j | (M.upd k o).Mem j} ⊆ Set.insert k {j | M.Mem j} := fun j hj => by
    by_cases e : j = k
    · exact .inl e
    · refine .inr fun hn => hj ?_
      simp only [upd, if_neg e]
      exact hn
  exact (Set.ncard_le_ncard this (hf.insert k)).trans (Set.ncard_insert_le _ _)
end Map

namespace ArrayOf
variable {Hi A T Lo V : Type} [LinearOrder Hi] [SizedVebKey Hi] [ArrayT A (SizedVebKey.cardinality Hi) T] [VebTree T Lo V]
  {dom : Nat → Prop} {r : A → (Nat → Option T) → Prop}

/-- the array stands for the map -/
def ARep (r : A → (Nat → Option T) → Prop) (a : A) (M : Map Hi T) : Prop :=
  ∃ f, r a f ∧ ∀ h, M h = f (SizedVebKey.index h)

/-- the collection stands for the map -/
def Rep (r : A → (Nat → Option T) → Prop) (c : Option (ArrayOf Hi A)) (M : Map Hi T) : Prop :=
  match c with
  | none => M = Map.empty
  | some c => ARep r c.array M ∧ Set.Finite {h | M.Mem h} ∧ M ≠ Map.empty ∧ c.count = M.card

variable (S : ArrayBy (SizedVebKey.cardinality Hi) dom r) (hd : ∀ h : Hi, dom (SizedVebKey.index h))
  (hi : Function.Injective (SizedVebKey.index : Hi → Nat))

omit [LinearOrder Hi] [VebTree T Lo V] in
include S hd in
theorem slot_ok {a : A} {M : Map Hi T} (h : ARep r a M) (k : Hi) : slot a k = .ok (M k) := by
  obtain ⟨f, h, e⟩ := h
  rw [e k]
  exact S.get a f _ h (hd k)

omit [VebTree T Lo V] in
include S hd hi in
theorem slotMut_ok {a : A} {M : Map Hi T} (h : ARep r a M) (k : Hi) :
    ∃ put, slotMut a k = .ok (M k, put) ∧ ∀ o, ARep r (put o) (M.upd k o) := by
  obtain ⟨f, h, e⟩ := h
  obtain ⟨put, h1, h2⟩ := S.getMut a f _ h (hd k)
  rw [e k]
  refine ⟨put, h1, fun o => ⟨_, h2 o, fun j => ?_⟩⟩
  by_cases c : j = k
  · simp [Map.upd, c]
  · have : SizedVebKey.index j ≠ SizedVebKey.index k := fun x => c (hi x)
    simp only [Map.upd, if_neg c, if_neg this, e]

omit [VebTree T Lo V] [ArrayT A (SizedVebKey.cardinality Hi) T] in
theorem removed_ok {a : A} {M : Map Hi T} (hf : Set.Finite {h | M.Mem h}) {k : Hi}
    {o : Option T} {n : Nat} (hn : n = (M.upd k o).card) (h : ARep r a (M.upd k o)) (val : Lo × V) :
    Rep r (CollExec.removed (Lo := Lo) (V := V) (Hi := Hi) (T := T)
        (if n = 0 then (none, val) else (some ((⟨a, n⟩ : ArrayOf Hi A), o.isNone), val))).1 (M.upd k o) ∧
      (CollExec.removed (Lo := Lo) (V := V) (Hi := Hi) (T := T)
        (if n = 0 then (none, val) else (some ((⟨a, n⟩ : ArrayOf Hi A), o.isNone), val))).2 =
      .removed val (CollSpec.left (M.upd k o) o) := by
  have hf' := Map.finite_upd hf k o
  subst hn
  by_cases h0 : (M.upd k o).card = 0
  · have he := (Map.card_eq_zero hf').1 h0
    rw [if_pos h0]
    exact ⟨he, by simp [CollExec.removed, CollSpec.left, he]⟩
  · have he : M.upd k o ≠ Map.empty := fun e => h0 ((Map.card_eq_zero hf').2 e)
    rw [if_neg h0]
    exact ⟨⟨h, hf', he, rfl⟩, by simp [CollExec.removed, CollSpec.left, he]⟩

omit [VebTree T Lo V] [ArrayT A (SizedVebKey.cardinality Hi) T] [SizedVebKey Hi] in
theorem sub_ok {M : Map Hi T} (hf : Set.Finite {h | M.Mem h}) {k : Hi} (hk : M.Mem k) :
    subUsize M.card 1 = .ok (M.upd k none).card := by
  have := Map.card_upd_none hf hk
  unfold subUsize
  rw [if_pos (by omega)]
  congr 1
  omega

omit [VebTree T Lo V] in
include S hd hi in
theorem create_ok (h : Hi) (t : T) : ∃ c : ArrayOf Hi A, create h t = .ok c ∧ Rep r (some c) (Map.empty.upd h (some t)) := by
  obtain ⟨a, h1, h2⟩ := S.create
  have ha : ARep r a (Map.empty : Map Hi T) := ⟨_, h2, fun _ => rfl⟩
  obtain ⟨put, h3, h4⟩ := slotMut_ok S hd hi ha h
  have hf : Set.Finite {h : Hi | (Map.empty : Map Hi T).Mem h} := by
    have : {h : Hi | (Map.empty : Map Hi T).Mem h} = ∅ := by ext; simp
    rw [this]; exact Set.finite_empty
  refine ⟨⟨put (some t), 1⟩, by simp only [create, h1, R.ok_bind, h3]; rfl, h4 _, Map.finite_upd hf _ _, ?_, ?_⟩
  · intro e
    have := congrFun e h
    simp [Map.upd, Map.empty] at this
  · rw [Map.card_upd_new hf rfl, (Map.card_eq_zero hf).2 rfl]

include S hd hi in
theorem step_ok {c : Option (ArrayOf Hi A)} {M : Map Hi T} (R : Rep r c M) (op : COp Hi T Lo V)
    (hroom : ∀ h, M h = none → M.card + 1 ≤ usizeMax) :
    Rx (fun x y => Rep r x.1 y.1 ∧ x.2 = y.2) (CollExec.step c op) (CollSpec.step .debugAssert M op) := by
  cases c with
  | none =>
    have hM : M = Map.empty := R
    subst hM
    cases op with
    | create h t =>
      obtain ⟨c, h1, h2⟩ := create_ok S hd hi h t
      have h1 : TreeCollection.create h t = Except.ok c := h1
      simp only [CollSpec.step, if_true, CollExec.step, h1, CollSpec.put_eq]
      exact .ok ⟨h2, rfl⟩
    | _ =>
      simp only [CollSpec.step, if_true, CollExec.step]
      exact .ok ⟨rfl, rfl⟩
  | some c =>
    obtain ⟨ha, hf, hM, hc⟩ := R
    simp only [CollSpec.step, if_neg hM, CollExec.step]
    cases op with
    | create h t =>
      obtain ⟨c, h1, h2⟩ := create_ok S hd hi h t
      have h1 : TreeCollection.create h t = Except.ok c := h1
      simp only [CollSpec.stepMap, CollExec.stepColl, h1, CollSpec.put_eq]
      exact .ok ⟨h2, rfl⟩
    | get h =>
      have h1 : TreeCollection.get c h = Except.ok (M h) := slot_ok S hd ha h
      simp only [CollSpec.stepMap, CollExec.stepColl, h1]
      exact .ok ⟨⟨ha, hf, hM, hc⟩, rfl⟩
    | set h u =>
      obtain ⟨put, h1, h2⟩ := slotMut_ok S hd hi ha h
      cases e : M h with
      | none =>
        have h1 : TreeCollection.getMut c h = Except.ok none := by
          show getMut c h = _
          simp only [getMut, h1, e, R.ok_bind]
          rfl
        simp only [CollSpec.stepMap, CollExec.stepColl, e, h1]
        exact .ok ⟨⟨ha, hf, hM, hc⟩, rfl⟩
      | some t =>
        have h1 : TreeCollection.getMut c h = Except.ok (some (t, fun u => { c with array := put (some u) })) := by
          show getMut c h = _
          simp only [getMut, h1, e, R.ok_bind]
          rfl
        simp only [CollSpec.stepMap, CollExec.stepColl, e, h1, CollSpec.put_eq]
        refine .ok ⟨⟨h2 _, Map.finite_upd hf _ _, fun x => ?_, ?_⟩, rfl⟩
        · have := congrFun x h
          simp [Map.upd, Map.empty] at this
        · rw [Map.card_upd_of_mem (Map.mem_of e)]
          exact hc
    | insert h l v =>
      obtain ⟨put, h1, h2⟩ := slotMut_ok S hd hi ha h
      have hne : ∀ t, M.upd h (some t) ≠ Map.empty := fun t x => by
        have := congrFun x h
        simp [Map.upd, Map.empty] at this
      cases e : M h with
      | none =>
        have hr := hroom h e
        have hu : M.upd h none = M := funext fun j => by
          by_cases hj : j = h
          · simp [Map.upd, hj, e]
          · simp [Map.upd, hj]
        obtain ⟨put', h1', h2⟩ := slotMut_ok S hd hi (hu ▸ h2 none) h
        have h1 : TreeCollection.insertKey c h (l, v) = Except.ok (⟨put' (some (VebTree.fromMonad l v)), c.count + 1⟩, Result.Ok h) := by
          show insertKey c h (l, v) = _
          simp only [insertKey, h1, h1', e, R.ok_bind, addUsize, hc, if_pos hr]
          rfl
        simp only [CollSpec.stepMap, CollExec.stepColl, e, h1, CollSpec.put_eq]
        refine .ok ⟨⟨h2 _, Map.finite_upd hf _ _, hne _, ?_⟩, rfl⟩
        rw [Map.card_upd_new hf e, ← hc]
      | some t =>
        cases hv : VebTree.insert t l v with
        | error x =>
          have h1 : TreeCollection.insertKey c h (l, v) = Except.error x := by
            show insertKey c h (l, v) = _
            simp only [insertKey, h1, e, R.ok_bind, hv]
            rfl
          simp only [CollSpec.stepMap, CollExec.stepColl, e, hv, h1]
          exact .err _ _
        | ok x =>
          obtain ⟨t', o⟩ := x
          have h1 : TreeCollection.insertKey c h (l, v) = Except.ok (⟨put (some t'), c.count⟩, Result.Err (h, o)) := by
            show insertKey c h (l, v) = _
            simp only [insertKey, h1, e, R.ok_bind, hv]
            rfl
          simp only [CollSpec.stepMap, CollExec.stepColl, e, hv, h1, CollSpec.put_eq]
          refine .ok ⟨⟨h2 _, Map.finite_upd hf _ _, hne _, ?_⟩, rfl⟩
          rw [Map.card_upd_of_mem (Map.mem_of e)]
          exact hc
    | remove h f =>
      obtain ⟨put, h1, h2⟩ := slotMut_ok S hd hi ha h
      obtain ⟨put', h3, h4⟩ := slotMut_ok S hd hi (h2 none) h
      simp only [CollSpec.stepMap, CollExec.stepColl]
      show Rx _ (removeKey c h f >>= _) _
      simp only [removeKey, h1, R.ok_bind]
      cases e : M h with
      | none => exact .err _ _
      | some t =>
        simp only [expect, R.ok_bind]
        cases hv : f t with
        | error x => exact .err _ _
        | ok x =>
          obtain ⟨o, val⟩ := x
          have hup : (M.upd h none).upd h o = M.upd h o := by
            funext j
            simp only [Map.upd]
            split <;> rfl
          have h4 := h4 o
          rw [hup] at h4
          have := removed_ok (Lo := Lo) (V := V) hf rfl h4 val
          have hs := sub_ok hf (Map.mem_of e)
          cases o with
          | none =>
            simp only [R.ok_bind, hc, Option.isNone_none, if_true, hs, h3, CollSpec.put_eq]
            split at this <;> rename_i h0
            · simp only [h0, if_true]
              exact .ok this
            · simp only [h0, if_false]
              exact .ok this
          | some u =>
            have hs := (Map.card_upd_of_mem (v := u) (Map.mem_of e)).symm
            simp only [R.ok_bind, hc, Option.isNone_some, Bool.false_eq_true, if_false, pure_bind, hs, h3, CollSpec.put_eq]
            split at this <;> rename_i h0
            · simp only [h0, if_true]
              exact .ok this
            · simp only [h0, if_false]
              exact .ok this
    | maybeRemove h f =>
      obtain ⟨put, h1, h2⟩ := slotMut_ok S hd hi ha h
      obtain ⟨put', h3, h4⟩ := slotMut_ok S hd hi (h2 none) h
      have hup : ∀ o, (M.upd h none).upd h o = M.upd h o := fun o => by
        funext j
        simp only [Map.upd]
        split <;> rfl
      simp only [CollSpec.stepMap, CollExec.stepColl]
      show Rx _ (maybeRemoveKey c h f >>= _) _
      simp only [maybeRemoveKey, h1, R.ok_bind]
      cases e : M h with
      | none =>
        have := h2 none
        rw [Map.upd_none_of_none e] at this
        exact .ok ⟨⟨this, hf, hM, hc⟩, rfl⟩
      | some t =>
        dsimp only
        cases hv : f t with
        | error x => exact .err _ _
        | ok x =>
          rcases x with ⟨o, val⟩ | t'
          · have h4 := h4 o
            rw [hup] at h4
            have := removed_ok (Lo := Lo) (V := V) hf rfl h4 val
            have hs := sub_ok hf (Map.mem_of e)
            cases o with
            | none =>
              simp only [R.ok_bind, hc, Option.isNone_none, if_true, hs, h3, CollSpec.put_eq]
              split at this <;> rename_i h0
              · simp only [h0, if_true]
                exact .ok this
              · simp only [h0, if_false]
                exact .ok this
            | some u =>
              have hs := (Map.card_upd_of_mem (v := u) (Map.mem_of e)).symm
              simp only [R.ok_bind, hc, Option.isNone_some, Bool.false_eq_true, if_false, pure_bind, hs, h3, CollSpec.put_eq]
              split at this <;> rename_i h0
              · simp only [h0, if_true]
                exact .ok this
              · simp only [h0, if_false]
                exact .ok this
          · have h4 := h4 (some t')
            rw [hup] at h4
            simp only [R.ok_bind, h3, CollSpec.put_eq]
            refine .ok ⟨⟨h4, Map.finite_upd hf _ _, fun x => ?_, ?_⟩, rfl⟩
            · have := congrFun x h
              simp [Map.upd, Map.empty] at this
            · rw [Map.card_upd_of_mem (Map.mem_of e)]
              exact hc

omit [VebTree T Lo V] [ArrayT A (SizedVebKey.cardinality Hi) T] [SizedVebKey Hi] [LinearOrder Hi] in
theorem finite_empty : Set.Finite {h : Hi | (Map.empty : Map Hi T).Mem h} := by
  have : {h : Hi | (Map.empty : Map Hi T).Mem h} = ∅ := by ext; simp
  rw [this]
  exact Set.finite_empty

omit [ArrayT A (SizedVebKey.cardinality Hi) T] [SizedVebKey Hi] in
/-- a specified call makes the map at most one larger -/
theorem spec_card {M M' : Map Hi T} {op : COp Hi T Lo V} {o : COut Hi T Lo V} (hf : Set.Finite {h | M.Mem h})
    (h : CollSpec.step .debugAssert M op = .ok (M', o)) : Set.Finite {h | M'.Mem h} ∧ M'.card ≤ M.card + 1 := by
  have key : M' = M ∨ (∃ k o, M' = M.upd k o) ∨ ∃ k o, M' = Map.empty.upd k o := by
    unfold CollSpec.step at h
    split at h
    · cases op <;> simp only at h <;> cases h
      · exact .inr (.inr ⟨_, _, CollSpec.put_eq _ _ _⟩)
      all_goals exact .inl rfl
    · cases op with
      | create k t => cases h; exact .inr (.inr ⟨_, _, CollSpec.put_eq _ _ _⟩)
      | get k => cases h; exact .inl rfl
      | set k u =>
        simp only [CollSpec.stepMap, CollSpec.put_eq] at h
        split at h <;> cases h
        · exact .inl rfl
        · exact .inr (.inl ⟨_, _, rfl⟩)
      | insert k l v =>
        simp only [CollSpec.stepMap, CollSpec.put_eq] at h
        split at h
        · cases h; exact .inr (.inl ⟨_, _, rfl⟩)
        · split at h <;> cases h
          exact .inr (.inl ⟨_, _, rfl⟩)
      | remove k f =>
        simp only [CollSpec.stepMap, CollSpec.put_eq] at h
        split at h
        · cases h
        · split at h <;> cases h
          exact .inr (.inl ⟨_, _, rfl⟩)
      | maybeRemove k f =>
        simp only [CollSpec.stepMap, CollSpec.put_eq] at h
        split at h
        · cases h; exact .inl rfl
        · split at h <;> cases h
          · exact .inr (.inl ⟨_, _, rfl⟩)
          · exact .inr (.inl ⟨_, _, rfl⟩)
  rcases key with rfl | ⟨k, o, rfl⟩ | ⟨k, o, rfl⟩
  · exact ⟨hf, Nat.le_succ _⟩
  · exact ⟨Map.finite_upd hf _ _, Map.card_upd_le hf _ _⟩
  · have := Map.card_upd_le (finite_empty (Hi := Hi) (T := T)) k o
    rw [(Map.card_eq_zero finite_empty).2 rfl] at this
    exact ⟨Map.finite_upd finite_empty _ _, by omega⟩

include S hd hi in
theorem run_ok (ops : List (COp Hi T Lo V)) : ∀ {c : Option (ArrayOf Hi A)} {M : Map Hi T}, Rep r c M →
    Set.Finite {h | M.Mem h} →
    ((∀ (M : Map Hi T) h, M h = none → M.card + 1 ≤ usizeMax) ∨ M.card + ops.length ≤ usizeMax) →
    Rx (fun x y => Rep r x.1 y.1 ∧ x.2 = y.2) (CollExec.run c ops) (CollSpec.run .debugAssert M ops) := by
  induction ops with
  | nil => exact fun R _ _ => .ok ⟨R, rfl⟩
  | cons op ops ih =>
    intro c M R hf hroom
    have hs := step_ok S hd hi R op (fun h hn => by
      rcases hroom with hroom | hroom
      · exact hroom M h hn
      · rw [List.length_cons] at hroom
        omega)
    simp only [CollExec.run, CollSpec.run]
    cases hm : CollSpec.step .debugAssert M op with
    | error e =>
      rw [hm] at hs
      cases hx : CollExec.step c op with
      | error e => exact .err _ _
      | ok x => rw [hx] at hs; cases hs
    | ok y =>
      rw [hm] at hs
      cases hx : CollExec.step c op with
      | error e => rw [hx] at hs; cases hs
      | ok x =>
        rw [hx] at hs
        obtain ⟨c', o⟩ := x
        obtain ⟨M', o'⟩ := y
        cases hs with
        | ok hs =>
        obtain ⟨R', e⟩ := hs
        dsimp only at R' e
        subst e
        obtain ⟨hf', hle⟩ := spec_card hf hm
        have := ih R' hf' (hroom.imp id fun hr => by rw [List.length_cons] at hr; omega)
        show Rx _ (CollExec.run c' ops >>= _) _
        dsimp only
        cases hy : CollSpec.run .debugAssert M' ops with
        | error e =>
          rw [hy] at this
          cases hz : CollExec.run c' ops with
          | error e => exact .err _ _
          | ok x => rw [hz] at this; cases this
        | ok y =>
          rw [hy] at this
          cases hz : CollExec.run c' ops with
          | error e => rw [hz] at this; cases this
          | ok x =>
            rw [hz] at this
            cases this with
            | ok h => exact .ok ⟨h.1, by dsimp only; rw [h.2]⟩

/-! ## Overflow of the counter -/

section
omit [ArrayT A (SizedVebKey.cardinality Hi) T] [SizedVebKey Hi]
theorem spec_fill (l : Lo) (v : V) (ks : List Hi) : ∀ M : Map Hi T, M ≠ Map.empty → Set.Finite {h | M.Mem h} → ks.Nodup →
    (∀ k ∈ ks, M k = none) → ∃ M' os, CollSpec.run .debugAssert M (ks.map fun k => COp.insert k l v) = .ok (M', os) ∧
      M' ≠ Map.empty ∧ Set.Finite {h | M'.Mem h} ∧ M'.card = M.card + ks.length ∧ ∀ h, h ∉ ks → M' h = M h := by
  induction ks with
  | nil => exact fun M hM hf _ _ => ⟨M, [], rfl, hM, hf, rfl, fun _ _ => rfl⟩
  | cons k ks ih =>
    intro M hM hf hn hk
    rw [List.nodup_cons] at hn
    have h0 := hk k List.mem_cons_self
    have hne : M.upd k (some (VebTree.fromMonad l v)) ≠ Map.empty := fun x => by
      have := congrFun x k
      simp [Map.upd, Map.empty] at this
    obtain ⟨M', os, e, h1, h2, h3, h4⟩ := ih (M.upd k (some (VebTree.fromMonad l v))) hne (Map.finite_upd hf _ _) hn.2
      fun j hj => by
        have : j ≠ k := fun x => hn.1 (x ▸ hj)
        simp only [Map.upd, if_neg this]
        exact hk j (List.mem_cons_of_mem _ hj)
    refine ⟨M', .inserted (.Ok k) :: os, ?_, h1, h2, ?_, fun h hh => ?_⟩
    · simp only [List.map_cons, CollSpec.run, CollSpec.step, if_neg hM, CollSpec.stepMap, h0, CollSpec.put_eq, e]
    · rw [h3, Map.card_upd_new hf h0, List.length_cons]
      omega
    · rw [List.mem_cons, not_or] at hh
      rw [h4 h hh.2]
      simp only [Map.upd, if_neg hh.1]
end

omit [LinearOrder Hi] [SizedVebKey Hi] [VebTree T Lo V] in
theorem run_snoc {C : Type} [TreeCollection C Hi T Lo V] (ops : List (COp Hi T Lo V)) (op : COp Hi T Lo V) : ∀ {c c' : Option C}
    {os : List (COut Hi T Lo V)} {e : Panic}, CollExec.run c ops = .ok (c', os) → CollExec.step c' op = .error e →
    CollExec.run c (ops ++ [op]) = .error e := by
  induction ops with
  | nil =>
    intro c c' os e h h'
    cases h
    simp only [List.nil_append, CollExec.run, h']
    rfl
  | cons o ops ih =>
    intro c c' os e h h'
    simp only [List.cons_append, CollExec.run] at h ⊢
    cases hs : CollExec.step c o with
    | error x => rw [hs] at h; cases h
    | ok x =>
      rw [hs] at h
      simp only [R.ok_bind] at h ⊢
      cases hr : CollExec.run x.1 ops with
      | error y => rw [hr] at h; cases h
      | ok y =>
        rw [hr] at h
        cases h
        rw [ih hr h']
        rfl

include S hd hi in
theorem overflow (l : Lo) (v : V) (k0 k : Hi) (ks : List Hi) (hn : (k0 :: k :: ks).Nodup) (hlen : ks.length + 1 = usizeMax) :
    ∃ ops : List (COp Hi T Lo V), (∃ r, CollSpec.run .debugAssert Map.empty ops = .ok r) ∧
      CollExec.run (none : Option (ArrayOf Hi A)) ops = .error .arith := by
  have h0 : k0 ∉ ks := fun h => (List.nodup_cons.1 hn).1 (List.mem_cons_of_mem _ h)
  have hk : k ∉ ks := (List.nodup_cons.1 (List.nodup_cons.1 hn).2).1
  have h0k : k ≠ k0 := fun h => (List.nodup_cons.1 hn).1 (h ▸ List.mem_cons_self)
  have hks : ks.Nodup := (List.nodup_cons.1 (List.nodup_cons.1 hn).2).2
  obtain ⟨M0, hM0⟩ : ∃ M0 : Map Hi T, M0 = Map.empty.upd k0 (some (VebTree.fromMonad l v)) := ⟨_, rfl⟩
  have hne : M0 ≠ Map.empty := fun x => by
    have := congrFun x k0
    simp [hM0, Map.empty] at this
  have hf : Set.Finite {h | M0.Mem h} := by rw [hM0]; exact Map.finite_upd finite_empty _ _
  have hnone : ∀ j, j ≠ k0 → M0 j = none := fun j hj => by rw [hM0]; simp [Map.upd, hj, Map.empty]
  have hcard : M0.card = 1 := by rw [hM0, Map.card_upd_new finite_empty rfl, (Map.card_eq_zero finite_empty).2 rfl]
  have step0 : CollSpec.step .debugAssert Map.empty (COp.create k0 (VebTree.fromMonad l v) : COp Hi T Lo V) = .ok (M0, .done) := by
    simp only [CollSpec.step, if_true, CollSpec.put_eq, hM0]
  have fill : ∀ js : List Hi, js.Nodup → (∀ j ∈ js, j ≠ k0) → ∃ M' os, CollSpec.run .debugAssert Map.empty
      (COp.create k0 (VebTree.fromMonad l v) :: js.map fun k => COp.insert k l v) = .ok (M', os) ∧
      M' ≠ Map.empty ∧ Set.Finite {h | M'.Mem h} ∧ M'.card = js.length + 1 ∧ ∀ h, h ∉ js → M' h = M0 h := by
    intro js hj hj0
    obtain ⟨M', os, e, h1, h2, h3, h4⟩ := spec_fill l v js M0 hne hf hj fun j h => hnone j (hj0 j h)
    refine ⟨M', .done :: os, ?_, h1, h2, by omega, h4⟩
    simp only [CollSpec.run, step0, e]
  obtain ⟨M', os, e, h1, h2, h3, h4⟩ := fill ks hks fun j h x => h0 (x ▸ h)
  have hR := run_ok S hd hi (COp.create k0 (VebTree.fromMonad l v) :: ks.map fun k => COp.insert k l v) (c := none)
    (M := Map.empty) rfl finite_empty (.inr (by
      rw [(Map.card_eq_zero finite_empty).2 rfl, List.length_cons, List.length_map]; omega))
  rw [e] at hR
  cases hx : CollExec.run (none : Option (ArrayOf Hi A)) (COp.create k0 (VebTree.fromMonad l v) :: ks.map fun k => COp.insert k l v) with
  | error x => rw [hx] at hR; cases hR
  | ok x =>
    rw [hx] at hR
    obtain ⟨c, os'⟩ := x
    cases hR with
    | ok hR =>
    obtain ⟨hrep, -⟩ := hR
    dsimp only at hrep
    cases c with
    | none => exact absurd hrep h1
    | some c =>
      obtain ⟨ha, -, -, hc⟩ := hrep
      obtain ⟨M'', os'', e', -⟩ := fill (ks ++ [k]) (by
        rw [List.nodup_append]
        refine ⟨hks, by simp, ?_⟩
        intro a ha b hb
        rw [List.mem_singleton] at hb
        subst hb
        exact fun x => hk (x ▸ ha)) (by
        intro j hj x
        rw [List.mem_append, List.mem_singleton] at hj
        rcases hj with hj | hj
        · exact h0 (x ▸ hj)
        · exact h0k (hj ▸ x))
      refine ⟨_, ⟨_, e'⟩, ?_⟩
      rw [List.map_append, ← List.cons_append]
      refine run_snoc _ _ hx ?_
      obtain ⟨put, h5, h6⟩ := slotMut_ok S hd hi ha k
      obtain ⟨put', h7, -⟩ := slotMut_ok S hd hi (h6 none) k
      rw [h4 k hk, hnone k h0k] at h5
      show (insertKey c k (l, v) >>= _) = _
      simp only [insertKey, h5, h7, R.ok_bind, addUsize]
      rw [if_neg (by omega)]
      rfl

/-! ## The arrays of the crate -/

omit [LinearOrder Hi] in
theorem stepColl_same (c : ArrayColl Hi T) (op : COp Hi T Lo V) :
    Sk true (fun x y => x.1 = y.1.map asArrayOf ∧ x.2 = y.2) (CollExec.stepColl (asArrayOf c) op) (CollExec.stepColl c op) := by
  obtain ⟨⟨len, f⟩, n⟩ := c
  have gets : ∀ (g : Nat → Option T) (h : Hi), SizedVebKey.index h < len →
      (slotMut (⟨len, g⟩ : OptionArray T) h : R _) =
        .ok (g (SizedVebKey.index h), fun o => ⟨len, fun j => if j = SizedVebKey.index h then o else g j⟩) := fun g h hl => by
    show (OptionArray.get ⟨len, g⟩ (SizedVebKey.index h) >>= _) = _
    simp only [OptionArray.get, if_pos hl]
    rfl
  have getn : ∀ (g : Nat → Option T) (h : Hi), ¬ SizedVebKey.index h < len →
      (slotMut (⟨len, g⟩ : OptionArray T) h : R _) = .error .index := fun g h hl => by
    show (OptionArray.get ⟨len, g⟩ (SizedVebKey.index h) >>= _) = _
    simp only [OptionArray.get, if_neg hl]
    rfl
  have twice : ∀ (i : Nat) (o : Option T), (fun j => if j = i then o else if j = i then none else f j) = fun j => if j = i then o else f j :=
    fun i o => by funext j; split <;> rfl
  cases op with
  | create h t =>
    show Sk true _ (create h t >>= _) (ArrayColl.create h t >>= _)
    unfold create ArrayColl.create
    show Sk true _ ((slotMut (OptionArray.create _ : OptionArray T) h >>= _) >>= _) _
    unfold OptionArray.put slotMut
    show Sk true _ (((OptionArray.get _ _ >>= _) >>= _) >>= _) _
    unfold OptionArray.get
    dsimp only
    by_cases hl : SizedVebKey.index h < (OptionArray.create (T := T) (SizedVebKey.cardinality Hi)).len
    · rw [if_pos hl, if_pos hl]
      exact .ok ⟨rfl, rfl⟩
    · rw [if_neg hl, if_neg hl]
      exact .err
  | get h =>
    show Sk true _ (OptionArray.get ⟨len, f⟩ (SizedVebKey.index h) >>= _) (OptionArray.get ⟨len, f⟩ (SizedVebKey.index h) >>= _)
    exact .same fun _ _ => .ok ⟨rfl, rfl⟩
  | set h u =>
    show Sk true _ (getMut (asArrayOf ⟨⟨len, f⟩, n⟩) h >>= _) (ArrayColl.getMut ⟨⟨len, f⟩, n⟩ h >>= _)
    unfold getMut ArrayColl.getMut
    by_cases hl : SizedVebKey.index h < len
    · simp only [gets _ h hl, OptionArray.get, if_pos hl, R.ok_bind]
      cases f (SizedVebKey.index h) <;> exact .ok ⟨rfl, rfl⟩
    · simp only [getn _ h hl, OptionArray.get, if_neg hl]
      exact .err
  | insert h l v =>
    show Sk true _ (insertKey (asArrayOf ⟨⟨len, f⟩, n⟩) h (l, v) >>= _) (ArrayColl.insertKey ⟨⟨len, f⟩, n⟩ h (l, v) >>= _)
    unfold insertKey ArrayColl.insertKey
    by_cases hl : SizedVebKey.index h < len
    · simp only [gets _ h hl, OptionArray.get, OptionArray.put, if_pos hl, R.ok_bind]
      cases f (SizedVebKey.index h) with
      | none =>
        dsimp only
        simp only [gets _ h hl, R.ok_bind, twice]
        cases addUsize n 1 with
        | error e => exact .err
        | ok x => exact .ok ⟨rfl, rfl⟩
      | some t =>
        dsimp only
        cases VebTree.insert t l v with
        | error e => exact .err
        | ok x => exact .ok ⟨rfl, rfl⟩
    · simp only [getn _ h hl, OptionArray.get, if_neg hl]
      exact .err
  | remove h g =>
    show Sk true _ (removeKey (asArrayOf ⟨⟨len, f⟩, n⟩) h g >>= _) (ArrayColl.removeKey ⟨⟨len, f⟩, n⟩ h g >>= _)
    unfold removeKey ArrayColl.removeKey
    by_cases hl : SizedVebKey.index h < len
    · simp only [gets _ h hl, OptionArray.get, OptionArray.put, if_pos hl, R.ok_bind, twice]
      cases f (SizedVebKey.index h) with
      | none => exact .err
      | some t =>
        simp only [expect, R.ok_bind]
        cases g t with
        | error e => exact .err
        | ok x =>
          obtain ⟨o, val⟩ := x
          cases o with
          | none =>
            simp only [R.ok_bind, Option.isNone_none, if_true]
            cases subUsize n 1 with
            | error e => exact .err
            | ok m =>
              simp only [R.ok_bind]
              by_cases hm : m = 0
              · rw [if_pos hm, if_pos hm]; exact .ok ⟨rfl, rfl⟩
              · rw [if_neg hm, if_neg hm]; exact .ok ⟨rfl, rfl⟩
          | some t' =>
            simp only [R.ok_bind, Option.isNone_some, Bool.false_eq_true, if_false, pure_bind]
            by_cases hm : n = 0
            · rw [if_pos hm, if_pos hm]; exact .ok ⟨rfl, rfl⟩
            · rw [if_neg hm, if_neg hm]; exact .ok ⟨rfl, rfl⟩
    · simp only [getn _ h hl, OptionArray.get, if_neg hl]
      exact .err
  | maybeRemove h g =>
    show Sk true _ (maybeRemoveKey (asArrayOf ⟨⟨len, f⟩, n⟩) h g >>= _) (ArrayColl.maybeRemoveKey ⟨⟨len, f⟩, n⟩ h g >>= _)
    unfold maybeRemoveKey ArrayColl.maybeRemoveKey
    by_cases hl : SizedVebKey.index h < len
    · simp only [gets _ h hl, OptionArray.get, OptionArray.put, if_pos hl, R.ok_bind, twice]
      cases hf : f (SizedVebKey.index h) with
      | none =>
        have : (fun j => if j = SizedVebKey.index h then none else f j) = f := by
          funext j
          split
          · next e => rw [e, hf]
          · rfl
        rw [this]
        exact .ok ⟨rfl, rfl⟩
      | some t =>
        dsimp only
        cases g t with
        | error e => exact .err
        | ok x =>
          rcases x with ⟨_ | t', val⟩ | t'
          · simp only [R.ok_bind, Option.isNone_none, if_true]
            cases subUsize n 1 with
            | error e => exact .err
            | ok m =>
              simp only [R.ok_bind]
              by_cases hm : m = 0
              · rw [if_pos hm, if_pos hm]; exact .ok ⟨rfl, rfl⟩
              · rw [if_neg hm, if_neg hm]; exact .ok ⟨rfl, rfl⟩
          · simp only [R.ok_bind, Option.isNone_some, Bool.false_eq_true, if_false, pure_bind]
            by_cases hm : n = 0
            · rw [if_pos hm, if_pos hm]; exact .ok ⟨rfl, rfl⟩
            · rw [if_neg hm, if_neg hm]; exact .ok ⟨rfl, rfl⟩
          · exact .ok ⟨rfl, rfl⟩
    · simp only [getn _ h hl, OptionArray.get, if_neg hl]
      exact .err

omit [LinearOrder Hi] in
theorem run_same (ops : List (COp Hi T Lo V)) : ∀ c : Option (ArrayColl Hi T),
    Sk true (fun x y => x.1 = y.1.map asArrayOf ∧ x.2 = y.2) (CollExec.run (c.map asArrayOf) ops) (CollExec.run c ops) := by
  induction ops with
  | nil => exact fun m => .ok ⟨rfl, rfl⟩
  | cons op ops ih =>
    intro c
    have hs : Sk true (fun x y => x.1 = y.1.map asArrayOf ∧ x.2 = y.2)
      (CollExec.step (c.map asArrayOf) op) (CollExec.step c op) := by
      cases c with
      | some m => exact stepColl_same m op
      | none =>
        cases op with
        | create h t => exact stepColl_same (⟨⟨0, fun _ => none⟩, 0⟩ : ArrayColl Hi T) (.create h t)
        | _ => exact .ok ⟨rfl, rfl⟩
    refine hs.bind ?_
    rintro ⟨x, o⟩ ⟨y, _⟩ ⟨h, rfl⟩
    dsimp only at h
    subst h
    refine (ih y).bind ?_
    rintro ⟨x, o⟩ ⟨y, _⟩ ⟨h, rfl⟩
    exact .ok ⟨h, rfl⟩

end ArrayOf
end Veb
