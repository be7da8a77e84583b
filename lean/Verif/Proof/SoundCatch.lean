import Verif.SpecActUnwind
import Verif.Proof.HonestRun

/-!
Caught panics of code that answers properly or panics: they are faults.
-/

set_option autoImplicit false
set_option linter.unusedSectionVars false

namespace Veb
variable {Us : Panic → Prop}

/-- `u` ends as `w` does for some faults in `Us`, none of them at one of the sites `fs`; `Q` holds for what is left. -/
def Tracks {σ T β : Type} (Us : Panic → Prop) (Q : T → Prop) (fs : List Site) (u : σ → T × R (β × σ)) (w : Faults → T × R β) : Prop :=
  ∀ s, ∃ φ : Faults, (∀ i e, φ i = some e → Us e) ∧ (∀ i ∈ fs, φ i = none) ∧ w φ = ((u s).1, (u s).2.map Prod.fst) ∧ Q (u s).1

theorem AnswersOr.follows {σ α : Type} {x : Act σ α} {a : α} (h : AnswersOr Us x a) : Follows Us (· = a) x (pure a) := fun s =>
  (h s).elim (fun ⟨s', e⟩ => .inl ⟨a, s', rfl, e, rfl⟩) fun ⟨p, e, hp⟩ => .inr ⟨p, e, .inr hp⟩

namespace Tracks
variable {σ T α β : Type} {Q : T → Prop} {fs : List Site}

theorem ret {t : T} (b : β) (h : Q t) : Tracks Us Q fs (fun s : σ => (t, .ok (b, s))) (fun _ => (t, .ok b)) := fun s =>
  ⟨noFaults, by rintro i e ⟨⟩, fun _ _ => rfl, rfl, h⟩
theorem bind {t : T} {x : Act σ α} {r : R α} {P : α → Prop} {f : α → σ → T × R (β × σ)} {g : Faults → α → T × R β} {i : Site}
    (hi : i ∉ fs) (ht : Q t) (hx : Follows Us P x r) (h : ∀ a, P a → Tracks Us Q (i :: fs) (f a) fun φ => g φ a) :
    Tracks Us Q fs (orLeaveA t x f) fun φ => orLeave t (φ.call i r) (g φ) := by
  intro s
  rcases hx s with ⟨a, s', rfl, e, ha⟩ | ⟨p, e, h1⟩
  · obtain ⟨φ, h1, h2, h3, h4⟩ := h a ha s'
    have eu : orLeaveA t x f s = f a s' := by unfold orLeaveA; rw [e]
    rw [eu]
    refine ⟨φ, h1, fun j hj => h2 j (List.mem_cons_of_mem _ hj), ?_, h4⟩
    rw [← h3]
    simp only [Faults.call, h2 i List.mem_cons_self, orLeave]
  · have eu : orLeaveA t x f s = (t, .error p) := by unfold orLeaveA; rw [e]
    rw [eu]
    rcases h1 with rfl | h1
    · exact ⟨noFaults, by rintro i e ⟨⟩, fun _ _ => rfl, rfl, ht⟩
    · refine ⟨fun j => if j = i then some p else none, fun j e hj => ?_, fun j hj => if_neg (by rintro rfl; exact hi hj), ?_, ht⟩
      · dsimp only at hj
        split at hj
        · cases hj; exact h1
        · cases hj
      · simp only [Faults.call, if_true, orLeave]
        rfl
theorem mono {Q' : T → Prop} {u : σ → T × R (β × σ)} {w : Faults → T × R β} (h : Tracks Us Q fs u w) (i : ∀ t, Q t → Q' t) :
    Tracks Us Q' fs u w := fun s => by
  obtain ⟨φ, h1, h2, h3, h4⟩ := h s
  exact ⟨φ, h1, h2, h3, i _ h4⟩
/-- a call of the crate in between that the code with a state does not have -/
theorem skip {t : T} {a : α} {u : σ → T × R (β × σ)} {g : Faults → α → T × R β} {i : Site}
    (h : Tracks Us Q (i :: fs) u fun φ => g φ a) : Tracks Us Q fs u fun φ => orLeave t (φ.call i (pure a)) (g φ) := by
  intro s
  obtain ⟨φ, h1, h2, h3, h4⟩ := h s
  refine ⟨φ, h1, fun j hj => h2 j (List.mem_cons_of_mem _ hj), ?_, h4⟩
  rw [← h3]
  simp only [Faults.call, h2 i List.mem_cons_self]
  rfl
end Tracks

namespace Tree
variable {σ K V S C Hi Lo T : Type} [LinearOrder K] [VebKey K Hi Lo] [VebKeyRef K Hi Lo] [ActKey σ K Hi Lo]
  [ActTree σ S Hi Unit] [VebTree S Hi Unit] [PS : HTree Us σ S Hi Unit] [ActTree σ T Lo V] [VebTree T Lo V]
  [PT : HTree Us σ T Lo V] [ActColl σ C Hi T Lo V] [TreeCollection C Hi T Lo V] [PC : HColl Us σ C Hi T Lo V]

local notation "WS" => HTree.W Us σ (T := S) (K := Hi) (V := Unit)
local notation "WC" => HColl.W Us σ (C := C) (Hi := Hi) (T := T) (Lo := Lo) (V := V)
local notation "WW" => BelowGood (K := K) (V := V) WS WC

theorem insertBelowUA_tracks (hk : SoundKey σ Us K Hi Lo) (min : K × V) (data : TreeData K V S C) (k : K) (v : V)
    (I : KidsGood WS WC data.children) :
    Tracks Us WW [.cmpMin, .cmpMax] (insertBelowUA (σ := σ) min data k v) fun φ => insertBelowU φ min data k v := by
  unfold insertBelowU
  refine .bind (by decide) (good_some I) (hk.splitVal k).follows fun p _ => ?_
  obtain ⟨hi, lo⟩ := p
  obtain ⟨mx, _ | ⟨s, c⟩⟩ := data
  · have h1 := PT.fromMonad lo v
    have h2 := PS.fromMonad hi ()
    refine .bind (P := WC) (r := TreeCollection.create hi (VebTree.fromMonad lo v)) (i := .create) (by decide) good_leaf ?_ fun c hc => .skip ?_
    · rw [h1.1]
      exact PC.create _ _ h1.2
    · rw [h2.1]
      exact .ret _ (good_kids h2.2 hc)
  · have hI := I _ rfl
    refine .bind (by decide) good_leaf (PC.insertKey c _ _ hI.2) fun p hp => ?_
    obtain ⟨c', hi' | ⟨hi', _ | ⟨lo', v'⟩⟩⟩ := p
    · exact .bind (by decide) good_leaf (PS.insert s _ _ hI.1) fun p hp' => .ret _ (good_kids hp' hp)
    · exact .ret _ (good_kids hI.1 hp)
    · exact .bind (by decide) good_leaf (hk.join _ _).follows fun k _ => .ret _ (good_kids hI.1 hp)

theorem insertUA_tracks (hk : SoundKey σ Us K Hi Lo) (t : Tree K V S C) (k : K) (v : V) (I : WW t) :
    Tracks Us WW [] (insertUA (σ := σ) t k v) fun φ => insertU φ t k v := by
  unfold insertU
  refine .bind (by decide) I (hk.cmp _ _).follows fun c _ => ?_
  obtain ⟨mn, _ | d⟩ := t
  · cases c
    · exact .ret _ good_leaf
    · exact .ret _ good_none
    · exact .ret _ good_leaf
  · have I' : KidsGood WS WC d.children := I d rfl
    have weak : ∀ {u : σ → Tree K V S C × R (Option (K × V) × σ)} {w}, Tracks Us WW [.cmpMin, .cmpMax] u w →
        Tracks Us WW [.cmpMax, .cmpMin] u w := fun h s => by
      obtain ⟨φ, h1, h2, h3⟩ := h s
      exact ⟨φ, h1, fun i hi => h2 i (by revert hi; simp only [List.mem_cons, List.not_mem_nil, or_false]; exact Or.symm), h3⟩
    cases c with
    | eq => exact .ret _ (good_some I')
    | lt =>
      refine .bind (by decide) (good_some I') (hk.cmp _ _).follows fun c _ => ?_
      cases c with
      | eq => exact .ret _ (good_some I')
      | lt => exact weak (insertBelowUA_tracks hk _ _ _ _ I')
      | gt => exact weak (insertBelowUA_tracks hk _ _ _ _ I')
    | gt =>
      refine .bind (by decide) I (hk.cmp _ _).follows fun c _ => ?_
      cases c with
      | eq => exact .ret _ (good_some I')
      | lt => exact weak (insertBelowUA_tracks hk _ _ _ _ I')
      | gt => exact weak (insertBelowUA_tracks hk _ _ _ _ I')

end Tree

/-- `insertUA` is `insertU` with some faults, on good trees. -/
def InsertTracks (σ : Type) {T K V : Type} [ActTree σ T K V] [ActUnwinds σ T K V] [VebTree T K V] [Unwinds T K V]
    (P : HTree Us σ T K V) : Prop :=
  ∀ (t : T) (k : K) (v : V), P.W t → Tracks (σ := σ) Us P.W [] (ActUnwinds.insertUA t k v) fun φ => Unwinds.insertU φ t k v

theorem SoundCatch.tracks {σ T K V : Type} [ActTree σ T K V] [ActUnwinds σ T K V] [VebTree T K V] [Unwinds T K V]
    (h : SoundCatch σ Us T K V) : ∃ P : HTree Us σ T K V, InsertTracks σ P := by
  induction h with
  | tree hk hs ht hc =>
    obtain ⟨PS⟩ := hs.sim
    obtain ⟨PT⟩ := ht.sim
    obtain ⟨PC⟩ := hc.sim
    exact ⟨Tree.agreeTree hk, fun t k v I => Tree.insertUA_tracks hk t k v I⟩
  | box h ih =>
    obtain ⟨P, hP⟩ := ih
    refine ⟨HTree.instBox, fun t k v I s => ?_⟩
    obtain ⟨φ, h1, h2, h3, h4⟩ := hP t.val k v I s
    refine ⟨φ, h1, h2, ?_, h4⟩
    dsimp only at h3
    show (Box.mk (Unwinds.insertU φ t.val k v).1, (Unwinds.insertU φ t.val k v).2) = _
    rw [h3]
    rfl
  | sized h ih =>
    obtain ⟨P, hP⟩ := ih
    refine ⟨HTree.instSized, fun t k v I s => ?_⟩
    obtain ⟨φ, h1, h2, h3, h4⟩ := hP t.tree k v I s
    have e1 : Unwinds.insertU φ t k v = (match Unwinds.insertU φ t.tree k v with
      | (u, .error e) => (⟨u, t.size⟩, .error e)
      | (u, .ok o) =>
        if o.isNone then
          if t.size + 1 ≤ usizeMax then (⟨u, t.size + 1⟩, .ok o)
          else (⟨u, t.size⟩, .error (.expect "size overflowed"))
        else (⟨u, t.size⟩, .ok o)) := rfl
    have e2 : ActUnwinds.insertUA t k v s = (match ActUnwinds.insertUA t.tree k v s with
      | (u, .error e) => (⟨u, t.size⟩, .error e)
      | (u, .ok (o, s)) =>
        if o.isNone then
          if t.size + 1 ≤ usizeMax then (⟨u, t.size + 1⟩, .ok (o, s))
          else (⟨u, t.size⟩, .error (.expect "size overflowed"))
        else (⟨u, t.size⟩, .ok (o, s))) := rfl
    dsimp only at h3
    refine ⟨φ, h1, h2, ?_⟩
    dsimp only
    rw [e1, e2, h3]
    cases hu : ActUnwinds.insertUA t.tree k v s with
    | mk u r =>
      rw [hu] at h4
      obtain e | ⟨o, s'⟩ := r
      · exact ⟨rfl, h4⟩
      · obtain _ | o := o
        · by_cases hn : t.size + 1 ≤ usizeMax
          · simp only [Except.map, Option.isNone_none, if_true, if_pos hn]
            exact ⟨trivial, h4⟩
          · simp only [Except.map, Option.isNone_none, if_true, if_neg hn]
            exact ⟨trivial, h4⟩
        · exact ⟨rfl, h4⟩

section
variable {σ T K V : Type} [ActTree σ T K V] [ActUnwinds σ T K V] [VebTree T K V] [Unwinds T K V]

theorem sound_stepUA {P : HTree Us σ T K V} (hP : InsertTracks σ P) {t : Option T} (I : AllO P.W t) (s : σ) (op : Op K V) :
    ∃ φ : Faults, (∀ i e, φ i = some e → Us e) ∧ Exec.stepU t φ op = ActExec.stepUA t s op ∧
      AllO P.W (ActExec.stepUA t s op).1 := by
  have none_ : ∀ (i : Site) (e : Panic), noFaults i = some e → Us e := by rintro i e ⟨⟩
  obtain _ | t := t
  · refine ⟨noFaults, none_, ?_⟩
    cases op with
    | insert k v =>
      have h := P.fromMonad k v
      refine ⟨?_, ?_⟩
      · show (some (VebTree.fromMonad k v), _) = (some (ActTree.fromMonad σ k v), _)
        rw [h.1]
      · show AllO _ (some (ActTree.fromMonad σ k v))
        rw [h.1]
        exact allO_some h.2
    | _ => exact ⟨rfl, allO_none⟩
  · have I := I t rfl
    by_cases hop : ∃ k v, op = .insert k v
    · obtain ⟨k, v, rfl⟩ := hop
      obtain ⟨φ, h1, -, h3, h4⟩ := hP t k v I s
      dsimp only at h3
      refine ⟨φ, h1, ?_, allO_some h4⟩
      show (some (Unwinds.insertU φ t k v).1, (Unwinds.insertU φ t k v).2.map Out.kv) =
        (some (ActUnwinds.insertUA t k v s).1, (ActUnwinds.insertUA t k v s).2.map fun p => Out.kv p.1)
      rw [h3]
      cases (ActUnwinds.insertUA t k v s).2 <;> rfl
    · have e1 : ActExec.stepUA (some t) s op = ActExec.leave (if Exec.consumes op then none else some t) (ActExec.stepTree t op s) := by
        cases op with
        | insert k v => exact absurd ⟨k, v, rfl⟩ hop
        | _ => rfl
      have e2 : ∀ φ : Faults, Exec.stepU (some t) φ op = match φ.call .other (Exec.stepTree t op) with
          | .ok (t, o) => (t, .ok o)
          | .error e => (if Exec.consumes op then none else some t, .error e) := by
        intro φ
        cases op with
        | insert k v => exact absurd ⟨k, v, rfl⟩ hop
        | _ => rfl
      have gone : AllO P.W (if Exec.consumes op then none else some t) := by
        split
        · exact allO_none
        · exact allO_some I
      rw [e1]
      rcases honest_stepTree (P := P) I op s with ⟨a, s', h1, h2, h3⟩ | ⟨p, h1, h2 | h2⟩
      · refine ⟨noFaults, none_, ?_, ?_⟩
        · rw [e2, h2]
          show (match Exec.stepTree t op with | .ok (t, o) => _ | .error e => _) = _
          rw [h1]
          rfl
        · rw [h2]; exact h3
      · refine ⟨noFaults, none_, ?_, ?_⟩
        · rw [e2, h1]
          show (match Exec.stepTree t op with | .ok (t, o) => _ | .error e => _) = _
          rw [h2]
          rfl
        · rw [h1]; exact gone
      · refine ⟨fun _ => some p, by rintro i e ⟨⟩; exact h2, ?_, ?_⟩
        · rw [e2, h1]
          rfl
        · rw [h1]; exact gone

theorem sound_runUA {P : HTree Us σ T K V} (hP : InsertTracks σ P) {t : Option T} (I : AllO P.W t) (es : List (σ × Op K V)) :
    ∃ fs : List (Faults × Op K V), fs.map Prod.snd = es.map Prod.snd ∧ (∀ f ∈ fs, ∀ i e, f.1 i = some e → Us e) ∧
      Exec.runU t fs = ActExec.runUA t es ∧ AllO P.W (ActExec.runUA t es).1 := by
  induction es generalizing t with
  | nil => exact ⟨[], rfl, by simp, rfl, I⟩
  | cons e es ih =>
    obtain ⟨s, op⟩ := e
    obtain ⟨φ, h1, h2, h3⟩ := sound_stepUA hP I s op
    obtain ⟨fs, g1, g2, g3, g4⟩ := ih h3
    refine ⟨(φ, op) :: fs, by simp [g1], ?_, ?_, g4⟩
    · rintro f hf
      rcases List.mem_cons.1 hf with rfl | hf
      · exact h1
      · exact g2 f hf
    · show ((Exec.runU (Exec.stepU t φ op).1 fs).1, (Exec.stepU t φ op).2 :: (Exec.runU (Exec.stepU t φ op).1 fs).2) = _
      rw [h2, g3]
      rfl
end

end Veb
