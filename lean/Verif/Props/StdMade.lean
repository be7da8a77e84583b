import Verif.Props.Tree
import Verif.Props.Collections
import Verif.Model.Iter

/-!
# C84: maps of `std` and `hashbrown` that the user has made

`BTreeMap` is a `VebTree` (src/lib.rs:433-580) and `HashMap` a `TreeCollection` (src/collection/hash.rs:33-124), and both
are types of other crates: a user can fill one by its own methods, or make an empty one, and then call the methods of the
trait.  The trait has no empty trees, so what an empty map does is nowhere said.
-/

set_option autoImplicit false
set_option linter.unusedSectionVars false

namespace Veb.Props
open Veb

section BTree
variable {K V : Type} [LinearOrder K]

/-- The calls that need an entry: the ends, and taking them. -/
def NeedsEntry : Op K V → Prop
  | .removeMin | .removeMax | .minVal | .maxVal | .minSet _ | .maxSet _ => True
  | _ => False

/-- The calls that neither need an entry nor bring one. -/
def Harmless (op : Op K V) : Prop := ¬ NeedsEntry op ∧ ∀ k v, op ≠ .insert k v

/-- A map without entries, `BTreeMap::new()`. -/
abbrev emptyBTree (K V : Type) : BTreeMap K V := ⟨[]⟩

theorem step_harmless {op : Op K V} (h : Harmless op) :
    Exec.step (some (emptyBTree K V)) op = .ok (some (emptyBTree K V), (SL.step ([] : SL K V) op).2) := by
  obtain ⟨h1, h2⟩ := h
  cases op <;> first | exact absurd rfl (h2 _ _) | exact (h1 trivial).elim | rfl

theorem step_none {op : Op K V} (h : Harmless op) :
    Exec.step (none : Option (BTreeMap K V)) op = .ok (none, (SL.step ([] : SL K V) op).2) := by
  obtain ⟨h1, h2⟩ := h
  cases op <;> first | exact absurd rfl (h2 _ _) | exact (h1 trivial).elim | rfl

theorem spec_harmless {op : Op K V} (h : Harmless op) : (SL.step ([] : SL K V) op).1 = [] := by
  obtain ⟨h1, h2⟩ := h
  cases op <;> first | exact absurd rfl (h2 _ _) | exact (h1 trivial).elim | rfl

/-- **C84.** Searches, removals of a key and monad queries answer on an empty `BTreeMap` as on no tree, and leave it. -/
theorem C84_queries (pre : List (Op K V)) (h : ∀ op ∈ pre, Harmless op) :
    Exec.run (some (emptyBTree K V)) pre = .ok (some (emptyBTree K V), (SL.run ([] : SL K V) pre).2) := by
  induction pre with
  | nil => rfl
  | cons op pre ih =>
    have h1 := h op List.mem_cons_self
    have ih := ih (fun o ho => h o (List.mem_cons_of_mem _ ho))
    simp only [Exec.run, step_harmless h1, bind, Except.bind, ih, SL.run, spec_harmless h1]
    rfl

theorem run_split (t : BTreeMap K V) (pre ops : List (Op K V)) (os : List (Out K V)) (t' : Option (BTreeMap K V))
    (h : Exec.run (some t) pre = .ok (t', os)) :
    Exec.run (some t) (pre ++ ops) = (Exec.run t' ops).map (fun p => (p.1, os ++ p.2)) := by
  have key : ∀ (pre : List (Op K V)) (t t' : Option (BTreeMap K V)) (os : List (Out K V)),
      Exec.run t pre = .ok (t', os) → Exec.run t (pre ++ ops) = (Exec.run t' ops).map (fun p => (p.1, os ++ p.2)) := by
    intro pre
    induction pre with
    | nil =>
      intro t t' os h
      cases h
      cases h : Exec.run t ops <;> simp [h, Except.map]
    | cons op pre ih =>
      intro t t' os h
      simp only [Exec.run, bind, Except.bind, List.cons_append] at h ⊢
      cases e : Exec.step t op with
      | error x => rw [e] at h; cases h
      | ok p =>
        obtain ⟨u, o⟩ := p
        rw [e] at h
        simp only at h ⊢
        cases e2 : Exec.run u pre with
        | error x => rw [e2] at h; cases h
        | ok q =>
          obtain ⟨u', os'⟩ := q
          rw [e2] at h
          cases h
          rw [ih u u' os' e2]
          cases Exec.run u' ops <;> rfl
  exact key pre _ _ _ h

/-- **C84.** The first call that needs an entry panics, with the message of the code, whatever comes after. -/
theorem C84_panics (pre rest : List (Op K V)) (op : Op K V) (h : ∀ o ∈ pre, Harmless o) (hn : NeedsEntry op) :
    Exec.run (some (emptyBTree K V)) (pre ++ op :: rest) = .error (.expect "tree should not be empty") := by
  rw [run_split _ _ _ _ _ (C84_queries pre h)]
  cases op <;> first | exact hn.elim | rfl

/-- **C84.** An insertion that comes before such a call makes up for it: the whole history runs exactly as one that begins
with no tree, and so as on an ordered map. -/
theorem C84_insert (pre rest : List (Op K V)) (k : K) (v : V) (h : ∀ o ∈ pre, Harmless o) :
    Exec.run (some (emptyBTree K V)) (pre ++ .insert k v :: rest) =
      Exec.run (none : Option (BTreeMap K V)) (pre ++ .insert k v :: rest) ∧
    ∃ t, Exec.run (some (emptyBTree K V)) (pre ++ .insert k v :: rest) =
      .ok (t, (SL.run ([] : SL K V) (pre ++ .insert k v :: rest)).2) := by
  have e : Exec.run (some (emptyBTree K V)) (pre ++ .insert k v :: rest) =
      Exec.run (none : Option (BTreeMap K V)) (pre ++ .insert k v :: rest) := by
    induction pre with
    | nil => rfl
    | cons op pre ih =>
      have h1 := h op List.mem_cons_self
      simp only [List.cons_append, Exec.run, step_harmless h1, step_none h1, bind, Except.bind,
        ih (fun o ho => h o (List.mem_cons_of_mem _ ho))]
  refine ⟨e, ?_⟩
  obtain ⟨t, ht, -⟩ := C11_btreeMap_history K V (pre ++ .insert k v :: rest)
  exact ⟨t, e.trans ht⟩

/-- **C84.** A map with entries, filled by the methods of `std` in whatever way, is an ordered map under every history;
and no call makes an empty one of it: where nothing is left, there is no map. -/
theorem C84_made (l : SL K V) (hs : SL.Sorted l) (hne : l ≠ []) (ops : List (Op K V)) :
    Exec.run (some (⟨l⟩ : BTreeMap K V)) ops =
      .ok ((if (SL.run l ops).1 = [] then none else some ⟨(SL.run l ops).1⟩), (SL.run l ops).2) := by
  have hr : Rel (some (⟨l⟩ : BTreeMap K V)) l := ⟨⟨hs, hne⟩, SL.lists_toMap hs⟩
  obtain ⟨t, h, r⟩ := run_ok hr ops (safeHist_of_always (fun _ _ => trivial) l ops)
  rw [h]
  cases t with
  | none =>
    have r : (SL.run l ops).1 = [] := r
    rw [if_pos r]
  | some t =>
    obtain ⟨I, hl⟩ := r
    have e : t.entries = (SL.run l ops).1 := (BTreeMap.lists I).unique hl
    rw [if_neg (e ▸ I.2), ← e]

/-- **C84.** An iterator over an empty map promises nothing and panics at the first call from either side. -/
theorem C84_iter :
    (Iter.new (emptyBTree K V) : Iter (BTreeMap K V) K).sizeHint (V := V) = .ok (0, some 0) ∧
    (Iter.new (emptyBTree K V) : Iter (BTreeMap K V) K).next (V := V) = .error (.expect "tree should not be empty") ∧
    (Iter.new (emptyBTree K V) : Iter (BTreeMap K V) K).nextBack (V := V) = .error (.expect "tree should not be empty") :=
  ⟨rfl, rfl, rfl⟩

/-- Looking for 7, removing it, and asking for the minimum, in `BTreeMap::new()`. -/
example : Exec.run (some (emptyBTree Nat Nat)) ([.find 7, .remove 7, .isMonad] ++ .minVal :: [.insert 7 1]) =
    .error (.expect "tree should not be empty") :=
  C84_panics _ _ _ (by rintro op h; simp only [List.mem_cons, List.not_mem_nil, or_false] at h
                       rcases h with rfl | rfl | rfl <;> exact ⟨id, by simp⟩) trivial

/-- The same with the insertion first. -/
example : ∃ t, Exec.run (some (emptyBTree Nat Nat)) ([.find 7] ++ .insert 7 1 :: [.minVal, .removeMax, .find 7]) =
    .ok (t, [.kv none, .kv none, .kv (some (7, 1)), .kv (some (7, 1)), .kv none]) :=
  (C84_insert _ _ _ _ (by rintro op h; simp only [List.mem_cons, List.not_mem_nil, or_false] at h
                          subst h; exact ⟨id, by simp⟩)).2

/-- A map of two entries, one of which is removed. -/
example : Exec.run (some (⟨[(1, 10), (2, 20)]⟩ : BTreeMap Nat Nat)) [.remove 1, .maxVal, .removeMin] =
    .ok (none, [.kv (some (1, 10)), .kv (some (2, 20)), .kv (some (2, 20))]) :=
  C84_made [(1, 10), (2, 20)] (by simp [SL.Sorted]) (by simp) _

end BTree

section Hash
variable {Hi T Lo V : Type} [LinearOrder Hi] [VebTree T Lo V]

/-- **C84.** A `HashMap` with entries, filled by its own methods in whatever way (`l`: its entries in some order), is under
every history of calls of the trait the partial map that it was. -/
theorem C84_hash_made (l : List (Hi × T)) (hn : (l.map Prod.fst).Nodup) (hne : l ≠ []) (M : Map Hi T)
    (hM : ∀ h t, M h = some t ↔ (h, t) ∈ l) (ops : List (COp Hi T Lo V)) :
    match CollSpec.run .unreachable M ops with
    | .error e => CollExec.run (some (⟨l⟩ : HashMap Hi T)) ops = .error e
    | .ok (M', outs) => ∃ c, CollExec.run (some (⟨l⟩ : HashMap Hi T)) ops = .ok (c, outs) ∧
        (c = none ↔ M' = Map.empty) ∧ ∀ d, c = some d → ∀ h, TreeCollection.get d h = .ok (M' h) := by
  have ha : (⟨l⟩ : HashMap Hi T).lookup = M := by
    funext h
    have hmem : ∀ t, (⟨l⟩ : HashMap Hi T).lookup h = some t ↔ (h, t) ∈ l := by
      intro t
      clear hM hne
      induction l with
      | nil => simp [HashMap.lookup]
      | cons p l ih =>
        rw [HashMap.lookup_cons, List.mem_cons]
        rw [List.map_cons, List.nodup_cons] at hn
        by_cases e : p.1 = h
        · rw [if_pos e]
          constructor
          · intro h1; left; cases h1; rw [← e]
          · rintro (h1 | h1)
            · rw [← h1]
            · exact absurd (List.mem_map_of_mem (f := Prod.fst) h1) (e ▸ hn.1)
        · rw [if_neg e, ih hn.2]
          constructor
          · exact .inr
          · rintro (h1 | h1)
            · exact absurd (by rw [← h1]) e
            · exact h1
    apply Option.ext
    intro t
    rw [hmem, hM]
  have R : CollRep (Lo := Lo) (V := V) (some (⟨l⟩ : HashMap Hi T)) M := ⟨⟨hn, hne⟩, ha⟩
  have h := coll_run ops R
  have ea : LawfulColl.absent (Hi := Hi) (T := T) (Lo := Lo) (V := V) (HashMap Hi T) = .unreachable := rfl
  rw [ea] at h
  unfold CollSim at h
  cases e : CollSpec.run .unreachable M ops with
  | error x => rw [e] at h; exact h
  | ok p =>
    obtain ⟨M', os⟩ := p
    rw [e] at h
    obtain ⟨c, h1, R⟩ := h
    refine ⟨c, h1, R.none_iff, ?_⟩
    rintro d rfl k
    show HashMap.get d k = _
    rw [HashMap.get, ← R.2]
    rfl

/-- **C84.** An empty `HashMap` finds nothing, panics in `remove_key`, gives itself back from `maybe_remove_key`, and the
first `insert_key` makes of it exactly what `create` would have made. -/
theorem C84_hash_empty (h : Hi) (lv : Lo × V) (r : T → R (Option T × (Lo × V)))
    (r' : T → R (Result (Option T × (Lo × V)) T)) :
    TreeCollection.get (⟨[]⟩ : HashMap Hi T) h = .ok none ∧
    (TreeCollection.getMut (⟨[]⟩ : HashMap Hi T) h).map (·.map Prod.fst) = .ok none ∧
    TreeCollection.removeKey (⟨[]⟩ : HashMap Hi T) h r = .error .unreachable ∧
    TreeCollection.maybeRemoveKey (⟨[]⟩ : HashMap Hi T) h r' = .ok (.Err ⟨[]⟩) ∧
    ∃ c : HashMap Hi T, TreeCollection.create h (VebTree.fromMonad lv.1 lv.2) = .ok c ∧
      TreeCollection.insertKey (⟨[]⟩ : HashMap Hi T) h lv = .ok (c, .Ok h) := by
  refine ⟨rfl, rfl, rfl, rfl, ⟨[(h, VebTree.fromMonad lv.1 lv.2)]⟩, ?_, rfl⟩
  show HashMap.create h _ = _
  simp [HashMap.create, HashMap.lookup, debugAssert]

/-- Two trees under the keys 3 and 1, of which the second is taken out. -/
example : ∃ c, CollExec.run (some (⟨[(3, ⟨[(5, 50)]⟩), (1, ⟨[(6, 60)]⟩)]⟩ : HashMap Nat (BTreeMap Nat Nat)))
    [.remove 1 (fun _ => .ok (none, (6, 60)))] = .ok (some c, [.removed (6, 60) (some true)]) := by
  refine ⟨_, rfl⟩

end Hash
end Veb.Props
