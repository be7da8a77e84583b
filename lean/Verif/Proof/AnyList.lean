import Verif.SpecKeys
import Verif.Proof.ByteList

/-!
`ByteMap<L>` over any list type whatever: its keys follow the `ByteSet`.
-/

set_option autoImplicit false

namespace Veb

/-- Whenever both return, what they return is related. -/
def Bo {α β : Type} (P : α → β → Prop) (x : R α) (y : R β) : Prop := ∀ a b, x = .ok a → y = .ok b → P a b

namespace Bo
variable {α β α' β' γ : Type} {P : α → β → Prop} {Q : α' → β' → Prop}
theorem ok {a : α} {b : β} (h : P a b) : Bo P (.ok a) (.ok b) := by rintro _ _ ⟨⟩ ⟨⟩; exact h
theorem ret {a : α} {b : β} (h : P a b) : Bo P (pure a) (pure b) := ok h
theorem errl {e : Panic} {y : R β} : Bo P (.error e) y := by rintro _ _ ⟨⟩
theorem errr {e : Panic} {x : R α} : Bo P x (.error e) := by rintro _ _ _ ⟨⟩
theorem bind {x : R α} {y : R β} {f : α → R α'} {g : β → R β'} (h : Bo P x y)
    (hf : ∀ a b, P a b → Bo Q (f a) (g b)) : Bo Q (x >>= f) (y >>= g) := by
  cases x with
  | error e => exact errl
  | ok a =>
    cases y with
    | error e => exact errr
    | ok b => exact hf a b (h a b rfl rfl)
theorem same {x : R α} {f : α → R α'} {g : α → R β'} (hf : ∀ a, Bo Q (f a) (g a)) : Bo Q (x >>= f) (x >>= g) := by
  cases x with
  | error e => exact errl
  | ok a => exact hf a
theorem left {x : R α} {f : α → R α'} {y : R β'} (hf : ∀ a, Bo Q (f a) y) : Bo Q (x >>= f) y := by
  cases x with
  | error e => exact errl
  | ok a => exact hf a
end Bo

variable {L V : Type} [ListT L V]
namespace AnyList


/-- the map and the set, with what was answered -/
def P (notM : Bool) : Option (ByteMapOf L) × Out (U 8) V → Option ByteSet × Out (U 8) Unit → Prop :=
  fun x y => x.1.map ByteMapOf.set = y.1 ∧ (notM = true → x.2.keys = y.2)

theorem find_mut (s : ByteSet) (k : U 8) :
    s.findMut k = (do match (← s.find k) with | none => pure none | some (k, ()) => pure (some (k, (), fun _ => s))) := by
  unfold ByteSet.findMut ByteSet.find
  split <;> rfl

theorem step_tree (m : ByteMapOf L) (op : Op (U 8) V) :
    Bo (P op.notIsMonad) (Exec.stepTree m op) (Exec.stepTree m.set op.keys) := by
  cases op with
  | insert k v =>
    show Bo _ (m.insert k v >>= _) (m.set.insert k () >>= _)
    unfold ByteMapOf.insert
    rw [bind_assoc]
    refine Bo.same fun ⟨s, r⟩ => ?_
    rcases r with _ | ⟨k', ⟨⟩⟩
    · dsimp only; rw [bind_assoc]; exact Bo.left fun _ => Bo.ret ⟨rfl, fun _ => rfl⟩
    · dsimp only; rw [bind_assoc]; exact Bo.left fun _ => Bo.ret ⟨rfl, fun _ => rfl⟩
  | remove k =>
    show Bo _ (m.remove k >>= _) (m.set.remove k >>= _)
    unfold ByteMapOf.remove
    dsimp only
    rw [bind_assoc]
    refine Bo.same fun r => ?_
    rcases r with ⟨_ | s, k', ⟨⟩⟩ | s
    · dsimp only; simp only [bind_assoc]; exact Bo.left fun _ => Bo.left fun _ => Bo.ret ⟨rfl, fun _ => rfl⟩
    · dsimp only; simp only [bind_assoc]; exact Bo.left fun _ => Bo.left fun _ => Bo.ret ⟨rfl, fun _ => rfl⟩
    · exact Bo.ret ⟨rfl, fun _ => rfl⟩
  | removeMin =>
    show Bo _ (m.removeMin >>= _) (m.set.removeMin >>= _)
    unfold ByteMapOf.removeMin
    dsimp only
    rw [bind_assoc]
    refine Bo.left fun _ => ?_
    rw [bind_assoc]
    refine Bo.same fun ⟨s, k, u⟩ => ?_
    dsimp only
    rw [bind_assoc]
    refine Bo.left fun ⟨l, v⟩ => ?_
    cases s <;> cases l
    · exact Bo.ret ⟨rfl, fun _ => rfl⟩
    · exact Bo.errl
    · exact Bo.errl
    · exact Bo.ret ⟨rfl, fun _ => rfl⟩
  | removeMax =>
    show Bo _ (m.removeMax >>= _) (m.set.removeMax >>= _)
    unfold ByteMapOf.removeMax
    dsimp only
    rw [bind_assoc]
    refine Bo.left fun _ => ?_
    rw [bind_assoc]
    refine Bo.same fun ⟨s, k, u⟩ => ?_
    dsimp only
    rw [bind_assoc]
    refine Bo.left fun ⟨l, v⟩ => ?_
    cases s <;> cases l
    · exact Bo.ret ⟨rfl, fun _ => rfl⟩
    · exact Bo.errl
    · exact Bo.errl
    · exact Bo.ret ⟨rfl, fun _ => rfl⟩
  | find k =>
    show Bo _ (m.find k >>= _) (m.set.find k >>= _)
    unfold ByteMapOf.find
    rw [bind_assoc]
    refine Bo.same fun r => ?_
    rcases r with _ | ⟨k', ⟨⟩⟩
    · exact Bo.ret ⟨rfl, fun _ => rfl⟩
    · dsimp only; rw [bind_assoc]; exact Bo.left fun _ => Bo.ret ⟨rfl, fun _ => rfl⟩
  | predecessor k =>
    show Bo _ (m.predecessor k >>= _) (m.set.predecessor k >>= _)
    unfold ByteMapOf.predecessor
    rw [bind_assoc]
    refine Bo.same fun r => ?_
    rcases r with _ | ⟨k', ⟨⟩⟩
    · exact Bo.ret ⟨rfl, fun _ => rfl⟩
    · dsimp only; rw [bind_assoc]; exact Bo.left fun _ => Bo.ret ⟨rfl, fun _ => rfl⟩
  | successor k =>
    show Bo _ (m.successor k >>= _) (m.set.successor k >>= _)
    unfold ByteMapOf.successor
    rw [bind_assoc]
    refine Bo.same fun r => ?_
    rcases r with _ | ⟨k', ⟨⟩⟩
    · exact Bo.ret ⟨rfl, fun _ => rfl⟩
    · dsimp only; rw [bind_assoc]; exact Bo.left fun _ => Bo.ret ⟨rfl, fun _ => rfl⟩
  | minVal =>
    show Bo _ (m.minVal >>= _) (m.set.minVal >>= _)
    unfold ByteMapOf.minVal
    rw [bind_assoc]
    refine Bo.same fun ⟨k, u⟩ => ?_
    rw [bind_assoc]
    exact Bo.left fun _ => Bo.ret ⟨rfl, fun _ => rfl⟩
  | maxVal =>
    show Bo _ (m.maxVal >>= _) (m.set.maxVal >>= _)
    unfold ByteMapOf.maxVal
    rw [bind_assoc]
    refine Bo.same fun ⟨k, u⟩ => ?_
    simp only [bind_assoc]
    exact Bo.left fun _ => Bo.left fun _ => Bo.left fun _ => Bo.ret ⟨rfl, fun _ => rfl⟩
  | isMonad =>
    show Bo _ (m.isMonad >>= _) (m.set.isMonad >>= _)
    refine Bo.bind (P := fun _ _ => True) (fun _ _ _ _ => trivial) fun _ _ _ => Bo.ret ⟨rfl, fun h => by cases h⟩
  | intoMonad =>
    show Bo _ (m.intoMonad >>= _) (m.set.intoMonad >>= _)
    unfold ByteMapOf.intoMonad
    rw [bind_assoc]
    refine Bo.same fun r => ?_
    rcases r with ⟨k', ⟨⟩⟩ | s
    · dsimp only; simp only [bind_assoc]; exact Bo.left fun _ => Bo.left fun _ => Bo.ret ⟨rfl, fun _ => rfl⟩
    · exact Bo.ret ⟨rfl, fun _ => rfl⟩
  | findSet k w =>
    show Bo _ (m.findMut k >>= _) (m.set.findMut k >>= _)
    rw [find_mut]
    unfold ByteMapOf.findMut
    rw [bind_assoc, bind_assoc]
    refine Bo.same fun r => ?_
    rcases r with _ | ⟨k', ⟨⟩⟩
    · exact Bo.ret ⟨rfl, fun _ => rfl⟩
    · dsimp only; rw [bind_assoc]; exact Bo.left fun _ => Bo.ret ⟨rfl, fun _ => rfl⟩
  | predecessorSet k w =>
    show Bo _ (m.predecessorMut k >>= _) (m.set.predecessorMut k >>= _)
    unfold ByteMapOf.predecessorMut ByteSet.predecessorMut ByteSet.predecessor
    cases ByteSet.fromArray (ByteSet.andWords (ByteSet.maskLower k) m.set) with
    | none => exact Bo.ret ⟨rfl, fun _ => rfl⟩
    | some v =>
      dsimp only
      simp only [bind_assoc]
      refine Bo.same fun k' => ?_
      simp only [pure_bind, bind_assoc]
      exact Bo.left fun _ => Bo.ret ⟨rfl, fun _ => rfl⟩
  | successorSet k w =>
    show Bo _ (m.successorMut k >>= _) (m.set.successorMut k >>= _)
    unfold ByteMapOf.successorMut ByteSet.successorMut ByteSet.successor
    cases ByteSet.fromArray (ByteSet.andWords (ByteSet.maskHigher k) m.set) with
    | none => exact Bo.ret ⟨rfl, fun _ => rfl⟩
    | some v =>
      dsimp only
      simp only [bind_assoc]
      refine Bo.same fun k' => ?_
      simp only [pure_bind, bind_assoc]
      exact Bo.left fun _ => Bo.ret ⟨rfl, fun _ => rfl⟩
  | minSet w =>
    show Bo _ (m.minValMut >>= _) (m.set.minValMut >>= _)
    unfold ByteMapOf.minValMut ByteSet.minValMut ByteSet.minVal
    simp only [bind_assoc]
    refine Bo.same fun k => ?_
    simp only [pure_bind]
    exact Bo.left fun _ => Bo.ret ⟨rfl, fun _ => rfl⟩
  | maxSet w =>
    show Bo _ (m.maxValMut >>= _) (m.set.maxValMut >>= _)
    unfold ByteMapOf.maxValMut ByteSet.maxValMut ByteSet.maxVal
    simp only [bind_assoc]
    refine Bo.same fun k => ?_
    simp only [pure_bind]
    exact Bo.left fun _ => Bo.left fun _ => Bo.left fun _ => Bo.ret ⟨rfl, fun _ => rfl⟩

theorem step (m : Option (ByteMapOf L)) (op : Op (U 8) V) :
    Bo (P op.notIsMonad) (Exec.step m op) (Exec.step (m.map ByteMapOf.set) op.keys) := by
  cases m with
  | some m => exact step_tree m op
  | none => cases op <;> exact Bo.ret ⟨rfl, fun _ => rfl⟩

theorem run (ops : List (Op (U 8) V)) (m : Option (ByteMapOf L)) :
    Bo (fun x y => x.1.map ByteMapOf.set = y.1 ∧ AgreeOn Op.notIsMonad (ops.map Op.keys) (x.2.map Out.keys) y.2)
      (Exec.run m ops) (Exec.run (m.map ByteMapOf.set) (ops.map Op.keys)) := by
  induction ops generalizing m with
  | nil => exact Bo.ret ⟨rfl, rfl, rfl, fun i op h => by simp at h⟩
  | cons op ops ih =>
    refine Bo.bind (step m op) ?_
    rintro ⟨m, o⟩ ⟨s, o'⟩ ⟨rfl, ho⟩
    refine Bo.bind (ih m) ?_
    rintro ⟨m', os⟩ ⟨s', os'⟩ ⟨hm, h1, h2, h3⟩
    refine Bo.ret ⟨hm, by simpa using h1, by simpa using h2, fun i op' h hp => ?_⟩
    cases i with
    | zero =>
      simp only [List.map_cons, List.getElem?_cons_zero, Option.some.injEq] at h ⊢
      subst h
      exact ho (by cases op <;> first | rfl | exact hp)
    | succ i =>
      simp only [List.map_cons, List.getElem?_cons_succ] at h ⊢
      exact h3 i op' h hp

end AnyList

/-! ## As a collection -/

namespace AnyList.Coll
variable {L T Lo V : Type} [VebTree T Lo V] [TreeListT L T Lo V]

/-- the keys the set holds -/
def has (c : ByteMapOf L) : U 8 → Prop := fun k => c.set.isPresent k = true

theorem present_iff (s : ByteSet) (k : U 8) : s.isPresent k = true ↔ s.abs.Mem k := by
  rw [ByteSet.isPresent_eq, ByteSet.mem_abs]
theorem present_set (s : ByteSet) (k j : U 8) : (s.setBit k).isPresent j = true ↔ j = k ∨ s.isPresent j = true := by
  rw [present_iff, present_iff, ByteSet.abs_setBit]
  unfold Map.Mem Map.upd
  by_cases h : j = k <;> simp [h]
theorem present_unset (s : ByteSet) (k j : U 8) : (s.unsetBit k).isPresent j = true ↔ s.isPresent j = true ∧ j ≠ k := by
  rw [present_iff, present_iff, ByteSet.abs_unsetBit]
  unfold Map.Mem Map.upd
  by_cases h : j = k <;> simp [h]
theorem present_monad (k j : U 8) : (ByteSet.fromMonad k ()).isPresent j = true ↔ j = k := by
  rw [present_iff, ByteSet.abs_fromMonad]
  unfold Map.Mem Map.single Map.upd Map.empty
  by_cases h : j = k <;> simp [h]

/-- whenever the computation returns, what it returns meets `Q` -/
def Post {α : Type} (x : R α) (Q : α → Prop) : Prop := ∀ a, x = .ok a → Q a
theorem Post.ok {α : Type} {a : α} {Q : α → Prop} (h : Q a) : Post (.ok a) Q := by rintro _ ⟨⟩; exact h
theorem Post.ret {α : Type} {a : α} {Q : α → Prop} (h : Q a) : Post (pure a) Q := .ok h
theorem Post.bind {α β : Type} {x : R α} {f : α → R β} {Q : β → Prop} (h : ∀ a, x = .ok a → Post (f a) Q) : Post (x >>= f) Q := by
  cases x with
  | error e => rintro _ ⟨⟩
  | ok a => exact h a rfl
theorem assert_ok {b : Bool} {u : Unit} (h : debugAssert b = .ok u) : b = true := by
  cases b with
  | true => rfl
  | false => cases h

/-- the book and the collection after a call -/
def Good (c : Option (ByteMapOf L)) (op : COp (U 8) T Lo V) (x : Option (ByteMapOf L) × COut (U 8) T Lo V) : Prop :=
  Book.fits (c.map has) op x.2 ∧ x.1.map has = Book.after (c.map has) op x.2

theorem has_congr {c c' : ByteMapOf L} (h : c'.set = c.set) : has c' = has c := by unfold has; rw [h]

theorem find_isSome {s : ByteSet} {k : U 8} {r : Option (U 8 × Unit)} (h : s.find k = .ok r) : r.isSome = s.isPresent k := by
  unfold ByteSet.find at h
  split at h <;> rename_i hp <;> cases h
  · simp [hp]
  · simp [hp]

theorem step_coll (c : ByteMapOf L) (op : COp (U 8) T Lo V) : Post (CollExec.stepColl c op) (Good (some c) op) := by
  cases op with
  | create h t => exact Post.ret ⟨trivial, congrArg some (funext fun j => propext (present_monad h j))⟩
  | get h =>
    show Post (ByteMapOf.Coll.get c h >>= _) _
    unfold ByteMapOf.Coll.get
    by_cases hp : c.set.isPresent h = true
    · rw [if_neg (by simp [hp]), bind_assoc]
      exact Post.bind fun t _ => Post.ret ⟨⟨_, rfl, by simp [has, hp]⟩, rfl⟩
    · rw [if_pos (by simp [hp])]
      exact Post.ret ⟨⟨_, rfl, by simp [has, hp]⟩, rfl⟩
  | set h u =>
    show Post (ByteMapOf.Coll.getMut c h >>= _) _
    unfold ByteMapOf.Coll.getMut
    by_cases hp : c.set.isPresent h = true
    · rw [if_neg (by simp [hp]), bind_assoc]
      exact Post.bind fun t _ => Post.ret ⟨⟨_, rfl, by simp [has, hp]⟩, rfl⟩
    · rw [if_pos (by simp [hp])]
      exact Post.ret ⟨⟨_, rfl, by simp [has, hp]⟩, rfl⟩
  | insert h l v =>
    show Post (ByteMapOf.Coll.insertKey c h (l, v) >>= _) _
    unfold ByteMapOf.Coll.insertKey ByteSet.insert
    by_cases hp : c.set.isPresent h = true
    · rw [if_pos hp]
      show Post ((do let (t, put) ← TreeListT.getMut c.list _; let (t, o) ← VebTree.insert t l v; pure (ByteMapOf.mk c.set (put t), Result.Err (h, o))) >>= _) _
      rw [bind_assoc]
      refine Post.bind fun t _ => ?_
      dsimp only
      rw [bind_assoc]
      exact Post.bind fun t _ => Post.ret ⟨⟨_, rfl, hp, rfl⟩, rfl⟩
    · rw [if_neg hp]
      show Post ((do pure (ByteMapOf.mk (c.set.setBit h) (← TreeListT.insertTree c.list _ (VebTree.fromMonad l v)), Result.Ok h)) >>= _) _
      rw [bind_assoc]
      exact Post.bind fun t _ => Post.ret ⟨⟨_, rfl, hp, rfl⟩,
        congrArg some (funext fun j => propext (present_set c.set h j))⟩
  | remove h r =>
    show Post (ByteMapOf.Coll.removeKey c h r >>= _) _
    unfold ByteMapOf.Coll.removeKey
    rw [bind_assoc]
    refine Post.bind fun f hf => ?_
    rw [bind_assoc]
    refine Post.bind fun u hu => ?_
    have hp : c.set.isPresent h = true := by rw [← find_isSome hf]; exact assert_ok hu
    dsimp only
    rw [bind_assoc]
    refine Post.bind fun x _ => ?_
    rcases x with ⟨_ | ⟨list, _ | _⟩, val⟩
    · exact Post.ret ⟨⟨_, rfl, hp⟩, rfl⟩
    · exact Post.ret ⟨⟨_, rfl, hp⟩, rfl⟩
    · dsimp only
      rw [if_pos rfl, hp]
      exact Post.ret ⟨⟨_, rfl, hp⟩, congrArg some (funext fun j => propext (present_unset c.set h j))⟩
  | maybeRemove h r =>
    show Post (ByteMapOf.Coll.maybeRemoveKey c h r >>= _) _
    unfold ByteMapOf.Coll.maybeRemoveKey
    rw [bind_assoc]
    refine Post.bind fun f hf => ?_
    have hf := find_isSome hf
    by_cases hp : c.set.isPresent h = true
    · rw [if_neg (by rw [hp] at hf; cases f <;> simp_all)]
      dsimp only
      rw [bind_assoc]
      refine Post.bind fun x _ => ?_
      rcases x with ⟨_ | ⟨list, _ | _⟩, val⟩ | list
      · exact Post.ret ⟨⟨_, rfl, hp⟩, rfl⟩
      · exact Post.ret ⟨⟨_, rfl, hp⟩, rfl⟩
      · dsimp only
        rw [if_pos rfl, hp]
        exact Post.ret ⟨⟨_, rfl, hp⟩, congrArg some (funext fun j => propext (present_unset c.set h j))⟩
      · exact Post.ret ⟨rfl, rfl⟩
    · rw [if_pos (by cases f <;> simp_all)]
      exact Post.ret ⟨rfl, rfl⟩

theorem step (c : Option (ByteMapOf L)) (op : COp (U 8) T Lo V) : Post (CollExec.step c op) (Good c op) := by
  cases c with
  | some c => exact step_coll c op
  | none =>
    cases op with
    | create h t => exact Post.ret ⟨trivial, congrArg some (funext fun j => propext (present_monad h j))⟩
    | _ => exact Post.ret ⟨rfl, rfl⟩

theorem run (ops : List (COp (U 8) T Lo V)) (c : Option (ByteMapOf L)) :
    Post (CollExec.run c ops) fun x => Book.Kept (c.map has) ops x.2 := by
  induction ops generalizing c with
  | nil => exact Post.ret trivial
  | cons op ops ih =>
    refine Post.bind fun ⟨c', o⟩ h => ?_
    obtain ⟨h1, h2⟩ := step c op _ h
    refine Post.bind fun ⟨c'', os⟩ h' => ?_
    refine Post.ret ⟨h1, ?_⟩
    have := ih c' _ h'
    rw [h2] at this
    exact this

/-! ### The specified collection keeps the book -/

section spec
open Classical
variable {Hi : Type}

/-- the book of a map -/
noncomputable def book (M : Map Hi T) : Option (Hi → Prop) := if M = Map.empty then none else some fun j => M j ≠ none

theorem ne_empty {M : Map Hi T} {h : Hi} (hm : M h ≠ none) : M ≠ Map.empty := by rintro rfl; exact hm rfl
theorem put_ne (M : Map Hi T) (h : Hi) (t : T) : CollSpec.put M h (some t) ≠ Map.empty :=
  ne_empty (h := h) (by simp [CollSpec.put])
theorem book_put (M : Map Hi T) (h : Hi) (t : T) : book (CollSpec.put M h (some t)) = some fun j => j = h ∨ M j ≠ none := by
  unfold book
  rw [if_neg (put_ne M h t)]
  congr 1
  funext j
  unfold CollSpec.put
  by_cases hj : j = h <;> simp [hj]
theorem book_put_same {M : Map Hi T} {h : Hi} (hm : M h ≠ none) (t : T) : book (CollSpec.put M h (some t)) = book M := by
  rw [book_put, book, if_neg (ne_empty hm)]
  congr 1
  funext j
  by_cases hj : j = h <;> simp [hj, hm]
theorem book_out {M : Map Hi T} (h : Hi) (hn : CollSpec.put M h none ≠ Map.empty) :
    book (CollSpec.put M h none) = some fun j => M j ≠ none ∧ j ≠ h := by
  unfold book
  rw [if_neg hn]
  congr 1
  funext j
  unfold CollSpec.put
  by_cases hj : j = h <;> simp [hj]

theorem removed_spec {M : Map Hi T} {h : Hi} {t : T} (hm : M h = some t) (o : Option T) :
    book (CollSpec.put M h o) = (match CollSpec.left (CollSpec.put M h o) o with
      | none => none
      | some true => (book M).map fun s j => s j ∧ j ≠ h
      | some false => book M) := by
  have hm' : M h ≠ none := by simp [hm]
  unfold CollSpec.left
  by_cases he : CollSpec.put M h o = Map.empty
  · rw [if_pos he, he]
    simp [book]
  · rw [if_neg he]
    cases o with
    | none =>
      rw [book_out h he]
      simp [book, ne_empty hm']
    | some u => simpa using book_put_same hm' u

theorem spec_step (absent : Panic) (M : Map Hi T) (op : COp Hi T Lo V) :
    Post (CollSpec.step absent M op) fun x => Book.fits (book M) op x.2 ∧ book x.1 = Book.after (book M) op x.2 := by
  have hc : ∀ (h : Hi) (t : T), book (CollSpec.put Map.empty h (some t)) = some fun j => j = h := by
    intro h t
    rw [book_put]
    simp [Map.empty]
  unfold CollSpec.step
  by_cases he : M = Map.empty
  · rw [if_pos he]
    have hb : book M = none := by simp [book, he]
    cases op with
    | create h t => exact Post.ok ⟨trivial, hc h t⟩
    | _ => exact Post.ok ⟨hb, rfl⟩
  · rw [if_neg he]
    have hb : book M = some fun j => M j ≠ none := by simp [book, he]
    cases op with
    | create h t => exact Post.ok ⟨trivial, hc h t⟩
    | get h => exact Post.ok ⟨⟨_, hb, by cases M h <;> simp⟩, rfl⟩
    | set h u =>
      unfold CollSpec.stepMap
      dsimp only
      cases hm : M h with
      | none => exact Post.ok ⟨⟨_, hb, by simp [hm]⟩, rfl⟩
      | some t => exact Post.ok ⟨⟨_, hb, by simp [hm]⟩, book_put_same (by simp [hm]) u⟩
    | insert h l v =>
      unfold CollSpec.stepMap
      dsimp only
      cases hm : M h with
      | none =>
        refine Post.ok ⟨⟨_, hb, by simp [hm], rfl⟩, ?_⟩
        show book _ = (book M).map _
        rw [book_put, hb]
        rfl
      | some t =>
        dsimp only
        cases VebTree.insert t l v with
        | error e => rintro _ ⟨⟩
        | ok x => exact Post.ok ⟨⟨_, hb, by simp [hm], rfl⟩, book_put_same (by simp [hm]) _⟩
    | remove h r =>
      unfold CollSpec.stepMap
      dsimp only
      cases hm : M h with
      | none => rintro _ ⟨⟩
      | some t =>
        dsimp only
        cases r t with
        | error e => rintro _ ⟨⟩
        | ok x =>
          refine Post.ok ⟨⟨_, hb, by simp [hm]⟩, ?_⟩
          dsimp only
          rw [removed_spec hm]
          generalize CollSpec.left (CollSpec.put M h x.1) x.1 = z
          rcases z with _ | _ | _ <;> rfl
    | maybeRemove h r =>
      unfold CollSpec.stepMap
      dsimp only
      cases hm : M h with
      | none => exact Post.ok ⟨by simp [Book.fits, hb], rfl⟩
      | some t =>
        dsimp only
        cases r t with
        | error e => rintro _ ⟨⟩
        | ok x =>
          rcases x with ⟨o, val⟩ | t'
          · refine Post.ok ⟨⟨_, hb, by simp [hm]⟩, ?_⟩
            dsimp only
            rw [removed_spec hm]
            generalize CollSpec.left (CollSpec.put M h o) o = z
            rcases z with _ | _ | _ <;> rfl
          · exact Post.ok ⟨by simp [Book.fits, hb], book_put_same (by simp [hm]) t'⟩

theorem spec_run (absent : Panic) (ops : List (COp Hi T Lo V)) (M : Map Hi T) :
    Post (CollSpec.run absent M ops) fun x => Book.Kept (book M) ops x.2 := by
  induction ops generalizing M with
  | nil => exact Post.ok trivial
  | cons op ops ih =>
    unfold CollSpec.run
    have h1 := spec_step absent M op
    cases hs : CollSpec.step absent M op with
    | error e => rintro _ ⟨⟩
    | ok x =>
      obtain ⟨M', o⟩ := x
      obtain ⟨h1, h2⟩ := h1 _ hs
      dsimp only
      have h3 := ih M'
      cases hr : CollSpec.run absent M' ops with
      | error e => rintro _ ⟨⟩
      | ok x =>
        refine Post.ok ⟨h1, ?_⟩
        have := h3 _ hr
        rw [h2] at this
        exact this
end spec

end AnyList.Coll
end Veb
