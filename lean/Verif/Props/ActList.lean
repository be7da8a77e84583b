import Verif.Proof.ActAnyList
import Verif.Proof.ActCollRun
import Verif.Props.Sound
import Verif.Props.AnyList
import Verif.Props.ByteList
import Verif.Props.ArrayOf

/-!
# C90: lists and arrays of the user that have a state

C79, C80 and C81 have lists and arrays of the user without a state.  Here their code can have side effects, and answer
differently each time it is called.
-/

set_option autoImplicit false

namespace Veb.Props

/-! ## Any code whatever -/

/-- **C90, keys.** Whatever the list does, a history that does not panic gives the keys of the ordered map in every answer
but those of `is_monad`; and a map is left exactly when a key is. -/
theorem C90_keys {σ L V : Type} [ActList σ L V] (ops : List (Op (U 8) V)) {s s' : σ} {t : Option (ByteMapOf L)}
    {os : List (Out (U 8) V)} (h : ActExec.run none ops s = .ok ((t, os), s')) :
    AgreeOn Op.notIsMonad (ops.map Op.keys) (os.map Out.keys) (SL.run [] (ops.map Op.keys)).2 ∧
      (t = none ↔ entries (ops.map Op.keys) = []) := by
  obtain ⟨u, e, hu⟩ := C08_byteSet_history (ops.map Op.keys)
  obtain ⟨h1, h2⟩ := ActAnyList.run ops (none : Option (ByteMapOf L)) _ _ _ _ h e
  refine ⟨h2, ?_⟩
  rw [← hu]
  dsimp only at h1
  rw [← h1]
  cases t <;> simp

/-- **C90, collections.** Whatever the list, the trees in it and the code that the caller passes do, the answers of a history
that does not panic are in keeping with the book the caller can keep. -/
theorem C90_coll {σ L T Lo V : Type} [ActTree σ T Lo V] [ActTreeList σ L T Lo V] (ops : List (ACOp σ (U 8) T Lo V)) {s s' : σ}
    {c : Option (ByteMapOf L)} {os : List (COut (U 8) T Lo V)} (h : ActCollExec.run none ops s = .ok ((c, os), s')) :
    Book.Kept none (ops.map ACOp.shape) os :=
  ActAnyList.Coll.run ops (none : Option (ByteMapOf L)) _ _ _ h

/-! ## Code that answers properly, or panics -/

section
variable {σ T K V : Type} [ActTree σ T K V] [VebTree T K V] {Us : Panic → Prop}

/-- **C90.** Where the code without a state answers as an ordered map, the code with a state does, or the user's panics. -/
theorem C90_map [LinearOrder K] (h : SoundTree σ Us T K V) {ops : List (Op K V)} (hr : RunsLikeMap T ops) (s : σ) :
    (∃ p, ActExec.run (none : Option T) ops s = .error p ∧ Us p) ∨
    ∃ (t : Option T) (s' : σ), ActExec.run none ops s = .ok ((t, (SL.run [] ops).2), s') ∧ (t = none ↔ entries ops = []) := by
  obtain ⟨t, h1, h2⟩ := hr
  rcases C75_agree h ops s with ⟨p, h3, h4 | h4⟩ | ⟨a, s', h3, h4⟩
  · rw [h1] at h4; cases h4
  · exact .inl ⟨p, h3, h4⟩
  · rw [h1] at h4; cases h4
    exact .inr ⟨t, s', h3, h2⟩

/-- **C90, panics.** Where the code without a state does not panic, only the user's does. -/
theorem C90_panic (h : SoundTree σ Us T K V) {ops : List (Op K V)} (hn : NeverPanics T ops) {s : σ} {p : Panic}
    (hr : ActExec.run (none : Option T) ops s = .error p) : Us p := by
  obtain ⟨a, h1⟩ := hn
  rcases C75_agree h ops s with ⟨q, h3, h4 | h4⟩ | ⟨b, s', h3, h4⟩
  · rw [h1] at h4; cases h4
  · rw [hr] at h3; cases h3; exact h4
  · rw [hr] at h3; cases h3
end

/-- **C90, histories of collections.** Over sound code, and with trees that call no code with a state, every history of a
collection ends in a panic of the code of the user, or the same way as without the state: with the same collection and
the same answers, or with the same panic. -/
theorem C90_coll_agree {σ C Hi T Lo V : Type} [VebTree T Lo V] [ActColl σ C Hi T Lo V] [TreeCollection C Hi T Lo V]
    {Us : Panic → Prop} (h : @SoundColl σ Us C Hi T Lo V (ActTree.plain σ) _ _ _) {ops : List (ACOp σ Hi T Lo V)}
    {ops' : List (COp Hi T Lo V)} (ho : List.Forall₂ (ACOp.Like Us) ops ops') :
    OutcomeOr Us (ActCollExec.run (none : Option C) ops) (CollExec.run none ops') := by
  let _ : ActTree σ T Lo V := ActTree.plain σ
  let P : HTree Us σ T Lo V := HTree.plain σ
  obtain ⟨Q⟩ := SoundColl.sim h (P := P)
  exact (honest_collRun (P := P) (Q := Q) (fun _ => trivial) allO_none ho).outcome

/-- **C90, `ByteMap`.** Over a list that is a sequence, or panics, `ByteMap` is an ordered map under every history, or the list
panics. -/
theorem C90_byteMap {σ L V : Type} [ListT L V] [ActList σ L V] {Us : Panic → Prop} (h : SoundList σ Us L) (hq : IsSeq L)
    (ops : List (Op (U 8) V)) (s : σ) :
    (∃ p, ActExec.run (none : Option (ByteMapOf L)) ops s = .error p ∧ Us p) ∨
    ∃ (t : Option (ByteMapOf L)) (s' : σ), ActExec.run none ops s = .ok ((t, (SL.run [] ops).2), s') ∧
      (t = none ↔ entries ops = []) :=
  C90_map (.byteList h) (C79_tree hq ops) s

section
variable {σ K V S Lo T : Type} [LinearOrder K] [LinearOrder Lo] [ActTree σ T Lo V] [VebTree T Lo V] {Us : Panic → Prop}

/-- **C90, trees over lists.** A `Tree` over such a list, with such keys and parts, is an ordered map as far as `C51` goes, or
the code of the user panics; … -/
theorem C90_over_list {L : Type} [VebKey K (U 8) Lo] [VebKeyRef K (U 8) Lo] [ActKey σ K (U 8) Lo] [ActTree σ S (U 8) Unit]
    [VebTree S (U 8) Unit] [TreeListT L T Lo V] [ActTreeList σ L T Lo V] {holds : L → T → Prop}
    (hk : SoundKey σ Us K (U 8) Lo) (hs : SoundTree σ Us S (U 8) Unit) (ht : SoundTree σ Us T Lo V)
    (hl : SoundTreeList σ Us L holds) (hq : IsTreeSeq L) (gk : GoodKey K (U 8) Lo)
    (gs : ∀ ops : List (Op (U 8) Unit), RunsLikeMap S ops) (gt : ∀ ops : List (Op Lo V), RunsLikeMap T ops)
    {ops : List (Op K V)} (hsafe : SL.SafeHist (Tree.Safe always always) [] ops) (s : σ) :
    (∃ p, ActExec.run (none : Option (Tree K V S (ByteMapOf L))) ops s = .error p ∧ Us p) ∨
    ∃ (t : Option (Tree K V S (ByteMapOf L))) (s' : σ), ActExec.run none ops s = .ok ((t, (SL.run [] ops).2), s') ∧
      (t = none ↔ entries ops = []) :=
  C90_map (.tree hk hs ht (.byteList hl)) (C79_tree_over hq gk gs gt ops hsafe) s

/-- … and under every history only the code of the user panics. -/
theorem C90_over_list_panic {L : Type} [VebKey K (U 8) Lo] [VebKeyRef K (U 8) Lo] [ActKey σ K (U 8) Lo] [ActTree σ S (U 8) Unit]
    [VebTree S (U 8) Unit] [TreeListT L T Lo V] [ActTreeList σ L T Lo V] {holds : L → T → Prop}
    (hk : SoundKey σ Us K (U 8) Lo) (hs : SoundTree σ Us S (U 8) Unit) (ht : SoundTree σ Us T Lo V)
    (hl : SoundTreeList σ Us L holds) (hq : IsTreeSeq L) (gk : GoodKey K (U 8) Lo)
    (gs : ∀ ops : List (Op (U 8) Unit), RunsLikeMap S ops) (gt : ∀ ops : List (Op Lo V), RunsLikeMap T ops)
    {ops : List (Op K V)} {s : σ} {p : Panic}
    (hr : ActExec.run (none : Option (Tree K V S (ByteMapOf L))) ops s = .error p) : Us p :=
  C90_panic (.tree hk hs ht (.byteList hl)) (C79_tree_over_no_panic hq gk gs gt ops) hr

/-- **C90, trees over arrays.** The same over an array of the user. -/
theorem C90_over_array {Hi A : Type} [Finite Hi] [SizedVebKey Hi] [ActIndex σ Hi] [LinearOrder Hi] [VebKey K Hi Lo]
    [VebKeyRef K Hi Lo] [ActKey σ K Hi Lo] [ActTree σ S Hi Unit] [VebTree S Hi Unit] [ArrayT A (SizedVebKey.cardinality Hi) T]
    [ActArray σ A (SizedVebKey.cardinality Hi) T] {holds : A → T → Prop} {dom : Nat → Prop} (hk : SoundKey σ Us K Hi Lo)
    (hs : SoundTree σ Us S Hi Unit) (ht : SoundTree σ Us T Lo V) (hx : SoundIndex σ Us Hi)
    (ha : SoundArray σ Us A (SizedVebKey.cardinality Hi) holds) (gA : IsArray A (SizedVebKey.cardinality Hi) dom)
    (gd : ∀ h : Hi, dom (SizedVebKey.index h)) (gi : ∀ a b : Hi, SizedVebKey.index a = SizedVebKey.index b → a = b)
    (gc : Nat.card Hi ≤ usizeMax) (gk : GoodKey K Hi Lo) (gs : ∀ ops : List (Op Hi Unit), RunsLikeMap S ops)
    (gt : ∀ ops : List (Op Lo V), RunsLikeMap T ops) {ops : List (Op K V)}
    (hsafe : SL.SafeHist (Tree.Safe always always) [] ops) (s : σ) :
    (∃ p, ActExec.run (none : Option (Tree K V S (ArrayOf Hi A))) ops s = .error p ∧ Us p) ∨
    ∃ (t : Option (Tree K V S (ArrayOf Hi A))) (s' : σ), ActExec.run none ops s = .ok ((t, (SL.run [] ops).2), s') ∧
      (t = none ↔ entries ops = []) :=
  C90_map (.tree hk hs ht (.arrayOf hx ha)) (C80_tree_over gA gd gi gc gk gs gt ops hsafe) s

theorem C90_over_array_panic {Hi A : Type} [Finite Hi] [SizedVebKey Hi] [ActIndex σ Hi] [LinearOrder Hi] [VebKey K Hi Lo]
    [VebKeyRef K Hi Lo] [ActKey σ K Hi Lo] [ActTree σ S Hi Unit] [VebTree S Hi Unit] [ArrayT A (SizedVebKey.cardinality Hi) T]
    [ActArray σ A (SizedVebKey.cardinality Hi) T] {holds : A → T → Prop} {dom : Nat → Prop} (hk : SoundKey σ Us K Hi Lo)
    (hs : SoundTree σ Us S Hi Unit) (ht : SoundTree σ Us T Lo V) (hx : SoundIndex σ Us Hi)
    (ha : SoundArray σ Us A (SizedVebKey.cardinality Hi) holds) (gA : IsArray A (SizedVebKey.cardinality Hi) dom)
    (gd : ∀ h : Hi, dom (SizedVebKey.index h)) (gi : ∀ a b : Hi, SizedVebKey.index a = SizedVebKey.index b → a = b)
    (gc : Nat.card Hi ≤ usizeMax) (gk : GoodKey K Hi Lo) (gs : ∀ ops : List (Op Hi Unit), RunsLikeMap S ops)
    (gt : ∀ ops : List (Op Lo V), RunsLikeMap T ops) {ops : List (Op K V)} {s : σ} {p : Panic}
    (hr : ActExec.run (none : Option (Tree K V S (ArrayOf Hi A))) ops s = .error p) : Us p :=
  C90_panic (.tree hk hs ht (.arrayOf hx ha)) (C80_tree_over_no_panic gA gd gi gc gk gs gt ops) hr
end

/-! ## A list that answers differently each time -/

/-- It hands out the number of calls so far as every value, and as its length. -/
structure Ticker where
  left : Nat

/-- the number of calls so far -/
def tick {α : Type} (f : Nat → α) : Act Nat α := fun s => .ok (f (s + 1), s + 1)

instance : ActList Nat Ticker Nat where
  fromMonad _ := ⟨1⟩
  len _ := tick id
  get _ _ := tick id
  getMut l _ := tick fun n => (n, fun _ => l)
  insertValue l _ _ := tick fun _ => ⟨l.left + 1⟩
  removeValue l _ := tick fun n => (if l.left = 1 then none else some ⟨l.left - 1⟩, n)

/-- the values are wrong, and change when nothing happens to the map; the keys are right -/
example : (ActExec.run (none : Option (ByteMapOf Ticker)) [.insert (U.lit 9) 1, .insert (U.lit 200) 2, .insert (U.lit 4) 3, .minVal,
    .minVal, .maxVal, .remove (U.lit 9), .successor (U.lit 4), .findSet (U.lit 200) 7, .removeMax, .intoMonad, .minVal] 0).map
      (fun r => r.1.2) =
    .ok [.kv none, .kv none, .kv none, .kv (some (U.lit 4, 3)), .kv (some (U.lit 4, 4)), .kv (some (U.lit 200, 6)),
      .kv (some (U.lit 9, 7)), .kv (some (U.lit 200, 8)), .kv (some (U.lit 200, 9)), .kv (some (U.lit 200, 10)),
      .kv (some (U.lit 4, 11)), .kv none] := by
  decide +kernel

/-- a list of trees that answers differently each time; trees end at every second call -/
instance : ActTreeList Nat Ticker ByteSet (U 8) Unit where
  fromMonad _ := ⟨1⟩
  get _ _ := tick fun n => ByteSet.fromMonad (U.lit n) ()
  getMut l _ := tick fun n => (ByteSet.fromMonad (U.lit n) (), fun _ => l)
  insertTree l _ _ := tick fun _ => l
  removeKey l _ _ := tick fun n => (some (l, decide (n % 2 = 0)), (U.lit n, ()))
  maybeRemoveKey l _ _ := tick fun n => .Ok (some (l, decide (n % 2 = 0)), (U.lit n, ()))

instance : ActTree Nat ByteSet (U 8) Unit := ActTree.plain _

/-- the hypotheses of `C90_coll_agree`: a `ByteMap` of trees, a write through `get_mut`, and a removal -/
example : @SoundColl Nat NoPanics (ByteMap ByteSet) (U 8) ByteSet (U 8) Unit (ActTree.plain Nat) _ _ _ ∧
    List.Forall₂ (ACOp.Like NoPanics)
      ([.create (U.lit 1) (ByteSet.fromMonad (U.lit 2) ()), .set (U.lit 1) (ByteSet.fromMonad (U.lit 3) ()), .get (U.lit 1),
        .remove (U.lit 1) fun t s => .ok ((none, (U.lit 2, ())), s + (if t = ByteSet.fromMonad (U.lit 3) () then 1 else 2))] : List (ACOp Nat (U 8) ByteSet (U 8) Unit))
      [.create (U.lit 1) (ByteSet.fromMonad (U.lit 2) ()), .set (U.lit 1) (ByteSet.fromMonad (U.lit 3) ()), .get (U.lit 1),
        .remove (U.lit 1) fun _ => .ok (none, (U.lit 2, ()))] :=
  ⟨@SoundColl.byte _ _ _ _ _ (ActTree.plain Nat) _, .cons (.create _ _) (.cons (.set _ _) (.cons (.get _)
    (.cons (.remove _ fun _ _ => .inr ⟨_, _, rfl, rfl⟩) .nil)))⟩

example : (ActCollExec.run (none : Option (ByteMapOf Ticker))
    [.create (U.lit 1) (ByteSet.fromMonad (U.lit 2) ()), .insert (U.lit 3) (U.lit 5) (), .get (U.lit 3), .get (U.lit 4),
     .remove (U.lit 3) (fun _ => throw .unreachable), .get (U.lit 3), .get (U.lit 1), .remove (U.lit 3) (fun _ => throw .unreachable),
     .get (U.lit 3), .insert (U.lit 1) (U.lit 9) ()] 0).map (fun r => r.1.2) =
    .ok [.done, .inserted (.Ok (U.lit 3)), .tree (some (ByteSet.fromMonad (U.lit 2) ())), .tree none,
      .removed (U.lit 3, ()) (some false), .tree (some (ByteSet.fromMonad (U.lit 4) ())),
      .tree (some (ByteSet.fromMonad (U.lit 5) ())), .removed (U.lit 6, ()) (some true),
      .tree none, .inserted (.Err (U.lit 1, none))] := by
  decide +kernel

/-! ## Lists and arrays that panic when the fuel is used up -/

/-- what `r` does, if there is fuel -/
def burnFor {α : Type} (r : R α) : Act Fuel α := do
  burn ()
  r

theorem burn_outcome {α : Type} {x : Act Fuel α} {r : R α} (h : OutcomeOr NoFuel x r) : OutcomeOr NoFuel (do burn (); x) r := by
  rintro ⟨_ | n⟩
  · exact .inl ⟨_, rfl, .inr rfl⟩
  · exact h ⟨n⟩

theorem burnFor_outcome {α : Type} (r : R α) : OutcomeOr NoFuel (burnFor r) r :=
  burn_outcome fun s => by
    cases r with
    | error p => exact .inl ⟨p, rfl, .inl rfl⟩
    | ok a => exact .inr ⟨a, s, rfl, rfl⟩

instance fuelList {V : Type} : ActList Fuel (Deque V) V where
  fromMonad := ListT.fromMonad
  len l := burnFor (ListT.len l)
  get l i := burnFor (ListT.get l i)
  getMut l i := burnFor (ListT.getMut l i)
  insertValue l i v := burnFor (ListT.insertValue l i v)
  removeValue l i := burnFor (ListT.removeValue l i)
theorem fuelList_sound {V : Type} : SoundList Fuel NoFuel (Deque V) :=
  ⟨fun _ => rfl, fun _ => burnFor_outcome _, fun _ _ => burnFor_outcome _, fun _ _ => burnFor_outcome _,
    fun _ _ _ => burnFor_outcome _, fun _ _ => burnFor_outcome _⟩

/-- a history of bytes -/
def bytes : List (Op (U 8) Nat) := [.insert (U.lit 9) 1, .insert (U.lit 4) 2, .maxVal, .remove (U.lit 9), .isMonad]

example (s : Fuel) : (∃ p, ActExec.run (none : Option (ByteMapOf (Deque Nat))) bytes s = .error p ∧ NoFuel p) ∨
    ∃ (t : Option (ByteMapOf (Deque Nat))) (s' : Fuel), ActExec.run none bytes s = .ok ((t, (SL.run [] bytes).2), s') ∧
      (t = none ↔ entries bytes = []) :=
  C90_byteMap fuelList_sound C79_deque bytes s
/-- Both ends are possible: the history takes 5 calls. -/
example : (ActExec.run (none : Option (ByteMapOf (Deque Nat))) bytes (⟨5⟩ : Fuel)).map (fun r => r.1.2) = .ok (SL.run [] bytes).2 := by
  decide +kernel
example : (ActExec.run (none : Option (ByteMapOf (Deque Nat))) bytes (⟨4⟩ : Fuel)).map (fun r => r.1.2) =
    .error (.expect "out of fuel") := by
  decide +kernel

section
variable {T Lo V : Type} [VebTree T Lo V]

instance fuelTrees : ActTreeList Fuel (Deque T) T Lo V where
  fromMonad := TreeListT.fromMonad
  get l i := burnFor (TreeListT.get l i)
  getMut l i := burnFor (TreeListT.getMut l i)
  insertTree l i v := burnFor (TreeListT.insertTree l i v)
  removeKey l i f := do
    burn ()
    let (o, val) ← VecDeque.removeKeyA l.items i f
    pure (o.map fun p => (⟨p.1⟩, p.2), val)
  maybeRemoveKey l i f := do
    burn ()
    match (← VecDeque.maybeRemoveKeyA l.items i f) with
    | .Err l => pure (.Err ⟨l⟩)
    | .Ok (o, val) => pure (.Ok (o.map fun p => (⟨p.1⟩, p.2), val))

omit [VebTree T Lo V] in
theorem bind_returns {α β : Type} {x : R α} {f : α → R β} {b : β} (h : (x >>= f) = .ok b) : ∃ a, x = .ok a ∧ f a = .ok b := by
  cases x with
  | error p => cases h
  | ok a => exact ⟨a, rfl, h⟩

theorem mem_set {l : List T} {i : Nat} {t u : T} (h : u ∈ l.set i t) : u = t ∨ u ∈ l :=
  (List.mem_or_eq_of_mem_set h).symm

omit [VebTree T Lo V] in
theorem deque_outcome {l : List T} (i : Nat) {f : T → Act Fuel (Option T × (Lo × V))} {g : T → R (Option T × (Lo × V))}
    (h : ∀ t ∈ l, OutcomeOr NoFuel (f t) (g t)) :
    Follows NoFuel (fun _ => True) (VecDeque.removeKeyA l i f) (VecDeque.removeKey l i g) := by
  unfold VecDeque.removeKeyA VecDeque.removeKey
  cases e : l[i]? with
  | none => exact .fail
  | some t =>
    refine (Follows.of (h t (List.mem_of_getElem? e))).bind fun ⟨o, v⟩ _ => ?_
    exact .ite' (fun _ => Follows.lift'.bind fun _ _ => .ret trivial) fun _ => .ret trivial

omit [VebTree T Lo V] in
theorem deque_maybe_outcome {l : List T} (i : Nat) {f : T → Act Fuel (Result (Option T × (Lo × V)) T)}
    {g : T → R (Result (Option T × (Lo × V)) T)} (h : ∀ t ∈ l, OutcomeOr NoFuel (f t) (g t)) :
    Follows NoFuel (fun _ => True) (VecDeque.maybeRemoveKeyA l i f) (VecDeque.maybeRemoveKey l i g) := by
  unfold VecDeque.maybeRemoveKeyA VecDeque.maybeRemoveKey
  cases e : l[i]? with
  | none => exact .fail
  | some t =>
    refine (Follows.of (h t (List.mem_of_getElem? e))).bind fun r _ => ?_
    obtain ⟨o, v⟩ | u := r
    · exact .ite' (fun _ => Follows.lift'.bind fun _ _ => .ret trivial) fun _ => .ret trivial
    · exact .ret trivial

theorem deque_left {l : List T} {i : Nat} {o : Option T} {u : T}
    (h : u ∈ (match o with | some t => l.set i t | none => l.eraseIdx i)) : o = some u ∨ u ∈ l := by
  cases o with
  | none => exact .inr (List.mem_of_mem_eraseIdx h)
  | some t => exact (mem_set h).imp_left fun e => by rw [e]

theorem fuelTrees_sound : SoundTreeList Fuel NoFuel (Deque T) (Lo := Lo) (V := V) (fun l t => t ∈ l.items) where
  fromMonad _ := rfl
  fromMonad_holds t u h := List.mem_singleton.1 h
  get _ _ := burnFor_outcome _
  get_holds l i t h := by
    have h : index l.items i = .ok t := h
    unfold index at h
    split at h
    · cases h; exact List.mem_of_getElem? (by assumption)
    · cases h
  getMut _ _ := burnFor_outcome _
  getMut_holds l i t put h := by
    obtain ⟨r, h1, h2⟩ := bind_returns h
    cases h2
    obtain ⟨t, h3, h4⟩ := bind_returns h1
    cases h4
    refine ⟨?_, fun u v hv => mem_set hv⟩
    unfold index at h3
    split at h3
    · cases h3; exact List.mem_of_getElem? (by assumption)
    · cases h3
  insertTree _ _ _ := burnFor_outcome _
  insertTree_holds l l' i t u h hu := by
    obtain ⟨r, h1, h2⟩ := bind_returns h
    cases h2
    unfold VecDeque.insertAt at h1
    split at h1
    · cases h1; exact (List.mem_insertIdx (by assumption)).1 hu
    · cases h1
  removeKey l i f g h := burn_outcome ((deque_outcome i h).bind fun _ _ => .ret (Q := fun _ => True) trivial).outcome
  removeKey_holds l l' i f s s' b e h u hu := by
    obtain ⟨-, s1, -, h⟩ := BoA.split_ok h
    obtain ⟨⟨o, v⟩, s2, h1, h⟩ := BoA.split_ok h
    unfold VecDeque.removeKeyA at h1
    cases ht : l.items[i]? with
    | none => rw [ht] at h1; cases h1
    | some t =>
      rw [ht] at h1
      dsimp only at h1
      obtain ⟨⟨o', v'⟩, s3, h2, h1⟩ := BoA.split_ok h1
      rcases o' with _ | t' <;> dsimp only at h1 <;> split at h1
      · obtain ⟨-, s4, -, h1⟩ := BoA.split_ok h1
        cases h1; cases h
      · cases h1; cases h
        exact .inl (List.mem_of_mem_eraseIdx hu)
      · obtain ⟨-, s4, -, h1⟩ := BoA.split_ok h1
        cases h1; cases h
      · cases h1; cases h
        rcases mem_set hu with rfl | h3
        · exact .inr ⟨t, _, _, _, List.mem_of_getElem? ht, h2⟩
        · exact .inl h3
  maybeRemoveKey l i f g h := burn_outcome ((deque_maybe_outcome i h).bind fun r _ => by
    obtain r | u := r <;> exact .ret (Q := fun _ => True) trivial).outcome
  maybeRemoveKey_holds l l' i f s s' h u hu := by
    have key : ∀ r, ActTreeList.maybeRemoveKey (σ := Fuel) l i f s = .ok (r, s') →
        ((∃ b e, r = .Ok (some (l', b), e)) ∨ r = .Err l') → ∃ r' s2 t, t ∈ l.items ∧ f t s2 = .ok (r', s') ∧
          ((∃ o e, r' = .Ok (o, e) ∧ l'.items = (match o with | some t => l.items.set i t | none => l.items.eraseIdx i)) ∨
            ∃ t', r' = .Err t' ∧ l'.items = l.items.set i t') := by
      intro r h hr
      obtain ⟨-, s1, -, h⟩ := BoA.split_ok h
      obtain ⟨q, s2, h1, h⟩ := BoA.split_ok h
      unfold VecDeque.maybeRemoveKeyA at h1
      cases ht : l.items[i]? with
      | none => rw [ht] at h1; cases h1
      | some t =>
        rw [ht] at h1
        dsimp only at h1
        obtain ⟨r', s3, h2, h1⟩ := BoA.split_ok h1
        obtain ⟨o', v'⟩ | t' := r'
        · rcases o' with _ | t' <;> dsimp only at h1 <;> split at h1
          · obtain ⟨-, s4, -, h1⟩ := BoA.split_ok h1
            cases h1; cases h
            rcases hr with ⟨_, _, hr⟩ | hr <;> cases hr
          · cases h1; cases h
            rcases hr with ⟨b, e, hr⟩ | hr <;> cases hr
            exact ⟨_, _, t, List.mem_of_getElem? ht, h2, .inl ⟨none, v', rfl, rfl⟩⟩
          · obtain ⟨-, s4, -, h1⟩ := BoA.split_ok h1
            cases h1; cases h
            rcases hr with ⟨_, _, hr⟩ | hr <;> cases hr
          · cases h1; cases h
            rcases hr with ⟨b, e, hr⟩ | hr <;> cases hr
            exact ⟨_, _, t, List.mem_of_getElem? ht, h2, .inl ⟨some t', v', rfl, rfl⟩⟩
        · cases h1; cases h
          rcases hr with ⟨_, _, ⟨⟩⟩ | hr
          cases hr
          exact ⟨_, _, t, List.mem_of_getElem? ht, h2, .inr ⟨t', rfl, rfl⟩⟩
    obtain ⟨r', s2, t, h1, h2, h3⟩ : ∃ r' s2 t, t ∈ l.items ∧ f t s2 = .ok (r', s') ∧
          ((∃ o e, r' = .Ok (o, e) ∧ l'.items = (match o with | some t => l.items.set i t | none => l.items.eraseIdx i)) ∨
            ∃ t', r' = .Err t' ∧ l'.items = l.items.set i t') := by
      rcases h with ⟨b, e, h⟩ | h
      · exact key _ h (.inl ⟨b, e, rfl⟩)
      · exact key _ h (.inr rfl)
    rcases h3 with ⟨o, e, rfl, h4⟩ | ⟨t', rfl, h4⟩ <;> rw [h4] at hu
    · rcases deque_left hu with rfl | h5
      · exact .inr ⟨t, _, _, h1, .inl ⟨e, h2⟩⟩
      · exact .inl h5
    · rcases mem_set hu with rfl | h5
      · exact .inr ⟨t, _, _, h1, .inr h2⟩
      · exact .inl h5

instance fuelArray (n : Nat) : ActArray Fuel (OptionArray T) n T where
  create := burnFor (ArrayT.create n)
  get a i := burnFor (ArrayT.get n a i)
  getMut a i := burnFor (ArrayT.getMut n a i)
omit [VebTree T Lo V] in
theorem fuelArray_sound (n : Nat) : SoundArray Fuel NoFuel (OptionArray T) n (fun a t => ∃ i, a.slot i = some t) where
  create := burnFor_outcome _
  create_holds a t h := by cases h; rintro ⟨i, ⟨⟩⟩
  get _ _ := burnFor_outcome _
  get_holds a i t h := by
    have h : a.get i = .ok (some t) := h
    unfold OptionArray.get at h
    split at h
    · exact ⟨i, by injection h⟩
    · cases h
  getMut _ _ := burnFor_outcome _
  getMut_holds a i o put h := by
    obtain ⟨r, h1, h2⟩ := bind_returns h
    cases h2
    unfold OptionArray.get at h1
    split at h1
    · cases h1
      refine ⟨fun t ht => ⟨i, ht⟩, fun o u ⟨j, hj⟩ => ?_⟩
      dsimp only at hj
      split at hj
      · exact .inl hj
      · exact .inr ⟨j, hj⟩
    · cases h1
end

/-! 16-bit maps over them -/
example (s : Fuel) :
    (∃ p, ActExec.run (none : Option (Tree (U 16) Nat ByteSet (ByteMapOf (Deque (ByteMap Nat))))) sample s = .error p ∧ NoFuel p) ∨
    ∃ (t : Option (Tree (U 16) Nat ByteSet (ByteMapOf (Deque (ByteMap Nat))))) (s' : Fuel),
      ActExec.run none sample s = .ok ((t, (SL.run [] sample).2), s') ∧ (t = none ↔ entries sample = []) :=
  C90_over_list fuelKey_sound .plain .plain fuelTrees_sound C79_deque_trees goodKey C08_byteSet_history
    (C10_byteMap_history Nat) sample_safe s
example (s : Fuel) :
    (∃ p, ActExec.run (none : Option (Tree (U 16) Nat ByteSet (ArrayOf (U 8) (OptionArray (ByteMap Nat))))) sample s = .error p ∧ NoFuel p) ∨
    ∃ (t : Option (Tree (U 16) Nat ByteSet (ArrayOf (U 8) (OptionArray (ByteMap Nat))))) (s' : Fuel),
      ActExec.run none sample s = .ok ((t, (SL.run [] sample).2), s') ∧ (t = none ↔ entries sample = []) :=
  C90_over_array fuelKey_sound .plain .plain fuelIndex_sound (fuelArray_sound _) (C80_crate_array _)
    (fun h => goodIndex.lt h) goodIndex.inj (by rw [card_U]; decide) goodKey C08_byteSet_history (C10_byteMap_history Nat) sample_safe s
example {ops : List (Op (U 16) Nat)} {s : Fuel} {p : Panic}
    (hr : ActExec.run (none : Option (Tree (U 16) Nat ByteSet (ByteMapOf (Deque (ByteMap Nat))))) ops s = .error p) : NoFuel p :=
  C90_over_list_panic fuelKey_sound .plain .plain fuelTrees_sound C79_deque_trees goodKey C08_byteSet_history
    (C10_byteMap_history Nat) hr
example {ops : List (Op (U 16) Nat)} {s : Fuel} {p : Panic}
    (hr : ActExec.run (none : Option (Tree (U 16) Nat ByteSet (ArrayOf (U 8) (OptionArray (ByteMap Nat))))) ops s = .error p) : NoFuel p :=
  C90_over_array_panic fuelKey_sound .plain .plain fuelIndex_sound (fuelArray_sound _) (C80_crate_array _)
    (fun h => goodIndex.lt h) goodIndex.inj (by rw [card_U]; decide) goodKey C08_byteSet_history (C10_byteMap_history Nat) hr
/-- Both ends are possible. -/
example : (ActExec.run (none : Option (Tree (U 16) Nat ByteSet (ByteMapOf (Deque (ByteMap Nat))))) sample (⟨100⟩ : Fuel)).map
    (fun r => r.1.2) = .ok (SL.run [] sample).2 := by
  decide +kernel
example : (ActExec.run (none : Option (Tree (U 16) Nat ByteSet (ArrayOf (U 8) (OptionArray (ByteMap Nat))))) sample (⟨20⟩ : Fuel)).map
    (fun r => r.1.2) = .error (.expect "out of fuel") := by
  decide +kernel
/-- a list of the user in a list of the user -/
example : SoundTree Fuel NoFuel (Tree (U 16) Nat ByteSet (ByteMapOf (Deque (ByteMapOf (Deque Nat))))) (U 16) Nat :=
  .tree fuelKey_sound .plain (.byteList fuelList_sound) (.byteList fuelTrees_sound)

end Veb.Props
