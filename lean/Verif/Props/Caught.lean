import Verif.Proof.Catch
import Verif.Proof.SoundCatch
import Verif.Props.Sound
import Verif.Props.Audit
import Verif.Props.Unwind

/-!
# C76: panics of the user's code that are caught

C59 says what happens when a panic of a call inside the crate is caught and the tree is used again, for calls that panic at
given places.  Here it is the code of the user that panics, and whether it does depends on its state; the other answers it gives
can be anything.  After a panic that was caught, the state can be any.
-/

set_option autoImplicit false

namespace Veb.Props

section
variable {σ T K V : Type} [ActTree σ T K V] [ActUnwinds σ T K V] {Us : Panic → Prop}

/-- **C76, how an insertion ends**: what is said here about insertions whose panics are caught is about the insertions of C67. -/
theorem C76_faithful {held : T → Multiset V} (h : CaughtTree σ T K V held) : ActFaithful σ T :=
  Tells.faithful h.tells

/-- **C76, nothing twice.** Whatever the code of the user answers, and wherever it panics: what is in the tree in the end
and what was given back was handed over before, each value as often at least. -/
theorem C76_nothing_twice {held : T → Multiset V} (h : CaughtTree σ T K V held) (es : List (σ × Op K V)) :
    heldOpt held (ActExec.runUA (none : Option T) es).1 + takenAll (es.map Prod.snd) (ActExec.runUA (none : Option T) es).2 ≤
      givenAll (es.map Prod.snd) (ActExec.runUA (none : Option T) es).2 := by
  obtain ⟨C, hC⟩ := h.catch_
  obtain ⟨h1, -, h3⟩ := C.run (n := 0) (t := none) optOk_none es False.elim
  have e : heldOpt held (ActExec.runUA (none : Option T) es).1 = ov C.vals (ActExec.runUA (none : Option T) es).1 := by
    revert h3
    generalize (ActExec.runUA (none : Option T) es).1 = t
    intro h3
    cases t with
    | none => rfl
    | some t => exact hC _ t (h3 t rfl)
  rw [e]
  exact h1.trans (zero_add _).le

/-- **C76, the panics.** Every panic of a history with caught panics is one of the code of the user, or one that can happen
without them (C70); only a counter can do worse, see `CaughtAudit`. -/
theorem C76_panics {E O : Panic → Prop} (h : CaughtAudit σ Us T K V E O) (es : List (σ × Op K V)) {p : Panic}
    (hp : .error p ∈ (ActExec.runUA (none : Option T) es).2) : Us p ∨ E p ∨ O p := by
  obtain ⟨C, hC⟩ := h.catch_ False
  rcases hC p ((C.run (n := 0) (t := none) optOk_none es False.elim).2.1 p hp) with h | h | h
  · exact .inl h
  · exact .inr (.inl h)
  · exact .inr (.inr h.2)

/-- **C76, short histories**: up to `usize::MAX` calls no counter overflows. -/
theorem C76_short {E O : Panic → Prop} (h : CaughtAudit σ Us T K V E O) {es : List (σ × Op K V)} (hl : es.length ≤ usizeMax)
    {p : Panic} (hp : .error p ∈ (ActExec.runUA (none : Option T) es).2) : Us p ∨ E p := by
  obtain ⟨C, hC⟩ := h.catch_ True
  rcases hC p ((C.run (n := 0) (t := none) optOk_none es fun _ => by omega).2.1 p hp) with h | h | h
  · exact .inl h
  · exact .inr h
  · exact absurd trivial h.1

/-! ## Code that answers properly or panics -/

variable [VebTree T K V] [Unwinds T K V]

/-- **C76 for code that answers properly or panics**: a history is one of those of C59, with faults that are panics of that
code. -/
theorem C76_sound (h : SoundCatch σ Us T K V) (es : List (σ × Op K V)) :
    ∃ fs : List (Faults × Op K V), fs.map Prod.snd = es.map Prod.snd ∧ (∀ f ∈ fs, ∀ i e, f.1 i = some e → Us e) ∧
      ActExec.runUA (none : Option T) es = Exec.runU none fs := by
  obtain ⟨P, hP⟩ := h.tracks
  obtain ⟨fs, h1, h2, h3, -⟩ := sound_runUA hP (t := none) allO_none es
  exact ⟨fs, h1, h2, h3.symm⟩

/-- **C76, the answers.** With safe insertions the history runs like an ordered map that loses entries when a call panics, and
only the code of the user panics.  Missing: insertions that are not safe, after which the answers can be wrong without any
panic (`C17_refuted`). -/
theorem C76_map_partial [LinearOrder K] {safe : (K → Prop) → K → Prop} (h : SoundCatch σ Us T K V) (hc : CatchTree T K V safe)
    {es : List (σ × Op K V)} (hs : ∀ fs : List (Faults × Op K V), fs.map Prod.snd = es.map Prod.snd → SafeWith safe [] fs) :
    ∃ fs l, fs.map Prod.snd = es.map Prod.snd ∧ (∀ f ∈ fs, ∀ i e, f.1 i = some e → Us e) ∧
      RunsWith [] fs (ActExec.runUA (none : Option T) es).2 l ∧ ((ActExec.runUA (none : Option T) es).1 = none ↔ l = []) ∧
      ∀ t, (ActExec.runUA (none : Option T) es).1 = some t → Answers t l := by
  obtain ⟨fs, h1, h2, h3⟩ := C76_sound h es
  rw [h3]
  obtain ⟨l, g1, g2, g3⟩ := C59_history_partial hc fs (hs fs h1)
  exact ⟨fs, l, h1, h2, g1, g2, g3⟩

/-- **C76 without the condition on insertions**: every panic is one of the code of the user. -/
theorem C76_no_panic [LinearOrder K] (h : SoundCatch σ Us T K V) {es : List (σ × Op K V)}
    (hc : CatchCovered T K V (insertions (es.map Prod.snd))) {p : Panic}
    (hp : .error p ∈ (ActExec.runUA (none : Option T) es).2) : Us p := by
  obtain ⟨fs, h1, h2, h3⟩ := C76_sound h es
  rw [h3] at hp
  rw [← h1] at hc
  have := C59_no_panic fs hc
  generalize (Exec.runU (none : Option T) fs).2 = os at hp this
  clear h3 h1 hc
  induction this with
  | nil => cases hp
  | @cons f o fs os h _ ih =>
    rcases List.mem_cons.1 hp with hp | hp
    · obtain ⟨i, hi⟩ := h p hp.symm
      exact h2 f (List.mem_cons_self ..) i p hi
    · exact ih (fun f hf => h2 f (List.mem_cons_of_mem _ hf)) hp

/-- **C76, every method afterwards**: with code that does not panic any more, all methods return on the tree left. -/
theorem C76_returns [LinearOrder K] (h : SoundCatch σ Us T K V) {es : List (σ × Op K V)}
    (hc : CatchCovered T K V (insertions (es.map Prod.snd) + 1)) {t : T}
    (ht : (ActExec.runUA (none : Option T) es).1 = some t) : AllReturn True t := by
  obtain ⟨fs, h1, h2, h3⟩ := C76_sound h es
  rw [h3] at ht
  rw [← h1] at hc
  exact C59_returns fs hc t ht

end

/-! ## What is left of the tree -/

/-- **C76, what a panic leaves of a `Tree`.** If there was more than one entry: the least entry is the new one if the first
comparison said so, and else as before; the greatest entry is as before unless both comparisons asked for another one; the
children are lost if the panic came after `split_val`, and as before else. -/
theorem C76_left {σ K V S C Hi Lo T : Type} [ActKey σ K Hi Lo] [ActTree σ S Hi Unit] [ActTree σ T Lo V] [ActColl σ C Hi T Lo V]
    {t t' : Tree K V S C} {d : TreeData K V S C} (hd : t.data = some d) {k : K} {v : V} {s : σ} {e : Panic}
    (h : ActUnwinds.insertUA t k v s = (t', .error e)) :
    ∃ d', t'.data = some d' ∧
      t'.min = (if (firstCmp t k s).map Prod.fst = some .lt then (k, v) else t.min) ∧
      d'.max = (if (secondCmp t d k s).map Prod.fst = some .gt then
          if (firstCmp t k s).map Prod.fst = some .lt then t.min else (k, v)
        else d.max) ∧
      (splits t d k s → d'.children = none) ∧ (¬ splits t d k s → d'.children = d.children) :=
  Tree.insert_left hd h

/-- **C76, what a panic leaves of a `Tree` with one entry**: the tree. -/
theorem C76_left_one {σ K V S C Hi Lo T : Type} [ActKey σ K Hi Lo] [ActTree σ S Hi Unit] [ActTree σ T Lo V]
    [ActColl σ C Hi T Lo V] {t t' : Tree K V S C} (hd : t.data = none) {k : K} {v : V} {s : σ} {e : Panic}
    (h : ActUnwinds.insertUA t k v s = (t', .error e)) : t' = t := by
  rcases Tree.insertUA_tells t k v s with ⟨_, _, _, h1, -⟩ | ⟨_, _, h1, -, h2⟩
  · cases h1.symm.trans h
  · cases h1.symm.trans h
    rcases Catch.OfTree.leftA_or h2 with rfl | ⟨d, _, _, _, hd', _⟩
    · rfl
    · rw [hd] at hd'; cases hd'

/-- **C76, what a panic leaves of a `BTreeMap`**: all of it. -/
theorem C76_btree {σ K V : Type} [ActOrd σ K] {t t' : BTreeMap K V} {k : K} {v : V} {s : σ} {e : Panic}
    (h : ActUnwinds.insertUA t k v s = (t', .error e)) : t' = t := by
  rcases BTreeMap.insertUA_tells t k v s with ⟨_, _, _, h1, -⟩ | ⟨_, _, h1, -, h2⟩
  · cases h1.symm.trans h
  · cases h1.symm.trans h
    exact h2

/-! ## The hypotheses are met -/

/-- keys with fuel: the fourth call runs out of it before the collection is asked -/
def fuelCaught : List (Fuel × Op (U 16) Nat) :=
  [(⟨9⟩, .insert (k16 1) 10), (⟨9⟩, .insert (k16 5) 50), (⟨9⟩, .insert (k16 900) 90), (⟨2⟩, .insert (k16 6) 60),
   (⟨9⟩, .find (k16 5)), (⟨3⟩, .insert (k16 6) 60), (⟨9⟩, .find (k16 5)), (⟨0⟩, .maxVal), (⟨9⟩, .insert (k16 901) 91)]

instance : ActUnwinds Fuel ByteSet (U 8) Unit := ActUnwinds.plain _

theorem fuelCatch16 {V : Type} : SoundCatch Fuel NoFuel (Map16 (U 16) V) (U 16) V :=
  .tree fuelKey_sound .plain .plain (.array fuelIndex_sound)

/-- At the first panic nothing is lost, at the second what is in the children. -/
example : (ActExec.runUA (none : Option (Map16 (U 16) Nat)) fuelCaught).2 =
    [.ok (.kv none), .ok (.kv none), .ok (.kv none), .error (.expect "out of fuel"), .ok (.kv (some (k16 5, 50))),
     .error (.expect "out of fuel"), .ok (.kv none), .ok (.kv (some (k16 900, 90))), .ok (.kv none)] := rfl

theorem safe_caught {Φ K V Hi Lo : Type} [LinearOrder K] [VebKey K Hi Lo] {es : List (Φ × Op K V)} {k₀ : K} {v₀ : V} {is : List (K × V)}
    (he : es.map Prod.snd = .insert k₀ v₀ :: is.map fun e => .insert e.1 e.2) (h : ∀ e ∈ is, k₀ ≤ e.1)
    (fs : List (Faults × Op K V)) (hf : fs.map Prod.snd = es.map Prod.snd) :
    SafeWith (Tree.Safe (K := K) (Hi := Hi) (Lo := Lo) always always) [] fs := by
  rw [he] at hf
  obtain ⟨f, fs, rfl, h1, h2⟩ := List.map_eq_cons_iff.1 hf
  obtain ⟨φ, op⟩ := f
  cases h1
  have : ∃ gs : List (Faults × K × V), gs.map Prod.snd = is ∧ fs = gs.map fun e => (e.1, .insert e.2.1 e.2.2) := by
    clear he h hf
    induction fs generalizing is with
    | nil =>
      cases is with
      | nil => exact ⟨[], rfl, rfl⟩
      | cons => cases h2
    | cons f fs ih =>
      cases is with
      | nil => cases h2
      | cons i is =>
        obtain ⟨φ, op⟩ := f
        simp only [List.map_cons, List.cons.injEq] at h2
        obtain ⟨h2, h3⟩ := h2
        obtain ⟨gs, g1, g2⟩ := ih h3
        exact ⟨(φ, i) :: gs, by rw [List.map_cons, g1], by rw [g2, h2]; rfl⟩
  obtain ⟨gs, rfl, rfl⟩ := this
  exact safeWith_of_first _ _ _ _ fun e he => h e.2 (List.mem_map_of_mem he)

/-- `C76_map_partial` for insertions none of which is below the first, however much fuel each has. -/
example (f : Fuel) (fs : List (Fuel × U 16 × Nat)) (h : ∀ e ∈ fs, k16 1 ≤ e.2.1) :
    let es := (f, .insert (k16 1) 10) :: fs.map fun e => (e.1, .insert e.2.1 e.2.2)
    ∃ gs l, gs.map Prod.snd = es.map Prod.snd ∧ (∀ f ∈ gs, ∀ i e, f.1 i = some e → NoFuel e) ∧
      RunsWith [] gs (ActExec.runUA (none : Option (Map16 (U 16) Nat)) es).2 l ∧
      ((ActExec.runUA (none : Option (Map16 (U 16) Nat)) es).1 = none ↔ l = []) ∧
      ∀ t, (ActExec.runUA (none : Option (Map16 (U 16) Nat)) es).1 = some t → Answers t l :=
  C76_map_partial fuelCatch16 (.tree goodKey .byteSet .byteMap (.array goodIndex))
    (safe_caught (k₀ := k16 1) (v₀ := 10) (is := fs.map Prod.snd) (by simp [Function.comp_def]) (by simpa using fun a b x hx => h _ hx))
example {p : Panic} (hp : .error p ∈ (ActExec.runUA (none : Option (Map16 (U 16) Nat)) fuelCaught).2) :
    p = .expect "out of fuel" :=
  C76_no_panic fuelCatch16 (.tree goodKey .byteSet .byteMap (.array goodIndex) (by decide)) hp
example : ∃ t, (ActExec.runUA (none : Option (Map16 (U 16) Nat)) fuelCaught).1 = some t ∧ AllReturn True t :=
  ⟨_, rfl, C76_returns fuelCatch16 (es := fuelCaught) (.tree goodKey .byteSet .byteMap (.array goodIndex) (by decide)) rfl⟩

/-- `C76_left` for the second panic above: the first comparison says that the new key is not below the least, the second that
it is below the greatest, and the key is split; so only the children are lost.  `C76_left_one` for a panic of the first
comparison. -/
example : ∃ (t t' : Map16 (U 16) Nat) (d : _), (ActExec.runUA (none : Option (Map16 (U 16) Nat)) (fuelCaught.take 3)).1 = some t ∧
    t.data = some d ∧ d.children.isSome ∧ (firstCmp t (k16 6) (⟨3⟩ : Fuel)).map Prod.fst = some .gt ∧
    (secondCmp t d (k16 6) (⟨3⟩ : Fuel)).map Prod.fst = some .lt ∧ splits t d (k16 6) (⟨3⟩ : Fuel) ∧
    ActUnwinds.insertUA t (k16 6) 60 (⟨3⟩ : Fuel) = (t', .error (.expect "out of fuel")) ∧
    t' = ⟨t.min, some ⟨d.max, none⟩⟩ := ⟨_, _, _, rfl, rfl, rfl, rfl, rfl, rfl, rfl, rfl⟩
example : let t : Map16 (U 16) Nat := ⟨(k16 1, 10), none⟩
    ActUnwinds.insertUA t (k16 6) 60 (⟨0⟩ : Fuel) = (t, .error (.expect "out of fuel")) := rfl

/-- **C76, the counter**: it keeps its value when the children are lost, so that `is_monad` fails its `debug_assert` later: the
additional panic of `CaughtAudit.sized` happens. -/
theorem C76_sized_worse : .error .debugAssert ∈ (ActExec.runUA (none : Option (SizedVebTree (Map16 (U 16) Nat)))
    [((⟨9⟩ : Fuel), .insert (k16 1) 10), (⟨9⟩, .insert (k16 5) 50), (⟨9⟩, .insert (k16 900) 90), (⟨3⟩, .insert (k16 6) 60),
     (⟨9⟩, .removeMin), (⟨9⟩, .isMonad)]).2 := by
  have : (ActExec.runUA (none : Option (SizedVebTree (Map16 (U 16) Nat)))
    [((⟨9⟩ : Fuel), .insert (k16 1) 10), (⟨9⟩, .insert (k16 5) 50), (⟨9⟩, .insert (k16 900) 90), (⟨3⟩, .insert (k16 6) 60),
     (⟨9⟩, .removeMin), (⟨9⟩, .isMonad)]).2 = [.ok (.kv none), .ok (.kv none), .ok (.kv none), .error (.expect "out of fuel"),
      .ok (.kv (some (k16 1, 10))), .error .debugAssert] := rfl
  rw [this]
  simp

/-- keys whose code answers anything, and panics -/
theorem liar_caught : ∃ held, CaughtTree (List Nat) (SizedVebTree (Box LiarTree)) Liar Nat held :=
  ⟨_, .sized (.box (.tree (.plain (.uncounted .byteMap)) .hash))⟩
theorem liar_caught_audit : ∃ E O, CaughtAudit (List Nat) UserSays (SizedVebTree (Box LiarTree)) Liar Nat E O :=
  ⟨_, _, .sized (.box (.tree liar_panics (.plain (.uncounted .btreeMap)) (.plain (.uncounted .byteMap)) (.hash liar_hash)))⟩
/-- hashing panics while the children are taken out; then the same key is inserted again, and there are lies about the summary -/
def liarCaught : List (List Nat × Op Liar Nat) :=
  [([], .insert ⟨0⟩ 10), ([2], .insert ⟨1⟩ 11), ([2, 1, 3, 4, 5, 0, 1], .insert ⟨2⟩ 12), ([2, 1, 3, 4, 0, 7, 7, 7], .insert ⟨3⟩ 13),
   ([2, 1, 3, 4, 5, 0, 1], .insert ⟨3⟩ 13), ([], .removeMin), ([], .removeMin), ([], .removeMin)]
/-- The first panic loses 12 and one 13, the second everything. -/
example : (ActExec.runUA (none : Option (SizedVebTree (Box LiarTree))) liarCaught).2 =
    [.ok (.kv none), .ok (.kv none), .ok (.kv none), .error (.expect "user"), .ok (.kv none), .error .unreachable,
     .ok (.kv none), .ok (.kv none)] := by decide +kernel
example : ∃ held : SizedVebTree (Box LiarTree) → Multiset Nat,
    heldOpt held (ActExec.runUA (none : Option (SizedVebTree (Box LiarTree))) liarCaught).1 +
      takenAll (liarCaught.map Prod.snd) (ActExec.runUA (none : Option (SizedVebTree (Box LiarTree))) liarCaught).2 ≤
      givenAll (liarCaught.map Prod.snd) (ActExec.runUA (none : Option (SizedVebTree (Box LiarTree))) liarCaught).2 :=
  liar_caught.imp fun _ h => C76_nothing_twice h _
example : ∃ E O : Panic → Prop, ∀ p, .error p ∈ (ActExec.runUA (none : Option (SizedVebTree (Box LiarTree))) liarCaught).2 →
    (UserSays p ∨ E p ∨ O p) ∧ (UserSays p ∨ E p) :=
  let ⟨E, O, h⟩ := liar_caught_audit
  ⟨E, O, fun _ hp => ⟨C76_panics h _ hp, C76_short h (by decide) hp⟩⟩
/-- both searches of a `BTreeMap` can panic, and it is the same afterwards -/
example : let t : BTreeMap (U 8) Nat := ⟨[(⟨3, by decide⟩, 30)]⟩
    ActUnwinds.insertUA t ⟨4, by decide⟩ 40 (⟨0⟩ : Fuel) = (t, .error (.expect "out of fuel")) ∧
    ActUnwinds.insertUA t ⟨4, by decide⟩ 40 (⟨1⟩ : Fuel) = (t, .error (.expect "out of fuel")) ∧
    (ActUnwinds.insertUA t ⟨4, by decide⟩ 40 (⟨2⟩ : Fuel)).2 = .ok (none, ⟨0⟩) := ⟨rfl, rfl, rfl⟩

end Veb.Props
