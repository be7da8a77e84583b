import Verif.Props.Honest

/-!
# C75: code of the user that answers properly, or panics

In C68 the code of the user has side effects, but always answers.  Here it may also panic, whenever it likes: whether it does can
depend on the state.  The crate does the same as with code that has no state and does not panic, up to the panic.
-/

set_option autoImplicit false

namespace Veb.Props

section
variable {σ T K V : Type} [ActTree σ T K V] [VebTree T K V] {Us : Panic → Prop}

/-- **C75.** Every history ends in a panic of the code of the user, or the same way as without the state and without those
panics: with the same tree and the same answers, or with the same panic. -/
theorem C75_agree (h : SoundTree σ Us T K V) (ops : List (Op K V)) :
    OutcomeOr Us (ActExec.run (σ := σ) (none : Option T) ops) (Exec.run none ops) := by
  obtain ⟨P⟩ := h.sim
  intro s
  rcases honest_run (P := P) allO_none ops s with ⟨a, s', e, h1, -⟩ | h1
  · exact .inr ⟨a, s', h1, e⟩
  · exact .inl h1

/-- **C75, what it means for C17.** With safe insertions, a history panics in the code of the user, or the answers are those of
an ordered map. -/
theorem C75_map_partial [LinearOrder K] {safe : (K → Prop) → K → Prop} (h : SoundTree σ Us T K V) (hc : CrateTree T K V safe)
    {ops : List (Op K V)} (hs : SL.SafeHist safe [] ops) (s : σ) :
    (∃ p, ActExec.run (none : Option T) ops s = .error p ∧ Us p) ∨
    ∃ (t : Option T) (s' : σ), ActExec.run none ops s = .ok ((t, (SL.run [] ops).2), s') ∧ (t = none ↔ entries ops = []) := by
  obtain ⟨t, h1, h2⟩ := C17_history_partial hc ops hs
  rcases C75_agree h ops s with ⟨p, h3, h4 | h4⟩ | ⟨a, s', h3, h4⟩
  · rw [h1] at h4; cases h4
  · exact .inl ⟨p, h3, h4⟩
  · rw [h1] at h4; cases h4
    exact .inr ⟨t, s', h3, h2⟩

/-- **C75, what it means for C25.** The crate adds no panic to those of the user, up to `usize::MAX` insertions. -/
theorem C75_no_panic_partial [LinearOrder K] {safe : (K → Prop) → K → Prop} (h : SoundTree σ Us T K V) (hc : CrateTree T K V safe)
    {ops : List (Op K V)} (hn : insertions ops ≤ usizeMax) {s : σ} {p : Panic}
    (hr : ActExec.run (none : Option T) ops s = .error p) : Us p := by
  obtain ⟨a, h1⟩ := C25_no_panic_partial hc ops hn
  rcases C75_agree h ops s with ⟨q, h3, h4 | h4⟩ | ⟨b, s', h3, h4⟩
  · rw [h1] at h4; cases h4
  · rw [hr] at h3; cases h3; exact h4
  · rw [hr] at h3; cases h3

/-- **C75 for `len_hint`**, which histories do not contain. -/
theorem C75_len_hint (h : SoundTree σ Us T K V) {ops : List (Op K V)} {s s' : σ} {t : T} {os : List (Out K V)}
    (hr : ActExec.run none ops s = .ok ((some t, os), s')) : OutcomeOr Us (ActTree.lenHint (σ := σ) t) (VebTree.lenHint t) := by
  obtain ⟨P⟩ := h.sim
  intro s
  rcases P.lenHint t (((honest_run (P := P) (t := none) allO_none ops).ok hr).2 t rfl) s with ⟨a, s', e, h1, -⟩ | h1
  · exact .inr ⟨a, s', h1, e⟩
  · exact .inl h1
end

/-- **C75 contains C68:** code that always answers. -/
theorem C75_honest {σ T K V : Type} [ActTree σ T K V] [VebTree T K V] (h : HonestTree σ T K V) : SoundTree σ NoPanics T K V :=
  h.sound

/-! ## The hypotheses are met: keys whose code panics after some time -/

/-- how many more calls will be answered -/
structure Fuel where
  n : Nat
  deriving DecidableEq, Repr

/-- answer, or panic when the fuel is used up -/
def burn {α : Type} (a : α) : Act Fuel α := fun s => match s.n with
  | 0 => .error (.expect "out of fuel")
  | n + 1 => .ok (a, ⟨n⟩)

def NoFuel : Panic → Prop := fun p => p = .expect "out of fuel"

theorem burn_answers {α : Type} (a : α) : AnswersOr NoFuel (burn a) a := by
  rintro ⟨_ | n⟩
  · exact .inr ⟨_, rfl, rfl⟩
  · exact .inl ⟨_, rfl⟩

section
variable {K Hi Lo : Type} [LinearOrder K] [VebKey K Hi Lo] [VebKeyRef K Hi Lo]

/-- any keys, with fuel -/
instance fuelKey : ActKey Fuel K Hi Lo where
  cmp a b := burn (cmp a b)
  eq a b := burn (decide (a = b))
  lt a b := burn (decide (a < b))
  le a b := burn (decide (a ≤ b))
  gt a b := burn (decide (b < a))
  ge a b := burn (decide (b ≤ a))
  splitVal k := burn (VebKey.splitVal k)
  splitRef k := burn (VebKeyRef.splitRef k)
  splitDone _ := burn ()
  join h l := burn (VebKey.join h l)
theorem fuelKey_sound : SoundKey Fuel NoFuel K Hi Lo where
  cmp _ _ := burn_answers _
  eq _ _ := burn_answers _
  lt _ _ := burn_answers _
  le _ _ := burn_answers _
  gt _ _ := burn_answers _
  ge _ _ := burn_answers _
  splitVal _ := burn_answers _
  splitRef _ := burn_answers _
  splitDone _ := burn_answers _
  join _ _ := burn_answers _
instance fuelIndex {Hi : Type} [SizedVebKey Hi] : ActIndex Fuel Hi where
  cardinality := SizedVebKey.cardinality Hi
  index h := burn (SizedVebKey.index h)
theorem fuelIndex_sound {Hi : Type} [SizedVebKey Hi] : SoundIndex Fuel NoFuel Hi := ⟨rfl, fun _ => burn_answers _⟩
instance fuelHash {Hi : Type} [DecidableEq Hi] : ActHash Fuel Hi where
  probe ks h := burn (ks.findIdx? fun k => decide (k = h))
  hashing _ := burn ()
  clone h := burn h
theorem fuelHash_sound {Hi : Type} [DecidableEq Hi] : SoundHash Fuel NoFuel Hi :=
  ⟨fun _ _ _ => burn_answers _, fun _ => burn_answers _, fun _ => burn_answers _⟩
instance fuelOrd {K : Type} [LinearOrder K] : ActOrd Fuel K where
  search ks k := burn (if k ∈ ks then .found (ks.countP (· < k)) else .gap (ks.countP (· < k)))
  below ks k := burn (ks.countP (· < k))
  above ks k := burn (ks.countP (· ≤ k))
  around ks k := burn (ks.countP (· < k), ks.countP (· ≤ k))
theorem fuelOrd_sound {K : Type} [LinearOrder K] : SoundOrd Fuel NoFuel K :=
  ⟨fun _ _ _ => burn_answers _, fun _ _ _ => burn_answers _, fun _ _ _ => burn_answers _, fun _ _ _ => burn_answers _⟩
end

instance : ActTree Fuel ByteSet (U 8) Unit := ActTree.plain _
instance {V : Type} : ActTree Fuel (ByteMap V) (U 8) V := ActTree.plain _

/-- 16-bit and 32-bit maps over them -/
theorem fuel16 {V : Type} : SoundTree Fuel NoFuel (Map16 (U 16) V) (U 16) V :=
  .tree fuelKey_sound .plain .plain (.array fuelIndex_sound)
theorem fuel16s : SoundTree Fuel NoFuel (Set16 (U 16)) (U 16) Unit :=
  .tree fuelKey_sound .plain .plain (.array fuelIndex_sound)
theorem fuel32 {V : Type} : SoundTree Fuel NoFuel (SizedVebTree (Box (Tree (U 32) V (Set16 (U 16)) (HashMap (U 16) (BTreeMap (U 16) V)))))
    (U 32) V :=
  .sized (.box (.tree fuelKey_sound fuel16s (.btree fuelOrd_sound) (.hash fuelHash_sound)))

example (s : Fuel) : (∃ p, ActExec.run (none : Option (Map16 (U 16) Nat)) sample s = .error p ∧ NoFuel p) ∨
    ∃ (t : Option (Map16 (U 16) Nat)) (s' : Fuel), ActExec.run none sample s = .ok ((t, (SL.run [] sample).2), s') ∧
      (t = none ↔ entries sample = []) :=
  C75_map_partial fuel16 (.tree goodKey .byteSet .byteMap (.array goodIndex)) sample_safe s
/-- Both ends are possible: the history takes 40 calls. -/
example : (ActExec.run (none : Option (Map16 (U 16) Nat)) sample (⟨40⟩ : Fuel)).map (fun r => r.1.2) = .ok (SL.run [] sample).2 := by
  decide +kernel
example : (ActExec.run (none : Option (Map16 (U 16) Nat)) sample (⟨39⟩ : Fuel)).map (fun r => r.1.2) =
    .error (.expect "out of fuel") := by
  decide +kernel
/-- Code that answers improperly is excluded, even if it answers only once. -/
example : ¬ ∃ (Us : Panic → Prop) (_ : SizedVebKey Nat), SoundIndex (List Nat) Us Nat := by
  rintro ⟨Us, I, h⟩
  rcases h.index 0 [0] with ⟨s1, h1⟩ | ⟨p, h1, -⟩
  · rcases h.index 0 [1] with ⟨s2, h2⟩ | ⟨p, h2, -⟩
    · have e1 : (0, []) = (SizedVebKey.index (0 : Nat), s1) := Except.ok.inj h1
      have e2 : (1, []) = (SizedVebKey.index (0 : Nat), s2) := Except.ok.inj h2
      exact absurd ((congrArg Prod.fst e1).trans (congrArg Prod.fst e2).symm) (by decide)
    · cases h2
  · cases h1

end Veb.Props
