import Verif.Proof.SoundIter
import Verif.Props.Caught

/-!
# C78: iterators over code of the user that answers properly, or panics

C73 says what iterators do over proper code with side effects, and over arbitrary code.  Here the code may panic, whenever it
likes, and answers properly else.  Panics may be caught, in the history that made the tree and in the iteration.
-/

set_option autoImplicit false

namespace Veb.Props
open Iter

section
variable {σ T K V : Type} [LinearOrder K] [ActTree σ T K V] [VebTree T K V] [ActIterKey σ K] {Us : Panic → Prop}

/-- **C78.** On a tree that a history has left, calls of an iterator end in a panic of the code of the user, or as they do without a
state and without those panics. -/
theorem C78_agree (h : SoundTree σ Us T K V) (hk : SoundIterKey σ Us K) {ops : List (Op K V)} {s s' : σ} {t : T}
    {os : List (Out K V)} (hr : ActExec.run none ops s = .ok ((some t, os), s')) :
    (∀ ss, OutcomeOr Us ((Iter.new t).callsA (σ := σ) ss) ((Iter.new t).calls ss)) ∧
    ∀ it : Iter T K, it.tree = t → OutcomeOr Us (it.sizeHintA (σ := σ)) it.sizeHint := by
  obtain ⟨P⟩ := h.sim
  have := ((honest_run (P := P) (t := none) allO_none ops).ok hr).2
  refine ⟨fun ss => outcomeOr_of (honest_calls hk ss (Iter.new t) (this t rfl)), ?_⟩
  rintro it rfl
  exact outcomeOr_of (honest_sizeHint it (this _ rfl))

/-- **C78, caught panics.** If without the state and without the panics of the user the calls yield `as`, then with them the calls
yield the same; or up to a panic the same, and from then on nothing. -/
theorem C78_caught (h : SoundTree σ Us T K V) (hk : SoundIterKey σ Us K) {ops : List (Op K V)} {s s' : σ} {t : T}
    {os : List (Out K V)} (hr : ActExec.run none ops s = .ok ((some t, os), s')) {es : List (σ × Side)}
    (hl : es.length ≤ usizeMax) {it : Iter T K} {as : List (Option (K × V))}
    (hc : (Iter.new t).calls (es.map Prod.snd) = .ok (it, as)) :
    ((Iter.new t).callsUA es).2 = as.map .ok ∨ ∃ n p, n < es.length ∧ Us p ∧
      ((Iter.new t).callsUA es).2 = (as.take n).map .ok ++ .error p :: List.replicate (es.length - n - 1) (.ok none) := by
  obtain ⟨P⟩ := h.sim
  have := ((honest_run (P := P) (t := none) allO_none ops).ok hr).2
  exact caught_calls (P := P) hk es _ (this t rfl) (by simpa [Iter.new] using hl) hc

variable [ActUnwinds σ T K V] [Unwinds T K V]

/-- **C78 after caught panics**: the same on a tree left by a history with caught panics (C76). -/
theorem C78_agree_left (h : SoundCatch σ Us T K V) (hk : SoundIterKey σ Us K) {fs : List (σ × Op K V)} {t : T}
    (ht : (ActExec.runUA (none : Option T) fs).1 = some t) :
    (∀ ss, OutcomeOr Us ((Iter.new t).callsA (σ := σ) ss) ((Iter.new t).calls ss)) ∧
    (∀ it : Iter T K, it.tree = t → OutcomeOr Us (it.sizeHintA (σ := σ)) it.sizeHint) ∧
    ∀ es : List (σ × Side), es.length ≤ usizeMax → ∀ (it : Iter T K) (as : List (Option (K × V))),
      (Iter.new t).calls (es.map Prod.snd) = .ok (it, as) →
      ((Iter.new t).callsUA es).2 = as.map .ok ∨ ∃ n p, n < es.length ∧ Us p ∧
        ((Iter.new t).callsUA es).2 = (as.take n).map .ok ++ .error p :: List.replicate (es.length - n - 1) (.ok none) := by
  obtain ⟨P, hP⟩ := h.tracks
  obtain ⟨-, -, -, -, this⟩ := sound_runUA hP (t := none) allO_none fs
  have W := this t ht
  refine ⟨fun ss => outcomeOr_of (honest_calls hk ss (Iter.new t) W), ?_, fun es hl it as hc =>
    caught_calls (P := P) hk es _ W (by simpa [Iter.new] using hl) hc⟩
  rintro it rfl
  exact outcomeOr_of (honest_sizeHint it W)

/-- **C78, the entries.** After a history of safe insertions and other calls, with panics that were caught, the tree has the
entries `l` of the map that lost entries at panics (C59), and an iterator, whose panics are caught as well, takes its
answers from the ends of `l`, up to a panic of the code of the user.  Missing: insertions that are not safe, as in C76. -/
theorem C78_entries_partial {safe : (K → Prop) → K → Prop} (h : SoundCatch σ Us T K V) (hk : SoundIterKey σ Us K)
    (hc : CatchTree T K V safe) {fs : List (σ × Op K V)}
    (hs : ∀ gs : List (Faults × Op K V), gs.map Prod.snd = fs.map Prod.snd → SafeWith safe [] gs) {t : T}
    (ht : (ActExec.runUA (none : Option T) fs).1 = some t) :
    ∃ gs l, gs.map Prod.snd = fs.map Prod.snd ∧ RunsWith [] gs (ActExec.runUA (none : Option T) fs).2 l ∧
      (l.length ≤ usizeMax → ∀ es : List (σ × Side), es.length ≤ usizeMax →
        let as := (popAll l (es.map Prod.snd)).2
        ((Iter.new t).callsUA es).2 = as.map .ok ∨ ∃ n p, n < es.length ∧ Us p ∧
          ((Iter.new t).callsUA es).2 = (as.take n).map .ok ++ .error p :: List.replicate (es.length - n - 1) (.ok none)) := by
  obtain ⟨gs, l, h1, -, h3, -, h5⟩ := C76_map_partial h hc hs
  refine ⟨gs, l, h1, h3, fun hl es he => ?_⟩
  obtain ⟨it, h6, -⟩ := calls_ok (good_new (h5 t ht) hl) (es.map Prod.snd)
  exact (C78_agree_left h hk ht).2.2 es he it _ h6

end

/-- **C78, values and panics of arbitrary code when panics are caught**: a call that panics leaves an iterator that is over
(C73), so only the calls before it yield anything. -/
theorem C78_over {σ T K V : Type} [ActTree σ T K V] [ActIterKey σ K] {it : Iter T K} {es : List (σ × Side)}
    (hl : it.emitted + es.length ≤ usizeMax) {n : Nat} {p : Panic} (hp : (it.callsUA es).2[n]? = some (.error p)) :
    (it.callsUA es).2.drop (n + 1) = List.replicate (es.length - n - 1) (.ok none) := by
  induction es generalizing it n with
  | nil => cases hp
  | cons e es ih =>
    obtain ⟨s, si⟩ := e
    simp only [List.length_cons] at hl
    have e : (it.callsUA ((s, si) :: es)).2 =
      (it.caughtA (it.matchA si) s).2.map Prod.fst :: ((it.caughtA (it.matchA si) s).1.callsUA es).2 := rfl
    rw [e] at hp ⊢
    cases n with
    | zero =>
      cases hq : it.caughtA (it.matchA si) s with
      | mk i r =>
        rw [hq] at hp
        obtain q | r := r
        · rcases C73_caught _ _ _ _ _ hq with h | h
          · simpa using stopped_caught es i h.1
          · omega
        · cases hp
    | succ n =>
      have := caughtA_emitted it (it.matchA si) s
      rw [List.drop_succ_cons, ih (by omega) (by simpa using hp)]
      congr 1
      simp only [List.length_cons]
      omega

/-! ## The hypotheses are met -/

/-- equality and cloning with fuel -/
instance fuelIterKey {K : Type} [DecidableEq K] : ActIterKey Fuel K where
  eq a b := burn (decide (a = b))
  clone a := burn a
theorem fuelIterKey_sound {K : Type} [DecidableEq K] : SoundIterKey Fuel NoFuel K :=
  ⟨fun _ _ => burn_answers _, fun _ => burn_answers _⟩

/-- the tree left by `fuelCaught`, iterated; the third call runs out of fuel -/
def fuelSides (n : Nat) : List (Fuel × Side) := [(⟨9⟩, .front), (⟨9⟩, .back), (⟨n⟩, .front), (⟨9⟩, .front)]
example : ∃ t, (ActExec.runUA (none : Option (Map16 (U 16) Nat)) fuelCaught).1 = some t ∧
    ((Iter.new t).callsUA (fuelSides 9)).2 =
      [.ok (some (k16 1, 10)), .ok (some (k16 901, 91)), .ok (some (k16 900, 90)), .ok none] ∧
    ((Iter.new t).callsUA (fuelSides 2)).2 =
      [.ok (some (k16 1, 10)), .ok (some (k16 901, 91)), .error (.expect "out of fuel"), .ok none] := ⟨_, rfl, rfl, rfl⟩
/-- `C78_over` -/
example {t : Map16 (U 16) Nat} {es : List (Fuel × Side)} (hl : es.length ≤ usizeMax) {p : Panic}
    (hp : ((Iter.new t).callsUA es).2[2]? = some (.error p)) :
    ((Iter.new t).callsUA es).2.drop 3 = List.replicate (es.length - 3) (.ok none) :=
  C78_over (by simpa [Iter.new] using hl) hp
/-- `C78_agree_left`: however much fuel there is -/
example : ∃ t, (ActExec.runUA (none : Option (Map16 (U 16) Nat)) fuelCaught).1 = some t ∧
    ∀ n, ((Iter.new t).callsUA (fuelSides n)).2 =
      [.ok (some (k16 1, 10)), .ok (some (k16 901, 91)), .ok (some (k16 900, 90)), .ok none] ∨
    ∃ m p, m < 4 ∧ NoFuel p ∧ ((Iter.new t).callsUA (fuelSides n)).2 =
      ([some (k16 1, 10), some (k16 901, 91), some (k16 900, 90), none].take m).map .ok ++
        .error p :: List.replicate (4 - m - 1) (.ok none) :=
  ⟨_, rfl, fun n => (C78_agree_left fuelCatch16 fuelIterKey_sound (fs := fuelCaught) rfl).2.2 (fuelSides n) (by simp [fuelSides, usizeMax])
    _ _ rfl⟩
/-- `C78_agree` and `C78_caught`: a tree made without panics -/
example : ∃ (t : Map16 (U 16) Nat) (os : List (Out (U 16) Nat)) (s : Fuel),
    ActExec.run none [.insert (k16 1) 10, .insert (k16 900) 90] (⟨99⟩ : Fuel) = .ok ((some t, os), s) ∧
    (∀ ss, OutcomeOr NoFuel ((Iter.new t).callsA (σ := Fuel) ss) ((Iter.new t).calls ss)) ∧
    ∀ n, ((Iter.new t).callsUA [((⟨n⟩ : Fuel), .front)]).2 = [.ok (some (k16 1, 10))] ∨ ∃ m p, m < 1 ∧ NoFuel p ∧
      ((Iter.new t).callsUA [((⟨n⟩ : Fuel), .front)]).2 =
        ([some (k16 1, 10)].take m).map .ok ++ .error p :: List.replicate (1 - m - 1) (.ok none) :=
  ⟨_, _, _, rfl, (C78_agree fuel16 fuelIterKey_sound (ops := [.insert (k16 1) 10, .insert (k16 900) 90]) (s := ⟨99⟩) rfl).1,
    fun n => C78_caught fuel16 fuelIterKey_sound (ops := [.insert (k16 1) 10, .insert (k16 900) 90]) (s := ⟨99⟩) rfl
      (es := [(⟨n⟩, .front)]) (by simp [usizeMax]) (as := [some (k16 1, 10)]) rfl⟩
/-- `C78_entries_partial` for insertions none of which is below the first, and any iteration -/
example (f : Fuel) (fs : List (Fuel × U 16 × Nat)) (h : ∀ e ∈ fs, k16 1 ≤ e.2.1) :
    let es := (f, .insert (k16 1) 10) :: fs.map fun e => (e.1, .insert e.2.1 e.2.2)
    ∀ t, (ActExec.runUA (none : Option (Map16 (U 16) Nat)) es).1 = some t →
    ∃ gs l, gs.map Prod.snd = es.map Prod.snd ∧ RunsWith [] gs (ActExec.runUA (none : Option (Map16 (U 16) Nat)) es).2 l ∧
      (l.length ≤ usizeMax → ∀ es : List (Fuel × Side), es.length ≤ usizeMax →
        let as := (popAll l (es.map Prod.snd)).2
        ((Iter.new t).callsUA es).2 = as.map .ok ∨ ∃ n p, n < es.length ∧ NoFuel p ∧
          ((Iter.new t).callsUA es).2 = (as.take n).map .ok ++ .error p :: List.replicate (es.length - n - 1) (.ok none)) :=
  fun _ ht => C78_entries_partial fuelCatch16 fuelIterKey_sound (.tree goodKey .byteSet .byteMap (.array goodIndex))
    (safe_caught (k₀ := k16 1) (v₀ := 10) (is := fs.map Prod.snd) (by simp [Function.comp_def]) (by simpa using fun a b x hx => h _ hx))
    ht

end Veb.Props
