import Verif.Proof.HonestRun
import Verif.Props.Act
import Verif.Props.Exact
import Verif.Props.NoPanic

/-!
# C68: side effects of the user's code do not matter

Code of the user that answers as the traits ask can count its calls, write to a log, or change any other state: the crate
does the same as with code that has no state.  All that is proved about the model without a state holds for such code.
-/

set_option autoImplicit false

namespace Veb.Props

section
variable {σ T K V : Type} [ActTree σ T K V] [VebTree T K V]

theorem outcome_of {α : Type} {Q : α → Prop} {x : Act σ α} {r : R α} (h : Follows NoPanics Q x r) : SameOutcome x r := by
  refine ⟨?_, ?_⟩
  · rintro a rfl s
    rcases h s with ⟨b, s', e, h1, -⟩ | ⟨p, -, h1 | h1⟩
    · cases e; exact ⟨s', h1⟩
    · cases h1
    · exact h1.elim
  · rintro p rfl s
    rcases h s with ⟨b, s', e, -⟩ | ⟨q, h1, h2 | h2⟩
    · cases e
    · cases h2; exact h1
    · exact h2.elim

/-- **C68.** Every history ends the same way as without the state: the same tree, the same answers, or the same panic. -/
theorem C68_agree (h : HonestTree σ T K V) (ops : List (Op K V)) :
    SameOutcome (ActExec.run (σ := σ) (none : Option T) ops) (Exec.run none ops) := by
  obtain ⟨P⟩ := h.sim
  exact outcome_of (honest_run allO_none ops)

/-- **C68, the other way round.** What a history with side effects returns is what it returns without. -/
theorem C68_only (h : HonestTree σ T K V) {ops : List (Op K V)} {s s' : σ} {r : Option T × List (Out K V)}
    (hr : ActExec.run none ops s = .ok (r, s')) : Exec.run none ops = .ok r := by
  have := C68_agree h ops
  cases e : Exec.run (none : Option T) ops with
  | error p => rw [this.2 p e s] at hr; cases hr
  | ok a =>
    obtain ⟨s1, h1⟩ := this.1 a e s
    rw [h1] at hr; cases hr; rfl

/-- **C68 for two programs.** The answers depend neither on the state nor on what the side effects are. -/
theorem C68_two {σ' : Type} [ActTree σ' T K V] (h : HonestTree σ T K V) (h' : HonestTree σ' T K V) (ops : List (Op K V)) (s : σ)
    (s' : σ') : (ActExec.run (none : Option T) ops s).map Prod.fst = (ActExec.run (none : Option T) ops s').map Prod.fst := by
  have h1 := C68_agree h ops
  have h2 := C68_agree h' ops
  cases e : Exec.run (none : Option T) ops with
  | error p => rw [h1.2 p e s, h2.2 p e s']; rfl
  | ok a =>
    obtain ⟨_, e1⟩ := h1.1 a e s
    obtain ⟨_, e2⟩ := h2.1 a e s'
    rw [e1, e2]; rfl

/-- **C68 for `len_hint`**, which histories do not contain. -/
theorem C68_len_hint (h : HonestTree σ T K V) {ops : List (Op K V)} {s s' : σ} {t : T} {os : List (Out K V)}
    (hr : ActExec.run none ops s = .ok ((some t, os), s')) : SameOutcome (ActTree.lenHint (σ := σ) t) (VebTree.lenHint t) := by
  obtain ⟨P⟩ := h.sim
  exact outcome_of (P.lenHint t (((honest_run (P := P) (t := none) allO_none ops).ok hr).2 t rfl))

/-- **C68, what it means for C17.** With safe insertions, proper code of the user with side effects gives an ordered map. -/
theorem C68_map_partial [LinearOrder K] {safe : (K → Prop) → K → Prop} (h : HonestTree σ T K V) (hc : CrateTree T K V safe)
    {ops : List (Op K V)} (hs : SL.SafeHist safe [] ops) (s : σ) :
    ∃ (t : Option T) (s' : σ), ActExec.run none ops s = .ok ((t, (SL.run [] ops).2), s') ∧ (t = none ↔ entries ops = []) := by
  obtain ⟨t, h1, h2⟩ := C17_history_partial hc ops hs
  obtain ⟨s', h3⟩ := (C68_agree h ops).1 _ h1 s
  exact ⟨t, s', h3, h2⟩

/-- **C68, what it means for C25.** Proper code of the user with side effects runs into no panic, up to `usize::MAX`
insertions. -/
theorem C68_no_panic_partial [LinearOrder K] {safe : (K → Prop) → K → Prop} (h : HonestTree σ T K V) (hc : CrateTree T K V safe)
    {ops : List (Op K V)} (hn : insertions ops ≤ usizeMax) (s : σ) : ∃ r, ActExec.run (none : Option T) ops s = .ok r := by
  obtain ⟨a, h1⟩ := C25_no_panic_partial hc ops hn
  obtain ⟨s', h2⟩ := (C68_agree h ops).1 a h1 s
  exact ⟨_, h2⟩
end

/-! ## The hypotheses are met: keys that count the calls of their code -/

/-- how often code of the user was called -/
structure Calls where
  n : Nat
  deriving DecidableEq, Repr

/-- count a call and answer -/
def counted {α : Type} (a : α) : Act Calls α := do
  modify fun s => ⟨s.n + 1⟩
  pure a

theorem counted_answers {α : Type} (a : α) : AlwaysAnswers (counted a) a := fun s => ⟨⟨s.n + 1⟩, rfl⟩

section
variable {K Hi Lo : Type} [LinearOrder K] [VebKey K Hi Lo] [VebKeyRef K Hi Lo]

/-- any keys, counting -/
instance countKey : ActKey Calls K Hi Lo where
  cmp a b := counted (cmp a b)
  eq a b := counted (decide (a = b))
  lt a b := counted (decide (a < b))
  le a b := counted (decide (a ≤ b))
  gt a b := counted (decide (b < a))
  ge a b := counted (decide (b ≤ a))
  splitVal k := counted (VebKey.splitVal k)
  splitRef k := counted (VebKeyRef.splitRef k)
  splitDone _ := counted ()
  join h l := counted (VebKey.join h l)
theorem countKey_honest : HonestKey Calls K Hi Lo where
  cmp _ _ := counted_answers _
  eq _ _ := counted_answers _
  lt _ _ := counted_answers _
  le _ _ := counted_answers _
  gt _ _ := counted_answers _
  ge _ _ := counted_answers _
  splitVal _ := counted_answers _
  splitRef _ := counted_answers _
  splitDone _ := counted_answers _
  join _ _ := counted_answers _
instance countIndex {Hi : Type} [SizedVebKey Hi] : ActIndex Calls Hi where
  cardinality := SizedVebKey.cardinality Hi
  index h := counted (SizedVebKey.index h)
theorem countIndex_honest {Hi : Type} [SizedVebKey Hi] : HonestIndex Calls Hi := ⟨rfl, fun _ => counted_answers _⟩
instance countHash {Hi : Type} [DecidableEq Hi] : ActHash Calls Hi where
  probe ks h := counted (ks.findIdx? fun k => decide (k = h))
  hashing _ := counted ()
  clone h := counted h
theorem countHash_honest {Hi : Type} [DecidableEq Hi] : HonestHash Calls Hi :=
  ⟨fun _ _ _ => counted_answers _, fun _ => counted_answers _, fun _ => counted_answers _⟩
end

instance : ActTree Calls ByteSet (U 8) Unit := ActTree.plain _
instance {V : Type} : ActTree Calls (ByteMap V) (U 8) V := ActTree.plain _

/-- 16-bit and 32-bit maps over them -/
theorem count16 {V : Type} : HonestTree Calls (Map16 (U 16) V) (U 16) V :=
  .tree countKey_honest .plain .plain (.array countIndex_honest)
theorem count16s : HonestTree Calls (Set16 (U 16)) (U 16) Unit :=
  .tree countKey_honest .plain .plain (.array countIndex_honest)
theorem count32 {V : Type} : HonestTree Calls (SizedVebTree (Box (Tree (U 32) V (Set16 (U 16)) (HashMap (U 16) (Map16 (U 16) V))))) (U 32) V :=
  .sized (.box (.tree countKey_honest count16s count16 (.hash countHash_honest)))

example (s : Calls) : ∃ (t : Option (Map16 (U 16) Nat)) (s' : Calls), ActExec.run none sample s = .ok ((t, (SL.run [] sample).2), s') ∧
    (t = none ↔ entries sample = []) :=
  C68_map_partial count16 (.tree goodKey .byteSet .byteMap (.array goodIndex)) sample_safe s
/-- The code of the user is called: 40 times in this history. -/
example : ((ActExec.run (none : Option (Map16 (U 16) Nat)) sample (⟨0⟩ : Calls)).map fun r => r.2.n) = .ok 40 := by decide +kernel
/-- The conditions exclude code that answers by its state, such as the `index` of C67. -/
example : ¬ ∃ (_ : SizedVebKey Nat), HonestIndex (List Nat) Nat := by
  rintro ⟨I, h⟩
  obtain ⟨s1, h1⟩ := h.index 0 [0]
  obtain ⟨s2, h2⟩ := h.index 0 [1]
  have e1 : (0, []) = (SizedVebKey.index (0 : Nat), s1) := Except.ok.inj h1
  have e2 : (1, []) = (SizedVebKey.index (0 : Nat), s2) := Except.ok.inj h2
  exact absurd ((congrArg Prod.fst e1).trans (congrArg Prod.fst e2).symm) (by decide)

end Veb.Props
