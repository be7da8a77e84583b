import Verif.Proof.Check
import Verif.Props.Canon
import Verif.Props.Exact

/-!
# C89 the defect can be foreseen, and avoided, by a program

`C41_exact` says which histories are answered correctly, in terms of sets of keys.  Here the condition is a program
that sees nothing but the stored keys and the new key.  With it a user of the crate, who cannot change `Tree::insert`,
can keep every tree correct.
-/

set_option autoImplicit false

namespace Veb.Props
open VebTree

section
variable {T K V : Type} [LinearOrder K] [VebTree T K V] {safe : (K → Prop) → K → Prop} {c : List K → K → Bool}

/-- Every tree type of the crate has a check. -/
theorem C89_exists (h : CrateTree T K V safe) : ∃ c, CheckFor T K V c := by
  obtain ⟨c, h1, -⟩ := h.check
  exact ⟨c, h1⟩

/-- **C89.** The check decides, for every tree type of the crate, which histories are answered correctly
throughout. -/
theorem C89_decides (h : CheckFor T K V c) (ops : List (Op K V)) :
    histCheck c [] ops = true ↔ AnswersThroughout T ops := by
  obtain ⟨safe, h1, h2⟩ := h.crate
  rw [histCheck_iff h h2, C41_exact h1]

/-- **C89, the next insertion.** On a history that passed so far, the check says whether one more insertion keeps the
tree correct. -/
theorem C89_next (h : CheckFor T K V c) (ops : List (Op K V)) (hp : AnswersThroughout T ops) (k : K) (v : V) :
    c ((entries ops).map Prod.fst) k = true ↔ AnswersThroughout T (ops ++ [.insert k v]) := by
  obtain ⟨safe, h1, h2⟩ := h.crate
  rw [← C41_exact h1, SL.safeHist_append]
  have hs := (C41_exact h1 ops).2 hp
  have : histCheck c (entries ops) [.insert k v] = true ↔ SL.SafeHist safe (entries ops) [.insert k v] :=
    histCheck_iff h h2 _ _
  simp only [histCheck, Bool.and_true] at this
  rw [this]
  exact ⟨fun h => ⟨hs, h⟩, fun h => h.2⟩

/-- **C89, how to avoid the defect.** Whatever the history, as long as its entries can be counted: with rebuilding
before each insertion that does not pass, the tree runs like the ordered map, and it stores at every moment what the
history asked for. -/
theorem C89_rebuilding (h : CheckFor T K V c) (ops : List (Op K V)) (hf : FitsUsize ops) :
    RunsLikeMap T (rebuilding c [] ops) ∧
      ∀ pre, pre <+: ops →
        rebuilding c [] pre <+: rebuilding c [] ops ∧ entries (rebuilding c [] pre) = entries pre := by
  obtain ⟨safe, h1, h2⟩ := h.crate
  obtain ⟨L, rfl, M⟩ := h1.lawful
  have key : ∀ (ops : List (Op K V)) (l : SL K V), SL.Sorted l →
      (∀ pre, pre <+: ops → ((SL.run l pre).1).length ≤ usizeMax) →
      SL.SafeHist L.Safe l (rebuilding c l ops) ∧ (SL.run l (rebuilding c l ops)).1 = (SL.run l ops).1 := by
    clear hf ops
    intro ops
    induction ops with
    | nil => intro l _ _; exact ⟨trivial, rfl⟩
    | cons op ops ih =>
      intro l hl hf
      have hf' : ∀ pre, pre <+: ops → ((SL.run (SL.step l op).1 pre).1).length ≤ usizeMax := by
        rintro pre ⟨r, rfl⟩
        exact hf (op :: pre) ⟨r, rfl⟩
      obtain ⟨i1, i2⟩ := ih _ (SL.sorted_step hl op) hf'
      -- one operation
      have one : ∀ a : List (Op K V), SL.SafeHist L.Safe l a → (SL.run l a).1 = (SL.step l op).1 →
          SL.SafeHist L.Safe l (a ++ rebuilding c (SL.step l op).1 ops) ∧
          (SL.run l (a ++ rebuilding c (SL.step l op).1 ops)).1 = (SL.run l (op :: ops)).1 := by
        intro a ha he
        rw [SL.safeHist_append, SL.run_append, he]
        exact ⟨⟨ha, i1⟩, i2⟩
      cases op with
      | insert k v =>
        refine one _ ?_ ?_
        · simp only
          split
          · next hc =>
            refine ⟨.inr ?_, trivial⟩
            rw [keys_eq_mem]
            exact (h2 _ _).2 hc
          · rw [SL.safeHist_append]
            refine ⟨SL.safeHist_replicate _ (.inl rfl) _ _, ?_⟩
            rw [(SL.drain_min l).1]
            have hs : SL.Sorted (SL.insert l k v) := SL.sorted_step hl (.insert k v)
            have hlen := hf [.insert k v] ⟨ops, rfl⟩
            refine SL.safeHist_mono SL.sorted_nil ?_ (ascending_inserts (SL.insert l k v) [] hs hlen)
            rintro P k hf (hk | ⟨hk, hc⟩)
            · exact M.present P k hf hk
            · exact M.append P k hf hk hc
        · simp only
          split
          · rfl
          · rw [SL.run_append, (SL.drain_min l).1]
            have hs : SL.Sorted (SL.insert l k v) := SL.sorted_step hl (.insert k v)
            exact run_inserts _ [] hs
      | _ => exact one _ ⟨trivial, trivial⟩ rfl
  refine ⟨runsLikeMap_of L (key ops [] SL.sorted_nil fun pre hp => hf pre hp).1, fun pre hp =>
    ⟨?_, (key pre [] SL.sorted_nil fun q hq => hf q (hq.trans hp)).2⟩⟩
  obtain ⟨r, hr⟩ := hp
  subst hr
  clear key hf
  generalize ([] : SL K V) = l
  induction pre generalizing l with
  | nil => exact List.nil_prefix
  | cons op pre ih =>
    simp only [List.cons_append, rebuilding]
    exact (List.prefix_append_right_inj _).2 (ih _)

/-- Rebuilding does nothing on histories that are answered correctly anyway. -/
theorem C89_rebuilding_idle (h : CheckFor T K V c) (ops : List (Op K V)) (hp : AnswersThroughout T ops) :
    rebuilding c [] ops = ops := by
  have hc := (C89_decides h ops).2 hp
  revert hc
  generalize ([] : SL K V) = l
  clear hp
  induction ops generalizing l with
  | nil => intro _; rfl
  | cons op ops ih =>
    intro hc
    simp only [histCheck, Bool.and_eq_true] at hc
    have := ih _ hc.2
    cases op with
    | insert k v =>
      have hk := hc.1
      simp only at hk
      simp [rebuilding, hk, this]
    | _ => simp [rebuilding, this]
end

/-! ### 16 bits: a key that is never removed -/

/-- **C89, a sentinel.** A 16-bit tree that stores a key below all others from its first call on is correct: then no
insertion can go below the least key. -/
theorem C89_sentinel {K V : Type} [LinearOrder K] [VebKey K (U 8) (U 8)] [VebKeyRef K (U 8) (U 8)]
    (hk : GoodKey K (U 8) (U 8)) (bot : K) (hb : ∀ j, bot ≤ j) (ops : List (Op K V))
    (hm : ∀ pre, pre <+: ops → pre ≠ [] → (contents pre).Mem bot) : RunsLikeMap (Map16 K V) ops := by
  refine (C17_sixteen_bit_partial hk).1 ops ?_
  rw [notBelowMin_iff (Hi := U 8) (Lo := U 8) SL.sorted_nil]
  induction ops using List.reverseRecOn with
  | nil => trivial
  | append_singleton ops op ih =>
    refine (SL.safeHist_append _ _ _ _).2
      ⟨ih fun pre hp => hm pre (hp.trans (List.prefix_append _ _)), ?_, trivial⟩
    cases op with
    | insert k v =>
      rcases ops.eq_nil_or_concat with rfl | ⟨as, a, e⟩
      · exact .inl rfl
      · right
        have hbot := hm ops (List.prefix_append _ _) (by rw [e]; simp)
        intro mn mx h1 h2 h3 h4
        have hk : SL.keys (entries ops) bot := by rw [(entries_lists ops).keys]; exact hbot
        have e1 : mn = bot := le_antisymm (h4 _ hk).1 (hb mn)
        subst e1
        exact ⟨hb k, .inr (.inr fun x _ => ⟨fun _ _ _ => trivial, fun _ _ _ _ => trivial⟩)⟩
    | _ => trivial

/-- The checks of the predefined types. -/
theorem checks (V : Type) :
    CheckFor (Map16 (U 16) V) (U 16) V check16 ∧ CheckFor (Set16 (U 16)) (U 16) Unit check16 ∧
    CheckFor (Map32 (U 32) V) (U 32) V check32 ∧ CheckFor (Set32 (U 32)) (U 32) Unit check32 ∧
    CheckFor (Map64 (U 64) V) (U 64) V check64 := by
  have s16 : CheckFor (Set16 (U 16)) (U 16) Unit check16 := .tree goodKey .byteSet .byteSet (.array goodIndex)
  have m16 : CheckFor (Map16 (U 16) V) (U 16) V check16 := .tree goodKey .byteSet .byteMap (.array goodIndex)
  have s32 : CheckFor (Set32 (U 32)) (U 32) Unit check32 := .tree goodKey s16 s16 (.array goodIndex)
  have m32 : CheckFor (Map32 (U 32) V) (U 32) V check32 := .tree goodKey s16 m16 (.array goodIndex)
  exact ⟨m16, s16, m32, s32, .tree goodKey s32 m32 (.array goodIndex)⟩

/-- In 32 bits a sentinel is not enough: with 0 stored throughout, a child is damaged. -/
theorem C89_sentinel_refuted : ∃ ops : List (Op (U 32) Nat),
    (∀ pre, pre <+: ops → pre ≠ [] → (contents pre).Mem (U.lit 0)) ∧ ¬ AnswersThroughout (Map32 (U 32) Nat) ops := by
  refine ⟨[.insert (U.lit 0) 0, .insert (U.lit 0x30000) 1, .insert (U.lit 0x10005) 2, .insert (U.lit 0x10009) 3,
    .insert (U.lit 0x10002) 4], ?_, ?_⟩
  · intro pre hp hne
    have hmem := (List.mem_inits pre _).2 hp
    have : ∀ q ∈ List.inits [Op.insert (U.lit 0) 0, .insert (U.lit 0x30000) 1, .insert (U.lit 0x10005) 2,
        .insert (U.lit 0x10009) 3, .insert (U.lit 0x10002) 4],
        q ≠ [] → (SL.find (entries (K := U 32) q) (U.lit 0)).isSome := by decide +kernel
    have h1 := this pre hmem hne
    rw [(entries_lists pre).find] at h1
    intro hn
    rw [hn] at h1
    cases h1
  · rw [← C89_decides (checks Nat).2.2.1]
    decide +kernel

/-! ### non-vacuity -/

/-- The check passes and fails, at every depth. -/
example : histCheck check64 ([] : SL (U 64) Nat) [.insert (U.lit 10) 1, .insert (U.lit 20) 2, .insert (U.lit 15) 3,
    .insert (U.lit 17) 3] = true := by decide +kernel
example : AnswersThroughout (Map64 (U 64) Nat) [.insert (U.lit 10) 1, .insert (U.lit 20) 2, .insert (U.lit 15) 3,
    .insert (U.lit 17) 3] := (C89_decides (checks Nat).2.2.2.2 _).1 (by decide +kernel)
example : ¬ AnswersThroughout (Map64 (U 64) Nat) [.insert (U.lit 10) 1, .insert (U.lit 20) 2, .insert (U.lit 15) 3,
    .insert (U.lit 17) 3, .insert (U.lit 16) 4, .insert (U.lit 11) 5] := by
  rw [← C89_decides (checks Nat).2.2.2.2]; decide +kernel
/-- The shortest wrong history, rebuilt. -/
example : rebuilding check16 ([] : SL (U 16) Nat) [.insert (U.lit 10) 1, .insert (U.lit 20) 2, .insert (U.lit 5) 3] =
    [.insert (U.lit 10) 1, .insert (U.lit 20) 2, .removeMin, .removeMin, .insert (U.lit 5) 3, .insert (U.lit 10) 1,
      .insert (U.lit 20) 2] := by decide +kernel
/-- A history with a sentinel that inserts downwards. -/
example : RunsLikeMap (Map16 (U 16) Nat) [.insert (U.lit 0) 0, .insert (U.lit 30) 1, .insert (U.lit 20) 2,
    .insert (U.lit 10) 3, .removeMax, .maxVal] :=
  C89_sentinel goodKey (U.lit 0) (fun j => by simp [U.le_iff, U.lit]) _ fun pre hp hne => by
    have hmem := (List.mem_inits pre _).2 hp
    have : ∀ q ∈ List.inits [Op.insert (U.lit 0) 0, .insert (U.lit 30) 1, .insert (U.lit 20) 2,
        .insert (U.lit 10) 3, .removeMax, .maxVal],
        q ≠ [] → (SL.find (entries (K := U 16) q) (U.lit 0)).isSome := by decide +kernel
    have h1 := this pre hmem hne
    rw [(entries_lists pre).find] at h1
    intro hn
    rw [hn] at h1
    cases h1

end Veb.Props
