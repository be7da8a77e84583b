import Verif.Proof.Meets
import Verif.Proof.TreeFixed
import Verif.Props.Iter
import Verif.Props.TreeFixed
import Verif.Props.TreeDefect

/-!
# C82: the repaired crate meets every claim in full

C18 – C24, C26 – C28 and C31 – C33 are false of the code in some histories; what is proved of the code there has `_partial` in
its name.  With the one comparison of `insert` that C42 turns around, they hold as stated, in every history, for every tree
type.
-/

set_option autoImplicit false

namespace Veb.Props

variable {T K V : Type} [LinearOrder K] [VebTree T K V]

/-- All that C18 – C24, C26 and C27 ask of a tree `t` that should contain `M`, for insertions that are `safe`. -/
structure MeetsAll (safe : (K → Prop) → K → Prop) (M : Map K V) (t : T) : Prop where
  /-- C18 -/
  find : FindAfterUpdate safe M t
  /-- C19 -/
  extremes : TrueExtremes M t
  /-- C20 -/
  pred : TruePredecessor M t
  /-- C21 -/
  succ : TrueSuccessor M t
  /-- C22 -/
  insert : InsertReports safe M t
  /-- C23 -/
  remove : RemoveReports M t
  /-- C24 -/
  pops : PopsExtremes M t
  /-- C26 -/
  mutAccess : MutAccess t
  /-- C27 -/
  monad : MonadTruth M t

theorem meetsAll_of (L : LawfulVebTree T K V) : AllReachable T L.Safe (MeetsAll L.Safe) := fun ops t hs hr =>
  ⟨Meets.findAfterUpdate L ops t hs hr, Meets.trueExtremes L ops t hs hr, Meets.truePredecessor L ops t hs hr,
    Meets.trueSuccessor L ops t hs hr, Meets.insertReports L ops t hs hr, Meets.removeReports L ops t hs hr,
    Meets.popsExtremes L ops t hs hr, Meets.mutAccess L ops t hs hr, Meets.monadTruth L ops t hs hr⟩

theorem MeetsAll.mono {safe safe' : (K → Prop) → K → Prop} {M : Map K V} {t : T} (h : MeetsAll safe M t)
    (hs : ∀ P k, safe' P k → safe P k) : MeetsAll safe' M t :=
  { h with
    find := ⟨h.find.1, fun k v hk => h.find.2.1 k v (hs _ _ hk), h.find.2.2⟩
    insert := fun k v hk => h.insert k v (hs _ _ hk) }

/-- **C82, methods.** After every history, over every tree type, C18 – C24, C26 and C27 hold without a condition. -/
theorem C82_methods (h : FixedTree T K V) (ops : List (Op K V)) (t : T) (hr : Reaches ops t) :
    MeetsAll always (contents ops) t := by
  obtain ⟨L, A⟩ := h.lawful
  exact (meetsAll_of L ops t (safeHist_of_always A _ _) hr).mono fun P k _ => A P k

/-- **C82, panics.** No method of a tree left by any history panics. -/
theorem C82_no_panic (h : FixedTree T K V) (ops : List (Op K V)) (t : T) (hr : Reaches ops t) : AllReturn True t := by
  obtain ⟨L, A⟩ := h.lawful
  exact Meets.allReturn L (reach_inv L (safeHist_of_always A _ _) hr).1 fun k => A _ k

/-- **C82, iterators.** The tree answers what an iterator asks, so that C28 – C31 hold: every interleaving of `next` and
`next_back` yields what popping the entries at both ends yields, and `size_hint` is right. -/
theorem C82_iter (h : FixedTree T K V) (ops : List (Op K V)) (t : T) (hr : Reaches ops t)
    (hl : (entries ops).length ≤ usizeMax) (ss : List Side) :
    ∃ it, (Iter.new t).calls ss = .ok (it, (popAll (entries ops) ss).2) ∧
      ∃ lo hi, it.sizeHint = .ok (lo, hi) ∧ lo ≤ (popAll (entries ops) ss).1.length ∧
        ∀ n, hi = some n → (popAll (entries ops) ss).1.length ≤ n := by
  obtain ⟨L, A⟩ := h.lawful
  obtain ⟨I, e⟩ := reach_inv L (safeHist_of_always A _ _) hr
  have ha : Answers t (entries ops) := answers_of L I (e ▸ entries_lists ops)
  obtain ⟨it, h1⟩ := C29_double_ended ha hl ss
  exact ⟨it, h1, (C31_size_hint ha hl ss it _ h1).1⟩

/-- **C82, order.** Histories that should leave the same entries leave trees that cannot be told apart. -/
theorem C82_order (h : FixedTree T K V) (a b rest : List (Op K V)) (ta tb : T) (ra : Reaches a ta) (rb : Reaches b tb)
    (he : contents a = contents b) :
    ∃ ta' tb' os, Exec.run (some ta) rest = .ok (ta', os) ∧ Exec.run (some tb) rest = .ok (tb', os) := by
  obtain ⟨L, A⟩ := h.lawful
  obtain ⟨Ia, ea⟩ := reach_inv L (safeHist_of_always A _ _) ra
  obtain ⟨Ib, eb⟩ := reach_inv L (safeHist_of_always A _ _) rb
  have la : Rel (some ta) (entries a) := ⟨Ia, ea ▸ entries_lists a⟩
  have lb : Rel (some tb) (entries a) := ⟨Ib, eb.trans he.symm ▸ entries_lists a⟩
  obtain ⟨ta', h1, -⟩ := run_ok la rest (safeHist_of_always A _ _)
  obtain ⟨tb', h2, -⟩ := run_ok lb rest (safeHist_of_always A _ _)
  exact ⟨ta', tb', _, h1, h2⟩

/-- **C82, implementations.** All tree types with the same keys and values give the same answers in every history. -/
theorem C82_agree {T' : Type} [VebTree T' K V] (h : FixedTree T K V) (h' : FixedTree T' K V) (ops : List (Op K V)) :
    ∃ (t : Option T) (t' : Option T') (os : _), Exec.run none ops = .ok (t, os) ∧ Exec.run none ops = .ok (t', os) ∧
      (t = none ↔ t' = none) := by
  obtain ⟨t, h1, h2⟩ := C42_fixed h ops
  obtain ⟨t', h3, h4⟩ := C42_fixed h' ops
  exact ⟨t, t', _, h1, h3, h2.trans h4.symm⟩

/-- **C82, the counter.** With a counter all this holds as long as the number of entries fits `usize`; `len` and both bounds of
`size_hint` are exact. -/
theorem C82_sized (h : FixedTree T K V) (ops : List (Op K V)) (hfit : FitsUsize ops) (t : SizedVebTree T) (hr : Reaches ops t) :
    MeetsAll (sizedSafe always) (contents ops) t ∧ t.len = (entries ops).length ∧
    ∀ ss, ∃ it, (Iter.new t).calls ss = .ok (it, (popAll (entries ops) ss).2) ∧
      it.sizeHint = .ok ((popAll (entries ops) ss).1.length, some (popAll (entries ops) ss).1.length) := by
  obtain ⟨L, A⟩ := h.lawful
  have hs := Meets.sized_safe L A hfit
  obtain ⟨I, e⟩ := reach_inv (T := SizedVebTree T) inferInstance hs hr
  have ha : Answers t (entries ops) := answers_of inferInstance I (e ▸ entries_lists ops)
  have hsz : t.size = (entries ops).length := by
    rw [I.2]
    exact (e ▸ entries_lists ops : SL.Lists _ _).card
  have hl : (entries ops).length ≤ usizeMax := hfit ops (List.prefix_refl _)
  refine ⟨(meetsAll_of _ ops t hs hr).mono fun P k hk => ⟨A P k, hk.2⟩, hsz, fun ss => ?_⟩
  obtain ⟨it, h1⟩ := C29_double_ended ha hl ss
  exact ⟨it, h1, (C31_size_hint ha hl ss it _ h1).2 (by rw [← hsz]; rfl)⟩

/-! ## The history that breaks the code -/

/-- the predefined map over the repaired tree -/
theorem fixed16 (V : Type) : FixedTree (FMap16 (U 16) V) (U 16) V := .tree goodKey .byteSet .byteMap (.array goodIndex)

theorem fixedSet16 : FixedTree (FSet16 (U 16)) (U 16) Unit := .tree goodKey .byteSet .byteSet (.array goodIndex)

/-- C19 of the repaired set, after the history that refutes it of the code (C19_refuted) -/
example : ∃ t : FSet16 (U 16), Reaches bad t ∧ TrueExtremes (contents bad) t := by
  obtain ⟨t, h1, h2⟩ := C42_fixed fixedSet16 bad
  rcases t with _ | t
  · exact absurd (h2.1 rfl) (by decide +kernel)
  · exact ⟨t, ⟨_, h1⟩, (C82_methods fixedSet16 bad t ⟨_, h1⟩).extremes⟩
/-- the two histories that C32_refuted tells apart in the code -/
example (ta tb : FSet16 (U 16)) (ra : Reaches bad ta)
    (rb : Reaches [.insert (k16 5) (), .insert (k16 10) (), .insert (k16 20) ()] tb) (rest : List (Op (U 16) Unit)) :
    ∃ ta' tb' os, Exec.run (some ta) rest = .ok (ta', os) ∧ Exec.run (some tb) rest = .ok (tb', os) :=
  C82_order fixedSet16 _ _ rest ta tb ra rb (by rw [contents, contents, C32_refuted.1])
/-- the two types that C33_refuted tells apart in the code -/
example : outputs (FSet16 (U 16)) (bad ++ [.maxVal]) = outputs (BTreeMap (U 16) Unit) (bad ++ [.maxVal]) := by decide +kernel
example : FitsUsize bad := fun p hp => by
  have h : ∀ p ∈ bad.inits, (entries p).length ≤ 10 := by decide +kernel
  exact (h p (List.mem_inits _ _ |>.2 hp)).trans (by decide)
example (ops : List (Op (U 16) Nat)) (t : FMap16 (U 16) Nat) (hr : Reaches ops t) : TrueExtremes (contents ops) t :=
  (C82_methods (fixed16 Nat) ops t hr).extremes

end Veb.Props
