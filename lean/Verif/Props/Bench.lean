import Verif.Proof.Bench
import Verif.Props.NoPanic
import Verif.Props.Tree

/-!
# C60: the benchmark's two implementations

benches/random/main.rs compares a tree with a standard `BTreeMap` behind one trait.  `strict` is the ordered map whose
`next` and `prev` look for another key, `incl` the one where they stop at the key itself.
-/

set_option autoImplicit false

namespace Veb.Props
open Bench

variable {T K V : Type} [LinearOrder K] [VebTree T K V] [Inhabited V] {safe : (K → Prop) → K → Prop}

/-- **C60 as one would want it**: both sides of the benchmark return the same to every sequence of calls. -/
def C60_full (T K V : Type) [LinearOrder K] [VebTree T K V] [Inhabited V] : Prop :=
  ∀ cs : List (Call K V), (run (none : Option (SizedVebTree T)) cs).map Prod.snd =
    (run (⟨⟨[]⟩⟩ : BTreeSetWrapper K V) cs).map Prod.snd

/-- **C60, the tree's side**: with safe insertions it is an ordered map with strict neighbours.  (Missing: the other
insertions; they are false, see `C60_refuted_insert`.) -/
theorem C60_veb_partial (h : CrateTree T K V safe) (cs : List (Call K V))
    (hs : SafeCalls (sizedSafe safe) default [] cs) :
    ∃ t, run (none : Option (SizedVebTree T)) cs = .ok (t, (specRun (strict default) [] cs).2) ∧
      (t = none ↔ (specRun (strict default) ([] : SL K V) cs).1 = []) := by
  obtain ⟨L, rfl, M⟩ := h.lawful
  obtain ⟨t, e, r⟩ := veb_run (T := T) (t := none) (l := []) rel_none cs hs
  refine ⟨t, e, ?_⟩
  cases t with
  | none => exact ⟨fun _ => r, fun _ => rfl⟩
  | some t =>
    refine ⟨fun h => (by cases h), fun h => ?_⟩
    obtain ⟨k, hk⟩ := LawfulVebTree.nonempty t r.1
    rw [r.2.nil_iff.1 h] at hk
    exact absurd hk (Map.mem_empty k)

/-- **C60, the tree's side never panics**, whatever is inserted (up to `usize::MAX` insertions): the defect of `insert`
makes its answers wrong, but each call returns. -/
theorem C60_veb_returns (h : CrateTree T K V safe) (cs : List (Call K V)) (hn : inserts cs ≤ usizeMax) :
    ∃ r, run (none : Option (SizedVebTree T)) cs = .ok r := by
  obtain ⟨P⟩ := h.phys
  exact phys_calls (T := T) (n := 0) (t := none) trivial cs (by simpa using hn)

/-- **C60, the side of the standard map**: it is an ordered map with inclusive neighbours. -/
theorem C60_btree (cs : List (Call K V)) :
    ∃ s, run (⟨⟨[]⟩⟩ : BTreeSetWrapper K V) cs = .ok (s, (specRun (incl default) [] cs).2) ∧
      s.map.entries = (specRun (incl default) [] cs).1 := by
  obtain ⟨s, e, r⟩ := btree_run (K := K) (V := V) (s := ⟨⟨[]⟩⟩) (l := []) ⟨rfl, List.Pairwise.nil⟩ cs
  exact ⟨s, e, r.1⟩

/-- **C60, partial**: the two sides return the same if the insertions are safe and `next` and `prev` are never asked about
a key that is stored.  (Missing: both conditions are needed, see `C60_refuted_next` and `C60_refuted_insert`.) -/
theorem C60_alike_partial (h : CrateTree T K V safe) (cs : List (Call K V))
    (hs : SafeCalls (sizedSafe safe) default [] cs) (ha : AsksElsewhere default [] cs) :
    (run (none : Option (SizedVebTree T)) cs).map Prod.snd =
      (run (⟨⟨[]⟩⟩ : BTreeSetWrapper K V) cs).map Prod.snd := by
  obtain ⟨t, e, -⟩ := C60_veb_partial h cs hs
  obtain ⟨s, e', -⟩ := C60_btree cs
  rw [e, e', spec_alike default cs ha]; rfl

/-- **C60, where `next` and `prev` differ**: exactly at stored keys. -/
theorem C60_differ {l : SL K V} (hl : SL.Sorted l) (x : K) :
    (from_ l x ≠ SL.succ l x ↔ SL.keys l x) ∧ (upTo l x ≠ SL.pred l x ↔ SL.keys l x) ∧
    (∀ v, (x, v) ∈ l → from_ l x = some (x, v) ∧ upTo l x = some (x, v)) := by
  have key : ∀ v, (x, v) ∈ l → from_ l x = some (x, v) ∧ upTo l x = some (x, v) := fun v hv => by
    constructor
    · rcases he : from_ l x with _ | e
      · have := List.filter_eq_nil_iff.1 (List.head?_eq_none_iff.1 he) _ hv
        simp at this
      · have h1 := List.mem_of_head? he
        have h2 := SL.sorted_head (hl.filter) he (x, v) (List.mem_filter.2 ⟨hv, by simp⟩)
        have h3 : x ≤ e.1 := by simpa using (List.mem_filter.1 h1).2
        rw [hl.inj (List.mem_filter.1 h1).1 hv (le_antisymm h2 h3)]
    · rcases he : upTo l x with _ | e
      · have := List.filter_eq_nil_iff.1 (List.getLast?_eq_none_iff.1 he) _ hv
        simp at this
      · have h1 := List.mem_of_getLast? he
        have h2 := SL.sorted_getLast (hl.filter) he (x, v) (List.mem_filter.2 ⟨hv, by simp⟩)
        have h3 : e.1 ≤ x := by simpa using (List.mem_filter.1 h1).2
        rw [hl.inj (List.mem_filter.1 h1).1 hv (le_antisymm h3 h2)]
  refine ⟨⟨fun h => ?_, ?_⟩, ⟨fun h => ?_, ?_⟩, key⟩
  · by_contra hk; exact h (from_eq hk)
  · rintro ⟨v, hv⟩ e
    rw [(key v hv).1] at e
    have := List.mem_of_head? e.symm
    simpa using (List.mem_filter.1 this).2
  · by_contra hk; exact h (upTo_eq hk)
  · rintro ⟨v, hv⟩ e
    rw [(key v hv).2] at e
    have := List.mem_of_getLast? e.symm
    simpa using (List.mem_filter.1 this).2

/-- **C60, what the benchmark measures** is `is_some()`: the two sides differ in it only at the greatest key (`next`) and
at the least (`prev`). -/
theorem C60_is_some {l : SL K V} (hl : SL.Sorted l) (x : K) :
    ((from_ l x).isSome ≠ (SL.succ l x).isSome ↔ ∃ v, SL.maxE l = some (x, v)) ∧
    ((upTo l x).isSome ≠ (SL.pred l x).isSome ↔ ∃ v, SL.minE l = some (x, v)) := by
  have hL := SL.lists_toMap hl
  constructor
  · constructor
    · intro h
      have hk : SL.keys l x := by
        by_contra hk; exact h (by rw [from_eq hk])
      obtain ⟨v, hv⟩ := hk
      have h1 : (from_ l x).isSome = true := by rw [((C60_differ hl x).2.2 v hv).1]; rfl
      have h2 : SL.succ l x = none := by
        rcases he : SL.succ l x with _ | e
        · rfl
        · rw [he] at h; exact absurd h1 h
      refine ⟨v, hL.maxE.2 ⟨(hL.2 x v).1 hv, fun j hj => ?_⟩⟩
      have := hL.succ x
      rw [h2] at this
      exact not_lt.1 (this j hj)
    · rintro ⟨v, hv⟩
      obtain ⟨h1, h2⟩ := hL.maxE.1 hv
      rw [((C60_differ hl x).2.2 v ((hL.2 x v).2 h1)).1]
      have := hL.succ x
      rcases he : SL.succ l x with _ | ⟨s, u⟩
      · simp
      · rw [he] at this
        exact absurd (h2 s (Map.mem_of this.1)) (not_le.2 this.2.1)
  · constructor
    · intro h
      have hk : SL.keys l x := by
        by_contra hk; exact h (by rw [upTo_eq hk])
      obtain ⟨v, hv⟩ := hk
      have h1 : (upTo l x).isSome = true := by rw [((C60_differ hl x).2.2 v hv).2]; rfl
      have h2 : SL.pred l x = none := by
        rcases he : SL.pred l x with _ | e
        · rfl
        · rw [he] at h; exact absurd h1 h
      refine ⟨v, hL.minE.2 ⟨(hL.2 x v).1 hv, fun j hj => ?_⟩⟩
      have := hL.pred x
      rw [h2] at this
      exact not_lt.1 (this j hj)
    · rintro ⟨v, hv⟩
      obtain ⟨h1, h2⟩ := hL.minE.1 hv
      rw [((C60_differ hl x).2.2 v ((hL.2 x v).2 h1)).2]
      have := hL.pred x
      rcases he : SL.pred l x with _ | ⟨s, u⟩
      · simp
      · rw [he] at this
        exact absurd (h2 s (Map.mem_of this.1)) (not_le.2 this.2.1)

/-- **C60, the makers**: with the same tosses both make the same entries; from there each side answers as specified. -/
theorem C60_makers (h : CrateTree T K V safe) (key : Nat → K) (coin : Nat → Bool) (bits : Nat)
    (hk : ∀ x y, x < y → y < 2 ^ bits → key x < key y) (hb : 2 ^ bits ≤ usizeMax) :
    (∃ t, maker key coin bits (none : Option (SizedVebTree T)) = .ok t ∧
      (t = none ↔ made key coin bits (default : V) = []) ∧
      ∀ cs, SafeCalls (sizedSafe safe) default (made key coin bits default) cs →
        ∃ t', run t cs = .ok (t', (specRun (strict default) (made key coin bits default) cs).2)) ∧
    (∃ s, maker key coin bits (⟨⟨[]⟩⟩ : BTreeSetWrapper K V) = .ok s ∧
      s.map.entries = made key coin bits default ∧
      ∀ cs, ∃ s', run s cs = .ok (s', (specRun (incl default) (made key coin bits default) cs).2)) := by
  obtain ⟨L, rfl, M⟩ := h.lawful
  have hm : made key coin bits (default : V) =
      (((List.range (2 ^ bits)).filter coin).map key).map fun k => (k, default) := by
    rw [List.map_map]; rfl
  have hc : (((List.range (2 ^ bits)).filter coin).map fun x => (Call.insert (key x) : Call K V)) =
      (((List.range (2 ^ bits)).filter coin).map key).map .insert := by
    rw [List.map_map]; rfl
  have hs : SL.Sorted (([] : SL K V) ++ made key coin bits default) := by
    refine List.pairwise_map.2 (List.Pairwise.imp_of_mem ?_ (List.Pairwise.filter coin List.pairwise_lt_range))
    intro a b _ hb hab
    exact hk a b hab (List.mem_range.1 (List.mem_of_mem_filter hb))
  have hl : (([] : SL K V) ++ made key coin bits default).length ≤ usizeMax := by
    refine le_trans ?_ hb
    simpa [made] using List.length_filter_le coin (List.range (2 ^ bits))
  have e1 : (specRun (strict default) ([] : SL K V) (((List.range (2 ^ bits)).filter coin).map fun x => .insert (key x))).1 =
      made key coin bits default := by
    rw [hc, hm]; exact specRun_ascending _ _ _ _ [] (by rw [← hm]; exact hs)
  have e2 : (specRun (incl default) ([] : SL K V) (((List.range (2 ^ bits)).filter coin).map fun x => .insert (key x))).1 =
      made key coin bits default := by
    rw [hc, hm]; exact specRun_ascending _ _ _ _ [] (by rw [← hm]; exact hs)
  constructor
  · obtain ⟨t, e, r⟩ := veb_run (T := T) (t := none) (l := []) rel_none
      (((List.range (2 ^ bits)).filter coin).map fun x => .insert (key x)) (by
        rw [hc]; exact safe_ascending _ _ [] (by rw [← hm]; exact hs) (by rw [← hm]; exact hl))
    rw [e1] at r
    refine ⟨t, by rw [maker_eq, e]; rfl, ?_, fun cs hs => ?_⟩
    · cases t with
      | none => exact ⟨fun _ => r, fun _ => rfl⟩
      | some t =>
        refine ⟨fun h => (by cases h), fun h => ?_⟩
        obtain ⟨k, hk⟩ := LawfulVebTree.nonempty t r.1
        rw [r.2.nil_iff.1 h] at hk
        exact absurd hk (Map.mem_empty k)
    · obtain ⟨t', e', -⟩ := veb_run r cs hs
      exact ⟨t', e'⟩
  · obtain ⟨s, e, r⟩ := btree_run (K := K) (V := V) (s := ⟨⟨[]⟩⟩) (l := []) ⟨rfl, List.Pairwise.nil⟩
      (((List.range (2 ^ bits)).filter coin).map fun x => .insert (key x))
    rw [e2] at r
    refine ⟨s, by rw [maker_eq, e]; rfl, r.1, fun cs => ?_⟩
    obtain ⟨s', e', -⟩ := btree_run r cs
    exact ⟨s', e'⟩

/-- `U32TreeSet` and `U32TreeMap`, benches/random/main.rs:14-15 -/
abbrev U32TreeSet := SizedVebTree (Set32 (U 32))
abbrev U32TreeMap (V : Type) := SizedVebTree (Map32 (U 32) V)

theorem lit_lt {x y : Nat} (h : x < y) (hy : y < 2 ^ 32) : (U.lit x : U 32) < U.lit y := by
  show BitVec.toNat _ < BitVec.toNat _
  rw [U.lit, U.lit, BitVec.toNat_ofNat, BitVec.toNat_ofNat, Nat.mod_eq_of_lt hy, Nat.mod_eq_of_lt (h.trans hy)]
  exact h

/-- **C60, the benchmark**: every width up to 32 bits (it runs 4 to 30), every sequence of tosses, every sequence of
measured calls except insertions.  The tree's side answers as the ordered map with strict neighbours, the standard map as
the one with inclusive neighbours. -/
theorem C60_benchmark_partial (coin : Nat → Bool) (bits : Nat) (hb : bits ≤ 32) (cs : List (Call (U 32) Unit))
    (hc : ∀ c ∈ cs, ∀ x, c ≠ .insert x) :
    (∃ t t', maker U.lit coin bits (none : Option U32TreeSet) = .ok t ∧
      run t cs = .ok (t', (specRun (strict ()) (made U.lit coin bits ()) cs).2)) ∧
    (∃ s s', maker U.lit coin bits (⟨⟨[]⟩⟩ : BTreeSetWrapper (U 32) Unit) = .ok s ∧
      run s cs = .ok (s', (specRun (incl ()) (made U.lit coin bits ()) cs).2)) := by
  have h32 : (2 : Nat) ^ bits ≤ 2 ^ 32 := Nat.pow_le_pow_right (by decide) hb
  obtain ⟨⟨t, e1, -, h1⟩, ⟨s, e2, -, h2⟩⟩ := C60_makers (crate32 Unit).1.1 U.lit coin bits
    (fun x y hxy hy => lit_lt hxy (lt_of_lt_of_le hy h32)) (h32.trans (by decide))
  obtain ⟨t', e1'⟩ := h1 cs (by
    generalize made U.lit coin bits (default : Unit) = l
    clear h1 h2 e1 e2
    induction cs generalizing l with
    | nil => trivial
    | cons c cs ih =>
      exact ⟨fun x hx => absurd hx (hc c List.mem_cons_self x), ih (fun c h => hc c (List.mem_cons_of_mem _ h)) _⟩)
  obtain ⟨s', e2'⟩ := h2 cs
  exact ⟨⟨t, t', e1, e1'⟩, ⟨s, s', e2, e2'⟩⟩

/-- **C60 refuted by `next`**: one stored key is enough, on every tree type. -/
theorem C60_refuted_next (h : CrateTree T K V safe) (x : K) : ¬ C60_full T K V := fun hf => by
  have := hf [.insert x, .next x]
  obtain ⟨t, e, -⟩ := C60_veb_partial h [.insert x, .next x] ⟨fun _ _ => .inl rfl, fun y hy => (by cases hy), trivial⟩
  obtain ⟨s, e', -⟩ := C60_btree (K := K) (V := V) [.insert x, .next x]
  rw [e, e'] at this
  simp [Except.map, specRun, strict, incl, specWith, SL.insert, SL.succ, from_] at this

/-- **C60 refuted by `insert`**: heads for 1, 2 and 3, then an insertion of 0, as the benchmark `insert-veb` may sample
it.  Afterwards the tree takes 1 for the greatest key; the standard map is right. -/
theorem C60_refuted_insert :
    ((maker U.lit (fun x => decide (1 ≤ x ∧ x ≤ 3)) 4 (none : Option U32TreeSet)) >>= fun t =>
      run t [.insert (U.lit 0), .len, .prev (U.lit 5)]).map Prod.snd = .ok [.val none, .num 4, .entry (some (U.lit 1, ()))] ∧
    ((maker U.lit (fun x => decide (1 ≤ x ∧ x ≤ 3)) 4 (⟨⟨[]⟩⟩ : BTreeSetWrapper (U 32) Unit)) >>= fun s =>
      run s [.insert (U.lit 0), .len, .prev (U.lit 5)]).map Prod.snd =
        .ok [.val none, .num 4, .entry (some (U.lit 3, ()))] := by
  constructor <;> decide +kernel

/-! Non-vacuity. -/

/-- a sequence of calls that meets both conditions -/
def fair : List (Call (U 16) Nat) :=
  [.insert (U.lit 3), .insert (U.lit 700), .insert (U.lit 5), .len, .next (U.lit 4), .prev (U.lit 699),
   .nextMut (U.lit 6) (some 9), .find (U.lit 700), .findMut (U.lit 3) none, .remove (U.lit 5), .find (U.lit 5)]

theorem fair_safe : SafeCalls (sizedSafe (safe16 (K := U 16))) 0 [] fair := by
  have h : SL.SafeHist (safe16 (K := U 16)) []
      [.insert (U.lit 3) 0, .insert (U.lit 700) 0, .insert (U.lit 5) (0 : Nat)] :=
    (notBelowMin_iff SL.sorted_nil _).1 (by decide +kernel)
  have c : ∀ l : SL (U 16) Nat, SL.Sorted l → l.length < usizeMax → Set.ncard {j | SL.keys l j} < usizeMax := by
    intro l hl hn
    have hL := SL.lists_toMap hl
    rw [hL.keys]
    exact (show Map.card _ < _ by rw [hL.card]; exact hn)
  refine ⟨?_, ?_, ?_, ?_⟩
  · intro x _; exact .inl rfl
  · rintro x ⟨⟩
    refine .inr ⟨(h.2.1.resolve_left (by decide +kernel)), .inr (c _ (by unfold SL.Sorted; decide +kernel) (by decide +kernel))⟩
  · rintro x ⟨⟩
    refine .inr ⟨(h.2.2.1.resolve_left (by decide +kernel)), .inr (c _ (by unfold SL.Sorted; decide +kernel) (by decide +kernel))⟩
  · simp [SafeCalls]

theorem fair_elsewhere : AsksElsewhere 0 [] fair := by
  simp only [fair, AsksElsewhere, SL.keys]
  refine ⟨?_, ?_, ?_, ?_, ?_, ?_, ?_, ?_, ?_, ?_, ?_, trivial⟩ <;>
    (rintro x w (h | h | h | h) <;> cases h <;> rintro ⟨v, hv⟩ <;>
      exact absurd (List.mem_map_of_mem (f := Prod.fst) hv) (by dsimp only; decide +kernel))

example : (run (none : Option (SizedVebTree (Map16 (U 16) Nat))) fair).map Prod.snd =
    (run (⟨⟨[]⟩⟩ : BTreeSetWrapper (U 16) Nat) fair).map Prod.snd :=
  C60_alike_partial (crate16 Nat).1.2 fair fair_safe fair_elsewhere

example : (run (none : Option (SizedVebTree (Map16 (U 16) Nat))) fair).map Prod.snd =
    .ok [.val none, .val none, .val none, .num 3, .entry (some (U.lit 5, 0)), .entry (some (U.lit 5, 0)),
      .entry (some (U.lit 700, 0)), .val (some 9), .val (some 0), .val (some 0), .val none] := by decide +kernel

/-- the two sides differ, on the benchmark's own types -/
example : ¬ C60_full (Set32 (U 32)) (U 32) Unit := C60_refuted_next (crate32 Unit).1.1 (U.lit 7)

/-- the makers make something -/
example : made (V := Unit) (U.lit : Nat → U 32) (fun x => x % 2 == 1) 4 () =
    [1, 3, 5, 7, 9, 11, 13, 15].map fun x => (U.lit x, ()) := by decide +kernel

/-- `next(15)` with 15 the greatest key: the tree's side says no, the standard map's yes -/
example : ∃ (t t' : Option U32TreeSet) (s s' : BTreeSetWrapper (U 32) Unit),
    (maker U.lit (fun x => x % 2 == 1) 4 none = .ok t ∧ run t [.next (U.lit 15)] = .ok (t', [.entry none])) ∧
    (maker U.lit (fun x => x % 2 == 1) 4 ⟨⟨[]⟩⟩ = .ok s ∧
      run s [.next (U.lit 15)] = .ok (s', [.entry (some (U.lit 15, ()))])) := by
  obtain ⟨⟨t, t', h⟩, ⟨s, s', h'⟩⟩ :=
    C60_benchmark_partial (fun x => x % 2 == 1) 4 (by decide) [.next (U.lit 15)] (by simp)
  refine ⟨t, t', s, s', ⟨h.1, h.2.trans ?_⟩, ⟨h'.1, h'.2.trans ?_⟩⟩
  · congr 2
  · congr 2

end Veb.Props
