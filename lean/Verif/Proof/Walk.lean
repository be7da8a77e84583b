import Verif.SpecWalk
import Verif.Proof.Order
import Verif.Props.Flat

/-! Helper lemmas for C98: the forward iterator after insertions in any order. -/

set_option autoImplicit false

namespace Veb
open VebTree

section
variable {T K V : Type} [LinearOrder K] [VebTree T K V]

/-- `successor` from `k` on gives the entries `cs` and then nothing -/
def Walk (t : T) : K → List (K × V) → Prop
  | k, [] => VebTree.successor t k = .ok none
  | k, c :: cs => VebTree.successor t k = .ok (some c) ∧ Walk t c.1 cs

omit [LinearOrder K] [VebTree T K V] in
theorem firstItems_succ {α : Type} (l : List α) (n : Nat) : firstItems l (n + 1) = l[0]? :: firstItems l.tail n := by
  simp [firstItems, List.range_succ_eq_map]

theorem walk_stopped (t : T) (n e : Nat) : (⟨t, none, e⟩ : Iter T K).calls (List.replicate n .front) =
    .ok (⟨t, none, e⟩, firstItems ([] : List (K × V)) n) := by
  induction n with
  | zero => rfl
  | succ n ih =>
    simp only [List.replicate_succ, Iter.calls, Iter.call, Iter.next, Iter.stop, R.ok_bind, R.pure_eq, ih,
      firstItems_succ]
    rfl

theorem walk_calls {t : T} (n : Nat) {k : K} {cs : List (K × V)} {e : Nat} (h : Walk t k cs)
    (he : e + cs.length ≤ usizeMax) : ∃ it, (⟨t, some (.front k), e⟩ : Iter T K).calls (List.replicate n .front) =
      .ok (it, firstItems cs n) := by
  induction n generalizing k cs e with
  | zero => exact ⟨_, rfl⟩
  | succ n ih =>
    obtain _ | ⟨c, cs⟩ := cs
    · have h : VebTree.successor t k = .ok none := h
      refine ⟨⟨t, none, e⟩, ?_⟩
      simp only [List.replicate_succ, Iter.calls, Iter.call, Iter.next, h, Iter.stop, R.ok_bind, R.pure_eq,
        walk_stopped, firstItems_succ]
      rfl
    · obtain ⟨h1, h2⟩ := h
      have he' : e + 1 + cs.length ≤ usizeMax := by simp only [List.length_cons] at he; omega
      obtain ⟨it, h3⟩ := ih h2 he'
      have ha : addUsize e 1 = .ok (e + 1) := by simp [addUsize, show e + 1 ≤ usizeMax by omega]
      refine ⟨it, ?_⟩
      simp only [List.replicate_succ, Iter.calls, Iter.call, Iter.next, h1, Iter.emit, ha, R.ok_bind, R.pure_eq, h3,
        firstItems_succ]
      rfl

theorem walk_new {t : T} (n : Nat) {a : K × V} {cs : List (K × V)} (h0 : VebTree.minVal t = .ok a) (h : Walk t a.1 cs)
    (he : 1 + cs.length ≤ usizeMax) : ∃ it, (Iter.new (K := K) t).calls (List.replicate n .front) =
      .ok (it, firstItems (a :: cs) n) := by
  obtain _ | n := n
  · exact ⟨_, rfl⟩
  · obtain ⟨it, h3⟩ := walk_calls n h he
    have ha : addUsize 0 1 = .ok 1 := rfl
    refine ⟨it, ?_⟩
    simp only [List.replicate_succ, Iter.calls, Iter.call, Iter.next, Iter.new, h0, Iter.emit, ha, R.ok_bind, R.pure_eq,
      h3, firstItems_succ]
    rfl

end

section
variable {K V : Type} [LinearOrder K]

theorem upTo_length (m : K × V) (l : List (K × V)) : (upTo m l).length ≤ l.length + 1 := by
  induction l with
  | nil => rfl
  | cons x l ih =>
    simp only [upTo]
    split
    · simp only [List.length_cons]; omega
    · simp

theorem upTo_all {m : K × V} {l : List (K × V)} (h : ∀ x ∈ l, x.1 < m.1) : upTo m l = l ++ [m] := by
  induction l with
  | nil => rfl
  | cons x l ih =>
    rw [upTo, if_pos (h x (by simp)), ih fun y hy => h y (by simp [hy])]
    rfl

theorem upTo_lost {m z : K × V} {l : List (K × V)} (hz : z ∈ l) (hmz : m.1 < z.1) (h : ∀ x ∈ l, x.1 ≠ m.1) :
    m ∉ upTo m l := by
  induction l with
  | nil => cases hz
  | cons x l ih =>
    have hx := h x (by simp)
    rw [upTo]
    split
    · rename_i hlt
      have hz' : z ∈ l := by
        rcases List.mem_cons.1 hz with rfl | hz
        · exact absurd hlt (not_lt.2 hmz.le)
        · exact hz
      intro hm
      rcases List.mem_cons.1 hm with rfl | hm
      · exact hx rfl
      · exact ih hz' (fun y hy => h y (by simp [hy])) hm
    · intro hm
      rw [List.mem_singleton.1 hm] at hx
      exact hx rfl

/-- the machine walks along its inner entries -/
theorem flat_walk {a m : K × V} {l1 l2 : SL K V} (hs : SL.Sorted (l1 ++ l2)) (ha : ∀ x ∈ l1 ++ l2, a.1 < x.1)
    {k : K} (hk : a.1 ≤ k) (hkm : k < m.1) (h1 : ∀ x ∈ l1, x.1 ≤ k) (h2 : ∀ x ∈ l2, k < x.1)
    (hm : ∀ x ∈ l1 ++ l2, x.1 ≠ m.1) : Walk (⟨a, some (m, l1 ++ l2)⟩ : Flat K V) k (upTo m l2) := by
  have hstop : ∀ j, m.1 ≤ j → VebTree.successor (⟨a, some (m, l1 ++ l2)⟩ : Flat K V) j = .ok none := by
    intro j hj
    have : ¬ j < a.1 := not_lt.2 ((hk.trans hkm.le).trans hj)
    simp [VebTree.successor, Flat.after, this, hj]
  have hstep : VebTree.successor (⟨a, some (m, l1 ++ l2)⟩ : Flat K V) k = .ok (some (l2.head?.getD m)) := by
    have hf : (l1 ++ l2).filter (fun p => decide (k < p.1)) = l2 := by
      rw [List.filter_append, List.filter_eq_nil_iff.2 (fun p hp => by simpa using h1 p hp),
        List.filter_eq_self.2 (fun p hp => by simpa using h2 p hp)]
      rfl
    have he : (if k = a.1 then SL.minE (l1 ++ l2) else SL.succ (l1 ++ l2) k) = l2.head? := by
      split
      · rename_i hka
        have : l1 = [] := by
          obtain _ | ⟨x, l1⟩ := l1
          · rfl
          · exact absurd (ha x (by simp)) (not_lt.2 (hka ▸ h1 x (by simp)))
        subst this
        rfl
      · rw [SL.succ, hf]
    simp only [VebTree.successor, Flat.after, if_neg (not_lt.2 hk), if_neg (not_le.2 hkm), he, Flat.inner]
    cases l2.head? <;> rfl
  induction l2 generalizing l1 k with
  | nil => exact ⟨hstep, hstop _ le_rfl⟩
  | cons x l2 ih =>
    simp only [upTo]
    split
    · rename_i hx
      have happ : l1 ++ x :: l2 = (l1 ++ [x]) ++ l2 := by simp
      refine ⟨hstep, ?_⟩
      obtain ⟨g1, g2, g3⟩ := List.pairwise_append.1 hs
      have hx2 := (List.pairwise_cons.1 g2).1
      have h1' : ∀ y ∈ l1 ++ [x], y.1 ≤ x.1 := by
        intro y hy
        rcases List.mem_append.1 hy with hy | hy
        · exact (g3 y hy x (by simp)).le
        · rw [List.mem_singleton.1 hy]
      have hkx := hk.trans (h2 x (by simp)).le
      rw [happ] at hs ha hm hstop ⊢
      refine ih hs ha hkx hx h1' hx2 hm hstop ?_
      have hf : ((l1 ++ [x]) ++ l2).filter (fun p => decide (x.1 < p.1)) = l2 := by
        rw [List.filter_append, List.filter_eq_nil_iff.2 (fun p hp => by simpa using h1' p hp),
          List.filter_eq_self.2 (fun p hp => by simpa using hx2 p hp)]
        rfl
      have hne : x.1 ≠ a.1 := (ha x (by simp)).ne'
      simp only [VebTree.successor, Flat.after, if_neg (not_lt.2 hkx), if_neg (not_le.2 hx), if_neg hne, SL.succ, hf,
        Flat.inner]
      cases l2.head? <;> rfl
    · rename_i hx
      exact ⟨hstep, hstop _ (not_lt.1 hx)⟩

theorem mem_sl_insert {l : SL K V} {e x : K × V} (h : ∀ y ∈ l, y.1 ≠ e.1) : x ∈ SL.insert l e.1 e.2 ↔ x = e ∨ x ∈ l := by
  simp only [SL.insert, List.mem_append, List.mem_filter, List.mem_cons, decide_eq_true_eq]
  constructor
  · rintro (⟨h1, -⟩ | h1 | ⟨h1, -⟩)
    · exact .inr h1
    · exact .inl h1
    · exact .inr h1
  · rintro (h1 | h1)
    · exact .inr (.inl h1)
    · rcases lt_or_gt_of_ne (h x h1) with h2 | h2
      · exact .inl ⟨h1, h2⟩
      · exact .inr (.inr ⟨h1, h2⟩)

/-- what is known of the machine after insertions -/
def FlatInv (f : Flat K V) (es : List (K × V)) : Prop :=
  (f.rest = none ∧ es = [f.min]) ∨ ∃ m l, f.rest = some (m, l) ∧ f.min.1 < m.1 ∧
    (∀ x ∈ l, f.min.1 < x.1 ∧ x.1 ≠ m.1) ∧ ∀ e, e ∈ es ↔ e = f.min ∨ e = m ∨ e ∈ l

theorem flat_inv {es : List (K × V)} (hne : es ≠ []) (hd : DistinctKeys es) {f : Flat K V}
    (hr : Reaches (inserting es) f) : FlatInv f es := by
  induction es using List.reverseRecOn generalizing f with
  | nil => exact absurd rfl hne
  | append_singleton es e ih =>
    by_cases hne' : es = []
    · subst hne'
      rw [reaches_single (a := e) hr]
      exact .inl ⟨rfl, rfl⟩
    · obtain ⟨u, o, h1, h2⟩ := inserting_snoc hne' hr
      obtain ⟨hd1, -, hd2⟩ := List.pairwise_append.1 hd
      have hde : ∀ x ∈ es, x.1 ≠ e.1 := fun x hx => hd2 x hx e (by simp)
      have h2 : (u.insert e.1 e.2) = (f, o) := Except.ok.inj h2
      obtain ⟨h3, h4⟩ | ⟨m, l, h3, h4, h5, h6⟩ := ih hne' hd1 h1
      · obtain ⟨mn, _ | r⟩ := u
        · subst h4
          have hme : mn.1 ≠ e.1 := hde mn (by simp)
          simp only [Flat.insert, if_neg hme.symm] at h2
          rcases lt_or_gt_of_ne hme with hx | hx
          · rw [if_neg (not_lt.2 hx.le)] at h2
            cases h2
            exact .inr ⟨_, _, rfl, hx, by simp, by simp⟩
          · rw [if_pos hx] at h2
            cases h2
            exact .inr ⟨_, _, rfl, hx, by simp, by simp [or_comm]⟩
        · cases h3
      · obtain ⟨mn, r⟩ := u
        simp only at h3 h4 h5 h6
        subst h3
        have hme : mn.1 ≠ e.1 := hde mn ((h6 mn).2 (.inl rfl))
        have hmx : m.1 ≠ e.1 := hde m ((h6 m).2 (.inr (.inl rfl)))
        have hl : ∀ x ∈ l, x.1 ≠ e.1 := fun x hx => hde x ((h6 x).2 (.inr (.inr hx)))
        have hlm : ∀ x ∈ l, x.1 ≠ m.1 := fun x hx => (h5 x hx).2
        simp only [Flat.insert, if_neg hme.symm, Flat.store] at h2
        rcases lt_or_gt_of_ne hme with hx | hx
        · rw [if_neg (not_lt.2 hx.le), if_neg hmx.symm] at h2
          rcases lt_or_gt_of_ne hmx with hy | hy
          · rw [if_pos hy] at h2
            cases h2
            refine .inr ⟨_, _, rfl, hx, ?_, ?_⟩
            · intro x hm
              rcases (mem_sl_insert hlm).1 hm with rfl | hm
              · exact ⟨h4, hmx⟩
              · exact ⟨(h5 x hm).1, hl x hm⟩
            · intro x
              simp only [List.mem_append, List.mem_singleton, h6, mem_sl_insert hlm]
              tauto
          · rw [if_neg (not_lt.2 hy.le)] at h2
            cases h2
            refine .inr ⟨_, _, rfl, h4, ?_, ?_⟩
            · intro x hm
              rcases (mem_sl_insert (e := e) hl).1 hm with rfl | hm
              · exact ⟨hx, hmx.symm⟩
              · exact h5 x hm
            · intro x
              simp only [List.mem_append, List.mem_singleton, h6, mem_sl_insert (e := e) hl]
              tauto
        · rw [if_pos hx, if_neg h4.ne', if_pos h4] at h2
          cases h2
          refine .inr ⟨_, _, rfl, hx, ?_, ?_⟩
          · intro x hm
            rcases (mem_sl_insert hlm).1 hm with rfl | hm
            · exact ⟨hx.trans h4, h4.ne'⟩
            · exact ⟨hx.trans (h5 x hm).1, (h5 x hm).1.ne'⟩
          · intro x
            simp only [List.mem_append, List.mem_singleton, h6, mem_sl_insert hlm]
            tauto

theorem mem_entries_inserting {l : List (K × V)} (hd : DistinctKeys l) (e : K × V) :
    e ∈ entries (inserting l) ↔ e ∈ l := by
  induction l using List.reverseRecOn generalizing e with
  | nil => simp [inserting, entries, SL.run]
  | append_singleton l x ih =>
    obtain ⟨hd1, -, hd2⟩ := List.pairwise_append.1 hd
    rw [show inserting (l ++ [x]) = inserting l ++ [.insert x.1 x.2] by simp [inserting], entries_snoc]
    show e ∈ SL.insert (entries (inserting l)) x.1 x.2 ↔ _
    have hh : ∀ y ∈ entries (inserting l), y.1 ≠ x.1 := fun y hy =>
      hd2 y ((ih hd1 y).1 hy) x (by simp)
    rw [mem_sl_insert hh, ih hd1 e, List.mem_append, List.mem_singleton, or_comm]

/-- the inner entries, from the entries stored -/
theorem flat_others {es : List (K × V)} (hd : DistinctKeys es) {a m : K × V} {l : SL K V} (hs : SL.Sorted l)
    (hl : ∀ x ∈ l, a.1 < x.1 ∧ x.1 ≠ m.1) (hm : ∀ e, e ∈ es ↔ e = a ∨ e = m ∨ e ∈ l) :
    others a m (entries (inserting es)) = l := by
  have h1 : SL.Sorted (others a m (entries (inserting es))) := (entries_lists (inserting es)).1.filter
  refine SL.Lists.unique (SL.lists_toMap h1) ⟨hs, fun k v => ?_⟩
  rw [← (SL.lists_toMap h1).2 k v]
  simp only [others, List.mem_filter, mem_entries_inserting hd, hm, decide_eq_true_eq]
  constructor
  · intro h
    exact ⟨.inr (.inr h), (hl _ h).1.ne', (hl _ h).2⟩
  · rintro ⟨rfl | rfl | h, h2, h3⟩
    · exact absurd rfl h2
    · exact absurd rfl h3
    · exact h

/-- what the forward iterator over the machine gives after insertions -/
theorem flat_items {es : List (K × V)} (hd : DistinctKeys es) (h2 : 2 ≤ es.length) (hn : es.length ≤ usizeMax)
    {f : Flat K V} (hr : Reaches (inserting es) f) (n : Nat) : ∃ a m, VebTree.minVal f = .ok a ∧ VebTree.maxVal f = .ok m ∧
      ∃ it, (Iter.new (K := K) f).calls (List.replicate n .front) =
        .ok (it, firstItems (a :: upTo m (others a m (entries (inserting es)))) n) := by
  have hs := Props.C55_inside_sorted _ f hr
  obtain ⟨-, h⟩ | ⟨m, l, h3, h4, h5, h6⟩ := flat_inv (by rintro rfl; simp at h2) hd hr
  · rw [h] at h2; simp at h2
  · obtain ⟨a, r⟩ := f
    simp only at h3 h4 h5 h6
    subst h3
    have hs : SL.Sorted l := hs
    refine ⟨a, m, rfl, rfl, ?_⟩
    rw [flat_others hd hs h5 h6]
    refine walk_new n rfl (flat_walk (l1 := []) hs (fun x hx => (h5 x hx).1) le_rfl h4 (by simp)
      (fun x hx => (h5 x hx).1) (fun x hx => (h5 x hx).2)) ?_
    have hlen : l.length + 2 ≤ es.length := by
      have hnd : (a :: m :: l).Nodup := by
        refine List.nodup_cons.2 ⟨?_, List.nodup_cons.2 ⟨fun h => (h5 m h).2 rfl, hs.imp fun h e => by
          rw [e] at h; exact lt_irrefl _ h⟩⟩
        rintro (_ | ⟨_, h⟩)
        · exact lt_irrefl _ h4
        · exact lt_irrefl _ (h5 a h).1
      exact (hnd.subperm (fun x hx => (h6 x).2 (by simpa using hx))).length_le
    have := upTo_length m l
    omega

/-- the backward iterator over the machine, when an entry is above its maximum -/
theorem flat_back {es : List (K × V)} (hd : DistinctKeys es) {f : Flat K V} (hr : Reaches (inserting es) f) {m z : K × V}
    (hm : VebTree.maxVal f = .ok m) (hz : z ∈ es) (hg : ∀ e ∈ es, e.1 ≤ z.1) (hmz : m.1 < z.1) (n : Nat)
    (hn : n ≤ usizeMax) : ∃ it, (Iter.new (K := K) f).calls (List.replicate n .back) =
      .ok (it, (List.range n).map fun i => some (alternating m z i)) := by
  have hs := Props.C55_inside_sorted _ f hr
  obtain ⟨a, r⟩ := f
  obtain ⟨h, h'⟩ | ⟨m', l, h3, h4, h5, h6⟩ := flat_inv (List.ne_nil_of_mem hz) hd hr
  · simp only at h h'
    subst h
    subst h'
    have hm : a = m := Except.ok.inj hm
    rw [List.mem_singleton.1 hz, hm] at hmz
    exact absurd hmz (lt_irrefl _)
  · simp only at h3 h4 h5 h6
    subst h3
    have hm' : m' = m := Except.ok.inj hm
    subst hm'
    have hs : SL.Sorted l := hs
    have ham : a.1 < z.1 := h4.trans hmz
    have hzl : z ∈ l := by
      rcases (h6 z).1 hz with rfl | rfl | h
      · exact absurd ham (lt_irrefl _)
      · exact absurd hmz (lt_irrefl _)
      · exact h
    have hmax : SL.maxE l = some z := (SL.lists_toMap hs).maxE.2
      ⟨(SL.lists_toMap hs).mem_iff.1 hzl, fun k hk => by
        obtain ⟨v, hv⟩ := (SL.lists_toMap hs).mem_key.1 hk
        exact hg _ ((h6 _).2 (.inr (.inr hv)))⟩
    have p1 : VebTree.predecessor (⟨a, some (m', l)⟩ : Flat K V) m'.1 = .ok (some z) := by
      simp [VebTree.predecessor, Flat.before, not_le.2 h4, hmax, Flat.inner]
    have p2 : VebTree.predecessor (⟨a, some (m', l)⟩ : Flat K V) z.1 = .ok (some m') := by
      simp [VebTree.predecessor, Flat.before, not_le.2 ham, hmz]
    obtain _ | n := n
    · exact ⟨_, rfl⟩
    · obtain ⟨it, h⟩ := back_calls p1 p2 n 0 1 (by omega)
      refine ⟨it, ?_⟩
      rw [List.replicate_succ, List.range_succ_eq_map]
      have ha : addUsize 0 1 = .ok 1 := rfl
      have h : (⟨(⟨a, some (m', l)⟩ : Flat K V), some (.back m'.1), 1⟩ : Iter (Flat K V) K).calls
        (List.replicate n .back) = _ := h
      simp only [Iter.calls, Iter.call, Iter.nextBack, Iter.new, hm, Iter.emit, ha, R.ok_bind, R.pure_eq, h]
      simp [Function.comp_def, alternating, Nat.add_comm]

end

end Veb
