import Verif.SpecOrders
import Verif.Props.Walk

/-! Helper lemmas for C99: counting orders. -/

set_option autoImplicit false

namespace Veb

section
variable {α : Type}

theorem orders_congr {s : List α} {P Q : List α → Prop} (h : ∀ l, l.Perm s → (P l ↔ Q l)) : orders s P = orders s Q := by
  classical
  refine List.countP_congr fun l hl => ?_
  simp [h l (List.mem_permutations.1 hl)]

theorem orders_or {s : List α} {P Q : List α → Prop} (h : ∀ l, l.Perm s → P l → ¬ Q l) :
    orders s (fun l => P l ∨ Q l) = orders s P + orders s Q := by
  classical
  have key : ∀ L : List (List α), (∀ l ∈ L, P l → ¬ Q l) → L.countP (fun l => decide (P l ∨ Q l)) =
      L.countP (fun l => decide (P l)) + L.countP (fun l => decide (Q l)) := by
    intro L
    induction L with
    | nil => intro _; rfl
    | cons l L ih =>
      intro hL
      have h1 := ih fun x hx => hL x (by simp [hx])
      have h2 := hL l (by simp)
      simp only [List.countP_cons, h1]
      by_cases hp : P l <;> by_cases hq : Q l <;> simp_all <;> omega
  have := key s.permutations fun l hl => h l (List.mem_permutations.1 hl)
  simp only [orders]
  convert this using 2
  funext l
  exact decide_eq_decide.2 Iff.rfl

theorem orders_true {s : List α} {P : List α → Prop} (h : ∀ l, l.Perm s → P l) : orders s P = s.length.factorial := by
  classical
  rw [orders, List.countP_eq_length.2, List.length_permutations]
  intro l hl
  simpa using h l (List.mem_permutations.1 hl)

theorem orders_reverse {s : List α} (hs : s.Nodup) (P : List α → Prop) :
    orders s (fun l => P l.reverse) = orders s P := by
  classical
  have hp : (s.permutations.map List.reverse).Perm s.permutations := by
    refine (List.perm_ext_iff_of_nodup ((List.nodup_permutations s hs).map List.reverse_injective)
      (List.nodup_permutations s hs)).2 fun l => ?_
    simp only [List.mem_map, List.mem_permutations]
    constructor
    · rintro ⟨x, hx, rfl⟩
      exact (List.reverse_perm x).trans hx
    · intro hl
      exact ⟨l.reverse, (List.reverse_perm l).trans hl, List.reverse_reverse l⟩
  have h1 := hp.countP_eq fun l => decide (P l)
  rw [List.countP_map] at h1
  exact h1

theorem before_reverse {a z : α} {l : List α} : Before a z l.reverse ↔ Before z a l := by
  constructor
  · rintro ⟨p, m, q, h⟩
    refine ⟨q.reverse, m.reverse, p.reverse, ?_⟩
    have := congrArg List.reverse h
    simpa using this
  · rintro ⟨p, m, q, rfl⟩
    exact ⟨q.reverse, m.reverse, p.reverse, by simp⟩

theorem before_total {a z : α} {l : List α} (ha : a ∈ l) (hz : z ∈ l) (hne : a ≠ z) : Before a z l ∨ Before z a l := by
  obtain ⟨p, q, rfl⟩ := List.append_of_mem ha
  rcases List.mem_append.1 hz with h | h
  · obtain ⟨x, y, rfl⟩ := List.append_of_mem h
    exact .inr ⟨x, y, q, by simp⟩
  · rcases List.mem_cons.1 h with h | h
    · exact absurd h.symm hne
    · obtain ⟨x, y, rfl⟩ := List.append_of_mem h
      exact .inl ⟨p, x, y, rfl⟩

theorem before_idx [DecidableEq α] {a z : α} {l : List α} (hl : l.Nodup) (h : Before a z l) : l.idxOf a < l.idxOf z := by
  obtain ⟨p, m, q, rfl⟩ := h
  have hnd := List.nodup_append.1 hl
  have ha : a ∉ p := fun h => hnd.2.2 a h a (by simp) rfl
  have hz : z ∉ p := fun h => hnd.2.2 z h z (by simp) rfl
  have haz : a ≠ z := fun h => (List.nodup_cons.1 hnd.2.1).1 (by simp [h])
  rw [List.idxOf_append_of_notMem ha, List.idxOf_append_of_notMem hz, List.idxOf_cons_self, List.idxOf_cons_ne _ haz]
  omega

theorem before_not {a z : α} {l : List α} (hl : l.Nodup) (h : Before a z l) : ¬ Before z a l := by
  classical
  intro h'
  exact absurd (before_idx hl h) (before_idx hl h').asymm

theorem orders_before {s : List α} (hs : s.Nodup) {a z : α} (ha : a ∈ s) (hz : z ∈ s) (hne : a ≠ z) :
    2 * orders s (Before a z) = s.length.factorial := by
  have h1 : orders s (Before z a) = orders s (Before a z) := by
    rw [← orders_reverse hs (Before a z)]
    exact orders_congr fun l _ => before_reverse.symm
  have h2 : orders s (fun l => Before a z l ∨ Before z a l) = s.length.factorial :=
    orders_true fun l hl => before_total (hl.mem_iff.2 ha) (hl.mem_iff.2 hz) hne
  have h3 : orders s (fun l => Before a z l ∨ Before z a l) = orders s (Before a z) + orders s (Before z a) :=
    orders_or fun l hl h => before_not (hl.nodup_iff.2 hs) h
  rw [← h2, h3, h1, Nat.two_mul]

theorem orders_front {a z : α} {r : List α} (hs : (a :: z :: r).Nodup) :
    orders (a :: z :: r) (fun l => ∃ q, l = z :: a :: q) = r.length.factorial := by
  classical
  have hr : r.Nodup := (List.nodup_cons.1 (List.nodup_cons.1 hs).2).2
  have hp : ((a :: z :: r).permutations.filter fun l => decide (∃ q, l = z :: a :: q)).Perm
      (r.permutations.map fun q => z :: a :: q) := by
    refine (List.perm_ext_iff_of_nodup ((List.nodup_permutations _ hs).filter _)
      ((List.nodup_permutations r hr).map fun x y h => by simpa using h)).2 fun l => ?_
    simp only [List.mem_filter, List.mem_permutations, List.mem_map, decide_eq_true_eq]
    constructor
    · rintro ⟨h, q, rfl⟩
      exact ⟨q, ((h.trans (List.Perm.swap z a r)).cons_inv).cons_inv, rfl⟩
    · rintro ⟨q, hq, rfl⟩
      exact ⟨((hq.cons a).cons z).trans (List.Perm.swap a z r), q, rfl⟩
  have := hp.length_eq
  rw [List.length_map, List.length_permutations] at this
  rw [orders, List.countP_eq_length_filter]
  convert this using 3

end

section
variable {K V : Type} [LinearOrder K]

theorem firstItems_inj {α : Type} {l l' : List α} (h : ∀ n, firstItems l n = firstItems l' n) : l = l' := by
  refine List.ext_getElem? fun i => ?_
  have h1 := congrArg (fun x => x[i]?) (h (i + 1))
  simpa [firstItems] using h1

/-- the least entry, those between and the greatest are all entries -/
theorem entries_ends {l : List (K × V)} (hd : DistinctKeys l) {a z : K × V} (ha : a ∈ l) (hz : z ∈ l)
    (hla : ∀ x ∈ l, x = a ∨ a.1 < x.1) (hlz : ∀ x ∈ l, x = z ∨ x.1 < z.1) (haz : a.1 < z.1) :
    a :: (others a z (entries (inserting l)) ++ [z]) = entries (inserting l) := by
  have h1 : SL.Sorted (others a z (entries (inserting l))) := (entries_lists (inserting l)).1.filter
  have hm : ∀ x, x ∈ others a z (entries (inserting l)) ↔ x ∈ l ∧ x.1 ≠ a.1 ∧ x.1 ≠ z.1 := by
    intro x
    simp only [others, List.mem_filter, mem_entries_inserting hd, decide_eq_true_eq]
  have h2 : SL.Sorted (a :: (others a z (entries (inserting l)) ++ [z])) := by
    refine List.pairwise_cons.2 ⟨fun x hx => ?_, List.pairwise_append.2 ⟨h1, List.pairwise_singleton _ _, fun x hx y hy => ?_⟩⟩
    · rcases List.mem_append.1 hx with hx | hx
      · obtain ⟨h3, h4, -⟩ := (hm x).1 hx
        exact (hla x h3).resolve_left fun e => h4 (by rw [e])
      · rw [List.mem_singleton.1 hx]
        exact haz
    · obtain ⟨h3, -, h4⟩ := (hm x).1 hx
      rw [List.mem_singleton.1 hy]
      exact (hlz x h3).resolve_left fun e => h4 (by rw [e])
  refine SL.Lists.unique (SL.lists_toMap h2) ⟨(entries_lists (inserting l)).1, fun k v => ?_⟩
  rw [← (SL.lists_toMap h2).2 k v, mem_entries_inserting hd]
  simp only [List.mem_cons, List.mem_append, hm, List.not_mem_nil, or_false]
  constructor
  · intro hx
    by_cases h3 : (k, v) = a
    · exact .inl h3
    · by_cases h4 : (k, v) = z
      · exact .inr (.inr h4)
      · exact .inr (.inl ⟨hx, ((hla _ hx).resolve_left h3).ne', ((hlz _ hx).resolve_left h4).ne⟩)
  · rintro (e | ⟨hx, -⟩ | e)
    · rwa [e]
    · exact hx
    · rwa [e]

omit [LinearOrder K] in
theorem distinct_eq {l : List (K × V)} (hd : DistinctKeys l) {x y : K × V} (hx : x ∈ l) (hy : y ∈ l) (h : x.1 = y.1) :
    x = y := by
  by_contra hne
  rcases before_total hx hy hne with ⟨p, m, q, rfl⟩ | ⟨p, m, q, rfl⟩
  · exact (List.pairwise_cons.1 (List.pairwise_append.1 hd).2.1).1 y (by simp) h
  · exact (List.pairwise_cons.1 (List.pairwise_append.1 hd).2.1).1 x (by simp) h.symm

end

section
variable {T K V : Type} [LinearOrder K] [VebTree T K V]

/-- `predecessor` from `k` on gives the entries `cs` and then nothing -/
def WalkBack (t : T) : K → List (K × V) → Prop
  | k, [] => VebTree.predecessor t k = .ok none
  | k, c :: cs => VebTree.predecessor t k = .ok (some c) ∧ WalkBack t c.1 cs

theorem walkBack_stopped (t : T) (n e : Nat) : (⟨t, none, e⟩ : Iter T K).calls (List.replicate n .back) =
    .ok (⟨t, none, e⟩, firstItems ([] : List (K × V)) n) := by
  induction n with
  | zero => rfl
  | succ n ih =>
    simp only [List.replicate_succ, Iter.calls, Iter.call, Iter.nextBack, Iter.stop, R.ok_bind, R.pure_eq, ih,
      firstItems_succ]
    rfl

theorem walkBack_calls {t : T} (n : Nat) {k : K} {cs : List (K × V)} {e : Nat} (h : WalkBack t k cs)
    (he : e + cs.length ≤ usizeMax) : ∃ it, (⟨t, some (.back k), e⟩ : Iter T K).calls (List.replicate n .back) =
      .ok (it, firstItems cs n) := by
  induction n generalizing k cs e with
  | zero => exact ⟨_, rfl⟩
  | succ n ih =>
    obtain _ | ⟨c, cs⟩ := cs
    · have h : VebTree.predecessor t k = .ok none := h
      refine ⟨⟨t, none, e⟩, ?_⟩
      simp only [List.replicate_succ, Iter.calls, Iter.call, Iter.nextBack, h, Iter.stop, R.ok_bind, R.pure_eq,
        walkBack_stopped, firstItems_succ]
      rfl
    · obtain ⟨h1, h2⟩ := h
      have he' : e + 1 + cs.length ≤ usizeMax := by simp only [List.length_cons] at he; omega
      obtain ⟨it, h3⟩ := ih h2 he'
      have ha : addUsize e 1 = .ok (e + 1) := by simp [addUsize, show e + 1 ≤ usizeMax by omega]
      refine ⟨it, ?_⟩
      simp only [List.replicate_succ, Iter.calls, Iter.call, Iter.nextBack, h1, Iter.emit, ha, R.ok_bind, R.pure_eq, h3,
        firstItems_succ]
      rfl

theorem walkBack_new {t : T} (n : Nat) {m : K × V} {cs : List (K × V)} (h0 : VebTree.maxVal t = .ok m)
    (h : WalkBack t m.1 cs) (he : 1 + cs.length ≤ usizeMax) : ∃ it,
      (Iter.new (K := K) t).calls (List.replicate n .back) = .ok (it, firstItems (m :: cs) n) := by
  obtain _ | n := n
  · exact ⟨_, rfl⟩
  · obtain ⟨it, h3⟩ := walkBack_calls n h he
    have ha : addUsize 0 1 = .ok 1 := rfl
    refine ⟨it, ?_⟩
    simp only [List.replicate_succ, Iter.calls, Iter.call, Iter.nextBack, Iter.new, h0, Iter.emit, ha, R.ok_bind,
      R.pure_eq, h3, firstItems_succ]
    rfl

end

section
variable {K V : Type} [LinearOrder K]

theorem filter_below {l1 l2 : SL K V} {k : K} (h1 : ∀ x ∈ l1, x.1 < k) (h2 : ∀ x ∈ l2, k ≤ x.1) :
    (l1 ++ l2).filter (fun p => decide (p.1 < k)) = l1 := by
  have e1 : l1.filter (fun p => decide (p.1 < k)) = l1 := List.filter_eq_self.2 fun p hp => by simpa using h1 p hp
  have e2 : l2.filter (fun p => decide (p.1 < k)) = [] := List.filter_eq_nil_iff.2 fun p hp => by simpa using h2 p hp
  rw [List.filter_append, e1, e2, List.append_nil]

/-- the machine walks back along its inner entries -/
theorem flat_walkBack {a m : K × V} {l1 l2 : SL K V} (hs : SL.Sorted (l1 ++ l2)) (ha : ∀ x ∈ l1 ++ l2, a.1 < x.1)
    {k : K} (hk : a.1 < k) (hkm : k ≤ m.1) (h1 : ∀ x ∈ l1, x.1 < k) (h2 : ∀ x ∈ l2, k ≤ x.1)
    (hm : ∀ x ∈ l1 ++ l2, x.1 < m.1) : WalkBack (⟨a, some (m, l1 ++ l2)⟩ : Flat K V) k (l1.reverse ++ [a]) := by
  have hstep : VebTree.predecessor (⟨a, some (m, l1 ++ l2)⟩ : Flat K V) k = .ok (some (l1.getLast?.getD a)) := by
    have hf := filter_below h1 h2
    have he : (if k = m.1 then SL.maxE (l1 ++ l2) else SL.pred (l1 ++ l2) k) = l1.getLast? := by
      split
      · rename_i hkm
        have : l2 = [] := by
          obtain _ | ⟨x, l2⟩ := l2
          · rfl
          · exact absurd (hm x (by simp)) (not_lt.2 (hkm ▸ h2 x (by simp)))
        subst this
        rw [List.append_nil, SL.maxE]
      · rw [SL.pred, hf]
    simp only [VebTree.predecessor, Flat.before, if_neg (not_le.2 hk), if_neg (not_lt.2 hkm), he, Flat.inner]
    cases l1.getLast? <;> rfl
  induction l1 using List.reverseRecOn generalizing l2 k with
  | nil =>
    refine ⟨hstep, ?_⟩
    show VebTree.predecessor (⟨a, some (m, [] ++ l2)⟩ : Flat K V) a.1 = .ok none
    simp [VebTree.predecessor, Flat.before]
  | append_singleton l1 x ih =>
    have happ : (l1 ++ [x]) ++ l2 = l1 ++ x :: l2 := by simp
    rw [List.getLast?_concat] at hstep
    rw [List.reverse_concat]
    refine ⟨hstep, ?_⟩
    rw [happ] at hs ha hm ⊢
    obtain ⟨g1, g2, g3⟩ := List.pairwise_append.1 hs
    have hx1 : ∀ y ∈ l1, y.1 < x.1 := fun y hy => g3 y hy x (by simp)
    have hx2 : ∀ y ∈ x :: l2, x.1 ≤ y.1 := by
      intro y hy
      rcases List.mem_cons.1 hy with rfl | hy
      · exact le_rfl
      · exact ((List.pairwise_cons.1 g2).1 y hy).le
    have hax : a.1 < x.1 := ha x (by simp)
    have hxm : x.1 < m.1 := hm x (by simp)
    refine ih hs ha hax hxm.le hx1 hx2 hm ?_
    have hf := filter_below hx1 hx2
    simp only [VebTree.predecessor, Flat.before, if_neg (not_le.2 hax), if_neg (not_lt.2 hxm.le), if_neg hxm.ne, SL.pred,
      hf, Flat.inner]
    cases l1.getLast? <;> rfl

/-- the backward iterator over the machine, when no entry is above its maximum -/
theorem flat_back_all {es : List (K × V)} (hd : DistinctKeys es) (h2 : 2 ≤ es.length) (hn : es.length ≤ usizeMax)
    {f : Flat K V} (hr : Reaches (inserting es) f) {a m : K × V} (ha : VebTree.minVal f = .ok a)
    (hm : VebTree.maxVal f = .ok m) (hg : ∀ e ∈ es, e.1 ≤ m.1) (n : Nat) :
    ∃ it, (Iter.new (K := K) f).calls (List.replicate n .back) =
      .ok (it, firstItems (m :: ((others a m (entries (inserting es))).reverse ++ [a])) n) := by
  have hs := Props.C55_inside_sorted _ f hr
  obtain ⟨-, h⟩ | ⟨m', l, h3, h4, h5, h6⟩ := flat_inv (by rintro rfl; simp at h2) hd hr
  · rw [h] at h2; simp at h2
  · obtain ⟨a', r⟩ := f
    simp only at h3 h4 h5 h6
    subst h3
    have ha : a' = a := Except.ok.inj ha
    have hm : m' = m := Except.ok.inj hm
    subst ha
    subst hm
    have hs : SL.Sorted l := hs
    rw [flat_others hd hs h5 h6]
    have hw := flat_walkBack (a := a') (m := m') (l1 := l) (l2 := []) (k := m'.1) (by simpa using hs)
      (fun x hx => (h5 x (by simpa using hx)).1) h4 le_rfl
      (fun x hx => lt_of_le_of_ne (hg x ((h6 x).2 (.inr (.inr hx)))) (h5 x hx).2) (by simp)
      (fun x hx => lt_of_le_of_ne (hg x ((h6 x).2 (.inr (.inr (by simpa using hx))))) (h5 x (by simpa using hx)).2)
    rw [List.append_nil] at hw
    refine walkBack_new n rfl hw ?_
    have hlen : l.length + 2 ≤ es.length := by
      have hnd : (a' :: m' :: l).Nodup := by
        refine List.nodup_cons.2 ⟨?_, List.nodup_cons.2 ⟨fun h => (h5 m' h).2 rfl, hs.imp fun h e => by
          rw [e] at h; exact lt_irrefl _ h⟩⟩
        rintro (_ | ⟨_, h⟩)
        · exact lt_irrefl _ h4
        · exact lt_irrefl _ (h5 a' h).1
      exact (hnd.subperm (fun x hx => (h6 x).2 (by simpa using hx))).length_le
    simp only [List.length_append, List.length_reverse, List.length_cons, List.length_nil]
    omega

end

end Veb
