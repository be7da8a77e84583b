import Verif.Proof.Orders

/-!
# C99: how many orders of insertion are right

C97 says for each order whether `max_val` is right.  Here the orders are counted: of the `n!` orders of `n` entries, half
and `(n - 2)!` more leave a tree that knows its greatest entry.  The others, nearly half for large `n`, do not.
-/

set_option autoImplicit false

namespace Veb.Props
open VebTree

section
variable {T K V : Type} [LinearOrder K] [VebTree T K V] {safe : (K → Prop) → K → Prop}

/-- **C99, which orders.** In every tree type of the crate that is a `Tree` at its top: of the entries `s`, with `a` the
least and `z` the greatest, exactly those orders are right in which `a` comes before `z`, or that begin with `z` and
`a`. -/
theorem C99_which (h : CrateTree T K V safe) (ht : TopByOrder (K := K) (V := V) T) (a z : K × V) (r : List (K × V))
    (hd : DistinctKeys (a :: z :: r)) (ha : ∀ x ∈ z :: r, a.1 < x.1) (hg : ∀ x ∈ a :: r, x.1 ≤ z.1)
    (hn : r.length + 2 ≤ usizeMax) (l : List (K × V)) (hl : l.Perm (a :: z :: r)) :
    AnswersTop T z l ↔ Before a z l ∨ ∃ q, l = z :: a :: q := by
  have hdl : DistinctKeys l := (hl.pairwise_iff fun h => h.symm).2 hd
  have hne : l ≠ [] := by rintro rfl; simpa using hl.length_eq
  have hlen : l.length ≤ usizeMax := by rw [hl.length_eq]; exact hn
  have haz : a ≠ z := fun e => lt_irrefl z.1 (by have := ha z (by simp); rwa [e] at this)
  have hall : ∀ p q, l = p ++ a :: q → (∀ x ∈ p ++ q, a.1 < x.1) ∧ ∀ x ∈ p ++ q, x.1 ≤ z.1 := by
    rintro p q rfl
    have hpq : (p ++ q).Perm (z :: r) := (List.perm_middle.symm.trans hl).cons_inv
    refine ⟨fun x hx => ha x (hpq.mem_iff.1 hx), fun x hx => ?_⟩
    rcases List.mem_cons.1 (hpq.mem_iff.1 hx) with rfl | hx
    · exact le_rfl
    · exact hg x (by simp [hx])
  obtain ⟨t, hr, -⟩ := C97_crate h l hne hdl hlen
  constructor
  · rintro ⟨t, hr, hm⟩
    rcases before_total (hl.mem_iff.2 (by simp)) (hl.mem_iff.2 (by simp)) haz with hb | ⟨p, m, q, rfl⟩
    · exact .inl hb
    · by_cases hpm : p = [] ∧ m = []
      · obtain ⟨rfl, rfl⟩ := hpm
        exact .inr ⟨q, rfl⟩
      · exfalso
        have e : p ++ z :: (m ++ a :: q) = (p ++ z :: m) ++ a :: q := by simp
        rw [e] at hr hdl
        obtain ⟨h1, h2⟩ := hall _ _ e
        have hlen : 2 ≤ (p ++ z :: m).length := by
          have : p.length ≠ 0 ∨ m.length ≠ 0 := by
            rw [List.length_eq_zero_iff.ne, List.length_eq_zero_iff.ne]; tauto
          simp only [List.length_append, List.length_cons]
          omega
        obtain ⟨e', h3, h4, -⟩ := C97_wrong h ht _ _ a z hdl h1 (by simp) hlen h2 t hr
        rw [hm] at h3
        cases h3
        exact lt_irrefl _ h4
  · rintro (⟨p, m, q, rfl⟩ | ⟨q, rfl⟩)
    · obtain ⟨h1, h2⟩ := hall _ _ rfl
      exact ⟨t, hr, C97_right ht p _ a z hdl h1 (by simp) h2 t hr⟩
    · obtain ⟨h1, h2⟩ := hall [z] q rfl
      exact ⟨t, hr, C97_first ht q a z hdl h1 h2 t hr⟩

/-- **C99, how many.** Of the `n!` orders of `n = r.length + 2` entries, `n! / 2 + (n - 2)!` are right. -/
theorem C99_count (h : CrateTree T K V safe) (ht : TopByOrder (K := K) (V := V) T) (a z : K × V) (r : List (K × V))
    (hd : DistinctKeys (a :: z :: r)) (ha : ∀ x ∈ z :: r, a.1 < x.1) (hg : ∀ x ∈ a :: r, x.1 ≤ z.1)
    (hn : r.length + 2 ≤ usizeMax) :
    2 * orders (a :: z :: r) (AnswersTop T z) = (r.length + 2).factorial + 2 * r.length.factorial := by
  have hs : (a :: z :: r).Nodup := hd.imp fun h e => h (by rw [e])
  have haz : a ≠ z := fun e => (List.nodup_cons.1 hs).1 (by simp [e])
  rw [orders_congr (C99_which h ht a z r hd ha hg hn), orders_or, orders_front hs, Nat.mul_add,
    orders_before hs (by simp) (by simp) haz]
  · rfl
  · rintro l hl hb ⟨q, rfl⟩
    exact before_not (hl.nodup_iff.2 hs) hb ⟨[], [], q, rfl⟩

/-- **C99, how many are wrong.** -/
theorem C99_wrong (h : CrateTree T K V safe) (ht : TopByOrder (K := K) (V := V) T) (a z : K × V) (r : List (K × V))
    (hd : DistinctKeys (a :: z :: r)) (ha : ∀ x ∈ z :: r, a.1 < x.1) (hg : ∀ x ∈ a :: r, x.1 ≤ z.1)
    (hn : r.length + 2 ≤ usizeMax) :
    2 * orders (a :: z :: r) (fun l => ¬ AnswersTop T z l) + 2 * r.length.factorial = (r.length + 2).factorial := by
  have h1 := C99_count h ht a z r hd ha hg hn
  have h2 : orders (a :: z :: r) (fun l => AnswersTop T z l ∨ ¬ AnswersTop T z l) = (a :: z :: r).length.factorial :=
    orders_true fun l _ => em _
  have h3 : orders (a :: z :: r) (fun l => AnswersTop T z l ∨ ¬ AnswersTop T z l) =
      orders (a :: z :: r) (AnswersTop T z) + orders (a :: z :: r) (fun l => ¬ AnswersTop T z l) :=
    orders_or fun l _ h h' => h' h
  rw [h3, show (a :: z :: r).length = r.length + 2 from rfl] at h2
  omega

/-- **C99, at least a third.** Of the orders of three entries or more, at least a third are wrong. -/
theorem C99_third (h : CrateTree T K V safe) (ht : TopByOrder (K := K) (V := V) T) (a z : K × V) (r : List (K × V))
    (hd : DistinctKeys (a :: z :: r)) (ha : ∀ x ∈ z :: r, a.1 < x.1) (hg : ∀ x ∈ a :: r, x.1 ≤ z.1)
    (hn : r.length + 2 ≤ usizeMax) (hr : r ≠ []) :
    (a :: z :: r).length.factorial ≤ 3 * orders (a :: z :: r) (fun l => ¬ AnswersTop T z l) := by
  have h1 := C99_wrong h ht a z r hd ha hg hn
  have h2 : 6 * r.length.factorial ≤ (r.length + 2).factorial := by
    have h3 : 1 ≤ r.length := List.length_pos_iff.2 hr
    rw [Nat.factorial_succ, Nat.factorial_succ, ← Nat.mul_assoc]
    exact Nat.mul_le_mul_right _ (Nat.mul_le_mul (by omega : 3 ≤ r.length + 1 + 1) (by omega : 2 ≤ r.length + 1))
  rw [show (a :: z :: r).length = r.length + 2 from rfl]
  omega

/-- **C99 for the predefined types**, for any set of keys. -/
theorem C99_types (V : Type) :
    RightOrders (Map16 (U 16) V) (U 16) V ∧ RightOrders (Map32 (U 32) V) (U 32) V ∧
    RightOrders (Map64 (U 64) V) (U 64) V := by
  obtain ⟨⟨s16, m16⟩, -, -⟩ := crate16 V
  obtain ⟨⟨s32, m32⟩, -⟩ := crate32 V
  exact ⟨C99_count (.tree goodKey .byteSet .byteMap (.array goodIndex)) C97_tree,
    C99_count (.tree goodKey s16 m16 (.array goodIndex)) C97_tree,
    C99_count (.tree goodKey s32 m32 (.array goodIndex)) C97_tree⟩

/-- **C99 for the predefined sets, and for signed keys.** -/
theorem C99_sets (V : Type) :
    RightOrders (Set16 (U 16)) (U 16) Unit ∧ RightOrders (Set32 (U 32)) (U 32) Unit ∧
    RightOrders (Set64 (U 64)) (U 64) Unit ∧ RightOrders (Map16 (S 16) V) (S 16) V ∧
    RightOrders (Map32 (S 32) V) (S 32) V ∧ RightOrders (Map64 (S 64) V) (S 64) V :=
  ⟨C99_count (crate16 V).1.1 C97_tree, C99_count (crate32 V).1.1 C97_tree, C99_count (crate64 V).1.1 C97_tree,
    C99_count (crate16 V).2.1.2 C97_tree, C99_count (crate32 V).2.2 C97_tree, C99_count (crate64 V).2.2 C97_tree⟩

/-- **C99 behind `Box` and `SizedVebTree`.** -/
theorem C99_wrapped (h : CrateTree T K V safe) (ht : TopByOrder (K := K) (V := V) T) :
    RightOrders (Box T) K V ∧ RightOrders (SizedVebTree T) K V :=
  ⟨C99_count (.box h) (C97_wrapped ht).1, C99_count (.sized h) (C97_wrapped ht).2⟩

end

section
variable {K V S C Hi Lo T : Type} [LinearOrder K] [LinearOrder Hi] [LinearOrder Lo] [VebKey K Hi Lo]
  [VebKeyRef K Hi Lo] [VebTree S Hi Unit] [VebTree T Lo V] [TreeCollection C Hi T Lo V] {safe : (K → Prop) → K → Prop}

/-- **C99, iteration.** In a tree with correct parts, `iter()` gives all entries after exactly those orders after which
`max_val` is right. -/
theorem C99_iter (h : CrateTree (Tree K V S C) K V safe) (hk : GoodKey K Hi Lo)
    (hs : ∀ ops : List (Op Hi Unit), RunsLikeMap S ops) (ht : ∀ ops : List (Op Lo V), RunsLikeMap T ops)
    (hc : AnswersAsColl C (T := T)) (hT : TopByOrder (K := K) (V := V) (Tree K V S C)) (a z : K × V) (r : List (K × V))
    (hd : DistinctKeys (a :: z :: r)) (ha : ∀ x ∈ z :: r, a.1 < x.1) (hg : ∀ x ∈ a :: r, x.1 ≤ z.1)
    (hn : r.length + 2 ≤ usizeMax) (l : List (K × V)) (hl : l.Perm (a :: z :: r)) :
    ListsAll (Tree K V S C) l ↔ AnswersTop (Tree K V S C) z l := by
  have hdl : DistinctKeys l := (hl.pairwise_iff fun h => h.symm).2 hd
  have hne : l ≠ [] := by rintro rfl; simpa using hl.length_eq
  have hlen : l.length = r.length + 2 := by rw [hl.length_eq]; rfl
  have hal : a ∈ l := hl.mem_iff.2 (by simp)
  have hzl : z ∈ l := hl.mem_iff.2 (by simp)
  have haz : a.1 < z.1 := ha z (by simp)
  have hla : ∀ x ∈ l, x = a ∨ a.1 < x.1 := fun x hx => by
    rcases List.mem_cons.1 (hl.mem_iff.1 hx) with h | h
    · exact .inl h
    · exact .inr (ha x h)
  have hle : ∀ x ∈ l, x.1 ≤ z.1 := fun x hx => by
    rcases List.mem_cons.1 (hl.mem_iff.1 hx) with h | h
    · rw [h]; exact haz.le
    · rcases List.mem_cons.1 h with h | h
      · rw [h]
      · exact hg x (by simp [h])
  have hlz : ∀ x ∈ l, x = z ∨ x.1 < z.1 := fun x hx => by
    rcases (hle x hx).lt_or_eq with h | h
    · exact .inr h
    · exact .inl (distinct_eq hdl hx hzl h)
  obtain ⟨t, hr, -⟩ := C97_crate h l hne hdl (by omega)
  obtain ⟨a', m, h1, h2, h3⟩ := C98_iter hk hs ht hc l hdl (by omega) (by omega) t hr
  obtain ⟨p, q, rfl⟩ := List.append_of_mem hal
  have hpq : ∀ x ∈ p ++ q, a.1 < x.1 := fun x hx => by
    have : (p ++ q).Perm (z :: r) := (List.perm_middle.symm.trans hl).cons_inv
    exact ha x (this.mem_iff.1 hx)
  have hne' : p ++ q ≠ [] := by
    intro e
    have h4 := congrArg List.length e
    simp only [List.length_append, List.length_cons, List.length_nil] at h4 hlen
    omega
  obtain ⟨h4, m', h5, h6⟩ := hT p q a hdl hpq hne' t hr
  rw [h1] at h4
  rw [h2] at h6
  cases h4
  cases h6
  have hm : m ∈ p ++ q := by
    rcases h5.1 with h | h
    · simp [h]
    · simp [h.1]
  have hml : m ∈ p ++ a :: q := by
    rcases List.mem_append.1 hm with h | h <;> simp [h]
  constructor
  · intro hall
    have e := firstItems_inj fun n => Except.ok.inj ((h3 n).symm.trans (hall n))
    rcases hlz m hml with rfl | hlt
    · exact ⟨t, hr, h2⟩
    · refine absurd ?_ (C98_lost (p ++ a :: q) a m z hdl (hpq m hm) hzl hlt)
      rw [e]
      exact (mem_entries_inserting hdl m).2 hml
  · rintro ⟨t', hr', h7⟩
    obtain ⟨_, hr1⟩ := hr
    obtain ⟨_, hr2⟩ := hr'
    rw [hr1] at hr2
    cases hr2
    rw [h2] at h7
    cases h7
    intro n
    rw [h3 n, C98_complete _ a z hle hdl, entries_ends hdl hal hzl hla hlz haz]

/-- **C99, iteration backwards.** And so does `iter().rev()`. -/
theorem C99_rev (h : CrateTree (Tree K V S C) K V safe) (hk : GoodKey K Hi Lo)
    (hs : ∀ ops : List (Op Hi Unit), RunsLikeMap S ops) (ht : ∀ ops : List (Op Lo V), RunsLikeMap T ops)
    (hc : AnswersAsColl C (T := T)) (hT : TopByOrder (K := K) (V := V) (Tree K V S C)) (a z : K × V) (r : List (K × V))
    (hd : DistinctKeys (a :: z :: r)) (ha : ∀ x ∈ z :: r, a.1 < x.1) (hg : ∀ x ∈ a :: r, x.1 ≤ z.1)
    (hn : r.length + 2 ≤ usizeMax) (l : List (K × V)) (hl : l.Perm (a :: z :: r)) :
    ListsBack (Tree K V S C) l ↔ AnswersTop (Tree K V S C) z l := by
  have hdl : DistinctKeys l := (hl.pairwise_iff fun h => h.symm).2 hd
  have hne : l ≠ [] := by rintro rfl; simpa using hl.length_eq
  have hlen : l.length = r.length + 2 := by rw [hl.length_eq]; rfl
  have hal : a ∈ l := hl.mem_iff.2 (by simp)
  have hzl : z ∈ l := hl.mem_iff.2 (by simp)
  have haz : a.1 < z.1 := ha z (by simp)
  have hla : ∀ x ∈ l, x = a ∨ a.1 < x.1 := fun x hx => by
    rcases List.mem_cons.1 (hl.mem_iff.1 hx) with h | h
    · exact .inl h
    · exact .inr (ha x h)
  have hle : ∀ x ∈ l, x.1 ≤ z.1 := fun x hx => by
    rcases List.mem_cons.1 (hl.mem_iff.1 hx) with h | h
    · rw [h]; exact haz.le
    · rcases List.mem_cons.1 h with h | h
      · rw [h]
      · exact hg x (by simp [h])
  have hlz : ∀ x ∈ l, x = z ∨ x.1 < z.1 := fun x hx => by
    rcases (hle x hx).lt_or_eq with h | h
    · exact .inr h
    · exact .inl (distinct_eq hdl hx hzl h)
  have hent := entries_ends hdl hal hzl hla hlz haz
  obtain ⟨t, hr, -⟩ := C97_crate h l hne hdl (by omega)
  obtain ⟨p, q, rfl⟩ := List.append_of_mem hal
  have hpq : ∀ x ∈ p ++ q, a.1 < x.1 := fun x hx => by
    have : (p ++ q).Perm (z :: r) := (List.perm_middle.symm.trans hl).cons_inv
    exact ha x (this.mem_iff.1 hx)
  have hne' : p ++ q ≠ [] := by
    intro e
    have h4 := congrArg List.length e
    simp only [List.length_append, List.length_cons, List.length_nil] at h4 hlen
    omega
  obtain ⟨h1, m, h5, h2⟩ := hT p q a hdl hpq hne' t hr
  have hml : m ∈ p ++ a :: q := by
    rcases h5.1 with h | h
    · simp [h]
    · simp [h.1]
  constructor
  · intro hall
    rcases hlz m hml with rfl | hlt
    · exact ⟨t, hr, h2⟩
    · have h6 := (C98_back hk hs ht hc _ hdl t hr m z h2 hzl hle hlt 1 (by omega)).symm.trans (hall 1)
      rw [← hent] at h6
      have h7 : m = z := by simpa [firstItems, alternating] using h6
      rw [h7] at hlt
      exact absurd hlt (lt_irrefl _)
  · rintro ⟨t', hr', h7⟩ n
    obtain ⟨f, g1, g3, g4, g5⟩ := C98_transfer hk hs ht hc _ t' hr'
    obtain ⟨_, hr1⟩ := hr
    obtain ⟨_, hr2⟩ := hr'
    rw [hr1] at hr2
    cases hr2
    refine (g5 _ _ (flat_back_all hdl (by omega) (by omega) g1 (g3.symm.trans h1) (g4.symm.trans h7) hle n)).trans ?_
    have he := congrArg List.reverse hent
    simp only [List.reverse_cons, List.reverse_append, List.reverse_nil, List.nil_append, List.cons_append] at he
    rw [← he]

/-- **C99, how many orders are iterated completely**, in the 16-bit maps: `n! / 2 + (n - 2)!`. -/
theorem C99_iter_count (V : Type) (a z : U 16 × V) (r : List (U 16 × V)) (hd : DistinctKeys (a :: z :: r))
    (ha : ∀ x ∈ z :: r, a.1 < x.1) (hg : ∀ x ∈ a :: r, x.1 ≤ z.1) (hn : r.length + 2 ≤ usizeMax) :
    2 * orders (a :: z :: r) (ListsAll (Map16 (U 16) V)) = (r.length + 2).factorial + 2 * r.length.factorial := by
  rw [orders_congr fun l hl => C99_iter (.tree goodKey .byteSet .byteMap (.array goodIndex)) goodKey
    (fun o => C17_history_partial .byteSet o (safeHist_always _ o))
    (fun o => C17_history_partial .byteMap o (safeHist_always _ o)) (C51_crate_coll (.array goodIndex)) C97_tree a z r hd ha
    hg hn l hl]
  exact (C99_types V).1 a z r hd ha hg hn

/-- **C99, backwards in the 16-bit maps.** -/
theorem C99_rev_count (V : Type) (a z : U 16 × V) (r : List (U 16 × V)) (hd : DistinctKeys (a :: z :: r))
    (ha : ∀ x ∈ z :: r, a.1 < x.1) (hg : ∀ x ∈ a :: r, x.1 ≤ z.1) (hn : r.length + 2 ≤ usizeMax) :
    2 * orders (a :: z :: r) (ListsBack (Map16 (U 16) V)) = (r.length + 2).factorial + 2 * r.length.factorial := by
  rw [orders_congr fun l hl => C99_rev (.tree goodKey .byteSet .byteMap (.array goodIndex)) goodKey
    (fun o => C17_history_partial .byteSet o (safeHist_always _ o))
    (fun o => C17_history_partial .byteMap o (safeHist_always _ o)) (C51_crate_coll (.array goodIndex)) C97_tree a z r hd ha
    hg hn l hl]
  exact (C99_types V).1 a z r hd ha hg hn

/-! Non-vacuity. -/

/-- three keys: two of the six orders are wrong -/
example : orders [(k16 1, ()), (k16 3, ()), (k16 2, ())] (fun l => ¬ AnswersTop (Set16 (U 16)) (k16 3, ()) l) = 2 := by
  have := C99_wrong (T := Set16 (U 16)) (crate16 Unit).1.1 C97_tree (k16 1, ()) (k16 3, ()) [(k16 2, ())]
    (by simp only [DistinctKeys]; decide +kernel) (by decide +kernel) (by decide +kernel) (by decide)
  have h6 : (([(k16 2, ())] : List (U 16 × Unit)).length + 2).factorial = 6 := rfl
  have h1 : ([(k16 2, ())] : List (U 16 × Unit)).length.factorial = 1 := rfl
  rw [h6, h1] at this
  omega

/-- of the six orders of three keys four are iterated completely -/
example : orders [(k16 1, ()), (k16 3, ()), (k16 2, ())] (ListsAll (Map16 (U 16) Unit)) = 4 := by
  have := C99_iter_count Unit (k16 1, ()) (k16 3, ()) [(k16 2, ())]
    (by simp only [DistinctKeys]; decide +kernel) (by decide +kernel) (by decide +kernel) (by decide)
  have h6 : (([(k16 2, ())] : List (U 16 × Unit)).length + 2).factorial = 6 := rfl
  have h1 : ([(k16 2, ())] : List (U 16 × Unit)).length.factorial = 1 := rfl
  rw [h6, h1] at this
  omega

/-- and as many backwards -/
example : orders [(k16 1, ()), (k16 3, ()), (k16 2, ())] (ListsBack (Map16 (U 16) Unit)) = 4 := by
  have := C99_rev_count Unit (k16 1, ()) (k16 3, ()) [(k16 2, ())]
    (by simp only [DistinctKeys]; decide +kernel) (by decide +kernel) (by decide +kernel) (by decide)
  have h6 : (([(k16 2, ())] : List (U 16 × Unit)).length + 2).factorial = 6 := rfl
  have h1 : ([(k16 2, ())] : List (U 16 × Unit)).length.factorial = 1 := rfl
  rw [h6, h1] at this
  omega

end

end Veb.Props
