import Verif.SpecIter
import Verif.Proof.Lawful
import Verif.Proof.SLLemmas

/-!
The iterator over any lawful tree is a double-ended queue of the entries.
-/

namespace Veb

namespace SL
variable {K V : Type} [LinearOrder K]

theorem succ_mid {a b : SL K V} {p : K × V} (h : Sorted (a ++ p :: b)) : succ (a ++ p :: b) p.1 = b.head? := by
  obtain ⟨_, h2, h3⟩ := List.pairwise_append.1 h
  obtain ⟨h4, h5⟩ := List.pairwise_cons.1 h2
  have e1 : List.filter (fun q : K × V => decide (p.1 < q.1)) a = [] := by
    rw [List.filter_eq_nil_iff]
    intro q hq
    simpa using (h3 q hq p (List.mem_cons_self)).le
  have e2 : List.filter (fun q : K × V => decide (p.1 < q.1)) b = b := by
    rw [List.filter_eq_self]
    intro q hq
    simpa using h4 q hq
  rw [succ, List.filter_append, e1, List.filter_cons_of_neg (by simp), e2]
  rfl

theorem pred_mid {a b : SL K V} {p : K × V} (h : Sorted (a ++ p :: b)) : pred (a ++ p :: b) p.1 = a.getLast? := by
  obtain ⟨_, h2, h3⟩ := List.pairwise_append.1 h
  obtain ⟨h4, h5⟩ := List.pairwise_cons.1 h2
  have e1 : List.filter (fun q : K × V => decide (q.1 < p.1)) a = a := by
    rw [List.filter_eq_self]
    intro q hq
    simpa using h3 q hq p (List.mem_cons_self)
  have e2 : List.filter (fun q : K × V => decide (q.1 < p.1)) b = [] := by
    rw [List.filter_eq_nil_iff]
    intro q hq
    simpa using (h4 q hq).le
  rw [pred, List.filter_append, e1, List.filter_cons_of_neg (by simp), e2, List.append_nil]

end SL

section popAll
variable {α : Type}

theorem popAll_nil (ss : List Side) : ∀ o ∈ (popAll ([] : List α) ss).2, o = none := by
  induction ss with
  | nil => simp [popAll]
  | cons s ss ih =>
    cases s <;> simpa [popAll, Side.pop] using ih

theorem popAll_nil_left (ss : List Side) : (popAll ([] : List α) ss).1 = [] := by
  induction ss with
  | nil => rfl
  | cons s ss ih => cases s <;> simpa [popAll, Side.pop] using ih

theorem popAll_length (l : List α) (ss : List Side) : (popAll l ss).2.length = ss.length := by
  induction ss generalizing l with
  | nil => rfl
  | cons s ss ih => simp [popAll, ih]

theorem popAll_front (l : List α) (n : Nat) : (popAll l (List.replicate n .front)).2 =
    (l.take n).map some ++ List.replicate (n - l.length) none := by
  induction n generalizing l with
  | zero => simp [popAll]
  | succ n ih =>
    rw [List.replicate_succ]
    simp only [popAll, Side.pop, ih]
    cases l with
    | nil => simp [List.replicate_succ]
    | cons a l => simp

theorem popAll_back (l : List α) (n : Nat) : (popAll l (List.replicate n .back)).2 =
    (l.reverse.take n).map some ++ List.replicate (n - l.length) none := by
  induction n generalizing l with
  | zero => simp [popAll]
  | succ n ih =>
    rw [List.replicate_succ]
    simp only [popAll, Side.pop, ih]
    rcases List.eq_nil_or_concat' l with rfl | ⟨l, a, rfl⟩
    · simp [List.replicate_succ]
    · simp

theorem popAll_count (l : List α) (ss : List Side) :
    ((popAll l ss).2.filter Option.isSome).length + (popAll l ss).1.length = l.length := by
  induction ss generalizing l with
  | nil => simp [popAll]
  | cons s ss ih =>
    have := ih (s.pop l).1
    simp only [popAll]
    cases s with
    | front =>
      cases l with
      | nil => simpa [Side.pop] using this
      | cons a l => simp [Side.pop] at this ⊢; omega
    | back =>
      rcases List.eq_nil_or_concat' l with rfl | ⟨l, a, rfl⟩
      · simpa [Side.pop] using this
      · simp [Side.pop] at this ⊢; omega

theorem popAll_none (l : List α) (ss : List Side) (h : none ∈ (popAll l ss).2) : (popAll l ss).1 = [] := by
  induction ss generalizing l with
  | nil => simp [popAll] at h
  | cons s ss ih =>
    simp only [popAll, List.mem_cons] at h ⊢
    rcases h with h | h
    · have : (s.pop l).1 = [] := by
        cases s with
        | front =>
          cases l with
          | nil => rfl
          | cons => simp [Side.pop] at h
        | back =>
          rcases List.eq_nil_or_concat' l with rfl | ⟨l, a, rfl⟩
          · rfl
          · simp [Side.pop] at h
      rw [this, popAll_nil_left]
    · exact ih _ h

theorem popAll_partition (l : List α) (ss : List Side) :
    ((ss.zip (popAll l ss).2).filterMap fun p => if p.1 = .front then p.2 else none) ++ (popAll l ss).1 ++
      ((ss.zip (popAll l ss).2).filterMap fun p => if p.1 = .back then p.2 else none).reverse = l := by
  induction ss generalizing l with
  | nil => simp [popAll]
  | cons s ss ih =>
    have := ih (s.pop l).1
    simp only [popAll]
    cases s with
    | front =>
      cases l with
      | nil => simpa [Side.pop] using this
      | cons a l => simpa [Side.pop] using this
    | back =>
      rcases List.eq_nil_or_concat' l with rfl | ⟨l, a, rfl⟩
      · simpa [Side.pop] using this
      · simp [Side.pop] at this ⊢
        conv_rhs => rw [← this]
        simp

end popAll

namespace Iter
variable {T K V : Type} [LinearOrder K] [VebTree T K V]

/-- What the iterator state says about the entries still to come. -/
def Pos (l rem : SL K V) : Option (IterData K) → Prop
  | none => rem = []
  | some .start => rem = l
  | some (.front f) => ∃ a v, l = a ++ (f, v) :: rem
  | some (.back b) => ∃ v c, l = rem ++ (b, v) :: c
  | some (.both f b) => ∃ a v w c, l = a ++ (f, v) :: (rem ++ (b, w) :: c)

/-- The iterator over `t` (with entries `l`) still has to yield `rem`. -/
structure Good (t : T) (l rem : SL K V) (it : Iter T K) : Prop where
  tree : it.tree = t
  ans : Answers t l
  small : l.length ≤ usizeMax
  pos : Pos l rem it.data
  count : it.emitted + rem.length = l.length

variable {t : T} {l rem : SL K V} {it : Iter T K}

theorem good_new (ha : Answers t l) (hs : l.length ≤ usizeMax) :
    Good t l l (Iter.new t) := ⟨rfl, ha, hs, rfl, by simp [Iter.new]⟩

theorem emit_ok (G : Good t l rem it) {rem' : SL K V} {d : IterData K} {e : K × V}
    (hlen : rem.length = rem'.length + 1) (hp : Pos l rem' (some d)) :
    ∃ it', it.emit d e = .ok (it', some e) ∧ Good t l rem' it' := by
  have h1 : it.emitted + 1 ≤ usizeMax := by
    have := G.count
    have := G.small
    omega
  refine ⟨⟨it.tree, some d, it.emitted + 1⟩, by simp [emit, addUsize, h1], G.tree, G.ans, G.small, hp, ?_⟩
  have := G.count
  show it.emitted + 1 + rem'.length = l.length
  omega

theorem stop_ok (G : Good t l [] it) : ∃ it' : Iter T K, it.stop = .ok (it', (none : Option (K × V))) ∧
    Good t l [] it' :=
  ⟨_, rfl, G.tree, G.ans, G.small, rfl, G.count⟩

/-- sorted lists have no repeated keys around a cut -/
theorem ne_of_sorted {a b c : SL K V} {p q : K × V} (h : SL.Sorted (a ++ p :: (b ++ q :: c))) : p.1 ≠ q.1 := by
  have h2 := (List.pairwise_append.1 h).2.1
  have := (List.pairwise_cons.1 h2).1 q (by simp)
  exact this.ne

theorem next_ok (G : Good t l rem it) :
    ∃ it', it.next = .ok (it', rem.head?) ∧ Good t l rem.tail it' := by
  have A := G.ans
  have hpos := G.pos
  have htree := G.tree
  rcases hd : it.data with _ | (_ | f | b | ⟨f, b⟩)
  · rw [hd] at hpos
    have hpos : rem = [] := hpos
    subst hpos
    obtain ⟨it', h1, h2⟩ := stop_ok G
    exact ⟨it', by simp [next, hd, h1], h2⟩
  · rw [hd] at hpos
    have hpos : rem = l := hpos
    subst hpos
    obtain ⟨e, h1, h2⟩ := A.min
    obtain ⟨rem', rfl⟩ : ∃ r, rem = e :: r := by
      cases rem with
      | nil => cases h2
      | cons p r => cases h2; exact ⟨r, rfl⟩
    obtain ⟨it', h3, h4⟩ := emit_ok G (rem' := rem') (d := .front e.1) (e := e) rfl ⟨[], e.2, rfl⟩
    exact ⟨it', by simp [next, hd, htree, h1, h3], h4⟩
  · rw [hd] at hpos
    obtain ⟨a, v, e⟩ := hpos
    have hsucc := A.succ f
    have hmid := SL.succ_mid (a := a) (b := rem) (p := (f, v)) (e ▸ A.sorted)
    rw [← e] at hmid
    rw [hmid] at hsucc
    cases rem with
    | nil =>
      obtain ⟨it', h1, h2⟩ := stop_ok G
      exact ⟨it', by simp [next, hd, htree, hsucc, h1], h2⟩
    | cons p r =>
      obtain ⟨it', h3, h4⟩ := emit_ok G (rem' := r) (d := .front p.1) (e := p) rfl
        ⟨a ++ [(f, v)], p.2, by simpa using e⟩
      exact ⟨it', by simp [next, hd, htree, hsucc, h3], h4⟩
  · rw [hd] at hpos
    obtain ⟨v, c, e⟩ := hpos
    obtain ⟨m, h1, h2⟩ := A.min
    cases rem with
    | nil =>
      have : m = (b, v) := by rw [e] at h2; simpa using h2.symm
      subst this
      obtain ⟨it', h3, h4⟩ := stop_ok G
      exact ⟨it', by simp [next, hd, htree, h1, h3], h4⟩
    | cons p r =>
      have : m = p := by rw [e] at h2; simpa using h2.symm
      subst this
      have hne : m.1 ≠ b := ne_of_sorted (a := []) (b := r) (c := c) (q := (b, v)) (by simpa [e] using A.sorted)
      obtain ⟨it', h3, h4⟩ := emit_ok G (rem' := r) (d := .both m.1 b) (e := m) rfl
        ⟨[], m.2, v, c, by simpa using e⟩
      exact ⟨it', by simp [next, hd, htree, h1, hne, h3], h4⟩
  · rw [hd] at hpos
    obtain ⟨a, v, w, c, e⟩ := hpos
    have hsucc := A.succ f
    have hmid := SL.succ_mid (a := a) (b := rem ++ (b, w) :: c) (p := (f, v)) (e ▸ A.sorted)
    rw [← e] at hmid
    rw [hmid] at hsucc
    cases rem with
    | nil =>
      obtain ⟨it', h1, h2⟩ := stop_ok G
      exact ⟨it', by simp [next, hd, htree, hsucc, h1], h2⟩
    | cons p r =>
      have hne : p.1 ≠ b := ne_of_sorted (a := a ++ [(f, v)]) (b := r) (c := c) (q := (b, w))
        (by simpa [e] using A.sorted)
      obtain ⟨it', h3, h4⟩ := emit_ok G (rem' := r) (d := .both p.1 b) (e := p) rfl
        ⟨a ++ [(f, v)], p.2, w, c, by simpa using e⟩
      exact ⟨it', by simp [next, hd, htree, hsucc, hne, h3], h4⟩

theorem nextBack_ok (G : Good t l rem it) :
    ∃ it', it.nextBack = .ok (it', rem.getLast?) ∧ Good t l rem.dropLast it' := by
  have A := G.ans
  have hpos := G.pos
  have htree := G.tree
  have hlen : ∀ (r : SL K V) (p : K × V), (r ++ [p]).length = r.length + 1 := by simp
  rcases hd : it.data with _ | (_ | f | b | ⟨f, b⟩)
  · rw [hd] at hpos
    have hpos : rem = [] := hpos
    subst hpos
    obtain ⟨it', h1, h2⟩ := stop_ok G
    exact ⟨it', by simp [nextBack, hd, h1], h2⟩
  · rw [hd] at hpos
    have hpos : rem = l := hpos
    subst hpos
    obtain ⟨e, h1, h2⟩ := A.max
    obtain ⟨rem', rfl⟩ := List.getLast?_eq_some_iff.1 h2
    obtain ⟨it', h3, h4⟩ := emit_ok G (rem' := rem') (d := .back e.1) (e := e) (hlen _ _) ⟨e.2, [], rfl⟩
    exact ⟨it', by simp [nextBack, hd, htree, h1, h3], by simpa using h4⟩
  · rw [hd] at hpos
    obtain ⟨a, v, e⟩ := hpos
    obtain ⟨m, h1, h2⟩ := A.max
    rcases List.eq_nil_or_concat' rem with rfl | ⟨r, p, rfl⟩
    · have : m = (f, v) := by rw [e] at h2; simpa using h2.symm
      subst this
      obtain ⟨it', h3, h4⟩ := stop_ok G
      exact ⟨it', by simp [nextBack, hd, htree, h1, h3], h4⟩
    · have : m = p := by
        rw [e, show a ++ (f, v) :: (r ++ [p]) = (a ++ (f, v) :: r) ++ [p] by simp, List.getLast?_concat] at h2
        exact (Option.some.inj h2).symm
      subst this
      have hne : f ≠ m.1 := ne_of_sorted (a := a) (b := r) (c := []) (p := (f, v)) (by simpa [e] using A.sorted)
      obtain ⟨it', h3, h4⟩ := emit_ok G (rem' := r) (d := .both f m.1) (e := m) (hlen _ _)
        ⟨a, v, m.2, [], e⟩
      exact ⟨it', by simp [nextBack, hd, htree, h1, hne, h3], by simpa using h4⟩
  · rw [hd] at hpos
    obtain ⟨v, c, e⟩ := hpos
    have hpred := A.pred b
    have hmid := SL.pred_mid (a := rem) (b := c) (p := (b, v)) (e ▸ A.sorted)
    rw [← e] at hmid
    rw [hmid] at hpred
    rcases List.eq_nil_or_concat' rem with rfl | ⟨r, p, rfl⟩
    · obtain ⟨it', h1, h2⟩ := stop_ok G
      exact ⟨it', by simp [nextBack, hd, htree, hpred, h1], h2⟩
    · rw [List.getLast?_concat] at hpred
      obtain ⟨it', h3, h4⟩ := emit_ok G (rem' := r) (d := .back p.1) (e := p) (hlen _ _)
        ⟨p.2, (b, v) :: c, by simpa using e⟩
      exact ⟨it', by simp [nextBack, hd, htree, hpred, h3], by simpa using h4⟩
  · rw [hd] at hpos
    obtain ⟨a, v, w, c, e⟩ := hpos
    have e' : l = (a ++ (f, v) :: rem) ++ (b, w) :: c := by simpa using e
    have hpred := A.pred b
    have hmid := SL.pred_mid (a := a ++ (f, v) :: rem) (b := c) (p := (b, w)) (e' ▸ A.sorted)
    rw [← e'] at hmid
    rw [hmid] at hpred
    rcases List.eq_nil_or_concat' rem with rfl | ⟨r, p, rfl⟩
    · rw [List.getLast?_concat] at hpred
      obtain ⟨it', h1, h2⟩ := stop_ok G
      exact ⟨it', by simp [nextBack, hd, htree, hpred, h1], h2⟩
    · rw [show a ++ (f, v) :: (r ++ [p]) = (a ++ (f, v) :: r) ++ [p] by simp, List.getLast?_concat] at hpred
      have hne : f ≠ p.1 := ne_of_sorted (a := a) (b := r) (c := (b, w) :: c) (p := (f, v))
        (by simpa [e] using A.sorted)
      obtain ⟨it', h3, h4⟩ := emit_ok G (rem' := r) (d := .both f p.1) (e := p) (hlen _ _)
        ⟨a, v, p.2, (b, w) :: c, by simpa using e⟩
      exact ⟨it', by simp [nextBack, hd, htree, hpred, hne, h3], by simpa using h4⟩

theorem call_ok (G : Good t l rem it) (s : Side) :
    ∃ it', it.call s = .ok (it', (s.pop rem).2) ∧ Good t l (s.pop rem).1 it' := by
  cases s
  · exact next_ok G
  · exact nextBack_ok G

theorem calls_ok (G : Good t l rem it) (ss : List Side) :
    ∃ it', it.calls ss = .ok (it', (popAll rem ss).2) ∧ Good t l (popAll rem ss).1 it' := by
  induction ss generalizing it rem with
  | nil => exact ⟨it, rfl, G⟩
  | cons s ss ih =>
    obtain ⟨i1, h1, G1⟩ := call_ok G s
    obtain ⟨i2, h2, G2⟩ := ih G1
    exact ⟨i2, by simp [calls, h1, h2, popAll], G2⟩

/-- `size_hint` brackets what is left. -/
theorem sizeHint_ok (G : Good t l rem it) :
    ∃ lo hi, it.sizeHint = .ok (lo, hi) ∧ lo ≤ rem.length ∧ ∀ h, hi = some h → rem.length ≤ h := by
  have hc := G.count
  rcases hd : it.data with _ | d
  · refine ⟨0, some 0, by simp [sizeHint, hd], Nat.zero_le _, ?_⟩
    rintro _ ⟨⟩
    have hpos := G.pos
    rw [hd] at hpos
    have hpos : rem = [] := hpos
    simp [hpos]
  · obtain ⟨lo, hi, h1, h2, h3⟩ := G.ans.len
    cases hi with
    | none =>
      refine ⟨lo - it.emitted, none, by simp [sizeHint, hd, G.tree, h1], by omega, by simp⟩
    | some h =>
      have h4 := h3 h rfl
      have h5 : it.emitted ≤ h := by omega
      refine ⟨lo - it.emitted, some (h - it.emitted), by simp [sizeHint, hd, G.tree, h1, subUsize, h5],
        by omega, ?_⟩
      rintro _ ⟨⟩
      omega

/-- If `len_hint` is exact then so is `size_hint`. -/
theorem sizeHint_exact (G : Good t l rem it) (hx : VebTree.lenHint t = .ok (l.length, some l.length)) :
    it.sizeHint = .ok (rem.length, some rem.length) := by
  have hc := G.count
  rcases hd : it.data with _ | d
  · have hpos := G.pos
    rw [hd] at hpos
    have hpos : rem = [] := hpos
    simp [sizeHint, hd, hpos]
  · have h5 : it.emitted ≤ l.length := by omega
    simp [sizeHint, hd, G.tree, hx, subUsize, h5]
    omega

/-- Trees with lawful behaviour answer the iterator's queries. -/
theorem _root_.Veb.answers_of (L : LawfulVebTree T K V) {t : T} (I : L.Inv t) {l : SL K V}
    (hl : SL.Lists l (L.abs t)) : Answers t l where
  sorted := hl.1
  min := by
    obtain ⟨e, h1, h2⟩ := L.minVal t I
    exact ⟨e, h1, hl.minE.2 h2⟩
  max := by
    obtain ⟨e, h1, h2⟩ := L.maxVal t I
    exact ⟨e, h1, hl.maxE.2 h2⟩
  succ k := by
    obtain ⟨r, h1, h2⟩ := L.successor t k I
    rw [h1, hl.succ_eq h2]
  pred k := by
    obtain ⟨r, h1, h2⟩ := L.predecessor t k I
    rw [h1, hl.pred_eq h2]
  len := by
    obtain ⟨lo, hi, h1, h2, h3⟩ := L.lenHint t I
    rw [hl.card] at h2
    refine ⟨lo, hi, h1, h2, fun n hn => ?_⟩
    have := h3 n hn
    rw [hl.card] at this
    exact this.le

end Iter
end Veb
