import Verif.SpecHonest
import Verif.SpecAudit

/-!
# Maps of one node
-/

set_option autoImplicit false

namespace Veb

section
variable {σ α β : Type}
theorem answers_bind {x : Act σ α} {a : α} {f : α → Act σ β} {b : β} (h : AlwaysAnswers x a) (h' : AlwaysAnswers (f a) b) :
    AlwaysAnswers (x >>= f) b := fun s => by
  obtain ⟨s1, e1⟩ := h s
  obtain ⟨s2, e2⟩ := h' s1
  refine ⟨s2, ?_⟩
  change (x s >>= fun p => f p.1 p.2) = _
  rw [e1]
  exact e2
theorem answers_pure (a : α) : AlwaysAnswers (pure a : Act σ α) a := fun s => ⟨s, rfl⟩
theorem only_bind {Us : Panic → Prop} {x : Act σ α} {f : α → Act σ β} (h : Only Us x) (h' : ∀ a, Only Us (f a)) : Only Us (x >>= f) := by
  intro s p e
  change (x s >>= fun p => f p.1 p.2) = _ at e
  cases hx : x s with
  | error q => rw [hx] at e; cases e; exact h s _ hx
  | ok r => rw [hx] at e; exact h' r.1 r.2 p e
theorem only_pure {Us : Panic → Prop} (a : α) : Only Us (pure a : Act σ α) := by
  intro s p e
  cases e
theorem only_mono {Us Us' : Panic → Prop} {x : Act σ α} (h : Only Us x) (i : ∀ p, Us p → Us' p) : Only Us' x := fun s p e => i p (h s p e)
theorem only_throw {Us : Panic → Prop} {p : Panic} (h : Us p) : Only Us (throw p : Act σ α) := by
  rintro s _ ⟨⟩
  exact h
end

namespace Leaf
variable {σ K : Type}

theorem scan_found {cmp : K → K → Act σ Ordering} [LinearOrder K] (hc : ∀ a b, AlwaysAnswers (cmp a b) (compare a b)) (k : K) :
    ∀ (l1 : List K) (l2 : List K) (i : Nat), (∀ x ∈ l1, x < k) → AlwaysAnswers (scanA cmp k (l1 ++ k :: l2) i) (.found (i + l1.length))
  | [], l2, i, _ => answers_bind (hc k k) (by rw [compare_eq_iff_eq.2 rfl]; exact answers_pure _)
  | x :: l1, l2, i, h => by
    refine answers_bind (hc k x) ?_
    rw [compare_gt_iff_gt.2 (h x (List.mem_cons_self ..))]
    have := scan_found hc k l1 l2 (i + 1) fun y hy => h y (List.mem_cons_of_mem _ hy)
    rwa [Nat.add_right_comm, Nat.add_assoc] at this
theorem scan_gap {cmp : K → K → Act σ Ordering} [LinearOrder K] (hc : ∀ a b, AlwaysAnswers (cmp a b) (compare a b)) (k : K) :
    ∀ (l1 : List K) (l2 : List K) (i : Nat), (∀ x ∈ l1, x < k) → (∀ x ∈ l2, k < x) →
      AlwaysAnswers (scanA cmp k (l1 ++ l2) i) (.gap (i + l1.length))
  | [], [], i, _, _ => answers_pure _
  | [], y :: l2, i, _, h => answers_bind (hc k y) (by rw [compare_lt_iff_lt.2 (h y (List.mem_cons_self ..))]; exact answers_pure _)
  | x :: l1, l2, i, h, h2 => by
    refine answers_bind (hc k x) ?_
    rw [compare_gt_iff_gt.2 (h x (List.mem_cons_self ..))]
    have := scan_gap hc k l1 l2 (i + 1) (fun y hy => h y (List.mem_cons_of_mem _ hy)) h2
    rwa [Nat.add_right_comm, Nat.add_assoc] at this

/-- a sorted list, cut at a key -/
theorem cutKeys [LinearOrder K] {l : List K} (h : l.Pairwise (· < ·)) (k : K) : ∃ l1 l2, (∀ x ∈ l1, x < k) ∧ (∀ x ∈ l2, k < x) ∧
    (l = l1 ++ l2 ∨ l = l1 ++ k :: l2) := by
  induction l with
  | nil => exact ⟨[], [], by simp, by simp, .inl rfl⟩
  | cons p l ih =>
    obtain ⟨hp, hl⟩ := List.pairwise_cons.1 h
    rcases lt_trichotomy p k with hk | rfl | hk
    · obtain ⟨l1, l2, c1, c2, e⟩ := ih hl
      refine ⟨p :: l1, l2, ?_, c2, e.imp (fun e => by rw [e]; rfl) fun e => by rw [e]; rfl⟩
      rintro q hq
      rcases List.mem_cons.1 hq with rfl | hq
      · exact hk
      · exact c1 q hq
    · exact ⟨[], l, by simp, hp, .inr rfl⟩
    · refine ⟨[], p :: l, by simp, fun q hq => ?_, .inl rfl⟩
      rcases List.mem_cons.1 hq with rfl | hq
      · exact hk
      · exact hk.trans (hp q hq)

section
variable [LinearOrder K] {k : K} {l1 l2 : List K} (h1 : ∀ x ∈ l1, x < k) (h2 : ∀ x ∈ l2, k < x)
include h1 h2
theorem lt_gap : (l1 ++ l2).countP (· < k) = l1.length := by
  rw [List.countP_append, List.countP_eq_length.2 fun x hx => decide_eq_true (h1 x hx),
    List.countP_eq_zero.2 fun x hx => by simpa using (h2 x hx).le, Nat.add_zero]
theorem le_gap : (l1 ++ l2).countP (· ≤ k) = l1.length := by
  rw [List.countP_append, List.countP_eq_length.2 fun x hx => decide_eq_true (h1 x hx).le,
    List.countP_eq_zero.2 fun x hx => by simpa using h2 x hx, Nat.add_zero]
theorem not_gap : k ∉ l1 ++ l2 := fun h => (List.mem_append.1 h).elim (fun h => lt_irrefl _ (h1 k h)) fun h => lt_irrefl _ (h2 k h)
theorem lt_found : (l1 ++ k :: l2).countP (· < k) = l1.length := by
  rw [List.countP_append, List.countP_eq_length.2 fun x hx => decide_eq_true (h1 x hx), List.countP_cons_of_neg (by simp),
    List.countP_eq_zero.2 fun x hx => by simpa using (h2 x hx).le, Nat.add_zero]
theorem le_found : (l1 ++ k :: l2).countP (· ≤ k) = l1.length + 1 := by
  rw [List.countP_append, List.countP_eq_length.2 fun x hx => decide_eq_true (h1 x hx).le, List.countP_cons_of_pos (by simp),
    List.countP_eq_zero.2 fun x hx => by simpa using h2 x hx]
end

/-- A proper `Ord` leads the searches where they should end. -/
theorem honest [LinearOrder K] {cmp : K → K → Act σ Ordering} {gt : K → K → Act σ Bool}
    (hc : ∀ a b, AlwaysAnswers (cmp a b) (compare a b)) (hg : ∀ a b, AlwaysAnswers (gt a b) (decide (a > b))) :
    @HonestOrd σ K _ (.leaf cmp gt) := by
  let _ := ActOrd.leaf cmp gt
  refine ⟨fun ks k h => ?_, fun ks k h => ?_, fun ks k h => ?_, fun ks k h => ?_⟩
  all_goals
    obtain ⟨l1, l2, h1, h2, rfl | rfl⟩ := cutKeys h k
  · rw [if_neg (not_gap h1 h2), lt_gap h1 h2]
    have := scan_gap hc k l1 l2 0 h1 h2
    rw [Nat.zero_add] at this
    exact this
  · rw [if_pos (by simp), lt_found h1 h2]
    have := scan_found hc k l1 l2 0 h1
    rw [Nat.zero_add] at this
    exact this
  · rw [lt_gap h1 h2]
    refine answers_bind (scan_gap hc k l1 l2 0 h1 h2) ?_
    rw [Nat.zero_add]; exact answers_pure _
  · rw [lt_found h1 h2]
    refine answers_bind (scan_found hc k l1 l2 0 h1) ?_
    rw [Nat.zero_add]; exact answers_pure _
  · rw [le_gap h1 h2]
    refine answers_bind (scan_gap hc k l1 l2 0 h1 h2) ?_
    rw [Nat.zero_add]; exact answers_pure _
  · rw [le_found h1 h2]
    refine answers_bind (scan_found hc k l1 l2 0 h1) ?_
    rw [Nat.zero_add]; exact answers_pure _
  · rw [le_gap h1 h2, lt_gap h1 h2]
    refine answers_bind (hg k k) ?_
    rw [if_neg (by simp)]
    refine answers_bind (scan_gap hc k l1 l2 0 h1 h2) ?_
    rw [Nat.zero_add]
    have := scan_gap hc k [] l2 l1.length (by simp) h2
    change AlwaysAnswers (scanA cmp k ((l1 ++ l2).drop l1.length) l1.length >>= _) _
    rw [List.drop_left' rfl]
    refine answers_bind this ?_
    show AlwaysAnswers (if l1.length > l1.length then _ else _) _
    rw [if_neg (lt_irrefl _)]
    exact answers_pure _
  · rw [le_found h1 h2, lt_found h1 h2]
    refine answers_bind (hg k k) ?_
    rw [if_neg (by simp)]
    refine answers_bind (scan_found hc k l1 l2 0 h1) ?_
    rw [Nat.zero_add]
    have := scan_found hc k [] l2 l1.length (by simp)
    change AlwaysAnswers (scanA cmp k ((l1 ++ k :: l2).drop l1.length) l1.length >>= _) _
    rw [List.drop_left' rfl]
    refine answers_bind this ?_
    show AlwaysAnswers (if l1.length > l1.length + 1 then _ else _) _
    rw [if_neg (by omega)]
    exact answers_pure _

theorem scan_only {Us : Panic → Prop} {cmp : K → K → Act σ Ordering} (hc : ∀ a b, Only Us (cmp a b)) (k : K) :
    ∀ (l : List K) (i : Nat), Only Us (scanA cmp k l i)
  | [], i => only_pure _
  | x :: l, i => only_bind (hc k x) fun o => by
    cases o with
    | gt => exact scan_only hc k l (i + 1)
    | eq => exact only_pure _
    | lt => exact only_pure _

/-- the panics of the searches -/
theorem panics {Us : Panic → Prop} {cmp : K → K → Act σ Ordering} {gt : K → K → Act σ Bool}
    (hc : ∀ a b, Only Us (cmp a b)) (hg : ∀ a b, Only Us (gt a b)) : @OrdPanics σ K (.leaf cmp gt) Us := by
  let _ := ActOrd.leaf cmp gt
  refine ⟨fun ks k => scan_only hc k ks 0, fun ks k => only_bind (scan_only hc k ks 0) fun _ => only_pure _,
    fun ks k => only_bind (scan_only hc k ks 0) fun _ => only_pure _, fun ks k => ?_⟩
  refine only_bind (only_mono (hg k k) fun _ h => .inl h) fun b => ?_
  cases b with
  | true => exact only_throw (.inr (.inl rfl))
  | false =>
    refine only_bind (only_mono (scan_only hc k ks 0) fun _ h => .inl h) fun lo => ?_
    refine only_bind (only_mono (scan_only hc k _ _) fun _ h => .inl h) fun up => ?_
    show Only _ (if lo.place > up.after then _ else _)
    split
    · exact only_throw (.inr (.inr rfl))
    · exact only_pure _

theorem scan_pure (f : K → K → Ordering) (k : K) : ∀ (l : List K) (i : Nat), ∃ r, ∀ s : σ,
    scanA (fun a b => pure (f a b)) k l i s = .ok (r, s)
  | [], i => ⟨_, fun _ => rfl⟩
  | x :: l, i => by
    obtain ⟨r, h⟩ := scan_pure f k l (i + 1)
    cases e : f k x with
    | gt => exact ⟨r, fun s => by rw [← h s]; show (match f k x with | .gt => _ | .eq => _ | .lt => _ : Act σ Search) s = _; rw [e]⟩
    | eq => exact ⟨.found i, fun s => by show (match f k x with | .gt => _ | .eq => _ | .lt => _ : Act σ Search) s = _; rw [e]; rfl⟩
    | lt => exact ⟨.gap i, fun s => by show (match f k x with | .gt => _ | .eq => _ | .lt => _ : Act σ Search) s = _; rw [e]; rfl⟩

/-- an `Ord` that is a function is steady, whatever function it is -/
theorem steady (f : K → K → Ordering) (gt : K → K → Act σ Bool) : @OrdSteady σ K (.leaf (fun a b => pure (f a b)) gt) := by
  let _ : ActOrd σ K := ActOrd.leaf (fun a b => pure (f a b)) gt
  intro ks k s s' s'' r r' h1 h2 h3
  obtain ⟨q, h⟩ := scan_pure (σ := σ) f k ks 0
  change scanA _ k ks 0 s = _ at h1
  change scanA _ k ks 0 s' = _ at h3
  rw [h] at h1 h3
  cases h1
  cases h3
  exact h2

/-- the edges of `k..=k` are never in the wrong order: the second of the two messages does not occur -/
theorem scan_after (cmp : K → K → Act σ Ordering) (k : K) : ∀ (l : List K) (i : Nat) (s s' : σ) (r : Search),
    scanA cmp k l i s = .ok (r, s') → i ≤ r.after
  | [], i, s, s', r, h => by cases h; exact Nat.le_refl _
  | x :: l, i, s, s', r, h => by
    change (cmp k x s >>= _) = _ at h
    cases hx : cmp k x s with
    | error p => rw [hx] at h; cases h
    | ok p =>
      obtain ⟨o, s1⟩ := p
      rw [hx] at h
      cases o with
      | gt => exact Nat.le_of_succ_le (scan_after cmp k l (i + 1) s1 s' r h)
      | eq => cases h; exact Nat.le_succ _
      | lt => cases h; exact Nat.le_refl _
theorem around_only {Us : Panic → Prop} {cmp : K → K → Act σ Ordering} {gt : K → K → Act σ Bool}
    (hc : ∀ a b, Only Us (cmp a b)) (hg : ∀ a b, Only Us (gt a b)) (ks : List K) (k : K) :
    Only (fun p => Us p ∨ p = .expect "range start is greater than range end in BTreeMap")
      ((ActOrd.leaf cmp gt).around ks k) := by
  refine only_bind (only_mono (hg k k) fun _ h => .inl h) fun b => ?_
  cases b with
  | true => exact only_throw (.inr rfl)
  | false =>
    refine only_bind (only_mono (scan_only hc k ks 0) fun _ h => .inl h) fun lo => ?_
    intro s p e
    change (scanA cmp k (ks.drop lo.place) lo.place s >>= _) = _ at e
    cases hx : scanA cmp k (ks.drop lo.place) lo.place s with
    | error q => rw [hx] at e; cases e; exact .inl (scan_only hc k _ _ s _ hx)
    | ok r =>
      obtain ⟨up, s1⟩ := r
      rw [hx] at e
      change (if lo.place > up.after then throw (.expect "Ord is ill-defined in BTreeMap range")
        else pure (lo.place, up.after) : Act σ (Nat × Nat)) s1 = _ at e
      rw [if_neg (Nat.not_lt.2 (scan_after cmp k _ _ _ _ _ hx))] at e
      cases e

end Leaf
end Veb
