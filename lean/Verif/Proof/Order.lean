import Verif.SpecOrder
import Verif.Proof.Descend

/-! Helper lemmas for C97: insertions in any order. -/

set_option autoImplicit false

namespace Veb
open VebTree

section
variable {K V : Type}

theorem inserting_eq (es : List (K × V)) : inserting es = descending es.reverse := by
  simp [inserting, descending]

theorem inserting_snoc {T : Type} [VebTree T K V] {l : List (K × V)} {e : K × V} (hl : l ≠ []) {t : T}
    (h : Reaches (inserting (l ++ [e])) t) :
    ∃ (u : T) (o : Option (K × V)), Reaches (inserting l) u ∧ VebTree.insert u e.1 e.2 = .ok (t, o) := by
  rw [inserting_eq, List.reverse_append, List.reverse_singleton, List.singleton_append] at h
  obtain ⟨b, l', hb⟩ := List.exists_cons_of_ne_nil (l := l.reverse) (by simpa using hl)
  rw [hb] at h
  obtain ⟨u, o, h1, h2⟩ := reaches_cons h
  exact ⟨u, o, by rw [inserting_eq, hb]; exact h1, h2⟩

theorem contents_inserting [LinearOrder K] {l : List (K × V)} (hd : DistinctKeys l) {e : K × V} (he : e ∈ l) :
    contents (inserting l) e.1 = some e.2 := by
  induction l using List.reverseRecOn with
  | nil => cases he
  | append_singleton l x ih =>
    obtain ⟨hd1, -, hd2⟩ := List.pairwise_append.1 hd
    have h1 : SL.Lists (entries (inserting (l ++ [x]))) ((contents (inserting l)).upd x.1 (some x.2)) := by
      rw [show inserting (l ++ [x]) = inserting l ++ [.insert x.1 x.2] by simp [inserting], entries_snoc]
      exact (entries_lists (inserting l)).insert x.1 x.2
    rw [contents, h1.toMap_eq, Map.upd_apply]
    rcases List.mem_append.1 he with hm | hm
    · rw [if_neg (hd2 e hm x (by simp))]
      exact ih hd1 hm
    · rw [List.mem_singleton.1 hm, if_pos rfl]

theorem keeps_inserting (l : List (K × V)) : ∀ op ∈ inserting l, op.keeps = true := by
  rw [inserting_eq]
  exact keeps_descending _

theorem insertions_inserting (l : List (K × V)) : insertions (inserting l) = l.length := by
  rw [inserting_eq, insertions_descending, List.length_reverse]

theorem topOf_unique [LinearOrder K] {p q : List (K × V)} {m m' : K × V} (hd : DistinctKeys (p ++ q))
    (h : TopOf p q m) (h' : TopOf p q m') : m = m' := by
  have hm : ∀ {x}, TopOf p q x → x ∈ p ++ q := fun hx =>
    List.mem_append.2 (hx.1.elim .inr fun y => .inl y.1)
  have he : m.1 = m'.1 := le_antisymm (h'.2 _ h.1) (h.2 _ h'.1)
  by_contra hne
  have : Std.Symm (fun x y : K × V => x.1 ≠ y.1) := ⟨fun _ _ x y => x y.symm⟩
  exact hd.forall (hm h) (hm h') hne he

end

section
variable {K V S C Hi Lo T : Type} [LinearOrder K] [VebKey K Hi Lo]
  [VebKeyRef K Hi Lo] [VebTree S Hi Unit] [VebTree T Lo V] [TreeCollection C Hi T Lo V]

theorem insert_below {u t : Tree K V S C} {e : K × V} {o : Option (K × V)}
    (h : VebTree.insert u e.1 e.2 = .ok (t, o)) (hlt : e.1 < u.min.1)
    (hd : ∀ d, u.data = some d → u.min.1 < d.max.1) : t.min = e ∧ ∃ d, t.data = some d ∧ d.max = u.min := by
  have e1 : cmp e.1 u.min.1 = .lt := cmp_lt hlt
  rcases hq : u.data with _ | d
  · simp only [VebTree.insert, Tree.insert, e1, hq] at h
    cases h
    exact ⟨rfl, _, rfl, rfl⟩
  · have e2 : cmp d.max.1 u.min.1 = .gt := cmp_gt (hd d hq)
    simp only [VebTree.insert, Tree.insert, e1, hq, e2] at h
    obtain ⟨g1, d', g2, g3⟩ := insertBelow_top h
    exact ⟨g1, d', g2, g3⟩

theorem insert_above {u t : Tree K V S C} {e : K × V} {o : Option (K × V)}
    (h : VebTree.insert u e.1 e.2 = .ok (t, o)) (hlt : u.min.1 < e.1)
    (hd : ∀ d, u.data = some d → d.max.1 ≠ e.1) : t.min = u.min ∧ ∃ d, t.data = some d ∧
      (u.data = none ∧ d.max = e ∨ ∃ d0, u.data = some d0 ∧
        (d0.max.1 < e.1 ∧ d.max = e ∨ e.1 < d0.max.1 ∧ d.max = d0.max)) := by
  have e1 : cmp e.1 u.min.1 = .gt := cmp_gt hlt
  rcases hq : u.data with _ | d
  · simp only [VebTree.insert, Tree.insert, e1, hq] at h
    cases h
    exact ⟨rfl, _, rfl, .inl ⟨rfl, rfl⟩⟩
  · rcases lt_or_gt_of_ne (hd d hq) with hx | hx
    · have e2 : cmp e.1 d.max.1 = .gt := cmp_gt hx
      simp only [VebTree.insert, Tree.insert, e1, hq, e2] at h
      obtain ⟨g1, d', g2, g3⟩ := insertBelow_top h
      exact ⟨g1, d', g2, .inr ⟨d, rfl, .inl ⟨hx, g3⟩⟩⟩
    · have e2 : cmp e.1 d.max.1 = .lt := cmp_lt hx
      simp only [VebTree.insert, Tree.insert, e1, hq, e2] at h
      obtain ⟨g1, d', g2, g3⟩ := insertBelow_top h
      exact ⟨g1, d', g2, .inr ⟨d, rfl, .inr ⟨hx, g3⟩⟩⟩

/-- what is known of a tree made by insertions -/
theorem inserting_inv {l : List (K × V)} (hl : l ≠ []) (hd : DistinctKeys l) {t : Tree K V S C}
    (hr : Reaches (inserting l) t) : LeastOf t.min l ∧ ∀ d, t.data = some d → d.max ∈ l ∧ t.min.1 < d.max.1 := by
  induction l using List.reverseRecOn generalizing t with
  | nil => exact absurd rfl hl
  | append_singleton l e ih =>
    by_cases hl' : l = []
    · subst hl'
      rw [reaches_single (a := e) hr]
      exact ⟨⟨by simp [VebTree.fromMonad, Tree.fromMonad], by simp [VebTree.fromMonad, Tree.fromMonad]⟩,
        fun d h => by cases h⟩
    · obtain ⟨u, o, h1, h2⟩ := inserting_snoc hl' hr
      obtain ⟨hd1, -, hd2⟩ := List.pairwise_append.1 hd
      obtain ⟨⟨h3, h4⟩, h5⟩ := ih hl' hd1 h1
      rcases lt_or_gt_of_ne (hd2 _ h3 e (by simp)) with hx | hx
      · obtain ⟨g1, d, g2, g3⟩ := insert_above h2 hx fun d h => hd2 _ (h5 d h).1 e (by simp)
        refine ⟨⟨by rw [g1]; simp [h3], fun x hm => ?_⟩, fun d' h => ?_⟩
        · rw [g1]
          rcases List.mem_append.1 hm with hm | hm
          · exact h4 x hm
          · rw [List.mem_singleton.1 hm]; exact hx.le
        · rw [g2] at h
          cases h
          rw [g1]
          obtain ⟨-, g3⟩ | ⟨d0, g4, ⟨-, g3⟩ | ⟨-, g3⟩⟩ := g3
          · rw [g3]; exact ⟨by simp, hx⟩
          · rw [g3]; exact ⟨by simp, hx⟩
          · rw [g3]; exact ⟨by simp [(h5 d0 g4).1], (h5 d0 g4).2⟩
      · obtain ⟨g1, d, g2, g3⟩ := insert_below h2 hx fun d h => (h5 d h).2
        refine ⟨⟨by simp [g1], fun x hm => ?_⟩, fun d' h => ?_⟩
        · rw [g1]
          rcases List.mem_append.1 hm with hm | hm
          · exact hx.le.trans (h4 x hm)
          · rw [List.mem_singleton.1 hm]
        · rw [g2] at h
          cases h
          rw [g1, g3]
          exact ⟨by simp [h3], hx⟩

theorem inserting_top {p q : List (K × V)} {a : K × V} (hd : DistinctKeys (p ++ a :: q))
    (ha : ∀ x ∈ p ++ q, a.1 < x.1) {t : Tree K V S C} (hr : Reaches (inserting (p ++ a :: q)) t) :
    t.min = a ∧ (p ++ q = [] ∧ t.data = none ∨ ∃ d, t.data = some d ∧ TopOf p q d.max) := by
  induction q using List.reverseRecOn generalizing t with
  | nil =>
    by_cases hp : p = []
    · subst hp
      rw [reaches_single (a := a) hr]
      exact ⟨rfl, .inl ⟨rfl, rfl⟩⟩
    · obtain ⟨u, o, h1, h2⟩ := inserting_snoc hp hr
      obtain ⟨hd1, -, -⟩ := List.pairwise_append.1 hd
      obtain ⟨h3, h4⟩ := inserting_inv hp hd1 h1
      obtain ⟨g1, d, g2, g3⟩ := insert_below h2 (ha _ (by simp [h3.1])) fun d h => (h4 d h).2
      refine ⟨g1, .inr ⟨d, g2, .inr (g3 ▸ h3), ?_⟩⟩
      rintro x (hx | hx)
      · cases hx
      · rw [g3]; exact hx.2 _ h3.1
  | append_singleton q e ih =>
    have happ : p ++ a :: (q ++ [e]) = (p ++ a :: q) ++ [e] := by simp
    rw [happ] at hr hd
    obtain ⟨u, o, h1, h2⟩ := inserting_snoc (by simp) hr
    obtain ⟨hd1, -, hd2⟩ := List.pairwise_append.1 hd
    obtain ⟨h3, h4⟩ := ih hd1 (fun x hx => ha x (by rw [← List.append_assoc]; exact List.mem_append_left _ hx)) h1
    have hae : a.1 < e.1 := ha e (by simp)
    obtain ⟨g1, d, g2, g3⟩ := insert_above h2 (by rw [h3]; exact hae) fun d h =>
      hd2 _ ((inserting_inv (by simp) hd1 h1).2 d h).1 e (by simp)
    refine ⟨g1.trans h3, .inr ⟨d, g2, ?_⟩⟩
    obtain ⟨h5, h6⟩ | ⟨d1, h5, h6, h7⟩ := h4
    · obtain ⟨rfl, rfl⟩ := List.append_eq_nil_iff.1 h5
      obtain ⟨-, g3⟩ | ⟨d0, g4, -⟩ := g3
      · rw [g3]
        refine ⟨.inl (by simp), ?_⟩
        rintro x (hx | hx)
        · rw [List.mem_singleton.1 hx]
        · cases hx.1
      · rw [h6] at g4; cases g4
    · obtain ⟨g4, -⟩ | ⟨d0, g4, g3⟩ := g3
      · rw [h5] at g4; cases g4
      · rw [h5] at g4
        cases g4
        obtain ⟨g4, g3⟩ | ⟨g4, g3⟩ := g3
        · rw [g3]
          refine ⟨.inl (by simp), ?_⟩
          rintro x (hx | hx)
          · rcases List.mem_append.1 hx with hx | hx
            · exact (h7 x (.inl hx)).trans g4.le
            · rw [List.mem_singleton.1 hx]
          · exact (h7 x (.inr hx)).trans g4.le
        · rw [g3]
          refine ⟨h6.imp (fun h => by simp [h]) id, ?_⟩
          rintro x (hx | hx)
          · rcases List.mem_append.1 hx with hx | hx
            · exact h7 x (.inl hx)
            · rw [List.mem_singleton.1 hx]; exact g4.le
          · exact h7 x (.inr hx)

end

end Veb
