import Verif.Proof.KeyObjTree
import Verif.Proof.SameLeaf

/-!
Trees of the same shape with other leaves and collections, step by step.
-/

set_option autoImplicit false
set_option linter.unusedSectionVars false
namespace Veb

variable {K K' Hi Hi' Lo Lo' V V' T T' C C' S S' : Type}

/-- related trees: the same shape, related parts -/
inductive NodeR (π : K → K') (f : V → V') (SS : S → S' → Prop) (SC : C → C' → Prop) : Tree K V S C → Tree K' V' S' C' → Prop
  | one (p : K × V) : NodeR π f SS SC ⟨p, none⟩ ⟨kvf π f p, none⟩
  | two (p q : K × V) : NodeR π f SS SC ⟨p, some ⟨q, none⟩⟩ ⟨kvf π f p, some ⟨kvf π f q, none⟩⟩
  | more (p q : K × V) {s : S} {s' : S'} {c : C} {c' : C'} (hs : SS s s') (hc : SC c c') :
      NodeR π f SS SC ⟨p, some ⟨q, some (s, c)⟩⟩ ⟨kvf π f p, some ⟨kvf π f q, some (s', c')⟩⟩

section
variable [LinearOrder K] [LinearOrder K'] [VebKey K Hi Lo] [VebKeyRef K Hi Lo] [VebTree S Hi Unit] [VebTree T Lo V]
  [TreeCollection C Hi T Lo V] [VebKey K' Hi' Lo'] [VebKeyRef K' Hi' Lo'] [VebTree S' Hi' Unit] [VebTree T' Lo' V']
  [TreeCollection C' Hi' T' Lo' V'] {π : K → K'} {πh : Hi → Hi'} {πl : Lo → Lo'} {f : V → V'}
  {SS : S → S' → Prop} {ST : T → T' → Prop} {SC : C → C' → Prop}

/-- branching on `==` -/
theorem Rx.ifEq {α β : Type} {P : α → β → Prop} (h : StrictMono π) {a b : K} {x y : R α} {x' y' : R β}
    (h1 : Rx P x x') (h2 : Rx P y y') : Rx P (if a = b then x else y) (if π a = π b then x' else y') := by
  by_cases hk : a = b
  · rw [if_pos hk, if_pos (congrArg π hk)]; exact h1
  · rw [if_neg hk, if_neg (fun e => hk (h.injective e))]; exact h2
/-- branching on `<` -/
theorem Rx.ifLt {α β : Type} {P : α → β → Prop} (h : StrictMono π) {a b : K} {x y : R α} {x' y' : R β}
    (h1 : Rx P x x') (h2 : Rx P y y') : Rx P (if a < b then x else y) (if π a < π b then x' else y') := by
  simp only [h.lt_iff_lt]
  by_cases hk : a < b
  · rw [if_pos hk, if_pos hk]; exact h1
  · rw [if_neg hk, if_neg hk]; exact h2
/-- branching on `<=` -/
theorem Rx.ifLe {α β : Type} {P : α → β → Prop} (h : StrictMono π) {a b : K} {x y : R α} {x' y' : R β}
    (h1 : Rx P x x') (h2 : Rx P y y') : Rx P (if a ≤ b then x else y) (if π a ≤ π b then x' else y') := by
  simp only [h.le_iff_le]
  by_cases hk : a ≤ b
  · rw [if_pos hk, if_pos hk]; exact h1
  · rw [if_neg hk, if_neg hk]; exact h2
theorem cmp_mono (h : StrictMono π) (a b : K) : cmp a b = cmp (π a) (π b) := by
  simp only [cmp, h.lt_iff_lt, h.injective.eq_iff]

theorem NodeR.putMin {t : Tree K V S C} {t' : Tree K' V' S' C'} (h : NodeR π f SS SC t t') (w : V) :
    NodeR π f SS SC (t.putMin w) (t'.putMin (f w)) := by
  cases h with
  | one p => exact .one (p.1, w)
  | two p q => exact .two (p.1, w) q
  | more p q hs hc => exact .more (p.1, w) q hs hc

theorem NodeR.insertBelow (hk : KeyForgets π πh πl) (hS : SameTree πh id SS) (hT : SameTree πl f ST) (hC : SameColl πh πl f ST SC)
    {mn : K × V} {mx : K × V} {ch : Option (S × C)} {ch' : Option (S' × C')}
    (hch : Option.Rel (fun a b => SS a.1 b.1 ∧ SC a.2 b.2) ch ch') (k : K) (v : V) :
    Rx (InsX π f (NodeR π f SS SC)) (Tree.insertBelow mn ⟨mx, ch⟩ k v)
      (Tree.insertBelow (kvf π f mn) ⟨kvf π f mx, ch'⟩ (π k) (f v)) := by
  unfold Tree.insertBelow
  rw [hk.split]
  generalize VebKey.splitVal k = hl
  obtain ⟨h, l⟩ := hl
  cases hch with
  | none => exact (hC.create h (hT.fromMonad l v)).bind fun a b hab => .ok ⟨.more _ _ (hS.fromMonad h ()) hab, rfl⟩
  | @some p q hpq =>
    obtain ⟨s, c⟩ := p
    obtain ⟨s', c'⟩ := q
    refine (hC.insertKey hpq.2 h l v).bind ?_
    rintro ⟨c, r⟩ ⟨c', _⟩ ⟨hc, rfl⟩
    rcases r with h' | ⟨h', _ | ⟨l', v'⟩⟩
    · exact (hS.insert hpq.1 h' ()).bind fun a b hab => .ok ⟨.more _ _ hab.1 hc, rfl⟩
    · exact .ok ⟨.more _ _ hpq.1 hc, rfl⟩
    · refine .ok ⟨.more _ _ hpq.1 hc, ?_⟩
      show some (_, _) = some (_, _)
      rw [hk.join]

theorem same_join (hk : KeyForgets π πh πl) (h : Hi) (l : Lo) (v : V) :
    (VebKey.join (πh h) (πl l), f v) = kvf π f ((VebKey.join h l : K), v) := by
  rw [hk.join]; rfl

/-- the part of `remove_min`/`remove_max` that updates the summary -/
theorem NodeR.rest {g : S → R (Option S × (Hi × Unit))} {g' : S' → R (Option S' × (Hi' × Unit))} {s : S} {s' : S'}
    (hs : SS s s') (hf : Rx (RemX πh id SS) (g s) (g' s')) {o : Option (C × Bool)} {o' : Option (C' × Bool)}
    (ho : Option.Rel (fun x y => SC x.1 y.1 ∧ y.2 = x.2) o o') {m : String} :
    Rx (Option.Rel (fun a b => SS a.1 b.1 ∧ SC a.2 b.2))
      (match (motive := Option (C × Bool) → R (Option (S × C))) o with
        | none => pure none
        | some (children, false) => pure (some (s, children))
        | some (children, true) => do
          let summary ← expect m (← g s).1
          pure (some (summary, children)))
      (match (motive := Option (C' × Bool) → R (Option (S' × C'))) o' with
        | none => pure none
        | some (children, false) => pure (some (s', children))
        | some (children, true) => do
          let summary ← expect m (← g' s').1
          pure (some (summary, children))) := by
  cases ho with
  | none => exact .ok .none
  | @some p q hpq =>
    obtain ⟨c, b⟩ := p
    obtain ⟨c', b'⟩ := q
    obtain ⟨hc, hb⟩ := hpq
    dsimp only at hc hb
    subst hb
    cases b'
    · exact .ok (.some ⟨hs, hc⟩)
    · exact hf.bind fun a b hab => (Rx.expect _ hab.1).bind fun a b hab => .ok (.some ⟨hab, hc⟩)

theorem NodeR.ofChildren {mn mx : K × V} {ch : Option (S × C)} {ch' : Option (S' × C')}
    (hch : Option.Rel (fun a b => SS a.1 b.1 ∧ SC a.2 b.2) ch ch') :
    NodeR π f SS SC ⟨mn, some ⟨mx, ch⟩⟩ ⟨kvf π f mn, some ⟨kvf π f mx, ch'⟩⟩ := by
  cases hch with
  | none => exact .two _ _
  | @some p q hpq =>
    obtain ⟨s, c⟩ := p
    obtain ⟨s', c'⟩ := q
    exact .more _ _ hpq.1 hpq.2

theorem NodeR.removeMin (hk : KeyForgets π πh πl) (hS : SameTree πh id SS) (hT : SameTree πl f ST) (hC : SameColl πh πl f ST SC)
    {t : Tree K V S C} {t' : Tree K' V' S' C'} (h : NodeR π f SS SC t t') :
    Rx (RemX π f (NodeR π f SS SC)) t.removeMin t'.removeMin := by
  cases h with
  | one p => exact .ok ⟨.none, rfl⟩
  | two p q => exact .ok ⟨.some (.one _), rfl⟩
  | more p q hs hc =>
    refine (hS.minVal hs).bind ?_
    rintro ⟨h, ⟨⟩⟩ _ rfl
    refine (hC.removeKey hc h (fun t t' ht => hT.removeMin ht)).bind ?_
    rintro ⟨o, l, v⟩ ⟨o', _⟩ ⟨ho, rfl⟩
    refine (NodeR.rest hs (hS.removeMin hs) ho).bind fun a b hab => .ok ⟨.some ?_, rfl⟩
    show NodeR _ _ _ _ _ ⟨(VebKey.join (πh h) (πl l), f v), _⟩
    rw [same_join hk]
    exact .ofChildren hab

theorem NodeR.removeMax (hk : KeyForgets π πh πl) (hS : SameTree πh id SS) (hT : SameTree πl f ST) (hC : SameColl πh πl f ST SC)
    {t : Tree K V S C} {t' : Tree K' V' S' C'} (h : NodeR π f SS SC t t') :
    Rx (RemX π f (NodeR π f SS SC)) t.removeMax t'.removeMax := by
  cases h with
  | one p => exact .ok ⟨.none, rfl⟩
  | two p q => exact .ok ⟨.some (.one _), rfl⟩
  | more p q hs hc =>
    refine (hS.maxVal hs).bind ?_
    rintro ⟨h, ⟨⟩⟩ _ rfl
    refine (hC.removeKey hc h (fun t t' ht => hT.removeMax ht)).bind ?_
    rintro ⟨o, l, v⟩ ⟨o', _⟩ ⟨ho, rfl⟩
    refine (NodeR.rest hs (hS.removeMax hs) ho).bind fun a b hab => .ok ⟨.some ?_, rfl⟩
    show NodeR _ _ _ _ _ ⟨_, some ⟨(VebKey.join (πh h) (πl l), f v), _⟩⟩
    rw [same_join hk]
    exact .ofChildren hab

set_option maxHeartbeats 1000000 in
theorem Tree.same (hc : StrictMono π) (hk : KeyForgets π πh πl) (hS : SameTree πh id SS) (hT : SameTree πl f ST)
    (hC : SameColl πh πl f ST SC) :
    SameTree (T := Tree K V S C) (T' := Tree K' V' S' C') π f (NodeR π f SS SC) := by
  constructor
  case fromMonad => intro k v; exact .one (k, v)
  case isMonad => rintro t t' h; cases h <;> exact .ok rfl
  case intoMonad =>
    rintro t t' h
    cases h with
    | one p => exact .ok (.ok rfl)
    | two p q => exact .ok (.err (.two p q))
    | more p q hs hc => exact .ok (.err (.more p q hs hc))
  case minVal => rintro t t' h; cases h <;> exact .ok rfl
  case maxVal => rintro t t' h; cases h <;> exact .ok rfl
  case minValMut => rintro t t' h; cases h <;> exact .ok ⟨rfl, rfl, fun w => NodeR.putMin (by constructor <;> assumption) w⟩
  case maxValMut =>
    rintro t t' h
    cases h with
    | one p => exact .ok ⟨rfl, rfl, fun w => .one (p.1, w)⟩
    | two p q => exact .ok ⟨rfl, rfl, fun w => .two p (q.1, w)⟩
    | more p q hs hc => exact .ok ⟨rfl, rfl, fun w => .more p (q.1, w) hs hc⟩
  case find =>
    rintro t t' h k
    show Rx _ (Tree.find t k) (Tree.find t' (π k))
    unfold Tree.find
    cases h with
    | one p => dsimp only [kvf]; rw [cmp_mono hc]; cases cmp (π k) (π p.1) <;> exact .ok rfl
    | two p q =>
      dsimp only [kvf]; rw [cmp_mono hc]
      cases cmp (π k) (π p.1)
      · exact .ok rfl
      · exact .ok rfl
      · exact Rx.ifEq hc (.ok rfl) (.ok rfl)
    | more p q hs hcc =>
      dsimp only [kvf]; rw [cmp_mono hc]
      cases cmp (π k) (π p.1)
      · exact .ok rfl
      · exact .ok rfl
      · refine Rx.ifEq hc (.ok rfl) ?_
        rw [hk.ref]
        refine (hC.get hcc _).bind ?_
        rintro _ _ (ht | _)
        · refine (hT.find ht _).bind ?_
          rintro (_ | ⟨l, v⟩) _ rfl
          · exact .ok rfl
          · exact .ok (congrArg some (same_join hk _ _ _))
        · exact .ok rfl
  case findMut =>
    rintro t t' h k
    show Rx _ (Tree.findMut t k) (Tree.findMut t' (π k))
    unfold Tree.findMut
    cases h with
    | one p =>
      dsimp only [kvf]; rw [cmp_mono hc]
      cases cmp (π k) (π p.1)
      · exact .ok .none
      · exact .ok (.some ⟨rfl, rfl, fun w => .one (p.1, w)⟩)
      · exact .ok .none
    | two p q =>
      dsimp only [kvf]; rw [cmp_mono hc]
      cases cmp (π k) (π p.1)
      · exact .ok .none
      · exact .ok (.some ⟨rfl, rfl, fun w => .two (p.1, w) q⟩)
      · exact Rx.ifEq hc (.ok (.some ⟨rfl, rfl, fun w => .two p (q.1, w)⟩)) (.ok .none)
    | more p q hs hcc =>
      dsimp only [kvf]; rw [cmp_mono hc]
      cases cmp (π k) (π p.1)
      · exact .ok .none
      · exact .ok (.some ⟨rfl, rfl, fun w => .more (p.1, w) q hs hcc⟩)
      · refine Rx.ifEq hc (.ok (.some ⟨rfl, rfl, fun w => .more p (q.1, w) hs hcc⟩)) ?_
        rw [hk.ref]
        refine (hC.getMut hcc _).bind ?_
        rintro _ _ (ht | _)
        · refine (hT.findMut ht.1 _).bind ?_
          rintro _ _ (hm | _)
          · refine .ok (.some ⟨?_, hm.2.1, fun w => .more p q hs (ht.2 _ _ (hm.2.2 w))⟩)
            show VebKey.join _ _ = _
            rw [hm.1, hk.join]
          · exact .ok .none
        · exact .ok .none
  case predecessor =>
    rintro t t' h k
    show Rx _ (Tree.predecessor t k) (Tree.predecessor t' (π k))
    unfold Tree.predecessor
    cases h with
    | one p => dsimp only [kvf]; exact Rx.ifLe hc (.ok rfl) (.ok rfl)
    | two p q =>
      dsimp only [kvf]; rw [cmp_mono hc]
      refine Rx.ifLe hc (.ok rfl) ?_
      cases cmp (π k) (π q.1) <;> exact .ok rfl
    | more p q hs hcc =>
      dsimp only [kvf]; rw [cmp_mono hc]
      refine Rx.ifLe hc (.ok rfl) ?_
      cases cmp (π k) (π q.1)
      · dsimp only
        rw [hk.ref]
        refine Rx.bind (P := OptX πl f) ?_ ?_
        · refine (hC.get hcc _).bind ?_
          rintro _ _ (ht | _)
          · exact hT.predecessor ht _
          · exact .ok rfl
        · rintro (_ | ⟨l, v⟩) _ rfl
          · refine (hS.predecessor hs _).bind ?_
            rintro (_ | ⟨h, ⟨⟩⟩) _ rfl
            · exact .ok rfl
            · refine (hC.get hcc h).bind fun a b hab => (Rx.expect _ hab).bind fun a b hab => (hT.maxVal hab).bind ?_
              rintro ⟨l, v⟩ _ rfl
              exact .ok (congrArg some (same_join hk _ _ _))
          · exact .ok (congrArg some (same_join hk _ _ _))
      · refine (hS.maxVal hs).bind ?_
        rintro ⟨h, ⟨⟩⟩ _ rfl
        refine (hC.get hcc h).bind fun a b hab => (Rx.expect _ hab).bind fun a b hab => (hT.maxVal hab).bind ?_
        rintro ⟨l, v⟩ _ rfl
        exact .ok (congrArg some (same_join hk _ _ _))
      · exact .ok rfl
  case successor =>
    rintro t t' h k
    show Rx _ (Tree.successor t k) (Tree.successor t' (π k))
    unfold Tree.successor
    cases h with
    | one p => dsimp only [kvf]; exact Rx.ifLt hc (.ok rfl) (.ok rfl)
    | two p q =>
      dsimp only [kvf]
      exact Rx.ifLt hc (.ok rfl) (Rx.ifLe hc (.ok rfl) (.ok rfl))
    | more p q hs hcc =>
      dsimp only [kvf]
      refine Rx.ifLt hc (.ok rfl) (Rx.ifLe hc (.ok rfl) (Rx.ifEq hc ?_ ?_))
      · refine (hS.minVal hs).bind ?_
        rintro ⟨h, ⟨⟩⟩ _ rfl
        refine (hC.get hcc h).bind fun a b hab => (Rx.expect _ hab).bind fun a b hab => (hT.minVal hab).bind ?_
        rintro ⟨l, v⟩ _ rfl
        exact .ok (congrArg some (same_join hk _ _ _))
      · rw [hk.ref]
        refine Rx.bind (P := OptX πl f) ?_ ?_
        · refine (hC.get hcc _).bind ?_
          rintro _ _ (ht | _)
          · exact hT.successor ht _
          · exact .ok rfl
        · rintro (_ | ⟨l, v⟩) _ rfl
          · refine (hS.successor hs _).bind ?_
            rintro (_ | ⟨h, ⟨⟩⟩) _ rfl
            · exact .ok rfl
            · refine (hC.get hcc h).bind fun a b hab => (Rx.expect _ hab).bind fun a b hab => (hT.minVal hab).bind ?_
              rintro ⟨l, v⟩ _ rfl
              exact .ok (congrArg some (same_join hk _ _ _))
          · exact .ok (congrArg some (same_join hk _ _ _))
  case insert =>
    rintro t t' h k v
    show Rx _ (Tree.insert t k v) (Tree.insert t' (π k) (f v))
    unfold Tree.insert
    cases h with
    | one p =>
      dsimp only [kvf]; rw [cmp_mono hc]
      cases cmp (π k) (π p.1)
      · exact .ok ⟨.two (k, v) p, rfl⟩
      · exact .ok ⟨.one (k, v), rfl⟩
      · exact .ok ⟨.two p (k, v), rfl⟩
    | two p q =>
      dsimp only [kvf]; rw [cmp_mono hc]
      cases cmp (π k) (π p.1)
      · dsimp only; rw [cmp_mono hc]
        cases cmp (π q.1) (π p.1)
        · exact NodeR.insertBelow hk hS hT hC .none _ _
        · exact .ok ⟨.two (k, v) p, rfl⟩
        · exact NodeR.insertBelow hk hS hT hC .none _ _
      · exact .ok ⟨.two (k, v) q, rfl⟩
      · dsimp only; rw [cmp_mono hc]
        cases cmp (π k) (π q.1)
        · exact NodeR.insertBelow hk hS hT hC .none _ _
        · exact .ok ⟨.two p (k, v), rfl⟩
        · exact NodeR.insertBelow (mx := (k, v)) hk hS hT hC .none _ _
    | more p q hs hcc =>
      dsimp only [kvf]; rw [cmp_mono hc]
      cases cmp (π k) (π p.1)
      · dsimp only; rw [cmp_mono hc]
        cases cmp (π q.1) (π p.1)
        · exact NodeR.insertBelow hk hS hT hC (.some ⟨hs, hcc⟩) _ _
        · exact .ok ⟨.more (k, v) p hs hcc, rfl⟩
        · exact NodeR.insertBelow hk hS hT hC (.some ⟨hs, hcc⟩) _ _
      · exact .ok ⟨.more (k, v) q hs hcc, rfl⟩
      · dsimp only; rw [cmp_mono hc]
        cases cmp (π k) (π q.1)
        · exact NodeR.insertBelow hk hS hT hC (.some ⟨hs, hcc⟩) _ _
        · exact .ok ⟨.more p (k, v) hs hcc, rfl⟩
        · exact NodeR.insertBelow (mx := (k, v)) hk hS hT hC (.some ⟨hs, hcc⟩) _ _
  case removeMin => rintro t t' h; exact h.removeMin hk hS hT hC
  case removeMax => rintro t t' h; exact h.removeMax hk hS hT hC
  case predecessorMut =>
    rintro t t' h k
    show Rx _ (Tree.predecessorMut t k) (Tree.predecessorMut t' (π k))
    unfold Tree.predecessorMut
    cases h with
    | one p => dsimp only [kvf]; exact Rx.ifLe hc (.ok .none) (.ok (.some ⟨rfl, rfl, fun w => .one (p.1, w)⟩))
    | two p q =>
      dsimp only [kvf]; rw [cmp_mono hc]
      refine Rx.ifLe hc (.ok .none) ?_
      cases cmp (π k) (π q.1)
      · exact .ok (.some ⟨rfl, rfl, fun w => .two (p.1, w) q⟩)
      · exact .ok (.some ⟨rfl, rfl, fun w => .two (p.1, w) q⟩)
      · exact .ok (.some ⟨rfl, rfl, fun w => .two p (q.1, w)⟩)
    | more p q hs hcc =>
      dsimp only [kvf]; rw [cmp_mono hc]
      refine Rx.ifLe hc (.ok .none) ?_
      cases cmp (π k) (π q.1)
      · dsimp only
        rw [hk.ref]
        refine Rx.bind (P := Option.Rel (MutX πl f SC)) ?_ ?_
        · refine (hC.getMut hcc _).bind ?_
          rintro _ _ (ht | _)
          · exact (hT.predecessorMut ht.1 _).bind fun a b hab => .ok (mutX_mapOpt ht.2 hab)
          · exact .ok .none
        · rintro _ _ (hm | _)
          · refine .ok (.some ⟨?_, hm.2.1, fun w => .more p q hs (hm.2.2 w)⟩)
            show VebKey.join _ _ = _
            rw [hm.1, hk.join]
          · refine (hS.predecessor hs _).bind ?_
            rintro (_ | ⟨h, ⟨⟩⟩) _ rfl
            · exact .ok (.some ⟨rfl, rfl, fun w => .more (p.1, w) q hs hcc⟩)
            · refine (hC.getMut hcc h).bind fun a b hab => (Rx.expect _ hab).bind fun a b hab =>
                (hT.maxValMut hab.1).bind fun a' b' hm => ?_
              refine .ok (.some ⟨?_, hm.2.1, fun w => .more p q hs (hab.2 _ _ (hm.2.2 w))⟩)
              show VebKey.join _ _ = _
              rw [hm.1, ← hk.join]
      · refine Rx.bind (P := fun _ _ => True) ?_ fun _ _ _ => ?_
        · simp only [hc.lt_iff_lt]
          exact (Rx.refl _).mono fun _ _ _ => trivial
        refine (hS.maxVal hs).bind ?_
        rintro ⟨h, ⟨⟩⟩ _ rfl
        refine (hC.getMut hcc h).bind fun a b hab => (Rx.expect _ hab).bind fun a b hab =>
          (hT.maxValMut hab.1).bind fun a' b' hm => ?_
        refine .ok (.some ⟨?_, hm.2.1, fun w => .more p q hs (hab.2 _ _ (hm.2.2 w))⟩)
        show VebKey.join _ _ = _
        rw [hm.1, ← hk.join]; rfl
      · exact .ok (.some ⟨rfl, rfl, fun w => .more p (q.1, w) hs hcc⟩)
  case successorMut =>
    rintro t t' h k
    show Rx _ (Tree.successorMut t k) (Tree.successorMut t' (π k))
    unfold Tree.successorMut
    cases h with
    | one p => dsimp only [kvf]; exact Rx.ifLt hc (.ok (.some ⟨rfl, rfl, fun w => .one (p.1, w)⟩)) (.ok .none)
    | two p q =>
      dsimp only [kvf]
      exact Rx.ifLt hc (.ok (.some ⟨rfl, rfl, fun w => .two (p.1, w) q⟩))
        (Rx.ifLe hc (.ok .none) (.ok (.some ⟨rfl, rfl, fun w => .two p (q.1, w)⟩)))
    | more p q hs hcc =>
      dsimp only [kvf]
      refine Rx.ifLt hc (.ok (.some ⟨rfl, rfl, fun w => .more (p.1, w) q hs hcc⟩))
        (Rx.ifLe hc (.ok .none) (Rx.ifEq hc ?_ ?_))
      · refine (hS.minVal hs).bind ?_
        rintro ⟨h, ⟨⟩⟩ _ rfl
        refine (hC.getMut hcc h).bind fun a b hab => (Rx.expect _ hab).bind fun a b hab =>
          (hT.minValMut hab.1).bind fun a' b' hm => ?_
        refine .ok (.some ⟨?_, hm.2.1, fun w => .more p q hs (hab.2 _ _ (hm.2.2 w))⟩)
        show VebKey.join _ _ = _
        rw [hm.1, ← hk.join]; rfl
      · rw [hk.ref]
        refine Rx.bind (P := Option.Rel (MutX πl f SC)) ?_ ?_
        · refine (hC.getMut hcc _).bind ?_
          rintro _ _ (ht | _)
          · exact (hT.successorMut ht.1 _).bind fun a b hab => .ok (mutX_mapOpt ht.2 hab)
          · exact .ok .none
        · rintro _ _ (hm | _)
          · refine .ok (.some ⟨?_, hm.2.1, fun w => .more p q hs (hm.2.2 w)⟩)
            show VebKey.join _ _ = _
            rw [hm.1, hk.join]
          · refine (hS.successor hs _).bind ?_
            rintro (_ | ⟨h, ⟨⟩⟩) _ rfl
            · exact .ok (.some ⟨rfl, rfl, fun w => .more p (q.1, w) hs hcc⟩)
            · refine (hC.getMut hcc h).bind fun a b hab => (Rx.expect _ hab).bind fun a b hab =>
                (hT.minValMut hab.1).bind fun a' b' hm => ?_
              refine .ok (.some ⟨?_, hm.2.1, fun w => .more p q hs (hab.2 _ _ (hm.2.2 w))⟩)
              show VebKey.join _ _ = _
              rw [hm.1, ← hk.join]
  case remove =>
    rintro t t' h k
    have hm := h.removeMin hk hS hT hC
    show Rx _ (Tree.remove t k) (Tree.remove t' (π k))
    unfold Tree.remove
    cases h with
    | one p =>
      dsimp only [kvf]
      exact Rx.ifEq hc (hm.bind fun a b hab => .ok (.ok hab)) (.ok (.err (.one p)))
    | two p q =>
      dsimp only [kvf]
      exact Rx.ifEq hc (hm.bind fun a b hab => .ok (.ok hab))
        (Rx.ifEq hc (.ok (.ok ⟨.some (.one p), rfl⟩)) (.ok (.err (.two p q))))
    | more p q hs hcc =>
      dsimp only [kvf]
      refine Rx.ifEq hc (hm.bind fun a b hab => .ok (.ok hab)) (Rx.ifEq hc ?_ ?_)
      · refine (hS.maxVal hs).bind ?_
        rintro ⟨h, ⟨⟩⟩ _ rfl
        refine (hC.removeKey hcc h (fun t t' ht => hT.removeMax ht)).bind ?_
        rintro ⟨o, l, v⟩ ⟨o', _⟩ ⟨ho, rfl⟩
        refine (NodeR.rest hs (hS.removeMax hs) ho).bind fun a b hab => .ok (.ok ⟨.some ?_, rfl⟩)
        show NodeR _ _ _ _ _ ⟨_, some ⟨(VebKey.join (πh h) (πl l), f v), _⟩⟩
        rw [same_join hk]
        exact .ofChildren hab
      · rw [hk.ref]
        refine (hC.maybeRemoveKey hcc _ (fun t t' ht => hT.remove ht _)).bind ?_
        rintro _ _ (@⟨⟨_, ⟨l, v⟩⟩, ⟨_, _⟩, ⟨(@⟨⟨a, _⟩, ⟨a', b⟩, ⟨hab, rfl⟩⟩ | _), rfl⟩⟩ | ht)
        · cases b
          · exact .ok (.ok ⟨.some (.more p q hs hab), same_join hk _ _ _⟩)
          · refine (hS.remove hs _).bind ?_
            rintro _ _ (h | h)
            · exact (Rx.expect _ h.1).bind fun x y hxy => .ok (.ok ⟨.some (.more p q hxy hab), same_join hk _ _ _⟩)
            · exact .err _ _
        · exact .ok (.ok ⟨.some (.two p q), same_join hk _ _ _⟩)
        · exact .ok (.err (.more p q hs ht))
end

section
variable [VebTree T K V] [VebTree T' K' V'] {π : K → K'} {f : V → V'} {R : T → T' → Prop}

/-- related steps -/
def StepX (π : K → K') (f : V → V') (R : T → T' → Prop) (a : Option T × Out K V) (b : Option T' × Out K' V') : Prop :=
  Option.Rel R a.1 b.1 ∧ b.2 = a.2.rename π f

theorem stepX_writeOpt {t : T} {t' : T'} (ht : R t t') (w : V) {a : Option (K × V × (V → T))}
    {b : Option (K' × V' × (V' → T'))} (h : Option.Rel (MutX π f R) a b) :
    StepX π f R (Exec.writeOpt t w a) (Exec.writeOpt t' (f w) b) := by
  cases h with
  | none => exact ⟨.some ht, rfl⟩
  | @some a b h =>
    obtain ⟨k, v, put⟩ := a
    obtain ⟨k', v', put'⟩ := b
    obtain ⟨h1, h2, h3⟩ := h
    dsimp only at h1 h2 h3
    subst h1 h2
    exact ⟨.some (h3 w), rfl⟩

theorem stepX_removed {a : Option T × (K × V)} {b : Option T' × (K' × V')} (h : RemX π f R a b) :
    StepX π f R (Exec.removed a) (Exec.removed b) := by
  obtain ⟨o, p⟩ := a
  obtain ⟨o', _⟩ := b
  obtain ⟨ho, rfl⟩ := h
  exact ⟨ho, rfl⟩

theorem SameTree.stepTree (h : SameTree π f R) {t : T} {t' : T'} (ht : R t t') (op : Op K V) :
    Rx (StepX π f R) (Exec.stepTree t op) (Exec.stepTree t' (op.rename π f)) := by
  cases op with
  | insert k v =>
    refine (h.insert ht k v).bind ?_
    rintro ⟨t, o⟩ ⟨t', _⟩ ⟨ht, rfl⟩
    exact .ok ⟨.some ht, rfl⟩
  | remove k =>
    refine (h.remove ht k).bind ?_
    rintro _ _ (h | h)
    · exact .ok (stepX_removed h)
    · exact .ok ⟨.some h, rfl⟩
  | removeMin => exact (h.removeMin ht).bind fun a b hab => .ok (stepX_removed hab)
  | removeMax => exact (h.removeMax ht).bind fun a b hab => .ok (stepX_removed hab)
  | find k => exact (h.find ht k).bind fun a b hab => .ok ⟨.some ht, congrArg Out.kv hab⟩
  | predecessor k => exact (h.predecessor ht k).bind fun a b hab => .ok ⟨.some ht, congrArg Out.kv hab⟩
  | successor k => exact (h.successor ht k).bind fun a b hab => .ok ⟨.some ht, congrArg Out.kv hab⟩
  | minVal => exact (h.minVal ht).bind fun a b hab => .ok ⟨.some ht, congrArg (Out.kv ∘ some) hab⟩
  | maxVal => exact (h.maxVal ht).bind fun a b hab => .ok ⟨.some ht, congrArg (Out.kv ∘ some) hab⟩
  | isMonad => exact (h.isMonad ht).bind fun a b hab => .ok ⟨.some ht, congrArg Out.bool hab⟩
  | intoMonad =>
    refine (h.intoMonad ht).bind ?_
    rintro _ _ (h | h)
    · exact .ok ⟨.none, congrArg (Out.kv ∘ some) h⟩
    · exact .ok ⟨.some h, rfl⟩
  | findSet k w => exact (h.findMut ht k).bind fun a b hab => .ok (stepX_writeOpt ht w hab)
  | predecessorSet k w => exact (h.predecessorMut ht k).bind fun a b hab => .ok (stepX_writeOpt ht w hab)
  | successorSet k w => exact (h.successorMut ht k).bind fun a b hab => .ok (stepX_writeOpt ht w hab)
  | minSet w => exact (h.minValMut ht).bind fun a b hab => .ok (stepX_writeOpt ht w (.some hab))
  | maxSet w => exact (h.maxValMut ht).bind fun a b hab => .ok (stepX_writeOpt ht w (.some hab))

theorem SameTree.step (h : SameTree π f R) {t : Option T} {t' : Option T'} (ht : Option.Rel R t t') (op : Op K V) :
    Rx (StepX π f R) (Exec.step t op) (Exec.step t' (op.rename π f)) := by
  cases ht with
  | some ht => exact h.stepTree ht op
  | none =>
    cases op with
    | insert k v => exact .ok ⟨.some (h.fromMonad k v), rfl⟩
    | _ => exact .ok ⟨.none, rfl⟩

theorem SameTree.run (h : SameTree π f R) (ops : List (Op K V)) {t : Option T} {t' : Option T'} (ht : Option.Rel R t t') :
    Rx (fun a b => Option.Rel R a.1 b.1 ∧ b.2 = a.2.map (Out.rename π f)) (Exec.run t ops)
      (Exec.run t' (ops.map (Op.rename π f))) := by
  induction ops generalizing t t' with
  | nil => exact .ok ⟨ht, rfl⟩
  | cons op ops ih =>
    refine (h.step ht op).bind ?_
    rintro ⟨t, o⟩ ⟨t', _⟩ ⟨ht, rfl⟩
    refine (ih ht).bind ?_
    rintro ⟨t, os⟩ ⟨t', _⟩ ⟨ht, rfl⟩
    exact .ok ⟨ht, rfl⟩
end

end Veb
