import Verif.Proof.KeyObjColl
import Verif.Proof.Crate
import Verif.Proof.Hist

/-!
Simulation between `Tree`s and between histories; see `Verif.Proof.KeyObj`.
-/

set_option autoImplicit false
set_option linter.unusedSectionVars false
namespace Veb

variable {K K' Hi Hi' Lo Lo' V T T' C C' S S' : Type}

/-- related trees: the same shape, related parts -/
inductive TreeR (π : K → K') (SS : S → S' → Prop) (SC : C → C' → Prop) : OTree K V S C → Tree K' V S' C' → Prop
  | one (p : K × V) : TreeR π SS SC ⟨p, none⟩ ⟨kvm π p, none⟩
  | two (p q : K × V) : TreeR π SS SC ⟨p, some ⟨q, none⟩⟩ ⟨kvm π p, some ⟨kvm π q, none⟩⟩
  | more (p q : K × V) {s : S} {s' : S'} {c : C} {c' : C'} (hs : SS s s') (hc : SC c c') :
      TreeR π SS SC ⟨p, some ⟨q, some (s, c)⟩⟩ ⟨kvm π p, some ⟨kvm π q, some (s', c')⟩⟩

section
variable [OrdKey K] [LinearOrder K'] [VebKey K Hi Lo] [VebKeyRef K Hi Lo] [VebTree S Hi Unit] [VebTree T Lo V]
  [TreeCollection C Hi T Lo V] [VebKey K' Hi' Lo'] [VebKeyRef K' Hi' Lo'] [VebTree S' Hi' Unit] [VebTree T' Lo' V]
  [TreeCollection C' Hi' T' Lo' V] {π : K → K'} {πh : Hi → Hi'} {πl : Lo → Lo'}
  {SS : S → S' → Prop} {ST : T → T' → Prop} {SC : C → C' → Prop}

theorem Forgets.any (h : Forgets π) (a b : K) : AnyOrd.cmp a b = cmp (π a) (π b) := h a b
theorem Forgets.gt (h : Forgets π) (a b : K) : AnyOrd.gt a b = true ↔ π b < π a := by
  show (OrdKey.cmp a b == .gt) = true ↔ _
  rw [h]
  rcases lt_trichotomy (π a) (π b) with hk | hk | hk
  · simp [cmp_lt hk, hk.le]
  · simp [hk, cmp_self]
  · simp [cmp_gt hk, hk]
theorem Forgets.ge (h : Forgets π) (a b : K) : AnyOrd.ge a b = true ↔ π b ≤ π a := by
  show (OrdKey.cmp a b != .lt) = true ↔ _
  rw [h]
  rcases lt_trichotomy (π a) (π b) with hk | hk | hk
  · simp [cmp_lt hk, hk]
  · simp [hk, cmp_self]
  · simp [cmp_gt hk, hk.le]
theorem eq_false (h : Forgets π) {a b : K} (hk : ¬ π a = π b) : OrdKey.eq a b = false := by
  rw [← Bool.not_eq_true, h.eq]; exact hk
theorem lt_false (h : Forgets π) {a b : K} (hk : ¬ π a < π b) : OrdKey.lt a b = false := by
  rw [← Bool.not_eq_true, h.lt]; exact hk
theorem le_false (h : Forgets π) {a b : K} (hk : ¬ π a ≤ π b) : OrdKey.le a b = false := by
  rw [← Bool.not_eq_true, h.le]; exact hk

/-- branching on `==` -/
theorem Rl.ifEq {α β : Type} {P : α → β → Prop} (h : Forgets π) {a b : K} {x y : R α} {x' y' : R β}
    (h1 : Rl P x x') (h2 : Rl P y y') :
    Rl P (if OrdKey.eq a b = true then x else y) (if π a = π b then x' else y') := by
  by_cases hk : π a = π b
  · rw [if_pos ((h.eq _ _).2 hk), if_pos hk]; exact h1
  · rw [if_neg (by simp [eq_false h hk]), if_neg hk]; exact h2
/-- branching on `<` -/
theorem Rl.ifLt {α β : Type} {P : α → β → Prop} (h : Forgets π) {a b : K} {x y : R α} {x' y' : R β}
    (h1 : Rl P x x') (h2 : Rl P y y') :
    Rl P (if OrdKey.lt a b = true then x else y) (if π a < π b then x' else y') := by
  by_cases hk : π a < π b
  · rw [if_pos ((h.lt _ _).2 hk), if_pos hk]; exact h1
  · rw [if_neg (by simp [lt_false h hk]), if_neg hk]; exact h2
/-- branching on `<=` -/
theorem Rl.ifLe {α β : Type} {P : α → β → Prop} (h : Forgets π) {a b : K} {x y : R α} {x' y' : R β}
    (h1 : Rl P x x') (h2 : Rl P y y') :
    Rl P (if OrdKey.le a b = true then x else y) (if π a ≤ π b then x' else y') := by
  by_cases hk : π a ≤ π b
  · rw [if_pos ((h.le _ _).2 hk), if_pos hk]; exact h1
  · rw [if_neg (by simp [le_false h hk]), if_neg hk]; exact h2
/-- branching on `>=` -/
theorem Rl.ifGe {α β : Type} {P : α → β → Prop} (h : Forgets π) {a b : K} {x y : R α} {x' y' : R β}
    (h1 : Rl P x x') (h2 : Rl P y y') :
    Rl P (if AnyOrd.ge a b = true then x else y) (if π b ≤ π a then x' else y') := by
  by_cases hk : π b ≤ π a
  · rw [if_pos ((h.ge _ _).2 hk), if_pos hk]; exact h1
  · rw [if_neg (fun e => hk ((h.ge _ _).1 e)), if_neg hk]; exact h2

theorem TreeR.putMin {t : OTree K V S C} {t' : Tree K' V S' C'} (h : TreeR π SS SC t t') (w : V) :
    TreeR π SS SC (t.putMin w) (t'.putMin w) := by
  cases h with
  | one p => exact .one (p.1, w)
  | two p q => exact .two (p.1, w) q
  | more p q hs hc => exact .more (p.1, w) q hs hc

theorem TreeR.insertBelow (hk : KeyForgets π πh πl) (hS : SimTree πh SS) (hT : SimTree πl ST) (hC : SimColl πh πl ST SC)
    {mn : K × V} {mx : K × V} {ch : Option (S × C)} {ch' : Option (S' × C')}
    (hch : Option.Rel (fun a b => SS a.1 b.1 ∧ SC a.2 b.2) ch ch') (k : K) (v : V) :
    Rl (InsR π (TreeR π SS SC)) (OTree.insertBelow mn ⟨mx, ch⟩ k v)
      (Tree.insertBelow (kvm π mn) ⟨kvm π mx, ch'⟩ (π k) v) := by
  unfold OTree.insertBelow Tree.insertBelow
  rw [hk.split]
  generalize VebKey.splitVal k = hl
  obtain ⟨h, l⟩ := hl
  cases hch with
  | none => exact (hC.create h (hT.fromMonad l v)).bind fun a b hab => .ok ⟨.more _ _ (hS.fromMonad h ()) hab, rfl⟩
  | @some p q hpq =>
    obtain ⟨s, c⟩ := p
    obtain ⟨s', c'⟩ := q
    refine (hC.insertKey hpq.2 h l v).bind ?_
    rintro ⟨c, r⟩ ⟨c', _⟩ ⟨hc, rfl⟩
    rcases r with h' | ⟨h', _ | ⟨l', v'⟩⟩
    · exact (hS.insert hpq.1 h' ()).bind fun a b hab => .ok ⟨.more _ _ hab.1 hc, rfl⟩
    · exact .ok ⟨.more _ _ hpq.1 hc, rfl⟩
    · refine .ok ⟨.more _ _ hpq.1 hc, ?_⟩
      show some (_, _) = some (_, _)
      rw [hk.join]

theorem kvm_join (hk : KeyForgets π πh πl) (h : Hi) (l : Lo) (v : V) :
    (VebKey.join (πh h) (πl l), v) = kvm π ((VebKey.join h l : K), v) := by
  rw [hk.join]; rfl

/-- the part of `remove_min`/`remove_max` that updates the summary -/
theorem TreeR.rest {f : S → R (Option S × (Hi × Unit))} {f' : S' → R (Option S' × (Hi' × Unit))} {s : S} {s' : S'}
    (hs : SS s s') (hf : Rl (RemR πh SS) (f s) (f' s')) {o : Option (C × Bool)} {o' : Option (C' × Bool)}
    (ho : Option.Rel (fun x y => SC x.1 y.1 ∧ y.2 = x.2) o o') {m : String} :
    Rl (Option.Rel (fun a b => SS a.1 b.1 ∧ SC a.2 b.2))
      (match (motive := Option (C × Bool) → R (Option (S × C))) o with
        | none => pure none
        | some (children, false) => pure (some (s, children))
        | some (children, true) => do
          let summary ← expect m (← f s).1
          pure (some (summary, children)))
      (match (motive := Option (C' × Bool) → R (Option (S' × C'))) o' with
        | none => pure none
        | some (children, false) => pure (some (s', children))
        | some (children, true) => do
          let summary ← expect m (← f' s').1
          pure (some (summary, children))) := by
  cases ho with
  | none => exact .ok .none
  | @some p q hpq =>
    obtain ⟨c, b⟩ := p
    obtain ⟨c', b'⟩ := q
    obtain ⟨hc, hb⟩ := hpq
    dsimp only at hc hb
    subst hb
    cases b'
    · exact .ok (.some ⟨hs, hc⟩)
    · exact hf.bind fun a b hab => (Rl.expect _ hab.1).bind fun a b hab => .ok (.some ⟨hab, hc⟩)

theorem TreeR.ofChildren {mn mx : K × V} {ch : Option (S × C)} {ch' : Option (S' × C')}
    (hch : Option.Rel (fun a b => SS a.1 b.1 ∧ SC a.2 b.2) ch ch') :
    TreeR π SS SC ⟨mn, some ⟨mx, ch⟩⟩ ⟨kvm π mn, some ⟨kvm π mx, ch'⟩⟩ := by
  cases hch with
  | none => exact .two _ _
  | @some p q hpq =>
    obtain ⟨s, c⟩ := p
    obtain ⟨s', c'⟩ := q
    exact .more _ _ hpq.1 hpq.2

theorem TreeR.removeMin (hk : KeyForgets π πh πl) (hS : SimTree πh SS) (hT : SimTree πl ST) (hC : SimColl πh πl ST SC)
    {t : OTree K V S C} {t' : Tree K' V S' C'} (h : TreeR π SS SC t t') :
    Rl (RemR π (TreeR π SS SC)) t.removeMin t'.removeMin := by
  cases h with
  | one p => exact .ok ⟨.none, rfl⟩
  | two p q => exact .ok ⟨.some (.one _), rfl⟩
  | more p q hs hc =>
    refine (hS.minVal hs).bind ?_
    rintro ⟨h, ⟨⟩⟩ _ rfl
    refine (hC.removeKey hc h (fun t t' ht => hT.removeMin ht)).bind ?_
    rintro ⟨o, l, v⟩ ⟨o', _⟩ ⟨ho, rfl⟩
    refine (TreeR.rest hs (hS.removeMin hs) ho).bind fun a b hab => .ok ⟨.some ?_, rfl⟩
    show TreeR _ _ _ _ ⟨(VebKey.join (πh h) (πl l), v), _⟩
    rw [kvm_join hk]
    exact .ofChildren hab

theorem TreeR.removeMax (hk : KeyForgets π πh πl) (hS : SimTree πh SS) (hT : SimTree πl ST) (hC : SimColl πh πl ST SC)
    {t : OTree K V S C} {t' : Tree K' V S' C'} (h : TreeR π SS SC t t') :
    Rl (RemR π (TreeR π SS SC)) t.removeMax t'.removeMax := by
  cases h with
  | one p => exact .ok ⟨.none, rfl⟩
  | two p q => exact .ok ⟨.some (.one _), rfl⟩
  | more p q hs hc =>
    refine (hS.maxVal hs).bind ?_
    rintro ⟨h, ⟨⟩⟩ _ rfl
    refine (hC.removeKey hc h (fun t t' ht => hT.removeMax ht)).bind ?_
    rintro ⟨o, l, v⟩ ⟨o', _⟩ ⟨ho, rfl⟩
    refine (TreeR.rest hs (hS.removeMax hs) ho).bind fun a b hab => .ok ⟨.some ?_, rfl⟩
    show TreeR _ _ _ _ ⟨_, some ⟨(VebKey.join (πh h) (πl l), v), _⟩⟩
    rw [kvm_join hk]
    exact .ofChildren hab

set_option maxHeartbeats 1000000 in
theorem OTree.sim (hc : Forgets π) (hk : KeyForgets π πh πl) (hS : SimTree πh SS) (hT : SimTree πl ST)
    (hC : SimColl πh πl ST SC) :
    SimTree (T := OTree K V S C) (T' := Tree K' V S' C') π (TreeR π SS SC) := by
  constructor
  case fromMonad => intro k v; exact .one (k, v)
  case isMonad => rintro t t' h; cases h <;> exact .ok rfl
  case lenHint => rintro t t' h; cases h <;> exact .ok rfl
  case intoMonad =>
    rintro t t' h
    cases h with
    | one p => exact .ok (.ok rfl)
    | two p q => exact .ok (.err (.two p q))
    | more p q hs hc => exact .ok (.err (.more p q hs hc))
  case minVal => rintro t t' h; cases h <;> exact .ok rfl
  case maxVal => rintro t t' h; cases h <;> exact .ok rfl
  case minValMut => rintro t t' h; cases h <;> exact .ok ⟨rfl, rfl, fun w => TreeR.putMin (by constructor <;> assumption) w⟩
  case maxValMut =>
    rintro t t' h
    cases h with
    | one p => exact .ok ⟨rfl, rfl, fun w => .one (p.1, w)⟩
    | two p q => exact .ok ⟨rfl, rfl, fun w => .two p (q.1, w)⟩
    | more p q hs hc => exact .ok ⟨rfl, rfl, fun w => .more p (q.1, w) hs hc⟩
  case find =>
    rintro t t' h k
    show Rl _ (find t k) (Tree.find t' (π k))
    unfold find Tree.find
    cases h with
    | one p => dsimp only [kvm]; rw [hc.any]; cases cmp (π k) (π p.1) <;> exact .ok rfl
    | two p q =>
      dsimp only [kvm]; rw [hc.any]
      cases cmp (π k) (π p.1)
      · exact .ok rfl
      · exact .ok rfl
      · exact Rl.ifEq hc (.ok rfl) (.ok rfl)
    | more p q hs hcc =>
      dsimp only [kvm]; rw [hc.any]
      cases cmp (π k) (π p.1)
      · exact .ok rfl
      · exact .ok rfl
      · refine Rl.ifEq hc (.ok rfl) ?_
        rw [hk.ref]
        refine (hC.get hcc _).bind ?_
        rintro _ _ (ht | _)
        · refine (hT.find ht _).bind ?_
          rintro (_ | ⟨l, v⟩) _ rfl
          · exact .ok rfl
          · exact .ok (congrArg some (kvm_join hk _ _ _))
        · exact .ok rfl
  case findMut =>
    rintro t t' h k
    show Rl _ (findMut t k) (Tree.findMut t' (π k))
    unfold findMut Tree.findMut
    cases h with
    | one p =>
      dsimp only [kvm]; rw [hc.any]
      cases cmp (π k) (π p.1)
      · exact .ok .none
      · exact .ok (.some ⟨rfl, rfl, fun w => .one (p.1, w)⟩)
      · exact .ok .none
    | two p q =>
      dsimp only [kvm]; rw [hc.any]
      cases cmp (π k) (π p.1)
      · exact .ok .none
      · exact .ok (.some ⟨rfl, rfl, fun w => .two (p.1, w) q⟩)
      · exact Rl.ifEq hc (.ok (.some ⟨rfl, rfl, fun w => .two p (q.1, w)⟩)) (.ok .none)
    | more p q hs hcc =>
      dsimp only [kvm]; rw [hc.any]
      cases cmp (π k) (π p.1)
      · exact .ok .none
      · exact .ok (.some ⟨rfl, rfl, fun w => .more (p.1, w) q hs hcc⟩)
      · refine Rl.ifEq hc (.ok (.some ⟨rfl, rfl, fun w => .more p (q.1, w) hs hcc⟩)) ?_
        rw [hk.ref]
        refine (hC.getMut hcc _).bind ?_
        rintro _ _ (ht | _)
        · refine (hT.findMut ht.1 _).bind ?_
          rintro _ _ (hm | _)
          · refine .ok (.some ⟨?_, hm.2.1, fun w => .more p q hs (ht.2 _ _ (hm.2.2 w))⟩)
            show VebKey.join _ _ = _
            rw [hm.1, hk.join]
          · exact .ok .none
        · exact .ok .none
  case predecessor =>
    rintro t t' h k
    show Rl _ (predecessor t k) (Tree.predecessor t' (π k))
    unfold predecessor Tree.predecessor
    cases h with
    | one p => dsimp only [kvm]; exact Rl.ifLe hc (.ok rfl) (.ok rfl)
    | two p q =>
      dsimp only [kvm]; rw [hc.any]
      refine Rl.ifLe hc (.ok rfl) ?_
      cases cmp (π k) (π q.1) <;> exact .ok rfl
    | more p q hs hcc =>
      dsimp only [kvm]; rw [hc.any]
      refine Rl.ifLe hc (.ok rfl) ?_
      cases cmp (π k) (π q.1)
      · dsimp only
        rw [hk.ref]
        refine Rl.bind (P := OptR πl) ?_ ?_
        · refine (hC.get hcc _).bind ?_
          rintro _ _ (ht | _)
          · exact hT.predecessor ht _
          · exact .ok rfl
        · rintro (_ | ⟨l, v⟩) _ rfl
          · refine (hS.predecessor hs _).bind ?_
            rintro (_ | ⟨h, ⟨⟩⟩) _ rfl
            · exact .ok rfl
            · refine (hC.get hcc h).bind fun a b hab => (Rl.expect _ hab).bind fun a b hab => (hT.maxVal hab).bind ?_
              rintro ⟨l, v⟩ _ rfl
              exact .ok (congrArg some (kvm_join hk _ _ _))
          · exact .ok (congrArg some (kvm_join hk _ _ _))
      · refine (hS.maxVal hs).bind ?_
        rintro ⟨h, ⟨⟩⟩ _ rfl
        refine (hC.get hcc h).bind fun a b hab => (Rl.expect _ hab).bind fun a b hab => (hT.maxVal hab).bind ?_
        rintro ⟨l, v⟩ _ rfl
        exact .ok (congrArg some (kvm_join hk _ _ _))
      · exact .ok rfl
  case successor =>
    rintro t t' h k
    show Rl _ (successor t k) (Tree.successor t' (π k))
    unfold successor Tree.successor
    cases h with
    | one p => dsimp only [kvm]; exact Rl.ifLt hc (.ok rfl) (.ok rfl)
    | two p q =>
      dsimp only [kvm]
      exact Rl.ifLt hc (.ok rfl) (Rl.ifGe hc (.ok rfl) (.ok rfl))
    | more p q hs hcc =>
      dsimp only [kvm]
      refine Rl.ifLt hc (.ok rfl) (Rl.ifGe hc (.ok rfl) (Rl.ifEq hc ?_ ?_))
      · refine (hS.minVal hs).bind ?_
        rintro ⟨h, ⟨⟩⟩ _ rfl
        refine (hC.get hcc h).bind fun a b hab => (Rl.expect _ hab).bind fun a b hab => (hT.minVal hab).bind ?_
        rintro ⟨l, v⟩ _ rfl
        exact .ok (congrArg some (kvm_join hk _ _ _))
      · rw [hk.ref]
        refine Rl.bind (P := OptR πl) ?_ ?_
        · refine (hC.get hcc _).bind ?_
          rintro _ _ (ht | _)
          · exact hT.successor ht _
          · exact .ok rfl
        · rintro (_ | ⟨l, v⟩) _ rfl
          · refine (hS.successor hs _).bind ?_
            rintro (_ | ⟨h, ⟨⟩⟩) _ rfl
            · exact .ok rfl
            · refine (hC.get hcc h).bind fun a b hab => (Rl.expect _ hab).bind fun a b hab => (hT.minVal hab).bind ?_
              rintro ⟨l, v⟩ _ rfl
              exact .ok (congrArg some (kvm_join hk _ _ _))
          · exact .ok (congrArg some (kvm_join hk _ _ _))
  case insert =>
    rintro t t' h k v
    show Rl _ (insert t k v) (Tree.insert t' (π k) v)
    unfold insert Tree.insert
    cases h with
    | one p =>
      dsimp only [kvm]; rw [hc.any]
      cases cmp (π k) (π p.1)
      · exact .ok ⟨.two (k, v) p, rfl⟩
      · exact .ok ⟨.one (k, v), rfl⟩
      · exact .ok ⟨.two p (k, v), rfl⟩
    | two p q =>
      dsimp only [kvm]; rw [hc.any]
      cases cmp (π k) (π p.1)
      · dsimp only; rw [hc.any]
        cases cmp (π q.1) (π p.1)
        · exact TreeR.insertBelow hk hS hT hC .none _ _
        · exact .ok ⟨.two (k, v) p, rfl⟩
        · exact TreeR.insertBelow hk hS hT hC .none _ _
      · exact .ok ⟨.two (k, v) q, rfl⟩
      · dsimp only; rw [hc.any]
        cases cmp (π k) (π q.1)
        · exact TreeR.insertBelow hk hS hT hC .none _ _
        · exact .ok ⟨.two p (k, v), rfl⟩
        · exact TreeR.insertBelow (mx := (k, v)) hk hS hT hC .none _ _
    | more p q hs hcc =>
      dsimp only [kvm]; rw [hc.any]
      cases cmp (π k) (π p.1)
      · dsimp only; rw [hc.any]
        cases cmp (π q.1) (π p.1)
        · exact TreeR.insertBelow hk hS hT hC (.some ⟨hs, hcc⟩) _ _
        · exact .ok ⟨.more (k, v) p hs hcc, rfl⟩
        · exact TreeR.insertBelow hk hS hT hC (.some ⟨hs, hcc⟩) _ _
      · exact .ok ⟨.more (k, v) q hs hcc, rfl⟩
      · dsimp only; rw [hc.any]
        cases cmp (π k) (π q.1)
        · exact TreeR.insertBelow hk hS hT hC (.some ⟨hs, hcc⟩) _ _
        · exact .ok ⟨.more p (k, v) hs hcc, rfl⟩
        · exact TreeR.insertBelow (mx := (k, v)) hk hS hT hC (.some ⟨hs, hcc⟩) _ _
  case removeMin => rintro t t' h; exact h.removeMin hk hS hT hC
  case removeMax => rintro t t' h; exact h.removeMax hk hS hT hC
  case predecessorMut =>
    rintro t t' h k
    show Rl _ (predecessorMut t k) (Tree.predecessorMut t' (π k))
    unfold predecessorMut Tree.predecessorMut
    cases h with
    | one p => dsimp only [kvm]; exact Rl.ifLe hc (.ok .none) (.ok (.some ⟨rfl, rfl, fun w => .one (p.1, w)⟩))
    | two p q =>
      dsimp only [kvm]; rw [hc.any]
      refine Rl.ifLe hc (.ok .none) ?_
      cases cmp (π k) (π q.1)
      · exact .ok (.some ⟨rfl, rfl, fun w => .two (p.1, w) q⟩)
      · exact .ok (.some ⟨rfl, rfl, fun w => .two (p.1, w) q⟩)
      · exact .ok (.some ⟨rfl, rfl, fun w => .two p (q.1, w)⟩)
    | more p q hs hcc =>
      dsimp only [kvm]; rw [hc.any]
      refine Rl.ifLe hc (.ok .none) ?_
      cases cmp (π k) (π q.1)
      · dsimp only
        rw [hk.ref]
        refine Rl.bind (P := Option.Rel (MutR πl SC)) ?_ ?_
        · refine (hC.getMut hcc _).bind ?_
          rintro _ _ (ht | _)
          · exact (hT.predecessorMut ht.1 _).bind fun a b hab => .ok (mutR_mapOpt ht.2 hab)
          · exact .ok .none
        · rintro _ _ (hm | _)
          · refine .ok (.some ⟨?_, hm.2.1, fun w => .more p q hs (hm.2.2 w)⟩)
            show VebKey.join _ _ = _
            rw [hm.1, hk.join]
          · refine (hS.predecessor hs _).bind ?_
            rintro (_ | ⟨h, ⟨⟩⟩) _ rfl
            · exact .ok (.some ⟨rfl, rfl, fun w => .more (p.1, w) q hs hcc⟩)
            · refine (hC.getMut hcc h).bind fun a b hab => (Rl.expect _ hab).bind fun a b hab =>
                (hT.maxValMut hab.1).bind fun a' b' hm => ?_
              refine .ok (.some ⟨?_, hm.2.1, fun w => .more p q hs (hab.2 _ _ (hm.2.2 w))⟩)
              show VebKey.join _ _ = _
              rw [hm.1, ← hk.join]
      · refine Rl.bind (P := fun _ _ => True) ?_ fun _ _ _ => ?_
        · have : AnyOrd.gt k p.1 = decide (π p.1 < π k) := by
            rw [Bool.eq_iff_iff, hc.gt]; exact decide_eq_true_iff.symm
          rw [this]
          exact (Rl.refl _).mono fun _ _ _ => trivial
        refine (hS.maxVal hs).bind ?_
        rintro ⟨h, ⟨⟩⟩ _ rfl
        refine (hC.getMut hcc h).bind fun a b hab => (Rl.expect _ hab).bind fun a b hab =>
          (hT.maxValMut hab.1).bind fun a' b' hm => ?_
        refine .ok (.some ⟨?_, hm.2.1, fun w => .more p q hs (hab.2 _ _ (hm.2.2 w))⟩)
        show VebKey.join _ _ = _
        rw [hm.1, ← hk.join]; rfl
      · exact .ok (.some ⟨rfl, rfl, fun w => .more p (q.1, w) hs hcc⟩)
  case successorMut =>
    rintro t t' h k
    show Rl _ (successorMut t k) (Tree.successorMut t' (π k))
    unfold successorMut Tree.successorMut
    cases h with
    | one p => dsimp only [kvm]; exact Rl.ifLt hc (.ok (.some ⟨rfl, rfl, fun w => .one (p.1, w)⟩)) (.ok .none)
    | two p q =>
      dsimp only [kvm]
      exact Rl.ifLt hc (.ok (.some ⟨rfl, rfl, fun w => .two (p.1, w) q⟩))
        (Rl.ifGe hc (.ok .none) (.ok (.some ⟨rfl, rfl, fun w => .two p (q.1, w)⟩)))
    | more p q hs hcc =>
      dsimp only [kvm]
      refine Rl.ifLt hc (.ok (.some ⟨rfl, rfl, fun w => .more (p.1, w) q hs hcc⟩))
        (Rl.ifGe hc (.ok .none) (Rl.ifEq hc ?_ ?_))
      · refine (hS.minVal hs).bind ?_
        rintro ⟨h, ⟨⟩⟩ _ rfl
        refine (hC.getMut hcc h).bind fun a b hab => (Rl.expect _ hab).bind fun a b hab =>
          (hT.minValMut hab.1).bind fun a' b' hm => ?_
        refine .ok (.some ⟨?_, hm.2.1, fun w => .more p q hs (hab.2 _ _ (hm.2.2 w))⟩)
        show VebKey.join _ _ = _
        rw [hm.1, ← hk.join]; rfl
      · rw [hk.ref]
        refine Rl.bind (P := Option.Rel (MutR πl SC)) ?_ ?_
        · refine (hC.getMut hcc _).bind ?_
          rintro _ _ (ht | _)
          · exact (hT.successorMut ht.1 _).bind fun a b hab => .ok (mutR_mapOpt ht.2 hab)
          · exact .ok .none
        · rintro _ _ (hm | _)
          · refine .ok (.some ⟨?_, hm.2.1, fun w => .more p q hs (hm.2.2 w)⟩)
            show VebKey.join _ _ = _
            rw [hm.1, hk.join]
          · refine (hS.successor hs _).bind ?_
            rintro (_ | ⟨h, ⟨⟩⟩) _ rfl
            · exact .ok (.some ⟨rfl, rfl, fun w => .more p (q.1, w) hs hcc⟩)
            · refine (hC.getMut hcc h).bind fun a b hab => (Rl.expect _ hab).bind fun a b hab =>
                (hT.minValMut hab.1).bind fun a' b' hm => ?_
              refine .ok (.some ⟨?_, hm.2.1, fun w => .more p q hs (hab.2 _ _ (hm.2.2 w))⟩)
              show VebKey.join _ _ = _
              rw [hm.1, ← hk.join]
  case remove =>
    rintro t t' h k
    have hm := h.removeMin hk hS hT hC
    show Rl _ (remove t k) (Tree.remove t' (π k))
    unfold remove Tree.remove
    cases h with
    | one p =>
      dsimp only [kvm]
      exact Rl.ifEq hc (hm.bind fun a b hab => .ok (.ok hab)) (.ok (.err (.one p)))
    | two p q =>
      dsimp only [kvm]
      exact Rl.ifEq hc (hm.bind fun a b hab => .ok (.ok hab))
        (Rl.ifEq hc (.ok (.ok ⟨.some (.one p), rfl⟩)) (.ok (.err (.two p q))))
    | more p q hs hcc =>
      dsimp only [kvm]
      refine Rl.ifEq hc (hm.bind fun a b hab => .ok (.ok hab)) (Rl.ifEq hc ?_ ?_)
      · refine (hS.maxVal hs).bind ?_
        rintro ⟨h, ⟨⟩⟩ _ rfl
        refine (hC.removeKey hcc h (fun t t' ht => hT.removeMax ht)).bind ?_
        rintro ⟨o, l, v⟩ ⟨o', _⟩ ⟨ho, rfl⟩
        refine (TreeR.rest hs (hS.removeMax hs) ho).bind fun a b hab => .ok (.ok ⟨.some ?_, rfl⟩)
        show TreeR _ _ _ _ ⟨_, some ⟨(VebKey.join (πh h) (πl l), v), _⟩⟩
        rw [kvm_join hk]
        exact .ofChildren hab
      · rw [hk.ref]
        refine (hC.maybeRemoveKey hcc _ (fun t t' ht => hT.remove ht _)).bind ?_
        rintro _ _ (@⟨⟨_, ⟨l, v⟩⟩, ⟨_, _⟩, ⟨(@⟨⟨a, _⟩, ⟨a', b⟩, ⟨hab, rfl⟩⟩ | _), rfl⟩⟩ | ht)
        · cases b
          · exact .ok (.ok ⟨.some (.more p q hs hab), kvm_join hk _ _ _⟩)
          · refine (hS.remove hs _).bind ?_
            rintro _ _ (h | h)
            · exact (Rl.expect _ h.1).bind fun x y hxy => .ok (.ok ⟨.some (.more p q hxy hab), kvm_join hk _ _ _⟩)
            · exact .err _
        · exact .ok (.ok ⟨.some (.two p q), kvm_join hk _ _ _⟩)
        · exact .ok (.err (.more p q hs ht))
end

/-! ## Every type, every history -/

theorem ForgetsColl.sim {C Hi T Lo V C' Hi' T' Lo' : Type} [VebTree T Lo V] [VebTree T' Lo' V]
    [TreeCollection C Hi T Lo V] [TreeCollection C' Hi' T' Lo' V] {πh : Hi → Hi'} {πl : Lo → Lo'}
    (h : ForgetsColl C Hi T Lo V C' Hi' T' Lo' πh πl) {ST : T → T' → Prop} (hT : SimTree πl ST) :
    ∃ SC : C → C' → Prop, SimColl πh πl ST SC := by
  induction h with
  | array hi hn => exact ⟨_, ArrayColl.sim hi hn hT⟩
  | hash hc => exact ⟨_, OHashMap.sim hc hT⟩
  | byte => exact ⟨_, ByteMap.simColl hT⟩
  | box _ ih => obtain ⟨SC, h⟩ := ih hT; exact ⟨_, Box.simColl h⟩

theorem ForgetsTree.sim {T K V T' K' : Type} [VebTree T K V] [VebTree T' K' V] {π : K → K'}
    (h : ForgetsTree T K V T' K' π) : ∃ S : T → T' → Prop, SimTree π S := by
  induction h with
  | same => exact ⟨_, SimTree.same⟩
  | btreeMap hc => exact ⟨_, OBTreeMap.sim hc⟩
  | box _ ih => obtain ⟨S, h⟩ := ih; exact ⟨_, Box.sim h⟩
  | sized _ ih => obtain ⟨S, h⟩ := ih; exact ⟨_, SizedVebTree.sim h⟩
  | tree hc hk _ _ hC ihs iht =>
    obtain ⟨SS, hS⟩ := ihs
    obtain ⟨ST, hT⟩ := iht
    obtain ⟨SC, hC⟩ := hC.sim hT
    exact ⟨_, OTree.sim hc hk hS hT hC⟩

section
variable [VebTree T K V] [VebTree T' K' V] {π : K → K'} {R : T → T' → Prop}

/-- related steps -/
def StepR (π : K → K') (R : T → T' → Prop) (a : Option T × Out K V) (b : Option T' × Out K' V) : Prop :=
  Option.Rel R a.1 b.1 ∧ b.2 = a.2.forget π

theorem stepR_writeOpt {t : T} {t' : T'} (ht : R t t') (w : V) {a : Option (K × V × (V → T))}
    {b : Option (K' × V × (V → T'))} (h : Option.Rel (MutR π R) a b) :
    StepR π R (Exec.writeOpt t w a) (Exec.writeOpt t' w b) := by
  cases h with
  | none => exact ⟨.some ht, rfl⟩
  | @some a b h =>
    obtain ⟨k, v, put⟩ := a
    obtain ⟨k', v', put'⟩ := b
    obtain ⟨h1, h2, h3⟩ := h
    dsimp only at h1 h2 h3
    subst h1 h2
    exact ⟨.some (h3 w), rfl⟩

theorem stepR_removed {a : Option T × (K × V)} {b : Option T' × (K' × V)} (h : RemR π R a b) :
    StepR π R (Exec.removed a) (Exec.removed b) := by
  obtain ⟨o, p⟩ := a
  obtain ⟨o', _⟩ := b
  obtain ⟨ho, rfl⟩ := h
  exact ⟨ho, rfl⟩

theorem SimTree.stepTree (h : SimTree π R) {t : T} {t' : T'} (ht : R t t') (op : Op K V) :
    Rl (StepR π R) (Exec.stepTree t op) (Exec.stepTree t' (op.forget π)) := by
  cases op with
  | insert k v =>
    refine (h.insert ht k v).bind ?_
    rintro ⟨t, o⟩ ⟨t', _⟩ ⟨ht, rfl⟩
    exact .ok ⟨.some ht, rfl⟩
  | remove k =>
    refine (h.remove ht k).bind ?_
    rintro _ _ (h | h)
    · exact .ok (stepR_removed h)
    · exact .ok ⟨.some h, rfl⟩
  | removeMin => exact (h.removeMin ht).bind fun a b hab => .ok (stepR_removed hab)
  | removeMax => exact (h.removeMax ht).bind fun a b hab => .ok (stepR_removed hab)
  | find k => exact (h.find ht k).bind fun a b hab => .ok ⟨.some ht, congrArg Out.kv hab⟩
  | predecessor k => exact (h.predecessor ht k).bind fun a b hab => .ok ⟨.some ht, congrArg Out.kv hab⟩
  | successor k => exact (h.successor ht k).bind fun a b hab => .ok ⟨.some ht, congrArg Out.kv hab⟩
  | minVal => exact (h.minVal ht).bind fun a b hab => .ok ⟨.some ht, congrArg (Out.kv ∘ some) hab⟩
  | maxVal => exact (h.maxVal ht).bind fun a b hab => .ok ⟨.some ht, congrArg (Out.kv ∘ some) hab⟩
  | isMonad => exact (h.isMonad ht).bind fun a b hab => .ok ⟨.some ht, congrArg Out.bool hab⟩
  | intoMonad =>
    refine (h.intoMonad ht).bind ?_
    rintro _ _ (h | h)
    · exact .ok ⟨.none, congrArg (Out.kv ∘ some) h⟩
    · exact .ok ⟨.some h, rfl⟩
  | findSet k w => exact (h.findMut ht k).bind fun a b hab => .ok (stepR_writeOpt ht w hab)
  | predecessorSet k w => exact (h.predecessorMut ht k).bind fun a b hab => .ok (stepR_writeOpt ht w hab)
  | successorSet k w => exact (h.successorMut ht k).bind fun a b hab => .ok (stepR_writeOpt ht w hab)
  | minSet w => exact (h.minValMut ht).bind fun a b hab => .ok (stepR_writeOpt ht w (.some hab))
  | maxSet w => exact (h.maxValMut ht).bind fun a b hab => .ok (stepR_writeOpt ht w (.some hab))

theorem SimTree.step (h : SimTree π R) {t : Option T} {t' : Option T'} (ht : Option.Rel R t t') (op : Op K V) :
    Rl (StepR π R) (Exec.step t op) (Exec.step t' (op.forget π)) := by
  cases ht with
  | some ht => exact h.stepTree ht op
  | none =>
    cases op with
    | insert k v => exact .ok ⟨.some (h.fromMonad k v), rfl⟩
    | _ => exact .ok ⟨.none, rfl⟩

theorem SimTree.run (h : SimTree π R) (ops : List (Op K V)) {t : Option T} {t' : Option T'} (ht : Option.Rel R t t') :
    Rl (fun a b => Option.Rel R a.1 b.1 ∧ b.2 = a.2.map (Out.forget π)) (Exec.run t ops)
      (Exec.run t' (ops.map (Op.forget π))) := by
  induction ops generalizing t t' with
  | nil => exact .ok ⟨ht, rfl⟩
  | cons op ops ih =>
    refine (h.step ht op).bind ?_
    rintro ⟨t, o⟩ ⟨t', _⟩ ⟨ht, rfl⟩
    refine (ih ht).bind ?_
    rintro ⟨t, os⟩ ⟨t', _⟩ ⟨ht, rfl⟩
    exact .ok ⟨ht, rfl⟩
end
end Veb
