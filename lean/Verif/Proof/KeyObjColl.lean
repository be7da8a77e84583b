import Verif.Proof.KeyObj

/-!
Simulation between collections, boxes and counted trees; see `Verif.Proof.KeyObj`.
-/

set_option autoImplicit false
set_option linter.unusedSectionVars false
namespace Veb

variable {K K' Hi Hi' Lo Lo' V T T' C C' : Type}

/-! ## Wrapped trees -/

theorem mutR_map {A A' B B' : Type} {π : K → K'} {S : A → A' → Prop} {S' : B → B' → Prop} {f : A → B} {g : A' → B'}
    (h : ∀ a a', S a a' → S' (f a) (g a')) {x : K × V × (V → A)} {y : K' × V × (V → A')} (hx : MutR π S x y) :
    MutR π S' (mapPut f x) (mapPut g y) := by
  obtain ⟨k, v, put⟩ := x
  obtain ⟨k', v', put'⟩ := y
  exact ⟨hx.1, hx.2.1, fun w => h _ _ (hx.2.2 w)⟩

theorem mutR_mapOpt {A A' B B' : Type} {π : K → K'} {S : A → A' → Prop} {S' : B → B' → Prop} {f : A → B} {g : A' → B'}
    (h : ∀ a a', S a a' → S' (f a) (g a')) {x : Option (K × V × (V → A))} {y : Option (K' × V × (V → A'))}
    (hx : Option.Rel (MutR π S) x y) :
    Option.Rel (MutR π S') (x.map (mapPut f)) (y.map (mapPut g)) := by
  cases hx with
  | none => exact .none
  | some hx => exact .some (mutR_map h hx)

section
variable [VebTree T K V] [VebTree T' K' V] {π : K → K'} {S : T → T' → Prop}

/-- boxed trees are related when their contents are -/
def BoxR (S : T → T' → Prop) (a : Box T) (b : Box T') : Prop := S a.val b.val

theorem boxR_map {x : Option T} {y : Option T'} (h : Option.Rel S x y) :
    Option.Rel (BoxR S) (x.map Box.mk) (y.map Box.mk) := by
  cases h with
  | none => exact .none
  | some h => exact .some h

theorem Box.sim (h : SimTree π S) : SimTree (T := Box T) (T' := Box T') π (BoxR S) := by
  constructor
  case fromMonad => intro k v; exact h.fromMonad k v
  case isMonad => intro t t' ht; exact h.isMonad ht
  case lenHint => intro t t' ht; exact h.lenHint ht
  case intoMonad =>
    intro t t' ht
    refine (h.intoMonad ht).bind ?_
    rintro _ _ (h | h)
    · exact .ok (.ok h)
    · exact .ok (.err h)
  case minVal => intro t t' ht; exact h.minVal ht
  case maxVal => intro t t' ht; exact h.maxVal ht
  case minValMut => intro t t' ht; exact (h.minValMut ht).bind fun a b hab => .ok (mutR_map (fun _ _ h => h) hab)
  case maxValMut => intro t t' ht; exact (h.maxValMut ht).bind fun a b hab => .ok (mutR_map (fun _ _ h => h) hab)
  case find => intro t t' ht k; exact h.find ht k
  case predecessor => intro t t' ht k; exact h.predecessor ht k
  case successor => intro t t' ht k; exact h.successor ht k
  case findMut => intro t t' ht k; exact (h.findMut ht k).bind fun a b hab => .ok (mutR_mapOpt (S' := BoxR S) (f := Box.mk) (g := Box.mk) (fun _ _ h => h) hab)
  case predecessorMut =>
    intro t t' ht k; exact (h.predecessorMut ht k).bind fun a b hab => .ok (mutR_mapOpt (S' := BoxR S) (f := Box.mk) (g := Box.mk) (fun _ _ h => h) hab)
  case successorMut =>
    intro t t' ht k; exact (h.successorMut ht k).bind fun a b hab => .ok (mutR_mapOpt (S' := BoxR S) (f := Box.mk) (g := Box.mk) (fun _ _ h => h) hab)
  case insert => intro t t' ht k v; exact (h.insert ht k v).bind fun a b hab => .ok hab
  case remove =>
    intro t t' ht k
    refine (h.remove ht k).bind ?_
    rintro _ _ (h | h)
    · exact .ok (.ok ⟨boxR_map h.1, h.2⟩)
    · exact .ok (.err h)
  case removeMin => intro t t' ht; exact (h.removeMin ht).bind fun a b hab => .ok ⟨boxR_map hab.1, hab.2⟩
  case removeMax => intro t t' ht; exact (h.removeMax ht).bind fun a b hab => .ok ⟨boxR_map hab.1, hab.2⟩

/-- counted trees are related when the trees are and the counts agree -/
def SizedR (S : T → T' → Prop) (a : SizedVebTree T) (b : SizedVebTree T') : Prop := S a.tree b.tree ∧ b.size = a.size

theorem SizedVebTree.sim (h : SimTree π S) : SimTree (T := SizedVebTree T) (T' := SizedVebTree T') π (SizedR S) := by
  constructor
  case fromMonad => intro k v; exact ⟨h.fromMonad k v, rfl⟩
  case isMonad =>
    rintro ⟨t, n⟩ ⟨t', _⟩ ⟨ht, rfl⟩
    refine (h.isMonad ht).bind ?_
    rintro b _ rfl
    exact Rl.refl _
  case lenHint => rintro ⟨t, n⟩ ⟨t', _⟩ ⟨ht, rfl⟩; exact .ok rfl
  case intoMonad =>
    rintro ⟨t, n⟩ ⟨t', _⟩ ⟨ht, rfl⟩
    refine (h.intoMonad ht).bind ?_
    rintro _ _ (h | h)
    · exact .ok (.ok h)
    · exact .ok (.err ⟨h, rfl⟩)
  case minVal => rintro ⟨t, n⟩ ⟨t', _⟩ ⟨ht, rfl⟩; exact h.minVal ht
  case maxVal => rintro ⟨t, n⟩ ⟨t', _⟩ ⟨ht, rfl⟩; exact h.maxVal ht
  case minValMut =>
    rintro ⟨t, n⟩ ⟨t', _⟩ ⟨ht, rfl⟩
    exact (h.minValMut ht).bind fun a b hab => .ok (mutR_map (fun _ _ h => ⟨h, rfl⟩) hab)
  case maxValMut =>
    rintro ⟨t, n⟩ ⟨t', _⟩ ⟨ht, rfl⟩
    exact (h.maxValMut ht).bind fun a b hab => .ok (mutR_map (fun _ _ h => ⟨h, rfl⟩) hab)
  case find => rintro ⟨t, n⟩ ⟨t', _⟩ ⟨ht, rfl⟩ k; exact h.find ht k
  case predecessor => rintro ⟨t, n⟩ ⟨t', _⟩ ⟨ht, rfl⟩ k; exact h.predecessor ht k
  case successor => rintro ⟨t, n⟩ ⟨t', _⟩ ⟨ht, rfl⟩ k; exact h.successor ht k
  case findMut =>
    rintro ⟨t, n⟩ ⟨t', _⟩ ⟨ht, rfl⟩ k
    exact (h.findMut ht k).bind fun a b hab => .ok (mutR_mapOpt (fun _ _ h => ⟨h, rfl⟩) hab)
  case predecessorMut =>
    rintro ⟨t, n⟩ ⟨t', _⟩ ⟨ht, rfl⟩ k
    exact (h.predecessorMut ht k).bind fun a b hab => .ok (mutR_mapOpt (fun _ _ h => ⟨h, rfl⟩) hab)
  case successorMut =>
    rintro ⟨t, n⟩ ⟨t', _⟩ ⟨ht, rfl⟩ k
    exact (h.successorMut ht k).bind fun a b hab => .ok (mutR_mapOpt (fun _ _ h => ⟨h, rfl⟩) hab)
  case insert =>
    rintro ⟨t, n⟩ ⟨t', _⟩ ⟨ht, rfl⟩ k v
    refine (h.insert ht k v).bind ?_
    rintro ⟨a, o⟩ ⟨b, _⟩ ⟨hab, rfl⟩
    cases o with
    | none => exact Rl.bindEq fun m => .ok ⟨⟨hab, rfl⟩, rfl⟩
    | some o => exact .ok ⟨⟨hab, rfl⟩, rfl⟩
  case remove =>
    rintro ⟨t, n⟩ ⟨t', _⟩ ⟨ht, rfl⟩ k
    refine (h.remove ht k).bind ?_
    rintro _ _ (@⟨⟨_, a⟩, ⟨_, b⟩, ⟨(h | _), rfl⟩⟩ | h)
    · exact Rl.bindEq fun m => Rl.bindEq fun m => .ok (.ok ⟨.some ⟨h, rfl⟩, rfl⟩)
    · exact .ok (.ok ⟨.none, rfl⟩)
    · exact .ok (.err ⟨h, rfl⟩)
  case removeMin =>
    rintro ⟨t, n⟩ ⟨t', _⟩ ⟨ht, rfl⟩
    refine Rl.bindEq fun m => (h.removeMin ht).bind ?_
    rintro ⟨_, a⟩ ⟨_, b⟩ ⟨(h | _), rfl⟩
    · exact Rl.bindEq fun m => .ok ⟨.some ⟨h, rfl⟩, rfl⟩
    · exact .ok ⟨.none, rfl⟩
  case removeMax =>
    rintro ⟨t, n⟩ ⟨t', _⟩ ⟨ht, rfl⟩
    refine Rl.bindEq fun m => (h.removeMax ht).bind ?_
    rintro ⟨_, a⟩ ⟨_, b⟩ ⟨(h | _), rfl⟩
    · exact Rl.bindEq fun m => .ok ⟨.some ⟨h, rfl⟩, rfl⟩
    · exact .ok ⟨.none, rfl⟩
end

/-! ## Collections -/

section
variable {πh : Hi → Hi'} {πl : Lo → Lo'} {ST : T → T' → Prop}

theorem Box.simColl [TreeCollection C Hi T Lo V] [TreeCollection C' Hi' T' Lo' V] {SC : C → C' → Prop}
    (h : SimColl πh πl ST SC) : SimColl (C := Box C) (C' := Box C') πh πl ST (BoxR SC) := by
  constructor
  case create => intro k t t' ht; exact (h.create k ht).bind fun a b hab => .ok hab
  case get => intro c c' hc k; exact h.get hc k
  case getMut =>
    intro c c' hc k
    refine (h.getMut hc k).bind ?_
    rintro _ _ (h | _)
    · exact .ok (.some h)
    · exact .ok .none
  case insertKey => intro c c' hc k l v; exact (h.insertKey hc k l v).bind fun a b hab => .ok hab
  case removeKey =>
    intro c c' hc k r r' hr
    refine (h.removeKey hc k hr).bind ?_
    rintro ⟨_, a⟩ ⟨_, b⟩ ⟨(h | _), rfl⟩
    · exact .ok ⟨.some h, rfl⟩
    · exact .ok ⟨.none, rfl⟩
  case maybeRemoveKey =>
    intro c c' hc k r r' hr
    refine (h.maybeRemoveKey hc k hr).bind ?_
    rintro _ _ (@⟨⟨_, a⟩, ⟨_, b⟩, ⟨(h | _), rfl⟩⟩ | h)
    · exact .ok (.ok ⟨.some h, rfl⟩)
    · exact .ok (.ok ⟨.none, rfl⟩)
    · exact .ok (.err h)

variable [VebTree T Lo V] [VebTree T' Lo' V]

/-- related arrays: same number of slots, related slots -/
def SlotsR (ST : T → T' → Prop) (a : OptionArray T) (b : OptionArray T') : Prop :=
  b.len = a.len ∧ ∀ i, Option.Rel ST (a.slot i) (b.slot i)

theorem SlotsR.get {a : OptionArray T} {b : OptionArray T'} (h : SlotsR ST a b) (i : Nat) :
    Rl (Option.Rel ST) (a.get i) (b.get i) := by
  unfold OptionArray.get
  rw [h.1]
  split
  · exact .ok (h.2 i)
  · exact .err _
theorem SlotsR.set {a : OptionArray T} {b : OptionArray T'} (h : SlotsR ST a b) (i : Nat) {o : Option T} {o' : Option T'}
    (ho : Option.Rel ST o o') : SlotsR ST { a with slot := fun j => if j = i then o else a.slot j }
      { b with slot := fun j => if j = i then o' else b.slot j } := by
  refine ⟨h.1, fun j => ?_⟩
  by_cases hj : j = i
  · simpa [hj] using ho
  · simpa [hj] using h.2 j
theorem SlotsR.put {a : OptionArray T} {b : OptionArray T'} (h : SlotsR ST a b) (i : Nat) {o : Option T} {o' : Option T'}
    (ho : Option.Rel ST o o') : Rl (SlotsR ST) (a.put i o) (b.put i o') := by
  unfold OptionArray.put
  by_cases hi : i < a.len
  · rw [if_pos hi, if_pos (h.1 ▸ hi)]; exact .ok (h.set i ho)
  · rw [if_neg hi, if_neg (h.1 ▸ hi)]; exact .err _

/-- related array collections -/
def ArrayR (ST : T → T' → Prop) (a : ArrayColl Hi T) (b : ArrayColl Hi' T') : Prop :=
  SlotsR ST a.array b.array ∧ b.count = a.count

theorem optRel_isNone {P : T → T' → Prop} {a : Option T} {b : Option T'} (h : Option.Rel P a b) :
    b.isNone = a.isNone := by cases h <;> rfl

theorem optRel_isSome {P : T → T' → Prop} {a : Option T} {b : Option T'} (h : Option.Rel P a b) :
    b.isSome = a.isSome := by cases h <;> rfl

theorem ArrayColl.sim [SizedVebKey Hi] [SizedVebKey Hi'] (hi : ∀ h : Hi, SizedVebKey.index (πh h) = SizedVebKey.index h)
    (hn : SizedVebKey.cardinality Hi' = SizedVebKey.cardinality Hi) (h : SimTree πl ST) :
    SimColl (C := ArrayColl Hi T) (C' := ArrayColl Hi' T') πh πl ST (ArrayR ST) := by
  constructor
  case create =>
    intro k t t' ht
    show Rl _ (create k t) (create (πh k) t')
    unfold create
    rw [hi, hn]
    exact (SlotsR.put (ST := ST) ⟨rfl, fun _ => .none⟩ _ (.some ht)).bind fun a b hab => .ok ⟨hab, rfl⟩
  case get =>
    intro c c' hc k
    show Rl _ (get c k) (get c' (πh k))
    unfold get
    rw [hi]
    exact hc.1.get _
  case getMut =>
    intro c c' hc k
    show Rl _ (getMut c k) (getMut c' (πh k))
    unfold getMut
    rw [hi]
    refine (hc.1.get _).bind ?_
    rintro _ _ (ht | _)
    · exact .ok (.some ⟨ht, fun u u' hu => ⟨hc.1.set _ (.some hu), hc.2⟩⟩)
    · exact .ok .none
  case insertKey =>
    rintro ⟨a, n⟩ ⟨b, _⟩ ⟨hab, rfl⟩ k l v
    show Rl _ (insertKey _ k (l, v)) (insertKey _ (πh k) (πl l, v))
    unfold insertKey
    rw [hi]
    refine (hab.get _).bind ?_
    rintro _ _ (ht | _)
    · refine (h.insert ht l v).bind ?_
      rintro ⟨t, o⟩ ⟨t', _⟩ ⟨ht, rfl⟩
      exact (hab.put _ (.some ht)).bind fun a b hab => .ok ⟨⟨hab, rfl⟩, rfl⟩
    · exact (hab.put _ (.some (h.fromMonad _ _))).bind fun a b hab => Rl.bindEq fun m => .ok ⟨⟨hab, rfl⟩, rfl⟩
  case removeKey =>
    rintro ⟨a, n⟩ ⟨b, _⟩ ⟨hab, rfl⟩ k r r' hr
    show Rl _ (removeKey _ k r) (removeKey _ (πh k) r')
    unfold removeKey
    rw [hi]
    refine (hab.get _).bind fun x y hxy => (Rl.expect _ hxy).bind fun t t' ht =>
      (hab.put _ .none).bind fun a b hab => (hr _ _ ht).bind ?_
    rintro ⟨o, x⟩ ⟨o', _⟩ ⟨ho, rfl⟩
    cases ho with
    | none =>
      refine Rl.bindEq fun m => (hab.put _ .none).bind fun a b hab => ?_
      dsimp only
      split
      · exact .ok ⟨.none, rfl⟩
      · exact .ok ⟨.some ⟨⟨hab, rfl⟩, rfl⟩, rfl⟩
    | some ht =>
      refine Rl.bindEq fun m => (hab.put _ (.some ht)).bind fun a b hab => ?_
      dsimp only
      split
      · exact .ok ⟨.none, rfl⟩
      · exact .ok ⟨.some ⟨⟨hab, rfl⟩, rfl⟩, rfl⟩
  case maybeRemoveKey =>
    rintro ⟨a, n⟩ ⟨b, _⟩ ⟨hab, rfl⟩ k r r' hr
    show Rl _ (maybeRemoveKey _ k r) (maybeRemoveKey _ (πh k) r')
    unfold maybeRemoveKey
    rw [hi]
    refine (hab.get _).bind ?_
    rintro _ _ (ht | _)
    · refine (hab.put _ .none).bind fun a b hab => (hr _ _ ht).bind ?_
      rintro _ _ (@⟨⟨o, x⟩, ⟨o', _⟩, ⟨ho, rfl⟩⟩ | ht)
      · cases ho with
        | none =>
          refine Rl.bindEq fun m => (hab.put _ .none).bind fun a b hab => ?_
          dsimp only
          split
          · exact .ok (.ok ⟨.none, rfl⟩)
          · exact .ok (.ok ⟨.some ⟨⟨hab, rfl⟩, rfl⟩, rfl⟩)
        | some ht =>
          refine Rl.bindEq fun m => (hab.put _ (.some ht)).bind fun a b hab => ?_
          dsimp only
          split
          · exact .ok (.ok ⟨.none, rfl⟩)
          · exact .ok (.ok ⟨.some ⟨⟨hab, rfl⟩, rfl⟩, rfl⟩)
      · exact (hab.put _ (.some ht)).bind fun a b hab => .ok (.err ⟨hab, rfl⟩)
    · exact .ok (.err ⟨hab, rfl⟩)

/-! ### Hash maps -/

/-- related hash maps: the entries correspond one by one -/
def HashR (πh : Hi → Hi') (ST : T → T' → Prop) (a : OHashMap Hi T) (b : HashMap Hi' T') : Prop :=
  List.Forall₂ (fun p q => q.1 = πh p.1 ∧ ST p.2 q.2) a.entries b.entries

section
variable [OrdKey Hi] [LinearOrder Hi'] {a : OHashMap Hi T} {b : HashMap Hi' T'}

theorem HashR.lookup (hc : Forgets πh) (h : HashR πh ST a b) (k : Hi) :
    Option.Rel ST (a.lookup k) (b.lookup (πh k)) := by
  obtain ⟨l⟩ := a
  obtain ⟨l'⟩ := b
  unfold HashR at h
  unfold OHashMap.lookup HashMap.lookup
  dsimp only at h ⊢
  induction h with
  | nil => exact .none
  | @cons p q l l' hpq _ ih =>
    by_cases hk : πh p.1 = πh k
    · have h1 : OrdKey.eq p.1 k = true := (hc.eq _ _).2 hk
      have h2 : q.1 = πh k := hpq.1.trans hk
      simp only [List.find?_cons, h1, h2, decide_true, Option.map_some]
      exact .some hpq.2
    · have h1 : OrdKey.eq p.1 k = false := by rw [← Bool.not_eq_true, hc.eq]; exact hk
      have h2 : ¬ q.1 = πh k := by rw [hpq.1]; exact hk
      simp only [List.find?_cons, h1, h2, decide_false]
      exact ih
theorem HashR.assign (hc : Forgets πh) (h : HashR πh ST a b) (k : Hi) {t : T} {t' : T'} (ht : ST t t') :
    HashR πh ST (a.assign k t) (b.assign (πh k) t') := by
  unfold HashR OHashMap.assign HashMap.assign
  refine List.forall₂_map_left_iff.2 (List.forall₂_map_right_iff.2 (List.Forall₂.imp ?_ h))
  intro p q hpq
  by_cases hk : πh p.1 = πh k
  · have h1 : OrdKey.eq p.1 k = true := (hc.eq _ _).2 hk
    have h2 : q.1 = πh k := hpq.1.trans hk
    simp only [h1, if_true, h2]
    exact ⟨hk.symm, ht⟩
  · have h1 : OrdKey.eq p.1 k = false := by rw [← Bool.not_eq_true, hc.eq]; exact hk
    have h2 : ¬ q.1 = πh k := by rw [hpq.1]; exact hk
    simp only [h1, h2, if_false]
    exact hpq
theorem HashR.erase (hc : Forgets πh) (h : HashR πh ST a b) (k : Hi) :
    HashR πh ST (a.erase k) (b.erase (πh k)) := by
  obtain ⟨l⟩ := a
  obtain ⟨l'⟩ := b
  unfold HashR at h ⊢
  unfold OHashMap.erase HashMap.erase
  dsimp only at h ⊢
  induction h with
  | nil => exact .nil
  | @cons p q l l' hpq _ ih =>
    by_cases hk : πh p.1 = πh k
    · have h1 : OrdKey.eq p.1 k = true := (hc.eq _ _).2 hk
      have h2 : q.1 = πh k := hpq.1.trans hk
      rw [List.filter_cons_of_neg (by simp [h1]), List.filter_cons_of_neg (by simp [h2])]
      exact ih
    · have h1 : OrdKey.eq p.1 k = false := by rw [← Bool.not_eq_true, hc.eq]; exact hk
      have h2 : ¬ q.1 = πh k := by rw [hpq.1]; exact hk
      rw [List.filter_cons_of_pos (by simp [h1]), List.filter_cons_of_pos (by simp [h2])]
      exact .cons hpq ih
theorem HashR.replaceEntry (hc : Forgets πh) (h : HashR πh ST a b) (k : Hi) {o : Option T} {o' : Option T'}
    (ho : Option.Rel ST o o') : HashR πh ST (a.replaceEntry k o) (b.replaceEntry (πh k) o') := by
  cases ho with
  | none => exact h.erase hc k
  | some ht => exact h.assign hc k ht
theorem HashR.isEmpty (h : HashR πh ST a b) : b.entries.isEmpty = a.entries.isEmpty := by
  obtain ⟨l⟩ := a
  obtain ⟨l'⟩ := b
  unfold HashR at h
  dsimp only at h ⊢
  cases h <;> rfl

end

theorem OHashMap.sim [OrdKey Hi] [LinearOrder Hi'] (hc : Forgets πh) (h : SimTree πl ST) :
    SimColl (C := OHashMap Hi T) (C' := HashMap Hi' T') πh πl ST (HashR πh ST) := by
  constructor
  case create =>
    intro k t t' ht
    have hR : HashR πh ST ⟨[(k, t)]⟩ ⟨[(πh k, t')]⟩ := .cons ⟨rfl, ht⟩ .nil
    have hl := optRel_isSome (hR.lookup hc k)
    show Rl _ (create k t) (HashMap.create (πh k) t')
    unfold create HashMap.create
    refine Rl.bindEq fun _ => Rl.bind (P := fun a b => b = a) ?_ fun _ _ _ => .ok hR
    rw [hl]
    exact Rl.refl _
  case get => intro c c' hR k; exact .ok (hR.lookup hc k)
  case getMut =>
    intro c c' hR k
    show Rl _ (getMut c k) (HashMap.getMut c' (πh k))
    unfold getMut HashMap.getMut
    have hl := hR.lookup hc k
    generalize c.lookup k = o at hl
    generalize c'.lookup (πh k) = o' at hl
    cases hl with
    | none => exact .ok .none
    | some ht => exact .ok (.some ⟨ht, fun u u' hu => hR.assign hc k hu⟩)
  case insertKey =>
    intro c c' hR k l v
    show Rl _ (insertKey c k (l, v)) (HashMap.insertKey c' (πh k) (πl l, v))
    unfold insertKey HashMap.insertKey
    have hl := hR.lookup hc k
    generalize c.lookup k = o at hl
    generalize c'.lookup (πh k) = o' at hl
    cases hl with
    | none => exact .ok ⟨.cons ⟨rfl, h.fromMonad _ _⟩ hR, rfl⟩
    | some ht =>
      refine (h.insert ht l v).bind ?_
      rintro ⟨t, o⟩ ⟨t', _⟩ ⟨ht, rfl⟩
      exact .ok ⟨hR.assign hc k ht, rfl⟩
  case removeKey =>
    intro c c' hR k r r' hr
    show Rl _ (removeKey c k r) (HashMap.removeKey c' (πh k) r')
    unfold removeKey HashMap.removeKey
    have hl := hR.lookup hc k
    generalize c.lookup k = o at hl
    generalize c'.lookup (πh k) = o' at hl
    cases hl with
    | none => exact .err _
    | some ht =>
      refine (hr _ _ ht).bind ?_
      rintro ⟨o, x⟩ ⟨o', _⟩ ⟨ho, rfl⟩
      have hR' := hR.replaceEntry hc k ho
      dsimp only
      rw [hR'.isEmpty]
      split
      · exact .ok ⟨.none, rfl⟩
      · exact .ok ⟨.some ⟨hR', optRel_isNone ho⟩, rfl⟩
  case maybeRemoveKey =>
    intro c c' hR k r r' hr
    show Rl _ (maybeRemoveKey c k r) (HashMap.maybeRemoveKey c' (πh k) r')
    unfold maybeRemoveKey HashMap.maybeRemoveKey
    have hl := hR.lookup hc k
    generalize c.lookup k = o at hl
    generalize c'.lookup (πh k) = o' at hl
    cases hl with
    | none => exact .ok (.err hR)
    | some ht =>
      refine (hr _ _ ht).bind ?_
      rintro _ _ (@⟨⟨o, x⟩, ⟨o', _⟩, ⟨ho, rfl⟩⟩ | ht)
      · have hR' := hR.replaceEntry hc k ho
        simp only [pure_bind]
        rw [hR'.isEmpty]
        cases (c.replaceEntry k o).entries.isEmpty
        · exact .ok (.ok ⟨.some ⟨hR', optRel_isNone ho⟩, rfl⟩)
        · exact .ok (.ok ⟨.none, rfl⟩)
      · have hR' := hR.replaceEntry hc k (.some ht)
        simp only [pure_bind]
        rw [hR'.isEmpty]
        cases (c.replaceEntry k (some _)).entries.isEmpty
        · exact .ok (.err hR')
        · exact .err _

/-! ### Byte maps -/

section
variable {A A' : Type} {S : A → A' → Prop} {l : List A} {l' : List A'}

theorem forall₂_getElem? (h : List.Forall₂ S l l') (i : Nat) : Option.Rel S l[i]? l'[i]? := by
  induction h generalizing i with
  | nil => exact .none
  | cons h _ ih =>
    cases i with
    | zero => exact .some h
    | succ i => simpa using ih i
theorem forall₂_set (h : List.Forall₂ S l l') (i : Nat) {a : A} {a' : A'} (ha : S a a') :
    List.Forall₂ S (l.set i a) (l'.set i a') := by
  induction h generalizing i with
  | nil => exact .nil
  | cons h hl ih =>
    cases i with
    | zero => exact .cons ha hl
    | succ i => exact .cons h (ih i)
theorem forall₂_eraseIdx (h : List.Forall₂ S l l') (i : Nat) : List.Forall₂ S (l.eraseIdx i) (l'.eraseIdx i) := by
  induction h generalizing i with
  | nil => exact .nil
  | cons h hl ih =>
    cases i with
    | zero => exact hl
    | succ i => exact .cons h (ih i)
theorem forall₂_insertIdx (h : List.Forall₂ S l l') (i : Nat) {a : A} {a' : A'} (ha : S a a') :
    List.Forall₂ S (l.insertIdx i a) (l'.insertIdx i a') := by
  induction h generalizing i with
  | nil =>
    cases i with
    | zero => exact .cons ha .nil
    | succ i => exact .nil
  | cons h hl ih =>
    cases i with
    | zero => exact .cons ha (.cons h hl)
    | succ i => exact .cons h (ih i)
theorem forall₂_isEmpty (h : List.Forall₂ S l l') : l'.isEmpty = l.isEmpty := by cases h <;> rfl

theorem VecDeque.rl_get (h : List.Forall₂ S l l') (i : Nat) : Rl S (VecDeque.get l i) (VecDeque.get l' i) := by
  unfold VecDeque.get index
  have hi := forall₂_getElem? h i
  generalize l[i]? = o at hi
  generalize l'[i]? = o' at hi
  cases hi with
  | none => exact .err _
  | some h => exact .ok h
theorem VecDeque.rl_getMut (h : List.Forall₂ S l l') (i : Nat) :
    Rl (fun a b => S a.1 b.1 ∧ ∀ u u', S u u' → List.Forall₂ S (a.2 u) (b.2 u')) (VecDeque.getMut l i)
      (VecDeque.getMut l' i) := by
  unfold VecDeque.getMut
  exact (VecDeque.rl_get h i).bind fun a b hab => .ok ⟨hab, fun u u' hu => forall₂_set h i hu⟩
theorem VecDeque.rl_insertAt (h : List.Forall₂ S l l') (i : Nat) {a : A} {a' : A'} (ha : S a a') :
    Rl (List.Forall₂ S) (VecDeque.insertAt l i a) (VecDeque.insertAt l' i a') := by
  unfold VecDeque.insertAt
  rw [← h.length_eq]
  split
  · exact .ok (forall₂_insertIdx h i ha)
  · exact .err _
theorem VecDeque.rl_removeKey (h : List.Forall₂ S l l') (i : Nat) {r : A → R (Option A × (Lo × V))}
    {r' : A' → R (Option A' × (Lo' × V))} (hr : ∀ t t', S t t' → Rl (RemR πl S) (r t) (r' t')) :
    Rl (RemKeyR πl (List.Forall₂ S)) (VecDeque.removeKey l i r) (VecDeque.removeKey l' i r') := by
  unfold VecDeque.removeKey
  have hi := forall₂_getElem? h i
  generalize l[i]? = o at hi
  generalize l'[i]? = o' at hi
  cases hi with
  | none => exact .err _
  | some ht =>
    refine (hr _ _ ht).bind ?_
    rintro ⟨o, x⟩ ⟨o', _⟩ ⟨ho, rfl⟩
    cases ho with
    | none =>
      have h' := forall₂_eraseIdx h i
      dsimp only
      rw [forall₂_isEmpty h']
      split
      · exact Rl.bindEq fun _ => .ok ⟨.none, rfl⟩
      · exact .ok ⟨.some ⟨h', rfl⟩, rfl⟩
    | some ht =>
      have h' := forall₂_set h i ht
      dsimp only
      rw [forall₂_isEmpty h']
      split
      · exact Rl.bindEq fun _ => .ok ⟨.none, rfl⟩
      · exact .ok ⟨.some ⟨h', rfl⟩, rfl⟩
theorem VecDeque.rl_maybeRemoveKey (h : List.Forall₂ S l l') (i : Nat) {r : A → R (Result (Option A × (Lo × V)) A)}
    {r' : A' → R (Result (Option A' × (Lo' × V)) A')}
    (hr : ∀ t t', S t t' → Rl (ResR (RemR πl S) S) (r t) (r' t')) :
    Rl (ResR (RemKeyR πl (List.Forall₂ S)) (List.Forall₂ S)) (VecDeque.maybeRemoveKey l i r)
      (VecDeque.maybeRemoveKey l' i r') := by
  unfold VecDeque.maybeRemoveKey
  have hi := forall₂_getElem? h i
  generalize l[i]? = o at hi
  generalize l'[i]? = o' at hi
  cases hi with
  | none => exact .err _
  | some ht =>
    refine (hr _ _ ht).bind ?_
    rintro _ _ (@⟨⟨o, x⟩, ⟨o', _⟩, ⟨ho, rfl⟩⟩ | ht)
    · cases ho with
      | none =>
        have h' := forall₂_eraseIdx h i
        dsimp only
        rw [forall₂_isEmpty h']
        split
        · exact Rl.bindEq fun _ => .ok (.ok ⟨.none, rfl⟩)
        · exact .ok (.ok ⟨.some ⟨h', rfl⟩, rfl⟩)
      | some ht =>
        have h' := forall₂_set h i ht
        dsimp only
        rw [forall₂_isEmpty h']
        split
        · exact Rl.bindEq fun _ => .ok (.ok ⟨.none, rfl⟩)
        · exact .ok (.ok ⟨.some ⟨h', rfl⟩, rfl⟩)
    · exact .ok (.err (forall₂_set h i ht))
end

/-- related byte maps: the same keys, related payloads -/
def ByteR (ST : T → T' → Prop) (a : ByteMap T) (b : ByteMap T') : Prop :=
  b.set = a.set ∧ List.Forall₂ ST a.list b.list

theorem ByteMap.simColl (h : SimTree πl ST) :
    SimColl (C := ByteMap T) (C' := ByteMap T') id πl ST (ByteR ST) := by
  constructor
  case create => intro k t t' ht; exact .ok ⟨rfl, .cons ht .nil⟩
  case get =>
    rintro ⟨s, l⟩ ⟨_, l'⟩ ⟨rfl, hl⟩ k
    show Rl _ (Coll.get _ k) (Coll.get _ k)
    unfold Coll.get
    dsimp only
    split
    · exact .ok .none
    · exact (VecDeque.rl_get hl _).bind fun a b hab => .ok (.some hab)
  case getMut =>
    rintro ⟨s, l⟩ ⟨_, l'⟩ ⟨rfl, hl⟩ k
    show Rl _ (Coll.getMut _ k) (Coll.getMut _ k)
    unfold Coll.getMut
    dsimp only
    split
    · exact .ok .none
    · exact (VecDeque.rl_getMut hl _).bind fun a b hab => .ok (.some ⟨hab.1, fun u u' hu => ⟨rfl, hab.2 u u' hu⟩⟩)
  case insertKey =>
    rintro ⟨s, l⟩ ⟨_, l'⟩ ⟨rfl, hl⟩ k lo v
    show Rl _ (Coll.insertKey _ k (lo, v)) (Coll.insertKey _ k (πl lo, v))
    unfold Coll.insertKey
    dsimp only
    refine Rl.bindEq fun ⟨s', r⟩ => ?_
    dsimp only
    split
    · refine (VecDeque.rl_getMut hl _).bind fun a b hab => (h.insert hab.1 lo v).bind ?_
      rintro ⟨t, o⟩ ⟨t', _⟩ ⟨ht, rfl⟩
      exact .ok ⟨⟨rfl, hab.2 _ _ ht⟩, rfl⟩
    · exact (VecDeque.rl_insertAt hl _ (h.fromMonad lo v)).bind fun a b hab => .ok ⟨⟨rfl, hab⟩, rfl⟩
  case removeKey =>
    rintro ⟨s, l⟩ ⟨_, l'⟩ ⟨rfl, hl⟩ k r r' hr
    show Rl _ (Coll.removeKey _ k r) (Coll.removeKey _ k r')
    unfold Coll.removeKey
    dsimp only
    refine Rl.bindEq fun _ => Rl.bindEq fun _ => (VecDeque.rl_removeKey hl _ hr).bind ?_
    rintro ⟨_, x⟩ ⟨_, _⟩ ⟨(@⟨⟨a, b⟩, ⟨a', _⟩, ⟨hab, rfl⟩⟩ | _), rfl⟩
    · dsimp only
      split
      · exact Rl.bindEq fun _ => .ok ⟨.some ⟨⟨rfl, hab⟩, rfl⟩, rfl⟩
      · exact .ok ⟨.some ⟨⟨rfl, hab⟩, rfl⟩, rfl⟩
    · exact .ok ⟨.none, rfl⟩
  case maybeRemoveKey =>
    rintro ⟨s, l⟩ ⟨_, l'⟩ ⟨rfl, hl⟩ k r r' hr
    show Rl _ (Coll.maybeRemoveKey _ k r) (Coll.maybeRemoveKey _ k r')
    unfold Coll.maybeRemoveKey
    dsimp only
    refine Rl.bindEq fun p => ?_
    split
    · exact .ok (.err ⟨rfl, hl⟩)
    refine (VecDeque.rl_maybeRemoveKey hl _ hr).bind ?_
    rintro _ _ (@⟨⟨_, x⟩, ⟨_, _⟩, ⟨(@⟨⟨a, b⟩, ⟨a', _⟩, ⟨hab, rfl⟩⟩ | _), rfl⟩⟩ | ht)
    · dsimp only
      split
      · exact Rl.bindEq fun _ => .ok (.ok ⟨.some ⟨⟨rfl, hab⟩, rfl⟩, rfl⟩)
      · exact .ok (.ok ⟨.some ⟨⟨rfl, hab⟩, rfl⟩, rfl⟩)
    · exact .ok (.ok ⟨.none, rfl⟩)
    · exact .ok (.err ⟨rfl, ht⟩)

end
end Veb
