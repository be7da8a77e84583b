import Verif.SpecActClone
import Verif.Proof.Clone

/-!
Clones over code of the user: the twin of a tree and its clone, the ledger of the calls, and where panics come from.
-/

set_option autoImplicit false
set_option linter.unusedSectionVars false
set_option linter.unusedSimpArgs false
namespace Veb.ActClone

variable {σ K Hi Lo V W T C : Type} {P : σ → σ → Prop} {E : Panic → Prop}

theorem bind_ok {α β : Type} {x : Act σ α} {f : α → Act σ β} {s s'' : σ} {b : β} (h : (x >>= f) s = .ok (b, s'')) :
    ∃ a s', x s = .ok (a, s') ∧ f a s' = .ok (b, s'') := by
  change (x s >>= fun p => f p.1 p.2) = _ at h
  rcases hx : x s with e | ⟨a, s'⟩
  · rw [hx] at h; cases h
  · rw [hx] at h; exact ⟨a, s', rfl, h⟩
theorem pure_ok {α : Type} {a b : α} {s s' : σ} (h : (pure a : Act σ α) s = .ok (b, s')) : b = a ∧ s' = s := by
  cases h; exact ⟨rfl, rfl⟩
theorem bind_err {α β : Type} {x : Act σ α} {f : α → Act σ β} {s : σ} {p : Panic} (h : (x >>= f) s = .error p) :
    x s = .error p ∨ ∃ a s', x s = .ok (a, s') ∧ f a s' = .error p := by
  change (x s >>= fun p => f p.1 p.2) = _ at h
  rcases hx : x s with e | ⟨a, s'⟩
  · rw [hx] at h; cases h; exact .inl rfl
  · rw [hx] at h; exact .inr ⟨a, s', rfl, h⟩

/-- the answers of cloning are related by `Q` -/
def All (σ : Type) {α : Type} [ActClone σ α] (Q : α → α → Prop) : Prop :=
  ∀ (a : α) (s : σ) (a' : α) (s' : σ), clone a s = .ok (a', s') → Q a a'

theorem all_list {α : Type} [ActClone σ α] {Q : α → α → Prop} (h : All σ Q) (l : List α) (s : σ) (l' : List α) (s' : σ)
    (e : list l s = .ok (l', s')) : List.Forall₂ Q l l' := by
  induction l generalizing s l' s' with
  | nil => obtain ⟨rfl, -⟩ := pure_ok e; exact .nil
  | cons a l ih =>
    obtain ⟨a', s1, e1, e⟩ := bind_ok e
    obtain ⟨l1, s2, e2, e⟩ := bind_ok e
    obtain ⟨rfl, -⟩ := pure_ok e
    exact .cons (h _ _ _ _ e1) (ih _ _ _ e2)
theorem all_prod {α β : Type} [ActClone σ α] [ActClone σ β] {Q : α → α → Prop} {R : β → β → Prop} (h : All σ Q) (h' : All σ R) :
    All σ (α := α × β) fun p q => Q p.1 q.1 ∧ R p.2 q.2 := by
  intro p s q s' e
  obtain ⟨a, s1, e1, e⟩ := bind_ok e
  obtain ⟨b, s2, e2, e⟩ := bind_ok e
  obtain ⟨rfl, -⟩ := pure_ok e
  exact ⟨h _ _ _ _ e1, h' _ _ _ _ e2⟩
theorem all_opt {α : Type} [ActClone σ α] {Q : α → α → Prop} (h : All σ Q) : All σ (α := Option α) (Option.Rel Q) := by
  intro p s q s' e
  rcases p with _ | a
  · obtain ⟨rfl, -⟩ := pure_ok e; exact .none
  · obtain ⟨a', s1, e1, e⟩ := bind_ok e
    obtain ⟨rfl, -⟩ := pure_ok e
    exact .some (h _ _ _ _ e1)
theorem all_box {α : Type} [ActClone σ α] {Q : α → α → Prop} (h : All σ Q) : All σ (α := Box α) fun p q => Q p.val q.val := by
  intro p s q s' e
  obtain ⟨a', s1, e1, e⟩ := bind_ok e
  obtain ⟨rfl, -⟩ := pure_ok e
  exact h _ _ _ _ e1
theorem all_tree {S : Type} [ActClone σ K] [ActClone σ V] [ActClone σ S] [ActClone σ C] {QK : K → K → Prop} {QV : V → V → Prop}
    {QS : S → S → Prop} {QC : C → C → Prop} (hK : All σ QK) (hV : All σ QV) (hS : All σ QS) (hC : All σ QC) :
    All σ (α := Tree K V S C) fun t u => (QK t.min.1 u.min.1 ∧ QV t.min.2 u.min.2) ∧
      Option.Rel (fun d e => (QK d.max.1 e.max.1 ∧ QV d.max.2 e.max.2) ∧
        Option.Rel (fun p q => QS p.1 q.1 ∧ QC p.2 q.2) d.children e.children) t.data u.data := by
  intro t s u s' e
  obtain ⟨p, s1, e1, e⟩ := bind_ok e
  obtain ⟨d, s2, e2, e⟩ := bind_ok e
  obtain ⟨rfl, -⟩ := pure_ok e
  refine ⟨all_prod hK hV _ _ _ _ e1, all_opt (Q := fun (d e : TreeData K V S C) => (QK d.max.1 e.max.1 ∧ QV d.max.2 e.max.2) ∧
        Option.Rel (fun p q => QS p.1 q.1 ∧ QC p.2 q.2) d.children e.children) ?_ _ _ _ _ e2⟩
  intro d s d' s' e
  obtain ⟨p, s1, e1, e⟩ := bind_ok e
  obtain ⟨c, s2, e2, e⟩ := bind_ok e
  obtain ⟨rfl, -⟩ := pure_ok e
  exact ⟨all_prod hK hV _ _ _ _ e1, all_opt (all_prod hS hC) _ _ _ _ e2⟩

/-! ## The twin -/

theorem all_keys [ActClone σ K] (h : ClonesKeys σ P E K) : All σ (α := K) fun k k' => k' = k :=
  fun k s k' s' e => (h.ok k s k' s' e).1

/-- `t` seen through `g` and its clone `t'` seen through `f` are the same -/
def Twins (SG SF : T → C → Prop) (t t' : T) : Prop := ∃ u, SG t u ∧ SF t' u

theorem forall₂_twins {α β : Type} {A B : α → β → Prop} {l l' : List α}
    (h : List.Forall₂ (fun a a' => ∃ u, A a u ∧ B a' u) l l') : ∃ m, List.Forall₂ A l m ∧ List.Forall₂ B l' m := by
  induction h with
  | nil => exact ⟨[], .nil, .nil⟩
  | cons h _ ih =>
    obtain ⟨u, h1, h2⟩ := h
    obtain ⟨m, h3, h4⟩ := ih
    exact ⟨u :: m, .cons h1 h3, .cons h2 h4⟩

theorem coll_twin [VebTree T Lo V] [TreeCollection C Hi T Lo V] [ActClone σ T] [ActClone σ C]
    {held : (T → Multiset V) → C → Multiset V} (h : ActCloneableColl σ P E C Hi T Lo V held) :
    ∀ {f g : V → W} {T' : Type} [VebTree T' Lo W] {SF SG : T → T' → Prop}, SameTree (id : Lo → Lo) f SF → SameTree (id : Lo → Lo) g SG →
    All σ (Twins SG SF) →
    ∃ (C' : Type) (_ : TreeCollection C' Hi T' Lo W) (CF CG : C → C' → Prop),
      SameColl (id : Hi → Hi) (id : Lo → Lo) f SF CF ∧ SameColl (id : Hi → Hi) (id : Lo → Lo) g SG CG ∧ All σ (Twins CG CF) := by
  induction h with
  | @hash Hi T Lo V _ _ _ hk _ =>
    intro f g T' _ SF SG hF hG hA
    refine ⟨HashMap Hi T', inferInstance, _, _, HashMap.sameV hF, HashMap.sameV hG, ?_⟩
    intro c s c' s' e
    obtain ⟨l, s1, e1, e⟩ := bind_ok e
    obtain ⟨rfl, -⟩ := pure_ok e
    have h1 := all_list (all_prod (all_keys hk) hA) _ _ _ _ e1
    have h2 : List.Forall₂ (fun (p p' : Hi × T) => ∃ u : Hi × T', (u.1 = p.1 ∧ SG p.2 u.2) ∧ (u.1 = p'.1 ∧ SF p'.2 u.2)) c.entries l :=
      h1.imp fun p p' ⟨h1, u, h2, h3⟩ => ⟨(p.1, u), ⟨rfl, h2⟩, h1.symm, h3⟩
    obtain ⟨m, h3, h4⟩ := forall₂_twins h2
    exact ⟨⟨m⟩, h3, h4⟩
  | box h ih =>
    intro f g T' _ SF SG hF hG hA
    obtain ⟨C', i, CF, CG, h1, h2, h3⟩ := ih hF hG hA
    refine ⟨Box C', inferInstance, _, _, Box.sameColl h1, Box.sameColl h2, ?_⟩
    intro c s c' s' e
    obtain ⟨u, h4, h5⟩ := all_box h3 _ _ _ _ e
    exact ⟨⟨u⟩, h4, h5⟩

/-- if values are cloned to themselves, so are trees -/
theorem coll_eq [VebTree T Lo V] [TreeCollection C Hi T Lo V] [ActClone σ T] [ActClone σ C]
    {held : (T → Multiset V) → C → Multiset V} (h : ActCloneableColl σ P E C Hi T Lo V held) (hT : All σ (α := T) fun t t' => t' = t) :
    All σ (α := C) fun c c' => c' = c := by
  induction h with
  | @hash Hi T Lo V _ _ _ hk _ =>
    intro c s c' s' e
    obtain ⟨l, s1, e1, e⟩ := bind_ok e
    obtain ⟨rfl, -⟩ := pure_ok e
    have h1 := all_list (all_prod (all_keys hk) hT) _ _ _ _ e1
    have h2 : c.entries = l := List.forall₂_eq_eq_eq ▸ h1.imp fun p q h => (Prod.ext h.1 h.2).symm
    rw [← h2]
  | box h ih =>
    intro c s c' s' e
    have := all_box (ih hT) _ _ _ _ e
    cases c; cases c'; exact congrArg Box.mk this

theorem tree_eq [LinearOrder K] [VebTree T K V] [ActClone σ T] [ActClone σ V] {held : T → Multiset V}
    (h : ActCloneable σ P E T K V held) (hV : All σ (α := V) fun v v' => v' = v) : All σ (α := T) fun t t' => t' = t := by
  induction h with
  | byteSet => intro t s t' s' e; exact (pure_ok e).1
  | btreeMap hk =>
    intro c s c' s' e
    obtain ⟨l, s1, e1, e⟩ := bind_ok e
    obtain ⟨rfl, -⟩ := pure_ok e
    have h1 := all_list (all_prod (all_keys hk) hV) _ _ _ _ e1
    have h2 : c.entries = l := List.forall₂_eq_eq_eq ▸ h1.imp fun p q h => (Prod.ext h.1 h.2).symm
    rw [← h2]
  | box h ih =>
    intro c s c' s' e
    have := all_box (ih hV) _ _ _ _ e
    cases c; cases c'; exact congrArg Box.mk this
  | tree hk hS hT hC ihS ihT =>
    intro t s t' s' e
    obtain ⟨⟨h1, h2⟩, h3⟩ := all_tree (all_keys hk) hV (ihS fun v s v' s' e => rfl) (coll_eq hC (ihT hV)) _ _ _ _ e
    obtain ⟨⟨k, v⟩, d⟩ := t
    obtain ⟨⟨k', v'⟩, d'⟩ := t'
    dsimp only at h1 h2 h3
    subst h1 h2
    cases h3 with
    | none => rfl
    | @some d d' h3 =>
      obtain ⟨⟨k1, v1⟩, c⟩ := d
      obtain ⟨⟨k2, v2⟩, c'⟩ := d'
      obtain ⟨⟨h4, h5⟩, h6⟩ := h3
      dsimp only at h4 h5 h6
      subst h4 h5
      cases h6 with
      | none => rfl
      | @some p q h6 => rw [show q = p from Prod.ext h6.1 h6.2]

theorem map_eq {f g : V → W} {l l' : List (K × V)} (h : List.Forall₂ (fun p q => q.1 = p.1 ∧ f q.2 = g p.2) l l') :
    l.map (kvf id g) = l'.map (kvf id f) := by
  induction h with
  | nil => rfl
  | @cons p q _ _ h _ ih =>
    rw [List.map_cons, List.map_cons, ih, show kvf id g p = kvf id f q from Prod.ext h.1.symm h.2.symm]

theorem twin [LinearOrder K] [VebTree T K V] [ActClone σ T] [ActClone σ V] {held : T → Multiset V}
    (h : ActCloneable σ P E T K V held) (z : σ) : ∀ {W : Type} {f g : V → W}, All σ (fun v v' => f v' = g v) →
    ∃ (W' : Type) (q : W' → W) (f' g' : V → W'), Function.Injective q ∧ f = q ∘ f' ∧ g = q ∘ g' ∧
    All σ (fun v v' => f' v' = g' v) ∧
    ∃ (T' : Type) (_ : VebTree T' K W') (SF SG : T → T' → Prop), SameTree (id : K → K) f' SF ∧ SameTree (id : K → K) g' SG ∧
      All σ (Twins SG SF) := by
  induction h with
  | byteSet =>
    intro W f g hV
    refine ⟨Unit, fun _ => f (), id, id, fun _ _ _ => rfl, rfl, funext fun _ => (hV () z () z rfl).symm, fun _ _ _ _ _ => rfl,
      ByteSet, inferInstance, _, _, SameTree.refl, SameTree.refl, fun t s t' s' e => ⟨t, rfl, (pure_ok e).1.symm⟩⟩
  | @btreeMap K V _ _ hk _ =>
    intro W f g hV
    refine ⟨W, id, f, g, fun _ _ => id, rfl, rfl, hV, BTreeMap K W, inferInstance, _, _, BTreeMap.sameV, BTreeMap.sameV, ?_⟩
    intro c s c' s' e
    obtain ⟨l, s1, e1, e⟩ := bind_ok e
    obtain ⟨rfl, -⟩ := pure_ok e
    exact ⟨⟨c.entries.map (kvf id g)⟩, rfl, map_eq (all_list (all_prod (all_keys hk) hV) _ _ _ _ e1)⟩
  | box h ih =>
    intro W f g hV
    obtain ⟨W', q, f', g', h1, h2, h3, h4, T', i, SF, SG, h5, h6, h7⟩ := ih hV
    refine ⟨W', q, f', g', h1, h2, h3, h4, T', i, _, _, Box.sameL h5, Box.sameL h6, ?_⟩
    intro c s c' s' e
    exact all_box h7 _ _ _ _ e
  | @tree K V S C Hi Lo T _ _ _ _ _ _ _ _ _ hk _ _ _ _ _ _ _ hS hT hC ihS ihT =>
    intro W f g hV
    obtain ⟨W', q, f', g', h1, h2, h3, h4, T', i, SF, SG, h5, h6, h7⟩ := ihT hV
    obtain ⟨C', j, CF, CG, h8, h9, h10⟩ := coll_twin hC h5 h6 h7
    refine ⟨W', q, f', g', h1, h2, h3, h4, Tree K W' S C', inferInstance, _, _,
      Tree.same strictMono_id ⟨fun _ => rfl, fun _ => rfl, fun _ _ => rfl⟩ SameTree.refl h5 h8,
      Tree.same strictMono_id ⟨fun _ => rfl, fun _ => rfl, fun _ _ => rfl⟩ SameTree.refl h6 h9, ?_⟩
    intro t s t' s' e
    obtain ⟨⟨e1, e2⟩, e3⟩ := all_tree (all_keys hk) h4 (tree_eq hS fun v s v' s' e => rfl) h10 _ _ _ _ e
    obtain ⟨⟨k, v⟩, d⟩ := t
    obtain ⟨⟨k', v'⟩, d'⟩ := t'
    dsimp only at e1 e2 e3
    subst e1
    have x1 : kvf (id : K → K) g' (k', v) = kvf id f' (k', v') := Prod.ext rfl e2.symm
    cases e3 with
    | none => exact ⟨⟨kvf id g' (k', v), none⟩, .one _, by rw [x1]; exact .one _⟩
    | @some d d' h3 =>
      obtain ⟨⟨k1, v1⟩, c⟩ := d
      obtain ⟨⟨k2, v2⟩, c'⟩ := d'
      obtain ⟨⟨h4, h5⟩, h6⟩ := h3
      dsimp only at h4 h5 h6
      subst h4
      have x2 : kvf (id : K → K) g' (k2, v1) = kvf id f' (k2, v2) := Prod.ext rfl h5.symm
      cases h6 with
      | none => exact ⟨⟨kvf id g' (k', v), some ⟨kvf id g' (k2, v1), none⟩⟩, .two _ _, by rw [x1, x2]; exact .two _ _⟩
      | @some p q h6 =>
        obtain ⟨s, c⟩ := p
        obtain ⟨s', c'⟩ := q
        obtain ⟨e4, u, e5, e6⟩ := h6
        dsimp only at e4
        subst e4
        exact ⟨⟨kvf id g' (k', v), some ⟨kvf id g' (k2, v1), some (s', u)⟩⟩, .more _ _ rfl e5, by rw [x1, x2]; exact .more _ _ rfl e6⟩

/-! ## The ledger -/

section
variable {M : Type} [AddCommMonoid M] {calls : σ → M} (b : Bool)

/-- cloning an `α` adds `w` of the original (`b`) or of the clone to `calls` -/
def Led (calls : σ → M) (b : Bool) {α : Type} [ActClone σ α] (w : α → M) : Prop :=
  ∀ (a : α) (s : σ) (a' : α) (s' : σ), clone a s = .ok (a', s') → calls s' = w (cond b a a') + calls s

variable {b}
theorem led_list {α : Type} [ActClone σ α] {w : α → M} (h : Led calls b w) (l : List α) (s : σ) (l' : List α) (s' : σ)
    (e : list l s = .ok (l', s')) : calls s' = ((cond b l l').map w).sum + calls s := by
  induction l generalizing s l' s' with
  | nil => obtain ⟨rfl, rfl⟩ := pure_ok e; cases b <;> simp
  | cons a l ih =>
    obtain ⟨a', s1, e1, e⟩ := bind_ok e
    obtain ⟨l1, s2, e2, e⟩ := bind_ok e
    obtain ⟨rfl, rfl⟩ := pure_ok e
    rw [ih _ _ _ e2, h _ _ _ _ e1]
    cases b <;> simp [add_assoc, add_comm, add_left_comm]
theorem led_prod {α β : Type} [ActClone σ α] [ActClone σ β] {w : α → M} {w' : β → M} (h : Led calls b w) (h' : Led calls b w') :
    Led calls b (α := α × β) fun p => w p.1 + w' p.2 := by
  intro p s q s' e
  obtain ⟨a, s1, e1, e⟩ := bind_ok e
  obtain ⟨c, s2, e2, e⟩ := bind_ok e
  obtain ⟨rfl, rfl⟩ := pure_ok e
  rw [h' _ _ _ _ e2, h _ _ _ _ e1]
  cases b <;> simp [add_assoc, add_comm, add_left_comm]
theorem led_opt {α : Type} [ActClone σ α] {w : α → M} (h : Led calls b w) :
    Led calls b (α := Option α) fun o => (o.map w).getD 0 := by
  intro p s q s' e
  rcases p with _ | a
  · obtain ⟨rfl, rfl⟩ := pure_ok e; cases b <;> simp
  · obtain ⟨a', s1, e1, e⟩ := bind_ok e
    obtain ⟨rfl, rfl⟩ := pure_ok e
    rw [h _ _ _ _ e1]
    cases b <;> simp
theorem led_box {α : Type} [ActClone σ α] {w : α → M} (h : Led calls b w) : Led calls b (α := Box α) fun o => w o.val := by
  intro p s q s' e
  obtain ⟨a', s1, e1, e⟩ := bind_ok e
  obtain ⟨rfl, rfl⟩ := pure_ok e
  rw [h _ _ _ _ e1]
  cases b <;> simp
theorem led_tree {S : Type} [ActClone σ K] [ActClone σ V] [ActClone σ S] [ActClone σ C] {wV : V → M} {wC : C → M}
    (hK : Led calls b (α := K) fun _ => 0) (hV : Led calls b wV) (hS : Led calls b (α := S) fun _ => 0) (hC : Led calls b wC) :
    Led calls b (α := Tree K V S C) fun t => wV t.min.2 + (t.data.map fun d => wV d.max.2 + (d.children.map fun p => wC p.2).getD 0).getD 0 := by
  intro t s u s' e
  obtain ⟨p, s1, e1, e⟩ := bind_ok e
  obtain ⟨d, s2, e2, e⟩ := bind_ok e
  obtain ⟨rfl, rfl⟩ := pure_ok e
  have hd : Led calls b (α := TreeData K V S C) fun d => wV d.max.2 + (d.children.map fun p => wC p.2).getD 0 := by
    intro d s d' s' e
    obtain ⟨p, s1, e1, e⟩ := bind_ok e
    obtain ⟨c, s2, e2, e⟩ := bind_ok e
    obtain ⟨rfl, rfl⟩ := pure_ok e
    rw [led_opt (led_prod hS hC) _ _ _ _ e2, led_prod hK hV _ _ _ _ e1]
    cases b <;> simp [add_assoc, add_comm, add_left_comm]
  rw [led_opt hd _ _ _ _ e2, led_prod hK hV _ _ _ _ e1]
  cases b <;> simp [add_assoc, add_comm, add_left_comm]

theorem led_keys [ActClone σ K] (h : ClonesKeys σ P E K) (hP : ∀ s s', P s s' → calls s' = calls s) :
    Led calls b (α := K) fun _ => 0 := fun k s k' s' e => by rw [zero_add]; exact hP _ _ (h.ok k s k' s' e).2

theorem led_coll [VebTree T Lo V] [TreeCollection C Hi T Lo V] [ActClone σ T] [ActClone σ C]
    {held : (T → Multiset V) → C → Multiset V} (h : ActCloneableColl σ P E C Hi T Lo V held)
    (hP : ∀ s s', P s s' → calls s' = calls s) : ∀ {ht : T → Multiset V} {w : V → M}, Led calls b (fun t => ((ht t).map w).sum) →
    Led calls b fun c => ((held ht c).map w).sum := by
  induction h with
  | @hash Hi T Lo V _ _ _ hk _ =>
    intro ht w hT c s c' s' e
    obtain ⟨l, s1, e1, e⟩ := bind_ok e
    obtain ⟨rfl, rfl⟩ := pure_ok e
    rw [led_list (led_prod (led_keys hk hP) hT) _ _ _ _ e1]
    congr 1
    have : ∀ l : List (Hi × T), (l.map fun p => 0 + ((ht p.2).map w).sum).sum = (((l.map fun e => ht e.2).sum).map w).sum := by
      intro l
      induction l with
      | nil => simp
      | cons p l ih =>
        rw [List.map_cons, List.sum_cons, List.map_cons, List.sum_cons, Multiset.map_add, Multiset.sum_add, ih, zero_add]
    rw [this]; cases b <;> rfl
  | box h ih => intro ht w hT; exact led_box (ih hT)

theorem led [LinearOrder K] [VebTree T K V] [ActClone σ T] [ActClone σ V] {held : T → Multiset V}
    (h : ActCloneable σ P E T K V held) (hP : ∀ s s', P s s' → calls s' = calls s) : ∀ {w : V → M}, Led calls b w →
    Led calls b fun t => ((held t).map w).sum := by
  induction h with
  | byteSet =>
    intro w hw t s t' s' e
    obtain ⟨-, rfl⟩ := pure_ok e
    simp
  | @btreeMap K V _ _ hk _ =>
    intro w hw t s t' s' e
    obtain ⟨l, s1, e1, e⟩ := bind_ok e
    obtain ⟨rfl, rfl⟩ := pure_ok e
    rw [led_list (led_prod (led_keys hk hP) hw) _ _ _ _ e1]
    congr 1
    have : ∀ l : List (K × V), (l.map fun p => 0 + w p.2).sum = (((l.map Prod.snd : List V) : Multiset V).map w).sum := by
      intro l
      rw [Multiset.map_coe, Multiset.sum_coe, List.map_map]
      exact congrArg List.sum (List.map_congr_left fun p _ => zero_add _)
    rw [this]; cases b <;> rfl
  | box h ih => intro w hw; exact led_box (ih hw)
  | @tree K V S C Hi Lo T _ _ _ _ _ _ _ _ _ hk _ _ _ _ hs ht hc hS hT hC ihS ihT =>
    intro w hw t s t' s' e
    have hz : Led calls b (α := S) fun _ => 0 := by
      have h0 : Led calls b (α := Unit) fun _ => 0 := fun _ s _ s' e => by rw [(pure_ok e).2, zero_add]
      intro a s a' s' e
      rw [ihS h0 a s a' s' e]
      simp
    rw [led_tree (led_keys hk hP) hw hz (led_coll hC hP (ihT hw)) _ _ _ _ e]
    congr 1
    generalize cond b t t' = u
    obtain ⟨p, _ | ⟨q, _ | ⟨a, c⟩⟩⟩ := u <;> simp [treeHeld, add_assoc]
end

/-! ## Panics -/

/-- panics of cloning an `α` are among `F` -/
def Errs (σ : Type) (F : Panic → Prop) (α : Type) [ActClone σ α] : Prop :=
  ∀ (a : α) (s : σ) (p : Panic), clone a s = .error p → F p

variable {F : Panic → Prop}
theorem errs_list {α : Type} [ActClone σ α] (h : Errs σ F α) (l : List α) (s : σ) (p : Panic) (e : list l s = .error p) : F p := by
  induction l generalizing s with
  | nil => cases e
  | cons a l ih =>
    rcases bind_err e with e | ⟨_, _, -, e⟩
    · exact h _ _ _ e
    rcases bind_err e with e | ⟨_, _, -, e⟩
    · exact ih _ e
    · cases e
theorem errs_prod {α β : Type} [ActClone σ α] [ActClone σ β] (h : Errs σ F α) (h' : Errs σ F β) : Errs σ F (α × β) := by
  intro a s p e
  rcases bind_err e with e | ⟨_, _, -, e⟩
  · exact h _ _ _ e
  rcases bind_err e with e | ⟨_, _, -, e⟩
  · exact h' _ _ _ e
  · cases e
theorem errs_opt {α : Type} [ActClone σ α] (h : Errs σ F α) : Errs σ F (Option α) := by
  intro a s p e
  rcases a with _ | a
  · cases e
  rcases bind_err e with e | ⟨_, _, -, e⟩
  · exact h _ _ _ e
  · cases e
theorem errs_box {α : Type} [ActClone σ α] (h : Errs σ F α) : Errs σ F (Box α) := by
  intro a s p e
  rcases bind_err e with e | ⟨_, _, -, e⟩
  · exact h _ _ _ e
  · cases e
theorem errs_tree {S : Type} [ActClone σ K] [ActClone σ V] [ActClone σ S] [ActClone σ C]
    (hK : Errs σ F K) (hV : Errs σ F V) (hS : Errs σ F S) (hC : Errs σ F C) : Errs σ F (Tree K V S C) := by
  have hd : Errs σ F (TreeData K V S C) := by
    intro a s p e
    rcases bind_err e with e | ⟨_, _, -, e⟩
    · exact errs_prod hK hV _ _ _ e
    rcases bind_err e with e | ⟨_, _, -, e⟩
    · exact errs_opt (errs_prod hS hC) _ _ _ e
    · cases e
  intro a s p e
  rcases bind_err e with e | ⟨_, _, -, e⟩
  · exact errs_prod hK hV _ _ _ e
  rcases bind_err e with e | ⟨_, _, -, e⟩
  · exact errs_opt hd _ _ _ e
  · cases e
theorem errs_coll [VebTree T Lo V] [TreeCollection C Hi T Lo V] [ActClone σ T] [ActClone σ C]
    {held : (T → Multiset V) → C → Multiset V} (h : ActCloneableColl σ P E C Hi T Lo V held) (hE : ∀ p, E p → F p)
    (hT : Errs σ F T) : Errs σ F C := by
  induction h with
  | hash hk =>
    intro a s p e
    rcases bind_err e with e | ⟨_, _, -, e⟩
    · exact errs_list (errs_prod (fun a s p e => hE _ (hk.err a s p e)) hT) _ _ _ e
    · cases e
  | box h ih => exact errs_box (ih hT)
theorem errs [LinearOrder K] [VebTree T K V] [ActClone σ T] [ActClone σ V] {held : T → Multiset V}
    (h : ActCloneable σ P E T K V held) (hE : ∀ p, E p → F p) (hV : Errs σ F V) : Errs σ F T := by
  induction h with
  | byteSet => intro a s p e; cases e
  | btreeMap hk =>
    intro a s p e
    rcases bind_err e with e | ⟨_, _, -, e⟩
    · exact errs_list (errs_prod (fun a s p e => hE _ (hk.err a s p e)) hV) _ _ _ e
    · cases e
  | box h ih => exact errs_box (ih hV)
  | tree hk hS hT hC ihS ihT =>
    exact errs_tree (fun a s p e => hE _ (hk.err a s p e)) hV (ihS fun a s p e => by cases e) (errs_coll hC hE (ihT hV))

end Veb.ActClone
