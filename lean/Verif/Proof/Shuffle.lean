import Verif.SpecShuffle
import Verif.Proof.Same
import Verif.Proof.Alike

/-!
Trees that are alike up to the order of hash tables simulate each other.
-/

set_option autoImplicit false
set_option linter.unusedSectionVars false
namespace Veb

/-- a simulation that is not left by exchanging the second tree -/
def Closed {T : Type} (S r : T → T → Prop) : Prop := ∀ t t' t'', S t t' → r t' t'' → S t t''

theorem Closed.opt {T : Type} {S r : T → T → Prop} (h : Closed S r) : Closed (Option.Rel S) (Option.Rel r) := by
  intro t t' t'' h1 h2
  cases h1 with
  | none => cases h2; exact .none
  | some h1 => cases h2 with | some h2 => exact .some (h _ _ _ h1 h2)

theorem closed_eq {T : Type} (S : T → T → Prop) : Closed S Eq := by rintro t t' _ h rfl; exact h

theorem HashMap.alike_inv {Hi T : Type} [LinearOrder Hi] {r : T → T → Prop} {c c' : HashMap Hi T} (h : HashMap.Alike r c c')
    (I : c.Inv) : c'.Inv ∧ ∀ k, Option.Rel r (c.lookup k) (c'.lookup k) := by
  obtain ⟨l, hp, hf⟩ := h
  obtain ⟨n, ne⟩ := I
  have nl : NodupKeys l := (hp.map _).nodup_iff.1 n
  have hfst : l.map Prod.fst = c'.entries.map Prod.fst := by
    clear hp nl
    generalize c'.entries = l' at hf
    induction hf with
    | nil => rfl
    | cons h _ ih => simp only [List.map_cons, h.1, ih]
  have n' : NodupKeys c'.entries := by
    show (c'.entries.map Prod.fst).Nodup
    rw [← hfst]; exact nl
  have ne' : c'.entries ≠ [] := by
    intro e
    rw [e] at hf
    cases hf
    exact ne hp.eq_nil
  refine ⟨⟨n', ne'⟩, fun k => ?_⟩
  have e1 : c.lookup k = (⟨l⟩ : HashMap Hi T).lookup k := by
    rcases e : (⟨l⟩ : HashMap Hi T).lookup k with _ | u
    · by_contra hne
      obtain ⟨u, hu⟩ := Option.ne_none_iff_exists'.1 hne
      have := lookup_of_mem nl (hp.mem_iff.1 (mem_of_lookup hu))
      rw [e] at this; cases this
    · exact lookup_of_mem n (hp.mem_iff.2 (mem_of_lookup e))
  rw [e1]
  clear e1 hp nl hfst n' ne'
  obtain ⟨l'⟩ := c'
  dsimp only at hf
  induction hf with
  | nil => exact .none
  | @cons p q l l' h _ ih =>
    rw [HashMap.lookup_cons, HashMap.lookup_cons, ← h.1]
    split
    · exact .some h.2
    · exact ih

theorem ByteMap.alike_inv {T : Type} {r : T → T → Prop} {c c' : ByteMap T} (h : ByteMap.Alike r c c') (I : c.Inv) :
    c'.Inv ∧ ∀ k, Option.Rel r (c.abs k) (c'.abs k) := by
  obtain ⟨s, l⟩ := c; obtain ⟨s', l'⟩ := c'
  obtain ⟨rfl, hl⟩ : s = s' ∧ List.Forall₂ r l l' := h
  refine ⟨⟨I.1, hl.length_eq.symm.trans I.2⟩, fun k => ?_⟩
  unfold ByteMap.abs
  dsimp only
  split
  · generalize cnt _ _ = i
    clear I
    induction hl generalizing i with
    | nil => simpa using Option.Rel.none
    | cons h _ ih =>
      cases i with
      | zero => simpa using Option.Rel.some h
      | succ i => simpa using ih i
  · exact .none

theorem mapsR_closed {Hi T : Type} {ST rt : T → T → Prop} (hr : Closed ST rt) {M M' M'' : Map Hi T} (h : MapsR id ST M M')
    (h' : ∀ k, Option.Rel rt (M' k) (M'' k)) : MapsR id ST M M'' :=
  ⟨fun k => hr.opt _ _ _ (h.1 k) (h' k), fun k _ => ⟨k, rfl⟩⟩

theorem AlikeColl.closed {C Hi T Lo V : Type} [LinearOrder Hi] [VebTree T Lo V] [TreeCollection C Hi T Lo V]
    {rc : (T → T → Prop) → C → C → Prop} (h : AlikeColl C Hi T Lo V rc) {ST rt : T → T → Prop}
    (hT : SameTree (K := Lo) (V := V) id id ST) (hr : Closed ST rt) :
    ∃ SC : C → C → Prop, SameColl (Hi := Hi) (Lo := Lo) (V := V) id id id ST SC ∧ Closed SC (rc rt) := by
  induction h with
  | array _ =>
    refine ⟨_, ArrX.same (fun _ => rfl) rfl hT, ?_⟩
    rintro c c' c'' h1 ⟨a, b, d⟩
    exact ⟨a.symm.trans h1.len, b.symm.trans h1.count, fun i => hr.opt _ _ _ (h1.slot i) (d i)⟩
  | @hash Hi T Lo V _ _ =>
    refine ⟨_, CollX.same (inferInstanceAs (LawfulColl (HashMap Hi T) Hi T Lo V))
      (inferInstanceAs (LawfulColl (HashMap Hi T) Hi T Lo V)) Function.injective_id hT, ?_⟩
    rintro c c' c'' ⟨I, I', hm⟩ h
    obtain ⟨I'', h⟩ := HashMap.alike_inv h I'
    exact ⟨I, I'', mapsR_closed hr hm h⟩
  | @byte T Lo V _ =>
    refine ⟨_, CollX.same (inferInstanceAs (LawfulColl (ByteMap T) (U 8) T Lo V))
      (inferInstanceAs (LawfulColl (ByteMap T) (U 8) T Lo V)) Function.injective_id hT, ?_⟩
    rintro c c' c'' ⟨I, I', hm⟩ h
    obtain ⟨I'', h⟩ := ByteMap.alike_inv h I'
    exact ⟨I, I'', mapsR_closed hr hm h⟩
  | box h ih =>
    obtain ⟨SC, h1, h2⟩ := ih hT hr
    exact ⟨_, h1.boxL.boxR, fun c c' c'' => h2 c.val c'.val c''.val⟩

theorem AlikeTree.closed {T K V : Type} [LinearOrder K] [VebTree T K V] {safe : (K → Prop) → K → Prop} {r : T → T → Prop}
    (h : AlikeTree T K V safe r) :
    ∃ S : T → T → Prop, SameTree (K := K) (V := V) id id S ∧ Closed S r := by
  induction h with
  | byteSet =>
    obtain ⟨S, hS⟩ := (SameShape.leaf .byteSet .byteSet (f := id)).same
    exact ⟨S, hS, closed_eq S⟩
  | byteMap =>
    obtain ⟨S, hS⟩ := (SameShape.leaf .byteMap .byteMap (f := id)).same
    exact ⟨S, hS, closed_eq S⟩
  | @btreeMap K V _ =>
    obtain ⟨S, hS⟩ := (SameShape.leaf (CrateTree.btreeMap (K := K) (V := V)) (CrateTree.btreeMap (K := K) (V := V)) (f := id)).same
    exact ⟨S, hS, closed_eq S⟩
  | box h ih =>
    obtain ⟨S, h1, h2⟩ := ih
    exact ⟨_, Box.sameL (Box.sameR h1), fun t t' t'' => h2 t.val t'.val t''.val⟩
  | sized h ih =>
    obtain ⟨S, h1, h2⟩ := ih
    exact ⟨_, SizedVebTree.same h1, fun t t' t'' a b => ⟨h2 _ _ _ a.1 b.1, b.2.symm.trans a.2⟩⟩
  | tree hk hs ht hc ihs iht =>
    obtain ⟨SS, s1, s2⟩ := ihs
    obtain ⟨ST, t1, t2⟩ := iht
    obtain ⟨SC, c1, c2⟩ := hc.closed t1 t2
    refine ⟨_, Tree.same strictMono_id ⟨fun _ => rfl, fun _ => rfl, fun _ _ => rfl⟩ s1 t1 c1, ?_⟩
    rintro t t' ⟨m, d⟩ h1 ⟨rfl, h2⟩
    cases h1 with
    | one p => cases h2; exact .one p
    | two p q =>
      cases h2 with | @some _ d h2 =>
      obtain ⟨q', ch⟩ := d
      obtain ⟨rfl, h2⟩ := h2
      cases h2
      exact .two p q
    | more p q hs hc =>
      cases h2 with | @some _ d h2 =>
      obtain ⟨q', ch⟩ := d
      obtain ⟨rfl, h2⟩ := h2
      cases h2 with | @some _ x h2 =>
      exact .more p q (s2 _ _ _ hs h2.1) (c2 _ _ _ hc h2.2)

/-! ## Reflexivity -/

theorem AlikeColl.refl {C Hi T Lo V : Type} [LinearOrder Hi] [VebTree T Lo V] [TreeCollection C Hi T Lo V]
    {rc : (T → T → Prop) → C → C → Prop} (h : AlikeColl C Hi T Lo V rc) {rt : T → T → Prop} (hr : ∀ t, rt t t) (c : C) :
    rc rt c c := by
  induction h with
  | array _ => exact ⟨rfl, rfl, fun i => optRel_refl hr _⟩
  | hash => exact ⟨_, .refl _, List.forall₂_same.2 fun p _ => ⟨rfl, hr p.2⟩⟩
  | byte => exact ⟨rfl, List.forall₂_same.2 fun p _ => hr p⟩
  | box h ih => exact ih hr c.val

theorem AlikeTree.refl {T K V : Type} [LinearOrder K] [VebTree T K V] {safe : (K → Prop) → K → Prop} {r : T → T → Prop}
    (h : AlikeTree T K V safe r) (t : T) : r t t := by
  induction h with
  | byteSet => rfl
  | byteMap => rfl
  | btreeMap => rfl
  | box h ih => exact ih t.val
  | sized h ih => exact ⟨ih t.tree, rfl⟩
  | tree hk hs ht hc ihs iht =>
    exact ⟨rfl, optRel_refl (fun d => ⟨rfl, optRel_refl (fun p => ⟨ihs p.1, hc.refl iht p.2⟩) _⟩) _⟩

/-! ## Histories -/

section
variable {T K V : Type} [LinearOrder K] [VebTree T K V] {S r : T → T → Prop}

theorem op_rename_id (op : Op K V) : op.rename id id = op := by cases op <;> rfl
theorem out_rename_id (o : Out K V) : o.rename id id = o := by
  cases o with
  | bool b => rfl
  | kv e => cases e <;> rfl

theorem SameTree.step_id (hS : SameTree (K := K) (V := V) id id S) {t t' : Option T} (ht : Option.Rel S t t') (op : Op K V) :
    Rx (fun a b => Option.Rel S a.1 b.1 ∧ b.2 = a.2) (Exec.step t op) (Exec.step t' op) := by
  have := hS.step ht op
  rw [op_rename_id] at this
  exact this.mono fun a b h => ⟨h.1, h.2.trans (out_rename_id _)⟩

theorem SameTree.shuffled (hS : SameTree (K := K) (V := V) id id S) (hc : Closed S r) {ops : List (Op K V)} {t t' : Option T}
    {x : R (Option T × List (Out K V))} (hx : Shuffled r t' ops x) (ht : Option.Rel S t t') :
    Rx (fun a b => Option.Rel S a.1 b.1 ∧ b.2 = a.2) (Exec.run t ops) x := by
  induction hx generalizing t with
  | nil h => exact .ok ⟨hc.opt _ _ _ ht h, rfl⟩
  | @step t' u v w op o ops os h hs hr ih =>
    have := hS.step_id (hc.opt _ _ _ ht h) ‹_›
    rw [hs] at this
    unfold Exec.run
    generalize Exec.step t _ = y at this
    cases this with | @ok a _ h1 =>
    obtain ⟨v', o'⟩ := a
    obtain ⟨h1, h2⟩ := h1
    dsimp only at h1 h2
    subst h2
    have := ih h1
    show Rx _ (do let (t, os) ← Exec.run v' _; pure (t, o :: os)) _
    generalize Exec.run v' _ = y at this
    cases this with | @ok a _ h2 =>
    obtain ⟨w', os'⟩ := a
    obtain ⟨h2, h3⟩ := h2
    dsimp only at h2 h3
    subst h3
    exact .ok ⟨h2, rfl⟩
  | @later t' u v op o ops e h hs hr ih =>
    have := hS.step_id (hc.opt _ _ _ ht h) ‹_›
    rw [hs] at this
    unfold Exec.run
    generalize Exec.step t _ = y at this
    cases this with | @ok a _ h1 =>
    obtain ⟨v', o'⟩ := a
    obtain ⟨h1, h2⟩ := h1
    dsimp only at h1 h2
    subst h2
    have := ih h1
    show Rx _ (do let (t, os) ← Exec.run v' _; pure (t, o :: os)) _
    generalize Exec.run v' _ = y at this
    cases this
    exact .err _ _
  | panic h hs =>
    have := hS.step_id (hc.opt _ _ _ ht h) ‹_›
    rw [hs] at this
    unfold Exec.run
    generalize Exec.step t _ = y at this
    cases this
    exact .err _ _

theorem SameTree.itemsOf (hS : SameTree (K := K) (V := V) id id S) {t t' : Option T} (ht : Option.Rel S t t')
    (ss : List Side) : Rx (fun a b => b = a) (itemsOf t ss) (itemsOf (K := K) t' ss) := by
  cases ht with
  | none => exact .ok rfl
  | some ht =>
    refine (hS.calls Function.injective_id ss (a := Iter.new _) (b := Iter.new _) ⟨ht, rfl, rfl⟩).bind fun a b hab => .ok ?_
    rw [hab.2]
    exact List.map_id'' (fun o => by cases o <;> rfl) _

theorem shuffled_run (hr : ∀ t, r t t) (ops : List (Op K V)) (t : Option T) : Shuffled r t ops (Exec.run t ops) := by
  induction ops generalizing t with
  | nil => exact .nil (optRel_refl hr t)
  | cons op ops ih =>
    unfold Exec.run
    rcases e : Exec.step t op with e1 | ⟨v, o⟩
    · exact .panic (optRel_refl hr t) e
    · have := ih v
      show Shuffled r t _ (do let (t, os) ← Exec.run v ops; pure (t, o :: os))
      generalize Exec.run v ops = y at this
      rcases y with e1 | ⟨w, os⟩
      · exact .later (optRel_refl hr t) e this
      · exact .step (optRel_refl hr t) e this
end

end Veb
