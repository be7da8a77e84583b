import Verif.SpecListCalls
import Verif.Proof.ActAnyList
import Verif.Proof.Hist

/-!
How often `ByteMap<L>` calls its list: the calls are counted along the `ByteSet`.
-/

set_option autoImplicit false

namespace Veb
namespace ListCalls
variable {σ L V α β : Type} [ActList σ L V] {m : σ → Nat} {lo hi : Nat}

/-- `n` calls -/
def Cost (m : σ → Nat) (lo hi n : Nat) (x : Act σ α) : Prop := Grows m (n * lo) (n * hi) x

theorem Cost.ret {a : α} : Cost m lo hi 0 (pure a : Act σ α) := by
  rintro s _ _ ⟨⟩; simp
theorem Cost.errl {e : Panic} {n : Nat} : Cost m lo hi n (throw e : Act σ α) := by rintro s _ _ ⟨⟩
theorem Cost.one {x : Act σ α} (h : Grows m lo hi x) : Cost m lo hi 1 x := by
  unfold Cost; rwa [Nat.one_mul, Nat.one_mul]
theorem Cost.bind {x : Act σ α} {f : α → Act σ β} {a b : Nat} (h : Cost m lo hi a x) (hf : ∀ r, Cost m lo hi b (f r)) :
    Cost m lo hi (b + a) (x >>= f) := by
  intro s r s' hr
  obtain ⟨r1, s1, h1, h2⟩ := BoA.split_ok hr
  have g1 := h _ _ _ h1
  have g2 := hf _ _ _ _ h2
  rw [Nat.add_mul, Nat.add_mul]
  omega
theorem Cost.then {x : Act σ α} {f : α → Act σ β} (h : Grows m lo hi x) (hf : ∀ r, Cost m lo hi 0 (f r)) :
    Cost m lo hi 1 (x >>= f) := (Cost.one h).bind hf
theorem Cost.lift {x : R α} {f : α → Act σ β} {n : Nat} (hf : ∀ r, x = .ok r → Cost m lo hi n (f r)) :
    Cost m lo hi n ((liftM x : Act σ α) >>= f) := by
  intro s r s' hr
  obtain ⟨r1, s1, h1, h2⟩ := BoA.split_ok hr
  cases x with
  | error e => cases h1
  | ok a => cases h1; exact hf _ rfl _ _ _ h2

/-- the cost is a function of what `y` returns -/
def Along (m : σ → Nat) (lo hi : Nat) (n : β → Nat) (x : Act σ α) (y : R β) : Prop := ∀ b, y = .ok b → Cost m lo hi (n b) x

theorem Along.same {α' : Type} {n : β → Nat} {x : R α} {f : α → Act σ α'} {g : α → R β}
    (hf : ∀ a, Along m lo hi n (f a) (g a)) : Along m lo hi n ((liftM x : Act σ α) >>= f) (x >>= g) := by
  intro b hb
  refine Cost.lift fun r hr => ?_
  subst hr
  exact hf r b hb
theorem Along.ret {n : β → Nat} {x : Act σ α} {b : β} (h : Cost m lo hi (n b) x) : Along m lo hi n x (pure b) := by
  rintro _ ⟨⟩; exact h
theorem Along.always {k : Nat} {n : β → Nat} {x : Act σ α} {y : R β} (hn : ∀ b, y = .ok b → n b = k) (h : Cost m lo hi k x) :
    Along m lo hi n x y := fun b hb => hn b hb ▸ h

/-- the answer decides -/
def cost (op : Op (U 8) Unit) (x : Option ByteSet × Out (U 8) Unit) : Nat := listCalls op x.2

theorem item (N : ListPrice σ L m lo hi) {op : Op (U 8) Unit} {bm : ByteMapOf L} {r : R (Option (U 8 × Unit))}
    (h0 : listCalls op (.kv none) = 0) (h1 : ∀ p, listCalls op (.kv (some p)) = 1) :
    Along m lo hi (cost op) (do pure (some bm, Out.kv (← (do bm.itemA (σ := σ) (← r) : Act σ (Option (U 8 × V))))))
      (do pure (some bm.set, Out.kv (← r))) := by
  simp only [bind_assoc]
  refine Along.same fun o => ?_
  obtain _ | ⟨k, ⟨⟩⟩ := o
  · exact Along.ret (by rw [cost, h0]; exact Cost.ret)
  · unfold ByteMapOf.itemA
    simp only [bind_assoc]
    exact Along.ret (by rw [cost, h1]; exact Cost.then (N.get _ _) fun _ => Cost.ret)

theorem itemMut (N : ListPrice σ L m lo hi) {op : Op (U 8) Unit} {bm : ByteMapOf L} {w : V} {r : R (Option (U 8 × Unit))}
    (h0 : listCalls op (.kv none) = 0) (h1 : ∀ p, listCalls op (.kv (some p)) = 1) :
    Along m lo hi (cost op)
      (do pure (Exec.writeOpt bm w (← (do bm.itemMutA (σ := σ) (← r) : Act σ (Option (U 8 × V × (V → ByteMapOf L)))))))
      (do pure (Exec.writeOpt bm.set () (← (do
        match (← r) with
        | none => pure none
        | some (k, ()) => pure (some (k, (), fun _ => bm.set)))))) := by
  simp only [bind_assoc]
  refine Along.same fun o => ?_
  obtain _ | ⟨k, ⟨⟩⟩ := o
  · exact Along.ret (by rw [cost, Exec.writeOpt, h0]; exact Cost.ret)
  · unfold ByteMapOf.itemMutA
    simp only [bind_assoc]
    exact Along.ret (by rw [cost, Exec.writeOpt, h1]; exact Cost.then (N.getMut _ _) fun _ => Cost.ret)

theorem pop (N : ListPrice σ L m lo hi) {op : Op (U 8) Unit} {bm : ByteMapOf L} {i : R (U 8 × Unit)}
    {r : R (Option ByteSet × (U 8 × Unit))} (h1 : ∀ p, listCalls op (.kv (some p)) = 1) :
    Along m lo hi (cost op) (do pure (Exec.removed (← (do
        let i := bm.set.countBelow (← i).1
        let (set, (k, ())) ← r
        bm.popA i set k : Act σ (Option (ByteMapOf L) × (U 8 × V))))))
      (do pure (Exec.removed (← r))) := by
  refine Along.always (k := 1) ?_ ?_
  · intro b hb
    cases r with
    | error e => cases hb
    | ok r => cases hb; exact h1 _
  · simp only [bind_assoc]
    refine Cost.lift fun _ _ => Cost.lift fun ⟨s, k, u⟩ _ => ?_
    unfold ByteMapOf.popA
    simp only [bind_assoc]
    refine Cost.then (N.removeValue _ _) fun ⟨l, v⟩ => ?_
    cases s <;> cases l
    · exact Cost.ret
    · exact Cost.errl
    · exact Cost.errl
    · exact Cost.ret

theorem step_tree (N : ListPrice σ L m lo hi) (bm : ByteMapOf L) (op : Op (U 8) V) :
    Along m lo hi (cost op.keys) (ActExec.stepTree (σ := σ) bm op) (Exec.stepTree bm.set op.keys) := by
  cases op with
  | insert k v =>
    refine Along.always (k := 1) (fun _ _ => rfl) ?_
    show Cost _ _ _ _ (bm.insertA k v >>= _)
    unfold ByteMapOf.insertA
    rw [bind_assoc]
    refine Cost.lift fun ⟨s, r⟩ _ => ?_
    rcases r with _ | ⟨k', ⟨⟩⟩
    · dsimp only; rw [bind_assoc]; exact Cost.then (N.insertValue _ _ _) fun _ => Cost.ret
    · dsimp only; rw [bind_assoc]; exact Cost.then (N.getMut _ _) fun _ => Cost.ret
  | remove k =>
    show Along _ _ _ _ (bm.removeA k >>= _) (bm.set.remove k >>= _)
    unfold ByteMapOf.removeA
    dsimp only
    rw [bind_assoc]
    refine Along.same fun r => ?_
    rcases r with ⟨_ | s, k', ⟨⟩⟩ | s
    · dsimp only; simp only [bind_assoc]
      exact Along.ret (Cost.then (N.removeValue _ _) fun _ => Cost.lift fun _ _ => Cost.ret)
    · dsimp only; simp only [bind_assoc]
      exact Along.ret (Cost.then (N.removeValue _ _) fun _ => Cost.lift fun _ _ => Cost.ret)
    · exact Along.ret Cost.ret
  | removeMin => exact pop N fun _ => rfl
  | removeMax => exact pop N fun _ => rfl
  | find k => exact item N rfl fun _ => rfl
  | predecessor k => exact item N rfl fun _ => rfl
  | successor k => exact item N rfl fun _ => rfl
  | minVal =>
    show Along _ _ _ _ (bm.minValA >>= _) (bm.set.minVal >>= _)
    unfold ByteMapOf.minValA
    rw [bind_assoc]
    refine Along.same fun ⟨k, u⟩ => ?_
    rw [bind_assoc]
    exact Along.ret (Cost.then (N.get _ _) fun _ => Cost.ret)
  | maxVal =>
    refine Along.always (k := 2) (fun _ _ => rfl) ?_
    show Cost _ _ _ _ (bm.maxValA >>= _)
    unfold ByteMapOf.maxValA
    simp only [bind_assoc]
    exact Cost.lift fun _ _ => (Cost.one (N.len _)).bind fun _ => Cost.lift fun _ _ => Cost.then (N.get _ _) fun _ => Cost.ret
  | isMonad =>
    refine Along.always (k := 1) (fun _ _ => rfl) ?_
    show Cost _ _ _ _ (bm.isMonadA >>= _)
    unfold ByteMapOf.isMonadA
    rw [bind_assoc]
    exact Cost.then (N.len _) fun _ => Cost.ret
  | intoMonad =>
    show Along _ _ _ _ (bm.intoMonadA >>= _) (bm.set.intoMonad >>= _)
    unfold ByteMapOf.intoMonadA
    rw [bind_assoc]
    refine Along.same fun r => ?_
    rcases r with ⟨k', ⟨⟩⟩ | s
    · dsimp only; simp only [bind_assoc]
      exact Along.ret (Cost.then (N.removeValue _ _) fun _ => Cost.lift fun _ _ => Cost.ret)
    · exact Along.ret Cost.ret
  | findSet k w =>
    show Along _ _ _ _ (bm.findMutA k >>= _) (bm.set.findMut k >>= _)
    rw [AnyList.find_mut]
    exact itemMut N rfl fun _ => rfl
  | predecessorSet k w =>
    show Along _ _ _ _ (bm.predecessorMutA k >>= _) (bm.set.predecessorMut k >>= _)
    rw [ActAnyList.predecessor_mut]
    exact itemMut N rfl fun _ => rfl
  | successorSet k w =>
    show Along _ _ _ _ (bm.successorMutA k >>= _) (bm.set.successorMut k >>= _)
    rw [ActAnyList.successor_mut]
    exact itemMut N rfl fun _ => rfl
  | minSet w =>
    show Along _ _ _ _ (bm.minValMutA >>= _) (bm.set.minValMut >>= _)
    have : bm.set.minValMut = (do let k ← bm.set.minVal; pure (k.1, (), fun _ => bm.set)) := by
      unfold ByteSet.minValMut ByteSet.minVal; simp only [bind_assoc, pure_bind]
    rw [this]
    unfold ByteMapOf.minValMutA
    simp only [bind_assoc]
    refine Along.same fun k => ?_
    simp only [pure_bind]
    exact Along.ret (Cost.then (N.getMut _ _) fun _ => Cost.ret)
  | maxSet w =>
    refine Along.always (k := 2) (fun _ _ => rfl) ?_
    show Cost _ _ _ _ (bm.maxValMutA >>= _)
    unfold ByteMapOf.maxValMutA
    simp only [bind_assoc]
    exact Cost.lift fun _ _ => (Cost.one (N.len _)).bind fun _ => Cost.lift fun _ _ => Cost.then (N.getMut _ _) fun _ => Cost.ret

theorem run (N : ListPrice σ L m lo hi) (ops : List (Op (U 8) V)) (bm : Option (ByteMapOf L)) {l : SL (U 8) Unit}
    (h : Rel (bm.map ByteMapOf.set) l) :
    Cost m lo hi (listCallsAll l (ops.map Op.keys)) (ActExec.run (σ := σ) bm ops) := by
  induction ops generalizing bm l with
  | nil => exact Cost.ret
  | cons op ops ih =>
    obtain ⟨t', e, r⟩ := step_ok h op.keys fun _ _ _ => .inr trivial
    intro s x s' hx
    obtain ⟨⟨bm1, o⟩, s1, h1, hx⟩ := BoA.split_ok hx
    obtain ⟨⟨bm2, os⟩, s2, h2, hx⟩ := BoA.split_ok hx
    cases hx
    have hb := (ActAnyList.step bm op _ _ _ _ h1 e).1
    dsimp only at hb
    have g2 := ih bm1 (hb ▸ r) _ _ _ h2
    have g1 : Cost m lo hi (if l = [] then 0 else listCalls op.keys (SL.step l op.keys).2) (ActExec.step (σ := σ) bm op) := by
      cases bm with
      | some b =>
        have : l ≠ [] := by
          rintro rfl
          cases rel_nil h
        rw [if_neg this]
        exact step_tree N b op _ e
      | none =>
        have hl : l = [] := h
        rw [if_pos hl]
        cases op <;> exact Cost.ret
    have g1 := g1 _ _ _ h1
    show _ + (_ + _) * _ ≤ _ ∧ _ ≤ _ + (_ + _) * _
    rw [Nat.add_mul, Nat.add_mul]
    constructor
    · have a := g1.1; have b := g2.1; omega
    · have a := g1.2; have b := g2.2; omega

end ListCalls

namespace SlotLooks
variable {σ Hi A T Lo V : Type} [SizedVebKey Hi] [ActIndex σ Hi] [ActArray σ A (SizedVebKey.cardinality Hi) T] [ActTree σ T Lo V]
variable {m : σ → Nat} {lo hi lo' hi' : Nat}

/-- between `n` and `N` looks, according to what is returned, of which there have been `j` already -/
def Looks {α : Type} (m : σ → Nat) (c d : Nat) (n N : α → Nat) (j : Nat) (x : Act σ α) : Prop :=
  ∀ s a s', x s = .ok (a, s') → m s + n a * c ≤ m s' + j * c ∧ m s' + j * d ≤ m s + N a * d

section
variable {α β : Type} {c d j : Nat} {n N : β → Nat}
theorem Looks.ret {b : β} (h : n b ≤ j ∧ j ≤ N b) : Looks m c d n N j (pure b : Act σ β) := by
  rintro s _ _ ⟨⟩
  have h1 := Nat.mul_le_mul_right c h.1
  have h2 := Nat.mul_le_mul_right d h.2
  omega
theorem Looks.free {x : Act σ α} {f : α → Act σ β} (h : Grows m 0 0 x) (hf : ∀ a, Looks m c d n N j (f a)) :
    Looks m c d n N j (x >>= f) := by
  intro s r s' hr
  obtain ⟨r1, s1, h1, h2⟩ := BoA.split_ok hr
  have g1 := h _ _ _ h1
  have g2 := hf _ _ _ _ h2
  omega
theorem Looks.lift {x : R α} {f : α → Act σ β} (hf : ∀ a, Looks m c d n N j (f a)) :
    Looks m c d n N j ((liftM x : Act σ α) >>= f) := by
  refine Looks.free ?_ hf
  intro s a s' h
  cases x with
  | error e => cases h
  | ok a => cases h; omega
theorem Looks.look {x : Act σ α} {f : α → Act σ β} (h : Grows m c d x) (hf : ∀ a, Looks m c d n N (j + 1) (f a)) :
    Looks m c d n N j (x >>= f) := by
  intro s r s' hr
  obtain ⟨r1, s1, h1, h2⟩ := BoA.split_ok hr
  have g1 := h _ _ _ h1
  obtain ⟨g2, g3⟩ := hf _ _ _ _ h2
  rw [Nat.add_mul, Nat.one_mul] at g2 g3
  omega
end

theorem grows_bind {α β : Type} {x : Act σ α} {f : α → Act σ β} {a b a' b' : Nat} (h : Grows m a b x)
    (hf : ∀ r, Grows m a' b' (f r)) : Grows m (a + a') (b + b') (x >>= f) := by
  intro s r s' hr
  obtain ⟨r1, s1, h1, h2⟩ := BoA.split_ok hr
  have g1 := h _ _ _ h1
  have g2 := hf _ _ _ _ h2
  omega

theorem slot (N : SlotPrice σ Hi A T (SizedVebKey.cardinality Hi) m lo hi lo' hi') (a : A) (h : Hi) :
    Grows m (lo + lo') (hi + hi') (ArrayOf.slotMutA (σ := σ) (T := T) a h) :=
  grows_bind (N.index h) fun _ => N.getMut _ _

/-- the answer decides -/
def low (op : ACOp σ Hi T Lo V) (x : Option (ArrayOf Hi A) × COut Hi T Lo V) : Nat := looksMin op.shape x.2
/-- the answer decides -/
def high (op : ACOp σ Hi T Lo V) (x : Option (ArrayOf Hi A) × COut Hi T Lo V) : Nat := looksMax op.shape x.2

theorem create (N : SlotPrice σ Hi A T (SizedVebKey.cardinality Hi) m lo hi lo' hi') (h : Hi) (t : T) :
    Looks m (lo + lo') (hi + hi') (low (σ := σ) (.create h t)) (high (σ := σ) (.create h t)) 0
      (do pure (some (← (ArrayOf.createA h t : Act σ (ArrayOf Hi A))), COut.done) :
        Act σ (Option (ArrayOf Hi A) × COut Hi T Lo V)) := by
  unfold ArrayOf.createA
  simp only [bind_assoc]
  exact Looks.free N.create fun a => Looks.look (slot N _ _) fun _ => Looks.ret ⟨Nat.le_refl 1, Nat.le_refl 1⟩

theorem step_coll (N : SlotPrice σ Hi A T (SizedVebKey.cardinality Hi) m lo hi lo' hi') (c : ArrayOf Hi A)
    (op : ACOp σ Hi T Lo V) (hop : op.Free m) :
    Looks m (lo + lo') (hi + hi') (low op) (high op) 0 (ActCollExec.stepColl c op) := by
  cases op with
  | create h t => exact create N h t
  | get h =>
    show Looks _ _ _ _ _ _ (ArrayOf.getA c h >>= _)
    exact Looks.look (grows_bind (N.index h) fun _ => N.get _ _) fun _ => Looks.ret ⟨Nat.le_refl 1, Nat.le_refl 1⟩
  | set h u =>
    show Looks _ _ _ _ _ _ (ArrayOf.getMutA c h >>= _)
    unfold ArrayOf.getMutA
    rw [bind_assoc]
    refine Looks.look (slot N _ _) fun ⟨o, put⟩ => ?_
    cases o <;> exact Looks.ret ⟨Nat.le_refl 1, Nat.le_refl 1⟩
  | insert h l v =>
    show Looks _ _ _ _ _ _ (ArrayOf.insertKeyA c h (l, v) >>= _)
    unfold ArrayOf.insertKeyA
    rw [bind_assoc]
    refine Looks.look (slot N _ _) fun ⟨o, put⟩ => ?_
    cases o with
    | none =>
      dsimp only
      simp only [bind_assoc]
      exact Looks.look (slot N _ _) fun _ => Looks.lift fun _ => Looks.ret ⟨Nat.le_refl 2, Nat.le_refl 2⟩
    | some t =>
      dsimp only
      simp only [bind_assoc]
      exact Looks.free (N.insert _ _ _) fun _ => Looks.ret ⟨Nat.le_refl 1, Nat.le_refl 1⟩
  | remove h r =>
    show Looks _ _ _ _ _ _ (ArrayOf.removeKeyA c h r >>= _)
    unfold ArrayOf.removeKeyA
    simp only [bind_assoc]
    refine Looks.look (slot N _ _) fun ⟨o, put⟩ => Looks.lift fun t => Looks.free (hop t) fun ⟨t', val⟩ => ?_
    dsimp only
    split
    · simp only [bind_assoc]
      refine Looks.lift fun count => Looks.look (slot N _ _) fun ⟨_, put'⟩ => ?_
      split <;> exact Looks.ret ⟨Nat.le_refl 2, Nat.le_refl 2⟩
    · simp only [bind_assoc, pure_bind]
      refine Looks.look (slot N _ _) fun ⟨_, put'⟩ => ?_
      split <;> exact Looks.ret ⟨Nat.le_refl 2, Nat.le_refl 2⟩
  | maybeRemove h r =>
    show Looks _ _ _ _ _ _ (ArrayOf.maybeRemoveKeyA c h r >>= _)
    unfold ArrayOf.maybeRemoveKeyA
    rw [bind_assoc]
    refine Looks.look (slot N _ _) fun ⟨o, put⟩ => ?_
    cases o with
    | none => exact Looks.ret ⟨Nat.le_refl 1, Nat.le_succ 1⟩
    | some t =>
      dsimp only
      rw [bind_assoc]
      refine Looks.free (hop t) fun x => ?_
      cases x with
      | Err t' =>
        dsimp only
        rw [bind_assoc]
        exact Looks.look (slot N _ _) fun _ => Looks.ret ⟨Nat.le_succ 1, Nat.le_refl 2⟩
      | Ok x =>
        obtain ⟨t', val⟩ := x
        dsimp only
        split
        · simp only [bind_assoc]
          refine Looks.lift fun count => Looks.look (slot N _ _) fun ⟨_, put'⟩ => ?_
          split <;> exact Looks.ret ⟨Nat.le_refl 2, Nat.le_refl 2⟩
        · simp only [bind_assoc, pure_bind]
          refine Looks.look (slot N _ _) fun ⟨_, put'⟩ => ?_
          split <;> exact Looks.ret ⟨Nat.le_refl 2, Nat.le_refl 2⟩

theorem run (N : SlotPrice σ Hi A T (SizedVebKey.cardinality Hi) m lo hi lo' hi') (ops : List (ACOp σ Hi T Lo V))
    (hops : ∀ op ∈ ops, op.Free m) (c : Option (ArrayOf Hi A)) :
    Looks m (lo + lo') (hi + hi') (fun x => looks looksMin (ops.map ACOp.shape) x.2)
      (fun x => looks looksMax (ops.map ACOp.shape) x.2) 0 (ActCollExec.run c ops) := by
  induction ops generalizing c with
  | nil => exact Looks.ret ⟨Nat.le_refl 0, Nat.le_refl 0⟩
  | cons op ops ih =>
    intro s x s' hx
    obtain ⟨⟨c1, o⟩, s1, h1, hx⟩ := BoA.split_ok hx
    obtain ⟨⟨c2, os⟩, s2, h2, hx⟩ := BoA.split_ok hx
    cases hx
    have g2 := ih (fun op h => hops op (List.mem_cons_of_mem _ h)) c1 _ _ _ h2
    have g1 : Looks m (lo + lo') (hi + hi') (low op) (high op) 0 (ActCollExec.step c op) := by
      cases c with
      | some c => exact step_coll N c op (hops op List.mem_cons_self)
      | none =>
        cases op with
        | create h t => exact create N h t
        | _ => exact Looks.ret ⟨Nat.le_refl 0, Nat.le_refl 0⟩
    have g1 := g1 _ _ _ h1
    show m s + (looksMin op.shape o + looks _ _ _) * _ ≤ _ ∧ _ ≤ _ + (looksMax op.shape o + looks _ _ _) * _
    rw [Nat.add_mul, Nat.add_mul]
    simp only [low, high] at g1
    dsimp only at g2 ⊢
    omega

end SlotLooks
end Veb
