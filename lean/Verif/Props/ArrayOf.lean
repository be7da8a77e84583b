import Verif.Proof.ArrayOf
import Verif.Proof.Cap
import Verif.Props.Open

/-!
# C80: `ArrayTreeCollection<H, A>` over any array type that is an array

The other claims about array collections are about the boxed slices and generic arrays of the crate.  The trait
`OptionArray` is exported, so a user may bring an array type of their own, for example a sparse one.
-/

set_option autoImplicit false

namespace Veb.Props

variable {Hi A T Lo V : Type} [LinearOrder Hi] [SizedVebKey Hi] [ArrayT A (SizedVebKey.cardinality Hi) T] [VebTree T Lo V]
  {dom : Nat → Prop}

/-- **C80, histories.** Let the array type behave as an array at all indices of keys, and let different keys have
different indices.  Then the collection answers as a collection, on every history of at most `usize::MAX` calls. -/
theorem C80_history (hA : IsArray A (SizedVebKey.cardinality Hi) dom) (hd : ∀ h : Hi, dom (SizedVebKey.index h))
    (hi : ∀ a b : Hi, SizedVebKey.index a = SizedVebKey.index b → a = b) (ops : List (COp Hi T Lo V))
    (hlen : ops.length ≤ usizeMax) :
    Agree (fun os os' => os' = os) (collOutputs (ArrayOf Hi A) ops)
      ((CollSpec.run .debugAssert Map.empty ops).map Prod.snd) := by
  obtain ⟨r, S⟩ := hA
  refine ((ArrayOf.run_ok S hd (fun a b => hi a b) ops (c := none) rfl ArrayOf.finite_empty (.inr ?_)).map
    (Q := fun os os' => os' = os) (f := Prod.snd) (g := Prod.snd) fun _ _ h => h.2.symm).agree
  rw [(Map.card_eq_zero ArrayOf.finite_empty).2 rfl]
  omega

/-- **C80, collections.** If there are at most `usize::MAX` keys, it does so on all histories. -/
theorem C80_coll [Finite Hi] (hA : IsArray A (SizedVebKey.cardinality Hi) dom) (hd : ∀ h : Hi, dom (SizedVebKey.index h))
    (hi : ∀ a b : Hi, SizedVebKey.index a = SizedVebKey.index b → a = b) (hc : Nat.card Hi ≤ usizeMax) :
    AnswersAsColl (ArrayOf Hi A) (T := T) := by
  obtain ⟨r, S⟩ := hA
  intro ops
  refine ((ArrayOf.run_ok S hd (fun a b => hi a b) ops (c := none) rfl ArrayOf.finite_empty (.inl fun M h hn => ?_)).map
    (Q := fun os os' => os' = os) (f := Prod.snd) (g := Prod.snd) fun _ _ h => h.2.symm).agree
  have : M.card < Nat.card Hi := by
    rw [← Set.ncard_univ]
    refine Set.ncard_lt_ncard ?_ (Set.toFinite _)
    rw [Set.ssubset_univ_iff]
    intro he
    have : h ∈ {k | M.Mem k} := by rw [he]; trivial
    exact this hn
  omega

/-- **C80, trees.** A `Tree` over such a collection, with parts that are ordered maps, is one as far as `C51` goes, … -/
theorem C80_tree_over {K S : Type} [Finite Hi] [LinearOrder K] [LinearOrder Lo] [VebKey K Hi Lo] [VebKeyRef K Hi Lo]
    [VebTree S Hi Unit] (hA : IsArray A (SizedVebKey.cardinality Hi) dom) (hd : ∀ h : Hi, dom (SizedVebKey.index h))
    (hi : ∀ a b : Hi, SizedVebKey.index a = SizedVebKey.index b → a = b) (hc : Nat.card Hi ≤ usizeMax) (hk : GoodKey K Hi Lo)
    (hs : ∀ ops : List (Op Hi Unit), RunsLikeMap S ops) (ht : ∀ ops : List (Op Lo V), RunsLikeMap T ops)
    (ops : List (Op K V)) (hsafe : SL.SafeHist (Tree.Safe always always) [] ops) :
    RunsLikeMap (Tree K V S (ArrayOf Hi A)) ops :=
  C51_user_parts hk hs ht (C80_coll hA hd hi hc) ops hsafe

/-- … and never panics. -/
theorem C80_tree_over_no_panic {K S : Type} [Finite Hi] [LinearOrder K] [LinearOrder Lo] [VebKey K Hi Lo]
    [VebKeyRef K Hi Lo] [VebTree S Hi Unit] (hA : IsArray A (SizedVebKey.cardinality Hi) dom)
    (hd : ∀ h : Hi, dom (SizedVebKey.index h)) (hi : ∀ a b : Hi, SizedVebKey.index a = SizedVebKey.index b → a = b)
    (hc : Nat.card Hi ≤ usizeMax) (hk : GoodKey K Hi Lo) (hs : ∀ ops : List (Op Hi Unit), RunsLikeMap S ops)
    (ht : ∀ ops : List (Op Lo V), RunsLikeMap T ops) (ops : List (Op K V)) : NeverPanics (Tree K V S (ArrayOf Hi A)) ops :=
  C51_user_parts_no_panic hk hs ht (C80_coll hA hd hi hc) ops

/-! ## The arrays of the crate -/

/-- **C80, the arrays of the crate** behave as arrays below their length, which is the type-level number as a `usize`. -/
theorem C80_crate_array {T : Type} (n : Nat) : IsArray (OptionArray T) n (· < n % (usizeMax + 1)) := by
  refine ⟨fun a f => a.len = n % (usizeMax + 1) ∧ a.slot = f, ⟨_, rfl, rfl, rfl⟩, ?_, ?_⟩
  · rintro ⟨len, f⟩ _ i ⟨h, rfl⟩ hi
    dsimp only at h
    subst h
    exact if_pos hi
  · rintro ⟨len, f⟩ _ i ⟨h, rfl⟩ hi
    dsimp only at h
    subst h
    refine ⟨fun o => ⟨n % (usizeMax + 1), fun j => if j = i then o else f j⟩, ?_, fun o => ⟨rfl, rfl⟩⟩
    show (OptionArray.get _ i >>= _) = _
    rw [OptionArray.get, if_pos hi]
    rfl

omit [LinearOrder Hi] in
/-- **C80, the two models.** From every state, in order or not, the collection over the arrays of the crate does what the
model used by the other claims does: the same states, the same outputs, the same panics. -/
theorem C80_same (c : Option (ArrayColl Hi T)) (ops : List (COp Hi T Lo V)) :
    CollExec.run (c.map asArrayOf) ops = (CollExec.run c ops).map fun x => (x.1.map asArrayOf, x.2) := by
  have h := ArrayOf.run_same ops c
  cases hx : CollExec.run c ops with
  | error e => rw [h.2 rfl e hx]; rfl
  | ok y =>
    obtain ⟨⟨a, os⟩, e, hr, ho⟩ := h.1 _ hx
    dsimp only at hr ho
    subst hr ho
    rw [e]
    rfl

/-! ## Keys whose index or number is wrong -/

theorem indexWrap_inj {w : Nat} (hw : 0 < w) (hw' : w ≤ 64) (a b : S w) (h : a.indexWrap = b.indexWrap) : a = b := by
  rw [S.indexWrap_eq hw, S.indexWrap_eq hw] at h
  have h := congrArg BitVec.toInt (BitVec.eq_of_toNat_eq h)
  rw [BitVec.toInt_signExtend_of_le hw', BitVec.toInt_signExtend_of_le hw'] at h
  have h := U.ext' (congrArg BitVec.toNat (BitVec.eq_of_toInt_eq h))
  rw [← S.ofU_absDiff hw a, ← S.ofU_absDiff hw b, h]

/-- **C80, signed keys.** The index of a signed key that is not negative is far beyond the length of an array (C06), so the
arrays of the crate panic there.  Different keys still have different indices: over an array type that takes any index, the
collection is right for all signed keys. -/
theorem C80_signed {A8 A16 A32 : Type} [ArrayT A8 (2 ^ 8) T] [ArrayT A16 (2 ^ 16) T] [ArrayT A32 (2 ^ 32) T]
    (h8 : IsArray A8 (2 ^ 8) fun i => i ≤ usizeMax) (h16 : IsArray A16 (2 ^ 16) fun i => i ≤ usizeMax)
    (h32 : IsArray A32 (2 ^ 32) fun i => i ≤ usizeMax) :
    AnswersAsColl (T := T) (ArrayOf (S 8) A8) ∧ AnswersAsColl (T := T) (ArrayOf (S 16) A16) ∧
    AnswersAsColl (T := T) (ArrayOf (S 32) A32) := by
  have hle : ∀ {w : Nat} (x : S w), x.indexWrap ≤ usizeMax := fun x => by
    have : x.indexWrap < 2 ^ 64 := BitVec.isLt _
    simp only [usizeMax]
    omega
  refine ⟨C80_coll (Hi := S 8) h8 hle (fun a b => indexWrap_inj (by decide) (by decide) a b) (by rw [card_S]; decide),
    C80_coll (Hi := S 16) h16 hle (fun a b => indexWrap_inj (by decide) (by decide) a b) (by rw [card_S]; decide),
    C80_coll (Hi := S 32) h32 hle (fun a b => indexWrap_inj (by decide) (by decide) a b) (by rw [card_S]; decide)⟩

/-- **C80, wide keys.** For `u64` and `i64` the arrays of the crate have no slots at all.  Over an array type that takes
any index, the collection is right for them, on every history of at most `usize::MAX` calls. -/
theorem C80_wide {A : Type} [ArrayT A (2 ^ 64) T] (h : IsArray A (2 ^ 64) fun i => i ≤ usizeMax) :
    (∀ ops : List (COp (U 64) T Lo V), ops.length ≤ usizeMax → Agree (fun os os' => os' = os)
      (collOutputs (ArrayOf (U 64) A) ops) ((CollSpec.run .debugAssert Map.empty ops).map Prod.snd)) ∧
    ∀ ops : List (COp (S 64) T Lo V), ops.length ≤ usizeMax → Agree (fun os os' => os' = os)
      (collOutputs (ArrayOf (S 64) A) ops) ((CollSpec.run .debugAssert Map.empty ops).map Prod.snd) := by
  refine ⟨C80_history (Hi := U 64) h (fun x => ?_) (fun a b e => U.ext' e),
    C80_history (Hi := S 64) h (fun x => ?_) fun a b => indexWrap_inj (by decide) (by decide) a b⟩
  · have : x.bits.toNat < 2 ^ 64 := BitVec.isLt _
    show x.bits.toNat ≤ usizeMax
    simp only [usizeMax]
    omega
  · have : x.indexWrap < 2 ^ 64 := BitVec.isLt _
    show x.indexWrap ≤ usizeMax
    simp only [usizeMax]
    omega

/-- **C80, the counter.** If there are more keys than `usize::MAX` (as with `u64`), the bound on the calls is needed:
some history makes the counter of the trees overflow. -/
theorem C80_overflow (hA : IsArray A (SizedVebKey.cardinality Hi) dom) (hd : ∀ h : Hi, dom (SizedVebKey.index h))
    (hi : ∀ a b : Hi, SizedVebKey.index a = SizedVebKey.index b → a = b) (hc : usizeMax < Nat.card Hi) (l : Lo) (v : V) :
    (∃ ops : List (COp Hi T Lo V), collOutputs (ArrayOf Hi A) ops = .error .arith ∧
      ∃ r, CollSpec.run .debugAssert Map.empty ops = .ok r) ∧ ¬ AnswersAsColl (ArrayOf Hi A) (T := T) := by
  obtain ⟨r, S⟩ := hA
  have hfin : Finite Hi := Nat.finite_of_card_ne_zero (by omega)
  have := Fintype.ofFinite Hi
  obtain ⟨N, hN⟩ : ∃ N, N = usizeMax := ⟨_, rfl⟩
  have h1 : 1 ≤ N := by rw [hN]; decide
  have hl : ((Finset.univ : Finset Hi).toList.take (N + 1)).length = N + 1 := by
    rw [List.length_take, Finset.length_toList, Finset.card_univ, ← Nat.card_eq_fintype_card]
    omega
  have hn : ((Finset.univ : Finset Hi).toList.take (N + 1)).Nodup := (Finset.nodup_toList _).sublist (List.take_sublist _ _)
  generalize (Finset.univ : Finset Hi).toList.take (N + 1) = ks at hl hn
  have key : ∃ ops : List (COp Hi T Lo V), collOutputs (ArrayOf Hi A) ops = .error .arith ∧
      ∃ r, CollSpec.run .debugAssert Map.empty ops = .ok r := by
    match ks, hl, hn with
    | [], hl, _ => simp at hl
    | [k], hl, _ => simp at hl; omega
    | k0 :: k :: ks, hl, hn =>
      obtain ⟨ops, h, e⟩ := ArrayOf.overflow S hd (fun a b => hi a b) l v k0 k ks hn (by simp at hl; omega)
      exact ⟨ops, by rw [collOutputs, e]; rfl, h⟩
  refine ⟨key, fun h => ?_⟩
  obtain ⟨ops, e, r, e'⟩ := key
  rcases h ops with ⟨_, _, e1, -⟩ | ⟨_, _, -, e2⟩
  · rw [e] at e1; cases e1
  · rw [e'] at e2; cases e2

/-! ## Not vacuous: a sparse array of a user -/

/-- A sparse array: the slots that are in use, latest first. -/
structure Sparse (T : Type) where
  slots : List (Nat × T)

namespace Sparse
variable {T : Type}

def look (a : Sparse T) (i : Nat) : Option T := (a.slots.find? fun p => p.1 == i).map Prod.snd
def put (a : Sparse T) (i : Nat) (o : Option T) : Sparse T :=
  match o with
  | none => ⟨a.slots.filter fun p => p.1 != i⟩
  | some t => ⟨(i, t) :: a.slots.filter fun p => p.1 != i⟩

instance (n : Nat) : ArrayT (Sparse T) n T where
  create := pure ⟨[]⟩
  get a i := pure (a.look i)
  getMut a i := pure (a.look i, a.put i)

theorem look_filter (l : List (Nat × T)) (i j : Nat) :
    (⟨l.filter fun p => p.1 != i⟩ : Sparse T).look j = if j = i then none else (⟨l⟩ : Sparse T).look j := by
  induction l with
  | nil => simp [look]
  | cons p l ih =>
    simp only [look] at ih ⊢
    by_cases hp : p.1 = i
    · rw [List.filter_cons_of_neg (by simp [hp]), ih]
      split
      · rfl
      · rw [List.find?_cons_of_neg (by simp; omega)]
    · rw [List.filter_cons_of_pos (by simp [hp])]
      by_cases hj : p.1 = j
      · rw [List.find?_cons_of_pos (by simp [hj]), List.find?_cons_of_pos (by simp [hj]), if_neg (by omega)]
      · rw [List.find?_cons_of_neg (by simp [hj]), ih, List.find?_cons_of_neg (by simp [hj])]

theorem array (n : Nat) : IsArray (Sparse T) n fun i => i ≤ usizeMax := by
  refine ⟨fun a f => ∀ i, a.look i = f i, ⟨_, rfl, fun _ => rfl⟩, fun a f i h _ => congrArg Except.ok (h i),
    fun a f i h _ => ⟨a.put i, by rw [← h i]; rfl, fun o j => ?_⟩⟩
  show _ = if j = i then o else f j
  rw [← h j]
  cases o with
  | none => exact look_filter a.slots i j
  | some t =>
    show look ⟨_ :: _⟩ j = _
    by_cases e : j = i
    · simp [look, e]
    · rw [if_neg e]
      have := look_filter a.slots i j
      rw [if_neg e] at this
      rw [← this]
      simp only [look]
      rw [List.find?_cons_of_neg (by simp; omega)]
end Sparse

example : AnswersAsColl (T := BTreeMap (S 8) Nat) (ArrayOf (S 8) (Sparse (BTreeMap (S 8) Nat))) :=
  (C80_signed (Sparse.array _) (Sparse.array _) (Sparse.array _)).1
/-- a key on which the arrays of the crate panic -/
example : outputs (Tree (Arr (S 8) 2) Nat (BTreeMap (S 8) Unit) (ArrayOf (S 8) (Sparse (BTreeMap (S 8) Nat))))
    [.insert ⟨[S.lit 3, S.lit 4], rfl⟩ 1, .insert ⟨[S.lit 5, S.lit 6], rfl⟩ 2, .insert ⟨[S.lit 4, S.lit 6], rfl⟩ 3,
      .find ⟨[S.lit 4, S.lit 6], rfl⟩] =
    .ok [.kv none, .kv none, .kv none, .kv (some (⟨[S.lit 4, S.lit 6], rfl⟩, 3))] := by decide +kernel
example : ¬ AnswersAsColl (T := BTreeMap (S 8) Nat) (ArrayOf (U 64) (Sparse (BTreeMap (S 8) Nat))) :=
  (C80_overflow (Sparse.array _) (fun x => by
    have : x.bits.toNat < 2 ^ 64 := BitVec.isLt _
    show x.bits.toNat ≤ usizeMax
    simp only [usizeMax]
    omega) (fun _ _ e => U.ext' e) (by rw [card_U]; decide) (S.lit 0) 0).2

/-! ## What is asked of the index is needed -/

/-- a key type with one index for its two values -/
inductive OneSlot where
  | a
  | b
  deriving DecidableEq

instance : SizedVebKey OneSlot where
  cardinalityConst := 2
  cardinality := 2
  index _ := 0

/-- **C80, needed.** If two keys share an index, a tree put in at one of them is found at the other. -/
theorem C80_index_needed {T Lo V : Type} [VebTree T Lo V] (t : T) :
    collOutputs (ArrayOf OneSlot (Sparse T)) [.create .a t, .get .b] = .ok [.done, .tree (some t)] ∧
    collOutputs (ArrayOf OneSlot (OptionArray T)) [.create .a t, .get .b] = .ok [.done, .tree (some t)] ∧
    (CollSpec.run .debugAssert Map.empty ([.create .a t, .get .b] : List (COp OneSlot T Lo V))).map Prod.snd =
      .ok [.done, .tree none] := by
  refine ⟨rfl, rfl, ?_⟩
  have h : CollSpec.put (Map.empty : Map OneSlot T) .a (some t) ≠ Map.empty := fun x => by
    have := congrFun x .a
    simp [CollSpec.put, Map.empty] at this
  simp only [CollSpec.run, CollSpec.step, if_true, if_neg h, CollSpec.stepMap]
  simp [CollSpec.put, Map.empty, Except.map]

end Veb.Props
