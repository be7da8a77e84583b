import Verif.SpecList
import Verif.Proof.OpenColl

/-!
`ByteMap<L>` over a list type that behaves as a sequence follows `ByteMap` over a `VecDeque`.
-/

set_option autoImplicit false

namespace Veb

/-- If `y` returns, so does `x`, with a related value; when `p` is set, they also panic alike. -/
def Sk (p : Bool) {α β : Type} (P : α → β → Prop) (x : R α) (y : R β) : Prop :=
  (∀ b, y = .ok b → ∃ a, x = .ok a ∧ P a b) ∧ (p = true → ∀ e, y = .error e → x = .error e)

namespace Sk
variable {p : Bool} {α β α' β' : Type} {P : α → β → Prop} {Q : α' → β' → Prop}
theorem ok {a : α} {b : β} (h : P a b) : Sk p P (.ok a) (.ok b) :=
  ⟨by rintro _ ⟨⟩; exact ⟨a, rfl, h⟩, by rintro _ _ ⟨⟩⟩
theorem ret {a : α} {b : β} (h : P a b) : Sk p P (pure a) (pure b) := ok h
theorem err {e : Panic} : Sk p P (.error e) (.error e) := ⟨by rintro _ ⟨⟩, by rintro _ _ ⟨⟩; rfl⟩
theorem bind {x : R α} {y : R β} {f : α → R α'} {g : β → R β'} (h : Sk p P x y)
    (hf : ∀ a b, P a b → Sk p Q (f a) (g b)) : Sk p Q (x >>= f) (y >>= g) := by
  cases y with
  | error e =>
    refine ⟨by rintro _ ⟨⟩, fun hp e' he => ?_⟩
    rw [h.2 hp e rfl]
    cases he
    rfl
  | ok b =>
    obtain ⟨a, rfl, hp⟩ := h.1 b rfl
    exact hf a b hp
theorem same {x : R α} {f : α → R α'} {g : α → R β'} (hf : ∀ a, x = .ok a → Sk p Q (f a) (g a)) :
    Sk p Q (x >>= f) (x >>= g) := by
  cases x with
  | error e => exact err
  | ok b => exact hf b rfl
end Sk

theorem index_ok {A : Type} {l : List A} {i : Nat} {a : A} (h : index l i = .ok a) : l[i]? = some a := by
  unfold index at h
  split at h
  · rename_i e; cases h; exact e
  · cases h

section
variable {L V : Type} [ListT L V] {r : L → List V → Prop}

/-- the generic map stands for the other one -/
def BRel (r : L → List V → Prop) (a : ByteMapOf L) (m : ByteMap V) : Prop := a.set = m.set ∧ r a.list m.list
/-- references into them -/
def BMut (r : L → List V → Prop) (x : U 8 × V × (V → ByteMapOf L)) (y : U 8 × V × (V → ByteMap V)) : Prop :=
  x.1 = y.1 ∧ x.2.1 = y.2.1 ∧ ∀ w, BRel r (x.2.2 w) (y.2.2 w)

/-- what the proofs use of a list type, except about insertions -/
structure SeqCore (p : Bool) (r : L → List V → Prop) : Prop where
  fromMonad : ∀ v, r (ListT.fromMonad v) [v]
  len : ∀ {a l}, r a l → ListT.len a = .ok l.length
  get : ∀ {a l}, r a l → ∀ i, Sk p (fun x y => x = y) (ListT.get a i) (VecDeque.get l i)
  getMut : ∀ {a l}, r a l → ∀ i, Sk p (fun x y => x.1 = y.1 ∧ ∀ w, r (x.2 w) (y.2 w)) (ListT.getMut a i) (VecDeque.getMut l i)
  remove : ∀ {a l}, r a l → ∀ i, Sk p (fun x y => Option.Rel r x.1 y.1 ∧ x.2 = y.2) (ListT.removeValue a i) (VecDeque.removeValue l i)
/-- what the proofs use of a list type -/
structure SeqSim (p : Bool) (r : L → List V → Prop) : Prop extends SeqCore p r where
  insert : ∀ {a l}, r a l → ∀ i v, Sk p r (ListT.insertValue a i v) (VecDeque.insertAt l i v)

/-- what is common to the two ways of being a sequence -/
structure SeqPart (r : L → List V → Prop) : Prop where
  fromMonad : ∀ v, r (ListT.fromMonad v) [v]
  len : ∀ a l, r a l → ListT.len a = .ok l.length
  get : ∀ a l i v, r a l → l[i]? = some v → ListT.get a i = .ok v
  getMut : ∀ a l i v, r a l → l[i]? = some v → ∃ put, ListT.getMut a i = .ok (v, put) ∧ ∀ w, r (put w) (l.set i w)
  removeLast : ∀ a v, r a [v] → ListT.removeValue a 0 = .ok (none, v)
  removeValue : ∀ a l i v, r a l → 1 < l.length → l[i]? = some v →
    ∃ a', ListT.removeValue a i = .ok (some a', v) ∧ r a' (l.eraseIdx i)

section seq
variable (S : SeqPart r)
include S

theorem seq_get {a : L} {l : List V} (h : r a l) (i : Nat) : Sk false (fun x y => x = y) (ListT.get a i) (VecDeque.get l i) :=
  ⟨fun v hv => ⟨v, S.get a l i v h (index_ok hv), rfl⟩, by rintro ⟨⟩⟩
theorem seq_getMut {a : L} {l : List V} (h : r a l) (i : Nat) :
    Sk false (fun x y => x.1 = y.1 ∧ ∀ w, r (x.2 w) (y.2 w)) (ListT.getMut a i) (VecDeque.getMut l i) := by
  refine ⟨?_, by rintro ⟨⟩⟩
  rintro ⟨v, put⟩ hv
  cases hi : index l i with
  | error e => simp [VecDeque.getMut, hi] at hv; cases hv
  | ok u =>
    simp only [VecDeque.getMut, hi, R.ok_bind] at hv
    cases hv
    obtain ⟨p, h1, h2⟩ := S.getMut a l i v h (index_ok hi)
    exact ⟨_, h1, rfl, h2⟩
omit S in
theorem seq_insert (S : SeqBy r) {a : L} {l : List V} (h : r a l) (i : Nat) (v : V) :
    Sk false r (ListT.insertValue a i v) (VecDeque.insertAt l i v) := by
  refine ⟨?_, by rintro ⟨⟩⟩
  intro l' hl
  unfold VecDeque.insertAt at hl
  split at hl
  · cases hl
    exact S.insertValue a l i v h ‹_›
  · cases hl
theorem seq_remove {a : L} {l : List V} (h : r a l) (i : Nat) :
    Sk false (fun x y => Option.Rel r x.1 y.1 ∧ x.2 = y.2) (ListT.removeValue a i) (VecDeque.removeValue l i) := by
  refine ⟨?_, by rintro ⟨⟩⟩
  rintro ⟨o, v⟩ hv
  unfold VecDeque.removeValue at hv
  cases hi : l[i]? with
  | none => rw [hi] at hv; cases hv
  | some u =>
    have hlt : i < l.length := by
      by_contra hc
      rw [List.getElem?_eq_none (by omega)] at hi
      cases hi
    rw [hi] at hv
    have hv : (Except.ok (if (l.eraseIdx i).isEmpty then none else some (l.eraseIdx i), u) : R _) = .ok (o, v) := hv
    cases hv
    by_cases h1 : 1 < l.length
    · obtain ⟨a', e, hr⟩ := S.removeValue a l i v h h1 hi
      have : (l.eraseIdx i).isEmpty = false := by
        rw [Bool.eq_false_iff, Ne, List.isEmpty_iff]
        intro hc
        have := congrArg List.length hc
        rw [List.length_eraseIdx_of_lt hlt] at this
        simp at this
        omega
      rw [this]
      exact ⟨_, e, .some hr, rfl⟩
    · match l, h, hlt, h1, hi with
      | [w], h, hlt, _, hi =>
        have h0 : i = 0 := by simpa using hlt
        subst h0
        cases hi
        exact ⟨_, S.removeLast a v h, .none, rfl⟩
      | _ :: _ :: _, _, _, h1, _ => simp at h1

theorem SeqPart.core : SeqCore false r where
  fromMonad := S.fromMonad
  len := S.len _ _
  get := seq_get S
  getMut := seq_getMut S
  remove := seq_remove S
end seq

theorem SeqBy.part (S : SeqBy r) : SeqPart r := ⟨S.fromMonad, S.len, S.get, S.getMut, S.removeLast, S.removeValue⟩
theorem SeqBy.sim (S : SeqBy r) : SeqSim false r := ⟨S.part.core, seq_insert S⟩

theorem Deque.sim {A : Type} : SeqSim (L := Deque A) true (fun a l => a.items = l) where
  fromMonad _ := rfl
  len := by rintro _ _ rfl; rfl
  get := by rintro _ _ rfl i; exact ⟨fun v h => ⟨v, h, rfl⟩, fun _ _ h => h⟩
  getMut := by
    rintro ⟨l⟩ _ rfl i
    show Sk true _ (VecDeque.getMut l i >>= _) _
    cases VecDeque.getMut l i with
    | error e => exact .err
    | ok x => exact .ok ⟨rfl, fun _ => rfl⟩
  insert := by
    rintro ⟨l⟩ _ rfl i v
    show Sk true _ (VecDeque.insertAt l i v >>= _) _
    cases VecDeque.insertAt l i v with
    | error e => exact .err
    | ok x => exact .ok rfl
  remove := by
    rintro ⟨l⟩ _ rfl i
    show Sk true _ (VecDeque.removeValue l i >>= _) _
    cases VecDeque.removeValue l i with
    | error e => exact .err
    | ok x =>
      obtain ⟨_ | x, v⟩ := x
      · exact .ok ⟨.none, rfl⟩
      · exact .ok ⟨.some rfl, rfl⟩

variable {p : Bool}

namespace ByteMapOf

theorem rel_insert (S : SeqSim p r) {a : ByteMapOf L} {m : ByteMap V} (h : BRel r a m) (k : U 8) (v : V) :
    Sk p (fun x y => BRel r x.1 y.1 ∧ x.2 = y.2) (a.insert k v) (m.insert k v) := by
  obtain ⟨s, l⟩ := a
  obtain ⟨_, l'⟩ := m
  obtain ⟨rfl, h⟩ := h
  unfold insert ByteMap.insert
  refine .same fun b _ => ?_
  obtain ⟨set, o⟩ := b
  rcases o with _ | ⟨k, ⟨⟩⟩
  · exact (S.insert h _ _).bind fun a b hab => .ret ⟨⟨rfl, hab⟩, rfl⟩
  · refine (S.getMut h _).bind ?_
    rintro ⟨x, p⟩ ⟨y, q⟩ ⟨rfl, hp⟩
    exact .ret ⟨⟨rfl, hp v⟩, rfl⟩

variable (S : SeqCore p r)
include S

theorem rel_remove {a : ByteMapOf L} {m : ByteMap V} (h : BRel r a m) (k : U 8) :
    Sk p (fun x y => match x, y with
      | .Err a, .Err m => BRel r a m
      | .Ok x, .Ok y => Option.Rel (BRel r) x.1 y.1 ∧ x.2 = y.2
      | _, _ => False) (a.remove k) (m.remove k) := by
  obtain ⟨s, l⟩ := a
  obtain ⟨_, l'⟩ := m
  obtain ⟨rfl, h⟩ := h
  unfold remove ByteMap.remove
  refine .same fun b _ => ?_
  rcases b with ⟨_ | set, k, ⟨⟩⟩ | set
  · refine (S.remove h _).bind ?_
    rintro ⟨x, v⟩ ⟨y, _⟩ ⟨hx, rfl⟩
    dsimp only at hx
    cases hx with
    | none => exact .ret ⟨.none, rfl⟩
    | some _ => exact .err
  · refine (S.remove h _).bind ?_
    rintro ⟨x, v⟩ ⟨y, _⟩ ⟨hx, rfl⟩
    dsimp only at hx
    cases hx with
    | none => exact .err
    | some hx => exact .ret ⟨.some ⟨rfl, hx⟩, rfl⟩
  · exact .ret ⟨rfl, h⟩
theorem rel_removeMin {a : ByteMapOf L} {m : ByteMap V} (h : BRel r a m) :
    Sk p (fun x y => Option.Rel (BRel r) x.1 y.1 ∧ x.2 = y.2) a.removeMin m.removeMin := by
  obtain ⟨s, l⟩ := a
  obtain ⟨_, l'⟩ := m
  obtain ⟨rfl, h⟩ := h
  unfold removeMin ByteMap.removeMin
  refine .same fun b _ => .same fun b _ => ?_
  obtain ⟨set, k, ⟨⟩⟩ := b
  refine (S.remove h _).bind ?_
  rintro ⟨x, v⟩ ⟨y, _⟩ ⟨hx, rfl⟩
  dsimp only at hx
  cases hx with
  | none =>
    cases set with
    | none => exact .ret ⟨.none, rfl⟩
    | some _ => exact .err
  | some hx =>
    cases set with
    | none => exact .err
    | some _ => exact .ret ⟨.some ⟨rfl, hx⟩, rfl⟩
theorem rel_removeMax {a : ByteMapOf L} {m : ByteMap V} (h : BRel r a m) :
    Sk p (fun x y => Option.Rel (BRel r) x.1 y.1 ∧ x.2 = y.2) a.removeMax m.removeMax := by
  obtain ⟨s, l⟩ := a
  obtain ⟨_, l'⟩ := m
  obtain ⟨rfl, h⟩ := h
  unfold removeMax ByteMap.removeMax
  refine .same fun b _ => .same fun b _ => ?_
  obtain ⟨set, k, ⟨⟩⟩ := b
  refine (S.remove h _).bind ?_
  rintro ⟨x, v⟩ ⟨y, _⟩ ⟨hx, rfl⟩
  dsimp only at hx
  cases hx with
  | none =>
    cases set with
    | none => exact .ret ⟨.none, rfl⟩
    | some _ => exact .err
  | some hx =>
    cases set with
    | none => exact .err
    | some _ => exact .ret ⟨.some ⟨rfl, hx⟩, rfl⟩
theorem rel_intoMonad {a : ByteMapOf L} {m : ByteMap V} (h : BRel r a m) :
    Sk p (fun x y => match x, y with
      | .Err a, .Err m => BRel r a m
      | .Ok x, .Ok y => x = y
      | _, _ => False) a.intoMonad m.intoMonad := by
  obtain ⟨s, l⟩ := a
  obtain ⟨_, l'⟩ := m
  obtain ⟨rfl, h⟩ := h
  unfold intoMonad ByteMap.intoMonad
  refine .same fun b _ => ?_
  rcases b with ⟨k, ⟨⟩⟩ | set
  · refine (S.remove h _).bind ?_
    rintro ⟨x, v⟩ ⟨y, _⟩ ⟨hx, rfl⟩
    dsimp only at hx
    cases hx with
    | none => exact .ret rfl
    | some _ => exact .err
  · exact .ret ⟨rfl, h⟩
theorem rel_minVal {a : ByteMapOf L} {m : ByteMap V} (h : BRel r a m) : Sk p (fun x y => x = y) a.minVal m.minVal := by
  obtain ⟨s, l⟩ := a
  obtain ⟨_, l'⟩ := m
  obtain ⟨rfl, h⟩ := h
  unfold minVal ByteMap.minVal
  refine .same fun b _ => (S.get h _).bind ?_
  rintro x _ rfl
  exact .ret rfl
theorem rel_maxVal {a : ByteMapOf L} {m : ByteMap V} (h : BRel r a m) : Sk p (fun x y => x = y) a.maxVal m.maxVal := by
  obtain ⟨s, l⟩ := a
  obtain ⟨_, l'⟩ := m
  obtain ⟨rfl, h⟩ := h
  unfold maxVal ByteMap.maxVal
  rw [S.len h]
  refine .same fun b _ => .same fun i _ => (S.get h _).bind ?_
  rintro x _ rfl
  exact .ret rfl
theorem rel_minValMut {a : ByteMapOf L} {m : ByteMap V} (h : BRel r a m) : Sk p (BMut r) a.minValMut m.minValMut := by
  obtain ⟨s, l⟩ := a
  obtain ⟨_, l'⟩ := m
  obtain ⟨rfl, h⟩ := h
  unfold minValMut ByteMap.minValMut
  refine .same fun b _ => (S.getMut h _).bind ?_
  rintro ⟨x, p⟩ ⟨y, q⟩ ⟨rfl, hp⟩
  exact .ret ⟨rfl, rfl, fun w => ⟨rfl, hp w⟩⟩
theorem rel_maxValMut {a : ByteMapOf L} {m : ByteMap V} (h : BRel r a m) : Sk p (BMut r) a.maxValMut m.maxValMut := by
  obtain ⟨s, l⟩ := a
  obtain ⟨_, l'⟩ := m
  obtain ⟨rfl, h⟩ := h
  unfold maxValMut ByteMap.maxValMut
  rw [S.len h]
  refine .same fun b _ => .same fun i _ => (S.getMut h _).bind ?_
  rintro ⟨x, p⟩ ⟨y, q⟩ ⟨rfl, hp⟩
  exact .ret ⟨rfl, rfl, fun w => ⟨rfl, hp w⟩⟩
theorem rel_isMonad {a : ByteMapOf L} {m : ByteMap V} (h : BRel r a m) : a.isMonad = m.isMonad := by
  obtain ⟨s, l⟩ := a
  obtain ⟨_, l'⟩ := m
  obtain ⟨rfl, h⟩ := h
  unfold isMonad ByteMap.isMonad
  rw [S.len h]
  rfl
theorem rel_find {a : ByteMapOf L} {m : ByteMap V} (h : BRel r a m) (k : U 8) : Sk p (fun x y => x = y) (a.find k) (m.find k) := by
  obtain ⟨s, l⟩ := a
  obtain ⟨_, l'⟩ := m
  obtain ⟨rfl, h⟩ := h
  unfold find ByteMap.find
  refine .same fun b _ => ?_
  rcases b with _ | ⟨k, ⟨⟩⟩
  · exact .ret rfl
  · refine (S.get h _).bind ?_
    rintro x _ rfl
    exact .ret rfl
theorem rel_predecessor {a : ByteMapOf L} {m : ByteMap V} (h : BRel r a m) (k : U 8) :
    Sk p (fun x y => x = y) (a.predecessor k) (m.predecessor k) := by
  obtain ⟨s, l⟩ := a
  obtain ⟨_, l'⟩ := m
  obtain ⟨rfl, h⟩ := h
  unfold predecessor ByteMap.predecessor
  refine .same fun b _ => ?_
  rcases b with _ | ⟨k, ⟨⟩⟩
  · exact .ret rfl
  · refine (S.get h _).bind ?_
    rintro x _ rfl
    exact .ret rfl
theorem rel_successor {a : ByteMapOf L} {m : ByteMap V} (h : BRel r a m) (k : U 8) :
    Sk p (fun x y => x = y) (a.successor k) (m.successor k) := by
  obtain ⟨s, l⟩ := a
  obtain ⟨_, l'⟩ := m
  obtain ⟨rfl, h⟩ := h
  unfold successor ByteMap.successor
  refine .same fun b _ => ?_
  rcases b with _ | ⟨k, ⟨⟩⟩
  · exact .ret rfl
  · refine (S.get h _).bind ?_
    rintro x _ rfl
    exact .ret rfl
theorem rel_findMut {a : ByteMapOf L} {m : ByteMap V} (h : BRel r a m) (k : U 8) :
    Sk p (Option.Rel (BMut r)) (a.findMut k) (m.findMut k) := by
  obtain ⟨s, l⟩ := a
  obtain ⟨_, l'⟩ := m
  obtain ⟨rfl, h⟩ := h
  unfold findMut ByteMap.findMut
  refine .same fun b _ => ?_
  rcases b with _ | ⟨k, ⟨⟩⟩
  · exact .ret .none
  · refine (S.getMut h _).bind ?_
    rintro ⟨x, p⟩ ⟨y, q⟩ ⟨rfl, hp⟩
    exact .ret (.some ⟨rfl, rfl, fun w => ⟨rfl, hp w⟩⟩)
theorem rel_predecessorMut {a : ByteMapOf L} {m : ByteMap V} (h : BRel r a m) (k : U 8) :
    Sk p (Option.Rel (BMut r)) (a.predecessorMut k) (m.predecessorMut k) := by
  obtain ⟨s, l⟩ := a
  obtain ⟨_, l'⟩ := m
  obtain ⟨rfl, h⟩ := h
  unfold predecessorMut ByteMap.predecessorMut
  refine .same fun b _ => ?_
  rcases b with _ | ⟨k, ⟨⟩⟩
  · exact .ret .none
  · refine (S.getMut h _).bind ?_
    rintro ⟨x, p⟩ ⟨y, q⟩ ⟨rfl, hp⟩
    exact .ret (.some ⟨rfl, rfl, fun w => ⟨rfl, hp w⟩⟩)
theorem rel_successorMut {a : ByteMapOf L} {m : ByteMap V} (h : BRel r a m) (k : U 8) :
    Sk p (Option.Rel (BMut r)) (a.successorMut k) (m.successorMut k) := by
  obtain ⟨s, l⟩ := a
  obtain ⟨_, l'⟩ := m
  obtain ⟨rfl, h⟩ := h
  unfold successorMut ByteMap.successorMut
  refine .same fun b _ => ?_
  rcases b with _ | ⟨k, ⟨⟩⟩
  · exact .ret .none
  · refine (S.getMut h _).bind ?_
    rintro ⟨x, p⟩ ⟨y, q⟩ ⟨rfl, hp⟩
    exact .ret (.some ⟨rfl, rfl, fun w => ⟨rfl, hp w⟩⟩)

end ByteMapOf

variable (S : SeqCore p r)
include S

omit [ListT L V] S in
theorem seq_writeOpt {a : ByteMapOf L} {m : ByteMap V} (h : BRel r a m) (w : V) {x : Option (U 8 × V × (V → ByteMapOf L))}
    {y : Option (U 8 × V × (V → ByteMap V))} (hx : Option.Rel (BMut r) x y) :
    Option.Rel (BRel r) (Exec.writeOpt a w x).1 (Exec.writeOpt m w y).1 ∧ (Exec.writeOpt a w x).2 = (Exec.writeOpt m w y).2 := by
  cases hx with
  | none => exact ⟨.some h, rfl⟩
  | some hx =>
    rename_i x y
    obtain ⟨k, v, p⟩ := x
    obtain ⟨k', v', q⟩ := y
    obtain ⟨h1, h2, hp⟩ := hx
    dsimp only at h1 h2
    subst h1 h2
    exact ⟨.some (hp w), rfl⟩

theorem core_stepTree {a : ByteMapOf L} {m : ByteMap V} (h : BRel r a m) {op : Op (U 8) V} (hop : ∀ k v, op ≠ .insert k v) :
    Sk p (fun x y => Option.Rel (BRel r) x.1 y.1 ∧ x.2 = y.2) (Exec.stepTree a op) (Exec.stepTree m op) := by
  cases op with
  | insert k v => exact absurd rfl (hop k v)
  | remove k =>
    refine (ByteMapOf.rel_remove S h k).bind ?_
    rintro (⟨x, o⟩ | x) (⟨y, o'⟩ | y) hxy
    · obtain ⟨hx, rfl⟩ := hxy
      exact .ret ⟨hx, rfl⟩
    · exact hxy.elim
    · exact hxy.elim
    · exact .ret ⟨.some hxy, rfl⟩
  | removeMin =>
    refine (ByteMapOf.rel_removeMin S h).bind ?_
    rintro ⟨x, o⟩ ⟨y, _⟩ ⟨hx, rfl⟩
    exact .ret ⟨hx, rfl⟩
  | removeMax =>
    refine (ByteMapOf.rel_removeMax S h).bind ?_
    rintro ⟨x, o⟩ ⟨y, _⟩ ⟨hx, rfl⟩
    exact .ret ⟨hx, rfl⟩
  | find k => exact (ByteMapOf.rel_find S h k).bind (by rintro x _ rfl; exact .ret ⟨.some h, rfl⟩)
  | predecessor k => exact (ByteMapOf.rel_predecessor S h k).bind (by rintro x _ rfl; exact .ret ⟨.some h, rfl⟩)
  | successor k => exact (ByteMapOf.rel_successor S h k).bind (by rintro x _ rfl; exact .ret ⟨.some h, rfl⟩)
  | minVal => exact (ByteMapOf.rel_minVal S h).bind (by rintro x _ rfl; exact .ret ⟨.some h, rfl⟩)
  | maxVal => exact (ByteMapOf.rel_maxVal S h).bind (by rintro x _ rfl; exact .ret ⟨.some h, rfl⟩)
  | isMonad =>
    have := ByteMapOf.rel_isMonad S h
    show Sk p _ (a.isMonad >>= _) (m.isMonad >>= _)
    rw [this]
    exact .same fun b _ => .ret ⟨.some h, rfl⟩
  | intoMonad =>
    refine (ByteMapOf.rel_intoMonad S h).bind ?_
    rintro (⟨x, o⟩ | x) (⟨y, o'⟩ | y) hxy
    · cases hxy; exact .ret ⟨.none, rfl⟩
    · exact hxy.elim
    · exact hxy.elim
    · exact .ret ⟨.some hxy, rfl⟩
  | findSet k w => exact (ByteMapOf.rel_findMut S h k).bind fun x y hx => .ret (seq_writeOpt h w hx)
  | predecessorSet k w => exact (ByteMapOf.rel_predecessorMut S h k).bind fun x y hx => .ret (seq_writeOpt h w hx)
  | successorSet k w => exact (ByteMapOf.rel_successorMut S h k).bind fun x y hx => .ret (seq_writeOpt h w hx)
  | minSet w => exact (ByteMapOf.rel_minValMut S h).bind fun x y hx => .ret (seq_writeOpt h w (.some hx))
  | maxSet w => exact (ByteMapOf.rel_maxValMut S h).bind fun x y hx => .ret (seq_writeOpt h w (.some hx))

omit S in
theorem seq_stepTree (S : SeqSim p r) {a : ByteMapOf L} {m : ByteMap V} (h : BRel r a m) (op : Op (U 8) V) :
    Sk p (fun x y => Option.Rel (BRel r) x.1 y.1 ∧ x.2 = y.2) (Exec.stepTree a op) (Exec.stepTree m op) := by
  by_cases hop : ∃ k v, op = .insert k v
  · obtain ⟨k, v, rfl⟩ := hop
    refine (ByteMapOf.rel_insert S h k v).bind ?_
    rintro ⟨x, o⟩ ⟨y, _⟩ ⟨hx, rfl⟩
    exact .ret ⟨.some hx, rfl⟩
  · exact core_stepTree S.toSeqCore h fun k v e => hop ⟨k, v, e⟩

omit S in
theorem seq_step (S : SeqSim p r) {a : Option (ByteMapOf L)} {m : Option (ByteMap V)} (h : Option.Rel (BRel r) a m) (op : Op (U 8) V) :
    Sk p (fun x y => Option.Rel (BRel r) x.1 y.1 ∧ x.2 = y.2) (Exec.step a op) (Exec.step m op) := by
  cases h with
  | some h => exact seq_stepTree S h op
  | none => cases op <;> first | exact .ret ⟨.none, rfl⟩ | exact .ret ⟨.some ⟨rfl, S.fromMonad _⟩, rfl⟩

omit S in
theorem seq_run (S : SeqSim p r) (ops : List (Op (U 8) V)) : ∀ {a : Option (ByteMapOf L)} {m : Option (ByteMap V)}, Option.Rel (BRel r) a m →
    Sk p (fun x y => Option.Rel (BRel r) x.1 y.1 ∧ x.2 = y.2) (Exec.run a ops) (Exec.run m ops) := by
  induction ops with
  | nil => exact fun h => .ret ⟨h, rfl⟩
  | cons op ops ih =>
    intro a m h
    refine (seq_step S h op).bind ?_
    rintro ⟨x, o⟩ ⟨y, _⟩ ⟨hx, rfl⟩
    refine (ih hx).bind ?_
    rintro ⟨x, o⟩ ⟨y, _⟩ ⟨hx, rfl⟩
    exact .ret ⟨hx, rfl⟩

end

/-! ## Collections -/

section
variable {L T Lo V : Type} [VebTree T Lo V] [TreeListT L T Lo V] {r : L → List T → Prop}

/-- the generic collection stands for the other one -/
def CRel (r : L → List T → Prop) (a : ByteMapOf L) (m : ByteMap T) : Prop := a.set = m.set ∧ r a.list m.list

variable (S : TreeSeqBy r)
include S

open Words ByteMap ByteSet in
theorem tseq_stepColl {a : ByteMapOf L} {m : ByteMap T} (h : CRel r a m) (I : m.Inv) (op : COp (U 8) T Lo V) :
    Rx (fun x y => Option.Rel (CRel r) x.1 y.1 ∧ x.2 = y.2) (CollExec.stepColl a op) (CollExec.stepColl m op) := by
  obtain ⟨s, l⟩ := a
  obtain ⟨_, l'⟩ := m
  obtain ⟨rfl, h⟩ := h
  dsimp only at h I
  have cb : ∀ k : U 8, s.countBelow k = cnt s.words.bitAt (nat k) := fun k => countBelow' (⟨s, l'⟩ : ByteMap T) k
  have key : ∀ k : U 8, s.words.bitAt (nat k) = true → ∃ t, l'[s.countBelow k]? = some t := fun k hk => by
    rw [cb]
    exact (get_ok (k := k) I hk).imp fun _ ht => ht.1
  have one : ∀ k : U 8, s.words.bitAt (nat k) = true → ¬ 1 < l'.length → l'.length = 1 ∧ s.countBelow k = 0 := fun k hk h1 => by
    have := rank_lt I hk
    have e := cb k
    dsimp only at this
    omega
  cases op with
  | create k t => exact .ok ⟨.some ⟨rfl, S.fromMonad t⟩, rfl⟩
  | get k =>
    show Rx _ (ByteMapOf.Coll.get ⟨s, l⟩ k >>= _) (ByteMap.Coll.get ⟨s, l'⟩ k >>= _)
    unfold ByteMapOf.Coll.get ByteMap.Coll.get
    by_cases hk : s.words.bitAt (nat k) = true
    · obtain ⟨t, ht⟩ := key k hk
      have h1 := S.get _ _ _ _ h ht
      have h2 : VecDeque.get l' (s.countBelow k) = .ok t := by simp [VecDeque.get, index, ht]
      simp only [ByteSet.isPresent_eq, hk, Bool.not_true, Bool.false_eq_true, if_false, h1, h2]
      exact .ok ⟨.some ⟨rfl, h⟩, rfl⟩
    · simp only [ByteSet.isPresent_eq, hk, Bool.not_false, if_true]
      exact .ok ⟨.some ⟨rfl, h⟩, rfl⟩
  | set k u =>
    show Rx _ (ByteMapOf.Coll.getMut ⟨s, l⟩ k >>= _) (ByteMap.Coll.getMut ⟨s, l'⟩ k >>= _)
    unfold ByteMapOf.Coll.getMut ByteMap.Coll.getMut
    by_cases hk : s.words.bitAt (nat k) = true
    · obtain ⟨t, ht⟩ := key k hk
      obtain ⟨p, h1, hp⟩ := S.getMut _ _ _ _ h ht
      have h2 : VecDeque.getMut l' (s.countBelow k) = .ok (t, fun b => l'.set (s.countBelow k) b) := by
        simp [VecDeque.getMut, index, ht]
      simp only [ByteSet.isPresent_eq, hk, Bool.not_true, Bool.false_eq_true, if_false, h1, h2]
      exact .ok ⟨.some ⟨rfl, hp u⟩, rfl⟩
    · simp only [ByteSet.isPresent_eq, hk, Bool.not_false, if_true]
      exact .ok ⟨.some ⟨rfl, h⟩, rfl⟩
  | insert k lo v =>
    show Rx _ (ByteMapOf.Coll.insertKey ⟨s, l⟩ k (lo, v) >>= _) (ByteMap.Coll.insertKey ⟨s, l'⟩ k (lo, v) >>= _)
    unfold ByteMapOf.Coll.insertKey ByteMap.Coll.insertKey
    by_cases hk : s.words.bitAt (nat k) = true
    · obtain ⟨t, ht⟩ := key k hk
      obtain ⟨p, h1, hp⟩ := S.getMut _ _ _ _ h ht
      have h2 : VecDeque.getMut l' (s.countBelow k) = .ok (t, fun b => l'.set (s.countBelow k) b) := by
        simp [VecDeque.getMut, index, ht]
      simp only [ByteSet.insert, ByteSet.isPresent_eq, hk, if_true, R.ok_bind, pure_bind, Option.isSome_some, h1, h2]
      cases hv : VebTree.insert t lo v with
      | error e => exact .err _ _
      | ok x => exact .ok ⟨.some ⟨rfl, hp x.1⟩, rfl⟩
    · have hk : s.words.bitAt (nat k) = false := by simpa using hk
      have hle : s.countBelow k ≤ l'.length := by
        rw [cb]
        exact (add_ok (m := ⟨s, l'⟩) I hk (VebTree.fromMonad lo v)).1
      obtain ⟨a', h1, hp⟩ := S.insertTree _ _ _ (VebTree.fromMonad lo v) h hle
      have h1 : TreeListT.insertTree l (s.countBelow k) (VebTree.fromMonad lo v) = .ok a' := h1
      have h2 : VecDeque.insertAt l' (s.countBelow k) (VebTree.fromMonad lo v) = .ok (l'.insertIdx (s.countBelow k) (VebTree.fromMonad lo v)) :=
        if_pos hle
      simp only [ByteSet.insert, ByteSet.isPresent_eq, hk, Bool.false_eq_true, if_false, R.ok_bind, pure_bind, Option.isSome_none, h1, h2]
      exact .ok ⟨.some ⟨rfl, hp⟩, rfl⟩
  | remove k f =>
    show Rx _ (ByteMapOf.Coll.removeKey ⟨s, l⟩ k f >>= _) (ByteMap.Coll.removeKey ⟨s, l'⟩ k f >>= _)
    unfold ByteMapOf.Coll.removeKey ByteMap.Coll.removeKey
    by_cases hk : s.words.bitAt (nat k) = true
    · obtain ⟨t, ht⟩ := key k hk
      have hf : s.find k = .ok (some (k, ())) := by
        have := set_find (⟨s, l'⟩ : ByteMap T) k
        simpa [hk] using this
      unfold VecDeque.removeKey
      simp only [hf, R.ok_bind, Option.isSome_some, debugAssert, if_true, ht]
      cases hv : f t with
      | error e =>
        obtain ⟨e', h1⟩ := S.removePanic _ _ _ _ f e h ht hv
        rw [h1]
        exact .err _ _
      | ok x =>
        obtain ⟨_ | t', val⟩ := x
        · by_cases hl : 1 < l'.length
          · obtain ⟨a', h1, hp⟩ := S.removeGone _ _ _ _ f val h hl ht hv
            have hlt : s.countBelow k < l'.length := by
              rw [cb]
              exact rank_lt I hk
            have : (l'.eraseIdx (s.countBelow k)).isEmpty = false := by
              rw [Bool.eq_false_iff, Ne, List.isEmpty_iff]
              intro hc
              have := congrArg List.length hc
              rw [List.length_eraseIdx_of_lt hlt] at this
              simp at this
              omega
            simp only [h1, R.ok_bind, Option.isNone_none, this, Bool.false_eq_true, if_false, pure_bind, if_true,
              ByteSet.isPresent_eq, hk]
            exact .ok ⟨.some ⟨rfl, hp⟩, rfl⟩
          · obtain ⟨h0, h00⟩ := one k hk hl
            match l', h0, h, ht, I with
            | [w], _, h, ht, I =>
              rw [h00] at ht ⊢
              cases ht
              rw [S.removeLast _ _ f val h hv]
              simp
              exact .ok ⟨.none, rfl⟩
        · obtain ⟨a', h1, hp⟩ := S.removeLeft _ _ _ _ f t' val h ht hv
          have hne := set_nil I hk t'
          have hne : (l'.set (s.countBelow k) t').isEmpty = false := by
            rw [Bool.eq_false_iff, Ne, List.isEmpty_iff, cb]; exact hne
          simp only [h1, R.ok_bind, Option.isNone_some, hne, Bool.false_eq_true, if_false, pure_bind]
          exact .ok ⟨.some ⟨rfl, hp⟩, rfl⟩
    · have hf : s.find k = .ok none := by
        have := set_find (⟨s, l'⟩ : ByteMap T) k
        simpa [hk] using this
      simp only [hf, R.ok_bind, Option.isSome_none, debugAssert, Bool.false_eq_true, if_false]
      exact .err _ _
  | maybeRemove k f =>
    show Rx _ (ByteMapOf.Coll.maybeRemoveKey ⟨s, l⟩ k f >>= _) (ByteMap.Coll.maybeRemoveKey ⟨s, l'⟩ k f >>= _)
    unfold ByteMapOf.Coll.maybeRemoveKey ByteMap.Coll.maybeRemoveKey
    by_cases hk : s.words.bitAt (nat k) = true
    · obtain ⟨t, ht⟩ := key k hk
      have hf : s.find k = .ok (some (k, ())) := by
        have := set_find (⟨s, l'⟩ : ByteMap T) k
        simpa [hk] using this
      unfold VecDeque.maybeRemoveKey
      simp only [hf, R.ok_bind, Option.isNone_some, Bool.false_eq_true, if_false, ht]
      cases hv : f t with
      | error e =>
        obtain ⟨e', h1⟩ := S.maybePanic _ _ _ _ f e h ht hv
        rw [h1]
        exact .err _ _
      | ok x =>
        rcases x with ⟨_ | t', val⟩ | t'
        · by_cases hl : 1 < l'.length
          · obtain ⟨a', h1, hp⟩ := S.maybeGone _ _ _ _ f val h hl ht hv
            have hlt : s.countBelow k < l'.length := by
              rw [cb]
              exact rank_lt I hk
            have : (l'.eraseIdx (s.countBelow k)).isEmpty = false := by
              rw [Bool.eq_false_iff, Ne, List.isEmpty_iff]
              intro hc
              have := congrArg List.length hc
              rw [List.length_eraseIdx_of_lt hlt] at this
              simp at this
              omega
            simp only [h1, R.ok_bind, Option.isNone_none, this, Bool.false_eq_true, if_false, pure_bind, if_true,
              ByteSet.isPresent_eq, hk, debugAssert]
            exact .ok ⟨.some ⟨rfl, hp⟩, rfl⟩
          · obtain ⟨h0, h00⟩ := one k hk hl
            match l', h0, h, ht, I with
            | [w], _, h, ht, I =>
              rw [h00] at ht ⊢
              cases ht
              rw [S.maybeLast _ _ f val h hv]
              simp
              exact .ok ⟨.none, rfl⟩
        · obtain ⟨a', h1, hp⟩ := S.maybeLeft _ _ _ _ f t' val h ht hv
          have hne := set_nil I hk t'
          have hne : (l'.set (s.countBelow k) t').isEmpty = false := by
            rw [Bool.eq_false_iff, Ne, List.isEmpty_iff, cb]; exact hne
          simp only [h1, R.ok_bind, Option.isNone_some, hne, Bool.false_eq_true, if_false, pure_bind]
          exact .ok ⟨.some ⟨rfl, hp⟩, rfl⟩
        · obtain ⟨a', h1, hp⟩ := S.maybeKept _ _ _ _ f t' h ht hv
          simp only [h1, R.ok_bind, pure_bind]
          exact .ok ⟨.some ⟨rfl, hp⟩, rfl⟩
    · have hf : s.find k = .ok none := by
        have := set_find (⟨s, l'⟩ : ByteMap T) k
        simpa [hk] using this
      simp only [hf, R.ok_bind, Option.isNone_none, if_true]
      exact .ok ⟨.some ⟨rfl, h⟩, rfl⟩

omit [TreeListT L T Lo V] S in
/-- the collection behind an `Option` is in order -/
theorem byte_inv {m m' : Option (ByteMap T)} {op : COp (U 8) T Lo V} {o : COut (U 8) T Lo V} (I : ∀ x, m = some x → x.Inv)
    (h : CollExec.step m op = .ok (m', o)) : ∀ x, m' = some x → x.Inv := by
  have hM : ∃ M, CollRep (C := ByteMap T) (Hi := U 8) (T := T) (Lo := Lo) (V := V) m M := by
    cases m with
    | none => exact ⟨_, rfl⟩
    | some x => exact ⟨_, I x rfl, rfl⟩
  obtain ⟨M, R⟩ := hM
  have := coll_step R op
  rw [h] at this
  unfold CollSim at this
  split at this
  · cases this
  · obtain ⟨c, e, R⟩ := this
    cases e
    rintro x rfl
    exact R.1

theorem tseq_run (ops : List (COp (U 8) T Lo V)) : ∀ {a : Option (ByteMapOf L)} {m : Option (ByteMap T)},
    Option.Rel (CRel r) a m → (∀ x, m = some x → x.Inv) →
    Rx (fun x y => x.2 = y.2) (CollExec.run a ops) (CollExec.run m ops) := by
  induction ops with
  | nil => exact fun _ _ => .ok rfl
  | cons op ops ih =>
    intro a m h I
    have hs : Rx (fun x y => Option.Rel (CRel r) x.1 y.1 ∧ x.2 = y.2) (CollExec.step a op) (CollExec.step m op) := by
      cases h with
      | some h => exact tseq_stepColl S h (I _ rfl) op
      | none => cases op <;> first | exact .ok ⟨.none, rfl⟩ | exact .ok ⟨.some ⟨rfl, S.fromMonad _⟩, rfl⟩
    simp only [CollExec.run]
    cases hm : CollExec.step m op with
    | error e =>
      rw [hm] at hs
      cases ha : CollExec.step a op with
      | error e => exact .err _ _
      | ok x => rw [ha] at hs; cases hs
    | ok y =>
      obtain ⟨m', o⟩ := y
      have I' := byte_inv I hm
      rw [hm] at hs
      cases ha : CollExec.step a op with
      | error e => rw [ha] at hs; cases hs
      | ok x =>
        obtain ⟨a', o'⟩ := x
        rw [ha] at hs
        cases hs with
        | ok hs =>
        obtain ⟨h1, h2⟩ := hs
        dsimp only at h1 h2
        subst h2
        refine (ih h1 I').bind ?_
        rintro ⟨x, o⟩ ⟨y, _⟩ rfl
        exact .ok rfl

end

/-! ## Collections over `VecDeque` -/

namespace Deque
variable {T Lo V : Type} [VebTree T Lo V]

theorem stepColl (m : ByteMap T) (op : COp (U 8) T Lo V) :
    Sk true (fun x y => x.1 = y.1.map asDeque ∧ x.2 = y.2)
      (CollExec.stepColl (asDeque m) op) (CollExec.stepColl m op) := by
  obtain ⟨s, l⟩ := m
  cases op with
  | create k t => exact .ok ⟨rfl, rfl⟩
  | get k =>
    show Sk true _ (ByteMapOf.Coll.get (asDeque ⟨s, l⟩) k >>= _) (ByteMap.Coll.get ⟨s, l⟩ k >>= _)
    unfold ByteMapOf.Coll.get ByteMap.Coll.get
    refine .bind (P := fun x y => x = y) ?_ (by rintro x _ rfl; exact .ok ⟨rfl, rfl⟩)
    dsimp only
    split
    · exact .ok rfl
    · show Sk true _ (VecDeque.get l (s.countBelow k) >>= _) (VecDeque.get l (s.countBelow k) >>= _)
      exact .same fun _ _ => .ok rfl
  | set k u =>
    show Sk true _ (ByteMapOf.Coll.getMut (asDeque ⟨s, l⟩) k >>= _) (ByteMap.Coll.getMut ⟨s, l⟩ k >>= _)
    unfold ByteMapOf.Coll.getMut ByteMap.Coll.getMut
    refine .bind (P := Option.Rel fun x y => x.1 = y.1 ∧ ∀ w, x.2 w = asDeque (y.2 w)) ?_ ?_
    · dsimp only
      split
      · exact .ok .none
      · show Sk true _ ((VecDeque.getMut l (s.countBelow k) >>= _) >>= _) (VecDeque.getMut l (s.countBelow k) >>= _)
        rw [bind_assoc]
        exact .same fun _ _ => .ok (.some ⟨rfl, fun _ => rfl⟩)
    · rintro _ _ (⟨h1, h2⟩ | _)
      · rename_i x y h
        obtain ⟨x, p⟩ := x
        obtain ⟨y, q⟩ := y
        obtain ⟨h1, h2⟩ := h
        dsimp only at h1 h2
        subst h1
        refine .ok ⟨?_, rfl⟩
        simp [h2]
      · exact .ok ⟨rfl, rfl⟩
  | insert k lo v =>
    show Sk true _ (ByteMapOf.Coll.insertKey (asDeque ⟨s, l⟩) k (lo, v) >>= _) (ByteMap.Coll.insertKey ⟨s, l⟩ k (lo, v) >>= _)
    unfold ByteMapOf.Coll.insertKey ByteMap.Coll.insertKey
    refine .bind (P := fun x y => x.1 = asDeque y.1 ∧ x.2 = y.2) (.same ?_) ?_
    · rintro ⟨set, o⟩ -
      dsimp only
      split
      · show Sk true _ ((VecDeque.getMut l (s.countBelow k) >>= _) >>= _) (VecDeque.getMut l (s.countBelow k) >>= _)
        rw [bind_assoc]
        exact .same fun _ _ => .same fun _ _ => .ok ⟨rfl, rfl⟩
      · show Sk true _ ((VecDeque.insertAt l (s.countBelow k) _ >>= _) >>= _) (VecDeque.insertAt l (s.countBelow k) _ >>= _)
        rw [bind_assoc]
        exact .same fun _ _ => .ok ⟨rfl, rfl⟩
    · rintro ⟨x, o⟩ ⟨y, _⟩ ⟨h, rfl⟩
      dsimp only at h
      subst h
      exact .ok ⟨rfl, rfl⟩
  | remove k f =>
    show Sk true _ (ByteMapOf.Coll.removeKey (asDeque ⟨s, l⟩) k f >>= _) (ByteMap.Coll.removeKey ⟨s, l⟩ k f >>= _)
    unfold ByteMapOf.Coll.removeKey ByteMap.Coll.removeKey
    refine .bind (P := fun x y => x.1 = y.1.map (fun p => (asDeque p.1, p.2)) ∧ x.2 = y.2)
      (.same fun _ _ => .same fun _ _ => ?_) ?_
    · show Sk true _ ((VecDeque.removeKey l (s.countBelow k) f >>= _) >>= _) (VecDeque.removeKey l (s.countBelow k) f >>= _)
      rw [bind_assoc]
      refine .same ?_
      rintro ⟨_ | ⟨l', b⟩, v⟩ -
      · exact .ok ⟨rfl, rfl⟩
      · cases b
        · exact .ok ⟨rfl, rfl⟩
        · exact .same fun _ _ => .ok ⟨rfl, rfl⟩
    · rintro ⟨x, o⟩ ⟨y, _⟩ ⟨h, rfl⟩
      dsimp only at h
      subst h
      cases y <;> exact .ok ⟨rfl, rfl⟩
  | maybeRemove k f =>
    show Sk true _ (ByteMapOf.Coll.maybeRemoveKey (asDeque ⟨s, l⟩) k f >>= _) (ByteMap.Coll.maybeRemoveKey ⟨s, l⟩ k f >>= _)
    unfold ByteMapOf.Coll.maybeRemoveKey ByteMap.Coll.maybeRemoveKey
    refine .bind (P := fun x y => match x, y with
      | .Err x, .Err y => x = asDeque y
      | .Ok x, .Ok y => x.1 = y.1.map (fun p => (asDeque p.1, p.2)) ∧ x.2 = y.2
      | _, _ => False)
      (.same fun _ _ => ?_) ?_
    · dsimp only
      split
      · exact .ok rfl
      · show Sk true _ ((VecDeque.maybeRemoveKey l (s.countBelow k) f >>= _) >>= _)
          (VecDeque.maybeRemoveKey l (s.countBelow k) f >>= _)
        rw [bind_assoc]
        refine .same ?_
        rintro (⟨_ | ⟨l', b⟩, v⟩ | l') -
        · exact .ok ⟨rfl, rfl⟩
        · cases b
          · exact .ok ⟨rfl, rfl⟩
          · exact .same fun _ _ => .ok ⟨rfl, rfl⟩
        · exact .ok rfl
    · rintro (⟨x, o⟩ | x) (⟨y, o'⟩ | y) h
      · obtain ⟨h, rfl⟩ := h
        dsimp only at h
        subst h
        cases y <;> exact .ok ⟨rfl, rfl⟩
      · exact h.elim
      · exact h.elim
      · cases h
        exact .ok ⟨rfl, rfl⟩

theorem runColl (ops : List (COp (U 8) T Lo V)) : ∀ m : Option (ByteMap T),
    Sk true (fun x y => x.1 = y.1.map asDeque ∧ x.2 = y.2)
      (CollExec.run (m.map asDeque) ops) (CollExec.run m ops) := by
  induction ops with
  | nil => exact fun m => .ok ⟨rfl, rfl⟩
  | cons op ops ih =>
    intro m
    have hs : Sk true (fun x y => x.1 = y.1.map asDeque ∧ x.2 = y.2)
      (CollExec.step (m.map asDeque) op) (CollExec.step m op) := by
      cases m with
      | some m => exact stepColl m op
      | none => cases op <;> exact .ok ⟨rfl, rfl⟩
    refine hs.bind ?_
    rintro ⟨x, o⟩ ⟨y, _⟩ ⟨h, rfl⟩
    dsimp only at h
    subst h
    refine (ih y).bind ?_
    rintro ⟨x, o⟩ ⟨y, _⟩ ⟨h, rfl⟩
    exact .ok ⟨h, rfl⟩

/-- `VecDeque` is a sequence -/
theorem seqBy {A : Type} : SeqBy (L := Deque A) (fun a l => a.items = l) where
  fromMonad _ := rfl
  len := by rintro _ _ rfl; rfl
  get := by rintro ⟨l⟩ _ i v rfl h; simp only at h; show VecDeque.get l i = _; simp [VecDeque.get, index, h]
  getMut := by
    rintro ⟨l⟩ _ i v rfl h
    simp only at h
    refine ⟨fun b => ⟨l.set i b⟩, ?_, fun _ => rfl⟩
    show VecDeque.getMut l i >>= _ = _
    simp [VecDeque.getMut, index, h]
  insertValue := by
    rintro ⟨l⟩ _ i v rfl h
    refine ⟨⟨l.insertIdx i v⟩, ?_, rfl⟩
    show VecDeque.insertAt l i v >>= _ = _
    rw [VecDeque.insertAt, if_pos h]; rfl
  removeLast := by
    rintro ⟨l⟩ v h
    obtain rfl : l = [v] := h
    rfl
  removeValue := by
    rintro ⟨l⟩ _ i v rfl h1 h
    simp only at h h1
    refine ⟨⟨l.eraseIdx i⟩, ?_, rfl⟩
    have hlt : i < l.length := by
      by_contra hc
      rw [List.getElem?_eq_none (by omega)] at h
      cases h
    have : (l.eraseIdx i).isEmpty = false := by
      rw [Bool.eq_false_iff, Ne, List.isEmpty_iff]
      intro hc
      have := congrArg List.length hc
      rw [List.length_eraseIdx_of_lt hlt] at this
      simp at this
      omega
    show VecDeque.removeValue l i >>= _ = _
    simp only [VecDeque.removeValue, h, this]; rfl

theorem treeSeqBy : TreeSeqBy (L := Deque T) (fun a l => a.items = l) where
  fromMonad _ := rfl
  get := by rintro ⟨l⟩ _ i v rfl h; simp only at h; show VecDeque.get l i = _; simp [VecDeque.get, index, h]
  getMut := by
    rintro ⟨l⟩ _ i v rfl h
    simp only at h
    refine ⟨fun b => ⟨l.set i b⟩, ?_, fun _ => rfl⟩
    show VecDeque.getMut l i >>= _ = _
    simp [VecDeque.getMut, index, h]
  insertTree := by
    rintro ⟨l⟩ _ i v rfl h
    refine ⟨⟨l.insertIdx i v⟩, ?_, rfl⟩
    show VecDeque.insertAt l i v >>= _ = _
    rw [VecDeque.insertAt, if_pos h]; rfl
  removePanic := by
    rintro ⟨l⟩ _ i t f e rfl h hf
    simp only at h
    refine ⟨e, ?_⟩
    show VecDeque.removeKey l i f >>= _ = _
    simp only [VecDeque.removeKey, h, hf]; rfl
  removeLeft := by
    rintro ⟨l⟩ _ i t f t' val rfl h hf
    simp only at h
    refine ⟨⟨l.set i t'⟩, ?_, rfl⟩
    have : (l.set i t').isEmpty = false := by
      cases l with
      | nil => simp at h
      | cons a l => cases i <;> rfl
    show VecDeque.removeKey l i f >>= _ = _
    simp only [VecDeque.removeKey, h, hf, R.ok_bind, this, Bool.false_eq_true, if_false]; rfl
  removeLast := by
    rintro ⟨l⟩ t f val h hf
    obtain rfl : l = [t] := h
    show VecDeque.removeKey [t] 0 f >>= _ = _
    simp [VecDeque.removeKey, hf]
  removeGone := by
    rintro ⟨l⟩ _ i t f val rfl h1 h hf
    simp only at h h1
    refine ⟨⟨l.eraseIdx i⟩, ?_, rfl⟩
    have hlt : i < l.length := by
      by_contra hc
      rw [List.getElem?_eq_none (by omega)] at h
      cases h
    have : (l.eraseIdx i).isEmpty = false := by
      rw [Bool.eq_false_iff, Ne, List.isEmpty_iff]
      intro hc
      have := congrArg List.length hc
      rw [List.length_eraseIdx_of_lt hlt] at this
      simp at this
      omega
    show VecDeque.removeKey l i f >>= _ = _
    simp only [VecDeque.removeKey, h, hf, R.ok_bind, this, Bool.false_eq_true, if_false]; rfl
  maybePanic := by
    rintro ⟨l⟩ _ i t f e rfl h hf
    simp only at h
    refine ⟨e, ?_⟩
    show VecDeque.maybeRemoveKey l i f >>= _ = _
    simp only [VecDeque.maybeRemoveKey, h, hf]; rfl
  maybeKept := by
    rintro ⟨l⟩ _ i t f t' rfl h hf
    simp only at h
    refine ⟨⟨l.set i t'⟩, ?_, rfl⟩
    show VecDeque.maybeRemoveKey l i f >>= _ = _
    simp only [VecDeque.maybeRemoveKey, h, hf, R.ok_bind]; rfl
  maybeLeft := by
    rintro ⟨l⟩ _ i t f t' val rfl h hf
    simp only at h
    refine ⟨⟨l.set i t'⟩, ?_, rfl⟩
    have : (l.set i t').isEmpty = false := by
      cases l with
      | nil => simp at h
      | cons a l => cases i <;> rfl
    show VecDeque.maybeRemoveKey l i f >>= _ = _
    simp only [VecDeque.maybeRemoveKey, h, hf, R.ok_bind, this, Bool.false_eq_true, if_false]; rfl
  maybeLast := by
    rintro ⟨l⟩ t f val h hf
    obtain rfl : l = [t] := h
    show VecDeque.maybeRemoveKey [t] 0 f >>= _ = _
    simp [VecDeque.maybeRemoveKey, hf]
  maybeGone := by
    rintro ⟨l⟩ _ i t f val rfl h1 h hf
    simp only at h h1
    refine ⟨⟨l.eraseIdx i⟩, ?_, rfl⟩
    have hlt : i < l.length := by
      by_contra hc
      rw [List.getElem?_eq_none (by omega)] at h
      cases h
    have : (l.eraseIdx i).isEmpty = false := by
      rw [Bool.eq_false_iff, Ne, List.isEmpty_iff]
      intro hc
      have := congrArg List.length hc
      rw [List.length_eraseIdx_of_lt hlt] at this
      simp at this
      omega
    show VecDeque.maybeRemoveKey l i f >>= _ = _
    simp only [VecDeque.maybeRemoveKey, h, hf, R.ok_bind, this, Bool.false_eq_true, if_false]; rfl

end Deque
end Veb
