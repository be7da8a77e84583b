import Verif.Proof.Marker
import Verif.Props.NoPanic

/-!
# C63: the tree types that markers make

Most users name a tree type by a marker. Here the markers of the crate are put together in every way that Rust accepts.
-/

set_option autoImplicit false

namespace Veb.Props

open Marker

/-- **C63.** If the markers accept a key type whose parts fit arrays (`u8` to `u64`, `i16` to `i64`, arrays of `u8`, `u16`,
`u32`), the tree type is one of those that the other theorems are about, with lawful keys and indices at every level,
whatever the marker. Missing: other keys with array collections (`C63_refuted_u128`, `C63_refuted_i16`). -/
theorem C63_crate_partial {W : Type} {m : Marker} {k : KeyTy} {v : ValTy} {T : TreeImpl k.den (v.den W)}
    (hk : FitsArrays k) (h : m.treeOf W k v = some T) : T.Crate :=
  (m.crate W).1 _ _ _ h (.inr hk)

/-- **C63, without arrays.** So it is for every key type, if no array collection occurs in the marker. -/
theorem C63_crate_noArray {W : Type} {m : Marker} {k : KeyTy} {v : ValTy} {T : TreeImpl k.den (v.den W)}
    (hm : m.noArray = true) (h : m.treeOf W k v = some T) : T.Crate :=
  (m.crate W).1 _ _ _ h (.inl hm)

/-- **C63, histories.** Such a tree type runs like the ordered map on every safe history. Missing: other histories
(`C17_refuted`). -/
theorem C63_history_partial {W : Type} {m : Marker} {k : KeyTy} {v : ValTy} {T : TreeImpl k.den (v.den W)}
    (hk : FitsArrays k ∨ m.noArray = true) (h : m.treeOf W k v = some T) :
    letI := T.inst
    ∃ safe, CrateTree T.Ty k.den (v.den W) safe ∧
      ∀ ops : List (Op k.den (v.den W)), SL.SafeHist safe [] ops → RunsLikeMap T.Ty ops := by
  obtain ⟨safe, hc⟩ := (m.crate W).1 _ _ _ h hk.symm
  letI := T.inst
  exact ⟨safe, hc, fun ops hs => C17_history_partial hc ops hs⟩

/-! ## Which keys have trees -/

/-- **C63, keys.** The keys with a tree type are `u8` to `u128`, `i16` to `i128`, and arrays of keys with a tree type, of
length 2 to 8 or 16. -/
theorem C63_keys (k : KeyTy) : (∃ m v, Makes m k v) ↔ HasTrees k := by
  constructor
  · rintro ⟨m, v, h⟩
    obtain ⟨T, hT⟩ := h Unit
    exact (m.hasTrees Unit).1 _ _ _ hT
  · intro h
    obtain ⟨m, -, hm⟩ := h.marker
    exact ⟨m, .unit, hm _⟩

/-- **C63, one marker for a key.** Each of them has a marker that works for all values and does not use arrays. -/
theorem C63_marker {k : KeyTy} (h : HasTrees k) : ∃ m : Marker, m.noArray = true ∧ ∀ v, Makes m k v := h.marker

/-- **C63, keys without trees.** No marker makes a tree of `i8`, `U4`, `U2`, `bool` or `()` keys, though all but `bool` are
keys; a tree of `u8` keys is a byte set or a byte map, in boxes. -/
theorem C63_no_trees (W : Type) (m : Marker) (v : ValTy) :
    (∀ k ∈ [KeyTy.sint 8, .u4, .u2, .bool, .unit], m.treeOf W k v = none) ∧
    (∀ T, m.treeOf W (.uint 8) v = some T → ∃ n, m = box^[n] byteSet ∨ m = box^[n] byteTree) := by
  constructor
  · intro k hk
    rcases h : m.treeOf W k v with _ | T
    · rfl
    · have := (m.hasTrees W).1 _ _ _ h
      simp only [List.mem_cons, List.not_mem_nil, or_false] at hk
      rcases hk with rfl | rfl | rfl | rfl | rfl
      · cases this with | sint h => exact absurd h (by decide)
      all_goals cases this
  · induction m with
    | byteSet => exact fun T _ => ⟨0, .inl rfl⟩
    | byteTree => exact fun T _ => ⟨0, .inr rfl⟩
    | box m ih =>
      intro T h
      obtain ⟨U, hU, -⟩ := Option.bind_eq_some_iff.1 h
      obtain ⟨n, h | h⟩ := ih U hU
      · exact ⟨n + 1, .inl (by rw [Function.iterate_succ_apply', ← h])⟩
      · exact ⟨n + 1, .inr (by rw [Function.iterate_succ_apply', ← h])⟩
    | tree s c _ _ =>
      intro T h
      obtain ⟨hv, e, h⟩ := Option.bind_eq_some_iff.1 h
      obtain ⟨S, hS, -⟩ := Option.bind_eq_some_iff.1 h
      cases e
      cases (s.hasTrees W).1 _ _ _ hS
    | generic m _ => intro T h; cases h
    | array m _ => intro T h; cases h
    | hash m _ => intro T h; cases h
    | bytes m _ => intro T h; cases h

/-! ## Arrays -/

/-- **C63, arrays.** An array collection is accepted only if both halves of the key have the same type. -/
theorem C63_array_halves {W : Type} {a : Marker} {hi lo : KeyTy} {v : ValTy}
    {C : CollImpl hi.den lo.den (v.den W)} (h : (array a).collOf W hi lo v = some C) : hi = lo := by
  obtain ⟨sz, -, h⟩ := Option.bind_eq_some_iff.1 h
  obtain ⟨T, -, h⟩ := Option.bind_eq_some_iff.1 h
  split at h
  · assumption
  · cases h

theorem no_array_tree {W : Type} {s a : Marker} {k : KeyTy} {v : ValTy}
    (h : ∀ hv, k.halves = some hv → hv.hi ≠ hv.lo) : (tree s (array a)).treeOf W k v = none := by
  rcases e : (tree s (array a)).treeOf W k v with _ | T
  · rfl
  · obtain ⟨hv, e1, e⟩ := Option.bind_eq_some_iff.1 e
    obtain ⟨S, -, e⟩ := Option.bind_eq_some_iff.1 e
    obtain ⟨C, hC, -⟩ := Option.bind_eq_some_iff.1 e
    exact absurd (C63_array_halves hC) (h hv e1)

/-- a key type is no part of itself -/
theorem arr_ne (t : KeyTy) (n : Nat) : t ≠ .arr t n := by
  intro e
  have := congrArg sizeOf e
  simp only [KeyTy.arr.sizeOf_spec] at this
  omega

/-- **C63, arrays and odd lengths.** So there is no array collection for keys of three, five or seven parts, although they
have trees (with hash tables). -/
theorem C63_odd_arrays (W : Type) (s a : Marker) (t : KeyTy) (v : ValTy) :
    (tree s (array a)).treeOf W (.arr t 3) v = none ∧ (tree s (array a)).treeOf W (.arr t 5) v = none ∧
    (tree s (array a)).treeOf W (.arr t 7) v = none := by
  refine ⟨no_array_tree ?_, no_array_tree ?_, no_array_tree ?_⟩
  · intro hv e; cases e; exact arr_ne t 2
  · intro hv e; cases e; exact fun e => by cases e
  · intro hv e; cases e; exact fun e => by cases e

/-! ## The predefined markers -/

theorem array_tree {W : Type} {s a : Marker} {k x : KeyTy} {v : ValTy} {ki : KeyImpl k.den x.den x.den}
    {sz : SizedVebKey x.den} {S C : Type} {iS : VebTree S x.den Unit} {iC : VebTree C x.den (v.den W)}
    (hk : k.halves = some ⟨x, x, ki⟩) (hz : x.sized = some sz) (hs : s.treeOf W x .unit = some ⟨S, iS⟩)
    (ha : a.treeOf W x v = some ⟨C, iC⟩) :
    (tree s (array (box a))).treeOf W k v =
      some ⟨Tree k.den (v.den W) S (ArrayColl x.den C), letI := ki.key; letI := ki.ref; inferInstance⟩ := by
  refine Option.bind_eq_some_iff.2 ⟨_, hk, Option.bind_eq_some_iff.2 ⟨_, hs, Option.bind_eq_some_iff.2
    ⟨⟨⟨C, iC⟩, ArrayColl x.den C, inferInstance⟩, Option.bind_eq_some_iff.2 ⟨sz, hz, Option.bind_eq_some_iff.2
      ⟨_, ha, ?_⟩⟩, rfl⟩⟩⟩
  rw [dif_pos rfl]

/-- **C63, predefined.** What `VebTreeType` of the predefined markers is. -/
theorem C63_predefined (W : Type) :
    (m8e.treeOf W (.uint 8) .unit = some ⟨Set8, inferInstance⟩ ∧
     m8.treeOf W (.uint 8) .val = some ⟨Map8 W, inferInstance⟩) ∧
    (m16e.treeOf W (.uint 16) .unit = some ⟨Set16 (U 16), inferInstance⟩ ∧
     m16.treeOf W (.uint 16) .val = some ⟨Map16 (U 16) W, inferInstance⟩) ∧
    (m16e.treeOf W (.sint 16) .unit = some ⟨Set16 (S 16), inferInstance⟩ ∧
     m16.treeOf W (.sint 16) .val = some ⟨Map16 (S 16) W, inferInstance⟩) ∧
    (m32e.treeOf W (.uint 32) .unit = some ⟨Set32 (U 32), inferInstance⟩ ∧
     m32.treeOf W (.uint 32) .val = some ⟨Map32 (U 32) W, inferInstance⟩) ∧
    (m32e.treeOf W (.sint 32) .unit = some ⟨Set32 (S 32), inferInstance⟩ ∧
     m32.treeOf W (.sint 32) .val = some ⟨Map32 (S 32) W, inferInstance⟩) ∧
    (m64e.treeOf W (.uint 64) .unit = some ⟨Set64 (U 64), inferInstance⟩ ∧
     m64.treeOf W (.uint 64) .val = some ⟨Map64 (U 64) W, inferInstance⟩) ∧
    (m64e.treeOf W (.sint 64) .unit = some ⟨Set64 (S 64), inferInstance⟩ ∧
     m64.treeOf W (.sint 64) .val = some ⟨Map64 (S 64) W, inferInstance⟩) := by
  have h8 : m8e.treeOf W (.uint 8) .unit = some ⟨Set8, inferInstance⟩ := rfl
  have h8' : m8.treeOf W (.uint 8) .val = some ⟨Map8 W, inferInstance⟩ := rfl
  have h16 : m16e.treeOf W (.uint 16) .unit = some ⟨Set16 (U 16), inferInstance⟩ :=
    array_tree (k := .uint 16) (x := .uint 8) rfl rfl h8 h8
  have h16' : m16.treeOf W (.uint 16) .val = some ⟨Map16 (U 16) W, inferInstance⟩ :=
    array_tree (k := .uint 16) (x := .uint 8) rfl rfl h8 h8'
  have h32 : m32e.treeOf W (.uint 32) .unit = some ⟨Set32 (U 32), inferInstance⟩ :=
    array_tree (k := .uint 32) (x := .uint 16) rfl rfl h16 h16
  have h32' : m32.treeOf W (.uint 32) .val = some ⟨Map32 (U 32) W, inferInstance⟩ :=
    array_tree (k := .uint 32) (x := .uint 16) rfl rfl h16 h16'
  exact ⟨⟨h8, h8'⟩, ⟨h16, h16'⟩, ⟨array_tree (k := .sint 16) (x := .uint 8) rfl rfl h8 h8,
    array_tree (k := .sint 16) (x := .uint 8) rfl rfl h8 h8'⟩, ⟨h32, h32'⟩,
    ⟨array_tree (k := .sint 32) (x := .uint 16) rfl rfl h16 h16, array_tree (k := .sint 32) (x := .uint 16) rfl rfl h16 h16'⟩,
    ⟨array_tree (k := .uint 64) (x := .uint 32) rfl rfl h32 h32, array_tree (k := .uint 64) (x := .uint 32) rfl rfl h32 h32'⟩,
    ⟨array_tree (k := .sint 64) (x := .uint 32) rfl rfl h32 h32, array_tree (k := .sint 64) (x := .uint 32) rfl rfl h32 h32'⟩⟩

theorem makes_array {s a : Marker} {k : KeyTy} {v : ValTy} : Makes (tree s (array (box a))) k v ↔
    ∃ x ki, k.halves = some ⟨x, x, ki⟩ ∧ x.sized ≠ none ∧ Makes s x .unit ∧ Makes a x v := by
  constructor
  · intro h
    obtain ⟨T, h1⟩ := h Unit
    obtain ⟨⟨x, y, ki⟩, e, h1⟩ := Option.bind_eq_some_iff.1 h1
    obtain ⟨S, hS, h1⟩ := Option.bind_eq_some_iff.1 h1
    obtain ⟨C, hC, -⟩ := Option.bind_eq_some_iff.1 h1
    obtain rfl : x = y := C63_array_halves hC
    obtain ⟨sz, hz, -⟩ := Option.bind_eq_some_iff.1 hC
    dsimp only at hz
    refine ⟨x, ki, e, by rw [hz]; exact fun h => (by cases h), fun W => ?_, fun W => ?_⟩ <;> clear hS hC h1
    all_goals
      obtain ⟨T, h1⟩ := h W
      obtain ⟨hv, e', h1⟩ := Option.bind_eq_some_iff.1 h1
      rw [e] at e'
      cases e'
      obtain ⟨S, hS, h1⟩ := Option.bind_eq_some_iff.1 h1
      obtain ⟨C, hC, -⟩ := Option.bind_eq_some_iff.1 h1
    · exact ⟨S, hS⟩
    · obtain ⟨sz, hz, hC⟩ := Option.bind_eq_some_iff.1 hC
      obtain ⟨T, hT, -⟩ := Option.bind_eq_some_iff.1 hC
      exact ⟨T, hT⟩
  · rintro ⟨x, ki, e, hz, hs, ha⟩ W
    obtain ⟨sz, hz⟩ := Option.ne_none_iff_exists'.1 hz
    obtain ⟨S, hs⟩ := hs W
    obtain ⟨T, ha⟩ := ha W
    exact ⟨_, array_tree e hz hs ha⟩

theorem halves_eq {x k : KeyTy} {ki : KeyImpl k.den x.den x.den} (h : k.halves = some ⟨x, x, ki⟩) {w : Nat}
    (hx : x = .uint w ∨ x = .sint w) :
    k = .uint (2 * w) ∧ x = .uint w ∨ k = .sint (2 * w) ∧ x = .uint w ∨ k = .arr x 2 := by
  unfold KeyTy.halves at h
  split at h <;> first | (cases h; done) | skip
  all_goals
    injection h with h
    injection h with h1 h2 h3
    subst h1
    rcases hx with hx | hx
  all_goals first
    | (cases hx; done)
    | (cases h2; done)
    | (cases hx; exact .inl ⟨rfl, rfl⟩)
    | (cases hx; exact .inr (.inl ⟨rfl, rfl⟩))
    | exact .inr (.inr rfl)

theorem makes_byteSet {k : KeyTy} {v : ValTy} : Makes byteSet k v ↔ k = .uint 8 ∧ v = .unit := by
  constructor
  · intro h
    obtain ⟨T, h⟩ := h Unit
    have := byteSetOf_some h
    exact ⟨this.1, this.2.1⟩
  · rintro ⟨rfl, rfl⟩ W; exact ⟨_, rfl⟩
theorem makes_byteTree {k : KeyTy} {v : ValTy} : Makes byteTree k v ↔ k = .uint 8 := by
  constructor
  · intro h
    obtain ⟨T, h⟩ := h Unit
    exact (byteTreeOf_some h).1
  · rintro rfl W; exact ⟨_, rfl⟩

/-- **C63, the keys of the predefined markers.** All the key types that each predefined marker accepts. Besides the
integers they are made for there are arrays of two; among these `[i16; 2]` and `[i32; 2]`, which do not work
(`C63_refuted_i16`). -/
theorem C63_predefined_keys (k : KeyTy) (v : ValTy) :
    ((Makes m8 k v ↔ k = .uint 8) ∧ (Makes m8e k v ↔ k = .uint 8 ∧ v = .unit)) ∧
    ((Makes m16 k v ↔ k ∈ [.uint 16, .sint 16, .arr (.uint 8) 2]) ∧
     (Makes m16e k v ↔ k ∈ [.uint 16, .sint 16, .arr (.uint 8) 2] ∧ v = .unit)) ∧
    ((Makes m32 k v ↔ k ∈ [.uint 32, .sint 32, .arr (.uint 16) 2, .arr (.sint 16) 2]) ∧
     (Makes m32e k v ↔ k ∈ [.uint 32, .sint 32, .arr (.uint 16) 2, .arr (.sint 16) 2] ∧ v = .unit)) ∧
    ((Makes m64 k v ↔ k ∈ [.uint 64, .sint 64, .arr (.uint 32) 2, .arr (.sint 32) 2]) ∧
     (Makes m64e k v ↔ k ∈ [.uint 64, .sint 64, .arr (.uint 32) 2, .arr (.sint 32) 2] ∧ v = .unit)) := by
  have e8 : ∀ k v, Makes m8e k v ↔ k = .uint 8 ∧ v = .unit := fun k v => makes_byteSet
  have f8 : ∀ k v, Makes m8 k v ↔ k = .uint 8 := fun k v => makes_byteTree
  have f16 : ∀ k v, Makes m16 k v ↔ k ∈ [.uint 16, .sint 16, .arr (.uint 8) 2] := by
    intro k v
    rw [m16, makes_array]
    simp only [e8, f8, List.mem_cons, List.not_mem_nil, or_false]
    constructor
    · rintro ⟨x, ki, e, hz, ⟨rfl, -⟩, -⟩
      rcases halves_eq e (.inl rfl) with ⟨h, -⟩ | ⟨h, -⟩ | h <;> simp [h]
    · rintro (rfl | rfl | rfl) <;> exact ⟨.uint 8, _, rfl, fun h => (by cases h), ⟨rfl, trivial⟩, rfl⟩
  have e16 : ∀ k v, Makes m16e k v ↔ k ∈ [.uint 16, .sint 16, .arr (.uint 8) 2] ∧ v = .unit := by
    intro k v
    rw [m16e, makes_array]
    simp only [e8, List.mem_cons, List.not_mem_nil, or_false]
    constructor
    · rintro ⟨x, ki, e, hz, ⟨rfl, -⟩, -, hv⟩
      refine ⟨?_, hv⟩
      rcases halves_eq e (.inl rfl) with ⟨h, -⟩ | ⟨h, -⟩ | h <;> simp [h]
    · rintro ⟨(rfl | rfl | rfl), hv⟩ <;> exact ⟨.uint 8, _, rfl, fun h => (by cases h), ⟨rfl, trivial⟩, rfl, hv⟩
  have f32 : ∀ k v, Makes m32 k v ↔ k ∈ [.uint 32, .sint 32, .arr (.uint 16) 2, .arr (.sint 16) 2] := by
    intro k v
    rw [m32, makes_array]
    simp only [e16, f16, List.mem_cons, List.not_mem_nil, or_false]
    constructor
    · rintro ⟨x, ki, e, hz, ⟨rfl | rfl | rfl, -⟩, -⟩
      · rcases halves_eq e (.inl rfl) with ⟨h, -⟩ | ⟨h, -⟩ | h <;> simp [h]
      · rcases halves_eq e (.inr rfl) with ⟨-, h⟩ | ⟨-, h⟩ | h <;> first | (cases h; done) | simp [h]
      · exact absurd rfl hz
    · rintro (rfl | rfl | rfl | rfl)
      iterate 3 exact ⟨.uint 16, _, rfl, fun h => (by cases h), ⟨.inl rfl, trivial⟩, .inl rfl⟩
      exact ⟨.sint 16, _, rfl, fun h => (by cases h), ⟨.inr (.inl rfl), trivial⟩, .inr (.inl rfl)⟩
  have e32 : ∀ k v, Makes m32e k v ↔ k ∈ [.uint 32, .sint 32, .arr (.uint 16) 2, .arr (.sint 16) 2] ∧ v = .unit := by
    intro k v
    rw [m32e, makes_array]
    simp only [e16, List.mem_cons, List.not_mem_nil, or_false]
    constructor
    · rintro ⟨x, ki, e, hz, ⟨rfl | rfl | rfl, -⟩, -, hv⟩
      · refine ⟨?_, hv⟩
        rcases halves_eq e (.inl rfl) with ⟨h, -⟩ | ⟨h, -⟩ | h <;> simp [h]
      · refine ⟨?_, hv⟩
        rcases halves_eq e (.inr rfl) with ⟨-, h⟩ | ⟨-, h⟩ | h <;> first | (cases h; done) | simp [h]
      · exact absurd rfl hz
    · rintro ⟨rfl | rfl | rfl | rfl, hv⟩
      iterate 3 exact ⟨.uint 16, _, rfl, fun h => (by cases h), ⟨.inl rfl, trivial⟩, .inl rfl, hv⟩
      exact ⟨.sint 16, _, rfl, fun h => (by cases h), ⟨.inr (.inl rfl), trivial⟩, .inr (.inl rfl), hv⟩
  have f64 : Makes m64 k v ↔ k ∈ [.uint 64, .sint 64, .arr (.uint 32) 2, .arr (.sint 32) 2] := by
    rw [m64, makes_array]
    simp only [e32, f32, List.mem_cons, List.not_mem_nil, or_false]
    constructor
    · rintro ⟨x, ki, e, hz, ⟨rfl | rfl | rfl | rfl, -⟩, -⟩
      · rcases halves_eq e (.inl rfl) with ⟨h, -⟩ | ⟨h, -⟩ | h <;> simp [h]
      · rcases halves_eq e (.inr rfl) with ⟨-, h⟩ | ⟨-, h⟩ | h <;> first | (cases h; done) | simp [h]
      · exact absurd rfl hz
      · exact absurd rfl hz
    · rintro (rfl | rfl | rfl | rfl)
      iterate 3 exact ⟨.uint 32, _, rfl, fun h => (by cases h), ⟨.inl rfl, trivial⟩, .inl rfl⟩
      exact ⟨.sint 32, _, rfl, fun h => (by cases h), ⟨.inr (.inl rfl), trivial⟩, .inr (.inl rfl)⟩
  have e64 : Makes m64e k v ↔ k ∈ [.uint 64, .sint 64, .arr (.uint 32) 2, .arr (.sint 32) 2] ∧ v = .unit := by
    rw [m64e, makes_array]
    simp only [e32, List.mem_cons, List.not_mem_nil, or_false]
    constructor
    · rintro ⟨x, ki, e, hz, ⟨rfl | rfl | rfl | rfl, -⟩, -, hv⟩
      · refine ⟨?_, hv⟩
        rcases halves_eq e (.inl rfl) with ⟨h, -⟩ | ⟨h, -⟩ | h <;> simp [h]
      · refine ⟨?_, hv⟩
        rcases halves_eq e (.inr rfl) with ⟨-, h⟩ | ⟨-, h⟩ | h <;> first | (cases h; done) | simp [h]
      · exact absurd rfl hz
      · exact absurd rfl hz
    · rintro ⟨rfl | rfl | rfl | rfl, hv⟩
      iterate 3 exact ⟨.uint 32, _, rfl, fun h => (by cases h), ⟨.inl rfl, trivial⟩, .inl rfl, hv⟩
      exact ⟨.sint 32, _, rfl, fun h => (by cases h), ⟨.inr (.inl rfl), trivial⟩, .inr (.inl rfl), hv⟩
  exact ⟨⟨f8 _ _, e8 _ _⟩, ⟨f16 _ _, e16 _ _⟩, ⟨f32 _ _, e32 _ _⟩, ⟨f64, e64⟩⟩

/-! ## What is missing -/

/-- **C63 refuted for 128 bits.** The next marker in the series is accepted for `u128`, and any three ascending keys make the
tree panic. -/
theorem C63_refuted_u128 (W : Type) : ∃ T : TreeImpl (U 128) W,
    (tree m64e (array (box m64))).treeOf W (.uint 128) .val = some T ∧
    ∀ a b c : U 128, ∀ va vb vc : W, a < b → b < c →
      letI := T.inst
      Exec.run (none : Option T.Ty) [.insert a va, .insert b vb, .insert c vc] = .error .index := by
  obtain ⟨-, -, -, -, -, ⟨h, h'⟩, -⟩ := C63_predefined W
  exact ⟨_, array_tree (k := .uint 128) (x := .uint 64) rfl rfl h h', fun a b c va vb vc h1 h2 =>
    (C25_refuted_u128 va vb vc).1 a b c h1 h2⟩

/-- **C63 refuted for `[i16; 2]`.** `Marker32` is accepted, and three ascending keys make the tree panic as soon as the
second starts with a number that is not negative. -/
theorem C63_refuted_i16 (W : Type) : ∃ T : TreeImpl (Arr (S 16) 2) W, m32.treeOf W (.arr (.sint 16) 2) .val = some T ∧
    ∀ a b c : Arr (S 16) 2, ∀ va vb vc : W, a < b → b < c → 0 ≤ (VebKey.splitVal b).1.bits.toInt →
      letI := T.inst
      Exec.run (none : Option T.Ty) [.insert a va, .insert b vb, .insert c vc] = .error .index := by
  obtain ⟨-, -, ⟨h, h'⟩, -⟩ := C63_predefined W
  refine ⟨_, array_tree (k := .arr (.sint 16) 2) (x := .sint 16) rfl rfl h h', fun a b c va vb vc h1 h2 hb => ?_⟩
  refine C25_third_insert_panics (K := Arr (S 16) 2) (Hi := S 16) (Lo := S 16) (S := Set16 (S 16))
    (C := ArrayColl (S 16) (Map16 (S 16) W)) va vb vc h1 h2 fun t => ?_
  rcases h : (TreeCollection.create (VebKey.splitVal b).1 t : R (ArrayColl (S 16) (Map16 (S 16) W))) with e | c
  · change ArrayColl.create _ _ = _ at h
    simp only [ArrayColl.create, OptionArray.put] at h
    split at h
    · cases h
    · cases h; rfl
  · have := (C14_signed.2.1 (VebKey.splitVal b).1 t).1 ⟨c, h⟩
    omega

/-! ## Not vacuous -/

/-- `C63_crate_partial` applies to `Marker64` and `u64` … -/
example : ∃ T, m64.treeOf Nat (.uint 64) .val = some T ∧ T.Crate := by
  obtain ⟨-, -, -, -, -, ⟨-, h⟩, -⟩ := C63_predefined Nat
  exact ⟨_, h, C63_crate_partial (.uint (by decide)) h⟩
/-- … and to a nest of arrays, byte maps, hash tables and boxes over `[[u8; 3]; 2]`. -/
example : ∃ T, (tree (tree m8e (hash (box m16e))) (hash (tree (box m8e) (bytes (tree m8e (array (generic m8))))))).treeOf Nat
    (.arr (.arr (.uint 8) 3) 2) .val = some T ∧ T.Crate := by
  have : ∃ T, (tree (tree m8e (hash (box m16e))) (hash (tree (box m8e) (bytes (tree m8e (array (generic m8))))))).treeOf Nat
    (.arr (.arr (.uint 8) 3) 2) .val = some T := ⟨_, rfl⟩
  obtain ⟨T, h⟩ := this
  exact ⟨T, h, C63_crate_partial (.arr (.arrU (by decide))) h⟩
/-- The hypotheses of the refutations can be met. -/
example : (⟨[S.lit (-1), S.lit 1], rfl⟩ : Arr (S 16) 2) < ⟨[S.lit 0, S.lit 2], rfl⟩ ∧
    (⟨[S.lit 0, S.lit 2], rfl⟩ : Arr (S 16) 2) < ⟨[S.lit 7, S.lit 0], rfl⟩ ∧
    0 ≤ (VebKey.splitVal (⟨[S.lit 0, S.lit 2], rfl⟩ : Arr (S 16) 2)).1.bits.toInt := by decide

end Veb.Props
