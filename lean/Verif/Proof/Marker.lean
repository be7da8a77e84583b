import Verif.SpecMarker
import Verif.Proof.Crate
import Verif.Proof.KeyLaws

/-!
Trait selection on markers.
-/

set_option autoImplicit false
set_option linter.unusedSectionVars false
namespace Veb

theorem HasTrees.of_halves {k : KeyTy} {h : Halves k} (e : k.halves = some h) (hh : HasTrees h.hi) : HasTrees k := by
  unfold KeyTy.halves at e
  split at e <;> first
    | (cases e; done)
    | skip
  all_goals (cases e; dsimp only at hh)
  all_goals first
    | exact .uint (by decide)
    | exact .sint (by decide)
    | exact .arr hh (by decide)
    | (cases hh with | arr h _ => exact .arr h (by decide))
    | (cases hh with | uint h => revert h; decide)
    | (cases hh; done)

theorem byteSetOf_some {W : Type} {k : KeyTy} {v : ValTy} {T : TreeImpl k.den (v.den W)} (h : byteSetOf W k v = some T) :
    k = .uint 8 ∧ v = .unit ∧ T.Crate := by
  unfold byteSetOf at h
  split at h
  · cases h; exact ⟨rfl, rfl, _, .byteSet⟩
  · cases h
theorem byteTreeOf_some {W : Type} {k : KeyTy} {v : ValTy} {T : TreeImpl k.den (v.den W)} (h : byteTreeOf W k v = some T) :
    k = .uint 8 ∧ T.Crate := by
  unfold byteTreeOf at h
  split at h
  · cases h; exact ⟨rfl, _, .byteMap⟩
  · cases h
theorem bytesOf_some {Lo V : Type} {T : TreeImpl Lo V} {hi : KeyTy} {C : CollImpl hi.den Lo V} (h : bytesOf T hi = some C) :
    hi = .uint 8 ∧ C.tree = T := by
  unfold bytesOf at h
  split at h
  · cases h; exact ⟨rfl, rfl⟩
  · cases h

theorem Marker.hasTrees (W : Type) (m : Marker) :
    (∀ k v T, m.treeOf W k v = some T → HasTrees k) ∧ (∀ hi lo v C, m.collOf W hi lo v = some C → HasTrees lo) ∧
      (∀ k v T, m.arrayOf W k v = some T → HasTrees k) := by
  induction m with
  | byteSet =>
    refine ⟨fun k v T h => ?_, fun hi lo v C h => ?_, fun k v T h => ?_⟩ <;> first | (cases h; done) | skip
    obtain ⟨rfl, -⟩ := byteSetOf_some h
    exact .uint (by decide)
  | byteTree =>
    refine ⟨fun k v T h => ?_, fun hi lo v C h => ?_, fun k v T h => ?_⟩ <;> first | (cases h; done) | skip
    obtain ⟨rfl, -⟩ := byteTreeOf_some h
    exact .uint (by decide)
  | box m ih =>
    refine ⟨fun k v T h => ?_, fun hi lo v C h => ?_, fun k v T h => ?_⟩
    · obtain ⟨U, hU, -⟩ := Option.bind_eq_some_iff.1 h
      exact ih.1 _ _ _ hU
    · cases h
    · exact ih.1 _ _ _ h
  | generic m ih =>
    refine ⟨fun k v T h => ?_, fun hi lo v C h => ?_, fun k v T h => ?_⟩
    · cases h
    · cases h
    · exact ih.1 _ _ _ h
  | tree s c ihs ihc =>
    refine ⟨fun k v T h => ?_, fun hi lo v C h => ?_, fun k v T h => ?_⟩
    · obtain ⟨hv, e, h⟩ := Option.bind_eq_some_iff.1 h
      obtain ⟨S, hS, -⟩ := Option.bind_eq_some_iff.1 h
      exact .of_halves e (ihs.1 _ _ _ hS)
    · cases h
    · cases h
  | array a ih =>
    refine ⟨fun k v T h => ?_, fun hi lo v C h => ?_, fun k v T h => ?_⟩
    · cases h
    · obtain ⟨sz, e, h⟩ := Option.bind_eq_some_iff.1 h
      obtain ⟨T, hT, h⟩ := Option.bind_eq_some_iff.1 h
      split at h
      · rename_i e; subst e; exact ih.2.2 _ _ _ hT
      · cases h
    · cases h
  | hash m ih =>
    refine ⟨fun k v T h => ?_, fun hi lo v C h => ?_, fun k v T h => ?_⟩
    · cases h
    · obtain ⟨T, hT, h⟩ := Option.bind_eq_some_iff.1 h
      exact ih.1 _ _ _ hT
    · cases h
  | bytes m ih =>
    refine ⟨fun k v T h => ?_, fun hi lo v C h => ?_, fun k v T h => ?_⟩
    · cases h
    · obtain ⟨T, hT, h⟩ := Option.bind_eq_some_iff.1 h
      exact ih.1 _ _ _ hT
    · cases h

/-- a key whose indices fit -/
def KeyTy.OkIndex (k : KeyTy) : Prop := ∀ sz : SizedVebKey k.den, k.sized = some sz → @GoodIndex k.den sz

theorem okIndex_of {k : KeyTy} (h1 : ∀ w, k = .uint w → w ≤ 32) (h2 : ∀ w, k ≠ .sint w) (h3 : k ≠ .u4) (h4 : k ≠ .u2) :
    k.OkIndex := by
  intro sz e
  unfold KeyTy.sized at e
  split at e <;> first
    | (cases e; done)
    | exact absurd rfl (h2 _)
    | exact absurd rfl h3
    | exact absurd rfl h4
    | (have := h1 _ rfl; omega)
    | (cases e; exact goodIndex)

theorem goodIndexU {w : Nat} (hw : w ≤ 32) : (KeyTy.uint w).OkIndex :=
  okIndex_of (fun v e => by cases e; exact hw) (fun v e => by cases e) (fun e => by cases e) (fun e => by cases e)

theorem okIndex_arr (t : KeyTy) (n : Nat) : (KeyTy.arr t n).OkIndex := by
  intro sz e; cases e

theorem FitsArrays.of_halves {k : KeyTy} {h : Halves k} (hf : FitsArrays k) (e : k.halves = some h) (hh : HasTrees h.hi) :
    FitsArrays h.hi ∧ FitsArrays h.lo ∧ h.hi.OkIndex := by
  unfold KeyTy.halves at e
  split at e <;> first
    | (cases e; done)
    | skip
  all_goals (cases e; dsimp only at hh ⊢)
  all_goals first
    | (cases hh; done)
    | (cases hf with | uint h => omega)
    | (cases hf with | sint h => omega)
    | exact ⟨.uint (by decide), .uint (by decide), goodIndexU (by decide)⟩
    | (cases hf with
        | arrU h => exact ⟨.uint (by omega), .uint (by omega), goodIndexU h⟩
        | arr h => exact ⟨h, h, okIndex_arr _ _⟩)
    | (cases hf with
        | arrU h => exact ⟨.uint (by omega), .arrU h, goodIndexU h⟩
        | arr h => exact ⟨h, .arr h, okIndex_arr _ _⟩)
    | (cases hf with
        | arrU h => exact ⟨.arrU h, .arrU h, okIndex_arr _ _⟩
        | arr h => exact ⟨.arr h, .arr h, okIndex_arr _ _⟩)

theorem HasTrees.goodKey {k : KeyTy} {h : Halves k} (hk : HasTrees h.hi) (e : k.halves = some h) :
    @GoodKey k.den h.hi.den h.lo.den k.order h.hi.order h.lo.order h.impl.key h.impl.ref := by
  unfold KeyTy.halves at e
  split at e <;> first
    | (cases e; done)
    | skip
  all_goals (cases e; dsimp only at hk ⊢)
  all_goals first
    | (cases hk; done)
    | exact Veb.goodKey

theorem Marker.crate (W : Type) (m : Marker) :
    (∀ k v T, m.treeOf W k v = some T → m.noArray = true ∨ FitsArrays k → T.Crate) ∧
    (∀ hi lo v C, m.collOf W hi lo v = some C → m.noArray = true ∨ FitsArrays lo ∧ hi.OkIndex → C.tree.Crate ∧
      @CrateColl C.Ty hi.den C.tree.Ty lo.den (v.den W) hi.order C.tree.inst C.inst) ∧
    (∀ k v T, m.arrayOf W k v = some T → m.noArray = true ∨ FitsArrays k → T.Crate) := by
  induction m with
  | byteSet =>
    refine ⟨fun k v T h _ => ?_, fun hi lo v C h _ => ?_, fun k v T h _ => ?_⟩ <;> first | (cases h; done) | skip
    exact (byteSetOf_some h).2.2
  | byteTree =>
    refine ⟨fun k v T h _ => ?_, fun hi lo v C h _ => ?_, fun k v T h _ => ?_⟩ <;> first | (cases h; done) | skip
    exact (byteTreeOf_some h).2
  | box m ih =>
    refine ⟨fun k v T h c => ?_, fun hi lo v C h c => ?_, fun k v T h c => ?_⟩
    · obtain ⟨U, hU, h⟩ := Option.bind_eq_some_iff.1 h
      cases h
      obtain ⟨safe, hc⟩ := ih.1 _ _ _ hU c
      exact ⟨safe, @CrateTree.box _ _ _ _ U.inst _ hc⟩
    · cases h
    · exact ih.1 _ _ _ h c
  | generic m ih =>
    refine ⟨fun k v T h c => ?_, fun hi lo v C h c => ?_, fun k v T h c => ?_⟩
    · cases h
    · cases h
    · exact ih.1 _ _ _ h c
  | tree s c ihs ihc =>
    refine ⟨fun k v T h hc => ?_, fun hi lo v C h c => ?_, fun k v T h c => ?_⟩
    · obtain ⟨hv, e, h⟩ := Option.bind_eq_some_iff.1 h
      obtain ⟨S, hS, h⟩ := Option.bind_eq_some_iff.1 h
      obtain ⟨C, hC, h⟩ := Option.bind_eq_some_iff.1 h
      cases h
      have hh := (s.hasTrees W).1 _ _ _ hS
      have h1 : s.noArray = true ∨ FitsArrays hv.hi := by
        rcases hc with hc | hc
        · exact .inl (Bool.and_eq_true_iff.1 hc).1
        · exact .inr (hc.of_halves e hh).1
      have h2 : c.noArray = true ∨ FitsArrays hv.lo ∧ hv.hi.OkIndex := by
        rcases hc with hc | hc
        · exact .inl (Bool.and_eq_true_iff.1 hc).2
        · exact .inr (hc.of_halves e hh).2
      obtain ⟨safeS, hs⟩ := ihs.1 _ _ _ hS h1
      obtain ⟨⟨safeT, ht⟩, hc⟩ := ihc.2.1 _ _ _ _ hC h2
      letI := hv.impl.key
      letI := hv.impl.ref
      letI := S.inst
      letI := C.tree.inst
      letI := C.inst
      exact ⟨_, CrateTree.tree (hh.goodKey e) hs ht hc⟩
    · cases h
    · cases h
  | array a ih =>
    refine ⟨fun k v T h c => ?_, fun hi lo v C h c => ?_, fun k v T h c => ?_⟩
    · cases h
    · obtain ⟨sz, e, h⟩ := Option.bind_eq_some_iff.1 h
      obtain ⟨T, hT, h⟩ := Option.bind_eq_some_iff.1 h
      rcases c with c | ⟨c1, c2⟩
      · cases c
      split at h
      · rename_i e; subst e
        cases h
        letI := sz
        letI := T.inst
        exact ⟨ih.2.2 _ _ _ hT (.inr c1), .array (c2 sz ‹_›)⟩
      · cases h
    · cases h
  | hash m ih =>
    refine ⟨fun k v T h c => ?_, fun hi lo v C h c => ?_, fun k v T h c => ?_⟩
    · cases h
    · obtain ⟨T, hT, h⟩ := Option.bind_eq_some_iff.1 h
      cases h
      letI := T.inst
      exact ⟨ih.1 _ _ _ hT (c.imp id fun c => c.1), .hash⟩
    · cases h
  | bytes m ih =>
    refine ⟨fun k v T h c => ?_, fun hi lo v C h c => ?_, fun k v T h c => ?_⟩
    · cases h
    · obtain ⟨T, hT, h⟩ := Option.bind_eq_some_iff.1 h
      have hT := ih.1 _ _ _ hT (c.imp id fun c => c.1)
      unfold bytesOf at h
      split at h
      · cases h
        letI := T.inst
        exact ⟨hT, .byte⟩
      · cases h
    · cases h

/-! ## A marker for every key with trees -/

theorem Marker.makes_hash {s c : Marker} {k : KeyTy} {h : Halves k} {v : ValTy} (e : k.halves = some h)
    (hs : s.Makes h.hi .unit) (hc : c.Makes h.lo v) : (Marker.tree s (.hash c)).Makes k v := by
  intro W
  obtain ⟨S, hS⟩ := hs W
  obtain ⟨T, hT⟩ := hc W
  refine ⟨_, Option.bind_eq_some_iff.2 ⟨h, e, Option.bind_eq_some_iff.2 ⟨S, hS, Option.bind_eq_some_iff.2 ⟨_,
    Option.bind_eq_some_iff.2 ⟨T, hT, rfl⟩, rfl⟩⟩⟩⟩

theorem HasTrees.marker {k : KeyTy} (h : HasTrees k) : ∃ m : Marker, m.noArray = true ∧ ∀ v, m.Makes k v := by
  have node : ∀ {k : KeyTy} {h : Halves k}, k.halves = some h → (∃ m : Marker, m.noArray = true ∧ ∀ v, m.Makes h.hi v) →
      (∃ m : Marker, m.noArray = true ∧ ∀ v, m.Makes h.lo v) → ∃ m : Marker, m.noArray = true ∧ ∀ v, m.Makes k v := by
    rintro k h e ⟨m, hm, hM⟩ ⟨m', hm', hM'⟩
    exact ⟨.tree m (.hash m'), by simp [Marker.noArray, hm, hm'], fun v => Marker.makes_hash e (hM .unit) (hM' v)⟩
  have h8 : ∃ m : Marker, m.noArray = true ∧ ∀ v, m.Makes (.uint 8) v := ⟨.byteTree, rfl, fun v W => ⟨_, rfl⟩⟩
  have h16 := node (k := .uint 16) rfl h8 h8
  have h32 := node (k := .uint 32) rfl h16 h16
  have h64 := node (k := .uint 64) rfl h32 h32
  induction h with
  | uint h =>
    simp only [List.mem_cons, List.not_mem_nil, or_false] at h
    rcases h with rfl | rfl | rfl | rfl | rfl
    · exact h8
    · exact h16
    · exact h32
    · exact h64
    · exact node (k := .uint 128) rfl h64 h64
  | sint h =>
    simp only [List.mem_cons, List.not_mem_nil, or_false] at h
    rcases h with rfl | rfl | rfl | rfl
    · exact node (k := .sint 16) rfl h8 h8
    · exact node (k := .sint 32) rfl h16 h16
    · exact node (k := .sint 64) rfl h32 h32
    · exact node (k := .sint 128) rfl h64 h64
  | @arr t n _ hn ih =>
    have a2 := node (k := .arr t 2) rfl ih ih
    have a3 := node (k := .arr t 3) rfl ih a2
    have a4 := node (k := .arr t 4) rfl a2 a2
    have a8 := node (k := .arr t 8) rfl a4 a4
    simp only [keyLengths, List.mem_cons, List.not_mem_nil, or_false] at hn
    rcases hn with rfl | rfl | rfl | rfl | rfl | rfl | rfl | rfl
    · exact a2
    · exact a3
    · exact a4
    · exact node (k := .arr t 5) rfl a2 a3
    · exact node (k := .arr t 6) rfl a3 a3
    · exact node (k := .arr t 7) rfl a3 a4
    · exact a8
    · exact node (k := .arr t 16) rfl a8 a8

end Veb
