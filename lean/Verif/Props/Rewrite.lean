import Verif.Proof.Rewrite
import Verif.Props.Values

/-!
# C49: what writing through a reference does, also where the tree's answers are wrong

C26 asks that a written value is found again under its key. On trees spoiled by the defect of `insert` that fails
(`C26_refuted`), because the same key is stored twice. What is left there, and holds for every tree whatsoever:
the `_mut` accessors answer like the shared ones, a value written is returned by the same accessor, writing back what was
there changes nothing, and no key is affected by any write.
-/

set_option autoImplicit false

namespace Veb.Props

variable {T K V : Type} [LinearOrder K] [VebTree T K V] {safe : (K → Prop) → K → Prop}

/-- the tree left by 10, 20, 5 and 20 again: spoiled, 20 is stored twice -/
private def spoilt : List (Op (U 16) Nat) :=
  [.insert (k16 10) 1, .insert (k16 20) 2, .insert (k16 5) 3, .insert (k16 20) 4]

private theorem spoilt_reaches : ∃ t : Map16 (U 16) Nat, Reaches spoilt t := ⟨_, _, rfl⟩

private theorem map16_covered (ops : List (Op (U 16) Nat)) : Covered (Map16 (U 16) Nat) ops :=
  .uncounted (.tree goodKey .byteSet .byteMap (.array goodIndex))

/-- on the spoiled tree `predecessor_mut(20)` answers, with the stale entry of 20 itself -/
private theorem spoilt_pred {t : Map16 (U 16) Nat} (h : Reaches spoilt t) :
    ∃ put, (Accessor.predecessor (k16 20)).getMut t = .ok (some (k16 20, 2, put)) := by
  obtain ⟨os, h⟩ := h
  cases h
  exact ⟨_, rfl⟩

/-! ## Any tree value, reachable or not -/

/-- **C49, agreement.** On every tree value, each `_mut` accessor returns the key and the value which the shared accessor
returns, or both panic. -/
theorem C49_agree (h : CrateTree T K V safe) (t : T) (a : Accessor K) :
    Agree (fun x y => y = x.map fun e => (e.1, e.2.1)) (a.getMut t) (a.get t) := (h.rw.agree t a).agree

example {t : Map16 (U 16) Nat} (h : Reaches spoilt t) :
    (Accessor.predecessor (k16 20)).get t = .ok (some (k16 20, 2)) := by
  obtain ⟨put, e⟩ := spoilt_pred h
  rcases C49_agree (crate16 Nat).1.2 t (.predecessor (k16 20)) with ⟨x, y, h1, h2, rfl⟩ | ⟨_, _, h1, _⟩ <;>
    rw [e] at h1 <;> cases h1
  exact h2

/-- **C49, a written value is there.** On every tree value: after writing `w` through the reference an accessor returned,
the same accessor, shared or `_mut`, returns the same key with `w`; and writes through the second reference go to the same
place as writes through the first. -/
theorem C49_write (h : CrateTree T K V safe) (t : T) (a : Accessor K) {k : K} {v : V} {put : V → T}
    (e : a.getMut t = .ok (some (k, v, put))) (w : V) :
    a.getMut (put w) = .ok (some (k, w, put)) ∧ a.get (put w) = .ok (some (k, w)) := by
  have h1 : a.getMut (put w) = .ok (some (k, w, put)) := h.rw.again a t _ e w
  refine ⟨h1, ?_⟩
  rcases C49_agree h (put w) a with ⟨x, y, h2, h3, rfl⟩ | ⟨_, _, h2, _⟩ <;> rw [h1] at h2 <;> cases h2
  exact h3

/-- On the very tree on which `find(20)` does not see a value written through `predecessor_mut(20)` (`C26_refuted`),
`predecessor(20)` sees it. -/
example {t : Map16 (U 16) Nat} (h : Reaches spoilt t) : ∃ t' : Map16 (U 16) Nat,
    (Accessor.predecessor (k16 20)).get t' = .ok (some (k16 20, 7)) := by
  obtain ⟨put, e⟩ := spoilt_pred h
  exact ⟨put 7, (C49_write (crate16 Nat).1.2 t _ e 7).2⟩

/-- **C49, the last write counts.** -/
theorem C49_write_twice (h : CrateTree T K V safe) (t : T) (a : Accessor K) {k : K} {v : V} {put : V → T}
    (e : a.getMut t = .ok (some (k, v, put))) (w w' : V) :
    ∃ put', a.getMut (put w) = .ok (some (k, w, put')) ∧ put' w' = put w' :=
  ⟨put, (C49_write h t a e w).1, rfl⟩

example {t : Map16 (U 16) Nat} (h : Reaches spoilt t) : ∃ put put' : Nat → Map16 (U 16) Nat,
    (Accessor.predecessor (k16 20)).getMut (put 7) = .ok (some (k16 20, 7, put')) ∧ put' 8 = put 8 := by
  obtain ⟨put, e⟩ := spoilt_pred h
  exact ⟨put, C49_write_twice (crate16 Nat).1.2 t _ e 7 8⟩

/-! ## Any tree reached by any history -/

/-- **C49, writing back what was there changes nothing**: the tree is the very same value afterwards. Every history,
unsafe insertions included. -/
theorem C49_write_back {ops : List (Op K V)} (hc : Covered T ops) {t : T} (hr : Reaches ops t) (a : Accessor K) {k : K}
    {v : V} {put : V → T} (e : a.getMut t = .ok (some (k, v, put))) : put v = t := by
  obtain ⟨P, hl, hP⟩ := hc.noop
  exact hP.any (phys_reaches hl hr).1 e

example {t : Map16 (U 16) Nat} (h : Reaches spoilt t) : ∃ put : Nat → Map16 (U 16) Nat, put 2 = t := by
  obtain ⟨put, e⟩ := spoilt_pred h
  exact ⟨put, C49_write_back (map16_covered _) h _ e⟩

/-- a tree and the same tree after a write are related to one common tree without values -/
theorem common_keys {ops : List (Op K V)} (hc : Covered T ops) {t : T} (hr : Reaches ops t) {a : Accessor K} {k : K}
    {v : V} {put : V → T} (e : a.getMut t = .ok (some (k, v, put))) (w : V) :
    ∃ (T' : Type) (_ : VebTree T' K Unit) (Q : T → T' → Prop) (t' : T'), SameTree id (fun _ => ()) Q ∧ Q t t' ∧ Q (put w) t' := by
  obtain ⟨T', _, hc', hs⟩ := hc.values fun _ => ()
  obtain ⟨Q, hQ⟩ := hs.same
  obtain ⟨os, hr⟩ := hr
  have h1 := hQ.run ops (t := none) (t' := none) .none
  rw [hr] at h1
  generalize e1 : Exec.run (none : Option T') _ = r at h1
  cases h1 with
  | ok h1 =>
    rename_i b
    obtain ⟨o, os'⟩ := b
    obtain ⟨h1, -⟩ := h1
    cases h1 with
    | some h1 =>
      rename_i t'
      have h2 := hQ.getMut h1 a
      rw [e] at h2
      generalize e2 : a.getMut t' = r' at h2
      cases h2 with
      | ok h2 =>
        cases h2 with
        | some h2 =>
          rename_i b
          obtain ⟨-, -, h2⟩ := h2
          refine ⟨T', _, Q, t', hQ, h1, ?_⟩
          have h3 : b.2.2 b.2.1 = t' := C49_write_back hc' ⟨_, e1⟩ a e2
          exact h3 ▸ h2 w

/-- **C49, keys are not affected by writes.** After any history, whatever is written through a reference returned by any
accessor: on every further history the outputs have the same keys as without the write, or both panic. -/
theorem C49_keys_unaffected {ops : List (Op K V)} (hc : Covered T ops) {t : T} (hr : Reaches ops t) (a : Accessor K) {k : K}
    {v : V} {put : V → T} (e : a.getMut t = .ok (some (k, v, put))) (w : V) (more : List (Op K V)) :
    Agree (fun os os' => os.map Out.keys = os'.map Out.keys) (outputsFrom t more) (outputsFrom (put w) more) := by
  obtain ⟨T', _, Q, t', hQ, h1, h2⟩ := common_keys hc hr e w
  have := hQ.run more (.some h1)
  have h2 := hQ.run more (.some h2)
  unfold outputsFrom
  generalize Exec.run (some t) more = x at *
  generalize Exec.run (some (put w)) more = y at *
  generalize Exec.run (some t') (more.map _) = z at *
  cases this with
  | ok h1 =>
    cases h2 with
    | ok h2 => exact .inl ⟨_, _, rfl, rfl, h1.2.symm.trans h2.2⟩
  | err p q =>
    cases h2 with
    | err r s => exact .inr ⟨_, _, rfl, rfl⟩

example {t : Map16 (U 16) Nat} (h : Reaches spoilt t) : ∃ put : Nat → Map16 (U 16) Nat,
    (Accessor.predecessor (k16 20)).getMut t = .ok (some (k16 20, 2, put)) ∧
    Agree (fun os os' => os.map Out.keys = os'.map Out.keys) (outputsFrom t (List.replicate 4 .removeMin))
      (outputsFrom (put 7) (List.replicate 4 .removeMin)) := by
  obtain ⟨put, e⟩ := spoilt_pred h
  exact ⟨put, e, C49_keys_unaffected (map16_covered _) h _ e 7 _⟩

/-- **C49, nor are the keys an iterator returns.** -/
theorem C49_iter_keys_unaffected {ops : List (Op K V)} (hc : Covered T ops) {t : T} (hr : Reaches ops t) (a : Accessor K)
    {k : K} {v : V} {put : V → T} (e : a.getMut t = .ok (some (k, v, put))) (w : V) (ss : List Side) :
    Agree (fun x y => x.2.map (Option.map Prod.fst) = y.2.map (Option.map Prod.fst)) ((Iter.new (K := K) t).calls ss)
      ((Iter.new (K := K) (put w)).calls ss) := by
  obtain ⟨T', _, Q, t', hQ, h1, h2⟩ := common_keys hc hr e w
  have h1 := hQ.calls Function.injective_id ss (a := Iter.new t) (b := Iter.new t') ⟨h1, rfl, rfl⟩
  have h2 := hQ.calls Function.injective_id ss (a := Iter.new (put w)) (b := Iter.new t') ⟨h2, rfl, rfl⟩
  have key : ∀ a b : List (Option (K × V)), a.map (Option.map (kvf id fun _ => ())) = b.map (Option.map (kvf id fun _ => ())) →
      a.map (Option.map Prod.fst) = b.map (Option.map Prod.fst) := fun a b hab => by
    have := congrArg (List.map (Option.map Prod.fst)) hab
    simpa only [List.map_map, Function.comp_def, Option.map_map, kvf, id] using this
  generalize (Iter.new t).calls ss = x at *
  generalize (Iter.new (put w)).calls ss = y at *
  generalize (Iter.new t').calls ss = z at *
  cases h1 with
  | ok h1 =>
    cases h2 with
    | ok h2 => exact .inl ⟨_, _, rfl, rfl, key _ _ (h1.2.symm.trans h2.2)⟩
  | err p q =>
    cases h2 with
    | err r s => exact .inr ⟨_, _, rfl, rfl⟩

example {t : Map16 (U 16) Nat} (h : Reaches spoilt t) : ∃ put : Nat → Map16 (U 16) Nat,
    Agree (fun x y => x.2.map (Option.map Prod.fst) = y.2.map (Option.map Prod.fst))
      ((Iter.new (K := U 16) t).calls [.front, .front, .back]) ((Iter.new (K := U 16) (put 7)).calls [.front, .front, .back]) := by
  obtain ⟨put, e⟩ := spoilt_pred h
  exact ⟨put, C49_iter_keys_unaffected (map16_covered _) h _ e 7 _⟩

/-- **C49, failing operations.** After any history, a `remove` or `into_monad` that fails hands back the very same tree. -/
theorem C49_failing {ops : List (Op K V)} (hc : Covered T ops) {t : T} (hr : Reaches ops t) (t' : T) :
    (∀ k, VebTree.remove t k = .ok (.Err t') → t' = t) ∧ (VebTree.intoMonad t = .ok (.Err t') → t' = t) := by
  obtain ⟨P, hl, -⟩ := hc.noop
  have hW := (phys_reaches hl hr).1
  constructor
  · intro k h
    rcases P.removeE t k hW with ⟨h1, -⟩ | ⟨o, v, h1, -⟩ <;> rw [h] at h1 <;> cases h1
    rfl
  · intro h
    rcases P.intoMonadE t hW with ⟨k, v, h1, -⟩ | ⟨h1, -⟩ <;> rw [h] at h1 <;> cases h1
    rfl

example {t : Map16 (U 16) Nat} (h : Reaches spoilt t) : VebTree.remove t (k16 11) = .ok (.Err t) := by
  obtain ⟨t', e⟩ : ∃ t', VebTree.remove t (k16 11) = .ok (.Err t') := by
    obtain ⟨os, h⟩ := h
    cases h
    exact ⟨_, rfl⟩
  rw [e, (C49_failing (map16_covered _) h t').1 _ e]

end Veb.Props
