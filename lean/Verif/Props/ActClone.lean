import Verif.Proof.ActClone
import Verif.Props.Clone

/-!
# C83: clones when `Clone` of keys and values is code with side effects

`Clone` of keys answers the key if it returns; nothing is asked of `Clone` of values.  No restriction to safe histories, nor
to trees that a history can leave.
-/

set_option autoImplicit false

namespace Veb.Props

variable {σ T K V W : Type} [LinearOrder K] [VebTree T K V] [ActClone σ T] [ActClone σ V] {P : σ → σ → Prop} {E : Panic → Prop}
  {held : T → Multiset V}

/-- **C83.** Let the clone of a value, seen through `f`, always be the value, seen through `g`.  If cloning a tree returns,
then calls on the tree, seen through `g`, and the same calls on the clone, seen through `f`, get the same answers, or both
panic. -/
theorem C83_clone (h : ActCloneable σ P E T K V held) {f g : V → W}
    (hv : ∀ (v : V) (s : σ) (v' : V) (s' : σ), ActClone.clone v s = .ok (v', s') → f v' = g v)
    {t t' : T} {s s' : σ} (he : ActClone.clone t s = .ok (t', s')) {ops ops' : List (Op K V)}
    (ho : ops'.map (Op.rename id f) = ops.map (Op.rename id g)) :
    Agree (fun r r' => r'.2.map (Out.rename id f) = r.2.map (Out.rename id g)) (Exec.run (some t) ops) (Exec.run (some t') ops') := by
  obtain ⟨W', q, f', g', hq, rfl, rfl, h1, T', i, SF, SG, h2, h3, h4⟩ := ActClone.twin h s hv
  obtain ⟨u, h5, h6⟩ := h4 _ _ _ _ he
  have ho' : ops'.map (Op.rename id f') = ops.map (Op.rename id g') := by
    have e : ∀ (r : V → W') (l : List (Op K V)), l.map (Op.rename id (q ∘ r)) = (l.map (Op.rename id r)).map (Op.rename (id : K → K) q) := by
      intro r l
      rw [List.map_map]
      exact List.map_congr_left fun o _ => by cases o <;> rfl
    rw [e, e] at ho
    refine List.map_injective_iff.2 ?_ ho
    intro a b hab
    cases a <;> cases b <;> simp only [Op.rename, reduceCtorEq] at hab ⊢ <;> injection hab <;> simp_all [hq.eq_iff]
  have r1 := h3.run ops (t := some t) (t' := some u) (.some h5)
  have r2 := h2.run ops' (t := some t') (t' := some u) (.some h6)
  rw [ho'] at r2
  generalize Exec.run (some t) ops = x at r1 ⊢
  generalize Exec.run (some t') ops' = y at r2 ⊢
  generalize Exec.run (some u) _ = z at r1 r2
  have e : ∀ (r : V → W') (l : List (Out K V)), l.map (Out.rename id (q ∘ r)) = (l.map (Out.rename id r)).map (Out.rename (id : K → K) q) := by
    intro r l
    rw [List.map_map]
    refine List.map_congr_left fun o _ => ?_
    rcases o with (_ | _) | _ <;> rfl
  cases r1 with
  | err p p' => cases r2 with | err => exact .inr ⟨_, _, rfl, rfl⟩
  | @ok x z hx =>
    cases r2 with
    | @ok y _ hy =>
      refine .inl ⟨x, y, rfl, rfl, ?_⟩
      dsimp only
      rw [e, e, ← hx.2, ← hy.2]

/-- **C83, iterators.** Likewise the items of iterators over both. -/
theorem C83_iter (h : ActCloneable σ P E T K V held) {f g : V → W}
    (hv : ∀ (v : V) (s : σ) (v' : V) (s' : σ), ActClone.clone v s = .ok (v', s') → f v' = g v)
    {t t' : T} {s s' : σ} (he : ActClone.clone t s = .ok (t', s')) (ss : List Side) :
    Agree (fun r r' => r'.2.map (Option.map fun e => (e.1, f e.2)) = r.2.map (Option.map fun e => (e.1, g e.2)))
      ((Iter.new (K := K) t).calls ss) ((Iter.new (K := K) t').calls ss) := by
  obtain ⟨W', q, f', g', hq, rfl, rfl, h1, T', i, SF, SG, h2, h3, h4⟩ := ActClone.twin h s hv
  obtain ⟨u, h5, h6⟩ := h4 _ _ _ _ he
  have r1 := h3.calls (fun _ _ e => e) ss (a := Iter.new t) (b := Iter.new u) ⟨h5, rfl, rfl⟩
  have r2 := h2.calls (fun _ _ e => e) ss (a := Iter.new t') (b := Iter.new u) ⟨h6, rfl, rfl⟩
  generalize (Iter.new t).calls ss = x at r1 ⊢
  generalize (Iter.new t').calls ss = y at r2 ⊢
  generalize (Iter.new u).calls ss = z at r1 r2
  have e : ∀ (r : V → W') (l : List (Option (K × V))), l.map (Option.map fun e => (e.1, (q ∘ r) e.2)) =
      (l.map (Option.map (kvf id r))).map (Option.map fun e : K × W' => (e.1, q e.2)) := by
    intro r l
    rw [List.map_map]
    refine List.map_congr_left fun o _ => ?_
    rcases o with _ | _ <;> rfl
  cases r1 with
  | err p p' => cases r2 with | err => exact .inr ⟨_, _, rfl, rfl⟩
  | @ok x z hx =>
    cases r2 with
    | @ok y _ hy =>
      refine .inl ⟨x, y, rfl, rfl, ?_⟩
      dsimp only
      rw [e, e, ← hx.2, ← hy.2]

/-- **C83, arbitrary clones.** Whatever clones of values are, the clone of a tree answers the keys that the tree answers: calls
that differ in the values only get answers that differ in the values only, or both panic. -/
theorem C83_keys (h : ActCloneable σ P E T K V held) {t t' : T} {s s' : σ} (he : ActClone.clone t s = .ok (t', s'))
    {ops ops' : List (Op K V)} (ho : ops'.map (Op.rename id fun _ => ()) = ops.map (Op.rename id fun _ => ())) :
    Agree (fun r r' => r'.2.map (Out.rename id fun _ => ()) = r.2.map (Out.rename id fun _ => ())) (Exec.run (some t) ops)
      (Exec.run (some t') ops') :=
  C83_clone h (fun _ _ _ _ _ => rfl) he ho

/-- **C83, the contract is passed on.** If clones of values are the values, the clone of a tree is the tree. -/
theorem C83_clone_eq (h : ActCloneable σ P E T K V held)
    (hv : ∀ (v : V) (s : σ) (v' : V) (s' : σ), ActClone.clone v s = .ok (v', s') → v' = v)
    {t t' : T} {s s' : σ} (he : ActClone.clone t s = .ok (t', s')) : t' = t :=
  ActClone.tree_eq h hv _ _ _ _ he

/-- **C83, each value once.** Let `calls` be what the state knows of clones of values: each call of `Clone` of a value `v`
adds `v` to it, and clones of keys leave it.  Cloning a tree adds exactly the values in the tree. -/
theorem C83_once (h : ActCloneable σ P E T K V held) {calls : σ → Multiset V} (hk : ∀ s s', P s s' → calls s' = calls s)
    (hv : ∀ (v : V) (s : σ) (v' : V) (s' : σ), ActClone.clone v s = .ok (v', s') → calls s' = {v} + calls s)
    {t t' : T} {s s' : σ} (he : ActClone.clone t s = .ok (t', s')) : calls s' = held t + calls s := by
  have := ActClone.led (b := true) h hk (w := fun v => ({v} : Multiset V)) hv _ _ _ _ he
  dsimp only [cond] at this
  rwa [Multiset.sum_map_singleton] at this

/-- **C83, no other values.** The values in the clone are exactly what these calls answered. -/
theorem C83_made (h : ActCloneable σ P E T K V held) {made : σ → Multiset V} (hk : ∀ s s', P s s' → made s' = made s)
    (hv : ∀ (v : V) (s : σ) (v' : V) (s' : σ), ActClone.clone v s = .ok (v', s') → made s' = {v'} + made s)
    {t t' : T} {s s' : σ} (he : ActClone.clone t s = .ok (t', s')) : made s' = held t' + made s := by
  have := ActClone.led (b := false) h hk (w := fun v => ({v} : Multiset V)) hv _ _ _ _ he
  dsimp only [cond] at this
  rwa [Multiset.sum_map_singleton] at this

/-- **C83, panics.** Cloning a tree panics only if the user's `Clone` does, and then with its panic. -/
theorem C83_panics (h : ActCloneable σ P E T K V held) {F : Panic → Prop} (hk : ∀ p, E p → F p)
    (hv : ∀ (v : V) (s : σ) (p : Panic), ActClone.clone v s = .error p → F p) {t : T} {s : σ} {p : Panic}
    (he : ActClone.clone t s = .error p) : F p :=
  ActClone.errs h hk hv _ _ _ he

/-! ### Examples -/

/-- values with a serial number -/
structure Serial where
  content : Nat
  serial : Nat
  deriving DecidableEq
/-- Each clone gets the next number, until there are no more.  The state: the next number, the clones asked for, the clones
made. -/
instance : ActClone (Nat × List Serial × List Serial) Serial := ⟨fun v s =>
  if s.1 < 100 then .ok (⟨v.content, s.1⟩, s.1 + 1, v :: s.2.1, ⟨v.content, s.1⟩ :: s.2.2) else .error (.expect "out of numbers")⟩

theorem copyKeys {w : Nat} : ClonesKeys (Nat × List Serial × List Serial) (fun s s' => s' = s) (fun _ => False) (U w) where
  ok k s k' s' e := by cases e; exact ⟨rfl, rfl⟩
  err k s p e := by cases e

/-- 16-bit keys, a byte set as summary, hashed `BTreeMap`s as children -/
theorem serialMap16 : ActCloneable (Nat × List Serial × List Serial) (fun s s' => s' = s) (fun _ => False) (CloneMap16 Serial) (U 16) Serial
    (treeHeld fun c => (c.entries.map fun e => ((e.2.entries.map Prod.snd : List Serial) : Multiset Serial)).sum) :=
  .tree copyKeys .byteSet (.btreeMap copyKeys) (.hash copyKeys)

/-- the content is passed on, the number is not -/
example {t t' : CloneMap16 Serial} {s s' : Nat × List Serial × List Serial} (he : ActClone.clone t s = .ok (t', s')) (ops : List (Op (U 16) Serial)) :
    Agree (fun r r' => r'.2.map (Out.rename id Serial.content) = r.2.map (Out.rename id Serial.content)) (Exec.run (some t) ops)
      (Exec.run (some t') ops) :=
  C83_clone serialMap16 (fun v s v' s' e => by
    change (if _ then _ else _) = _ at e
    split at e <;> cases e; rfl) he rfl
/-- each value is cloned once -/
example {t t' : CloneMap16 Serial} {s s' : Nat × List Serial × List Serial} (he : ActClone.clone t s = .ok (t', s')) :=
  C83_once serialMap16 (calls := fun s => (s.2.1 : Multiset Serial)) (fun s s' e => by rw [e]) (fun v s v' s' e => by
    change (if _ then _ else _) = _ at e
    split at e <;> cases e; rfl) he
/-- a tree of three entries -/
def serialTree : CloneMap16 Serial :=
  ⟨(U.lit 1, ⟨7, 0⟩), some ⟨(U.lit 700, ⟨9, 1⟩), some (VebTree.fromMonad (U.lit 1) (), ⟨[(U.lit 1, ⟨[(U.lit 44, ⟨8, 2⟩)]⟩)]⟩)⟩⟩
example : (ActClone.clone serialTree ((3, [], []) : Nat × List Serial × List Serial)).map (fun r => (r.2.1, r.2.2.1.reverse)) =
    .ok (6, [⟨7, 0⟩, ⟨9, 1⟩, ⟨8, 2⟩]) := by decide +kernel
example : ((ActClone.clone serialTree ((3, [], []) : Nat × List Serial × List Serial)) >>= fun r => VebTree.find r.1 (U.lit 300)) =
    .ok (some (U.lit 300, ⟨8, 5⟩)) := by decide +kernel
example : (ActClone.clone serialTree ((98, [], []) : Nat × List Serial × List Serial)).map (fun r => r.2.1) =
    .error (.expect "out of numbers") := by decide +kernel

end Veb.Props
