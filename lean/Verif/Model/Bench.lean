import Verif.Model.Wrappers

/-!
benches/random/main.rs: the trait through which the benchmark drives a tree and a standard `BTreeMap` alike, its two
implementations, and the two makers.

Simplifications: the key type and `Data` are arbitrary (there: `u32` and `()`, or `f32` in a comment), and `DATA` is
`default`; a `&mut Data` is the value with a function that writes through it.  `next(&self)` etc. return owned keys.
criterion's timing and the random numbers are not modelled: a maker takes the coin tosses as an argument, and the
sampled arguments of the calls are the arguments of `run`.
-/

set_option autoImplicit false

namespace Veb.Bench

/-- `trait VEBOperations`, benches/random/main.rs:26-36 -/
class VEBOperations (Self : Type) (K V : outParam Type) where
  len : Self → R Nat
  insert : Self → K → R (Self × Option V)
  remove : Self → K → R (Self × Option V)
  find : Self → K → R (Option V)
  next : Self → K → R (Option (K × V))
  prev : Self → K → R (Option (K × V))
  findMut : Self → K → R (Option (V × (V → Self)))
  nextMut : Self → K → R (Option (K × V × (V → Self)))
  prevMut : Self → K → R (Option (K × V × (V → Self)))

section
variable {T K V : Type} [VebTree T K V]

/-- `self.as_ref().and_then(f)`, with `f` a call on the tree -/
def andThen {A : Type} (s : Option (SizedVebTree T)) (f : SizedVebTree T → R (Option A)) : R (Option A) :=
  match s with
  | none => pure none
  | some v => f v

/-- `impl VEBOperations for Option<U32Tree>`, benches/random/main.rs:38-105 -/
instance [Inhabited V] : VEBOperations (Option (SizedVebTree T)) K V where
  len s := pure (s.elim 0 SizedVebTree.len)
  insert s x := do
    let (v, r) ← match s with
      | some v => VebTree.insert v x default
      | none => pure (VebTree.fromMonad x default, none)
    pure (some v, r.map fun (_, v) => v)
  remove s x := do
    match s with
    | none => pure (none, none)
    | some t =>
      match (← VebTree.remove t x) with
      | .Err t => pure (some t, none)
      | .Ok (t, (_, v)) => pure (t, some v)
  find s x := do pure ((← andThen s (VebTree.find · x)).map fun (_, v) => v)
  next s x := andThen s (VebTree.successor · x)
  prev s x := andThen s (VebTree.predecessor · x)
  findMut s x := do pure ((← andThen s (VebTree.findMut · x)).map fun (_, v, put) => (v, fun w => some (put w)))
  nextMut s x := do pure ((← andThen s (VebTree.successorMut · x)).map (mapPut some))
  prevMut s x := do pure ((← andThen s (VebTree.predecessorMut · x)).map (mapPut some))
end

/-- `struct BTreeSetWrapper`, benches/random/main.rs:106 -/
structure BTreeSetWrapper (K V : Type) where
  map : BTreeMap K V

section
variable {K V : Type} [LinearOrder K]

/-- an entry of the map behind a `&mut` -/
def mutAt (s : BTreeSetWrapper K V) (p : K × V) : K × V × (V → BTreeSetWrapper K V) :=
  mapPut BTreeSetWrapper.mk (s.map.mutAt p)

/-- `impl VEBOperations for BTreeSetWrapper`, benches/random/main.rs:108-151.  The methods of the standard `BTreeMap` are
modelled by what they are documented to do: `range(x..)` are the entries from `x` on, `range(..=x)` those up to `x`. -/
instance [Inhabited V] : VEBOperations (BTreeSetWrapper K V) K V where
  len s := pure s.map.entries.length
  insert s x := pure (⟨⟨BTreeMap.stdInsert x default s.map.entries⟩⟩, (BTreeMap.stdGet s.map.entries x).map Prod.snd)
  remove s x := pure (⟨⟨BTreeMap.stdErase s.map.entries x⟩⟩, (BTreeMap.stdGet s.map.entries x).map Prod.snd)
  find s x := pure ((BTreeMap.stdGet s.map.entries x).map Prod.snd)
  next s x := pure (s.map.entries.filter fun p => decide (x ≤ p.1)).head?
  prev s x := pure (s.map.entries.filter fun p => decide (p.1 ≤ x)).getLast?
  findMut s x := pure ((BTreeMap.stdGet s.map.entries x).map fun p => (mutAt s p).2)
  nextMut s x := pure ((s.map.entries.filter fun p => decide (x ≤ p.1)).head?.map (mutAt s))
  prevMut s x := pure ((s.map.entries.filter fun p => decide (p.1 ≤ x)).getLast?.map (mutAt s))
end

/-- The loop of `veb_maker` and `btree_maker`, benches/random/main.rs:179-197: `key` is the conversion of the loop counter,
`coin x` the toss for `x`; the makers start from `None` and from an empty map. -/
def maker {S K V : Type} [VEBOperations S K V] (key : Nat → K) (coin : Nat → Bool) (bits : Nat) (empty : S) : R S :=
  (List.range (2 ^ bits)).foldlM (init := empty) fun s x => do
    if coin x then
      let (s, _) ← VEBOperations.insert s (key x)
      pure s
    else pure s

end Veb.Bench
