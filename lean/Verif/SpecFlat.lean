import Verif.SpecSame

/-!
# A machine for what `Tree` computes

`Flat` has a minimum, a maximum, and one sorted list of "inner" entries in place of the summary and the children.  It
describes what the methods of `Tree` do, right or wrong: when the minimum, the maximum and the inner entries are in
order, they are an ordered map; after an insertion below the minimum has spoiled the order (src/tree.rs:524-533) the
machine still says exactly what happens.  There are no splits of keys, no summaries, no collections, and no panics.

The methods are ordinary functions on lists; `Verif.Props.Flat` compares them with the model of `Tree`.
-/

set_option autoImplicit false

namespace Veb

/-- A minimum; with a second entry also a maximum and the list of the other entries, by ascending keys. -/
structure Flat (K V : Type) where
  min : K × V
  rest : Option ((K × V) × SL K V)
  deriving DecidableEq, Repr

/-- Where an entry is. -/
inductive Place
  | min
  | max
  | inner
  deriving DecidableEq, Repr

namespace Flat
variable {K V : Type} [LinearOrder K]

/-- an entry of the inner list, found by `q` -/
def inner (q : Option (K × V)) : Option (Place × K × V) := q.map fun e => (.inner, e)

/-- the greatest entry, as the tree sees it -/
def top (f : Flat K V) : Place × K × V :=
  match f.rest with
  | none => (.min, f.min)
  | some (mx, _) => (.max, mx)

/-- look up `k`: first the minimum and the maximum, then the inner entries -/
def lookup (f : Flat K V) (k : K) : Option (Place × K × V) :=
  if k < f.min.1 then none
  else if k = f.min.1 then some (.min, f.min)
  else
    match f.rest with
    | none => none
    | some (mx, l) => if k = mx.1 then some (.max, mx) else inner (SL.find l k)

/-- the entry before `k` -/
def before (f : Flat K V) (k : K) : Option (Place × K × V) :=
  if k ≤ f.min.1 then none
  else
    match f.rest with
    | none => some (.min, f.min)
    | some (mx, l) =>
      if mx.1 < k then some (.max, mx)
      else some ((inner (if k = mx.1 then SL.maxE l else SL.pred l k)).getD (.min, f.min))

/-- the entry after `k` -/
def after (f : Flat K V) (k : K) : Option (Place × K × V) :=
  if k < f.min.1 then some (.min, f.min)
  else
    match f.rest with
    | none => none
    | some (mx, l) =>
      if mx.1 ≤ k then none
      else some ((inner (if k = f.min.1 then SL.minE l else SL.succ l k)).getD (.max, mx))

/-- write `w` to the entry at `p` with the key `k` -/
def put (f : Flat K V) (p : Place) (k : K) (w : V) : Flat K V :=
  match p with
  | .min => { f with min := (f.min.1, w) }
  | .max => { f with rest := f.rest.map fun r => ((r.1.1, w), r.2) }
  | .inner => { f with rest := f.rest.map fun r => (r.1, SL.set r.2 k w) }

/-- an entry and what writing to it does -/
def write (f : Flat K V) (e : Place × K × V) : K × V × (V → Flat K V) := (e.2.1, e.2.2, put f e.1 e.2.1)

/-- store an entry among the inner ones -/
def store (mn mx : K × V) (l : SL K V) (e : K × V) : Flat K V × Option (K × V) :=
  (⟨mn, some (mx, SL.insert l e.1 e.2)⟩, SL.find l e.1)

/-- Insertion.  Below the minimum the new entry becomes the minimum; what happens to the old one is the defect: it
*becomes the maximum*, and the maximum is put among the inner entries. -/
def insert (f : Flat K V) (k : K) (v : V) : Flat K V × Option (K × V) :=
  if k = f.min.1 then ({ f with min := (k, v) }, some f.min)
  else
    match f.rest with
    | none => if k < f.min.1 then (⟨(k, v), some (f.min, [])⟩, none) else (⟨f.min, some ((k, v), [])⟩, none)
    | some (mx, l) =>
      if k < f.min.1 then
        if mx.1 = f.min.1 then (⟨(k, v), some (f.min, l)⟩, some mx)
        else if f.min.1 < mx.1 then store (k, v) f.min l mx
        else store (k, v) mx l f.min
      else if k = mx.1 then (⟨f.min, some ((k, v), l)⟩, some mx)
      else if mx.1 < k then store f.min (k, v) l mx
      else store f.min mx l (k, v)

/-- what is left without the minimum -/
def popMin (f : Flat K V) : Option (Flat K V) :=
  match f.rest with
  | none => none
  | some (mx, l) =>
    match SL.minE l with
    | none => some ⟨mx, none⟩
    | some e => some ⟨e, some (mx, SL.erase l e.1)⟩

/-- what is left without the maximum -/
def popMax (f : Flat K V) : Option (Flat K V) :=
  match f.rest with
  | none => none
  | some (_, l) =>
    match SL.maxE l with
    | none => some ⟨f.min, none⟩
    | some e => some ⟨f.min, some (e, SL.erase l e.1)⟩

/-- removal of `k` -/
def remove (f : Flat K V) (k : K) : Result (Option (Flat K V) × (K × V)) (Flat K V) :=
  if k = f.min.1 then .Ok (f.popMin, f.min)
  else
    match f.rest with
    | none => .Err f
    | some (mx, l) =>
      if k = mx.1 then .Ok (f.popMax, mx)
      else
        match SL.find l k with
        | none => .Err f
        | some e => .Ok (some ⟨f.min, some (mx, SL.erase l k)⟩, e)

/-- The machine as a tree type. -/
instance : VebTree (Flat K V) K V where
  fromMonad k v := ⟨(k, v), none⟩
  isMonad f := pure f.rest.isNone
  lenHint := defaultLenHint fun f => pure f.rest.isNone
  intoMonad f := pure (if f.rest.isNone then .Ok f.min else .Err f)
  minVal f := pure f.min
  minValMut f := pure (f.write (.min, f.min))
  maxVal f := pure f.top.2
  maxValMut f := pure (f.write f.top)
  find f k := pure ((f.lookup k).map Prod.snd)
  findMut f k := pure ((f.lookup k).map f.write)
  predecessor f k := pure ((f.before k).map Prod.snd)
  predecessorMut f k := pure ((f.before k).map f.write)
  successor f k := pure ((f.after k).map Prod.snd)
  successorMut f k := pure ((f.after k).map f.write)
  insert f k v := pure (f.insert k v)
  remove f k := pure (f.remove k)
  removeMin f := pure (f.popMin, f.min)
  removeMax f := pure (f.popMax, f.top.2)

end Flat
end Veb

namespace Veb.Flat
variable {K V : Type}

/-- The entries of the machine: the minimum, the inner entries by ascending keys, the maximum. -/
def line (f : Flat K V) : List (K × V) :=
  f.min :: match f.rest with
    | none => []
    | some (mx, l) => l ++ [mx]

/-- The inner entries. -/
def inside (f : Flat K V) : SL K V :=
  match f.rest with
  | none => []
  | some (_, l) => l

end Veb.Flat
