import Verif.Model.Bench
import Verif.Spec

/-!
# Specification of the benchmark's interface

`Call` and `Ret` are the calls of the trait `VEBOperations` and what they return.  Two ordered maps are specified that
differ in `next` and `prev` only: `strict` looks for the nearest *other* key, `incl` stops at the key itself.
-/

set_option autoImplicit false

namespace Veb.Bench
variable {K V : Type}

/-- A call.  Through the reference of a `…_mut` call the caller writes `w`, or nothing. -/
inductive Call (K V : Type) where
  | len
  | insert (x : K)
  | remove (x : K)
  | find (x : K)
  | next (x : K)
  | prev (x : K)
  | findMut (x : K) (w : Option V)
  | nextMut (x : K) (w : Option V)
  | prevMut (x : K) (w : Option V)

/-- What a call returns. -/
inductive Ret (K V : Type) where
  | num (n : Nat)
  | val (v : Option V)
  | entry (e : Option (K × V))
  deriving DecidableEq

/-- A call on an implementation. -/
def step {S : Type} [VEBOperations S K V] (s : S) : Call K V → R (S × Ret K V)
  | .len => do pure (s, .num (← VEBOperations.len s))
  | .insert x => do
    let (s, v) ← VEBOperations.insert s x
    pure (s, .val v)
  | .remove x => do
    let (s, v) ← VEBOperations.remove s x
    pure (s, .val v)
  | .find x => do pure (s, .val (← VEBOperations.find s x))
  | .next x => do pure (s, .entry (← VEBOperations.next s x))
  | .prev x => do pure (s, .entry (← VEBOperations.prev s x))
  | .findMut x w => do
    match (← VEBOperations.findMut s x) with
    | none => pure (s, .val none)
    | some (v, put) => pure (w.elim s put, .val (some v))
  | .nextMut x w => do
    match (← VEBOperations.nextMut s x) with
    | none => pure (s, .entry none)
    | some (k, v, put) => pure (w.elim s put, .entry (some (k, v)))
  | .prevMut x w => do
    match (← VEBOperations.prevMut s x) with
    | none => pure (s, .entry none)
    | some (k, v, put) => pure (w.elim s put, .entry (some (k, v)))

/-- A sequence of calls. -/
def run {S : Type} [VEBOperations S K V] (s : S) : List (Call K V) → R (S × List (Ret K V))
  | [] => pure (s, [])
  | c :: cs => do
    let (s, r) ← step s c
    let (s, rs) ← run s cs
    pure (s, r :: rs)

/-- The number of insertions among the calls. -/
def inserts (cs : List (Call K V)) : Nat := cs.countP fun c => match c with | .insert _ => true | _ => false

variable [LinearOrder K]

/-- The first entry from `x` on. -/
def from_ (l : SL K V) (x : K) : Option (K × V) := (l.filter fun p => decide (x ≤ p.1)).head?
/-- The last entry up to `x`. -/
def upTo (l : SL K V) (x : K) : Option (K × V) := (l.filter fun p => decide (p.1 ≤ x)).getLast?

/-- What is left by writing, or not, to an entry. -/
def wrote (l : SL K V) (e : Option (K × V)) (w : Option V) : SL K V :=
  match w with
  | none => l
  | some w => SL.setAt l e w

/-- A call on the entries `l`; `nx` and `pv` say which entries `next` and `prev` are. -/
def specWith (nx pv : SL K V → K → Option (K × V)) (d : V) (l : SL K V) : Call K V → SL K V × Ret K V
  | .len => (l, .num l.length)
  | .insert x => (SL.insert l x d, .val ((SL.find l x).map Prod.snd))
  | .remove x => (SL.erase l x, .val ((SL.find l x).map Prod.snd))
  | .find x => (l, .val ((SL.find l x).map Prod.snd))
  | .next x => (l, .entry (nx l x))
  | .prev x => (l, .entry (pv l x))
  | .findMut x w => (wrote l (SL.find l x) w, .val ((SL.find l x).map Prod.snd))
  | .nextMut x w => (wrote l (nx l x) w, .entry (nx l x))
  | .prevMut x w => (wrote l (pv l x) w, .entry (pv l x))

/-- `next` and `prev` give another key. -/
def strict (d : V) : SL K V → Call K V → SL K V × Ret K V := specWith SL.succ SL.pred d
/-- `next` and `prev` give the key itself if it is stored. -/
def incl (d : V) : SL K V → Call K V → SL K V × Ret K V := specWith from_ upTo d

/-- A sequence of specified calls. -/
def specRun (sp : SL K V → Call K V → SL K V × Ret K V) (l : SL K V) : List (Call K V) → SL K V × List (Ret K V)
  | [] => (l, [])
  | c :: cs => ((specRun sp (sp l c).1 cs).1, (sp l c).2 :: (specRun sp (sp l c).1 cs).2)

/-- The insertions of a sequence of calls all meet `safe`. -/
def SafeCalls (safe : (K → Prop) → K → Prop) (d : V) (l : SL K V) : List (Call K V) → Prop
  | [] => True
  | c :: cs => (∀ x, c = .insert x → l = [] ∨ safe (SL.keys l) x) ∧ SafeCalls safe d (strict d l c).1 cs

/-- `next` and `prev` are only asked about keys that are not stored. -/
def AsksElsewhere (d : V) (l : SL K V) : List (Call K V) → Prop
  | [] => True
  | c :: cs => (∀ x w, c = .next x ∨ c = .prev x ∨ c = .nextMut x w ∨ c = .prevMut x w → ¬ SL.keys l x) ∧
      AsksElsewhere d (strict d l c).1 cs

/-- What the makers are to make: an entry for every counter whose toss came out heads. -/
def made (key : Nat → K) (coin : Nat → Bool) (bits : Nat) (d : V) : SL K V :=
  ((List.range (2 ^ bits)).filter coin).map fun x => (key x, d)

end Veb.Bench
