import Verif.SpecTree

/-!
# Vocabulary for C89

Which insertions `Tree::insert` handles correctly (`Tree.Safe`), as a program that a user of the crate could run: it
sees the stored keys and the key to insert, and knows of the tree type only how it is put together.
-/

set_option autoImplicit false

namespace Veb
open VebKey (splitVal)

section
variable {K V Hi Lo : Type} [LinearOrder K] [LinearOrder Hi] [LinearOrder Lo] [VebKey K Hi Lo]

/-- the least of some keys -/
def leastOf (l : List K) : Option K := l.find? fun m => l.all fun j => decide (m ≤ j)
/-- the greatest of some keys -/
def greatestOf (l : List K) : Option K := l.find? fun m => l.all fun j => decide (j ≤ m)

/-- Check an insertion of `k` into a `Tree` that stores the keys `l`, given checks for summaries and children. -/
def treeCheck (cS : List Hi → Hi → Bool) (cT : List Lo → Lo → Bool) (l : List K) (k : K) : Bool :=
  match leastOf l, greatestOf l with
  | some mn, some mx =>
    let x := if mx < k then mx else k
    let inner := l.filter fun j => decide (j ≠ mn) && decide (j ≠ mx)
    let child := (inner.filter fun j => decide ((splitVal j).1 = (splitVal x).1)).map fun j => (splitVal j).2
    let sum := inner.map fun j => (splitVal j).1
    decide (mn = mx) ||
      (decide (mn ≤ k) &&
        (decide (k = mn) || decide (k = mx) ||
          ((child.isEmpty || cT child (splitVal x).2) &&
            (decide ((splitVal x).1 ∈ sum) || sum.isEmpty || cS sum (splitVal x).1))))
  | _, _ => true

/-- The same for `SizedVebTree`, which counts its keys. -/
def sizedCheck (c : List K → K → Bool) (l : List K) (k : K) : Bool :=
  c l k && (decide (k ∈ l) || decide (l.dedup.length < usizeMax))

/-- Every insertion of the history passes the check on the keys stored at that moment. -/
def histCheck (c : List K → K → Bool) (l : SL K V) : List (Op K V) → Bool
  | [] => true
  | op :: ops =>
    (match op with
      | .insert k _ => c (l.map Prod.fst) k
      | _ => true) && histCheck c (SL.step l op).1 ops

/-- How a user can avoid the defect: before an insertion that does not pass the check, take everything out in
ascending order, and put it back in ascending order with the new entry. -/
def rebuilding (c : List K → K → Bool) (l : SL K V) : List (Op K V) → List (Op K V)
  | [] => []
  | op :: ops =>
    (match op with
      | .insert k v =>
        if c (l.map Prod.fst) k then [.insert k v]
        else List.replicate l.length .removeMin ++ (SL.insert l k v).map fun e => .insert e.1 e.2
      | op => [op]) ++ rebuilding c (SL.step l op).1 ops

end

/-- The check that goes with a tree type of the crate, by the way the type is put together. -/
inductive CheckFor : (T K V : Type) → [LinearOrder K] → [VebTree T K V] → (List K → K → Bool) → Prop
  | byteSet : CheckFor ByteSet (U 8) Unit fun _ _ => true
  | byteMap {V : Type} : CheckFor (ByteMap V) (U 8) V fun _ _ => true
  | btreeMap {K V : Type} [LinearOrder K] : CheckFor (BTreeMap K V) K V fun _ _ => true
  | box {T K V : Type} [LinearOrder K] [VebTree T K V] {c : List K → K → Bool}
      (h : CheckFor T K V c) : CheckFor (Box T) K V c
  | sized {T K V : Type} [LinearOrder K] [VebTree T K V] {c : List K → K → Bool}
      (h : CheckFor T K V c) : CheckFor (SizedVebTree T) K V (sizedCheck c)
  | tree {K V S C Hi Lo T : Type} [LinearOrder K] [LinearOrder Hi] [LinearOrder Lo]
      [VebKey K Hi Lo] [VebKeyRef K Hi Lo] [VebTree S Hi Unit] [VebTree T Lo V]
      [TreeCollection C Hi T Lo V] {cS : List Hi → Hi → Bool} {cT : List Lo → Lo → Bool}
      (hk : GoodKey K Hi Lo) (hs : CheckFor S Hi Unit cS) (ht : CheckFor T Lo V cT)
      (hc : CrateColl C Hi T Lo V) : CheckFor (Tree K V S C) K V (treeCheck cS cT)

/-- the checks of the predefined types -/
def check16 {K : Type} [LinearOrder K] [VebKey K (U 8) (U 8)] : List K → K → Bool :=
  treeCheck (fun _ _ => true) fun _ _ => true
def check32 {K : Type} [LinearOrder K] [VebKey K (U 16) (U 16)] : List K → K → Bool := treeCheck check16 check16
def check64 {K : Type} [LinearOrder K] [VebKey K (U 32) (U 32)] : List K → K → Bool := treeCheck check32 check32

end Veb
