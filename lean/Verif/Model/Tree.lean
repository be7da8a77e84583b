import Verif.Model.Wrappers

/-!
`Tree`, the recursive van Emde Boas tree: src/tree.rs.
-/

namespace Veb

/-- `struct TreeData`, src/tree.rs:39-47. `S` is the summary tree, `C` the collection of children. -/
structure TreeData (K V S C : Type) where
  max : K × V
  children : Option (S × C)

/-- `struct Tree`, src/tree.rs:29-37. -/
structure Tree (K V S C : Type) where
  min : K × V
  data : Option (TreeData K V S C)

namespace Tree

variable {K V S C Hi Lo T : Type}

section basic

/-- src/tree.rs:89-95 -/
def fromMonad (k : K) (v : V) : Tree K V S C := ⟨(k, v), none⟩
/-- src/tree.rs:106-109 -/
def isMonad (t : Tree K V S C) : R Bool := pure t.data.isNone
/-- src/tree.rs:97-104 -/
def intoMonad (t : Tree K V S C) : R (Result (K × V) (Tree K V S C)) := do
  if (← t.isMonad) then pure (.Ok t.min) else pure (.Err t)
/-- src/tree.rs:111-114 -/
def minVal (t : Tree K V S C) : R (K × V) := pure t.min
/-- writing through `&mut self.min.1` -/
def putMin (t : Tree K V S C) (w : V) : Tree K V S C := { t with min := (t.min.1, w) }
/-- writing through `&mut data.max.1`, where `data` is the present data of `t` -/
def putMax (t : Tree K V S C) (data : TreeData K V S C) (w : V) : Tree K V S C :=
  { t with data := some { data with max := (data.max.1, w) } }
/-- writing through a reference into the children, where `data` is the present data of `t`, `s` its summary -/
def putChildren (t : Tree K V S C) (data : TreeData K V S C) (s : S) (c : C) : Tree K V S C :=
  { t with data := some { data with children := some (s, c) } }
/-- src/tree.rs:116-119 -/
def minValMut (t : Tree K V S C) : R (K × V × (V → Tree K V S C)) :=
  pure (t.min.1, t.min.2, t.putMin)
/-- src/tree.rs:121-129 -/
def maxVal (t : Tree K V S C) : R (K × V) :=
  match t.data with
  | some data => pure data.max
  | none => pure t.min
/-- src/tree.rs:131-139 -/
def maxValMut (t : Tree K V S C) : R (K × V × (V → Tree K V S C)) :=
  match t.data with
  | some data => pure (data.max.1, data.max.2, t.putMax data)
  | none => pure (t.min.1, t.min.2, t.putMin)

end basic

variable [LinearOrder K] [VebKey K Hi Lo] [VebKeyRef K Hi Lo] [VebTree S Hi Unit]
  [VebTree T Lo V] [TreeCollection C Hi T Lo V]

/-- src/tree.rs:141-169 -/
def find (t : Tree K V S C) (k : K) : R (Option (K × V)) := do
  match cmp k t.min.1 with
  | .lt => pure none
  | .eq => pure (some t.min)
  | .gt =>
    match t.data with
    | none => pure none
    | some data =>
      if k = data.max.1 then pure (some data.max)
      else
        match data.children with
        | none => pure none
        | some (_, children) =>
          let (hi, lo) := VebKeyRef.splitRef k
          match (← TreeCollection.get children hi) with
          | none => pure none
          | some child =>
            match (← VebTree.find child lo) with
            | none => pure none
            | some (lo, val) => pure (some (VebKey.join hi lo, val))

/-- src/tree.rs:171-199 -/
def findMut (t : Tree K V S C) (k : K) : R (Option (K × V × (V → Tree K V S C))) := do
  match cmp k t.min.1 with
  | .lt => pure none
  | .eq => pure (some (t.min.1, t.min.2, t.putMin))
  | .gt =>
    match t.data with
    | none => pure none
    | some data =>
      if k = data.max.1 then pure (some (data.max.1, data.max.2, t.putMax data))
      else
        match data.children with
        | none => pure none
        | some (summary, children) =>
          let (hi, lo) := VebKeyRef.splitRef k
          match (← TreeCollection.getMut children hi) with
          | none => pure none
          | some (child, putC) =>
            match (← VebTree.findMut child lo) with
            | none => pure none
            | some (lo, val, put) =>
              pure (some (VebKey.join hi lo, val,
                fun w => t.putChildren data summary (putC (put w))))

/-- src/tree.rs:201-255 -/
def predecessor (t : Tree K V S C) (k : K) : R (Option (K × V)) := do
  if k ≤ t.min.1 then pure none
  else
    match t.data with
    | none => pure (some t.min)
    | some data =>
      match cmp k data.max.1, data.children with
      | .gt, _ => pure (some data.max)
      | _, none => pure (some t.min)
      | .eq, some (summary, children) =>
        let (hi, ()) ← VebTree.maxVal summary
        let child ← expect "child should exist for summary key" (← TreeCollection.get children hi)
        let (lo, val) ← VebTree.maxVal child
        pure (some (VebKey.join hi lo, val))
      | .lt, some (summary, children) =>
        let (hi, lo) := VebKeyRef.splitRef k
        let inChild ← (do
          match (← TreeCollection.get children hi) with
          | none => pure none
          | some child => VebTree.predecessor child lo : R (Option (Lo × V)))
        match inChild with
        | some (lo, val) => pure (some (VebKey.join hi lo, val))
        | none =>
          match (← VebTree.predecessor summary hi) with
          | some (hi, ()) =>
            let child ← expect "child should exist for summary key" (← TreeCollection.get children hi)
            let (lo, val) ← VebTree.maxVal child
            pure (some (VebKey.join hi lo, val))
          | none => pure (some t.min)

/-- src/tree.rs:257-349. `get_mut_predecessor_mut` (:312-318) is inlined; the `polonius` wrapper only
satisfies the borrow checker. -/
def predecessorMut (t : Tree K V S C) (k : K) : R (Option (K × V × (V → Tree K V S C))) := do
  if k ≤ t.min.1 then pure none
  else
    match t.data with
    | none => pure (some (t.min.1, t.min.2, t.putMin))
    | some data =>
      match cmp k data.max.1, data.children with
      | .gt, _ => pure (some (data.max.1, data.max.2, t.putMax data))
      | _, none => pure (some (t.min.1, t.min.2, t.putMin))
      | .eq, some (summary, children) =>
        debugAssert (decide (t.min.1 < k))
        let (hi, ()) ← VebTree.maxVal summary
        let (child, putC) ←
          expect "child should exist for summary key" (← TreeCollection.getMut children hi)
        let (lo, val, put) ← VebTree.maxValMut child
        pure (some (VebKey.join hi lo, val, fun w => t.putChildren data summary (putC (put w))))
      | .lt, some (summary, children) =>
        let (hi, lo) := VebKeyRef.splitRef k
        let inChild ← (do
          match (← TreeCollection.getMut children hi) with
          | none => pure none
          | some (child, putC) =>
            pure ((← VebTree.predecessorMut child lo).map (mapPut putC)) :
          R (Option (Lo × V × (V → C))))
        match inChild with
        | some (lo, val, put) =>
          pure (some (VebKey.join hi lo, val, fun w => t.putChildren data summary (put w)))
        | none =>
          match (← VebTree.predecessor summary hi) with
          | some (hi, ()) =>
            let (child, putC) ←
              expect "child should exist for summary key" (← TreeCollection.getMut children hi)
            let (lo, val, put) ← VebTree.maxValMut child
            pure (some (VebKey.join hi lo, val, fun w => t.putChildren data summary (putC (put w))))
          | none => pure (some (t.min.1, t.min.2, t.putMin))

/-- src/tree.rs:351-400 -/
def successor (t : Tree K V S C) (k : K) : R (Option (K × V)) := do
  if k < t.min.1 then pure (some t.min)
  else
    match t.data with
    | none => pure none
    | some data =>
      if data.max.1 ≤ k then pure none
      else
        match data.children with
        | none => pure (some data.max)
        | some (summary, children) =>
          if k = t.min.1 then
            let (hi, ()) ← VebTree.minVal summary
            let child ← expect "child should exist for summary key" (← TreeCollection.get children hi)
            let (lo, val) ← VebTree.minVal child
            pure (some (VebKey.join hi lo, val))
          else
            let (hi, lo) := VebKeyRef.splitRef k
            let inChild ← (do
              match (← TreeCollection.get children hi) with
              | none => pure none
              | some child => VebTree.successor child lo : R (Option (Lo × V)))
            match inChild with
            | some (lo, val) => pure (some (VebKey.join hi lo, val))
            | none =>
              match (← VebTree.successor summary hi) with
              | some (hi, ()) =>
                let child ← expect "child should exist for summary key" (← TreeCollection.get children hi)
                let (lo, val) ← VebTree.minVal child
                pure (some (VebKey.join hi lo, val))
              | none => pure (some data.max)

/-- src/tree.rs:402-500. `get_mut_successor_mut` (:448-454) is inlined; the `polonius` wrapper only
satisfies the borrow checker. -/
def successorMut (t : Tree K V S C) (k : K) : R (Option (K × V × (V → Tree K V S C))) := do
  if k < t.min.1 then pure (some (t.min.1, t.min.2, t.putMin))
  else
    match t.data with
    | none => pure none
    | some data =>
      if data.max.1 ≤ k then pure none
      else
        match data.children with
        | none => pure (some (data.max.1, data.max.2, t.putMax data))
        | some (summary, children) =>
          if k = t.min.1 then
            let (hi, ()) ← VebTree.minVal summary
            let (child, putC) ←
              expect "child should exist for summary key" (← TreeCollection.getMut children hi)
            let (lo, val, put) ← VebTree.minValMut child
            pure (some (VebKey.join hi lo, val, fun w => t.putChildren data summary (putC (put w))))
          else
            let (hi, lo) := VebKeyRef.splitRef k
            let inChild ← (do
              match (← TreeCollection.getMut children hi) with
              | none => pure none
              | some (child, putC) =>
                pure ((← VebTree.successorMut child lo).map (mapPut putC)) :
              R (Option (Lo × V × (V → C))))
            match inChild with
            | some (lo, val, put) =>
              pure (some (VebKey.join hi lo, val, fun w => t.putChildren data summary (put w)))
            | none =>
              match (← VebTree.successor summary hi) with
              | some (hi, ()) =>
                let (child, putC) ←
                  expect "child should exist for summary key" (← TreeCollection.getMut children hi)
                let (lo, val, put) ← VebTree.minValMut child
                pure (some (VebKey.join hi lo, val, fun w => t.putChildren data summary (putC (put w))))
              | none => pure (some (data.max.1, data.max.2, t.putMax data))

/-- The second half of `insert`, src/tree.rs:544-561: store `k`, `v` below the extremes; `min` and `data.max`
have already been dealt with. -/
def insertBelow (min : K × V) (data : TreeData K V S C) (k : K) (v : V) :
    R (Tree K V S C × Option (K × V)) := do
  let (hi, lo) := VebKey.splitVal k
  match data.children with
  | some (summary, children) =>
    let (children, r) ← TreeCollection.insertKey children hi (lo, v)
    match r with
    | .Ok hi =>
      let (summary, _) ← VebTree.insert summary hi ()
      pure (⟨min, some { data with children := some (summary, children) }⟩, none)
    | .Err (_, none) => pure (⟨min, some { data with children := some (summary, children) }⟩, none)
    | .Err (hi, some (lo, v)) =>
      pure (⟨min, some { data with children := some (summary, children) }⟩,
        some (VebKey.join hi lo, v))
  | none =>
    let children ← TreeCollection.create hi (VebTree.fromMonad lo v)
    let summary := VebTree.fromMonad hi ()
    pure (⟨min, some { data with children := some (summary, children) }⟩, none)

/-- src/tree.rs:502-562 -/
def insert (t : Tree K V S C) (k : K) (v : V) : R (Tree K V S C × Option (K × V)) :=
  match cmp k t.min.1, t.data with
  | .eq, _ => pure ({ t with min := (k, v) }, some t.min)
  | .lt, none => pure (⟨(k, v), some ⟨t.min, none⟩⟩, none)
  | .gt, none => pure (⟨t.min, some ⟨(k, v), none⟩⟩, none)
  | .lt, some data =>
    -- the old minimum is compared with the maximum: src/tree.rs:524-533
    let old := t.min
    match cmp data.max.1 old.1 with
    | .eq => pure (⟨(k, v), some { data with max := old }⟩, some data.max)
    | .gt => insertBelow (k, v) { data with max := old } data.max.1 data.max.2
    | .lt => insertBelow (k, v) data old.1 old.2
  | .gt, some data =>
    match cmp k data.max.1 with
    | .eq => pure (⟨t.min, some { data with max := (k, v) }⟩, some data.max)
    | .gt => insertBelow t.min { data with max := (k, v) } data.max.1 data.max.2
    | .lt => insertBelow t.min data k v

/-- src/tree.rs:651-693 -/
def removeMin (t : Tree K V S C) : R (Option (Tree K V S C) × (K × V)) := do
  match t.data with
  | none => pure (none, t.min)
  | some data =>
    match data.children with
    | none => pure (some ⟨data.max, none⟩, t.min)
    | some (summary, children) =>
      let (hi, ()) ← VebTree.minVal summary
      let (children, (lo, val)) ← TreeCollection.removeKey children hi VebTree.removeMin
      let min := VebKey.join hi lo
      let children ← (match children with
        | none => pure none
        | some (children, false) => pure (some (summary, children))
        | some (children, true) => do
          let summary ← expect "summary should have remaining elements after removal"
            (← VebTree.removeMin summary).1
          pure (some (summary, children)) : R (Option (S × C)))
      pure (some ⟨(min, val), some ⟨data.max, children⟩⟩, t.min)

/-- src/tree.rs:695-736 -/
def removeMax (t : Tree K V S C) : R (Option (Tree K V S C) × (K × V)) := do
  match t.data with
  | none => pure (none, t.min)
  | some data =>
    match data.children with
    | none => pure (some ⟨t.min, none⟩, data.max)
    | some (summary, children) =>
      let (hi, ()) ← VebTree.maxVal summary
      let (children, (lo, val)) ← TreeCollection.removeKey children hi VebTree.removeMax
      let newMax := (VebKey.join hi lo, val)
      let children ← (match children with
        | none => pure none
        | some (children, false) => pure (some (summary, children))
        | some (children, true) => do
          let summary ← expect "summary should have remaining elements after removal"
            (← VebTree.removeMax summary).1
          pure (some (summary, children)) : R (Option (S × C)))
      pure (some ⟨t.min, some ⟨newMax, children⟩⟩, data.max)

/-- src/tree.rs:564-649 -/
def remove (t : Tree K V S C) (k : K) :
    R (Result (Option (Tree K V S C) × (K × V)) (Tree K V S C)) := do
  if k = t.min.1 then pure (.Ok (← t.removeMin))
  else
    match t.data with
    | none => pure (.Err t)
    | some data =>
      match data.children with
      | none => if data.max.1 = k then pure (.Ok (some ⟨t.min, none⟩, data.max)) else pure (.Err t)
      | some (summary, children) =>
        if k = data.max.1 then
          let (hi, ()) ← VebTree.maxVal summary
          let (children, (lo, val)) ← TreeCollection.removeKey children hi VebTree.removeMax
          let newMax := (VebKey.join hi lo, val)
          let children ← (match children with
            | none => pure none
            | some (children, false) => pure (some (summary, children))
            | some (children, true) => do
              let summary ← expect "summary should have remaining elements after removal"
                (← VebTree.removeMax summary).1
              pure (some (summary, children)) : R (Option (S × C)))
          pure (.Ok (some ⟨t.min, some ⟨newMax, children⟩⟩, data.max))
        else
          let (hi, lo) := VebKeyRef.splitRef k
          match (← TreeCollection.maybeRemoveKey children hi (fun v => VebTree.remove v lo)) with
          | .Err children => pure (.Err ⟨t.min, some ⟨data.max, some (summary, children)⟩⟩)
          | .Ok (none, (lo, val)) =>
            pure (.Ok (some ⟨t.min, some ⟨data.max, none⟩⟩, (VebKey.join hi lo, val)))
          | .Ok (some (children, false), (lo, val)) =>
            pure (.Ok (some ⟨t.min, some ⟨data.max, some (summary, children)⟩⟩,
              (VebKey.join hi lo, val)))
          | .Ok (some (children, true), (lo, val)) =>
            let removed ← (match (← VebTree.remove summary hi) with
              | .Ok r => pure r
              | .Err _ => .error (.expect "summary should contain key") : R (Option S × (Hi × Unit)))
            let summary ← expect "summary should have remaining elements after removal" removed.1
            pure (.Ok (some ⟨t.min, some ⟨data.max, some (summary, children)⟩⟩,
              (VebKey.join hi lo, val)))

/-- `impl VebTree for Tree`, src/tree.rs:80-737; `len_hint` is the provided one -/
instance : VebTree (Tree K V S C) K V where
  fromMonad := fromMonad
  isMonad := isMonad
  lenHint := defaultLenHint isMonad
  intoMonad := intoMonad
  minVal := minVal
  minValMut := minValMut
  maxVal := maxVal
  maxValMut := maxValMut
  find := find
  findMut := findMut
  predecessor := predecessor
  predecessorMut := predecessorMut
  successor := successor
  successorMut := successorMut
  insert := insert
  remove := remove
  removeMin := removeMin
  removeMax := removeMax

end Tree
end Veb
