import Verif.Model.Key

/-!
`ByteSet`, src/bitset/set.rs.
-/

namespace Veb

/-! ## `u128` intrinsics, defined by what the core documentation says they return -/

/-- A `u128` word. -/
abbrev Word := BitVec 128

/-- `u128::count_ones`: the number of set bits. -/
def countOnes (x : Word) : Nat := (List.range 128).countP (fun i => x.getLsbD i)
/-- `u128::trailing_zeros`: the position of the least significant set bit, 128 for zero. -/
def trailingZeros (x : Word) : Nat :=
  ((List.range 128).find? (fun i => x.getLsbD i)).getD 128
/-- `u128::leading_zeros`: the number of positions above the most significant set bit, 128 for zero. -/
def leadingZeros (x : Word) : Nat :=
  ((List.range 128).find? (fun i => x.getLsbD (127 - i))).getD 128
/-- `u128::checked_shr(n)`. -/
def checkedShr (x : Word) (n : Nat) : Option Word := if n < 128 then some (x >>> n) else none
/-- `u128::checked_shl(n)`. -/
def checkedShl (x : Word) (n : Nat) : Option Word := if n < 128 then some (x <<< n) else none
/-- `u128::MAX`. -/
def wordMax : Word := BitVec.allOnes 128

/-- `[u128; 2]`. -/
structure Words where
  w0 : Word
  w1 : Word
  deriving DecidableEq, Repr

namespace Words

/-- `a[i]`; the modelled code only uses `i = k / 128` for `k : u8`, i.e. `i ∈ {0, 1}`. -/
def get (a : Words) (i : Nat) : Word := if i = 0 then a.w0 else a.w1
/-- `a[i] = x`, same remark. -/
def set (a : Words) (i : Nat) (x : Word) : Words :=
  if i = 0 then { a with w0 := x } else { a with w1 := x }

end Words

/-- `struct ByteSet([u128; 2], ())`, src/bitset/set.rs:7. -/
structure ByteSet where
  words : Words
  deriving DecidableEq, Repr

namespace ByteSet

/-- Value of a `u8`. -/
abbrev nat (k : U 8) : Nat := k.bits.toNat

/-- `array_len`, src/bitset/set.rs:17-19 -/
def arrayLen (v : Words) : Nat := countOnes v.w0 + countOnes v.w1
/-- `from_array`, src/bitset/set.rs:21-27 -/
def fromArray (v : Words) : Option ByteSet := if v = ⟨0#128, 0#128⟩ then none else some ⟨v⟩
/-- `len`, src/bitset/set.rs:29-31 (`NonZeroUsize::new(0)` is `None`) -/
def len (s : ByteSet) : R Nat :=
  let n := arrayLen s.words
  expect "ByteSet should never be empty" (if n = 0 then none else some n)
/-- `lowest`, src/bitset/set.rs:33-40 (`u32` arithmetic, then `as u8`) -/
def lowest (s : ByteSet) : R (U 8) := do
  if s.words.w0 = 0#128 then
    debugAssert (decide (s.words.w1 ≠ 0#128))
    pure (U.lit (128 + trailingZeros s.words.w1))
  else
    pure (U.lit (trailingZeros s.words.w0))
/-- `highest`, src/bitset/set.rs:42-49 (`u32` subtraction, checked) -/
def highest (s : ByteSet) : R (U 8) := do
  if s.words.w1 = 0#128 then
    debugAssert (decide (s.words.w0 ≠ 0#128))
    pure (U.lit (← subUsize 127 (leadingZeros s.words.w0)))
  else
    pure (U.lit (← subUsize 255 (leadingZeros s.words.w1)))
/-- `BitAndAssign<ByteSet> for [u128; 2]`, src/bitset/set.rs:102-108 -/
def andWords (m : Words) (s : ByteSet) : Words := ⟨m.w0 &&& s.words.w0, m.w1 &&& s.words.w1⟩
/-- `mask_lower`, src/bitset/set.rs:58-68 (`saturating_sub` is truncated subtraction) -/
def maskLower (i : U 8) : Words :=
  ⟨(checkedShr wordMax (128 - nat i)).getD 0#128, (checkedShr wordMax (256 - nat i)).getD 0#128⟩
/-- `mask_higher`, src/bitset/set.rs:75-82 -/
def maskHigher (i : U 8) : Words :=
  ⟨(checkedShl wordMax (1 + nat i)).getD 0#128, (checkedShl wordMax (nat i - 127)).getD 0#128⟩
/-- `count_below`, src/bitset/set.rs:51-55 -/
def countBelow (s : ByteSet) (k : U 8) : Nat := arrayLen (andWords (maskLower k) s)
/-- `1 << (k % 128)` as a `u128` -/
def bit (k : U 8) : Word := 1#128 <<< (nat k % 128)
/-- `is_present`, src/bitset/set.rs:85-87 -/
def isPresent (s : ByteSet) (k : U 8) : Bool :=
  decide (s.words.get (nat k / 128) &&& bit k ≠ 0#128)
/-- `array_set_bit`, src/bitset/set.rs:93-95 -/
def arraySetBit (a : Words) (k : U 8) : Words :=
  a.set (nat k / 128) (a.get (nat k / 128) ||| bit k)
/-- `set_bit`, src/bitset/set.rs:89-91 -/
def setBit (s : ByteSet) (k : U 8) : ByteSet := ⟨arraySetBit s.words k⟩
/-- `unset_bit`, src/bitset/set.rs:97-99 -/
def unsetBit (s : ByteSet) (k : U 8) : ByteSet :=
  ⟨s.words.set (nat k / 128) (s.words.get (nat k / 128) &&& ~~~ bit k)⟩

/-- src/bitset/set.rs:114-118 -/
def fromMonad (k : U 8) (_v : Unit) : ByteSet := ⟨arraySetBit ⟨0#128, 0#128⟩ k⟩
/-- src/bitset/set.rs:120-122 -/
def isMonad (s : ByteSet) : R Bool := do pure (decide ((← s.len) = 1))
/-- src/bitset/set.rs:123-125 -/
def lenHint (s : ByteSet) : R (Nat × Option Nat) := do pure (← s.len, some (← s.len))
/-- src/bitset/set.rs:126-132 -/
def intoMonad (s : ByteSet) : R (Result (U 8 × Unit) ByteSet) := do
  if (← s.isMonad) then pure (.Ok (← s.lowest, ())) else pure (.Err s)
/-- src/bitset/set.rs:133-135 -/
def minVal (s : ByteSet) : R (U 8 × Unit) := do pure (← s.lowest, ())
/-- src/bitset/set.rs:136-138; writing the `()` reference does nothing -/
def minValMut (s : ByteSet) : R (U 8 × Unit × (Unit → ByteSet)) := do
  pure (← s.lowest, (), fun _ => s)
/-- src/bitset/set.rs:139-141 -/
def maxVal (s : ByteSet) : R (U 8 × Unit) := do pure (← s.highest, ())
/-- src/bitset/set.rs:142-144 -/
def maxValMut (s : ByteSet) : R (U 8 × Unit × (Unit → ByteSet)) := do
  pure (← s.highest, (), fun _ => s)
/-- src/bitset/set.rs:146-156 -/
def find (s : ByteSet) (k : U 8) : R (Option (U 8 × Unit)) :=
  if s.isPresent k then pure (some (k, ())) else pure none
/-- src/bitset/set.rs:157-167 -/
def findMut (s : ByteSet) (k : U 8) : R (Option (U 8 × Unit × (Unit → ByteSet))) :=
  if s.isPresent k then pure (some (k, (), fun _ => s)) else pure none
/-- src/bitset/set.rs:169-176 -/
def predecessor (s : ByteSet) (k : U 8) : R (Option (U 8 × Unit)) := do
  match fromArray (andWords (maskLower k) s) with
  | none => pure none
  | some v => pure (some (← v.highest, ()))
/-- src/bitset/set.rs:177-187 -/
def predecessorMut (s : ByteSet) (k : U 8) : R (Option (U 8 × Unit × (Unit → ByteSet))) := do
  match fromArray (andWords (maskLower k) s) with
  | none => pure none
  | some v => pure (some (← v.highest, (), fun _ => s))
/-- src/bitset/set.rs:188-195 -/
def successor (s : ByteSet) (k : U 8) : R (Option (U 8 × Unit)) := do
  match fromArray (andWords (maskHigher k) s) with
  | none => pure none
  | some v => pure (some (← v.lowest, ()))
/-- src/bitset/set.rs:196-203 -/
def successorMut (s : ByteSet) (k : U 8) : R (Option (U 8 × Unit × (Unit → ByteSet))) := do
  match fromArray (andWords (maskHigher k) s) with
  | none => pure none
  | some v => pure (some (← v.lowest, (), fun _ => s))
/-- src/bitset/set.rs:204-211 -/
def insert (s : ByteSet) (k : U 8) (v : Unit) : R (ByteSet × Option (U 8 × Unit)) :=
  if s.isPresent k then pure (s, some (k, v)) else pure (s.setBit k, none)
/-- src/bitset/set.rs:213-226 -/
def remove (s : ByteSet) (k : U 8) :
    R (Result (Option ByteSet × (U 8 × Unit)) ByteSet) := do
  if !s.isPresent k then pure (.Err s)
  else if (← s.isMonad) then pure (.Ok (none, (k, ())))
  else pure (.Ok (some (s.unsetBit k), (k, ())))
/-- src/bitset/set.rs:227-235 -/
def removeMin (s : ByteSet) : R (Option ByteSet × (U 8 × Unit)) := do
  let k ← s.lowest
  if (← s.isMonad) then pure (none, (k, ())) else pure (some (s.unsetBit k), (k, ()))
/-- src/bitset/set.rs:236-244 -/
def removeMax (s : ByteSet) : R (Option ByteSet × (U 8 × Unit)) := do
  let k ← s.highest
  if (← s.isMonad) then pure (none, (k, ())) else pure (some (s.unsetBit k), (k, ()))

/-- `impl VebTree for ByteSet`, src/bitset/set.rs:110-245 -/
instance : VebTree ByteSet (U 8) Unit where
  fromMonad := fromMonad
  isMonad := isMonad
  lenHint := lenHint
  intoMonad := intoMonad
  minVal := minVal
  minValMut := minValMut
  maxVal := maxVal
  maxValMut := maxValMut
  find := find
  findMut := findMut
  predecessor := predecessor
  predecessorMut := predecessorMut
  successor := successor
  successorMut := successorMut
  insert := insert
  remove := remove
  removeMin := removeMin
  removeMax := removeMax

end ByteSet
end Veb
