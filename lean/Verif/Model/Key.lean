import Verif.Model.Trait
import Mathlib.Data.List.Lex
import Mathlib.Order.Defs.LinearOrder
import Mathlib.Data.Set.Basic

/-!
Key types: src/key.rs.
-/

namespace Veb

/-- A Rust unsigned integer of `w` bits (`u8`, `u16`, …, `u128`). -/
structure U (w : Nat) where
  bits : BitVec w
  deriving Repr

/-- A Rust signed integer of `w` bits (`i8`, …, `i128`), two's complement. -/
structure S (w : Nat) where
  bits : BitVec w
  deriving Repr

theorem U.toNat_inj {w : Nat} : Function.Injective (fun x : U w => x.bits.toNat) := by
  rintro ⟨a⟩ ⟨b⟩ h
  simpa [BitVec.toNat_inj] using h

theorem S.toInt_inj {w : Nat} : Function.Injective (fun x : S w => x.bits.toInt) := by
  rintro ⟨a⟩ ⟨b⟩ h
  simpa [BitVec.toInt_inj] using h

/-- Unsigned integers are ordered by value. -/
instance {w : Nat} : LinearOrder (U w) := LinearOrder.lift' (fun x => x.bits.toNat) U.toNat_inj
/-- Signed integers are ordered by (two's complement) value. -/
instance {w : Nat} : LinearOrder (S w) := LinearOrder.lift' (fun x => x.bits.toInt) S.toInt_inj

theorem U.lt_iff {w : Nat} (a b : U w) : a < b ↔ a.bits.toNat < b.bits.toNat := Iff.rfl
theorem U.le_iff {w : Nat} (a b : U w) : a ≤ b ↔ a.bits.toNat ≤ b.bits.toNat := Iff.rfl
theorem S.lt_iff {w : Nat} (a b : S w) : a < b ↔ a.bits.toInt < b.bits.toInt := Iff.rfl
theorem S.le_iff {w : Nat} (a b : S w) : a ≤ b ↔ a.bits.toInt ≤ b.bits.toInt := Iff.rfl

/-- A literal of an unsigned type. -/
def U.lit {w : Nat} (n : Nat) : U w := ⟨BitVec.ofNat w n⟩
/-- A literal of a signed type. -/
def S.lit {w : Nat} (n : Int) : S w := ⟨BitVec.ofInt w n⟩

/-- `as` cast between unsigned integers (truncate / zero-extend). -/
def U.cast {w : Nat} (m : Nat) (x : U w) : U m := ⟨x.bits.setWidth m⟩
/-- `>>` by a constant smaller than the width. -/
def U.shr {w : Nat} (x : U w) (n : Nat) : U w := ⟨x.bits >>> n⟩
/-- `<<` by a constant smaller than the width. -/
def U.shl {w : Nat} (x : U w) (n : Nat) : U w := ⟨x.bits <<< n⟩
/-- `|`. -/
def U.or {w : Nat} (x y : U w) : U w := ⟨x.bits ||| y.bits⟩
/-- `&`. -/
def U.and {w : Nat} (x y : U w) : U w := ⟨x.bits &&& y.bits⟩

/-- `iN::MIN`. -/
def S.MIN {w : Nat} : S w := ⟨BitVec.intMin w⟩
/-- `iN::abs_diff`, as in core: the distance, computed with wrapping subtraction and an `as uN` cast. -/
def S.absDiff {w : Nat} (x y : S w) : U w := if x < y then ⟨y.bits - x.bits⟩ else ⟨x.bits - y.bits⟩
/-- `(x as iN).wrapping_add(y)` for `x : uN`. -/
def S.ofUWrappingAdd {w : Nat} (x : U w) (y : S w) : S w := ⟨x.bits + y.bits⟩

/-! ## `()` -/

/-- src/key.rs:127-136 -/
instance : VebKey Unit Unit Unit where
  splitVal _ := ((), ())
  join _ _ := ()
/-- src/key.rs:137 -/
instance : VebKeyRef Unit Unit Unit := ⟨cloneSplitRef⟩
/-- src/key.rs:138-144 -/
instance : SizedVebKey Unit where
  cardinalityConst := 1
  cardinality := 1
  index _ := 0

/-! ## Unsigned and signed integers -/

/-- src/key.rs:146-158 -/
instance : VebKey (U 128) (U 64) (U 64) where
  splitVal x := ((x.shr 64).cast 64, x.cast 64)
  join hi lo := ((hi.cast 128).shl 64).or (lo.cast 128)
/-- src/key.rs:159 -/
instance : VebKeyRef (U 128) (U 64) (U 64) := ⟨cloneSplitRef⟩

/-- src/key.rs:170-181 -/
instance : VebKey (S 128) (U 64) (U 64) where
  splitVal x := VebKey.splitVal (x.absDiff S.MIN)
  join hi lo := S.ofUWrappingAdd (VebKey.join hi lo) S.MIN
/-- src/key.rs:182 -/
instance : VebKeyRef (S 128) (U 64) (U 64) := ⟨cloneSplitRef⟩

/-- src/key.rs:193-205 -/
instance : VebKey (U 64) (U 32) (U 32) where
  splitVal x := ((x.shr 32).cast 32, x.cast 32)
  join hi lo := ((hi.cast 64).shl 32).or (lo.cast 64)
/-- src/key.rs:206 -/
instance : VebKeyRef (U 64) (U 32) (U 32) := ⟨cloneSplitRef⟩

/-- src/key.rs:217-228 -/
instance : VebKey (S 64) (U 32) (U 32) where
  splitVal x := VebKey.splitVal (x.absDiff S.MIN)
  join hi lo := S.ofUWrappingAdd (VebKey.join hi lo) S.MIN
/-- src/key.rs:229 -/
instance : VebKeyRef (S 64) (U 32) (U 32) := ⟨cloneSplitRef⟩

/-- src/key.rs:240-252 -/
instance : VebKey (U 32) (U 16) (U 16) where
  splitVal x := ((x.shr 16).cast 16, x.cast 16)
  join hi lo := ((hi.cast 32).shl 16).or (lo.cast 32)
/-- src/key.rs:253 -/
instance : VebKeyRef (U 32) (U 16) (U 16) := ⟨cloneSplitRef⟩

/-- src/key.rs:268-279 -/
instance : VebKey (S 32) (U 16) (U 16) where
  splitVal x := VebKey.splitVal (x.absDiff S.MIN)
  join hi lo := S.ofUWrappingAdd (VebKey.join hi lo) S.MIN
/-- src/key.rs:280 -/
instance : VebKeyRef (S 32) (U 16) (U 16) := ⟨cloneSplitRef⟩

/-- src/key.rs:295-307 -/
instance : VebKey (U 16) (U 8) (U 8) where
  splitVal x := ((x.shr 8).cast 8, x.cast 8)
  join hi lo := ((hi.cast 16).shl 8).or (lo.cast 16)
/-- src/key.rs:308 -/
instance : VebKeyRef (U 16) (U 8) (U 8) := ⟨cloneSplitRef⟩

/-- src/key.rs:324-335 -/
instance : VebKey (S 16) (U 8) (U 8) where
  splitVal x := VebKey.splitVal (x.absDiff S.MIN)
  join hi lo := S.ofUWrappingAdd (VebKey.join hi lo) S.MIN
/-- src/key.rs:336 -/
instance : VebKeyRef (S 16) (U 8) (U 8) := ⟨cloneSplitRef⟩

/-! ## `U4` and `U2` -/

/-- `struct U4(u8)`, src/key.rs:397-398. The field is private; `U4.mk` is `U4::new`/`Self(_)` (:403-405). -/
structure U4 where
  val : U 8
  deriving Repr

/-- `struct U2(u8)`, src/key.rs:466-467, `U2.mk` is `U2::new`/`Self(_)` (:472-474). -/
structure U2 where
  val : U 8
  deriving Repr

theorem U4.val_inj : Function.Injective U4.val := by rintro ⟨a⟩ ⟨b⟩ h; simpa using h
theorem U2.val_inj : Function.Injective U2.val := by rintro ⟨a⟩ ⟨b⟩ h; simpa using h

/-- derived `Ord`, src/key.rs:397 -/
instance : LinearOrder U4 := LinearOrder.lift' U4.val U4.val_inj
/-- derived `Ord`, src/key.rs:466 -/
instance : LinearOrder U2 := LinearOrder.lift' U2.val U2.val_inj

theorem U4.lt_iff (a b : U4) : a < b ↔ a.val < b.val := Iff.rfl
theorem U2.lt_iff (a b : U2) : a < b ↔ a.val < b.val := Iff.rfl

/-- `U4::MAX = u8::MAX >> (8 - 4)`, src/key.rs:402 -/
def U4.MAX : U 8 := (U.lit 255).shr (8 - 4)
/-- `U2::MAX = u8::MAX >> (8 - 2)`, src/key.rs:471 -/
def U2.MAX : U 8 := (U.lit 255).shr (8 - 2)
/-- `From<u8> for U4`, src/key.rs:408-412 -/
def U4.ofU8 (x : U 8) : U4 := ⟨x.and U4.MAX⟩
/-- `From<U4> for u8`, src/key.rs:413-417 -/
def U4.toU8 (x : U4) : U 8 := x.val
/-- `u8 << usize` with Rust's overflow check (debug build). -/
def shlU8 (x : U 8) (n : Nat) : R (U 8) := if n < 8 then .ok (x.shl n) else .error .arith
/-- `u8 >> usize` with Rust's overflow check (debug build). -/
def shrU8 (x : U 8) (n : Nat) : R (U 8) := if n < 8 then .ok (x.shr n) else .error .arith
/-- `BitOr for U4`, src/key.rs:419-424 -/
def U4.bitor (x y : U4) : U4 := U4.ofU8 (x.val.or y.val)
/-- `Shl<usize> for U4`, src/key.rs:426-431 -/
def U4.shl (x : U4) (n : Nat) : R U4 := do pure (U4.ofU8 (← shlU8 x.val n))
/-- `Shr<usize> for U4`, src/key.rs:433-438 -/
def U4.shr (x : U4) (n : Nat) : R U4 := do pure (U4.ofU8 (← shrU8 x.val n))

/-- `From<u8> for U2`, src/key.rs:476-480 -/
def U2.ofU8 (x : U 8) : U2 := ⟨x.and U2.MAX⟩
/-- `From<U4> for U2`, src/key.rs:481-485 -/
def U2.ofU4 (x : U4) : U2 := U2.ofU8 x.val
/-- `From<U2> for U4`, src/key.rs:486-490 -/
def U4.ofU2 (x : U2) : U4 := ⟨x.val⟩
/-- `From<U2> for bool`, src/key.rs:491-495 -/
def U2.toBool (x : U2) : Bool := decide (x.val.and (U.lit 1) = U.lit 1)
/-- `BitOr for U2`, src/key.rs:497-502 -/
def U2.bitor (x y : U2) : U2 := U2.ofU8 (x.val.or y.val)
/-- `Shl<usize> for U2`, src/key.rs:504-509 -/
def U2.shl (x : U2) (n : Nat) : R U2 := do pure (U2.ofU8 (← shlU8 x.val n))
/-- `Shr<usize> for U2`, src/key.rs:511-516 -/
def U2.shr (x : U2) (n : Nat) : R U2 := do pure (U2.ofU8 (← shrU8 x.val n))

/-- src/key.rs:352-364 -/
instance : VebKey (U 8) U4 U4 where
  splitVal x := (⟨x.shr 4⟩, U4.ofU8 x)
  join hi lo := (hi.val.shl 4).or lo.val
/-- src/key.rs:365 -/
instance : VebKeyRef (U 8) U4 U4 := ⟨cloneSplitRef⟩

/-- src/key.rs:375-386 -/
instance : VebKey (S 8) U4 U4 where
  splitVal x := VebKey.splitVal (x.absDiff S.MIN)
  join hi lo := S.ofUWrappingAdd (VebKey.join hi lo) S.MIN
/-- src/key.rs:387 -/
instance : VebKeyRef (S 8) U4 U4 := ⟨cloneSplitRef⟩

/-- src/key.rs:440-455 -/
instance : VebKey U4 U2 U2 where
  splitVal x := (⟨x.val.shr 2⟩, U2.ofU4 x)
  join hi lo := ⟨(hi.val.shl 2).or lo.val⟩
/-- src/key.rs:456 -/
instance : VebKeyRef U4 U2 U2 := ⟨cloneSplitRef⟩

/-- `bool as u8`. -/
def boolU8 (b : Bool) : U 8 := if b then U.lit 1 else U.lit 0

/-- src/key.rs:518-530 -/
instance : VebKey U2 Bool Bool where
  splitVal x := (decide (x.val.shr 1 ≠ U.lit 0), x.toBool)
  join hi lo := ⟨((boolU8 hi).shl 1).or (boolU8 lo)⟩
/-- src/key.rs:531 -/
instance : VebKeyRef U2 Bool Bool := ⟨cloneSplitRef⟩

/-! ## `SizedVebKey` (64-bit target) -/

/-- `x.wrapping_sub(Self::MIN) as usize` for a signed integer of at most 64 bits, 64-bit target: the
wrapped difference is *signed*, so the cast sign-extends. -/
def S.indexWrap {w : Nat} (x : S w) : Nat := ((x.bits - (S.MIN (w := w)).bits).signExtend 64).toNat

/-- src/key.rs:207-215. `op!(U1 << U64)` does not fit a `usize`; see `OptionArray.create`. -/
instance : SizedVebKey (U 64) where
  cardinalityConst := 2 ^ 64 - 1
  cardinality := 2 ^ 64
  index x := x.bits.toNat
/-- src/key.rs:230-238 -/
instance : SizedVebKey (S 64) where
  cardinalityConst := 2 ^ 64 - 1
  cardinality := 2 ^ 64
  index x := x.indexWrap
/-- src/key.rs:254-266 -/
instance : SizedVebKey (U 32) where
  cardinalityConst := 2 ^ 32 - 1
  cardinality := 2 ^ 32
  index x := x.bits.toNat
/-- src/key.rs:281-293 -/
instance : SizedVebKey (S 32) where
  cardinalityConst := usizeMax
  cardinality := 2 ^ 32
  index x := x.indexWrap
/-- src/key.rs:309-322 -/
instance : SizedVebKey (U 16) where
  cardinalityConst := 2 ^ 16 - 1
  cardinality := 2 ^ 16
  index x := x.bits.toNat
/-- src/key.rs:337-350 -/
instance : SizedVebKey (S 16) where
  cardinalityConst := usizeMax
  cardinality := 2 ^ 16
  index x := x.indexWrap
/-- src/key.rs:366-373 -/
instance : SizedVebKey (U 8) where
  cardinalityConst := 2 ^ 8 - 1
  cardinality := 2 ^ 8
  index x := x.bits.toNat
/-- src/key.rs:388-395 -/
instance : SizedVebKey (S 8) where
  cardinalityConst := 2 ^ 8 - 1
  cardinality := 2 ^ 8
  index x := x.indexWrap
/-- src/key.rs:457-464 -/
instance : SizedVebKey U4 where
  cardinalityConst := U4.MAX.bits.toNat
  cardinality := 2 ^ 4
  index x := x.val.bits.toNat
/-- src/key.rs:532-539 -/
instance : SizedVebKey U2 where
  cardinalityConst := U2.MAX.bits.toNat
  cardinality := 2 ^ 2
  index x := x.val.bits.toNat

/-! ## Arrays -/

/-- `[T; n]`, ordered lexicographically (the order of lists of equal length). -/
abbrev Arr (T : Type) (n : Nat) := { l : List T // l.length = n }

namespace Arr
variable {T : Type}

/-- First `h` elements: the slice pattern `[h0, .., lo @ ..]` / `[hi @ .., _, ..]`. -/
def take {n : Nat} (x : Arr T n) (h : Nat) (hn : h ≤ n) : Arr T h :=
  ⟨x.1.take h, by simp [x.2, hn]⟩
/-- All but the first `h` elements. -/
def drop {n : Nat} (x : Arr T n) (h m : Nat) (hn : n = h + m) : Arr T m :=
  ⟨x.1.drop h, by simp [x.2]; omega⟩
/-- All but the last `m` elements: the slice pattern `[hi @ .., _, .., _]` with `m` wildcards. -/
def dropLastN {n : Nat} (x : Arr T n) (m h : Nat) (hn : n = h + m) : Arr T h :=
  ⟨(x.1.reverse.drop m).reverse, by simp [x.2]; omega⟩
/-- `[a0, .., b0, ..]` from the elements of two arrays. -/
def append {n m : Nat} (x : Arr T n) (y : Arr T m) : Arr T (n + m) :=
  ⟨x.1 ++ y.1, by simp [x.2, y.2]⟩
/-- `x[i]` with a constant in-range index. -/
def at' {n : Nat} (x : Arr T n) (i : Nat) (h : i < n) : T := x.1[i]'(by rw [x.2]; exact h)

end Arr

variable {T : Type}

/-- src/key.rs:541-553 -/
instance : VebKey (Arr T 2) T T where
  splitVal x := (x.at' 0 (by decide), x.at' 1 (by decide))
  join hi lo := ⟨[hi, lo], rfl⟩
/-- src/key.rs:554-562 -/
instance : VebKeyRef (Arr T 2) T T where
  splitRef x := (x.at' 0 (by decide), x.at' 1 (by decide))

/-- src/key.rs:564-577 -/
instance : VebKey (Arr T 3) T (Arr T 2) where
  splitVal x := (x.at' 0 (by decide), x.drop 1 2 rfl)
  join hi lo := Arr.append ⟨[hi], rfl⟩ lo
/-- src/key.rs:578-587 -/
instance : VebKeyRef (Arr T 3) T (Arr T 2) where
  splitRef x := (x.at' 0 (by decide), x.drop 1 2 rfl)

/-- src/key.rs:588-601 -/
instance : VebKey (Arr T 4) (Arr T 2) (Arr T 2) where
  splitVal x := (x.take 2 (by decide), x.drop 2 2 rfl)
  join hi lo := hi.append lo
/-- src/key.rs:602-612 -/
instance : VebKeyRef (Arr T 4) (Arr T 2) (Arr T 2) where
  splitRef x := (x.dropLastN 2 2 rfl, x.drop 2 2 rfl)

/-- src/key.rs:613-626 -/
instance : VebKey (Arr T 5) (Arr T 2) (Arr T 3) where
  splitVal x := (x.take 2 (by decide), x.drop 2 3 rfl)
  join hi lo := hi.append lo
/-- src/key.rs:627-637 -/
instance : VebKeyRef (Arr T 5) (Arr T 2) (Arr T 3) where
  splitRef x := (x.dropLastN 3 2 rfl, x.drop 2 3 rfl)

/-- src/key.rs:638-651 -/
instance : VebKey (Arr T 6) (Arr T 3) (Arr T 3) where
  splitVal x := (x.take 3 (by decide), x.drop 3 3 rfl)
  join hi lo := hi.append lo
/-- src/key.rs:652-662 -/
instance : VebKeyRef (Arr T 6) (Arr T 3) (Arr T 3) where
  splitRef x := (x.dropLastN 3 3 rfl, x.drop 3 3 rfl)

/-- src/key.rs:663-676 -/
instance : VebKey (Arr T 7) (Arr T 3) (Arr T 4) where
  splitVal x := (x.take 3 (by decide), x.drop 3 4 rfl)
  join hi lo := hi.append lo
/-- src/key.rs:677-687 -/
instance : VebKeyRef (Arr T 7) (Arr T 3) (Arr T 4) where
  splitRef x := (x.dropLastN 4 3 rfl, x.drop 3 4 rfl)

/-- src/key.rs:688-701 -/
instance : VebKey (Arr T 8) (Arr T 4) (Arr T 4) where
  splitVal x := (x.take 4 (by decide), x.drop 4 4 rfl)
  join hi lo := hi.append lo
/-- src/key.rs:702-712 -/
instance : VebKeyRef (Arr T 8) (Arr T 4) (Arr T 4) where
  splitRef x := (x.dropLastN 4 4 rfl, x.drop 4 4 rfl)

/-- src/key.rs:713-729 -/
instance : VebKey (Arr T 16) (Arr T 8) (Arr T 8) where
  splitVal x := (x.take 8 (by decide), x.drop 8 8 rfl)
  join hi lo := hi.append lo
/-- src/key.rs:730-740 -/
instance : VebKeyRef (Arr T 16) (Arr T 8) (Arr T 8) where
  splitRef x := (x.dropLastN 8 8 rfl, x.drop 8 8 rfl)

end Veb
