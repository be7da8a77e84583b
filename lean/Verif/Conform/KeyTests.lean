import Verif.Conform.Basic

/-!
Tests of src/key.rs:742-984, apart from the ignored one.
-/

set_option autoImplicit false
set_option maxRecDepth 100000

namespace Veb.Conform

section
variable {K Hi Lo : Type} [LinearOrder K] [LinearOrder Hi] [LinearOrder Lo] [VebKey K Hi Lo]

/-- `(lh, ll).cmp(&(rh, rl))`: the order of Rust tuples -/
def cmpPair (a b : Hi × Lo) : Ordering := (cmp a.1 b.1).then (cmp a.2 b.2)

/-- the loops over pairs of values in the ordering tests -/
def ordering (l : List K) : R Unit := do
  for x in l do
    for y in l do
      assert (cmp x y == cmpPair (VebKey.splitVal x : Hi × Lo) (VebKey.splitVal y))

/-- the round trips -/
def roundtrip (l : List K) : R Unit := do
  for x in l do
    assert ((let (hi, lo) := (VebKey.splitVal x : Hi × Lo); VebKey.join hi lo : K) == x)
end

def s (w : Nat) (l : List Int) : List (S w) := l.map S.lit
def u (w : Nat) (l : List Nat) : List (U w) := l.map U.lit

/-- src/key.rs:746-760, which takes all values of `i8`; here every third one (C02 has all of them by proof). -/
def signedI8Ordering : R Unit := ordering (s 8 ((List.range 86).map fun n => (n : Int) * 3 - 128))
example : signedI8Ordering = .ok () := by decide +kernel

/-- src/key.rs:762-790 -/
example : ordering (s 16 [-32768, -32767, -1000, -100, -1, 0, 1, 100, 1000, 32766, 32767]) = .ok () := by decide +kernel
/-- src/key.rs:792-819 -/
example : ordering (s 32 [-2147483648, -2147483647, -1000000, -1000, -1, 0, 1, 1000, 1000000, 2147483646, 2147483647]) =
    .ok () := by decide +kernel

/-- src/key.rs:821-851 -/
example : roundtrip (s 8 [-128, -1, 0, 1, 127]) = .ok () := by decide +kernel
example : roundtrip (s 16 [-32768, -1000, -1, 0, 1, 1000, 32767]) = .ok () := by decide +kernel
example : roundtrip (s 32 [-2147483648, -1000000, -1, 0, 1, 1000000, 2147483647]) = .ok () := by decide +kernel
example : roundtrip (s 64 [-9223372036854775808, -1000000000, -1, 0, 1, 1000000000, 9223372036854775807]) = .ok () := by
  decide +kernel

/-- src/key.rs:853-876 -/
example : [0, 1, 2, 3].map (fun n => (U2.ofU8 (n8 n)).toBool) = [false, true, false, true] := by decide +kernel
/-- src/key.rs:878-886 -/
example : roundtrip ((u 8 [0, 1, 2, 3]).map U2.ofU8) = .ok () := by decide +kernel
/-- src/key.rs:888-896 -/
example : roundtrip ((u 8 (List.range 16)).map U4.ofU8) = .ok () := by decide +kernel

/-- src/key.rs:898-928 -/
example : roundtrip (u 8 (List.range 256)) = .ok () := by decide +kernel
example : roundtrip (u 16 [0, 1, 255, 256, 1000, 65534, 65535]) = .ok () := by decide +kernel
example : roundtrip (u 32 [0, 1, 65535, 65536, 1000000, 4294967294, 4294967295]) = .ok () := by decide +kernel
example : roundtrip (u 64 [0, 1, 0xFFFFFFFF, 0x100000000, 18446744073709551614, 18446744073709551615]) = .ok () := by
  decide +kernel

/-- src/key.rs:930-955: `join` after `split_val` for `[u8; 2]`, `[u8; 3]`, `[u8; 4]`, `[u8; 8]` -/
def arrayRoundtrip : R Unit := do
  let a2 : Arr (U 8) 2 := ⟨u 8 [5, 10], rfl⟩
  assert ((let (hi, lo) := VebKey.splitVal a2; VebKey.join hi lo : Arr (U 8) 2).1 == a2.1)
  let a3 : Arr (U 8) 3 := ⟨u 8 [5, 10, 15], rfl⟩
  assert ((let (hi, lo) := VebKey.splitVal a3; VebKey.join hi lo : Arr (U 8) 3).1 == a3.1)
  let a4 : Arr (U 8) 4 := ⟨u 8 [1, 2, 3, 4], rfl⟩
  assert ((let (hi, lo) := VebKey.splitVal a4; VebKey.join hi lo : Arr (U 8) 4).1 == a4.1)
  let a8 : Arr (U 8) 8 := ⟨u 8 [1, 2, 3, 4, 5, 6, 7, 8], rfl⟩
  assert ((let (hi, lo) := VebKey.splitVal a8; VebKey.join hi lo : Arr (U 8) 8).1 == a8.1)
example : arrayRoundtrip = .ok () := by decide +kernel

/-- src/key.rs:957-971 -/
example : ordering ([⟨u 8 [1, 5], rfl⟩, ⟨u 8 [1, 10], rfl⟩, ⟨u 8 [2, 3], rfl⟩] : List (Arr (U 8) 2)) = .ok () := by
  decide +kernel

end Veb.Conform
