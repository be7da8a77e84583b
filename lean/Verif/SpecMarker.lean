import Verif.Model.MarkerLang
import Verif.SpecHist

/-!
# Which tree types the markers make
-/

set_option autoImplicit false

namespace Veb

/-- The lengths for which `[T; n]` is a key. -/
def keyLengths : List Nat := [2, 3, 4, 5, 6, 7, 8, 16]

/-- `u8` to `u128`, `i16` to `i128`, and arrays of these of the right lengths, in any nesting. -/
inductive HasTrees : KeyTy → Prop
  | uint {w : Nat} (h : w ∈ [8, 16, 32, 64, 128]) : HasTrees (.uint w)
  | sint {w : Nat} (h : w ∈ [16, 32, 64, 128]) : HasTrees (.sint w)
  | arr {t : KeyTy} {n : Nat} (ht : HasTrees t) (hn : n ∈ keyLengths) : HasTrees (.arr t n)

/-- A key type none of whose parts is an index that does not fit an array: not an integer of 128 bits, no array of signed
integers or of integers of 64 bits or more. -/
inductive FitsArrays : KeyTy → Prop
  | uint {w : Nat} (h : w ≤ 64) : FitsArrays (.uint w)
  | sint {w : Nat} (h : w ≤ 64) : FitsArrays (.sint w)
  | arrU {w n : Nat} (h : w ≤ 32) : FitsArrays (.arr (.uint w) n)
  | arr {t : KeyTy} {m n : Nat} (h : FitsArrays (.arr t m)) : FitsArrays (.arr (.arr t m) n)

/-- No array collection occurs in the marker. -/
def Marker.noArray : Marker → Bool
  | .byteSet => true
  | .byteTree => true
  | .box m => m.noArray
  | .generic m => m.noArray
  | .tree s c => s.noArray && c.noArray
  | .array _ => false
  | .hash m => m.noArray
  | .bytes m => m.noArray

/-- The marker makes a tree type for the key type and the value type. -/
def Marker.Makes (m : Marker) (k : KeyTy) (v : ValTy) : Prop := ∀ W : Type, ∃ T, m.treeOf W k v = some T

/-- The tree type is one of those the theorems are about. -/
def TreeImpl.Crate {k : KeyTy} {V : Type} (T : TreeImpl k.den V) : Prop :=
  ∃ safe, @CrateTree T.Ty k.den V k.order T.inst safe

end Veb
