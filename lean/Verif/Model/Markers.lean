import Verif.Model.ByteMap
import Verif.Model.Tree

/-!
The predefined tree types: src/markers.rs.  `VebTreeType<K, V, Marker…>` for the value type `()` uses the
`…Empty` markers.  `K` is the key type: `u16`/`i16`, `u32`/`i32`, `u64`/`i64`, which all split into unsigned
halves, and likewise any other key type with those halves.
-/

namespace Veb

/-- `Marker8Empty`, src/markers.rs:19 -/
abbrev Set8 := ByteSet
/-- `Marker8`, src/markers.rs:20 -/
abbrev Map8 (V : Type) := ByteMap V
/-- `Marker16Empty`, src/markers.rs:22-30 -/
abbrev Set16 (K : Type) := Tree K Unit Set8 (ArrayColl (U 8) Set8)
/-- `Marker16`, src/markers.rs:31-39 -/
abbrev Map16 (K V : Type) := Tree K V Set8 (ArrayColl (U 8) (Map8 V))
/-- `Marker32Empty`, src/markers.rs:41-49 -/
abbrev Set32 (K : Type) := Tree K Unit (Set16 (U 16)) (ArrayColl (U 16) (Set16 (U 16)))
/-- `Marker32`, src/markers.rs:50-58 -/
abbrev Map32 (K V : Type) := Tree K V (Set16 (U 16)) (ArrayColl (U 16) (Map16 (U 16) V))
/-- `Marker64Empty`, src/markers.rs:60-68 -/
abbrev Set64 (K : Type) := Tree K Unit (Set32 (U 32)) (ArrayColl (U 32) (Set32 (U 32)))
/-- `Marker64`, src/markers.rs:69-77 -/
abbrev Map64 (K V : Type) := Tree K V (Set32 (U 32)) (ArrayColl (U 32) (Map32 (U 32) V))

section
variable {V : Type}
example : VebTree Set8 (U 8) Unit := inferInstance
example : VebTree (Map8 V) (U 8) V := inferInstance
example : VebTree (Set16 (U 16)) (U 16) Unit := inferInstance
example : VebTree (Map16 (S 16) V) (S 16) V := inferInstance
example : VebTree (Map32 (U 32) V) (U 32) V := inferInstance
example : VebTree (Set64 (S 64)) (S 64) Unit := inferInstance
example : VebTree (Map64 (U 64) V) (U 64) V := inferInstance
end

end Veb
