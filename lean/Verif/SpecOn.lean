import Verif.SpecSame
import Verif.SpecPanic
import Verif.Proof.KeyProps

/-!
# Vocabulary for key types that are right on some of their values only

`U4` and `U2` wrap a `u8` of which only the low bits are in use (src/key.rs:397-539): an index is below the cardinality, and
a `U2` is joined from its halves, only for the values in range.  C05 shows that no other value can be obtained.  Here the
values in range are types of their own, and `CrateTreeOn` puts tree types together whose keys are right on such a part.
-/

set_option autoImplicit false

namespace Veb
open VebKey (splitVal join)

/-! ## The values in range -/

/-- the `U4` values in range -/
def Nib := { x : U4 // U4Ok x }
/-- the `U2` values in range -/
def Crumb := { x : U2 // U2Ok x }
/-- `u8`, its halves in range -/
structure Byte where
  raw : U 8
/-- `i8`, its halves in range -/
structure SByte where
  raw : S 8

/-- as `U4` -/
def Nib.raw (x : Nib) : U4 := x.1
/-- as `U2` -/
def Crumb.raw (x : Crumb) : U2 := x.1

theorem Nib.raw_inj : Function.Injective Nib.raw := fun _ _ => Subtype.ext
theorem Crumb.raw_inj : Function.Injective Crumb.raw := fun _ _ => Subtype.ext
theorem Byte.raw_inj : Function.Injective Byte.raw := by rintro ⟨a⟩ ⟨b⟩ h; simpa using h
theorem SByte.raw_inj : Function.Injective SByte.raw := by rintro ⟨a⟩ ⟨b⟩ h; simpa using h

/-- compared as `U4` -/
instance : LinearOrder Nib := LinearOrder.lift' Nib.raw Nib.raw_inj
/-- compared as `U2` -/
instance : LinearOrder Crumb := LinearOrder.lift' Crumb.raw Crumb.raw_inj
/-- compared as `u8` -/
instance : LinearOrder Byte := LinearOrder.lift' Byte.raw Byte.raw_inj
/-- compared as `i8` -/
instance : LinearOrder SByte := LinearOrder.lift' SByte.raw SByte.raw_inj

/-- split and joined as `u8` -/
instance : VebKey Byte Nib Nib where
  splitVal x := (⟨(splitVal x.raw).1, (inverseOn_u8.1 x.raw trivial).1⟩,
    ⟨(splitVal x.raw).2, (inverseOn_u8.1 x.raw trivial).2.1⟩)
  join h l := ⟨join h.raw l.raw⟩
instance : VebKeyRef Byte Nib Nib := ⟨splitVal⟩
/-- split and joined as `i8` -/
instance : VebKey SByte Nib Nib where
  splitVal x := (⟨(splitVal x.raw).1, (inverseOn_u8.1 (x.raw.absDiff S.MIN) trivial).1⟩,
    ⟨(splitVal x.raw).2, (inverseOn_u8.1 (x.raw.absDiff S.MIN) trivial).2.1⟩)
  join h l := ⟨join h.raw l.raw⟩
instance : VebKeyRef SByte Nib Nib := ⟨splitVal⟩
/-- split and joined as `U4` -/
instance : VebKey Nib Crumb Crumb where
  splitVal x := (⟨(splitVal x.raw).1, (inverseOn_u4.1 x.raw x.2).1⟩, ⟨(splitVal x.raw).2, (inverseOn_u4.1 x.raw x.2).2.1⟩)
  join h l := ⟨join h.raw l.raw, (inverseOn_u4.2 h.raw l.raw h.2 l.2).1⟩
instance : VebKeyRef Nib Crumb Crumb := ⟨splitVal⟩
/-- split and joined as `U2` -/
instance : VebKey Crumb Bool Bool where
  splitVal x := splitVal x.raw
  join h l := ⟨join h l, (inverseOn_u2.2 h l trivial trivial).1⟩
instance : VebKeyRef Crumb Bool Bool := ⟨splitVal⟩
/-- indexed as `U4` -/
instance : SizedVebKey Nib where
  cardinalityConst := SizedVebKey.cardinalityConst U4
  cardinality := SizedVebKey.cardinality U4
  index x := SizedVebKey.index x.raw
/-- indexed as `U2` -/
instance : SizedVebKey Crumb where
  cardinalityConst := SizedVebKey.cardinalityConst U2
  cardinality := SizedVebKey.cardinality U2
  index x := SizedVebKey.index x.raw

/-! ## Tree types over such keys -/

/-- A collection of the crate over indices of type `Hi'` of which those of the form `πh h` are used.  An array needs to be
right for these only. -/
inductive CrateCollOn : (C' Hi' T' Lo' V Hi : Type) → [LinearOrder Hi] → [VebTree T' Lo' V] →
    [TreeCollection C' Hi' T' Lo' V] → (Hi → Hi') → Prop
  | array {Hi' T' Lo' V Hi : Type} [LinearOrder Hi] [SizedVebKey Hi] [SizedVebKey Hi'] [VebTree T' Lo' V] {πh : Hi → Hi'}
      (h : GoodIndex Hi) (hx : ∀ h, SizedVebKey.index (πh h) = SizedVebKey.index h)
      (hn : SizedVebKey.cardinality Hi' = SizedVebKey.cardinality Hi) : CrateCollOn (ArrayColl Hi' T') Hi' T' Lo' V Hi πh
  | crate {C' Hi' T' Lo' V Hi : Type} [LinearOrder Hi] [LinearOrder Hi'] [VebTree T' Lo' V] [TreeCollection C' Hi' T' Lo' V]
      {πh : Hi → Hi'} (hi : Function.Injective πh) (h : CrateColl C' Hi' T' Lo' V) : CrateCollOn C' Hi' T' Lo' V Hi πh
  | box {C' Hi' T' Lo' V Hi : Type} [LinearOrder Hi] [VebTree T' Lo' V] [TreeCollection C' Hi' T' Lo' V] {πh : Hi → Hi'}
      (h : CrateCollOn C' Hi' T' Lo' V Hi πh) : CrateCollOn (Box C') Hi' T' Lo' V Hi πh

/-- `CrateTreeOn T' K' V K π safe`: `T'` is a tree type that can be put together from the crate, over keys of type `K'` of
which those of the form `π k` are used, and `safe` the insertions it handles correctly.  Only the used keys need to be split
and joined correctly, at every level. -/
inductive CrateTreeOn : (T' K' V K : Type) → [LinearOrder K] → [VebTree T' K' V] → (K → K') →
    ((K → Prop) → K → Prop) → Prop
  | leaf {T' K' V K : Type} [LinearOrder K] [LinearOrder K'] [VebTree T' K' V] {π : K → K'} (hm : StrictMono π)
      (h : CrateTree T' K' V always) : CrateTreeOn T' K' V K π always
  | box {T' K' V K : Type} [LinearOrder K] [VebTree T' K' V] {π : K → K'} {safe : (K → Prop) → K → Prop}
      (h : CrateTreeOn T' K' V K π safe) : CrateTreeOn (Box T') K' V K π safe
  | sized {T' K' V K : Type} [LinearOrder K] [VebTree T' K' V] {π : K → K'} {safe : (K → Prop) → K → Prop}
      (h : CrateTreeOn T' K' V K π safe) : CrateTreeOn (SizedVebTree T') K' V K π (sizedSafe safe)
  | tree {K' V S' C' Hi' Lo' T' K Hi Lo : Type} [LinearOrder K] [LinearOrder K'] [LinearOrder Hi] [LinearOrder Lo]
      [VebKey K Hi Lo] [VebKeyRef K Hi Lo] [VebKey K' Hi' Lo'] [VebKeyRef K' Hi' Lo'] [VebTree S' Hi' Unit]
      [VebTree T' Lo' V] [TreeCollection C' Hi' T' Lo' V] {π : K → K'} {πh : Hi → Hi'} {πl : Lo → Lo'}
      {safeS : (Hi → Prop) → Hi → Prop} {safeT : (Lo → Prop) → Lo → Prop} (hk : GoodKey K Hi Lo) (hm : StrictMono π)
      (hf : KeyForgets π πh πl) (hs : CrateTreeOn S' Hi' Unit Hi πh safeS) (ht : CrateTreeOn T' Lo' V Lo πl safeT)
      (hc : CrateCollOn C' Hi' T' Lo' V Hi πh) : CrateTreeOn (Tree K' V S' C') K' V K π (Tree.Safe safeS safeT)

end Veb
