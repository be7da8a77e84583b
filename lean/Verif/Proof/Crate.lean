import Verif.SpecHist
import Verif.Proof.Mono
import Verif.Proof.Collection
import Verif.Proof.Wrappers
import Verif.Proof.BTreeMap
import Verif.Proof.ByteMap
import Verif.Proof.KeyLaws
import Verif.Proof.Refine

/-!
Every tree type of the crate is lawful.
-/

set_option autoImplicit false

namespace Veb

theorem GoodKey.lawful {K Hi Lo : Type} [LinearOrder K] [LinearOrder Hi] [LinearOrder Lo]
    [VebKey K Hi Lo] [VebKeyRef K Hi Lo] (h : GoodKey K Hi Lo) : LawfulVebKey K Hi Lo :=
  ⟨h.rejoin, h.ref, h.order⟩

theorem goodKey {K Hi Lo : Type} [LinearOrder K] [LinearOrder Hi] [LinearOrder Lo]
    [VebKey K Hi Lo] [VebKeyRef K Hi Lo] [L : LawfulVebKey K Hi Lo] : GoodKey K Hi Lo :=
  ⟨L.join_split, L.ref_eq, L.lt_iff⟩

theorem GoodIndex.lawful {K : Type} [SizedVebKey K] (h : GoodIndex K) : LawfulSizedKey K :=
  ⟨h.lt, h.inj, h.fits⟩

theorem goodIndex {K : Type} [SizedVebKey K] [L : LawfulSizedKey K] : GoodIndex K :=
  ⟨L.index_lt, L.index_inj, L.card_le⟩

theorem CrateColl.lawful {C Hi T Lo V : Type} [LinearOrder Hi] [VebTree T Lo V] [TreeCollection C Hi T Lo V]
    (h : CrateColl C Hi T Lo V) : Nonempty (LawfulColl C Hi T Lo V) := by
  induction h with
  | array h => have := h.lawful; exact ⟨inferInstance⟩
  | hash => exact ⟨inferInstance⟩
  | byte => exact ⟨inferInstance⟩
  | box _ ih => obtain ⟨L⟩ := ih; exact ⟨inferInstance⟩

theorem CrateTree.lawful {T K V : Type} [LinearOrder K] [VebTree T K V] {safe : (K → Prop) → K → Prop}
    (h : CrateTree T K V safe) :
    ∃ L : LawfulVebTree T K V, L.Safe = safe ∧ MonoSafe T K V := by
  induction h with
  | byteSet => exact ⟨inferInstance, rfl, inferInstance⟩
  | byteMap => exact ⟨inferInstance, rfl, inferInstance⟩
  | btreeMap => exact ⟨inferInstance, rfl, inferInstance⟩
  | box _ ih => obtain ⟨L, rfl, M⟩ := ih; exact ⟨inferInstance, rfl, inferInstance⟩
  | sized _ ih => obtain ⟨L, rfl, M⟩ := ih; exact ⟨inferInstance, rfl, inferInstance⟩
  | tree hk _ _ hc ihs iht =>
    have := hk.lawful
    obtain ⟨LC⟩ := hc.lawful
    obtain ⟨LS, rfl, MS⟩ := ihs
    obtain ⟨LT, rfl, MT⟩ := iht
    exact ⟨inferInstance, rfl, inferInstance⟩

end Veb
