import Verif.Spec.Omni
import Verif.Spec.Btc
import Verif.Model.Omni

/-! The Omni message that a request stands for, for all twelve message types of the package, written from the Omni protocol specification. -/

namespace Verif.Spec.Omni
open Verif Verif.Spec

/-- The data of the message for a request: type, property, amount, ecosystem, text (ended by a zero byte), address (version and hash). -/
def IsWanted (H : Hashes) (o : Verif.Omni.OmniStruct) (d : Bytes) : Prop :=
  ∃ f, IsMessage d o.txType.toNat f ∧
    (((o.txType = 0 ∨ o.txType = 22) ∧ f.length = 12 ∧ num f 0 4 = o.propertyId.toNat ∧ num f 4 8 = o.amount.toNat) ∨
    ((o.txType = 53 ∨ o.txType = 70 ∨ o.txType = 71 ∨ o.txType = 72) ∧ f.length = 4 ∧ num f 0 4 = o.propertyId.toNat) ∨
    ((o.txType = 4 ∨ o.txType = 28) ∧ f = [o.ecosystem]) ∨
    ((o.txType = 55 ∨ o.txType = 56) ∧ num f 0 4 = o.propertyId.toNat ∧ num f 4 8 = o.amount.toNat ∧ f.drop 12 = o.memo ++ [0]) ∨
    ((o.txType = 185 ∨ o.txType = 186) ∧ num f 0 4 = o.propertyId.toNat ∧ num f 4 8 = o.amount.toNat ∧
      ∃ ver hash, hash.length = 20 ∧ IsBase58Check H Btc.alphabet ver hash o.address ∧ f.drop 12 = ver ++ hash))

/-- The requests for which the package writes such a message: a known type, a text of at most 54 bytes, an address with one version byte. -/
def Expressible (H : Hashes) (o : Verif.Omni.OmniStruct) : Prop :=
  o.txType ∈ ([0, 4, 22, 28, 53, 70, 71, 72] : List Int) ∨ ((o.txType = 55 ∨ o.txType = 56) ∧ o.memo.length ≤ 54) ∨
  ((o.txType = 185 ∨ o.txType = 186) ∧ ∃ v hash, hash.length = 20 ∧ IsBase58Check H Btc.alphabet [v] hash o.address)

end Verif.Spec.Omni
