import Verif.Spec.Json
import Mathlib.Data.List.Forall2

/-! The JSON messages of VSYS and Filenet nodes. -/

namespace Verif.Spec
open Verif

/-- A transfer for a VSYS node: the members in alphabetical order, numbers in decimal digits. -/
def IsVsysBody (amount fee feeScale timestamp : Nat) (attachment recipient key signature : Bytes) (text : Bytes) : Prop :=
  ∃ a f s t : Bytes, IsDigits a amount ∧ IsDigits f fee ∧ IsDigits s feeScale ∧ IsDigits t timestamp ∧
    IsJson text (.obj [(asc "amount", .num a), (asc "attachment", .str attachment), (asc "fee", .num f), (asc "feeScale", .num s),
      (asc "recipient", .str recipient), (asc "senderPublicKey", .str key), (asc "signature", .str signature), (asc "timestamp", .num t)])

/-- One payment of a Filenet transfer. -/
def IsPayment (p : Bytes × Nat) (j : Json) : Prop := ∃ v, IsDigits v p.2 ∧ j = .obj [(asc "to", .str p.1), (asc "value", .num v)]

/-- A transfer for a Filenet node. -/
def IsFilenetBody (txid sender : Bytes) (count total : Nat) (time : Int) (payments : List (Bytes × Nat)) (signature : Bytes) (text : Bytes) : Prop :=
  ∃ (c v t : Bytes) (l : List Json), IsDigits c count ∧ IsDigits v total ∧ IsDecimal t time ∧ List.Forall₂ IsPayment payments l ∧
    IsJson text (.obj [(asc "txid", .str txid), (asc "from", .str sender), (asc "tocount", .num c), (asc "value", .num v), (asc "timestamp", .num t),
      (asc "transferdetails", .arr l), (asc "sign", .str signature)])

end Verif.Spec
