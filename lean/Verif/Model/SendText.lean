import Verif.Model.Vsys
import Verif.Model.Filenet
import Verif.Model.Cosmos

/-! The JSON texts that `virtualeconomyTransaction` and `filenetTransaction` return for the node. The model of Go's `encoding/json` is `Verif.Json`. -/

namespace Verif
open Verif.Spec Verif.Json

namespace Vsys

/-- `json.Marshal(body)` [virtualeconomyTransaction/transaction.go:115-124]: a map, whose keys Go writes in byte order. -/
def bodyJson (j : Body) : Json :=
  .obj [(asc "amount", .num (formatNat j.amount.toNat)), (asc "attachment", .str j.attachment), (asc "fee", .num (formatNat j.fee.toNat)),
    (asc "feeScale", .num (formatNat j.feeScale.toNat)), (asc "recipient", .str j.recipient), (asc "senderPublicKey", .str j.senderPublicKey),
    (asc "signature", .str j.signature), (asc "timestamp", .num (formatNat j.timestamp))]

/-- `CreateJSONRawForSendTransaction` [virtualeconomyTransaction/transaction.go:101-129]; the text that the returned `gjson.Result` holds. -/
def createJSONText (emptyTrans sig pub : Bytes) : Res Bytes := do
  let j ← createJSON emptyTrans sig pub
  .ok (marshal (bodyJson j))

end Vsys

namespace Filenet

/-- `int64(n)`. -/
def int64 (n : UInt64) : Int := if n.toNat < 2 ^ 63 then (n.toNat : Int) else (n.toNat : Int) - 2 ^ 64

/-- `TransferDetail` [filenetTransaction/txStruct.go:109-112]. -/
def detailJson (d : Bytes × UInt64) : Json := .obj [(asc "to", .str d.1), (asc "value", .num (formatNat d.2.toNat))]

/-- `Transfer` [filenetTransaction/txStruct.go:98-106]. The list of payments is never nil (`make`). -/
def transferJson (t : Transfer) : Json :=
  .obj [(asc "txid", .str t.txId), (asc "from", .str t.from_), (asc "tocount", .num (formatNat t.toCount.toNat)),
    (asc "value", .num (formatNat t.value.toNat)), (asc "timestamp", .num (formatInt (int64 t.timestamp))),
    (asc "transferdetails", .arr (t.details.map detailJson)), (asc "sign", .str t.sign)]

/-- `VerifyAndCombineTransaction` [filenetTransaction/transaction.go:54-81] with the text. -/
def combineText (H : Hashes) (E : Btc.Curve) (mem : Nat) (emptyTrans signature pubkey : Bytes) : Res (Bytes × Bool) := do
  match ← verifyAndCombine H E mem emptyTrans signature pubkey with
  | none => .ok ([], false)
  | some t => .ok (marshal (transferJson t), true)

end Filenet
end Verif
