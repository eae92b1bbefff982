import Verif.Model.Json
import Verif.Model.Base64
import Verif.Model.Btc
import Verif.Model.Bech32

/-! Model of `cosmosTransaction` and `evaioTransaction`. The two packages are the same text except for `NewSig`/`Sig` and `TxSend` (see below) and the
length argument of `owcrypt.Hash`, which SHA256 ignores. Bech32 of both packages [bech32.go:142-224] is the text of
`addressEncoder/bech32` with a nil `payloadPrefix`, see `Model/Bech32.lean`. The functions `Int`, `LT`, `ZeroInt` of coin.go have no effect on
transactions and are left out. -/

namespace Verif.Cosmos
open Verif Verif.Spec Verif.Json

/-- A Go slice: `none` is nil. -/
abbrev Slice (α : Type) := Option (List α)

/-- `json.Marshal` of a slice. -/
def sliceJson {α : Type} (f : α → Json) : Slice α → Json
  | none => .null
  | some l => .arr (l.map f)

/-- `Coin` [coin.go:12-15]. -/
structure Coin where
  amount : Bytes
  denom : Bytes
deriving DecidableEq

/-- `NewCoin` [coin.go:37-47]. -/
def newCoin (denom : Bytes) (amount : Int) : Coin :=
  if amount = 0 then ⟨[], []⟩ else ⟨formatInt amount, denom⟩

/-- `FeeStruct` [fee.go:5-8]. -/
structure FeeStruct where
  amount : Slice Coin
  gas : Bytes
deriving DecidableEq

/-- `NewStdFee` [fee.go:10-23]. -/
def newStdFee (gas : Int) (amount : Slice Coin) : FeeStruct :=
  match amount with
  | none => ⟨some [], formatInt gas⟩
  | some l => ⟨some l, formatInt gas⟩

/-- `MsgSend` [message.go:3-7]. -/
structure MsgSend where
  amount : Slice Coin
  fromAddress : Bytes
  toAddress : Bytes
deriving DecidableEq

/-- `Message` [message.go:9-12]. -/
structure Message where
  type : Bytes
  value : MsgSend
deriving DecidableEq

/-- `NewMsgSend` [message.go:14-16]. -/
def newMsgSend (fromAddr toAddr : Bytes) (amount : Slice Coin) : MsgSend := ⟨amount, fromAddr, toAddr⟩

/-- `NewMessage` [message.go:18-20]. -/
def newMessage (msgType : Bytes) (value : MsgSend) : Message := ⟨msgType, value⟩

/-- `TxStruct` [txStruct.go:5-12]. -/
structure TxStruct where
  accountNumber : Bytes
  chainID : Bytes
  fee : FeeStruct
  memo : Bytes
  message : Slice Message
  sequence : Bytes
deriving DecidableEq

/-- `NewTxStruct` [txStruct.go:14-26]: the transaction, and the fee the pointer refers to afterwards. -/
def newTxStruct (chainID memo : Bytes) (accountNumber sequence : Int) (fee : FeeStruct) (message : Slice Message) : Res (TxStruct × FeeStruct) := do
  let first ← index (fee.amount.getD []) 0
  let fee := if first.amount = [] then { fee with amount := some [] } else fee
  .ok (⟨formatInt accountNumber, chainID, fee, memo, message, formatInt sequence⟩, fee)

/-! ### JSON forms: the fields in the order of declaration, under the names of the tags -/

/-- [coin.go:12-15]. -/
def coinJson (c : Coin) : Json := .obj [(asc "amount", .str c.amount), (asc "denom", .str c.denom)]
/-- [fee.go:5-8]. -/
def feeJson (f : FeeStruct) : Json := .obj [(asc "amount", sliceJson coinJson f.amount), (asc "gas", .str f.gas)]
/-- [message.go:3-12]. -/
def messageJson (m : Message) : Json :=
  .obj [(asc "type", .str m.type),
    (asc "value", .obj [(asc "amount", sliceJson coinJson m.value.amount), (asc "from_address", .str m.value.fromAddress),
      (asc "to_address", .str m.value.toAddress)])]
/-- [txStruct.go:5-12]. -/
def txJson (t : TxStruct) : Json :=
  .obj [(asc "account_number", .str t.accountNumber), (asc "chain_id", .str t.chainID), (asc "fee", feeJson t.fee), (asc "memo", .str t.memo),
    (asc "msgs", sliceJson messageJson t.message), (asc "sequence", .str t.sequence)]

/-- `CreateEmptyTransactionAndHash` [transaction.go:13-23]; `Marshal` cannot fail on these types. -/
def createEmptyTransactionAndHash (H : Hashes) (tx : TxStruct) : Bytes × Bytes :=
  let txBytes := marshal (txJson tx)
  (txBytes, Hex.encode (H.hash .sha256 txBytes))

/-- `SignTransactionHash` [transaction.go:49-66]. `sign key hash` is `owcrypt.Signature` on secp256k1: the bytes and whether the return code is
SUCCESS. `serilizeS` [transaction.go:30-47] is the text of `btcTransaction`; its `sig[32:]` panics on short results, which are not excluded by the
check of the return code, as this comes later. -/
def signTransactionHash (sign : Bytes → Bytes → Bytes × Bool) (txHash prikey : Bytes) : Res Bytes := do
  let hash ← Hex.decode txHash
  if hash.length ≠ 32 ∨ prikey.length ≠ 32 then .err
  else
    let sig := sign prikey hash
    if sig.1.length < 32 then .panic
    else if sig.2 then .ok (Hex.encode (Btc.serilizeS sig.1)) else .err

/-- `VerifyTransactionSig` [transaction.go:68-82]. `verify pub hash sig` is `owcrypt.Verify` on secp256k1. -/
def verifyTransactionSig (H : Hashes) (verify : Bytes → Bytes → Bytes → Bool) (emptyTrans signature pubkey : Bytes) : Bool :=
  match Hex.decode signature with
  | .ok sig => verify pubkey (H.hash .sha256 emptyTrans) sig
  | _ => false

/-- `NewPub` and its JSON form [txSend.go:5-15]. -/
def pubJson (pubkey curveType : Bytes) : Json := .obj [(asc "type", .str curveType), (asc "value", .str (Base64.encode pubkey))]

/-- `NewTx` and its JSON form [txSend.go:33-47]. -/
def stdTxJson (t : TxStruct) (signature : Json) : Json :=
  .obj [(asc "msg", sliceJson messageJson t.message), (asc "fee", feeJson t.fee), (asc "memo", .str t.memo), (asc "signatures", .arr [signature])]

/-- `CreateJsonForSend` of `cosmosTransaction` [transaction.go:84-100, txSend.go:17-31, 49-59]: the text behind the `gjson.Result`. -/
def createJsonForSend (t : TxStruct) (signature pubkey keyType sendMode : Bytes) : Res Bytes := do
  let sig ← Hex.decode signature
  let sigJson : Json := .obj [(asc "signature", .str (Base64.encode sig)), (asc "pub_key", pubJson pubkey keyType),
    (asc "account_number", .str t.accountNumber), (asc "sequence", .str t.sequence)]
  .ok (marshal (.obj [(asc "tx", stdTxJson t sigJson), (asc "mode", .str sendMode)]))

/-- `CreateJsonForSend` of `evaioTransaction` [evaioTransaction/transaction.go:84-100, txSend.go:17-31, 49-60]: no account number and sequence in the
signature, the mode first. -/
def createJsonForSendEvaio (t : TxStruct) (signature pubkey keyType sendMode : Bytes) : Res Bytes := do
  let sig ← Hex.decode signature
  let sigJson : Json := .obj [(asc "signature", .str (Base64.encode sig)), (asc "pub_key", pubJson pubkey keyType)]
  .ok (marshal (.obj [(asc "mode", .str sendMode), (asc "tx", stdTxJson t sigJson)]))

/-- `Bech32Encode` [bech32.go:142-157]. -/
def bech32Encode (hrp alphabet payload : Bytes) : Res Bytes := Bech32.encode hrp alphabet payload []

/-- `Bech32Decode` [bech32.go:159-224]. -/
def bech32Decode (address : Bytes) : Res Bytes := Bech32.decode address

end Verif.Cosmos
