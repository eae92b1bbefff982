import Verif.Model.Polkadot
import Verif.Model.Fiii

/-! The JSON text a Polkadot transfer is handed around in: `ToJSONString`, `NewTxStructFromJSON` and the two functions of transaction.go on texts.
The model of Go's `encoding/json` is `Verif.Json`; reading a struct field by field (`setFields`, `toStruct`) is shared with `fiiiTransaction`. -/

namespace Verif.Polkadot
open Verif Verif.Spec Verif.Json
open Verif.Fiii (toStr toStruct)

/-- The JSON form [txStruct.go:10-23]. -/
def txJson (ts : TxStruct) : Json :=
  .obj [(asc "sender_pubkey", .str ts.senderPubkey), (asc "recipient_pubkey", .str ts.recipientPubkey), (asc "amount", .num (formatNat ts.amount.toNat)),
    (asc "nonce", .num (formatNat ts.nonce.toNat)), (asc "fee", .num (formatNat ts.fee.toNat)), (asc "block_height", .num (formatNat ts.blockHeight.toNat)),
    (asc "block_hash", .str ts.blockHash), (asc "genesis_hash", .str ts.genesisHash), (asc "spec_version", .num (formatNat ts.specVersion.toNat)),
    (asc "txVersion", .num (formatNat ts.txVersion.toNat))]

/-- `ToJSONString` [txStruct.go:85-89]. -/
def toText (ts : TxStruct) : Bytes := marshal (txJson ts)

/-- `strconv.ParseUint(s, 10, 64)` of a number of a JSON text, with the overflow check of `encoding/json` for a field of `bits` bits. -/
def parseUint (bits : Nat) (t : Bytes) : Option Nat :=
  if t ≠ [] ∧ t.all isDigit ∧ parseInt.decVal t < 2 ^ bits then some (parseInt.decVal t) else none

/-- A `uint64` field. -/
def toU64 (cur : UInt64) : Json → Option UInt64
  | .null => some cur
  | .num t => (parseUint 64 t).map UInt64.ofNat
  | _ => none

/-- A `uint32` field. -/
def toU32 (cur : UInt32) : Json → Option UInt32
  | .null => some cur
  | .num t => (parseUint 32 t).map UInt32.ofNat
  | _ => none

/-- The names of the fields [txStruct.go:13-22]. -/
def txNames : List Bytes :=
  [asc "sender_pubkey", asc "recipient_pubkey", asc "amount", asc "nonce", asc "fee", asc "block_height", asc "block_hash", asc "genesis_hash",
    asc "spec_version", asc "txVersion"]

/-- The fields in the order of the names. -/
def setTx (t : TxStruct) : Nat → Json → Option TxStruct
  | 0, v => (toStr t.senderPubkey v).map fun x => { t with senderPubkey := x }
  | 1, v => (toStr t.recipientPubkey v).map fun x => { t with recipientPubkey := x }
  | 2, v => (toU64 t.amount v).map fun x => { t with amount := x }
  | 3, v => (toU64 t.nonce v).map fun x => { t with nonce := x }
  | 4, v => (toU64 t.fee v).map fun x => { t with fee := x }
  | 5, v => (toU64 t.blockHeight v).map fun x => { t with blockHeight := x }
  | 6, v => (toStr t.blockHash v).map fun x => { t with blockHash := x }
  | 7, v => (toStr t.genesisHash v).map fun x => { t with genesisHash := x }
  | 8, v => (toU32 t.specVersion v).map fun x => { t with specVersion := x }
  | _, v => (toU32 t.txVersion v).map fun x => { t with txVersion := x }

/-- `TxStruct{}`. -/
def zeroTx : TxStruct := ⟨[], [], 0, 0, 0, 0, [], [], 0, 0⟩

/-- `NewTxStructFromJSON` [txStruct.go:91-102]; `fold` is the comparison of names up to case of `encoding/json`. -/
def fromText (fold : Bytes → Bytes → Bool) (text : Bytes) : Option TxStruct :=
  match parse text with
  | none => none
  | some j => toStruct fold txNames setTx zeroTx j

/-- `CreateEmptyTransactionAndMessage` [transaction.go:9-17]. -/
def createText (ts : TxStruct) (transferCode : Bytes) : Res (Bytes × Bytes) := do
  let (ts, m) ← createEmpty ts transferCode
  .ok (toText ts, m)

/-- `SignTransaction` [transaction.go:19-35]; `sign key data` is `owcrypt.Signature` on Ed25519, `none` its failure. -/
def signTransaction (sign : Bytes → Bytes → Option Bytes) (msg prikey : Bytes) : Res Bytes :=
  match Hex.decode msg with
  | .ok m =>
    if m.length = 0 then .err
    else if prikey.length ≠ 32 then .err
    else match sign prikey m with
      | none => .err
      | some s => .ok s
  | _ => .err

/-- `VerifyAndCombineTransaction` [transaction.go:37-67] on the text. -/
def combineText (fold : Bytes → Bytes → Bool) (verify : Bytes → Bytes → Bytes → Bool) (transferCode text signature : Bytes) : Res (Bytes × Bool) :=
  match fromText fold text with
  | none => .ok ([], false)
  | some ts => verifyAndCombine verify transferCode ts signature

end Verif.Polkadot
