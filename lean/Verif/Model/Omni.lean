import Verif.Model.Btc

/-! Model of the parts of package `omniTransaction` that differ from `btcTransaction`: the OP_RETURN payload of an Omni Layer
transaction and the creation of the outputs. The other files (base58.go, bech32.go, SignaturePubkey.go, txHash.go, txIn.go,
txMultiSig.go, serialisation and parsing in txStruct.go) are copies of those of `btcTransaction` and modelled by `Verif.Btc`, always with
segregated witness off. -/

namespace Verif.Omni
open Verif

/-- `OmniStruct` [txOmni.go:3-10]. `txType` is a Go int. -/
structure OmniStruct where
  txType : Int
  propertyId : UInt32
  amount : UInt64
  ecosystem : UInt8
  memo : Bytes
  address : Bytes

/-- The common beginning: message version 0 and message type [e.g. txPayload.go:4-10]. -/
def head (messageType : Nat) : Bytes := beBytes 2 0 ++ beBytes 2 messageType

/-- `createPayloadSimpleSend`, `createPayloadDExAccept` [txPayload.go:3-15, 30-42]. -/
def propertyAmount (ty : Nat) (o : OmniStruct) : Bytes := head ty ++ beBytes 4 o.propertyId.toNat ++ beBytes 8 o.amount.toNat

/-- `createPayloadSendAll`, `createPayloadMetaDExCancelEcosystem` [txPayload.go:17-28, 178-189]. -/
def ecosystemOnly (ty : Nat) (o : OmniStruct) : Bytes := head ty ++ [o.ecosystem]

/-- `createPayloadCloseCrowdsale`, `…ChangeIssuer`, `…EnableFreezing`, `…DisableFreezing` [txPayload.go:44-55, 97-134]. -/
def propertyOnly (ty : Nat) (o : OmniStruct) : Bytes := head ty ++ beBytes 4 o.propertyId.toNat

/-- `createPayloadGrant`, `createPayloadRevoke` [txPayload.go:57-95]: the memo is cut at 255 bytes and terminated by a zero. -/
def withMemo (ty : Nat) (o : OmniStruct) : Bytes :=
  propertyAmount ty o ++ (if o.memo.length > 255 then o.memo.take 255 else o.memo) ++ [0]

/-- `createPayloadFreezeTokens`, `createPayloadUnfreezeTokens` [txPayload.go:136-176]: nil when the address does not decode. -/
def withAddress (H : Hashes) (ty : Nat) (o : OmniStruct) : Res Bytes :=
  match Btc.decodeCheck H o.address with
  | .ok (pre, hash) => .ok (propertyAmount ty o ++ pre ++ hash)
  | .err => .ok []
  | .panic => .panic

/-- The `switch` of `getPayload` [txOmni.go:14-53] with the constants of txProfile.go:15-28; `none` is `return nil`. -/
def body (H : Hashes) (o : OmniStruct) : Res (Option Bytes) :=
  if o.txType = 0 then .ok (some (propertyAmount 0 o))
  else if o.txType = 4 then .ok (some (ecosystemOnly 4 o))
  else if o.txType = 22 then .ok (some (propertyAmount 22 o))
  else if o.txType = 28 then .ok (some (ecosystemOnly 28 o))
  else if o.txType = 53 then .ok (some (propertyOnly 53 o))
  else if o.txType = 55 then .ok (some (withMemo 55 o))
  else if o.txType = 56 then .ok (some (withMemo 56 o))
  else if o.txType = 70 then .ok (some (propertyOnly 70 o))
  else if o.txType = 71 then .ok (some (propertyOnly 71 o))
  else if o.txType = 72 then .ok (some (propertyOnly 72 o))
  else if o.txType = 185 then do
    let b ← withAddress H 185 o
    .ok (some b)
  else if o.txType = 186 then do
    let b ← withAddress H 186 o
    .ok (some b)
  else .ok none

/-- `getPayload` [txOmni.go:12-58]; a nil result is the empty script. -/
def getPayload (H : Hashes) (o : OmniStruct) : Res Bytes := do
  let b ← body H o
  match b with
  | none => .ok []
  | some b =>
    let p := [0x6f, 0x6d, 0x6e, 0x69] ++ b
    .ok (0x6a :: UInt8.ofNat p.length :: p)

/-- One iteration of the loop of `newTxOutForEmptyTrans` [txOut.go:25-61]: after a bech32 output there is no `continue`, so the same
address is decoded as Base58Check as well. -/
def newTxOut (H : Hashes) (P : Btc.AddressPrefix) (v : Btc.Vout) : Res (List Btc.TxOut) := do
  let amount := leBytes 8 v.amount.toNat
  let first ← if P.bech32.isPrefixOf v.address then
      match Bech32.decode v.address with
      | .ok redeem => Res.ok [{ amount := amount, lockScript := 0x00 :: UInt8.ofNat redeem.length :: redeem : Btc.TxOut }]
      | .err => .err
      | .panic => .panic
    else .ok []
  match Btc.decodeCheck H v.address with
  | .ok (pre, hash) =>
    if hash.length ≠ 0x14 then .err
    else
      let hash := 0xa9 :: UInt8.ofNat hash.length :: hash
      if pre = P.p2pkh then .ok (first ++ [{ amount := amount, lockScript := 0x76 :: (hash ++ [0x88, 0xac]) }])
      else if pre = P.p2wpkh then .ok (first ++ [{ amount := amount, lockScript := hash ++ [0x87] }])
      else .err
  | .err => .err
  | .panic => .panic

/-- The loop itself. -/
def newTxOutLoop (H : Hashes) (P : Btc.AddressPrefix) : List Btc.Vout → Res (List Btc.TxOut)
  | [] => .ok []
  | v :: vs => do
    let o ← newTxOut H P v
    let os ← newTxOutLoop H P vs
    .ok (o ++ os)

/-- `newTxOutForEmptyTrans` [txOut.go:13-66]: the payload is the last output, with amount zero. -/
def newTxOuts (H : Hashes) (P : Btc.AddressPrefix) (vs : List Btc.Vout) (o : OmniStruct) : Res (List Btc.TxOut) :=
  if vs = [] then .err
  else do
    let outs ← newTxOutLoop H P vs
    let p ← getPayload H o
    .ok (outs ++ [{ amount := leBytes 8 0, lockScript := p }])

/-- `newEmptyTransaction` [txStruct.go:15-34] followed by `encodeToBytes(false)`: `CreateEmptyRawTransaction`
[transaction.go:27-39]. -/
def createEmptyRawTransaction (H : Hashes) (vins : List Btc.Vin) (vouts : List Btc.Vout) (o : OmniStruct) (lockTime : UInt32)
    (replaceable : Bool) (P : Btc.AddressPrefix) : Res Bytes := do
  let ins ← Btc.newTxIns vins
  let outs ← newTxOuts H P vouts o
  let b ← Btc.encodeTx false
    { version := leBytes 4 2
      vins := ins.map (Btc.setSequence lockTime replaceable)
      vouts := outs
      lockTime := leBytes 4 lockTime.toNat
      witness := false }
  .ok (Hex.encode b)

/-- `CreateRawTransactionHashForSig` [transaction.go:41-53]: the function of `btcTransaction` with the flag fixed to false. -/
def createHashes (H : Hashes) (txHex : Bytes) (us : List Btc.TxUnlock) (P : Btc.AddressPrefix) : Res (List Btc.TxHash) :=
  Btc.createHashes H txHex us false P

/-- `InsertSignatureIntoEmptyTransaction` [transaction.go:64-163]: the function of `btcTransaction` with the flag fixed to false. -/
def insertSignatures (H : Hashes) (txHex : Bytes) (hashes : List Btc.TxHash) (us : List Btc.TxUnlock) : Res Bytes :=
  Btc.insertSignatures H txHex hashes us false

/-- `VerifyRawTransaction` [transaction.go:165-232]: the function of `btcTransaction` with the flag fixed to false. -/
def verifyRaw (H : Hashes) (C : Btc.Curve) (txHex : Bytes) (us : List Btc.TxUnlock) (P : Btc.AddressPrefix) : Res Bool :=
  Btc.verifyRaw H C txHex us false P

end Verif.Omni
