import Verif.Model.Verge

/-! Model of package `aliencoinTransaction`. `Vin`, `Vout`, `SigPub`, `TxIn`, `TxOut`, `NewTxIn`, `TxOut.ToBytes` and the Base58 code
[transaction.go:10-19, txIn.go:9-37, txOut.go:12-15, 41-46, base58.go, txUtil.go] are the same text as in `vergeTransaction`; the transaction
structure lacks the time [txStruct.go:14-20], which is the empty list here.
Not modelled: `decodeFromScriptBytes` [txSigPub.go:82-222], which nothing calls. -/

namespace Verif.Alien
open Verif
open Verif.Verge (Vin Vout TxIn TxOut SigPub TxStruct)

/-- `NewTxOut` [txOut.go:17-39] with the prefixes of [txOut.go:7-10]. -/
def newTxOut (H : Hashes) (v : Vout) : Res TxOut := do
  let (p, h) ← Verge.decodeCheck H v.address
  if p = 0x17 then .ok { amount := leBytes 8 v.amount.toNat, script := [0x19, 0x76, 0xa9, 0x14] ++ h ++ [0x88, 0xac] }
  else if p = 0x30 then .ok { amount := leBytes 8 v.amount.toNat, script := [0x17, 0xa9, 0x14] ++ h ++ [0x87] }
  else .err

/-- `NewTxStruct` [txStruct.go:22-43]. -/
def newTxStruct (H : Hashes) (ins : List Vin) (outs : List Vout) (lockTime : UInt32) : Res TxStruct := do
  let i ← HyperCash.mapAll Verge.newTxIn ins
  let o ← HyperCash.mapAll (newTxOut H) outs
  .ok { version := [1, 0, 0, 0], time := [], ins := i, outs := o, lockTime := leBytes 4 lockTime.toNat }

/-- The loop that drops the first byte as long as `r[i] == 0`, `i` counting the steps [txSigPub.go:45-51, 56-62]; reading beyond the end
panics. -/
def strip : Nat → Nat → Bytes → Res Bytes
  | 0, _, r => .ok r
  | n + 1, i, r => do
    let c ← index r i
    if c = 0 then strip n (i + 1) (r.drop 1) else .ok r

/-- r or s as a DER integer body [txSigPub.go:42-52, 53-63]. -/
def derBody (r : Bytes) : Res Bytes := do
  let c ← index r 0
  if c ≥ 0x80 then .ok (0 :: r) else strip 32 0 r

/-- `SigPub.ToBytes` [txSigPub.go:39-80]. -/
def sigPubBytes (sp : SigPub) : Res Bytes := do
  let r ← slice sp.sig 0 32
  let r ← derBody r
  let s ← derBody (sp.sig.drop 32)
  let rs := 0x02 :: UInt8.ofNat r.length :: r ++ 0x02 :: UInt8.ofNat s.length :: s
  let rs := 0x30 :: UInt8.ofNat rs.length :: rs ++ [1]
  let rs := UInt8.ofNat rs.length :: rs ++ 0x21 :: sp.pub
  .ok (UInt8.ofNat rs.length :: rs)

/-- `TxIn.ToBytes` [txIn.go:39-50]. -/
def inToBytes (i : TxIn) : Res Bytes := do
  let s ← match i.sigPub with
    | none => .ok [0]
    | some sp => sigPubBytes sp
  .ok (i.txid ++ i.vout ++ s ++ i.sequence)

/-- `TxStruct.ToBytes` [txStruct.go:45-61]. -/
def toBytes (t : TxStruct) : Res Bytes := do
  let i ← HyperCash.mapAll inToBytes t.ins
  .ok (t.version ++ UInt8.ofNat t.ins.length :: i.flatten ++ UInt8.ofNat t.outs.length :: t.outs.flatMap TxOut.toBytes ++ t.lockTime)

/-- The bytes hashed for input `k` [txStruct.go:65-86]. -/
def hashData (t : TxStruct) (k : Nat) : Bytes :=
  t.version ++ UInt8.ofNat t.ins.length ::
    (t.ins.mapIdx fun j i => i.txid ++ i.vout ++ (if j = k then i.lock else [0]) ++ i.sequence).flatten ++
    UInt8.ofNat t.outs.length :: t.outs.flatMap TxOut.toBytes ++ t.lockTime ++ [1, 0, 0, 0]

/-- `GetHash` [txStruct.go:63-92]. -/
def getHash (H : Hashes) (t : TxStruct) : List Bytes :=
  (List.range t.ins.length).map fun k => Hex.encode (H.hash .doubleSha256 (hashData t k))

/-- `CreateEmptyTransactionAndHash` [transaction.go:21-35]. -/
def createEmpty (H : Hashes) (ins : List Vin) (outs : List Vout) (lockTime : UInt32) : Res (Bytes × List Bytes) := do
  let t ← newTxStruct H ins outs lockTime
  let b ← toBytes t
  .ok (Hex.encode b ++ ins.flatMap (fun v => 0x3a :: v.lock), getHash H t)

/-- `DecodeTxStructRaw` [txStruct.go:94-195]; inputs and outputs are read by the same text as in `vergeTransaction`. -/
def decodeRaw (text : Bytes) : Res (TxStruct × List Bytes) :=
  match OwKeychain.splitOn 0x3a text with
  | [] => .err
  | first :: rest =>
    if rest.length = 0 then .err
    else do
      let tx ← Hex.decode first
      let (version, b) ← Btc.takeN 4 tx
      let (nIns, b) ← Btc.take1 b
      let (ins, b) ← Verge.readMany Verge.readIn nIns.toNat b
      let (nOuts, b) ← Btc.take1 b
      let (outs, b) ← Verge.readMany Verge.readOut nOuts.toNat b
      let (lockTime, b) ← Btc.takeN 4 b
      if b ≠ [] then .err
      else if ins.length ≠ rest.length then .err
      else .ok ({ version := version, time := [], ins := List.zipWith Verge.withLock ins rest, outs := outs, lockTime := lockTime }, rest)

/-- `SignTransaction` [transaction.go:37-49] and `serilizeS` [txSigPub.go:20-37] are the same text as in `vergeTransaction`. -/
def signTransaction (sign : Bytes → Bytes → Option Bytes) (hashText key : Bytes) : Res Bytes := Verge.signTransaction sign hashText key

/-- `VerifyAndCombineTransaction` [transaction.go:51-75]: an error is the answer `false`, so only the text is returned. -/
def verifyAndCombine (H : Hashes) (E : Btc.Curve) (emptyTrans : Bytes) (sps : List SigPub) : Res Bytes := do
  let (t, _) ← decodeRaw emptyTrans
  if sps.length = 0 ∨ sps.length ≠ t.ins.length then .err
  else do
    let is ← Verge.signLoop E (getHash H t) sps t.ins
    let b ← toBytes { t with ins := is }
    .ok (Hex.encode b)

end Verif.Alien
