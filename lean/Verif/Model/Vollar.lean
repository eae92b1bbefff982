import Verif.Model.Verge

/-! Model of package `vollarTransaction`. `Vin`, `Vout`, `TxIn`, `SigPub` and their functions [transaction.go:10-19, txIn.go, txSigPub.go,
txUtil.go] are the same text as in `vergeTransaction`; `DecodeCheck` [base58.go:153-167] is the same text as in `btcTransaction`.
Not modelled: `decodeFromScriptBytes` [txSigPub.go:82-222], which nothing calls. -/

namespace Verif.Vollar
open Verif
open Verif.Verge (Vin Vout TxIn SigPub)

/-- `TxOut` [txOut.go:16-21]. -/
structure TxOut where
  amount : Bytes
  flag : UInt8
  script : Bytes
  hashData : Bytes
deriving DecidableEq

/-- `TxStruct` [txStruct.go:15-20]. -/
structure TxStruct where
  version : Bytes
  flag : UInt8
  ins : List TxIn
  outs : List TxOut
deriving DecidableEq

/-- `NewTxOut` [txOut.go:23-46]; the comparison of hex texts is the one of the bytes. -/
def newTxOut (H : Hashes) (v : Vout) : Res TxOut := do
  let (p, h) ← Btc.decodeCheck H v.address
  if p = [0x10, 0x1c] then
    .ok { amount := leBytes 8 v.amount.toNat, flag := 0, script := [0x19, 0x76, 0xa9, 0x14] ++ h ++ [0x88, 0xac],
          hashData := List.replicate 32 0 }
  else if p = [0x10, 0x41] then
    .ok { amount := leBytes 8 v.amount.toNat, flag := 0, script := [0x17, 0xa9, 0x14] ++ h ++ [0x87], hashData := List.replicate 32 0 }
  else .err

/-- `TxOut.ToBytes` [txOut.go:48-55]; `getOutputHash` [txStruct.go:79-88] writes the same fields. -/
def TxOut.toBytes (o : TxOut) : Bytes := o.amount ++ o.flag :: o.script ++ o.hashData

/-- `NewTxStruct` [txStruct.go:22-41]. -/
def newTxStruct (H : Hashes) (ins : List Vin) (outs : List Vout) : Res TxStruct := do
  let i ← HyperCash.mapAll Verge.newTxIn ins
  let o ← HyperCash.mapAll (newTxOut H) outs
  .ok { version := [1, 0, 0, 0], flag := 0, ins := i, outs := o }

/-- `TxStruct.ToBytes` [txStruct.go:43-60]. -/
def TxStruct.toBytes (t : TxStruct) : Res Bytes := do
  let i ← HyperCash.mapAll TxIn.toBytes t.ins
  .ok (t.version ++ t.flag :: UInt8.ofNat t.ins.length :: i.flatten ++ UInt8.ofNat t.outs.length :: t.outs.flatMap TxOut.toBytes)

/-- The bytes hashed for one input [txStruct.go:62-88, 95-121]: three hashes of the whole transaction, 80 zero bytes (shielded spends and
outputs, lock time, expiry height, value balance), the signature type, the input. -/
def TxStruct.hashData (H : Hashes) (t : TxStruct) (i : TxIn) : Bytes :=
  H.hash .doubleSha256 (t.ins.flatMap fun i => i.txid ++ i.vout) ++ H.hash .doubleSha256 (t.ins.flatMap (·.sequence)) ++
    H.hash .doubleSha256 (t.outs.flatMap TxOut.toBytes) ++ List.replicate 80 0 ++ [1, 0, 0, 0] ++ i.txid ++ i.vout ++ i.lock ++ i.sequence

/-- `GetHash` [txStruct.go:90-127]. -/
def TxStruct.getHash (H : Hashes) (t : TxStruct) : Res (List Bytes) :=
  if t.ins.length = 0 then .err else .ok (t.ins.map fun i => Hex.encode (H.hash .doubleSha256 (t.hashData H i)))

/-- `CreateEmptyRawTransactionAndHash` [transaction.go:21-37]. -/
def createEmpty (H : Hashes) (ins : List Vin) (outs : List Vout) : Res (Bytes × List Bytes) := do
  let t ← newTxStruct H ins outs
  let hashes ← t.getHash H
  let b ← t.toBytes
  .ok (Hex.encode b ++ ins.flatMap (fun v => 0x3a :: v.lock), hashes)

/-- One output of `DecodeTxStructRaw` [txStruct.go:195-223]. -/
def readOut (b : Bytes) : Res (TxOut × Bytes) := do
  let (amount, b) ← Btc.takeN 8 b
  let (flag, b) ← Btc.take1 b
  let (script, b) ← Verge.readScript b
  let (hashData, b) ← Btc.takeN 32 b
  .ok ({ amount := amount, flag := flag, script := script, hashData := hashData }, b)

/-- `DecodeTxStructRaw` [txStruct.go:129-234]; the inputs [161-187] are read by the same text as in `vergeTransaction`. -/
def decodeRaw (text : Bytes) : Res (TxStruct × List Bytes) :=
  match OwKeychain.splitOn 0x3a text with
  | [] => .err
  | first :: rest =>
    if rest.length = 0 then .err
    else do
      let tx ← Hex.decode first
      let (version, b) ← Btc.takeN 4 tx
      let (flag, b) ← Btc.take1 b
      let (nIns, b) ← Btc.take1 b
      let (ins, b) ← Verge.readMany Verge.readIn nIns.toNat b
      let (nOuts, b) ← Btc.take1 b
      let (outs, b) ← Verge.readMany readOut nOuts.toNat b
      if b ≠ [] then .err
      else if ins.length ≠ rest.length then .err
      else .ok ({ version := version, flag := flag, ins := ins, outs := outs }, rest)

/-- The lock script of one input set from its text [transaction.go:62-68]. -/
def setLocks : List TxIn → List Bytes → Res (List TxIn)
  | i :: is, l :: ls => do
    let lock ← Hex.decode l
    let r ← setLocks is ls
    .ok ({ i with lock := UInt8.ofNat lock.length :: lock } :: r)
  | is, _ => .ok is

/-- The loop over the signatures [transaction.go:77-84]: did all verify, and the inputs with their signatures. -/
def signLoop (E : Btc.Curve) : List Bytes → List SigPub → List TxIn → Res (Bool × List TxIn)
  | h :: hs, sp :: sps, i :: is => do
    let p ← slice (E.decompress sp.pub) 1 (E.decompress sp.pub).length
    let (pass, r) ← signLoop E hs sps is
    .ok (E.verify p (Hex.decodePrefix h) sp.sig && pass, { i with sigPub := some sp } :: r)
  | _, _, is => .ok (true, is)

/-- `VerifyAndCombineRawTransaction` [transaction.go:53-91]. -/
def verifyAndCombine (H : Hashes) (E : Btc.Curve) (emptyTrans : Bytes) (sps : List SigPub) : Res (Bool × Bytes) := do
  let (t, locks) ← decodeRaw emptyTrans
  if t.ins.length ≠ sps.length ∨ t.ins.length ≠ locks.length then .err
  else do
    let is ← setLocks t.ins locks
    let t := { t with ins := is }
    let hashes ← t.getHash H
    let (pass, is) ← signLoop E hashes sps t.ins
    let b ← { t with ins := is }.toBytes
    .ok (pass, Hex.encode (b ++ List.replicate (82 + t.ins.length) 0))

/-- `SignRawTransaction` [transaction.go:39-51] is the same text as `SignTransaction` of `vergeTransaction`. -/
def signTransaction (sign : Bytes → Bytes → Option Bytes) (hashText key : Bytes) : Res Bytes := Verge.signTransaction sign hashText key

end Verif.Vollar
