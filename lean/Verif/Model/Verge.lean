import Verif.Model.HyperCash

/-! Model of package `vergeTransaction`. Its Base58 code [base58.go:1-150] is the same text as the one of `addressEncoder`, modelled in
`Verif.Model.Base58`. Not modelled: `decodeFromScriptBytes` [txSigPub.go:82-222], which nothing calls. -/

namespace Verif.Verge
open Verif

/-- `Vin` [transaction.go:10-14]. -/
structure Vin where
  txid : Bytes
  vout : UInt32
  lock : Bytes
deriving DecidableEq

/-- `Vout` [transaction.go:16-19]. -/
structure Vout where
  address : Bytes
  amount : UInt64
deriving DecidableEq

/-- `SigPub` [txSigPub.go:10-13]. -/
structure SigPub where
  pub : Bytes
  sig : Bytes
deriving DecidableEq

/-- `TxIn` [txIn.go:9-15]; `none` is a nil pointer. -/
structure TxIn where
  txid : Bytes
  vout : Bytes
  sigPub : Option SigPub
  sequence : Bytes
  lock : Bytes
deriving DecidableEq

/-- `TxOut` [txOut.go:12-15]. -/
structure TxOut where
  amount : Bytes
  script : Bytes
deriving DecidableEq

/-- `TxStruct` [txStruct.go:15-21]. -/
structure TxStruct where
  version : Bytes
  time : Bytes
  ins : List TxIn
  outs : List TxOut
  lockTime : Bytes
deriving DecidableEq

/-- `NewTxIn` [txIn.go:17-37]; `reverseHexToBytes` [txUtil.go:18-27] is the same text as in `btcTransaction`. -/
def newTxIn (v : Vin) : Res TxIn := do
  let txid ← Btc.reverseHexToBytes v.txid
  let lock ← Hex.decode v.lock
  .ok { txid := txid, vout := leBytes 4 v.vout.toNat, sigPub := none, sequence := [0xff, 0xff, 0xff, 0xff],
        lock := UInt8.ofNat lock.length :: lock }

/-- `SigPub.ToBytes` [txSigPub.go:39-80]: signature in DER form as in `encodeSignatureToScript` of `btcTransaction` (modelled in
`Btc.encodeSig`), the key behind the fixed byte 0x21, everything behind its length. -/
def SigPub.toBytes (sp : SigPub) : Res Bytes := do
  let s ← Btc.encodeSig sp.sig 1
  let r := s ++ 0x21 :: sp.pub
  .ok (UInt8.ofNat r.length :: r)

/-- The unlocking part of `TxIn.ToBytes` [txIn.go:43-47]. -/
def TxIn.scriptBytes (i : TxIn) : Res Bytes :=
  match i.sigPub with
  | none => .ok [0]
  | some sp => sp.toBytes

/-- `TxIn.ToBytes` [txIn.go:39-50]. -/
def TxIn.toBytes (i : TxIn) : Res Bytes := do
  let s ← i.scriptBytes
  .ok (i.txid ++ i.vout ++ s ++ i.sequence)

/-- `DecodeCheck` [base58.go:153-166]: the first byte and the rest before the checksum; slices beyond the end panic. -/
def decodeCheck (H : Hashes) (address : Bytes) : Res (UInt8 × Bytes) := do
  let ret ← Base58.decode Btc.alphabet address
  if ret.length < 4 then .panic
  else if (H.hash .doubleSha256 (ret.take (ret.length - 4))).take 4 ≠ ret.drop (ret.length - 4) then .err
  else do
    let p ← index ret 0
    let h ← slice ret 1 (ret.length - 4)
    .ok (p, h)

/-- `NewTxOut` [txOut.go:17-39]. -/
def newTxOut (H : Hashes) (v : Vout) : Res TxOut := do
  let (p, h) ← decodeCheck H v.address
  if p = 0x1e then .ok { amount := leBytes 8 v.amount.toNat, script := [0x19, 0x76, 0xa9, 0x14] ++ h ++ [0x88, 0xac] }
  else if p = 0x21 then .ok { amount := leBytes 8 v.amount.toNat, script := [0x17, 0xa9, 0x14] ++ h ++ [0x87] }
  else .err

/-- `TxOut.ToBytes` [txOut.go:41-46]. -/
def TxOut.toBytes (o : TxOut) : Bytes := o.amount ++ o.script

/-- `NewTxStruct` [txStruct.go:23-48]; `now` is `uint32(time.Now().Unix())`. -/
def newTxStruct (H : Hashes) (now : UInt32) (ins : List Vin) (outs : List Vout) (interval lockTime : UInt32) : Res TxStruct := do
  let i ← HyperCash.mapAll newTxIn ins
  let o ← HyperCash.mapAll (newTxOut H) outs
  .ok { version := [1, 0, 0, 0], time := leBytes 4 (now + interval).toNat, ins := i, outs := o, lockTime := leBytes 4 lockTime.toNat }

/-- `TxStruct.ToBytes` [txStruct.go:50-67]. -/
def TxStruct.toBytes (t : TxStruct) : Res Bytes := do
  let i ← HyperCash.mapAll TxIn.toBytes t.ins
  .ok (t.version ++ t.time ++ UInt8.ofNat t.ins.length :: i.flatten ++ UInt8.ofNat t.outs.length :: t.outs.flatMap TxOut.toBytes ++ t.lockTime)

/-- The bytes hashed for input `k` [txStruct.go:72-93]. -/
def TxStruct.hashData (t : TxStruct) (k : Nat) : Bytes :=
  t.version ++ t.time ++ UInt8.ofNat t.ins.length ::
    (t.ins.mapIdx fun j i => i.txid ++ i.vout ++ (if j = k then i.lock else [0]) ++ i.sequence).flatten ++
    UInt8.ofNat t.outs.length :: t.outs.flatMap TxOut.toBytes ++ t.lockTime ++ [1, 0, 0, 0]

/-- `GetHash` [txStruct.go:69-99]. -/
def TxStruct.getHash (H : Hashes) (t : TxStruct) : List Bytes :=
  (List.range t.ins.length).map fun k => Hex.encode (H.hash .doubleSha256 (t.hashData k))

/-- `CreateEmptyTransactionAndHash` [transaction.go:21-35]. -/
def createEmpty (H : Hashes) (now : UInt32) (ins : List Vin) (outs : List Vout) (lockTime interval : UInt32) : Res (Bytes × List Bytes) := do
  let t ← newTxStruct H now ins outs interval lockTime
  let b ← t.toBytes
  .ok (Hex.encode b ++ ins.flatMap (fun v => 0x3a :: v.lock), t.getHash H)

/-- `SignTransaction` [transaction.go:37-49]; `sign` is the external signing function (hash, key), which returns 64 bytes or fails;
`serilizeS` [txSigPub.go:20-37] is the same text as in `btcTransaction`. -/
def signTransaction (sign : Bytes → Bytes → Option Bytes) (hashText key : Bytes) : Res Bytes := do
  let hash ← Hex.decode hashText
  match sign hash key with
  | none => .err
  | some sig => .ok (Btc.serilizeS sig)

/-- One input of `DecodeTxStructRaw` [txStruct.go:133-159]. -/
def readIn (b : Bytes) : Res (TxIn × Bytes) := do
  let (txid, b) ← Btc.takeN 32 b
  let (vout, b) ← Btc.takeN 4 b
  let (z, b) ← Btc.take1 b
  if z ≠ 0 then .err
  else do
    let (sequence, b) ← Btc.takeN 4 b
    .ok ({ txid := txid, vout := vout, sigPub := none, sequence := sequence, lock := [] }, b)

/-- A script behind its one-byte length [txStruct.go:175-183]. -/
def readScript (b : Bytes) : Res (Bytes × Bytes) := do
  let (n, b) ← Btc.take1 b
  let (s, b) ← Btc.takeN n.toNat b
  .ok (n :: s, b)

/-- One output [txStruct.go:167-186]. -/
def readOut (b : Bytes) : Res (TxOut × Bytes) := do
  let (amount, b) ← Btc.takeN 8 b
  let (script, b) ← readScript b
  .ok ({ amount := amount, script := script }, b)

/-- A loop reading `n` parts. -/
def readMany {α : Type} (f : Bytes → Res (α × Bytes)) : Nat → Bytes → Res (List α × Bytes)
  | 0, b => .ok ([], b)
  | n + 1, b => do
    let (x, b) ← f b
    let (xs, b) ← readMany f n b
    .ok (x :: xs, b)

/-- The lock script set from its text, the error ignored [txStruct.go:202-204]. -/
def withLock (i : TxIn) (text : Bytes) : TxIn :=
  let lock := Hex.decodePrefix text
  { i with lock := UInt8.ofNat lock.length :: lock }

/-- `DecodeTxStructRaw` [txStruct.go:101-208]. -/
def decodeRaw (text : Bytes) : Res (TxStruct × List Bytes) :=
  match OwKeychain.splitOn 0x3a text with
  | [] => .err
  | first :: rest =>
    if rest.length = 0 then .err
    else do
      let tx ← Hex.decode first
      let (version, b) ← Btc.takeN 4 tx
      let (time, b) ← Btc.takeN 4 b
      let (nIns, b) ← Btc.take1 b
      let (ins, b) ← readMany readIn nIns.toNat b
      let (nOuts, b) ← Btc.take1 b
      let (outs, b) ← readMany readOut nOuts.toNat b
      let (lockTime, b) ← Btc.takeN 4 b
      if b ≠ [] then .err
      else if ins.length ≠ rest.length then .err
      else .ok ({ version := version, time := time, ins := List.zipWith withLock ins rest, outs := outs, lockTime := lockTime }, rest)

/-- The loop over the signatures [transaction.go:65-72]. -/
def signLoop (E : Btc.Curve) : List Bytes → List SigPub → List TxIn → Res (List TxIn)
  | h :: hs, sp :: sps, i :: is => do
    let p ← slice (E.decompress sp.pub) 1 (E.decompress sp.pub).length
    if E.verify p (Hex.decodePrefix h) sp.sig then do
      let r ← signLoop E hs sps is
      .ok ({ i with sigPub := some sp } :: r)
    else .err
  | _, _, is => .ok is

/-- `VerifyAndCombineTransaction` [transaction.go:51-75]: an error is the answer `false`, so only the text is returned. -/
def verifyAndCombine (H : Hashes) (E : Btc.Curve) (emptyTrans : Bytes) (sps : List SigPub) : Res Bytes := do
  let (t, _) ← decodeRaw emptyTrans
  if sps.length = 0 ∨ sps.length ≠ t.ins.length then .err
  else do
    let is ← signLoop E (t.getHash H) sps t.ins
    let b ← { t with ins := is }.toBytes
    .ok (Hex.encode b)

end Verif.Verge
