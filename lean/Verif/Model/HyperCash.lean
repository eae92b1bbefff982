import Verif.Model.Btc

/-! Model of package `hypercashTransaction`. Its Base58 code [base58.go:1-150] is the same text as the one of `addressEncoder`, modelled in
`Verif.Model.Base58`. -/

namespace Verif.HyperCash
open Verif

/-- `Vin` [transaction.go:10-18]; the field `Tree` is never read. -/
structure Vin where
  txid : Bytes
  vout : UInt32
  amount : UInt64
  lock : Bytes
  height : UInt32
  blockIndex : UInt32
deriving DecidableEq

/-- `Vout` [transaction.go:20-24]; the field `PkScriptVersion` is never read. -/
structure Vout where
  amount : UInt64
  address : Bytes
deriving DecidableEq

/-- `TxIn` [txIn.go:8-15]; tree and sequence are constants and written in `TxIn.toBytes`. -/
structure TxIn where
  txid : Bytes
  vout : Bytes
  sigScript : Bytes
  lockScript : Bytes
deriving DecidableEq

/-- `TxOut` [txOut.go:5-9]. -/
structure TxOut where
  amount : Bytes
  version : Bytes
  script : Bytes
deriving DecidableEq

/-- `TxStruct` [TxStruct.go:10-17]; version and serialisation type are written in `toBytes`. -/
structure TxStruct where
  ins : List TxIn
  outs : List TxOut
  lockTime : Bytes
  expiry : Bytes

/-- `varIntToBytes` [txUtils.go:89-103]. -/
def varInt (v : Nat) : Bytes :=
  if v < 0xfd then [UInt8.ofNat v]
  else if v ≤ 0xffff then 0xfd :: leBytes 2 v
  else if v ≤ 0xffffffff then 0xfe :: leBytes 4 v
  else 0xff :: leBytes 8 v

/-- `NewTxIn` [txIn.go:17-44]. -/
def newTxIn (v : Vin) : Res TxIn := do
  let txid ← Btc.reverseHexToBytes v.txid
  if txid.length ≠ 32 then .err
  else do
    let lock ← Hex.decode v.lock
    .ok { txid := txid, vout := leBytes 4 v.vout.toNat,
          sigScript := leBytes 8 v.amount.toNat ++ leBytes 4 v.height.toNat ++ leBytes 4 v.blockIndex.toNat,
          lockScript := UInt8.ofNat lock.length :: lock }

/-- `TxIn.ToBytes` [txIn.go:46-55]. -/
def TxIn.toBytes (i : TxIn) : Bytes := i.txid ++ i.vout ++ [0] ++ [0xff, 0xff, 0xff, 0xff]

/-- `DecodeCheck` [base58.go:153-167]; slices beyond the end panic. -/
def decodeCheck (H : Hashes) (address : Bytes) : Res (Bytes × Bytes) :=
  match Base58.decode Btc.alphabet address with
  | .ok ret =>
    if ret.length < 4 then .panic
    else if (H.hash .blake256 (H.hash .blake256 (ret.take (ret.length - 4)))).take 4 ≠ ret.drop (ret.length - 4) then .err
    else if ret.length < 4 + 0x14 then .panic
    else .ok (ret.take (ret.length - 24), (ret.take (ret.length - 4)).drop (ret.length - 24))
  | .err => .err
  | .panic => .panic

/-- `NewTxOut` [txOut.go:11-36]. -/
def newTxOut (H : Hashes) (v : Vout) : Res TxOut := do
  let (pre, h) ← decodeCheck H v.address
  if pre.length ≠ 2 ∨ h.length ≠ 20 then .err
  else if pre ≠ [0x09, 0x7f] then .err
  else .ok { amount := leBytes 8 v.amount.toNat, version := leBytes 2 0, script := [0x19, 0x76, 0xa9, 0x14] ++ h ++ [0x88, 0xac] }

/-- `TxOut.ToBytes` [txOut.go:38-46]. -/
def TxOut.toBytes (o : TxOut) : Bytes := o.amount ++ o.version ++ o.script

/-- A loop that stops at the first error. -/
def mapAll {α β : Type} (f : α → Res β) : List α → Res (List β)
  | [] => .ok []
  | x :: xs => do
    let b ← f x
    let bs ← mapAll f xs
    .ok (b :: bs)

/-- `NewTxStruct` [TxStruct.go:19-54]; nil slices are empty ones. -/
def newTxStruct (H : Hashes) (ins : List Vin) (outs : List Vout) (lockTime expiry : UInt32) : Res TxStruct :=
  if ins.length = 0 then .err
  else if outs.length = 0 then .err
  else do
    let i ← mapAll newTxIn ins
    let o ← mapAll (newTxOut H) outs
    .ok { ins := i, outs := o, lockTime := leBytes 4 lockTime.toNat, expiry := leBytes 4 expiry.toNat }

/-- `TxStruct.ToBytes` for the serialisation types without witness (1) and full (0) [TxStruct.go:60-72]. -/
def TxStruct.prefixBytes (t : TxStruct) (serType : Nat) : Bytes :=
  leBytes 2 1 ++ leBytes 2 serType ++ varInt t.ins.length ++ t.ins.flatMap TxIn.toBytes ++ varInt t.outs.length ++
    t.outs.flatMap TxOut.toBytes ++ t.lockTime ++ t.expiry

/-- The loop of `TxStruct.ToBytes` over the inputs for witness signing [TxStruct.go:81-87], from input `i` on. -/
def witnessLoop (index : Nat) : Nat → List TxIn → Bytes
  | _, [] => []
  | i, x :: xs => (if i = index then x.lockScript else [0]) ++ witnessLoop index (i + 1) xs

/-- `TxStruct.ToBytes` for witness signing (3) [TxStruct.go:73-87]. -/
def TxStruct.witnessBytes (t : TxStruct) (index : Nat) : Res Bytes :=
  if index ≥ t.ins.length then .err
  else .ok (leBytes 2 1 ++ leBytes 2 3 ++ varInt t.ins.length ++ witnessLoop index 0 t.ins)

/-- `GetHash` [TxStruct.go:95-112]. -/
def TxStruct.getHash (H : Hashes) (t : TxStruct) (index : Nat) : Res Bytes := do
  let prefixHash := H.hash .blake256 (t.prefixBytes 1)
  let w ← t.witnessBytes index
  .ok (H.hash .blake256 (leBytes 4 1 ++ prefixHash ++ H.hash .blake256 w))

/-- The loop that collects hashes and appends scripts to the text [transaction.go:44-56 and 93-105], from input `i` on; `:` and `/` are
0x3a and 0x2f. -/
def hashLoop (H : Hashes) (t : TxStruct) : Nat → List TxIn → Bytes → List Bytes → Res (Bytes × List Bytes)
  | _, [], text, hashes => .ok (text, hashes)
  | i, x :: xs, text, hashes => do
    let h ← t.getHash H i
    hashLoop H t (i + 1) xs (text ++ [0x3a] ++ Hex.encode x.lockScript ++ [0x2f] ++ Hex.encode x.sigScript) (hashes ++ [Hex.encode h])

/-- `CreateEmptyTransactionAndHash` [transaction.go:26-59]. -/
def createEmpty (H : Hashes) (ins : List Vin) (outs : List Vout) (lockTime expiry : UInt32) : Res (Bytes × List Bytes) :=
  if ins.length = 0 ∨ outs.length = 0 then .err
  else do
    let t ← newTxStruct H ins outs lockTime expiry
    hashLoop H t 0 t.ins (Hex.encode (t.prefixBytes 0)) []

/-- `createPayloadSimpleSend` [txOmni.go:4-20]. -/
def simpleSend (propertyId : UInt32) (amount : UInt64) : Bytes :=
  let ret := beBytes 2 0 ++ beBytes 2 0 ++ beBytes 4 propertyId.toNat ++ beBytes 8 amount.toNat
  let ret := asc "omni" ++ ret
  let ret := UInt8.ofNat ret.length :: ret
  let ret := 0x6a :: ret
  UInt8.ofNat ret.length :: ret

/-- `CreateOmniEmptyTransactionAndHash` [transaction.go:61-108]; `none` is a nil pointer. -/
def createOmni (H : Hashes) (ins : List Vin) (to_ change : Option Vout) (amount : UInt64) (propertyId lockTime expiry : UInt32) :
    Res (Bytes × List Bytes) :=
  if ins.length = 0 then .err
  else
    match to_ with
    | none => .err
    | some v => do
      let t ← newTxStruct H ins ([v, v] ++ change.toList) lockTime expiry
      let o ← index t.outs 1
      let t := { t with outs := t.outs.set 1 { o with amount := leBytes 8 0, script := simpleSend propertyId amount } }
      hashLoop H t 0 t.ins (Hex.encode (t.prefixBytes 0)) []

/-- `SigPub` [txSignature.go:6-10]; the field `Address` is never read. -/
structure SigPub where
  sig : Bytes
  pub : Bytes
deriving DecidableEq

/-- `encodeToScript` [txSignature.go:32-77]; `encodeSignatureToScript` is the same text as in `btcTransaction`, modelled in
`Btc.encodeSig`. Simplification: the capacity of the signature slice is its length. -/
def encodeToScript (sp : SigPub) : Res Bytes := do
  let r ← Btc.encodeSigPub sp.sig sp.pub 1
  .ok (UInt8.ofNat r.length :: r)

/-- The inner loop over the inputs [transaction.go:168-178]. -/
def witnessParts (n i : Nat) (lock : Bytes) : Bytes := (List.range n).flatMap fun j => if j = i then lock else [0]

/-- The loop over the inputs of `VerifyAndCombineTransaction` [transaction.go:159-200], from input `i` on; `none` is the answer `false`.
Of two malformed parts the code reports neither, so their order does not matter. -/
def combineLoop (H : Hashes) (E : Btc.Curve) (n : Nat) (prefixHash : Bytes) : Nat → List Bytes → List SigPub → Bytes → Res (Option Bytes)
  | i, data :: ds, sp :: sps, ret =>
    match OwKeychain.splitOn 0x2f data with
    | [a, b] =>
      match Hex.decode a with
      | .ok lock => do
        let w := leBytes 2 1 ++ leBytes 2 3 ++ varInt n ++ witnessParts n i lock
        let hash := H.hash .blake256 (leBytes 4 1 ++ prefixHash ++ H.hash .blake256 w)
        let p ← slice (E.decompress sp.pub) 1 (E.decompress sp.pub).length
        if E.verify p hash sp.sig then
          match Hex.decode b with
          | .ok ss => do
            let e ← encodeToScript sp
            combineLoop H E n prefixHash (i + 1) ds sps (ret ++ ss ++ e)
          | .err => .ok none
          | .panic => .panic
        else .ok none
      | .err => .ok none
      | .panic => .panic
    | _ => .ok none
  | _, _, _, ret => .ok (some ret)

/-- `VerifyAndCombineTransaction` [transaction.go:128-203]. Simplification: no nil pointers in the list. -/
def verifyAndCombine (H : Hashes) (E : Btc.Curve) (emptyTrans : Bytes) (sps : List SigPub) : Res (Bool × Bytes) :=
  match OwKeychain.splitOn 0x3a emptyTrans with
  | [] => .ok (false, [])
  | first :: rest =>
    if rest.length = 0 then .ok (false, [])
    else if rest.length ≠ sps.length then .ok (false, [])
    else
      match Hex.decode first with
      | .ok tx => do
        let b2 ← index tx 2
        if b2 ≠ 0 then .ok (false, [])
        else do
          let b3 ← index tx 3
          if b3 ≠ 0 then .ok (false, [])
          else do
            let r ← combineLoop H E sps.length (H.hash .blake256 ((tx.set 2 1).set 3 0)) 0 rest sps (tx ++ varInt sps.length)
            match r with
            | some ret => .ok (true, Hex.encode ret)
            | none => .ok (false, [])
      | .err => .ok (false, [])
      | .panic => .panic

/-- The loop of `GetVinList` [TxStruct.go:143-159] on what is left of the transaction. -/
def vinLoop : Nat → Bytes → Res (List (Bytes × UInt32))
  | 0, _ => .ok []
  | n + 1, b =>
    if b.length < 32 then .err
    else if (b.drop 32).length < 9 then .err
    else do
      let l ← vinLoop n (b.drop 41)
      .ok ((Hex.encode (b.take 32).reverse, UInt32.ofNat (leNat ((b.drop 32).take 4))) :: l)

/-- `GetVinList` [TxStruct.go:114-162]: transaction ids and output numbers; the other fields of the result are not set. -/
def getVinList (emptyTrans : Bytes) : Res (List (Bytes × UInt32)) :=
  match OwKeychain.splitOn 0x3a emptyTrans with
  | [] => .err
  | first :: rest =>
    if rest.length = 0 then .err
    else do
      let tx ← Hex.decode first
      if tx.length < 4 then .err
      else if tx.length < 5 then .err
      else do
        let c ← index tx 4
        if c.toNat = 0 ∨ c.toNat ≠ rest.length then .err else vinLoop c.toNat (tx.drop 5)

/-- `serilizeS(signature)` with its result dropped [txSignature.go:12-29, transaction.go:123]: when s is above half the order, the call
`append(sig[:32], s...)` writes the padded bytes of n - s over the memory of the signature, which keeps its length. -/
def serilizeInPlace (sig : Bytes) : Bytes :=
  let s := beNat (sig.drop 32)
  if s > Btc.halfOrder then
    Btc.overwrite sig 32 (OwKeychain.padLoop 32 0 (OwKeychain.bigBytes ((Btc.curveOrder : Int) - s).natAbs))
  else sig

/-- `SignTransaction` [transaction.go:110-126]; `sign` is the external signing function (hash, key), which returns 64 bytes or fails. -/
def signTransaction (sign : Bytes → Bytes → Option Bytes) (hashText key : Bytes) : Res Bytes := do
  let hash ← Hex.decode hashText
  if hash.length ≠ 32 then .err
  else
    match sign hash key with
    | none => .err
    | some sig => .ok (serilizeInPlace sig)

end Verif.HyperCash
