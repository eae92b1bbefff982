import Verif.Model.Btc

/-! Model of package `elastosTransaction`. Its Base58 code [base58.go:1-150] is the same text as the one of `addressEncoder`, modelled in
`Verif.Model.Base58`. -/

namespace Verif.Elastos
open Verif

/-- `binary.PutUvarint` into a buffer with `room` bytes left; writing past the end panics. -/
def putUvarint : Nat → Nat → Res Bytes
  | 0, _ => .panic
  | room + 1, x =>
    if x ≥ 0x80 then do
      let r ← putUvarint room (x / 128)
      .ok ((UInt8.ofNat x ||| 0x80) :: r)
    else .ok [UInt8.ofNat x]

/-- `uint64ToUvarint` [txUtils.go:65-74]. -/
def uint64ToUvarint (x : Nat) : Res Bytes := putUvarint 8 x

/-- `GetProgramHashFromAddress` [base58.go:176-197]. -/
def programHash (H : Hashes) (address : Bytes) : Res Bytes := do
  let ret ← Base58.decode Btc.alphabet address
  if ret.length ≠ 25 then .err
  else if (H.hash .doubleSha256 (ret.take (ret.length - 4))).take 4 ≠ ret.drop (ret.length - 4) then .err
  else if ret.head? ≠ some 0x21 then .err
  else .ok (ret.take (ret.length - 4))

/-- `Vin` [transaction.go:10-14]. -/
structure Vin where
  txid : Bytes
  vout : UInt16
  address : Bytes
deriving DecidableEq

/-- `Vout` [transaction.go:16-20]. -/
structure Vout where
  asset : Bytes
  amount : UInt64
  address : Bytes
deriving DecidableEq

/-- `Vin.NewInput` and `Input.ToBytes` [txIn.go:11-34]. -/
def newInput (v : Vin) : Res Bytes := do
  let txid ← Btc.reverseHexToBytes v.txid
  .ok (txid ++ leBytes 2 v.vout.toNat ++ [0xff, 0xff, 0xff, 0xff])

/-- `Vout.NewOutput` and `Output.ToBytes` [txOut.go:14-44]. -/
def newOutput (H : Hashes) (v : Vout) : Res Bytes := do
  let asset ← Btc.reverseHexToBytes v.asset
  let ph ← programHash H v.address
  .ok (asset ++ leBytes 8 v.amount.toNat ++ [0, 0, 0, 0] ++ ph)

/-- A loop that stops at the first error. -/
def mapAll {α : Type} (f : α → Res Bytes) : List α → Res (List Bytes)
  | [] => .ok []
  | x :: xs => do
    let b ← f x
    let bs ← mapAll f xs
    .ok (b :: bs)

/-- `NewTransaction` and the bytes returned by `GetEmptyAndHash` [txStruct.go:15-65]. -/
def newTx (H : Hashes) (vins : List Vin) (vouts : List Vout) : Res Bytes := do
  let ins ← mapAll newInput vins
  let outs ← mapAll (newOutput H) vouts
  let nin ← uint64ToUvarint ins.length
  let nout ← uint64ToUvarint outs.length
  .ok ([0x02, 0x00, 0x00] ++ nin ++ ins.flatten ++ nout ++ outs.flatten ++ [0, 0, 0, 0])

/-- The nested loop that collects the hashes to sign [transaction.go:37-48]. -/
def txHashes (hash : Bytes) : List Vin → List (Bytes × Bytes) → List (Bytes × Bytes)
  | [], acc => acc
  | v :: vs, acc => if acc.any (fun t => t.1 = v.address) then txHashes hash vs acc else txHashes hash vs (acc ++ [(v.address, hash)])

/-- `CreateEmptyRawTransactionAndHash` [transaction.go:27-51]; nil slices are empty ones. -/
def createEmpty (H : Hashes) (vins : List Vin) (vouts : List Vout) : Res (Bytes × List (Bytes × Bytes)) :=
  if vins.length = 0 ∨ vouts.length = 0 then .err
  else do
    let tx ← newTx H vins vouts
    .ok (Hex.encode tx, txHashes (Hex.encode (H.hash .sha256 tx)) vins [])

/-- `SigPub` [txSignature.go:5-8]; nil slices are empty ones. -/
structure SigPub where
  pub : Bytes
  sig : Bytes
deriving DecidableEq

/-- `SigPub.ToBytes` [txSignature.go:12-30]. -/
def SigPub.toBytes (s : SigPub) : Res Bytes :=
  if s.pub.length ≠ 0x21 then .err
  else if s.sig.length ≠ 0x40 then .err
  else .ok ([0x41, 0x40] ++ s.sig ++ [0x23, 0x21] ++ s.pub ++ [0xac])

/-- `Sigpubs.ToBytes` [txSignature.go:32-44]. -/
def sigpubsBytes (l : List SigPub) : Res Bytes := do
  let n ← uint64ToUvarint l.length
  let bs ← mapAll SigPub.toBytes l
  .ok (n ++ bs.flatten)

/-- The verification loop [transaction.go:76-81], on secp256r1; `[1:]` of a nil result of `PointDecompress` panics. -/
def verifyAll (E : Btc.Curve) (hash : Bytes) : List SigPub → Res Bool
  | [] => .ok true
  | s :: l => do
    let p ← slice (E.decompress s.pub) 1 (E.decompress s.pub).length
    if E.verify p hash s.sig then verifyAll E hash l else .ok false

/-- `VerifyAndCombineRawTransaction` [transaction.go:67-89]. -/
def verifyAndCombine (H : Hashes) (E : Btc.Curve) (emptyTrans : Bytes) (sps : List SigPub) : Res (Bool × Bytes) :=
  match Hex.decode emptyTrans with
  | .ok tx => do
    let ok ← verifyAll E (H.hash .sha256 tx) sps
    if ok then
      match sigpubsBytes sps with
      | .ok s => .ok (true, Hex.encode (tx ++ s))
      | .err => .ok (false, [])
      | .panic => .panic
    else .ok (false, [])
  | .err => .ok (false, [])
  | .panic => .panic

end Verif.Elastos
