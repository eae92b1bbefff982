import Verif.Model.Btc

/-! Model of package `filenetTransaction`. Its Base58 code [base58.go] is the same text as the one of `addressEncoder`, modelled in
`Verif.Model.Base58`. -/

namespace Verif.Filenet
open Verif

/-- `decodeAddress` [address.go:8-25]. -/
def decodeAddress (address : Bytes) : Res Bytes := do
  let hexBytes ← Base58.decode Btc.alphabet address
  let addrBytes ← Hex.decode hexBytes
  if addrBytes.length ≠ 20 then .err else .ok addrBytes

/-- `encodeAddress` [address.go:27-34]; a nil slice is the empty one. -/
def encodeAddress (hash : Bytes) : Res Bytes :=
  if hash.length ≠ 20 then .err else Base58.encode Btc.alphabet (Hex.encode hash)

/-- `Vout` [transaction.go:14-17]. -/
structure Vout where
  address : Bytes
  amount : UInt64
deriving DecidableEq

/-- `sort.Sort(outs)` with the methods of txTo.go:3-13. Simplification: the algorithm of the standard library is not modelled; the
model takes any function that returns a permutation in ascending order of the address texts. -/
structure Sorter where
  run : List Vout → List Vout
  perm : ∀ l, (run l).Perm l
  sorted : ∀ l, (run l).Pairwise fun a b => ¬ b.address < a.address

/-- The loop over the sorted outputs [txStruct.go:50-72]: total and payments. -/
def payments : List Vout → UInt64 → Res (UInt64 × List (Bytes × UInt64))
  | [], total => .ok (total, [])
  | o :: os, total =>
    if o.address = [] then .err
    else if o.amount = 0 then .err
    else do
      let toBytes ← decodeAddress o.address
      let (t, l) ← payments os (total + o.amount)
      .ok (t, (toBytes, o.amount) :: l)

/-- `NewTxStruct` followed by `ToBytes` [txStruct.go:24-92]; the clock is the argument `time`. The sorting is done in the slice of the
caller, see `Model/FilenetMemory.lean`. -/
def newTx (S : Sorter) (time : UInt64) (in_ : Bytes) (outs : List Vout) : Res Bytes :=
  if in_ = [] then .err
  else do
    let fromBytes ← decodeAddress in_
    if outs.length = 0 then .err
    else
      let (total, tos) ← payments (S.run outs) 0
      .ok (fromBytes ++ leBytes 8 outs.length ++ leBytes 8 total.toNat ++ leBytes 8 time.toNat ++
        (tos.map fun t => t.1 ++ leBytes 8 t.2.toNat).flatten)

/-- `CreateEmptyTransactionAndHash` [transaction.go:21-34]. -/
def createEmpty (H : Hashes) (S : Sorter) (time : UInt64) (in_ : Bytes) (outs : List Vout) : Res (Bytes × Bytes) := do
  let tx ← newTx S time in_ outs
  .ok (Hex.encode tx, Hex.encode (H.hash .sha256 tx))

/-- `Transfer` with its `TransferDetails` [txStruct.go:94-111]. The timestamp is kept unsigned. -/
structure Transfer where
  txId : Bytes
  from_ : Bytes
  toCount : UInt64
  value : UInt64
  timestamp : UInt64
  details : List (Bytes × UInt64)
  sign : Bytes
deriving DecidableEq

/-- The loop over the payments [txStruct.go:162-179]; `limit` and `index` are the rest of the bytes. -/
def readDetails : Nat → Bytes → Res (List (Bytes × UInt64) × Bytes)
  | 0, b => .ok ([], b)
  | n + 1, b => do
    let (p, b) ← Btc.takeN 28 b
    let to_ ← encodeAddress (p.take 20)
    let (l, b) ← readDetails n b
    .ok ((to_, UInt64.ofNat (leNat (p.drop 20))) :: l, b)

/-- `decodeRawTransaction` [txStruct.go:114-199]. `mem` is the number of pointers that `make(TransferDetails, toCount)` can allocate;
beyond it the program dies (at the latest at 2^45 entries, where `make` panics). -/
def decodeRaw (H : Hashes) (mem : Nat) (emptyTrans signature : Bytes) : Res Transfer := do
  let txBytes ← Hex.decode emptyTrans
  if txBytes.length = 0 then .err
  else do
    let (f, b) ← Btc.takeN 20 txBytes
    let fromAddr ← encodeAddress f
    let (c, b) ← Btc.takeN 8 b
    let (v, b) ← Btc.takeN 8 b
    let (t, b) ← Btc.takeN 8 b
    if leNat c > mem then .panic
    else do
      let (details, b) ← readDetails (leNat c) b
      if b ≠ [] then .err
      else if signature.length ≠ 128 then .err
      else do
        let _ ← Hex.decode signature
        .ok { txId := Hex.encode (H.hash .sha256 txBytes), from_ := fromAddr, toCount := UInt64.ofNat (leNat c),
              value := UInt64.ofNat (leNat v), timestamp := UInt64.ofNat (leNat t), details := details, sign := signature }

/-- `VerifyAndCombineTransaction` [transaction.go:54-81]; the result is the transfer that is marshalled to JSON (the marshalling is not
modelled), or `none` for `("", false)`. `[1:]` of a nil result of `PointDecompress` panics. -/
def verifyAndCombine (H : Hashes) (E : Btc.Curve) (mem : Nat) (emptyTrans signature pubkey : Bytes) : Res (Option Transfer) :=
  match decodeRaw H mem emptyTrans signature with
  | .panic => .panic
  | .err => .ok none
  | .ok tx =>
    match Hex.decode tx.txId, Hex.decode signature, Hex.decode pubkey with
    | .ok hash, .ok sig, .ok pub => do
      let pubBytes ← slice (E.decompress pub) 1 (E.decompress pub).length
      if E.verify pubBytes hash sig then .ok (some tx) else .ok none
    | _, _, _ => .ok none

end Verif.Filenet
