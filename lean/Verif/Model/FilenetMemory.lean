import Verif.Model.Filenet

/-! `CreateEmptyTransactionAndHash` of `filenetTransaction` with the memory of the caller: `sort.Sort(outs)` works in the array behind the slice `outs`. -/

namespace Verif.Filenet
open Verif

/-- The slice `arr[lo:hi]`. -/
def window (arr : List Vout) (lo hi : Nat) : List Vout := (arr.take hi).drop lo

/-- `NewTxStruct` and `ToBytes` [txStruct.go:24-92] for the slice `outs = arr[lo:hi]` of an array `arr` of the caller: the result and the array afterwards. -/
def newTxMem (S : Sorter) (time : UInt64) (in_ : Bytes) (arr : List Vout) (lo hi : Nat) : Res Bytes × List Vout :=
  if in_ = [] then (.err, arr)
  else
    match decodeAddress in_ with
    | .panic => (.panic, arr)
    | .err => (.err, arr)
    | .ok fromBytes =>
      if (window arr lo hi).length = 0 then (.err, arr)
      else
        let arr := arr.take lo ++ S.run (window arr lo hi) ++ arr.drop hi
        let outs := window arr lo hi
        (do
          let (total, tos) ← payments outs 0
          .ok (fromBytes ++ leBytes 8 outs.length ++ leBytes 8 total.toNat ++ leBytes 8 time.toNat ++
            (tos.map fun t => t.1 ++ leBytes 8 t.2.toNat).flatten), arr)

/-- `CreateEmptyTransactionAndHash` [transaction.go:21-34] on such a slice. -/
def createMem (H : Hashes) (S : Sorter) (time : UInt64) (in_ : Bytes) (arr : List Vout) (lo hi : Nat) : Res (Bytes × Bytes) × List Vout :=
  let r := newTxMem S time in_ arr lo hi
  (do
    let tx ← r.1
    .ok (Hex.encode tx, Hex.encode (H.hash .sha256 tx)), r.2)

end Verif.Filenet
