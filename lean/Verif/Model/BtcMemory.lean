import Verif.Model.Btc
import Verif.Model.Memory

/-! The inputs of a decoded Bitcoin transaction as parts of the caller's raw bytes (package `btcTransaction`; the same code is in `bitcoincashTransaction`,
`bitcoinsvTransaction`, `cxcTransaction`, `hcTransaction`, `omniTransaction` and `zencashTransaction`). -/

namespace Verif.BtcMem
open Verif Verif.Btc Verif.Mem

/-- Where the inputs begin: the loop of txStruct.go:134-219 with its `index`. -/
def positions (witness : Bool) (spare : Nat) : Nat → Nat → Bytes → List Nat
  | 0, _, _ => []
  | n + 1, index, b =>
    match decodeIn witness spare b with
    | .ok (_, r) => index :: positions witness spare n (index + (b.length - r.length)) r
    | _ => []

/-- The fields `TxID` and `Vout` of an input as slices [txIn.go:15-23]. -/
structure Input where
  txid : Slice
  vout : Slice

/-- The slices that `DecodeRawTransaction` puts into the inputs [txStruct.go:107-145]: `txBytes[index : index+32]` and the four bytes after it. -/
def decodeInputs (segwitOn : Bool) (h : Heap) (raw : Slice) : Res (List Input) := do
  let t ← decodeTx (raw.cap - raw.len) segwitOn (read h raw)
  let start := if t.witness then 7 else 5
  let ps := positions t.witness (raw.cap - raw.len) t.vins.length start ((read h raw).drop start)
  .ok (ps.map fun p => ⟨raw.sub p (p + 32), raw.sub (p + 32) (p + 36)⟩)

/-- `GetTxID` [txIn.go:29-31, txUtils.go:22-27, 42-44]: the text, and the memory in which the bytes are reversed. -/
def getTxID (h : Heap) (i : Input) : Bytes × Heap := (Hex.encode (read (Mem.reverse h i.txid) i.txid), Mem.reverse h i.txid)

/-- `GetVout` [txIn.go:33-35]. -/
def getVout (h : Heap) (i : Input) : Nat := leNat (read h i.vout)

/-- Reading the ids of inputs one after the other: the texts and the memory at the end. -/
def reads (ins : List Input) : List Nat → Heap → List Bytes × Heap
  | [], h => ([], h)
  | j :: js, h =>
    match ins[j]? with
    | none => reads ins js h
    | some i => ((getTxID h i).1 :: (reads ins js (getTxID h i).2).1, (reads ins js (getTxID h i).2).2)

end Verif.BtcMem
