import Verif.Model.Btc

/-! The methods by which a caller reads the record returned for an input: btcTransaction/txHash.go:29-50 (the same in bitcoincashTransaction/txHash.go:30-51,
bitcoinsvTransaction, hcTransaction, omniTransaction and zencashTransaction txHash.go:29-50, cxcTransaction/txHash.go:28-49). -/

namespace Verif.Btc

/-- `TxHash.IsMultisig` [txHash.go:29-34]. -/
def isMultisig (h : TxHash) : Bool := if h.nRequired = 0 then false else true

/-- `TxHash.GetTxHashHex` [txHash.go:36-38]. -/
def getTxHashHex (h : TxHash) : Bytes := h.hash

/-- `TxHash.GetNormalTxAddress` [txHash.go:40-42]: dereferences `Normal`, which may be nil. -/
def getNormalTxAddress (h : TxHash) : Res Bytes :=
  match h.normal with
  | none => .panic
  | some n => .ok n.address

/-- `TxHash.GetMultiTxPubkeys` [txHash.go:44-50]: the loop appending the key of every entry (the nil slice for none is `[]`). -/
def getMultiTxPubkeys (h : TxHash) : List Bytes := go [] h.multi
where
  go (ret : List Bytes) : List MultiTx → List Bytes
  | [] => ret
  | p :: ps => go (ret ++ [p.pubkey]) ps

end Verif.Btc
