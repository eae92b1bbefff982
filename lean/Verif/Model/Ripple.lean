import Verif.Model.Btc

/-! Model of package `rippleTransaction` (payments on the XRP ledger). -/

namespace Verif.Ripple
open Verif

/-- `RippleAlphabet` [base58.go:17]. -/
def alphabet : Bytes := asc "rpshnaf39wBUDNEGHJKLM4PQRST7VWXYZ2bcdeCg65jkm8oFqi1tuvAxyz"

/-- `getEncBytes` [txEnc.go:7-18]. -/
def encBytes (typ field : UInt8) : Bytes :=
  if typ < 16 ∧ field < 16 then [(typ <<< 4) ||| field]
  else if typ < 16 then [typ <<< 4, field]
  else if field < 16 then [field, typ]
  else [0, typ, field]

/-- The entries of `encodings` that are used, with the type constants [txProfile.go:10-18, 25-45]. -/
def encTransactionType : Bytes := encBytes 1 2
def encFlags : Bytes := encBytes 2 2
def encSequence : Bytes := encBytes 2 4
def encDestinationTag : Bytes := encBytes 2 14
def encLastLedgerSequence : Bytes := encBytes 2 27
def encAmount : Bytes := encBytes 6 1
def encFee : Bytes := encBytes 6 8
def encSigningPubKey : Bytes := encBytes 7 3
def encTxnSignature : Bytes := encBytes 7 4
def encAccount : Bytes := encBytes 8 1
def encDestination : Bytes := encBytes 8 3
def encMemos : Bytes := encBytes 15 9
def encMemo : Bytes := encBytes 14 10
def encMemoType : Bytes := encBytes 7 12
def encMemoData : Bytes := encBytes 7 13
def encMemoFormat : Bytes := encBytes 7 14
def encEndOfObject : Bytes := encBytes 14 1
def encEndOfArray : Bytes := encBytes 15 1

/-- `Value.Bytes` [txUtils.go:28-48] for a native, non-negative value with offset 0, the only kind created [txStruct.go:69, 78]. -/
def valueBytes (num : UInt64) : Bytes := beBytes 8 (((1 : UInt64) <<< 62) ||| (num &&& (((1 : UInt64) <<< 62) - 1))).toNat

/-- `getPublicKeyBytes`, `getHashBytes`, `memoToBytes` [txUtils.go:89-95, 116-118]: one byte of length. -/
def lengthPrefixed (b : Bytes) : Bytes := UInt8.ofNat b.length :: b

/-- `getSignatureBytes` [txUtils.go:50-87] for a signature of 64 bytes. -/
def signatureBytes (sp : Bytes) : Res Bytes := do
  let r ← Btc.derBody (sp.take 32)
  let s ← Btc.derBody (sp.drop 32)
  let rs := 0x02 :: UInt8.ofNat r.length :: r ++ 0x02 :: UInt8.ofNat s.length :: s
  let rs := 0x30 :: UInt8.ofNat rs.length :: rs
  .ok (UInt8.ofNat rs.length :: rs)

/-- `GetProgramHashFromAddress` [base58.go:152-173]. -/
def programHash (H : Hashes) (address : Bytes) : Res Bytes :=
  match Base58.decode alphabet address with
  | .ok ret =>
    if ret.length ≠ 25 then .err
    else if (H.hash .doubleSha256 (ret.take 21)).take 4 ≠ ret.drop 21 then .err
    else if ret.take 1 ≠ [0x00] then .err
    else .ok ((ret.take 21).drop 1)
  | .err => .err
  | .panic => .panic

/-- `TxStruct` [txStruct.go:12-25]. -/
structure TxStruct where
  transactionType : Bytes
  flags : Bytes
  sequence : Bytes
  lastLedgerSequence : Bytes
  amount : Bytes
  fee : Bytes
  signingPubKey : Bytes
  txnSignature : Bytes
  account : Bytes
  destination : Bytes
  destinationTag : Bytes
  memos : Bytes

/-- `getDestinationTagBytes` [txStruct.go:47-55]; `uint32(tag)` is the remainder modulo 2^32. -/
def destinationTagBytes (tag : Int64) : Bytes :=
  if tag < 0 then [] else encDestinationTag ++ beBytes 4 tag.toInt.toNat

/-- `getAmountBytes`, `getFeeBytes` [txStruct.go:64-80]. -/
def amountBytes (enc : Bytes) (n : UInt64) : Res Bytes := if n = 0 then .err else .ok (enc ++ valueBytes n)

/-- `getSigningPubKeyBytes` [txStruct.go:82-89]. -/
def signingPubKeyBytes (pubkey : Bytes) : Res Bytes :=
  match Hex.decode pubkey with
  | .ok b => if b.length ≠ 33 ∨ (b.take 1 ≠ [0x02] ∧ b.take 1 ≠ [0x03]) then .err else .ok (encSigningPubKey ++ lengthPrefixed b)
  | .err => .err
  | .panic => .panic

/-- `getTxnSignatureBytes` [txStruct.go:91-98]. -/
def txnSignatureBytes (signature : Bytes) : Res Bytes :=
  match Hex.decode signature with
  | .ok b =>
    if b.length ≠ 64 then .err
    else do
      let s ← signatureBytes b
      .ok (encTxnSignature ++ s)
  | .err => .err
  | .panic => .panic

/-- `getAccountBytes` [txStruct.go:100-111]. -/
def accountBytes (H : Hashes) (enc address : Bytes) : Res Bytes := do
  let h ← programHash H address
  .ok (enc ++ lengthPrefixed h)

/-- `getMemosBytes` [txStruct.go:113-135]. -/
def memosBytes (memoType memoData memoFormat : Bytes) : Bytes :=
  if memoData ≠ [] then
    encMemos ++ encMemo ++ (if memoType ≠ [] then encMemoType ++ lengthPrefixed memoType else []) ++ encMemoData ++
      lengthPrefixed memoData ++ (if memoFormat ≠ [] then encMemoFormat ++ lengthPrefixed memoFormat else []) ++ encEndOfObject ++
      encEndOfArray
  else []

/-- The parameters of a payment. -/
structure Payment where
  from_ : Bytes
  pubkey : Bytes
  destinationTag : Int64
  sequence : UInt32
  to_ : Bytes
  amount : UInt64
  fee : UInt64
  lastLedgerSequence : UInt32
  memoType : Bytes
  memoData : Bytes
  memoFormat : Bytes

/-- The optional signature in `NewTxStruct` [txStruct.go:160-165]. -/
def optionalSignature (signature : Bytes) : Res Bytes := if signature ≠ [] then txnSignatureBytes signature else .ok []

/-- `NewTxStruct` [txStruct.go:137-178]; PAYMENT = 0, TxCanonicalSignature = 0x80000000 [txProfile.go:5-7]. -/
def newTxStruct (H : Hashes) (p : Payment) (signature : Bytes) : Res TxStruct := do
  let amount ← amountBytes encAmount p.amount
  let fee ← amountBytes encFee p.fee
  let pub ← signingPubKeyBytes p.pubkey
  let sig ← optionalSignature signature
  let account ← accountBytes H encAccount p.from_
  let destination ← accountBytes H encDestination p.to_
  .ok
    { transactionType := encTransactionType ++ beBytes 2 0
      flags := encFlags ++ beBytes 4 0x80000000
      sequence := encSequence ++ beBytes 4 p.sequence.toNat
      lastLedgerSequence := encLastLedgerSequence ++ beBytes 4 p.lastLedgerSequence.toNat
      amount := amount
      fee := fee
      signingPubKey := pub
      txnSignature := sig
      account := account
      destination := destination
      destinationTag := destinationTagBytes p.destinationTag
      memos := memosBytes p.memoType p.memoData p.memoFormat }

/-- The fields before and after the signature, in order. -/
def TxStruct.pre (t : TxStruct) : Bytes :=
  t.transactionType ++ t.flags ++ t.sequence ++ t.destinationTag ++ t.lastLedgerSequence ++ t.amount ++ t.fee ++ t.signingPubKey
def TxStruct.post (t : TxStruct) : Bytes := t.account ++ t.destination ++ t.memos

/-- `ToEmptyRawWiths` [txStruct.go:180-197]. -/
def toEmptyRawWiths (t : TxStruct) : Bytes := Hex.encode t.pre ++ asc "s" ++ Hex.encode t.post

/-- `ToBytes` [txStruct.go:199-214]. -/
def toBytes (t : TxStruct) : Bytes := t.pre ++ t.txnSignature ++ t.post

/-- HP_TRANSACTION_SIGN [txProfile.go:6]. -/
def signPrefix : Bytes := beBytes 4 0x53545800

/-- `GetHash` [txStruct.go:216-221]. -/
def getHash (H : Hashes) (t : TxStruct) : Bytes :=
  (H.hash .sha512 (signPrefix ++ toBytes { t with txnSignature := [] })).take 32

/-- `strings.Replace(text, "s", by, -1)`. -/
def replaceS (text new : Bytes) : Bytes := text.flatMap (fun c => if c = 0x73 then new else [c])

/-- `getHashFromEmptyRawHex` [txStruct.go:223-233]. -/
def hashFromEmptyRaw (H : Hashes) (emptyTrans : Bytes) : Res Bytes := do
  let b ← Hex.decode (replaceS emptyTrans [])
  .ok ((H.hash .sha512 (signPrefix ++ b)).take 32)

/-- `CreateEmptyRawTransactionAndHash` [transaction.go:11-17]. -/
def createEmptyRawTransactionAndHash (H : Hashes) (p : Payment) : Res (Bytes × Bytes) := do
  let t ← newTxStruct H p []
  .ok (toEmptyRawWiths t, Hex.encode (getHash H t))

/-- `VerifyAndCombinRawTransaction` [transaction.go:31-50]; `PointDecompress(...)[1:]` panics on an empty result. -/
def verifyAndCombine (H : Hashes) (C : Btc.Curve) (emptyTrans signature publicKey : Bytes) : Res (Bool × Bytes) :=
  match hashFromEmptyRaw H emptyTrans with
  | .ok hash =>
    match Hex.decode publicKey with
    | .ok pub =>
      match Hex.decode signature with
      | .ok sig =>
        if C.decompress pub = [] then .panic
        else if C.verify ((C.decompress pub).drop 1) hash sig = false then .ok (false, [])
        else
          match txnSignatureBytes signature with
          | .ok s => .ok (true, replaceS emptyTrans (Hex.encode s))
          | .err => .ok (true, replaceS emptyTrans [])
          | .panic => .panic
      | .err => .ok (false, [])
      | .panic => .panic
    | .err => .ok (false, [])
    | .panic => .panic
  | .err => .ok (false, [])
  | .panic => .panic

end Verif.Ripple
