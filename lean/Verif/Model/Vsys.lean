import Verif.Model.Btc

/-! Model of package `virtualeconomyTransaction` (VSYS transfers). The clock is an argument; the JSON object built by
`CreateJSONRawForSendTransaction` is represented by its fields. -/

namespace Verif.Vsys
open Verif

/-- `TxStruct` [transaction.go:14-21]. -/
structure TxStruct where
  txType : UInt8
  recipient : Bytes
  amount : UInt64
  fee : UInt64
  feeScale : UInt16
  attachment : Bytes
deriving DecidableEq

/-- `DecodeCheck` [base58.go:153-166]: all bytes, with the checksum. -/
def decodeCheck (H : Hashes) (address : Bytes) : Res Bytes :=
  match Base58.decode Btc.alphabet address with
  | .ok ret =>
    if ret.length < 4 then .panic
    else if (H.hash .keccak256 (H.hash (.blake2b 32) (ret.take (ret.length - 4)))).take 4 ≠ ret.drop (ret.length - 4) then .err
    else .ok ret
  | .err => .err
  | .panic => .panic

/-- `CreateEmptyTransaction` [transaction.go:30-56] at clock reading `nanos` (`time.Now().UnixNano()`, not negative). -/
def createEmptyTransaction (H : Hashes) (nanos : Nat) (ts : TxStruct) : Res Bytes := do
  let txBytes := [ts.txType] ++ beBytes 8 (nanos / 1000 * 1000) ++ beBytes 8 ts.amount.toNat ++ beBytes 8 ts.fee.toNat ++
    beBytes 2 ts.feeScale.toNat
  let recipient ← decodeCheck H ts.recipient
  let txBytes := txBytes ++ recipient
  .ok (Hex.encode (if ts.attachment = [] then txBytes ++ [0x00, 0x00] else txBytes))

/-- `TxStructDecode` [txDecode.go:8-65]: the structure and the time stamp. -/
def txStructDecode (tx : Bytes) : Res (TxStruct × Nat) := do
  let (ty, b) ← Btc.take1 tx
  let (time, b) ← Btc.takeN 8 b
  let (amount, b) ← Btc.takeN 8 b
  let (fee, b) ← Btc.takeN 8 b
  let (scale, b) ← Btc.takeN 2 b
  let (recipient, b) ← Btc.takeN 26 b
  let recipient ← Base58.encode Btc.alphabet recipient
  let (len, b) ← Btc.takeN 2 b
  if len = [0, 0] then
    if b ≠ [] then .err
    else .ok (⟨ty, recipient, UInt64.ofNat (beNat amount), UInt64.ofNat (beNat fee), UInt16.ofNat (beNat scale), []⟩, beNat time)
  else .err

/-- External X25519-style signature check: `owcrypt.Verify(pub, nil, msg, sig, ECC_CURVE_X25519) == SUCCESS`. -/
abbrev Verify := Bytes → Bytes → Bytes → Bool

/-- The external functions `SignTransaction` uses: `owcrypt.Signature(key, nil, msg, ECC_CURVE_X25519)` (`none`: the result code is not
`SUCCESS`), `owcrypt.Point_mulBaseG(key, ECC_CURVE_ED25519)` and the first result of `owcrypt.CURVE25519_convert_Ed_to_X` (the second, an
error, is ignored by the code). -/
structure Signer where
  sign : Bytes → Bytes → Option Bytes
  mulBaseG : Bytes → Bytes
  edToX : Bytes → Bytes

/-- `SignTransaction` [transaction.go:59-81]: signature and public key. -/
def signTransaction (S : Signer) (emptyTrans prikey : Bytes) : Res (Bytes × Bytes) := do
  let b ← Hex.decode emptyTrans
  match S.sign prikey b with
  | none => .err
  | some sig => .ok (sig, S.edToX (S.mulBaseG prikey))

/-- `VerifyTransaction` [transaction.go:84-97]. -/
def verifyTransaction (V : Verify) (emptyTrans sig pub : Bytes) : Bool :=
  match Hex.decode emptyTrans with
  | .ok b => V pub b sig
  | _ => false

/-- The JSON object of `CreateJSONRawForSendTransaction` [transaction.go:101-129]. -/
structure Body where
  timestamp : Nat
  amount : UInt64
  fee : UInt64
  feeScale : UInt16
  recipient : Bytes
  senderPublicKey : Bytes
  attachment : Bytes
  signature : Bytes

/-- `CreateJSONRawForSendTransaction` [transaction.go:101-129]. -/
def createJSON (emptyTrans sig pub : Bytes) : Res Body := do
  let b ← Hex.decode emptyTrans
  let (ts, time) ← txStructDecode b
  let p ← Base58.encode Btc.alphabet pub
  let s ← Base58.encode Btc.alphabet sig
  .ok ⟨time, ts.amount, ts.fee, ts.feeScale, ts.recipient, p, ts.attachment, s⟩

end Verif.Vsys
