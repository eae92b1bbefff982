import Verif.Model.Btc

/-! Model of package `moacchainTransaction`. `SignRawTransaction` is in Signers.lean. -/

namespace Verif.Moac
open Verif

/-- `getLengthBytes` [txUtils.go:10-12]: `byte(len + 0x80)`. -/
def getLengthBytes (len : Nat) : Bytes := [UInt8.ofNat (len + 0x80)]

/-- `getUint64Bytes` [txUtils.go:14-33]; the loop over the leading zero bytes is `dropWhile`. -/
def getUint64Bytes (data : UInt64) : Bytes :=
  if data = 0x00 then [0x80]
  else if data < 0x80 then [UInt8.ofNat data.toNat]
  else
    let bytes := (beBytes 8 data.toNat).dropWhile (· = 0)
    getLengthBytes bytes.length ++ bytes

/-- `getBigIntBytes` [txUtils.go:35-39]; `data.Bytes()` are the minimal big endian bytes of the absolute value. -/
def getBigIntBytes (data : Int) : Bytes :=
  let ret := OwKeychain.bigBytes data.natAbs
  getLengthBytes ret.length ++ ret

/-- The number of bytes written by `putint` [txUtils.go:51-106]. -/
def putintSize (i : Nat) : Nat :=
  if i < 2 ^ 8 then 1
  else if i < 2 ^ 16 then 2
  else if i < 2 ^ 24 then 3
  else if i < 2 ^ 32 then 4
  else if i < 2 ^ 40 then 5
  else if i < 2 ^ 48 then 6
  else if i < 2 ^ 56 then 7
  else 8

/-- `getHeadBytes` [txUtils.go:41-49] with `putint` [51-106], which writes the lowest bytes of `i`, big endian; SmallTag and LargeTag:
txProfile.go:4-5. -/
def getHeadBytes (size : Nat) : Bytes :=
  if size < 56 then [0xC0 + UInt8.ofNat size]
  else (0xF7 + UInt8.ofNat (putintSize size)) :: beBytes (putintSize size) size

/-- `getAddressHashBytes` [txUtils.go:108-118]; `address[:2]` panics for shorter texts. -/
def getAddressHashBytes (address : Bytes) : Res Bytes :=
  if address.length < 2 then .panic
  else if address.take 2 ≠ asc "0x" then .err
  else
    match Hex.decode (address.drop 2) with
    | .ok hash => if hash.length ≠ 20 then .err else .ok (getLengthBytes 20 ++ hash)
    | .err => .err
    | .panic => .panic

/-- `TxStruct` [txStruct.go:8-22] (the field `Head` is never used). -/
structure TxStruct where
  nonce : Bytes
  systemContract : Bytes
  gasPrice : Bytes
  gasLimit : Bytes
  recipient : Bytes
  amount : Bytes
  payload : Bytes
  shardingFlag : Bytes
  via : Bytes
  chainID : Bytes
  r : Bytes
  s : Bytes
deriving DecidableEq

/-- `NewTxStruct` [txStruct.go:24-56] with a nil signature, as in its only call. -/
def newTxStruct (to_ : Bytes) (nonce : UInt64) (amount gasLimit gasPrice : Int) (isTestNet : Bool) : Res TxStruct := do
  let hash ← getAddressHashBytes to_
  .ok {
    nonce := getUint64Bytes nonce
    systemContract := getUint64Bytes 0
    gasPrice := getBigIntBytes gasPrice
    gasLimit := getBigIntBytes gasLimit
    amount := getBigIntBytes amount
    recipient := hash
    payload := getLengthBytes 0
    shardingFlag := getUint64Bytes 0
    via := getUint64Bytes 0
    chainID := if isTestNet then [101] else [99]
    r := getLengthBytes 0
    s := getLengthBytes 0 }

/-- The body of `ToBytes` [txStruct.go:59-72]. -/
def TxStruct.body (t : TxStruct) : Bytes :=
  t.nonce ++ t.systemContract ++ t.gasPrice ++ t.gasLimit ++ t.recipient ++ t.amount ++ t.payload ++ t.shardingFlag ++ t.via ++ t.chainID ++
    t.r ++ t.s

/-- `ToBytes` [txStruct.go:58-77]. -/
def TxStruct.toBytes (t : TxStruct) : Bytes := getHeadBytes t.body.length ++ t.body

/-- The first item of `decodeEmpty` [txStruct.go:84-96]. -/
def decodeNonce (b : Bytes) : Res (Bytes × Bytes) :=
  match b with
  | [] => .err
  | x :: _ =>
    if x ≤ 0x80 then .ok (b.take 1, b.drop 1)
    else if 1 + (x.toNat - 0x80) > b.length then .err
    else .ok (b.take (1 + (x.toNat - 0x80)), b.drop (1 + (x.toNat - 0x80)))

/-- Each of the next eight items of `decodeEmpty` [txStruct.go:98-168]. -/
def decodeItem (b : Bytes) : Res (Bytes × Bytes) :=
  match b with
  | [] => .err
  | x :: _ =>
    if x < 0x80 then .err
    else if 1 + (x.toNat - 0x80) > b.length then .err
    else .ok (b.take (1 + (x.toNat - 0x80)), b.drop (1 + (x.toNat - 0x80)))

/-- `decodeEmpty` [txStruct.go:79-182]; R and S stay nil. -/
def decodeEmpty (b : Bytes) : Res TxStruct := do
  let (nonce, b) ← decodeNonce b
  let (systemContract, b) ← decodeItem b
  let (gasPrice, b) ← decodeItem b
  let (gasLimit, b) ← decodeItem b
  let (recipient, b) ← decodeItem b
  let (amount, b) ← decodeItem b
  let (payload, b) ← decodeItem b
  let (shardingFlag, b) ← decodeItem b
  let (via, b) ← decodeItem b
  let (chainID, b) ← Btc.takeN 1 b
  if b ≠ [0x80, 0x80] then .err
  else .ok ⟨nonce, systemContract, gasPrice, gasLimit, recipient, amount, payload, shardingFlag, via, chainID, [], []⟩

/-- `addSig` [txStruct.go:184-213], for a signature of 65 bytes. -/
def addSig (t : TxStruct) (sig : Bytes) (isTestNet : Bool) : TxStruct :=
  let r := (sig.take 32).dropWhile (· = 0)
  let s := ((sig.drop 32).take 32).dropWhile (· = 0)
  let v := (sig.drop 64).headD 0
  { t with
    r := getLengthBytes r.length ++ r
    s := getLengthBytes s.length ++ s
    chainID := getUint64Bytes (UInt64.ofNat (v + 35 + (if isTestNet then 101 else 99) * 2).toNat) }

/-- The curve functions used here: `RecoverPubkey` (none unless SUCCESS), `PointCompress`, `Verify` (true on SUCCESS). -/
structure Curve where
  recover : Bytes → Bytes → Option Bytes
  compress : Bytes → Bytes
  verify : Bytes → Bytes → Bytes → Bool

/-- `strings.ToLower`, on ASCII. (No other character has one of 0-9, a-f as its lower case.) -/
def toLower (t : Bytes) : Bytes := t.map fun c => if 0x41 ≤ c ∧ c ≤ 0x5a then c + 0x20 else c

/-- `CreateEmptyRawTransactionAndHash` [transaction.go:12-21]. -/
def create (H : Hashes) (to_ : Bytes) (nonce : UInt64) (amount gasLimit gasPrice : Int) (isTestNet : Bool) : Res (Bytes × Bytes) := do
  let t ← newTxStruct to_ nonce amount gasLimit gasPrice isTestNet
  .ok (Hex.encode t.toBytes, Hex.encode (H.hash .keccak256 t.toBytes))

/-- The check of the list head [transaction.go:52-59]: `head[0] != txBytes[0]` only for fewer than 57 bytes; an empty transaction makes
`txBytes[0]` panic. -/
def headOk (b : Bytes) : Res Bool :=
  if b.length < 57 then
    match b with
    | [] => .panic
    | x :: r => .ok ((getHeadBytes r.length).head? = some x)
  else .ok true

/-- `VerifyAndCombineRawTransaction` [transaction.go:35-67]; `.ok (false, [])` stands for `false, ""`. -/
def verifyAndCombine (H : Hashes) (C : Curve) (emptyTrans signature publicKey : Bytes) (isTestNet : Bool) : Res (Bool × Bytes) :=
  match Hex.decode emptyTrans, Hex.decode signature with
  | .ok b, .ok sig =>
    if sig.length ≠ 65 ∨ (sig.drop 64 ≠ [0x01] ∧ sig.drop 64 ≠ [0x00]) then .ok (false, [])
    else
      match C.recover sig (H.hash .keccak256 b) with
      | none => .ok (false, [])
      | some pub =>
        if toLower (Hex.encode (C.compress pub)) ≠ toLower publicKey then .ok (false, [])
        else if C.verify pub (H.hash .keccak256 b) (sig.take 64) = false then .ok (false, [])
        else do
          let ok ← headOk b
          if ok = false then .ok (false, [])
          else
            match decodeEmpty (b.drop 1) with
            | .ok t => .ok (true, asc "0x" ++ Hex.encode (addSig t sig isTestNet).toBytes)
            | .err => .ok (false, [])
            | .panic => .panic
  | _, _ => .ok (false, [])

end Verif.Moac
