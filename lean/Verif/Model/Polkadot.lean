import Verif.Model.Hex

/-! Model of package `polkadotTransaction`: SCALE compact integers, eras, transfer calls, signing payload and signed extrinsic.

The "empty transaction" handed between the two API calls is the JSON text of `TxStruct`; here the structure itself is passed, and
`Verif.Model.PolkadotText` adds the text. -/

namespace Verif.Polkadot
open Verif

/-- `CompactLength` [codec.go:9-19] with the constants of txProfile.go:19-21. -/
def compactLength (data : Nat) : Nat :=
  if data ≤ 63 then 1 else if data ≤ 16383 then 2 else if data ≤ 1073741823 then 4 else 5

/-- `removeExtraLEBytes` [codec.go:39-49]: index out of range when every byte is zero. -/
def removeExtra (b : Bytes) : Res Bytes :=
  let r := (b.reverse.dropWhile (· == 0)).reverse
  if r = [] then .panic else .ok r

/-- The loop of `BytesToCompactBytes` [codec.go:70-79]: every byte shifted left by two, the two bits lost go to the next byte.
Returns the bytes and the last `nextRepl`. -/
def shl2 (carry : UInt8) : Bytes → Bytes × UInt8
  | [] => ([], carry)
  | b :: bs =>
    let (r, c) := shl2 ((b &&& 192) >>> 6) bs
    (((b <<< 2) ||| carry) :: r, c)

/-- The mode of a short value and `modeToNumOfBytes` [codec.go:61-68, txProfile.go:23-27]. -/
def mode (n : Nat) : UInt8 := if n = 1 then 0 else if n = 2 then 1 else 2
def modeBytes (m : UInt8) : Nat := if m = 0 then 1 else if m = 1 then 2 else 4

/-- `BytesToCompactBytes` [codec.go:51-89] with `ExtendLEBytes` [codec.go:21-30]. An empty argument panics at `bytes[0]`. -/
def bytesToCompact (b : Bytes) : Res Bytes :=
  if b.length > 4 then .ok (UInt8.ofNat ((b.length - 4) * 4 ||| 3) :: b)
  else
    let m := mode b.length
    let (s, c) := shl2 0 b
    let s := if c ≠ 0 then s ++ [c] else s
    match s with
    | [] => .panic
    | x :: xs =>
      let s := (x ||| m) :: xs
      .ok (s ++ List.replicate (modeBytes m - s.length) 0)

/-- `(*big.Int).BitLen` of a natural number. -/
def bitLen (n : Nat) : Nat := if n = 0 then 0 else Nat.log2 n + 1

/-- `getLeadingZeros` [codec.go:91-93]: the value is converted to int64 first, and `BitLen` is that of the absolute value. -/
def leadingZeros (data : UInt64) : Nat :=
  64 - bitLen (if data.toNat < 2 ^ 63 then data.toNat else 2 ^ 64 - data.toNat)

/-- `getPrefix` [codec.go:95-97] (the byte, without the hex text): int arithmetic truncated to a byte. -/
def getPrefix (data : UInt64) : UInt8 :=
  UInt8.ofNat ((3 + ((8 - (leadingZeros data / 8 : Nat) : Int) - 4) * 4) % 256).toNat

/-- `Encode` [codec.go:105-124]; the text is hex. -/
def encode (data : UInt64) : Res Bytes :=
  if data.toNat > 1073741823 then do
    let b ← removeExtra (leBytes 8 data.toNat)
    .ok (Hex.encode [getPrefix data] ++ Hex.encode b)
  else do
    let b ← removeExtra (leBytes 4 data.toNat)
    let n := compactLength data.toNat
    let b := b ++ List.replicate (n - b.length) 0
    let ret ← bytesToCompact b
    match ret with
    | [] => .panic
    | x :: xs => .ok (Hex.encode ((if n = 5 then 0x03 else x) :: xs))

/-- `GetEra` [txEra.go:6-32]; `phase / 1 << 4` is `(phase / 1) << 4`. -/
def getEra (height : UInt64) : Bytes :=
  let phase := height % 64
  let trailingZero : UInt64 := 6 - 1
  let encoded := if trailingZero < 15 then trailingZero else 15
  let encoded := encoded + (phase / 1) <<< 4
  [(encoded &&& 0xff).toUInt8, (encoded >>> 8).toUInt8]

/-- `TxStruct` [txStruct.go:10-23]. -/
structure TxStruct where
  senderPubkey : Bytes
  recipientPubkey : Bytes
  amount : UInt64
  nonce : UInt64
  fee : UInt64
  blockHeight : UInt64
  blockHash : Bytes
  genesisHash : Bytes
  specVersion : UInt32
  txVersion : UInt32
deriving DecidableEq

/-- `NewMethodTransfer` followed by `MethodTransfer.ToBytes` [txMethod.go:13-50] (`AccounntIDFollow` is the constant false): errors of
`hex.DecodeString(transferCode)` are ignored. -/
def method (transferCode recipient : Bytes) (amount : UInt64) : Res Bytes :=
  match Hex.decode recipient with
  | .ok pub =>
    if pub.length ≠ 32 then .err
    else if amount = 0 then .err
    else do
      let amountStr ← encode amount
      let amountBytes := Hex.decodePrefix amountStr
      if amountBytes = [] then .err
      else .ok (Hex.decodePrefix transferCode ++ pub ++ amountBytes)
  | .err => .err
  | .panic => .panic

/-- Nonce and fee [txStruct.go:44-58, 137-153]. -/
def zeroOrCompact (v : UInt64) : Res Bytes :=
  if v = 0 then .ok [0] else do
    let t ← encode v
    .ok (Hex.decodePrefix t)

/-- A 32-byte hash in hex [txStruct.go:68-78]. -/
def hash32 (t : Bytes) : Res Bytes :=
  match Hex.decode t with
  | .ok b => if b.length ≠ 32 then .err else .ok b
  | .err => .err
  | .panic => .panic

/-- `NewTxPayLoad` [txStruct.go:26-83] followed by `ToBytesString` [txPayLoad.go:16-29]. -/
def payload (ts : TxStruct) (transferCode : Bytes) : Res Bytes := do
  let m ← method transferCode ts.recipientPubkey ts.amount
  if ts.blockHeight = 0 then .err
  else do
    let nonce ← zeroOrCompact ts.nonce
    let fee ← zeroOrCompact ts.fee
    let genesis ← hash32 ts.genesisHash
    let block ← hash32 ts.blockHash
    .ok (Hex.encode (m ++ getEra ts.blockHeight ++ nonce ++ fee ++ leBytes 4 ts.specVersion.toNat ++ leBytes 4 ts.txVersion.toNat ++
      genesis ++ block))

/-- `CreateEmptyTransactionAndMessage` [transaction.go:9-17]: the structure (for its JSON text) and the message. -/
def createEmpty (ts : TxStruct) (transferCode : Bytes) : Res (TxStruct × Bytes) := do
  let m ← payload ts transferCode
  .ok (ts, m)

/-- `GetSignedTransaction` [txStruct.go:104-172]: a bad sender key or signature gives the empty text without an error. -/
def getSigned (ts : TxStruct) (transferCode signature : Bytes) : Res Bytes :=
  match Hex.decode ts.senderPubkey with
  | .ok sender =>
    if sender.length ≠ 32 then .ok []
    else match Hex.decode signature with
      | .ok sig =>
        if sig.length ≠ 64 then .ok []
        else if ts.blockHeight = 0 then .err
        else do
          let nonce ← zeroOrCompact ts.nonce
          let fee ← zeroOrCompact ts.fee
          let m ← method transferCode ts.recipientPubkey ts.amount
          let signed := [0x84, 0x00] ++ sender ++ [0x00] ++ sig ++ getEra ts.blockHeight ++ nonce ++ fee ++ m
          let length ← encode (UInt64.ofNat signed.length)
          .ok (asc "0x" ++ Hex.encode (Hex.decodePrefix length) ++ Hex.encode signed)
      | _ => .ok []
  | _ => .ok []

/-- `VerifyAndCombineTransaction` [transaction.go:37-67]; `verify pubkey message signature` is
`owcrypt.Verify(…, ECC_CURVE_ED25519) == SUCCESS`. -/
def verifyAndCombine (verify : Bytes → Bytes → Bytes → Bool) (transferCode : Bytes) (ts : TxStruct) (signature : Bytes) :
    Res (Bytes × Bool) :=
  match payload ts transferCode with
  | .panic => .panic
  | .err => .ok ([], false)
  | .ok msg =>
    match Hex.decode signature with
    | .ok sig =>
      if sig.length ≠ 64 then .ok ([], false)
      else if verify (Hex.decodePrefix ts.senderPubkey) (Hex.decodePrefix msg) sig then
        match getSigned ts transferCode signature with
        | .ok t => .ok (t, true)
        | .err => .ok ([], false)
        | .panic => .panic
      else .ok ([], false)
    | _ => .ok ([], false)

end Verif.Polkadot
