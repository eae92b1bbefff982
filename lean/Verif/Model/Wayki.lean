import Verif.Model.Btc

/-! Model of package `waykichainTransaction`. Values of type `int64` are integers (the range is a hypothesis of the theorems where it
matters; nothing here overflows). -/

namespace Verif.Wayki
open Verif

/-- The loop of `int64ToUvarint` [txUtils.go:30-53], least significant group first; `h` is 0x00 in the first round and 0x80 after it.
`sizeofVarInt` [txUtils.go:7-20] runs the same loop and returns the number of rounds. -/
def uvarintLoop (h : UInt8) (n : Int) : Bytes :=
  (UInt8.ofNat (n % 128).toNat ||| h) :: (if n ≤ 0x7f then [] else uvarintLoop 0x80 (n / 128 - 1))
termination_by n.toNat
decreasing_by omega

/-- `int64ToUvarint` [txUtils.go:30-53]. -/
def int64ToUvarint (n : Int) : Bytes := (uvarintLoop 0x00 n).reverse

/-- `\s` and `\d` of Go's regular expressions. -/
def isSpace (c : UInt8) : Bool := c == 0x09 || c == 0x0a || c == 0x0c || c == 0x0d || c == 0x20
def isDigit (c : UInt8) : Bool := 0x30 ≤ c && c ≤ 0x39

/-- `isRegIdStr` [txUtils.go:55-58]: matches `^\s*(\d+)\-(\d+)\s*$`. -/
def isRegIdStr (t : Bytes) : Bool :=
  let t := t.dropWhile isSpace
  let a := t.takeWhile isDigit
  let t := t.dropWhile isDigit
  match t with
  | 0x2d :: t =>
    let b := t.takeWhile isDigit
    let t := t.dropWhile isDigit
    a ≠ [] && b ≠ [] && t.dropWhile isSpace == []
  | _ => false

/-- `strings.Split(t, "-")`. -/
def split : Bytes → List Bytes
  | [] => [[]]
  | c :: t =>
    if c = 0x2d then [] :: split t
    else
      match split t with
      | [] => [[c]]
      | x :: xs => (c :: x) :: xs

/-- The loop of `strconv.ParseUint` in base 10, 64 bits: a syntax error (`none`), or the value; overflow ends the loop with the largest
value. -/
def parseUintLoop (n : Nat) : Bytes → Option Nat
  | [] => some n
  | c :: t =>
    if isDigit c = false then none
    else if 2 ^ 64 ≤ n * 10 + (c.toNat - 0x30) then some (2 ^ 64 - 1)
    else parseUintLoop (n * 10 + (c.toNat - 0x30)) t

/-- `data, _ := strconv.ParseInt(id, 10, 64)`: 0 on a syntax error, clamped when out of range. -/
def parseInt (t : Bytes) : Int :=
  let neg := t.head? == some 0x2d
  let d := if t.head? == some 0x2d || t.head? == some 0x2b then t.drop 1 else t
  if d = [] then 0
  else
    match parseUintLoop 0 d with
    | none => 0
    | some un =>
      if neg = false ∧ 2 ^ 63 ≤ un then 2 ^ 63 - 1
      else if neg = true ∧ 2 ^ 63 < un then -2 ^ 63
      else if neg then -(un : Int) else un

/-- The register id loop [txStruct.go:35-41, 165-171, 176-182, 247-253]. -/
def regIdBytes (t : Bytes) : Bytes :=
  let idBytes := (split t).flatMap (fun id => int64ToUvarint (parseInt id))
  UInt8.ofNat idBytes.length :: idBytes

/-- `GetProgramHashFromAddress` [base58.go:176-197]; prefixes: txProfile.go:4-5. -/
def programHash (H : Hashes) (address : Bytes) : Res Bytes :=
  match Base58.decode Btc.alphabet address with
  | .ok ret =>
    if ret.length ≠ 25 then .err
    else if (H.hash .doubleSha256 (ret.take 21)).take 4 ≠ ret.drop 21 then .err
    else if ret.head? ≠ some 0x49 ∧ ret.head? ≠ some 0x87 then .err
    else .ok ((ret.take 21).drop 1)
  | .err => .err
  | .panic => .panic

/-- A transaction of any of the four types: type byte, version, and what follows both in `ToBytes` and in `GetHash`. (The Go code has a
structure per type and writes the same fields in the same order in both functions, except for the order of type and version.) -/
structure Tx where
  txType : UInt8
  version : Bytes
  rest : Bytes

/-- `NewCommonTx` [txStruct.go:22-55] with the field order of `CommonTx.ToBytes` [57-70] and `GetHash` [72-85]. -/
def newCommonTx (H : Hashes) (fromUserID toAddress : Bytes) (amount fee validHeight : Int) : Res Tx :=
  if validHeight < 0 then .err
  else if isRegIdStr fromUserID = false then .err
  else do
    let destID ← programHash H toAddress
    .ok ⟨0x03, int64ToUvarint 1, int64ToUvarint validHeight ++ regIdBytes fromUserID ++ (UInt8.ofNat destID.length :: destID) ++
      int64ToUvarint fee ++ int64ToUvarint amount ++ [0x00]⟩

/-- `NewRegisterAccountTx` [txStruct.go:95-114], `ToBytes` [116-127], `GetHash` [129-140]. -/
def newRegisterAccountTx (fromPubkey : Bytes) (fee validHeight : Int) : Res Tx :=
  if validHeight < 0 then .err
  else
    match Hex.decode fromPubkey with
    | .ok pubkey =>
      if pubkey.length ≠ 0x21 then .err
      else .ok ⟨0x02, int64ToUvarint 1, int64ToUvarint validHeight ++ (0x21 :: pubkey) ++ [0x00] ++ int64ToUvarint fee⟩
    | .err => .err
    | .panic => .panic

/-- `NewCallContractTx` [txStruct.go:153-195], `ToBytes` [197-208], `GetHash` [210-221]. -/
def newCallContractTx (fromUserID appID contractHex : Bytes) (validHeight fee amount : Int) : Res Tx :=
  if validHeight < 0 then .err
  else if isRegIdStr fromUserID = false then .err
  else if isRegIdStr appID = false then .err
  else do
    let contract ← Hex.decode contractHex
    .ok ⟨0x04, int64ToUvarint 1, int64ToUvarint validHeight ++ regIdBytes fromUserID ++ regIdBytes appID ++ int64ToUvarint fee ++
      int64ToUvarint amount ++ (UInt8.ofNat contract.length :: contract)⟩

/-- `NewUcoinTransferTx` [txStruct.go:236-275], `ToBytes` [277-293], `GetHash` [295-311]; the fee symbol is "WICC". -/
def newUcoinTransferTx (H : Hashes) (fromUserID toAddress coin : Bytes) (validHeight fee amount : Int) : Res Tx :=
  if validHeight < 0 then .err
  else do
    let destID ← programHash H toAddress
    if coin = [] then .err
    else .ok ⟨0x0B, int64ToUvarint 1, int64ToUvarint validHeight ++ regIdBytes fromUserID ++
      (UInt8.ofNat (asc "WICC").length :: asc "WICC") ++ int64ToUvarint fee ++ [0x01] ++ (UInt8.ofNat destID.length :: destID) ++
      (UInt8.ofNat coin.length :: coin) ++ int64ToUvarint amount ++ [0x00]⟩

/-- `ToBytes`. -/
def Tx.toBytes (t : Tx) : Bytes := [t.txType] ++ t.version ++ t.rest

/-- `GetHash`. -/
def Tx.getHash (H : Hashes) (t : Tx) : Bytes := H.hash .doubleSha256 (t.version ++ [t.txType] ++ t.rest)

/-- The choice of the transaction in `CreateEmptyRawTransactionAndHash` [transaction.go:15-45]. -/
def newTx (H : Hashes) (fromUserID to_ appID : Bytes) (amount fee validHeight : Int) (txType : UInt8) : Res Tx :=
  if txType = 0x03 then newCommonTx H fromUserID to_ amount fee validHeight
  else if txType = 0x02 then newRegisterAccountTx fromUserID fee validHeight
  else if txType = 0x04 then newCallContractTx fromUserID appID to_ validHeight fee amount
  else if txType = 0x0B then newUcoinTransferTx H fromUserID to_ appID validHeight fee amount
  else .err

/-- `CreateEmptyRawTransactionAndHash` [transaction.go:15-45]. -/
def create (H : Hashes) (fromUserID to_ appID : Bytes) (amount fee validHeight : Int) (txType : UInt8) : Res (Bytes × Bytes) := do
  let t ← newTx H fromUserID to_ appID amount fee validHeight txType
  .ok (Hex.encode t.toBytes, Hex.encode (t.getHash H))

/-- `getHashFromEmptyRawTrans` [txStruct.go:313-328]; the first two bytes are read without a check. -/
def hashFromEmptyRaw (H : Hashes) (emptyTrans : Bytes) : Res Bytes :=
  match Hex.decode emptyTrans with
  | .ok [] => .panic
  | .ok [a] => if a ≠ 0x03 ∧ a ≠ 0x02 ∧ a ≠ 0x04 ∧ a ≠ 0x0B then .err else .panic
  | .ok (a :: b :: r) =>
    if (a ≠ 0x03 ∧ a ≠ 0x02 ∧ a ≠ 0x04 ∧ a ≠ 0x0B) ∨ b ≠ 0x01 then .err
    else .ok (H.hash .doubleSha256 (b :: a :: r))
  | .err => .err
  | .panic => .panic

/-- `SigPub.ToBytes` [txSignature.go:8-45]; the integers are formed as in the Bitcoin package. -/
def sigBytes (sig : Bytes) : Res Bytes := do
  let r ← slice sig 0 32
  let r ← Btc.derBody r
  let s ← Btc.derBody (sig.drop 32)
  let rs := (0x02 :: UInt8.ofNat r.length :: r) ++ (0x02 :: UInt8.ofNat s.length :: s)
  let rs := 0x30 :: UInt8.ofNat rs.length :: rs
  .ok (UInt8.ofNat rs.length :: rs)

/-- `VerifyAndCombineRawTransaction` [transaction.go:61-73]; `.ok (false, [])` stands for `false, ""`. -/
def verifyAndCombine (H : Hashes) (C : Btc.Curve) (emptyTrans sig pub : Bytes) : Res (Bool × Bytes) :=
  match hashFromEmptyRaw H emptyTrans with
  | .ok hash =>
    if C.decompress pub = [] then .panic
    else if C.verify ((C.decompress pub).drop 1) hash sig = false then .ok (false, [])
    else do
      let s ← sigBytes sig
      .ok (true, emptyTrans ++ Hex.encode s)
  | .err => .ok (false, [])
  | .panic => .panic

end Verif.Wayki
