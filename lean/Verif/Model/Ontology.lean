import Verif.Model.Btc

/-! Model of package `ontologyTransaction` (ONT/ONG transfers and ONG withdrawals). The random nonce is an argument. `SignRawTransactionHash` is in Signers.lean. -/

namespace Verif.Ontology
open Verif

/-! ### Script integers [txUtils.go] -/

/-- `getLength` [txUtils.go:78-92]; the constants are in txProfile.go:25-30. -/
def getLength (l : Nat) : Bytes :=
  if l < 0x4B then [UInt8.ofNat l]
  else if l < 0x100 then [0x4C, UInt8.ofNat l]
  else if l < 0x10000 then 0x4D :: leBytes 2 l
  else 0x4E :: leBytes 4 l

/-- `bigIntToNeoBytes` [txUtils.go:96-121]. `data.Bytes()` are the minimal big endian bytes of the absolute value. -/
def bigIntToNeoBytes (data : Int) : Bytes :=
  match OwKeychain.bigBytes data.natAbs with
  | [] => []
  | b :: rest =>
    let bs :=
      if data < 0 then
        (OwKeychain.bigBytes (beNat ((b :: rest).map (~~~ ·)) + 1)).reverse ++ (if b >>> 7 = 0 then [255] else [])
      else (b :: rest).reverse ++ (if b >>> 7 = 1 then [0] else [])
    getLength bs.length ++ bs

/-- `uint64ToEmitBytes` [txUtils.go:123-134]. -/
def uint64ToEmitBytes (data : UInt64) : Bytes :=
  if data = 0 then [0x00]
  else if 0 < data ∧ data < 16 then [0x51 - 1 + UInt8.ofNat data.toNat]
  else bigIntToNeoBytes data.toNat

/-- `bigIntToEmitBytes` [txUtils.go:136-149]. -/
def bigIntToEmitBytes (data : Int) : Bytes :=
  if data = -1 then [0x4F]
  else if data = 0 then [0x00]
  else if 0 < data ∧ data < 16 then [0x51 - 1 + UInt8.ofNat data.toNat]
  else bigIntToNeoBytes data

/-! ### The script of a transfer [txInvokeCode.go] -/

/-- `DecodeCheck` [base58.go:153-166]: prefix byte and the rest. -/
def decodeCheck (H : Hashes) (address : Bytes) : Res (UInt8 × Bytes) :=
  match Base58.decode Btc.alphabet address with
  | .ok ret =>
    if ret.length < 4 then .panic
    else if (H.hash .doubleSha256 (ret.take (ret.length - 4))).take 4 ≠ ret.drop (ret.length - 4) then .err
    else
      match ret.take (ret.length - 4) with
      | [] => .panic
      | p :: h => .ok (p, h)
  | .err => .err
  | .panic => .panic

/-- The address checks [txInvokeCode.go:68-74]. -/
def addressHash (H : Hashes) (address : Bytes) : Res Bytes := do
  let (pre, h) ← decodeCheck H address
  if pre ≠ 0x17 then .err
  else if h.length ≠ 0x14 then .err
  else .ok h

/-- `TxState` and `TxStateV2` [transaction.go:12-26] (the amount apart). -/
structure TxState where
  assetType : Int
  payer : Bytes
  from_ : Bytes
  to_ : Bytes

/-- ONTContractAddress and ONGContractAddress [txProfile.go:19-20], after `reverseHexToBytes` [txUtils.go:19-28]. -/
def ontContract : Res Bytes := Btc.reverseHexToBytes (asc "0100000000000000000000000000000000000000")
def ongContract : Res Bytes := Btc.reverseHexToBytes (asc "0200000000000000000000000000000000000000")

/-- Contract and method chosen by `NewNativeInvoke` [txInvokeCode.go:21-40] and, with `v2`, `NewNativeInvokeV2` [42-61].
AssetONT = 0, AssetONG = 1, AssetONGWithdraw = 2; the version is 0 in all cases [txProfile.go:5-9, 16-18]. -/
def contractAndMethod (v2 : Bool) (assetType : Int) : Res Bytes × Bytes :=
  if assetType = 0 then (ontContract, if v2 then asc "transferV2" else asc "transfer")
  else if assetType = 1 then (ongContract, if v2 then asc "transferV2" else asc "transfer")
  else (ongContract, asc "transferFrom")

/-- The push of the ONT contract in a withdrawal [txInvokeCode.go:81-86]. -/
def withdrawSource (assetType : Int) : Res Bytes :=
  if assetType = 2 then do
    let c ← ontContract
    .ok ([0x14] ++ c ++ [0xC8, 0x6A])
  else .ok []

/-- `NativeInvoke.ToBytes` [txInvokeCode.go:63-127] and `NativeInvokeV2.ToBytes` [129-193], which differ in the method and in the bytes
`emit` pushed for the amount. Opcodes: txProfile.go:39-52. -/
def invokeBytes (H : Hashes) (v2 : Bool) (emit : Bytes) (s : TxState) : Res Bytes := do
  let inHash ← addressHash H s.from_
  let source ← withdrawSource s.assetType
  let outHash ← addressHash H s.to_
  let contract ← (contractAndMethod v2 s.assetType).1
  let method := (contractAndMethod v2 s.assetType).2
  .ok ([0x00, 0xC6, 0x6B, 0x6A] ++ [0x14] ++ inHash ++ [0xC8, 0x6A] ++ source ++ [0x14] ++ outHash ++ [0xC8, 0x6A] ++ emit ++
    [0xC8, 0x6C] ++ (if s.assetType ≠ 2 then uint64ToEmitBytes 1 ++ [0xC1] else []) ++
    [UInt8.ofNat method.length] ++ method ++ [UInt8.ofNat contract.length] ++ contract ++ [0x00] ++ [0x68] ++
    [UInt8.ofNat (asc "Ontology.Native.Invoke").length] ++ asc "Ontology.Native.Invoke")

/-! ### Transactions [txStruct.go, txSigPub.go] -/

/-- `SigPub` [txSigPub.go:10-13]. -/
structure SigPub where
  signature : Bytes
  publicKey : Bytes
deriving DecidableEq

/-- `SigData` [txSigData.go:3-6]. -/
structure SigData where
  nrequired : UInt16
  sigPubs : List SigPub
deriving DecidableEq

/-- `Transaction` [txStruct.go:8-18]; the empty list stands for a nil `SigDatas`. -/
structure Transaction where
  version : UInt8
  txType : UInt8
  nonce : Bytes
  gasPrice : Bytes
  gasLimit : Bytes
  payer : Bytes
  payload : Bytes
  attributes : UInt8
  sigDatas : List SigData
deriving DecidableEq

/-- `SigPub.toBytes` [txSigPub.go:54-70]. -/
def SigPub.toBytes (sp : SigPub) : Bytes :=
  let ret := UInt8.ofNat sp.signature.length :: sp.signature
  let pub := UInt8.ofNat sp.publicKey.length :: (sp.publicKey ++ [0xAC])
  (UInt8.ofNat ret.length :: ret) ++ (UInt8.ofNat pub.length :: pub)

/-- The signature part of `ToBytes` [txStruct.go:88-101]. -/
def sigDatasBytes : List SigData → Bytes
  | [] => [0x00]
  | d :: _ =>
    if d.nrequired = 0 then UInt8.ofNat d.sigPubs.length :: d.sigPubs.flatMap SigPub.toBytes
    else []

/-- `Transaction.ToBytes` [txStruct.go:59-103]. -/
def toBytes (t : Transaction) : Res Bytes :=
  if t.nonce.length ≠ 4 then .err
  else if t.gasPrice.length ≠ 8 then .err
  else if t.gasLimit.length ≠ 8 then .err
  else if t.payer.length ≠ 0x14 then .err
  else if t.payload.length = 0 then .err
  else .ok ([t.version] ++ [t.txType] ++ t.nonce ++ t.gasPrice ++ t.gasLimit ++ t.payer ++ [UInt8.ofNat t.payload.length] ++ t.payload ++
    [t.attributes] ++ sigDatasBytes t.sigDatas)

/-- `decodeSigPubBytes` [txSigPub.go:72-119]. The public key is sliced without a check (line 108); both callers make this harmless:
one passes exactly 102 bytes, the other bytes starting with 0x01. -/
def decodeSigPubBytes (sp : Bytes) : Res SigPub := do
  let (h, sp) ← Btc.takeN 2 sp
  if h ≠ [0x41, 0x40] then .err
  else
    let (sig, sp) ← Btc.takeN 64 sp
    let (h, sp) ← Btc.takeN 2 sp
    if h ≠ [0x23, 0x21] then .err
    else
      let pub ← slice sp 0 33
      let sp := sp.drop 33
      if sp.length ≠ 1 then .err
      else if sp ≠ [0xAC] then .err
      else .ok ⟨sig, pub⟩

/-- The loop over the signatures [txStruct.go:209-223]. -/
def decodeSigs : Nat → Bytes → Res (List SigData)
  | 0, b => if b ≠ [] then .err else .ok []
  | n + 1, b => do
    let (h, b) ← Btc.takeN 102 b
    let sp ← decodeSigPubBytes h
    let r ← decodeSigs n b
    .ok (⟨0, [sp]⟩ :: r)

/-- The signature part of `DecodeRawTransaction` [txStruct.go:189-223]. Note line 200: the count byte 0x01 is not skipped. -/
def decodeSigDatas (b : Bytes) : Res (List SigData) := do
  let (n, rest) ← Btc.take1 b
  if n = 0x00 then (if rest ≠ [] then .err else .ok [])
  else if n = 0x01 then do
    let sp ← decodeSigPubBytes b
    .ok [⟨0, [sp]⟩]
  else decodeSigs n.toNat rest

/-- `DecodeRawTransaction` [txStruct.go:105-226]. -/
def decodeRawTransaction (b : Bytes) : Res Transaction := do
  let (version, b) ← Btc.take1 b
  if version ≠ 0x00 then .err
  else
    let (ty, b) ← Btc.take1 b
    if ty ≠ 0xD1 then .err
    else
      let (nonce, b) ← Btc.takeN 4 b
      let (gasPrice, b) ← Btc.takeN 8 b
      let (gasLimit, b) ← Btc.takeN 8 b
      let (payer, b) ← Btc.takeN 20 b
      let (len, b) ← Btc.take1 b
      if len = 0 then .err
      else
        let (payload, b) ← Btc.takeN len.toNat b
        let (attr, b) ← Btc.take1 b
        if attr ≠ 0 then .err
        else
          let sigs ← decodeSigDatas b
          .ok ⟨0, ty, nonce, gasPrice, gasLimit, payer, payload, 0, sigs⟩

/-- `littleEndianBytesToUint32` and `littleEndianBytesToUint64` [txUtils.go:55-57, 67-69]: the first `n` bytes; fewer panic. -/
def leUint (n : Nat) (b : Bytes) : Res Nat := if b.length < n then .panic else .ok (leNat (b.take n))

/-- `GetNonce`, `GetGasPrice`, `GetGasLimit` [txStruct.go:39-49]. -/
def getNonce (t : Transaction) : Res Nat := leUint 4 t.nonce
def getGasPrice (t : Transaction) : Res Nat := leUint 8 t.gasPrice
def getGasLimit (t : Transaction) : Res Nat := leUint 8 t.gasLimit

/-- `GetPayLoad` [txStruct.go:51-53]. -/
def getPayLoad (t : Transaction) : Bytes := Hex.encode t.payload

/-- `GetPayer` [txStruct.go:55-57]; the text of `EncodeCheck` [base58.go:168-173] is that of `btcTransaction` with a one-byte prefix. -/
def getPayer (H : Hashes) (t : Transaction) : Res Bytes := Btc.encodeCheck H [0x17] t.payer

/-! ### The API [transaction.go] -/

/-- `NewEmptyTransaction` [txStruct.go:20-29]; the error of `DecodeCheck` is dropped and leaves a nil payer. Its prefix is not looked
at. -/
def newEmptyTransaction (H : Hashes) (nonce : UInt32) (gasPrice gasLimit : UInt64) (payer payload : Bytes) : Res Transaction :=
  let mk (p : Bytes) : Transaction :=
    ⟨0x00, 0xD1, leBytes 4 nonce.toNat, leBytes 8 gasPrice.toNat, leBytes 8 gasLimit.toNat, p, payload, 0, []⟩
  match decodeCheck H payer with
  | .ok (_, h) => .ok (mk h)
  | .err => .ok (mk [])
  | .panic => .panic

/-- The hash that is signed [transaction.go:45, 71, 99]: the transaction without its last byte. -/
def signHash (H : Hashes) (b : Bytes) : Bytes := H.hash .sha256 (H.hash .doubleSha256 (b.take (b.length - 1)))

/-- `CreateRawTransactionAndHash` [transaction.go:28-52] and its V2 [54-78], with the amount already turned into script bytes. Result:
transaction text, hash text, signers. -/
def createWith (H : Hashes) (v2 : Bool) (emit : Bytes) (nonce : UInt32) (gasPrice gasLimit : UInt64) (s : TxState) :
    Res (Bytes × Bytes × List Bytes) := do
  let payer := if s.payer = [] then s.from_ else s.payer
  let payload ← invokeBytes H v2 emit s
  let t ← newEmptyTransaction H nonce gasPrice gasLimit payer payload
  let b ← toBytes t
  .ok (Hex.encode b, Hex.encode (signHash H b), if payer ≠ s.from_ then [payer, s.from_] else [payer])

/-- `CreateRawTransactionAndHash` [transaction.go:28-52]. -/
def create (H : Hashes) (nonce : UInt32) (gasPrice gasLimit : UInt64) (s : TxState) (amount : UInt64) :=
  createWith H false (uint64ToEmitBytes amount) nonce gasPrice gasLimit s

/-- `CreateRawTransactionAndHashV2` [transaction.go:54-78]. -/
def createV2 (H : Hashes) (nonce : UInt32) (gasPrice gasLimit : UInt64) (s : TxState) (amount : Int) :=
  createWith H true (bigIntToEmitBytes amount) nonce gasPrice gasLimit s

/-- The loop of `VerifyAndCombineRawTransaction` [transaction.go:101-107]; `PointDecompress(...)[1:]` panics on an empty result. -/
def verifyAll (C : Btc.Curve) (hash : Bytes) : List SigPub → Res Bool
  | [] => .ok true
  | sp :: r =>
    if C.decompress sp.publicKey = [] then .panic
    else if C.verify ((C.decompress sp.publicKey).drop 1) hash sp.signature = false then .ok false
    else verifyAll C hash r

/-- `VerifyAndCombineRawTransaction` [transaction.go:88-112]: the error of `ToBytes` is dropped. `.err` stands for `(false, "", err)`. -/
def verifyAndCombine (H : Hashes) (C : Btc.Curve) (emptyTrans : Bytes) (sigPubs : List SigPub) : Res (Bool × Bytes) := do
  let b ← Hex.decode emptyTrans
  let t ← decodeRawTransaction b
  let v ← verifyAll C (signHash H b) sigPubs
  if v = false then .err
  else
    match toBytes { t with sigDatas := t.sigDatas ++ [⟨0, sigPubs⟩] } with
    | .ok s => .ok (true, Hex.encode s)
    | .err => .ok (true, [])
    | .panic => .panic

end Verif.Ontology
