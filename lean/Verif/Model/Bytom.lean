import Verif.Model.Bech32m
import Verif.Model.Hex
import Verif.Model.Crypto

/-! Model of `bytomTransaction`. Go distinguishes the nil slice from an empty one in signatures, keys and multi-signature scripts; these are options
here. Slices cut out of the transaction share its memory in Go; nothing in the package writes to them afterwards. -/

namespace Verif.Bytom
open Verif

/-! ### bech32.go -/

/-- `Bech32Decode` [bytomTransaction/bech32.go:16-78]; the text is that of an address, so bytes above 126 are refused before letters are folded. The
expected checksum computed for the error text is left out. -/
def bech32Decode (bech : Bytes) : Res (Bytes × List Nat) :=
  if bech.length < 8 ∨ bech.length > 90 then .err
  else if bech.any (fun c => decide (c < 33) || decide (c > 126)) then .err
  else if bech ≠ bech.map Bech32m.toLower ∧ bech ≠ bech.map Bech32m.toUpper then .err
  else
    let bech := bech.map Bech32m.toLower
    match Bech32m.lastSep bech with
    | none => .err
    | some one =>
      if one < 1 ∨ one + 7 > bech.length then .err
      else
        let hrp := bech.take one
        match Bech32m.revAll Bech32.stdAlphabet (bech.drop (one + 1)) with
        | none => .err
        | some decoded =>
          if Bech32m.polymod (Bech32m.hrpExpand hrp ++ decoded) ≠ 1 then .err
          else .ok (hrp, decoded.take (decoded.length - 6))

/-- `bech32Checksum` [bytomTransaction/bech32.go:197-212]. -/
def bech32Checksum (hrp : Bytes) (data : List Nat) : List Nat :=
  PolyMod.symbolsOf 6 (Bech32m.polymod (Bech32m.hrpExpand hrp ++ data ++ List.replicate 6 0) ^^^ 1)

/-- `toChars` [bytomTransaction/bech32.go:116-125]. -/
def toChars : List Nat → Res Bytes
  | [] => .ok []
  | v :: vs =>
    match Bech32.stdAlphabet[v]? with
    | none => .err
    | some c =>
      match toChars vs with
      | .ok cs => .ok (c :: cs)
      | .err => .err
      | .panic => .panic

/-- `Bech32Encode` [bytomTransaction/bech32.go:83-97]. -/
def bech32Encode (hrp : Bytes) (data : List Nat) : Res Bytes := do
  let cs ← toChars (data ++ bech32Checksum hrp data)
  .ok (hrp ++ 0x31 :: cs)

/-- The inner loop of `ConvertBits` [bytomTransaction/bech32.go:149-177]: the remaining bits of one input byte, standing at the top of `b`, are moved
to the output byte `next`, of which `filled` bits are present. `fuel` bounds the iterations (each moves at least one bit); bytes are numbers below
256. Returns the finished output bytes, `next` and `filled`. -/
def convByte (toBits : Nat) : Nat → Nat → Nat → Nat → Nat → List Nat × Nat × Nat
  | 0, _, _, next, filled => ([], next, filled)
  | fuel + 1, b, rem, next, filled =>
    if rem > 0 then
      let e := if toBits - filled < rem then toBits - filled else rem
      let next := (next <<< e) % 256 ||| (b >>> (8 - e))
      let b := (b <<< e) % 256
      let filled := filled + e
      if filled = toBits then
        let r := convByte toBits fuel b (rem - e) 0 0
        (next :: r.1, r.2)
      else convByte toBits fuel b (rem - e) next filled
    else ([], next, filled)

/-- The outer loop of `ConvertBits` [bytomTransaction/bech32.go:142-178]. -/
def convLoop (fromBits toBits : Nat) : List Nat → Nat → Nat → List Nat × Nat × Nat
  | [], next, filled => ([], next, filled)
  | b :: data, next, filled =>
    let r := convByte toBits fromBits ((b <<< (8 - fromBits)) % 256) fromBits next filled
    let r' := convLoop fromBits toBits data r.2.1 r.2.2
    (r.1 ++ r'.1, r'.2)

/-- `ConvertBits` [bytomTransaction/bech32.go:129-194]; the package calls it with group sizes 5 and 8 only. -/
def convertBits (data : List Nat) (fromBits toBits : Nat) (pad : Bool) : Res (List Nat) :=
  if fromBits < 1 ∨ fromBits > 8 ∨ toBits < 1 ∨ toBits > 8 then .err
  else
    let r := convLoop fromBits toBits data 0 0
    let next := r.2.1
    let filled := r.2.2
    if pad ∧ filled > 0 then .ok (r.1 ++ [(next <<< (toBits - filled)) % 256])
    else if filled > 0 ∧ (filled > 4 ∨ next ≠ 0) then .err
    else .ok r.1

/-- `decodeSegWitAddress` [bytomTransaction/bech32.go:252-291]: version and program. The human-readable part is dropped. -/
def decodeSegWitAddress (address : Bytes) : Res (Nat × Bytes) := do
  let (_, data) ← bech32Decode address
  match data with
  | [] => .err
  | version :: rest =>
    if version > 16 then .err
    else do
      let regrouped ← convertBits rest 5 8 false
      if regrouped.length < 2 ∨ regrouped.length > 40 then .err
      else if version = 0 ∧ regrouped.length ≠ 20 ∧ regrouped.length ≠ 32 then .err
      else .ok (version, regrouped.map UInt8.ofNat)

/-- `encodeSegWitAddress` [bytomTransaction/bech32.go:295-324]. -/
def encodeSegWitAddress (hrp : Bytes) (version : Nat) (program : Bytes) : Res Bytes := do
  let converted ← convertBits (program.map UInt8.toNat) 8 5 true
  let bech ← bech32Encode hrp (version :: converted)
  let (v, p) ← decodeSegWitAddress bech
  if v ≠ version ∨ p ≠ program then .err else .ok bech

/-! ### txProfile.go, txUtil.go -/

/-- `Bech32HRPSegwitMainNet`, `Bech32HRPSegwitTestNet` [bytomTransaction/txProfile.go:4-5]. -/
def hrpOf (isTestNet : Bool) : Bytes := if isTestNet then asc "tm" else asc "bm"

/-- `binary.PutUvarint`: the bytes it writes; ten are enough for 64 bits. -/
def putUvarint : Nat → Nat → Bytes
  | 0, x => [UInt8.ofNat x]
  | n + 1, x => if x < 128 then [UInt8.ofNat x] else UInt8.ofNat (x % 128 + 128) :: putUvarint n (x / 128)

/-- `uint64ToUvarint` [bytomTransaction/txUtil.go:7-16]: the buffer has eight bytes, writing past it panics. -/
def uint64ToUvarint (x : Nat) : Res Bytes :=
  let b := putUvarint 9 x
  if b.length > 8 then .panic else .ok b

/-- `binary.Uvarint`: value and number of bytes read (0 or negative on failure), at byte `i` with the bits `x` collected. The bits of the groups are
disjoint, so they are added. -/
def uvarint : Nat → Nat → Bytes → Nat × Int
  | _, _, [] => (0, 0)
  | i, x, b :: r =>
    if b < 0x80 then
      if i > 9 ∨ (i = 9 ∧ b > 1) then (0, -(i + 1)) else (x + b.toNat * 2 ^ (7 * i), i + 1)
    else uvarint (i + 1) (x + b.toNat % 128 * 2 ^ (7 * i)) r

/-- `uvarintToUint64` [bytomTransaction/txUtil.go:18-30]. -/
def uvarintToUint64 (buf : Bytes) : Nat :=
  if buf.length = 0 then 0
  else
    let r := uvarint 0 0 buf
    if r.2 ≠ buf.length then 0 else r.1

/-- `uint64ToLittleEndianBytes` [bytomTransaction/txUtil.go:33-37]. -/
def le64 (n : Nat) : Bytes := leBytes 8 n

/-! ### Structures -/

/-- `SigPub` [bytomTransaction/sigPub.go:9-12]; `none` is a nil slice. -/
structure SigPub where
  signature : Option Bytes := none
  pubkey : Option Bytes := none
deriving DecidableEq

/-- `Vin` [bytomTransaction/transaction.go:10-16]. -/
structure Vin where
  sourceID : Bytes
  sourcePosition : UInt64
  assetID : Bytes
  amount : UInt64
  controlProgram : Bytes

/-- `Vout` [bytomTransaction/transaction.go:18-21]. -/
structure Vout where
  address : Bytes
  amount : UInt64

/-- `TxIn` [bytomTransaction/txIn.go:8-16]. -/
structure TxIn where
  sourceID : Bytes
  sourcePosition : Bytes
  assetID : Bytes
  amount : Bytes
  controlProgram : Bytes
  sigPub : Option SigPub := none
  multiSig : Option Bytes := none
deriving DecidableEq

/-- `TxOut` [bytomTransaction/txOut.go:8-12]. -/
structure TxOut where
  assetID : Bytes
  controlProgram : Bytes
  amount : Bytes
deriving DecidableEq

/-- `Transaction` [bytomTransaction/txStruct.go:9-14]. -/
structure Transaction where
  version : Bytes
  timeRange : Bytes
  inputs : List TxIn
  outputs : List TxOut
deriving DecidableEq

/-- `NormalTx` [bytomTransaction/txHash.go:10-13]. -/
structure NormalTx where
  address : Bytes
  sigPub : SigPub
deriving DecidableEq

/-- `MultiTx` [bytomTransaction/txHash.go:15-18]. -/
structure MultiTx where
  pubkey : Bytes
  sigPub : SigPub
deriving DecidableEq

/-- `TxHash` [bytomTransaction/txHash.go:20-25]. -/
structure TxHash where
  hash : Bytes
  nRequired : UInt8 := 0
  normal : Option NormalTx := none
  multi : List MultiTx := []
deriving DecidableEq

/-! ### Creating -/

/-- `newTxInForEmptyTrans` [bytomTransaction/txIn.go:73-100]: one input. -/
def newTxIn (v : Vin) : Res TxIn := do
  let s ← Hex.decode v.sourceID
  let p ← uint64ToUvarint v.sourcePosition.toNat
  let a ← Hex.decode v.assetID
  let m ← uint64ToUvarint v.amount.toNat
  let c ← Hex.decode v.controlProgram
  .ok { sourceID := s, sourcePosition := p, assetID := a, amount := m, controlProgram := c }

/-- The loop over the inputs [bytomTransaction/txIn.go:79-98]. -/
def newTxIns : List Vin → Res (List TxIn)
  | [] => .ok []
  | v :: vs => do
    let i ← newTxIn v
    let is ← newTxIns vs
    .ok (i :: is)

/-- `BTMAssetID` decoded [bytomTransaction/txProfile.go:22, txOut.go:14-16]. -/
def btmAsset : Bytes := List.replicate 32 0xff

/-- `SetControlProgram` [bytomTransaction/txOut.go:18-36]. -/
def outProgram (address : Bytes) : Res Bytes := do
  let (v, p) ← decodeSegWitAddress address
  if v ≠ 0 then .err
  else if p.length ≠ 20 ∧ p.length ≠ 32 then .err
  else
    let c := 0x00 :: UInt8.ofNat p.length :: p
    .ok (UInt8.ofNat c.length :: c)

/-- `newTxOutForEmptyTrans` [bytomTransaction/txOut.go:46-64]: one output. -/
def newTxOut (v : Vout) : Res TxOut := do
  let c ← outProgram v.address
  let m ← uint64ToUvarint v.amount.toNat
  .ok ⟨btmAsset, c, m⟩

/-- The loop over the outputs [bytomTransaction/txOut.go:53-62]. -/
def newTxOuts : List Vout → Res (List TxOut)
  | [] => .ok []
  | v :: vs => do
    let o ← newTxOut v
    let os ← newTxOuts vs
    .ok (o :: os)

/-- `newEmptyTransaction` [bytomTransaction/txStruct.go:28-47]. -/
def newEmptyTransaction (vins : List Vin) (vouts : List Vout) (timeRange : UInt64) : Res Transaction := do
  if vins.length = 0 then .err
  else do
    let is ← newTxIns vins
    if vouts.length = 0 then .err
    else do
      let os ← newTxOuts vouts
      let v ← uint64ToUvarint 1
      let t ← uint64ToUvarint timeRange.toNat
      .ok ⟨v, t, is, os⟩

/-- `SigPub.toBytes` [bytomTransaction/sigPub.go:14-31]. -/
def SigPub.toBytes (sp : SigPub) : Res Bytes :=
  match sp.signature, sp.pubkey with
  | some s, some p =>
    if s.length ≠ 64 ∨ p.length ≠ 32 then .err
    else .ok ([0x63, 0x02, 0x40] ++ s ++ [0x20] ++ p)
  | _, _ => .err

/-- A byte string behind the byte of its length, `append([]byte{byte(len(ret))}, ret...)`. -/
def len1 (b : Bytes) : Bytes := UInt8.ofNat b.length :: b

/-- `TxIn.toBytes` [bytomTransaction/txIn.go:102-151]. -/
def TxIn.toBytes (i : TxIn) : Res Bytes :=
  if i.sourceID.length ≠ 32 then .err
  else if i.assetID.length ≠ 32 then .err
  else if i.controlProgram.length ≠ 22 ∧ i.controlProgram.length ≠ 34 then .err
  else if i.sourcePosition.length = 0 then .err
  else if i.amount.length = 0 then .err
  else
    let ret := i.sourceID ++ i.assetID ++ i.amount ++ i.sourcePosition ++ [0x01, UInt8.ofNat i.controlProgram.length] ++ i.controlProgram
    let ret := len1 (0x01 :: len1 ret)
    match i.sigPub, i.multiSig with
    | none, none => .ok (0x01 :: (ret ++ [0x01, 0x00]))
    | none, some m => .ok (0x01 :: (ret ++ m))
    | some sp, _ => do
      let s ← sp.toBytes
      .ok (0x01 :: (ret ++ s))

/-- `TxOut.toBytes` [bytomTransaction/txOut.go:66-91]. -/
def TxOut.toBytes (o : TxOut) : Res Bytes :=
  if o.amount.length = 0 then .err
  else if o.assetID.length ≠ 32 then .err
  else if o.controlProgram.length = 0 then .err
  else .ok (0x01 :: (len1 (o.assetID ++ o.amount ++ 0x01 :: o.controlProgram) ++ [0x00]))

/-- The loops over inputs and outputs of `Transaction.toBytes` [bytomTransaction/txStruct.go:73-89]. -/
def concatBytes {α : Type} (f : α → Res Bytes) : List α → Res Bytes
  | [] => .ok []
  | a :: l => do
    let b ← f a
    let r ← concatBytes f l
    .ok (b ++ r)

/-- `Transaction.toBytes` [bytomTransaction/txStruct.go:49-91]. -/
def Transaction.toBytes (t : Transaction) : Res Bytes :=
  if t.inputs.length = 0 then .err
  else if t.outputs.length = 0 then .err
  else if t.timeRange.length = 0 then .err
  else if t.version.length = 0 then .err
  else do
    let is ← concatBytes TxIn.toBytes t.inputs
    let os ← concatBytes TxOut.toBytes t.outputs
    .ok (0x07 :: (t.version ++ t.timeRange ++ UInt8.ofNat t.inputs.length :: is ++ UInt8.ofNat t.outputs.length :: os))

/-- The check of the address prefixes [bytomTransaction/transaction.go:25-35]. -/
def checkAddresses (isTestNet : Bool) : List Vout → Res Unit
  | [] => .ok ()
  | v :: vs => do
    let p ← slice v.address 0 2
    if p ≠ hrpOf isTestNet then .err else checkAddresses isTestNet vs

/-- `CreateEmptyRawTransaction` [bytomTransaction/transaction.go:23-48]. -/
def createEmpty (vins : List Vin) (vouts : List Vout) (timeRange : UInt64) (isTestNet : Bool) : Res Bytes := do
  checkAddresses isTestNet vouts
  let t ← newEmptyTransaction vins vouts timeRange
  let b ← t.toBytes
  .ok (Hex.encode b)

/-! ### Decoding -/

/-- One byte, after the check `index+1 > limit`. -/
def take1 : Bytes → Res (UInt8 × Bytes)
  | [] => .err
  | b :: r => .ok (b, r)

/-- `n` bytes, after the check `index+n > limit`. -/
def takeN (n : Nat) (b : Bytes) : Res (Bytes × Bytes) := if b.length < n then .err else .ok (b.take n, b.drop n)

/-- Searching the last byte of a variable-length integer: running past the end panics. -/
def scanUvarint : Bytes → Res (Bytes × Bytes)
  | [] => .panic
  | b :: r =>
    if b < 0x80 then .ok ([b], r)
    else do
      let (v, r') ← scanUvarint r
      .ok (b :: v, r')

/-- The loop reading an amount or the time range [bytomTransaction/txIn.go:187-201, txOut.go:104-118, txStruct.go:131-145]: only the first byte is
checked against the end. -/
def readUvarint : Bytes → Res (Bytes × Bytes)
  | [] => .err
  | b :: r => scanUvarint (b :: r)

/-- The loop reading the version [bytomTransaction/txStruct.go:114-128]: it moves the beginning along, so only the last byte is kept. -/
def readVersion : Bytes → Res (Bytes × Bytes)
  | [] => .err
  | b :: r => if b < 0x80 then .ok ([b], r) else readVersion r

/-- `decodeCommitment` [bytomTransaction/txIn.go:153-232]; the input without witness. -/
def decodeCommitment (script : Bytes) : Res TxIn := do
  let (v, b) ← take1 script
  if v ≠ 1 then .err
  else do
    let (l, b) ← take1 b
    if l ≠ UInt8.ofNat (script.length - 2) then .err
    else do
      let (sourceID, b) ← takeN 32 b
      let (assetID, b) ← takeN 32 b
      let (amount, b) ← readUvarint b
      let (pos, b) ← take1 b
      let (v, b) ← take1 b
      if v ≠ 1 then .err
      else do
        let (cl, b) ← take1 b
        if cl = 0 then .err
        else if cl.toNat ≠ b.length then .err
        else .ok { sourceID := sourceID, sourcePosition := [pos], assetID := assetID, amount := amount, controlProgram := b }

/-- The witness of an input [bytomTransaction/txStruct.go:194-246]. -/
def decodeWitness (i : TxIn) (b : Bytes) : Res (TxIn × Bytes) := do
  let (w, b) ← take1 b
  if w = 1 then do
    let (z, b) ← take1 b
    if z ≠ 0 then .err else .ok (i, b)
  else if w = 0 then .err
  else
    match b with
    | x :: y :: r =>
      if x = 2 ∧ y = 0x40 then do
        let (sig, r) ← takeN 64 r
        let (l, r) ← take1 r
        if l ≠ 32 then .err
        else do
          let (pub, r) ← takeN 32 r
          .ok ({ i with sigPub := some ⟨some sig, some pub⟩ }, r)
      else if x = 1 ∧ y = 3 then do
        let (m, r) ← takeN (w.toNat + 1) b
        .ok ({ i with multiSig := some m }, r)
      else .err
    | _ => .err

/-- One input [bytomTransaction/txStruct.go:158-248]. -/
def decodeIn (b : Bytes) : Res (TxIn × Bytes) := do
  let (v, b) ← take1 b
  if v ≠ 1 then .err
  else do
    let (l, b) ← take1 b
    if l = 0 then .err
    else do
      let (c, b) ← takeN l.toNat b
      let i ← decodeCommitment c
      decodeWitness i b

/-- `decodeOutputScript` [bytomTransaction/txOut.go:93-148]. -/
def decodeOutputScript (script : Bytes) : Res TxOut := do
  let (assetID, b) ← takeN 32 script
  let (amount, b) ← readUvarint b
  let (v, b) ← take1 b
  if v ≠ 1 then .err
  else do
    let (l, r) ← take1 b
    if l = 0 then .err
    else if r.length < l.toNat then .err
    else if l.toNat ≠ r.length then .err
    else .ok ⟨assetID, b, amount⟩

/-- One output [bytomTransaction/txStruct.go:259-300]. -/
def decodeOut (b : Bytes) : Res (TxOut × Bytes) := do
  let (v, b) ← take1 b
  if v ≠ 1 then .err
  else do
    let (l, b) ← take1 b
    if l = 0 then .err
    else do
      let (s, b) ← takeN l.toNat b
      let o ← decodeOutputScript s
      let (w, b) ← take1 b
      if w ≠ 0 then .err else .ok (o, b)

/-- `n` items one after another. -/
def readMany {α : Type} (f : Bytes → Res (α × Bytes)) : Nat → Bytes → Res (List α × Bytes)
  | 0, b => .ok ([], b)
  | n + 1, b => do
    let (x, b) ← f b
    let (xs, b) ← readMany f n b
    .ok (x :: xs, b)

/-- `DecodeRawTransaction` [bytomTransaction/txStruct.go:93-306]. -/
def decodeRaw (txBytes : Bytes) : Res Transaction := do
  let (f, b) ← take1 txBytes
  if f ≠ 7 then .err
  else do
    let (version, b) ← readVersion b
    let (timeRange, b) ← readUvarint b
    let (n, b) ← take1 b
    if n = 0 then .err
    else do
      let (ins, b) ← readMany decodeIn n.toNat b
      let (m, b) ← take1 b
      if m = 0 then .err
      else do
        let (outs, b) ← readMany decodeOut m.toNat b
        if b ≠ [] then .err else .ok ⟨version, timeRange, ins, outs⟩

/-! ### Identifiers and signature hashes -/

/-- `owcrypt.Hash(msg, 0, HASH_ALG_SHA3_256)`. -/
def sha3 (H : Hashes) (b : Bytes) : Bytes := H.hash .sha3_256 b

/-- `getInputID` [bytomTransaction/txStruct.go:308-359]. -/
def getInputID (H : Hashes) (t : Transaction) (k : Nat) : Res Bytes :=
  if t.inputs.length = 0 then .err
  else if t.inputs.length < k then .err
  else do
    let i ← index t.inputs k
    if i.sourceID.length ≠ 32 then .err
    else if i.assetID.length ≠ 32 then .err
    else if i.controlProgram.length = 0 then .err
    else
      let msg := i.sourceID ++ i.assetID ++ le64 (uvarintToUint64 i.amount) ++ le64 (uvarintToUint64 i.sourcePosition) ++ le64 1 ++
        UInt8.ofNat i.controlProgram.length :: i.controlProgram
      let h := sha3 H (asc "entryid:" ++ asc "output1:" ++ sha3 H msg)
      let h := sha3 H h
      .ok (sha3 H (asc "entryid:" ++ asc "spend1:" ++ h))

/-- The loop collecting the ids of inputs or outputs, from number `k` on [bytomTransaction/txStruct.go:368-374, 451-457]. -/
def collectIDs {α : Type} (f : Nat → Res Bytes) : Nat → List α → Res (List Bytes)
  | _, [] => .ok []
  | k, _ :: l => do
    let x ← f k
    let xs ← collectIDs f (k + 1) l
    .ok (x :: xs)

/-- `getMuxID` [bytomTransaction/txStruct.go:361-398]. -/
def getMuxID (H : Hashes) (t : Transaction) : Res Bytes := do
  let ids ← collectIDs (getInputID H t) 0 t.inputs
  let msg := UInt8.ofNat ids.length :: (List.zipWith (fun id i => id ++ i.assetID ++ le64 (uvarintToUint64 i.amount) ++
      le64 (uvarintToUint64 i.sourcePosition)) ids t.inputs).flatten ++ le64 1 ++ [0x01, 0x51]
  .ok (sha3 H (asc "entryid:" ++ asc "mux1:" ++ sha3 H msg))

/-- `getOutID` [bytomTransaction/txStruct.go:400-442]. -/
def getOutID (H : Hashes) (t : Transaction) (k : Nat) : Res Bytes := do
  let mux ← getMuxID H t
  if t.outputs.length = 0 then .err
  else do
    let o ← index t.outputs k
    if o.assetID.length ≠ 32 then .err
    else if o.amount.length = 0 then .err
    else if o.controlProgram.length = 0 then .err
    else
      let msg := mux ++ o.assetID ++ le64 (uvarintToUint64 o.amount) ++ le64 k ++ le64 1 ++ o.controlProgram
      .ok (sha3 H (asc "entryid:" ++ asc "output1:" ++ sha3 H msg))

/-- `getTxID` [bytomTransaction/txStruct.go:444-481]. -/
def getTxID (H : Hashes) (t : Transaction) : Res Bytes := do
  let ids ← collectIDs (getOutID H t) 0 t.outputs
  let msg := le64 1 ++ le64 (uvarintToUint64 t.timeRange) ++ UInt8.ofNat t.outputs.length :: ids.flatten
  .ok (sha3 H (asc "entryid:" ++ asc "txheader:" ++ sha3 H msg))

/-- `getSigHash` [bytomTransaction/txStruct.go:483-495]. -/
def getSigHash (H : Hashes) (t : Transaction) (k : Nat) : Res Bytes := do
  let s ← getInputID H t k
  let i ← getTxID H t
  .ok (sha3 H (s ++ i))

/-- The hash and signer of one input [bytomTransaction/transaction.go:63-88]. -/
def hashFor (H : Hashes) (t : Transaction) (isTestNet : Bool) (k : Nat) (i : TxIn) : Res TxHash := do
  let h ← getSigHash H t k
  if i.controlProgram.length = 34 then .ok { hash := Hex.encode h, nRequired := 1 }
  else do
    let p ← slice i.controlProgram 2 i.controlProgram.length
    let a ← encodeSegWitAddress (hrpOf isTestNet) 0 p
    .ok { hash := Hex.encode h, normal := some ⟨a, {}⟩ }

/-- The loop over the inputs [bytomTransaction/transaction.go:62-89]. -/
def hashLoop (H : Hashes) (t : Transaction) (isTestNet : Bool) : Nat → List TxIn → Res (List TxHash)
  | _, [] => .ok []
  | k, i :: is => do
    let h ← hashFor H t isTestNet k i
    let hs ← hashLoop H t isTestNet (k + 1) is
    .ok (h :: hs)

/-- `CreateRawTransactionHashForSig` [bytomTransaction/transaction.go:50-92]. -/
def hashForSig (H : Hashes) (txHex : Bytes) (isTestNet : Bool) : Res (List TxHash) := do
  let b ← Hex.decode txHex
  let t ← decodeRaw b
  hashLoop H t isTestNet 0 t.inputs

/-! ### Multi-signature scripts -/

/-- The keys of a multi-signature script [bytomTransaction/txMultiSig.go:27-33, txHash.go:56-62]. -/
def scriptKeys : List Bytes → Res Bytes
  | [] => .ok []
  | k :: ks =>
    if k.length ≠ 32 then .err
    else do
      let r ← scriptKeys ks
      .ok (0x20 :: (k ++ r))

/-- The script for given keys [bytomTransaction/txMultiSig.go:23-37, txHash.go:52-66]. -/
def signScript (required : UInt8) (keys : List Bytes) : Res Bytes := do
  let ks ← scriptKeys keys
  .ok (0xae :: ks ++ [0x50 + required, 0x50 + UInt8.ofNat keys.length, 0xad])

/-- `CreateMultiSig` [bytomTransaction/txMultiSig.go:10-55]: address and script text. -/
def createMultiSig (H : Hashes) (required : UInt8) (pubkeys : List Bytes) (isTestNet : Bool) : Res (Bytes × Bytes) :=
  if pubkeys.length = 0 then .err
  else if required = 0 then .err
  else if pubkeys.length < required.toNat then .err
  else do
    let s ← signScript required pubkeys
    let a ← encodeSegWitAddress (hrpOf isTestNet) 0 (sha3 H s)
    .ok (a, Hex.encode s)

/-- The keys read from a script, up to the first byte that does not announce one [bytomTransaction/txMultiSig.go:72-87, 170-186]; `fuel` bounds the
iterations (each one consumes 33 bytes). -/
def readKeys : Nat → Bytes → Res (List Bytes × Bytes)
  | 0, _ => .err
  | fuel + 1, b =>
    match b with
    | [] => .err
    | c :: r =>
      if c ≠ 0x20 then .ok ([], b)
      else do
        let (k, r) ← takeN 32 r
        let (ks, r) ← readKeys fuel r
        .ok (k :: ks, r)

/-- `getMultiSigDetail` [bytomTransaction/txMultiSig.go:57-115]. -/
def getMultiSigDetail (script : Bytes) : Res (List MultiTx × UInt8) := do
  let (o, b) ← take1 script
  if o ≠ 0xae then .err
  else do
    let (ks, b) ← readKeys (b.length + 1) b
    let (r, b) ← take1 b
    let required := r - 0x50
    if required = 0 then .err
    else do
      let (n, b) ← take1 b
      if n - 0x50 ≠ UInt8.ofNat ks.length then .err
      else do
        let (c, b) ← take1 b
        if c ≠ 0xad then .err
        else if b ≠ [] then .err
        else .ok (ks.map (fun k => ⟨Hex.encode k, {}⟩), required)

/-- `PadMultiSig` [bytomTransaction/txHash.go:31-45]. -/
def padMultiSig (th : TxHash) (scriptHex : Bytes) : Res TxHash := do
  let s ← Hex.decode scriptHex
  let (m, r) ← getMultiSigDetail s
  .ok { th with nRequired := r, multi := m }

/-- The signatures gathered by `getMultiSigBytes` [bytomTransaction/txHash.go:76-92]: the bytes and the number of signatures. -/
def gatherSigs (nRequired : UInt8) : Nat → List MultiTx → Res (Bytes × Nat)
  | count, [] => .ok ([], count)
  | count, m :: ms =>
    match m.sigPub.signature with
    | none => gatherSigs nRequired count ms
    | some s =>
      if s.length ≠ 0x40 then .err
      else if UInt8.ofNat (count + 1) = nRequired then .ok (0x40 :: s, count + 1)
      else do
        let (b, c) ← gatherSigs nRequired (count + 1) ms
        .ok (0x40 :: (s ++ b), c)

/-- The keys of a hash to be signed [bytomTransaction/txHash.go:56-62]: nil keys are refused. -/
def multiKeys : List MultiTx → Res (List Bytes)
  | [] => .ok []
  | m :: ms =>
    match m.sigPub.pubkey with
    | none => .err
    | some k =>
      if k.length ≠ 32 then .err
      else do
        let ks ← multiKeys ms
        .ok (k :: ks)

/-- `getMultiSigBytes` [bytomTransaction/txHash.go:47-103]: the witness and the control program. -/
def getMultiSigBytes (H : Hashes) (th : TxHash) : Res (Bytes × Bytes) :=
  if th.nRequired = 0 then .err
  else do
    let ks ← multiKeys th.multi
    let s ← signScript th.nRequired ks
    let (b, count) ← gatherSigs th.nRequired 0 th.multi
    if UInt8.ofNat count < th.nRequired then .err
    else
      let w := [0x01, 0x03] ++ b ++ UInt8.ofNat s.length :: s
      .ok (UInt8.ofNat (w.length - 1) :: w, [0x00, 0x20] ++ sha3 H s)

/-- The signatures read by `getMultiSigPubs` [bytomTransaction/txMultiSig.go:135-150]. -/
def readSigs : Nat → Bytes → Res (List Bytes × Bytes)
  | 0, _ => .err
  | fuel + 1, b =>
    match b with
    | [] => .err
    | c :: r =>
      if c ≠ 0x40 then .ok ([], b)
      else do
        let (s, r) ← takeN 64 r
        let (ss, r) ← readSigs fuel r
        .ok (s :: ss, r)

/-- `getMultiSigPubs` [bytomTransaction/txMultiSig.go:117-219]. -/
def getMultiSigPubs (sp : Bytes) : Res (List Bytes × List Bytes) :=
  match sp with
  | x :: y :: b =>
    if x ≠ 1 ∨ y ≠ 3 then .err
    else do
      let (sigs, b) ← readSigs (b.length + 1) b
      let (l, b) ← take1 b
      if l.toNat ≠ b.length then .err
      else do
        let (o, b) ← take1 b
        if o ≠ 0xae then .err
        else do
          let (pubs, b) ← readKeys (b.length + 1) b
          let (r, b) ← take1 b
          let (n, b) ← take1 b
          if (n - 0x50).toNat ≠ pubs.length then .err
          else if (r - 0x50).toNat ≠ sigs.length then .err
          else do
            let (c, b) ← take1 b
            if c ≠ 0xad then .err
            else if b ≠ [] then .err
            else .ok (sigs, pubs)
  | _ => .err

/-! ### Signing, inserting, verifying -/

/-- `SignRawTransactionHash`, `calcSignaturePubkey` [bytomTransaction/transaction.go:94-101, sigPub.go:33-52]. `sign` is
`owcrypt.Signature(prikey, nil, hash, ECC_CURVE_ED25519)`, `none` when it reports failure; `pubOf` is `owcrypt.Point_mulBaseG`. -/
def signHash (sign : Bytes → Bytes → Option Bytes) (pubOf : Bytes → Bytes) (txHash prikey : Bytes) : Res SigPub := do
  let h ← Hex.decode txHash
  if h.length ≠ 32 ∨ prikey.length ≠ 32 then .err
  else
    match sign prikey h with
    | none => .err
    | some s => .ok ⟨some s, some (pubOf prikey)⟩

/-- One signature put into its input [bytomTransaction/transaction.go:128-139]; the inputs from the present one on. -/
def insertOne (H : Hashes) (th : TxHash) (ins : List TxIn) : Res (TxIn × List TxIn) :=
  if th.nRequired ≠ 0 then do
    let (m, c) ← getMultiSigBytes H th
    match ins with
    | [] => .panic
    | i :: is => .ok ({ i with controlProgram := c, multiSig := some m, sigPub := none }, is)
  else
    match ins, th.normal with
    | i :: is, some n => .ok ({ i with sigPub := some n.sigPub, multiSig := none }, is)
    | _, _ => .panic

/-- The loop over the signatures [bytomTransaction/transaction.go:127-141]; inputs without signature stay as they are. -/
def insertLoop (H : Hashes) : List TxHash → List TxIn → Res (List TxIn)
  | [], ins => .ok ins
  | th :: ths, ins => do
    let (i, is) ← insertOne H th ins
    let r ← insertLoop H ths is
    .ok (i :: r)

/-- `InsertSignatureIntoEmptyTransaction` [bytomTransaction/transaction.go:103-147]. -/
def insertSignatures (H : Hashes) (txHex : Bytes) (ths : List TxHash) : Res Bytes := do
  let b ← Hex.decode txHex
  let t ← decodeRaw b
  if ths.length = 0 then .err
  else if t.inputs.length = 0 then .err
  else if t.outputs.length = 0 then .err
  else do
    let ins ← insertLoop H ths t.inputs
    let b ← Transaction.toBytes { t with inputs := ins }
    .ok (Hex.encode b)

/-- `cloneEmpty` [bytomTransaction/txStruct.go:497-508]. -/
def cloneEmpty (t : Transaction) : Transaction :=
  { t with inputs := t.inputs.map (fun i => { i with sigPub := none, multiSig := none }) }

/-- The number of pairs of a signature and a key not before it for which verification succeeds
[bytomTransaction/transaction.go:185-192]. `verify pub msg sig` is `owcrypt.Verify` with the Ed25519 curve. -/
def countPairs (verify : Bytes → Bytes → Bytes → Bool) (msg : Bytes) : List Bytes → List Bytes → Nat
  | [], _ => 0
  | s :: ss, pubs => (pubs.filter (fun p => verify p msg s)).length + countPairs verify msg ss (pubs.drop 1)

/-- The check of one input [bytomTransaction/transaction.go:180-201]. A missing signature is a nil pointer, reading it panics; the keys and
signatures of a decoded transaction are never nil. -/
def verifyIn (verify : Bytes → Bytes → Bytes → Bool) (msg : Bytes) (i : TxIn) : Res Bool :=
  if i.controlProgram.length = 0x22 then
    match getMultiSigPubs (i.multiSig.getD []) with
    | .ok (sigs, pubs) => .ok (decide (countPairs verify msg sigs pubs = sigs.length))
    | .err => .ok false
    | .panic => .panic
  else
    match i.sigPub with
    | none => .panic
    | some sp => .ok (verify (sp.pubkey.getD []) msg (sp.signature.getD []))

/-- The hashes of all inputs [bytomTransaction/transaction.go:169-177]. -/
def allHashes (H : Hashes) (t : Transaction) : Res (List Bytes) := collectIDs (getSigHash H t) 0 t.inputs

/-- The loop over the inputs [bytomTransaction/transaction.go:179-202]. -/
def verifyLoop (verify : Bytes → Bytes → Bytes → Bool) : List Bytes → List TxIn → Res Bool
  | h :: hs, i :: is =>
    match verifyIn verify h i with
    | .ok true => verifyLoop verify hs is
    | r => r
  | _, _ => .ok true

/-- `VerifyRawTransaction` [bytomTransaction/transaction.go:149-204]: errors of the called functions answer false. -/
def verifyRaw (H : Hashes) (verify : Bytes → Bytes → Bytes → Bool) (txHex : Bytes) : Res Bool :=
  match Hex.decode txHex with
  | .ok b =>
    match decodeRaw b with
    | .ok t =>
      if t.inputs.length = 0 then .ok false
      else
        match allHashes H (cloneEmpty t) with
        | .ok hs => verifyLoop verify hs t.inputs
        | .err => .ok false
        | .panic => .panic
    | .err => .ok false
    | .panic => .panic
  | .err => .ok false
  | .panic => .panic

end Verif.Bytom
