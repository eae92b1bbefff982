import Verif.Model.Base58
import Verif.Model.Bech32
import Verif.Model.Hex
import Verif.Model.Crypto
import Verif.Model.OwKeychain

/-!
Model of package `btcTransaction`: creating, serialising and parsing raw transactions, unlocking scripts, multisig redeem
scripts, signature hashes, inserting and verifying signatures.

Files cited are in `/repo/btcTransaction`. Hashes and curve operations of `go-owcrypt` are parameters. The package's copies of
base58.go and bech32.go are the algorithms modelled in `Verif.Base58` and `Verif.Bech32` (payload prefix `[0]`).
-/

namespace Verif.Btc
open Verif

/-! ### Structures and constants -/

/-- The type tags of an input [txIn.go:7-13]. The field is unexported and only ever holds one of these. -/
inductive InType where
  | empty | p2pkh | p2wpkh | bech32 | multi
deriving DecidableEq

/-- `TxIn` [txIn.go:15-23]. Nil and empty scripts are identified: every use of the distinction [txIn.go:79-84] gives the
same bytes. -/
structure TxIn where
  inType : InType
  txid : Bytes
  vout : Bytes
  scriptPub : Bytes
  scriptSig : Bytes
  sequence : Bytes
  scriptMulti : Bytes
deriving DecidableEq

/-- `TxOut` [txOut.go:8-11]. -/
structure TxOut where
  amount : Bytes
  lockScript : Bytes
deriving DecidableEq

/-- `Transaction` [txStruct.go:7-13]. -/
structure Tx where
  version : Bytes
  vins : List TxIn
  vouts : List TxOut
  lockTime : Bytes
  witness : Bool
deriving DecidableEq

/-- `Vin` [transaction.go:10-13]. -/
structure Vin where
  txid : Bytes
  vout : UInt32

/-- `Vout` [transaction.go:15-18]. -/
structure Vout where
  address : Bytes
  amount : UInt64

/-- `AddressPrefix` [txProfile.go:3-8]. -/
structure AddressPrefix where
  p2pkh : Bytes
  p2wpkh : Bytes
  p2sh : Bytes
  bech32 : Bytes

/-- The predefined networks [txProfile.go:10-19]; a nil prefix is the empty list. -/
def btcMainnet : AddressPrefix := ⟨[0x00], [0x05], [], asc "bc"⟩
def btcTestnet : AddressPrefix := ⟨[0x6f], [0xc4], [], asc "tb"⟩
def bchMainnet : AddressPrefix := ⟨[0x00], [0x05], [], asc "bc"⟩
def bchTestnet : AddressPrefix := ⟨[0x6f], [0xc4], [], asc "tb"⟩
def ltcMainnet : AddressPrefix := ⟨[0x30], [0x05], [0x32], asc "ltc"⟩
def ltcTestnet : AddressPrefix := ⟨[0x6f], [0xc4], [0x3a], asc "tltc"⟩
def zecMainnet : AddressPrefix := ⟨[0x1c, 0xb8], [0x1c, 0xbd], [], []⟩
def zecTestnet : AddressPrefix := ⟨[0x1d, 0x25], [0x1c, 0xba], [], []⟩

/-- `TxUnlock` [transaction.go:20-27]; scripts are hex texts. -/
structure TxUnlock where
  lockScript : Bytes
  redeemScript : Bytes
  amount : UInt64
  sigType : UInt8

/-- `SignaturePubkey` [SignaturePubkey.go:10-13]; `none` is nil (the code tests for nil, txHash.go:283-297, 334). -/
structure SigPub where
  signature : Option Bytes
  pubkey : Option Bytes
deriving DecidableEq

/-- `NormalTx` [txHash.go:10-14]. -/
structure NormalTx where
  address : Bytes
  sigType : UInt8
  sigPub : SigPub
deriving DecidableEq

/-- `MultiTx` [txHash.go:16-20]; the public key is a hex text. -/
structure MultiTx where
  pubkey : Bytes
  sigType : UInt8
  sigPub : SigPub
deriving DecidableEq

/-- `TxHash` [txHash.go:22-27]. -/
structure TxHash where
  hash : Bytes
  nRequired : UInt8
  normal : Option NormalTx
  multi : List MultiTx
deriving DecidableEq

/-- External curve functions on secp256k1: `owcrypt.PointDecompress` and `owcrypt.Verify(...) == SUCCESS`
(arguments: 64-byte public key, message hash, signature). -/
structure Curve where
  decompress : Bytes → Bytes
  verify : Bytes → Bytes → Bytes → Bool

/-- `BitcoinAlphabet` [base58.go:17]. -/
def alphabet : Bytes := asc "123456789ABCDEFGHJKLMNPQRSTUVWXYZabcdefghijkmnopqrstuvwxyz"

/-! ### Creating an unsigned transaction -/

/-- `reverseHexToBytes` [txUtils.go:30-39]. -/
def reverseHexToBytes (t : Bytes) : Res Bytes :=
  if t.length % 2 = 1 then .err
  else do
    let b ← Hex.decode t
    .ok b.reverse

/-- One iteration of the loop of `newTxInForEmptyTrans` [txIn.go:43-52]. -/
def newTxIn (v : Vin) : Res TxIn :=
  match reverseHexToBytes v.txid with
  | .ok txid =>
    if txid.length ≠ 32 then .err
    else .ok { inType := .empty, txid := txid, vout := leBytes 4 v.vout.toNat, scriptPub := [], scriptSig := [],
               sequence := [], scriptMulti := [] }
  | .err => .err
  | .panic => .panic

/-- The loop itself. -/
def newTxInLoop : List Vin → Res (List TxIn)
  | [] => .ok []
  | v :: vs => do
    let i ← newTxIn v
    let is ← newTxInLoop vs
    .ok (i :: is)

/-- `newTxInForEmptyTrans` [txIn.go:37-54]. -/
def newTxIns (vs : List Vin) : Res (List TxIn) := if vs = [] then .err else newTxInLoop vs

/-- `setSequence` [txIn.go:56-64]. -/
def setSequence (lockTime : UInt32) (replaceable : Bool) (i : TxIn) : TxIn :=
  { i with sequence :=
      if replaceable then leBytes 4 0xfffffffd
      else if lockTime ≠ 0 then leBytes 4 (0xffffffff - 1)
      else leBytes 4 0xffffffff }

/-- `DecodeCheck` [base58.go:153-167]: version bytes and 20-byte hash. -/
def decodeCheck (H : Hashes) (address : Bytes) : Res (Bytes × Bytes) :=
  match Base58.decode alphabet address with
  | .ok ret =>
    if ret.length < 4 then .panic
    else if (H.hash .doubleSha256 (ret.take (ret.length - 4))).take 4 ≠ ret.drop (ret.length - 4) then .err
    else if ret.length < 4 + 0x14 then .panic
    else .ok (ret.take (ret.length - 24), (ret.take (ret.length - 4)).drop (ret.length - 24))
  | .err => .err
  | .panic => .panic

/-- `EncodeCheck` [base58.go:169-174]. -/
def encodeCheck (H : Hashes) (pre hash : Bytes) : Res Bytes :=
  Base58.encode alphabet (pre ++ hash ++ (H.hash .doubleSha256 (pre ++ hash)).take 4)

/-- One iteration of the loop of `newTxOutForEmptyTrans` [txOut.go:27-65]. -/
def newTxOut (H : Hashes) (P : AddressPrefix) (v : Vout) : Res TxOut :=
  let amount := leBytes 8 v.amount.toNat
  if P.bech32.isPrefixOf v.address then
    match Bech32.decode v.address with
    | .ok redeem => .ok { amount := amount, lockScript := 0x00 :: UInt8.ofNat redeem.length :: redeem }
    | .err => .err
    | .panic => .panic
  else
    match decodeCheck H v.address with
    | .ok (pre, hash) =>
      if hash.length ≠ 0x14 then .err
      else
        let hash := 0xa9 :: UInt8.ofNat hash.length :: hash
        if pre = P.p2pkh then .ok { amount := amount, lockScript := 0x76 :: (hash ++ [0x88, 0xac]) }
        else if pre = P.p2wpkh ∨ pre = P.p2sh then .ok { amount := amount, lockScript := hash ++ [0x87] }
        else .err
    | .err => .err
    | .panic => .panic

/-- The loop itself. -/
def newTxOutLoop (H : Hashes) (P : AddressPrefix) : List Vout → Res (List TxOut)
  | [] => .ok []
  | v :: vs => do
    let o ← newTxOut H P v
    let os ← newTxOutLoop H P vs
    .ok (o :: os)

/-- `newTxOutForEmptyTrans` [txOut.go:13-67]. -/
def newTxOuts (H : Hashes) (P : AddressPrefix) (vs : List Vout) : Res (List TxOut) :=
  if vs = [] then .err else newTxOutLoop H P vs

/-- `newEmptyTransaction` [txStruct.go:15-34]. -/
def newEmptyTransaction (H : Hashes) (vins : List Vin) (vouts : List Vout) (lockTime : UInt32) (replaceable : Bool)
    (P : AddressPrefix) : Res Tx := do
  let ins ← newTxIns vins
  let outs ← newTxOuts H P vouts
  .ok { version := leBytes 4 2, vins := ins.map (setSequence lockTime replaceable), vouts := outs,
        lockTime := leBytes 4 lockTime.toNat, witness := false }

/-! ### Serialisation -/

/-- The part of `TxIn.toBytes` that depends on the type [txIn.go:78-101]. -/
def unlockBytes (segwitOn : Bool) (i : TxIn) : Bytes :=
  match i.inType with
  | .empty => UInt8.ofNat i.scriptPub.length :: i.scriptPub
  | .p2pkh => UInt8.ofNat i.scriptSig.length :: i.scriptSig
  | .p2wpkh => 0x17 :: 0x16 :: i.scriptPub
  | .bech32 => [0x00]
  | .multi => if segwitOn then i.scriptPub else i.scriptMulti

/-- `TxIn.toBytes` [txIn.go:66-108]. -/
def encodeIn (segwitOn : Bool) (i : TxIn) : Res Bytes :=
  if i.txid.length ≠ 32 ∨ i.vout.length ≠ 4 ∨ i.sequence.length ≠ 4 then .err
  else .ok (i.txid ++ i.vout ++ unlockBytes segwitOn i ++ i.sequence)

/-- `TxIn.toSegwitBytes` [txIn.go:110-124]. -/
def encodeWitness (i : TxIn) : Res Bytes :=
  match i.inType with
  | .empty => .err
  | .p2pkh => .ok [0x00]
  | .p2wpkh | .bech32 => .ok (0x02 :: i.scriptSig)
  | .multi => .ok (0x04 :: i.scriptMulti)

/-- `TxOut.toBytes` [txOut.go:69-83]. -/
def encodeOut (o : TxOut) : Res Bytes :=
  if o.amount.length ≠ 8 ∨ o.lockScript = [] then .err
  else .ok (o.amount ++ [UInt8.ofNat o.lockScript.length] ++ o.lockScript)

/-- Append the serialisations of a list, stopping at the first error [txStruct.go:61-67, 71-77, 80-86]. -/
def concatAll {α : Type} (f : α → Res Bytes) : List α → Res Bytes
  | [] => .ok []
  | x :: xs => do
    let b ← f x
    let bs ← concatAll f xs
    .ok (b ++ bs)

/-- `encodeToBytes` [txStruct.go:36-90]. -/
def encodeTx (segwitOn : Bool) (t : Tx) : Res Bytes :=
  if t.vins = [] ∨ t.vouts = [] ∨ t.version.length ≠ 4 ∨ t.lockTime.length ≠ 4 then .err
  else do
    let ins ← concatAll (encodeIn segwitOn) t.vins
    let outs ← concatAll encodeOut t.vouts
    let wit ← if t.witness then concatAll encodeWitness t.vins else .ok []
    .ok (t.version ++ (if t.witness then [0x00, 0x01] else []) ++ [UInt8.ofNat t.vins.length] ++ ins ++
      [UInt8.ofNat t.vouts.length] ++ outs ++ wit ++ t.lockTime)

/-- `CreateEmptyRawTransaction` [transaction.go:29-42]. -/
def createEmptyRawTransaction (H : Hashes) (vins : List Vin) (vouts : List Vout) (lockTime : UInt32)
    (replaceable : Bool) (P : AddressPrefix) : Res Bytes := do
  let t ← newEmptyTransaction H vins vouts lockTime replaceable P
  let b ← encodeTx false t
  .ok (Hex.encode b)

/-! ### Parsing

The Go code keeps `txBytes` and a running `index`; the model keeps the bytes from `index` on. `spare` is the spare capacity of
`txBytes` (its capacity minus its length): Go checks a slice expression `txBytes[i:j]` against the capacity, not the length. -/

/-- The pattern `if index+n > limit { error }; x = txBytes[index:index+n]; index += n`. -/
def takeN (n : Nat) (b : Bytes) : Res (Bytes × Bytes) :=
  if b.length < n then .err else .ok (b.take n, b.drop n)

/-- The same for one byte, `x = txBytes[index]`. -/
def take1 : Bytes → Res (UInt8 × Bytes)
  | [] => .err
  | x :: b => .ok (x, b)

/-- The sequence number [txStruct.go:216-217] is sliced without a check. Beyond the capacity this panics; within the spare
capacity `index` runs past `limit` and the next check (line 137 or 221) returns an error. -/
def takeSequence (spare : Nat) (b : Bytes) : Res (Bytes × Bytes) :=
  if b.length < 4 then (if spare < 4 - b.length then .panic else .err)
  else .ok (b.take 4, b.drop 4)

/-- What the unlocking script of an input is decoded to: type, scriptPub, scriptSig, scriptMulti. -/
structure Unlock where
  inType : InType
  scriptPub : Bytes
  scriptSig : Bytes
  scriptMulti : Bytes

/-- The branches on the script length [txStruct.go:155-214]. In the 0xFD branch the check (line 200) forgets the two length
bytes; when they are missing the slice reaches up to two bytes beyond `limit`, and the unchecked sequence number (line 216)
four more: beyond the capacity this panics, within it the next check (line 137 or 221) returns an error. -/
def decodeUnlock (witness : Bool) (spare : Nat) (scriptLen : UInt8) (b : Bytes) : Res (Unlock × Bytes) :=
  if scriptLen = 0 then
    .ok ({ inType := if witness then .bech32 else .empty, scriptPub := [], scriptSig := [], scriptMulti := [] }, b)
  else if scriptLen = 0x17 then
    if !witness then .err
    else do
      let (s, b) ← takeN 0x17 b
      .ok ({ inType := .p2wpkh, scriptPub := s, scriptSig := [], scriptMulti := [] }, b)
  else if scriptLen = 0x23 then
    if !witness then .err
    else do
      let (s, b) ← takeN 0x23 b
      .ok ({ inType := .multi, scriptPub := 0x23 :: s, scriptSig := [], scriptMulti := [] }, b)
  else if scriptLen ≤ 0x6c then do
    let (s, b) ← takeN scriptLen.toNat b
    .ok ({ inType := .p2pkh, scriptPub := [], scriptSig := s, scriptMulti := [] }, b)
  else if witness then .err
  else if scriptLen = 0xfd then
    if b.length < 2 then .err
    else
      let n := leNat (b.take 2)
      if b.length < n then .err
      else if b.length < n + 2 then (if spare < n + 2 - b.length + 4 then .panic else .err)
      else .ok ({ inType := .multi, scriptPub := [], scriptSig := [], scriptMulti := 0xfd :: b.take (n + 2) },
                b.drop (n + 2))
  else if scriptLen > 0xfd then .err
  else do
    let (s, b) ← takeN scriptLen.toNat b
    .ok ({ inType := .multi, scriptPub := [], scriptSig := [], scriptMulti := s }, b)

/-- One input [txStruct.go:135-218]. -/
def decodeIn (witness : Bool) (spare : Nat) (b : Bytes) : Res (TxIn × Bytes) := do
  let (txid, b) ← takeN 32 b
  let (vout, b) ← takeN 4 b
  let (scriptLen, b) ← take1 b
  let (u, b) ← decodeUnlock witness spare scriptLen b
  let (sequence, b) ← takeSequence spare b
  .ok ({ inType := u.inType, txid := txid, vout := vout, scriptPub := u.scriptPub, scriptSig := u.scriptSig,
         sequence := sequence, scriptMulti := u.scriptMulti }, b)

/-- The loop over the inputs [txStruct.go:134-219]. -/
def decodeIns (witness : Bool) (spare : Nat) : Nat → Bytes → Res (List TxIn × Bytes)
  | 0, b => .ok ([], b)
  | n + 1, b => do
    let (i, b) ← decodeIn witness spare b
    let (is, b) ← decodeIns witness spare n b
    .ok (i :: is, b)

/-- One output [txStruct.go:232-256]. -/
def decodeOut (b : Bytes) : Res (TxOut × Bytes) := do
  let (amount, b) ← takeN 8 b
  let (n, b) ← take1 b
  if n = 0 then .err
  else do
    let (s, b) ← takeN n.toNat b
    .ok ({ amount := amount, lockScript := s }, b)

/-- The loop over the outputs [txStruct.go:231-257]. -/
def decodeOuts : Nat → Bytes → Res (List TxOut × Bytes)
  | 0, b => .ok ([], b)
  | n + 1, b => do
    let (o, b) ← decodeOut b
    let (os, b) ← decodeOuts n b
    .ok (o :: os, b)

/-- The loop over the signatures of a witness multisig [txStruct.go:313-328]: while the second byte is 0x30, copy a
length byte and as many bytes. The first argument bounds the iterations (each consumes at least one byte). -/
def copySigs : Nat → Bytes → Bytes → Res (Bytes × Bytes)
  | 0, _, _ => .err
  | f + 1, acc, b =>
    match b with
    | sigLen :: x :: r =>
      if x ≠ 0x30 then .ok (acc, b)
      else if (x :: r).length < sigLen.toNat then .err
      else copySigs f (acc ++ sigLen :: (x :: r).take sigLen.toNat) ((x :: r).drop sigLen.toNat)
    | _ => .err

/-- The witness multisig script after the item count [txStruct.go:307-370] (with SegwitON; the code under `!SegwitON` there
is unreachable because of line 285). The byte after the count is read unchecked (line 307). An empty redeem script makes line
366 look at the length byte 0 itself, which is not OP_CHECKMULTISIG. -/
def decodeWitnessMulti (b : Bytes) : Res (Bytes × Bytes) :=
  match b with
  | [] => .panic
  | z :: b =>
    if z ≠ 0 then .err
    else
      match copySigs (b.length + 1) [0x00] b with
      | .ok (acc, redeemLen :: b) =>
        if b.length < redeemLen.toNat then .err
        else if (b.take redeemLen.toNat).getLastD 0 ≠ 0xae then .err
        else .ok (acc ++ redeemLen :: b.take redeemLen.toNat, b.drop redeemLen.toNat)
      | .ok (_, []) => .err
      | .err => .err
      | .panic => .panic

/-- The witness of one input [txStruct.go:261-371]. -/
def decodeWitness (segwitOn : Bool) (i : TxIn) (b : Bytes) : Res (TxIn × Bytes) := do
  let (c, r) ← take1 b
  match i.inType with
  | .empty => .ok (i, b)
  | .p2pkh => if c ≠ 0x00 then .err else .ok (i, r)
  | .p2wpkh | .bech32 =>
    if c ≠ 0x02 then .err
    else
      match r with
      | [] => .err
      | sigLen :: _ => do
        let (s, r) ← takeN (sigLen.toNat + 35) r
        .ok ({ i with scriptSig := s }, r)
  | .multi =>
    if !segwitOn then .err
    else if c ≠ 0x04 then .err
    else do
      let (s, r) ← decodeWitnessMulti r
      .ok ({ i with scriptMulti := s }, r)

/-- The loop over the witnesses [txStruct.go:260-372]. -/
def decodeWitnesses (segwitOn : Bool) : List TxIn → Bytes → Res (List TxIn × Bytes)
  | [], b => .ok ([], b)
  | i :: is, b => do
    let (i, b) ← decodeWitness segwitOn i b
    let (is, b) ← decodeWitnesses segwitOn is b
    .ok (i :: is, b)

/-- `DecodeRawTransaction` from the input count on [txStruct.go:119-385]. -/
def decodeBody (spare : Nat) (segwitOn witness : Bool) (version b : Bytes) : Res Tx := do
  let (nIn, b) ← take1 b
  if nIn = 0 then .err
  else do
    let (ins, b) ← decodeIns witness spare nIn.toNat b
    let (nOut, b) ← take1 b
    if nOut = 0 then .err
    else do
      let (outs, b) ← decodeOuts nOut.toNat b
      let (ins, b) ← if witness then decodeWitnesses segwitOn ins b else .ok (ins, b)
      let (lockTime, b) ← takeN 4 b
      if b ≠ [] then .err
      else .ok { version := version, vins := ins, vouts := outs, lockTime := lockTime, witness := witness }

/-- `DecodeRawTransaction` [txStruct.go:92-385] on a slice with `spare` bytes of spare capacity. -/
def decodeTx (spare : Nat) (segwitOn : Bool) (b : Bytes) : Res Tx := do
  let (version, b) ← takeN 4 b
  if leNat version ≠ 2 then .err
  else if b.length < 2 then .err
  else
    match b with
    | 0x00 :: w :: r => if w ≠ 0x01 then .err else decodeBody spare segwitOn true version r
    | _ => decodeBody spare segwitOn false version b

/-- `cloneEmpty` [txStruct.go:404-415] with `setEmpty` [txIn.go:126-130]. -/
def setEmpty (i : TxIn) : TxIn := { i with inType := .empty, scriptPub := [], scriptSig := [] }
def cloneEmpty (t : Tx) : Tx := { t with witness := false, vins := t.vins.map setEmpty }

/-! ### Reading an input's transaction id -/

/-- `GetTxID` [txIn.go:29-31] with `reverseBytes` [txUtils.go:22-27]: the bytes are reversed in place, so the call returns
the text and leaves the reversed bytes in the input. -/
def getTxID (i : TxIn) : Bytes × TxIn := (Hex.encode i.txid.reverse, { i with txid := i.txid.reverse })

/-- `GetVout` [txIn.go:33-35]. -/
def getVout (i : TxIn) : Nat := leNat i.vout

/-! ### Signatures in unlocking scripts -/

/-- `CurveOrder` and `HalfCurveOrder` [txProfile.go:51-54]. -/
def curveOrder : Nat := 0xfffffffffffffffffffffffffffffffebaaedce6af48a03bbfd25e8cd0364141
def halfOrder : Nat := 0x7fffffffffffffffffffffffffffffff5d576e7357a4501ddfe92f46681b20a0

/-- `serilizeS` [SignaturePubkey.go:15-32] for slices of at least 32 bytes; the padding loop re-evaluates `len(s)`, and `big.Int.Bytes` drops
the sign. -/
def serilizeS (sig : Bytes) : Bytes :=
  let s := beNat (sig.drop 32)
  if s > halfOrder then
    sig.take 32 ++ OwKeychain.padLoop 32 0 (OwKeychain.bigBytes ((curveOrder : Int) - (s : Int)).natAbs)
  else sig

/-- The loop stripping leading zeros [SignaturePubkey.go:59-65, 70-76]: `r[1]` panics on a one-byte slice. -/
def stripZeros : Nat → Bytes → Res Bytes
  | 0, r => .ok r
  | f + 1, r =>
    match r with
    | [] => .panic
    | [x] => if x = 0 then .panic else .ok [x]
    | x :: y :: t => if x = 0 ∧ y < 0x80 then stripZeros f (y :: t) else .ok (x :: y :: t)

/-- r or s as a DER integer body [SignaturePubkey.go:56-66, 67-77]. -/
def derBody (r : Bytes) : Res Bytes :=
  match r with
  | [] => .panic
  | x :: t => if x ≥ 0x80 then .ok (0x00 :: x :: t) else stripZeros 32 (x :: t)

/-- `encodeSignatureToScript` [SignaturePubkey.go:53-91]. -/
def encodeSig (sig : Bytes) (sigType : UInt8) : Res Bytes := do
  let r ← slice sig 0 32
  let r ← derBody r
  let s ← derBody (sig.drop 32)
  let rs := 0x02 :: UInt8.ofNat r.length :: r ++ 0x02 :: UInt8.ofNat s.length :: s
  let rs := 0x30 :: UInt8.ofNat rs.length :: rs ++ [sigType]
  .ok (UInt8.ofNat rs.length :: rs)

/-- `encodeToScript` of a signature with its key [SignaturePubkey.go:130-132]. -/
def encodeSigPub (sig pub : Bytes) (sigType : UInt8) : Res Bytes := do
  let s ← encodeSig sig sigType
  .ok (s ++ UInt8.ofNat pub.length :: pub)

/-- Write `d` over the memory from position `p` on. -/
def overwrite (mem : Bytes) (p : Nat) (d : Bytes) : Bytes := mem.take p ++ d ++ mem.drop (p + d.length)

/-- `script[index]` behind the check `index+1 > limit`. -/
def at' (mem : Bytes) (limit i : Nat) : Res UInt8 := if i + 1 > limit then .err else index mem i

/-- The body of an integer: drop the first of 33 bytes, left-pad short ones to 32 bytes [SignaturePubkey.go:196-204,
236-244]. -/
def intBody (d : Bytes) : Bytes :=
  if d.length = 0x21 then d.drop 1 else List.replicate (0x20 - d.length) 0 ++ d

/-- Length, range and first-byte checks of an integer, and its bytes [SignaturePubkey.go:174-196, 215-236]; `i` is the
position of the length byte. -/
def readInt (mem : Bytes) (limit i : Nat) : Res (UInt8 × Bytes) := do
  let n ← at' mem limit i
  if n > 0x21 then .err
  else do
    let bad ← if n = 0x21 then
        (if i + 1 + 2 > limit then .err
         else do
          let a ← index mem (i + 1)
          let b ← index mem (i + 2)
          .ok (decide (a ≠ 0 ∧ b < 0x80)))
      else .ok false
    if bad then .err
    else if i + 1 + n.toNat > limit then .err
    else do
      let d ← slice mem (i + 1) (i + 1 + n.toNat)
      .ok (n, d)

/-- What both signature readers share [SignaturePubkey.go:151-247 and 276-370]: from the byte after the total length to the end
of s. `mem` is the memory from the start of the script to the end of its capacity, `limit` the length of the script. The
slice holding r shares its memory with the script, so appending s to it (lines 245, 368) writes the 32 bytes of s
over the script right after r whenever r took 32 or 33 bytes and the capacity allows. The result is: rsLen, rLen, sLen, the
signature, the memory afterwards and the position after s. -/
def readSig (mem : Bytes) (limit : Nat) : Res (UInt8 × UInt8 × UInt8 × Bytes × Bytes × Nat) := do
  let x ← at' mem limit 1
  if x ≠ 0x30 then .err
  else do
    let rsLen ← at' mem limit 2
    let x ← at' mem limit 3
    if x ≠ 0x02 then .err
    else do
      let (rLen, r) ← readInt mem limit 4
      let p := 5 + rLen.toNat
      let x ← at' mem limit p
      if x ≠ 0x02 then .err
      else do
        let (sLen, s) ← readInt mem limit (p + 1)
        let sdata := intBody s
        let mem' := if rLen.toNat < 0x20 ∨ mem.length < p + 32 then mem else overwrite mem p sdata
        .ok (rsLen, rLen, sLen, intBody r ++ sdata, mem', p + 2 + sLen.toNat)

/-- `decodeSignatureFromScript` [SignaturePubkey.go:135-259]: signature, signature type, and the memory afterwards. The length
comparison of line 255 is on bytes. -/
def decodeSig (mem : Bytes) (limit : Nat) : Res (Bytes × UInt8 × Bytes) :=
  if limit = 0 then .err
  else do
    let sigLen ← index mem 0
    if sigLen.toNat + 1 ≠ limit then .err
    else do
      let (rsLen, rLen, sLen, sig, mem', i) ← readSig mem limit
      let sigType ← at' mem' limit i
      if rLen + sLen + 4 ≠ rsLen ∨ rsLen + 3 ≠ sigLen then .err
      else .ok (sig, sigType, mem')

/-- `decodeFromScriptBytes` [SignaturePubkey.go:261-401]: signature, public key, signature type. Simplification: the spare
capacity of the script is taken to be 0 (it only matters for scripts shorter than 70 bytes, which are rejected anyway). -/
def decodeSigPub (script : Bytes) : Res (Bytes × Bytes × UInt8) :=
  let limit := script.length
  if limit = 0 then .err
  else do
    let sigLen ← index script 0
    let (rsLen, rLen, sLen, sig, mem, i) ← readSig script limit
    let sigType ← at' mem limit i
    let pubLen ← at' mem limit (i + 1)
    if pubLen ≠ 0x21 then .err
    else if i + 2 + 33 > limit then .err
    else do
      let pub ← slice mem (i + 2) (i + 35)
      if rLen + sLen + 4 ≠ rsLen ∨ rsLen + 3 ≠ sigLen ∨ sigLen + pubLen + 2 ≠ UInt8.ofNat limit then .err
      else if i + 35 ≠ limit then .err
      else .ok (sig, pub, sigType)

/-! ### Multisig redeem scripts -/

/-- The redeem script built by `CreateMultiSig` [txMultiSig.go:20-49]. -/
def multiRedeem (required : UInt8) (pubkeys : List Bytes) : Res Bytes :=
  if required < 1 then .err
  else if required > UInt8.ofNat pubkeys.length then .err
  else if pubkeys.length > 16 then .err
  else if pubkeys.any (fun k => k.length ≠ 33 && k.length ≠ 65) then .err
  else
    let redeem := (0x51 + required - 1) :: (pubkeys.map (fun k => UInt8.ofNat k.length :: k)).flatten ++
      [0x51 + UInt8.ofNat pubkeys.length - 1, 0xae]
    if redeem.length > 520 then .err else .ok redeem

/-- `CreateMultiSig` [txMultiSig.go:20-60]: the address and the redeem script in hex. -/
def createMultiSig (H : Hashes) (required : UInt8) (pubkeys : List Bytes) (segwitOn : Bool) (P : AddressPrefix) :
    Res (Bytes × Bytes) := do
  let redeem ← multiRedeem required pubkeys
  let h := if segwitOn then H.hash .hash160 ([0x00, 0x20] ++ H.hash .sha256 redeem) else H.hash .hash160 redeem
  let addr ← encodeCheck H P.p2pkh h
  .ok (addr, Hex.encode redeem)

/-- The loop reading the keys [txMultiSig.go:76-89]; the first argument bounds the iterations. -/
def readKeys : Nat → Bytes → Res (List Bytes × Bytes)
  | 0, _ => .err
  | f + 1, b =>
    match b with
    | [] => .err
    | x :: r =>
      if x ≠ 0x21 then .ok ([], b)
      else if r.length < 0x21 then .err
      else
        match readKeys f (r.drop 0x21) with
        | .ok (ks, rest) => .ok (r.take 0x21 :: ks, rest)
        | .err => .err
        | .panic => .panic

/-- `getMultiDetails` [txMultiSig.go:62-101]: required number and the keys (the Go code returns their hex texts). -/
def getMultiDetails (redeem : Bytes) : Res (UInt8 × List Bytes) := do
  let (x, b) ← take1 redeem
  let nRequired := x + 1 - 0x51
  if nRequired ≤ 0 ∨ nRequired > 16 then .err
  else do
    let (ks, b) ← readKeys (b.length + 1) b
    let (y, _) ← take1 b
    let total := y + 1 - 0x51
    if total ≠ UInt8.ofNat ks.length ∨ total < nRequired then .err
    else .ok (nRequired, ks)

/-- The loop over the signatures of `decodeMultiBytes` [txMultiSig.go:143-161] starting at `i`; `limit` is the script length. The
readers may overwrite the memory (see `readSig`). Simplification: the spare capacity of the script is taken to be 0. -/
def readMultiSigs : Nat → Bytes → Nat → Res (List (Bytes × UInt8) × Bytes × Nat)
  | 0, _, _ => .err
  | f + 1, mem, i =>
    if i + 2 > mem.length then .err
    else do
      let sigLen ← index mem i
      let y ← index mem (i + 1)
      if y ≠ 0x30 then .ok ([], mem, i)
      else if i + sigLen.toNat + 1 > mem.length then .err
      else do
        let (sig, st, tail) ← decodeSig (mem.drop i) (sigLen.toNat + 1)
        let (l, mem, j) ← readMultiSigs f (mem.take i ++ tail) (i + (sigLen + 1).toNat)
        .ok ((sig, st) :: l, mem, j)

/-- The loop reading the public keys [txMultiSig.go:214-227]: `index+1 > limit` compares with `redeemLen`, the bytes are taken
from `pscript`, whose memory `mem` goes on for two more bytes (slicing is checked against it, indexing against the length
`plen` of `pscript`). -/
def readMultiKeys (limit plen : Nat) (mem : Bytes) : Nat → Nat → Res (List Bytes)
  | 0, _ => .ok []
  | n + 1, i =>
    if i + 1 > limit then .err
    else if i ≥ plen then .panic
    else do
      let x ← index mem i
      if x ≠ 0x21 then .err
      else if i + 1 + 0x21 > limit then .err
      else do
        let k ← slice mem (i + 1) (i + 1 + 0x21)
        let ks ← readMultiKeys limit plen mem n (i + 1 + 0x21)
        .ok (k :: ks)

/-- How a script starting with `x` begins in `decodeMultiBytes` [txMultiSig.go:107-135]: without a length, behind 0xFD and two bytes of length, or
behind one byte of length; the result is the position behind the length. -/
def multiStart (script : Bytes) (x : UInt8) : Res Nat :=
  if x = 0 then .ok 0
  else if x = 0xfd then
    (if 3 > script.length then .err
     else if leNat ((script.drop 1).take 2) + 3 ≠ script.length then .err else .ok 3)
  else if x.toNat + 1 ≠ script.length then .err else .ok 1

/-- The push of the redeem script in `decodeMultiBytes` [txMultiSig.go:163-194]: `c` is the byte at `i`; the result is the length and the position of
the redeem script. -/
def multiHeader (mem : Bytes) (limit i : Nat) (c : UInt8) : Res (Nat × Nat) :=
  if c = 0x4c then do
    let n ← at' mem limit (i + 1)
    .ok (n.toNat, i + 2)
  else if c = 0x4d then
    (if i + 3 > limit then .err else .ok (leNat ((mem.drop (i + 1)).take 2), i + 3))
  else .ok (c.toNat, i + 1)

/-- `decodeMultiBytes` [txMultiSig.go:103-230]: the signatures with their types, and the public keys of the redeem script, of
the entries 0, 1, ... of the returned slices (a missing signature is `none`). When the redeem script has fewer keys than
there are signatures the remaining keys are nil (`none`). -/
def decodeMulti (script : Bytes) : Res (List (Option Bytes × Option Bytes × UInt8)) := do
  if script = [] then .err
  else do
    let limit := script.length
    let x ← index script 0
    let i ← multiStart script x
    let z ← index script i
    if z ≠ 0 then .err
    else do
      let (sigs, mem, i) ← readMultiSigs (limit + 1) script (i + 1)
      let c ← at' mem limit i
      let (redeemLen, i) ← multiHeader mem limit i c
      let req ← at' mem limit i
      if (req + 1 - 0x51).toNat ≠ sigs.length then .err
      else if i + 1 + redeemLen ≠ limit + 1 then .err
      else do
        let last ← index mem (limit - 1)
        if last ≠ 0xae then .err
        else do
          let n ← index mem (limit - 2)
          let pubkeys := n.toNat + 1 - 0x51
          let pscript ← slice mem (i + 1) (limit - 2)
          let keys ← readMultiKeys redeemLen pscript.length (mem.drop (i + 1)) pubkeys 0
          .ok ((List.range (max pubkeys sigs.length)).map (fun j =>
            (sigs[j]?.map Prod.fst, keys[j]?, (sigs[j]?.map Prod.snd).getD 0)))

/-! ### Signature hashes -/

/-- `checkScriptType` [txHash.go:82-110]: locking script, redeem script and type. -/
def checkScriptType (lockScript redeemScript : Bytes) : Res (Bytes × Bytes × InType) :=
  match Hex.decode lockScript with
  | .ok s =>
    if s.length = 25 ∧ s[0]? = some 0x76 ∧ s[1]? = some 0xa9 ∧ s[2]? = some 0x14 ∧ s[23]? = some 0x88 ∧
        s[24]? = some 0xac then
      (if redeemScript ≠ [] then .err else .ok (s, [], .p2pkh))
    else if s.length = 23 ∧ s[0]? = some 0xa9 ∧ s[1]? = some 0x14 ∧ s[22]? = some 0x87 then
      match Hex.decode redeemScript with
      | .ok r =>
        if r.length = 22 ∧ r[0]? = some 0x00 ∧ r[1]? = some 0x14 then .ok (s, r, .p2wpkh)
        else if r.length ≥ 37 ∧ r.getLast? = some 0xae then .ok (s, r, .multi)
        else .err
      | _ => .err
    else if s.length = 22 ∧ s[0]? = some 0x00 ∧ s[1]? = some 0x14 then
      (if redeemScript ≠ [] then .err else .ok (s, [], .bech32))
    else .err
  | _ => .err

/-- `isSegwit` [txStruct.go:387-402]. -/
def isSegwit (segwitOn : Bool) : List TxUnlock → Res Bool
  | [] => .err
  | us => go us
where
  go : List TxUnlock → Res Bool
  | [] => .ok false
  | u :: us => do
    let (_, _, ty) ← checkScriptType u.lockScript u.redeemScript
    if ty = .p2wpkh ∨ ty = .bech32 ∨ (ty = .multi ∧ segwitOn) then .ok true else go us

/-- `calcSegwitSerializationHashes` [txHash.go:112-131]: the three preimages. -/
def prevoutsBytes (t : Tx) : Bytes := (t.vins.map (fun i => i.txid ++ i.vout)).flatten
def sequenceBytes (t : Tx) : Bytes := (t.vins.map (fun i => i.sequence)).flatten
def outputsBytes (t : Tx) : Bytes :=
  (t.vouts.map (fun o => o.amount ++ [UInt8.ofNat o.lockScript.length] ++ o.lockScript)).flatten

/-- `genScriptCodeFromRedeemScript` [txHash.go:133-149]. -/
def scriptCode (redeem : Bytes) : Res Bytes := do
  let a ← index redeem 0
  let b ← if a = 0x00 then index redeem 1 else .ok 0
  if a = 0x00 ∧ b = 0x14 then
    let h := redeem.drop 2
    if h.length ≠ 0x14 then .err
    else .ok ([0x76, 0xa9] ++ [UInt8.ofNat h.length] ++ h ++ [0x88, 0xac])
  else .ok redeem

/-- `getSegwitBytesForSig` [txHash.go:151-183]. -/
def segwitBytesForSig (H : Hashes) (t : Tx) (redeem : Bytes) (i : TxIn) (amount : UInt64) : Res Bytes := do
  let code ← scriptCode redeem
  if amount = 0 then .err
  else .ok (t.version ++ H.hash .doubleSha256 (prevoutsBytes t) ++ H.hash .doubleSha256 (sequenceBytes t) ++
    i.txid ++ i.vout ++ [UInt8.ofNat code.length] ++ code ++ leBytes 8 amount.toNat ++ i.sequence ++
    H.hash .doubleSha256 (outputsBytes t) ++ t.lockTime)

/-- `getBytesForSig` [txHash.go:185-244]. The transaction is passed with all inputs emptied. -/
def bytesForSig (H : Hashes) (segwitOn : Bool) (t : Tx) (lock redeem : Bytes) (ty : InType) (sigType : UInt8)
    (idx : Nat) (amount : UInt64) : Res Bytes :=
  if sigType ≠ 1 ∧ ty ≠ .empty then .err
  else do
    let body ← match ty with
      | .p2pkh => encodeTx segwitOn { t with vins := t.vins.modify idx (fun i => { i with scriptPub := lock }) }
      | .p2wpkh => do
        let i ← index t.vins idx
        segwitBytesForSig H t redeem i amount
      | .bech32 => do
        let i ← index t.vins idx
        segwitBytesForSig H t lock i amount
      | .multi =>
        if segwitOn then do
          let i ← index t.vins idx
          segwitBytesForSig H t redeem i amount
        else encodeTx segwitOn { t with vins := t.vins.modify idx (fun i => { i with scriptPub := redeem }) }
      | .empty => .ok []
    .ok (body ++ leBytes 4 1)

/-- `newTxHash` [txHash.go:52-80]. -/
def newTxHash (H : Hashes) (hash lock redeem : Bytes) (ty : InType) (sigType : UInt8) (P : AddressPrefix) :
    Res TxHash :=
  match ty with
  | .p2pkh => do
    let h ← slice lock 3 23
    let a ← encodeCheck H P.p2pkh h
    .ok ⟨Hex.encode hash, 0, some ⟨a, sigType, ⟨none, none⟩⟩, []⟩
  | .p2wpkh => do
    let h ← slice lock 2 22
    let a ← encodeCheck H P.p2wpkh h
    .ok ⟨Hex.encode hash, 0, some ⟨a, sigType, ⟨none, none⟩⟩, []⟩
  | .bech32 => do
    let h ← slice lock 2 lock.length
    let a ← Bech32.encode P.bech32 Bech32.stdAlphabet h [0]
    .ok ⟨Hex.encode hash, 0, some ⟨a, sigType, ⟨none, none⟩⟩, []⟩
  | .multi => do
    let (n, ks) ← getMultiDetails redeem
    .ok ⟨Hex.encode hash, n, none, ks.map (fun k => ⟨Hex.encode k, sigType, ⟨none, none⟩⟩)⟩
  | .empty => .panic

/-- One iteration of the loop of `getHashesForSig` [txHash.go:255-276]. -/
def hashForSig (H : Hashes) (segwitOn : Bool) (P : AddressPrefix) (t : Tx) (idx : Nat) (u : TxUnlock) : Res TxHash := do
  let t := { t with vins := t.vins.map setEmpty }
  let (lock, redeem, ty) ← checkScriptType u.lockScript u.redeemScript
  let b ← bytesForSig H segwitOn t lock redeem ty u.sigType idx u.amount
  newTxHash H (H.hash .doubleSha256 b) lock redeem ty u.sigType P

/-- The script that `getBytesForSig` assigns to `scriptPub` of the input [txHash.go:190, 228]. The transaction is passed by value, but the array of
its inputs is shared, so the assignment stays in force after the call. -/
def sigScript (segwitOn : Bool) (lock redeem : Bytes) : InType → Option Bytes
  | .p2pkh => some lock
  | .multi => if segwitOn then none else some redeem
  | _ => none

/-- The inputs as one iteration leaves them [txHash.go:255-276]. -/
def afterSig (segwitOn : Bool) (t : Tx) (idx : Nat) (u : TxUnlock) : Tx :=
  let t := { t with vins := t.vins.map setEmpty }
  match checkScriptType u.lockScript u.redeemScript with
  | .ok (lock, redeem, ty) =>
    match sigScript segwitOn lock redeem ty with
    | some s => { t with vins := t.vins.modify idx (fun i => { i with scriptPub := s }) }
    | none => t
  | _ => t

/-- The loop itself, from index `idx` on; every iteration works on the inputs as the one before left them. -/
def hashesLoop (H : Hashes) (segwitOn : Bool) (P : AddressPrefix) (t : Tx) : Nat → List TxUnlock → Res (List TxHash)
  | _, [] => .ok []
  | idx, u :: us => do
    let h ← hashForSig H segwitOn P t idx u
    let hs ← hashesLoop H segwitOn P (afterSig segwitOn t idx u) (idx + 1) us
    .ok (h :: hs)

/-- `getHashesForSig` [txHash.go:246-279]. -/
def hashesForSig (H : Hashes) (segwitOn : Bool) (P : AddressPrefix) (t : Tx) (us : List TxUnlock) :
    Res (List TxHash) :=
  if t.vins.length ≠ us.length then .err
  else if t.vouts = [] then .err
  else hashesLoop H segwitOn P t 0 us

/-- Go `hex.DecodeString` decodes in place in a copy of the text, so the result has as much spare capacity as its length
(at least). -/
def hexSpare (b : Bytes) : Nat := b.length

/-- `CreateRawTransactionHashForSig` [transaction.go:44-56]. -/
def createHashes (H : Hashes) (txHex : Bytes) (us : List TxUnlock) (segwitOn : Bool) (P : AddressPrefix) :
    Res (List TxHash) := do
  let b ← Hex.decode txHex
  let t ← decodeTx (hexSpare b) segwitOn b
  hashesForSig H segwitOn P t us

/-! ### Inserting and verifying signatures -/

/-- Count the complete signatures [txHash.go:292-301]; the counter is a byte. -/
def countSigs : List MultiTx → UInt8 → Res UInt8
  | [], c => .ok c
  | s :: ss, c =>
    if s.sigPub.pubkey = none ∧ s.sigPub.signature = none then countSigs ss c
    else if (s.sigPub.pubkey.getD []).length ≠ 33 ∨ (s.sigPub.signature.getD []).length ≠ 64 then .err
    else countSigs ss (c + 1)

/-- Append the first `nRequired` signatures [txHash.go:332-343]. -/
def appendSigs (nRequired : UInt8) : List MultiTx → UInt8 → Res Bytes
  | [], _ => .ok []
  | s :: ss, c =>
    match s.sigPub.signature with
    | none => appendSigs nRequired ss c
    | some sig => do
      let b ← encodeSig sig s.sigType
      if c + 1 = nRequired then .ok b
      else do
        let bs ← appendSigs nRequired ss (c + 1)
        .ok (b ++ bs)

/-- `TxHash.encodeToScript` [txHash.go:281-358]; a nil `redeem` is `[]` (a redeem script has at least 22 bytes). -/
def encodeToScript (h : TxHash) (redeem : Bytes) (segwitOn : Bool) : Res Bytes :=
  if h.nRequired = 0 then
    match h.normal with
    | none => .panic
    | some n =>
      let sig := n.sigPub.signature.getD []
      let pub := n.sigPub.pubkey.getD []
      if sig.length ≠ 64 then .err
      else if pub.length ≠ 33 then .err
      else encodeSigPub sig pub n.sigType
  else do
    let c ← countSigs h.multi 0
    if c < h.nRequired then .err
    else if redeem = [] then .err
    else do
      let n := redeem.length
      let pushed ← if !segwitOn then
          (if n < 0x4c then .ok (UInt8.ofNat n :: redeem)
           else if n ≤ 0xff then .ok (0x4c :: UInt8.ofNat n :: redeem)
           else if n ≤ 0xffff then .ok (0x4d :: (leBytes 2 n ++ redeem))
           else .err)
        else .ok (UInt8.ofNat n :: redeem)
      let sigs ← appendSigs h.nRequired h.multi 0
      let ret := 0x00 :: (sigs ++ pushed)
      if !segwitOn then
        (if ret.length < 0xfd then .ok (UInt8.ofNat ret.length :: ret)
         else .ok (0xfd :: (leBytes 2 ret.length ++ ret)))
      else .ok ret

/-- The loop of `InsertSignatureIntoEmptyTransaction` [transaction.go:107-158]; the outer `Option` is `none` for the early
return `"", nil` (line 110). An input of unknown type cannot occur. `txHashes[i]` panics when there are too few hashes. -/
def insertLoop (H : Hashes) (segwitOn segwit : Bool) (hashes : List TxHash) :
    Nat → List TxIn → List TxUnlock → Res (Option (List TxIn))
  | _, [], _ => .ok (some [])
  | _, _ :: _, [] => .panic
  | idx, i :: is, u :: us =>
    match checkScriptType u.lockScript u.redeemScript with
    | .ok (_, redeem, ty) => do
      let new ← match ty with
        | .p2pkh => do
          let h ← index hashes idx
          let s ← encodeToScript h redeem segwitOn
          .ok { i with inType := ty, scriptPub := [], scriptSig := s }
        | .p2wpkh =>
          if !segwitOn then .err
          else do
            let h ← index hashes idx
            let s ← encodeToScript h redeem segwitOn
            .ok { i with inType := ty, scriptPub := redeem, scriptSig := s }
        | .bech32 =>
          if !segwitOn then .err
          else do
            let h ← index hashes idx
            let s ← encodeToScript h redeem segwitOn
            .ok { i with inType := ty, scriptPub := [], scriptSig := s }
        | .multi => do
          let pub := if segwit then [0x23, 0x22, 0x00, 0x20] ++ H.hash .sha256 redeem else []
          let h ← index hashes idx
          let s ← encodeToScript h redeem segwitOn
          .ok { i with inType := ty, scriptPub := pub, scriptSig := [], scriptMulti := s }
        | .empty => .ok i
      let rest ← insertLoop H segwitOn segwit hashes (idx + 1) is us
      .ok (rest.map (new :: ·))
    | .err => .ok none
    | .panic => .panic

/-- `InsertSignatureIntoEmptyTransaction` [transaction.go:67-166]. An unrecognised script makes it return the empty text
without an error (lines 99-101, 109-111). -/
def insertSignatures (H : Hashes) (txHex : Bytes) (hashes : List TxHash) (us : List TxUnlock) (segwitOn : Bool) :
    Res Bytes := do
  let b ← Hex.decode txHex
  let t ← decodeTx (hexSpare b) segwitOn b
  if us = [] ∨ hashes = [] ∨ t.vins = [] ∨ t.vouts = [] ∨ t.vins.length ≠ us.length then .err
  else
    match isSegwit segwitOn us with
    | .ok segwit =>
      if segwit ∧ !segwitOn then .err
      else do
        match ← insertLoop H segwitOn segwit hashes 0 t.vins us with
        | none => .ok []
        | some ins => do
          let r ← encodeTx segwitOn { t with witness := segwit, vins := ins }
          .ok (Hex.encode r)
    | .err => .ok []
    | .panic => .panic

/-- Attach the signatures found in a signed input to its hash [transaction.go:190-209]. Assigning through a nil `Normal` or
beyond `Multi` panics. The `none` result is `return false`. -/
def attach (i : TxIn) (h : TxHash) : Res (Option TxHash) :=
  match i.inType with
  | .p2pkh | .p2wpkh | .bech32 =>
    match decodeSigPub i.scriptSig with
    | .ok (sig, pub, st) =>
      match h.normal with
      | none => .panic
      | some n => .ok (some { h with normal := some { n with sigType := st, sigPub := ⟨some sig, some pub⟩ } })
    | .err => .ok none
    | .panic => .panic
  | .multi =>
    match decodeMulti i.scriptMulti with
    | .ok l =>
      if l.length > h.multi.length then .panic
      else .ok (some { h with multi := (h.multi.zipIdx).map (fun (m, j) =>
        match l[j]? with
        | some (sig, pub, st) => { m with sigType := st, sigPub := ⟨sig, pub⟩ }
        | none => m) })
    | .err => .ok none
    | .panic => .panic
  | .empty => .ok (some h)

/-- The loop over all inputs [transaction.go:190-209]. -/
def attachAll : List TxIn → List TxHash → Res (Option (List TxHash))
  | [], _ => .ok (some [])
  | _ :: _, [] => .panic
  | i :: is, h :: hs => do
    match ← attach i h with
    | none => .ok none
    | some h' =>
      match ← attachAll is hs with
      | none => .ok none
      | some rest => .ok (some (h' :: rest))

/-- `owcrypt.PointDecompress(pub, secp256k1)[1:]`. -/
def pubPoint (C : Curve) (pub : Option Bytes) : Res Bytes :=
  let p := C.decompress (pub.getD [])
  slice p 1 p.length

/-- The inner loop [transaction.go:221-227]: does the signature verify under one of the keys from position `j` on? -/
def tryKeys (C : Curve) (th : Bytes) (sig : Option Bytes) : List MultiTx → Res Bool
  | [] => .ok false
  | m :: ms => do
    let p ← pubPoint C m.sigPub.pubkey
    if C.verify p th (sig.getD []) then .ok true else tryKeys C th sig ms

/-- The outer loop [transaction.go:219-228] for the remaining signature positions; the inner loop starts at `count`. -/
def countValid (C : Curve) (th : Bytes) (multi : List MultiTx) : List Nat → Nat → Res Nat
  | [], count => .ok count
  | i :: is, count =>
    if multi.length ≤ count then countValid C th multi is count
    else do
      let m ← index multi i
      let ok ← tryKeys C th m.sigPub.signature (multi.drop count)
      countValid C th multi is (if ok then count + 1 else count)

/-- The check of one input [transaction.go:211-233]. -/
def verifyOne (C : Curve) (h : TxHash) : Res Bool :=
  let th := match Hex.decode h.hash with
    | .ok b => b
    | _ => []
  if h.nRequired = 0 then
    match h.normal with
    | none => .panic
    | some n => do
      let p ← pubPoint C n.sigPub.pubkey
      .ok (C.verify p th (n.sigPub.signature.getD []))
  else do
    let count ← countValid C th h.multi (List.range h.nRequired.toNat) 0
    .ok (count == h.nRequired.toNat)

/-- The checks of all inputs. -/
def verifyAll (C : Curve) : List TxHash → Res Bool
  | [] => .ok true
  | h :: hs => do
    let ok ← verifyOne C h
    if ok then verifyAll C hs else .ok false

/-- `VerifyRawTransaction` [transaction.go:168-235]. -/
def verifyRaw (H : Hashes) (C : Curve) (txHex : Bytes) (us : List TxUnlock) (segwitOn : Bool) (P : AddressPrefix) :
    Res Bool :=
  match Hex.decode txHex with
  | .ok b =>
    match decodeTx (hexSpare b) segwitOn b with
    | .ok t =>
      if t.vins.length ≠ us.length then .ok false
      else
        match hashesForSig H segwitOn P (cloneEmpty t) us with
        | .ok hs => do
          match ← attachAll t.vins hs with
          | none => .ok false
          | some hs => verifyAll C hs
        | .err => .ok false
        | .panic => .panic
    | .err => .ok false
    | .panic => .panic
  | .err => .ok false
  | .panic => .panic

end Verif.Btc
