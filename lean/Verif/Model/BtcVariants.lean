import Verif.Model.Btc
import Verif.Model.Omni
import Verif.Model.AddressEncoder

/-! Model of the packages derived from `btcTransaction`: `bitcoincashTransaction`, `bitcoinsvTransaction`, `cxcTransaction`, `hcTransaction`
and `zencashTransaction`. Most of their files are verbatim copies of those of `btcTransaction` (base58.go, SignaturePubkey.go, txIn.go,
txMultiSig.go, txStruct.go up to the version number, bech32.go where it exists) and are modelled by `Verif.Btc`. This file models what differs:
the transaction version, the recognition of locking scripts, the messages signed, the address reported with a message, and the
outputs. The functions of transaction.go and txHash.go that only pass these on are written once, over a `Variant`. Line numbers without a
package name refer to `bitcoincashTransaction`. -/

namespace Verif.BtcVariants
open Verif Verif.Btc

/-- `DecodeRawTransaction` [txStruct.go:113-406; cxcTransaction/txStruct.go:123-416; zencashTransaction/txStruct.go:92-385] on a slice with
`spare` bytes of spare capacity; `v` is the constant `DefaultTxVersion` of txProfile.go. -/
def decodeTxV (v spare : Nat) (segwitOn : Bool) (b : Bytes) : Res Tx := do
  let (version, b) ← takeN 4 b
  if leNat version ≠ v then .err
  else if b.length < 2 then .err
  else
    match b with
    | 0x00 :: w :: r => if w ≠ 0x01 then .err else decodeBody spare segwitOn true version r
    | _ => decodeBody spare segwitOn false version b

/-- What distinguishes one package from another once the empty transaction exists. -/
structure Variant where
  /-- `DefaultTxVersion`. -/
  version : Nat
  /-- `checkScriptType`: locking script, redeem script, kind of input. -/
  check : Bytes → Bytes → Res (Bytes × Bytes × InType)
  /-- `getBytesForSig`. -/
  bytesForSig : Hashes → Bool → Tx → Bytes → Bytes → InType → UInt8 → Nat → UInt64 → Res Bytes
  /-- The script `getBytesForSig` leaves in the input. -/
  sigScript : Bool → Bytes → Bytes → InType → Option Bytes
  /-- `newTxHash`. -/
  newTxHash : Hashes → Bytes → Bytes → Bytes → InType → UInt8 → AddressPrefix → Res TxHash

/-! ### Recognising locking scripts -/

/-- `checkScriptType` [txHash.go:78-106; bitcoinsvTransaction/txHash.go:79-107]: as in `btcTransaction`, but a redeem script next to a P2PKH
locking script is ignored. -/
def checkBch (lockScript redeemScript : Bytes) : Res (Bytes × Bytes × InType) :=
  match Hex.decode lockScript with
  | .ok s =>
    if s.length = 25 ∧ s[0]? = some 0x76 ∧ s[1]? = some 0xa9 ∧ s[2]? = some 0x14 ∧ s[23]? = some 0x88 ∧
        s[24]? = some 0xac then .ok (s, [], .p2pkh)
    else if s.length = 23 ∧ s[0]? = some 0xa9 ∧ s[1]? = some 0x14 ∧ s[22]? = some 0x87 then
      match Hex.decode redeemScript with
      | .ok r =>
        if r.length = 22 ∧ r[0]? = some 0x00 ∧ r[1]? = some 0x14 then .ok (s, r, .p2wpkh)
        else if r.length ≥ 37 ∧ r.getLast? = some 0xae then .ok (s, r, .multi)
        else .err
      | _ => .err
    else if s.length = 22 ∧ s[0]? = some 0x00 ∧ s[1]? = some 0x14 then
      (if redeemScript ≠ [] then .err else .ok (s, [], .bech32))
    else .err
  | _ => .err

/-- `checkScriptType` [cxcTransaction/txHash.go:81-109]: scripts followed by 30 bytes of asset data are recognised too. -/
def checkCxc (lockScript redeemScript : Bytes) : Res (Bytes × Bytes × InType) :=
  match Hex.decode lockScript with
  | .ok s =>
    if (s.length = 25 ∨ s.length = 55) ∧ s[0]? = some 0x76 ∧ s[1]? = some 0xa9 ∧ s[2]? = some 0x14 ∧ s[23]? = some 0x88 ∧
        s[24]? = some 0xac then
      (if redeemScript ≠ [] then .err else .ok (s, [], .p2pkh))
    else if (s.length = 23 ∨ s.length = 53) ∧ s[0]? = some 0xa9 ∧ s[1]? = some 0x14 ∧ s[22]? = some 0x87 then
      match Hex.decode redeemScript with
      | .ok r =>
        if r.length = 22 ∧ r[0]? = some 0x00 ∧ r[1]? = some 0x14 then .ok (s, r, .p2wpkh)
        else if r.length ≥ 37 ∧ r.getLast? = some 0xae then .ok (s, r, .multi)
        else .err
      | _ => .err
    else if s.length = 22 ∧ s[0]? = some 0x00 ∧ s[1]? = some 0x14 then
      (if redeemScript ≠ [] then .err else .ok (s, [], .bech32))
    else .err
  | _ => .err

/-- `zencashTransaction` does not look at the locking script: every input is treated as P2PKH, and the error of `hex.DecodeString` is
dropped [zencashTransaction/txHash.go:259-265, transaction.go:104-107]. -/
def checkZen (lockScript _redeemScript : Bytes) : Res (Bytes × Bytes × InType) := .ok (Hex.decodePrefix lockScript, [], .p2pkh)

/-! ### The messages signed -/

/-- `getBytesForSig` [txHash.go:181-240; bitcoinsvTransaction/txHash.go:182-241]: `SigHashAll` is 0x41 [txProfile.go:35]. P2PKH, P2SH-P2WPKH and
witness inputs all use the format of BIP 143 with the locking script; multisig uses it with the redeem script if `SegwitON`. -/
def bytesForSigBch (H : Hashes) (segwitOn : Bool) (t : Tx) (lock redeem : Bytes) (ty : InType) (sigType : UInt8)
    (idx : Nat) (amount : UInt64) : Res Bytes :=
  if sigType ≠ 0x41 ∧ ty ≠ .empty then .err
  else do
    let body ← match ty with
      | .p2pkh | .p2wpkh | .bech32 => do
        let i ← index t.vins idx
        segwitBytesForSig H t lock i amount
      | .multi =>
        if segwitOn then do
          let i ← index t.vins idx
          segwitBytesForSig H t redeem i amount
        else encodeTx segwitOn { t with vins := t.vins.modify idx (fun i => { i with scriptPub := redeem }) }
      | .empty => .ok []
    .ok (body ++ leBytes 4 0x41)

/-- The script it assigns to `scriptPub`, see `Btc.sigScript` [txHash.go:224; bitcoinsvTransaction/txHash.go:225]. -/
def sigScriptBch (segwitOn : Bool) (_lock redeem : Bytes) : InType → Option Bytes
  | .multi => if segwitOn then none else some redeem
  | _ => none

/-- The common part of `newTxHash` [txHash.go:52-76; bitcoinsvTransaction/txHash.go:52-77]: `p2pkhAddress` gives the address of a key hash. For a witness input (bech32) nil is
returned without an error, and the caller dereferences it [txHash.go:268-272]. -/
def newTxHashBch (p2pkhAddress : Hashes → AddressPrefix → Bytes → Res Bytes) (H : Hashes) (hash lock redeem : Bytes) (ty : InType)
    (sigType : UInt8) (P : AddressPrefix) : Res TxHash :=
  match ty with
  | .p2pkh => do
    let h ← slice lock 3 23
    let a ← p2pkhAddress H P h
    .ok ⟨Hex.encode hash, 0, some ⟨a, sigType, ⟨none, none⟩⟩, []⟩
  | .p2wpkh => do
    let h ← slice lock 2 22
    let a ← encodeCheck H P.p2wpkh h
    .ok ⟨Hex.encode hash, 0, some ⟨a, sigType, ⟨none, none⟩⟩, []⟩
  | .bech32 => .panic
  | .multi => do
    let (n, ks) ← getMultiDetails redeem
    .ok ⟨Hex.encode hash, n, none, ks.map (fun k => ⟨Hex.encode k, sigType, ⟨none, none⟩⟩)⟩
  | .empty => .panic

/-- The P2PKH address [bitcoincashTransaction/txHash.go:60]: the cashaddr text of the main network, whatever the network. -/
def bchAddress (H : Hashes) (_P : AddressPrefix) (h : Bytes) : Res Bytes := Addr.addressEncode H (0x00 :: h) Addr.BCH_mainnetAddressCash

/-- The P2PKH address [bitcoinsvTransaction/txHash.go:62]. -/
def bsvAddress (H : Hashes) (P : AddressPrefix) (h : Bytes) : Res Bytes := encodeCheck H P.p2pkh h

/-! ### The variants -/

/-- `bitcoincashTransaction`; the version is that of txProfile.go:22. -/
def bch : Variant := ⟨1, checkBch, bytesForSigBch, sigScriptBch, newTxHashBch bchAddress⟩

/-- `bitcoinsvTransaction`; txProfile.go:22. -/
def bsv : Variant := ⟨1, checkBch, bytesForSigBch, sigScriptBch, newTxHashBch bsvAddress⟩

/-- `cxcTransaction`: version 1 [txProfile.go:21]; `getBytesForSig` and `newTxHash` are those of `btcTransaction`. -/
def cxc : Variant := ⟨1, checkCxc, Btc.bytesForSig, Btc.sigScript, Btc.newTxHash⟩

/-- `hcTransaction`: transaction.go, txHash.go and txStruct.go are those of `btcTransaction`. -/
def hc : Variant := ⟨2, Btc.checkScriptType, Btc.bytesForSig, Btc.sigScript, Btc.newTxHash⟩

/-- `zencashTransaction`: version 1 [txProfile.go:14]; every input is P2PKH, so only that branch of `getBytesForSig` and `newTxHash` is used. The
address reported for a locking script of less than 23 bytes depends on the capacity of a slice; the model panics there
(simplification). -/
def zen : Variant := ⟨1, checkZen, Btc.bytesForSig, Btc.sigScript, Btc.newTxHash⟩

/-! ### The API on top of them -/

/-- `isSegwit` [txStruct.go:408-423]. -/
def isSegwit (V : Variant) (segwitOn : Bool) : List TxUnlock → Res Bool
  | [] => .err
  | us => go us
where
  go : List TxUnlock → Res Bool
  | [] => .ok false
  | u :: us => do
    let (_, _, ty) ← V.check u.lockScript u.redeemScript
    if ty = .p2wpkh ∨ ty = .bech32 ∨ (ty = .multi ∧ segwitOn) then .ok true else go us

/-- One iteration of the loop of `getHashesForSig` [txHash.go:251-272]. -/
def hashForSig (V : Variant) (H : Hashes) (segwitOn : Bool) (P : AddressPrefix) (t : Tx) (idx : Nat) (u : TxUnlock) : Res TxHash := do
  let t := { t with vins := t.vins.map setEmpty }
  let (lock, redeem, ty) ← V.check u.lockScript u.redeemScript
  let b ← V.bytesForSig H segwitOn t lock redeem ty u.sigType idx u.amount
  V.newTxHash H (H.hash .doubleSha256 b) lock redeem ty u.sigType P

/-- The inputs as one iteration leaves them [txHash.go:251-272]. -/
def afterSig (V : Variant) (segwitOn : Bool) (t : Tx) (idx : Nat) (u : TxUnlock) : Tx :=
  let t := { t with vins := t.vins.map setEmpty }
  match V.check u.lockScript u.redeemScript with
  | .ok (lock, redeem, ty) =>
    match V.sigScript segwitOn lock redeem ty with
    | some s => { t with vins := t.vins.modify idx (fun i => { i with scriptPub := s }) }
    | none => t
  | _ => t

/-- The loop itself, from index `idx` on; every iteration works on the inputs as the one before left them. -/
def hashesLoop (V : Variant) (H : Hashes) (segwitOn : Bool) (P : AddressPrefix) (t : Tx) : Nat → List TxUnlock → Res (List TxHash)
  | _, [] => .ok []
  | idx, u :: us => do
    let h ← hashForSig V H segwitOn P t idx u
    let hs ← hashesLoop V H segwitOn P (afterSig V segwitOn t idx u) (idx + 1) us
    .ok (h :: hs)

/-- `getHashesForSig` [txHash.go:242-275]. -/
def hashesForSig (V : Variant) (H : Hashes) (segwitOn : Bool) (P : AddressPrefix) (t : Tx) (us : List TxUnlock) :
    Res (List TxHash) :=
  if t.vins.length ≠ us.length then .err
  else if t.vouts = [] then .err
  else hashesLoop V H segwitOn P t 0 us

/-- `CreateRawTransactionHashForSig` [transaction.go:58-70]. -/
def createHashes (V : Variant) (H : Hashes) (txHex : Bytes) (us : List TxUnlock) (segwitOn : Bool) (P : AddressPrefix) :
    Res (List TxHash) := do
  let b ← Hex.decode txHex
  let t ← decodeTxV V.version (hexSpare b) segwitOn b
  hashesForSig V H segwitOn P t us

/-- The loop of `InsertSignatureIntoEmptyTransaction` [transaction.go:121-172; zencashTransaction/transaction.go:104-113], as `Btc.insertLoop`. -/
def insertLoop (V : Variant) (H : Hashes) (segwitOn segwit : Bool) (hashes : List TxHash) :
    Nat → List TxIn → List TxUnlock → Res (Option (List TxIn))
  | _, [], _ => .ok (some [])
  | _, _ :: _, [] => .panic
  | idx, i :: is, u :: us =>
    match V.check u.lockScript u.redeemScript with
    | .ok (_, redeem, ty) => do
      let new ← match ty with
        | .p2pkh => do
          let h ← index hashes idx
          let s ← encodeToScript h redeem segwitOn
          .ok { i with inType := ty, scriptPub := [], scriptSig := s }
        | .p2wpkh =>
          if !segwitOn then .err
          else do
            let h ← index hashes idx
            let s ← encodeToScript h redeem segwitOn
            .ok { i with inType := ty, scriptPub := redeem, scriptSig := s }
        | .bech32 =>
          if !segwitOn then .err
          else do
            let h ← index hashes idx
            let s ← encodeToScript h redeem segwitOn
            .ok { i with inType := ty, scriptPub := [], scriptSig := s }
        | .multi => do
          let pub := if segwit then [0x23, 0x22, 0x00, 0x20] ++ H.hash .sha256 redeem else []
          let h ← index hashes idx
          let s ← encodeToScript h redeem segwitOn
          .ok { i with inType := ty, scriptPub := pub, scriptSig := [], scriptMulti := s }
        | .empty => .ok i
      let rest ← insertLoop V H segwitOn segwit hashes (idx + 1) is us
      .ok (rest.map (new :: ·))
    | .err => .ok none
    | .panic => .panic

/-- `InsertSignatureIntoEmptyTransaction` [transaction.go:81-180; zencashTransaction/transaction.go:66-121]. -/
def insertSignatures (V : Variant) (H : Hashes) (txHex : Bytes) (hashes : List TxHash) (us : List TxUnlock) (segwitOn : Bool) :
    Res Bytes := do
  let b ← Hex.decode txHex
  let t ← decodeTxV V.version (hexSpare b) segwitOn b
  if us = [] ∨ hashes = [] ∨ t.vins = [] ∨ t.vouts = [] ∨ t.vins.length ≠ us.length then .err
  else
    match isSegwit V segwitOn us with
    | .ok segwit =>
      if segwit ∧ !segwitOn then .err
      else do
        match ← insertLoop V H segwitOn segwit hashes 0 t.vins us with
        | none => .ok []
        | some ins => do
          let r ← encodeTx segwitOn { t with witness := segwit, vins := ins }
          .ok (Hex.encode r)
    | .err => .ok []
    | .panic => .panic

/-- `VerifyRawTransaction` [transaction.go:182-249]. -/
def verifyRaw (V : Variant) (H : Hashes) (C : Curve) (txHex : Bytes) (us : List TxUnlock) (segwitOn : Bool) (P : AddressPrefix) :
    Res Bool :=
  match Hex.decode txHex with
  | .ok b =>
    match decodeTxV V.version (hexSpare b) segwitOn b with
    | .ok t =>
      if t.vins.length ≠ us.length then .ok false
      else
        match hashesForSig V H segwitOn P (cloneEmpty t) us with
        | .ok hs => do
          match ← attachAll t.vins hs with
          | none => .ok false
          | some hs => verifyAll C hs
        | .err => .ok false
        | .panic => .panic
    | .err => .ok false
    | .panic => .panic
  | .err => .ok false
  | .panic => .panic

/-! ### Outputs -/

/-- The script for a Base58Check address: P2PKH under the network's first version prefix, P2SH under its second (and third, where the
package has one), each followed by `tail` [txOut.go:26-47 and the copies of it]. -/
def base58Script (H : Hashes) (P : AddressPrefix) (p2sh : Bool) (tail address : Bytes) : Res Bytes :=
  match decodeCheck H address with
  | .ok (pre, hash) =>
    if hash.length ≠ 0x14 then .err
    else
      let hash := 0xa9 :: UInt8.ofNat hash.length :: hash
      if pre = P.p2pkh then .ok ((0x76 :: (hash ++ [0x88, 0xac])) ++ tail)
      else if pre = P.p2wpkh ∨ (p2sh = true ∧ pre = P.p2sh) then .ok ((hash ++ [0x87]) ++ tail)
      else .err
  | .err => .err
  | .panic => .panic

/-- The outputs for one bech32 address [e.g. cxcTransaction/txOut.go:28-37]: a witness program, followed by `tail`; nothing if the address
does not start with the network's bech32 prefix. There is no `continue` behind it in these packages. -/
def bech32Outs (P : AddressPrefix) (amount tail address : Bytes) : Res (List TxOut) :=
  if P.bech32.isPrefixOf address then
    match Bech32.decode address with
    | .ok redeem => .ok [{ amount := amount, lockScript := (0x00 :: UInt8.ofNat redeem.length :: redeem) ++ tail }]
    | .err => .err
    | .panic => .panic
  else .ok []

/-- Run the loop body for every element and append the results. -/
def appendAll {α β : Type} (f : α → Res (List β)) : List α → Res (List β)
  | [] => .ok []
  | x :: xs => do
    let a ← f x
    let b ← appendAll f xs
    .ok (a ++ b)

/-- One iteration of the loop of `newTxOutForEmptyTrans` [bitcoincashTransaction/txOut.go:23-48; bitcoinsvTransaction/txOut.go:23-48]; with
`p2sh` false that of `newOmniTxOutForEmptyTrans` [txOut.go:62-87]. -/
def outBch (H : Hashes) (P : AddressPrefix) (p2sh : Bool) (v : Vout) : Res (List TxOut) := do
  let s ← base58Script H P p2sh [] v.address
  .ok [{ amount := leBytes 8 v.amount.toNat, lockScript := s }]

/-- One iteration of the loop of `newTxOutForEmptyTrans` [cxcTransaction/txOut.go:25-61; hcTransaction/txOut.go:25-61]. -/
def outFall (H : Hashes) (P : AddressPrefix) (v : Vout) : Res (List TxOut) := do
  let first ← bech32Outs P (leBytes 8 v.amount.toNat) [] v.address
  let s ← base58Script H P false [] v.address
  .ok (first ++ [{ amount := leBytes 8 v.amount.toNat, lockScript := s }])

/-- The block reference appended by `zencashTransaction` [txOut.go:26-40, 71-75]: a push opcode for 32 bytes, the reversed block hash, the height in
as few bytes as possible (lowest first) behind its length, OP_CHECKBLOCKATHEIGHT. -/
def blockTail (hash : Bytes) (height : UInt64) : Bytes :=
  let h := ((beBytes 8 height.toNat).dropWhile (· == 0)).reverse
  0x20 :: (hash ++ UInt8.ofNat h.length :: (h ++ [0xb4]))

/-- One iteration of the loop of `newTxOutForEmptyTrans` [zencashTransaction/txOut.go:42-88]. -/
def outZen (H : Hashes) (P : AddressPrefix) (hash : Bytes) (height : UInt64) (v : Vout) : Res (List TxOut) := do
  let first ← bech32Outs P (leBytes 8 v.amount.toNat) [] v.address
  let s ← base58Script H P false (blockTail hash height) v.address
  .ok (first ++ [{ amount := leBytes 8 v.amount.toNat, lockScript := s }])

/-- `newTxOutForEmptyTrans`: at least one output, then the loop. -/
def outs (f : Vout → Res (List TxOut)) (vs : List Vout) : Res (List TxOut) := if vs = [] then .err else appendAll f vs

/-- `newTxOutForEmptyTrans` of `zencashTransaction` [txOut.go:14-90]. -/
def outsZen (H : Hashes) (P : AddressPrefix) (blockHash : Bytes) (height : UInt64) (vs : List Vout) : Res (List TxOut) :=
  if vs = [] then .err
  else
    match reverseHexToBytes blockHash with
    | .ok hash => appendAll (outZen H P hash height) vs
    | .err => .err
    | .panic => .panic

/-- `newEmptyTransaction` [txStruct.go:15-34] followed by `encodeToBytes(false)`: `CreateEmptyRawTransaction` [transaction.go:29-42], given
the outputs. -/
def createWith (version : Nat) (vins : List Vin) (txOuts : Res (List TxOut)) (lockTime : UInt32) (replaceable : Bool) : Res Bytes := do
  let ins ← newTxIns vins
  let os ← txOuts
  let b ← encodeTx false
    { version := leBytes 4 version
      vins := ins.map (setSequence lockTime replaceable)
      vouts := os
      lockTime := leBytes 4 lockTime.toNat
      witness := false }
  .ok (Hex.encode b)

/-- `CreateEmptyRawTransaction` of `bitcoincashTransaction` and `bitcoinsvTransaction` [transaction.go:29-42]. -/
def createBch (H : Hashes) (vins : List Vin) (vouts : List Vout) (lockTime : UInt32) (replaceable : Bool) (P : AddressPrefix) : Res Bytes :=
  createWith 1 vins (outs (outBch H P true) vouts) lockTime replaceable

/-- `newOmniTxOutForEmptyTrans` [txOut.go:52-91]: the payload comes last, with amount zero. txOmni.go and txPayload.go are those of
`omniTransaction`. -/
def outsBchOmni (H : Hashes) (P : AddressPrefix) (vouts : List Vout) (o : Omni.OmniStruct) : Res (List TxOut) := do
  let os ← outs (outBch H P false) vouts
  let p ← Omni.getPayload H o
  .ok (os ++ [{ amount := leBytes 8 0, lockScript := p }])

/-- `CreateEmptyOmniRawTransaction` [transaction.go:44-56]. -/
def createBchOmni (H : Hashes) (vins : List Vin) (vouts : List Vout) (o : Omni.OmniStruct) (lockTime : UInt32) (replaceable : Bool)
    (P : AddressPrefix) : Res Bytes :=
  createWith 1 vins (outsBchOmni H P vouts o) lockTime replaceable

/-- `CreateEmptyRawTransaction` of `cxcTransaction` [transaction.go:34-46]. -/
def createCxc (H : Hashes) (vins : List Vin) (vouts : List Vout) (lockTime : UInt32) (replaceable : Bool) (P : AddressPrefix) : Res Bytes :=
  createWith 1 vins (outs (outFall H P) vouts) lockTime replaceable

/-- `CreateEmptyRawTransaction` of `hcTransaction` [transaction.go:29-42]. -/
def createHc (H : Hashes) (vins : List Vin) (vouts : List Vout) (lockTime : UInt32) (replaceable : Bool) (P : AddressPrefix) : Res Bytes :=
  createWith 2 vins (outs (outFall H P) vouts) lockTime replaceable

/-- `CreateEmptyRawTransaction` of `zencashTransaction` [transaction.go:28-41]. -/
def createZen (H : Hashes) (vins : List Vin) (vouts : List Vout) (lockTime : UInt32) (replaceable : Bool) (P : AddressPrefix)
    (blockHash : Bytes) (height : UInt64) : Res Bytes :=
  createWith 1 vins (outsZen H P blockHash height vouts) lockTime replaceable

/-- The address prefixes of `hcTransaction` [txProfile.go:9-10] and `zencashTransaction` [txProfile.go:10]; neither has a third prefix. -/
def hcMainnet : AddressPrefix := ⟨[0x09, 0x7f], [0x7f], [], asc "Hs"⟩
def hcTestnet : AddressPrefix := ⟨[0x0f, 0x21], [0x21], [], asc "Ts"⟩
def zenMainnet : AddressPrefix := ⟨[0x20, 0x89], [0x20, 0x96], [], asc "bc"⟩

/-! ### Assets (`cxcTransaction`) -/

/-- `AssetTransfer` [cxcTransaction/transaction.go:28-32]. -/
structure AssetTransfer where
  firstSellTxID : Bytes
  address : Bytes
  amount : UInt64

/-- `getTransferPayload` [cxcTransaction/txAsset.go:8-20]; the nil result makes both callers fail. -/
def assetPayload (t : AssetTransfer) : Res Bytes :=
  match reverseHexToBytes t.firstSellTxID with
  | .ok id => .ok (asc "spkq" ++ id ++ leBytes 8 t.amount.toNat)
  | .err => .err
  | .panic => .panic

/-- The asset data behind a locking script [cxcTransaction/txAsset.go:41-47, 75-81]: a push of the payload and OP_DROP. -/
def assetTail (payload : Bytes) : Bytes := UInt8.ofNat payload.length :: (payload ++ [0x75])

/-- A finished script gets the asset data appended; the amount is zero [cxcTransaction/txAsset.go:41-48, 71-78]. -/
def assetOut (t : AssetTransfer) (script : Bytes) : Res TxOut := do
  let p ← assetPayload t
  .ok { amount := leBytes 8 0, lockScript := script ++ assetTail p }

/-- One iteration of the loop of `getTransferAssetWithPayload` [cxcTransaction/txAsset.go:32-79]: the address is decoded before the payload is
made, and once more as Base58Check after a bech32 output. -/
def outAsset (H : Hashes) (P : AddressPrefix) (t : AssetTransfer) : Res (List TxOut) := do
  let scripts ← bech32Outs P [] [] t.address
  let first ← appendAll (fun o : TxOut => do
    let x ← assetOut t o.lockScript
    .ok [x]) scripts
  let s ← base58Script H P false [] t.address
  let o ← assetOut t s
  .ok (first ++ [o])

/-- `newEmptyAssetTransaction` [cxcTransaction/txStruct.go:40-65] up to serialisation: the asset outputs, then the change. -/
def outsAsset (H : Hashes) (P : AddressPrefix) (tos : List AssetTransfer) (change : Vout) : Res (List TxOut) := do
  let a ← appendAll (outAsset H P) tos
  let c ← outs (outFall H P) [change]
  .ok (a ++ c)

/-- `CreateEmptyAssetRawTransaction` [cxcTransaction/transaction.go:49-61]. -/
def createAsset (H : Hashes) (vins : List Vin) (tos : List AssetTransfer) (change : Vout) (lockTime : UInt32) (replaceable : Bool)
    (P : AddressPrefix) : Res Bytes :=
  createWith 1 vins (outsAsset H P tos change) lockTime replaceable

end Verif.BtcVariants
