import Verif.Model.BtcVariants

/-!
Model of package `btcLikeTxDriver`, the older Bitcoin driver (test network prefixes only): creating, parsing, hashing, signing and verifying
transactions.

Files cited are in `/repo/btcLikeTxDriver`. base58.go, bech32.go, utils.go, serilizeS, encodeToScript and decodeFromScriptBytes of a signature with its
key are the algorithms of `btcTransaction`, so the definitions of `Verif.Btc` and `Verif.Bech32` are used for them. The functions that change the
caller's unlock data in place return the changed data as well; what they leave behind when they return an error is not modelled.
-/

namespace Verif.BtcLike
open Verif
open _root_.Verif.Btc (Vin Vout TxOut Curve takeN take1 concatAll)

/-! ### Structures and constants -/

/-- `TxIn` [txIn.go:8-13]. Nil and empty scripts are identified: no empty script other than nil is ever stored. -/
structure TxIn where
  txid : Bytes
  vout : Bytes
  script : Bytes
  sequence : Bytes
deriving DecidableEq

/-- `SignaturePubkey` [signaturepubkey.go:10-13] and `TxWitness` [witness.go:5-8], which have the same fields; `none` is a nil signature. -/
structure SigPub where
  signature : Option Bytes
  pubkey : Bytes
deriving DecidableEq

/-- `Transaction` [txStruct.go:16-23]. A nil witness is the empty list: the code only ever appends to nil. -/
structure Tx where
  version : Bytes
  vins : List TxIn
  vouts : List TxOut
  witness : List SigPub
  lockTime : Bytes
deriving DecidableEq

/-- `TxUnlock` [transaction.go:19-25]; the scripts are hexadecimal texts. The field `Address` is never read. -/
structure TxUnlock where
  privateKey : Bytes
  lockScript : Bytes
  redeemScript : Bytes
  amount : UInt64
deriving DecidableEq

/-- `P2PKHPrefix`, `P2SHPrefix`, `Bech32Prefix` [btc.go:3-7]. -/
def p2pkhPrefix : UInt8 := 0x6f
def p2shPrefix : UInt8 := 0xc4
def bech32Prefix : Bytes := asc "tb1"

/-! ### Creating -/

/-- `setSequence` [txIn.go:46-54]. -/
def sequenceOf (lockTime : UInt32) (replaceable : Bool) : Bytes :=
  if replaceable then leBytes 4 0xfffffffd
  else if lockTime ≠ 0 then leBytes 4 (0xffffffff - 1)
  else leBytes 4 0xffffffff

/-- One iteration of the loop of `newTxInForEmptyTrans` [txIn.go:34-42] with the sequence set afterwards [txStruct.go:31-33]. -/
def newTxIn (lockTime : UInt32) (replaceable : Bool) (v : Vin) : Res TxIn :=
  match Btc.reverseHexToBytes v.txid with
  | .ok txid => if txid.length ≠ 32 then .err else .ok ⟨txid, leBytes 4 v.vout.toNat, [], sequenceOf lockTime replaceable⟩
  | .err => .err
  | .panic => .panic

/-- The loops themselves. -/
def newTxIns (lockTime : UInt32) (replaceable : Bool) : List Vin → Res (List TxIn)
  | [] => .ok []
  | v :: vs => do
    let i ← newTxIn lockTime replaceable v
    let is ← newTxIns lockTime replaceable vs
    .ok (i :: is)

/-- `DecodeCheck` [base58.go:153-166]: the version byte and what is between it and the checksum. -/
def decodeCheck (H : Hashes) (address : Bytes) : Res (UInt8 × Bytes) :=
  match Base58.decode Btc.alphabet address with
  | .ok ret =>
    if ret.length < 4 then .panic
    else if (H.hash .doubleSha256 (ret.take (ret.length - 4))).take 4 ≠ ret.drop (ret.length - 4) then .err
    else do
      let p ← index ret 0
      let h ← slice ret 1 (ret.length - 4)
      .ok (p, h)
  | .err => .err
  | .panic => .panic

/-- `EncodeCheck` [base58.go:168-173]. -/
def encodeCheck (H : Hashes) (pre : UInt8) (hash : Bytes) : Res Bytes := Btc.encodeCheck H [pre] hash

/-- `Bech32Decode` [bech32.go:158-217]: as `Bech32.decode`, without its treatment of 33-byte payloads. -/
def bech32Decode (address : Bytes) : Res Bytes := do
  let (prefixStr, value) ← Bech32.parse 0x31 address
  if !Bech32.verifyChecksum prefixStr value then .err
  else if value.length < 6 then .panic
  else Bech32.unextendPayload (value.take (value.length - 6))

/-- The output of the branch for bech32 addresses [txOut.go:19-29]. -/
def bech32Out (v : Vout) : Res (List TxOut) :=
  if bech32Prefix.isPrefixOf v.address then do
    let redeem ← bech32Decode v.address
    .ok [⟨leBytes 8 v.amount.toNat, 0x00 :: UInt8.ofNat redeem.length :: redeem⟩]
  else .ok []

/-- One iteration of the loop of `newTxOutForEmptyTrans` [txOut.go:16-52]. There is no `continue` behind the branch for bech32 addresses. -/
def newTxOut (H : Hashes) (v : Vout) : Res (List TxOut) := do
  let first ← bech32Out v
  let amount := leBytes 8 v.amount.toNat
  let (pre, hash) ← decodeCheck H v.address
  if hash.length ≠ 0x14 then .err
  else
    let hash := 0xa9 :: UInt8.ofNat hash.length :: hash
    if pre = p2pkhPrefix then .ok (first ++ [⟨amount, 0x76 :: (hash ++ [0x88, 0xac])⟩])
    else if pre = p2shPrefix then .ok (first ++ [⟨amount, hash ++ [0x87]⟩])
    else .err

/-- `newTxOutForEmptyTrans` [txOut.go:13-54]. -/
def newTxOuts (H : Hashes) (vs : List Vout) : Res (List TxOut) := BtcVariants.appendAll (newTxOut H) vs

/-- `newTransaction` [txStruct.go:25-44]. -/
def newTransaction (H : Hashes) (vins : List Vin) (vouts : List Vout) (lockTime : UInt32) (replaceable : Bool) : Res Tx := do
  let ins ← newTxIns lockTime replaceable vins
  let outs ← newTxOuts H vouts
  .ok ⟨leBytes 4 2, ins, outs, [], leBytes 4 lockTime.toNat⟩

/-! ### Serialisation -/

/-- A DER integer body in a witness [witness.go:14-19]; leading zeros stay. -/
def witnessInt : Bytes → Res Bytes
  | [] => .panic
  | x :: t => if x ≥ 0x80 then .ok (0x00 :: x :: t) else .ok (x :: t)

/-- `TxWitness.encodeToScript` [witness.go:10-35]. -/
def witnessScript (sig pub : Bytes) (sigType : UInt8) : Res Bytes := do
  let r ← slice sig 0 32
  let r ← witnessInt r
  let s ← witnessInt (sig.drop 32)
  let rs := 0x02 :: UInt8.ofNat r.length :: r ++ 0x02 :: UInt8.ofNat s.length :: s
  let rs := 0x30 :: UInt8.ofNat rs.length :: rs ++ [sigType]
  .ok ((UInt8.ofNat rs.length :: rs) ++ UInt8.ofNat pub.length :: pub)

/-- `isMultiSig` of a transaction [multiSig.go:48-59]. -/
def Tx.isMultiSig (t : Tx) : Bool :=
  match t.vins with
  | [i] => i.script.getLast? == some 0xae
  | _ => false

/-- `calcRedeemHash` [multiSig.go:86-90]. -/
def calcRedeemHash (H : Hashes) (redeem : Bytes) : Bytes := [0x22, 0x00, 0x20] ++ H.hash .sha256 redeem

/-- An input with the unlocking script given [txStruct.go:63-73, 107-120]. -/
def encodeIn (script : TxIn → Bytes) (i : TxIn) : Res Bytes :=
  if i.txid.length ≠ 32 ∨ i.vout.length ≠ 4 then .err
  else .ok (i.txid ++ i.vout ++ UInt8.ofNat (script i).length :: script i ++ i.sequence)

/-- An output [txStruct.go:76-83, 124-131]. -/
def encodeOut (o : TxOut) : Res Bytes :=
  if o.amount.length ≠ 8 then .err else .ok (o.amount ++ UInt8.ofNat o.lockScript.length :: o.lockScript)

/-- A signature of a multi-signature transaction [txStruct.go:86-94]: the script without its last 34 bytes. -/
def encodeMultiWitness (w : SigPub) : Res Bytes :=
  match w.signature with
  | none => .err
  | some sig => do
    let s ← witnessScript sig w.pubkey 1
    slice s 0 (s.length - 34)

/-- The witness of one input [txStruct.go:134-141]. -/
def encodeWitness (w : SigPub) : Res Bytes :=
  match w.signature with
  | none => .ok [0x00]
  | some sig => do
    let s ← witnessScript sig w.pubkey 1
    .ok (0x02 :: s)

/-- `encodeToBytes` [txStruct.go:46-147]. -/
def encodeTx (H : Hashes) (t : Tx) : Res Bytes :=
  if t.vins = [] then .err
  else if t.vouts = [] then .err
  else if t.isMultiSig then
    if t.witness = [] then .err
    else do
      let ins ← concatAll (encodeIn (fun i => calcRedeemHash H i.script)) t.vins
      let outs ← concatAll encodeOut t.vouts
      let wit ← concatAll encodeMultiWitness t.witness
      let first ← index t.vins 0
      .ok (t.version ++ [0x00, 0x01] ++ [UInt8.ofNat t.vins.length] ++ ins ++ [UInt8.ofNat t.vouts.length] ++ outs ++
        ([0x04, 0x00] ++ wit ++ UInt8.ofNat first.script.length :: first.script) ++ t.lockTime)
  else do
    let ins ← concatAll (encodeIn TxIn.script) t.vins
    let outs ← concatAll encodeOut t.vouts
    let wit ← concatAll encodeWitness t.witness
    .ok (t.version ++ (if t.witness = [] then [] else [0x00, 0x01]) ++ [UInt8.ofNat t.vins.length] ++ ins ++
      [UInt8.ofNat t.vouts.length] ++ outs ++ wit ++ t.lockTime)

/-- `CreateEmptyRawTransaction` [transaction.go:32-44]. -/
def createEmpty (H : Hashes) (vins : List Vin) (vouts : List Vout) (lockTime : UInt32) (replaceable : Bool) : Res Bytes := do
  let t ← newTransaction H vins vouts lockTime replaceable
  let b ← encodeTx H t
  .ok (Hex.encode b)

/-! ### Parsing -/

/-- One input [txStruct.go:181-218]. -/
def decodeIn (b : Bytes) : Res (TxIn × Bytes) := do
  let (txid, b) ← takeN 32 b
  let (vout, b) ← takeN 4 b
  let (n, b) ← take1 b
  let (script, b) ← takeN n.toNat b
  let (sequence, b) ← takeN 4 b
  .ok (⟨txid, vout, script, sequence⟩, b)

def decodeIns : Nat → Bytes → Res (List TxIn × Bytes)
  | 0, b => .ok ([], b)
  | n + 1, b => do
    let (i, b) ← decodeIn b
    let (is, b) ← decodeIns n b
    .ok (i :: is, b)

/-- One output [txStruct.go:226-248]. -/
def decodeOut (b : Bytes) : Res (TxOut × Bytes) := do
  let (amount, b) ← takeN 8 b
  let (n, b) ← take1 b
  let (script, b) ← takeN n.toNat b
  .ok (⟨amount, script⟩, b)

def decodeOuts : Nat → Bytes → Res (List TxOut × Bytes)
  | 0, b => .ok ([], b)
  | n + 1, b => do
    let (o, b) ← decodeOut b
    let (os, b) ← decodeOuts n b
    .ok (o :: os, b)

/-- Where the 32 bytes of an integer with the length byte `n` start, if its bytes start at `i` [witness.go:59-64, 77-82]. -/
def witnessStart (script : Bytes) (n : UInt8) (i : Nat) : Option Nat :=
  if n = 0x21 then
    match script[i]?, script[i + 1]? with
    | some a, some b => if a ≠ 0 ∧ b < 0x80 then none else some (i + 1)
    | some a, none => if a = 0 then some (i + 1) else none
    | none, _ => none
  else some i

/-- `decodeFromSegwitBytes` [witness.go:37-109]: signature and key. Its callers dereference the result without looking at the error, so every
failure (including its own panics) is a panic: `none`. Appending s to the signature (line 84) overwrites bytes of the script that are not
read again. -/
def decodeSegwit (script : Bytes) : Option (Bytes × Bytes) := do
  let sigLen ← script[0]?
  let x ← script[1]?
  if x ≠ 0x30 then none
  else do
    let rsLen ← script[2]?
    let x ← script[3]?
    if x ≠ 0x02 then none
    else do
      let rLen ← script[4]?
      let i ← witnessStart script rLen 5
      let x ← script[i + 32]?
      if x ≠ 0x02 then none
      else do
        let sLen ← script[i + 33]?
        let j ← witnessStart script sLen (i + 34)
        let x ← script[j + 32]?
        if x ≠ 0x01 then none
        else do
          let pubLen ← script[j + 33]?
          if pubLen ≠ 0x21 then none
          else if rLen + sLen + 4 ≠ rsLen ∨ rsLen + 3 ≠ sigLen ∨ sigLen + pubLen + 2 ≠ UInt8.ofNat script.length then none
          else if j + 67 ≠ script.length then none
          else some ((script.drop i).take 32 ++ (script.drop j).take 32, (script.drop (j + 34)).take 33)

/-- The witness of one input [txStruct.go:252-276]. For any other count nothing is read and nothing stored. -/
def decodeWitness (b : Bytes) : Res (List SigPub × Bytes) := do
  let (x, r) ← take1 b
  if x = 0x00 then .ok ([⟨none, []⟩], r)
  else if x = 0x02 then do
    let (n, _) ← take1 r
    let (script, r) ← takeN (n.toNat + 1 + 34) r
    match decodeSegwit script with
    | none => .panic
    | some (sig, pub) => .ok ([⟨some sig, pub⟩], r)
  else .ok ([], b)

def decodeWitnesses : Nat → Bytes → Res (List SigPub × Bytes)
  | 0, b => .ok ([], b)
  | n + 1, b => do
    let (w, b) ← decodeWitness b
    let (ws, b) ← decodeWitnesses n b
    .ok (w ++ ws, b)

/-- `DecodeRawTransaction` [txStruct.go:149-290]. -/
def decodeTx (b : Bytes) : Res Tx := do
  let (version, b) ← takeN 4 b
  let (mark, _) ← takeN 2 b
  let segwit := decide (mark.head? = some 0x00)
  if segwit ∧ mark ≠ [0x00, 0x01] then .err
  else do
    let b := if segwit then b.drop 2 else b
    let (n, b) ← take1 b
    let (ins, b) ← decodeIns n.toNat b
    let (m, b) ← take1 b
    let (outs, b) ← decodeOuts m.toNat b
    let (wit, b) ← if segwit then decodeWitnesses n.toNat b else .ok ([], b)
    let (lockTime, b) ← takeN 4 b
    if b ≠ [] then .err else .ok ⟨version, ins, outs, wit, lockTime⟩

/-! ### Hashes -/

/-- The result of `checkScriptType` [txStruct.go:299-309]. -/
inductive Kind where
  | p2pkh | p2sh | bech32 | unknown
deriving DecidableEq

/-- `script[i] == x && ...`: positions are read from left to right, up to the first that differs. -/
def allAt (script : Bytes) : List (Nat × UInt8) → Res Bool
  | [] => .ok true
  | (i, x) :: l => do
    let y ← index script i
    if y = x then allAt script l else .ok false

/-- `checkScriptType` [txStruct.go:299-309]. -/
def checkScriptType (script : Bytes) : Res Kind := do
  if ← allAt script [(0, 0x76), (1, 0xa9), (2, 0x14), (23, 0x88), (24, 0xac)] then .ok .p2pkh
  else if ← allAt script [(0, 0xa9), (1, 0x14), (22, 0x87)] then .ok .p2sh
  else if ← allAt script [(0, 0x00), (1, 0x14)] then .ok .bech32
  else .ok .unknown

/-- `genScriptCodeFromRedeemScript` [txStruct.go:334-357]. -/
def scriptCode (redeem : Bytes) : Res Bytes := do
  let b ← Hex.decode redeem
  if ← allAt b [(0, 0x00), (1, 0x14)] then
    if (b.drop 2).length ≠ 0x14 then .err
    else .ok ([0x76, 0xa9] ++ UInt8.ofNat (b.drop 2).length :: b.drop 2 ++ [0x88, 0xac])
  else .ok b

/-- `calcSegwitHash` and `calcSegwitBytesForSig` [txStruct.go:311-332, 359-388]. -/
def segwitBytes (H : Hashes) (t : Tx) (redeem : Bytes) (amount : UInt64) (i : TxIn) : Res Bytes := do
  let code ← scriptCode redeem
  .ok (t.version ++ H.hash .doubleSha256 (t.vins.map (fun i => i.txid ++ i.vout)).flatten ++
    H.hash .doubleSha256 (t.vins.map TxIn.sequence).flatten ++ i.txid ++ i.vout ++ UInt8.ofNat code.length :: code ++
    leBytes 8 amount.toNat ++ i.sequence ++
    H.hash .doubleSha256 (t.vouts.map (fun o => o.amount ++ UInt8.ofNat o.lockScript.length :: o.lockScript)).flatten ++ t.lockTime)

/-- The transaction with the script of input `k` set and all others empty [txStruct.go:398-400, 420]. -/
def withScript (t : Tx) (k : Nat) (script : Bytes) : Tx :=
  { t with vins := t.vins.mapIdx (fun j i => { i with script := if j = k then script else [] }) }

/-- One iteration of the loop of `getHashesForSig` [txStruct.go:396-436]: the hash and the unlock data afterwards (for a bech32 output the redeem
script is set to the lock script, line 413). -/
def hashOne (H : Hashes) (t : Tx) (k : Nat) (u : TxUnlock) : Res (Bytes × TxUnlock) := do
  let lock ← Hex.decode u.lockScript
  if lock.length ≠ 22 ∧ lock.length ≠ 23 ∧ lock.length ≠ 25 then .err
  else do
    let i ← index t.vins k
    let (b, u) ← match ← checkScriptType lock with
      | .p2sh => do
        let b ← segwitBytes H t u.redeemScript u.amount i
        .ok (b, u)
      | .bech32 => do
        let b ← segwitBytes H t u.lockScript u.amount i
        .ok (b, { u with redeemScript := u.lockScript })
      | .p2pkh => do
        let b ← encodeTx H (withScript t k lock)
        .ok (b, u)
      | .unknown => .err
    .ok (H.hash .doubleSha256 (b ++ leBytes 4 1), u)

/-- The loop. -/
def hashLoop (H : Hashes) (t : Tx) : Nat → List TxUnlock → Res (List (Bytes × TxUnlock))
  | _, [] => .ok []
  | k, u :: us => do
    let h ← hashOne H t k u
    let hs ← hashLoop H t (k + 1) us
    .ok (h :: hs)

/-- `getHashesForSig` [txStruct.go:390-439]. The unlocking scripts it leaves in the transaction are overwritten or dropped by all its callers. -/
def getHashes (H : Hashes) (t : Tx) (us : List TxUnlock) : Res (List (Bytes × TxUnlock)) :=
  if t.vins = [] ∨ t.vins.length ≠ us.length then .err else hashLoop H t 0 us

/-- `CreateRawTransactionHashForSig` [transaction.go:46-68]: the hashes, and the unlock data afterwards. -/
def createHashes (H : Hashes) (txHex : Bytes) (us : List TxUnlock) : Res (List Bytes × List TxUnlock) := do
  let b ← Hex.decode txHex
  let t ← decodeTx b
  let hs ← getHashes H t us
  .ok (hs.map (fun h => Hex.encode h.1), hs.map Prod.snd)

/-! ### Signing -/

/-- Signing with secp256k1: `owcrypt.Signature(key, nil, hash)` (64 bytes) and the compressed public key of a private key. -/
structure Signer where
  sign : Bytes → Bytes → Res Bytes
  pub : Bytes → Res Bytes

/-- `calcSignaturePubkey` [signaturepubkey.go:34-59]. -/
def calcSigPubs (S : Signer) : List Bytes → List TxUnlock → Res (List SigPub)
  | [], [] => .ok []
  | h :: hs, u :: us =>
    if u.privateKey.length ≠ 32 then .err
    else if h.length ≠ 32 then .err
    else do
      let sig ← S.sign u.privateKey h
      let pub ← S.pub u.privateKey
      let r ← calcSigPubs S hs us
      .ok (⟨some (Btc.serilizeS sig), pub⟩ :: r)
  | _, _ => .err

/-- `SignRawTransactionHash` [transaction.go:133-144]. -/
def decodeAll : List Bytes → Res (List Bytes)
  | [] => .ok []
  | h :: hs => do
    let b ← Hex.decode h
    let bs ← decodeAll hs
    .ok (b :: bs)

def signHashes (S : Signer) (hashes : List Bytes) (us : List TxUnlock) : Res (List SigPub) := do
  let hs ← decodeAll hashes
  if hs.length ≠ us.length then .err else calcSigPubs S hs us

/-- `encodeToScript` of a signature with its key [signaturepubkey.go:61-102]; reading a nil signature panics. -/
def scriptSig (s : SigPub) : Res Bytes :=
  match s.signature with
  | none => .panic
  | some sig => Btc.encodeSigPub sig s.pubkey 1

/-- The unlocking script of a script hash [transaction.go:103-108, 219-224]. -/
def redeemPush (redeem : Bytes) : Res Bytes := do
  let b ← Hex.decode redeem
  .ok (UInt8.ofNat b.length :: b)

/-- Empty witnesses for the inputs before the first one with a witness [transaction.go:112-114, 206-210]. -/
def padWitness (k : Nat) (ws : List SigPub) : List SigPub := if ws = [] then List.replicate k ⟨none, []⟩ else ws

/-- The loop of `SignEmptyRawTransaction` [transaction.go:90-124]: the scripts and the witness. Only the first witness is ever stored (lines
111-116). -/
def signLoop : Nat → List SigPub → List TxUnlock → List SigPub → Res (List Bytes × List SigPub)
  | _, [], _, ws => .ok ([], ws)
  | _, _ :: _, [], _ => .panic
  | k, s :: ss, u :: us, ws => do
    let lock ← Hex.decode u.lockScript
    let (script, ws) ← match ← checkScriptType lock with
      | .bech32 => .ok ([], if ws = [] then padWitness k ws ++ [s] else ws)
      | .p2sh => do
        let r ← redeemPush u.redeemScript
        .ok (r, if ws = [] then padWitness k ws ++ [s] else ws)
      | _ => do
        let r ← scriptSig s
        .ok (r, if ws = [] then [] else ws ++ [⟨none, []⟩])
    let (scripts, ws) ← signLoop (k + 1) ss us ws
    .ok (script :: scripts, ws)

/-- The inputs with other scripts. -/
def setScripts (t : Tx) (scripts : List Bytes) : Tx :=
  { t with vins := List.zipWith (fun i s => { i with script := s }) t.vins scripts }

/-- `SignEmptyRawTransaction` [transaction.go:70-131]. -/
def signEmpty (H : Hashes) (S : Signer) (txHex : Bytes) (us : List TxUnlock) : Res Bytes := do
  let b ← Hex.decode txHex
  let t ← decodeTx b
  let hs ← getHashes H t us
  let sps ← calcSigPubs S (hs.map Prod.fst) us
  let (scripts, ws) ← signLoop 0 sps us t.witness
  let b ← encodeTx H { setScripts t scripts with witness := ws }
  .ok (Hex.encode b)

/-- `isMultiSig` of the scripts of an output [multiSig.go:61-84]; the condition of line 70 binds `&&` tighter than `||`. -/
def isMultiSig (lockScript redeemScript : Bytes) : Bool :=
  if lockScript.length ≠ 0x17 * 2 then false
  else
    match Hex.decode lockScript, Hex.decode redeemScript with
    | .ok l, .ok r => ((l[0]? == some 0xa9 && l[1]? == some 0x14) || l[22]? == some 0x87) && r.getLast? == some 0xae
    | _, _ => false

/-- The text begins with "0014". -/
def isWitnessLock (lockScript : Bytes) : Bool := (asc "0014").isPrefixOf lockScript

/-- The loop of `InsertSignatureIntoEmptyTransaction` over the inputs [transaction.go:184-227]: the scripts, the witness, the unlock data afterwards. -/
def insertLoop : Nat → Nat → List SigPub → List TxUnlock → List SigPub → Res (List Bytes × List SigPub × List TxUnlock)
  | 0, _, _, us, ws => .ok ([], ws, us)
  | _ + 1, _, [], _, _ => .panic
  | _ + 1, _, _ :: _, [], _ => .panic
  | n + 1, k, s :: ss, u :: us, ws =>
    if (s.signature.getD []).length ≠ 64 then .err
    else if s.pubkey.length ≠ 33 then .err
    else do
      let u := if u.redeemScript = [] ∧ isWitnessLock u.lockScript then { u with redeemScript := u.lockScript, lockScript := asc "00" } else u
      let (script, ws) ←
        if u.redeemScript = [] then do
          let r ← scriptSig s
          .ok (r, if ws = [] then [] else ws ++ [⟨none, []⟩])
        else do
          let r ← if u.lockScript = asc "00" then .ok [] else redeemPush u.redeemScript
          .ok (r, padWitness k ws ++ [s])
      let (scripts, ws, us) ← insertLoop n (k + 1) ss us ws
      .ok (script :: scripts, ws, u :: us)

/-- `InsertSignatureIntoEmptyTransaction` [transaction.go:146-235]: the transaction, and the unlock data afterwards. -/
def insertSignatures (H : Hashes) (txHex : Bytes) (sps : List SigPub) (us : List TxUnlock) : Res (Bytes × List TxUnlock) := do
  let b ← Hex.decode txHex
  let t ← decodeTx b
  if us = [] then .err
  else if sps = [] then .err
  else if t.vins = [] then .err
  else if t.vouts = [] then .err
  else if t.vins.length ≠ us.length then .err
  else do
    let u ← index us 0
    if isMultiSig u.lockScript u.redeemScript then do
      let r ← Hex.decode u.redeemScript
      let b ← encodeTx H { t with vins := t.vins.modifyHead (fun i => { i with script := r }), witness := t.witness ++ sps }
      .ok (Hex.encode b, us)
    else do
      let (scripts, ws, us') ← insertLoop t.vins.length 0 sps us t.witness
      let b ← encodeTx H { setScripts t scripts with witness := ws }
      .ok (Hex.encode b, us')

/-! ### Verifying -/

/-- `decodeFromScriptBytes` [signaturepubkey.go:104-246]: that of `btcTransaction`, and only signature type 1 is accepted. -/
def decodeSigPub (script : Bytes) : Res (Bytes × Bytes) := do
  let (sig, pub, ty) ← Btc.decodeSigPub script
  if ty ≠ 1 then .err else .ok (sig, pub)

/-- The signature of each input [transaction.go:252-277], with the unlock data afterwards; without witnesses from the scripts, otherwise from the
witness if it has one. -/
def readSigs (noWitness : Bool) (ws : List SigPub) : Nat → List TxIn → List TxUnlock → Res (List (Bytes × Bytes) × List TxUnlock)
  | _, [], us => .ok ([], us)
  | _, _ :: _, [] => .panic
  | k, i :: is, u :: us => do
    let w : SigPub ← if noWitness then .ok ⟨none, []⟩ else index ws k
    let (sp, u) ← match w.signature with
      | none => do
        let sp ← decodeSigPub i.script
        .ok (sp, u)
      | some sig =>
        if isWitnessLock u.lockScript then .ok ((sig, w.pubkey), u)
        else do
          let r ← slice i.script 1 i.script.length
          .ok ((sig, w.pubkey), { u with redeemScript := Hex.encode r })
    let (sps, us) ← readSigs noWitness ws (k + 1) is us
    .ok (sp :: sps, u :: us)

/-- `verifyHashes` [txStruct.go:441-450]. -/
def verifyHashes (C : Curve) : List Bytes → List (Bytes × Bytes) → Res Bool
  | _, [] => .ok true
  | [], _ :: _ => .panic
  | h :: hs, (sig, pub) :: sps => do
    let p ← Btc.pubPoint C (some pub)
    if C.verify p h sig then verifyHashes C hs sps else .ok false

/-- `VerifyRawTransaction` [transaction.go:237-287]; errors are the answer false. -/
def verifyRaw (H : Hashes) (C : Curve) (txHex : Bytes) (us : List TxUnlock) : Res Bool :=
  let r : Res Bool := do
    let b ← Hex.decode txHex
    let t ← decodeTx b
    if t.vins.length ≠ us.length then .err
    else do
      let (sps, us) ← readSigs (decide (t.witness = [])) t.witness 0 t.vins us
      let hs ← getHashes H { t with witness := [] } us
      verifyHashes C (hs.map Prod.fst) sps
  match r with
  | .err => .ok false
  | r => r

/-! ### Multi-signature addresses -/

/-- `CreateMultiSig` [multiSig.go:10-46]: the address and the redeem script in hexadecimal. -/
def createMultiSig (H : Hashes) (required : UInt8) (pubkeys : List Bytes) : Res (Bytes × Bytes) := do
  let redeem ← Btc.multiRedeem required pubkeys
  let addr ← encodeCheck H p2shPrefix (H.hash .hash160 ([0x00, 0x20] ++ H.hash .sha256 redeem))
  .ok (addr, Hex.encode redeem)

end Verif.BtcLike
