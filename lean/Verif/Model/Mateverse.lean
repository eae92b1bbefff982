import Verif.Model.HyperCash

/-! Model of package `mateverseTransaction`. -/

namespace Verif.Mateverse
open Verif

/-- `TxInput` [txIn.go:9-17]; all texts are byte strings. -/
structure TxInput where
  txID : Bytes
  vout : UInt32
  lockScript : Bytes
  sequence : UInt32
  hash : Bytes
  signature : Bytes
  pubkey : Bytes
deriving DecidableEq

/-- The loop of `decodeEmptyTx` over the inputs [txIn.go:78-107] on what is left of the transaction: the inputs and what follows. The
reversal of the transaction id in place is left out: the bytes of the inputs are not read again. -/
def inputLoop : Nat → Bytes → Res (List TxInput × Bytes)
  | 0, b => .ok ([], b)
  | n + 1, b => do
    let (txid, b) ← Btc.takeN 32 b
    let (vout, b) ← Btc.takeN 4 b
    let (z, b) ← Btc.take1 b
    if z ≠ 0 then .err
    else do
      let (seq, b) ← Btc.takeN 4 b
      let (l, b) ← inputLoop n b
      .ok (⟨Hex.encode txid.reverse, UInt32.ofNat (leNat vout), [], UInt32.ofNat (leNat seq), [], [], []⟩ :: l, b)

/-- The input count [txIn.go:62-76]. -/
def inputCount (b : Bytes) : Res (Nat × Bytes) := do
  let (c, b) ← Btc.take1 b
  if c ≠ 0xfd then
    if c.toNat = 0 then .err else .ok (c.toNat, b)
  else do
    let (n, b) ← Btc.takeN 2 b
    .ok (leNat n, b)

/-- `decodeEmptyTx` [txIn.go:43-112]: the inputs and, instead of the index where they end, the bytes from there on. -/
def decodeEmptyTx (tx : Bytes) : Res (List TxInput × Bytes) := do
  let (v, b) ← Btc.takeN 4 tx
  if leNat v ≠ 4 then .err
  else do
    let (n, b) ← inputCount b
    let (l, b) ← inputLoop n b
    if b = [] then .err else .ok (l, b)

/-- `GetInputsFromEmptyRawTransaction` [transaction.go:9-20]. -/
def getInputs (emptyTrans : Bytes) : Res (List TxInput) := do
  let tx ← Hex.decode emptyTrans
  let (l, _) ← decodeEmptyTx tx
  .ok l

/-- `strings.ReplaceAll(s, old, new)` for a non-empty `old`; the first argument counts bytes still to be skipped. -/
def replaceFrom (old new : Bytes) : Nat → Bytes → Bytes
  | _, [] => []
  | k + 1, _ :: s => replaceFrom old new k s
  | 0, c :: s => if old.isPrefixOf (c :: s) then new ++ replaceFrom old new (old.length - 1) s else c :: replaceFrom old new 0 s

def replaceAll (s old new : Bytes) : Bytes := replaceFrom old new 0 s

/-- `getHashFromLockScript` [txIn.go:114-138]; `]` is 0x5d. -/
def getHashFromLockScript (script : Bytes) : Bytes :=
  let script := replaceAll script (asc " ") []
  let script := replaceAll script (asc "duphash160[") (asc "76a914")
  let script := replaceAll script (asc "]equalverifychecksig") (asc "88ac")
  let script := replaceAll script (asc "checkattenuationverify") (asc "b2")
  let script := replaceAll script (asc "[") []
  match OwKeychain.splitOn 0x5d script with
  | [a] => a
  | [a, b, c] =>
    asc "4d" ++ Hex.encode (leBytes 2 (a.length / 2)) ++ a ++ Hex.encode [UInt8.ofNat (b.length / 2)] ++ b ++ c
  | _ => asc "unknown"

/-- The input count as written [txIn.go:147-152 and 184-189]. -/
def countBytes (n : Nat) : Bytes := if n < 0xfd then [UInt8.ofNat n] else 0xfd :: leBytes 2 n

/-- `reverseHexToBytes` with its error dropped: nil. -/
def idBytes (txID : Bytes) : Bytes := match Btc.reverseHexToBytes txID with | .ok b => b | _ => []

/-- The loop of `getHashCalcBytes` [txIn.go:151-163] from input `i` on; `hex.DecodeString` returns the bytes before the first error. -/
def calcLoop (index : Nat) : Nat → List TxInput → Bytes
  | _, [] => []
  | i, x :: xs =>
    let lock := Hex.decodePrefix x.lockScript
    idBytes x.txID ++ leBytes 4 x.vout.toNat ++ (if i = index then UInt8.ofNat lock.length :: lock else [0]) ++ leBytes 4 x.sequence.toNat ++
      calcLoop index (i + 1) xs

/-- `getHashCalcBytes` [txIn.go:140-165]. -/
def getHashCalcBytes (inputs : List TxInput) (index : Nat) : Bytes := leBytes 4 4 ++ countBytes inputs.length ++ calcLoop index 0 inputs

/-- The loop of `GetSigHash` [transaction.go:33-52]: `done` are the inputs already processed. -/
def sigLoop (H : Hashes) (tail : Bytes) (done : List TxInput) : List TxInput → Res (List TxInput)
  | [] => .ok done
  | x :: xs =>
    if x.lockScript = [] then .err
    else
      let lock := getHashFromLockScript x.lockScript
      if lock = [] ∨ lock.length < 50 then .err
      else
        let x := { x with lockScript := lock }
        match Hex.decode x.txID with
        | .ok _ =>
          if x.txID.length ≠ 64 then .err
          else
            let h := H.hash .doubleSha256 (getHashCalcBytes (done ++ x :: xs) done.length ++ tail ++ leBytes 4 1)
            sigLoop H tail (done ++ [{ x with hash := Hex.encode h }]) xs
        | .err => .err
        | .panic => .panic

/-- `GetSigHash` [transaction.go:22-55]: the inputs with lock scripts and hashes set. Simplifications: the list holds distinct non-nil
pointers; what an unsuccessful call leaves in the inputs is not part of the result. -/
def getSigHash (H : Hashes) (emptyTrans : Bytes) (inputs : List TxInput) : Res (List TxInput) := do
  let tx ← Hex.decode emptyTrans
  let (_, tail) ← decodeEmptyTx tx
  sigLoop H tail [] inputs

/-- `SignTransaction` [transaction.go:57-74]; `sign` is the external signing function (hash, key), which returns 64 bytes or fails. The
function `serilizeS` [txUtils.go:83-100] is the same text as in `hypercashTransaction`. -/
def signTransaction (sign : Bytes → Bytes → Option Bytes) (hashText key : Bytes) : Res Bytes := do
  let hash ← Hex.decode hashText
  if hash.length ≠ 32 then .err
  else if key.length ≠ 32 then .err
  else
    match sign hash key with
    | none => .err
    | some sig => .ok (Hex.encode (HyperCash.serilizeInPlace sig))

/-- `verifyTransactionHash` [txSigPub.go:59-81]; `[1:]` of a nil result of `PointDecompress` panics. -/
def verifyHash (E : Btc.Curve) (pubkey hash signature : Bytes) : Res Bool :=
  match Hex.decode pubkey, Hex.decode hash, Hex.decode signature with
  | .ok pub, .ok h, .ok sig =>
    if pub.length ≠ 33 then .ok false
    else if h.length ≠ 32 then .ok false
    else if sig.length ≠ 64 then .ok false
    else do
      let p ← slice (E.decompress pub) 1 (E.decompress pub).length
      .ok (E.verify p h sig)
  | _, _, _ => .ok false

/-- The verification loop [transaction.go:78-82]. -/
def verifyAll (E : Btc.Curve) : List TxInput → Res Bool
  | [] => .ok true
  | x :: xs => do
    let ok ← verifyHash E x.pubkey x.hash x.signature
    if ok then verifyAll E xs else .ok false

/-- The loop of `getSubmitBytes` [txIn.go:187-205]; `encodeToScript` [txSigPub.go:13-56] is the same text as in `hypercashTransaction`. -/
def submitLoop : List TxInput → Res Bytes
  | [] => .ok []
  | x :: xs => do
    let txid ← Btc.reverseHexToBytes x.txID
    let s ← HyperCash.encodeToScript ⟨Hex.decodePrefix x.signature, Hex.decodePrefix x.pubkey⟩
    let r ← submitLoop xs
    .ok (txid ++ leBytes 4 x.vout.toNat ++ s ++ leBytes 4 x.sequence.toNat ++ r)

/-- `getSubmitBytes` [txIn.go:167-208]; nil is an error. -/
def getSubmitBytes (inputs : List TxInput) (emptyTrans : Bytes) : Res Bytes := do
  let tx ← Hex.decode emptyTrans
  let (_, tail) ← decodeEmptyTx tx
  let r ← submitLoop inputs
  .ok (leBytes 4 4 ++ countBytes inputs.length ++ r ++ tail)

/-- `VerifyAndCombineTransaction` [transaction.go:76-91]. -/
def verifyAndCombine (E : Btc.Curve) (emptyTrans : Bytes) (inputs : List TxInput) : Res (Bool × Bytes) := do
  let ok ← verifyAll E inputs
  if ok then
    match getSubmitBytes inputs emptyTrans with
    | .ok tx => .ok (true, Hex.encode tx)
    | .err => .ok (false, [])
    | .panic => .panic
  else .ok (false, [])

end Verif.Mateverse
