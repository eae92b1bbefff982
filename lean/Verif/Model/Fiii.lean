import Verif.Model.Json
import Verif.Model.Base58
import Verif.Model.Btc
import Verif.Model.Cosmos
import Verif.Model.SignatureSet

/-! Model of `fiiiTransaction`. Go's `int` is 64 bits wide; integers are unbounded here and the conversions to fixed widths explicit. -/

namespace Verif.Fiii
open Verif Verif.Spec Verif.Json
open Verif.Cosmos (Slice sliceJson)

/-- `Vin` [transaction.go:13-16]. -/
structure Vin where
  txid : Bytes
  vout : Int
deriving DecidableEq

/-- `Vout` [transaction.go:18-22]. -/
structure Vout where
  addressPrefix : Bytes
  address : Bytes
  amount : Int
deriving DecidableEq

/-- `InputMsg` [txInput.go:9-15] without the unused private field. -/
structure InputMsg where
  txHash : Bytes := []
  index : Int := 0
  size : Int := 0
  unlock : Bytes := []
deriving DecidableEq

/-- `OutputMsg` [txOutput.go:10-15]. -/
structure OutputMsg where
  index : Int := 0
  amount : Int := 0
  size : Int := 0
  lock : Bytes := []
deriving DecidableEq

/-- `TransactionMsg` [txStruct.go:11-22]. -/
structure TransactionMsg where
  version : Int := 0
  hash : Bytes := []
  timestamp : Int := 0
  lockTime : Int := 0
  expiredTime : Int := 0
  inputCount : Int := 0
  outputCount : Int := 0
  inputs : Slice InputMsg := none
  outputs : Slice OutputMsg := none
  size : Int := 0
deriving DecidableEq

/-- `binary.BigEndian.PutUint32(b, uint32(n))`. -/
def u32 (n : Int) : Bytes := beBytes 4 (n % 2 ^ 32).toNat
/-- `binary.BigEndian.PutUint64(b, uint64(n))`. -/
def u64 (n : Int) : Bytes := beBytes 8 (n % 2 ^ 64).toNat

/-- `strings.ToUpper(hex.EncodeToString(b))`. -/
def upperHex (b : Bytes) : Bytes := SigSet.asciiUpper (Hex.encode b)

/-- The comparison of the prefix [base58.go:165-169]. -/
def prefixLoop : Bytes → Bytes → Res Unit
  | [], _ => .ok ()
  | _ :: _, [] => .panic
  | p :: ps, r :: rs => if p ≠ r then .err else prefixLoop ps rs

/-- `DecodeCheck` [base58.go:153-176]. -/
def decodeCheck (H : Hashes) (address pre : Bytes) : Res Bytes := do
  let ret ← Base58.decode Btc.alphabet address
  if ret.length < 4 then .panic
  else if (H.hash .doubleSha256 (ret.take (ret.length - 4))).take 4 ≠ ret.drop (ret.length - 4) then .err
  else do
    prefixLoop pre ret
    if (ret.length : Int) - pre.length - 4 ≠ 20 then .err
    else slice ret pre.length (ret.length - 4)

/-- `NewInputMsg` [txInput.go:17-33]. -/
def newInputMsg (v : Vin) : Res InputMsg := do
  if v.txid.length ≠ 64 then .err
  else do
    let _ ← Hex.decode v.txid
    .ok { txHash := v.txid, index := v.vout }

/-- `genMessage` [txInput.go:35-39]. -/
def genMessage (v : Vin) : Bytes := v.txid ++ Hex.encode (u32 v.vout)

/-- `genLockScript` [txOutput.go:37-39]. -/
def genLockScript (h : Bytes) : Bytes := asc "OP_DUP OP_HASH160 " ++ upperHex h ++ asc " OP_EQUALVERIFY OP_CHECKSIG"

/-- `NewOutputMsg` [txOutput.go:17-35]. -/
def newOutputMsg (H : Hashes) (v : Vout) (index : Nat) : Res OutputMsg := do
  let h ← decodeCheck H v.address v.addressPrefix
  if v.amount ≤ 0 then .err
  else .ok { index := index, amount := v.amount, lock := genLockScript h, size := (genLockScript h).length }

/-- The loops of `CreateEmptyTransactionAndMessage` [transaction.go:44-59]. -/
def newInputs : List Vin → Res (List InputMsg)
  | [] => .ok []
  | v :: vs => do
    let i ← newInputMsg v
    let is ← newInputs vs
    .ok (i :: is)
def newOutputs (H : Hashes) : Nat → List Vout → Res (List OutputMsg)
  | _, [] => .ok []
  | n, v :: vs => do
    let o ← newOutputMsg H v n
    let os ← newOutputs H (n + 1) vs
    .ok (o :: os)

/-- JSON forms [txInput.go:9-15, txOutput.go:10-15, txStruct.go:11-22]. -/
def inputJson (i : InputMsg) : Json :=
  .obj [(asc "OutputTransactionHash", .str i.txHash), (asc "OutputIndex", .num (formatInt i.index)), (asc "Size", .num (formatInt i.size)),
    (asc "UnlockScript", .str i.unlock)]
def outputJson (o : OutputMsg) : Json :=
  .obj [(asc "Index", .num (formatInt o.index)), (asc "Amount", .num (formatInt o.amount)), (asc "Size", .num (formatInt o.size)),
    (asc "LockScript", .str o.lock)]
def txJson (t : TransactionMsg) : Json :=
  .obj [(asc "Version", .num (formatInt t.version)), (asc "Hash", .str t.hash), (asc "Timestamp", .num (formatInt t.timestamp)),
    (asc "Locktime", .num (formatInt t.lockTime)), (asc "ExpiredTime", .num (formatInt t.expiredTime)), (asc "InputCount", .num (formatInt t.inputCount)),
    (asc "OutputCount", .num (formatInt t.outputCount)), (asc "Inputs", sliceJson inputJson t.inputs), (asc "Outputs", sliceJson outputJson t.outputs),
    (asc "Size", .num (formatInt t.size))]

/-- `CreateEmptyTransactionAndMessage` [transaction.go:24-65]; `now` is the clock in milliseconds. -/
def createEmpty (H : Hashes) (now : Int) (inputs : List Vin) (outputs : List Vout) (version lockTime expiredTime : Int) : Res (Bytes × List Bytes) :=
  if inputs = [] then .err
  else if outputs = [] then .err
  else do
    let is ← newInputs inputs
    let os ← newOutputs H 0 outputs
    .ok (marshal (txJson ⟨version, [], now, lockTime, expiredTime, inputs.length, outputs.length, some is, some os, 0⟩), inputs.map genMessage)

/-- `SignTransactionMessage` [transaction.go:67-88]; `sign key data` is `owcrypt.Signature` on Ed25519, `none` its failure. -/
def signMessage (sign : Bytes → Bytes → Option Bytes) (message prikey : Bytes) : Res Bytes :=
  if message.length = 0 then .err
  else if prikey.length ≠ 32 then .err
  else do
    let data ← Hex.decode message
    match sign prikey data with
    | none => .err
    | some s => .ok s

/-! ### `json.Unmarshal` into a `TransactionMsg`

A member goes to the field of the same name, else to the first field with a name equal under case folding (`fold`); other members are ignored.
`null` leaves a field as it is (a slice becomes nil). A value of another type is an error. Simplification: when a list occurs twice in one object, Go
reuses the memory of the elements of the first occurrence; here the elements always start empty. -/

/-- The field a member belongs to. -/
def field (fold : Bytes → Bytes → Bool) (names : List Bytes) (k : Bytes) : Option Nat :=
  match names.findIdx? (· == k) with
  | some i => some i
  | none => names.findIdx? (fold k ·)

/-- An `int` or `int64` field. -/
def toInt (cur : Int) : Json → Option Int
  | .null => some cur
  | .num t => parseInt t
  | _ => none

/-- A `string` field. -/
def toStr (cur : Bytes) : Json → Option Bytes
  | .null => some cur
  | .str s => some s
  | _ => none

/-- A struct field by field. -/
def setFields {α : Type} (fold : Bytes → Bytes → Bool) (names : List Bytes) (set : α → Nat → Json → Option α) : α → List (Bytes × Json) → Option α
  | a, [] => some a
  | a, (k, v) :: l =>
    match field fold names k with
    | none => setFields fold names set a l
    | some i =>
      match set a i v with
      | none => none
      | some a => setFields fold names set a l

/-- A struct. -/
def toStruct {α : Type} (fold : Bytes → Bytes → Bool) (names : List Bytes) (set : α → Nat → Json → Option α) (cur : α) : Json → Option α
  | .null => some cur
  | .obj l => setFields fold names set cur l
  | _ => none

/-- A slice. -/
def toSlice {α : Type} (elem : Json → Option α) : Json → Option (Slice α)
  | .null => some none
  | .arr l => (l.mapM elem).map some
  | _ => none

def inputNames : List Bytes := [asc "OutputTransactionHash", asc "OutputIndex", asc "Size", asc "UnlockScript"]
def setInput (i : InputMsg) : Nat → Json → Option InputMsg
  | 0, v => (toStr i.txHash v).map fun x => { i with txHash := x }
  | 1, v => (toInt i.index v).map fun x => { i with index := x }
  | 2, v => (toInt i.size v).map fun x => { i with size := x }
  | _, v => (toStr i.unlock v).map fun x => { i with unlock := x }

def outputNames : List Bytes := [asc "Index", asc "Amount", asc "Size", asc "LockScript"]
def setOutput (o : OutputMsg) : Nat → Json → Option OutputMsg
  | 0, v => (toInt o.index v).map fun x => { o with index := x }
  | 1, v => (toInt o.amount v).map fun x => { o with amount := x }
  | 2, v => (toInt o.size v).map fun x => { o with size := x }
  | _, v => (toStr o.lock v).map fun x => { o with lock := x }

def txNames : List Bytes :=
  [asc "Version", asc "Hash", asc "Timestamp", asc "Locktime", asc "ExpiredTime", asc "InputCount", asc "OutputCount", asc "Inputs", asc "Outputs", asc "Size"]
def setTx (fold : Bytes → Bytes → Bool) (t : TransactionMsg) : Nat → Json → Option TransactionMsg
  | 0, v => (toInt t.version v).map fun x => { t with version := x }
  | 1, v => (toStr t.hash v).map fun x => { t with hash := x }
  | 2, v => (toInt t.timestamp v).map fun x => { t with timestamp := x }
  | 3, v => (toInt t.lockTime v).map fun x => { t with lockTime := x }
  | 4, v => (toInt t.expiredTime v).map fun x => { t with expiredTime := x }
  | 5, v => (toInt t.inputCount v).map fun x => { t with inputCount := x }
  | 6, v => (toInt t.outputCount v).map fun x => { t with outputCount := x }
  | 7, v => (toSlice (toStruct fold inputNames setInput {}) v).map fun x => { t with inputs := x }
  | 8, v => (toSlice (toStruct fold outputNames setOutput {}) v).map fun x => { t with outputs := x }
  | _, v => (toInt t.size v).map fun x => { t with size := x }

/-- `json.Unmarshal` of the text of a transaction. -/
def unmarshal (fold : Bytes → Bytes → Bool) (text : Bytes) : Option TransactionMsg :=
  match parse text with
  | none => none
  | some j => toStruct fold txNames (setTx fold) {} j

/-! ### Combining -/

/-- `SigPub` [txUnlock.go:11-14]. -/
structure SigPub where
  signature : Bytes
  pubkey : Bytes
deriving DecidableEq

/-- `GenUnlockScript` [txUnlock.go:16-26]. -/
def genUnlockScript (sp : SigPub) : Res Bytes :=
  if sp.signature.length ≠ 64 then .err
  else if sp.pubkey.length ≠ 32 then .err
  else .ok (upperHex sp.signature ++ asc "[ALL] " ++ asc "302A300506032B6570032100" ++ upperHex sp.pubkey)

/-- `genMessageBytes` [txInput.go:41-52]. -/
def genMessageBytes (i : InputMsg) : Res Bytes := do
  let msg ← Hex.decode i.txHash
  .ok (msg ++ u32 i.index)

/-- `InputMsg.ToBytes` [txInput.go:54-69]; the error of the decoder is dropped. -/
def InputMsg.toBytes (i : InputMsg) : Bytes := Hex.decodePrefix i.txHash ++ u32 i.index ++ u32 i.size ++ i.unlock

/-- `OutputMsg.ToBytes` [txOutput.go:41-58]. -/
def OutputMsg.toBytes (o : OutputMsg) : Bytes := u32 o.index ++ u64 o.amount ++ u32 o.size ++ o.lock

/-- `Complete` [txStruct.go:24-58]. -/
def complete (H : Hashes) (t : TransactionMsg) : TransactionMsg :=
  let txBytes := u64 t.timestamp ++ u64 t.lockTime ++ u64 t.expiredTime ++ u32 t.inputCount ++ (t.inputs.getD []).flatMap InputMsg.toBytes ++
    u32 t.outputCount ++ (t.outputs.getD []).flatMap OutputMsg.toBytes
  { t with hash := upperHex (H.hash .sha256 txBytes), size := (txBytes.length : Int) + 4 + 32 }

/-- The loop over the signatures [transaction.go:103-121]; `verify pub msg sig` is `owcrypt.Verify` on Ed25519. -/
def unlockLoop (verify : Bytes → Bytes → Bytes → Bool) : List InputMsg → List SigPub → Res (List InputMsg)
  | i :: is, sp :: sps => do
    let msg ← genMessageBytes i
    if !verify sp.pubkey msg sp.signature then .err
    else do
      let u ← genUnlockScript sp
      let is ← unlockLoop verify is sps
      .ok ({ i with unlock := u, size := u.length } :: is)
  | is, _ => .ok is

/-- `VerifyAndCombineTransaction` [transaction.go:90-130]. -/
def verifyAndCombine (fold : Bytes → Bytes → Bool) (H : Hashes) (verify : Bytes → Bytes → Bytes → Bool) (emptyTrans : Bytes) (sigPub : List SigPub) : Res Bytes :=
  match unmarshal fold emptyTrans with
  | none => .err
  | some t =>
    if sigPub.length = 0 ∨ sigPub.length ≠ (t.inputs.getD []).length then .err
    else do
      let is ← unlockLoop verify (t.inputs.getD []) sigPub
      .ok (marshal (txJson (complete H { t with inputs := some is })))

end Verif.Fiii
