import Verif.Model.Btc

/-! Model of packages `signatureSet` and `eosSignature`: the signing helpers with externally supplied nonces and the registry of
signers. The three files `ethSignature.go`, `nasSignature.go` and `tronSignature.go` (and `icxSignature.go`) of `signatureSet`
are the same text up to the names of the functions; the definitions below model all of them and cite `ethSignature.go`. -/

namespace Verif.SigSet
open Verif

/-- The operations of `go-owcrypt` the two packages call, with their documented output sizes: HMAC-SHA256, the check of an external
nonce (`PreprocessRandomNum`), the secp256k1 signature with that nonce (`Signature` with `NOUNCE_OUTSIDE_FLAG`), the public key of
a scalar (`GenPubkey`), public key recovery (`RecoverPubkey`) and the signature with an internal nonce on a curve (`Signature`).
`none` stands for a return code other than `SUCCESS`. The library keeps the external nonce in a global variable between
`PreprocessRandomNum` and `Signature`; here it is an argument; `Model/SignConc.lean` models the variable and concurrent signers. -/
structure Ec where
  hmac : Bytes → Bytes → Bytes
  hmac_size : ∀ k d, (hmac k d).length = 32
  preprocess : Bytes → Bool
  sign : Bytes → Bytes → Bytes → Option Bytes
  sign_size : ∀ p h k s, sign p h k = some s → s.length = 64
  pub : Bytes → Option Bytes
  pub_size : ∀ k p, pub k = some p → p.length = 64
  recover : Bytes → Bytes → Option Bytes
  signOn : Nat → Bytes → Bytes → Option Bytes

variable (E : Ec)

/-! ### Range checks -/

/-- `owcrypt.GetCurveOrder(ECC_CURVE_SECP256K1)`: the order of secp256k1 as 32 bytes. -/
def orderBytes : Bytes := beBytes 32 Btc.curveOrder

/-- Word `i` of `eth_set_uint64` (`w = 8`) [ethSignature.go:99-106] and `eth_set_uint32` (`w = 4`) [ethSignature.go:108-119]: the
shifts and ors are written as the big-endian value of `w` consecutive bytes. -/
def word (w : Nat) (a : Bytes) (i : Nat) : Nat := beNat ((a.drop (w * i)).take w)

/-- `eth_check_overflow_uint64` [ethSignature.go:121-136]; both word conversions index 32 bytes. -/
def checkOverflow64 (a : Bytes) : Res Bool :=
  if a.length < 32 then .panic
  else
    let A := word 8 a
    let N := word 8 orderBytes
    let no1 := decide (A 0 < N 0)
    let no2 := no1 || decide (A 1 < N 1)
    let yes1 := decide (A 1 > N 1) && !no2
    let no3 := no2 || decide (A 2 < N 2)
    let yes2 := yes1 || (decide (A 2 > N 2) && !no3)
    .ok (yes2 || (decide (A 3 ≥ N 3) && !no3))

/-- `eth_check_overflow_uint32` [ethSignature.go:138-160]. -/
def checkOverflow32 (a : Bytes) : Res Bool :=
  if a.length < 32 then .panic
  else
    let A := word 4 a
    let N := word 4 orderBytes
    let no3 := decide (A 0 < N 0) || decide (A 1 < N 1) || decide (A 2 < N 2) || decide (A 3 < N 3)
    let yes3 := decide (A 3 > N 3) && !no3
    let no4 := no3 || (decide (A 4 < N 4) && !yes3)
    let yes4 := yes3 || (decide (A 4 > N 4) && !no4)
    let no5 := no4 || (decide (A 5 < N 5) && !yes4)
    let yes5 := yes4 || (decide (A 5 > N 5) && !no5)
    let no6 := no5 || (decide (A 6 < N 6) && !yes5)
    let yes6 := yes5 || (decide (A 6 > N 6) && !no6)
    .ok (yes6 || (decide (A 7 ≥ N 7) && !no6))

/-- `eth_check_is_zero` [ethSignature.go:162-166]. -/
def checkIsZero (a : Bytes) : Res Bool :=
  if a.length < 32 then .panic
  else
    let A := word 8 a
    .ok (decide (A 3 = 0) && decide (A 2 = 0) && decide (A 1 = 0) && decide (A 0 = 0))

/-! ### The nonce -/

/-- `copy` into a fresh (zero) buffer of `n` bytes. -/
def fit (n : Nat) (b : Bytes) : Bytes := (b ++ List.replicate n 0).take n

/-- `eth_hmac_rfc6979_init` [ethSignature.go:10-43] for a key of `keylen = 64` bytes: the pair (k, v); the third result (`retry`)
is 0. -/
def hmacInit (key : Bytes) : Bytes × Bytes × Nat :=
  let v := List.replicate 32 1
  let k := List.replicate 32 0
  let k := E.hmac k (v ++ [0] ++ key)
  let v := E.hmac k v
  let k := E.hmac k (v ++ [1] ++ key)
  let v := E.hmac k v
  (k, v, 0)

/-- `eth_hmac_rfc6979_gnerate` [ethSignature.go:53-71] for `nouncelen = 32`: the new values of `k` and `v` are local to the call,
only the 32-byte block (and `retry = 1`) is returned. -/
def hmacGenerate (k v : Bytes) (retry : Nat) : Bytes × Nat :=
  if retry = 1 then
    let k := E.hmac k (v ++ [0])
    let v := E.hmac k v
    (E.hmac k v, 1)
  else (E.hmac k v, 1)

/-- `eth_nonce_function_rfc6979` [ethSignature.go:73-97] with `algo` and `extradata` nil, as it is always called. The buffer has
`(counter + 1) * 32` bytes computed in `uint32`, so from `counter + 1 = 2^27` on a copy into it is out of range. `retry` is declared
anew inside the loop, so the `retry` handed to every call is the outer one. -/
def nonceFunction (msg key : Bytes) (counter : Nat) : Res Bytes :=
  if 2 ^ 32 ≤ (counter + 1) * 32 then .panic
  else
    let i := hmacInit E (fit 32 key ++ fit 32 msg)
    .ok ((List.range (counter + 1)).flatMap fun _ => (hmacGenerate E i.1 i.2.1 i.2.2).1)

/-! ### One signature -/

/-- `copy(dst, src)`. -/
def copyInto (dst src : Bytes) : Bytes := src.take dst.length ++ dst.drop src.length

/-- `eth_signatureInner` [ethSignature.go:168-213]. -/
def signatureInner (prikey hash nonce : Bytes) : Option Bytes :=
  if E.preprocess nonce = false then none
  else
    match E.sign prikey hash nonce, E.pub nonce with
    | some sig, some y =>
      let recid : UInt8 := if (y.getD 63 0) % 2 = 1 then 1 else 0
      let s := beNat (sig.drop 32)
      if s > Btc.curveOrder / 2 then
        let sByte := OwKeychain.padLoop 32 0 (OwKeychain.bigBytes ((Btc.curveOrder : Int) - s).natAbs)
        some (sig.take 32 ++ copyInto (sig.drop 32) sByte ++ [recid ^^^ 1])
      else some (sig ++ [recid])
    | _, _ => none

/-- One round of the loop of `EthSignature` [ethSignature.go:235-243]: `some` when it breaks with a signature. -/
def attempt (prikey hash : Bytes) (counter : Nat) : Res (Option Bytes) := do
  let nonce ← nonceFunction E hash prikey counter
  let over ← checkOverflow32 nonce
  let zero ← checkIsZero nonce
  if over = false ∧ zero = false then .ok (signatureInner E prikey hash nonce) else .ok none

/-- The loop of `EthSignature` [ethSignature.go:234-245]. The first test repeats the panic of `nonceFunction`, so that the recursion
ends. -/
def signLoop (prikey hash : Bytes) (counter : Nat) : Res Bytes :=
  if _h : 2 ^ 32 ≤ (counter + 1) * 32 then .panic
  else
    match attempt E prikey hash counter with
    | .panic => .panic
    | .err => .err
    | .ok (some sig) => .ok sig
    | .ok none => signLoop prikey hash (counter + 1)
termination_by 2 ^ 32 - counter
decreasing_by omega

/-- `EthSignature` [ethSignature.go:222-248], `NasSignature` and `TronSignature`. For a key out of range the return code is the zero
value of `uint16`, which is `owcrypt.FAILURE`. -/
def ethSignature (prikey hash : Bytes) : Res Bytes :=
  if hash.length ≠ 32 then .err
  else do
    let over ← checkOverflow64 prikey
    let zero ← checkIsZero prikey
    if over = false ∧ zero = false then signLoop E prikey hash 0 else .err

/-! ### The registry and `SignTxHash` -/

/-- A registered signer: `SignTransactionHash(msg, privateKey, eccType)` of an external adapter module. -/
abbrev Signer := Bytes → Bytes → Nat → Option Bytes

/-- The map `txSignerManagers` [init.go:56], for an arbitrary type of signers. -/
abbrev Registry (σ : Type) := List (Bytes × σ)

/-- `RegTxSigner` [init.go:62-73]; `up` is `strings.ToUpper`, `none` a nil manager. -/
def regTxSigner {σ : Type} (up : Bytes → Bytes) (reg : Registry σ) (name : Bytes) (manager : Option σ) : Res (Registry σ) :=
  match manager with
  | none => .panic
  | some m => if (reg.lookup (up name)).isSome then .ok reg else .ok ((up name, m) :: reg)

/-- `GetTxSigner` [init.go:76-83]. -/
def getTxSigner {σ : Type} (up : Bytes → Bytes) (reg : Registry σ) (symbol : Bytes) : Option σ := reg.lookup (up symbol)

/-- A history of registrations. -/
def regAll {σ : Type} (up : Bytes → Bytes) : Registry σ → List (Bytes × Option σ) → Res (Registry σ)
  | reg, [] => .ok reg
  | reg, (n, m) :: rest => do
    let reg ← regTxSigner up reg n m
    regAll up reg rest

/-- `strings.ToUpper` on ASCII text. -/
def asciiUpper (t : Bytes) : Bytes := t.map fun c => if 0x61 ≤ c ∧ c ≤ 0x7a then c - 0x20 else c

/-- The adapters registered by `init` [init.go:28-52]; only their identity matters. -/
inductive Adapter where
  | ddmchain | eos | ontology | futurepia | virtualeconomy | tivalue | waykichain | ripple | nulsio | moacchain | ethereum
  | bitshares | arkecosystem | rcproto
deriving DecidableEq

/-- The registrations of `init` [init.go:26-53], in order. -/
def initHistory : List (Bytes × Option Adapter) :=
  [(asc "DDM", some .ddmchain), (asc "EOS", some .eos), (asc "ONT", some .ontology), (asc "PIA", some .futurepia),
   (asc "VSYS", some .virtualeconomy), (asc "TV", some .tivalue), (asc "WICC", some .waykichain), (asc "XRP", some .ripple),
   (asc "NULS", some .nulsio), (asc "MOAC", some .moacchain), (asc "ETH", some .ethereum), (asc "TRUE", some .ethereum),
   (asc "VCC", some .ethereum), (asc "BTS", some .bitshares), (asc "BAR", some .bitshares), (asc "ARK", some .arkecosystem),
   (asc "SINOC", some .ethereum), (asc "TGC", some .eos), (asc "ABBC", some .eos), (asc "GST", some .eos),
   (asc "BETH", some .ethereum), (asc "NTN", some .ethereum), (asc "XWC", some .bitshares), (asc "RCP", some .rcproto),
   (asc "ACC", some .eos)]

/-- `ECC_CURVE_SECP256K1`. -/
def secp256k1 : Nat := 0xECC00000

/-- `SignTxHash` [signature.go:11-75]. `fold` is `strings.EqualFold`. -/
def signTxHash (up : Bytes → Bytes) (fold : Bytes → Bytes → Bool) (reg : Registry Signer)
    (symbol msg privateKey : Bytes) (eccType : Nat) : Res Bytes :=
  match getTxSigner up reg symbol with
  | some signer =>
    match signer msg privateKey eccType with
    | some sig => .ok sig
    | none => .err
  | none =>
    if fold symbol (asc "NAS") then ethSignature E privateKey msg
    else if fold symbol (asc "TRX") then ethSignature E privateKey msg
    else
      match E.signOn eccType privateKey msg with
      | none => .err
      | some sig =>
        if eccType = secp256k1 then
          if sig.length < 32 then .panic else .ok (Btc.serilizeS sig)
        else .ok sig

/-! ### `eosSignature` -/

/-- `int2octets` [randomGenerator.go:11-29]. -/
def int2octets (v rolen : Nat) : Bytes :=
  let out := OwKeychain.bigBytes v
  if out.length < rolen then List.replicate (rolen - out.length) 0 ++ out
  else if out.length > rolen then out.drop (out.length - rolen)
  else out

/-- `hashToInt` [randomGenerator.go:31-44]: the order has 256 bits, so at most 32 bytes are kept and there is nothing to shift. -/
def hashToInt (hash : Bytes) : Nat := beNat (if hash.length > 32 then hash.take 32 else hash)

/-- `bits2octets` [randomGenerator.go:46-53]. -/
def bits2octets (data : Bytes) (rolen : Nat) : Bytes :=
  let z1 := hashToInt data
  if (z1 : Int) - Btc.curveOrder < 0 then int2octets z1 rolen else int2octets (z1 - Btc.curveOrder) rolen

/-- Steps B to G of `generateRandomFromNonce` [randomGenerator.go:55-88]: the state (k, v) before the loop. `sha` is SHA-256. -/
def randomInit (sha : Bytes → Bytes) (privateKey hash : Bytes) (nonce : Nat) : Bytes × Bytes :=
  let hash := if nonce > 0 then sha (hash ++ List.replicate nonce 0) else hash
  let bx := int2octets (beNat privateKey) 32 ++ bits2octets hash 32
  let v := List.replicate 32 1
  let k := List.replicate 32 0
  let k := E.hmac k ((v ++ [0]) ++ bx)
  let v := E.hmac k v
  let k := E.hmac k ((v ++ [1]) ++ bx)
  let v := E.hmac k v
  (k, v)

/-- One round of step H [randomGenerator.go:91-108]: the candidate and the next state. The inner loop runs once, because one block
has 256 bits. -/
def randomRound (kv : Bytes × Bytes) : Nat × (Bytes × Bytes) :=
  let v := E.hmac kv.1 kv.2
  let k := E.hmac kv.1 (v ++ [0])
  (hashToInt v, (k, E.hmac k v))

/-- The state before round `i` of step H. -/
def randomState (kv : Bytes × Bytes) : Nat → Bytes × Bytes
  | 0 => kv
  | i + 1 => (randomRound E (randomState kv i)).2

/-- The test of step H3 on round `i` [randomGenerator.go:102-103]. -/
def randomOk (kv : Bytes × Bytes) (i : Nat) : Prop :=
  (randomRound E (randomState E kv i)).1 ≥ 1 ∧ (randomRound E (randomState E kv i)).1 < Btc.curveOrder

instance (kv : Bytes × Bytes) (i : Nat) : Decidable (randomOk E kv i) := by unfold randomOk; infer_instance

open Classical in
/-- The loop of step H [randomGenerator.go:91-108] from the state (k, v): it has no bound; `none` means that it does not end. -/
noncomputable def randomLoop (kv : Bytes × Bytes) : Option Bytes :=
  if h : ∃ i, randomOk E kv i then
    some (OwKeychain.bigBytes (randomRound E (randomState E kv (Nat.find h))).1)
  else none

/-- `generateRandomFromNonce` [randomGenerator.go:55-109]. -/
noncomputable def generateRandom (sha : Bytes → Bytes) (privateKey hash : Bytes) (nonce : Nat) : Option Bytes :=
  randomLoop E (randomInit E sha privateKey hash nonce)

/-- `signRFC6979` [signature.go:9-20]; a loop that does not end counts as a panic. -/
noncomputable def signRFC6979 (sha : Bytes → Bytes) (privateKey hash : Bytes) (nonce : Nat) : Res Bytes :=
  match generateRandom E sha privateKey hash nonce with
  | none => .panic
  | some k =>
    if E.preprocess k = false then .err
    else
      match E.sign privateKey hash k with
      | some sig => .ok sig
      | none => .err

/-- One round of the loop of `makeCompact` [signature.go:35-62]. -/
def makeCompactAt (sig publicKey hash : Bytes) (i : Nat) : Option Bytes :=
  match E.recover (sig ++ [UInt8.ofNat i]) hash with
  | some pk =>
    if pk = publicKey then some ((27 + UInt8.ofNat i + 4) :: (sig.take 32 ++ sig.drop 32)) else none
  | none => none

/-- `makeCompact` [signature.go:34-65]. -/
def makeCompact (sig publicKey hash : Bytes) : Option Bytes :=
  match makeCompactAt E sig publicKey hash 0 with
  | some r => some r
  | none => makeCompactAt E sig publicKey hash 1

/-- `isCanonical` [signature.go:67-74]. -/
def isCanonical (d : Bytes) : Res Bool := do
  let d1 ← index d 1
  let d2 ← index d 2
  let d33 ← index d 33
  let d34 ← index d 34
  .ok (decide (d1 &&& 0x80 = 0) && !(decide (d1 = 0) && decide (d2 &&& 0x80 = 0)) &&
    decide (d33 &&& 0x80 = 0) && !(decide (d33 = 0) && decide (d34 &&& 0x80 = 0)))

/-- The part of a round of `SignCanonical` after `signRFC6979` [signature.go:84-96]: `some` when the loop returns. -/
def canonicalRound (sig publicKey hash : Bytes) : Res (Option Bytes) :=
  match makeCompact E sig publicKey hash with
  | none => .ok none
  | some c => do
    let b ← isCanonical c
    if b then .ok (some c) else .ok none

/-- The loop of `SignCanonical` [signature.go:78-97] from round `i` with `f` rounds left. -/
noncomputable def signCanonicalLoop (sha : Bytes → Bytes) (privateKey hash : Bytes) : Nat → Nat → Res Bytes
  | 0, _ => .err
  | f + 1, i =>
    match signRFC6979 E sha privateKey hash i with
    | .panic => .panic
    | .err => .err
    | .ok sig =>
      match E.pub privateKey with
      | none => .err
      | some pk =>
        match canonicalRound E sig pk hash with
        | .panic => .panic
        | .err => .err
        | .ok (some c) => .ok c
        | .ok none => signCanonicalLoop sha privateKey hash f (i + 1)

/-- `SignCanonical` [signature.go:76-98]. -/
noncomputable def signCanonical (sha : Bytes → Bytes) (privateKey hash : Bytes) : Res Bytes :=
  signCanonicalLoop E sha privateKey hash 25 0

end Verif.SigSet
