import Verif.Model.SignatureSet

/-! Several signers of packages `signatureSet` and `eosSignature` at work at the same time.

`go-owcrypt` keeps the external nonce of a signature in one variable of the process: `PreprocessRandomNum` writes it and
`Signature(..., NOUNCE_OUTSIDE_FLAG)`, which has no argument for the nonce, uses it. This file models a call of a signing function as the sequence of its
operations on that variable, and a process as several such calls interleaved in any way. Simplifications: each of the two library calls is one atomic step,
and a nonce that `PreprocessRandomNum` refuses leaves the variable as it was. Everything between two of these calls works on local data and is part of the
step before it. -/

namespace Verif.SignConc
open Verif Verif.SigSet

/-- A call that has not returned yet: what it does next to the variable of the library, and how it goes on. -/
inductive Call where
  | done (r : Res Bytes)
  | set (nonce : Bytes) (k : Bool → Call)
  | sign (key hash : Bytes) (k : Option Bytes → Call)

/-- The state of the process: the variable of the library, and the calls. -/
structure World where
  cell : Bytes
  calls : List Call

variable (E : Ec)

/-- The next operation of one call: `PreprocessRandomNum` [signatureSet/ethSignature.go:171; eosSignature/signature.go:12] and `Signature` with the nonce from outside
[ethSignature.go:178; signature.go:15]. -/
def next (cell : Bytes) : Call → Bytes × Call
  | .done r => (cell, .done r)
  | .set nonce k => if E.preprocess nonce then (nonce, k true) else (cell, k false)
  | .sign key hash k => (cell, k (E.sign key hash cell))

/-- The scheduler lets call `i` do one operation. -/
def step (w : World) (i : Nat) : World :=
  match w.calls[i]? with
  | none => w
  | some c => { cell := (next E w.cell c).1, calls := w.calls.set i (next E w.cell c).2 }

/-- A whole schedule. -/
def run (w : World) (schedule : List Nat) : World := schedule.foldl (step E) w

/-- What `eth_signatureInner` returns from the result of `Signature` [signatureSet/ethSignature.go:179-213]; the recovery bit is taken from the local `nounce`. -/
def finish (nonce : Bytes) : Option Bytes → Option Bytes
  | none => none
  | some sig =>
    match E.pub nonce with
    | none => none
    | some y =>
      let recid : UInt8 := if (y.getD 63 0) % 2 = 1 then 1 else 0
      let s := beNat (sig.drop 32)
      if s > Btc.curveOrder / 2 then
        let sByte := OwKeychain.padLoop 32 0 (OwKeychain.bigBytes ((Btc.curveOrder : Int) - s).natAbs)
        some (sig.take 32 ++ copyInto (sig.drop 32) sByte ++ [recid ^^^ 1])
      else some (sig ++ [recid])

/-- The nonce of one round of `EthSignature`, if the round tries one [signatureSet/ethSignature.go:235-239]. -/
def roundNonce (prikey hash : Bytes) (counter : Nat) : Res (Option Bytes) := do
  let nonce ← nonceFunction E hash prikey counter
  let over ← checkOverflow32 nonce
  let zero ← checkIsZero nonce
  if over = false ∧ zero = false then .ok (some nonce) else .ok none

/-- The loop of `EthSignature` [signatureSet/ethSignature.go:234-245] with `eth_signatureInner` [168-213]. -/
def ethLoop (prikey hash : Bytes) (counter : Nat) : Call :=
  if _h : 2 ^ 32 ≤ (counter + 1) * 32 then .done .panic
  else
    match roundNonce E prikey hash counter with
    | .panic => .done .panic
    | .err => .done .err
    | .ok none => ethLoop prikey hash (counter + 1)
    | .ok (some nonce) => .set nonce fun ok =>
        if ok then .sign prikey hash fun sig =>
          match finish E nonce sig with
          | some r => .done (.ok r)
          | none => ethLoop prikey hash (counter + 1)
        else ethLoop prikey hash (counter + 1)
termination_by 2 ^ 32 - counter
decreasing_by all_goals omega

/-- A call of `EthSignature` [signatureSet/ethSignature.go:222-248], `NasSignature`, `TronSignature` or `IcxSignature`. -/
def ethCall (prikey hash : Bytes) : Call :=
  if hash.length ≠ 32 then .done .err
  else
    match checkOverflow64 prikey, checkIsZero prikey with
    | .ok over, .ok zero => if over = false ∧ zero = false then ethLoop E prikey hash 0 else .done .err
    | _, _ => .done .panic

/-- The loop of `SignCanonical` [eosSignature/signature.go:78-97] with `signRFC6979` [9-20]. -/
noncomputable def eosLoop (sha : Bytes → Bytes) (privateKey hash : Bytes) : Nat → Nat → Call
  | 0, _ => .done .err
  | f + 1, i =>
    match generateRandom E sha privateKey hash i with
    | none => .done .panic
    | some nonce => .set nonce fun ok =>
        if ok then .sign privateKey hash fun sig =>
          match sig with
          | none => .done .err
          | some sig =>
            match E.pub privateKey with
            | none => .done .err
            | some pk =>
              match canonicalRound E sig pk hash with
              | .panic => .done .panic
              | .err => .done .err
              | .ok (some c) => .done (.ok c)
              | .ok none => eosLoop sha privateKey hash f (i + 1)
        else .done .err

/-- A call of `SignCanonical` [eosSignature/signature.go:76-98]. -/
noncomputable def eosCall (sha : Bytes → Bytes) (privateKey hash : Bytes) : Call := eosLoop E sha privateKey hash 25 0

end Verif.SignConc
