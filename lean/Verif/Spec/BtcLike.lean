import Verif.Spec.Btc

/-! Specification vocabulary for segregated witness transactions, written from BIP 141, BIP 143 and BIP 144. Independent of the model's
helpers. -/

namespace Verif.Spec
open Verif

/-- A stack of byte strings behind its size. -/
def stackBytes (s : List Bytes) : Bytes := compactSize s.length ++ (s.map varBytes).flatten

/-- The serialisation of a transaction with witness data: marker and flag behind the version, one stack for each input in front of the lock time. -/
def RawTx.serWitness (t : RawTx) (sts : List (List Bytes)) : Bytes :=
  leBytes 4 t.version ++ [0x00, 0x01] ++ compactSize t.ins.length ++ (t.ins.map RawIn.ser).flatten ++
    compactSize t.outs.length ++ (t.outs.map RawOut.ser).flatten ++ (sts.map stackBytes).flatten ++ leBytes 4 t.lockTime

/-- A transaction with 1 to 252 inputs and outputs, scripts of at most 252 bytes and transaction ids of 32 bytes. -/
structure Small (t : RawTx) : Prop where
  insPos : 1 ≤ t.ins.length
  insLt : t.ins.length < 253
  outsPos : 1 ≤ t.outs.length
  outsLt : t.outs.length < 253
  ins : ∀ i ∈ t.ins, i.prev.length = 32 ∧ i.script.length < 253
  outs : ∀ o ∈ t.outs, o.script.length < 253

/-- Outputs that one key can spend: pay to public key hash, pay to witness public key hash nested in a script hash, and the same not nested.
`h` is what the script contains, `k` the hash of the key. -/
inductive KeyOutput where
  | keyHash (h : Bytes)
  | nested (h k : Bytes)
  | native (k : Bytes)

/-- All hashes have 20 bytes. -/
def KeyOutput.Ok : KeyOutput → Prop
  | .keyHash h => h.length = 20
  | .nested h k => h.length = 20 ∧ k.length = 20
  | .native k => k.length = 20

/-- The locking script. -/
def KeyOutput.lock : KeyOutput → Bytes
  | .keyHash h => p2pkhScript h
  | .nested h _ => p2shScript h
  | .native k => witnessV0Script k

/-- What is hashed to sign input `k` of a transaction that spends such an output of this value. -/
def KeyOutput.preimage (hash : Bytes → Bytes) (t : RawTx) (k : Nat) (i : RawIn) (value : Nat) : KeyOutput → Bytes
  | .keyHash h => legacyPreimage t k (p2pkhScript h)
  | .nested _ h => bip143Preimage hash t i (p2pkhScript h) value
  | .native h => bip143Preimage hash t i (p2pkhScript h) value

/-- Whether the signature belongs in the witness. -/
def KeyOutput.isWitness : KeyOutput → Bool
  | .keyHash _ => false
  | _ => true

/-- The unlocking script and the witness stack: `sig` is the DER signature with its type. -/
def KeyOutput.script (sig pub : Bytes) : KeyOutput → Bytes
  | .keyHash _ => push sig ++ push pub
  | .nested _ k => push (witnessV0Script k)
  | .native _ => []
def KeyOutput.stack (sig pub : Bytes) : KeyOutput → List Bytes
  | .keyHash _ => []
  | _ => [sig, pub]

/-- `der` is the DER form of the 64-byte signature (r and s in big-endian order), followed by the type SIGHASH_ALL. -/
def IsSigAll (sig der : Bytes) : Prop :=
  ∃ R S, IsDerInt R (beNat (sig.take 32)) ∧ IsDerInt S (beNat (sig.drop 32)) ∧ der = derSig R S ++ [0x01]

/-- How one input is spent: the output, its value, signature and key. -/
structure Spend where
  out : KeyOutput
  value : Nat
  sig : Bytes
  pub : Bytes
  der : Bytes

/-- Sizes of signature and key, and `der` is the canonical form of the signature; r and s are not zero, and for outputs that need a witness
they are at least 2^247. -/
structure Spend.Good (s : Spend) : Prop where
  sig : s.sig.length = 64
  pub : s.pub.length = 33
  der : IsSigAll s.sig s.der
  rPos : beNat (s.sig.take 32) ≠ 0
  sPos : beNat (s.sig.drop 32) ≠ 0
  wide : s.out.isWitness = true → 2 ^ 247 ≤ beNat (s.sig.take 32) ∧ 2 ^ 247 ≤ beNat (s.sig.drop 32)

/-- The transaction with the unlocking scripts of its inputs. -/
def RawTx.withScripts (t : RawTx) (scripts : List Bytes) : RawTx :=
  { t with ins := List.zipWith (fun i s => { i with script := s }) t.ins scripts }

/-- The serialisation of the transaction whose inputs are spent in this way; there is witness data only if some output needs it. -/
def RawTx.spend (t : RawTx) (l : List Spend) : Bytes :=
  let signed := t.withScripts (l.map fun s => s.out.script s.der s.pub)
  if l.any (fun s => s.out.isWitness) then signed.serWitness (l.map fun s => s.out.stack s.der s.pub) else signed.ser

/-- `low` is the signature `sig` with the smaller of s and n - s in place of s, where n is the order of the group. -/
structure IsLowS (n : Nat) (sig low : Bytes) : Prop where
  length : low.length = 64
  r : low.take 32 = sig.take 32
  s : beNat (low.drop 32) = min (beNat (sig.drop 32)) (n - beNat (sig.drop 32))

/-- A transaction with one input spent with signatures and the script they satisfy, for an output that names the hash of the script's version 0
witness program: the unlocking script pushes the program, the witness stack is an empty entry (for the entry CHECKMULTISIG drops), the signatures,
the script. -/
def RawTx.spendMulti (sha256 : Bytes → Bytes) (t : RawTx) (sigs : List Bytes) (script : Bytes) : Bytes :=
  (t.withScripts [push (witnessV0Script (sha256 script))]).serWitness [[] :: sigs ++ [script]]

end Verif.Spec
