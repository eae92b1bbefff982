import Verif.Spec.Btc

/-! Independent specification of Verge transactions (the Bitcoin format with a time after the version) and Vollar transactions (a flag after
the version and in the outputs, a 32-byte field at the end of each output, zero fields at the end). -/

namespace Verif.Spec.Verge
open Verif Verif.Spec

/-- An input: id of the transaction it spends (in the order of the text form), output number, script of the spent output. -/
structure In where
  txid : Bytes
  vout : Nat
  lock : Bytes

/-- An output: amount and script. -/
structure Out where
  amount : Nat
  script : Bytes

/-- The content of a Verge transaction. -/
structure Tx where
  time : Nat
  ins : List In
  outs : List Out
  lockTime : Nat

/-- An input with its unlocking script and the final sequence number. -/
def inWire (i : In) (script : Bytes) : Bytes := i.txid.reverse ++ leBytes 4 i.vout ++ varBytes script ++ [0xff, 0xff, 0xff, 0xff]

/-- An output of a Verge transaction. -/
def outWire (o : Out) : Bytes := leBytes 8 o.amount ++ varBytes o.script

/-- A Verge transaction of version 1 with the given unlocking scripts. -/
def Tx.wire (t : Tx) (scripts : List Bytes) : Bytes :=
  leBytes 4 1 ++ leBytes 4 t.time ++ compactSize t.ins.length ++ (List.zipWith inWire t.ins scripts).flatten ++
    compactSize t.outs.length ++ t.outs.flatMap outWire ++ leBytes 4 t.lockTime

/-- The transaction before signing. -/
def Tx.unsigned (t : Tx) : Bytes := t.wire (t.ins.map fun _ => [])

/-- What input `k` signs: the transaction with the script it spends in place `k` and empty scripts elsewhere, and the signature type 1. -/
def Tx.preimage (t : Tx) (k : Nat) : Bytes := t.wire (t.ins.mapIdx fun j i => if j = k then i.lock else []) ++ leBytes 4 1

/-- The content of a Vollar transaction. -/
structure VTx where
  ins : List In
  outs : List Out

/-- An output of a Vollar transaction. -/
def voutWire (o : Out) : Bytes := leBytes 8 o.amount ++ [0] ++ varBytes o.script ++ List.replicate 32 0

/-- The inputs and outputs of a Vollar transaction of version 1 with the given unlocking scripts. -/
def VTx.body (t : VTx) (scripts : List Bytes) : Bytes :=
  leBytes 4 1 ++ [0] ++ compactSize t.ins.length ++ (List.zipWith inWire t.ins scripts).flatten ++
    compactSize t.outs.length ++ t.outs.flatMap voutWire

/-- The transaction before signing. -/
def VTx.unsigned (t : VTx) : Bytes := t.body (t.ins.map fun _ => [])

/-- The transaction with its unlocking scripts: one zero byte per input and 82 more follow the outputs. -/
def VTx.signed (t : VTx) (scripts : List Bytes) : Bytes := t.body scripts ++ List.replicate (82 + t.ins.length) 0

/-- What an input signs: hashes of all outpoints, all sequence numbers and all outputs; hashes of shielded spends and shielded outputs (none),
lock time, expiry height and value balance (zero); signature type 1; outpoint, script and sequence number of the input. -/
def VTx.preimage (hash : Bytes → Bytes) (t : VTx) (i : In) : Bytes :=
  hash (t.ins.flatMap fun i => i.txid.reverse ++ leBytes 4 i.vout) ++ hash (t.ins.flatMap fun _ => [0xff, 0xff, 0xff, 0xff]) ++
    hash (t.outs.flatMap voutWire) ++ List.replicate 32 0 ++ List.replicate 32 0 ++ leBytes 4 0 ++ leBytes 4 0 ++ leBytes 8 0 ++
    leBytes 4 1 ++ i.txid.reverse ++ leBytes 4 i.vout ++ varBytes i.lock ++ [0xff, 0xff, 0xff, 0xff]

/-- The address text stands for the output script: Base58Check text of a 20-byte hash under the prefix of key hashes or script hashes. -/
def IsDest (H : Hashes) (alph keyPrefix scriptPrefix address script : Bytes) : Prop :=
  ∃ h, h.length = 20 ∧ ((IsBase58Check H alph keyPrefix h address ∧ script = p2pkhScript h) ∨
    (IsBase58Check H alph scriptPrefix h address ∧ script = p2shScript h))

/-- The script unlocking an output that pays to the hash of `pub`: DER form of the 64-byte signature with hash type 1, and the key. -/
def IsUnlock (sig pub out : Bytes) : Prop :=
  ∃ R S, IsDerInt R (beNat (sig.take 32)) ∧ IsDerInt S (beNat (sig.drop 32)) ∧ out = push (derSig R S ++ [1]) ++ push pub

end Verif.Spec.Verge
