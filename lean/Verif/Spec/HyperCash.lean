import Verif.Spec.Btc

/-! Independent specification of HyperCash transactions (the Decred format: prefix and witness are serialised and hashed separately). -/

namespace Verif.Spec.HyperCash
open Verif Verif.Spec

/-- An input: id of the transaction it spends (in the order of the text form) and output number; amount, block height and position in the
block of the spent output; script of the spent output. -/
structure In where
  txid : Bytes
  vout : Nat
  amount : Nat
  height : Nat
  blockIndex : Nat
  lock : Bytes

/-- An output: amount and script. -/
structure Out where
  amount : Nat
  script : Bytes

/-- The content of a transaction. -/
structure Tx where
  ins : List In
  outs : List Out
  lockTime : Nat
  expiry : Nat

/-- Prefix of an input: id, output number, tree 0 (regular), sequence. -/
def inWire (i : In) : Bytes := i.txid.reverse ++ leBytes 4 i.vout ++ [0] ++ [0xff, 0xff, 0xff, 0xff]

/-- An output: amount, script version 0, script. -/
def outWire (o : Out) : Bytes := leBytes 8 o.amount ++ [0, 0] ++ varBytes o.script

/-- The prefix part: version 1 and serialisation type (0: with witness, 1: without), inputs, outputs, lock time, expiry. -/
def Tx.body (t : Tx) (ser : Nat) : Bytes :=
  [1, 0] ++ leBytes 2 ser ++ compactSize t.ins.length ++ t.ins.flatMap inWire ++ compactSize t.outs.length ++ t.outs.flatMap outWire ++
    leBytes 4 t.lockTime ++ leBytes 4 t.expiry

/-- What input `k` signs of the witness: version 1 and serialisation type 3, the script it spends in place `k`, empty scripts elsewhere. -/
def Tx.witnessSigning (t : Tx) (k : Nat) : Bytes :=
  [1, 0, 3, 0] ++ compactSize t.ins.length ++ (t.ins.mapIdx fun j i => if j = k then varBytes i.lock else [0]).flatten

/-- The hash input `k` signs: hash type 1 (all), hash of the prefix, hash of the witness. -/
def Tx.sigHash (hash : Bytes → Bytes) (t : Tx) (k : Nat) : Bytes := hash (leBytes 4 1 ++ hash (t.body 1) ++ hash (t.witnessSigning k))

/-- Value part of the witness of an input. -/
def valueWire (i : In) : Bytes := leBytes 8 i.amount ++ leBytes 4 i.height ++ leBytes 4 i.blockIndex

/-- The script unlocking an output that pays to the hash of `pub`: DER form of the 64-byte signature with hash type 1, and the key. -/
def IsUnlock (sig pub out : Bytes) : Prop :=
  ∃ R S, IsDerInt R (beNat (sig.take 32)) ∧ IsDerInt S (beNat (sig.drop 32)) ∧ out = push (derSig R S ++ [1]) ++ push pub

/-- A receiver: Base58 text of the prefix 097f, 20 bytes and the first four bytes of the twice applied hash. -/
def IsAddress (hash : Bytes → Bytes) (alph h text : Bytes) : Prop :=
  h.length = 20 ∧ IsBase58 alph ([0x09, 0x7f] ++ h ++ (hash (hash ([0x09, 0x7f] ++ h))).take 4) text

end Verif.Spec.HyperCash
