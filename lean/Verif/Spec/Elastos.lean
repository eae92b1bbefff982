import Verif.Spec.Btc

/-! Independent specification of Elastos transfers. -/

namespace Verif.Spec.Elastos
open Verif

/-- Unsigned integer in groups of seven bits, least significant first, the top bit marking that more follows. -/
def uvarint (n : Nat) : Bytes :=
  if n < 128 then [UInt8.ofNat n] else UInt8.ofNat (n % 128 + 128) :: uvarint (n / 128)
termination_by n
decreasing_by omega

/-- The elements of a list without repetitions, each at the place of its first use. -/
def firstUse {α : Type} [DecidableEq α] : List α → List α
  | [] => []
  | a :: l => a :: (firstUse l).filter (· ≠ a)

/-- An output: asset id (in the order of the text form), amount, 20-byte hash of the receiver's program. -/
structure Out where
  asset : Bytes
  amount : Nat
  hash : Bytes

/-- The content of a transfer; inputs are transaction id (in the order of the text form) and output number. -/
structure Tx where
  inputs : List (Bytes × Nat)
  outputs : List Out

/-- The fields fit the wire format. -/
def Tx.Fits (t : Tx) : Prop :=
  (∀ i ∈ t.inputs, i.1.length = 32 ∧ i.2 < 2 ^ 16) ∧ ∀ o ∈ t.outputs, o.asset.length = 32 ∧ o.amount < 2 ^ 64 ∧ o.hash.length = 20

/-- Wire format of an input: id, output number, sequence. -/
def inWire (i : Bytes × Nat) : Bytes := i.1.reverse ++ leBytes 2 i.2 ++ [0xff, 0xff, 0xff, 0xff]

/-- Wire format of an output: asset, amount, output lock 0, program hash with prefix 0x21. -/
def outWire (o : Out) : Bytes := o.asset.reverse ++ leBytes 8 o.amount ++ [0, 0, 0, 0] ++ 0x21 :: o.hash

/-- Wire format of an unsigned transfer: type 2, payload version 0, no attributes, inputs, outputs, lock time 0. -/
def Tx.wire (t : Tx) : Bytes :=
  [2, 0, 0] ++ uvarint t.inputs.length ++ t.inputs.flatMap inWire ++ uvarint t.outputs.length ++ t.outputs.flatMap outWire ++ [0, 0, 0, 0]

/-- Wire format of one signature by one key: the script that pushes the signature, the script that checks it against the key. -/
def sigWire (pub sig : Bytes) : Bytes := [0x41, 0x40] ++ sig ++ [0x23, 0x21] ++ pub ++ [0xac]

end Verif.Spec.Elastos
