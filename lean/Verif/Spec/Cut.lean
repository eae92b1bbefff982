import Verif.Model.Base
import Mathlib.Data.List.Forall2

/-! A transaction with witness data that ends too early. -/

namespace Verif.Spec.Cut
open Verif

/-- Signatures in front of the redeem script of a multisig witness: pushes whose content begins with 0x30, up to the first push whose content does not. -/
inductive Pushes : Bytes → Bytes → Prop
  /-- No further signature: what follows is a length and a byte other than 0x30. -/
  | stop (n x : UInt8) (rest : Bytes) : x ≠ 0x30 → Pushes [] (n :: x :: rest)
  /-- One more signature of `n` bytes. -/
  | push (n : UInt8) (body p rest : Bytes) : body.length = n.toNat → (body ++ (p ++ rest)).head? = some 0x30 → Pushes p rest →
      Pushes (n :: (body ++ p)) rest

/-- The witness belonging to an input with the unlocking script `script`. -/
inductive WitnessOf (script : Bytes) : Bytes → Prop
  /-- P2WPKH, plain or (23 bytes) inside P2SH: two items, the signature and 34 bytes for the public key. -/
  | key (n : UInt8) (s : Bytes) : script = [] ∨ script.length = 23 → s.length = n.toNat + 34 → WitnessOf script (0x02 :: n :: s)
  /-- No witness program: no items. -/
  | none : script ≠ [] → script.length ≠ 23 → script.length ≠ 35 → WitnessOf script [0x00]
  /-- P2WSH inside P2SH (35 bytes), multisig: an empty item, signatures, and the redeem script, which ends with OP_CHECKMULTISIG. -/
  | multi (p : Bytes) (n : UInt8) (redeem : Bytes) : script.length = 35 → redeem.length = n.toNat → redeem.getLast? = some 0xae →
      Pushes p (n :: redeem) → WitnessOf script (0x04 :: 0x00 :: (p ++ n :: redeem))

/-- An input: 36 bytes of the output spent, the unlocking script, four bytes of sequence number. -/
structure In where
  prev : Bytes
  script : Bytes
  sequence : Bytes

/-- Lengths of the parts of an input. -/
def In.Ok (i : In) : Prop := i.prev.length = 36 ∧ i.script.length ≤ 108 ∧ i.sequence.length = 4

def In.ser (i : In) : Bytes := i.prev ++ (UInt8.ofNat i.script.length :: (i.script ++ i.sequence))

/-- An output: eight bytes of amount and a locking script of 1 to 255 bytes. -/
structure Out where
  amount : Bytes
  script : Bytes

def Out.Ok (o : Out) : Prop := o.amount.length = 8 ∧ 0 < o.script.length ∧ o.script.length < 256

def Out.ser (o : Out) : Bytes := o.amount ++ (UInt8.ofNat o.script.length :: o.script)

/-- The beginning of a transaction of version `v` with witness data: marker, inputs, outputs, the witnesses of the inputs `before`, and of the
witness of the next one, a multisig input, only the number of its items. -/
def CutWitness (v : Nat) (b : Bytes) : Prop :=
  ∃ (version : Bytes) (before : List In) (i : In) (after : List In) (outs : List Out) (ws : List Bytes),
    version.length = 4 ∧ leNat version = v ∧
    (∀ j ∈ before ++ i :: after, j.Ok) ∧ (before ++ i :: after).length < 256 ∧
    (∀ o ∈ outs, o.Ok) ∧ outs ≠ [] ∧ outs.length < 256 ∧
    i.script.length = 35 ∧ List.Forall₂ (fun j w => WitnessOf j.script w) before ws ∧
    b = version ++ ([0x00, 0x01] ++ (UInt8.ofNat (before ++ i :: after).length :: (((before ++ i :: after).map In.ser).flatten ++
      (UInt8.ofNat outs.length :: ((outs.map Out.ser).flatten ++ (ws.flatten ++ [0x04]))))))

end Verif.Spec.Cut
