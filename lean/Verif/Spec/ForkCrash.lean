import Verif.Spec.InsertCrash

/-! Unlocking data with which hashing a transaction of Bitcoin Cash or Bitcoin SV crashes. -/

namespace Verif.Spec.ForkCrash
open Verif.Spec Verif.Spec.InsertCrash

/-- A script that starts like a multisig script: `m`, keys of 33 bytes, each with its length, and their number as a byte, which is at least `m` and not read as
the length of a key. -/
def ReadsMultisig (r : Bytes) : Prop :=
  ∃ (m : Nat) (keys : List Bytes) (tail : Bytes), 1 ≤ m ∧ m ≤ 16 ∧ (∀ k ∈ keys, k.length = 33) ∧ m ≤ keys.length % 256 ∧ (0x50 + keys.length) % 256 ≠ 0x21 ∧
    r = [UInt8.ofNat (0x50 + m)] ++ (keys.map push).flatten ++ [UInt8.ofNat (0x50 + keys.length)] ++ tail

/-- The unlocking data gives a record: hash type 0x41, an output of a key hash, or of a script whose redeem script is a program of a key, with an amount, or a multisig
script, with an amount if witnesses are on; if they are off, the transaction must not be one with witnesses. -/
def Recorded (segwitOn witness : Bool) (u : Btc.TxUnlock) : Prop :=
  u.sigType = 0x41 ∧
  ((u.amount ≠ 0 ∧ ∃ s, Opens false true u .p2pkh s ∨ Opens false true u .p2wpkh s) ∨
    ∃ s, Opens false true u .multi s ∧ ReadsMultisig s ∧ (segwitOn = true → u.amount ≠ 0) ∧ (segwitOn = false → witness = false))

/-- The unlocking data crashes: hash type 0x41, an amount, and a witness program of a key. -/
def Program (u : Btc.TxUnlock) : Prop := u.sigType = 0x41 ∧ u.amount ≠ 0 ∧ ∃ s, Opens false true u .bech32 s

end Verif.Spec.ForkCrash
