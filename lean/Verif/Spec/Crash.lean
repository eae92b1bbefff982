import Verif.Spec.Base58
import Verif.Spec.Bech32Lang

/-! Address texts that hold too little, and the first of a list that has a property. -/

namespace Verif.Spec.Crash
open Verif Verif.Spec Verif.Spec.Bech32Lang Verif.Spec.Bch

/-- The Base58 text of fewer than four bytes, or of fewer than `need` bytes followed by the first four bytes of their digest. -/
def ShortBase58 (alph : Bytes) (digest : Bytes → Bytes) (need : Nat) (t : Bytes) : Prop :=
  ∃ b, IsBase58 alph b t ∧ (b.length < 4 ∨ ∃ d, d.length < need ∧ b = d ++ (digest d).take 4)

/-- Empty, or a text with a correct BIP 173 checksum and without a whole byte of data: at most seven symbols, the checksum included. -/
def ShortBech32 (t : Bytes) : Prop :=
  t = [] ∨ ∃ pre d vs, (Separated 0x31 t pre d ∨ (Unseparated 0x31 t d ∧ pre = t)) ∧ OneCase t ∧ List.Forall₂ Symbol d vs ∧
    remainder bech32Gen (1 :: (hrpSymbols pre ++ vs)) = [0, 0, 0, 0, 0, 1] ∧ vs.length ≤ 7

/-- A text with a correct BIP 173 checksum and at least one whole byte of data. -/
def LongBech32 (t : Bytes) : Prop :=
  ∃ pre d vs, (Separated 0x31 t pre d ∨ (Unseparated 0x31 t d ∧ pre = t)) ∧ OneCase t ∧ List.Forall₂ Symbol d vs ∧
    remainder bech32Gen (1 :: (hrpSymbols pre ++ vs)) = [0, 0, 0, 0, 0, 1] ∧ 8 ≤ vs.length

/-- One of the list is `bad`, and all before it are `good`. -/
def FirstBad {α : Type} (good bad : α → Prop) (l : List α) : Prop :=
  ∃ before x after, l = before ++ x :: after ∧ (∀ w ∈ before, good w) ∧ bad x

/-- A signature whose numbers r (the first 32 bytes) and s (the rest) cannot both be written as DER integers without leading zeros: one of them is
missing or has nothing but zeros. -/
def Unwritable (sig : Bytes) : Prop :=
  sig.length < 32 ∨ (∀ x ∈ sig.take 32, x = 0) ∨ (sig.length ≤ 64 ∧ ∀ x ∈ sig.drop 32, x = 0)

end Verif.Spec.Crash
