import Verif.Spec.Bch

/-! Texts with a human readable prefix and a data part of 32 symbols, as in BIP 173 and in the cashaddr specification. -/

namespace Verif.Spec.Bech32Lang

/-- The 32 symbols: "qpzry9x8gf2tvdw0s3jn54khce6mua7l". -/
def alphabet : List UInt8 := "qpzry9x8gf2tvdw0s3jn54khce6mua7l".toUTF8.toList

/-- A small letter. -/
def Small (c : UInt8) : Prop := 97 ≤ c.toNat ∧ c.toNat ≤ 122

/-- A capital letter. -/
def Capital (c : UInt8) : Prop := 65 ≤ c.toNat ∧ c.toNat ≤ 90

/-- A digit. -/
def Digit (c : UInt8) : Prop := 48 ≤ c.toNat ∧ c.toNat ≤ 57

instance (c : UInt8) : Decidable (Small c) := by unfold Small; infer_instance
instance (c : UInt8) : Decidable (Capital c) := by unfold Capital; infer_instance
instance (c : UInt8) : Decidable (Digit c) := by unfold Digit; infer_instance

/-- `c` is written for the symbol number `v`: it is that character of the alphabet, or the capital letter belonging to it. -/
def Symbol (c : UInt8) (v : Nat) : Prop :=
  alphabet[v]? = some c ∨ (Capital c ∧ alphabet[v]? = some (c + 32))

instance (c : UInt8) (v : Nat) : Decidable (Symbol c v) := by unfold Symbol; infer_instance

/-- `t` is made of a prefix of letters, the separator and the data part. -/
def Separated (sep : UInt8) (t pre data : List UInt8) : Prop :=
  pre ≠ [] ∧ (∀ c ∈ pre, Small c ∨ Capital c) ∧ t = pre ++ sep :: data

/-- `t` has no separator; one letter or digit stands before the data part. -/
def Unseparated (sep : UInt8) (t data : List UInt8) : Prop :=
  sep ∉ t ∧ ∃ x, (Small x ∨ Capital x ∨ Digit x) ∧ t = x :: data

/-- Small and capital letters are not mixed. -/
def OneCase (t : List UInt8) : Prop := (∀ c ∈ t, ¬ Small c) ∨ (∀ c ∈ t, ¬ Capital c)

/-- `c` is the character `d`, or the capital letter belonging to it. -/
def SameLetter (c d : UInt8) : Prop := c = d ∨ (Capital c ∧ d = c + 32)

instance (c d : UInt8) : Decidable (SameLetter c d) := by unfold SameLetter; infer_instance

/-- The number written by symbols, most significant first. -/
def number (vs : List Nat) : Nat := vs.foldl (fun n v => 32 * n + v) 0

end Verif.Spec.Bech32Lang
