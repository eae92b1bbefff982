/-! Hexadecimal texts in small and capital letters, and the capitalisation that EIP-55 prescribes. -/

namespace Verif.Spec.Eip55

/-- The `i`-th half byte, most significant first. -/
def nibble (b : List UInt8) (i : Nat) : Nat :=
  if i % 2 = 0 then (b.getD (i / 2) 0).toNat / 16 else (b.getD (i / 2) 0).toNat % 16

/-- `c` is the hexadecimal digit `n`: '0' to '9', 'a' to 'f' or 'A' to 'F'. -/
def Spells (c : UInt8) (n : Nat) : Prop :=
  (n < 10 ∧ c.toNat = 48 + n) ∨ (10 ≤ n ∧ n < 16 ∧ (c.toNat = 87 + n ∨ c.toNat = 55 + n))

instance (c : UInt8) (n : Nat) : Decidable (Spells c n) := by unfold Spells; infer_instance

/-- `d` is a hexadecimal text of `b`, each letter small or capital. -/
def HexText (d b : List UInt8) : Prop :=
  d.length = 2 * b.length ∧ ∀ (i : Nat) (c : UInt8), d[i]? = some c → Spells c (nibble b i)

/-- The hexadecimal text of `b` in small letters. -/
def smallHex (b : List UInt8) : List UInt8 :=
  (List.range (2 * b.length)).map fun i => let n := nibble b i; UInt8.ofNat (if n < 10 then 48 + n else 87 + n)

/-- EIP-55: a letter is a capital if and only if the half byte at the same place of the Keccak-256 digest of the small letter text is at least 8. -/
def checksummed (digest b : List UInt8) : List UInt8 :=
  (List.range (2 * b.length)).map fun i =>
    let n := nibble b i; UInt8.ofNat (if n < 10 then 48 + n else if 8 ≤ nibble digest i then 55 + n else 87 + n)

end Verif.Spec.Eip55
