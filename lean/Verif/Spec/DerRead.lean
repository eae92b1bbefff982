import Verif.Spec.Btc

/-! What the Bitcoin packages accept as an unlocking script of a signature and a key. -/

namespace Verif.Spec.DerRead

/-- The integers that are accepted: up to 33 bytes; of 33 bytes the first is zero or the second at least 0x80. (Canonical integers of numbers below 2^256 are among them, but also
superfluous zeros in front, none at all, and 33 bytes with any first byte.) -/
def LooseInt (X : Bytes) : Prop := X.length ≤ 33 ∧ (X.length = 33 → X[0]? = some 0 ∨ ∃ b, X[1]? = some b ∧ 0x80 ≤ b)

/-- The 32 bytes an integer is read as: its last ones, with zeros in front. -/
def word (X : Bytes) : Bytes := List.replicate (32 - X.length) 0 ++ X.drop (X.length - 32)

/-- What is read behind the integers `R` and `S` if the script has `T` there: if `R` has at least 32 bytes, the 32 bytes `S` is read as are in the place of the bytes that follow `R` (two bytes, `S`
and the first bytes of `T`, if `S` has fewer than 30). -/
def seen (R S T : Bytes) : Bytes := if R.length < 32 then T else (word S).drop (S.length + 2) ++ T.drop (30 - S.length)

end Verif.Spec.DerRead
