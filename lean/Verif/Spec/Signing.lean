import Verif.Model.Btc

/-! What a user assumes of the elliptic curve library when signing with a key: nothing here is about the packages. -/

namespace Verif.Spec
open Verif

/-- `sign key hash` and the 33-byte public key `pub key` belong to an ECDSA scheme of order `n` whose public side is `C`: a signature is two
32-byte numbers r and s, not zero, s below the order; it verifies under the key's point for the hash signed; and with s it is n - s that
verifies. -/
structure Ecdsa (C : Btc.Curve) (n : Nat) (sign : Bytes → Bytes → Option Bytes) (pub : Bytes → Bytes) : Prop where
  size : ∀ k h s, sign k h = some s → s.length = 64
  r_pos : ∀ k h s, sign k h = some s → beNat (s.take 32) ≠ 0
  s_pos : ∀ k h s, sign k h = some s → beNat (s.drop 32) ≠ 0
  s_lt : ∀ k h s, sign k h = some s → beNat (s.drop 32) < n
  pub_size : ∀ k h s, sign k h = some s → (pub k).length = 33
  correct : ∀ k h s, sign k h = some s → ∃ p0 p, C.decompress (pub k) = p0 :: p ∧ C.verify p h s = true
  negate : ∀ p h s s', C.verify p h s = true → s.length = 64 → s'.length = 64 → s'.take 32 = s.take 32 →
    beNat (s'.drop 32) = n - beNat (s.drop 32) → C.verify p h s' = true

/-- What ECDSA verification accepts has 64 bytes. -/
def Accepts64 (C : Btc.Curve) : Prop := ∀ p h s, C.verify p h s = true → s.length = 64

end Verif.Spec
