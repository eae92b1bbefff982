import Verif.Model.Base

/-! Deterministic nonces of RFC 6979, section 3.2, for a group of order `q` with 256 bits and HMAC with 32-byte output. Written from
the RFC, independently of the modelled code. -/

namespace Verif.Spec.Rfc6979
open Verif

/-- The order of secp256k1. -/
def q : Nat := 2 ^ 256 - 432420386565659656852420866394968145599

variable (hmac : Bytes → Bytes → Bytes)

/-- int2octets(x) || bits2octets(h1). -/
def seed (x : Nat) (h1 : Bytes) : Bytes := beBytes 32 x ++ beBytes 32 (beNat (h1.take 32) % q)

/-- (K, V) after steps b to g. -/
def start (bx : Bytes) : Bytes × Bytes :=
  let V0 := List.replicate 32 1
  let K1 := hmac (List.replicate 32 0) (V0 ++ 0 :: bx)
  let V1 := hmac K1 V0
  let K2 := hmac K1 (V1 ++ 1 :: bx)
  (K2, hmac K2 V1)

/-- The block T produced from (K, V) in step h.2. -/
def block (kv : Bytes × Bytes) : Bytes := hmac kv.1 kv.2

/-- (K, V) after a rejected block, step h.3. -/
def reject (kv : Bytes × Bytes) : Bytes × Bytes :=
  let V := block hmac kv
  let K := hmac kv.1 (V ++ [0])
  (K, hmac K V)

/-- (K, V) after `i` rejected blocks. -/
def state (bx : Bytes) : Nat → Bytes × Bytes
  | 0 => start hmac bx
  | i + 1 => reject hmac (state bx i)

/-- The `i`-th block. -/
def candidate (bx : Bytes) (i : Nat) : Bytes := block hmac (state hmac bx i)

/-- `1 ≤ k < q`. -/
def InRange (k : Nat) : Prop := 1 ≤ k ∧ k < q

/-- `k` is the nonce for the material `bx`: the value of the first block in range. -/
def IsNonce (bx : Bytes) (k : Nat) : Prop :=
  ∃ i, beNat (candidate hmac bx i) = k ∧ InRange k ∧ ∀ j < i, ¬ InRange (beNat (candidate hmac bx j))

end Verif.Spec.Rfc6979
