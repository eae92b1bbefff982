import Verif.Model.Base

/-! SCALE compact integers, mortal eras and the v4 extrinsic, written from the Substrate documentation. -/

namespace Verif.Spec.Polkadot
open Verif

/-- SCALE compact decoding: the two lowest bits of the first byte select one byte, two bytes, four bytes (each little endian, the value
being the number divided by four) or the big mode, where the upper six bits give the number of following bytes minus four. Returns the
value and the remaining input. -/
def decodeCompact (b : Bytes) : Option (Nat × Bytes) :=
  match b with
  | [] => none
  | b0 :: rest =>
    if b0.toNat % 4 = 0 then some (b0.toNat / 4, rest)
    else if b0.toNat % 4 = 1 then if b.length < 2 then none else some (leNat (b.take 2) / 4, b.drop 2)
    else if b0.toNat % 4 = 2 then if b.length < 4 then none else some (leNat (b.take 4) / 4, b.drop 4)
    else if rest.length < b0.toNat / 4 + 4 then none else some (leNat (rest.take (b0.toNat / 4 + 4)), rest.drop (b0.toNat / 4 + 4))

/-- `b` is the (minimal) compact form of `v`. -/
def IsCompact (b : Bytes) (v : Nat) : Prop :=
  (∀ rest, decodeCompact (b ++ rest) = some (v, rest)) ∧
  (v < 2 ^ 6 → b.length = 1) ∧ (2 ^ 6 ≤ v → v < 2 ^ 14 → b.length = 2) ∧ (2 ^ 14 ≤ v → v < 2 ^ 30 → b.length = 4) ∧
  (2 ^ 30 ≤ v → 256 ^ (b.length - 2) ≤ v ∧ v < 256 ^ (b.length - 1))

/-- Mortal era: the two bytes are a little endian number `e`; the period is 2^(1 + e mod 16) blocks, the phase is e / 16 times the
quantisation factor max(period / 4096, 1). -/
def decodeEra (b : Bytes) : Option (Nat × Nat) :=
  if b.length = 2 then
    let e := leNat b
    let period := 2 ^ (1 + e % 16)
    let phase := e / 16 * max (period / 4096) 1
    if 4 ≤ period ∧ phase < period then some (period, phase) else none
  else none

/-- The block an era (period, phase) starts at, seen from the block `current`. -/
def birth (period phase current : Nat) : Nat := (max current phase - phase) / period * period + phase

end Verif.Spec.Polkadot
