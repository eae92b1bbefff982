import Verif.Model.Base

/-!
The BCH checksum shared (with different constants) by `addressEncoder/bech32/bech32.go`,
`addressEncoder/bech32m/bech32m.go` and `addressEncoder/base32PolyMod/base32PolyMod.go`.

Simplification: `c` (uint32, int, int64 respectively) is a natural number; it stays below 2^40 because all
symbols fed to it are below 32, so neither wrap-around nor sign extension of `int8` symbols is ever visible.
-/

namespace Verif.PolyMod
open Verif

/-- Conditional xor of the generators selected by the bits of `c0`, starting with bit `i`
[bech32.go:95-248, bech32m.go:31-37, base32PolyMod.go:41-55]. -/
def addGens (c0 : Nat) : Nat → List Nat → Nat → Nat
  | _, [], c => c
  | i, g :: gs, c => addGens c0 (i + 1) gs (if c0.testBit i then c ^^^ g else c)

/-- The constants of one code: `shift` is 25 (30-bit checksum) or 35 (40-bit checksum). -/
structure Code where
  shift : Nat
  gens : List Nat

/-- One iteration of the checksum loop [bech32.go:91-248, bech32m.go:29-37, base32PolyMod.go:39-55]. -/
def step (k : Code) (c v : Nat) : Nat :=
  addGens (c >>> k.shift) 0 k.gens (((c &&& (2 ^ k.shift - 1)) <<< 5) ^^^ v)

/-- The loop from a given state. -/
def run (k : Code) (c : Nat) (vs : List Nat) : Nat := vs.foldl (step k) c

/-- Constants of bech32/bech32m [bech32.go:93-247, bech32m.go:23,29-30]. -/
def bech32Code : Code := ⟨25, [0x3b6a57b2, 0x26508e6d, 0x1ea119fa, 0x3d4233dd, 0x2a1462b3]⟩

/-- Constants of cashaddr [base32PolyMod.go:39-54]. -/
def cashCode : Code := ⟨35, [0x98f2bc8e61, 0x79b76d99e2, 0xf33e5fb3c4, 0xae2eabe2a8, 0x1e4f43e470]⟩

/-- Split a checksum into `n` 5-bit symbols, most significant first
[bech32.go:273-275, bech32m.go:76-78, base32PolyMod.go:69-71]. -/
def symbolsOf (n m : Nat) : List Nat := (List.range n).map (fun i => (m >>> (5 * (n - 1 - i))) &&& 0x1f)

end Verif.PolyMod
