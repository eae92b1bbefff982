import Verif.Model.Base

/-! The primitives of the external module `go-owcrypt` (and `addressEncoder/blake256`) that the modelled code calls.
They are not part of `/repo` (blake256 excepted) and are parameters of the model. The only facts assumed about
them are the ones in the structure below: digest lengths. -/

namespace Verif

/-- Hash algorithms selected by the `owcrypt.HASH_ALG_*` constants (and `blake256.DoubleBlake256`). -/
inductive Alg where
  | sha1 | sha256 | doubleSha256 | sha512 | hash160 | ripemd160 | keccak256 | sha3_256
  | keccak256Ripemd160 | sha3_256Ripemd160 | doubleBlake256 | blake256
  | blake2b (n : Nat)
deriving DecidableEq

/-- Digest length in bytes. -/
def Alg.size : Alg → Nat
  | .sha1 | .hash160 | .ripemd160 | .keccak256Ripemd160 | .sha3_256Ripemd160 => 20
  | .sha256 | .doubleSha256 | .keccak256 | .sha3_256 | .doubleBlake256 | .blake256 => 32
  | .sha512 => 64
  | .blake2b n => n

/-- A family of hash functions with the documented digest lengths: `owcrypt.Hash(data, n, alg)`. -/
structure Hashes where
  hash : Alg → Bytes → Bytes
  size : ∀ a d, (hash a d).length = a.size

/-- A concrete (and cryptographically worthless) family, used only to show that hypotheses can be met: the digest is
the byte sum of the data, repeated. -/
def toyHashes : Hashes where
  hash a d := List.replicate a.size (d.foldl (· + ·) 7)
  size a d := by simp

end Verif
