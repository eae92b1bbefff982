import Verif.Model.Base

/-! Independent specifications for BigBang addresses and transactions. -/

namespace Verif.Spec.BigBang
open Verif

/-! ### CRC-24Q, bit by bit -/

/-- The generator polynomial without its leading term. -/
def poly : BitVec 24 := 0x864CFB#24

/-- One bit of the polynomial division. -/
def bitStep (c : BitVec 24) : BitVec 24 := if c.msb then (c <<< 1) ^^^ poly else c <<< 1

/-- `n` bits of the polynomial division. -/
def bitSteps : Nat → BitVec 24 → BitVec 24
  | 0, c => c
  | n + 1, c => bitSteps n (bitStep c)

/-- One byte of data, most significant bit first. -/
def byteStep (c : BitVec 24) (b : UInt8) : BitVec 24 := bitSteps 8 (c ^^^ (b.toBitVec.setWidth 24 <<< 16))

/-- CRC-24Q of a byte string: polynomial 0x864CFB, initial value 0. -/
def crc24 (data : Bytes) : BitVec 24 := data.foldl byteStep 0

/-! ### Addresses -/

/-- The alphabet of BigBang addresses. -/
def alphabet : Bytes := asc "0123456789abcdefghjkmnpqrstvwxyz"

/-- Symbol number `i` (most significant first) of a group of five bytes. -/
def sym5 (v i : Nat) : UInt8 := alphabet.getD (v / 32 ^ (7 - i) % 32) 0

/-- Base32 of a byte string whose length is a multiple of five. -/
def base32 : Bytes → Bytes
  | a :: b :: c :: d :: e :: rest =>
    (List.range 8).map (sym5 (beNat [a, b, c, d, e])) ++ base32 rest
  | _ => []

/-- `text` is the address of the 32-byte public key `key`: the character 1, then base32 of the key followed by its three checksum
bytes. -/
def IsAddress (key text : Bytes) : Prop :=
  key.length = 32 ∧ text = 0x31 :: base32 (key ++ beBytes 3 (crc24 key).toNat)

/-! ### Transactions -/

/-- The content of a transfer. -/
structure Tx where
  time : Nat
  lockUntil : Nat
  /-- 32 bytes, in the order of the text form -/
  anchor : Bytes
  /-- transaction id (32 bytes, in the order of the text form) and output number -/
  inputs : List (Bytes × UInt8)
  /-- 32-byte public key -/
  to_ : Bytes
  amount : Nat
  fee : Nat
  data : Bytes

/-- The fields fit the wire format. -/
def Tx.Fits (t : Tx) : Prop :=
  t.time < 2 ^ 32 ∧ t.lockUntil < 2 ^ 32 ∧ t.anchor.length = 32 ∧ t.inputs.length < 256 ∧ (∀ i ∈ t.inputs, i.1.length = 32) ∧
    t.to_.length = 32 ∧ t.amount < 2 ^ 64 ∧ t.fee < 2 ^ 64 ∧ t.data.length < 256

/-- The wire format: version 1, type 0, time, lock time, anchor, inputs with a one-byte count, destination with its kind (1, public
key), amount, fee, data with a one-byte length. Integers are little endian, hashes byte-reversed. -/
def Tx.wire (t : Tx) : Bytes :=
  [1, 0, 0, 0] ++ leBytes 4 t.time ++ leBytes 4 t.lockUntil ++ t.anchor.reverse ++
    UInt8.ofNat t.inputs.length :: (t.inputs.flatMap fun i => i.1.reverse ++ [i.2]) ++
    1 :: t.to_ ++ leBytes 8 t.amount ++ leBytes 8 t.fee ++ UInt8.ofNat t.data.length :: t.data

end Verif.Spec.BigBang
