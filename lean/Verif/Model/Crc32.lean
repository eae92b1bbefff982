import Verif.Model.Base

/-! `addressEncoder/crc32.go`. -/

namespace Verif.Crc32
open Verif

/-- One round of the inner loop that fills the table: `if word&1 == 1 { word = (word >> 1) ^ 0xedb88320 } else { word >>= 1 }`
[addressEncoder/crc32.go:12-16]. -/
def round (word : UInt32) : UInt32 := if word &&& 1 = 1 then (word >>> 1) ^^^ 0xedb88320 else word >>> 1

/-- The inner loop `for j := 0; j < 8; j++`, with `n` rounds left [addressEncoder/crc32.go:11-17]. -/
def rounds : Nat → UInt32 → UInt32
  | 0, w => w
  | n + 1, w => rounds n (round w)

/-- `var table [256]uint32`, filled by the outer loop [addressEncoder/crc32.go:8-19]. -/
def table : List UInt32 := (List.range 256).map (fun i => rounds 8 (UInt32.ofNat i))

/-- `crc = table[byte(crc)^s[i]] ^ (crc >> 8)` [addressEncoder/crc32.go:23]; the index is a byte, so it is always in range and the default
of `getD` is never used. -/
def step (crc : UInt32) (b : UInt8) : UInt32 := table.getD (crc.toUInt8 ^^^ b).toNat 0 ^^^ (crc >>> 8)

/-- `binary.BigEndian.PutUint32` [addressEncoder/crc32.go:25]. -/
def putUint32 (v : UInt32) : Bytes := [(v >>> 24).toUInt8, (v >>> 16).toUInt8, (v >>> 8).toUInt8, v.toUInt8]

/-- `CRC32` [addressEncoder/crc32.go:7-27]. -/
def crc32 (s : Bytes) : Bytes := putUint32 (~~~ (s.foldl step (~~~ 0)))

end Verif.Crc32
