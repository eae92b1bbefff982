import Verif.Model.Base

/-! Go standard library `encoding/hex`, used throughout the repository to turn raw transactions into text. -/

namespace Verif.Hex
open Verif

/-- Lower-case hex digit of a nibble (`hextable` of encoding/hex). -/
def digit (n : UInt8) : UInt8 := if n < 10 then 0x30 + n else 0x57 + n

/-- Value of a hex digit, upper or lower case (`fromHexChar` of encoding/hex). -/
def value (c : UInt8) : Option UInt8 :=
  if 0x30 ≤ c ∧ c ≤ 0x39 then some (c - 0x30)
  else if 0x61 ≤ c ∧ c ≤ 0x66 then some (c - 0x57)
  else if 0x41 ≤ c ∧ c ≤ 0x46 then some (c - 0x37)
  else none

/-- `hex.EncodeToString`. -/
def encode : Bytes → Bytes
  | [] => []
  | b :: bs => digit (b / 16) :: digit (b % 16) :: encode bs

/-- `hex.DecodeString`: error on odd length or foreign character. -/
def decode : Bytes → Res Bytes
  | [] => .ok []
  | [_] => .err
  | a :: b :: rest =>
    match value a, value b with
    | some x, some y =>
      match decode rest with
      | .ok bs => .ok ((x * 16 + y) :: bs)
      | .err => .err
      | .panic => .panic
    | _, _ => .err

/-- The byte string `hex.DecodeString` returns besides its error value ("the bytes decoded before the error"); used by code that
ignores the error. -/
def decodePrefix : Bytes → Bytes
  | [] => []
  | [_] => []
  | a :: b :: rest =>
    match value a, value b with
    | some x, some y => (x * 16 + y) :: decodePrefix rest
    | _, _ => []

end Verif.Hex
