import Verif.Model.Base

/-! Omni Layer class C transactions, written from the Omni protocol specification and the Bitcoin script rules. -/

namespace Verif.Spec.Omni
open Verif

/-- The data carried by a script that consists of OP_RETURN and exactly one push: direct pushes of up to 75 bytes, or PUSHDATA1/2/4 with
a little endian length of one, two or four bytes. -/
def opReturnData (s : Bytes) : Option Bytes :=
  match s with
  | 0x6a :: op :: rest =>
    if op.toNat ≤ 75 then if rest.length = op.toNat then some rest else none
    else
      let n := if op = 0x4c then 1 else if op = 0x4d then 2 else if op = 0x4e then 4 else 0
      if n ≠ 0 ∧ n ≤ rest.length ∧ leNat (rest.take n) = rest.length - n then some (rest.drop n) else none
  | _ => none

/-- The number in the `n` bytes at offset `k`, big endian. -/
def num (b : Bytes) (k n : Nat) : Nat := beNat ((b.drop k).take n)

/-- A payload as a protocol client reads it: the marker "omni", message version (2 bytes), message type (2 bytes), then fields. -/
structure IsMessage (data : Bytes) (ty : Nat) (fields : Bytes) : Prop where
  marker : data.take 4 = asc "omni"
  version : num data 4 2 = 0
  type : num data 6 2 = ty
  fields : data.drop 8 = fields

end Verif.Spec.Omni
