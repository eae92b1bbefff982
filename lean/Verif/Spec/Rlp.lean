import Verif.Model.Base

/-! Recursive Length Prefix encoding, as in appendix B of the Ethereum yellow paper. -/

namespace Verif.Spec.Rlp
open Verif

/-- Big endian bytes of a number, without leading zeros. -/
def be (n : Nat) : Bytes := if n = 0 then [] else be (n / 256) ++ [UInt8.ofNat (n % 256)]
decreasing_by omega

/-- A byte string. -/
def str (x : Bytes) : Bytes :=
  if x.length = 1 ∧ ∀ c ∈ x, c < 0x80 then x
  else if x.length < 56 then UInt8.ofNat (128 + x.length) :: x
  else UInt8.ofNat (183 + (be x.length).length) :: (be x.length ++ x)

/-- A list of byte strings. -/
def list (l : List Bytes) : Bytes :=
  let s := l.flatMap str
  if s.length < 56 then UInt8.ofNat (192 + s.length) :: s
  else UInt8.ofNat (247 + (be s.length).length) :: (be s.length ++ s)

/-- The length of every string and of the whole is below 2^64, the range in which the encoding is defined. -/
def Defined (l : List Bytes) : Prop := (∀ x ∈ l, x.length < 2 ^ 64) ∧ (l.flatMap str).length < 2 ^ 64

end Verif.Spec.Rlp
