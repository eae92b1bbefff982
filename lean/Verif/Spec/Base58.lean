import Verif.Model.Base
import Mathlib.Data.Nat.Digits.Defs

/-! Specification of Base58: a byte string is a number of leading zero bytes followed by a big endian number; the
text is as many copies of symbol 0 followed by the canonical base-58 numeral of the number. -/

namespace Verif.Spec
open Verif

/-- Number of leading zero bytes. -/
def leadingZeros (b : Bytes) : Nat := (b.takeWhile (· == 0)).length

/-- The base-58 digits (most significant first) the encoding of `b` must consist of. -/
def base58Digits (b : Bytes) : List Nat :=
  List.replicate (leadingZeros b) 0 ++ (Nat.digits 58 (beNat b)).reverse

/-- `t` is the Base58 text of `b` over the alphabet `alph`. -/
def IsBase58 {α : Type} (alph : List α) (b : Bytes) (t : List α) : Prop :=
  t.map some = (base58Digits b).map (fun d => alph[d]?)

/-- A Base58 alphabet: 58 different symbols. -/
structure IsAlphabet {α : Type} (alph : List α) : Prop where
  length : alph.length = 58
  nodup : alph.Nodup

end Verif.Spec
