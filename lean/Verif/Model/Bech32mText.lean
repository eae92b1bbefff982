import Verif.Model.AddressEncoder
import Verif.Model.Json
import Verif.Spec.Case

/-! Model of the text handling of `addressEncoder/bech32m/bech32m.go` for texts that need not be ASCII: `Decode` compares a text with its
lower case and its upper case and then works on its lower case. Model/Bech32m.lean covers ASCII texts. -/

namespace Verif.Bech32m
open Verif Verif.Spec

/-- The standard library's tables behind `unicode.ToLower` and `unicode.ToUpper`, for characters outside ASCII. A character is given by its UTF-8
bytes, and so is the result. -/
structure CaseTable where
  lower : Bytes → Bytes
  upper : Bytes → Bytes

/-- What is used about the tables: the two letters outside ASCII with a lower case inside ASCII are the Kelvin sign and the dotted capital I, and both
are their own upper case. -/
structure GoCase (T : CaseTable) : Prop where
  kelvin_lower : T.lower kelvin = [0x6b]
  kelvin_upper : T.upper kelvin = kelvin
  dotted_lower : T.lower dottedI = [0x69]
  dotted_upper : T.upper dottedI = dottedI
  other_lower : ∀ g : Bytes, g ≠ kelvin → g ≠ dottedI → T.lower g ≠ [] ∧ ∀ b ∈ T.lower g, 0x80 ≤ b

/-- `strings.Map` with a case conversion, which is what `strings.ToLower` and `strings.ToUpper` are [bech32m.go:99,102]: `f` on ASCII characters, `g` on
others; a byte that belongs to no character becomes U+FFFD. `n` bounds the number of characters. -/
def mapText (f : UInt8 → UInt8) (g : Bytes → Bytes) : Nat → Bytes → Bytes
  | 0, _ => []
  | _ + 1, [] => []
  | n + 1, b :: r =>
    if b < 0x80 then f b :: mapText f g n r
    else if Json.runeLen (b :: r) = 0 then [0xef, 0xbf, 0xbd] ++ mapText f g n r
    else g ((b :: r).take (Json.runeLen (b :: r))) ++ mapText f g n ((b :: r).drop (Json.runeLen (b :: r)))

/-- `strings.ToLower`. -/
def lowerText (T : CaseTable) (s : Bytes) : Bytes := mapText toLower T.lower s.length s

/-- `strings.ToUpper`. -/
def upperText (T : CaseTable) (s : Bytes) : Bytes := mapText toUpper T.upper s.length s

/-- `Decode` after the conversion to lower case [bech32m.go:103-135]. Characters of the prefix are compared as bytes: one outside ASCII is above 126
in either view. A byte outside ASCII in the data part is not found in an ASCII `charset`. -/
def decodeLower (s charset : Bytes) : Res (Bytes × List Nat × Spec) :=
  match lastSep s with
  | none => .err
  | some pos =>
    if pos < 1 then .err
    else if pos + 7 > s.length then .err
    else
      let hrp := s.take pos
      if hrp.any (fun c => c < 33 || c > 126) then .err
      else
        match revAll charset (s.drop (pos + 1)) with
        | none => .err
        | some data =>
          match verifyChecksum hrp data with
          | none => .err
          | some spec => .ok (hrp, data.take (data.length - 6), spec)

/-- `Decode` [bech32m.go:95-135]. -/
def decodeText (T : CaseTable) (s charset : Bytes) : Res (Bytes × List Nat × Spec) :=
  if s.length > 90 then .err
  else if lowerText T s ≠ s ∧ upperText T s ≠ s then .err
  else decodeLower (lowerText T s) charset

/-- `Bech32mDecode` [bech32m.go:172-184]; `none` is Go's `(nil, nil)`. -/
def bech32mDecodeText (T : CaseTable) (address hrp charset : Bytes) : Res (Option Bytes) := do
  let (prechk, data, spec) ← decodeText T address charset
  if prechk ≠ hrp ∨ spec ≠ .bech32m then .ok none
  else do
    let hash ← convertbits data 5 8 false
    .ok (some (hash.map UInt8.ofNat))

/-- `AddressDecode` for a profile with the encoding `bech32m` [addressEncoder.go:252-254]. -/
def addressDecodeText (T : CaseTable) (address : Bytes) (a : Addr.AddressType) : Res Bytes :=
  match bech32mDecodeText T address a.checksumType a.alphabet with
  | .ok (some b) => .ok b
  | .ok none => .ok []
  | .err => .err
  | .panic => .panic

end Verif.Bech32m
