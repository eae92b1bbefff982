import Verif.Model.PolyMod
import Verif.Model.Hex

/-! Model of `addressEncoder/bech32/bech32.go`. Symbols (Go `int8`) are naturals below 32; bytes shifted as `int8`
are represented by their bit pattern (`UInt8`). -/

namespace Verif.Bech32
open Verif Verif.PolyMod

/-- The usual symbol table (`BTCBech32Alphabet` etc., encoderProfile.go:9-23). -/
def stdAlphabet : Bytes := asc "qpzry9x8gf2tvdw0s3jn54khce6mua7l"

/-- `CHARSET_REV` [bech32.go:19-27; the same table is base32PolyMod.go:11-19]. -/
def charsetRev : List Int := [
  -1, -1, -1, -1, -1, -1, -1, -1, -1, -1, -1, -1, -1, -1, -1, -1,
  -1, -1, -1, -1, -1, -1, -1, -1, -1, -1, -1, -1, -1, -1, -1, -1,
  -1, -1, -1, -1, -1, -1, -1, -1, -1, -1, -1, -1, -1, -1, -1, -1,
  15, -1, 10, 17, 21, 20, 26, 30, 7, 5, -1, -1, -1, -1, -1, -1,
  -1, 29, -1, 24, 13, 25, 9, 8, 23, -1, 18, 22, 31, 27, 19, -1,
  1, 0, 3, 16, 11, 28, 12, 14, 6, 4, 2, -1, -1, -1, -1, -1,
  -1, 29, -1, 24, 13, 25, 9, 8, 23, -1, 18, 22, 31, 27, 19, -1,
  1, 0, 3, 16, 11, 28, 12, 14, 6, 4, 2, -1, -1, -1, -1, -1]

/-- `c > 127 || CHARSET_REV[c] == -1` is the error case [bech32.go:392-395]. -/
def rev (c : UInt8) : Option Nat :=
  match charsetRev[c.toNat]? with
  | some (.ofNat v) => some v
  | _ => none

/-- `expandPrefix` [bech32.go:34-43]. -/
def expandPrefix (p : Bytes) : List Nat :=
  p.map (fun c => c.toNat >>> 5) ++ [0] ++ p.map (fun c => c.toNat &&& 0x1f)

/-- `polyMod` [bech32.go:45-251]. -/
def polyMod (v : List Nat) : Nat := run bech32Code 1 v ^^^ 1

/-- `verifyChecksum` [bech32.go:260-262]. -/
def verifyChecksum (p : Bytes) (data : List Nat) : Bool := polyMod (expandPrefix p ++ data) == 0

/-- `calcChecksum` [bech32.go:264-278]. -/
def calcChecksum (p : Bytes) (data : List Nat) : List Nat :=
  symbolsOf 6 (polyMod (expandPrefix p ++ data ++ List.replicate 6 0))

/-- `byteShl1` [bech32.go:280-292]: shift a byte array left by one bit. -/
def byteShl1 : Bytes → Bytes
  | [] => []
  | [x] => [x <<< 1]
  | x :: y :: r => ((x <<< 1) ||| ((y >>> 7) &&& 1)) :: byteShl1 (y :: r)

/-- `byteShl5` [bech32.go:293-297]. -/
def byteShl5 (b : Bytes) : Bytes := byteShl1 (byteShl1 (byteShl1 (byteShl1 (byteShl1 b))))

/-- Loop of `extendPayload` [bech32.go:304-308] for the number of remaining symbols. -/
def takeSymbols : Nat → Bytes → List Nat
  | 0, _ => []
  | n + 1, b => ((b.headD 0 >>> 3) &&& 0x1f).toNat :: takeSymbols n (byteShl5 b)

/-- `extendPayload` [bech32.go:299-313]: one symbol for every started group of five bits. -/
def extendPayload (p : Bytes) : List Nat := takeSymbols ((p.length * 8 + 4) / 5) p

/-- `ret[length-1] |= e` [bech32.go:321,324]: panics on an empty array. -/
def orLast : Bytes → Nat → Res Bytes
  | [], _ => .panic
  | b, e => .ok (b.dropLast ++ [(b.getLastD 0) ||| UInt8.ofNat e])

/-- Loop and final step of `unecxtendPayload` [bech32.go:320-324]. -/
def untake : List Nat → Bytes → Res Bytes
  | [], _ => .panic
  | [e], ret => orLast ret e
  | e :: es, ret =>
    match orLast ret e with
    | .ok r => untake es (byteShl5 r)
    | .err => .err
    | .panic => .panic

/-- `unecxtendPayload` [bech32.go:315-327]. -/
def unextendPayload (ext : List Nat) : Res Bytes := untake ext (List.replicate (ext.length * 5 / 8) 0)

/-- `alphabet[b : b+1]` for every symbol [bech32.go:347-349]. -/
def toChars (alphabet : Bytes) : List Nat → Res Bytes
  | [] => .ok []
  | b :: bs =>
    match index alphabet b, toChars alphabet bs with
    | .ok c, .ok cs => .ok (c :: cs)
    | _, _ => .panic

/-- `Encode` [bech32.go:329-351]; a nil `payloadPrefix` is the empty list.
Simplification: bytes of `payloadPrefix` are below 32 (the profiles use none or `[0]`). -/
def encode (hrp alphabet payload payloadPrefix : Bytes) : Res Bytes :=
  let ext := payloadPrefix.map UInt8.toNat ++ extendPayload payload
  let combined := ext ++ calcChecksum hrp ext
  match toChars alphabet combined with
  | .ok cs => .ok (hrp ++ [0x31] ++ cs)
  | _ => .panic

/-- State of the scanning loop [bech32.go:354-380]. -/
structure Scan where
  lower : Bool
  upper : Bool
  hasNumber : Bool
  prefixSize : Nat
deriving DecidableEq

/-- Scanning loop of `Decode` [bech32.go:358-380, base32PolyMod.go:173-195]; `sep` is '1' or ':'.
`i` is the loop index. In bech32.go the digit test excludes '1'; in base32PolyMod.go the separator is no digit, so
the test order below describes both. -/
def scan (sep : UInt8) : Nat → Scan → Bytes → Option Scan
  | _, s, [] => some s
  | i, s, c :: cs =>
    if 0x61 ≤ c ∧ c ≤ 0x7a then scan sep (i + 1) { s with lower := true } cs
    else if 0x41 ≤ c ∧ c ≤ 0x5a then scan sep (i + 1) { s with upper := true } cs
    else if (0x30 ≤ c ∧ c ≤ 0x39) ∧ c ≠ sep then scan sep (i + 1) { s with hasNumber := true } cs
    else if c = sep then
      if s.hasNumber ∨ i = 0 ∨ s.prefixSize ≠ 0 then none
      else scan sep (i + 1) { s with prefixSize := i } cs
    else none

/-- Symbol values of the data part [bech32.go:389-396]. -/
def revAll : Bytes → Option (List Nat)
  | [] => some []
  | c :: cs =>
    match rev c, revAll cs with
    | some v, some vs => some (v :: vs)
    | _, _ => none

/-- Scanning, case check, prefix split and symbol lookup of `Decode` [bech32.go:354-396,
base32PolyMod.go:169-211]: the prefix text and the symbol values. An empty address panics (`make` with a
negative size). -/
def parse (sep : UInt8) (address : Bytes) : Res (Bytes × List Nat) :=
  match scan sep 0 ⟨false, false, false, 0⟩ address with
  | none => .err
  | some s =>
    if s.upper ∧ s.lower then .err
    else if address.length < s.prefixSize + 1 then .panic
    else
      match revAll (address.drop (s.prefixSize + 1)) with
      | none => .err
      | some value => .ok (address.takeWhile (· ≠ sep), value)

/-- `Decode` [bech32.go:353-419]. The `alphabet` argument is ignored by the code, hence absent here. -/
def decode (address : Bytes) : Res Bytes := do
  let (prefixStr, value) ← parse 0x31 address
  if !verifyChecksum prefixStr value then .err
  else if value.length < 6 then .panic
  else
    let ret ← unextendPayload (value.take (value.length - 6))
    if ret.length = 33 then do
      let tmp ← slice (Hex.encode ret) 1 65
      match Hex.decode tmp with
      | .ok b => .ok b
      | _ => .ok []
    else .ok ret

end Verif.Bech32
