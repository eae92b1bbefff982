import Verif.Model.Bech32

/-! Model of `addressEncoder/base32PolyMod/base32PolyMod.go` (Bitcoin Cash addresses). The file repeats the helper
functions `byteShl1`, `byteShl5` and the scanning loop of bech32.go; the model shares them. -/

namespace Verif.CashAddr
open Verif Verif.PolyMod Verif.Bech32

/-- `bitcoincashExpandPrefix` [base32PolyMod.go:22]. -/
def bitcoincashExpandPrefix : List Nat := [2, 9, 20, 3, 15, 9, 14, 3, 1, 19, 8, 0]

/-- `polyMod` [base32PolyMod.go:36-58]. -/
def polyMod (v : List Nat) : Nat := run cashCode 1 v ^^^ 1

/-- `calcChecksum` [base32PolyMod.go:60-74]. -/
def calcChecksum (expanded payload : List Nat) : List Nat :=
  symbolsOf 8 (polyMod (expanded ++ payload ++ List.replicate 8 0))

/-- `verifyChecksum` [base32PolyMod.go:126-128]. -/
def verifyChecksum (expanded payload : List Nat) : Bool := polyMod (expanded ++ payload) == 0

/-- `extendPayload` [base32PolyMod.go:95-124]: the first byte is shifted left by three (the size code is always 0),
an empty payload panics. -/
def extendPayload : Bytes → Res (List Nat)
  | [] => .panic
  | t :: r => .ok (takeSymbols (((r.length + 1) * 8 + 4) / 5) ((t <<< 3) :: r))

/-- `byteShl1` repeated [base32PolyMod.go:141-143]. -/
def shlN : Nat → Bytes → Bytes
  | 0, b => b
  | n + 1, b => shlN n (byteShl1 b)

/-- Loop and final steps of `unecxtendPayload` [base32PolyMod.go:136-144]; `n` is the total number of symbols. The
last two symbols are treated separately. -/
def untake (n : Nat) : List Nat → Bytes → Res Bytes
  | [e, f], ret =>
    match orLast ret e with
    | .ok r => orLast (shlN (5 - n * 5 % 8) r) (f >>> (n * 5 % 8))
    | _ => .panic
  | e :: es, ret =>
    match orLast ret e with
    | .ok r => untake n es (byteShl5 r)
    | _ => .panic
  | [], _ => .panic

/-- `unecxtendPayload` [base32PolyMod.go:130-147]. -/
def unextendPayload (ext : List Nat) : Res Bytes :=
  untake ext.length ext (List.replicate (ext.length * 5 / 8) 0)

/-- `Encode` [base32PolyMod.go:149-166]: for a prefix other than "bitcoincash" the checksum is eight zeros. -/
def encode (hrp alphabet payload : Bytes) : Res Bytes := do
  let ext ← extendPayload payload
  let checksum := if hrp = asc "bitcoincash" then calcChecksum bitcoincashExpandPrefix ext
    else List.replicate 8 0
  let cs ← toChars alphabet (ext ++ checksum)
  .ok (hrp ++ [0x3a] ++ cs)

/-- `Decode` [base32PolyMod.go:168-230]; the checksum is only verified for the prefix "bitcoincash". -/
def decode (address : Bytes) : Res Bytes := do
  let (prefixStr, value) ← parse 0x3a address
  if prefixStr = asc "bitcoincash" ∧ !verifyChecksum bitcoincashExpandPrefix value then .err
  else if value.length < 8 then .panic
  else unextendPayload (value.take (value.length - 8))

end Verif.CashAddr
