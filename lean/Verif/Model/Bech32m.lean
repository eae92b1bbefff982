import Verif.Model.PolyMod
import Verif.Model.Bech32

/-! Model of `addressEncoder/bech32m/bech32m.go`. Texts are ASCII (case folding of Go's `strings.ToLower/ToUpper`
outside ASCII is not modelled). -/

namespace Verif.Bech32m
open Verif Verif.PolyMod

/-- `bech32mConst` [bech32m.go:21]. -/
def bech32mConst : Nat := 0x2bc830a3

/-- The checksum variant found by `verifyChecksum` [bech32m.go:10-18]. -/
inductive Spec where
  | bech32
  | bech32m
deriving DecidableEq

/-- `polymod` [bech32m.go:25-40]. -/
def polymod (v : List Nat) : Nat := run bech32Code 1 v

/-- `hrpExpand` [bech32m.go:42-53]. -/
def hrpExpand (p : Bytes) : List Nat :=
  p.map (fun c => c.toNat >>> 5) ++ [0] ++ p.map (fun c => c.toNat &&& 31)

/-- `verifyChecksum` [bech32m.go:55-65]; `none` is `Failed`. -/
def verifyChecksum (p : Bytes) (data : List Nat) : Option Spec :=
  let c := polymod (hrpExpand p ++ data)
  if c = 1 then some .bech32 else if c = bech32mConst then some .bech32m else none

/-- `createChecksum` [bech32m.go:67-80]. -/
def createChecksum (p : Bytes) (data : List Nat) (spec : Spec) : List Nat :=
  let c := if spec = .bech32m then bech32mConst else 1
  symbolsOf 6 (polymod (hrpExpand p ++ data ++ List.replicate 6 0) ^^^ c)

/-- `Encode` [bech32m.go:83-92]. -/
def encode (hrp : Bytes) (data : List Nat) (spec : Spec) (charset : Bytes) : Res Bytes :=
  match Bech32.toChars charset (data ++ createChecksum hrp data spec) with
  | .ok cs => .ok (hrp ++ [0x31] ++ cs)
  | _ => .panic

/-- ASCII `strings.ToLower` on one byte. -/
def toLower (c : UInt8) : UInt8 := if 0x41 ≤ c ∧ c ≤ 0x5a then c + 0x20 else c
/-- ASCII `strings.ToUpper` on one byte. -/
def toUpper (c : UInt8) : UInt8 := if 0x61 ≤ c ∧ c ≤ 0x7a then c - 0x20 else c

/-- `strings.LastIndex(s, "1")`. -/
def lastSep (s : Bytes) : Option Nat :=
  if (0x31 : UInt8) ∈ s then some (s.length - 1 - (s.reverse.idxOf 0x31)) else none

/-- Symbol values of the data part [bech32m.go:119-129]. -/
def revAll (charset : Bytes) : Bytes → Option (List Nat)
  | [] => some []
  | c :: cs =>
    match (if c ∈ charset then some (charset.idxOf c) else none), revAll charset cs with
    | some v, some vs => some (v :: vs)
    | _, _ => none

/-- `Decode` [bech32m.go:95-135]. -/
def decode (s charset : Bytes) : Res (Bytes × List Nat × Spec) :=
  if s.length > 90 then .err
  else if s.map toLower ≠ s ∧ s.map toUpper ≠ s then .err
  else
    let s := s.map toLower
    match lastSep s with
    | none => .err
    | some pos =>
      if pos < 1 then .err
      else if pos + 7 > s.length then .err
      else
        let hrp := s.take pos
        if hrp.any (fun c => c < 33 || c > 126) then .err
        else
          match revAll charset (s.drop (pos + 1)) with
          | none => .err
          | some data =>
            match verifyChecksum hrp data with
            | none => .err
            | some spec => .ok (hrp, data.take (data.length - 6), spec)

/-- Inner loop of `Convertbits` [bech32m.go:147-150]; `fuel` bounds the iterations (each one lowers `bits`). -/
def emit (tobits acc : Nat) : Nat → Nat → List Nat × Nat
  | 0, bits => ([], bits)
  | fuel + 1, bits =>
    if bits ≥ tobits then
      let r := emit tobits acc fuel (bits - tobits)
      (((acc >>> (bits - tobits)) &&& (2 ^ tobits - 1)) :: r.1, r.2)
    else ([], bits)

/-- Outer loop of `Convertbits` [bech32m.go:144-151]: output so far, final `acc` and `bits`. -/
def convLoop (frombits tobits : Nat) : Nat → Nat → List Nat → List Nat × Nat × Nat
  | acc, bits, [] => ([], acc, bits)
  | acc, bits, v :: vs =>
    let acc' := ((acc <<< frombits) ||| v) &&& (2 ^ (frombits + tobits - 1) - 1)
    let e := emit tobits acc' (bits + frombits) (bits + frombits)
    let r := convLoop frombits tobits acc' e.2 vs
    (e.1 ++ r.1, r.2)

/-- `Convertbits` [bech32m.go:137-162]. -/
def convertbits (data : List Nat) (frombits tobits : Nat) (pad : Bool) : Res (List Nat) :=
  let r := convLoop frombits tobits 0 0 data
  let acc := r.2.1
  let bits := r.2.2
  if pad then
    if bits > 0 then .ok (r.1 ++ [(acc <<< (tobits - bits)) &&& (2 ^ tobits - 1)]) else .ok r.1
  else if bits ≥ frombits then .err
  else if (acc <<< (tobits - bits)) &&& (2 ^ tobits - 1) ≠ 0 then .err
  else .ok r.1

/-- `Bech32mEncode` [bech32m.go:164-170]. -/
def bech32mEncode (hrp data charset : Bytes) : Res Bytes := do
  let conv ← convertbits (data.map UInt8.toNat) 8 5 true
  encode hrp conv .bech32m charset

/-- `Bech32mDecode` [bech32m.go:172-184]. The result `none` is Go's `(nil, nil)`: a nil slice with a nil error,
returned when the prefix or the checksum variant is wrong. -/
def bech32mDecode (address hrp charset : Bytes) : Res (Option Bytes) := do
  let (prechk, data, spec) ← decode address charset
  if prechk ≠ hrp ∨ spec ≠ .bech32m then .ok none
  else do
    let hash ← convertbits data 5 8 false
    .ok (some (hash.map UInt8.ofNat))

end Verif.Bech32m
