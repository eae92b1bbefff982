import Verif.Model.Memory
import Verif.Model.AddressEncoder

/-! `AddressEncode` [addressEncoder/addressEncoder.go] on slices in memory: the text and the memory after the call.

Simplifications: prefix and suffix of an address type are constants without spare capacity (they are literals in every profile of encoderProfile.go), so
appending to them copies; arrays that only the call itself can reach are left out, except the result of `calcHash`. -/

namespace Verif.AddrMem
open Verif Verif.Addr Verif.Mem

variable (H : Hashes) (grow : Nat → Nat → Nat)

/-- `encodeEOS` [eos.go:39-43] and `encodeAE` [aeternity.go:29-33]: the checksum is appended to the caller's slice (`catData`,
addressEncoder.go:72-77). -/
def encodePrefixed (h : Heap) (hash : Slice) (a : AddressType) : Res Bytes × Heap :=
  match calcChecksum H (read h hash) a.checksumType with
  | none => ((encodeData (read h hash) (asc "base58") a.alphabet).bind fun t => .ok (a.pre.getD [] ++ t), h)
  | some c =>
    let r := append grow h hash c
    ((encodeData (read r.2 r.1) (asc "base58") a.alphabet).bind fun t => .ok (a.pre.getD [] ++ t), r.2)

/-- `AddressEncode` [addressEncoder.go:160-248]. The branches other than the last two before the end only read the bytes of `hash`: `bech32m.Encode`
appends to the array made by `convertbits`, `bech32.Encode` and `base32PolyMod.Encode` copy the payload first, the XMR branch and the last one append to
the prefix. -/
def addressEncode (h : Heap) (hash : Slice) (a : AddressType) : Res Bytes × Heap :=
  if a.encodeType = asc "bech32m" then
    (match Bech32m.bech32mEncode a.checksumType (read h hash) a.alphabet with
      | .ok t => .ok t
      | .err => .ok []
      | .panic => .panic, h)
  else if a.encodeType = asc "bech32" then (Bech32.encode a.checksumType a.alphabet (read h hash) (a.pre.getD []), h)
  else
    let (hash, h) := if hash.len ≠ a.hashLen then alloc h (calcHash H (read h hash) a.hashType) else (hash, h)
    if a.encodeType = asc "base32PolyMod" then (CashAddr.encode a.checksumType a.alphabet (read h hash), h)
    else if a.encodeType = asc "eip55" then (eip55Encode (read h hash), h)
    else if a.encodeType = asc "ICX" then (.ok (a.checksumType ++ Hex.encode (read h hash)), h)
    else if a.encodeType = asc "XMR" then (xmrEncode H (read h hash) a, h)
    else if equalFold a.encodeType (asc "eos") then encodePrefixed H grow h hash a
    else if equalFold a.encodeType (asc "aeternity") then encodePrefixed H grow h hash a
    else
      let data := catData (catData (a.pre.getD []) (some (read h hash))) a.suf
      (encodeData (catData data (calcChecksum H data a.checksumType)) a.encodeType a.alphabet, h)

end Verif.AddrMem
