import Verif.Model.Profiles
import Verif.Model.Base58
import Verif.Model.Hex
import Verif.Model.Bech32
import Verif.Model.CashAddr
import Verif.Model.Bech32m

/-! Model of `addressEncoder/addressEncoder.go`, `eos.go`, `aeternity.go` and `eip55/eip55.go`.

Hash functions are the parameter `H`. Diagnostics printed with `fmt.Print*` are not modelled. Texts are byte strings;
Go's conversion of a text to runes in `Base58Decode` agrees with bytes because the alphabets are ASCII. -/

namespace Verif.Addr
open Verif

variable (H : Hashes)

/-- `calcChecksum` [addressEncoder.go:27-47]; `none` is Go's nil for an unknown checksum type. -/
def calcChecksum (data chkType : Bytes) : Option Bytes :=
  if chkType = asc "doubleSHA256" then some ((H.hash .doubleSha256 data).take 4)
  else if chkType = asc "doubleBlake256" then some ((H.hash .doubleBlake256 data).take 4)
  else if chkType = asc "keccak256" then some ((H.hash .keccak256 data).take 4)
  else if chkType = asc "sha3_256" then some ((H.hash .sha3_256 data).take 4)
  else if chkType = asc "blake2b_and_keccak256_first_twenty" then
    some ((H.hash .keccak256 (H.hash (.blake2b 32) data)).take 4)
  else if chkType = asc "ripemd160" then some ((H.hash .ripemd160 data).take 4)
  else none

/-- `verifyChecksum` [addressEncoder.go:54-65]: short data are refused, an unknown checksum type indexes a nil slice.
The checksum has exactly four bytes, so the byte loop is list equality. -/
def verifyChecksum (data chkType : Bytes) : Res Bool :=
  if data.length < 4 then .ok false
  else
    match calcChecksum H (data.take (data.length - 4)) chkType with
    | none => .panic
    | some c => .ok (c == data.drop (data.length - 4))

/-- `catData` [addressEncoder.go:72-77]. -/
def catData (data1 : Bytes) : Option Bytes → Bytes
  | none => data1
  | some d => data1 ++ d

/-- One comparison loop of `recoverData` [addressEncoder.go:80-84, 86-90]: bytes of `pat` against `data[off..]`,
indexing panics past the end. -/
def matchAt (data : Bytes) : Nat → Bytes → Res Unit
  | _, [] => .ok ()
  | off, p :: ps =>
    match index data off with
    | .ok b => if b ≠ p then .err else matchAt data (off + 1) ps
    | _ => .panic

/-- `recoverData` [addressEncoder.go:79-96]. A nil prefix has length 0. -/
def recoverData (data : Bytes) (pre suf : Option Bytes) : Res Bytes := do
  let p := pre.getD []
  matchAt data 0 p
  match suf with
  | none => slice data p.length data.length
  | some s =>
    if data.length < s.length then .panic
    else do
      matchAt data (data.length - s.length) s
      slice data p.length (data.length - s.length)

/-- `encodeData` [addressEncoder.go:103-108]. -/
def encodeData (data encodeType alphabet : Bytes) : Res Bytes :=
  if encodeType = asc "base58" then Base58.encode alphabet data else .ok []

/-- `Base58Decode` followed by `verifyChecksum` and removal of the last four bytes; this sequence occurs in
`decodeData` [addressEncoder.go:117-124], `decodeEOS` [eos.go:28-36] and `decodeAE` [aeternity.go:18-26]. -/
def base58CheckBody (text alphabet chkType : Bytes) : Res Bytes := do
  let ret ← Base58.decode alphabet text
  let good ← verifyChecksum H ret chkType
  if good then .ok (ret.take (ret.length - 4)) else .err

/-- `decodeData` [addressEncoder.go:115-127]; `(nil, nil)` for an unknown encoding is the empty payload. -/
def decodeData (text encodeType alphabet chkType : Bytes) (pre suf : Option Bytes) : Res Bytes :=
  if encodeType = asc "base58" then do
    let body ← base58CheckBody H text alphabet chkType
    recoverData body pre suf
  else .ok []

/-- `calcHash` [addressEncoder.go:129-158]; an unknown hash type gives nil. -/
def calcHash (data hashType : Bytes) : Bytes :=
  if hashType = asc "h160" then H.hash .hash160 data
  else if hashType = asc "blake2b160" then H.hash (.blake2b 20) data
  else if hashType = asc "ripemd160" then H.hash .ripemd160 data
  else if hashType = asc "keccak256_ripemd160" then H.hash .keccak256Ripemd160 data
  else if hashType = asc "sha3_256_ripemd160" then H.hash .sha3_256Ripemd160 data
  else if hashType = asc "keccak256" then H.hash .keccak256 data
  else if hashType = asc "sha3_256_last_twenty" then (H.hash .sha3_256 data).drop 12
  else if hashType = asc "keccak256_last_twenty" then (H.hash .keccak256 data).drop 12
  else if hashType = asc "blake2b_and_keccak256_first_twenty" then
    (H.hash .keccak256 (H.hash (.blake2b 32) data)).take 20
  else []

/-- `strings.EqualFold` against a lower-case ASCII word (only ASCII folding is modelled). -/
def equalFold (s w : Bytes) : Bool := s.map Bech32m.toLower == w

/-- `Eip55_encode` [eip55.go:46-72]: everything after the first twelve bytes; slicing panics on shorter data. -/
def eip55Encode (addr : Bytes) : Res Bytes := do
  let tail ← slice addr 12 addr.length
  .ok (Hex.encode tail)

/-- `Eip55_decode` [eip55.go:74-103]. -/
def eip55Decode (text : Bytes) : Res Bytes := do
  let two ← slice text 0 2
  Hex.decode (if two = asc "0x" then text.drop 2 else text)

/-- Left padding of a Monero block text with '1' [addressEncoder.go:218-223, 227-232]. -/
def padOnes (n : Nat) (t : Bytes) : Bytes := List.replicate (n - t.length) 0x31 ++ t

/-- Block loop of the Monero encoder [addressEncoder.go:215-225]: `k` full blocks of eight bytes, then the rest
[226-233]. -/
def xmrEncodeBlocks (alphabet : Bytes) : Nat → Bytes → Res Bytes
  | 0, rest => do
    let t ← Base58.encode alphabet rest
    .ok (padOnes 7 t)
  | k + 1, d => do
    let t ← Base58.encode alphabet (d.take 8)
    let r ← xmrEncodeBlocks alphabet k (d.drop 8)
    .ok (padOnes 11 t ++ r)

/-- The `XMR` branch of `AddressEncode` [addressEncoder.go:187-235]. -/
def xmrEncode (hash : Bytes) (a : AddressType) : Res Bytes :=
  if a.hashType = [] ∧ hash.length ≠ 64 then .ok []
  else if a.hashType = asc "payID" ∧ hash.length ≠ 72 then .ok []
  else
    let body := a.pre.getD [] ++ hash
    let full := body ++ (H.hash .keccak256 body).take 4
    xmrEncodeBlocks a.alphabet (full.length / 8) full

/-- Block loop of the Monero decoder [addressEncoder.go:315-337]. -/
def xmrDecodeBlocks (alphabet : Bytes) : Nat → Bytes → Res Bytes
  | 0, rest => do
    let b ← Base58.decode alphabet rest
    if b.length < 5 then .err else .ok (b.drop (b.length - 5))
  | k + 1, t => do
    let b ← Base58.decode alphabet (t.take 11)
    if b.length < 8 then .err
    else do
      let r ← xmrDecodeBlocks alphabet k (t.drop 11)
      .ok (b.drop (b.length - 8) ++ r)

/-- The `XMR` branch of `AddressDecode` [addressEncoder.go:301-348]. -/
def xmrDecode (address : Bytes) (a : AddressType) : Res Bytes :=
  if a.hashType = [] ∧ address.length ≠ 95 then .err
  else if a.hashType = asc "payID" ∧ address.length ≠ 106 then .err
  else do
    let d ← xmrDecodeBlocks a.alphabet (address.length / 11) address
    let good ← verifyChecksum H d a.checksumType
    if good then recoverData (d.take (d.length - 4)) a.pre a.suf else .err

/-- `encodeEOS` [eos.go:39-43] and `encodeAE` [aeternity.go:29-33], which are the same.
`append` into spare capacity of the caller's `hash` slice is modelled in Model/AddressMemory.lean. -/
def encodePrefixed (hash : Bytes) (a : AddressType) : Res Bytes := do
  let t ← encodeData (catData hash (calcChecksum H hash a.checksumType)) (asc "base58") a.alphabet
  .ok (a.pre.getD [] ++ t)

/-- `decodeEOS` [eos.go:15-37]. -/
def decodeEOS (text : Bytes) (a : AddressType) : Res Bytes :=
  if asc "PUB_R1_" <+: text then base58CheckBody H (text.drop 7) a.alphabet a.checksumType
  else if asc "PUB_K1_" <+: text then base58CheckBody H (text.drop 7) a.alphabet a.checksumType
  else if asc "EOS" <+: text then base58CheckBody H (text.drop 3) a.alphabet a.checksumType
  else .err

/-- `decodeAE` [aeternity.go:11-27]: without the prefix the empty text is decoded. -/
def decodeAE (text : Bytes) (a : AddressType) : Res Bytes :=
  base58CheckBody H (if asc "ak_" <+: text then text.drop 3 else []) a.alphabet a.checksumType

/-- `AddressEncode` [addressEncoder.go:160-248]. The result `ok []` is the empty text that Go returns on failure. -/
def addressEncode (hash : Bytes) (a : AddressType) : Res Bytes :=
  if a.encodeType = asc "bech32m" then
    match Bech32m.bech32mEncode a.checksumType hash a.alphabet with
    | .ok t => .ok t
    | .err => .ok []
    | .panic => .panic
  else if a.encodeType = asc "bech32" then Bech32.encode a.checksumType a.alphabet hash (a.pre.getD [])
  else
    let hash := if hash.length ≠ a.hashLen then calcHash H hash a.hashType else hash
    if a.encodeType = asc "base32PolyMod" then CashAddr.encode a.checksumType a.alphabet hash
    else if a.encodeType = asc "eip55" then eip55Encode hash
    else if a.encodeType = asc "ICX" then .ok (a.checksumType ++ Hex.encode hash)
    else if a.encodeType = asc "XMR" then xmrEncode H hash a
    else if equalFold a.encodeType (asc "eos") then encodePrefixed H hash a
    else if equalFold a.encodeType (asc "aeternity") then encodePrefixed H hash a
    else
      let data := catData (catData (a.pre.getD []) (some hash)) a.suf
      encodeData (catData data (calcChecksum H data a.checksumType)) a.encodeType a.alphabet

/-- The `ICX` branch of `AddressDecode` [addressEncoder.go:286-300]. -/
def icxDecode (address : Bytes) : Res Bytes := do
  let c0 ← index address 0
  if c0 ≠ 0x68 then .err
  else do
    let c1 ← index address 1
    if c1 ≠ 0x78 then .err
    else if address.length - 2 ≠ 40 then .err
    else Hex.decode (address.drop 2)

/-- `AddressDecode` [addressEncoder.go:250-366]. Go's `(nil, nil)` is `ok []`. -/
def addressDecode (address : Bytes) (a : AddressType) : Res Bytes :=
  if a.encodeType = asc "bech32m" then
    match Bech32m.bech32mDecode address a.checksumType a.alphabet with
    | .ok (some b) => .ok b
    | .ok none => .ok []
    | .err => .err
    | .panic => .panic
  else if a.encodeType = asc "bech32" then do
    let ret ← Bech32.decode address
    if ret.length ≠ 20 ∧ ret.length ≠ 32 then .err else .ok ret
  else if a.encodeType = asc "base32PolyMod" then do
    let ret ← CashAddr.decode address
    if ret.length ≠ a.hashLen then .err else .ok ret
  else if a.encodeType = asc "eip55" then do
    let ret ← eip55Decode address
    if ret.length ≠ 20 then .err else .ok ret
  else if a.encodeType = asc "ICX" then icxDecode address
  else if a.encodeType = asc "XMR" then xmrDecode H address a
  else if equalFold a.encodeType (asc "eos") then decodeEOS H address a
  else if equalFold a.encodeType (asc "aeternity") then decodeAE H address a
  else do
    let data ← decodeData H address a.encodeType a.alphabet a.checksumType a.pre a.suf
    if data.length ≠ a.hashLen then .err else .ok data

end Verif.Addr
