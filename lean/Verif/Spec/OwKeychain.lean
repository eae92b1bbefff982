import Verif.Model.OwKeychain
import Verif.Spec.Base58
import Mathlib.GroupTheory.OrderOfElement

/-! Specification vocabulary for extended keys. -/

namespace Verif.Spec
open Verif Verif.OwKeychain

/-- An extended key with the field sizes the serialisation is made for: 4-byte fingerprint, 32-byte chain code,
32-byte private key, public key of 32 (ed25519 family), 48 (BLS12-381) or 33 bytes (all other curves). -/
structure WellFormedKey (ids : CurveIds) (k : ExtendedKey) : Prop where
  parentFP : k.parentFP.length = 4
  chainCode : k.chainCode.length = 32
  key : k.key.length =
    if k.isPrivate then 32
    else if k.curveType = ids.ed25519 ∨ k.curveType = ids.x25519 ∨ k.curveType = ids.curve25519Sha256 then 32
    else if k.curveType = ids.blsNul ∨ k.curveType = ids.blsAug then 48
    else 33

/-- What the derivation code assumes about a short-Weierstrass curve (secp256k1, secp256r1, sm2) implemented by
`go-owcrypt`: an abelian group with a generator of the order listed in hdprofile.go, a compressed (`comp`) and an
uncompressed (`full`) encoding of its non-zero points, scalars being 32-byte big endian numbers. -/
structure WeierstrassLaw (E : Ext) (c : UInt32) where
  G : Type
  [group : AddCommGroup G]
  g : G
  order : addOrderOf g = curveOrder E.ids c
  comp : G → Bytes
  full : G → Bytes
  mulBaseG : ∀ s : Bytes, s.length = 32 → beNat s • g ≠ 0 → E.mulBaseG c s = comp (beNat s • g)
  decompress : ∀ P : G, P ≠ 0 → E.decompress c (comp P) = 4 :: full P
  add_infinity : ∀ (P : G) (s : Bytes), P ≠ 0 → s.length = 32 →
    ((E.mulBaseGAdd c (full P) s).2 = true ↔ P + beNat s • g = 0)
  add : ∀ (P : G) (s : Bytes), P ≠ 0 → s.length = 32 → P + beNat s • g ≠ 0 →
    (E.mulBaseGAdd c (full P) s).1 = full (P + beNat s • g)
  compress : ∀ P : G, P ≠ 0 → E.compress c (full P) = comp P

/-- The same for the curves whose points have a single encoding: ed25519 (`val = leNat`) and BLS12-381
(`val = beNat`). -/
structure SimpleLaw (E : Ext) (c : UInt32) (val : Bytes → Nat) where
  G : Type
  [group : AddCommGroup G]
  g : G
  order : addOrderOf g = curveOrder E.ids c
  enc : G → Bytes
  mulBaseG : ∀ s : Bytes, s.length = 32 → val s • g ≠ 0 → E.mulBaseG c s = enc (val s • g)
  add_infinity : ∀ (P : G) (s : Bytes), P ≠ 0 → s.length = 32 →
    ((E.mulBaseGAdd c (enc P) s).2 = true ↔ P + val s • g = 0)
  add : ∀ (P : G) (s : Bytes), P ≠ 0 → s.length = 32 → P + val s • g ≠ 0 →
    (E.mulBaseGAdd c (enc P) s).1 = enc (P + val s • g)

/-- A component of a derivation path: an index below 2^31, hardened or not. -/
structure PathStep where
  index : Nat
  hardened : Bool
  lt : index < 2 ^ 31

/-- The child number the component denotes (BIP-32: hardened indexes start at 2^31). -/
def PathStep.child (s : PathStep) : UInt32 :=
  UInt32.ofNat (if s.hardened then s.index + 2 ^ 31 else s.index)

/-- Decimal numeral of a number, in ASCII. -/
def decimal (n : Nat) : Bytes :=
  if n = 0 then [0x30] else ((Nat.digits 10 n).map (fun d => UInt8.ofNat (0x30 + d))).reverse

/-- The text of one component: the numeral, with an apostrophe when hardened. -/
def PathStep.text (s : PathStep) : Bytes := decimal s.index ++ (if s.hardened then [0x27] else [])

/-- `/a/b/c` for a list of components. -/
def pathText (l : List PathStep) : Bytes := (l.map (fun s => 0x2f :: s.text)).flatten

/-- A text the parser can take for a path component: optional sign, at least one decimal digit, optional
apostrophe. -/
def ComponentText (e : Bytes) : Prop :=
  ∃ sign digits tick : Bytes, e = sign ++ digits ++ tick ∧ (sign = [] ∨ sign = [0x2b] ∨ sign = [0x2d]) ∧
    digits ≠ [] ∧ (∀ d ∈ digits, 0x30 ≤ d.toNat ∧ d.toNat ≤ 0x39) ∧ (tick = [] ∨ tick = [0x27])

/-- The bytes of a serialised extended key between version prefix and checksum. -/
def keyBody (ids : CurveIds) (k : ExtendedKey) : Bytes :=
  beBytes 4 k.curveType.toNat ++ [k.depth] ++ k.parentFP ++ beBytes 4 k.serializes.toNat ++ k.chainCode ++
    (if k.isPrivate = true ∨ k.curveType = ids.ed25519 ∨ k.curveType = ids.x25519 ∨ k.curveType = ids.curve25519Sha256
      then [0] else []) ++ k.key

/-- The text with this version prefix: Base58 of prefix, body and the first four bytes of the double SHA-256 of both. -/
def IsKeyText (H : Hashes) (fix body t : Bytes) : Prop :=
  IsBase58 alphabet (fix ++ body ++ (H.hash .doubleSha256 (fix ++ body)).take 4) t

end Verif.Spec
