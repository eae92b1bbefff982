import Verif.Model.Base

/-! BIP 32 child key derivation, written from the standard (and SEC 2, FIPS 186, GB/T 32918, RFC 8032 for the group orders). -/

namespace Verif.Spec.Bip32
open Verif

/-- ser32(i): the index as four bytes, most significant first. -/
def ser32 (i : UInt32) : Bytes :=
  [UInt8.ofNat (i.toNat / 2 ^ 24), UInt8.ofNat (i.toNat / 2 ^ 16), UInt8.ofNat (i.toNat / 2 ^ 8), UInt8.ofNat i.toNat]

/-- parse256: a byte string as a number, most significant byte first. -/
def parse256 (b : Bytes) : Nat := b.foldl (fun n x => n * 256 + x.toNat) 0

/-- The group orders in the decimal form of the standards. -/
def orderSecp256k1 : Nat := 115792089237316195423570985008687907852837564279074904382605163141518161494337
def orderP256 : Nat := 115792089210356248762697446949407573529996955224135760342422259061068512044369
def orderSm2 : Nat := 115792089210356248756420345214020892766061623724957744567843809356293439045923
def orderEd25519 : Nat := 7237005577332262213973186563042994240857116359379907606001950938285454250989

/-- CKDpriv: I = HMAC-SHA512(chain code, 0x00 || key || ser32(i)) for a hardened index, HMAC-SHA512(chain code, point(key) || ser32(i))
otherwise; the child key is parse256(I_L) + key mod n, the chain code I_R. There is no child if parse256(I_L) ≥ n or the sum is 0. -/
def ckdPriv (n : Nat) (hmac512 : Bytes → Bytes → Bytes) (point : Bytes) (key chainCode : Bytes) (i : UInt32) : Option (Nat × Bytes) :=
  let I := hmac512 chainCode ((if i.toNat ≥ 2 ^ 31 then 0x00 :: key else point) ++ ser32 i)
  let il := parse256 (I.take 32)
  if il ≥ n ∨ (il + parse256 key) % n = 0 then none else some ((il + parse256 key) % n, I.drop 32)

end Verif.Spec.Bip32
