import Verif.Spec.BtcLike

/-! How inputs of a Bitcoin transaction are unlocked with signatures, written from BIP 11, BIP 16, BIP 141 and BIP 144. Independent of the model's
helpers. -/

namespace Verif.Spec
open Verif

/-- The shortest script pushing `d` (at most 65535 bytes). -/
def pushData (d : Bytes) : Bytes :=
  if d.length < 0x4c then UInt8.ofNat d.length :: d
  else if d.length ≤ 0xff then 0x4c :: UInt8.ofNat d.length :: d
  else 0x4d :: (leBytes 2 d.length ++ d)

/-- How an input is unlocked: one signature and its key for one of the outputs that one key can spend; signatures and the script they satisfy for an
output that names the hash of that script; the same for an output that names the hash of the script's version 0 witness program. All
signatures are in DER form with the signature type. -/
inductive Unlocking where
  | one (o : KeyOutput) (der pub : Bytes)
  | multi (ders : List Bytes) (redeem : Bytes)
  | witnessMulti (ders : List Bytes) (redeem : Bytes)

/-- The unlocking script. Multi-signature checking drops one entry, which is why a zero comes first. -/
def Unlocking.script (sha256 : Bytes → Bytes) : Unlocking → Bytes
  | .one o der pub => o.script der pub
  | .multi ders redeem => 0x00 :: ((ders.map push).flatten ++ pushData redeem)
  | .witnessMulti _ redeem => push (witnessV0Script (sha256 redeem))

/-- The witness stack. -/
def Unlocking.stack : Unlocking → List Bytes
  | .one o der pub => o.stack der pub
  | .multi _ _ => []
  | .witnessMulti ders redeem => [] :: ders ++ [redeem]

/-- The serialisation of the transaction whose inputs are unlocked in this way, with witness data only if there are any. -/
def RawTx.unlocked (sha256 : Bytes → Bytes) (t : RawTx) (l : List Unlocking) : Bytes :=
  let signed := t.withScripts (l.map (Unlocking.script sha256))
  if l.any (fun x => x.stack ≠ []) then signed.serWitness (l.map Unlocking.stack) else signed.ser

/-- What is hashed to sign input `k`, which is `i` and spends an output of this value (BIP 143 for witnesses). -/
def Unlocking.message (hash : Bytes → Bytes) (t : RawTx) (k : Nat) (i : RawIn) (value : Nat) : Unlocking → Bytes
  | .one o _ _ => o.preimage hash t k i value
  | .multi _ redeem => legacyPreimage t k redeem
  | .witnessMulti _ redeem => bip143Preimage hash t i redeem value

/-- The script that the signatures satisfy, if it is not the locking script, has fewer than 253 bytes; a witness has two signatures. -/
def Unlocking.Plain : Unlocking → Prop
  | .one _ _ _ => True
  | .multi _ redeem => redeem.length < 253
  | .witnessMulti ders redeem => ders.length = 2 ∧ redeem.length < 253

end Verif.Spec
