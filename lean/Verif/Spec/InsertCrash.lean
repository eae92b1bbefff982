import Verif.Spec.BtcKinds
import Verif.Spec.Crash
import Verif.Model.Btc

/-! Records of signatures with which completing a Bitcoin transaction crashes. -/

namespace Verif.Spec.InsertCrash
open Verif.Spec

/-- The texts of a locking script and a redeem script are those of an output of the given kind, which is unlocked with `script` (nothing if it is the output of a
single key without redeem script). `asset` and `loose` as in `Unlockable`. -/
def Opens (asset loose : Bool) (u : Btc.TxUnlock) : Btc.InType → Bytes → Prop
  | .p2pkh, script => script = [] ∧ ∃ h tail, h.length = 20 ∧ (tail = [] ∨ asset ∧ tail.length = 30) ∧
      Hex.decode u.lockScript = .ok (p2pkhScript h ++ tail) ∧ (loose ∨ u.redeemScript = [])
  | .p2wpkh, script => ∃ h tail k, h.length = 20 ∧ (tail = [] ∨ asset ∧ tail.length = 30) ∧ Hex.decode u.lockScript = .ok (p2shScript h ++ tail) ∧
      Hex.decode u.redeemScript = .ok script ∧ k.length = 20 ∧ script = witnessV0Script k
  | .multi, script => ∃ h tail, h.length = 20 ∧ (tail = [] ∨ asset ∧ tail.length = 30) ∧ Hex.decode u.lockScript = .ok (p2shScript h ++ tail) ∧
      Hex.decode u.redeemScript = .ok script ∧ 37 ≤ script.length ∧ script.getLast? = some 0xae
  | .bech32, script => script = [] ∧ u.redeemScript = [] ∧ ∃ k, k.length = 20 ∧ Hex.decode u.lockScript = .ok (witnessV0Script k)
  | .empty, _ => False

/-- One of the two numbers of a signature of 64 bytes is zero. -/
def ZeroHalf (sig : Bytes) : Prop := beNat (sig.take 32) = 0 ∨ beNat (sig.drop 32) = 0

/-- A place for a signature that holds one of 64 bytes, with a key of 33 bytes. -/
def Filled (p : Btc.SigPub) (sig : Bytes) : Prop := p.signature = some sig ∧ sig.length = 64 ∧ ∃ pub, p.pubkey = some pub ∧ pub.length = 33

/-- A place that holds nothing. -/
def Unfilled (p : Btc.SigPub) : Prop := p.signature = none ∧ p.pubkey = none

/-- The record asks for one signature, and it is there. -/
def Single (h : Btc.TxHash) (sig : Bytes) : Prop := h.nRequired = 0 ∧ ∃ n, h.normal = some n ∧ Filled n.sigPub sig

/-- The record asks for several signatures, `sigs` are there and no half of one, and their number, as a byte, suffices. -/
def Several (h : Btc.TxHash) (sigs : List Bytes) : Prop :=
  h.nRequired ≠ 0 ∧ (∀ m ∈ h.multi, Unfilled m.sigPub ∨ ∃ sig, Filled m.sigPub sig) ∧ sigs = h.multi.filterMap (fun m => m.sigPub.signature) ∧
    h.nRequired.toNat ≤ sigs.length % 256

/-- There is a redeem script, and it can be pushed. -/
def Pushable (segwitOn : Bool) (script : Bytes) : Prop := script ≠ [] ∧ (segwitOn = true ∨ script.length < 65536)

/-- The record unlocks an output with the redeem script. -/
def Fits (segwitOn : Bool) (h : Btc.TxHash) (script : Bytes) : Prop :=
  (∃ sig, Single h sig ∧ ¬ ZeroHalf sig) ∨
  ∃ sigs, Several h sigs ∧ Pushable segwitOn script ∧ ∀ sig ∈ sigs.take h.nRequired.toNat, ¬ ZeroHalf sig

/-- The record crashes: it has no place for its signature, or one of the signatures that would be used has a zero half. -/
def Crashes (segwitOn : Bool) (h : Btc.TxHash) (script : Bytes) : Prop :=
  (h.nRequired = 0 ∧ h.normal = none) ∨ (∃ sig, Single h sig ∧ ZeroHalf sig) ∨
  ∃ sigs, Several h sigs ∧ Pushable segwitOn script ∧ ∃ sig ∈ sigs.take h.nRequired.toNat, ZeroHalf sig

/-- Unlock data and records with which the insertion crashes. It looks at the inputs one after the other if none spends a witness output while those are off, and,
while they are on, unless an output of unknown kind comes before all that are not pay to key hash. It then crashes at the first input whose record is missing or
crashes, if all before are of known kinds and their records fit. -/
def CrashingRecords (opens : Btc.TxUnlock → Btc.InType → Bytes → Prop) (segwitOn : Bool) (hashes : List Btc.TxHash) (us : List Btc.TxUnlock) : Prop :=
  (segwitOn = true → ¬ Crash.FirstBad (fun u => ∃ s, opens u .p2pkh s) (fun u => ∀ kind s, ¬ opens u kind s) us) ∧
  (segwitOn = false → ∀ u ∈ us, ∃ s, opens u .p2pkh s ∨ opens u .multi s) ∧
  ∃ (k : Nat) (u : Btc.TxUnlock) (kind : Btc.InType) (script : Bytes), us[k]? = some u ∧ opens u kind script ∧ (∀ h, hashes[k]? = some h → Crashes segwitOn h script) ∧
    ∀ j < k, ∃ v h kind' script', us[j]? = some v ∧ hashes[j]? = some h ∧ opens v kind' script' ∧ Fits segwitOn h script'

end Verif.Spec.InsertCrash
