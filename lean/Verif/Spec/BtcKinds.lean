import Verif.Spec.BtcSpend
import Verif.Model.Hex

/-! The kinds of outputs that the Bitcoin packages can spend. -/

namespace Verif.Spec
open Verif

/-- The texts of a locking script and a redeem script, together, are of one of the kinds that can be unlocked: pay to public key hash; pay to
script hash, for the witness program of a key or for a script ending in OP_CHECKMULTISIG; pay to the witness program of a key. With `asset`,
30 bytes of asset data may follow the first two; with `loose`, the first kind may come with any redeem script. -/
def Unlockable (asset loose : Bool) (lockText redeemText : Bytes) : Prop :=
  (∃ h tail, h.length = 20 ∧ (tail = [] ∨ asset ∧ tail.length = 30) ∧ Hex.decode lockText = .ok (p2pkhScript h ++ tail) ∧
    (loose ∨ redeemText = [])) ∨
  (∃ h tail r, h.length = 20 ∧ (tail = [] ∨ asset ∧ tail.length = 30) ∧ Hex.decode lockText = .ok (p2shScript h ++ tail) ∧
    Hex.decode redeemText = .ok r ∧ ((∃ k, k.length = 20 ∧ r = witnessV0Script k) ∨ (37 ≤ r.length ∧ r.getLast? = some 0xae))) ∨
  (∃ k, k.length = 20 ∧ Hex.decode lockText = .ok (witnessV0Script k) ∧ redeemText = [])

end Verif.Spec
