import Verif.Model.Polkadot
import Verif.Spec.Json

/-! The text of a Polkadot transfer. -/

namespace Verif.Spec.Polkadot
open Verif Verif.Spec

/-- A member with a text. -/
def strMember (k : String) (s : Bytes) : Bytes × Json := (asc k, .str s)

/-- The text is a JSON object with the ten fields of the transfer in this order, keys and hashes as strings, numbers in decimal digits. -/
def IsText (ts : Polkadot.TxStruct) (text : Bytes) : Prop :=
  ∃ a n f h s v : Bytes, IsDigits a ts.amount.toNat ∧ IsDigits n ts.nonce.toNat ∧ IsDigits f ts.fee.toNat ∧ IsDigits h ts.blockHeight.toNat ∧
    IsDigits s ts.specVersion.toNat ∧ IsDigits v ts.txVersion.toNat ∧
    IsJson text (.obj [strMember "sender_pubkey" ts.senderPubkey, strMember "recipient_pubkey" ts.recipientPubkey, (asc "amount", .num a),
      (asc "nonce", .num n), (asc "fee", .num f), (asc "block_height", .num h), strMember "block_hash" ts.blockHash,
      strMember "genesis_hash" ts.genesisHash, (asc "spec_version", .num s), (asc "txVersion", .num v)])

/-- All four texts are UTF-8. -/
def TextUtf8 (ts : Polkadot.TxStruct) : Prop := IsUtf8 ts.senderPubkey ∧ IsUtf8 ts.recipientPubkey ∧ IsUtf8 ts.blockHash ∧ IsUtf8 ts.genesisHash

end Verif.Spec.Polkadot
