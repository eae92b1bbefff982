import Verif.Props.BtcVariantsSpend

/-! `hcTransaction` after creation: its `CreateRawTransactionHashForSig`, `InsertSignatureIntoEmptyTransaction` and `VerifyRawTransaction` agree with those
of `btcTransaction`, so the properties proved of those hold of it too (C88). -/

namespace Verif
open Verif.Spec Verif.Btc

namespace BtcVariants

theorem hc_decode (spare : Nat) (seg : Bool) (b : Bytes) : decodeTxV hc.version spare seg b = decodeTx spare seg b := by
  unfold decodeTxV decodeTx
  rfl

theorem hc_loop (H : Hashes) (seg : Bool) (P : AddressPrefix) : ∀ (us : List TxUnlock) (t : Tx) (idx : Nat),
    hashesLoop hc H seg P t idx us = Btc.hashesLoop H seg P t idx us
  | [], _, _ => rfl
  | u :: us, t, idx => by
    rw [hashesLoop, Btc.hashesLoop]
    have h1 : hashForSig hc H seg P t idx u = Btc.hashForSig H seg P t idx u := rfl
    have h2 : afterSig hc seg t idx u = Btc.afterSig seg t idx u := rfl
    rw [h1, h2]
    congr 1
    funext h
    rw [hc_loop H seg P us]

theorem hc_hashes (H : Hashes) (seg : Bool) (P : AddressPrefix) (t : Tx) (us : List TxUnlock) :
    hashesForSig hc H seg P t us = Btc.hashesForSig H seg P t us := by
  unfold hashesForSig Btc.hashesForSig
  rw [hc_loop]

theorem hc_segwit_go (seg : Bool) : ∀ us : List TxUnlock, isSegwit.go hc seg us = Btc.isSegwit.go seg us
  | [] => rfl
  | u :: us => by
    rw [isSegwit.go, Btc.isSegwit.go]
    congr 1
    funext ⟨a, b, ty⟩
    simp only
    rw [hc_segwit_go seg us]

theorem hc_segwit (seg : Bool) (us : List TxUnlock) : isSegwit hc seg us = Btc.isSegwit seg us := by
  cases us with
  | nil => rfl
  | cons u us => exact hc_segwit_go seg (u :: us)

theorem hc_insertLoop (H : Hashes) (seg sw : Bool) (hashes : List TxHash) : ∀ (is : List TxIn) (us : List TxUnlock) (idx : Nat),
    insertLoop hc H seg sw hashes idx is us = Btc.insertLoop H seg sw hashes idx is us
  | [], _, _ => by rw [insertLoop, Btc.insertLoop]
  | _ :: _, [], _ => by rw [insertLoop, Btc.insertLoop]
  | i :: is, u :: us, idx => by
    rw [insertLoop, Btc.insertLoop, hc_insertLoop H seg sw hashes is us]
    rfl

end BtcVariants

/-- C88 for HyperCash: for every text, unlocking data, signed records, network, hash functions and curve, the three functions of `hcTransaction` return
what those of `btcTransaction` return. So the messages are those of C29, and C28, C61, C63, C122 and C123 hold of it. -/
theorem C88_hc (H : Hashes) (C : Curve) (P : AddressPrefix) (text : Bytes) (us : List TxUnlock) (hashes : List TxHash) (segwitOn : Bool) :
    BtcVariants.createHashes BtcVariants.hc H text us segwitOn P = Btc.createHashes H text us segwitOn P ∧
    BtcVariants.insertSignatures BtcVariants.hc H text hashes us segwitOn = Btc.insertSignatures H text hashes us segwitOn ∧
    BtcVariants.verifyRaw BtcVariants.hc H C text us segwitOn P = Btc.verifyRaw H C text us segwitOn P := by
  refine ⟨?_, ?_, ?_⟩
  · unfold BtcVariants.createHashes Btc.createHashes
    simp only [BtcVariants.hc_decode, BtcVariants.hc_hashes]
  · unfold BtcVariants.insertSignatures Btc.insertSignatures
    simp only [BtcVariants.hc_decode, BtcVariants.hc_segwit, BtcVariants.hc_insertLoop]
    rfl
  · unfold BtcVariants.verifyRaw Btc.verifyRaw
    simp only [BtcVariants.hc_decode, BtcVariants.hc_hashes]
    rfl

end Verif
