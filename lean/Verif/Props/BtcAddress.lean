import Verif.Props.BtcVariantsSign
import Verif.Props.BtcTx
import Verif.Props.BtcMulti
import Verif.Props.Address

/-! C102: who has to sign, as named with each hash by the Bitcoin-derived packages. -/

namespace Verif
open Verif.Spec Verif.Btc

namespace BtcAddr

theorem encodeCheck_spec {H : Hashes} {pre h a : Bytes} (he : encodeCheck H pre h = .ok a) : IsBase58Check H alphabet pre h a :=
  (Addr.encode_iff alphabet_ok _ _).mp he

theorem slice_p2pkh {h tail : Bytes} (hl : h.length = 20) : slice (p2pkhScript h ++ tail) 3 23 = .ok h := by
  rw [slice_ok (by omega) (by simp [p2pkhScript, hl])]
  have : p2pkhScript h ++ tail = ([0x76, 0xa9, 0x14] ++ h) ++ ([0x88, 0xac] ++ tail) := by simp [p2pkhScript]
  rw [this, show 23 = ([0x76, 0xa9, 0x14] ++ h).length by simp [hl], List.take_left]
  rfl

theorem slice_p2sh {h : Bytes} (hl : h.length = 20) : slice (p2shScript h) 2 22 = .ok h := by
  rw [slice_ok (by omega) (by simp [p2shScript, hl])]
  have : p2shScript h = ([0xa9, 0x14] ++ h) ++ [0x87] := by simp [p2shScript]
  rw [this, show 22 = ([0xa9, 0x14] ++ h).length by simp [hl], List.take_left]
  rfl

end BtcAddr
open BtcAddr

/-- C102, Bitcoin, P2PKH: the hash comes with the address of the key hash in the spent script and the signature type asked for. -/
theorem C102_btc_p2pkh (H : Hashes) (P : AddressPrefix) (tx : RawTx) (hu : Unsigned tx) (us : List TxUnlock) (segwitOn : Bool) (hs : List TxHash)
    (hc : Btc.createHashes H (Hex.encode tx.ser) us segwitOn P = .ok hs) (k : Nat) (u : TxUnlock) (hk : us[k]? = some u) (h : Bytes) (hl : h.length = 20)
    (hlock : Hex.decode u.lockScript = .ok (p2pkhScript h)) (hred : u.redeemScript = []) :
    ∃ th n, hs[k]? = some th ∧ th.nRequired = 0 ∧ th.normal = some n ∧ IsBase58Check H alphabet P.p2pkh h n.address ∧ n.sigType = u.sigType := by
  obtain ⟨_, _, hget⟩ := Btc.createHashes_get hu hc
  obtain ⟨th, h1, h2⟩ := hget k u hk
  unfold Btc.hashForSig at h2
  simp only [ofRaw_empty] at h2
  rw [hred, check_p2pkh hlock hl, Res.bind_ok] at h2
  obtain ⟨b, _, h4⟩ := Res.bind_eq_ok.mp h2
  unfold Btc.newTxHash at h4
  have e := slice_p2pkh (tail := []) hl
  rw [List.append_nil] at e
  simp only [e, Res.bind_ok] at h4
  obtain ⟨a, ha, h4⟩ := Res.bind_eq_ok.mp h4
  cases h4
  exact ⟨_, _, h1, rfl, rfl, encodeCheck_spec ha, rfl⟩

/-- C102, Bitcoin, witness key hash inside a script hash: the script-hash address. -/
theorem C102_btc_p2sh (H : Hashes) (P : AddressPrefix) (tx : RawTx) (hu : Unsigned tx) (us : List TxUnlock) (segwitOn : Bool) (hs : List TxHash)
    (hc : Btc.createHashes H (Hex.encode tx.ser) us segwitOn P = .ok hs) (k : Nat) (u : TxUnlock) (hk : us[k]? = some u) (h p : Bytes) (hl : h.length = 20)
    (hp : p.length = 20) (hlock : Hex.decode u.lockScript = .ok (p2shScript h)) (hred : Hex.decode u.redeemScript = .ok (witnessV0Script p)) :
    ∃ th n, hs[k]? = some th ∧ th.nRequired = 0 ∧ th.normal = some n ∧ IsBase58Check H alphabet P.p2wpkh h n.address ∧ n.sigType = u.sigType := by
  obtain ⟨_, _, hget⟩ := Btc.createHashes_get hu hc
  obtain ⟨th, h1, h2⟩ := hget k u hk
  unfold Btc.hashForSig at h2
  simp only [ofRaw_empty] at h2
  rw [check_p2wpkh hlock hl hred hp, Res.bind_ok] at h2
  obtain ⟨b, _, h4⟩ := Res.bind_eq_ok.mp h2
  unfold Btc.newTxHash at h4
  simp only [slice_p2sh hl, Res.bind_ok] at h4
  obtain ⟨a, ha, h4⟩ := Res.bind_eq_ok.mp h4
  cases h4
  exact ⟨_, _, h1, rfl, rfl, encodeCheck_spec ha, rfl⟩

/-- C102, Bitcoin, witness key hash: the bech32 address that pays to the script spent. -/
theorem C102_btc_witness (H : Hashes) (P : AddressPrefix) (hh : Bech32.IsHrp P.bech32) (tx : RawTx) (hu : Unsigned tx) (us : List TxUnlock) (segwitOn : Bool)
    (hs : List TxHash) (hc : Btc.createHashes H (Hex.encode tx.ser) us segwitOn P = .ok hs) (k : Nat) (u : TxUnlock) (hk : us[k]? = some u) (p : Bytes)
    (hp : p.length = 20) (hlock : Hex.decode u.lockScript = .ok (witnessV0Script p)) (hred : u.redeemScript = []) :
    ∃ th n, hs[k]? = some th ∧ th.nRequired = 0 ∧ th.normal = some n ∧ PaysTo H P n.address (witnessV0Script p) ∧ n.sigType = u.sigType := by
  obtain ⟨_, _, hget⟩ := Btc.createHashes_get hu hc
  obtain ⟨th, h1, h2⟩ := hget k u hk
  unfold Btc.hashForSig at h2
  simp only [ofRaw_empty] at h2
  rw [hred, check_bech32 hlock hp, Res.bind_ok] at h2
  obtain ⟨b, _, h4⟩ := Res.bind_eq_ok.mp h2
  unfold Btc.newTxHash at h4
  have e : slice (witnessV0Script p) 2 (witnessV0Script p).length = .ok p := by
    rw [slice_ok (by simp [witnessV0Script, push]) (by omega), List.take_length]
    rfl
  simp only [e, Res.bind_ok] at h4
  obtain ⟨a, ha, h4⟩ := Res.bind_eq_ok.mp h4
  cases h4
  obtain ⟨addr, ha', hpay⟩ := C30_bech32_script_partial H P p (Or.inl hp) hh
  rw [ha] at ha'
  cases ha'
  exact ⟨_, _, h1, rfl, rfl, hpay, rfl⟩

/-- C102, Bitcoin, multisig with at most 15 keys: the number of signatures required and the keys of the redeem script, in order. -/
theorem C102_btc_multisig (H : Hashes) (P : AddressPrefix) (tx : RawTx) (hu : Unsigned tx) (us : List TxUnlock) (segwitOn : Bool) (hs : List TxHash)
    (hc : Btc.createHashes H (Hex.encode tx.ser) us segwitOn P = .ok hs) (k : Nat) (u : TxUnlock) (hk : us[k]? = some u) (h : Bytes) (hl : h.length = 20)
    (m : UInt8) (keys : List Bytes) (hm1 : 1 ≤ m.toNat) (hm2 : m.toNat ≤ keys.length) (hn : keys.length ≤ 15) (hkl : ∀ k ∈ keys, k.length = 33)
    (hlock : Hex.decode u.lockScript = .ok (p2shScript h)) (hred : Hex.decode u.redeemScript = .ok (multisigScript m.toNat keys)) :
    ∃ th, hs[k]? = some th ∧ th.nRequired = m ∧ th.normal = none ∧ th.multi.map (fun x => (x.pubkey, x.sigType)) = keys.map fun x => (Hex.encode x, u.sigType) := by
  obtain ⟨_, _, hget⟩ := Btc.createHashes_get hu hc
  obtain ⟨th, h1, h2⟩ := hget k u hk
  have h37 : 37 ≤ (multisigScript m.toNat keys).length := by
    have hlen : ((keys.map push).flatten).length = 34 * keys.length := by
      rw [flatten_length_map push (fun _ => 34) keys (fun k hkm => by simp [push, hkl k hkm])]
      simp only [List.map_const', List.sum_replicate_nat, Nat.mul_comm]
    simp only [multisigScript, List.length_append, hlen, List.length_cons, List.length_nil]
    omega
  unfold Btc.hashForSig at h2
  simp only [ofRaw_empty] at h2
  rw [check_multi hlock hl hred h37 (multisig_last _ keys), Res.bind_ok] at h2
  obtain ⟨b, _, h4⟩ := Res.bind_eq_ok.mp h2
  unfold Btc.newTxHash at h4
  simp only [(C27_roundtrip_partial m keys hm1 hm2 hn hkl).2, Res.bind_ok] at h4
  cases h4
  refine ⟨_, h1, rfl, rfl, ?_⟩
  simp

open BtcVariants in
/-- C102, Bitcoin SV, CXC (possibly with asset data), HC and Horizen (with anything behind the script), P2PKH. -/
theorem C102_variants_p2pkh (V : Variant) (hV : V = bsv ∨ V = cxc ∨ V = hc ∨ V = zen) (H : Hashes) (P : AddressPrefix) (tx : RawTx)
    (hu : UnsignedV V.version tx) (us : List TxUnlock) (segwitOn : Bool) (hs : List TxHash)
    (hc : BtcVariants.createHashes V H (Hex.encode tx.ser) us segwitOn P = .ok hs) (k : Nat) (u : TxUnlock) (hk : us[k]? = some u) (h tail : Bytes)
    (hl : h.length = 20) (ht : tail.length = 0 ∨ (V = cxc ∧ tail.length = 30) ∨ V = zen)
    (hlock : Hex.decode u.lockScript = .ok (p2pkhScript h ++ tail)) (hred : u.redeemScript = []) :
    ∃ th n, hs[k]? = some th ∧ th.nRequired = 0 ∧ th.normal = some n ∧ IsBase58Check H alphabet P.p2pkh h n.address ∧ n.sigType = u.sigType := by
  have hv : V.version < 2 ^ 32 := by rcases hV with rfl | rfl | rfl | rfl <;> decide
  obtain ⟨_, _, hget⟩ := BtcVariants.createHashes_get hv hu hc
  obtain ⟨th, h1, h2⟩ := hget k u hk
  unfold BtcVariants.hashForSig at h2
  simp only [ofRaw_empty] at h2
  have hck : V.check u.lockScript u.redeemScript = .ok (p2pkhScript h ++ tail, [], .p2pkh) := by
    rw [hred]
    have hnil : tail.length = 0 → tail = [] := List.length_eq_zero_iff.mp
    rcases hV with rfl | rfl | rfl | rfl
    · rcases ht with ht | ⟨ht, _⟩ | ht
      · rw [hnil ht, List.append_nil] at hlock ⊢
        exact checkBch_p2pkh hlock hl
      · exact absurd (congrArg (fun V : Variant => (V.sigScript false [] [] .p2pkh).isSome) ht) (by decide)
      · exact absurd (congrArg (fun V : Variant => (V.sigScript false [] [] .p2pkh).isSome) ht) (by decide)
    · refine checkCxc_p2pkh hlock hl ?_
      rcases ht with ht | ⟨_, ht⟩ | ht
      · exact Or.inl ht
      · exact Or.inr ht
      · exact absurd (congrArg (fun V : Variant => V.check [] []) ht) (by decide)
    · rcases ht with ht | ⟨ht, _⟩ | ht
      · rw [hnil ht, List.append_nil] at hlock ⊢
        exact check_p2pkh hlock hl
      · exact absurd (congrArg Variant.version ht) (by decide)
      · exact absurd (congrArg Variant.version ht) (by decide)
    · show checkZen u.lockScript [] = _
      unfold checkZen
      rw [Hex.decodePrefix_of_ok _ _ hlock]
  rw [hck, Res.bind_ok] at h2
  obtain ⟨b, _, h4⟩ := Res.bind_eq_ok.mp h2
  have h4 : (do
      let h ← slice (p2pkhScript h ++ tail) 3 23
      let a ← encodeCheck H P.p2pkh h
      Res.ok (⟨Hex.encode (H.hash .doubleSha256 b), 0, some ⟨a, u.sigType, ⟨none, none⟩⟩, []⟩ : TxHash)) = .ok th := by
    rcases hV with rfl | rfl | rfl | rfl <;> exact h4
  rw [slice_p2pkh hl, Res.bind_ok] at h4
  obtain ⟨a, ha, h4⟩ := Res.bind_eq_ok.mp h4
  cases h4
  exact ⟨_, _, h1, rfl, rfl, encodeCheck_spec ha, rfl⟩

open BtcVariants in
/-- C102, Bitcoin Cash, P2PKH: the cashaddr text that `AddressDecode` reads as a key hash (type byte 0) and the hash in the spent script. -/
theorem C102_bch_p2pkh (H : Hashes) (P : AddressPrefix) (tx : RawTx) (hu : UnsignedV 1 tx) (us : List TxUnlock) (segwitOn : Bool) (hs : List TxHash)
    (hc : BtcVariants.createHashes bch H (Hex.encode tx.ser) us segwitOn P = .ok hs) (k : Nat) (u : TxUnlock) (hk : us[k]? = some u) (h : Bytes)
    (hl : h.length = 20) (hlock : Hex.decode u.lockScript = .ok (p2pkhScript h)) :
    ∃ th n, hs[k]? = some th ∧ th.nRequired = 0 ∧ th.normal = some n ∧
      Addr.addressDecode H n.address Addr.BCH_mainnetAddressCash = .ok (0 :: h) ∧ n.sigType = u.sigType := by
  obtain ⟨_, _, hget⟩ := BtcVariants.createHashes_get (V := bch) (by decide) hu hc
  obtain ⟨th, h1, h2⟩ := hget k u hk
  unfold BtcVariants.hashForSig at h2
  simp only [ofRaw_empty, bch] at h2
  rw [checkBch_p2pkh hlock hl, Res.bind_ok] at h2
  obtain ⟨b, _, h4⟩ := Res.bind_eq_ok.mp h2
  have e := slice_p2pkh (tail := []) hl
  rw [List.append_nil] at e
  unfold newTxHashBch at h4
  simp only [e, Res.bind_ok] at h4
  obtain ⟨a, ha, h4⟩ := Res.bind_eq_ok.mp h4
  cases h4
  obtain ⟨t, ht, hd⟩ := C12_cashaddr_roundtrip_partial H h hl
  unfold bchAddress at ha
  rw [ha] at ht
  cases ht
  exact ⟨_, _, h1, rfl, rfl, hd, rfl⟩

/-! Requests to which the theorems apply. -/

namespace BtcAddr
open BtcVariants

example : (Btc.createHashes toyHashes (Hex.encode demoTx.ser) [⟨Hex.encode (p2pkhScript (List.replicate 20 5)), [], 1, 1⟩] false btcMainnet).isOk = true := by
  decide +kernel
example : (Btc.createHashes toyHashes (Hex.encode demoTx.ser) [⟨Hex.encode (p2shScript (List.replicate 20 5)),
    Hex.encode (witnessV0Script (List.replicate 20 7)), 1, 1⟩] false btcMainnet).isOk = true := by decide +kernel
example : (Btc.createHashes toyHashes (Hex.encode demoTx.ser) [⟨Hex.encode (witnessV0Script (List.replicate 20 7)), [], 1, 1⟩] false btcMainnet).isOk = true := by
  decide +kernel
example : (Btc.createHashes toyHashes (Hex.encode demoTx.ser) [⟨Hex.encode (p2shScript (List.replicate 20 5)), Hex.encode (multisigScript 2 [key0, key1]), 1, 1⟩]
    false btcMainnet).isOk = true := by decide +kernel
example : (BtcVariants.createHashes BtcVariants.hc toyHashes (Hex.encode demoTx.ser) [⟨Hex.encode (p2pkhScript (List.replicate 20 5)), [], 1, 1⟩] false btcMainnet).isOk = true := by
  decide +kernel

example : ∀ Vs ∈ [(bch, 0x41), (bsv, 0x41), (cxc, 1), (zen, 1)], (BtcVariants.createHashes Vs.1 toyHashes (Hex.encode demoTx1.ser) [⟨Hex.encode (p2pkhScript (List.replicate 20 5)), [], 1, Vs.2⟩]
    false btcMainnet).isOk = true := by decide +kernel

end BtcAddr

end Verif
