import Verif.Lemmas.BtcVariants

/-! Properties C87, C88 and C92: messages to be signed and verification for the packages derived from `btcTransaction` (Bitcoin Cash, Bitcoin
SV, CXC, HC, Horizen). -/

namespace Verif
open Verif.Spec Verif.Btc Verif.BtcVariants

namespace BtcVariants

theorem checkBch_p2pkh {lock redeem h : Bytes} (hd : Hex.decode lock = .ok (p2pkhScript h)) (hl : h.length = 20) :
    checkBch lock redeem = .ok (p2pkhScript h, [], .p2pkh) := by
  unfold checkBch
  rw [hd]
  simp [p2pkhScript, hl]

theorem checkBch_multi {lock redeem h r : Bytes} (hd : Hex.decode lock = .ok (p2shScript h)) (hl : h.length = 20)
    (hr : Hex.decode redeem = .ok r) (h37 : 37 ≤ r.length) (hlast : r.getLast? = some 0xae) :
    checkBch lock redeem = .ok (p2shScript h, r, .multi) := by
  unfold checkBch
  rw [hd, hr]
  simp [p2shScript, hl, hlast, h37, show r.length ≠ 22 by omega]

theorem checkBch_bech32 {lock k : Bytes} (hd : Hex.decode lock = .ok (witnessV0Script k)) (hk : k.length = 20) :
    checkBch lock [] = .ok (witnessV0Script k, [], .bech32) := by
  unfold checkBch
  rw [hd]
  simp [witnessV0Script, push, hk]

theorem checkCxc_p2pkh {lock h tail : Bytes} (hd : Hex.decode lock = .ok (p2pkhScript h ++ tail)) (hl : h.length = 20)
    (ht : tail.length = 0 ∨ tail.length = 30) : checkCxc lock [] = .ok (p2pkhScript h ++ tail, [], .p2pkh) := by
  unfold checkCxc
  rw [hd]
  have e : (p2pkhScript h ++ tail).length = 25 + tail.length := by simp [p2pkhScript, hl]; omega
  have g : ∀ j, j < 25 → (p2pkhScript h ++ tail)[j]? = (p2pkhScript h)[j]? := by
    intro j hj
    rw [List.getElem?_append_left]
    simp [p2pkhScript, hl]; omega
  simp only [e]
  rw [if_pos]
  · simp
  · refine ⟨by omega, ?_, ?_, ?_, ?_, ?_⟩ <;> rw [g _ (by omega)] <;> simp [p2pkhScript, hl]

theorem scriptCode_p2pkh (h : Bytes) : scriptCode (p2pkhScript h) = .ok (p2pkhScript h) :=
  scriptCode_other 0x76 ([0xa9, 0x14] ++ h ++ [0x88, 0xac]) rfl (by decide)

/-- The message of an input of the two replay-protected chains. -/
theorem forkid_hash {V : Variant} (hV : V = bch ∨ V = bsv) {H : Hashes} {P : AddressPrefix} {tx : RawTx} {k : Nat} {u : TxUnlock}
    {seg : Bool} {th : TxHash} {lock redeem : Bytes} {ty : InType} (hc : checkBch u.lockScript u.redeemScript = .ok (lock, redeem, ty))
    (h : hashForSig V H seg P (ofRaw tx) k u = .ok th) :
    ∃ b, bytesForSigBch H seg (ofRaw tx) lock redeem ty u.sigType k u.amount = .ok b ∧ th.hash = Hex.encode (H.hash .doubleSha256 b) := by
  unfold BtcVariants.hashForSig at h
  simp only [ofRaw_empty] at h
  rcases hV with rfl | rfl
  · simp only [bch] at h
    rw [hc, Res.bind_ok] at h
    obtain ⟨b, h3, h4⟩ := Res.bind_eq_ok.mp h
    exact ⟨b, h3, newTxHashBch_hash h4⟩
  · simp only [bsv] at h
    rw [hc, Res.bind_ok] at h
    obtain ⟨b, h3, h4⟩ := Res.bind_eq_ok.mp h
    exact ⟨b, h3, newTxHashBch_hash h4⟩

end BtcVariants

/-- C87, P2PKH: for every unsigned transaction, the message returned by `CreateRawTransactionHashForSig` of Bitcoin Cash and Bitcoin SV for an
input spending a P2PKH output is the double SHA-256 of the replay-protected (SIGHASH_FORKID) preimage with the locking script and amount of
that output. -/
theorem C87_p2pkh_partial (V : Variant) (hV : V = bch ∨ V = bsv) (H : Hashes) (P : AddressPrefix) (tx : RawTx) (hu : UnsignedV 1 tx)
    (us : List TxUnlock) (segwitOn : Bool) (hs : List TxHash) (hc : createHashes V H (Hex.encode tx.ser) us segwitOn P = .ok hs)
    (k : Nat) (u : TxUnlock) (hk : us[k]? = some u) (i : RawIn) (hi : tx.ins[k]? = some i) (h : Bytes) (hl : h.length = 20)
    (hlock : Hex.decode u.lockScript = .ok (p2pkhScript h)) :
    ∃ th, hs[k]? = some th ∧ th.hash = Hex.encode (H.hash .doubleSha256
      (forkIdPreimage (H.hash .doubleSha256) tx i (p2pkhScript h) u.amount.toNat)) := by
  have hv : V.version = 1 := by rcases hV with rfl | rfl <;> rfl
  obtain ⟨_, _, hget⟩ := createHashes_get (V := V) (by rw [hv]; decide) (by rw [hv]; exact hu) hc
  obtain ⟨th, h1, h2⟩ := hget k u hk
  refine ⟨th, h1, ?_⟩
  obtain ⟨b, h3, h4⟩ := forkid_hash hV (checkBch_p2pkh hlock hl) h2
  rw [h4]
  unfold bytesForSigBch at h3
  split at h3
  · simp at h3
  simp only at h3
  obtain ⟨ti, h7, h3⟩ := Res.bind_eq_ok.mp h3
  obtain ⟨body, h8, h6⟩ := Res.bind_eq_ok.mp h3
  simp only [Res.ok.injEq] at h6
  rw [← h6, forkid_bytes hu _ _ (scriptCode_p2pkh h) (by simp [p2pkhScript, hl]) hi h7 h8]

/-- C87, script hash with a multisig redeem script, if `SegwitON` is set (although neither chain has segregated witness): the replay-protected
preimage with the redeem script. -/
theorem C87_multisig_partial (V : Variant) (hV : V = bch ∨ V = bsv) (H : Hashes) (P : AddressPrefix) (tx : RawTx) (hu : UnsignedV 1 tx)
    (us : List TxUnlock) (hs : List TxHash) (hc : createHashes V H (Hex.encode tx.ser) us true P = .ok hs)
    (k : Nat) (u : TxUnlock) (hk : us[k]? = some u) (i : RawIn) (hi : tx.ins[k]? = some i) (h : Bytes) (m : Nat) (keys : List Bytes)
    (hm : m ≤ 16) (hl : h.length = 20)
    (hlock : Hex.decode u.lockScript = .ok (p2shScript h)) (hred : Hex.decode u.redeemScript = .ok (multisigScript m keys))
    (h37 : 37 ≤ (multisigScript m keys).length) (hr : (multisigScript m keys).length < 253) :
    ∃ th, hs[k]? = some th ∧ th.hash = Hex.encode (H.hash .doubleSha256
      (forkIdPreimage (H.hash .doubleSha256) tx i (multisigScript m keys) u.amount.toNat)) := by
  have hv : V.version = 1 := by rcases hV with rfl | rfl <;> rfl
  obtain ⟨_, _, hget⟩ := createHashes_get (V := V) (by rw [hv]; decide) (by rw [hv]; exact hu) hc
  obtain ⟨th, h1, h2⟩ := hget k u hk
  refine ⟨th, h1, ?_⟩
  obtain ⟨b, h3, h4⟩ := forkid_hash hV (checkBch_multi hlock hl hred h37 (multisig_last m keys)) h2
  rw [h4]
  unfold bytesForSigBch at h3
  split at h3
  · simp at h3
  simp only [if_true] at h3
  obtain ⟨ti, h7, h3⟩ := Res.bind_eq_ok.mp h3
  obtain ⟨body, h8, h6⟩ := Res.bind_eq_ok.mp h3
  simp only [Res.ok.injEq] at h6
  have hcode : scriptCode (multisigScript m keys) = .ok (multisigScript m keys) :=
    scriptCode_other (UInt8.ofNat (0x50 + m)) _ rfl (u8_ofNat_ne0 (by omega) (by omega))
  rw [← h6, forkid_bytes hu _ _ hcode hr hi h7 h8]

/-- The length of a preimage in the old format. -/
theorem BtcVariants.legacy_length {tx : RawTx} {v : Nat} (hu : UnsignedV v tx) {k : Nat} (hk : k < tx.ins.length) {r : Bytes} (hr : r.length < 253) :
    (RawTx.ser { tx with ins := tx.ins.mapIdx (fun j i => { i with script := if j = k then r else [] }) }).length =
      10 + 41 * tx.ins.length + r.length + ((tx.outs.map RawOut.ser).flatten).length := by
  have key : ∀ (l : List RawIn) (n : Nat), (∀ i ∈ l, i.prev.length = 32) →
      ((l.mapIdx (fun j i => ({ i with script := if j + n = k then r else [] } : RawIn))).map RawIn.ser).flatten.length =
        41 * l.length + if n ≤ k ∧ k < n + l.length then r.length else 0 := by
    intro l
    induction l with
    | nil => intro n _; simp
    | cons a l ih =>
      intro n hp
      rw [List.mapIdx_cons, List.map_cons, List.flatten_cons, List.length_append]
      have h1 := ih (n + 1) (fun i hi => hp i (by simp [hi]))
      simp only [show ∀ j, j + (n + 1) = j + 1 + n from fun j => by omega] at h1
      rw [h1]
      have h2 : (RawIn.ser { a with script := if 0 + n = k then r else [] }).length = 41 + if n = k then r.length else 0 := by
        simp only [RawIn.ser, RawIn.outpoint, varBytes, List.length_append, leBytes_length, hp a (by simp), Nat.zero_add]
        split
        · rw [compactSize_small hr]; simp; omega
        · simp [compactSize]
      rw [h2]
      simp only [List.length_cons]
      by_cases c : n = k
      · subst c
        rw [if_pos rfl, if_neg (by omega), if_pos (by omega)]; omega
      · rw [if_neg c]
        by_cases d : n + 1 ≤ k ∧ k < n + 1 + l.length
        · rw [if_pos d, if_pos (by omega)]; omega
        · rw [if_neg d, if_neg (by omega)]; omega
  have h := key tx.ins 0 (fun i hi => (hu.ins i hi).1)
  simp only [Nat.add_zero] at h
  rw [if_pos (by omega)] at h
  simp only [RawTx.ser, List.length_append, leBytes_length, h, List.length_mapIdx, compactSize_small hu.insLt,
    compactSize_small hu.outsLt, List.length_singleton]
  omega

/-- C87 is false for multisig without `SegwitON`: what is hashed is the old format (behind it the signature type 0x41), which Bitcoin Cash and
Bitcoin SV do not accept; it is different from the replay-protected preimage for every transaction where not even the lengths agree (as with
one input and one or two P2PKH outputs). -/
theorem C87_multisig_old_format_violated (V : Variant) (hV : V = bch ∨ V = bsv) (H : Hashes) (P : AddressPrefix) (tx : RawTx)
    (hu : UnsignedV 1 tx) (us : List TxUnlock) (hs : List TxHash) (hc : createHashes V H (Hex.encode tx.ser) us false P = .ok hs)
    (k : Nat) (u : TxUnlock) (hk : us[k]? = some u) (i : RawIn) (hi : tx.ins[k]? = some i) (h r : Bytes) (hl : h.length = 20)
    (hlock : Hex.decode u.lockScript = .ok (p2shScript h)) (hred : Hex.decode u.redeemScript = .ok r)
    (h37 : 37 ≤ r.length) (hlast : r.getLast? = some 0xae) (hr : r.length < 253)
    (hlen : 41 * tx.ins.length + ((tx.outs.map RawOut.ser).flatten).length ≠ 143) :
    ∃ th pre, hs[k]? = some th ∧ th.hash = Hex.encode (H.hash .doubleSha256 pre) ∧
      pre = RawTx.ser { tx with ins := tx.ins.mapIdx (fun j i => { i with script := if j = k then r else [] }) } ++ leBytes 4 0x41 ∧
      pre ≠ forkIdPreimage (H.hash .doubleSha256) tx i r u.amount.toNat := by
  have hv : V.version = 1 := by rcases hV with rfl | rfl <;> rfl
  obtain ⟨_, _, hget⟩ := createHashes_get (V := V) (by rw [hv]; decide) (by rw [hv]; exact hu) hc
  obtain ⟨th, h1, h2⟩ := hget k u hk
  obtain ⟨b, h3, h4⟩ := forkid_hash hV (checkBch_multi hlock hl hred h37 hlast) h2
  refine ⟨th, b, h1, h4, ?_, ?_⟩
  all_goals
    unfold bytesForSigBch at h3
    split at h3
    · simp at h3
    simp only [Bool.false_eq_true, if_false] at h3
    rw [legacy_bytesV hu false k r hr, Res.bind_ok] at h3
    simp only [Res.ok.injEq] at h3
  · exact h3.symm
  · intro he
    have he := congrArg List.length (h3.trans he)
    have hkl := (List.getElem?_eq_some_iff.mp hi).1
    have hip := (hu.ins i (List.mem_of_getElem? hi)).1
    rw [List.length_append, legacy_length hu hkl hr] at he
    simp only [forkIdPreimage, RawIn.outpoint, varBytes, List.length_append, leBytes_length, H.size, hip, compactSize_small hr,
      List.length_singleton, Alg.size] at he
    omega

/-- C87 is false for witness inputs: `CreateRawTransactionHashForSig` of both packages panics for every transaction with an input spending a
P2WPKH output (instead of an error: there are no such outputs to spend on these chains), if the inputs before it are accepted. -/
theorem C87_witness_panics_violated (V : Variant) (hV : V = bch ∨ V = bsv) (H : Hashes) (P : AddressPrefix) (tx : RawTx) (hu : UnsignedV 1 tx)
    (u : TxUnlock) (us : List TxUnlock) (hl : us.length + 1 = tx.ins.length) (segwitOn : Bool) (kh : Bytes) (hkh : kh.length = 20)
    (hlock : Hex.decode u.lockScript = .ok (witnessV0Script kh)) (hred : u.redeemScript = []) (hst : u.sigType = 0x41) (ha : u.amount ≠ 0) :
    createHashes V H (Hex.encode tx.ser) (u :: us) segwitOn P = .panic := by
  have hv : V.version = 1 := by rcases hV with rfl | rfl <;> rfl
  unfold BtcVariants.createHashes
  rw [Hex.decode_encode, Res.bind_ok, hv, decode_unsignedV (by decide) hu, Res.bind_ok]
  unfold BtcVariants.hashesForSig
  have hins := hu.insPos
  rw [if_neg (by simp [ofRaw]; omega), if_neg (by
    intro h
    have := congrArg List.length h
    simp [ofRaw] at this
    have h3 := hu.outsPos
    rw [this] at h3; simp at h3)]
  rw [BtcVariants.hashesLoop]
  have hz : hashForSig V H segwitOn P (ofRaw tx) 0 u = .panic := by
    unfold BtcVariants.hashForSig
    simp only [ofRaw_empty]
    have hb : ∃ b, bytesForSigBch H segwitOn (ofRaw tx) (witnessV0Script kh) [] .bech32 u.sigType 0 u.amount = .ok b := by
      unfold bytesForSigBch
      rw [if_neg (by simp [hst])]
      simp only
      rw [index_ok (show 0 < (ofRaw tx).vins.length by simp [ofRaw]; omega), Res.bind_ok]
      unfold segwitBytesForSig
      rw [scriptCode_p2wpkh hkh, Res.bind_ok, if_neg ha]
      exact ⟨_, rfl⟩
    obtain ⟨b, hb⟩ := hb
    rcases hV with rfl | rfl
    · simp only [bch]
      rw [hred, checkBch_bech32 hlock hkh, Res.bind_ok, hb, Res.bind_ok]; rfl
    · simp only [bsv]
      rw [hred, checkBch_bech32 hlock hkh, Res.bind_ok, hb, Res.bind_ok]; rfl
  rw [hz]; rfl

namespace BtcVariants

/-- Version 1, one input, one output. -/
def demoTx1 : RawTx := { demoTx with version := 1 }

theorem demoTx1_unsigned : UnsignedV 1 demoTx1 :=
  ⟨rfl, demoTx_unsigned.lockTime, demoTx_unsigned.insPos, demoTx_unsigned.insLt, demoTx_unsigned.outsPos, demoTx_unsigned.outsLt,
    demoTx_unsigned.ins, demoTx_unsigned.outs⟩

def forkUnlock (h : Bytes) : TxUnlock := ⟨Hex.encode (p2pkhScript h), [], 7, 0x41⟩
def forkMulti (m : Nat) (keys : List Bytes) : TxUnlock :=
  ⟨Hex.encode (p2shScript (List.replicate 20 5)), Hex.encode (multisigScript m keys), 7, 0x41⟩

-- the hypotheses of the theorems on C87 can be met
example : (createHashes bch toyHashes (Hex.encode demoTx1.ser) [forkUnlock (List.replicate 20 5)] false btcMainnet).isOk = true := by
  decide +kernel
example : (createHashes bsv toyHashes (Hex.encode demoTx1.ser) [forkUnlock (List.replicate 20 5)] false btcMainnet).isOk = true := by
  decide +kernel
example : (createHashes bch toyHashes (Hex.encode demoTx1.ser) [forkMulti 2 [key0, key1]] true btcMainnet).isOk = true := by decide +kernel
example : (createHashes bch toyHashes (Hex.encode demoTx1.ser) [forkMulti 2 [key0, key1]] false btcMainnet).isOk = true := by decide +kernel
example : 41 * demoTx1.ins.length + ((demoTx1.outs.map RawOut.ser).flatten).length ≠ 143 := by decide +kernel

end BtcVariants

/-! ### C88: CXC and Horizen -/

/-- C88, CXC: the message for an input spending a P2PKH output, with or without 30 bytes of asset data behind the script, is the double SHA-256
of the transaction with the whole locking script in place of the unlocking script of that input, followed by the signature type. -/
theorem C88_cxc_partial (H : Hashes) (P : AddressPrefix) (tx : RawTx) (hu : UnsignedV 1 tx) (us : List TxUnlock) (segwitOn : Bool)
    (hs : List TxHash) (hc : createHashes cxc H (Hex.encode tx.ser) us segwitOn P = .ok hs) (k : Nat) (u : TxUnlock)
    (hk : us[k]? = some u) (h tail : Bytes) (hl : h.length = 20) (ht : tail.length = 0 ∨ tail.length = 30)
    (hlock : Hex.decode u.lockScript = .ok (p2pkhScript h ++ tail)) (hred : u.redeemScript = []) :
    ∃ th, hs[k]? = some th ∧ th.hash = Hex.encode (H.hash .doubleSha256 (legacyPreimage tx k (p2pkhScript h ++ tail))) := by
  obtain ⟨_, _, hget⟩ := createHashes_get (V := cxc) (by decide) hu hc
  obtain ⟨th, h1, h2⟩ := hget k u hk
  refine ⟨th, h1, ?_⟩
  unfold BtcVariants.hashForSig at h2
  simp only [ofRaw_empty, cxc] at h2
  rw [hred, checkCxc_p2pkh hlock hl ht, Res.bind_ok] at h2
  obtain ⟨b, h3, h4⟩ := Res.bind_eq_ok.mp h2
  rw [newTxHash_hash h4]
  unfold bytesForSig at h3
  split at h3
  · simp at h3
  simp only at h3
  rw [legacy_bytesV hu segwitOn k (p2pkhScript h ++ tail) (by simp [p2pkhScript, hl]; omega), Res.bind_ok] at h3
  simp only [Res.ok.injEq] at h3
  rw [← h3]; rfl

/-- C88, Horizen: for a locking script of less than 253 bytes, whatever follows the P2PKH part (the block reference). -/
theorem C88_zen_partial (H : Hashes) (P : AddressPrefix) (tx : RawTx) (hu : UnsignedV 1 tx) (us : List TxUnlock) (segwitOn : Bool)
    (hs : List TxHash) (hc : createHashes zen H (Hex.encode tx.ser) us segwitOn P = .ok hs) (k : Nat) (u : TxUnlock)
    (hk : us[k]? = some u) (script : Bytes) (hl : script.length < 253) (hlock : Hex.decode u.lockScript = .ok script) :
    ∃ th, hs[k]? = some th ∧ th.hash = Hex.encode (H.hash .doubleSha256 (legacyPreimage tx k script)) := by
  obtain ⟨_, _, hget⟩ := createHashes_get (V := zen) (by decide) hu hc
  obtain ⟨th, h1, h2⟩ := hget k u hk
  refine ⟨th, h1, ?_⟩
  unfold BtcVariants.hashForSig at h2
  simp only [ofRaw_empty, zen, checkZen, Hex.decodePrefix_of_ok _ _ hlock] at h2
  rw [Res.bind_ok] at h2
  obtain ⟨b, h3, h4⟩ := Res.bind_eq_ok.mp h2
  rw [newTxHash_hash h4]
  unfold bytesForSig at h3
  split at h3
  · simp at h3
  simp only at h3
  rw [legacy_bytesV hu segwitOn k script hl, Res.bind_ok] at h3
  simp only [Res.ok.injEq] at h3
  rw [← h3]; rfl

/-- C88 is false for Horizen outputs locked by a script hash: the redeem script is ignored, so that the message is not the one for the redeem
script unless that script is the locking script itself. -/
theorem C88_zen_script_hash_violated (H : Hashes) (P : AddressPrefix) (tx : RawTx) (hu : UnsignedV 1 tx) (us : List TxUnlock)
    (segwitOn : Bool) (hs : List TxHash) (hc : createHashes zen H (Hex.encode tx.ser) us segwitOn P = .ok hs) (k : Nat) (u : TxUnlock)
    (hk : us[k]? = some u) (h tail r : Bytes) (hl : h.length = 20) (ht : tail.length < 230)
    (hlock : Hex.decode u.lockScript = .ok (p2shScript h ++ tail)) (hr : r.length ≠ 23 + tail.length) (hr2 : r.length < 253) :
    ∃ th pre, hs[k]? = some th ∧ th.hash = Hex.encode (H.hash .doubleSha256 pre) ∧ pre ≠ legacyPreimage tx k r := by
  have hsl : (p2shScript h ++ tail).length = 23 + tail.length := by simp [p2shScript, hl]; omega
  obtain ⟨th, h1, h2⟩ := C88_zen_partial H P tx hu us segwitOn hs hc k u hk _ (by omega) hlock
  refine ⟨th, _, h1, h2, ?_⟩
  intro he
  obtain ⟨h3, _, _⟩ := createHashes_get (V := zen) (by decide) hu hc
  have hkl : k < tx.ins.length := by rw [← h3]; exact (List.getElem?_eq_some_iff.mp hk).1
  have he := congrArg List.length he
  simp only [legacyPreimage, List.length_append] at he
  rw [legacy_length hu hkl (by omega), legacy_length hu hkl hr2] at he
  simp only [hsl] at he
  omega

/-- C88 is false for Horizen in another way: a locking script that is not hex is not rejected; the message is computed from what comes before
the first fault. -/
theorem C88_zen_not_hex_violated : ∃ lock hs, (∀ b, Hex.decode lock ≠ .ok b) ∧
    createHashes zen toyHashes (Hex.encode demoTx1.ser) [⟨lock, [], 0, 1⟩] false zenMainnet = .ok hs := by
  refine ⟨Hex.encode (p2pkhScript (List.replicate 20 5)) ++ asc "zz", _, ?_, rfl⟩
  have h : (Hex.decode (Hex.encode (p2pkhScript (List.replicate 20 5)) ++ asc "zz")).isOk = false := by decide +kernel
  intro b hb
  rw [hb] at h
  simp at h

-- the hypotheses of the theorems on C88 can be met
example : (createHashes cxc toyHashes (Hex.encode demoTx1.ser) [⟨Hex.encode (p2pkhScript (List.replicate 20 5) ++ List.replicate 30 8), [], 0, 1⟩]
    false btcMainnet).isOk = true := by decide +kernel
example : (createHashes zen toyHashes (Hex.encode demoTx1.ser) [⟨Hex.encode (p2shScript (List.replicate 20 5) ++ List.replicate 38 8), [], 0, 1⟩]
    false zenMainnet).isOk = true := by decide +kernel

/-! ### C92: signing and verifying -/

/-- C92, restricted to inputs recognised as P2PKH (see the examples below): for the five packages, if the messages `hs` are obtained
from `CreateRawTransactionHashForSig` for an unsigned transaction, a signature and key that verify for each message are filled in,
then `InsertSignatureIntoEmptyTransaction` succeeds and `VerifyRawTransaction` accepts its result. Signatures must be in the range
of `C24_roundtrip_partial`. Missing: other kinds of inputs. -/
theorem C92_sign_verify_partial (V : Variant) (hV : V = bch ∨ V = bsv ∨ V = cxc ∨ V = hc ∨ V = zen) (H : Hashes) (C : Curve)
    (P : AddressPrefix) (tx : RawTx) (hu : UnsignedV V.version tx) (us : List TxUnlock) (segwitOn : Bool)
    (hp : ∀ u ∈ us, ∃ s, V.check u.lockScript u.redeemScript = .ok (s, [], .p2pkh)) (st : UInt8) (hst : ∀ u ∈ us, u.sigType = st)
    (hs : List TxHash) (hc : createHashes V H (Hex.encode tx.ser) us segwitOn P = .ok hs)
    (sig pub : Nat → Bytes) (msg : Nat → Bytes) (hmsg : ∀ k th, hs[k]? = some th → Hex.decode th.hash = .ok (msg k))
    (hsig : ∀ k, (sig k).length = 64 ∧ beNat ((sig k).take 32) ≠ 0 ∧ beNat ((sig k).drop 32) ≠ 0 ∧
      (beNat ((sig k).take 32) < 2 ^ 247 ∨ 2 ^ 231 ≤ beNat ((sig k).drop 32)))
    (hpub : ∀ k, (pub k).length = 33 ∧ (C.decompress (pub k)).length ≠ 0)
    (hv : ∀ k, k < hs.length → C.verify ((C.decompress (pub k)).drop 1) (msg k) (sig k) = true) :
    ∃ signed, insertSignatures V H (Hex.encode tx.ser) (hs.mapIdx (fun k h => setSig h (sig k) (pub k))) us segwitOn = .ok signed ∧
      signed ≠ [] ∧ verifyRaw V H C signed us segwitOn P = .ok true := by
  have hvl := IsVariant.version_lt hV
  obtain ⟨hl1, hl2, hget⟩ := createHashes_get hvl hu hc
  have hpos := hu.insPos
  have hne : us ≠ [] := by intro h; rw [h] at hl1; simp at hl1; omega
  have hhs : ∀ h ∈ hs, h.nRequired = 0 ∧ ∃ a, h.normal = some ⟨a, st, ⟨none, none⟩⟩ := by
    intro h hh
    obtain ⟨k, hk⟩ := List.mem_iff_getElem?.mp hh
    have hkl := (List.getElem?_eq_some_iff.mp hk).1
    have huk : us[k]? = some (us[k]'(by omega)) := List.getElem?_eq_getElem _
    obtain ⟨th, e1, e2⟩ := hget k _ huk
    rw [hk] at e1
    simp only [Option.some.injEq] at e1
    subst e1
    obtain ⟨g1, a, g3⟩ := BtcVariants.hashForSig_p2pkh hV (hp _ (List.getElem_mem _)) e2
    rw [hst _ (List.getElem_mem _)] at g3
    exact ⟨g1, a, g3⟩
  have hscript : ∀ k, ∃ s, encodeSigPub (sig k) (pub k) st = .ok s ∧ decodeSigPub s = .ok (sig k, pub k, st) := by
    intro k
    obtain ⟨a, b, c, d⟩ := hsig k
    exact C24_roundtrip_partial (sig k) (pub k) st a (hpub k).1 b c d
  choose f hf1 hf2 using hscript
  have hflen : ∀ k, 44 ≤ (f k).length ∧ (f k).length ≤ 0x6c := by
    intro k
    obtain ⟨a, b, c, d⟩ := hsig k
    exact script_length a (hpub k).1 b c (hf1 k)
  have hvl2 : (ofRaw tx).vins.length = tx.ins.length := by simp [ofRaw]
  have hins := BtcVariants.insertLoop_p2pkh (V := V) (H := H) (seg := segwitOn) (sw := false)
    (hashes := hs.mapIdx (fun k h => setSig h (sig k) (pub k))) (f := f) (ofRaw tx).vins us 0 (by omega) hp (by
      intro j hj
      have hj' : j < hs.length := by omega
      obtain ⟨g1, a, g2⟩ := hhs hs[j] (List.getElem_mem _)
      refine ⟨setSig hs[j] (sig j) (pub j), by simp [hj'], ?_⟩
      unfold encodeToScript setSig
      simp only [g1, if_true, g2, Option.map_some, Option.getD_some]
      rw [if_neg (by simp [(hsig j).1]), if_neg (by simp [(hpub j).1])]
      simpa using hf1 j)
  simp only [Nat.zero_add] at hins
  let t' : Tx := { ofRaw tx with vins := (ofRaw tx).vins.mapIdx (fun j i => { i with inType := .p2pkh, scriptPub := [], scriptSig := f j }) }
  let t2 : Tx := { t' with version := leBytes 4 2 }
  have hgood : GoodTx segwitOn t2 := by
    have g := good_ofRaw (unsigned_two hu) segwitOn
    refine ⟨rfl, g.lockTime, by simpa [t2, t', ofRaw] using g.insPos, by simpa [t2, t', ofRaw] using g.insLe, g.outsPos, g.outsLe, ?_, g.outs⟩
    intro i hi
    obtain ⟨k, hk⟩ := List.mem_iff_getElem?.mp hi
    simp only [t2, t', List.getElem?_mapIdx, Option.map_eq_some_iff] at hk
    obtain ⟨i0, hk, rfl⟩ := hk
    have g0 := g.ins i0 (List.mem_of_getElem? hk)
    have hm : i0.scriptMulti = [] := by
      simp only [ofRaw, List.getElem?_map, Option.map_eq_some_iff] at hk
      obtain ⟨r, _, rfl⟩ := hk
      rfl
    refine ⟨g0.txid, g0.vout, g0.sequence, Or.inr (Or.inl ⟨rfl, rfl, hm, ?_, ?_, ?_, ?_⟩)⟩ <;> have := hflen k <;> simp only <;> omega
  have ht' : t' = { t2 with version := leBytes 4 V.version } := by
    simp only [t2, t', ofRaw, hu.version]
  obtain ⟨b2, hb2, _⟩ := decodeTx_good hgood 0
  obtain ⟨r, hr1, hr2⟩ := encodeTx_version (w := leBytes 4 V.version) (by simp) hb2
  have hb : encodeTx segwitOn t' = .ok (leBytes 4 V.version ++ r) := by rw [ht']; exact hr2
  have hdec : ∀ spare, decodeTxV V.version spare segwitOn (leBytes 4 V.version ++ r) = .ok t' := by
    intro spare
    obtain ⟨b', hb', hd'⟩ := decodeTx_good hgood spare
    rw [hb2] at hb'
    simp only [Res.ok.injEq] at hb'
    rw [← hb', hr1] at hd'
    rw [ht']
    exact decodeTxV_of hvl hd'
  refine ⟨Hex.encode (leBytes 4 V.version ++ r), ?_, ?_, ?_⟩
  · unfold BtcVariants.insertSignatures
    rw [Hex.decode_encode, Res.bind_ok, decode_unsignedV hvl hu, Res.bind_ok, if_neg]
    · rw [BtcVariants.isSegwit_p2pkh hne hp]
      simp only [Bool.false_eq_true, false_and, if_false]
      rw [hins, Res.bind_ok]
      show (do let r ← encodeTx segwitOn t'; Res.ok (Hex.encode r)) = _
      rw [hb]
      rfl
    · rintro (h | h | h | h | h)
      · exact hne h
      · have := congrArg List.length h
        simp at this
        rw [this] at hl2; simp at hl2; omega
      · have := congrArg List.length h
        simp [ofRaw] at this
        rw [this] at hpos; simp at hpos
      · have := congrArg List.length h
        simp [ofRaw] at this
        have h3 := hu.outsPos
        rw [this] at h3; simp at h3
      · omega
  · intro h
    have h' := congrArg List.length h
    rw [Hex.encode_length] at h'
    simp at h'
  · unfold BtcVariants.verifyRaw
    rw [Hex.decode_encode]
    simp only [hdec]
    rw [if_neg (by simp [t', ofRaw]; omega)]
    have hclone : cloneEmpty t' = ofRaw tx := by
      have e : (t'.vins.map setEmpty) = (ofRaw tx).vins := by
        apply List.ext_getElem?
        intro k
        simp only [t', List.getElem?_map, List.getElem?_mapIdx, ofRaw, Option.map_map]
        cases tx.ins[k]? <;> rfl
      unfold cloneEmpty
      rw [e]
      rfl
    have hhash : BtcVariants.hashesForSig V H segwitOn P (ofRaw tx) us = .ok hs := by
      unfold BtcVariants.createHashes at hc
      rw [Hex.decode_encode, Res.bind_ok, decode_unsignedV hvl hu, Res.bind_ok] at hc
      exact hc
    rw [hclone, hhash]
    simp only
    have hatt := attachAll_p2pkh (sig := sig) (pub := pub) (st := st) (f := f) (ofRaw tx).vins hs 0 (by omega) (by
      intro j _; simpa using hf2 j) (by
      intro h hh
      obtain ⟨_, a, g⟩ := hhs h hh
      exact ⟨_, g, rfl⟩)
    simp only [Nat.zero_add] at hatt
    have hatt' : attachAll t'.vins hs = .ok (some (hs.mapIdx (fun j h => setSig h (sig j) (pub j)))) := hatt
    rw [hatt', Res.bind_ok]
    simp only
    apply verifyAll_true
    intro h hh
    obtain ⟨k, hk⟩ := List.mem_iff_getElem?.mp hh
    simp only [List.getElem?_mapIdx, Option.map_eq_some_iff] at hk
    obtain ⟨h0, hk, rfl⟩ := hk
    have hkl := (List.getElem?_eq_some_iff.mp hk).1
    obtain ⟨g1, a, g2⟩ := hhs h0 (List.mem_of_getElem? hk)
    unfold verifyOne setSig
    simp only [g1, if_true, g2, Option.map_some, hmsg k h0 hk]
    unfold pubPoint
    simp only [Option.getD_some]
    have := (hpub k).2
    rw [slice_ok (by omega) (by omega), List.take_length, Res.bind_ok, hv k hkl]

-- which inputs are recognised as P2PKH: P2PKH scripts (with asset data on CXC), and any script on Horizen
example (h lock : Bytes) (hl : h.length = 20) (hd : Hex.decode lock = .ok (p2pkhScript h)) (r : Bytes) :
    (∃ s, bch.check lock r = .ok (s, [], .p2pkh)) ∧ (∃ s, bsv.check lock r = .ok (s, [], .p2pkh)) ∧
    (∃ s, cxc.check lock [] = .ok (s, [], .p2pkh)) ∧ (∃ s, hc.check lock [] = .ok (s, [], .p2pkh)) ∧
    (∃ s, zen.check lock r = .ok (s, [], .p2pkh)) :=
  ⟨⟨_, checkBch_p2pkh hd hl⟩, ⟨_, checkBch_p2pkh hd hl⟩,
    ⟨_, checkCxc_p2pkh (tail := []) (by rw [List.append_nil]; exact hd) hl (Or.inl rfl)⟩, ⟨_, check_p2pkh hd hl⟩, ⟨_, rfl⟩⟩

-- a case
example : ∃ signed, insertSignatures bch toyHashes (Hex.encode demoTx1.ser)
    [⟨Hex.encode (toyHashes.hash .doubleSha256 []), 0, some ⟨asc "a", 0x41, ⟨some sig11, some key0⟩⟩, []⟩]
    [forkUnlock (List.replicate 20 5)] false = .ok signed ∧
    verifyRaw bch toyHashes (oneKeyCurve key0) signed [forkUnlock (List.replicate 20 5)] false btcMainnet = .ok true :=
  ⟨_, rfl, by decide +kernel⟩

/-- C92, converse part: if `VerifyRawTransaction` of one of the packages accepts, the text is a transaction of the right version with as many
inputs as unlock data, and every input with a single key carries a public key under which its signature verifies for the message of that
input. Missing: the key is not compared with the locking script, see the next theorem. -/
theorem C92_verified_partial (V : Variant) (H : Hashes) (C : Curve) (text : Bytes) (us : List TxUnlock) (segwitOn : Bool) (P : AddressPrefix)
    (hv : verifyRaw V H C text us segwitOn P = .ok true) :
    ∃ b t hs, Hex.decode text = .ok b ∧ decodeTxV V.version (hexSpare b) segwitOn b = .ok t ∧ t.vins.length = us.length ∧
      hashesForSig V H segwitOn P (cloneEmpty t) us = .ok hs ∧
      ∀ (k : Nat) (i : TxIn), t.vins[k]? = some i → ∃ h : TxHash, hs[k]? = some h ∧
        ∀ msg, Hex.decode h.hash = .ok msg → h.nRequired = 0 → i.inType = .p2pkh ∨ i.inType = .p2wpkh ∨ i.inType = .bech32 →
          ∃ sig pub st, decodeSigPub i.scriptSig = .ok (sig, pub, st) ∧
            C.verify ((C.decompress pub).drop 1) msg sig = true := by
  unfold BtcVariants.verifyRaw at hv
  cases hd : Hex.decode text with
  | err => simp [hd] at hv
  | panic => simp [hd] at hv
  | ok b =>
    simp only [hd] at hv
    cases ht : decodeTxV V.version (hexSpare b) segwitOn b with
    | err => simp [ht] at hv
    | panic => simp [ht] at hv
    | ok t =>
      simp only [ht] at hv
      by_cases hl : t.vins.length = us.length
      swap
      · rw [if_pos hl] at hv; simp at hv
      rw [if_neg (by simpa using hl)] at hv
      cases hh : hashesForSig V H segwitOn P (cloneEmpty t) us with
      | err => simp [hh] at hv
      | panic => simp [hh] at hv
      | ok hs =>
        simp only [hh] at hv
        obtain ⟨o, h1, h2⟩ := Res.bind_eq_ok.mp hv
        cases o with
        | none => simp at h2
        | some hs' =>
          simp only at h2
          refine ⟨b, t, hs, rfl, ht, hl, hh, ?_⟩
          intro k i hk
          obtain ⟨h, h', e1, e2, e3⟩ := attachAll_inv _ _ h1 k i hk
          refine ⟨h, e1, ?_⟩
          intro msg hm h0 hty
          have hone := verifyAll_inv _ h2 h' (List.mem_of_getElem? e2)
          have e3' : (match decodeSigPub i.scriptSig with
              | .ok (sig, pub, st) =>
                match h.normal with
                | none => Res.panic
                | some n => .ok (some { h with normal := some { n with sigType := st, sigPub := ⟨some sig, some pub⟩ } })
              | .err => .ok none
              | .panic => .panic) = .ok (some h') := by
            unfold attach at e3
            rcases hty with ht | ht | ht <;> rw [ht] at e3 <;> exact e3
          cases hs2 : decodeSigPub i.scriptSig with
          | err => simp [hs2] at e3'
          | panic => simp [hs2] at e3'
          | ok r =>
            obtain ⟨sig, pub, st⟩ := r
            simp only [hs2] at e3'
            cases hn : h.normal with
            | none => simp [hn] at e3'
            | some n =>
              simp only [hn, Res.ok.injEq, Option.some.injEq] at e3'
              subst e3'
              refine ⟨sig, pub, st, rfl, ?_⟩
              unfold verifyOne at hone
              simp only [hm, h0, if_true] at hone
              obtain ⟨p, h3, h4⟩ := Res.bind_eq_ok.mp hone
              simp only [Res.ok.injEq, Option.getD_some] at h4
              unfold pubPoint at h3
              simp only [Option.getD_some] at h3
              by_cases hl : 1 ≤ (C.decompress pub).length
              · rw [slice_ok hl (Nat.le_refl _), List.take_length] at h3
                simp only [Res.ok.injEq] at h3
                rw [h3]; exact h4
              · unfold slice at h3
                rw [if_neg (by omega)] at h3
                simp at h3

/-- C92 is false: a Bitcoin Cash P2PKH output can be spent with a key that does not hash to the hash in the locking script. -/
theorem C92_wrong_key_violated :
    verifyRaw bch toyHashes (oneKeyCurve key3)
      (Hex.encode (RawTx.ser { demoTx1 with ins := [⟨List.replicate 32 9, 0,
        push (derSig (List.replicate 32 1) (List.replicate 32 1) ++ [0x41]) ++ push key3, 0xffffffff⟩] }))
      [forkUnlock (toyHashes.hash .hash160 key0)] false btcMainnet = .ok true ∧
    toyHashes.hash .hash160 key3 ≠ toyHashes.hash .hash160 key0 := by
  decide +kernel

end Verif
