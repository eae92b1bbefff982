import Verif.Props.BtcVariantsSpend
import Verif.Props.BtcVariantsOmni
import Verif.Props.BtcHash
import Verif.Props.BtcHc

/-! Property C126: from a request to a verified transaction, through all the functions of the Bitcoin packages. -/

namespace Verif
open Verif.Spec Verif.Btc Verif.BtcVariants Verif.Spec.Omni

namespace Btc

theorem index_lt (v : UInt32) : v.toNat < 2 ^ 32 := v.toNat_lt

theorem request_ins {vins : List Vin} {lockTime : UInt32} {replaceable : Bool} {ins : List RawIn}
    (h : List.Forall₂ (fun v i => Hex.decode v.txid = .ok i.prev.reverse ∧ i.prev.length = 32 ∧ i.index = v.vout.toNat ∧
      i.script = [] ∧ i.sequence = if replaceable then 0xfffffffd else if lockTime ≠ 0 then 0xfffffffe else 0xffffffff) vins ins) :
    ∀ i ∈ ins, i.prev.length = 32 ∧ i.index < 2 ^ 32 ∧ i.script = [] ∧ i.sequence < 2 ^ 32 := by
  induction h with
  | nil => simp
  | cons h1 _ ih =>
    rename_i v i _ _ _
    intro j hj
    rcases List.mem_cons.mp hj with rfl | hj
    · obtain ⟨_, a, b, c, d⟩ := h1
      refine ⟨a, b ▸ v.vout.toNat_lt, c, ?_⟩
      rw [d]
      split
      · decide
      · split <;> decide
    · exact ih j hj

theorem outs_ok {R : Vout → RawOut → Prop} {vouts : List Vout} {os : List RawOut}
    (h : List.Forall₂ (fun v o => o.value = v.amount.toNat ∧ R v o) vouts os)
    (hR : ∀ v ∈ vouts, ∀ o, R v o → 1 ≤ o.script.length ∧ o.script.length < 253) :
    ∀ o ∈ os, o.value < 2 ^ 64 ∧ 1 ≤ o.script.length ∧ o.script.length < 253 := by
  induction h with
  | nil => simp
  | cons h1 _ ih =>
    rename_i v o _ _ _
    intro j hj
    rcases List.mem_cons.mp hj with rfl | hj
    · exact ⟨h1.1 ▸ v.amount.toNat_lt, hR v (by simp) _ h1.2⟩
    · exact ih (fun v hv => hR v (by simp [hv])) j hj

theorem PaysTo.pos {H : Hashes} {P : AddressPrefix} {addr script : Bytes} (h : PaysTo H P addr script) : 1 ≤ script.length :=
  (newTxOut_amount (h 0)).2

theorem Requested.unsigned {H : Hashes} {P : AddressPrefix} {vins : List Vin} {vouts : List Vout} {lockTime : UInt32} {replaceable : Bool} {t : RawTx}
    (h : Requested H P vins vouts lockTime replaceable t) (i0 : vins ≠ []) (o0 : vouts ≠ []) (hi : vins.length < 253) (ho : vouts.length < 253)
    (hs : ∀ v ∈ vouts, ∀ s, PaysTo H P v.address s → s.length < 253) : Unsigned t := by
  have e1 := h.ins.length_eq
  have e2 := h.outs.length_eq
  have p1 := List.length_pos_iff.mpr i0
  have p2 := List.length_pos_iff.mpr o0
  exact ⟨h.version, h.locked ▸ lockTime.toNat_lt, by omega, by omega, by omega, by omega, request_ins h.ins,
    outs_ok h.outs (fun v hv o ho => ⟨ho.pos, hs v hv _ ho⟩)⟩

/-- The messages to sign, for records that fit the outputs spent. -/
theorem messages {H : Hashes} {P : AddressPrefix} {t : RawTx} (hu : Unsigned t) {l : List Entry} {segwitOn : Bool} {hs : List TxHash}
    (hc : Btc.createHashes H (Hex.encode t.ser) (l.map Entry.unlock) segwitOn P = .ok hs)
    (hhash : l.map (fun e => e.hash.hash) = hs.map TxHash.hash)
    (hf : ∀ e ∈ l, Fills 1 segwitOn e.unlock e.hash e.expect) (hp : ∀ e ∈ l, e.expect.Plain) (k : Nat) (e : Entry) (i : RawIn)
    (he : l[k]? = some e) (hi : t.ins[k]? = some i) :
    e.hash.hash = Hex.encode (H.hash .doubleSha256 (e.expect.message (H.hash .doubleSha256) t k i e.unlock.amount.toNat)) := by
  have hk : (l.map Entry.unlock)[k]? = some e.unlock := by simp [he]
  have hm := List.mem_of_getElem? he
  have hf := hf e hm
  have hp := hp e hm
  suffices h : ∃ th, hs[k]? = some th ∧ th.hash =
      Hex.encode (H.hash .doubleSha256 (e.expect.message (H.hash .doubleSha256) t k i e.unlock.amount.toNat)) by
    obtain ⟨th, h1, h2⟩ := h
    have := congrArg (fun l => l[k]?) hhash
    simp only [List.getElem?_map, he, h1, Option.map_some, Option.some.injEq] at this
    rw [this, h2]
  obtain ⟨u, h, x⟩ := e
  cases hf with
  | one so hseg =>
    rename_i o sig pub der
    obtain ⟨ok, hlock, hred, -, -, -, -⟩ := so
    cases o with
    | keyHash a => exact C29_p2pkh_partial H P t hu _ _ hs hc k _ hk a ok hlock hred
    | nested a b => exact C29_p2sh_p2wpkh_partial H P t hu _ _ hs hc k _ hk i hi a b ok.1 ok.2 hlock hred
    | native a => exact C29_p2wpkh_partial H P t hu _ _ hs hc k _ hk i hi a ok hlock hred
  | multi sm hseg =>
    subst hseg
    obtain ⟨a, a1, a2⟩ := sm.lock
    rename_i m keys sigs ders
    have h1 := multisig_length (m := m) sm.keysLen
    have := sm.pos
    have := sm.le
    exact C29_multisig_partial H P t hu _ hs hc k _ hk a _ a1 a2 sm.redeem (by rw [h1]; omega) (multisig_last _ _) hp
  | witnessMulti sm hseg =>
    subst hseg
    obtain ⟨a, a1, a2⟩ := sm.lock
    rename_i m keys sigs ders
    have h1 := multisig_length (m := m) sm.keysLen
    have := sm.pos
    have := sm.le
    have := sm.few
    exact C29_p2wsh_partial H P t hu _ hs hc k _ hk i hi a _ _ (by omega) a1 a2 sm.redeem (by rw [h1]; omega) hp.2

theorem plain_two {l : List Entry} (hp : ∀ e ∈ l, e.expect.Plain) :
    ∀ e ∈ l, ∀ ders r, e.expect = .witnessMulti ders r → ders.length = 2 ∧ r.length < 253 := by
  intro e he ders r hx
  have := hp e he
  rw [hx] at this
  exact this

/-- The three steps after creation. -/
theorem spend {H : Hashes} {C : Curve} {P : AddressPrefix} {t : RawTx} (hu : Unsigned t) {l : List Entry} {segwitOn : Bool} {hs : List TxHash}
    (hc : Btc.createHashes H (Hex.encode t.ser) (l.map Entry.unlock) segwitOn P = .ok hs)
    (hhash : l.map (fun e => e.hash.hash) = hs.map TxHash.hash)
    (hf : ∀ e ∈ l, Fills 1 segwitOn e.unlock e.hash e.expect) (hp : ∀ e ∈ l, e.expect.Plain)
    (hr : ∀ e ∈ l, Readable e.expect) (hv : ∀ e ∈ l, ValidRecord C e.hash) :
    (∀ (k : Nat) (e : Entry) (i : RawIn), l[k]? = some e → t.ins[k]? = some i → e.hash.hash =
      Hex.encode (H.hash .doubleSha256 (e.expect.message (H.hash .doubleSha256) t k i e.unlock.amount.toNat))) ∧
    Btc.insertSignatures H (Hex.encode t.ser) (l.map Entry.hash) (l.map Entry.unlock) segwitOn =
      .ok (Hex.encode (t.unlocked (H.hash .sha256) (l.map Entry.expect))) ∧
    Btc.verifyRaw H C (Hex.encode (t.unlocked (H.hash .sha256) (l.map Entry.expect))) (l.map Entry.unlock) segwitOn P = .ok true := by
  have hl : l.length = t.ins.length := by simpa using (Btc.createHashes_get hu hc).1
  have h1 := C123_insert_partial H t hu l hl segwitOn hf (plain_two hp)
  obtain ⟨signed, h2, h3⟩ := C63_all_inputs_partial H C P t hu l segwitOn hs hc hhash hf hr hv
  rw [h1, Res.ok.injEq] at h2
  subst h2
  exact ⟨messages hu hc hhash hf hp, h1, h3⟩

end Btc

/-- C126 for btcTransaction. `text` is what `CreateEmptyRawTransaction` returned for a request and `hs` what `CreateRawTransactionHashForSig` returned
for it; the records `l` hold valid signatures for those messages. Then there is one transaction `t` that is the requested one, the messages signed are
the messages that the protocol defines for `t` and the outputs it spends, `InsertSignatureIntoEmptyTransaction` returns the standard serialisation
of `t` with these signatures, and `VerifyRawTransaction` accepts that. Missing: counts and scripts from 253 bytes on, witnesses with another number of
signatures than two (there the code goes wrong, see C22, C29, C123). -/
theorem C126_btc_partial (H : Hashes) (C : Curve) (P : AddressPrefix) (vins : List Vin) (vouts : List Vout) (lockTime : UInt32) (replaceable : Bool)
    (text : Bytes) (hcreate : Btc.createEmptyRawTransaction H vins vouts lockTime replaceable P = .ok text)
    (hi : vins.length < 253) (ho : vouts.length < 253) (hs : ∀ v ∈ vouts, ∀ s, PaysTo H P v.address s → s.length < 253)
    (segwitOn : Bool) (l : List Entry) (hashes : List TxHash)
    (hc : Btc.createHashes H text (l.map Entry.unlock) segwitOn P = .ok hashes)
    (hhash : l.map (fun e => e.hash.hash) = hashes.map TxHash.hash)
    (hf : ∀ e ∈ l, Fills 1 segwitOn e.unlock e.hash e.expect) (hp : ∀ e ∈ l, e.expect.Plain)
    (hr : ∀ e ∈ l, Readable e.expect) (hv : ∀ e ∈ l, ValidRecord C e.hash) :
    ∃ t signed, Requested H P vins vouts lockTime replaceable t ∧
      signed = Hex.encode (t.unlocked (H.hash .sha256) (l.map Entry.expect)) ∧
      (∀ (k : Nat) (e : Entry) (i : RawIn), l[k]? = some e → t.ins[k]? = some i → e.hash.hash =
        Hex.encode (H.hash .doubleSha256 (e.expect.message (H.hash .doubleSha256) t k i e.unlock.amount.toNat))) ∧
      Btc.insertSignatures H text (l.map Entry.hash) (l.map Entry.unlock) segwitOn = .ok signed ∧
      Btc.verifyRaw H C signed (l.map Entry.unlock) segwitOn P = .ok true := by
  obtain ⟨t, h1, rfl⟩ := C22_standard_serialisation_partial H P vins vouts lockTime replaceable text hcreate hi ho hs
  have hne : vins ≠ [] ∧ vouts ≠ [] := by
    unfold Btc.createEmptyRawTransaction at hcreate
    obtain ⟨t', ht, _⟩ := Res.bind_eq_ok.mp hcreate
    obtain ⟨a, b, _⟩ := newEmptyTransaction_inv ht
    exact ⟨a, b⟩
  have hu := h1.unsigned hne.1 hne.2 hi ho hs
  obtain ⟨a, b, c⟩ := spend (C := C) hu hc hhash hf hp hr hv
  exact ⟨t, _, h1, rfl, a, b, c⟩

/-- C126 is false of multi-signature witnesses with one or more than two signatures, or with a script of 253 bytes or more, whatever the rest of the request is: the four calls
succeed and `VerifyRawTransaction` accepts the result, but the result is not the standard serialisation of the signed transaction. -/
theorem C126_witness_violated (H : Hashes) (C : Curve) (P : AddressPrefix) (vins : List Vin) (vouts : List Vout) (lockTime : UInt32) (replaceable : Bool)
    (text : Bytes) (hcreate : Btc.createEmptyRawTransaction H vins vouts lockTime replaceable P = .ok text)
    (hi : vins.length < 253) (ho : vouts.length < 253) (hs : ∀ v ∈ vouts, ∀ s, PaysTo H P v.address s → s.length < 253)
    (segwitOn : Bool) (l : List Entry) (hashes : List TxHash)
    (hc : Btc.createHashes H text (l.map Entry.unlock) segwitOn P = .ok hashes)
    (hhash : l.map (fun e => e.hash.hash) = hashes.map TxHash.hash)
    (hf : ∀ e ∈ l, Fills 1 segwitOn e.unlock e.hash e.expect)
    (hr : ∀ e ∈ l, Readable e.expect) (hv : ∀ e ∈ l, ValidRecord C e.hash)
    (e : Entry) (he : e ∈ l) (ders : List Bytes) (r : Bytes) (hx : e.expect = .witnessMulti ders r) (h2 : ders.length ≠ 2 ∨ 253 ≤ r.length) :
    ∃ t signed, Requested H P vins vouts lockTime replaceable t ∧
      Btc.insertSignatures H text (l.map Entry.hash) (l.map Entry.unlock) segwitOn = .ok signed ∧
      Btc.verifyRaw H C signed (l.map Entry.unlock) segwitOn P = .ok true ∧
      signed ≠ Hex.encode (t.unlocked (H.hash .sha256) (l.map Entry.expect)) := by
  obtain ⟨t, h1, rfl⟩ := C22_standard_serialisation_partial H P vins vouts lockTime replaceable text hcreate hi ho hs
  have hne : vins ≠ [] ∧ vouts ≠ [] := by
    unfold Btc.createEmptyRawTransaction at hcreate
    obtain ⟨t', ht, _⟩ := Res.bind_eq_ok.mp hcreate
    obtain ⟨a, b, _⟩ := newEmptyTransaction_inv ht
    exact ⟨a, b⟩
  have hu := h1.unsigned hne.1 hne.2 hi ho hs
  have hl : l.length = t.ins.length := by simpa using (Btc.createHashes_get hu hc).1
  obtain ⟨signed, a1, a2⟩ := C63_all_inputs_partial H C P t hu l segwitOn hashes hc hhash hf hr hv
  obtain ⟨signed', b1, b2⟩ := C123_witness_multisig_violated H t hu l hl segwitOn hf e he ders r hx h2
  rw [a1, Res.ok.injEq] at b1
  subst b1
  exact ⟨t, signed, h1, a1, a2, b2⟩

namespace BtcVariants

theorem IsRequest.unsigned {version : Nat} {vins : List Vin} {lockTime : UInt32} {replaceable : Bool} {t : RawTx}
    (h : IsRequest version vins lockTime replaceable t) (i0 : vins ≠ []) (hi : vins.length < 253) (o0 : t.outs ≠ []) (ho : t.outs.length < 253)
    (hs : ∀ o ∈ t.outs, o.value < 2 ^ 64 ∧ 1 ≤ o.script.length ∧ o.script.length < 253) : UnsignedV version t := by
  have e1 := h.ins.length_eq
  have p1 := List.length_pos_iff.mpr i0
  have p2 := List.length_pos_iff.mpr o0
  exact ⟨h.version, h.locked ▸ lockTime.toNat_lt, by omega, by omega, by omega, by omega, request_ins h.ins, hs⟩

theorem pays_ok {H : Hashes} {P : AddressPrefix} {p2sh : Bool} {vouts : List Vout} {os : List RawOut}
    (h : List.Forall₂ (fun v o => o.value = v.amount.toNat ∧ PaysBase58 H P p2sh v.address [] o.script) vouts os) :
    ∀ o ∈ os, o.value < 2 ^ 64 ∧ 1 ≤ o.script.length ∧ o.script.length < 253 :=
  outs_ok h (fun v _ o hp => by have := PaysBase58.length hp; simp at this; omega)

/-- The steps after creation. -/
theorem spendV {V : Variant} (hV : V = bch ∨ V = bsv ∨ V = cxc ∨ V = hc) {sty : UInt8} {H : Hashes} {C : Curve} {P : AddressPrefix} {t : RawTx}
    (hu : UnsignedV V.version t) {l : List Entry} {segwitOn : Bool} {hs : List TxHash}
    (hc : BtcVariants.createHashes V H (Hex.encode t.ser) (l.map Entry.unlock) segwitOn P = .ok hs)
    (hhash : l.map (fun e => e.hash.hash) = hs.map TxHash.hash)
    (hf : ∀ e ∈ l, Fills sty segwitOn e.unlock e.hash e.expect) (hp : ∀ e ∈ l, e.expect.Plain)
    (hr : ∀ e ∈ l, Readable e.expect) (hv : ∀ e ∈ l, ValidRecord C e.hash) :
    BtcVariants.insertSignatures V H (Hex.encode t.ser) (l.map Entry.hash) (l.map Entry.unlock) segwitOn =
      .ok (Hex.encode (t.unlocked (H.hash .sha256) (l.map Entry.expect))) ∧
    BtcVariants.verifyRaw V H C (Hex.encode (t.unlocked (H.hash .sha256) (l.map Entry.expect))) (l.map Entry.unlock) segwitOn P = .ok true := by
  have hl : l.length = t.ins.length := by simpa using (BtcVariants.createHashes_get (HasScripts.version_lt hV) hu hc).1
  have h1 := C123_variants_partial V hV sty H t hu l hl segwitOn hf (plain_two hp)
  obtain ⟨signed, h2, h3⟩ := C92_all_inputs_partial V hV sty H C P t hu l segwitOn hs hc hhash hf hr hv
  rw [h1, Res.ok.injEq] at h2
  subst h2
  exact ⟨h1, h3⟩

/-- A record for a P2PKH output has its locking script. -/
theorem fills_keyHash {sty : UInt8} {seg : Bool} {e : Entry} (hf : Fills sty seg e.unlock e.hash e.expect) {a der pub : Bytes}
    (hx : e.expect = .one (.keyHash a) der pub) :
    a.length = 20 ∧ Hex.decode e.unlock.lockScript = .ok (p2pkhScript a) ∧ e.unlock.redeemScript = [] := by
  obtain ⟨u, h, x⟩ := e
  simp only at hx hf
  subst hx
  cases hf with
  | one so hseg => exact ⟨so.ok, so.lock, so.redeem⟩

/-- From the messages returned to the messages of the records. -/
theorem record_message {l : List Entry} {hs : List TxHash} (hhash : l.map (fun e => e.hash.hash) = hs.map TxHash.hash) {k : Nat} {e : Entry} {m : Bytes}
    (he : l[k]? = some e) (h : ∃ th, hs[k]? = some th ∧ th.hash = m) : e.hash.hash = m := by
  obtain ⟨th, h1, h2⟩ := h
  have := congrArg (fun l => l[k]?) hhash
  simp only [List.getElem?_map, he, h1, Option.map_some, Option.some.injEq] at this
  rw [this, h2]

end BtcVariants

/-- C126 for Bitcoin Cash and Bitcoin SV (recipients: Base58Check addresses; for cashaddr recipients see `C89_cashaddr_violated`). The messages
for P2PKH outputs are the replay-protected ones of the protocol; for the others see C87. -/
theorem C126_bch_bsv_partial (V : Variant) (hV : V = bch ∨ V = bsv) (H : Hashes) (C : Curve) (P : AddressPrefix) (vins : List Vin) (vouts : List Vout)
    (lockTime : UInt32) (replaceable : Bool) (text : Bytes) (hcreate : createBch H vins vouts lockTime replaceable P = .ok text)
    (hi : vins.length < 253) (ho : vouts.length < 253) (segwitOn : Bool) (sty : UInt8) (l : List Entry) (hashes : List TxHash)
    (hc : BtcVariants.createHashes V H text (l.map Entry.unlock) segwitOn P = .ok hashes)
    (hhash : l.map (fun e => e.hash.hash) = hashes.map TxHash.hash)
    (hf : ∀ e ∈ l, Fills sty segwitOn e.unlock e.hash e.expect) (hp : ∀ e ∈ l, e.expect.Plain)
    (hr : ∀ e ∈ l, Readable e.expect) (hv : ∀ e ∈ l, ValidRecord C e.hash) :
    ∃ t signed, IsRequest 1 vins lockTime replaceable t ∧
      List.Forall₂ (fun v o => o.value = v.amount.toNat ∧ PaysBase58 H P true v.address [] o.script) vouts t.outs ∧
      signed = Hex.encode (t.unlocked (H.hash .sha256) (l.map Entry.expect)) ∧
      (∀ (k : Nat) (e : Entry) (i : RawIn) (a der pub : Bytes), l[k]? = some e → t.ins[k]? = some i → e.expect = .one (.keyHash a) der pub → e.hash.hash =
        Hex.encode (H.hash .doubleSha256 (forkIdPreimage (H.hash .doubleSha256) t i (p2pkhScript a) e.unlock.amount.toNat))) ∧
      BtcVariants.insertSignatures V H text (l.map Entry.hash) (l.map Entry.unlock) segwitOn = .ok signed ∧
      BtcVariants.verifyRaw V H C signed (l.map Entry.unlock) segwitOn P = .ok true := by
  obtain ⟨i0, o0, t, h1, h2, rfl⟩ := (C89_bch_partial H P vins vouts lockTime replaceable text hi ho).mp hcreate
  have e2 := h2.length_eq
  have p2 := List.length_pos_iff.mpr o0
  have hu := h1.unsigned i0 hi (List.length_pos_iff.mp (by omega)) (by omega) (pays_ok h2)
  have hver : V.version = 1 := by rcases hV with rfl | rfl <;> rfl
  obtain ⟨a, b⟩ := spendV (C := C) (by rcases hV with h | h <;> simp [h]) (hver ▸ hu) hc hhash hf hp hr hv
  refine ⟨t, _, h1, h2, rfl, ?_, a, b⟩
  intro k e i kh der pub he hk hx
  obtain ⟨q1, q2, -⟩ := fills_keyHash (hf e (List.mem_of_getElem? he)) hx
  exact record_message hhash he (C87_p2pkh_partial V hV H P t hu _ segwitOn hashes hc k e.unlock (by simp [he]) i hk kh q1 q2)

/-- C126 for CXC and HyperCash (recipients: addresses without the bech32 prefix, for the others see `C89_bech32_violated` and
`C89_hc_mainnet_violated`). The messages are those of the protocol, in CXC those for P2PKH outputs. -/
theorem C126_cxc_hc_partial (V : Variant) (hV : V = cxc ∨ V = hc) (H : Hashes) (C : Curve) (P : AddressPrefix) (vins : List Vin) (vouts : List Vout)
    (lockTime : UInt32) (replaceable : Bool) (text : Bytes)
    (hcreate : (V = cxc → createCxc H vins vouts lockTime replaceable P = .ok text) ∧ (V = hc → createHc H vins vouts lockTime replaceable P = .ok text))
    (hi : vins.length < 253) (ho : vouts.length < 253) (hb : ∀ v ∈ vouts, P.bech32.isPrefixOf v.address = false)
    (segwitOn : Bool) (sty : UInt8) (l : List Entry) (hashes : List TxHash)
    (hc : BtcVariants.createHashes V H text (l.map Entry.unlock) segwitOn P = .ok hashes)
    (hhash : l.map (fun e => e.hash.hash) = hashes.map TxHash.hash)
    (hf : ∀ e ∈ l, Fills sty segwitOn e.unlock e.hash e.expect) (hp : ∀ e ∈ l, e.expect.Plain)
    (hr : ∀ e ∈ l, Readable e.expect) (hv : ∀ e ∈ l, ValidRecord C e.hash) :
    ∃ t signed, IsRequest V.version vins lockTime replaceable t ∧
      List.Forall₂ (fun v o => o.value = v.amount.toNat ∧ PaysBase58 H P false v.address [] o.script) vouts t.outs ∧
      signed = Hex.encode (t.unlocked (H.hash .sha256) (l.map Entry.expect)) ∧
      (V = cxc → ∀ (k : Nat) (e : Entry) (a der pub : Bytes), l[k]? = some e → e.expect = .one (.keyHash a) der pub → e.hash.hash =
        Hex.encode (H.hash .doubleSha256 (legacyPreimage t k (p2pkhScript a)))) ∧
      (V = BtcVariants.hc → sty = 1 → ∀ (k : Nat) (e : Entry) (i : RawIn), l[k]? = some e → t.ins[k]? = some i → e.hash.hash =
        Hex.encode (H.hash .doubleSha256 (e.expect.message (H.hash .doubleSha256) t k i e.unlock.amount.toNat))) ∧
      BtcVariants.insertSignatures V H text (l.map Entry.hash) (l.map Entry.unlock) segwitOn = .ok signed ∧
      BtcVariants.verifyRaw V H C signed (l.map Entry.unlock) segwitOn P = .ok true := by
  have key : vins ≠ [] ∧ vouts ≠ [] ∧ ∃ t, IsRequest V.version vins lockTime replaceable t ∧
      List.Forall₂ (fun v o => o.value = v.amount.toNat ∧ PaysBase58 H P false v.address [] o.script) vouts t.outs ∧ text = Hex.encode t.ser := by
    rcases hV with rfl | rfl
    · exact (C89_hc_cxc_partial H P vins vouts lockTime replaceable text hi ho hb).2.mp (hcreate.1 rfl)
    · exact (C89_hc_cxc_partial H P vins vouts lockTime replaceable text hi ho hb).1.mp (hcreate.2 rfl)
  obtain ⟨i0, o0, t, h1, h2, rfl⟩ := key
  have e2 := h2.length_eq
  have p2 := List.length_pos_iff.mpr o0
  have hu := h1.unsigned i0 hi (List.length_pos_iff.mp (by omega)) (by omega) (pays_ok h2)
  obtain ⟨a, b⟩ := spendV (C := C) (by rcases hV with h | h <;> simp [h]) hu hc hhash hf hp hr hv
  refine ⟨t, _, h1, h2, rfl, ?_, ?_, a, b⟩
  · rintro rfl k e kh der pub he hx
    obtain ⟨q1, q2, q3⟩ := fills_keyHash (hf e (List.mem_of_getElem? he)) hx
    refine record_message hhash he ?_
    have := C88_cxc_partial H P t hu _ segwitOn hashes hc k e.unlock (by simp [he]) kh [] q1 (Or.inl rfl) (by rw [List.append_nil]; exact q2) q3
    rwa [List.append_nil] at this
  · rintro rfl rfl k e i he hk
    have hu : Unsigned t := ⟨hu.version, hu.lockTime, hu.insPos, hu.insLt, hu.outsPos, hu.outsLt, hu.ins, hu.outs⟩
    rw [(C88_hc H C P _ _ [] segwitOn).1] at hc
    exact messages hu hc hhash hf hp k e i he hk

/-- C126 for omniTransaction: the signed transaction also carries the requested message, in its last output. -/
theorem C126_omni_partial (H : Hashes) (C : Curve) (P : AddressPrefix) (vins : List Vin) (vouts : List Vout) (o : Verif.Omni.OmniStruct)
    (lockTime : UInt32) (replaceable : Bool) (text : Bytes)
    (hcreate : Verif.Omni.createEmptyRawTransaction H vins vouts o lockTime replaceable P = .ok text) (he : Expressible H o)
    (hi : vins.length < 253) (ho : vouts.length < 252) (hb : ∀ v ∈ vouts, P.bech32.isPrefixOf v.address = false)
    (l : List Entry) (hashes : List TxHash)
    (hc : Verif.Omni.createHashes H text (l.map Entry.unlock) P = .ok hashes)
    (hhash : l.map (fun e => e.hash.hash) = hashes.map TxHash.hash)
    (hf : ∀ e ∈ l, Fills 1 false e.unlock e.hash e.expect) (hp : ∀ e ∈ l, e.expect.Plain)
    (hr : ∀ e ∈ l, Readable e.expect) (hv : ∀ e ∈ l, ValidRecord C e.hash) :
    ∃ t signed os s d, IsRequest 2 vins lockTime replaceable t ∧ t.outs = os ++ [⟨0, s⟩] ∧
      List.Forall₂ (fun v o => o.value = v.amount.toNat ∧ PaysBase58 H P false v.address [] o.script) vouts os ∧
      opReturnData s = some d ∧ IsWanted H o d ∧
      signed = Hex.encode (t.unlocked (H.hash .sha256) (l.map Entry.expect)) ∧
      (∀ (k : Nat) (e : Entry) (i : RawIn), l[k]? = some e → t.ins[k]? = some i → e.hash.hash =
        Hex.encode (H.hash .doubleSha256 (e.expect.message (H.hash .doubleSha256) t k i e.unlock.amount.toNat))) ∧
      Verif.Omni.insertSignatures H text (l.map Entry.hash) (l.map Entry.unlock) = .ok signed ∧
      Verif.Omni.verifyRaw H C signed (l.map Entry.unlock) P = .ok true := by
  obtain ⟨s, d, a1, a2, a3, a4, a5⟩ := Verif.Omni.payload_wanted he
  obtain ⟨i0, o0, t, os, h1, h2, h3, rfl⟩ := (Verif.Omni.create_inv a1 a4 a5 hi ho hb).mp hcreate
  have e2 := h3.length_eq
  have hu := h1.unsigned i0 hi (by simp [h2]) (by simp [h2]; omega) (by
    rw [h2]
    intro o ho
    rcases List.mem_append.mp ho with ho | ho
    · exact pays_ok h3 o ho
    · simp only [List.mem_singleton] at ho
      subst ho
      exact ⟨by simp, a4, a5⟩)
  have hu : Unsigned t := ⟨hu.version, hu.lockTime, hu.insPos, hu.insLt, hu.outsPos, hu.outsLt, hu.ins, hu.outs⟩
  obtain ⟨x, y, z⟩ := spend (C := C) hu hc hhash hf hp hr hv
  exact ⟨t, _, os, s, d, h1, h2, h3, a2, a3, rfl, x, y, z⟩

/-! ### The hypotheses can be met -/

-- four inputs of different kinds, two outputs
set_option maxRecDepth 4000 in
example : ∃ (text : Bytes) (l : List Entry) (hashes : List TxHash), Btc.createEmptyRawTransaction toyHashes [demoVin, demoVin, demoVin, demoVin] [demoVout, demoVout] 5 true btcMainnet = .ok text ∧
    (∀ v ∈ [demoVout, demoVout], ∀ s, PaysTo toyHashes btcMainnet v.address s → s.length < 253) ∧
    Btc.createHashes toyHashes text (l.map Entry.unlock) true btcMainnet = .ok hashes ∧
    l.map (fun e => e.hash.hash) = hashes.map TxHash.hash ∧ (∀ e ∈ l, Fills 1 true e.unlock e.hash e.expect) ∧ (∀ e ∈ l, e.expect.Plain) ∧
    (∀ e ∈ l, Readable e.expect) ∧ (∀ e ∈ l, ValidRecord anyCurve e.hash) := by
  have h : (do
      let text ← Btc.createEmptyRawTransaction toyHashes [demoVin, demoVin, demoVin, demoVin] [demoVout, demoVout] 5 true btcMainnet
      let hs ← Btc.createHashes toyHashes text ((fourEntries [] [] [] []).map Entry.unlock) true btcMainnet
      (.ok (hs.length == 4) : Res Bool)) = .ok true := by decide +kernel
  obtain ⟨text, ht, h⟩ := Res.bind_eq_ok.mp h
  obtain ⟨hs, hh, h⟩ := Res.bind_eq_ok.mp h
  simp only [Res.ok.injEq, beq_iff_eq] at h
  match hs, h with
  | [a, b, c, d], _ =>
    refine ⟨text, fourEntries a.hash b.hash c.hash d.hash, [a, b, c, d], ht, ?_, hh, rfl, four_fills _ _ _ _, ?_, ?_, ?_⟩
    · intro v hv s hp
      have : v = demoVout := by simpa using hv
      rw [this] at hp
      rw [demo_pays _ _ hp]
      decide
    all_goals
      intro e he
      simp only [fourEntries, List.mem_cons, List.not_mem_nil, or_false] at he
      rcases he with rfl | rfl | rfl | rfl
    · trivial
    · trivial
    · trivial
    · show [der11, der11].length = 2 ∧ (multisigScript 2 [key0, key1, key2]).length < 253
      decide
    · trivial
    · trivial
    · trivial
    · show (multisigScript 2 [key0, key1, key2]).length < 256
      decide
    · exact one_valid _
    · exact one_valid _
    · exact one_valid _
    · exact multi_valid _ _ _ _ demo_sigs

-- one of three signatures in a witness
set_option maxRecDepth 4000 in
example : ∃ (text : Bytes) (e : Entry) (th : TxHash) (ders : List Bytes) (r : Bytes),
    Btc.createEmptyRawTransaction toyHashes [demoVin] [demoVout, demoVout] 5 true btcMainnet = .ok text ∧
    Btc.createHashes toyHashes text [e.unlock] true btcMainnet = .ok [th] ∧ e.hash.hash = th.hash ∧ Fills 1 true e.unlock e.hash e.expect ∧
    Readable e.expect ∧ ValidRecord anyCurve e.hash ∧ e.expect = .witnessMulti ders r ∧ ders.length ≠ 2 := by
  have h : (do
      let text ← Btc.createEmptyRawTransaction toyHashes [demoVin] [demoVout, demoVout] 5 true btcMainnet
      let hs ← Btc.createHashes toyHashes text [(witnessEntry [] 1 [key0, key1, key2] [some sig11, none, none]).unlock] true btcMainnet
      (.ok (hs.length == 1) : Res Bool)) = .ok true := by decide +kernel
  obtain ⟨text, ht, h⟩ := Res.bind_eq_ok.mp h
  obtain ⟨hs, hh, h⟩ := Res.bind_eq_ok.mp h
  simp only [Res.ok.injEq, beq_iff_eq] at h
  match hs, h with
  | [a], _ =>
    have hsig : ∀ s ∈ [some sig11, none, none].filterMap id, s = sig11 := by intro s hs; simpa using hs
    refine ⟨text, witnessEntry a.hash 1 [key0, key1, key2] [some sig11, none, none], a, _, _, ht, hh, rfl, ?_, ?_, ?_, rfl, by decide⟩
    · exact Fills.witnessMulti (multi_signed der11_is _ 1 _ _ (by decide) (by decide) (by decide) demo_keys rfl (by decide) hsig) rfl
    · show (multisigScript 1 [key0, key1, key2]).length < 256
      decide
    · exact multi_valid _ _ _ _ hsig

/-- A P2PKH output, and two signatures for three keys. -/
def Btc.twoEntries (a b : Bytes) : List Entry := [keyHashEntry a, scriptEntry b 2 [key0, key1, key2] [some sig11, none, some sig11]]

-- an Omni simple send, and the same outputs on Bitcoin Cash and CXC
set_option maxRecDepth 4000 in
example : ∃ (text : Bytes) (l : List Entry) (hashes : List TxHash), Verif.Omni.createEmptyRawTransaction toyHashes [demoVin, demoVin] [⟨asc "1TYPjCiGbKiwP6r12cdkmVjySbQs46iav", 5⟩]
      ⟨0, 31, 7, 1, [], []⟩ 0 false btcMainnet = .ok text ∧ Expressible toyHashes ⟨0, 31, 7, 1, [], []⟩ ∧
    Verif.Omni.createHashes toyHashes text (l.map Entry.unlock) btcMainnet = .ok hashes ∧
    l.map (fun e => e.hash.hash) = hashes.map TxHash.hash ∧ (∀ e ∈ l, Fills 1 false e.unlock e.hash e.expect) ∧ (∀ e ∈ l, e.expect.Plain) ∧
    (∀ e ∈ l, Readable e.expect) ∧ (∀ e ∈ l, ValidRecord anyCurve e.hash) := by
  have h : (do
      let text ← Verif.Omni.createEmptyRawTransaction toyHashes [demoVin, demoVin] [⟨asc "1TYPjCiGbKiwP6r12cdkmVjySbQs46iav", 5⟩]
        ⟨0, 31, 7, 1, [], []⟩ 0 false btcMainnet
      let hs ← Verif.Omni.createHashes toyHashes text ((twoEntries [] []).map Entry.unlock) btcMainnet
      (.ok (hs.length == 2) : Res Bool)) = .ok true := by decide +kernel
  obtain ⟨text, ht, h⟩ := Res.bind_eq_ok.mp h
  obtain ⟨hs, hh, h⟩ := Res.bind_eq_ok.mp h
  simp only [Res.ok.injEq, beq_iff_eq] at h
  match hs, h with
  | [a, b], _ =>
    refine ⟨text, twoEntries a.hash b.hash, [a, b], ht, Or.inl (by decide), hh, rfl, ?_, ?_, ?_, ?_⟩
    all_goals
      intro e he
      simp only [twoEntries, List.mem_cons, List.not_mem_nil, or_false] at he
      rcases he with rfl | rfl
    · exact one_fills false _
    · exact Fills.multi (multi_signed der11_is _ 2 _ _ (by decide) (by decide) (by decide) demo_keys rfl (by decide) demo_sigs) rfl
    · trivial
    · show (multisigScript 2 [key0, key1, key2]).length < 253
      decide
    · trivial
    · show 0x6c < ((Unlocking.multi (List.replicate 2 der11) (multisigScript 2 [key0, key1, key2])).script id).length
      decide +kernel
    · exact one_valid _
    · exact multi_valid _ _ _ _ demo_sigs

set_option maxRecDepth 4000 in
example : (do
      let text ← createBch toyHashes [demoVin, demoVin] [⟨asc "1TYPjCiGbKiwP6r12cdkmVjySbQs46iav", 5⟩] 0 false btcMainnet
      let hs ← BtcVariants.createHashes bch toyHashes text ((forkEntries [] []).map Entry.unlock) false btcMainnet
      (.ok (hs.length == 2) : Res Bool)) = .ok true ∧
    (do
      let text ← createCxc toyHashes [demoVin, demoVin] [⟨asc "1TYPjCiGbKiwP6r12cdkmVjySbQs46iav", 5⟩] 0 false btcMainnet
      let hs ← BtcVariants.createHashes cxc toyHashes text ((twoEntries [] []).map Entry.unlock) false btcMainnet
      (.ok (hs.length == 2) : Res Bool)) = .ok true := by decide +kernel

end Verif
