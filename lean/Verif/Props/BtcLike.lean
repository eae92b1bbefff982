import Verif.Lemmas.BtcLike
import Verif.Props.BtcVariantsCreate

/-! Properties C113, C114: creating and parsing transactions (package btcLikeTxDriver). -/

namespace Verif
open Verif.Spec Verif.BtcLike
open _root_.Verif.Btc (Vin Vout TxOut Curve takeN take1 concatAll takeN_append concatAll_ok compactSize_small mem_of_zip_right)

namespace BtcLike

theorem decodeCheck_iff (H : Hashes) (addr : Bytes) (p : UInt8) (h : Bytes) :
    decodeCheck H addr = .ok (p, h) ↔ IsBase58Check H Btc.alphabet [p] h addr := by
  constructor
  · intro hd
    unfold decodeCheck at hd
    split at hd
    · rename_i ret hret
      split at hd
      · simp at hd
      split at hd
      · simp at hd
      rename_i hlen hck
      obtain ⟨p', h1, hd⟩ := Res.bind_eq_ok.mp hd
      obtain ⟨h', h2, hd⟩ := Res.bind_eq_ok.mp hd
      simp only [Res.ok.injEq, Prod.mk.injEq] at hd
      obtain ⟨rfl, rfl⟩ := hd
      simp only [not_not] at hck
      match ret, h1 with
      | x :: r, h1 =>
        have : p' = x := by simpa [index] using h1.symm
        subst this
        unfold slice at h2
        split at h2
        · rename_i hs
          simp only [Res.ok.injEq] at h2
          have e1 : [p'] ++ h' = (p' :: r).take ((p' :: r).length - 4) := by
            rw [← h2]
            obtain ⟨n, hn⟩ : ∃ n, (p' :: r).length - 4 = n + 1 := ⟨(p' :: r).length - 5, by omega⟩
            rw [hn]; simp
          unfold IsBase58Check
          rw [e1, hck, List.take_append_drop]
          exact (Addr.encode_iff Btc.alphabet_ok _ _).mp (C02_base58_canonical _ Btc.alphabet_ok _ _ hret)
        · simp at h2
    · simp at hd
    · simp at hd
  · intro hb
    unfold IsBase58Check at hb
    obtain ⟨t, h1, h2, h3⟩ := C01_base58_roundtrip _ Btc.alphabet_ok ([p] ++ h ++ (H.hash .doubleSha256 ([p] ++ h)).take 4)
    have ht : t = addr := by
      have := (Addr.encode_iff Btc.alphabet_ok _ _).mpr hb
      rw [h1] at this
      exact Res.ok.inj this
    rw [ht] at h3
    have hck : ((H.hash .doubleSha256 ([p] ++ h)).take 4).length = 4 := by
      rw [List.length_take, H.size]; rfl
    unfold decodeCheck
    rw [h3]
    simp only
    generalize hck' : (H.hash .doubleSha256 ([p] ++ h)).take 4 = ck at *
    have t4 : ([p] ++ h ++ ck).length - 4 = ([p] ++ h).length := by simp; omega
    rw [t4, List.take_left, List.drop_left, if_neg (by simp; omega), if_neg (by rw [hck']; simp)]
    simp [index, slice]

/-- The locking script for an address of the test network: P2PKH under version 0x6f, P2SH under 0xc4. -/
def PaysTest (H : Hashes) (address script : Bytes) : Prop :=
  ∃ h, h.length = 20 ∧ (IsBase58Check H Btc.alphabet [0x6f] h address ∧ script = p2pkhScript h ∨
    IsBase58Check H Btc.alphabet [0xc4] h address ∧ script = p2shScript h)

theorem newTxOut_iff {H : Hashes} {v : Vout} (hb : (asc "tb1").isPrefixOf v.address = false) (l : List TxOut) :
    newTxOut H v = .ok l ↔ ∃ o, l = [o] ∧ o.amount = leBytes 8 v.amount.toNat ∧ PaysTest H v.address o.lockScript := by
  unfold newTxOut bech32Out
  rw [if_neg (by rw [show bech32Prefix = asc "tb1" from rfl, hb]; simp), Res.bind_ok]
  simp only [List.nil_append]
  constructor
  · intro h
    obtain ⟨⟨p, k⟩, h1, h⟩ := Res.bind_eq_ok.mp h
    rw [decodeCheck_iff] at h1
    simp only at h
    split at h
    · simp at h
    rename_i hl
    simp only [not_not] at hl
    split at h
    · rename_i hp
      simp only [Res.ok.injEq] at h
      refine ⟨_, h.symm, rfl, k, hl, Or.inl ⟨?_, ?_⟩⟩
      · rw [hp] at h1; exact h1
      · simp [p2pkhScript, hl]
    · split at h
      · rename_i hp
        simp only [Res.ok.injEq] at h
        refine ⟨_, h.symm, rfl, k, hl, Or.inr ⟨?_, ?_⟩⟩
        · rw [hp] at h1; exact h1
        · simp [p2shScript, hl]
      · simp at h
  · rintro ⟨⟨a, s⟩, rfl, rfl, k, hl, ⟨h1, h2⟩ | ⟨h1, h2⟩⟩ <;> rw [← decodeCheck_iff] at h1 <;> simp only at h2 <;> subst h2 <;>
      rw [h1, Res.bind_ok] <;> simp [hl, p2pkhPrefix, p2shPrefix, p2pkhScript, p2shScript]

theorem newTxIn_iff {lt : UInt32} {r : Bool} {v : Vin} {x : TxIn} : newTxIn lt r v = .ok x ↔ ∃ i : RawIn, x = ofIn i ∧
    (Hex.decode v.txid = .ok i.prev.reverse ∧ i.prev.length = 32 ∧ i.index = v.vout.toNat ∧
    i.script = [] ∧ i.sequence = if r then 0xfffffffd else if lt ≠ 0 then 0xfffffffe else 0xffffffff) := by
  have hseq : sequenceOf lt r = leBytes 4 (if r then 0xfffffffd else if lt ≠ 0 then 0xfffffffe else 0xffffffff) := by
    unfold sequenceOf; split_ifs <;> rfl
  unfold newTxIn Btc.reverseHexToBytes
  constructor
  · intro h
    split at h
    · rename_i txid hx
      split at h
      · simp at h
      rename_i hl
      simp only [not_not] at hl
      simp only [Res.ok.injEq] at h
      split at hx
      · simp at hx
      obtain ⟨b, hb, hx⟩ := Res.bind_eq_ok.mp hx
      simp only [Res.ok.injEq] at hx
      refine ⟨⟨txid, v.vout.toNat, [], _⟩, ?_, by rw [← hx]; simpa using hb, hl, rfl, rfl, rfl⟩
      rw [← h, hseq]; rfl
    · simp at h
    · simp at h
  · rintro ⟨i, rfl, h1, h2, h3, h4, h5⟩
    have he := Hex.decode_length _ _ h1
    rw [if_neg (by omega), h1]
    simp [h2, ofIn, h3, h4, h5, hseq]

theorem newTxIns_iff {lt : UInt32} {r : Bool} : ∀ {vs : List Vin} {xs : List TxIn}, newTxIns lt r vs = .ok xs ↔ ∃ is : List RawIn, xs = is.map ofIn ∧
    List.Forall₂ (fun v i => Hex.decode v.txid = .ok i.prev.reverse ∧ i.prev.length = 32 ∧ i.index = v.vout.toNat ∧
    i.script = [] ∧ i.sequence = if r then 0xfffffffd else if lt ≠ 0 then 0xfffffffe else 0xffffffff) vs is
  | [], xs => by
    simp only [newTxIns, Res.ok.injEq]
    constructor
    · rintro rfl; exact ⟨[], rfl, .nil⟩
    · rintro ⟨is, rfl, h⟩; cases h; rfl
  | v :: vs, xs => by
    rw [newTxIns]
    constructor
    · intro h
      obtain ⟨x, h1, h⟩ := Res.bind_eq_ok.mp h
      obtain ⟨xs', h2, h⟩ := Res.bind_eq_ok.mp h
      simp only [Res.ok.injEq] at h
      obtain ⟨i, e1, k1⟩ := newTxIn_iff.mp h1
      obtain ⟨is, e2, k2⟩ := newTxIns_iff.mp h2
      exact ⟨i :: is, by rw [← h, e1, e2]; rfl, .cons k1 k2⟩
    · rintro ⟨is, rfl, h⟩
      cases h with
      | cons k1 k2 =>
        rw [newTxIn_iff.mpr ⟨_, rfl, k1⟩, Res.bind_ok, newTxIns_iff.mpr ⟨_, rfl, k2⟩, Res.bind_ok]
        rfl

end BtcLike

/-- C113 for addresses that do not begin with `tb1` (up to 252 inputs and outputs): `CreateEmptyRawTransaction` succeeds exactly if there
are inputs and outputs, all transaction ids are hex texts of 32 bytes and all addresses are Base58Check texts of 20-byte hashes under one of the two
version bytes of the test network; and then the text is the hex text of the standard serialisation of the version 2 transaction that spends these outputs
(with the sequence numbers for the lock time and the replacement flag) and pays these amounts to the scripts of these addresses, in this order. Missing:
bech32 addresses and larger transactions, see `C113_bech32_violated` and `C113_counts_violated`. -/
theorem C113_create_partial (H : Hashes) (vins : List Vin) (vouts : List Vout) (lockTime : UInt32) (replaceable : Bool) (text : Bytes)
    (hi : vins.length < 253) (ho : vouts.length < 253) (hb : ∀ v ∈ vouts, (asc "tb1").isPrefixOf v.address = false) :
    createEmpty H vins vouts lockTime replaceable = .ok text ↔ vins ≠ [] ∧ vouts ≠ [] ∧ ∃ t, BtcVariants.IsRequest 2 vins lockTime replaceable t ∧
      List.Forall₂ (fun v o => o.value = v.amount.toNat ∧ PaysTest H v.address o.script) vouts t.outs ∧ text = Hex.encode t.ser := by
  have hf : ∀ x ∈ vouts, ∀ l, newTxOut H x = .ok l ↔ ∃ o, l = [o] ∧ (o.amount = leBytes 8 x.amount.toNat ∧ PaysTest H x.address o.lockScript) :=
    fun x hx l => newTxOut_iff (hb x hx) l
  have hlen : ∀ a s, PaysTest H a s → s.length < 253 := by
    rintro a s ⟨h, hl, ⟨_, rfl⟩ | ⟨_, rfl⟩⟩ <;> simp [p2pkhScript, p2shScript, hl]
  have hsmall : ∀ t : RawTx, vins ≠ [] → vouts ≠ [] → BtcVariants.IsRequest 2 vins lockTime replaceable t →
      List.Forall₂ (fun v o => o.value = v.amount.toNat ∧ PaysTest H v.address o.script) vouts t.outs → Small t ∧ Plain t := by
    intro t v1 v2 hr hos
    have l1 := hr.ins.length_eq
    have l2 := hos.length_eq
    have p1 := List.length_pos_iff.mpr v1
    have p2 := List.length_pos_iff.mpr v2
    have hall : ∀ i ∈ t.ins, i.prev.length = 32 ∧ i.script = [] := by
      intro i hi
      obtain ⟨w, hw⟩ := mem_of_zip_right l1.symm hi
      obtain ⟨_, k2, _, k4, _⟩ := (List.forall₂_iff_zip.mp hr.ins).2 hw
      exact ⟨k2, k4⟩
    refine ⟨⟨by omega, by omega, by omega, by omega, ?_, ?_⟩, ?_⟩
    · intro i hi; obtain ⟨k1, k2⟩ := hall i hi; exact ⟨k1, by simp [k2]⟩
    · intro o ho
      obtain ⟨w, hw⟩ := mem_of_zip_right l2.symm ho
      exact hlen _ _ ((List.forall₂_iff_zip.mp hos).2 hw).2
    · intro i hi; rw [(hall i (by simp [hi])).2]; simp
  unfold createEmpty newTransaction newTxOuts
  constructor
  · intro h
    obtain ⟨x, h1, h⟩ := Res.bind_eq_ok.mp h
    obtain ⟨b, h2, h⟩ := Res.bind_eq_ok.mp h
    obtain ⟨ins, i1, h1⟩ := Res.bind_eq_ok.mp h1
    obtain ⟨os, o1, h1⟩ := Res.bind_eq_ok.mp h1
    simp only [Res.ok.injEq] at h1 h
    obtain ⟨is, rfl, i2⟩ := newTxIns_iff.mp i1
    rw [BtcVariants.appendAll_iff hf] at o1
    have hne : vins ≠ [] ∧ vouts ≠ [] := by
      unfold encodeTx at h2
      subst h1
      constructor
      · rintro rfl; cases i2; simp at h2
      · rintro rfl; cases o1; simp at h2
    have o2 := (BtcVariants.outs_iff (S := fun (v : Vout) s => PaysTest H v.address s) (amount := Vout.amount)).mp ⟨os, o1, rfl⟩
    have hlt := lockTime.toNat_lt
    let t : RawTx := ⟨2, is, os.map (fun o => ⟨leNat o.amount, o.lockScript⟩), lockTime.toNat⟩
    have hr : BtcVariants.IsRequest 2 vins lockTime replaceable t := ⟨rfl, rfl, i2⟩
    obtain ⟨s, p⟩ := hsmall t hne.1 hne.2 hr o2
    refine ⟨hne.1, hne.2, t, hr, o2, ?_⟩
    have e : x = ofRaw t [] := by
      rw [← h1]
      have : os = t.outs.map ofOut := by
        simp only [t, List.map_map]
        conv_lhs => rw [← List.map_id os]
        apply List.map_congr_left
        intro o hom
        obtain ⟨v, hv⟩ := mem_of_zip_right o1.length_eq.symm hom
        obtain ⟨k1, _⟩ := (List.forall₂_iff_zip.mp o1).2 hv
        simp only [Function.comp, ofOut, id]
        rw [Btc.leBytes_leNat' (by rw [k1]; simp)]
      unfold ofRaw
      rw [← this]
    rw [e, encodeTx_ser s p] at h2
    rw [← h, Res.ok.inj h2]
  · rintro ⟨v1, v2, t, hr, hos, rfl⟩
    obtain ⟨s, p⟩ := hsmall t v1 v2 hr hos
    rw [newTxIns_iff.mpr ⟨t.ins, rfl, hr.ins⟩, Res.bind_ok]
    obtain ⟨os, o1, o2⟩ := BtcVariants.outs_iff.mpr hos
    rw [(BtcVariants.appendAll_iff hf).mpr o1, Res.bind_ok, Res.bind_ok]
    have : os = t.outs.map ofOut := by
      rw [o2, List.map_map]
      conv_lhs => rw [← List.map_id os]
      apply List.map_congr_left
      intro o hom
      obtain ⟨v, hv⟩ := mem_of_zip_right o1.length_eq.symm hom
      obtain ⟨k1, _⟩ := (List.forall₂_iff_zip.mp o1).2 hv
      simp only [Function.comp, ofOut, id]
      rw [Btc.leBytes_leNat' (by rw [k1]; simp)]
    have e : (⟨leBytes 4 2, t.ins.map ofIn, os, [], leBytes 4 lockTime.toNat⟩ : Tx) = ofRaw t [] := by
      unfold ofRaw
      rw [this, hr.version, hr.locked]
    rw [e, encodeTx_ser s p]
    rfl

namespace BtcLike

theorem appendAll_bad {H : Hashes} {v : Vout} (hc : ∃ c ∈ v.address, c ∉ Btc.alphabet) (l : List TxOut) : newTxOut H v ≠ .ok l := by
  intro h
  unfold newTxOut at h
  obtain ⟨f, _, h⟩ := Res.bind_eq_ok.mp h
  obtain ⟨⟨p, k⟩, h1, h⟩ := Res.bind_eq_ok.mp h
  obtain ⟨c, hc, hn⟩ := hc
  unfold decodeCheck at h1
  rw [Base58.decode_err Btc.alphabet Btc.alphabet_ok _ (fun hall => hn (hall c hc))] at h1
  simp at h1

/-- What a created transaction with any number of inputs and outputs consists of. -/
theorem created_bytes {H : Hashes} {vins : List Vin} {vouts : List Vout} {lockTime : UInt32} {replaceable : Bool} {text : Bytes}
    (hb : ∀ v ∈ vouts, (asc "tb1").isPrefixOf v.address = false) (h : createEmpty H vins vouts lockTime replaceable = .ok text) :
    ∃ t, BtcVariants.IsRequest 2 vins lockTime replaceable t ∧
      List.Forall₂ (fun v o => o.value = v.amount.toNat ∧ PaysTest H v.address o.script) vouts t.outs ∧
      text = Hex.encode (leBytes 4 2 ++ [UInt8.ofNat vins.length] ++ (t.ins.map RawIn.ser).flatten ++ [UInt8.ofNat vouts.length] ++
        (t.outs.map RawOut.ser).flatten ++ leBytes 4 lockTime.toNat) := by
  have hf : ∀ x ∈ vouts, ∀ l, newTxOut H x = .ok l ↔ ∃ o, l = [o] ∧ (o.amount = leBytes 8 x.amount.toNat ∧ PaysTest H x.address o.lockScript) :=
    fun x hx l => newTxOut_iff (hb x hx) l
  unfold createEmpty newTransaction newTxOuts at h
  obtain ⟨x, h1, h⟩ := Res.bind_eq_ok.mp h
  obtain ⟨b, h2, h⟩ := Res.bind_eq_ok.mp h
  obtain ⟨ins, i1, h1⟩ := Res.bind_eq_ok.mp h1
  obtain ⟨os, o1, h1⟩ := Res.bind_eq_ok.mp h1
  simp only [Res.ok.injEq] at h1 h
  obtain ⟨is, rfl, i2⟩ := newTxIns_iff.mp i1
  rw [BtcVariants.appendAll_iff hf] at o1
  have o2 := (BtcVariants.outs_iff (S := fun (v : Vout) s => PaysTest H v.address s) (amount := Vout.amount)).mp ⟨os, o1, rfl⟩
  let t : RawTx := ⟨2, is, os.map (fun o => ⟨leNat o.amount, o.lockScript⟩), lockTime.toNat⟩
  refine ⟨t, ⟨rfl, rfl, i2⟩, o2, ?_⟩
  have hos : os = t.outs.map ofOut := by
    simp only [t, List.map_map]
    conv_lhs => rw [← List.map_id os]
    apply List.map_congr_left
    intro o hom
    obtain ⟨v, hv⟩ := mem_of_zip_right o1.length_eq.symm hom
    obtain ⟨k1, _⟩ := (List.forall₂_iff_zip.mp o1).2 hv
    simp only [Function.comp, ofOut, id]
    rw [Btc.leBytes_leNat' (by rw [k1]; simp)]
  have hall : ∀ i ∈ is, i.prev.length = 32 ∧ i.script = [] := by
    intro i hi
    obtain ⟨w, hw⟩ := mem_of_zip_right i2.length_eq.symm hi
    obtain ⟨_, k2, _, k4, _⟩ := (List.forall₂_iff_zip.mp i2).2 hw
    exact ⟨k2, k4⟩
  have hlen : ∀ o ∈ t.outs, o.script.length < 253 := by
    intro o ho
    obtain ⟨w, hw⟩ := mem_of_zip_right o2.length_eq.symm ho
    obtain ⟨_, h, hl, ⟨_, e⟩ | ⟨_, e⟩⟩ := (List.forall₂_iff_zip.mp o2).2 hw <;> rw [e] <;> simp [p2pkhScript, p2shScript, hl]
  unfold encodeTx at h2
  split at h2
  · simp at h2
  split at h2
  · simp at h2
  have hp : Plain t := fun i hi => by rw [(hall i (show i ∈ t.ins by simp [hi])).2]; simp
  have e : x = ofRaw t [] := by rw [← h1, ofRaw, ← hos]
  rw [e] at h2
  rw [if_neg (by rw [isMultiSig_ofRaw hp]; simp)] at h2
  simp only [ofRaw, concat_ins (fun i hi => ⟨(hall i hi).1, by simp [(hall i hi).2]⟩ : ∀ i ∈ t.ins, i.prev.length = 32 ∧ i.script.length < 253),
    concat_outs hlen, Btc.concatAll, Res.bind_ok, Res.ok.injEq] at h2
  rw [← h, ← h2]
  have l1 : vins.length = t.ins.length := i2.length_eq
  have l2 := o2.length_eq
  simp [l1, l2, t]

end BtcLike

/-- C113 is false (1): although there is code for bech32 addresses, one with a character that Base58 does not use (`0` or `l`) is never accepted as a
recipient. (The bech32 branch falls through to the Base58 branch.) -/
theorem C113_bech32_violated (H : Hashes) (vins : List Vin) (vouts : List Vout) (lockTime : UInt32) (replaceable : Bool)
    (v : Vout) (hv : v ∈ vouts) (hc : ∃ c ∈ v.address, c ∉ Btc.alphabet) (text : Bytes) :
    createEmpty H vins vouts lockTime replaceable ≠ .ok text := by
  intro h
  unfold createEmpty newTransaction at h
  obtain ⟨x, h1, h⟩ := Res.bind_eq_ok.mp h
  obtain ⟨ins, i1, h1⟩ := Res.bind_eq_ok.mp h1
  obtain ⟨os, o1, h1⟩ := Res.bind_eq_ok.mp h1
  exact BtcVariants.appendAll_mem (appendAll_bad hc) vouts hv os o1

/-- The address of BIP 173 for the test network is such an address, and the package's own parser accepts it. -/
example : (∃ c ∈ asc "tb1qw508d6qejxtdg4y5r3zarvary0c5xw7kxpjzsx", c ∉ Btc.alphabet) ∧
    bech32Decode (asc "tb1qw508d6qejxtdg4y5r3zarvary0c5xw7kxpjzsx") = Hex.decode (asc "751e76e8199196d454941c45d1b3a323f1433bd6") := by
  refine ⟨⟨0x30, by decide +kernel, by decide +kernel⟩, by decide +kernel⟩

/-- C113 is false (2): with 253 or more inputs or outputs the text is not the standard serialisation of the requested transaction. -/
theorem C113_counts_violated (H : Hashes) (vins : List Vin) (vouts : List Vout) (lockTime : UInt32) (replaceable : Bool) (text : Bytes)
    (hb : ∀ v ∈ vouts, (asc "tb1").isPrefixOf v.address = false) (hn : 253 ≤ vins.length ∨ 253 ≤ vouts.length)
    (h : createEmpty H vins vouts lockTime replaceable = .ok text) :
    ∃ t, BtcVariants.IsRequest 2 vins lockTime replaceable t ∧
      List.Forall₂ (fun v o => o.value = v.amount.toNat ∧ PaysTest H v.address o.script) vouts t.outs ∧ text ≠ Hex.encode t.ser := by
  obtain ⟨t, h1, h2, h3⟩ := created_bytes hb h
  refine ⟨t, h1, h2, ?_⟩
  intro he
  rw [h3] at he
  have hl := congrArg List.length (Hex.encode_inj he)
  have c1 := Btc.compactSize_length t.ins.length
  have c2 := Btc.compactSize_length t.outs.length
  have l1 : vins.length = t.ins.length := h1.ins.length_eq
  have l2 := h2.length_eq
  simp only [RawTx.ser, List.length_append, leBytes_length, List.length_singleton] at hl
  omega

/-- C113 is false (3): a short Base58 text makes the creation of the transaction panic. -/
theorem C113_short_address_violated (H : Hashes) (v : Vin) (vs : List Vin) (lockTime : UInt32) (replaceable : Bool) (amount : UInt64) (ins : List TxIn)
    (h : newTxIns lockTime replaceable (v :: vs) = .ok ins) : createEmpty H (v :: vs) [⟨asc "111", amount⟩] lockTime replaceable = .panic := by
  have : Base58.decode Btc.alphabet (asc "111") = .ok [0, 0, 0] := by decide +kernel
  have hp : newTxOut H ⟨asc "111", amount⟩ = .panic := by
    have hb : bech32Prefix.isPrefixOf (asc "111") = false := by decide
    unfold newTxOut bech32Out decodeCheck
    simp only [hb, Bool.false_eq_true, if_false]
    rw [Res.bind_ok, this]
    rfl
  unfold createEmpty newTransaction newTxOuts
  rw [h, Res.bind_ok, BtcVariants.appendAll, hp]
  rfl

example (H : Hashes) (h : Bytes) (hl : h.length = 20) (a : Bytes) (ha : IsBase58Check H Btc.alphabet [0x6f] h a) :
    (asc "tb1").isPrefixOf a = false → createEmpty H [Btc.demoVin] [⟨a, 7⟩] 0 false = .ok (Hex.encode (RawTx.ser
      ⟨2, [⟨(List.range 32).reverse.map UInt8.ofNat, 3, [], 0xffffffff⟩], [⟨7, p2pkhScript h⟩], 0⟩)) := by
  intro hp
  refine (C113_create_partial H _ _ _ _ _ (by simp) (by simp) (by simpa using hp)).mpr ⟨by simp, by simp, _, ⟨rfl, rfl, ?_⟩, ?_, rfl⟩
  · exact .cons ⟨by decide +kernel, by simp, rfl, rfl, rfl⟩ .nil
  · exact .cons ⟨rfl, h, hl, .inl ⟨ha, rfl⟩⟩ .nil

/-! ### C114: parsing -/

namespace BtcLike

theorem takeN_inv {n : Nat} {b a r : Bytes} (h : takeN n b = .ok (a, r)) : a.length = n ∧ b = a ++ r := by
  unfold Btc.takeN at h
  split at h
  · simp at h
  · simp only [Res.ok.injEq, Prod.mk.injEq] at h
    obtain ⟨rfl, rfl⟩ := h
    exact ⟨by simp; omega, by simp⟩

theorem take1_inv {b r : Bytes} {x : UInt8} (h : take1 b = .ok (x, r)) : b = x :: r := by
  cases b with
  | nil => simp [Btc.take1] at h
  | cons y t => simp [Btc.take1] at h; simp [h]

/-- Inputs and outputs as they stand in the bytes, with one-byte lengths. -/
def inBytes (i : TxIn) : Bytes := i.txid ++ i.vout ++ push i.script ++ i.sequence
def outBytes (o : TxOut) : Bytes := o.amount ++ push o.lockScript

theorem get4 {v r : Bytes} (h : v.length = 4) : (v ++ r)[4]? = r.head? := by
  rw [List.getElem?_append_right (by omega), h]
  cases r <;> rfl

theorem ofNat_toNat (n : UInt8) : UInt8.ofNat n.toNat = n := by simp

theorem decodeIn_inv {b r : Bytes} {i : TxIn} (h : decodeIn b = .ok (i, r)) :
    b = inBytes i ++ r ∧ i.txid.length = 32 ∧ i.vout.length = 4 ∧ i.script.length < 256 ∧ i.sequence.length = 4 := by
  unfold decodeIn at h
  obtain ⟨⟨txid, b1⟩, h1, h⟩ := Res.bind_eq_ok.mp h
  obtain ⟨⟨vout, b2⟩, h2, h⟩ := Res.bind_eq_ok.mp h
  obtain ⟨⟨n, b3⟩, h3, h⟩ := Res.bind_eq_ok.mp h
  obtain ⟨⟨script, b4⟩, h4, h⟩ := Res.bind_eq_ok.mp h
  obtain ⟨⟨sq, b5⟩, h5, h⟩ := Res.bind_eq_ok.mp h
  simp only [Res.ok.injEq, Prod.mk.injEq] at h
  obtain ⟨rfl, rfl⟩ := h
  obtain ⟨l1, rfl⟩ := takeN_inv h1
  obtain ⟨l2, rfl⟩ := takeN_inv h2
  have := take1_inv h3; subst this
  obtain ⟨l4, rfl⟩ := takeN_inv h4
  obtain ⟨l5, rfl⟩ := takeN_inv h5
  have := n.toNat_lt
  refine ⟨?_, l1, l2, by simp only; omega, l5⟩
  simp [inBytes, push, l4]

theorem decodeIns_inv : ∀ {n : Nat} {b r : Bytes} {is : List TxIn}, decodeIns n b = .ok (is, r) →
    b = (is.map inBytes).flatten ++ r ∧ is.length = n ∧ ∀ i ∈ is, i.txid.length = 32 ∧ i.vout.length = 4 ∧ i.script.length < 256 ∧ i.sequence.length = 4
  | 0, b, r, is, h => by
    simp only [decodeIns, Res.ok.injEq, Prod.mk.injEq] at h
    obtain ⟨rfl, rfl⟩ := h
    simp
  | n + 1, b, r, is, h => by
    rw [decodeIns] at h
    obtain ⟨⟨i, b1⟩, h1, h⟩ := Res.bind_eq_ok.mp h
    obtain ⟨⟨is', b2⟩, h2, h⟩ := Res.bind_eq_ok.mp h
    simp only [Res.ok.injEq, Prod.mk.injEq] at h
    obtain ⟨rfl, rfl⟩ := h
    obtain ⟨rfl, k⟩ := decodeIn_inv h1
    obtain ⟨rfl, rfl, k2⟩ := decodeIns_inv h2
    refine ⟨by simp, by simp, ?_⟩
    intro j hj
    rcases List.mem_cons.mp hj with rfl | hj
    · exact k
    · exact k2 j hj

theorem decodeOut_inv {b r : Bytes} {o : TxOut} (h : decodeOut b = .ok (o, r)) :
    b = outBytes o ++ r ∧ o.amount.length = 8 ∧ o.lockScript.length < 256 := by
  unfold decodeOut at h
  obtain ⟨⟨a, b1⟩, h1, h⟩ := Res.bind_eq_ok.mp h
  obtain ⟨⟨n, b3⟩, h3, h⟩ := Res.bind_eq_ok.mp h
  obtain ⟨⟨script, b4⟩, h4, h⟩ := Res.bind_eq_ok.mp h
  simp only [Res.ok.injEq, Prod.mk.injEq] at h
  obtain ⟨rfl, rfl⟩ := h
  obtain ⟨l1, rfl⟩ := takeN_inv h1
  have := take1_inv h3; subst this
  obtain ⟨l4, rfl⟩ := takeN_inv h4
  have := n.toNat_lt
  refine ⟨?_, l1, by simp only; omega⟩
  simp [outBytes, push, l4]

theorem decodeOuts_inv : ∀ {n : Nat} {b r : Bytes} {os : List TxOut}, decodeOuts n b = .ok (os, r) →
    b = (os.map outBytes).flatten ++ r ∧ os.length = n ∧ ∀ o ∈ os, o.amount.length = 8 ∧ o.lockScript.length < 256
  | 0, b, r, is, h => by
    simp only [decodeOuts, Res.ok.injEq, Prod.mk.injEq] at h
    obtain ⟨rfl, rfl⟩ := h
    simp
  | n + 1, b, r, is, h => by
    rw [decodeOuts] at h
    obtain ⟨⟨i, b1⟩, h1, h⟩ := Res.bind_eq_ok.mp h
    obtain ⟨⟨is', b2⟩, h2, h⟩ := Res.bind_eq_ok.mp h
    simp only [Res.ok.injEq, Prod.mk.injEq] at h
    obtain ⟨rfl, rfl⟩ := h
    obtain ⟨rfl, k⟩ := decodeOut_inv h1
    obtain ⟨rfl, rfl, k2⟩ := decodeOuts_inv h2
    refine ⟨by simp, by simp, ?_⟩
    intro j hj
    rcases List.mem_cons.mp hj with rfl | hj
    · exact k
    · exact k2 j hj

theorem decodeSegwit_bad {b : Bytes} {y : UInt8} (h : b[1]? = some y) (hy : y ≠ 0x30) : decodeSegwit b = none := by
  unfold decodeSegwit
  cases b[0]? with
  | none => rfl
  | some x =>
    rw [h]
    simp only [Option.bind_eq_bind, Option.bind_some, ne_eq, hy, not_false_eq_true, if_true]

theorem decodeIn_ne_panic (b : Bytes) : decodeIn b ≠ .panic := by
  unfold decodeIn
  refine Btc.bind_ne_panic (Btc.takeN_ne_panic _ _) (fun _ _ => Btc.bind_ne_panic (Btc.takeN_ne_panic _ _) (fun _ _ =>
    Btc.bind_ne_panic (Btc.take1_ne_panic _) (fun _ _ => Btc.bind_ne_panic (Btc.takeN_ne_panic _ _) (fun _ _ =>
    Btc.bind_ne_panic (Btc.takeN_ne_panic _ _) (fun _ _ => by simp)))))

theorem decodeIns_ne_panic : ∀ (n : Nat) (b : Bytes), decodeIns n b ≠ .panic
  | 0, b => by simp [decodeIns]
  | n + 1, b => Btc.bind_ne_panic (decodeIn_ne_panic b) (fun _ _ => Btc.bind_ne_panic (decodeIns_ne_panic n _) (fun _ _ => by simp))

theorem decodeOut_ne_panic (b : Bytes) : decodeOut b ≠ .panic := by
  unfold decodeOut
  refine Btc.bind_ne_panic (Btc.takeN_ne_panic _ _) (fun _ _ => Btc.bind_ne_panic (Btc.take1_ne_panic _) (fun _ _ =>
    Btc.bind_ne_panic (Btc.takeN_ne_panic _ _) (fun _ _ => by simp)))

theorem decodeOuts_ne_panic : ∀ (n : Nat) (b : Bytes), decodeOuts n b ≠ .panic
  | 0, b => by simp [decodeOuts]
  | n + 1, b => Btc.bind_ne_panic (decodeOut_ne_panic b) (fun _ _ => Btc.bind_ne_panic (decodeOuts_ne_panic n _) (fun _ _ => by simp))

end BtcLike

/-- C114 (a): the standard serialisation of a transaction without witness data (up to 252 inputs, outputs and script bytes) is parsed into exactly the
fields of this transaction. -/
theorem C114_parse_partial (t : RawTx) (s : Small t) : decodeTx t.ser = .ok
    { version := leBytes 4 t.version
      vins := t.ins.map (fun i => ⟨i.prev, leBytes 4 i.index, i.script, leBytes 4 i.sequence⟩)
      vouts := t.outs.map (fun o => ⟨leBytes 8 o.value, o.script⟩)
      witness := []
      lockTime := leBytes 4 t.lockTime } := decodeTx_ser s

/-- C114 (b): what is parsed without the witness marker is nothing but a rearrangement of the bytes: no byte is dropped, added or changed. -/
theorem C114_exact_partial (b : Bytes) (x : Tx) (h : decodeTx b = .ok x) (hm : b[4]? ≠ some 0) :
    b = x.version ++ [UInt8.ofNat x.vins.length] ++ (x.vins.map (fun i => i.txid ++ i.vout ++ push i.script ++ i.sequence)).flatten ++
      [UInt8.ofNat x.vouts.length] ++ (x.vouts.map (fun o => o.amount ++ push o.lockScript)).flatten ++ x.lockTime ∧
    x.version.length = 4 ∧ x.lockTime.length = 4 ∧ x.witness = [] ∧ 0 < x.vins.length ∧ x.vins.length < 256 ∧ x.vouts.length < 256 ∧
    (∀ i ∈ x.vins, i.txid.length = 32 ∧ i.vout.length = 4 ∧ i.script.length < 256 ∧ i.sequence.length = 4) ∧
    (∀ o ∈ x.vouts, o.amount.length = 8 ∧ o.lockScript.length < 256) := by
  unfold decodeTx at h
  obtain ⟨⟨v, b1⟩, h1, h⟩ := Res.bind_eq_ok.mp h
  obtain ⟨l1, e1⟩ := takeN_inv h1
  obtain ⟨⟨mk, b2⟩, h2, h⟩ := Res.bind_eq_ok.mp h
  simp only at h2 h
  obtain ⟨l2, e2⟩ := takeN_inv h2
  have hseg : ¬ mk.head? = some 0 := by
    intro hh
    apply hm
    rw [e1, get4 l1, e2]
    match mk, hh with
    | y :: q, hh => simpa using hh
  simp only [hseg, decide_false, Bool.false_eq_true, false_and, if_false] at h
  obtain ⟨⟨n, b3⟩, h3, h⟩ := Res.bind_eq_ok.mp h
  have e3 := take1_inv h3
  obtain ⟨⟨ins, b4⟩, h4, h⟩ := Res.bind_eq_ok.mp h
  obtain ⟨e4, l4, k4⟩ := decodeIns_inv h4
  obtain ⟨⟨m, b5⟩, h5, h⟩ := Res.bind_eq_ok.mp h
  have e5 := take1_inv h5
  obtain ⟨⟨outs, b6⟩, h6, h⟩ := Res.bind_eq_ok.mp h
  obtain ⟨e6, l6, k6⟩ := decodeOuts_inv h6
  simp only [Res.bind_ok] at h
  obtain ⟨⟨lt, b7⟩, h7, h⟩ := Res.bind_eq_ok.mp h
  obtain ⟨l7, e7⟩ := takeN_inv h7
  simp only at h
  split at h
  · simp at h
  rename_i hb
  simp only [not_not] at hb
  simp only [Res.ok.injEq] at h
  subst h
  have hn : n ≠ 0 := by
    intro hn
    apply hm
    rw [e1, get4 l1, e3, hn]
    rfl
  have hn' : 0 < n.toNat := by
    rcases Nat.eq_zero_or_pos n.toNat with h0 | h0
    · exact absurd (UInt8.toNat_inj.mp (by simpa using h0)) hn
    · exact h0
  have hn2 := n.toNat_lt
  have hm2 := m.toNat_lt
  simp only at e3 e4 e5 e6 e7 l4 l6
  refine ⟨?_, l1, l7, rfl, by simp only; omega, by simp only; omega, by simp only; omega, k4, k6⟩
  rw [e1, e3, e4, e5, e6, e7, hb]
  have f1 : inBytes = fun i => i.txid ++ (i.vout ++ (push i.script ++ i.sequence)) := by funext i; simp [inBytes]
  have f2 : outBytes = fun o => o.amount ++ push o.lockScript := rfl
  simp only [l4, l6, ofNat_toNat, List.append_nil, List.append_assoc, List.cons_append, List.nil_append, f1, f2]

/-- C114 (c): parsing bytes without the witness marker never panics. -/
theorem C114_no_panic_partial (b : Bytes) (hm : b[4]? ≠ some 0) : decodeTx b ≠ .panic := by
  unfold decodeTx
  refine Btc.bind_ne_panic (Btc.takeN_ne_panic _ _) ?_
  rintro ⟨v, b1⟩ h1
  obtain ⟨l1, rfl⟩ := takeN_inv h1
  refine Btc.bind_ne_panic (Btc.takeN_ne_panic _ _) ?_
  rintro ⟨mk, b2⟩ h2
  obtain ⟨l2, e2⟩ := takeN_inv h2
  have hseg : ¬ mk.head? = some 0 := by
    intro hh
    apply hm
    rw [get4 l1, e2]
    match mk, hh with
    | y :: q, hh => simpa using hh
  simp only [hseg, decide_false, Bool.false_eq_true, false_and, if_false, Res.bind_ok]
  refine Btc.bind_ne_panic (Btc.take1_ne_panic _) (fun _ _ => Btc.bind_ne_panic (decodeIns_ne_panic _ _) (fun _ _ =>
    Btc.bind_ne_panic (Btc.take1_ne_panic _) (fun _ _ => Btc.bind_ne_panic (decodeOuts_ne_panic _ _) (fun _ _ =>
    Btc.bind_ne_panic (Btc.takeN_ne_panic _ _) (fun _ _ => ?_)))))
  split <;> simp

/-- C114 (c) is false with the witness marker: any transaction with one input whose witness stack has two entries, the first of which is not a
signature (does not start with 0x30) but long enough, makes parsing panic. -/
theorem C114_witness_panics_violated (t : RawTx) (s : Small t) (i : RawIn) (hi : t.ins = [i]) (first second : Bytes) (hl : first.length < 253)
    (h0 : 1 ≤ first.length) (hx : first.head? ≠ some 0x30) (h2 : second.length = 33) : decodeTx (t.serWitness [[first, second]]) = .panic := by
  have hl' : (UInt8.ofNat t.ins.length).toNat = t.ins.length := by have := s.insLt; simp; omega
  have hm : (UInt8.ofNat t.outs.length).toNat = t.outs.length := by have := s.outsLt; simp; omega
  have hf : (UInt8.ofNat first.length).toNat = first.length := by simp; omega
  unfold decodeTx
  simp only [RawTx.serWitness, compactSize_small s.insLt, compactSize_small s.outsLt, List.append_assoc, List.cons_append, List.nil_append]
  rw [takeN_append _ _ (by simp), Res.bind_ok]
  simp only
  rw [takeN_two, Res.bind_ok]
  simp only [List.head?_cons, decide_true, ne_eq, not_true_eq_false, and_false, if_false, if_true, List.drop_succ_cons, List.drop_zero]
  rw [take1_cons, Res.bind_ok]
  simp only [hl']
  rw [decodeIns_ser s.ins, Res.bind_ok]
  simp only
  rw [take1_cons, Res.bind_ok]
  simp only [hm]
  rw [decodeOuts_ser s.outs, Res.bind_ok]
  simp only
  have : decodeWitnesses t.ins.length ((List.map stackBytes [[first, second]]).flatten ++ leBytes 4 t.lockTime) = .panic := by
    rw [hi]
    have e : (List.map stackBytes [[first, second]]).flatten ++ leBytes 4 t.lockTime =
        2 :: ((UInt8.ofNat first.length :: first ++ (0x21 :: second)) ++ leBytes 4 t.lockTime) := by
      simp [stackBytes, varBytes, compactSize_small hl, h2,
        compactSize_small (n := 33) (by omega), compactSize_small (n := 2) (by omega)]
    rw [e]
    rw [List.length_singleton, decodeWitnesses, decodeWitness, take1_cons, Res.bind_ok]
    simp only [if_neg (show ¬ (2 : UInt8) = 0 by decide), if_true]
    rw [List.cons_append, List.cons_append, take1_cons, Res.bind_ok]
    simp only [hf]
    rw [← List.cons_append, ← List.cons_append, takeN_append _ _ (by simp [h2]), Res.bind_ok]
    have : decodeSegwit (UInt8.ofNat first.length :: first ++ 0x21 :: second) = none := by
      match first, h0, hx with
      | y :: q, _, hx =>
        have hy : y ≠ 0x30 := by simpa using hx
        exact decodeSegwit_bad (y := y) rfl hy
    simp only
    rw [this]
    rfl
  rw [this]
  rfl

/-- C114 (a) is false of longer scripts: the standard serialisation of a transaction whose first input has an unlocking script of 254 or more bytes is
never parsed into a transaction with this script. -/
theorem C114_long_script_violated (t : RawTx) (i : RawIn) (is : List RawIn) (hi : t.ins = i :: is) (hn : t.ins.length < 253)
    (hp : i.prev.length = 32) (h1 : 254 ≤ i.script.length) (h2 : i.script.length ≤ 0xffff) (x : Tx) (h : decodeTx t.ser = .ok x) :
    ∀ j ∈ x.vins.head?, j.script ≠ i.script := by
  have hm : t.ser[4]? ≠ some 0 := by
    simp only [RawTx.ser, compactSize_small hn, List.append_assoc]
    rw [List.getElem?_append_right (by simp)]
    have := Btc.u8_ofNat_ne0 (n := t.ins.length) (by omega) (by rw [hi]; simp)
    simpa using this
  obtain ⟨_, _, _, _, _, _, _, k, _⟩ := C114_exact_partial _ _ h hm
  intro j hj he
  have := (k j (List.mem_of_mem_head? hj)).2.2.1
  unfold decodeTx at h
  obtain ⟨⟨v, b1⟩, g1, h⟩ := Res.bind_eq_ok.mp h
  rw [he] at this
  have hc : compactSize i.script.length = 0xfd :: leBytes 2 i.script.length := by
    unfold compactSize; rw [if_neg (by omega), if_pos h2]
  simp only [RawTx.ser, compactSize_small hn, List.append_assoc, List.cons_append, List.nil_append] at g1
  rw [takeN_append _ _ (by simp)] at g1
  simp only [Res.ok.injEq, Prod.mk.injEq] at g1
  obtain ⟨rfl, rfl⟩ := g1
  have hz : UInt8.ofNat t.ins.length ≠ 0 := Btc.u8_ofNat_ne0 (n := t.ins.length) (by omega) (by rw [hi]; simp)
  obtain ⟨⟨mk, b2⟩, g2, h⟩ := Res.bind_eq_ok.mp h
  obtain ⟨l2, e2⟩ := takeN_inv g2
  have hseg : ¬ mk.head? = some 0 := by
    intro hh
    match mk, hh with
    | y :: q, hh =>
      simp only [List.cons_append, List.cons.injEq] at e2
      simp only [List.head?_cons, Option.some.injEq] at hh
      exact hz (by rw [e2.1, hh])
  simp only [hseg, decide_false, Bool.false_eq_true, false_and, if_false] at h
  rw [take1_cons, Res.bind_ok] at h
  have hl : (UInt8.ofNat t.ins.length).toNat = is.length + 1 := by rw [hi]; rw [hi] at hn; simp at hn ⊢; omega
  simp only [hl, decodeIns] at h
  obtain ⟨⟨ins, b4⟩, g4, h⟩ := Res.bind_eq_ok.mp h
  obtain ⟨⟨i0, b5⟩, g5, g4⟩ := Res.bind_eq_ok.mp g4
  obtain ⟨⟨is0, b6⟩, g6, g4⟩ := Res.bind_eq_ok.mp g4
  simp only [Res.ok.injEq, Prod.mk.injEq] at g4
  obtain ⟨rfl, rfl⟩ := g4
  obtain ⟨⟨m, b7⟩, g7, h⟩ := Res.bind_eq_ok.mp h
  obtain ⟨⟨outs, b8⟩, g8, h⟩ := Res.bind_eq_ok.mp h
  simp only [Res.bind_ok] at h
  obtain ⟨⟨lt, b9⟩, g9, h⟩ := Res.bind_eq_ok.mp h
  simp only at h
  split at h
  · simp at h
  simp only [Res.ok.injEq] at h
  subst h
  simp only [List.head?_cons, Option.mem_def, Option.some.injEq] at hj
  subst hj
  -- the first input read
  rw [hi] at g5
  unfold decodeIn at g5
  simp only [List.map_cons, List.flatten_cons, RawIn.ser, RawIn.outpoint, varBytes, hc, List.append_assoc, List.cons_append] at g5
  rw [takeN_append _ _ hp, Res.bind_ok] at g5
  simp only at g5
  rw [takeN_append _ _ (by simp), Res.bind_ok] at g5
  simp only at g5
  rw [take1_cons, Res.bind_ok] at g5
  obtain ⟨⟨sc, b10⟩, g10, g5⟩ := Res.bind_eq_ok.mp g5
  obtain ⟨⟨sq, b11⟩, g11, g5⟩ := Res.bind_eq_ok.mp g5
  simp only [Res.ok.injEq, Prod.mk.injEq] at g5
  obtain ⟨rfl, rfl⟩ := g5
  have := (takeN_inv g10).1
  have he : sc = i.script := he
  rw [he] at this
  simp at this
  omega

end Verif
