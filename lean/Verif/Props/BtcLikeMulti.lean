import Verif.Props.BtcLikeSigner
import Verif.Props.BtcAddress
import Verif.Props.BtcMulti

/-! Property C117: multi-signature outputs in the older Bitcoin driver. -/

namespace Verif
open Verif.Spec Verif.BtcLike
open _root_.Verif.Btc (Curve concatAll takeN takeN_append)

/-- C117 (address): `CreateMultiSig` succeeds exactly for one to sixteen keys of 33 or 65 bytes of which at least one and at most all are required and whose
script has at most 520 bytes; it returns the standard script in the order given and the test network address of the hash of its witness
program. -/
theorem C117_address (H : Hashes) (m : UInt8) (keys : List Bytes) (address script : Bytes) :
    createMultiSig H m keys = .ok (address, script) ↔
      1 ≤ m.toNat ∧ m.toNat ≤ keys.length ∧ keys.length ≤ 16 ∧ (∀ k ∈ keys, k.length = 33 ∨ k.length = 65) ∧
      (multisigScript m.toNat keys).length ≤ 520 ∧ script = Hex.encode (multisigScript m.toNat keys) ∧
      IsBase58Check H Btc.alphabet [0xc4] (H.hash .hash160 (witnessV0Script (H.hash .sha256 (multisigScript m.toNat keys)))) address := by
  have hw : ∀ x : Bytes, [0x00, 0x20] ++ H.hash .sha256 x = witnessV0Script (H.hash .sha256 x) := by
    intro x
    have : (H.hash .sha256 x).length = 32 := H.size .sha256 x
    simp [witnessV0Script, push, this]
  constructor
  · intro h
    obtain ⟨redeem, h1, h⟩ := Res.bind_eq_ok.mp h
    obtain ⟨a, h2, h⟩ := Res.bind_eq_ok.mp h
    simp only [Res.ok.injEq, Prod.mk.injEq] at h
    obtain ⟨rfl, rfl⟩ := h
    have h0 := h1
    unfold Btc.multiRedeem at h1
    split at h1
    · simp at h1
    split at h1
    · simp at h1
    split at h1
    · simp at h1
    split at h1
    · simp at h1
    rename_i c1 c2 c3 c4
    have k1 : 1 ≤ m.toNat := by
      rw [UInt8.not_lt, UInt8.le_iff_toNat_le] at c1
      simpa using c1
    have k2 : m.toNat ≤ keys.length := by
      have : m.toNat ≤ (UInt8.ofNat keys.length).toNat := by
        rw [← UInt8.le_iff_toNat_le, ← UInt8.not_lt]
        exact c2
      simp at this
      omega
    have k3 : keys.length ≤ 16 := by omega
    have k4 : ∀ k ∈ keys, k.length = 33 ∨ k.length = 65 := by
      intro k hk
      simp only [List.any_eq_true, not_exists, not_and] at c4
      have := c4 k hk
      simp at this
      omega
    rw [Btc.multiRedeem_eq m keys k1 k2 k3 k4] at h0
    split at h0
    · simp at h0
    rename_i c5
    simp only [Res.ok.injEq] at h0
    subst h0
    refine ⟨k1, k2, k3, k4, by omega, rfl, ?_⟩
    rw [← hw]
    exact BtcAddr.encodeCheck_spec h2
  · rintro ⟨k1, k2, k3, k4, k5, rfl, ha⟩
    unfold createMultiSig
    rw [Btc.multiRedeem_eq m keys k1 k2 k3 k4, if_neg (by omega), Res.bind_ok, hw]
    have : encodeCheck H p2shPrefix (H.hash .hash160 (witnessV0Script (H.hash .sha256 (multisigScript m.toNat keys)))) = .ok address :=
      (Addr.encode_iff Btc.alphabet_ok _ _).mpr ha
    rw [this, Res.bind_ok]

namespace BtcLike

/-- The unlock data name an output of the hash of a script and this script. -/
structure DescribesMulti (u : TxUnlock) (h script : Bytes) (value : Nat) : Prop where
  hash : h.length = 20
  lock : Hex.decode u.lockScript = .ok (p2shScript h)
  redeem : Hex.decode u.redeemScript = .ok script
  last : script.getLast? = some 0xae
  value : u.amount.toNat = value

/-- `der` is the canonical form of the signature beside a 33-byte key. -/
def SigFor (x : SigPub) (der : Bytes) : Prop :=
  ∃ sig, x.signature = some sig ∧ sig.length = 64 ∧ x.pubkey.length = 33 ∧ IsSigAll sig der ∧ 2 ^ 247 ≤ beNat (sig.take 32) ∧ 2 ^ 247 ≤ beNat (sig.drop 32)

theorem SigFor.encode {x : SigPub} {der : Bytes} (h : SigFor x der) : encodeMultiWitness x = .ok (push der) := by
  obtain ⟨sig, h1, h2, h3, ⟨R, S, hR, hS, rfl⟩, h4, h5⟩ := h
  have l1 : (sig.take 32).length = 32 := by simp [h2]
  have l2 : (sig.drop 32).length = 32 := by simp [h2]
  rw [Btc.IsDerInt.unique hR (widen_der l1 h4), Btc.IsDerInt.unique hS (widen_der l2 h5)]
  unfold encodeMultiWitness
  rw [h1]
  simp only [witnessScript_eq h2, Res.bind_ok]
  generalize push (derSig (widen (sig.take 32)) (widen (sig.drop 32)) ++ [1]) = p
  have hp : (push x.pubkey).length = 34 := by simp [push, h3]
  rw [slice_ok (by omega) (by omega), List.length_append, hp, Nat.add_sub_cancel, List.take_left]
  rfl

theorem multi_witness {sps : List SigPub} {ders : List Bytes} (h : List.Forall₂ SigFor sps ders) :
    concatAll encodeMultiWitness sps = .ok (ders.map push).flatten := by
  induction h with
  | nil => rfl
  | cons h _ ih => rw [Btc.concatAll, h.encode, Res.bind_ok, ih]; simp

theorem DescribesMulti.isMultiSig {u : TxUnlock} {h script : Bytes} {v : Nat} (d : DescribesMulti u h script v) :
    isMultiSig u.lockScript u.redeemScript = true := by
  have hl := Hex.decode_length _ _ d.lock
  have h1 : (p2shScript h).length = 23 := by simp [p2shScript, d.hash]
  unfold BtcLike.isMultiSig
  rw [if_neg (by omega), d.lock, d.redeem]
  simp [p2shScript, d.last]

theorem DescribesMulti.ne {u : TxUnlock} {h script : Bytes} {v : Nat} (d : DescribesMulti u h script v) : script ≠ [] := by
  intro e
  have := d.last
  simp [e] at this

/-- What is made of a transaction with one input. -/
theorem insert_multi {H : Hashes} {t : RawTx} (small : Small t) {i : RawIn} (hi : t.ins = [i]) {u : TxUnlock} {h script : Bytes} {v : Nat}
    (d : DescribesMulti u h script v) {sps : List SigPub} {ders : List Bytes} (hs : List.Forall₂ SigFor sps ders) (hne : sps ≠ []) :
    insertSignatures H (Hex.encode t.ser) sps [u] = .ok (Hex.encode (leBytes 4 t.version ++ [0x00, 0x01] ++ [0x01] ++
      RawIn.ser { i with script := push (witnessV0Script (H.hash .sha256 script)) } ++ [UInt8.ofNat t.outs.length] ++ (t.outs.map RawOut.ser).flatten ++
      ([0x04, 0x00] ++ (ders.map push).flatten ++ push script) ++ leBytes 4 t.lockTime), [u]) := by
  have hsha : (H.hash .sha256 script).length = 32 := H.size .sha256 script
  have hp := small.ins i (by simp [hi])
  have hlast := d.last
  unfold insertSignatures
  rw [Hex.decode_encode, Res.bind_ok, decodeTx_ser small, Res.bind_ok, if_neg (by simp), if_neg hne, if_neg small.ins_ne,
    if_neg small.outs_ne, if_neg (by simp [ofRaw, hi])]
  simp only [index, List.getElem?_cons_zero, Res.bind_ok]
  rw [d.isMultiSig, if_pos rfl, d.redeem, Res.bind_ok]
  have e : ({ ofRaw t [] with vins := (ofRaw t []).vins.modifyHead (fun i => { i with script := script }), witness := (ofRaw t []).witness ++ sps } : Tx) =
      ⟨leBytes 4 t.version, [⟨i.prev, leBytes 4 i.index, script, leBytes 4 i.sequence⟩], t.outs.map ofOut, sps, leBytes 4 t.lockTime⟩ := by
    simp [ofRaw, hi, ofIn]
  rw [e]
  unfold encodeTx
  rw [if_neg (by simp), if_neg (by intro e; exact small.outs_ne (ws := []) e), if_pos (by simp [Tx.isMultiSig, hlast]), if_neg hne]
  simp only [Btc.concatAll]
  unfold encodeIn
  rw [if_neg (by simp [hp.1])]
  simp only [Res.bind_ok, concat_outs small.outs, multi_witness hs, index, List.getElem?_cons_zero]
  congr 3
  simp [calcRedeemHash, RawIn.ser, RawIn.outpoint, varBytes, push, witnessV0Script, hsha, compactSize]

theorem der_lt {x : SigPub} {der : Bytes} (h : SigFor x der) : der.length < 253 := by
  obtain ⟨sig, h1, h2, h3, ⟨R, S, hR, hS, rfl⟩, h4, h5⟩ := h
  have l1 : (sig.take 32).length = 32 := by simp [h2]
  have l2 : (sig.drop 32).length = 32 := by simp [h2]
  rw [Btc.IsDerInt.unique hR (widen_der l1 h4), Btc.IsDerInt.unique hS (widen_der l2 h5)]
  have a := widen_length l1
  have b := widen_length l2
  simp [derSig]
  omega

theorem varBytes_small {x : Bytes} (h : x.length < 253) : varBytes x = push x := by simp [varBytes, push, Btc.compactSize_small h]

theorem stack_multi {ders : List Bytes} {script : Bytes} (hd : ∀ d ∈ ders, d.length < 253) (hs : script.length < 253) (hn : ders.length < 251) :
    stackBytes ([] :: ders ++ [script]) = [UInt8.ofNat (ders.length + 2), 0x00] ++ (ders.map push).flatten ++ push script := by
  have e : ders.map varBytes = ders.map push := List.map_congr_left fun d h => varBytes_small (hd d h)
  unfold stackBytes
  rw [Btc.compactSize_small (by simp; omega)]
  simp [e, varBytes_small hs]
  simp only [varBytes, List.length_nil, List.append_nil, Btc.compactSize_small (show 0 < 253 by omega)]
  rw [UInt8.add_assoc]
  exact ⟨rfl, rfl⟩

theorem ders_lt {sps : List SigPub} {ders : List Bytes} (hs : List.Forall₂ SigFor sps ders) : ∀ d ∈ ders, d.length < 253 := by
  induction hs with
  | nil => simp
  | cons h _ ih => simpa using ⟨der_lt h, ih⟩

end BtcLike

/-- C117 (insert): for a transaction with one input that spends an output of a multi-signature script, inserting exactly two signatures returns the
transaction spent with them. Missing: any other number of signatures (`C117_count_violated`), more inputs (`C117_inputs_violated`), scripts of 253 bytes
and more, signatures with leading zeros. -/
theorem C117_insert_partial (H : Hashes) (t : RawTx) (small : Small t) (i : RawIn) (hi : t.ins = [i]) (u : TxUnlock) (h script : Bytes) (value : Nat)
    (d : DescribesMulti u h script value) (hl : script.length < 253) (x y : SigPub) (a b : Bytes) (hx : SigFor x a) (hy : SigFor y b) :
    insertSignatures H (Hex.encode t.ser) [x, y] [u] = .ok (Hex.encode (t.spendMulti (H.hash .sha256) [a, b] script), [u]) := by
  have hs : List.Forall₂ SigFor [x, y] [a, b] := .cons hx (.cons hy .nil)
  rw [insert_multi small hi d hs (by simp)]
  congr 3
  unfold RawTx.spendMulti RawTx.serWitness
  simp only [List.map_cons, List.map_nil, List.flatten_cons, List.flatten_nil, List.append_nil]
  rw [stack_multi (ders_lt hs) hl (by simp)]
  simp [RawTx.withScripts, hi, Btc.compactSize_small small.outsLt, Btc.compactSize_small (show 1 < 253 by omega)]

/-- C117 is false for any other number of signatures: the count of entries in the witness is always four, so what is returned without an error is not
the spent transaction. -/
theorem C117_count_violated (H : Hashes) (t : RawTx) (small : Small t) (i : RawIn) (hi : t.ins = [i]) (u : TxUnlock) (h script : Bytes) (value : Nat)
    (d : DescribesMulti u h script value) (hl : script.length < 253) (sps : List SigPub) (ders : List Bytes) (hs : List.Forall₂ SigFor sps ders)
    (hn : 1 ≤ sps.length ∧ sps.length ≠ 2 ∧ sps.length < 251) :
    ∃ text, insertSignatures H (Hex.encode t.ser) sps [u] = .ok (text, [u]) ∧ text ≠ Hex.encode (t.spendMulti (H.hash .sha256) ders script) := by
  have hlen := hs.length_eq
  refine ⟨_, insert_multi small hi d hs (by intro e; simp [e] at hn), fun e => ?_⟩
  have e := Hex.encode_inj e
  unfold RawTx.spendMulti RawTx.serWitness at e
  simp only [List.map_cons, List.map_nil, List.flatten_cons, List.flatten_nil, List.append_nil] at e
  rw [stack_multi (ders_lt hs) hl (by omega)] at e
  simp only [RawTx.withScripts, hi, Btc.compactSize_small small.outsLt, List.zipWith_cons_cons, List.zipWith_nil_left, List.map_cons, List.map_nil,
    List.flatten_cons, List.flatten_nil, List.append_nil, List.length_singleton, Btc.compactSize_small (show 1 < 253 by omega)] at e
  simp only [List.append_assoc, List.append_cancel_left_eq, List.cons_append, List.nil_append, List.cons.injEq, true_and] at e
  have e : (4 : UInt8).toNat = (UInt8.ofNat (ders.length + 2)).toNat := congrArg UInt8.toNat e.2.1
  rw [UInt8.toNat_ofNat'] at e
  have h4 : (4 : UInt8).toNat = 4 := rfl
  omega

/-- C117 is false for verifying: whatever the signatures, the text made from them is refused, since a witness of four entries is not parsed. -/
theorem C117_verify_violated (H : Hashes) (t : RawTx) (small : Small t) (i : RawIn) (hi : t.ins = [i]) (u : TxUnlock) (h script : Bytes) (value : Nat)
    (d : DescribesMulti u h script value) (sps : List SigPub) (ders : List Bytes) (hs : List.Forall₂ SigFor sps ders) (hne : sps ≠ []) :
    ∃ text, insertSignatures H (Hex.encode t.ser) sps [u] = .ok (text, [u]) ∧ ∀ (C : Curve) us, verifyRaw H C text us = .ok false := by
  have hsha : (H.hash .sha256 script).length = 32 := H.size .sha256 script
  have hp := small.ins i (by simp [hi])
  refine ⟨_, insert_multi small hi d hs hne, fun C us => ?_⟩
  have hm : (UInt8.ofNat t.outs.length).toNat = t.outs.length := by have := small.outsLt; simp; omega
  have hins : ∀ r, decodeIns 1 (RawIn.ser { i with script := push (witnessV0Script (H.hash .sha256 script)) } ++ r) =
      .ok ([ofIn { i with script := push (witnessV0Script (H.hash .sha256 script)) }], r) := by
    intro r
    have := decodeIns_ser (l := [{ i with script := push (witnessV0Script (H.hash .sha256 script)) }])
      (by simp [hp.1, push, witnessV0Script, hsha]) r
    simpa using this
  have hdec : ∀ w : Bytes, w ≠ [] → decodeTx (leBytes 4 t.version ++ [0x00, 0x01] ++ [0x01] ++
      RawIn.ser { i with script := push (witnessV0Script (H.hash .sha256 script)) } ++ [UInt8.ofNat t.outs.length] ++ (t.outs.map RawOut.ser).flatten ++
      ([0x04, 0x00] ++ w) ++ leBytes 4 t.lockTime) = .err := by
    intro w hw
    unfold decodeTx
    simp only [List.append_assoc, List.cons_append, List.nil_append]
    rw [takeN_append _ _ (by simp), Res.bind_ok]
    simp only
    rw [takeN_two, Res.bind_ok]
    simp only [List.head?_cons, decide_true, ne_eq, not_true_eq_false, and_false, if_false, if_true, List.drop_succ_cons, List.drop_zero]
    rw [take1_cons, Res.bind_ok]
    simp only [show (1 : UInt8).toNat = 1 from rfl]
    rw [hins, Res.bind_ok]
    simp only
    rw [take1_cons, Res.bind_ok]
    simp only [hm]
    rw [decodeOuts_ser small.outs, Res.bind_ok]
    simp only [decodeWitnesses, decodeWitness, take1_cons, Res.bind_ok]
    rw [if_neg (by decide), if_neg (by decide)]
    simp only [Res.bind_ok]
    obtain ⟨a, w, rfl⟩ := List.exists_cons_of_ne_nil hw
    have : leBytes 4 t.lockTime ≠ [] := by intro e; have := congrArg List.length e; simp at this
    obtain ⟨b, l, hbl⟩ := List.exists_cons_of_ne_nil this
    have hll : l.length = 3 := by have := congrArg List.length hbl; simp at this; omega
    have hlen : 2 < (a :: (w ++ b :: l)).length := by simp; omega
    rw [hbl]
    have e : ∀ z : Bytes, 2 < z.length → takeN 4 (4 :: 0 :: z) = .ok ([4, 0] ++ z.take 2, z.drop 2) := by
      intro z hz
      rw [show 4 :: 0 :: z = ([4, 0] ++ z.take 2) ++ z.drop 2 by simp, takeN_append _ _ (by simp; omega)]
    rw [List.cons_append, e _ hlen, Res.bind_ok]
    simp only
    rw [if_pos]
    intro hc
    rw [List.drop_eq_nil_iff] at hc
    omega
  unfold verifyRaw
  have : (ders.map push).flatten ++ push script ≠ [] := by simp [push]
  have hx := hdec _ this
  simp only [← List.append_assoc] at hx ⊢
  rw [Hex.decode_encode]
  simp only [Res.bind_ok]
  rw [hx]
  rfl

/-- C117 (hash): the hash to sign an output of a multi-signature script is that of BIP 143 with the script. Missing: more than one input, scripts of 253
bytes and more. -/
theorem C117_hash_partial (H : Hashes) (t : RawTx) (small : Small t) (i : RawIn) (hi : t.ins = [i]) (u : TxUnlock) (h script : Bytes) (value : Nat)
    (d : DescribesMulti u h script value) (hl : script.length < 253) (h0 : script.head? ≠ some 0) :
    createHashes H (Hex.encode t.ser) [u] =
      .ok ([Hex.encode (H.hash .doubleSha256 (bip143Preimage (H.hash .doubleSha256) t i script value))], [u]) := by
  have hidx : index (ofRaw t []).vins 0 = .ok (ofIn i) := by simp [index, ofRaw, hi]
  have hc : scriptCode u.redeemScript = .ok script := by
    unfold scriptCode
    rw [d.redeem, Res.bind_ok]
    obtain ⟨a, x, rfl⟩ := List.exists_cons_of_ne_nil d.ne
    have : a ≠ 0 := by simpa using h0
    simp [allAt, index, this]
  unfold createHashes
  rw [Hex.decode_encode, Res.bind_ok, decodeTx_ser small, Res.bind_ok]
  unfold getHashes
  rw [if_neg (by
    rintro (h | h)
    · exact small.ins_ne h
    · exact h (by simp [ofRaw, hi])), hashLoop]
  unfold hashOne
  rw [d.lock, Res.bind_ok, if_neg (by simp [p2shScript, d.hash]), hidx, Res.bind_ok]
  simp only [check_nested d.hash, Res.bind_ok]
  rw [segwitBytes_eq small hc hl]
  simp only [Res.bind_ok, hashLoop]
  simp [bip143Preimage, d.value]

/-- C117 is false for more inputs: the script itself is written as the unlocking script of the first input. -/
theorem C117_inputs_violated (H : Hashes) (t : RawTx) (small : Small t) (i j : RawIn) (is : List RawIn) (hi : t.ins = i :: j :: is) (u : TxUnlock)
    (us us' : List TxUnlock) (h script : Bytes) (value : Nat) (d : DescribesMulti u h script value) (hl : script.length < 253) (hl' : script.length ≠ 35)
    (sps : List SigPub) (text : Bytes) (hins : insertSignatures H (Hex.encode t.ser) sps (u :: us) = .ok (text, us')) (scripts : List Bytes)
    (sts : List (List Bytes)) : text ≠ Hex.encode ((t.withScripts (push (witnessV0Script (H.hash .sha256 script)) :: scripts)).serWitness sts) := by
  have hsha : (H.hash .sha256 script).length = 32 := H.size .sha256 script
  have hp := small.ins i (by simp [hi])
  intro e
  unfold insertSignatures at hins
  rw [Hex.decode_encode, Res.bind_ok, decodeTx_ser small, Res.bind_ok, if_neg (by simp)] at hins
  split at hins
  · simp at hins
  rename_i hne
  rw [if_neg small.ins_ne, if_neg small.outs_ne] at hins
  split at hins
  · simp at hins
  simp only [index, List.getElem?_cons_zero, Res.bind_ok] at hins
  rw [d.isMultiSig, if_pos rfl, d.redeem, Res.bind_ok] at hins
  obtain ⟨b, hb, hins⟩ := Res.bind_eq_ok.mp hins
  simp only [Res.ok.injEq, Prod.mk.injEq] at hins
  obtain ⟨rfl, -⟩ := hins
  have e := Hex.encode_inj e
  subst e
  have e : ({ ofRaw t [] with vins := (ofRaw t []).vins.modifyHead (fun i => { i with script := script }), witness := (ofRaw t []).witness ++ sps } : Tx) =
      ⟨leBytes 4 t.version, ⟨i.prev, leBytes 4 i.index, script, leBytes 4 i.sequence⟩ :: (j :: is).map ofIn, t.outs.map ofOut, sps, leBytes 4 t.lockTime⟩ := by
    simp [ofRaw, hi, ofIn]
  rw [e] at hb
  unfold encodeTx at hb
  rw [if_neg (by simp), if_neg (by intro e; exact small.outs_ne (ws := []) e), if_neg (by simp [Tx.isMultiSig])] at hb
  obtain ⟨x, h1, hb⟩ := Res.bind_eq_ok.mp hb
  obtain ⟨y, h2, hb⟩ := Res.bind_eq_ok.mp hb
  obtain ⟨z, h3, hb⟩ := Res.bind_eq_ok.mp hb
  rw [Btc.concatAll] at h1
  obtain ⟨x1, h4, h1⟩ := Res.bind_eq_ok.mp h1
  obtain ⟨x2, h5, h1⟩ := Res.bind_eq_ok.mp h1
  unfold encodeIn at h4
  rw [if_neg (by simp [hp.1])] at h4
  simp only [Res.ok.injEq] at h4 h1 hb
  subst h4 h1
  rw [if_neg hne] at hb
  have hwl : (t.withScripts (push (witnessV0Script (H.hash .sha256 script)) :: scripts)).ins =
      { i with script := push (witnessV0Script (H.hash .sha256 script)) } :: List.zipWith (fun i s => { i with script := s }) (j :: is) scripts := by
    simp [RawTx.withScripts, hi]
  have hln : 1 ≤ (compactSize (t.withScripts (push (witnessV0Script (H.hash .sha256 script)) :: scripts)).ins.length).length :=
    (Btc.compactSize_length _).1
  have hlc : compactSize (t.withScripts (push (witnessV0Script (H.hash .sha256 script)) :: scripts)).ins.length =
      [UInt8.ofNat (t.withScripts (push (witnessV0Script (H.hash .sha256 script)) :: scripts)).ins.length] := by
    apply Btc.compactSize_small
    have := small.insLt
    simp only [RawTx.withScripts, List.length_zipWith]
    omega
  unfold RawTx.serWitness at hb
  rw [hlc, hwl] at hb
  have hver : (t.withScripts (push (witnessV0Script (H.hash .sha256 script)) :: scripts)).version = t.version := rfl
  simp only [hver, List.map_cons, List.flatten_cons, RawIn.ser, RawIn.outpoint, List.append_assoc, List.cons_append, List.nil_append,
    List.append_cancel_left_eq, List.cons.injEq, true_and] at hb
  have hv : varBytes (push (witnessV0Script (H.hash .sha256 script))) = 35 :: push (witnessV0Script (H.hash .sha256 script)) := by
    have : (push (witnessV0Script (H.hash .sha256 script))).length = 35 := by simp [push, witnessV0Script, hsha]
    rw [varBytes, this, Btc.compactSize_small (by omega)]
    rfl
  rw [hv] at hb
  have := hb.2
  simp only [List.cons_append, List.cons.injEq] at this
  have e := congrArg UInt8.toNat this.1
  rw [UInt8.toNat_ofNat'] at e
  have h35 : (35 : UInt8).toNat = 35 := rfl
  omega

namespace BtcLike

def demoScript : Bytes := multisigScript 2 [demoPub, demoPub, demoPub]
def uMulti : TxUnlock := ⟨[], Hex.encode (p2shScript (List.replicate 20 5)), Hex.encode demoScript, 9⟩
theorem describes_multi : DescribesMulti uMulti (List.replicate 20 5) demoScript 9 := ⟨rfl, Hex.decode_encode _, Hex.decode_encode _, rfl, rfl⟩
theorem demo_sigFor : SigFor ⟨some demoSig, demoPub⟩ demoDer := ⟨demoSig, rfl, rfl, rfl, demo_der, by decide +kernel, by decide +kernel⟩

end BtcLike

example (H : Hashes) : insertSignatures H (Hex.encode Btc.demoTx.ser) [⟨some demoSig, demoPub⟩, ⟨some demoSig, demoPub⟩] [uMulti] =
    .ok (Hex.encode (Btc.demoTx.spendMulti (H.hash .sha256) [demoDer, demoDer] demoScript), [uMulti]) :=
  C117_insert_partial H _ demo1_small _ rfl _ _ _ _ describes_multi (by decide) _ _ _ _ demo_sigFor demo_sigFor

example (H : Hashes) : ∃ text, insertSignatures H (Hex.encode Btc.demoTx.ser) [⟨some demoSig, demoPub⟩] [uMulti] = .ok (text, [uMulti]) ∧
    text ≠ Hex.encode (Btc.demoTx.spendMulti (H.hash .sha256) [demoDer] demoScript) :=
  C117_count_violated H _ demo1_small _ rfl _ _ _ _ describes_multi (by decide) _ _ (.cons demo_sigFor .nil) (by decide)

example (H : Hashes) : ∃ text, insertSignatures H (Hex.encode Btc.demoTx.ser) [⟨some demoSig, demoPub⟩] [uMulti] = .ok (text, [uMulti]) ∧
    ∀ (C : Curve) us, verifyRaw H C text us = .ok false :=
  C117_verify_violated H _ demo1_small _ rfl _ _ _ _ describes_multi _ _ (.cons demo_sigFor .nil) (by simp)

example (H : Hashes) : ∃ hash, createHashes H (Hex.encode Btc.demoTx.ser) [uMulti] = .ok ([hash], [uMulti]) :=
  ⟨_, C117_hash_partial H _ demo1_small _ rfl _ _ _ _ describes_multi (by decide) (by decide)⟩

namespace BtcLike

theorem exists_ok {α : Type} (r : Res α) (h : (match r with | .ok _ => true | _ => false) = true) : ∃ a, r = .ok a := by
  cases r <;> simp at h ⊢

end BtcLike

-- with three inputs a text is returned
example : ∃ text us', insertSignatures toyHashes (Hex.encode demo3.ser) [⟨some demoSig, demoPub⟩] [uMulti, uMulti, uMulti] = .ok (text, us') := by
  obtain ⟨⟨a, b⟩, h⟩ := exists_ok (insertSignatures toyHashes (Hex.encode demo3.ser) [⟨some demoSig, demoPub⟩] [uMulti, uMulti, uMulti]) (by decide +kernel)
  exact ⟨a, b, h⟩

example : ∃ address script, createMultiSig toyHashes 2 [demoPub, demoPub, demoPub] = .ok (address, script) := by
  obtain ⟨a, h⟩ := exists_ok (encodeCheck toyHashes 0xc4 (toyHashes.hash .hash160 (witnessV0Script (toyHashes.hash .sha256 demoScript)))) (by decide +kernel)
  exact ⟨_, _, (C117_address _ _ _ _ _).mpr ⟨by decide, by decide, by decide, by decide, by decide, rfl, BtcAddr.encodeCheck_spec h⟩⟩

end Verif
