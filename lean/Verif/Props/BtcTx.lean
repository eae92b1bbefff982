import Verif.Lemmas.BtcTx
import Verif.Props.Address
import Verif.Lemmas.Bech32RT

/-! Properties C20 to C23, C30, C31: raw Bitcoin transactions (package btcTransaction). -/

namespace Verif
open Verif.Spec Verif.Btc

/-! ### What a created transaction consists of -/

namespace Btc

theorem newTxInLoop_inv : ∀ (vs : List Vin) {is : List TxIn}, newTxInLoop vs = .ok is →
    is.length = vs.length ∧ ∀ p ∈ vs.zip is, newTxIn p.1 = .ok p.2
  | [], is, h => by
    simp only [newTxInLoop, Res.ok.injEq] at h
    subst h; simp
  | v :: vs, is, h => by
    rw [newTxInLoop, Res.bind_eq_ok] at h
    obtain ⟨i, hi, h⟩ := h
    rw [Res.bind_eq_ok] at h
    obtain ⟨js, hj, h⟩ := h
    simp only [Res.ok.injEq] at h
    subst h
    obtain ⟨h1, h2⟩ := newTxInLoop_inv vs hj
    refine ⟨by simp [h1], ?_⟩
    intro p hp
    simp only [List.zip_cons_cons, List.mem_cons] at hp
    rcases hp with rfl | hp
    · exact hi
    · exact h2 p hp

theorem newTxOutLoop_inv (H : Hashes) (P : AddressPrefix) : ∀ (vs : List Vout) {is : List TxOut},
    newTxOutLoop H P vs = .ok is → is.length = vs.length ∧ ∀ p ∈ vs.zip is, newTxOut H P p.1 = .ok p.2
  | [], is, h => by
    simp only [newTxOutLoop, Res.ok.injEq] at h
    subst h; simp
  | v :: vs, is, h => by
    rw [newTxOutLoop, Res.bind_eq_ok] at h
    obtain ⟨i, hi, h⟩ := h
    rw [Res.bind_eq_ok] at h
    obtain ⟨js, hj, h⟩ := h
    simp only [Res.ok.injEq] at h
    subst h
    obtain ⟨h1, h2⟩ := newTxOutLoop_inv H P vs hj
    refine ⟨by simp [h1], ?_⟩
    intro p hp
    simp only [List.zip_cons_cons, List.mem_cons] at hp
    rcases hp with rfl | hp
    · exact hi
    · exact h2 p hp

theorem newTxIn_inv {v : Vin} {i : TxIn} (h : newTxIn v = .ok i) :
    ∃ id, Hex.decode v.txid = .ok id ∧ id.length = 32 ∧
      i = { inType := .empty, txid := id.reverse, vout := leBytes 4 v.vout.toNat, scriptPub := [], scriptSig := [],
            sequence := [], scriptMulti := [] } := by
  unfold newTxIn reverseHexToBytes at h
  split at h
  · rename_i txid ht
    split at ht
    · simp at ht
    · rw [Res.bind_eq_ok] at ht
      obtain ⟨id, h1, h2⟩ := ht
      simp only [Res.ok.injEq] at h2
      split at h
      · simp at h
      · rename_i hl
        simp only [Res.ok.injEq] at h
        exact ⟨id, h1, by rw [← h2] at hl; simpa using hl, by rw [← h, h2]⟩
  · simp at h
  · simp at h

/-- The sequence number the API promises. -/
def sequenceFor (lockTime : UInt32) (replaceable : Bool) : Nat :=
  if replaceable then 0xfffffffd else if lockTime ≠ 0 then 0xfffffffe else 0xffffffff

theorem setSequence_eq (lt : UInt32) (r : Bool) (i : TxIn) :
    setSequence lt r i = { i with sequence := leBytes 4 (sequenceFor lt r) } := by
  unfold setSequence sequenceFor
  split
  · rfl
  · split <;> rfl

/-- The shape of a created transaction. -/
theorem newEmptyTransaction_inv {H : Hashes} {vins : List Vin} {vouts : List Vout} {lt : UInt32} {r : Bool}
    {P : AddressPrefix} {t : Tx} (h : newEmptyTransaction H vins vouts lt r P = .ok t) :
    vins ≠ [] ∧ vouts ≠ [] ∧ t.version = leBytes 4 2 ∧ t.lockTime = leBytes 4 lt.toNat ∧ t.witness = false ∧
      t.vins.length = vins.length ∧ t.vouts.length = vouts.length ∧
      (∀ p ∈ vins.zip t.vins, ∃ id, Hex.decode p.1.txid = .ok id ∧ id.length = 32 ∧
        p.2 = { inType := .empty, txid := id.reverse, vout := leBytes 4 p.1.vout.toNat, scriptPub := [], scriptSig := [],
                sequence := leBytes 4 (sequenceFor lt r), scriptMulti := [] }) ∧
      (∀ p ∈ vouts.zip t.vouts, newTxOut H P p.1 = .ok p.2) := by
  unfold newEmptyTransaction newTxIns newTxOuts at h
  split at h
  · simp at h
  · rename_i hi
    rw [Res.bind_eq_ok] at h
    obtain ⟨ins, h1, h⟩ := h
    split at h
    · simp at h
    · rename_i ho
      rw [Res.bind_eq_ok] at h
      obtain ⟨outs, h2, h⟩ := h
      simp only [Res.ok.injEq] at h
      subst h
      obtain ⟨a1, a2⟩ := newTxInLoop_inv vins h1
      obtain ⟨b1, b2⟩ := newTxOutLoop_inv H P vouts h2
      refine ⟨hi, ho, rfl, rfl, rfl, by simp [a1], b1, ?_, b2⟩
      intro p hp
      simp only [List.zip_map_right, List.mem_map] at hp
      obtain ⟨q, hq, rfl⟩ := hp
      obtain ⟨id, k1, k2, k3⟩ := newTxIn_inv (a2 q hq)
      refine ⟨id, k1, k2, ?_⟩
      simp only [Prod.map]
      rw [setSequence_eq, k3]
      rfl

theorem newTxOut_amount {H : Hashes} {P : AddressPrefix} {v : Vout} {o : TxOut} (h : newTxOut H P v = .ok o) :
    o.amount = leBytes 8 v.amount.toNat ∧ 1 ≤ o.lockScript.length := by
  unfold newTxOut at h
  simp only at h
  split at h
  · split at h
    · simp only [Res.ok.injEq] at h; subst h; simp
    · simp at h
    · simp at h
  · split at h
    · split at h
      · simp at h
      · split at h
        · simp only [Res.ok.injEq] at h; subst h; simp
        · split at h
          · simp only [Res.ok.injEq] at h; subst h; simp
          · simp at h
    · simp at h
    · simp at h

theorem mem_of_zip_right {α β : Type} {l : List α} {r : List β} (h : r.length = l.length) {y : β} (hy : y ∈ r) :
    ∃ x, (x, y) ∈ l.zip r := by
  obtain ⟨n, hn, rfl⟩ := List.mem_iff_getElem.mp hy
  exact ⟨l[n]'(by omega), by rw [← List.getElem_zip (h := by simp; omega)]; exact List.getElem_mem _⟩

theorem created_good {H : Hashes} {vins : List Vin} {vouts : List Vout} {lt : UInt32} {r : Bool}
    {P : AddressPrefix} {t : Tx} (h : newEmptyTransaction H vins vouts lt r P = .ok t) (seg : Bool)
    (hi : vins.length ≤ 255) (ho : vouts.length ≤ 255) (hs : ∀ o ∈ t.vouts, o.lockScript.length ≤ 255) : GoodTx seg t := by
  obtain ⟨h1, h2, h3, h4, h5, h6, h7, h8, h9⟩ := newEmptyTransaction_inv h
  refine ⟨h3, by rw [h4]; rfl, ?_, by omega, ?_, by omega, ?_, ?_⟩
  · rw [h6]; exact List.length_pos_iff.mpr h1
  · rw [h7]; exact List.length_pos_iff.mpr h2
  · intro i hi
    obtain ⟨v, hv⟩ := mem_of_zip_right h6 hi
    obtain ⟨id, k1, k2, k3⟩ := h8 _ hv
    simp only at k3
    refine ⟨by rw [k3]; simpa using k2, by rw [k3]; rfl, by rw [k3]; rfl, Or.inl ?_⟩
    rw [k3, h5]
    simp
  · intro o ho
    obtain ⟨v, hv⟩ := mem_of_zip_right h7 ho
    obtain ⟨a, b⟩ := newTxOut_amount (h9 _ hv)
    exact ⟨by rw [a]; rfl, b, hs o ho⟩

theorem unlock_seg_empty {i : TxIn} (h : i.inType = .empty) (a b : Bool) : unlockBytes a i = unlockBytes b i := by
  simp [unlockBytes, h]

end Btc

/-- The script of an output for a given address: whatever `CreateEmptyRawTransaction` would put there (characterised by C30). -/
def Btc.PaysTo (H : Hashes) (P : AddressPrefix) (address script : Bytes) : Prop :=
  ∀ amount, newTxOut H P ⟨address, amount⟩ = .ok ⟨leBytes 8 amount.toNat, script⟩

theorem Btc.paysTo_of {H : Hashes} {P : AddressPrefix} {v : Vout} {o : TxOut} (h : newTxOut H P v = .ok o) :
    PaysTo H P v.address o.lockScript := by
  intro amount
  unfold newTxOut at h ⊢
  simp only at h ⊢
  split at h
  · rename_i hp
    rw [if_pos hp]
    split at h
    · simp only [Res.ok.injEq] at h; subst h; rfl
    · simp at h
    · simp at h
  · rename_i hp
    rw [if_neg hp]
    split at h
    · split at h
      · simp at h
      · rename_i hl
        rw [if_neg hl]
        split at h
        · rename_i hq
          rw [if_pos hq]
          simp only [Res.ok.injEq] at h; subst h; rfl
        · rename_i hq
          rw [if_neg hq]
          split at h
          · rename_i hr
            rw [if_pos hr]
            simp only [Res.ok.injEq] at h; subst h; rfl
          · simp at h
    · simp at h
    · simp at h

/-- C20. Up to 255 inputs and outputs: the text returned by `CreateEmptyRawTransaction` is hex, and decoding it (whatever the segwit
flag and the spare capacity) gives exactly the inputs, outputs, version and lock time the transaction was created from,
in order. Output scripts are assumed to have at most 255 bytes (longer ones only arise from over-long bech32 texts). -/
theorem C20_create_decode (H : Hashes) (P : AddressPrefix) (vins : List Vin) (vouts : List Vout) (lockTime : UInt32)
    (replaceable : Bool) (text : Bytes) (hc : createEmptyRawTransaction H vins vouts lockTime replaceable P = .ok text)
    (hi : vins.length ≤ 255) (ho : vouts.length ≤ 255)
    (hs : ∀ v ∈ vouts, ∀ s, PaysTo H P v.address s → s.length ≤ 255) (spare : Nat) (segwitOn : Bool) :
    ∃ raw t, Hex.decode text = .ok raw ∧ decodeTx spare segwitOn raw = .ok t ∧
      leNat t.version = 2 ∧ leNat t.lockTime = lockTime.toNat ∧ t.witness = false ∧
      List.Forall₂ (fun v i => Hex.decode (getTxID i).1 = Hex.decode v.txid ∧ getVout i = v.vout.toNat ∧
        leNat i.sequence = sequenceFor lockTime replaceable ∧ i.inType = .empty ∧ i.scriptSig = []) vins t.vins ∧
      List.Forall₂ (fun v o => leNat o.amount = v.amount.toNat ∧ PaysTo H P v.address o.lockScript) vouts t.vouts := by
  unfold createEmptyRawTransaction at hc
  rw [Res.bind_eq_ok] at hc
  obtain ⟨t, ht, hc⟩ := hc
  rw [Res.bind_eq_ok] at hc
  obtain ⟨b, hb, hc⟩ := hc
  simp only [Res.ok.injEq] at hc
  obtain ⟨h1, h2, h3, h4, h5, h6, h7, h8, h9⟩ := newEmptyTransaction_inv ht
  have hs' : ∀ o ∈ t.vouts, o.lockScript.length ≤ 255 := by
    intro o ho
    obtain ⟨v, hv⟩ := mem_of_zip_right h7 ho
    exact hs v (List.of_mem_zip hv).1 _ (paysTo_of (h9 _ hv))
  have g := created_good ht segwitOn hi ho hs'
  obtain ⟨b', hb', hd⟩ := decodeTx_good g spare
  have hbb : b = b' := by
    rw [encodeTx_good (created_good ht false hi ho hs')] at hb
    rw [encodeTx_good g] at hb'
    have : t.vins.map (fun i => i.txid ++ i.vout ++ unlockBytes segwitOn i ++ i.sequence) =
        t.vins.map (fun i => i.txid ++ i.vout ++ unlockBytes false i ++ i.sequence) := by
      apply List.map_congr_left
      intro i hi
      obtain ⟨v, hv⟩ := mem_of_zip_right h6 hi
      obtain ⟨id, k1, k2, k3⟩ := h8 _ hv
      rw [unlock_seg_empty (by simp only at k3; rw [k3])]
    rw [this] at hb'
    exact Res.ok.inj (hb.symm.trans hb')
  refine ⟨b, t, ?_, ?_, ?_, ?_, h5, ?_, ?_⟩
  · rw [← hc]; exact Hex.decode_encode b
  · rw [hbb]; exact hd
  · rw [h3]; decide
  · rw [h4]; exact leNat_leBytes_of_lt (by have := lockTime.toNat_lt; simpa using this)
  · rw [List.forall₂_iff_zip]
    refine ⟨h6.symm, ?_⟩
    intro v i hvi
    obtain ⟨id, k1, k2, k3⟩ := h8 _ hvi
    simp only at k1 k3
    subst k3
    refine ⟨?_, ?_, ?_, rfl, rfl⟩
    · simp only [getTxID, List.reverse_reverse]
      rw [Hex.decode_encode, k1]
    · exact leNat_leBytes_of_lt (by have := v.vout.toNat_lt; simpa using this)
    · apply leNat_leBytes_of_lt
      unfold sequenceFor
      split
      · decide
      · split <;> decide
  · rw [List.forall₂_iff_zip]
    refine ⟨h7.symm, ?_⟩
    intro v o hvo
    refine ⟨?_, paysTo_of (h9 _ hvo)⟩
    rw [(newTxOut_amount (h9 _ hvo)).1]
    exact leNat_leBytes_of_lt (by have := v.amount.toNat_lt; simpa using this)

/-- A concrete creation: one input, one output. -/
def Btc.demoVin : Vin := ⟨asc "000102030405060708090a0b0c0d0e0f101112131415161718191a1b1c1d1e1f", 3⟩
def Btc.demoVout : Vout := ⟨asc "bc1qw508d6qejxtdg4y5r3zarvary0c5xw7kv8f3t4", 100000⟩

theorem Btc.demo_pays (H : Hashes) (s : Bytes) (h : PaysTo H btcMainnet demoVout.address s) : s.length = 22 := by
  have hd : ∃ p, Bech32.decode demoVout.address = .ok p ∧ p.length = 20 :=
    ⟨[0x75, 0x1e, 0x76, 0xe8, 0x19, 0x91, 0x96, 0xd4, 0x54, 0x94, 0x1c, 0x45, 0xd1, 0xb3, 0xa3, 0x23, 0xf1, 0x43, 0x3b, 0xd6],
      by decide +kernel, rfl⟩
  obtain ⟨p, h1, h2⟩ := hd
  have := h 0
  unfold newTxOut at this
  have hp : btcMainnet.bech32.isPrefixOf demoVout.address = true := by decide
  simp only [hp, if_true, h1] at this
  simp only [Res.ok.injEq, TxOut.mk.injEq, true_and] at this
  rw [← this]; simp [h2]

example : ∃ text, createEmptyRawTransaction toyHashes [demoVin] [demoVout, demoVout] 5 true btcMainnet = .ok text ∧
    ∀ v ∈ [demoVout, demoVout], ∀ s, PaysTo toyHashes btcMainnet v.address s → s.length ≤ 252 := by
  have h : (createEmptyRawTransaction toyHashes [demoVin] [demoVout, demoVout] 5 true btcMainnet).isOk = true := by
    decide +kernel
  obtain ⟨text, ht⟩ : ∃ text, createEmptyRawTransaction toyHashes [demoVin] [demoVout, demoVout] 5 true btcMainnet = .ok text := by
    revert h
    generalize createEmptyRawTransaction toyHashes [demoVin] [demoVout, demoVout] 5 true btcMainnet = x
    cases x <;> simp
  refine ⟨text, ht, ?_⟩
  intro v hv s hs
  have : v = demoVout := by simpa using hv
  subst this
  have := demo_pays _ _ hs
  omega

/-- The hypotheses of `C22_counts_violated` are met: 253 inputs. -/
example : (createEmptyRawTransaction toyHashes (List.replicate 253 demoVin) [demoVout] 0 false btcMainnet).isOk = true := by
  decide +kernel

/-- C20 for signed transactions, restricted to the input kinds of `GoodIn`: unsigned, P2PKH, native P2WPKH, P2SH-P2WSH multisig, and P2SH multisig
with an unlocking script of at least 253 bytes. Missing: the two kinds of the next theorems. -/
theorem C20_signed_roundtrip_partial (segwitOn : Bool) (t : Tx) (g : GoodTx segwitOn t) (spare : Nat) :
    ∃ b, encodeTx segwitOn t = .ok b ∧ decodeTx spare segwitOn b = .ok t :=
  decodeTx_good g spare

example : GoodTx true
    { version := leBytes 4 2
      vins := [⟨.p2pkh, List.replicate 32 1, leBytes 4 0, [], List.replicate 0x6a 4, leBytes 4 7, []⟩,
        ⟨.bech32, List.replicate 32 2, leBytes 4 0, [], 71 :: List.replicate 105 4, leBytes 4 7, []⟩]
      vouts := [⟨leBytes 8 1000, p2pkhScript (List.replicate 20 9)⟩]
      lockTime := leBytes 4 0
      witness := true } := by
  refine ⟨rfl, rfl, by decide, by decide, by decide, by decide, ?_, ?_⟩
  · intro i hi
    simp only [List.mem_cons, List.not_mem_nil, or_false] at hi
    rcases hi with rfl | rfl
    · exact ⟨rfl, rfl, rfl, Or.inr (Or.inl ⟨rfl, rfl, rfl, by decide, by decide, by decide, by decide⟩)⟩
    · exact ⟨rfl, rfl, rfl, Or.inr (Or.inr (Or.inl ⟨rfl, rfl, rfl, rfl, 71, _, rfl, rfl⟩))⟩
  · intro o ho
    simp only [List.mem_cons, List.not_mem_nil, or_false] at ho
    subst ho
    exact ⟨rfl, by decide, by decide⟩

/-- A transaction with one input and one output. -/
def Btc.oneIn (witness : Bool) (i : TxIn) : Tx :=
  { version := leBytes 4 2
    vins := [i]
    vouts := [⟨leBytes 8 1000, p2pkhScript (List.replicate 20 9)⟩]
    lockTime := leBytes 4 0
    witness := witness }

/-- The part of C20 that fails for signed transactions (1): a signed P2SH-P2WPKH transaction is not decoded to what was
encoded, the push byte stays in the script. -/
theorem C20_p2wpkh_violated : ∃ t t' b, encodeTx true t = .ok b ∧ decodeTx 0 true b = .ok t' ∧ t' ≠ t ∧
    encodeTx true t' ≠ .ok b := by
  refine ⟨oneIn true ⟨.p2wpkh, List.replicate 32 1, leBytes 4 0, 0x00 :: 0x14 :: List.replicate 20 7,
      71 :: List.replicate 105 4, leBytes 4 7, []⟩,
    oneIn true ⟨.p2wpkh, List.replicate 32 1, leBytes 4 0, 0x16 :: 0x00 :: 0x14 :: List.replicate 20 7,
      71 :: List.replicate 105 4, leBytes 4 7, []⟩,
    leBytes 4 2 ++ [0, 1, 1] ++ List.replicate 32 1 ++ leBytes 4 0 ++ 0x17 :: 0x16 :: 0x00 :: 0x14 :: List.replicate 20 7 ++
      leBytes 4 7 ++ [1] ++ leBytes 8 1000 ++ [25] ++ p2pkhScript (List.replicate 20 9) ++ 2 :: 71 :: List.replicate 105 4 ++
      leBytes 4 0, ?_, ?_, ?_, ?_⟩ <;> decide +kernel

/-- (2): a P2SH multisig unlocking script of fewer than 253 bytes loses its length byte. -/
theorem C20_small_multisig_violated : ∃ t t' b, encodeTx false t = .ok b ∧ decodeTx 0 false b = .ok t' ∧ t' ≠ t ∧
    encodeTx false t' ≠ .ok b := by
  refine ⟨oneIn false ⟨.multi, List.replicate 32 1, leBytes 4 0, [], [], leBytes 4 7, 0x70 :: List.replicate 0x70 4⟩,
    oneIn false ⟨.multi, List.replicate 32 1, leBytes 4 0, [], [], leBytes 4 7, List.replicate 0x70 4⟩,
    leBytes 4 2 ++ [1] ++ List.replicate 32 1 ++ leBytes 4 0 ++ 0x70 :: List.replicate 0x70 4 ++
      leBytes 4 7 ++ [1] ++ leBytes 8 1000 ++ [25] ++ p2pkhScript (List.replicate 20 9) ++ leBytes 4 0, ?_, ?_, ?_, ?_⟩ <;>
    decide +kernel

/-! ### C21, C22: sequence numbers and counts -/

/-- The transaction `CreateEmptyRawTransaction` is asked for: version 2, the given lock time, unsigned inputs spending the
given outputs with the sequence number of C21, outputs paying the given addresses. -/
structure Btc.Requested (H : Hashes) (P : AddressPrefix) (vins : List Vin) (vouts : List Vout) (lockTime : UInt32)
    (replaceable : Bool) (t : RawTx) : Prop where
  version : t.version = 2
  locked : t.lockTime = lockTime.toNat
  ins : List.Forall₂ (fun v i => Hex.decode v.txid = .ok i.prev.reverse ∧ i.prev.length = 32 ∧ i.index = v.vout.toNat ∧
    i.script = [] ∧ i.sequence = if replaceable then 0xfffffffd else if lockTime ≠ 0 then 0xfffffffe else 0xffffffff)
    vins t.ins
  outs : List.Forall₂ (fun v o => o.value = v.amount.toNat ∧ PaysTo H P v.address o.script) vouts t.outs

theorem Btc.created_requested {H : Hashes} {P : AddressPrefix} {vins : List Vin} {vouts : List Vout} {lockTime : UInt32}
    {replaceable : Bool} {t : Tx} (ht : newEmptyTransaction H vins vouts lockTime replaceable P = .ok t) :
    Requested H P vins vouts lockTime replaceable (toRaw t) := by
  obtain ⟨h1, h2, h3, h4, h5, h6, h7, h8, h9⟩ := newEmptyTransaction_inv ht
  refine ⟨?_, ?_, ?_, ?_⟩
  · simp only [toRaw]; rw [h3]; decide
  · simp only [toRaw]; rw [h4]; exact leNat_leBytes_of_lt (by have := lockTime.toNat_lt; simpa using this)
  · simp only [toRaw, List.forall₂_map_right_iff]
    rw [List.forall₂_iff_zip]
    refine ⟨h6.symm, ?_⟩
    intro v i hvi
    obtain ⟨id, k1, k2, k3⟩ := h8 _ hvi
    simp only at k1 k3
    subst k3
    refine ⟨by simp [k1], by simpa using k2, leNat_leBytes_of_lt (by have := v.vout.toNat_lt; simpa using this), rfl, ?_⟩
    rw [leNat_leBytes_of_lt]
    · rfl
    · unfold sequenceFor
      split
      · decide
      · split <;> decide
  · simp only [toRaw, List.forall₂_map_right_iff]
    rw [List.forall₂_iff_zip]
    refine ⟨h7.symm, ?_⟩
    intro v o hvo
    refine ⟨?_, paysTo_of (h9 _ hvo)⟩
    rw [(newTxOut_amount (h9 _ hvo)).1]
    exact leNat_leBytes_of_lt (by have := v.amount.toNat_lt; simpa using this)

/-- C21 and C22 (for counts below 253). The created text is the hex text of the standard serialisation of the requested
transaction: in particular the counts are the numbers of inputs and outputs, and every sequence number is 0xfffffffd if replaceable,
otherwise 0xfffffffe with a lock time and 0xffffffff without. Missing for C22: larger counts, see `C22_counts_violated`. -/
theorem C22_standard_serialisation_partial (H : Hashes) (P : AddressPrefix) (vins : List Vin) (vouts : List Vout)
    (lockTime : UInt32) (replaceable : Bool) (text : Bytes)
    (hc : createEmptyRawTransaction H vins vouts lockTime replaceable P = .ok text) (hi : vins.length < 253)
    (ho : vouts.length < 253) (hs : ∀ v ∈ vouts, ∀ s, PaysTo H P v.address s → s.length < 253) :
    ∃ t : RawTx, Requested H P vins vouts lockTime replaceable t ∧ text = Hex.encode t.ser := by
  unfold createEmptyRawTransaction at hc
  rw [Res.bind_eq_ok] at hc
  obtain ⟨t, ht, hc⟩ := hc
  rw [Res.bind_eq_ok] at hc
  obtain ⟨b, hb, hc⟩ := hc
  simp only [Res.ok.injEq] at hc
  refine ⟨toRaw t, created_requested ht, ?_⟩
  obtain ⟨h1, h2, h3, h4, h5, h6, h7, h8, h9⟩ := newEmptyTransaction_inv ht
  rw [encodeTx_standard (by rw [h3]; rfl) (by rw [h4]; rfl) h5] at hb
  · rw [← hc, Res.ok.inj hb]
  · intro h; rw [h] at h6; exact h1 (List.length_eq_zero_iff.mp h6.symm)
  · omega
  · intro h; rw [h] at h7; exact h2 (List.length_eq_zero_iff.mp h7.symm)
  · omega
  · intro i hi
    obtain ⟨v, hv⟩ := mem_of_zip_right h6 hi
    obtain ⟨id, k1, k2, k3⟩ := h8 _ hv
    simp only at k3
    subst k3
    simp [k2]
  · intro o ho
    obtain ⟨v, hv⟩ := mem_of_zip_right h7 ho
    obtain ⟨a, b⟩ := newTxOut_amount (h9 _ hv)
    refine ⟨by rw [a]; rfl, ?_, hs v (List.of_mem_zip hv).1 _ (paysTo_of (h9 _ hv))⟩
    intro hn; rw [hn] at b; simp at b

/-- C21. Every input of every created transaction has the documented sequence number. -/
theorem C21_sequence (H : Hashes) (P : AddressPrefix) (vins : List Vin) (vouts : List Vout) (lockTime : UInt32)
    (replaceable : Bool) (t : Tx) (ht : newEmptyTransaction H vins vouts lockTime replaceable P = .ok t) :
    ∀ i ∈ t.vins, leNat i.sequence = if replaceable then 0xfffffffd else if lockTime ≠ 0 then 0xfffffffe else 0xffffffff := by
  intro i hi
  have h := (created_requested ht).ins
  simp only [toRaw, List.forall₂_map_right_iff] at h
  rw [List.forall₂_iff_zip] at h
  obtain ⟨v, hv⟩ := mem_of_zip_right h.1.symm hi
  exact (h.2 hv).2.2.2.2

/-- C22 is false from 253 entries on: the counts are single bytes (the number modulo 256) where the format wants three
bytes or more, so that no created text of such a transaction is its serialisation. -/
theorem C22_counts_violated (H : Hashes) (P : AddressPrefix) (vins : List Vin) (vouts : List Vout)
    (lockTime : UInt32) (replaceable : Bool) (text : Bytes)
    (hc : createEmptyRawTransaction H vins vouts lockTime replaceable P = .ok text)
    (hbig : 253 ≤ vins.length ∨ 253 ≤ vouts.length) (t : RawTx)
    (hr : Requested H P vins vouts lockTime replaceable t) : text ≠ Hex.encode t.ser := by
  intro htext
  unfold createEmptyRawTransaction at hc
  rw [Res.bind_eq_ok] at hc
  obtain ⟨t', ht, hc⟩ := hc
  rw [Res.bind_eq_ok] at hc
  obtain ⟨b, hb, hc⟩ := hc
  simp only [Res.ok.injEq] at hc
  have hbs : b = t.ser := Hex.encode_inj (hc.trans htext)
  obtain ⟨h1, h2, h3, h4, h5, h6, h7, h8, h9⟩ := newEmptyTransaction_inv ht
  -- length of what was written
  unfold encodeTx at hb
  split at hb
  · simp at hb
  rw [concatAll_ok (g := fun i => i.txid ++ i.vout ++ unlockBytes false i ++ i.sequence), Res.bind_ok,
    concatAll_ok (g := fun o => o.amount ++ [UInt8.ofNat o.lockScript.length] ++ o.lockScript), Res.bind_ok, h5] at hb
  rotate_left
  · intro o ho
    obtain ⟨v, hv⟩ := mem_of_zip_right h7 ho
    obtain ⟨a, b⟩ := newTxOut_amount (h9 _ hv)
    unfold encodeOut
    rw [if_neg]
    rintro (h | h)
    · exact h (by rw [a]; rfl)
    · rw [h] at b; simp at b
  · intro i hi
    obtain ⟨v, hv⟩ := mem_of_zip_right h6 hi
    obtain ⟨id, k1, k2, k3⟩ := h8 _ hv
    simp only at k3
    unfold encodeIn
    rw [if_neg (by rw [k3]; simp [k2])]
  simp only [Bool.false_eq_true, if_false, List.append_nil, Res.bind_ok, Res.ok.injEq] at hb
  have l1 : ((t'.vins.map (fun i => i.txid ++ i.vout ++ unlockBytes false i ++ i.sequence)).flatten).length =
      (t'.vins.map (fun _ => 41)).sum := by
    apply flatten_length_map
    intro i hi
    obtain ⟨v, hv⟩ := mem_of_zip_right h6 hi
    obtain ⟨id, k1, k2, k3⟩ := h8 _ hv
    simp only at k3
    rw [k3]
    simp [unlockBytes, k2]
  have l2 : ((t'.vouts.map (fun o => o.amount ++ [UInt8.ofNat o.lockScript.length] ++ o.lockScript)).flatten).length =
      (t'.vouts.map (fun o => 9 + o.lockScript.length)).sum := by
    apply flatten_length_map
    intro o ho
    obtain ⟨v, hv⟩ := mem_of_zip_right h7 ho
    obtain ⟨a, b⟩ := newTxOut_amount (h9 _ hv)
    rw [a]; simp; omega
  have l3 : ((t.ins.map RawIn.ser).flatten).length = (t.ins.map (fun _ => 41)).sum := by
    apply flatten_length_map
    intro i hi
    have h := hr.ins
    rw [List.forall₂_iff_zip] at h
    obtain ⟨v, hv⟩ := mem_of_zip_right h.1.symm hi
    have := h.2 hv
    simp [RawIn.ser, RawIn.outpoint, varBytes, this.2.1, this.2.2.2.1, compactSize]
  have l4 : (t'.vouts.map (fun o => 9 + o.lockScript.length)).sum ≤ ((t.outs.map RawOut.ser).flatten).length := by
    rw [flatten_length_map RawOut.ser (fun o => (compactSize o.script.length).length + 8 + o.script.length) t.outs
      (fun o _ => by simp [RawOut.ser, varBytes]; omega)]
    have ho : t'.vouts.map (fun o => o.lockScript) = t.outs.map (fun o => o.script) := by
      have q := hr.outs
      rw [List.forall₂_iff_zip] at q
      apply List.ext_getElem
      · simp; omega
      · intro n n1 n2
        simp only [List.length_map] at n1 n2
        simp only [List.getElem_map]
        have z1 : (vouts[n]'(by omega), t'.vouts[n]) ∈ vouts.zip t'.vouts := by
          rw [← List.getElem_zip (h := by simp; omega)]; exact List.getElem_mem _
        have z2 : (vouts[n]'(by omega), t.outs[n]) ∈ vouts.zip t.outs := by
          rw [← List.getElem_zip (h := by simp; omega)]; exact List.getElem_mem _
        have e1 := paysTo_of (h9 _ z1) 0
        have e2 := (q.2 z2).2 0
        rw [e1] at e2
        simpa using e2
    have hm : ∀ (l : List Bytes), (l.map (fun s => 9 + s.length)).sum ≤
        (l.map (fun s => (compactSize s.length).length + 8 + s.length)).sum := by
      intro l
      induction l with
      | nil => simp
      | cons s l ih =>
        have := (compactSize_length s.length).1
        simp only [List.map_cons, List.sum_cons]
        omega
    have := hm (t'.vouts.map (fun o => o.lockScript))
    conv_rhs at this => rw [ho]
    simpa [List.map_map, Function.comp_def] using this
  have n1 : t.ins.length = vins.length := hr.ins.length_eq.symm
  have n2 : t.outs.length = vouts.length := hr.outs.length_eq.symm
  have hl := congrArg List.length (hb.trans hbs)
  simp only [List.length_append, RawTx.ser, l1, l2, l3, leBytes_length, h3, h4, List.length_cons, List.length_nil, List.map_const',
    List.sum_replicate, h6, n1] at hl
  obtain ⟨c1, c2⟩ := compactSize_length vins.length
  obtain ⟨c3, c4⟩ := compactSize_length vouts.length
  rw [n2] at hl
  rcases hbig with hbig | hbig
  · have := c2 hbig
    omega
  · have := c4 hbig
    omega

/-- With 256 inputs (or any multiple) the count is written as 0; the package's own decoder then takes the transaction for one with witness
data or rejects it: it never returns the transaction created. -/
theorem C22_wrapped_count_violated (H : Hashes) (P : AddressPrefix) (vins : List Vin) (vouts : List Vout)
    (lockTime : UInt32) (replaceable : Bool) (t : Tx) (b : Bytes) (hn : 256 ∣ vins.length)
    (ht : newEmptyTransaction H vins vouts lockTime replaceable P = .ok t) (hb : encodeTx false t = .ok b) (spare : Nat)
    (segwitOn : Bool) : decodeTx spare segwitOn b ≠ .ok t := by
  obtain ⟨h1, h2, h3, h4, h5, h6, h7, h8, h9⟩ := newEmptyTransaction_inv ht
  intro hd
  unfold encodeTx at hb
  split at hb
  · simp at hb
  rw [Res.bind_eq_ok] at hb
  obtain ⟨ins, _, hb⟩ := hb
  rw [Res.bind_eq_ok] at hb
  obtain ⟨outs, _, hb⟩ := hb
  have hz : UInt8.ofNat t.vins.length = 0 := by
    rw [h6]; obtain ⟨k, hk⟩ := hn
    apply UInt8.toNat_inj.mp
    simp [hk]
  simp only [h5, Bool.false_eq_true, if_false, Res.bind_ok, Res.ok.injEq, hz, List.append_nil] at hb
  rw [← hb] at hd
  unfold decodeTx at hd
  simp only [List.append_assoc] at hd
  rw [takeN_append _ _ (by rw [h3]; rfl)] at hd
  simp only [Res.bind_ok] at hd
  split at hd
  · simp at hd
  split at hd
  · simp at hd
  split at hd
  · split at hd
    · simp at hd
    · have := decodeBody_witness hd
      rw [h5] at this
      simp at this
  · unfold decodeBody at hd
    simp only [List.cons_append, List.nil_append, take1, Res.bind_ok, if_true] at hd
    simp at hd

/-! ### C23: crash freedom of the decoder -/

/-- C23, restricted: with at least six bytes of spare capacity behind the slice, `DecodeRawTransaction` never panics when segwit is
off, nor on transactions without the segwit marker. Missing: see the two theorems below. -/
theorem C23_no_panic_partial (spare : Nat) (hs : 6 ≤ spare) (b : Bytes) :
    decodeTx spare false b ≠ .panic ∧ (b[4]? ≠ some 0 → ∀ seg, decodeTx spare seg b ≠ .panic) := by
  have main : ∀ seg, (seg = false ∨ b[4]? ≠ some 0) → decodeTx spare seg b ≠ .panic := by
    intro seg h
    unfold decodeTx
    refine bind_ne_panic (takeN_ne_panic _ _) (fun p hp => ?_)
    simp only
    split
    · simp
    split
    · simp
    split
    · rename_i w r hr
      split
      · simp
      · rcases h with h | h
        · exact decodeBody_ne_panic hs (Or.inl h) _ _
        · exfalso
          apply h
          unfold takeN at hp
          split at hp
          · simp at hp
          · simp only [Res.ok.injEq] at hp
            subst hp
            simp only at hr
            have := congrArg (fun l : Bytes => l[0]?) hr
            simpa using this
    · exact decodeBody_ne_panic hs (Or.inr rfl) _ _
  exact ⟨main false (Or.inl rfl), fun h seg => main seg (Or.inr h)⟩

/-- C23 through the hex interfaces (`hex.DecodeString` leaves enough spare capacity): no panic when segwit is off. -/
theorem C23_no_panic_hex_partial (b : Bytes) : decodeTx (hexSpare b) false b ≠ .panic := by
  by_cases h : 6 ≤ b.length
  · exact (C23_no_panic_partial _ h b).1
  · unfold decodeTx
    refine bind_ne_panic (takeN_ne_panic _ _) (fun p hp => ?_)
    unfold takeN at hp
    split at hp
    · simp at hp
    · simp only [Res.ok.injEq] at hp
      subst hp
      simp only
      split
      · simp
      · rw [if_pos (by simp; omega)]; simp

/-- A transaction that ends in the middle of a sequence number makes the decoder panic if the slice has no spare capacity. -/
theorem C23_truncated_sequence_violated : ∃ b, decodeTx 0 false b = .panic :=
  ⟨leBytes 4 2 ++ [1] ++ List.replicate 36 7 ++ [0] ++ [0xff, 0xff], by decide +kernel⟩

/-- A segwit multisig transaction that ends after the witness item count makes the decoder panic whatever the capacity. -/
theorem C23_truncated_witness_violated : ∃ b, ∀ spare, decodeTx spare true b = .panic :=
  ⟨leBytes 4 2 ++ [0, 1, 1] ++ List.replicate 36 7 ++ [0x23] ++ List.replicate 35 9 ++ [0xff, 0xff, 0xff, 0xff] ++
    [1] ++ List.replicate 8 0 ++ [1, 0x51] ++ [0x04], fun _ => rfl⟩

/-- And so does the hex interface: `VerifyRawTransaction` panics on that text, for all hash functions and curves. -/
theorem C23_verify_panics_violated : ∃ text, ∀ (H : Hashes) (C : Curve) (us : List TxUnlock) (P : AddressPrefix),
    verifyRaw H C text us true P = .panic := by
  obtain ⟨b, hb⟩ := C23_truncated_witness_violated
  refine ⟨Hex.encode b, fun H C us P => ?_⟩
  unfold verifyRaw
  rw [Hex.decode_encode]
  simp only [hb]

/-! ### C31: reading the id -/

/-- C31, restricted: the first read returns the displayed id (the hex text of the reversed bytes), and an even number of reads leaves
the input as it was. -/
theorem C31_two_reads_partial (i : TxIn) :
    (getTxID i).1 = Hex.encode i.txid.reverse ∧ (getTxID (getTxID i).2).2 = i := by
  simp [getTxID]

/-- C31 is false: the read reverses the stored bytes, so the second read returns a different text, and so does every serialisation
after one read, for every id that is not a palindrome. -/
theorem C31_second_read_violated (i : TxIn) (h : i.txid.reverse ≠ i.txid) :
    (getTxID (getTxID i).2).1 ≠ (getTxID i).1 ∧
      ∀ seg b, encodeIn seg i = .ok b → encodeIn seg (getTxID i).2 ≠ .ok b := by
  refine ⟨?_, ?_⟩
  · simp only [getTxID, List.reverse_reverse]
    intro hc
    exact h (Hex.encode_inj hc).symm
  · intro seg b h1 h2
    unfold encodeIn at h1 h2
    split at h1
    · simp at h1
    · split at h2
      · simp at h2
      · simp only [Res.ok.injEq, getTxID] at h1 h2
        have : unlockBytes seg { i with txid := i.txid.reverse } = unlockBytes seg i := rfl
        rw [← h1, this] at h2
        simp only [List.append_assoc] at h2
        exact h (List.append_inj_left h2 (by simp))

example : ∃ i : TxIn, i.txid.length = 32 ∧ i.txid.reverse ≠ i.txid :=
  ⟨⟨.empty, 1 :: List.replicate 31 0, [], [], [], [], []⟩, rfl, by decide⟩

/-! ### C30: addresses and output scripts -/

theorem Btc.alphabet_ok : IsAlphabet Btc.alphabet := ⟨by decide +kernel, by decide +kernel⟩

theorem Btc.decodeCheck_iff (H : Hashes) (addr ver h : Bytes) :
    decodeCheck H addr = .ok (ver, h) ↔ h.length = 20 ∧ IsBase58Check H Btc.alphabet ver h addr := by
  constructor
  · intro hd
    unfold decodeCheck at hd
    split at hd
    · rename_i ret hret
      split at hd
      · simp at hd
      split at hd
      · simp at hd
      rename_i hck
      split at hd
      · simp at hd
      rename_i hlen
      simp only [Res.ok.injEq, Prod.mk.injEq] at hd
      obtain ⟨rfl, rfl⟩ := hd
      simp only [not_not] at hck
      have e1 : ret.take (ret.length - 24) ++ (ret.take (ret.length - 4)).drop (ret.length - 24) =
          ret.take (ret.length - 4) := by
        conv_rhs => rw [← List.take_append_drop (ret.length - 24) (ret.take (ret.length - 4))]
        rw [List.take_take, Nat.min_eq_left (by omega)]
      refine ⟨by simp; omega, ?_⟩
      unfold IsBase58Check
      rw [e1, hck, List.take_append_drop]
      exact (Addr.encode_iff alphabet_ok _ _).mp (C02_base58_canonical _ alphabet_ok _ _ hret)
    · simp at hd
    · simp at hd
  · rintro ⟨hl, hb⟩
    unfold IsBase58Check at hb
    obtain ⟨t, h1, h2, h3⟩ := C01_base58_roundtrip _ alphabet_ok (ver ++ h ++ (H.hash .doubleSha256 (ver ++ h)).take 4)
    have ht : t = addr := by
      have := (Addr.encode_iff alphabet_ok _ _).mpr hb
      rw [h1] at this
      exact Res.ok.inj this
    rw [ht] at h3
    have hck : ((H.hash .doubleSha256 (ver ++ h)).take 4).length = 4 := by
      rw [List.length_take, H.size]; rfl
    unfold decodeCheck
    rw [h3]
    simp only
    generalize hck' : (H.hash .doubleSha256 (ver ++ h)).take 4 = ck at *
    have t4 : (ver ++ h ++ ck).length - 4 = (ver ++ h).length := by simp; omega
    have t24 : (ver ++ h ++ ck).length - 24 = ver.length := by simp; omega
    rw [t4, t24, List.take_left, List.drop_left, if_neg (by simp; omega), if_neg (by simp [hck']), if_neg (by simp; omega),
      List.drop_left]
    simp

/-- C30 for Base58 addresses: an address (not starting with the network's bech32 prefix) is accepted exactly when it is the
Base58Check text of a 20-byte hash under one of the network's version prefixes, and then the output script is the P2PKH or P2SH script of
that hash, according to the prefix. -/
theorem C30_base58_script_partial (H : Hashes) (P : AddressPrefix) (addr script : Bytes)
    (hb : P.bech32.isPrefixOf addr = false) :
    PaysTo H P addr script ↔ ∃ ver h, h.length = 20 ∧ IsBase58Check H Btc.alphabet ver h addr ∧
      ((ver = P.p2pkh ∧ script = p2pkhScript h) ∨
        (ver ≠ P.p2pkh ∧ (ver = P.p2wpkh ∨ ver = P.p2sh) ∧ script = p2shScript h)) := by
  constructor
  · intro hp
    have hp := hp 0
    unfold newTxOut at hp
    simp only [hb, Bool.false_eq_true, if_false] at hp
    split at hp
    · rename_i ver h hd
      obtain ⟨h1, h2⟩ := (decodeCheck_iff H addr ver h).mp hd
      rw [if_neg (by simp [h1])] at hp
      refine ⟨ver, h, h1, h2, ?_⟩
      split at hp
      · rename_i hv
        simp only [Res.ok.injEq, TxOut.mk.injEq, true_and] at hp
        refine Or.inl ⟨hv, ?_⟩
        rw [← hp, h1]; rfl
      · rename_i hv
        split at hp
        · rename_i hv2
          simp only [Res.ok.injEq, TxOut.mk.injEq, true_and] at hp
          refine Or.inr ⟨hv, hv2, ?_⟩
          rw [← hp, h1]; rfl
        · simp at hp
    · simp at hp
    · simp at hp
  · rintro ⟨ver, h, h1, h2, h3⟩ amount
    unfold newTxOut
    simp only [hb, Bool.false_eq_true, if_false]
    rw [(decodeCheck_iff H addr ver h).mpr ⟨h1, h2⟩]
    simp only
    rw [if_neg (by simp [h1])]
    rcases h3 with ⟨hv, rfl⟩ | ⟨hv, hv2, rfl⟩
    · rw [if_pos hv, h1]; rfl
    · rw [if_neg hv, if_pos hv2, h1]; rfl

/-- C30 for bech32 addresses: the version-0 address of a 20- or 32-byte program under the network's prefix is paid to that witness
program. -/
theorem C30_bech32_script_partial (H : Hashes) (P : AddressPrefix) (program : Bytes) (hl : program.length = 20 ∨ program.length = 32)
    (hh : Bech32.IsHrp P.bech32) :
    ∃ addr, Bech32.encode P.bech32 Bech32.stdAlphabet program [0] = .ok addr ∧
      PaysTo H P addr (witnessV0Script program) := by
  obtain ⟨addr, h1, h2⟩ : ∃ addr, Bech32.encode P.bech32 Bech32.stdAlphabet program [0] = .ok addr ∧
      Bech32.decode addr = .ok program := by
    rcases hl with hl | hl
    · exact Bech32.rt20 _ _ _ hh hl (Or.inr rfl)
    · exact Bech32.rt32 _ _ hh hl
  refine ⟨addr, h1, ?_⟩
  intro amount
  have hpre : P.bech32.isPrefixOf addr = true := by
    unfold Bech32.encode at h1
    simp only at h1
    split at h1
    · simp only [Res.ok.injEq] at h1
      rw [← h1]
      simp
    · simp at h1
  unfold newTxOut
  simp only [hpre, if_true, h2]
  rfl

example : Bech32.IsHrp btcMainnet.bech32 ∧ Bech32.IsHrp ltcTestnet.bech32 := by
  constructor <;> exact ⟨by decide, by decide +kernel⟩

/-- C30 is false (1): the Bitcoin networks leave the second script-hash prefix empty, so a Base58Check text with no version byte at all,
which is an address of no network, is accepted and paid to a script hash. -/
theorem C30_no_version_violated (H : Hashes) (h : Bytes) (hl : h.length = 20) (addr : Bytes)
    (ha : IsBase58Check H Btc.alphabet [] h addr) (hb : (asc "bc").isPrefixOf addr = false) :
    PaysTo H btcMainnet addr (p2shScript h) := by
  rw [C30_base58_script_partial H btcMainnet addr _ hb]
  exact ⟨[], h, hl, ha, Or.inr ⟨by decide, Or.inr rfl, rfl⟩⟩

/-- C30 is false (2): the witness version is ignored, so an address for a version-1 program is paid to a version-0 program. -/
theorem C30_version_ignored_violated : ∃ addr, ∃ program : Bytes, program.length = 20 ∧
    Bech32.encode (asc "bc") Bech32.stdAlphabet program [1] = .ok addr ∧
      ∀ H, PaysTo H btcMainnet addr (witnessV0Script program) := by
  have hd : ∃ addr, Bech32.encode (asc "bc") Bech32.stdAlphabet (List.replicate 20 5) [1] = .ok addr ∧
      (asc "bc").isPrefixOf addr = true ∧ Bech32.decode addr = .ok (List.replicate 20 5) := by
    refine ⟨asc "bc1pq5zs2pg9q5zs2pg9q5zs2pg9q5zs2pg97rf7gs", ?_, ?_, ?_⟩ <;> decide +kernel
  obtain ⟨addr, h1, h2, h3⟩ := hd
  refine ⟨addr, List.replicate 20 5, rfl, h1, ?_⟩
  intro H amount
  unfold newTxOut
  have : btcMainnet.bech32.isPrefixOf addr = true := h2
  simp only [this, if_true, h3]
  rfl

/-- C30 is false (3): the human-readable part is not compared with the network's, the address text only has to begin with it: a
regtest address ("bcrt") is accepted on mainnet ("bc"). -/
theorem C30_other_network_violated : ∃ addr, ∃ program : Bytes, program.length = 20 ∧
    Bech32.encode (asc "bcrt") Bech32.stdAlphabet program [0] = .ok addr ∧
      ∀ H, PaysTo H btcMainnet addr (witnessV0Script program) := by
  obtain ⟨addr, h1, h3⟩ := Bech32.rt20 (asc "bcrt") (List.replicate 20 5) [0] ⟨by decide, by decide +kernel⟩ rfl (Or.inr rfl)
  have h2 : btcMainnet.bech32.isPrefixOf addr = true := by
    unfold Bech32.encode at h1
    simp only at h1
    split at h1
    · simp only [Res.ok.injEq] at h1
      rw [← h1]
      rfl
    · simp at h1
  refine ⟨addr, List.replicate 20 5, rfl, h1, ?_⟩
  intro H amount
  unfold newTxOut
  simp only [h2, if_true, h3]
  rfl

/-- C30 is false (4): the Zcash networks have an empty bech32 prefix, with which every text begins: no Base58 address with a character
that is no bech32 symbol is ever accepted, whatever its checksum. In particular transparent Zcash addresses, which start with "t1" or "t3", are
only accepted if they happen to be valid bech32. -/
theorem C30_zcash_violated (H : Hashes) (addr script : Bytes) (hp : PaysTo H zecMainnet addr script) :
    ∃ program, Bech32.decode addr = .ok program := by
  have := hp 0
  unfold newTxOut at this
  have hpre : zecMainnet.bech32.isPrefixOf addr = true := by simp [zecMainnet]
  simp only [hpre, if_true] at this
  split at this
  · rename_i r hr; exact ⟨r, hr⟩
  · simp at this
  · simp at this

/-- C30 is false (5): a short Base58 text makes the creation of the transaction panic. -/
theorem C30_short_address_violated (H : Hashes) (amount : UInt64) :
    newTxOut H btcMainnet ⟨asc "111", amount⟩ = .panic := by
  have : Base58.decode Btc.alphabet (asc "111") = .ok [0, 0, 0] := by decide +kernel
  unfold newTxOut
  have hpre : btcMainnet.bech32.isPrefixOf (asc "111") = false := by decide
  simp only [hpre, Bool.false_eq_true, if_false]
  unfold decodeCheck
  rw [this]
  rfl

end Verif
