import Verif.Props.BtcVariantsCreate
import Verif.Props.Omni
import Verif.Spec.OmniMessage

/-! Property C93: Omni transactions on Bitcoin Cash and Bitcoin SV. -/

namespace Verif
open Verif.Spec Verif.Btc Verif.BtcVariants Verif.Omni Verif.Spec.Omni

/-- Every created transaction, given that the payload script is short. -/
theorem BtcVariants.createBchOmni_inv {H : Hashes} {P : AddressPrefix} {vins : List Btc.Vin} {vouts : List Btc.Vout} {o : OmniStruct}
    {lockTime : UInt32} {replaceable : Bool} {text s : Bytes} (hs : getPayload H o = .ok s) (h1 : 1 ≤ s.length) (h2 : s.length < 253)
    (hi : vins.length < 253) (ho : vouts.length < 252) :
    createBchOmni H vins vouts o lockTime replaceable P = .ok text ↔ vins ≠ [] ∧ vouts ≠ [] ∧
      ∃ (t : RawTx) (os : List RawOut), IsRequest 1 vins lockTime replaceable t ∧ t.outs = os ++ [⟨0, s⟩] ∧
        List.Forall₂ (fun v o => o.value = v.amount.toNat ∧ PaysBase58 H P false v.address [] o.script) vouts os ∧
        text = Hex.encode t.ser := by
  have hout : ∀ all, outsBchOmni H P vouts o = .ok all ↔ vouts ≠ [] ∧ ∃ os : List Btc.TxOut,
      List.Forall₂ (fun (v : Btc.Vout) (o : Btc.TxOut) => o.amount = leBytes 8 v.amount.toNat ∧ PaysBase58 H P false v.address [] o.lockScript) vouts os ∧
      all = os ++ [{ amount := leBytes 8 0, lockScript := s }] := by
    intro all
    unfold outsBchOmni outs
    by_cases hne : vouts = []
    · rw [if_pos hne]
      constructor
      · intro h; cases h
      · rintro ⟨h, _⟩; exact absurd hne h
    · rw [if_neg hne, hs]
      constructor
      · intro h
        obtain ⟨os, k1, h⟩ := Res.bind_eq_ok.mp h
        simp only [Res.bind_ok, Res.ok.injEq] at h
        exact ⟨hne, os, (appendAll_iff (fun x _ l => outBch_iff x l)).mp k1, h.symm⟩
      · rintro ⟨_, os, k1, rfl⟩
        rw [(appendAll_iff (fun x _ l => outBch_iff x l)).mpr k1]
        rfl
  unfold createBchOmni
  rw [createWith_iff (by decide) hi]
  · constructor
    · rintro ⟨a1, all, t, a2, a3, a4, a5⟩
      obtain ⟨hne, os, k1, rfl⟩ := (hout all).mp a2
      rw [List.map_append] at a4
      refine ⟨a1, hne, t, _, a3, a4, outs_iff.mp ⟨os, k1, rfl⟩, a5⟩
    · rintro ⟨a1, hne, t, os', a3, a4, a5, a6⟩
      obtain ⟨os, k1, rfl⟩ := outs_iff.mpr a5
      exact ⟨a1, _, t, (hout _).mpr ⟨hne, os, k1, rfl⟩, a3, by rw [a4, List.map_append]; rfl, a6⟩
  · intro all hall
    obtain ⟨hne, os, k1, rfl⟩ := (hout all).mp hall
    have l1 := k1.length_eq
    refine ⟨by simp, by simp only [List.length_append, List.length_cons, List.length_nil]; omega, ?_⟩
    intro x hx
    rcases List.mem_append.mp hx with hx | hx
    · obtain ⟨v, hv⟩ := mem_of_zip_right l1.symm hx
      exact paying_ok (by simp) ((List.forall₂_iff_zip.mp k1).2 hv)
    · simp only [List.mem_singleton] at hx
      subst hx
      exact ⟨by simp, by rintro rfl; simp at h1, h2⟩

/-- The payload of every expressible request. -/
theorem Omni.payload_wanted {H : Hashes} {o : OmniStruct} (he : Expressible H o) :
    ∃ s d, getPayload H o = .ok s ∧ opReturnData s = some d ∧ IsWanted H o d ∧ 1 ≤ s.length ∧ s.length < 253 := by
  obtain ⟨h1, h2, h3⟩ := C35_fixed_size H o
  have hbody : ∀ b, body H o = .ok (some b) → b.length ≤ 300 := by
    intro b hb
    rcases he with he | ⟨he, hm⟩ | ⟨he, v, hash, hl, ha⟩
    · simp only [List.mem_cons, List.not_mem_nil, or_false] at he
      unfold body at hb
      rcases he with h | h | h | h | h | h | h | h <;> rw [h] at hb <;>
        simp [propertyAmount, propertyOnly, ecosystemOnly, head] at hb <;> rw [← hb] <;> simp
    · unfold body at hb
      rcases he with h | h <;> rw [h] at hb <;> simp [withMemo, propertyAmount, head] at hb <;> rw [← hb] <;> split <;> simp <;> omega
    · have hd := (decodeCheck_iff H o.address [v] hash).mpr ⟨hl, ha⟩
      unfold body at hb
      rcases he with h | h <;> rw [h] at hb <;> simp [withAddress, propertyAmount, head, hd] at hb <;> rw [← hb] <;> simp [hl]
  have hlen : ∀ s d, getPayload H o = .ok s → opReturnData s = some d → 1 ≤ s.length ∧ s.length < 253 := by
    intro s d hs hd
    unfold getPayload at hs
    obtain ⟨b, hb, hs⟩ := Res.bind_eq_ok.mp hs
    split at hs
    · cases hs; cases hd
    · rename_i b
      have hb := hbody b hb
      cases hs
      refine ⟨by simp, ?_⟩
      by_contra hc
      simp only [List.length_cons, List.length_append, List.length_nil, not_lt] at hc
      rw [opReturn_long b (by omega) (by omega)] at hd
      cases hd
  rcases he with he | ⟨he, hm⟩ | ⟨he, v, hash, hl, ha⟩
  · have split3 : (o.txType = 0 ∨ o.txType = 22) ∨ (o.txType = 53 ∨ o.txType = 70 ∨ o.txType = 71 ∨ o.txType = 72) ∨
        (o.txType = 4 ∨ o.txType = 28) := by
      simp only [List.mem_cons, List.not_mem_nil, or_false] at he
      tauto
    rcases split3 with h | h | h
    · obtain ⟨s, d, f, a1, a2, a3, a4, a5, a6⟩ := h1 h
      exact ⟨s, d, a1, a2, ⟨f, a3, Or.inl ⟨h, a4, a5, a6⟩⟩, hlen s d a1 a2⟩
    · obtain ⟨s, d, f, a1, a2, a3, a4, a5⟩ := h2 h
      exact ⟨s, d, a1, a2, ⟨f, a3, Or.inr (Or.inl ⟨h, a4, a5⟩)⟩, hlen s d a1 a2⟩
    · obtain ⟨s, d, a1, a2, a3⟩ := h3 h
      exact ⟨s, d, a1, a2, ⟨_, a3, Or.inr (Or.inr (Or.inl ⟨h, rfl⟩))⟩, hlen s d a1 a2⟩
  · obtain ⟨s, d, f, a1, a2, a3, a4, a5, a6⟩ := C35_memo_partial H o he hm
    exact ⟨s, d, a1, a2, ⟨f, a3, Or.inr (Or.inr (Or.inr (Or.inl ⟨he, a4, a5, a6⟩)))⟩, hlen s d a1 a2⟩
  · obtain ⟨s, d, f, a1, a2, a3, a4, a5, a6⟩ := C35_address_partial H o he v hash hl ((decodeCheck_iff H o.address [v] hash).mpr ⟨hl, ha⟩)
    exact ⟨s, d, a1, a2, ⟨f, a3, Or.inr (Or.inr (Or.inr (Or.inr ⟨he, a4, a5, [v], hash, hl, ha, a6⟩)))⟩, hlen s d a1 a2⟩

/-- C93: for every expressible request (all twelve message types; texts of at most 54 bytes, addresses with one version byte)
`CreateEmptyOmniRawTransaction` succeeds exactly if there are inputs and outputs, the ids are hex texts of 32 bytes and the addresses are Base58Check
texts under the network's first two prefixes; the transaction returned pays the addresses and has, as last output with amount zero, an OP_RETURN of the
Omni message with the requested type and fields. -/
theorem C93_omni_partial (H : Hashes) (P : AddressPrefix) (vins : List Btc.Vin) (vouts : List Btc.Vout) (o : OmniStruct)
    (lockTime : UInt32) (replaceable : Bool) (text : Bytes) (hi : vins.length < 253) (ho : vouts.length < 252) (he : Expressible H o) :
    ∃ s d, opReturnData s = some d ∧ IsWanted H o d ∧
      (createBchOmni H vins vouts o lockTime replaceable P = .ok text ↔ vins ≠ [] ∧ vouts ≠ [] ∧
        ∃ (t : RawTx) (os : List RawOut), IsRequest 1 vins lockTime replaceable t ∧ t.outs = os ++ [⟨0, s⟩] ∧
          List.Forall₂ (fun v o => o.value = v.amount.toNat ∧ PaysBase58 H P false v.address [] o.script) vouts os ∧
          text = Hex.encode t.ser) := by
  obtain ⟨s, d, a1, a2, a3, a4, a5⟩ := Omni.payload_wanted he
  exact ⟨s, d, a2, a3, createBchOmni_inv a1 a4 a5 hi ho⟩

set_option maxRecDepth 4000 in
example : (createBchOmni toyHashes [demoVin] [⟨asc "1TYPjCiGbKiwP6r12cdkmVjySbQs46iav", 5⟩] ⟨0, 31, 7, 1, [], []⟩ 0 false
    btcMainnet).isOk = true := by decide +kernel

/-- C93 is false for recipients under the third prefix (P2SH addresses of the networks where it differs from the second): a plain transfer
to such an address is created, an Omni transfer never is. -/
theorem C93_script_address_violated (H : Hashes) (P : AddressPrefix) (vins : List Btc.Vin) (vouts : List Btc.Vout) (o : OmniStruct)
    (lockTime : UInt32) (replaceable : Bool) (v : Btc.Vout) (hv : v ∈ vouts) (h : Bytes)
    (ha : Btc.decodeCheck H v.address = .ok (P.p2sh, h)) (hl : h.length = 20) (d1 : P.p2sh ≠ P.p2pkh) (d2 : P.p2sh ≠ P.p2wpkh) :
    (∃ out, outBch H P true v = .ok out) ∧ ∀ text, createBchOmni H vins vouts o lockTime replaceable P ≠ .ok text := by
  constructor
  · unfold outBch base58Script
    rw [ha]
    simp only
    rw [if_neg (by omega), if_neg d1, if_pos (Or.inr (by simp))]
    exact ⟨_, rfl⟩
  · intro text hc
    unfold createBchOmni at hc
    obtain ⟨all, hall⟩ := createWith_outs hc
    unfold outsBchOmni outs at hall
    obtain ⟨os, hos, _⟩ := Res.bind_eq_ok.mp hall
    split at hos
    · cases hos
    · refine appendAll_mem (x := v) ?_ vouts hv os hos
      intro l hl2
      unfold outBch base58Script at hl2
      rw [ha] at hl2
      simp only at hl2
      rw [if_neg (by omega), if_neg d1, if_neg (by simp [d2])] at hl2
      cases hl2

/-- C93 is false for long texts: with any text of 55 to 229 bytes the transaction is created as for other requests, and its last output is not an
OP_RETURN with one push, so the message is lost. -/
theorem C93_long_text_violated (H : Hashes) (P : AddressPrefix) (vins : List Btc.Vin) (vouts : List Btc.Vout) (o : OmniStruct)
    (lockTime : UInt32) (replaceable : Bool) (text : Bytes) (hi : vins.length < 253) (ho : vouts.length < 252)
    (hty : o.txType = 55 ∨ o.txType = 56) (h1 : 55 ≤ o.memo.length) (h2 : o.memo.length ≤ 229) :
    ∃ s, opReturnData s = none ∧
      (createBchOmni H vins vouts o lockTime replaceable P = .ok text ↔ vins ≠ [] ∧ vouts ≠ [] ∧
        ∃ (t : RawTx) (os : List RawOut), IsRequest 1 vins lockTime replaceable t ∧ t.outs = os ++ [⟨0, s⟩] ∧
          List.Forall₂ (fun v o => o.value = v.amount.toNat ∧ PaysBase58 H P false v.address [] o.script) vouts os ∧
          text = Hex.encode t.ser) := by
  obtain ⟨s, a1, a2⟩ := C35_long_memo_violated H o hty h1
  have hl : 1 ≤ s.length ∧ s.length < 253 := by
    unfold getPayload body at a1
    rcases hty with h | h <;> rw [h] at a1 <;> simp [withMemo, propertyAmount, head, show ¬ 255 < o.memo.length by omega] at a1 <;> rw [← a1] <;>
      simp <;> omega
  exact ⟨s, a2, createBchOmni_inv a1 hl.1 hl.2 hi ho⟩

/-- C93 is false for freeze orders with an address that is not Base58: the transaction is created as for other requests, with a message that holds
nothing but the marker. -/
theorem C93_bad_address_violated (H : Hashes) (P : AddressPrefix) (vins : List Btc.Vin) (vouts : List Btc.Vout) (o : OmniStruct)
    (lockTime : UInt32) (replaceable : Bool) (text : Bytes) (hi : vins.length < 253) (ho : vouts.length < 252)
    (hty : o.txType = 185 ∨ o.txType = 186) (hc : ∃ c ∈ o.address, c ∉ Btc.alphabet) :
    ∃ s, opReturnData s = some (asc "omni") ∧
      (createBchOmni H vins vouts o lockTime replaceable P = .ok text ↔ vins ≠ [] ∧ vouts ≠ [] ∧
        ∃ (t : RawTx) (os : List RawOut), IsRequest 1 vins lockTime replaceable t ∧ t.outs = os ++ [⟨0, s⟩] ∧
          List.Forall₂ (fun v o => o.value = v.amount.toNat ∧ PaysBase58 H P false v.address [] o.script) vouts os ∧
          text = Hex.encode t.ser) := by
  have hd : Btc.decodeCheck H o.address = .err := by
    unfold Btc.decodeCheck
    rw [(C02_base58_decode_total Btc.alphabet ⟨by decide +kernel, by decide +kernel⟩ o.address).2 hc]
  obtain ⟨s, a1, a2⟩ := C35_bad_address_violated H o hty hd
  have hl : 1 ≤ s.length ∧ s.length < 253 := by
    unfold getPayload body at a1
    rcases hty with h | h <;> rw [h] at a1 <;> simp [withAddress, hd] at a1 <;> rw [← a1] <;> simp
  exact ⟨s, a2, createBchOmni_inv a1 hl.1 hl.2 hi ho⟩

/-! ### The Omni package itself -/

/-- One recipient of an Omni transaction, if the address does not begin with the bech32 prefix. -/
theorem Omni.newTxOut_iff {H : Hashes} {P : AddressPrefix} (v : Btc.Vout) (hb : P.bech32.isPrefixOf v.address = false) (l : List Btc.TxOut) :
    newTxOut H P v = .ok l ↔ ∃ o : Btc.TxOut, l = [o] ∧ (o.amount = leBytes 8 v.amount.toNat ∧ PaysBase58 H P false v.address [] o.lockScript) := by
  have e : newTxOut H P v = outFall H P v := by
    unfold newTxOut outFall bech32Outs base58Script
    rw [hb]
    simp only [Bool.false_eq_true, if_false, Res.bind_ok]
    cases decodeCheck H v.address with
    | ok x =>
      obtain ⟨pre, hash⟩ := x
      simp only [false_and, or_false, List.append_nil]
      by_cases c1 : hash.length ≠ 20
      · rw [if_pos c1, if_pos c1]; rfl
      · rw [if_neg c1, if_neg c1]
        by_cases c2 : pre = P.p2pkh
        · rw [if_pos c2, if_pos c2]; rfl
        · rw [if_neg c2, if_neg c2]
          by_cases c3 : pre = P.p2wpkh
          · rw [if_pos c3, if_pos c3]; rfl
          · rw [if_neg c3, if_neg c3]; rfl
    | err => rfl
    | panic => rfl
  rw [e]
  exact outFall_iff v hb l

theorem Omni.newTxOutLoop_eq (H : Hashes) (P : AddressPrefix) : ∀ vs, newTxOutLoop H P vs = appendAll (newTxOut H P) vs
  | [] => rfl
  | v :: vs => by rw [newTxOutLoop, appendAll, Omni.newTxOutLoop_eq H P vs]

theorem Omni.create_inv {H : Hashes} {P : AddressPrefix} {vins : List Btc.Vin} {vouts : List Btc.Vout} {o : OmniStruct}
    {lockTime : UInt32} {replaceable : Bool} {text s : Bytes} (hs : getPayload H o = .ok s) (h1 : 1 ≤ s.length) (h2 : s.length < 253)
    (hi : vins.length < 253) (ho : vouts.length < 252) (hb : ∀ v ∈ vouts, P.bech32.isPrefixOf v.address = false) :
    createEmptyRawTransaction H vins vouts o lockTime replaceable P = .ok text ↔ vins ≠ [] ∧ vouts ≠ [] ∧
      ∃ (t : RawTx) (os : List RawOut), IsRequest 2 vins lockTime replaceable t ∧ t.outs = os ++ [⟨0, s⟩] ∧
        List.Forall₂ (fun v o => o.value = v.amount.toNat ∧ PaysBase58 H P false v.address [] o.script) vouts os ∧
        text = Hex.encode t.ser := by
  have hout : ∀ all, newTxOuts H P vouts o = .ok all ↔ vouts ≠ [] ∧ ∃ os : List Btc.TxOut,
      List.Forall₂ (fun (v : Btc.Vout) (o : Btc.TxOut) => o.amount = leBytes 8 v.amount.toNat ∧ PaysBase58 H P false v.address [] o.lockScript) vouts os ∧
      all = os ++ [{ amount := leBytes 8 0, lockScript := s }] := by
    intro all
    unfold newTxOuts
    by_cases hne : vouts = []
    · rw [if_pos hne]
      constructor
      · intro h; cases h
      · rintro ⟨h, _⟩; exact absurd hne h
    · rw [if_neg hne, hs, Omni.newTxOutLoop_eq]
      constructor
      · intro h
        obtain ⟨os, k1, h⟩ := Res.bind_eq_ok.mp h
        simp only [Res.bind_ok, Res.ok.injEq] at h
        exact ⟨hne, os, (appendAll_iff (fun x hx l => Omni.newTxOut_iff x (hb x hx) l)).mp k1, h.symm⟩
      · rintro ⟨_, os, k1, rfl⟩
        rw [(appendAll_iff (fun x hx l => Omni.newTxOut_iff x (hb x hx) l)).mpr k1]
        rfl
  have e : createEmptyRawTransaction H vins vouts o lockTime replaceable P = createWith 2 vins (newTxOuts H P vouts o) lockTime replaceable := rfl
  rw [e, createWith_iff (by decide) hi]
  · constructor
    · rintro ⟨a1, all, t, a2, a3, a4, a5⟩
      obtain ⟨hne, os, k1, rfl⟩ := (hout all).mp a2
      rw [List.map_append] at a4
      refine ⟨a1, hne, t, _, a3, a4, outs_iff.mp ⟨os, k1, rfl⟩, a5⟩
    · rintro ⟨a1, hne, t, os', a3, a4, a5, a6⟩
      obtain ⟨os, k1, rfl⟩ := outs_iff.mpr a5
      exact ⟨a1, _, t, (hout _).mpr ⟨hne, os, k1, rfl⟩, a3, by rw [a4, List.map_append]; rfl, a6⟩
  · intro all hall
    obtain ⟨hne, os, k1, rfl⟩ := (hout all).mp hall
    have l1 := k1.length_eq
    refine ⟨by simp, by simp only [List.length_append, List.length_cons, List.length_nil]; omega, ?_⟩
    intro x hx
    rcases List.mem_append.mp hx with hx | hx
    · obtain ⟨v, hv⟩ := mem_of_zip_right l1.symm hx
      exact paying_ok (by simp) ((List.forall₂_iff_zip.mp k1).2 hv)
    · simp only [List.mem_singleton] at hx
      subst hx
      exact ⟨by simp, by rintro rfl; simp at h1, h2⟩

/-- C66, recipients whose address does not begin with the bech32 prefix, and expressible requests: `CreateEmptyRawTransaction` of the Omni package
succeeds exactly if there are inputs and outputs, the ids are hex texts of 32 bytes and the addresses are Base58Check texts under the network's first two
prefixes; the transaction returned spends the inputs, pays the addresses, and has, as last output with amount zero, an OP_RETURN of the requested
message. -/
theorem C66_base58_partial (H : Hashes) (P : AddressPrefix) (vins : List Btc.Vin) (vouts : List Btc.Vout) (o : OmniStruct)
    (lockTime : UInt32) (replaceable : Bool) (text : Bytes) (hi : vins.length < 253) (ho : vouts.length < 252) (he : Expressible H o)
    (hb : ∀ v ∈ vouts, P.bech32.isPrefixOf v.address = false) :
    ∃ s d, opReturnData s = some d ∧ IsWanted H o d ∧
      (createEmptyRawTransaction H vins vouts o lockTime replaceable P = .ok text ↔ vins ≠ [] ∧ vouts ≠ [] ∧
        ∃ (t : RawTx) (os : List RawOut), IsRequest 2 vins lockTime replaceable t ∧ t.outs = os ++ [⟨0, s⟩] ∧
          List.Forall₂ (fun v o => o.value = v.amount.toNat ∧ PaysBase58 H P false v.address [] o.script) vouts os ∧
          text = Hex.encode t.ser) := by
  obtain ⟨s, d, a1, a2, a3, a4, a5⟩ := Omni.payload_wanted he
  exact ⟨s, d, a2, a3, Omni.create_inv a1 a4 a5 hi ho hb⟩

set_option maxRecDepth 4000 in
/-- The hypotheses of the theorems above are met: requests of each form. -/
example : Expressible toyHashes ⟨0, 31, 7, 1, [], []⟩ ∧ Expressible toyHashes ⟨55, 31, 7, 1, List.replicate 54 65, []⟩ ∧
    Expressible toyHashes ⟨185, 31, 7, 1, [], asc "1TYPjCiGbKiwP6r12cdkmVjySbQs46iav"⟩ ∧ (∃ c ∈ asc "0", c ∉ Btc.alphabet) ∧
    btcMainnet.bech32.isPrefixOf (asc "1TYPjCiGbKiwP6r12cdkmVjySbQs46iav") = false := by
  refine ⟨Or.inl (by decide), Or.inr (Or.inl ⟨Or.inl rfl, by decide⟩), Or.inr (Or.inr ⟨Or.inl rfl, 0, List.replicate 20 5, by decide, ?_⟩), by decide,
    by decide +kernel⟩
  exact ((decodeCheck_iff toyHashes _ [0] _).mp (by decide +kernel)).2

/-- Transactions with a request of an unknown type are refused: nothing else than an error or a panic comes out. -/
theorem C66_unknown_type (H : Hashes) (P : AddressPrefix) (vins : List Btc.Vin) (vouts : List Btc.Vout) (o : OmniStruct)
    (lockTime : UInt32) (replaceable : Bool) (text : Bytes)
    (hu : o.txType ∉ ([0, 4, 22, 28, 53, 55, 56, 70, 71, 72, 185, 186] : List Int)) :
    createEmptyRawTransaction H vins vouts o lockTime replaceable P ≠ .ok text := by
  intro h
  obtain ⟨pre, s, h1, h2, _⟩ := C35_last_output H vins vouts o lockTime replaceable P text h
  simp only [List.mem_cons, List.not_mem_nil, or_false, not_or] at hu
  obtain ⟨u1, u2, u3, u4, u5, u6, u7, u8, u9, u10, u11, u12⟩ := hu
  unfold getPayload body at h1
  simp [u1, u2, u3, u4, u5, u6, u7, u8, u9, u10, u11, u12] at h1
  exact h2 h1

example : (7 : Int) ∉ ([0, 4, 22, 28, 53, 55, 56, 70, 71, 72, 185, 186] : List Int) := by decide

end Verif
