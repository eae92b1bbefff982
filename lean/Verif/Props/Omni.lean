import Verif.Model.Omni
import Verif.Spec.Omni
import Verif.Lemmas.BtcTx
import Verif.Props.Base58

/-! C35, C66: Omni Layer payloads and outputs. -/

namespace Verif
open Verif.Omni Verif.Spec.Omni

namespace Omni

theorem isMessage (ty : Nat) (h : ty < 65536) (f : Bytes) : IsMessage ([0x6f, 0x6d, 0x6e, 0x69] ++ (head ty ++ f)) ty f := by
  have hl : (beBytes 2 ty).length = 2 := by simp
  have hz : beBytes 2 0 = [0, 0] := rfl
  have e : [0x6f, 0x6d, 0x6e, 0x69] ++ (head ty ++ f) = [0x6f, 0x6d, 0x6e, 0x69, 0, 0] ++ (beBytes 2 ty ++ f) := by
    simp [head, hz]
  refine ⟨rfl, ?_, ?_, ?_⟩
  · rw [e]; rfl
  · rw [e]
    have : ([0x6f, 0x6d, 0x6e, 0x69, 0, 0] ++ (beBytes 2 ty ++ f) : Bytes).drop 6 = beBytes 2 ty ++ f := rfl
    unfold num
    rw [this, List.take_left' hl, beNat_beBytes_of_lt (by omega)]
  · rw [e]
    have : ([0x6f, 0x6d, 0x6e, 0x69, 0, 0] ++ (beBytes 2 ty ++ f) : Bytes).drop 8 = (beBytes 2 ty ++ f).drop 2 := rfl
    rw [this, List.drop_left' hl]

theorem opReturn_short (p : Bytes) (h : p.length ≤ 75) : opReturnData (0x6a :: UInt8.ofNat p.length :: p) = some p := by
  have e : (UInt8.ofNat p.length).toNat = p.length := by simp; omega
  unfold opReturnData
  simp only [e]
  rw [if_pos h, if_pos trivial]

/-- A payload of 76 to 331 bytes starting with the marker is never the data of one push. -/
theorem opReturn_long (f : Bytes) (h : 76 ≤ f.length + 4) (h2 : f.length + 4 ≤ 331) :
    opReturnData (0x6a :: UInt8.ofNat ([0x6f, 0x6d, 0x6e, 0x69] ++ f : Bytes).length :: ([0x6f, 0x6d, 0x6e, 0x69] ++ f)) = none := by
  have hl : ([0x6f, 0x6d, 0x6e, 0x69] ++ f : Bytes).length = f.length + 4 := by simp
  rw [hl]
  have e : (UInt8.ofNat (f.length + 4)).toNat = (f.length + 4) % 256 := by simp
  unfold opReturnData
  simp only [hl, e]
  by_cases c : (f.length + 4) % 256 ≤ 75
  · rw [if_pos c, if_neg (by omega)]
  · rw [if_neg c]
    have hop : ∀ k : Nat, k < 256 → UInt8.ofNat (f.length + 4) = UInt8.ofNat k → f.length + 4 = k := by
      intro k hk hu
      have := congrArg UInt8.toNat hu
      simp at this
      omega
    generalize hop' : UInt8.ofNat (f.length + 4) = op at hop
    by_cases c1 : op = 0x4c
    · have := hop 0x4c (by omega) c1
      subst c1
      rw [if_neg]
      rintro ⟨_, _, h3⟩
      have h4 : leNat (([0x6f, 0x6d, 0x6e, 0x69] ++ f : Bytes).take 1) = 111 := by
        have : ([0x6f, 0x6d, 0x6e, 0x69] ++ f : Bytes).take 1 = [0x6f] := rfl
        rw [this]
        decide +kernel
      have h5 : leNat (([0x6f, 0x6d, 0x6e, 0x69] ++ f : Bytes).take 1) = f.length + 4 - 1 := h3
      omega
    by_cases c2 : op = 0x4d
    · have := hop 0x4d (by omega) c2
      subst c2
      rw [if_neg]
      rintro ⟨_, _, h3⟩
      have h4 : leNat (([0x6f, 0x6d, 0x6e, 0x69] ++ f : Bytes).take 2) = 28015 := by
        have : ([0x6f, 0x6d, 0x6e, 0x69] ++ f : Bytes).take 2 = [0x6f, 0x6d] := rfl
        rw [this]
        decide +kernel
      have h5 : leNat (([0x6f, 0x6d, 0x6e, 0x69] ++ f : Bytes).take 2) = f.length + 4 - 2 := h3
      omega
    by_cases c3 : op = 0x4e
    · have := hop 0x4e (by omega) c3
      subst c3
      rw [if_neg]
      rintro ⟨_, _, h3⟩
      have h4 : leNat (([0x6f, 0x6d, 0x6e, 0x69] ++ f : Bytes).take 4) = 1768844655 := by
        have : ([0x6f, 0x6d, 0x6e, 0x69] ++ f : Bytes).take 4 = [0x6f, 0x6d, 0x6e, 0x69] := rfl
        rw [this]
        decide +kernel
      have h5 : leNat (([0x6f, 0x6d, 0x6e, 0x69] ++ f : Bytes).take 4) = f.length + 4 - 4 := h3
      omega
    rw [if_neg]
    rintro ⟨h3, _⟩
    exact h3 (by rw [if_neg c1, if_neg c2, if_neg c3])

end Omni
open Omni

/-- C35 for the types without a text field: for every property, amount and ecosystem the script is OP_RETURN and one push of a message of
the requested type with these fields. -/
theorem C35_fixed_size (H : Hashes) (o : OmniStruct) :
    (o.txType = 0 ∨ o.txType = 22 → ∃ s d f, getPayload H o = .ok s ∧ opReturnData s = some d ∧ IsMessage d o.txType.toNat f ∧
      f.length = 12 ∧ num f 0 4 = o.propertyId.toNat ∧ num f 4 8 = o.amount.toNat) ∧
    (o.txType = 53 ∨ o.txType = 70 ∨ o.txType = 71 ∨ o.txType = 72 → ∃ s d f, getPayload H o = .ok s ∧ opReturnData s = some d ∧
      IsMessage d o.txType.toNat f ∧ f.length = 4 ∧ num f 0 4 = o.propertyId.toNat) ∧
    (o.txType = 4 ∨ o.txType = 28 → ∃ s d, getPayload H o = .ok s ∧ opReturnData s = some d ∧
      IsMessage d o.txType.toNat [o.ecosystem]) := by
  have hp := o.propertyId.toNat_lt
  have ha := o.amount.toNat_lt
  have l4 : (beBytes 4 o.propertyId.toNat).length = 4 := by simp
  have l8 : (beBytes 8 o.amount.toNat).length = 8 := by simp
  refine ⟨?_, ?_, ?_⟩
  · intro h
    have hb : ∃ ty, o.txType = (ty : Nat) ∧ ty < 65536 ∧ body H o = .ok (some (propertyAmount ty o)) := by
      unfold body
      rcases h with h | h <;> rw [h]
      · exact ⟨0, rfl, by omega, rfl⟩
      · exact ⟨22, rfl, by omega, rfl⟩
    obtain ⟨ty, t1, t2, hb⟩ := hb
    unfold getPayload
    rw [hb]
    simp only [Res.bind_ok]
    refine ⟨_, _, beBytes 4 o.propertyId.toNat ++ beBytes 8 o.amount.toNat, rfl, opReturn_short _ (by simp [propertyAmount, head]), ?_, by simp, ?_, ?_⟩
    · rw [t1, propertyAmount, List.append_assoc]
      exact isMessage ty t2 _
    · unfold num
      rw [List.drop_zero, List.take_left' l4, beNat_beBytes_of_lt (by simpa using hp)]
    · unfold num
      rw [List.drop_left' l4, List.take_of_length_le (by omega), beNat_beBytes_of_lt (by simpa using ha)]
  · intro h
    have hb : ∃ ty, o.txType = (ty : Nat) ∧ ty < 65536 ∧ body H o = .ok (some (propertyOnly ty o)) := by
      unfold body
      rcases h with h | h | h | h <;> rw [h]
      · exact ⟨53, rfl, by omega, rfl⟩
      · exact ⟨70, rfl, by omega, rfl⟩
      · exact ⟨71, rfl, by omega, rfl⟩
      · exact ⟨72, rfl, by omega, rfl⟩
    obtain ⟨ty, t1, t2, hb⟩ := hb
    unfold getPayload
    rw [hb]
    simp only [Res.bind_ok]
    refine ⟨_, _, beBytes 4 o.propertyId.toNat, rfl, opReturn_short _ (by simp [propertyOnly, head]), ?_, by simp, ?_⟩
    · rw [t1]
      exact isMessage ty t2 _
    · unfold num
      rw [List.drop_zero, List.take_of_length_le (by omega), beNat_beBytes_of_lt (by simpa using hp)]
  · intro h
    have hb : ∃ ty, o.txType = (ty : Nat) ∧ ty < 65536 ∧ body H o = .ok (some (ecosystemOnly ty o)) := by
      unfold body
      rcases h with h | h <;> rw [h]
      · exact ⟨4, rfl, by omega, rfl⟩
      · exact ⟨28, rfl, by omega, rfl⟩
    obtain ⟨ty, t1, t2, hb⟩ := hb
    unfold getPayload
    rw [hb]
    simp only [Res.bind_ok]
    refine ⟨_, _, rfl, opReturn_short _ (by simp [ecosystemOnly, head]), ?_⟩
    rw [t1]
    exact isMessage ty t2 _

/-- C35 for grant and revoke with a memo of at most 54 bytes: property, amount, the memo and a terminating zero. -/
theorem C35_memo_partial (H : Hashes) (o : OmniStruct) (h : o.txType = 55 ∨ o.txType = 56) (hm : o.memo.length ≤ 54) :
    ∃ s d f, getPayload H o = .ok s ∧ opReturnData s = some d ∧ IsMessage d o.txType.toNat f ∧
      num f 0 4 = o.propertyId.toNat ∧ num f 4 8 = o.amount.toNat ∧ f.drop 12 = o.memo ++ [0] := by
  have hp := o.propertyId.toNat_lt
  have ha := o.amount.toNat_lt
  have l4 : (beBytes 4 o.propertyId.toNat).length = 4 := by simp
  have l8 : (beBytes 8 o.amount.toNat).length = 8 := by simp
  have hb : ∃ ty, o.txType = (ty : Nat) ∧ ty < 65536 ∧ body H o = .ok (some (withMemo ty o)) := by
    unfold body
    rcases h with h | h <;> rw [h]
    · exact ⟨55, rfl, by omega, rfl⟩
    · exact ⟨56, rfl, by omega, rfl⟩
  obtain ⟨ty, t1, t2, hb⟩ := hb
  have hw : withMemo ty o = head ty ++ (beBytes 4 o.propertyId.toNat ++ (beBytes 8 o.amount.toNat ++ (o.memo ++ [0]))) := by
    unfold withMemo propertyAmount
    rw [if_neg (by omega)]
    simp only [List.append_assoc]
  unfold getPayload
  rw [hb]
  simp only [Res.bind_ok, hw]
  refine ⟨_, _, beBytes 4 o.propertyId.toNat ++ (beBytes 8 o.amount.toNat ++ (o.memo ++ [0])), rfl,
    opReturn_short _ (by simp [head]; omega), ?_, ?_, ?_, ?_⟩
  · rw [t1]
    exact isMessage ty t2 _
  · unfold num
    rw [List.drop_zero, List.take_left' l4, beNat_beBytes_of_lt (by simpa using hp)]
  · unfold num
    rw [List.drop_left' l4, List.take_left' l8, beNat_beBytes_of_lt (by simpa using ha)]
  · rw [show 12 = 4 + 8 from rfl, ← List.drop_drop, List.drop_left' l4, List.drop_left' l8]

/-- The part of C35 that fails (a): with any memo of 55 bytes or more the script is not OP_RETURN with one push. -/
theorem C35_long_memo_violated (H : Hashes) (o : OmniStruct) (h : o.txType = 55 ∨ o.txType = 56) (hm : 55 ≤ o.memo.length) :
    ∃ s, getPayload H o = .ok s ∧ opReturnData s = none := by
  have hb : ∃ ty, body H o = .ok (some (withMemo ty o)) := by
    unfold body
    rcases h with h | h <;> rw [h]
    · exact ⟨55, rfl⟩
    · exact ⟨56, rfl⟩
  obtain ⟨ty, hb⟩ := hb
  unfold getPayload
  rw [hb]
  simp only [Res.bind_ok]
  have hl : 72 ≤ (withMemo ty o).length ∧ (withMemo ty o).length ≤ 272 := by
    unfold withMemo propertyAmount head
    split
    · simp; omega
    · simp; omega
  exact ⟨_, rfl, opReturn_long _ (by omega) (by omega)⟩

/-- C35 for freezing and unfreezing with an address of the usual form (one version byte and a 20-byte hash): property, amount and the 21
address bytes. -/
theorem C35_address_partial (H : Hashes) (o : OmniStruct) (h : o.txType = 185 ∨ o.txType = 186) (v : UInt8) (hash : Bytes)
    (hh : hash.length = 20) (hd : Btc.decodeCheck H o.address = .ok ([v], hash)) :
    ∃ s d f, getPayload H o = .ok s ∧ opReturnData s = some d ∧ IsMessage d o.txType.toNat f ∧
      num f 0 4 = o.propertyId.toNat ∧ num f 4 8 = o.amount.toNat ∧ f.drop 12 = v :: hash := by
  have hp := o.propertyId.toNat_lt
  have ha := o.amount.toNat_lt
  have l4 : (beBytes 4 o.propertyId.toNat).length = 4 := by simp
  have l8 : (beBytes 8 o.amount.toNat).length = 8 := by simp
  have hb : ∃ ty, o.txType = (ty : Nat) ∧ ty < 65536 ∧
      body H o = .ok (some (head ty ++ (beBytes 4 o.propertyId.toNat ++ (beBytes 8 o.amount.toNat ++ (v :: hash))))) := by
    have hw : ∀ ty, withAddress H ty o = .ok (head ty ++ (beBytes 4 o.propertyId.toNat ++ (beBytes 8 o.amount.toNat ++ (v :: hash)))) := by
      intro ty
      unfold withAddress propertyAmount
      rw [hd]
      simp only [List.append_assoc, List.singleton_append]
    unfold body
    rcases h with h | h <;> rw [h]
    · refine ⟨185, rfl, by omega, ?_⟩
      simp [hw]
    · refine ⟨186, rfl, by omega, ?_⟩
      simp [hw]
  obtain ⟨ty, t1, t2, hb⟩ := hb
  unfold getPayload
  rw [hb]
  simp only [Res.bind_ok]
  refine ⟨_, _, beBytes 4 o.propertyId.toNat ++ (beBytes 8 o.amount.toNat ++ (v :: hash)), rfl,
    opReturn_short _ (by simp [head, hh]), ?_, ?_, ?_, ?_⟩
  · rw [t1]
    exact isMessage ty t2 _
  · unfold num
    rw [List.drop_zero, List.take_left' l4, beNat_beBytes_of_lt (by simpa using hp)]
  · unfold num
    rw [List.drop_left' l4, List.take_left' l8, beNat_beBytes_of_lt (by simpa using ha)]
  · rw [show 12 = 4 + 8 from rfl, ← List.drop_drop, List.drop_left' l4, List.drop_left' l8]

example : Btc.decodeCheck toyHashes (asc "1TYPjCiGbKiwP6r12cdkmVjySbQs46iav") = .ok ([0], List.replicate 20 5) := by decide +kernel

/-- The part of C35 that fails (b): a freeze order for an invalid address is turned, without an error, into a payload that holds nothing
but the marker. -/
theorem C35_bad_address_violated (H : Hashes) (o : OmniStruct) (h : o.txType = 185 ∨ o.txType = 186)
    (hd : Btc.decodeCheck H o.address = .err) : ∃ s, getPayload H o = .ok s ∧ opReturnData s = some (asc "omni") := by
  have hb : body H o = .ok (some []) := by
    unfold body withAddress
    rcases h with h | h <;> rw [h] <;> simp [hd]
  unfold getPayload
  rw [hb]
  exact ⟨_, rfl, by decide⟩

example : Btc.decodeCheck toyHashes (asc "0") = .err := by decide +kernel

/-- C35 at the API: in the transaction text returned by `CreateEmptyRawTransaction` the payload script stands, as the last output, with
amount zero, behind its length (scripts of C35's fixed forms are far below 253 bytes), followed by the lock time. -/
theorem C35_last_output (H : Hashes) (vins : List Btc.Vin) (vouts : List Btc.Vout) (o : OmniStruct) (lockTime : UInt32)
    (replaceable : Bool) (P : Btc.AddressPrefix) (t : Bytes)
    (h : createEmptyRawTransaction H vins vouts o lockTime replaceable P = .ok t) :
    ∃ pre s, getPayload H o = .ok s ∧ s ≠ [] ∧
      t = Hex.encode (pre ++ leBytes 8 0 ++ [UInt8.ofNat s.length] ++ s ++ leBytes 4 lockTime.toNat) := by
  unfold createEmptyRawTransaction at h
  obtain ⟨ins, _, h⟩ := Res.bind_eq_ok.mp h
  obtain ⟨outs, ho, h⟩ := Res.bind_eq_ok.mp h
  obtain ⟨b, hb, h⟩ := Res.bind_eq_ok.mp h
  cases h
  unfold newTxOuts at ho
  split at ho
  · cases ho
  obtain ⟨os, _, ho⟩ := Res.bind_eq_ok.mp ho
  obtain ⟨s, hs, ho⟩ := Res.bind_eq_ok.mp ho
  cases ho
  unfold Btc.encodeTx at hb
  split at hb
  · cases hb
  obtain ⟨bi, _, hb⟩ := Res.bind_eq_ok.mp hb
  obtain ⟨bo, hbo, hb⟩ := Res.bind_eq_ok.mp hb
  simp only [Bool.false_eq_true, if_false, Res.bind_ok] at hb
  cases hb
  have hlast : ∀ (l : List Btc.TxOut) (x : Btc.TxOut) (r : Bytes), Btc.concatAll Btc.encodeOut (l ++ [x]) = .ok r →
      ∃ p q, Btc.encodeOut x = .ok q ∧ r = p ++ q := by
    intro l
    induction l with
    | nil =>
      intro x r hr
      obtain ⟨q, hq, hr⟩ := Res.bind_eq_ok.mp hr
      simp [Btc.concatAll] at hr
      exact ⟨[], q, hq, by simp [hr]⟩
    | cons y ys ih =>
      intro x r hr
      obtain ⟨q, hq, hr⟩ := Res.bind_eq_ok.mp hr
      obtain ⟨r', hr', hr⟩ := Res.bind_eq_ok.mp hr
      cases hr
      obtain ⟨p, q', e1, e2⟩ := ih x r' hr'
      exact ⟨q ++ p, q', e1, by simp [e2]⟩
  obtain ⟨p, q, hq, rfl⟩ := hlast _ _ _ hbo
  unfold Btc.encodeOut at hq
  split at hq
  · cases hq
  · rename_i hc
    cases hq
    refine ⟨leBytes 4 2 ++ [UInt8.ofNat (List.map (Btc.setSequence lockTime replaceable) ins).length] ++ bi ++
      [UInt8.ofNat (os ++ [{ amount := leBytes 8 0, lockScript := s : Btc.TxOut }]).length] ++ p, s, hs, ?_, ?_⟩
    · intro h0
      exact hc (Or.inr h0)
    · congr 1
      simp only [← List.append_assoc, List.append_nil]

set_option maxRecDepth 4000 in
example : (createEmptyRawTransaction toyHashes [⟨Hex.encode (List.replicate 32 7), 1⟩] [⟨asc "1TYPjCiGbKiwP6r12cdkmVjySbQs46iav", 5⟩]
    ⟨0, 31, 7, 1, [], []⟩ 0 false Btc.btcMainnet).isOk = true := by decide +kernel

/-- C66: a bech32 address is a possible recipient in a Bitcoin transaction but never in an Omni transaction: if its text contains a
character that Base58 does not use (like `0` or `l`), creation always fails. -/
theorem C66_bech32_recipient_violated (H : Hashes) (vins : List Btc.Vin) (vouts : List Btc.Vout) (o : OmniStruct) (lockTime : UInt32)
    (replaceable : Bool) (P : Btc.AddressPrefix) (v : Btc.Vout) (hv : v ∈ vouts) (hc : ∃ c ∈ v.address, c ∉ Btc.alphabet) :
    ∀ t, createEmptyRawTransaction H vins vouts o lockTime replaceable P ≠ .ok t := by
  intro t h
  unfold createEmptyRawTransaction at h
  obtain ⟨ins, _, h⟩ := Res.bind_eq_ok.mp h
  obtain ⟨outs, ho, _⟩ := Res.bind_eq_ok.mp h
  unfold newTxOuts at ho
  split at ho
  · cases ho
  obtain ⟨os, hos, _⟩ := Res.bind_eq_ok.mp ho
  have hdec : Btc.decodeCheck H v.address = .err := by
    unfold Btc.decodeCheck
    rw [(C02_base58_decode_total Btc.alphabet ⟨by decide +kernel, by decide +kernel⟩ v.address).2 hc]
  have hone : ∀ r, newTxOut H P v ≠ .ok r := by
    intro r hr
    unfold newTxOut at hr
    simp only [hdec] at hr
    split at hr
    · split at hr <;> cases hr
    · cases hr
  have hloop : ∀ (l : List Btc.Vout) r, v ∈ l → newTxOutLoop H P l ≠ .ok r := by
    intro l
    induction l with
    | nil => intro r hm; simp at hm
    | cons x xs ih =>
      intro r hm hr
      obtain ⟨a, ha, hr⟩ := Res.bind_eq_ok.mp hr
      obtain ⟨b, hb, _⟩ := Res.bind_eq_ok.mp hr
      rcases List.mem_cons.mp hm with rfl | hm
      · exact hone _ ha
      · exact ih _ hm hb
  exact hloop _ _ hv hos

/-- The same address is accepted by the Bitcoin package. -/
example : (Btc.newTxOut toyHashes Btc.btcMainnet ⟨asc "bc1qw508d6qejxtdg4y5r3zarvary0c5xw7kv8f3t4", 1⟩).isOk = true ∧
    (0x30 : UInt8) ∈ asc "bc1qw508d6qejxtdg4y5r3zarvary0c5xw7kv8f3t4" ∧ (0x30 : UInt8) ∉ Btc.alphabet := by decide +kernel

end Verif
