import Verif.Model.Vsys
import Verif.Lemmas.BtcTx
import Verif.Props.Base58

/-! C38: VSYS transfers. -/

namespace Verif
open Verif.Vsys Verif.Spec

namespace Vsys

theorem alphabet_ok : IsAlphabet Btc.alphabet := ⟨by decide +kernel, by decide +kernel⟩

theorem decodeCheck_ok {H : Hashes} {a r : Bytes} (h : decodeCheck H a = .ok r) : Base58.decode Btc.alphabet a = .ok r := by
  unfold decodeCheck at h
  split at h
  · rename_i ret hd
    split at h
    · cases h
    split at h
    · cases h
    · cases h; exact hd
  · cases h
  · cases h

/-- The bytes of a transfer with recipient bytes `r`. -/
def raw (nanos : Nat) (ts : TxStruct) (r : Bytes) : Bytes :=
  [ts.txType] ++ beBytes 8 (nanos / 1000 * 1000) ++ beBytes 8 ts.amount.toNat ++ beBytes 8 ts.fee.toNat ++ beBytes 2 ts.feeScale.toNat ++ r

theorem create_eq {H : Hashes} {nanos : Nat} {ts : TxStruct} {r : Bytes} (h : decodeCheck H ts.recipient = .ok r) :
    createEmptyTransaction H nanos ts = .ok (Hex.encode (if ts.attachment = [] then raw nanos ts r ++ [0x00, 0x00] else raw nanos ts r)) := by
  unfold createEmptyTransaction
  rw [h]
  rfl

/-- The fixed part is read as written. -/
theorem decode_raw (nanos : Nat) (ts : TxStruct) (r rest : Bytes) (ht : nanos < 2 ^ 63) :
    txStructDecode (raw nanos ts r ++ rest) = (do
      let (recipient, b) ← Btc.takeN 26 (r ++ rest)
      let recipient ← Base58.encode Btc.alphabet recipient
      let (len, b) ← Btc.takeN 2 b
      if len = [0, 0] then
        if b ≠ [] then .err
        else .ok (⟨ts.txType, recipient, ts.amount, ts.fee, ts.feeScale, []⟩, nanos / 1000 * 1000)
      else .err) := by
  have h1 := ts.amount.toNat_lt
  have h2 := ts.fee.toNat_lt
  have h3 := ts.feeScale.toNat_lt
  unfold txStructDecode raw
  simp only [List.append_assoc, List.cons_append, List.nil_append, Btc.take1, Res.bind_ok]
  rw [Btc.takeN_append _ _ (by simp)]
  simp only [Res.bind_ok]
  rw [Btc.takeN_append _ _ (by simp)]
  simp only [Res.bind_ok]
  rw [Btc.takeN_append _ _ (by simp)]
  simp only [Res.bind_ok]
  rw [Btc.takeN_append _ _ (by simp)]
  simp only [Res.bind_ok]
  rw [beNat_beBytes_of_lt (by omega), beNat_beBytes_of_lt (by omega), beNat_beBytes_of_lt (by omega), beNat_beBytes_of_lt (by omega)]
  simp only [UInt64.ofNat_toNat, UInt16.ofNat_toNat]

end Vsys
open Vsys

/-- C38 for transfers without attachment to an address of 26 bytes (all genuine VSYS addresses): the text decodes to the same transfer
and the time it was created at, in microseconds; and the JSON object sent to the node has these fields and the Base58 texts of the key and
of the signature. -/
theorem C38_roundtrip_partial (H : Hashes) (nanos : Nat) (ts : TxStruct) (r sig pub : Bytes) (ht : nanos < 2 ^ 63) (ha : ts.attachment = [])
    (hr : decodeCheck H ts.recipient = .ok r) (hl : r.length = 26) :
    ∃ t b j, createEmptyTransaction H nanos ts = .ok t ∧ Hex.decode t = .ok b ∧ txStructDecode b = .ok (ts, nanos / 1000 * 1000) ∧
      createJSON t sig pub = .ok j ∧ j.timestamp = nanos / 1000 * 1000 ∧ j.amount = ts.amount ∧ j.fee = ts.fee ∧
      j.feeScale = ts.feeScale ∧ j.recipient = ts.recipient ∧ j.attachment = ts.attachment ∧
      Spec.IsBase58 Btc.alphabet pub j.senderPublicKey ∧ Spec.IsBase58 Btc.alphabet sig j.signature := by
  have he : Base58.encode Btc.alphabet r = .ok ts.recipient := C02_base58_canonical _ alphabet_ok _ _ (decodeCheck_ok hr)
  have hdec : txStructDecode (raw nanos ts r ++ [0x00, 0x00]) = .ok (ts, nanos / 1000 * 1000) := by
    rw [decode_raw _ _ _ _ ht, Btc.takeN_append _ _ hl]
    simp only [Res.bind_ok, he]
    have : Btc.takeN 2 [0x00, 0x00] = .ok ([0, 0], []) := rfl
    rw [this]
    simp only [Res.bind_ok]
    rw [if_pos trivial, if_neg (by simp), ← ha]
  obtain ⟨p, p1, p2, _⟩ := C01_base58_roundtrip Btc.alphabet alphabet_ok pub
  obtain ⟨s, s1, s2, _⟩ := C01_base58_roundtrip Btc.alphabet alphabet_ok sig
  refine ⟨_, raw nanos ts r ++ [0x00, 0x00], ⟨_, ts.amount, ts.fee, ts.feeScale, ts.recipient, p, ts.attachment, s⟩, create_eq hr,
    by rw [if_pos ha, Hex.decode_encode], hdec, ?_, rfl, rfl, rfl, rfl, rfl, rfl, p2, s2⟩
  unfold createJSON
  rw [if_pos ha, Hex.decode_encode]
  simp only [Res.bind_ok]
  rw [hdec]
  simp only [Res.bind_ok, p1, s1]

example : decodeCheck toyHashes (asc "H3iawMg14jLat6q56QqXJnC4CiyCNjXuzjY") =
    .ok (List.replicate 22 9 ++ (toyHashes.hash .keccak256 (toyHashes.hash (.blake2b 32) (List.replicate 22 9))).take 4) := by
  decide +kernel

/-- Where C38 fails (a): a transfer with an attachment. The text does not depend on the attachment, and it cannot be decoded. -/
theorem C38_attachment_violated (H : Hashes) (nanos : Nat) (ts : TxStruct) (r a : Bytes) (ht : nanos < 2 ^ 63) (ha : ts.attachment ≠ [])
    (ha' : a ≠ []) (hr : decodeCheck H ts.recipient = .ok r) (hl : r.length = 26) :
    createEmptyTransaction H nanos ts = createEmptyTransaction H nanos { ts with attachment := a } ∧
    ∃ t b, createEmptyTransaction H nanos ts = .ok t ∧ Hex.decode t = .ok b ∧ txStructDecode b = .err := by
  constructor
  · rw [create_eq hr, create_eq (ts := { ts with attachment := a }) hr, if_neg ha, if_neg ha']
    rfl
  · refine ⟨_, raw nanos ts r, create_eq hr, by rw [if_neg ha, Hex.decode_encode], ?_⟩
    have he : Base58.encode Btc.alphabet r = .ok ts.recipient := C02_base58_canonical _ alphabet_ok _ _ (decodeCheck_ok hr)
    have := decode_raw nanos ts r [] ht
    rw [List.append_nil] at this
    rw [this, Btc.takeN_append _ _ hl]
    simp only [Res.bind_ok, he]
    rfl

/-- Where C38 fails (b): the length of the recipient is not checked. Every text that is the Base58Check form of anything but 22 bytes is
accepted as a recipient, and the resulting transaction cannot be decoded. -/
theorem C38_recipient_length_violated (H : Hashes) (nanos : Nat) (ts : TxStruct) (d : Bytes) (ht : nanos < 2 ^ 63) (hd : d.length ≠ 22)
    (ha : ts.attachment = [])
    (hr : Base58.encode Btc.alphabet (d ++ (H.hash .keccak256 (H.hash (.blake2b 32) d)).take 4) = .ok ts.recipient) :
    ∃ t b, createEmptyTransaction H nanos ts = .ok t ∧ Hex.decode t = .ok b ∧ txStructDecode b = .err := by
  generalize hc : (H.hash .keccak256 (H.hash (.blake2b 32) d)).take 4 = c at hr
  have hcl : c.length = 4 := by rw [← hc, List.length_take, H.size]; rfl
  have hdec : decodeCheck H ts.recipient = .ok (d ++ c) := by
    obtain ⟨t, t1, _, t3⟩ := C01_base58_roundtrip Btc.alphabet alphabet_ok (d ++ c)
    rw [hr] at t1
    cases t1
    unfold decodeCheck
    rw [t3]
    simp only
    rw [if_neg (by simp; omega), show (d ++ c).length - 4 = d.length by simp [hcl], List.take_left, List.drop_left, hc, if_neg (by simp)]
  refine ⟨_, raw nanos ts (d ++ c) ++ [0x00, 0x00], create_eq hdec, by rw [if_pos ha, Hex.decode_encode], ?_⟩
  rw [decode_raw _ _ _ _ ht]
  have hlen : (d ++ c ++ [0x00, 0x00]).length = d.length + 6 := by simp [hcl]
  generalize hb : d ++ c ++ [0x00, 0x00] = b at hlen
  unfold Btc.takeN
  by_cases c1 : b.length < 26
  · rw [if_pos c1]
    rfl
  rw [if_neg c1]
  simp only [Res.bind_ok]
  obtain ⟨t, t1, _, _⟩ := C01_base58_roundtrip Btc.alphabet alphabet_ok (b.take 26)
  rw [t1]
  simp only [Res.bind_ok]
  by_cases c2 : (b.drop 26).length < 2
  · rw [if_pos c2]
    rfl
  rw [if_neg c2]
  simp only [Res.bind_ok]
  have : (b.drop 26).drop 2 ≠ [] := by
    intro h0
    have := congrArg List.length h0
    simp at this c2
    omega
  rw [if_pos this]
  split <;> rfl

example : ∃ a, Base58.encode Btc.alphabet ([1, 2, 3] ++ (toyHashes.hash .keccak256 (toyHashes.hash (.blake2b 32) [1, 2, 3])).take 4) =
    .ok a := (C01_base58_roundtrip Btc.alphabet alphabet_ok _).imp fun _ h => h.1

/-- Beyond C38: bytes accepted by the decoder are exactly the serialisation of what it returns, so no two transactions are
confused. -/
theorem C38_decode_canonical (b : Bytes) (ts : TxStruct) (time : Nat) (h : txStructDecode b = .ok (ts, time)) :
    ∃ r, r.length = 26 ∧ Base58.decode Btc.alphabet ts.recipient = .ok r ∧ ts.attachment = [] ∧
      b = [ts.txType] ++ beBytes 8 time ++ beBytes 8 ts.amount.toNat ++ beBytes 8 ts.fee.toNat ++ beBytes 2 ts.feeScale.toNat ++ r ++
        [0, 0] := by
  have take : ∀ {n : Nat} {x p q : Bytes}, Btc.takeN n x = .ok (p, q) → x = p ++ q ∧ p.length = n := by
    intro n x p q hx
    unfold Btc.takeN at hx
    split at hx
    · cases hx
    · cases hx
      refine ⟨(List.take_append_drop n x).symm, by simp; omega⟩
  unfold txStructDecode at h
  obtain ⟨⟨ty, b1⟩, h1, h⟩ := Res.bind_eq_ok.mp h
  obtain ⟨⟨tm, b2⟩, h2, h⟩ := Res.bind_eq_ok.mp h
  obtain ⟨⟨am, b3⟩, h3, h⟩ := Res.bind_eq_ok.mp h
  obtain ⟨⟨fee, b4⟩, h4, h⟩ := Res.bind_eq_ok.mp h
  obtain ⟨⟨sc, b5⟩, h5, h⟩ := Res.bind_eq_ok.mp h
  obtain ⟨⟨rc, b6⟩, h6, h⟩ := Res.bind_eq_ok.mp h
  obtain ⟨to_, h7, h⟩ := Res.bind_eq_ok.mp h
  obtain ⟨⟨ln, b7⟩, h8, h⟩ := Res.bind_eq_ok.mp h
  have e1 : b = ty :: b1 := by
    unfold Btc.take1 at h1
    cases b with
    | nil => cases h1
    | cons x xs => cases h1; rfl
  obtain ⟨e2, l2⟩ := take h2
  obtain ⟨e3, l3⟩ := take h3
  obtain ⟨e4, l4⟩ := take h4
  obtain ⟨e5, l5⟩ := take h5
  obtain ⟨e6, l6⟩ := take h6
  obtain ⟨e8, l8⟩ := take h8
  simp only at h
  split at h
  swap
  · cases h
  rename_i hln
  split at h
  · cases h
  rename_i hb7
  simp only [ne_eq, not_not] at hb7
  cases h
  obtain ⟨t, t1, _, t3⟩ := C01_base58_roundtrip Btc.alphabet alphabet_ok rc
  rw [h7] at t1
  cases t1
  have n3 := beNat_lt am
  have n4 := beNat_lt fee
  have n5 := beNat_lt sc
  rw [l3] at n3
  rw [l4] at n4
  rw [l5] at n5
  have q2 := beBytes_beNat tm
  have q3 := beBytes_beNat am
  have q4 := beBytes_beNat fee
  have q5 := beBytes_beNat sc
  rw [l2] at q2
  rw [l3] at q3
  rw [l4] at q4
  rw [l5] at q5
  refine ⟨rc, l6, t3, rfl, ?_⟩
  have u3 : (UInt64.ofNat (beNat am)).toNat = beNat am := by rw [UInt64.toNat_ofNat']; omega
  have u4 : (UInt64.ofNat (beNat fee)).toNat = beNat fee := by rw [UInt64.toNat_ofNat']; omega
  have u5 : (UInt16.ofNat (beNat sc)).toNat = beNat sc := by rw [UInt16.toNat_ofNat']; omega
  simp only [u3, u4, u5, q2, q3, q4, q5]
  rw [e1, e2, e3, e4, e5, e6, e8, hln, hb7]
  simp only [List.append_assoc, List.append_nil, List.cons_append, List.nil_append]

/-- A signature is accepted for a text exactly if it verifies, for the given key, over the bytes that text denotes (the bytes that are
decoded for the submitted request). -/
theorem C38_verify (V : Verify) (text sig pub : Bytes) :
    verifyTransaction V text sig pub = true ↔ ∃ b, Hex.decode text = .ok b ∧ V pub b sig = true := by
  unfold verifyTransaction
  cases h : Hex.decode text with
  | ok b => simp
  | err => simp
  | panic => simp

/-- What the caller of `SignTransaction` gets, in all cases: an error exactly if the text is not hexadecimal or the signature function
refuses; never a panic; otherwise the signature over the bytes the text denotes and the key's public key. If the signature scheme is correct
(the law), the pair is accepted for that text by `VerifyTransaction`. -/
theorem C38_sign (S : Signer) (V : Verify) (law : ∀ key m s, S.sign key m = some s → V (S.edToX (S.mulBaseG key)) m s = true)
    (text key : Bytes) :
    (∀ sig pub, signTransaction S text key = .ok (sig, pub) ↔
      ∃ b, Hex.decode text = .ok b ∧ S.sign key b = some sig ∧ pub = S.edToX (S.mulBaseG key)) ∧
    (signTransaction S text key = .err ↔ ∀ b, Hex.decode text = .ok b → S.sign key b = none) ∧
    signTransaction S text key ≠ .panic ∧
    (∀ sig pub, signTransaction S text key = .ok (sig, pub) → verifyTransaction V text sig pub = true) := by
  have e : ∀ sig pub, signTransaction S text key = .ok (sig, pub) ↔
      ∃ b, Hex.decode text = .ok b ∧ S.sign key b = some sig ∧ pub = S.edToX (S.mulBaseG key) := by
    intro sig pub
    unfold signTransaction
    rw [Res.bind_eq_ok]
    refine exists_congr fun b => and_congr_right fun _ => ?_
    cases S.sign key b with
    | none => simp
    | some s => simp [eq_comm]
  refine ⟨e, ?_, ?_, ?_⟩
  · unfold signTransaction
    cases h : Hex.decode text with
    | ok b => cases hs : S.sign key b <;> simp [hs]
    | err => simp
    | panic => exact absurd h (Hex.decode_ne_panic text)
  · unfold signTransaction
    cases h : Hex.decode text with
    | ok b => cases hs : S.sign key b <;> simp [hs]
    | err => simp
    | panic => exact absurd h (Hex.decode_ne_panic text)
  · intro sig pub h
    obtain ⟨b, h1, h2, rfl⟩ := (e sig pub).mp h
    exact (C38_verify V text _ _).mpr ⟨b, h1, law _ _ _ h2⟩

-- a scheme that meets the law, a text that is signed and verified, one that is not a transaction text
example : let S : Signer := ⟨fun k m => if k = [] then none else some (k ++ m), id, fun p => 1 :: p⟩
    let V : Verify := fun p m s => p ≠ [1] && (1 :: s == p ++ m)
    (∀ key m s, S.sign key m = some s → V (S.edToX (S.mulBaseG key)) m s = true) ∧
    signTransaction S (asc "0203") [7] = .ok ([7, 2, 3], [1, 7]) ∧ signTransaction S (asc "02x3") [7] = .err := by
  refine ⟨?_, by decide +kernel, by decide +kernel⟩
  intro key m s h
  cases key with
  | nil => simp at h
  | cons a t => simp at h; simp [← h]

end Verif
