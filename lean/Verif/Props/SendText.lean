import Verif.Props.Vsys
import Verif.Props.Filenet
import Verif.Props.Cosmos
import Verif.Model.SendText
import Verif.Spec.SendText
import Verif.Props.Fiii

/-! C122: the JSON messages of VSYS and Filenet say what was signed. -/

namespace Verif
open Verif.Spec Verif.Json

theorem base58_ascii {b t : Bytes} (h : IsBase58 Btc.alphabet b t) : ∀ c ∈ t, c.toNat < 128 := by
  intro c hc
  unfold IsBase58 at h
  have : some c ∈ t.map some := List.mem_map.mpr ⟨c, hc, rfl⟩
  rw [h] at this
  obtain ⟨d, _, hd⟩ := List.mem_map.mp this
  have hm := List.mem_of_getElem? hd
  have hall : ∀ c ∈ Btc.alphabet, c.toNat < 128 := by decide +kernel
  exact hall c hm

theorem encode58_ascii {b t : Bytes} (h : Base58.encode Btc.alphabet b = .ok t) : ∀ c ∈ t, c.toNat < 128 := by
  obtain ⟨t', h1, h2, _⟩ := C01_base58_roundtrip Btc.alphabet Vsys.alphabet_ok b
  rw [h1] at h
  cases h
  exact base58_ascii h2

theorem clean_digits (n : Nat) : Clean (.num (formatNat n)) := .num _ n (.inl ⟨n, rfl, formatNat_digits n⟩)

namespace Vsys

theorem body_text (j : Body) (h1 : IsUtf8 j.attachment) (h2 : IsUtf8 j.recipient) (h3 : IsUtf8 j.senderPublicKey) (h4 : IsUtf8 j.signature) :
    IsVsysBody j.amount.toNat j.fee.toNat j.feeScale.toNat j.timestamp j.attachment j.recipient j.senderPublicKey j.signature (marshal (bodyJson j)) := by
  refine ⟨_, _, _, _, formatNat_digits _, formatNat_digits _, formatNat_digits _, formatNat_digits _, marshal_json ?_⟩
  refine Clean.obj _ ?_ ?_ <;> intro m hm <;> simp only [List.mem_cons, List.not_mem_nil, or_false] at hm
  · rcases hm with rfl | rfl | rfl | rfl | rfl | rfl | rfl | rfl <;> exact Cosmos.asc_utf8 _ (by decide)
  · rcases hm with rfl | rfl | rfl | rfl | rfl | rfl | rfl | rfl
    · exact clean_digits _
    · exact .str _ h1
    · exact clean_digits _
    · exact clean_digits _
    · exact .str _ h2
    · exact .str _ h3
    · exact .str _ h4
    · exact clean_digits _

end Vsys

open Vsys in
/-- C122 for VSYS, every transaction text: if a message is returned, it states the fields the signed bytes are made of, with the Base58 forms of the
key and the signature. -/
theorem C122_vsys_sound (trans sig pub text : Bytes) (h : createJSONText trans sig pub = .ok text) :
    ∃ (ts : TxStruct) (time : Nat) (raw r key sg : Bytes), Hex.decode trans = .ok raw ∧ r.length = 26 ∧
      raw = [ts.txType] ++ beBytes 8 time ++ beBytes 8 ts.amount.toNat ++ beBytes 8 ts.fee.toNat ++ beBytes 2 ts.feeScale.toNat ++ r ++ [0, 0] ∧
      IsBase58 Btc.alphabet r ts.recipient ∧ IsBase58 Btc.alphabet pub key ∧ IsBase58 Btc.alphabet sig sg ∧
      IsVsysBody ts.amount.toNat ts.fee.toNat ts.feeScale.toNat time [] ts.recipient key sg text := by
  unfold createJSONText createJSON at h
  simp only [Res.bind_eq_ok, Prod.exists, Res.ok.injEq] at h
  obtain ⟨j, ⟨raw, h1, ts, time, h2, p, hp, s, hs, rfl⟩, rfl⟩ := h
  obtain ⟨r, hr, hd, ha, hraw⟩ := C38_decode_canonical raw ts time h2
  obtain ⟨p', p1, p2, _⟩ := C01_base58_roundtrip Btc.alphabet Vsys.alphabet_ok pub
  obtain ⟨s', s1, s2, _⟩ := C01_base58_roundtrip Btc.alphabet Vsys.alphabet_ok sig
  obtain ⟨r', r1, r2, _⟩ := C01_base58_roundtrip Btc.alphabet Vsys.alphabet_ok r
  rw [hp] at p1; cases p1
  rw [hs] at s1; cases s1
  have he := C02_base58_canonical _ Vsys.alphabet_ok _ _ hd
  rw [he] at r1; cases r1
  refine ⟨ts, time, raw, r, p, s, h1, hr, hraw, r2, p2, s2, ?_⟩
  have := Vsys.body_text ⟨time, ts.amount, ts.fee, ts.feeScale, ts.recipient, p, ts.attachment, s⟩ (Cosmos.ascii_utf8 (by rw [ha]; simp))
    (Cosmos.ascii_utf8 (base58_ascii r2)) (Cosmos.ascii_utf8 (base58_ascii p2)) (Cosmos.ascii_utf8 (base58_ascii s2))
  rw [ha] at this ⊢
  exact this

open Vsys in
/-- C122 for VSYS, transfers without attachment to a genuine address: the message for the created transaction states the request, the time of creation,
the key and the signature. -/
theorem C122_vsys_request_partial (H : Hashes) (nanos : Nat) (ts : TxStruct) (r sig pub : Bytes) (ht : nanos < 2 ^ 63) (ha : ts.attachment = [])
    (hr : decodeCheck H ts.recipient = .ok r) (hl : r.length = 26) : ∃ t text key sg, createEmptyTransaction H nanos ts = .ok t ∧
      createJSONText t sig pub = .ok text ∧ IsBase58 Btc.alphabet pub key ∧ IsBase58 Btc.alphabet sig sg ∧
      IsVsysBody ts.amount.toNat ts.fee.toNat ts.feeScale.toNat (nanos / 1000 * 1000) [] ts.recipient key sg text := by
  obtain ⟨t, b, j, h1, h2, h3, h4, h5, h6, h7, h8, h9, h10, h11, h12⟩ := C38_roundtrip_partial H nanos ts r sig pub ht ha hr hl
  have he : Base58.encode Btc.alphabet r = .ok ts.recipient := C02_base58_canonical _ alphabet_ok _ _ (decodeCheck_ok hr)
  refine ⟨t, marshal (bodyJson j), j.senderPublicKey, j.signature, h1, by unfold createJSONText; rw [h4]; rfl, h11, h12, ?_⟩
  have := body_text j (Cosmos.ascii_utf8 (by rw [h10, ha]; simp)) (Cosmos.ascii_utf8 (by rw [h9]; exact encode58_ascii he))
    (Cosmos.ascii_utf8 (base58_ascii h11)) (Cosmos.ascii_utf8 (base58_ascii h12))
  rwa [h5, h6, h7, h8, h9, h10, ha] at this

open Vsys in
example : ∃ t, decodeCheck toyHashes (asc "H3iawMg14jLat6q56QqXJnC4CiyCNjXuzjY") = .ok t ∧ t.length = 26 :=
  ⟨List.replicate 22 9 ++ (toyHashes.hash .keccak256 (toyHashes.hash (.blake2b 32) (List.replicate 22 9))).take 4, by decide +kernel, by decide +kernel⟩

open Vsys in
/-- C122 fails for VSYS transfers with an attachment: they are created, and no signature and key get a message for them. -/
theorem C122_vsys_attachment_violated (H : Hashes) (nanos : Nat) (ts : TxStruct) (r : Bytes) (ht : nanos < 2 ^ 63) (ha : ts.attachment ≠ [])
    (hr : decodeCheck H ts.recipient = .ok r) (hl : r.length = 26) :
    ∃ t, createEmptyTransaction H nanos ts = .ok t ∧ ∀ sig pub, createJSONText t sig pub = .err := by
  obtain ⟨_, t, b, h1, h2, h3⟩ := C38_attachment_violated H nanos ts r ts.attachment ht ha ha hr hl
  refine ⟨t, h1, fun sig pub => ?_⟩
  unfold createJSONText createJSON
  rw [h2, Res.bind_ok, h3]
  rfl

open Vsys in
example : ∃ ts : TxStruct, ts.attachment ≠ [] ∧ ∃ r, decodeCheck toyHashes ts.recipient = .ok r ∧ r.length = 26 :=
  ⟨⟨2, asc "H3iawMg14jLat6q56QqXJnC4CiyCNjXuzjY", 1, 1, 1, asc "a"⟩, by decide,
    List.replicate 22 9 ++ (toyHashes.hash .keccak256 (toyHashes.hash (.blake2b 32) (List.replicate 22 9))).take 4, by decide +kernel, by decide +kernel⟩

namespace Filenet

theorem transfer_text (t : Transfer) (h1 : IsUtf8 t.txId) (h2 : IsUtf8 t.from_) (h3 : ∀ d ∈ t.details, IsUtf8 d.1) (h4 : IsUtf8 t.sign) :
    IsFilenetBody t.txId t.from_ t.toCount.toNat t.value.toNat (int64 t.timestamp) (t.details.map fun d => (d.1, d.2.toNat)) t.sign
      (marshal (transferJson t)) := by
  refine ⟨_, _, _, t.details.map detailJson, formatNat_digits _, formatNat_digits _, formatInt_decimal _, ?_, marshal_json ?_⟩
  · refine List.forall₂_map_left_iff.mpr (List.forall₂_map_right_iff.mpr ?_)
    refine List.forall₂_same.mpr fun d _ => ⟨_, formatNat_digits _, rfl⟩
  · refine Clean.obj _ ?_ ?_ <;> intro m hm <;> simp only [List.mem_cons, List.not_mem_nil, or_false] at hm
    · rcases hm with rfl | rfl | rfl | rfl | rfl | rfl | rfl <;> exact Cosmos.asc_utf8 _ (by decide)
    · rcases hm with rfl | rfl | rfl | rfl | rfl | rfl | rfl
      · exact .str _ h1
      · exact .str _ h2
      · exact clean_digits _
      · exact clean_digits _
      · exact Fiii.clean_num _
      · refine .arr _ fun v hv => ?_
        obtain ⟨d, hd, rfl⟩ := List.mem_map.mp hv
        refine Clean.obj _ ?_ ?_ <;> intro m hm <;> simp only [List.mem_cons, List.not_mem_nil, or_false] at hm
        · rcases hm with rfl | rfl <;> exact Cosmos.asc_utf8 _ (by decide)
        · rcases hm with rfl | rfl
          · exact .str _ (h3 d hd)
          · exact clean_digits _
      · exact .str _ h4

theorem decoded_utf8 {H : Hashes} {mem : Nat} {text sig : Bytes} {tr : Transfer} (h : decodeRaw H mem text sig = .ok tr) :
    IsUtf8 tr.txId ∧ IsUtf8 tr.from_ ∧ (∀ d ∈ tr.details, IsUtf8 d.1) ∧ IsUtf8 tr.sign := by
  obtain ⟨t, _, _, _, _, ⟨s, hs⟩, h6, h7, _, _, _, h11, h12⟩ := (C52_decode ..).mp h
  refine ⟨?_, Cosmos.ascii_utf8 (base58_ascii h7.2), ?_, ?_⟩
  · rw [h6]; exact Cosmos.ascii_utf8 (Fiii.hex_ascii (Hex.decode_encode _))
  · intro d hd
    obtain ⟨o, ho⟩ := Fiii.forall₂_left h11 d hd
    exact Cosmos.ascii_utf8 (base58_ascii ho.1.2)
  · rw [h12]; exact Cosmos.ascii_utf8 (Fiii.hex_ascii hs)

/-- A time before the year 292 277 026 596 keeps its value. -/
theorem int64_of {n : UInt64} (h : n.toNat < 2 ^ 63) : int64 n = n.toNat := if_pos h

end Filenet
open Filenet

/-- C122 for Filenet, every transaction text: success means that the text is the wire form of some transfer whose hash the signature is valid for, and
the message returned states exactly this transfer: the hash as id, the addresses, the number of payments, the total, the time (as a signed number), the
payments in their order, and the signature. -/
theorem C122_filenet_sound (H : Hashes) (E : Btc.Curve) (mem : Nat) (trans sig pub out : Bytes) (h : combineText H E mem trans sig pub = .ok (out, true)) :
    ∃ (t : Spec.Filenet.Tx) (sender : Bytes) (payments : List (Bytes × Nat)) (s p pb : Bytes) (p0 : UInt8) (time : UInt64), t.Fits ∧ Hex.decode trans = .ok t.wire ∧
      Hex.decode sig = .ok s ∧ s.length = 64 ∧ Hex.decode pub = .ok p ∧ E.decompress p = p0 :: pb ∧
      E.verify pb (H.hash .sha256 t.wire) s = true ∧
      Spec.Filenet.IsAddress t.from_ sender ∧ List.Forall₂ (fun d o => Spec.Filenet.IsAddress o.1 d.1 ∧ d.2 = o.2) payments t.outs ∧ time.toNat = t.time ∧
      IsFilenetBody (Hex.encode (H.hash .sha256 t.wire)) sender t.outs.length t.total (int64 time) payments sig out := by
  unfold combineText at h
  obtain ⟨r, hr, h⟩ := Res.bind_eq_ok.mp h
  cases r with
  | none => simp at h
  | some tr =>
    simp only [Res.ok.injEq, Prod.mk.injEq, and_true] at h
    obtain ⟨hd, raw, s, p, p0, pb, h1, h2, h3, h4, h5⟩ := (C52_combine H E mem trans sig pub tr).mp hr
    obtain ⟨u1, u2, u3, u4⟩ := decoded_utf8 hd
    obtain ⟨t, t1, _, t3, t4, _, t6, t7, t8, t9, t10, t11, t12⟩ := (C52_decode ..).mp hd
    rw [h1] at t3
    cases t3
    have hs : s.length = 64 := by
      have := Hex.decode_length _ _ h2
      omega
    refine ⟨t, tr.from_, tr.details.map fun d => (d.1, d.2.toNat), s, p, pb, p0, tr.timestamp, t1, h1, h2, hs, h3, h4, h5, t7,
      List.forall₂_map_left_iff.mpr t11, t10, ?_⟩
    have := transfer_text tr u1 u2 u3 u4
    rwa [t6, t8, t9, t12, h] at this

/-- C122 for Filenet, from the request: the message for the created transaction and a valid signature states the request: sender, payments in address
order, their number and sum, the time of creation and the id that was returned for signing. As in C52, for amounts that add up to less than 2^64 and
addresses in their usual form. -/
theorem C122_filenet_request_partial (H : Hashes) (E : Btc.Curve) (S : Sorter) (mem : Nat) (time : UInt64) (in_ : Bytes) (outs : List Vout)
    (text hash sig s pub p pb : Bytes) (p0 : UInt8) (hmem : outs.length ≤ mem) (hlen : outs.length < 2 ^ 64)
    (h : createEmpty H S time in_ outs = .ok (text, hash)) (hsum : (outs.map fun o => o.amount.toNat).sum < 2 ^ 64)
    (hin : ∃ b, Spec.Filenet.IsAddress b in_) (hout : ∀ o ∈ outs, ∃ b, Spec.Filenet.IsAddress b o.address) (hs : Hex.decode sig = .ok s)
    (hsl : s.length = 64) (htime : time.toNat < 2 ^ 63) (hp : Hex.decode pub = .ok p) (hd : E.decompress p = p0 :: pb)
    (hv : ∀ m, Hex.decode hash = .ok m → E.verify pb m s = true) :
    ∃ out payments, combineText H E mem text sig pub = .ok (out, true) ∧ payments.Perm (outs.map fun o => (o.address, o.amount.toNat)) ∧
      (payments.Pairwise fun a b => ¬ b.1 < a.1) ∧
      IsFilenetBody hash in_ outs.length (outs.map fun o => o.amount.toNat).sum time.toNat payments sig out := by
  obtain ⟨tr, h1, h2, h3, h4, h5, h6, h7, _, h9, h10⟩ := C52_roundtrip_partial H S mem time in_ outs text hash sig s hmem hlen h hsum hin hout hs hsl
  obtain ⟨t, _, _, t3, _, _, t6, _⟩ := (C52_decode ..).mp h1
  have hv' : E.verify pb (H.hash .sha256 t.wire) s = true := by
    apply hv
    rw [← h2, t6, Hex.decode_encode]
  have hc : verifyAndCombine H E mem text sig pub = .ok (some tr) := (C52_combine ..).mpr ⟨h1, _, s, p, p0, pb, t3, hs, hp, hd, hv'⟩
  obtain ⟨u1, u2, u3, u4⟩ := decoded_utf8 h1
  refine ⟨marshal (transferJson tr), tr.details.map fun d => (d.1, d.2.toNat), by unfold combineText; rw [hc]; rfl, ?_, ?_, ?_⟩
  · have := h5.map (fun d : Bytes × UInt64 => (d.1, d.2.toNat))
    rw [List.map_map] at this
    exact this
  · rw [List.pairwise_map]
    exact h6
  · have := transfer_text tr u1 u2 u3 u4
    rwa [h2, h3, h7, h9, h10, h4, int64_of htime] at this

example : ∃ text hash out, createEmpty toyHashes insertionSorter 1569831542 (asc "3YZ92rqUpjYzXDrkL41Fz89LUMYRysktyWkayNcqBnrfBXwW1mCN9QL")
    [⟨asc "3YZ92rqUpjYzXDrkL41Fz89LUMYRysktyWkayNcqBnrfBXwW1mCN9QL", 1000000000⟩] = .ok (text, hash) ∧
    combineText toyHashes ⟨fun p => p, fun _ _ _ => true⟩ 5 text (Hex.encode (List.replicate 64 7)) (asc "0201") = .ok (out, true) := by
  have h : (createEmpty toyHashes insertionSorter 1569831542 (asc "3YZ92rqUpjYzXDrkL41Fz89LUMYRysktyWkayNcqBnrfBXwW1mCN9QL")
      [⟨asc "3YZ92rqUpjYzXDrkL41Fz89LUMYRysktyWkayNcqBnrfBXwW1mCN9QL", 1000000000⟩]).isOk = true := by decide +kernel
  cases hc : createEmpty toyHashes insertionSorter 1569831542 (asc "3YZ92rqUpjYzXDrkL41Fz89LUMYRysktyWkayNcqBnrfBXwW1mCN9QL")
      [⟨asc "3YZ92rqUpjYzXDrkL41Fz89LUMYRysktyWkayNcqBnrfBXwW1mCN9QL", 1000000000⟩] with
  | ok r =>
    have ha : ∃ b, Spec.Filenet.IsAddress b (asc "3YZ92rqUpjYzXDrkL41Fz89LUMYRysktyWkayNcqBnrfBXwW1mCN9QL") :=
      ⟨[0x33, 0xdd, 0xd5, 0x97, 0xb3, 0x06, 0xa6, 0x50, 0x2c, 0xfa, 0xcc, 0xdf, 0x54, 0x27, 0x4b, 0xbf, 0x11, 0xd4, 0x3f, 0x5a],
        (encodeAddress_iff _ _).mp (by decide +kernel)⟩
    obtain ⟨out, _, ho, _⟩ := C122_filenet_request_partial toyHashes ⟨fun p => p, fun _ _ _ => true⟩ insertionSorter 5 1569831542 _ _ r.1 r.2
      (Hex.encode (List.replicate 64 7)) (List.replicate 64 7) (asc "0201") [2, 1] [1] 2 (by decide) (by decide) hc (by decide) ha
      (by intro o h; simp only [List.mem_singleton] at h; subst h; exact ha) (Hex.decode_encode _) (by decide) (by decide) (by decide +kernel) rfl
      (fun _ _ => rfl)
    exact ⟨r.1, r.2, out, rfl, ho⟩
  | err => rw [hc] at h; cases h
  | panic => rw [hc] at h; cases h

/-- C122 fails for Filenet requests whose amounts add up to 2^64 or more: the message of a combined transaction states another total. -/
theorem C122_filenet_total_violated (H : Hashes) (E : Btc.Curve) (S : Sorter) (mem : Nat) (time : UInt64) (in_ : Bytes) (outs : List Vout)
    (text hash sig pub out : Bytes) (hlen : outs.length < 2 ^ 64) (h : createEmpty H S time in_ outs = .ok (text, hash))
    (hsum : 2 ^ 64 ≤ (outs.map fun o => o.amount.toNat).sum) (hc : combineText H E mem text sig pub = .ok (out, true)) :
    ∃ id sender n t payments total, IsFilenetBody id sender n total t payments sig out ∧ total = (outs.map fun o => o.amount.toNat).sum % 2 ^ 64 ∧
      total ≠ (outs.map fun o => o.amount.toNat).sum := by
  unfold combineText at hc
  obtain ⟨r, hr, hc⟩ := Res.bind_eq_ok.mp hc
  cases r with
  | none => simp at hc
  | some tr =>
    simp only [Res.ok.injEq, Prod.mk.injEq, and_true] at hc
    obtain ⟨hd, _⟩ := (C52_combine H E mem text sig pub tr).mp hr
    obtain ⟨u1, u2, u3, u4⟩ := decoded_utf8 hd
    obtain ⟨e1, e2⟩ := C52_total_violated H S mem time in_ outs text hash sig tr hlen h hsum hd
    have := transfer_text tr u1 u2 u3 u4
    obtain ⟨_, _, _, _, _, _, _, _, _, _, _, _, t12⟩ := (C52_decode ..).mp hd
    rw [hc, t12] at this
    exact ⟨_, _, _, _, _, _, this, e1, e2⟩

/-- Non-vacuity: two payments of 2^63 are created and combined. -/
example : let a := asc "3YZ92rqUpjYzXDrkL41Fz89LUMYRysktyWkayNcqBnrfBXwW1mCN9QL"
    2 ^ 64 ≤ ([⟨a, 2 ^ 63⟩, ⟨a, 2 ^ 63⟩].map fun o : Vout => o.amount.toNat).sum ∧
    ((createEmpty toyHashes insertionSorter 1569831542 a [⟨a, 2 ^ 63⟩, ⟨a, 2 ^ 63⟩]).bind fun r =>
      combineText toyHashes ⟨fun p => p, fun _ _ _ => true⟩ 5 r.1 (Hex.encode (List.replicate 64 7)) (asc "0201")).bind
      (fun r => if r.2 then .ok () else .err) = .ok () := by
  decide +kernel

end Verif
