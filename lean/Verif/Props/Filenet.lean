import Verif.Lemmas.Filenet

/-! C52: Filenet transfers. -/

namespace Verif
open Verif.Filenet Verif.Spec.Filenet

namespace Filenet

theorem createEmpty_iff (H : Hashes) (S : Sorter) (time : UInt64) (in_ : Bytes) (outs : List Vout) (text hash : Bytes)
    (hlen : outs.length < 2 ^ 64) : createEmpty H S time in_ outs = .ok (text, hash) ↔
      ∃ t : Tx, t.Fits ∧ text = Hex.encode t.wire ∧ hash = Hex.encode (H.hash .sha256 t.wire) ∧ decodeAddress in_ = .ok t.from_ ∧
        outs ≠ [] ∧ (∀ o ∈ outs, o.amount ≠ 0) ∧ t.time = time.toNat ∧ t.total = sum outs % 2 ^ 64 ∧
        List.Forall₂ (fun o p => decodeAddress o.address = .ok p.1 ∧ p.2 = o.amount.toNat) (S.run outs) t.outs := by
  have hsum : sum (S.run outs) = sum outs := ((S.perm outs).map _).sum_eq
  have hempty : decodeAddress [] = .err := by decide +kernel
  have hrl : (S.run outs).length = outs.length := (S.perm outs).length_eq
  unfold createEmpty newTx
  constructor
  · intro h
    obtain ⟨raw, hr, h⟩ := Res.bind_eq_ok.mp h
    cases h
    split at hr
    · cases hr
    obtain ⟨f, hf, hr⟩ := Res.bind_eq_ok.mp hr
    split at hr
    · cases hr
    rename_i hne
    obtain ⟨⟨total, tos⟩, hp, hr⟩ := Res.bind_eq_ok.mp hr
    cases hr
    obtain ⟨p1, p2, p3⟩ := (payments_iff _ _ _ _).mp hp
    have hlt : tos.length = outs.length := by rw [← p2.length_eq, hrl]
    have hw : Tx.wire ⟨f, total.toNat, time.toNat, tos.map fun p => (p.1, p.2.toNat)⟩ =
        f ++ leBytes 8 outs.length ++ leBytes 8 total.toNat ++ leBytes 8 time.toNat ++
        (tos.map fun t => t.1 ++ leBytes 8 t.2.toNat).flatten := by
      unfold Tx.wire
      simp only [List.length_map, hlt, List.flatMap, List.map_map]
      rfl
    rw [← hw]
    refine ⟨_, ⟨((decodeAddress_iff _ _).mp hf).1, by simpa [hlt] using hlen, total.toNat_lt, time.toNat_lt, ?_⟩, rfl, rfl, hf, ?_, ?_, rfl,
      ?_, ?_⟩
    · intro o ho
      obtain ⟨p, hp, rfl⟩ := List.mem_map.mp ho
      have : ∀ {l : List Vout} {m : List (Bytes × UInt64)}, List.Forall₂ (fun o p => decodeAddress o.address = .ok p.1 ∧ p.2 = o.amount) l m →
          ∀ p ∈ m, p.1.length = 20 := by
        intro l m hf
        induction hf with
        | nil => simp
        | cons h _ ih => exact List.forall_mem_cons.mpr ⟨((decodeAddress_iff _ _).mp h.1).1, ih⟩
      exact ⟨this p2 p hp, p.2.toNat_lt⟩
    · rintro rfl
      exact hne rfl
    · intro o ho
      exact (p1 o ((S.perm outs).mem_iff.mpr ho)).2
    · simp only [p3, hsum]; simp
    · exact List.forall₂_map_right_iff.mpr (p2.imp fun _ _ h => ⟨h.1, by rw [h.2]⟩)
  · rintro ⟨t, ⟨f1, f2, f3, f4, f5⟩, rfl, rfl, hf, hne, ham, ht, hto, ho⟩
    have hin : in_ ≠ [] := by
      rintro rfl
      rw [hempty] at hf
      cases hf
    rw [if_neg hin, hf, Res.bind_ok, if_neg (by simpa using hne)]
    have hpay : payments (S.run outs) 0 = .ok (UInt64.ofNat t.total, t.outs.map fun p => (p.1, UInt64.ofNat p.2)) := by
      refine (payments_iff _ _ _ _).mpr ⟨?_, ?_, ?_⟩
      · intro o hmem
        refine ⟨?_, ham o ((S.perm outs).mem_iff.mp hmem)⟩
        intro he
        have : ∀ {l : List Vout} {m : List (Bytes × Nat)}, List.Forall₂ (fun o p => decodeAddress o.address = .ok p.1 ∧ p.2 = o.amount.toNat) l m →
            ∀ o ∈ l, o.address ≠ [] := by
          intro l m hf
          induction hf with
          | nil => simp
          | cons h _ ih =>
            refine List.forall_mem_cons.mpr ⟨?_, ih⟩
            intro e
            rw [e, hempty] at h
            cases h.1
        exact this ho o hmem he
      · exact List.forall₂_map_right_iff.mpr (ho.imp fun o p h => ⟨h.1, by rw [h.2, UInt64.ofNat_toNat]⟩)
      · rw [UInt64.toNat_ofNat_of_lt' f3, hto, hsum]; simp
    rw [hpay, Res.bind_ok, Res.bind_ok]
    have hl : t.outs.length = outs.length := by rw [← ho.length_eq, hrl]
    have hw : (t.from_ ++ leBytes 8 outs.length ++ leBytes 8 (UInt64.ofNat t.total).toNat ++ leBytes 8 time.toNat ++
        (List.map (fun t => t.1 ++ leBytes 8 t.2.toNat) (t.outs.map fun p => (p.1, UInt64.ofNat p.2))).flatten) = t.wire := by
      unfold Tx.wire
      rw [UInt64.toNat_ofNat_of_lt' f3, ← ht, hl]
      refine congrArg _ ?_
      rw [List.map_map, List.flatMap]
      refine congrArg _ (List.map_congr_left ?_)
      intro o hmem
      simp only [Function.comp, UInt64.toNat_ofNat_of_lt' (f5 o hmem).2]
    rw [hw]

end Filenet

/-- C52, creating: the transaction text is the wire form of the sender, the clock and the payments in address order, each payment once;
the announced total is the sum of the amounts modulo 2^64. -/
theorem C52_layout (H : Hashes) (S : Sorter) (time : UInt64) (in_ : Bytes) (outs : List Vout) (text hash : Bytes)
    (hlen : outs.length < 2 ^ 64) (h : createEmpty H S time in_ outs = .ok (text, hash)) :
    ∃ (t : Tx) (sorted : List Vout), sorted.Perm outs ∧ (sorted.Pairwise fun a b => ¬ b.address < a.address) ∧ t.Fits ∧
      text = Hex.encode t.wire ∧ hash = Hex.encode (H.hash .sha256 t.wire) ∧ decodeAddress in_ = .ok t.from_ ∧ t.time = time.toNat ∧
      List.Forall₂ (fun o p => decodeAddress o.address = .ok p.1 ∧ p.2 = o.amount.toNat) sorted t.outs ∧
      t.total = (outs.map fun o => o.amount.toNat).sum % 2 ^ 64 := by
  obtain ⟨t, h1, h2, h3, h4, _, _, h7, h8, h9⟩ := (createEmpty_iff H S time in_ outs text hash hlen).mp h
  exact ⟨t, S.run outs, S.perm outs, S.sorted outs, h1, h2, h3, h4, h7, h9, h8⟩

/-- C52, decoding: a raw text is accepted exactly when it is the wire form of a transfer, and the result has exactly the fields of that
transfer, with the addresses in text form and the hash of the transaction as its id. -/
theorem C52_decode (H : Hashes) (mem : Nat) (text sig : Bytes) (tr : Transfer) : decodeRaw H mem text sig = .ok tr ↔
    ∃ t : Tx, t.Fits ∧ t.outs.length ≤ mem ∧ Hex.decode text = .ok t.wire ∧ sig.length = 128 ∧ (∃ s, Hex.decode sig = .ok s) ∧
      tr.txId = Hex.encode (H.hash .sha256 t.wire) ∧ IsAddress t.from_ tr.from_ ∧ tr.toCount.toNat = t.outs.length ∧
      tr.value.toNat = t.total ∧ tr.timestamp.toNat = t.time ∧
      List.Forall₂ (fun d o => IsAddress o.1 d.1 ∧ d.2.toNat = o.2) tr.details t.outs ∧ tr.sign = sig :=
  decodeRaw_iff H mem text sig tr

/-- C52 when the amounts add up to less than 2^64 and the addresses are in their usual form (Base58 of lower-case hex): the created text
decodes to exactly the requested transfer: sender, the payments in address order, the total that is the sum of their amounts, the time of
creation, and the id that was returned for signing. -/
theorem C52_roundtrip_partial (H : Hashes) (S : Sorter) (mem : Nat) (time : UInt64) (in_ : Bytes) (outs : List Vout) (text hash sig s : Bytes)
    (hmem : outs.length ≤ mem) (hlen : outs.length < 2 ^ 64) (h : createEmpty H S time in_ outs = .ok (text, hash))
    (hsum : (outs.map fun o => o.amount.toNat).sum < 2 ^ 64)
    (hin : ∃ b, IsAddress b in_) (hout : ∀ o ∈ outs, ∃ b, IsAddress b o.address) (hs : Hex.decode sig = .ok s) (hsl : s.length = 64) :
    ∃ tr, decodeRaw H mem text sig = .ok tr ∧ tr.txId = hash ∧ tr.from_ = in_ ∧ tr.timestamp = time ∧
      (tr.details.Perm (outs.map fun o => (o.address, o.amount))) ∧ (tr.details.Pairwise fun a b => ¬ b.1 < a.1) ∧
      tr.toCount.toNat = outs.length ∧ tr.value.toNat = (tr.details.map fun d => d.2.toNat).sum ∧
      tr.value.toNat = (outs.map fun o => o.amount.toNat).sum ∧ tr.sign = sig := by
  obtain ⟨t, h1, rfl, rfl, h4, _, _, h7, h8, h9⟩ := (createEmpty_iff H S time in_ outs text hash hlen).mp h
  have htot : t.total = sum outs := by rw [h8]; exact Nat.mod_eq_of_lt hsum
  have hl : t.outs.length = outs.length := by rw [← h9.length_eq, (S.perm outs).length_eq]
  have ad : ∀ {a b : Bytes}, (∃ b, IsAddress b a) → decodeAddress a = .ok b → IsAddress b a := by
    rintro a b ⟨b', hb'⟩ hd
    rw [decodeAddress_of hb'] at hd
    cases hd
    exact hb'
  have hdet : List.Forall₂ (fun d o => IsAddress o.1 d.1 ∧ d.2.toNat = o.2) ((S.run outs).map fun o => (o.address, o.amount)) t.outs := by
    refine List.forall₂_map_left_iff.mpr ?_
    have hall : ∀ o ∈ S.run outs, ∃ b, IsAddress b o.address := fun o ho => hout o ((S.perm outs).mem_iff.mp ho)
    revert hall h9
    generalize S.run outs = l
    generalize t.outs = m
    intro h9 hall
    induction h9 with
    | nil => exact .nil
    | cons hx _ ih =>
      obtain ⟨ha, hall⟩ := List.forall_mem_cons.mp hall
      exact .cons ⟨ad ha hx.1, hx.2.symm⟩ (ih hall)
  refine ⟨⟨_, in_, UInt64.ofNat outs.length, UInt64.ofNat t.total, time, (S.run outs).map fun o => (o.address, o.amount), sig⟩,
    (decodeRaw_iff ..).mpr ⟨t, h1, by omega, Hex.decode_encode _, ?_, ⟨s, hs⟩, rfl, ad hin h4, ?_, UInt64.toNat_ofNat_of_lt' h1.2.2.1, h7.symm,
      hdet, rfl⟩, rfl, rfl, rfl, (S.perm outs).map _, ?_, ?_, ?_, ?_, rfl⟩
  · rw [Hex.decode_length _ _ hs, hsl]
  · simp only [UInt64.toNat_ofNat_of_lt' hlen, hl]
  · simp only [List.pairwise_map]
    exact S.sorted outs
  · exact UInt64.toNat_ofNat_of_lt' hlen
  · show (UInt64.ofNat t.total).toNat = _
    rw [UInt64.toNat_ofNat_of_lt' h1.2.2.1, htot, List.map_map]
    exact ((S.perm outs).map fun o => o.amount.toNat).sum_eq.symm
  · show (UInt64.ofNat t.total).toNat = _
    rw [UInt64.toNat_ofNat_of_lt' h1.2.2.1, htot]
    rfl

/-- A sorter exists: insertion sort. -/
def insertionSorter : Sorter where
  run l := l.insertionSort fun a b => ¬ b.address < a.address
  perm l := List.perm_insertionSort _ l
  sorted l := by
    have : Std.Total (fun a b : Vout => ¬ b.address < a.address) := ⟨fun a b => by
      rcases List.le_total a.address b.address with h | h
      · exact Or.inl (List.not_lt.mpr h)
      · exact Or.inr (List.not_lt.mpr h)⟩
    have : IsTrans Vout (fun a b : Vout => ¬ b.address < a.address) := ⟨fun a b c h1 h2 =>
      List.not_lt.mpr (List.le_trans (List.not_lt.mp h1) (List.not_lt.mp h2))⟩
    exact List.pairwise_insertionSort _ l

example : (createEmpty toyHashes insertionSorter 1569831542 (asc "3YZ92rqUpjYzXDrkL41Fz89LUMYRysktyWkayNcqBnrfBXwW1mCN9QL")
    [⟨asc "3YZ92rqUpjYzXDrkL41Fz89LUMYRysktyWkayNcqBnrfBXwW1mCN9QL", 1000000000⟩,
     ⟨asc "3YZ92rqUpjYzXDrkL41Fz89LUMYRysktyWkayNcqBnrfBXwW1mCN9QL", 2000000000⟩]).isOk = true := by decide +kernel

example : IsAddress [0x33, 0xdd, 0xd5, 0x97, 0xb3, 0x06, 0xa6, 0x50, 0x2c, 0xfa, 0xcc, 0xdf, 0x54, 0x27, 0x4b, 0xbf, 0x11, 0xd4, 0x3f, 0x5a]
    (asc "3YZ92rqUpjYzXDrkL41Fz89LUMYRysktyWkayNcqBnrfBXwW1mCN9QL") :=
  (encodeAddress_iff _ _).mp (by decide +kernel)

/-- Where C52 fails (a): for every request whose amounts add up to 2^64 or more, the total in the transfer is the sum modulo 2^64, not the
sum. -/
theorem C52_total_violated (H : Hashes) (S : Sorter) (mem : Nat) (time : UInt64) (in_ : Bytes) (outs : List Vout) (text hash sig : Bytes)
    (tr : Transfer) (hlen : outs.length < 2 ^ 64) (h : createEmpty H S time in_ outs = .ok (text, hash))
    (hsum : 2 ^ 64 ≤ (outs.map fun o => o.amount.toNat).sum) (hd : decodeRaw H mem text sig = .ok tr) :
    tr.value.toNat = (outs.map fun o => o.amount.toNat).sum % 2 ^ 64 ∧ tr.value.toNat ≠ (outs.map fun o => o.amount.toNat).sum := by
  obtain ⟨t, ⟨f1, f2, f3, f4, f5⟩, rfl, rfl, _, _, _, _, h8, _⟩ := (createEmpty_iff H S time in_ outs text hash hlen).mp h
  obtain ⟨u, ⟨g1, g2, g3, g4, g5⟩, u2, u3, _, _, _, _, _, u9, _⟩ := (decodeRaw_iff ..).mp hd
  rw [Hex.decode_encode] at u3
  have hw : t.wire = u.wire := Res.ok.inj u3
  have ht : t.total = u.total := by
    unfold Tx.wire at hw
    simp only [List.append_assoc] at hw
    have hw := (List.append_inj hw (by rw [f1, g1])).2
    have hw := (List.append_inj hw (by simp)).2
    have hw := (List.append_inj hw (by simp)).1
    exact leBytes_inj (by simpa using f3) (by simpa using g3) hw
  refine ⟨by rw [u9, ← ht, h8]; rfl, ?_⟩
  have := tr.value.toNat_lt
  omega

/-- Two outputs of 2^63 are accepted. -/
example : (createEmpty toyHashes insertionSorter 0 (asc "3YZ92rqUpjYzXDrkL41Fz89LUMYRysktyWkayNcqBnrfBXwW1mCN9QL")
    [⟨asc "3YZ92rqUpjYzXDrkL41Fz89LUMYRysktyWkayNcqBnrfBXwW1mCN9QL", 0x8000000000000000⟩,
     ⟨asc "3YZ92rqUpjYzXDrkL41Fz89LUMYRysktyWkayNcqBnrfBXwW1mCN9QL", 0x8000000000000000⟩]).isOk = true := by decide +kernel

/-- Where C52 fails (b): an address made from a hex text with capital letters is accepted but replaced by another text. -/
theorem C52_address_violated (H : Hashes) (S : Sorter) (mem : Nat) (time : UInt64) (in_ x b : Bytes) (outs : List Vout) (text hash sig : Bytes)
    (tr : Transfer) (hlen : outs.length < 2 ^ 64) (h : createEmpty H S time in_ outs = .ok (text, hash))
    (hx : Base58.decode Btc.alphabet in_ = .ok x) (hb : Hex.decode x = .ok b) (hne : x ≠ Hex.encode b)
    (hd : decodeRaw H mem text sig = .ok tr) : tr.from_ ≠ in_ := by
  obtain ⟨t, h1, rfl, rfl, h4, _⟩ := (createEmpty_iff H S time in_ outs text hash hlen).mp h
  obtain ⟨u, u1, u2, u3, _, _, _, u7, _⟩ := (decodeRaw_iff ..).mp hd
  rw [Hex.decode_encode] at u3
  have hw : t.wire = u.wire := Res.ok.inj u3
  have hf : t.from_ = u.from_ := by
    unfold Tx.wire at hw
    simp only [List.append_assoc] at hw
    exact (List.append_inj hw (by rw [h1.1, u1.1])).1
  intro e
  rw [e, ← hf] at u7
  obtain ⟨_, y, hy, hyb⟩ := (decodeAddress_iff _ _).mp h4
  have e1 := (decode58_iff _ _).mpr u7.2
  rw [show Btc.alphabet = Spec.Filenet.alphabet from rfl] at hx
  rw [show Btc.alphabet = Spec.Filenet.alphabet from rfl, hx] at e1
  have hxe : x = Hex.encode t.from_ := Res.ok.inj e1
  rw [hxe, Hex.decode_encode] at hb
  exact hne (hxe.trans (by rw [Res.ok.inj hb]))

/-- The capital-letter form of the address above is accepted. -/
example : ∃ a, Base58.encode Btc.alphabet (asc "33DDD597B306A6502CFACCDF54274BBF11D43F5A") = .ok a ∧ (decodeAddress a).isOk = true :=
  ⟨asc "3YZ4HEDGckipwwwED6qk3Rgb6z5BZ6NAcF9EXNxXGunu3UaRNK2wwCk", by decide +kernel, by decide +kernel⟩

/-- Where decoding fails: a raw text that announces more payments than memory can hold kills the program instead of being refused. -/
theorem C52_alloc_violated (H : Hashes) (mem : Nat) (f c v t rest sig : Bytes) (hf : f.length = 20) (hc : c.length = 8) (hv : v.length = 8)
    (ht : t.length = 8) (hm : mem < leNat c) : decodeRaw H mem (Hex.encode (f ++ (c ++ (v ++ (t ++ rest))))) sig = .panic := by
  unfold decodeRaw
  obtain ⟨a, ha, _⟩ := exists_address hf
  rw [Hex.decode_encode, Res.bind_ok, if_neg (by simp [hf]), Btc.takeN_append _ _ hf, Res.bind_ok]
  simp only
  rw [ha, Res.bind_ok, Btc.takeN_append _ _ hc, Res.bind_ok]
  simp only
  rw [Btc.takeN_append _ _ hv, Res.bind_ok]
  simp only
  rw [Btc.takeN_append _ _ ht, Res.bind_ok]
  simp only
  rw [if_pos hm]

example : 2 ^ 45 < leNat [0, 0, 0, 0, 0, 0, 0, 1] := by decide

/-- C52, combining: a transfer is returned exactly when the raw text decodes to it and the signature is valid, under the given key, for the
SHA-256 hash of that raw transaction (which is the id of the transfer). -/
theorem C52_combine (H : Hashes) (E : Btc.Curve) (mem : Nat) (text sig pub : Bytes) (tr : Transfer) :
    verifyAndCombine H E mem text sig pub = .ok (some tr) ↔
      decodeRaw H mem text sig = .ok tr ∧ ∃ raw s p p0 pb, Hex.decode text = .ok raw ∧ Hex.decode sig = .ok s ∧ Hex.decode pub = .ok p ∧
        E.decompress p = p0 :: pb ∧ E.verify pb (H.hash .sha256 raw) s = true := by
  unfold verifyAndCombine
  constructor
  · intro h
    split at h
    · cases h
    · cases h
    · rename_i tx htx
      obtain ⟨t, h1, h2, h3, h4, h5, h6, h7⟩ := (decodeRaw_iff ..).mp htx
      split at h
      · rename_i hash s p e1 e2 e3
        obtain ⟨pb, hpb, h⟩ := Res.bind_eq_ok.mp h
        split at h
        · rename_i hv
          cases h
          rw [h6, Hex.decode_encode] at e1
          cases e1
          match hd : E.decompress p with
          | [] => rw [hd] at hpb; cases hpb
          | p0 :: r =>
            rw [hd, slice_ok (by simp) (le_refl _)] at hpb
            simp only [List.take_length, List.drop_succ_cons, List.drop_zero] at hpb
            cases hpb
            exact ⟨htx, _, s, p, p0, _, h3, e2, e3, hd, hv⟩
        · cases h
      · cases h
  · rintro ⟨htx, raw, s, p, p0, pb, h1, h2, h3, h4, h5⟩
    obtain ⟨t, _, _, e3, _, _, e6, _⟩ := (decodeRaw_iff ..).mp htx
    rw [h1] at e3
    cases e3
    rw [htx]
    simp only
    rw [e6, Hex.decode_encode, h2, h3]
    simp only [h4]
    rw [slice_ok (by simp) (le_refl _), Res.bind_ok]
    simp only [List.take_length, List.drop_succ_cons, List.drop_zero, h5, if_true]

end Verif
