import Verif.Model.AddressEncoder
import Verif.Props.Base58
import Verif.Spec.Address
import Verif.Lemmas.Hex

namespace Verif.Addr
open Verif Verif.Spec

variable (H : Hashes)

theorem calcChecksum_iff (d rule c : Bytes) :
    calcChecksum H d rule = some c ↔ IsChecksum H rule d c := by
  unfold IsChecksum checksumRules
  constructor
  · intro h
    unfold calcChecksum at h
    split_ifs at h with h1 h2 h3 h4 h5 h6 <;> cases h
    · exact ⟨_, by rw [h1]; simp, rfl⟩
    · exact ⟨_, by rw [h2]; simp, rfl⟩
    · exact ⟨_, by rw [h3]; simp, rfl⟩
    · exact ⟨_, by rw [h4]; simp, rfl⟩
    · exact ⟨fun d => H.hash .keccak256 (H.hash (.blake2b 32) d), by rw [h5]; simp, rfl⟩
    · exact ⟨_, by rw [h6]; simp, rfl⟩
  · rintro ⟨g, hg, rfl⟩
    simp only [List.mem_cons, Prod.mk.injEq, List.not_mem_nil, or_false] at hg
    rcases hg with ⟨h1, h2⟩ | ⟨h1, h2⟩ | ⟨h1, h2⟩ | ⟨h1, h2⟩ | ⟨h1, h2⟩ | ⟨h1, h2⟩ <;>
      subst h1 <;> subst h2 <;> rfl

theorem calcChecksum_length {d rule c : Bytes} (h : calcChecksum H d rule = some c) : c.length = 4 := by
  unfold calcChecksum at h
  split_ifs at h <;> cases h <;> simp [H.size, Alg.size]

theorem calcChecksum_known {rule : Bytes} (hk : KnownRule rule) (d : Bytes) : ∃ c, calcChecksum H d rule = some c := by
  unfold KnownRule at hk
  simp only [List.mem_cons, List.not_mem_nil, or_false] at hk
  rcases hk with rfl | rfl | rfl | rfl | rfl | rfl <;> exact ⟨_, rfl⟩

theorem verifyChecksum_append {b c rule : Bytes} (h : calcChecksum H b rule = some c) :
    verifyChecksum H (b ++ c) rule = .ok true := by
  have hl := calcChecksum_length H h
  unfold verifyChecksum
  have e : (b ++ c).length - 4 = b.length := by simp [hl]
  rw [if_neg (by simp [hl]), e]
  simp [h]

theorem verifyChecksum_true {d rule : Bytes} (h : verifyChecksum H d rule = .ok true) :
    4 ≤ d.length ∧ calcChecksum H (d.take (d.length - 4)) rule = some (d.drop (d.length - 4)) := by
  unfold verifyChecksum at h
  split_ifs at h with h1
  · cases h
  · refine ⟨by omega, ?_⟩
    split at h
    · cases h
    · rename_i c hc
      rw [hc]; congr 1
      simpa using h

theorem verifyChecksum_ne_err {d rule : Bytes} (hk : KnownRule rule) : ∃ b, verifyChecksum H d rule = .ok b := by
  unfold verifyChecksum
  split_ifs
  · exact ⟨_, rfl⟩
  · obtain ⟨c, hc⟩ := calcChecksum_known H hk (d.take (d.length - 4))
    rw [hc]; exact ⟨_, rfl⟩

/-- Exactly the Base58 texts of `body ++ checksum` are accepted by the common Base58Check step. -/
theorem base58CheckBody_iff {alph rule : Bytes} (hal : IsAlphabet alph) (t b : Bytes) :
    base58CheckBody H t alph rule = .ok b ↔
      ∃ c, calcChecksum H b rule = some c ∧ Base58.encode alph (b ++ c) = .ok t := by
  constructor
  · intro h
    unfold base58CheckBody at h
    rw [Res.bind_eq_ok] at h
    obtain ⟨ret, hret, h⟩ := h
    rw [Res.bind_eq_ok] at h
    obtain ⟨g, hg, h⟩ := h
    cases g with
    | false => simp at h
    | true =>
      simp only [if_true, Res.ok.injEq] at h
      obtain ⟨h1, h2⟩ := verifyChecksum_true H hg
      refine ⟨ret.drop (ret.length - 4), ?_, ?_⟩
      · rw [← h]; exact h2
      · rw [← h, List.take_append_drop]
        exact C02_base58_canonical alph hal t ret hret
  · rintro ⟨c, hc, he⟩
    obtain ⟨t', h1, _, h2⟩ := C01_base58_roundtrip alph hal (b ++ c)
    rw [he] at h1; cases h1
    have hl := calcChecksum_length H hc
    unfold base58CheckBody
    rw [h2]
    simp only [Res.bind_ok, verifyChecksum_append H hc, if_true]
    simp [hl]

theorem base58CheckBody_ne_panic {alph rule : Bytes} (hal : IsAlphabet alph) (hk : KnownRule rule) (t : Bytes) :
    base58CheckBody H t alph rule ≠ .panic := by
  unfold base58CheckBody
  by_cases ht : ∀ c ∈ t, c ∈ alph
  · obtain ⟨b, hb⟩ := (C02_base58_decode_total alph hal t).1 ht
    obtain ⟨g, hg⟩ := verifyChecksum_ne_err H (d := b) hk
    rw [hb]
    simp only [Res.bind_ok, hg]
    cases g <;> simp
  · rw [(C02_base58_decode_total alph hal t).2 (by
      simp only [not_forall] at ht
      obtain ⟨c, hc, hn⟩ := ht
      exact ⟨c, hc, hn⟩)]
    simp

theorem matchAt_append (pat : Bytes) : ∀ (a rest : Bytes), matchAt (a ++ pat ++ rest) a.length pat = .ok () := by
  induction pat with
  | nil => intro a rest; rfl
  | cons p ps ih =>
    intro a rest
    have := ih (a ++ [p]) rest
    simp only [List.append_assoc, List.length_append, List.length_singleton, List.cons_append, List.nil_append] at this
    unfold matchAt
    simp [index, this]

theorem matchAt_ok : ∀ (pat data : Bytes) (off : Nat), matchAt data off pat = .ok () →
    (data.drop off).take pat.length = pat
  | [], _, _, _ => by simp
  | p :: ps, data, off, h => by
    unfold matchAt at h
    unfold index at h
    cases hd : data[off]? with
    | none => simp [hd] at h
    | some b =>
      simp only [hd] at h
      split_ifs at h with hb
      simp only [ne_eq, not_not] at hb
      subst hb
      have := matchAt_ok ps data (off + 1) h
      have hlt : off < data.length := by
        rcases Nat.lt_or_ge off data.length with h | h
        · exact h
        · rw [List.getElem?_eq_none h] at hd; cases hd
      rw [List.drop_eq_getElem_cons hlt, List.length_cons, List.take_succ_cons, this]
      congr 1
      rw [List.getElem?_eq_getElem hlt] at hd
      exact Option.some.inj hd

theorem matchAt_ne_panic : ∀ (pat data : Bytes) (off : Nat), off + pat.length ≤ data.length →
    matchAt data off pat ≠ .panic
  | [], _, _, _ => by simp [matchAt]
  | p :: ps, data, off, h => by
    unfold matchAt index
    simp only [List.length_cons] at h
    rw [List.getElem?_eq_getElem (by omega)]
    simp only
    split_ifs
    · simp
    · exact matchAt_ne_panic ps data (off + 1) (by omega)

theorem recoverData_iff (d p : Bytes) (pre suf : Option Bytes) :
    recoverData d pre suf = .ok p ↔ d = pre.getD [] ++ p ++ suf.getD [] := by
  constructor
  · intro h
    unfold recoverData at h
    simp only at h
    rw [Res.bind_eq_ok] at h
    obtain ⟨_, h1, h⟩ := h
    have hp := matchAt_ok _ _ _ h1
    simp only [List.drop_zero] at hp
    have hdp : d = pre.getD [] ++ d.drop (pre.getD []).length := by
      conv_lhs => rw [← List.take_append_drop (pre.getD []).length d, hp]
    cases suf with
    | none =>
      simp only [Option.getD_none, List.append_nil]
      unfold slice at h
      split_ifs at h with hc
      simp only [Res.ok.injEq, List.take_length] at h
      rw [← h]; exact hdp
    | some s =>
      simp only [Option.getD_some]
      simp only at h
      split_ifs at h with hs
      rw [Res.bind_eq_ok] at h
      obtain ⟨_, h2, h⟩ := h
      have hsuf := matchAt_ok _ _ _ h2
      rw [List.take_of_length_le (by simp; omega)] at hsuf
      unfold slice at h
      split_ifs at h with hc
      simp only [Res.ok.injEq] at h
      have e1 : d = d.take (d.length - s.length) ++ s := by
        conv_lhs => rw [← List.take_append_drop (d.length - s.length) d, hsuf]
      have e2 : d.take (d.length - s.length) = pre.getD [] ++ p := by
        conv_lhs => rw [← List.take_append_drop (pre.getD []).length (d.take (d.length - s.length)), h]
        congr 1
        rw [List.take_take, Nat.min_eq_left hc.1, hp]
      rw [← e2]; exact e1
  · rintro rfl
    unfold recoverData
    have h1 := matchAt_append (pre.getD []) [] (p ++ suf.getD [])
    simp only [List.nil_append, List.length_nil] at h1
    simp only
    rw [List.append_assoc, h1]
    simp only [Res.bind_ok]
    cases suf with
    | none =>
      simp only [Option.getD_none, List.append_nil]
      exact slice_suffix _ _ rfl (by simp)
    | some s =>
      simp only [Option.getD_some]
      rw [if_neg (by simp; omega)]
      have e : (pre.getD [] ++ (p ++ s)).length - s.length = (pre.getD [] ++ p).length := by simp; omega
      have h2 := matchAt_append s (pre.getD [] ++ p) []
      simp only [List.append_nil, List.append_assoc] at h2
      rw [e, h2]
      simp only [Res.bind_ok]
      exact slice_mid _ _ _ rfl (by simp)

theorem recoverData_ne_panic (d : Bytes) (pre suf : Option Bytes)
    (h : (pre.getD []).length + (suf.getD []).length ≤ d.length) : recoverData d pre suf ≠ .panic := by
  unfold recoverData
  simp only
  have h1 := matchAt_ne_panic (pre.getD []) d 0 (by omega)
  cases hm : matchAt d 0 (pre.getD []) with
  | panic => exact absurd hm h1
  | err => simp
  | ok u =>
    simp only [Res.bind_ok]
    cases suf with
    | none => simp only [slice]; rw [if_pos (by constructor <;> omega)]; simp
    | some s =>
      simp only [Option.getD_some] at h
      simp only
      rw [if_neg (by omega)]
      have h2 := matchAt_ne_panic s d (d.length - s.length) (by omega)
      cases hm2 : matchAt d (d.length - s.length) s with
      | panic => exact absurd hm2 h2
      | err => simp
      | ok u =>
        simp only [Res.bind_ok, slice]
        rw [if_pos (by constructor <;> omega)]; simp

/-- Exactly the canonical texts are accepted under a base58 profile. -/
theorem decode_base58_iff {a : AddressType} (hE : a.encodeType = asc "base58") (hA : IsAlphabet a.alphabet)
    (t p : Bytes) :
    addressDecode H t a = .ok p ↔ p.length = a.hashLen ∧
      ∃ c, calcChecksum H (a.pre.getD [] ++ p ++ a.suf.getD []) a.checksumType = some c ∧
        Base58.encode a.alphabet (a.pre.getD [] ++ p ++ a.suf.getD [] ++ c) = .ok t := by
  have hunf : addressDecode H t a = (do
      let data ← decodeData H t a.encodeType a.alphabet a.checksumType a.pre a.suf
      if data.length ≠ a.hashLen then .err else .ok data) := by
    unfold addressDecode
    rw [hE]
    rfl
  rw [hunf, Res.bind_eq_ok]
  unfold decodeData
  rw [if_pos hE]
  constructor
  · rintro ⟨d, hd, h⟩
    split_ifs at h with hl
    simp only [ne_eq, not_not] at hl
    cases h
    rw [Res.bind_eq_ok] at hd
    obtain ⟨b, hb, hr⟩ := hd
    rw [recoverData_iff] at hr
    subst hr
    exact ⟨hl, (base58CheckBody_iff H hA t _).mp hb⟩
  · rintro ⟨hl, hc⟩
    refine ⟨p, ?_, by simp [hl]⟩
    rw [(base58CheckBody_iff H hA t _).mpr hc]
    simp only [Res.bind_ok]
    rw [recoverData_iff]

theorem encode_base58 {a : AddressType} (hE : a.encodeType = asc "base58") (p : Bytes) (hl : p.length = a.hashLen)
    {c : Bytes} (hc : calcChecksum H (a.pre.getD [] ++ p ++ a.suf.getD []) a.checksumType = some c) :
    addressEncode H p a = Base58.encode a.alphabet (a.pre.getD [] ++ p ++ a.suf.getD [] ++ c) := by
  have hcat : catData (catData (a.pre.getD []) (some p)) a.suf = a.pre.getD [] ++ p ++ a.suf.getD [] := by
    cases a.suf <;> simp [catData]
  have hunf : addressEncode H p a = encodeData (catData (catData (catData (a.pre.getD []) (some p)) a.suf)
      (calcChecksum H (catData (catData (a.pre.getD []) (some p)) a.suf) a.checksumType)) a.encodeType a.alphabet := by
    have hif : (if p.length ≠ a.hashLen then calcHash H p a.hashType else p) = p := by simp [hl]
    unfold addressEncode
    rw [hif, hE]
    rfl
  rw [hunf, hcat, hc, encodeData, if_pos hE]
  rfl

/-! ### EOS and Aeternity -/

theorem encodePrefixed_eq {a : AddressType} (p c : Bytes) (hc : calcChecksum H p a.checksumType = some c) :
    encodePrefixed H p a = (do
      let t ← Base58.encode a.alphabet (p ++ c)
      .ok (a.pre.getD [] ++ t)) := by
  unfold encodePrefixed
  rw [hc]; rfl

/-! ### Monero blocks -/

open Verif.Base58 in
/-- One Monero block: `n` bytes padded to `m` symbols decode to at least `n` bytes ending in the block. -/
theorem xmr_block {alph : Bytes} (hal : IsAlphabet alph) (h0 : alph[0]? = some 0x31) (n m : Nat) (hnm : n ≤ m)
    (hpow : ∀ k ≤ n, 256 ^ k ≤ 58 ^ (k + (m - n))) (b : Bytes) (hb : b.length = n) :
    ∃ t r, Base58.encode alph b = .ok t ∧ (padOnes m t).length = m ∧ Base58.decode alph (padOnes m t) = .ok r ∧
      n ≤ r.length ∧ r.drop (r.length - n) = b := by
  obtain ⟨t, ht, hm, hdec⟩ := C01_base58_roundtrip alph hal b
  rw [encode_eq alph hal.length] at ht
  obtain ⟨hidx, hmem⟩ := idxOf_symbols alph hal _ _ ht
  set v := beNat b with hv
  set z := leadingZeros b with hz
  have hbd : b.map UInt8.toNat = List.replicate z 0 ++ (Nat.digits 256 v).reverse := by
    have h1 := lz_split (b.map UInt8.toNat)
    rw [lz_toNat, ← hz] at h1
    have h2 := horner_toNat b
    rw [h1, horner_replicate] at h2
    rw [h1, hv, ← h2]
    congr 1
    rw [digits_horner (by omega) _ (dropWhile_head _)]
    intro d hd
    have : d ∈ b.map UInt8.toNat := (List.dropWhile_sublist _).mem hd
    obtain ⟨c, _, rfl⟩ := List.mem_map.mp this
    exact c.toNat_lt
  have hlen : z + nd 256 v = n := by
    have := congrArg List.length hbd
    simp only [List.length_map, List.length_append, List.length_replicate, List.length_reverse] at this
    rw [hb] at this; exact this.symm
  have hnd : nd 58 v ≤ nd 256 v + (m - n) := by
    have h1 : v < 256 ^ nd 256 v := Nat.lt_base_pow_length_digits (by omega)
    exact (Nat.digits_length_le_iff (by omega) v).mpr (Nat.lt_of_lt_of_le h1 (hpow _ (by omega)))
  have hdig : base58Digits b = List.replicate z 0 ++ (Nat.digits 58 v).reverse := rfl
  have htl : t.length = z + nd 58 v := by
    have := congrArg List.length hidx
    rw [hdig] at this
    simpa [nd] using this
  have h1mem : (0x31 : UInt8) ∈ alph := List.mem_of_getElem? h0
  have h1idx : alph.idxOf (0x31 : UInt8) = 0 := by
    have hlt : 0 < alph.length := by rw [hal.length]; omega
    rw [List.getElem?_eq_getElem hlt] at h0
    rw [← Option.some.inj h0]
    exact hal.nodup.idxOf_getElem 0 hlt
  have hpm : ∀ c ∈ padOnes m t, c ∈ alph := by
    intro c hc
    rcases List.mem_append.mp hc with h | h
    · rw [List.eq_of_mem_replicate h]; exact h1mem
    · exact hmem c h
  have hpidx : (padOnes m t).map (alph.idxOf ·) = List.replicate (m - nd 58 v) 0 ++ (Nat.digits 58 v).reverse := by
    unfold padOnes
    rw [List.map_append, hidx, hdig, List.map_replicate, h1idx, ← List.append_assoc, List.replicate_append_replicate]
    congr 2; omega
  have hconv : conv 58 256 (List.replicate (m - nd 58 v) 0 ++ (Nat.digits 58 v).reverse) =
      List.replicate (m - nd 58 v) 0 ++ (Nat.digits 256 v).reverse := by
    unfold conv
    rw [lz_replicate_append _ _ (digits_reverse_head _ _), horner_replicate, horner_digits]
  refine ⟨t, _, by rw [encode_eq alph hal.length]; exact ht, ?_, decode_eq alph hal _ hpm, ?_, ?_⟩
  · unfold padOnes; simp only [List.length_append, List.length_replicate]; omega
  · rw [hpidx, hconv]
    simp only [List.length_map, List.length_append, List.length_replicate, List.length_reverse]
    show n ≤ m - nd 58 v + nd 256 v
    omega
  · rw [hpidx, hconv, ← List.map_drop]
    have e : (List.replicate (m - nd 58 v) 0 ++ (Nat.digits 256 v).reverse).drop
        ((List.map UInt8.ofNat (List.replicate (m - nd 58 v) 0 ++ (Nat.digits 256 v).reverse)).length - n)
        = b.map UInt8.toNat := by
      rw [hbd]
      simp only [List.length_map, List.length_append, List.length_replicate, List.length_reverse]
      have e1 : m - nd 58 v + (Nat.digits 256 v).length - n ≤ m - nd 58 v := by
        show m - nd 58 v + nd 256 v - n ≤ _; omega
      rw [List.drop_append_of_le_length (by simpa using e1), List.drop_replicate]
      congr 2
      show m - nd 58 v - (m - nd 58 v + nd 256 v - n) = z
      omega
    rw [e, map_toNat_ofNat]

theorem xmr_blocks {alph : Bytes} (hal : IsAlphabet alph) (h0 : alph[0]? = some 0x31) : ∀ (k : Nat) (d : Bytes),
    d.length = 8 * k + 5 → ∃ t, xmrEncodeBlocks alph k d = .ok t ∧ t.length = 11 * k + 7 ∧
      xmrDecodeBlocks alph k t = .ok d
  | 0, d, hd => by
    obtain ⟨t, r, h1, h2, h3, h4, h5⟩ := xmr_block hal h0 5 7 (by omega) (by decide) d (by omega)
    refine ⟨padOnes 7 t, by simp [xmrEncodeBlocks, h1], by omega, ?_⟩
    simp only [xmrDecodeBlocks, h3, Res.bind_ok]
    rw [if_neg (by omega), h5]
  | k + 1, d, hd => by
    obtain ⟨t, r, h1, h2, h3, h4, h5⟩ := xmr_block hal h0 8 11 (by omega) (by decide) (d.take 8) (by simp; omega)
    obtain ⟨t', g1, g2, g3⟩ := xmr_blocks hal h0 k (d.drop 8) (by simp; omega)
    refine ⟨padOnes 11 t ++ t', by simp [xmrEncodeBlocks, h1, g1], by simp [h2, g2]; omega, ?_⟩
    have e1 : (padOnes 11 t ++ t').take 11 = padOnes 11 t := List.take_left' h2
    have e2 : (padOnes 11 t ++ t').drop 11 = t' := List.drop_left' h2
    simp only [xmrDecodeBlocks, e1, e2, h3, g3, Res.bind_ok]
    rw [if_neg (by omega), h5, List.take_append_drop]

end Verif.Addr
