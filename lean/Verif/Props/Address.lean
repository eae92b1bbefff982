import Verif.Lemmas.Bech32Err
import Verif.Lemmas.Bech32RT
import Verif.Lemmas.AddressPanic
import Verif.Lemmas.AddressEncoder
import Verif.Spec.Address
import Verif.Model.AddressCheck

/-! C03-C06, C13: `AddressEncode`, `AddressDecode`, `AddressCheck` at the level of address profiles. -/

namespace Verif
open Verif.Spec Verif.Addr

/-! ## The profile table -/

/-- Facts read off the table: base58 profiles have a Base58 alphabet, a known checksum rule and short
prefix and suffix. -/
theorem Addr.profiles_base58 : ∀ a ∈ profiles, a.encodeType = asc "base58" →
    a.alphabet.length = 58 ∧ a.alphabet.Nodup ∧ KnownRule a.checksumType ∧
    (a.pre.getD []).length + (a.suf.getD []).length ≤ 5 := by
  decide +kernel

/-- The remaining Base58Check-like formats of the table. -/
theorem Addr.profiles_other : ∀ a ∈ profiles,
    (a.encodeType = asc "eos" → a = EOS_mainnetPublic) ∧
    (a.encodeType = asc "aeternity" → a = AE_mainnetAddress) ∧
    (a.encodeType = asc "XMR" → a.alphabet = base58Btc ∧ a.checksumType = asc "keccak256" ∧
      (a.pre.getD []).length = 1 ∧ a.suf = none ∧
      ((a.hashType = [] ∧ a.hashLen = 64) ∨ (a.hashType = asc "payID" ∧ a.hashLen = 72))) ∧
    (a.encodeType = asc "bech32" → a.alphabet = Bech32.stdAlphabet ∧ (a.pre = none ∨ a.pre = some [0]) ∧
      a.checksumType ≠ [] ∧ (∀ c ∈ a.checksumType, 0x61 ≤ c ∧ c ≤ 0x7a)) := by
  decide +kernel

theorem Addr.btcAlphabet : IsAlphabet base58Btc := ⟨by decide +kernel, by decide +kernel⟩

/-- `Base58Encode` returns the text the specification names, and no other. -/
theorem Addr.encode_iff {alph : Bytes} (hal : IsAlphabet alph) (b t : Bytes) :
    Base58.encode alph b = .ok t ↔ IsBase58 alph b t := by
  obtain ⟨t', h1, h2, _⟩ := C01_base58_roundtrip alph hal b
  constructor
  · intro h
    rw [h1] at h; cases h; exact h2
  · intro h
    have : t.map some = t'.map some := by rw [h, h2]
    rw [h1, (List.map_injective_iff.mpr (Option.some_injective _)) this]

/-! ## C03 -/

/-- C03, base58 profiles: for every profile of the table and every payload of its length, `AddressEncode` gives the
Base58 text of version ++ payload ++ suffix ++ checksum, and `AddressDecode` gives the payload back. -/
theorem C03_base58check_roundtrip (H : Hashes) (a : AddressType) (ha : a ∈ profiles)
    (hE : a.encodeType = asc "base58") (p : Bytes) (hp : p.length = a.hashLen) :
    ∃ t c, IsChecksum H a.checksumType (a.pre.getD [] ++ p ++ a.suf.getD []) c ∧
      IsBase58 a.alphabet (a.pre.getD [] ++ p ++ a.suf.getD [] ++ c) t ∧
      addressEncode H p a = .ok t ∧ addressDecode H t a = .ok p := by
  obtain ⟨h1, h2, h3, _⟩ := profiles_base58 a ha hE
  have hal : IsAlphabet a.alphabet := ⟨h1, h2⟩
  obtain ⟨c, hc⟩ := calcChecksum_known H h3 (a.pre.getD [] ++ p ++ a.suf.getD [])
  obtain ⟨t, e1, e2, _⟩ := C01_base58_roundtrip a.alphabet hal (a.pre.getD [] ++ p ++ a.suf.getD [] ++ c)
  refine ⟨t, c, (calcChecksum_iff H _ _ _).mp hc, e2, ?_, ?_⟩
  · rw [encode_base58 H hE p hp hc, e1]
  · exact (decode_base58_iff H hE hal t p).mpr ⟨hp, c, hc, e1⟩

/-- C03, user-defined profiles: the same for any profile with a 58-symbol alphabet and a known checksum rule. -/
theorem C03_base58check_roundtrip_custom (H : Hashes) (a : AddressType) (hE : a.encodeType = asc "base58")
    (hal : IsAlphabet a.alphabet) (hk : KnownRule a.checksumType) (p : Bytes) (hp : p.length = a.hashLen) :
    ∃ t, addressEncode H p a = .ok t ∧ addressDecode H t a = .ok p := by
  obtain ⟨c, hc⟩ := calcChecksum_known H hk (a.pre.getD [] ++ p ++ a.suf.getD [])
  obtain ⟨t, e1, e2, _⟩ := C01_base58_roundtrip a.alphabet hal (a.pre.getD [] ++ p ++ a.suf.getD [] ++ c)
  refine ⟨t, ?_, ?_⟩
  · rw [encode_base58 H hE p hp hc, e1]
  · exact (decode_base58_iff H hE hal t p).mpr ⟨hp, c, hc, e1⟩

/-- C03, EOS public keys and aeternity accounts: the text is the human-readable prefix followed by the Base58 text of
payload ++ checksum, and it decodes to the payload. -/
theorem C03_prefixed_roundtrip (H : Hashes) (a : AddressType) (ha : a ∈ profiles)
    (hE : a.encodeType = asc "eos" ∨ a.encodeType = asc "aeternity") (p : Bytes) (hp : p.length = a.hashLen) :
    ∃ t c, IsChecksum H a.checksumType p c ∧ IsBase58 a.alphabet (p ++ c) t ∧
      addressEncode H p a = .ok (a.pre.getD [] ++ t) ∧ addressDecode H (a.pre.getD [] ++ t) a = .ok p := by
  have hcases : a = EOS_mainnetPublic ∨ a = AE_mainnetAddress := by
    rcases hE with h | h
    · exact Or.inl ((profiles_other a ha).1 h)
    · exact Or.inr ((profiles_other a ha).2.1 h)
  have hal : IsAlphabet a.alphabet := by rcases hcases with rfl | rfl <;> exact btcAlphabet
  have hk : KnownRule a.checksumType := by rcases hcases with rfl | rfl <;> decide +kernel
  obtain ⟨c, hc⟩ := calcChecksum_known H hk p
  obtain ⟨t, e1, e2, _⟩ := C01_base58_roundtrip a.alphabet hal (p ++ c)
  refine ⟨t, c, (calcChecksum_iff H _ _ _).mp hc, e2, ?_, ?_⟩
  · have : addressEncode H p a = encodePrefixed H p a := by
      have hif : (if p.length ≠ a.hashLen then calcHash H p a.hashType else p) = p := by simp [hp]
      rcases hcases with rfl | rfl
      · have : addressEncode H p EOS_mainnetPublic = encodePrefixed H
          (if p.length ≠ EOS_mainnetPublic.hashLen then calcHash H p EOS_mainnetPublic.hashType else p)
          EOS_mainnetPublic := rfl
        rw [this, hif]
      · have : addressEncode H p AE_mainnetAddress = encodePrefixed H
          (if p.length ≠ AE_mainnetAddress.hashLen then calcHash H p AE_mainnetAddress.hashType else p)
          AE_mainnetAddress := rfl
        rw [this, hif]
    rw [this, encodePrefixed_eq H p c hc, e1]; rfl
  · have hb := (base58CheckBody_iff H (rule := a.checksumType) hal t p).mpr ⟨c, hc, e1⟩
    rcases hcases with rfl | rfl
    · have : addressDecode H (asc "EOS" ++ t) EOS_mainnetPublic =
        base58CheckBody H t EOS_mainnetPublic.alphabet EOS_mainnetPublic.checksumType := by
        have h1 : ¬ (asc "PUB_R1_" <+: asc "EOS" ++ t) := by
          rintro ⟨s, hs⟩; simp [asc] at hs
        have h2 : ¬ (asc "PUB_K1_" <+: asc "EOS" ++ t) := by
          rintro ⟨s, hs⟩; simp [asc] at hs
        have : addressDecode H (asc "EOS" ++ t) EOS_mainnetPublic = decodeEOS H (asc "EOS" ++ t) EOS_mainnetPublic := rfl
        rw [this, decodeEOS, if_neg h1, if_neg h2, if_pos ⟨t, rfl⟩]
        rfl
      exact this.trans hb
    · have : addressDecode H (asc "ak_" ++ t) AE_mainnetAddress =
        base58CheckBody H t AE_mainnetAddress.alphabet AE_mainnetAddress.checksumType := by
        have : addressDecode H (asc "ak_" ++ t) AE_mainnetAddress = decodeAE H (asc "ak_" ++ t) AE_mainnetAddress := rfl
        rw [this, decodeAE, if_pos ⟨t, rfl⟩]
        rfl
      exact this.trans hb

/-- C03, Monero: standard, sub- and integrated addresses of both networks have 95 or 106 characters and round-trip. -/
theorem C03_monero_roundtrip (H : Hashes) (a : AddressType) (ha : a ∈ profiles)
    (hE : a.encodeType = asc "XMR") (p : Bytes) (hp : p.length = a.hashLen) :
    ∃ t, addressEncode H p a = .ok t ∧ t.length = (if a.hashLen = 64 then 95 else 106) ∧
      addressDecode H t a = .ok p := by
  obtain ⟨h1, h2, h3, h4, h5⟩ := (profiles_other a ha).2.2.1 hE
  have hal : IsAlphabet a.alphabet := by rw [h1]; exact btcAlphabet
  have h0 : a.alphabet[0]? = some 0x31 := by rw [h1]; decide +kernel
  obtain ⟨c, hc⟩ := calcChecksum_known H (rule := a.checksumType) (by rw [h2]; decide +kernel) (a.pre.getD [] ++ p)
  have hck : c = (H.hash .keccak256 (a.pre.getD [] ++ p)).take 4 := by
    rw [h2] at hc
    exact (Option.some.inj hc).symm
  have hcl := calcChecksum_length H hc
  set full := a.pre.getD [] ++ p ++ c with hfull
  have hfl : full.length = 1 + p.length + 4 := by simp [hfull, h3, hcl]; omega
  have hk : full.length = 8 * (full.length / 8) + 5 := by
    rcases h5 with ⟨_, h⟩ | ⟨_, h⟩ <;> rw [hfl, hp, h]
  obtain ⟨t, e1, e2, e3⟩ := xmr_blocks hal h0 (full.length / 8) full hk
  have hdiv : t.length / 11 = full.length / 8 := by omega
  have hif : (if p.length ≠ a.hashLen then calcHash H p a.hashType else p) = p := by simp [hp]
  refine ⟨t, ?_, ?_, ?_⟩
  · have : addressEncode H p a = xmrEncode H (if p.length ≠ a.hashLen then calcHash H p a.hashType else p) a := by
      unfold addressEncode; rw [hE]; rfl
    rw [this, hif, xmrEncode]
    have c1 : ¬ (a.hashType = [] ∧ p.length ≠ 64) := by
      rcases h5 with ⟨h, h'⟩ | ⟨h, h'⟩
      · rw [hp, h']; simp
      · rw [h]; intro hh; exact absurd hh.1 (by decide)
    have c2 : ¬ (a.hashType = asc "payID" ∧ p.length ≠ 72) := by
      rcases h5 with ⟨h, h'⟩ | ⟨h, h'⟩
      · rw [h]; intro hh; exact absurd hh.1 (by decide)
      · rw [hp, h']; simp
    rw [if_neg c1, if_neg c2]
    simp only
    rw [← hck, ← hfull, e1]
  · rcases h5 with ⟨_, h⟩ | ⟨_, h⟩
    · rw [e2, hfl, hp, h]; rfl
    · rw [e2, hfl, hp, h]; rfl
  · have : addressDecode H t a = xmrDecode H t a := by
      unfold addressDecode; rw [hE]; rfl
    rw [this, xmrDecode]
    have c1 : ¬ (a.hashType = [] ∧ t.length ≠ 95) := by
      rcases h5 with ⟨h, h'⟩ | ⟨h, h'⟩
      · rw [e2, hfl, hp, h']; simp
      · rw [h]; intro hh; exact absurd hh.1 (by decide)
    have c2 : ¬ (a.hashType = asc "payID" ∧ t.length ≠ 106) := by
      rcases h5 with ⟨h, h'⟩ | ⟨h, h'⟩
      · rw [h]; intro hh; exact absurd hh.1 (by decide)
      · rw [e2, hfl, hp, h']; simp
    rw [if_neg c1, if_neg c2, hdiv, e3]
    simp only [Res.bind_ok]
    rw [verifyChecksum_append H (b := a.pre.getD [] ++ p) hc]
    simp only [Res.bind_ok, if_true]
    have : full.take (full.length - 4) = a.pre.getD [] ++ p := by
      rw [hfl, hfull]; apply List.take_left'; simp [h3]
    rw [this]
    exact (recoverData_iff _ _ _ _).mpr (by simp [h4])

-- non-vacuity: members of the table of each kind, with payloads of the right length
example : BTC_mainnetAddressP2PKH ∈ profiles ∧ BTC_mainnetAddressP2PKH.encodeType = asc "base58" ∧
    (List.replicate 20 (7 : UInt8)).length = BTC_mainnetAddressP2PKH.hashLen := by decide +kernel
example : EOS_mainnetPublic ∈ profiles ∧ AE_mainnetAddress ∈ profiles ∧ XMR_mainnetPublicAddress ∈ profiles := by
  decide +kernel

/-! ## C04 -/

/-- C04. A text is accepted under a base58 profile exactly when it is the Base58 text of version ++ payload ++ suffix ++
checksum for a payload of the profile's length; the payload returned is that one. -/
theorem C04_accepted_iff_wellformed (H : Hashes) (a : AddressType) (ha : a ∈ profiles)
    (hE : a.encodeType = asc "base58") (t p : Bytes) :
    addressDecode H t a = .ok p ↔
      p.length = a.hashLen ∧ ∃ c, IsChecksum H a.checksumType (a.pre.getD [] ++ p ++ a.suf.getD []) c ∧
        IsBase58 a.alphabet (a.pre.getD [] ++ p ++ a.suf.getD [] ++ c) t := by
  obtain ⟨h1, h2, h3, _⟩ := profiles_base58 a ha hE
  have hal : IsAlphabet a.alphabet := ⟨h1, h2⟩
  rw [decode_base58_iff H hE hal]
  simp only [calcChecksum_iff, encode_iff hal]

/-- C04: an accepted text is the only accepted text of its payload, and it is what `AddressEncode` produces. -/
theorem C04_accepted_text_unique (H : Hashes) (a : AddressType) (ha : a ∈ profiles)
    (hE : a.encodeType = asc "base58") (t t' p : Bytes)
    (h : addressDecode H t a = .ok p) (h' : addressDecode H t' a = .ok p) :
    t = t' ∧ addressEncode H p a = .ok t := by
  have hlen := ((C04_accepted_iff_wellformed H a ha hE t p).mp h).1
  obtain ⟨h1, h2, h3, _⟩ := profiles_base58 a ha hE
  have hal : IsAlphabet a.alphabet := ⟨h1, h2⟩
  obtain ⟨_, c, hc, he⟩ := (decode_base58_iff H hE hal t p).mp h
  obtain ⟨_, c', hc', he'⟩ := (decode_base58_iff H hE hal t' p).mp h'
  rw [hc] at hc'; cases hc'
  rw [he] at he'; cases he'
  exact ⟨rfl, by rw [encode_base58 H hE p hlen hc, he]⟩

/-- C04: no text is accepted under two base58 profiles with the same alphabet whose version bytes have the same length and
differ: an address of one network or type is never taken for one of the other. -/
theorem C04_versions_disjoint (H : Hashes) (a b : AddressType) (ha : a ∈ profiles)
    (hEa : a.encodeType = asc "base58") (hEb : b.encodeType = asc "base58") (hal : a.alphabet = b.alphabet)
    (hlen : (a.pre.getD []).length = (b.pre.getD []).length) (hne : a.pre.getD [] ≠ b.pre.getD [])
    (t p q : Bytes) (h : addressDecode H t a = .ok p) : addressDecode H t b ≠ .ok q := by
  intro h'
  obtain ⟨h1, h2, h3, _⟩ := profiles_base58 a ha hEa
  have hA : IsAlphabet a.alphabet := ⟨h1, h2⟩
  obtain ⟨_, c, _, he⟩ := (decode_base58_iff H hEa hA t p).mp h
  obtain ⟨_, c', _, he'⟩ := (decode_base58_iff H hEb (hal ▸ hA) t q).mp h'
  rw [← hal] at he'
  obtain ⟨x, x1, _, x2⟩ := C01_base58_roundtrip a.alphabet hA (a.pre.getD [] ++ p ++ a.suf.getD [] ++ c)
  obtain ⟨y, y1, _, y2⟩ := C01_base58_roundtrip a.alphabet hA (b.pre.getD [] ++ q ++ b.suf.getD [] ++ c')
  rw [he] at x1; cases x1
  rw [he'] at y1; cases y1
  rw [x2] at y2
  have := Res.ok.inj y2
  simp only [List.append_assoc] at this
  exact hne (List.append_inj this hlen).1

-- P2PKH against P2SH on BTC meets the hypotheses
example : BTC_mainnetAddressP2SH ∈ profiles ∧
    BTC_mainnetAddressP2PKH.alphabet = BTC_mainnetAddressP2SH.alphabet ∧
    BTC_mainnetAddressP2PKH.pre.getD [] ≠ BTC_mainnetAddressP2SH.pre.getD [] := by decide +kernel

/-! ## C57 canonical texts of the other Base58 formats -/

/-- C57 fails for EOS: the same key has several accepted texts. -/
theorem C57_eos_alias_violated (H : Hashes) (p : Bytes) :
    ∃ t t', t ≠ t' ∧ addressDecode H t EOS_mainnetPublic = .ok p ∧ addressDecode H t' EOS_mainnetPublic = .ok p := by
  obtain ⟨c, hc⟩ := calcChecksum_known H (rule := EOS_mainnetPublic.checksumType) (by decide +kernel) p
  obtain ⟨t, e1, e2, _⟩ := C01_base58_roundtrip EOS_mainnetPublic.alphabet btcAlphabet (p ++ c)
  have hb := (base58CheckBody_iff H (rule := EOS_mainnetPublic.checksumType) btcAlphabet t p).mpr ⟨c, hc, e1⟩
  refine ⟨asc "PUB_K1_" ++ t, asc "PUB_R1_" ++ t, by simp [asc], ?_, ?_⟩
  · have h1 : ¬ (asc "PUB_R1_" <+: asc "PUB_K1_" ++ t) := by rintro ⟨s, hs⟩; simp [asc] at hs
    have : addressDecode H (asc "PUB_K1_" ++ t) EOS_mainnetPublic =
      decodeEOS H (asc "PUB_K1_" ++ t) EOS_mainnetPublic := rfl
    rw [this, decodeEOS, if_neg h1, if_pos ⟨t, rfl⟩]; exact hb
  · have : addressDecode H (asc "PUB_R1_" ++ t) EOS_mainnetPublic =
      decodeEOS H (asc "PUB_R1_" ++ t) EOS_mainnetPublic := rfl
    rw [this, decodeEOS, if_pos ⟨t, rfl⟩]; exact hb

/-- C57 fails for Monero: a block value and the same value plus 2^64 are both accepted, so the zero payload has two
accepted texts. -/
theorem C57_monero_two_texts_violated (H : Hashes) :
    ∃ t t' p, t ≠ t' ∧ addressDecode H t XMR_mainnetPublicAddress = .ok p ∧
      addressDecode H t' XMR_mainnetPublicAddress = .ok p := by
  set a := XMR_mainnetPublicAddress with ha
  set p : Bytes := List.replicate 64 0 with hp
  set ck := (H.hash .keccak256 ((0x12 : UInt8) :: p)).take 4 with hck
  have hckl : ck.length = 4 := by simp [hck, H.size, Alg.size]
  set rest : Bytes := List.replicate 57 0 ++ ck with hrest
  have hrl : rest.length = 8 * 7 + 5 := by simp [hrest, hckl]
  obtain ⟨t0, e1, e2, e3⟩ := xmr_blocks (alph := a.alphabet) btcAlphabet (by decide +kernel) 7 rest hrl
  have key : ∀ B : Bytes, B.length = 11 → (∃ b, Base58.decode a.alphabet B = .ok b ∧ ¬ b.length < 8 ∧
      b.drop (b.length - 8) = [0x12, 0, 0, 0, 0, 0, 0, 0]) → addressDecode H (B ++ t0) a = .ok p := by
    intro B hB ⟨b, hb, hbl, hbd⟩
    have hl : (B ++ t0).length = 95 := by simp [hB, e2]
    have : addressDecode H (B ++ t0) a = xmrDecode H (B ++ t0) a := rfl
    rw [this, xmrDecode]
    rw [if_neg (by simp [hl]), if_neg (by simp [hl]; decide), hl]
    have hblocks : xmrDecodeBlocks a.alphabet (95 / 11) (B ++ t0) = .ok ([0x12, 0, 0, 0, 0, 0, 0, 0] ++ rest) := by
      show xmrDecodeBlocks a.alphabet (7 + 1) (B ++ t0) = _
      unfold xmrDecodeBlocks
      rw [List.take_left' hB, List.drop_left' hB, hb]
      simp only [Res.bind_ok, if_neg hbl, e3, hbd]
    rw [hblocks]
    have hsplit : ([0x12, 0, 0, 0, 0, 0, 0, 0] ++ rest : Bytes) = ((0x12 : UInt8) :: p) ++ ck := by
      rw [hrest, ← List.append_assoc]; rfl
    have hcc : calcChecksum H ((0x12 : UInt8) :: p) a.checksumType = some ck := rfl
    simp only [Res.bind_ok]
    rw [hsplit, verifyChecksum_append H hcc]
    simp only [Res.bind_ok, if_true]
    rw [List.take_left' (by simp [hckl])]
    exact (recoverData_iff _ _ _ _).mpr rfl
  refine ⟨asc "41d7FXjswpK" ++ t0, asc "nq9JpBN9cJj" ++ t0, p, ?_, ?_, ?_⟩
  · simp [asc]
  · exact key _ rfl ⟨[0x12, 0, 0, 0, 0, 0, 0, 0], by decide +kernel, by decide, by decide⟩
  · exact key _ rfl ⟨[0x01, 0x12, 0, 0, 0, 0, 0, 0, 0], by decide +kernel, by decide, by decide⟩

/-- C57 holds for aeternity: an account has one accepted text, "ak_" followed by the Base58 text of account ++ checksum. -/
theorem C57_aeternity_unique_partial (H : Hashes) (t p : Bytes) (h : addressDecode H t AE_mainnetAddress = .ok p) :
    ∃ c b, IsChecksum H (asc "doubleSHA256") p c ∧ IsBase58 base58Btc (p ++ c) b ∧ t = asc "ak_" ++ b := by
  have hunf : addressDecode H t AE_mainnetAddress = decodeAE H t AE_mainnetAddress := rfl
  rw [hunf, decodeAE] at h
  obtain ⟨c, hc, he⟩ := (base58CheckBody_iff H btcAlphabet _ p).mp h
  have hcl := calcChecksum_length H hc
  refine ⟨c, _, (calcChecksum_iff H _ _ _).mp hc, (encode_iff btcAlphabet _ _).mp he, ?_⟩
  split_ifs with hp
  · obtain ⟨s, rfl⟩ := hp
    rfl
  · exfalso
    rw [if_neg hp] at he
    obtain ⟨x, x1, _, x2⟩ := C01_base58_roundtrip base58Btc btcAlphabet (p ++ c)
    have he' : Base58.encode base58Btc (p ++ c) = .ok [] := he
    rw [he'] at x1
    cases x1
    have hz : Base58.decode base58Btc [] = .ok [] := by decide +kernel
    rw [hz] at x2
    have := congrArg List.length (Res.ok.inj x2)
    simp [hcl] at this

/-! ## C05 -/

/-- C05 fails: the empty text makes `AddressDecode` panic under bech32, eip55 and ICX profiles, and for base58 profiles
there is (whatever the hash function) a text with a valid checksum and an empty body that makes it panic. -/
theorem C05_decode_panics_violated (H : Hashes) :
    addressDecode H [] BTC_mainnetAddressBech32V0 = .panic ∧
    addressDecode H [] BCH_mainnetAddressCash = .panic ∧
    addressDecode H [] ETH_mainnetPublicAddress = .panic ∧
    addressDecode H [] ICX_walletAddress = .panic ∧
    ∃ t, addressDecode H t BTC_mainnetAddressP2PKH = .panic := by
  refine ⟨rfl, rfl, rfl, rfl, ?_⟩
  obtain ⟨c, hc⟩ := calcChecksum_known H (rule := asc "doubleSHA256") (by decide +kernel) []
  obtain ⟨t, e1, e2, _⟩ := C01_base58_roundtrip base58Btc btcAlphabet ([] ++ c)
  refine ⟨t, ?_⟩
  have hb := (base58CheckBody_iff H (rule := asc "doubleSHA256") btcAlphabet t []).mpr ⟨c, hc, e1⟩
  have : addressDecode H t BTC_mainnetAddressP2PKH = (do
      let data ← (do
        let body ← base58CheckBody H t base58Btc (asc "doubleSHA256")
        recoverData body (some [0x00]) none)
      if data.length ≠ 20 then .err else .ok data) := rfl
  rw [this, hb]
  rfl

theorem Addr.profiles_types : ∀ a ∈ profiles, a.encodeType ∈
    [asc "base58", asc "bech32", asc "bech32m", asc "base32PolyMod", asc "eip55", asc "ICX", asc "XMR", asc "eos",
     asc "aeternity"] := by decide +kernel

/-- C05, partial: a text of minimal length (see `longEnough`) never makes `AddressDecode` panic, under any profile.
Missing: shorter texts, for which the claim is false (`C05_decode_panics_violated`). -/
theorem C05_decode_no_panic_partial (H : Hashes) (a : AddressType) (ha : a ∈ profiles) (t : Bytes)
    (hl : longEnough a.encodeType t) : addressDecode H t a ≠ .panic := by
  have hty := profiles_types a ha
  simp only [List.mem_cons, List.not_mem_nil, or_false] at hty
  obtain ⟨l1, l2, l3, l4⟩ := hl
  rcases hty with hE | hE | hE | hE | hE | hE | hE | hE | hE
  · obtain ⟨h1, h2, h3, h4⟩ := profiles_base58 a ha hE
    have hal : IsAlphabet a.alphabet := ⟨h1, h2⟩
    have hunf : addressDecode H t a = (do
        let data ← (do
          let body ← base58CheckBody H t a.alphabet a.checksumType
          recoverData body a.pre a.suf)
        if data.length ≠ a.hashLen then .err else .ok data) := by
      unfold addressDecode; rw [hE]; rfl
    rw [hunf]
    cases hb : base58CheckBody H t a.alphabet a.checksumType with
    | panic => exact absurd hb (base58CheckBody_ne_panic H hal h3 t)
    | err => simp
    | ok body =>
      obtain ⟨c, hc, he⟩ := (base58CheckBody_iff H hal t body).mp hb
      have := base58_length_le _ _ ((encode_iff hal _ _).mp he)
      have hcl := calcChecksum_length H hc
      rw [List.length_append, hcl] at this
      have h17 := l1 hE
      have hr := recoverData_ne_panic body a.pre a.suf (by omega)
      simp only [Res.bind_ok]
      cases hrd : recoverData body a.pre a.suf with
      | panic => exact absurd hrd hr
      | err => simp
      | ok d => simp only [Res.bind_ok]; split_ifs <;> simp
  · have hunf : addressDecode H t a = (do
        let ret ← Bech32.decode t
        if ret.length ≠ 20 ∧ ret.length ≠ 32 then .err else .ok ret) := by
      unfold addressDecode; rw [hE]; rfl
    have := Bech32.decode_ne_panic t (by have := l2 hE; unfold hrpLength at this; omega)
    rw [hunf]
    cases hd : Bech32.decode t with
    | panic => exact absurd hd this
    | err => simp
    | ok d => simp only [Res.bind_ok]; split_ifs <;> simp
  · have hunf : addressDecode H t a = (match Bech32m.bech32mDecode t a.checksumType a.alphabet with
        | .ok (some b) => .ok b
        | .ok none => .ok []
        | .err => .err
        | .panic => .panic) := by
      unfold addressDecode; rw [hE]; rfl
    rw [hunf]
    split <;> simp
    rename_i h
    exact Bech32m.bech32mDecode_ne_panic _ _ _ h
  · have hunf : addressDecode H t a = (do
        let ret ← CashAddr.decode t
        if ret.length ≠ a.hashLen then .err else .ok ret) := by
      unfold addressDecode; rw [hE]; rfl
    have := CashAddr.decode_ne_panic t (by have := l3 hE; unfold hrpLength at this; omega)
    rw [hunf]
    cases hd : CashAddr.decode t with
    | panic => exact absurd hd this
    | err => simp
    | ok d => simp only [Res.bind_ok]; split_ifs <;> simp
  · have hunf : addressDecode H t a = (do
        let ret ← eip55Decode t
        if ret.length ≠ 20 then .err else .ok ret) := by
      unfold addressDecode; rw [hE]; rfl
    rw [hunf, eip55Decode, slice_ok (by omega) (l4 (Or.inl hE))]
    simp only [Res.bind_ok]
    cases hd : Hex.decode (if (t.take 2).drop 0 = asc "0x" then t.drop 2 else t) with
    | panic => exact absurd hd (Hex.decode_ne_panic _)
    | err => simp
    | ok d => simp only [Res.bind_ok]; split_ifs <;> simp
  · have hunf : addressDecode H t a = icxDecode t := by
      unfold addressDecode; rw [hE]; rfl
    have h2 := l4 (Or.inr hE)
    rw [hunf, icxDecode, index_ok (by omega : 0 < t.length), index_ok (by omega : 1 < t.length)]
    simp only [Res.bind_ok]
    split_ifs
    · simp
    · simp
    · simp
    · exact Hex.decode_ne_panic _
  · obtain ⟨h1, h2, h3, h4, h5⟩ := (profiles_other a ha).2.2.1 hE
    have hal : IsAlphabet a.alphabet := by rw [h1]; exact btcAlphabet
    have hunf : addressDecode H t a = xmrDecode H t a := by
      unfold addressDecode; rw [hE]; rfl
    rw [hunf, xmrDecode]
    split_ifs
    · simp
    · simp
    · obtain ⟨x1, x2⟩ := xmrDecodeBlocks_spec hal (t.length / 11) t
      cases hd : xmrDecodeBlocks a.alphabet (t.length / 11) t with
      | panic => exact absurd hd x1
      | err => simp
      | ok d =>
        have hdl := x2 d hd
        obtain ⟨b, hb⟩ := verifyChecksum_ne_err H (d := d) (rule := a.checksumType) (by rw [h2]; decide +kernel)
        simp only [Res.bind_ok, hb]
        split_ifs
        · exact recoverData_ne_panic _ _ _ (by rw [h3, h4]; simp; omega)
        · simp
  · have := (profiles_other a ha).1 hE
    subst this
    have hunf : addressDecode H t EOS_mainnetPublic = decodeEOS H t EOS_mainnetPublic := rfl
    rw [hunf, decodeEOS]
    split_ifs
    · exact base58CheckBody_ne_panic H btcAlphabet (by decide +kernel) _
    · exact base58CheckBody_ne_panic H btcAlphabet (by decide +kernel) _
    · exact base58CheckBody_ne_panic H btcAlphabet (by decide +kernel) _
    · simp
  · have := (profiles_other a ha).2.1 hE
    subst this
    exact base58CheckBody_ne_panic H btcAlphabet (by decide +kernel) _

-- the condition holds for ordinary addresses and for much garbage
example : longEnough (asc "bech32") (asc "bc1qqqqqqqq") := by unfold longEnough; decide +kernel
example : longEnough (asc "base58") (asc "1BoatSLRHtKNngkdXEeobR76b53LETtpyT") := by
  unfold longEnough; decide +kernel

/-! ## C06 -/

theorem Addr.rulesOf_mem {symbol : Bytes} {rules : List (Bytes × AddressType)} (h : rulesOf symbol = some rules) :
    (symbol, rules) ∈ ruleTable := by
  have gen : ∀ (l : List (Bytes × List (Bytes × AddressType))), l.lookup symbol = some rules → (symbol, rules) ∈ l := by
    intro l
    induction l with
    | nil => intro h; simp at h
    | cons x xs ih =>
      intro h
      obtain ⟨k, v⟩ := x
      rw [List.lookup_cons] at h
      split at h
      · rename_i hk
        cases h
        have : symbol = k := by simpa using hk
        subst this; simp
      · exact List.mem_cons_of_mem _ (ih h)
  exact gen ruleTable h

theorem Addr.rules_coin : ∀ symbol rules, rulesOf symbol = some rules →
    ∃ l, (symbol, l) ∈ coinProfiles ∧ ∀ w a, (w, a) ∈ rules → a ∈ l := by
  intro symbol rules h
  have key : ∀ e ∈ ruleTable, ∃ c ∈ coinProfiles, c.1 = e.1 ∧ ∀ x ∈ e.2, x.2 ∈ c.2 := by decide +kernel
  obtain ⟨⟨s, l⟩, h1, h2, h3⟩ := key _ (rulesOf_mem h)
  simp only at h2
  subst h2
  exact ⟨l, h1, fun w a hm => h3 (w, a) hm⟩

theorem Addr.tryRules_ok (H : Hashes) (addr : Bytes) : ∀ rules b, tryRules H addr rules = .ok b →
    b = true ∧ ∃ w a p, (w, a) ∈ rules ∧ addressDecode H addr a = .ok p
  | [], b, h => by simp [tryRules] at h
  | (w, a) :: rest, b, h => by
    unfold tryRules at h
    rw [Res.bind_eq_ok] at h
    obtain ⟨hit, _, h⟩ := h
    cases hit with
    | true =>
      simp only [if_true] at h
      rw [Res.bind_eq_ok] at h
      obtain ⟨p, hp, h⟩ := h
      cases h
      exact ⟨rfl, w, a, p, by simp, hp⟩
    | false =>
      simp only [Bool.false_eq_true, if_false] at h
      obtain ⟨h1, w', a', p, h2, h3⟩ := tryRules_ok H addr rest b h
      exact ⟨h1, w', a', p, by simp [h2], h3⟩

/-- C06, partial: for a supported coin, whenever `AddressCheck` answers true the text decodes under one of that coin's
profiles; and it never answers `false` without an error. Missing: unsupported symbols (accepted blindly) and crash
freedom on short texts, both false, see the `_violated` theorems. -/
theorem C06_check_sound_partial (H : Hashes) (addr symbol : Bytes)
    (hs : symbol ∈ coinProfiles.map (·.1)) (b : Bool) (h : addressCheck H addr symbol = .ok b) :
    b = true ∧ ∃ l a p, (symbol, l) ∈ coinProfiles ∧ a ∈ l ∧ addressDecode H addr a = .ok p := by
  unfold addressCheck at h
  cases hr : rulesOf symbol with
  | none =>
    exfalso
    have : ∀ s ∈ coinProfiles.map (·.1), rulesOf s ≠ none := by decide +kernel
    exact this symbol hs hr
  | some rules =>
    rw [hr] at h
    simp only at h
    obtain ⟨h1, w, a, p, h2, h3⟩ := tryRules_ok H addr rules b h
    obtain ⟨l, h4, h5⟩ := rules_coin symbol rules hr
    exact ⟨h1, l, a, p, h4, h5 w a h2, h3⟩

/-- C06 fails for every other symbol: any text whatsoever is accepted. -/
theorem C06_unknown_symbol_violated (H : Hashes) (addr symbol : Bytes)
    (hs : symbol ∉ coinProfiles.map (·.1)) : addressCheck H addr symbol = .ok true := by
  unfold addressCheck
  cases hr : rulesOf symbol with
  | none => rfl
  | some rules =>
    obtain ⟨l, h4, _⟩ := rules_coin symbol rules hr
    exact absurd (List.mem_map.mpr ⟨_, h4, rfl⟩) hs

example : asc "DOGE" ∉ coinProfiles.map (·.1) ∧ asc "btc" ∉ coinProfiles.map (·.1) := by decide +kernel

/-- C06 fails: the empty text makes `AddressCheck` panic for every supported coin, "b" for BTC, "bitcoin" for BCH. -/
theorem C06_check_panics_violated (H : Hashes) :
    (∀ symbol ∈ coinProfiles.map (·.1), addressCheck H [] symbol = .panic) ∧
    addressCheck H (asc "b") (asc "BTC") = .panic ∧ addressCheck H (asc "bitcoin") (asc "BCH") = .panic := by
  refine ⟨?_, rfl, rfl⟩
  have e : coinProfiles.map (·.1) = [asc "BTC", asc "ZEC", asc "LTC", asc "BCH", asc "XTZ", asc "HC", asc "ETH",
    asc "QTUM", asc "DCRD", asc "NAS", asc "TRX", asc "ICX", asc "VSYS"] := rfl
  rw [e]
  intro symbol hs
  simp only [List.mem_cons, List.not_mem_nil, or_false] at hs
  rcases hs with rfl | rfl | rfl | rfl | rfl | rfl | rfl | rfl | rfl | rfl | rfl | rfl | rfl <;> rfl

theorem Addr.hasChars_spec (addr : Bytes) : ∀ (w : Bytes) (i : Nat), i + w.length ≤ addr.length →
    ∃ b, hasChars addr i w = .ok b
  | [], _, _ => ⟨true, rfl⟩
  | c :: cs, i, h => by
    simp only [List.length_cons] at h
    unfold hasChars
    rw [index_ok (by omega)]
    simp only
    split_ifs
    · exact hasChars_spec addr cs (i + 1) (by omega)
    · exact ⟨_, rfl⟩

theorem Addr.hasChars_true (addr : Bytes) : ∀ (w : Bytes) (i : Nat), hasChars addr i w = .ok true →
    (addr.drop i).take w.length = w
  | [], _, _ => by simp
  | c :: cs, i, h => by
    unfold hasChars index at h
    cases hd : addr[i]? with
    | none => rw [hd] at h; simp at h
    | some b =>
      rw [hd] at h
      simp only at h
      split_ifs at h with hb
      · subst hb
        have ih := hasChars_true addr cs (i + 1) h
        obtain ⟨hi, rfl⟩ := List.getElem?_eq_some_iff.mp hd
        rw [List.drop_eq_getElem_cons hi, List.length_cons, List.take_succ_cons, ih]
      · cases h

theorem Addr.tryRules_ne_panic (H : Hashes) (addr : Bytes) (h12 : 12 ≤ addr.length) : ∀ rules : List (Bytes × AddressType),
    (∀ w a, (w, a) ∈ rules → w.length ≤ 12) →
    (∀ w a, (w, a) ∈ rules → addr.take w.length = w → addressDecode H addr a ≠ .panic) →
    tryRules H addr rules ≠ .panic
  | [], _, _ => by simp [tryRules]
  | (w, a) :: rest, hw, hd => by
    unfold tryRules
    obtain ⟨b, hb⟩ := hasChars_spec addr w 0 (by have := hw w a (by simp); omega)
    rw [hb]
    simp only [Res.bind_ok]
    cases b with
    | true =>
      simp only [if_true]
      have h1 := hd w a (by simp) (by simpa using hasChars_true addr w 0 hb)
      cases hr : addressDecode H addr a with
      | panic => exact absurd hr h1
      | err => simp
      | ok p => simp
    | false =>
      simp only [Bool.false_eq_true, if_false]
      exact tryRules_ne_panic H addr h12 rest (fun w a hm => hw w a (by simp [hm])) (fun w a hm => hd w a (by simp [hm]))

theorem Addr.rules_facts : ∀ symbol rules, rulesOf symbol = some rules → ∀ w a, (w, a) ∈ rules →
    w.length ≤ 12 ∧ a ∈ profiles ∧
      (a.encodeType = asc "bech32" → w ∈ [asc "bc", asc "tb", asc "ltc", asc "tltc"]) ∧
      (a.encodeType = asc "base32PolyMod" → w = asc "bitcoincash:") := by
  intro symbol rules h w a hm
  have key : ∀ e ∈ ruleTable, ∀ x ∈ e.2, x.1.length ≤ 12 ∧ x.2 ∈ profiles ∧
      (x.2.encodeType = asc "bech32" → x.1 ∈ [asc "bc", asc "tb", asc "ltc", asc "tltc"]) ∧
      (x.2.encodeType = asc "base32PolyMod" → x.1 = asc "bitcoincash:") := by decide +kernel
  exact key _ (rulesOf_mem h) _ hm

/-- C06, partial: `AddressCheck` returns for every symbol on every text of at least 17 characters that, if it starts like a
bech32 or cashaddr address, has a data part of minimal length. -/
theorem C06_check_returns_partial (H : Hashes) (addr symbol : Bytes) (h17 : 17 ≤ addr.length)
    (hb : (∃ w ∈ [asc "bc", asc "tb", asc "ltc", asc "tltc"], w <+: addr) → hrpLength 0x31 addr + 1 + 8 ≤ addr.length)
    (hc : asc "bitcoincash:" <+: addr → hrpLength 0x3a addr + 1 + 10 ≤ addr.length) :
    addressCheck H addr symbol ≠ .panic := by
  unfold addressCheck
  cases hr : rulesOf symbol with
  | none => simp
  | some rules =>
    have hf := rules_facts symbol rules hr
    refine tryRules_ne_panic H addr (by omega) rules (fun w a hm => (hf w a hm).1) ?_
    intro w a hm htake
    obtain ⟨_, h2, h3, h4⟩ := hf w a hm
    have hpre : w <+: addr := by rw [← htake]; exact List.take_prefix _ _
    refine C05_decode_no_panic_partial H a h2 addr ⟨fun _ => h17, fun hE => ?_, fun hE => ?_, fun _ => by omega⟩
    · exact hb ⟨w, h3 hE, hpre⟩
    · have := h4 hE; subst this; exact hc hpre

example : hrpLength 0x31 (asc "bc1qw508d6qejxtdg4y5r3zarvary0c5xw7kv8f3t4") = 2 := by decide +kernel

/-! ## C07 -/

theorem Addr.isHrp_of {a : AddressType} (ha : a ∈ profiles) (hE : a.encodeType = asc "bech32") :
    Bech32.IsHrp a.checksumType := by
  obtain ⟨_, _, h3, h4⟩ := (profiles_other a ha).2.2.2 hE
  exact ⟨h3, h4⟩

theorem Addr.bech32_unfold (H : Hashes) {a : AddressType} (hE : a.encodeType = asc "bech32") (p t : Bytes) :
    addressEncode H p a = Bech32.encode a.checksumType a.alphabet p (a.pre.getD []) ∧
    addressDecode H t a = (do
        let ret ← Bech32.decode t
        if ret.length ≠ 20 ∧ ret.length ≠ 32 then .err else .ok ret) := by
  constructor
  · unfold addressEncode; rw [hE]; rfl
  · unfold addressDecode; rw [hE]; rfl

/-- C07, partial: every 20-byte hash round-trips under every bech32 profile (segwit v0 and version-less), and every 32-byte
hash under every segwit v0 profile. Missing: 32-byte hashes without version symbol, for which it is false
(`C07_versionless_32_violated`). -/
theorem C07_bech32_roundtrip_partial (H : Hashes) (a : AddressType) (ha : a ∈ profiles)
    (hE : a.encodeType = asc "bech32") (p : Bytes)
    (hp : p.length = 20 ∨ (p.length = 32 ∧ a.pre = some [0])) :
    ∃ t, addressEncode H p a = .ok t ∧ addressDecode H t a = .ok p := by
  obtain ⟨h1, h2, _, _⟩ := (profiles_other a ha).2.2.2 hE
  rcases hp with hp | ⟨hp, hv⟩
  · obtain ⟨t, e1, e2⟩ := Bech32.rt20 a.checksumType p (a.pre.getD []) (isHrp_of ha hE) hp (by
      rcases h2 with h | h <;> rw [h] <;> simp)
    refine ⟨t, ?_, ?_⟩
    · rw [(bech32_unfold H hE p t).1, h1, e1]
    · rw [(bech32_unfold H hE p t).2, e2]; simp [hp]
  · obtain ⟨t, e1, e2⟩ := Bech32.rt32 a.checksumType p (isHrp_of ha hE) hp
    refine ⟨t, ?_, ?_⟩
    · rw [(bech32_unfold H hE p t).1, h1, hv]; exact e1
    · rw [(bech32_unfold H hE p t).2, e2]; simp [hp]

example : BTC_mainnetAddressBech32V0 ∈ profiles ∧ BTC_mainnetAddressBech32V0.pre = some [0] ∧
    ATOM_mainnetAddress ∈ profiles ∧ ATOM_mainnetAddress.encodeType = asc "bech32" := by decide +kernel
example : addressEncode toyHashes [0x75, 0x1e, 0x76, 0xe8, 0x19, 0x91, 0x96, 0xd4, 0x54, 0x94, 0x1c, 0x45, 0xd1, 0xb3,
    0xa3, 0x23, 0xf1, 0x43, 0x3b, 0xd6] BTC_mainnetAddressBech32V0 =
    .ok (asc "bc1qw508d6qejxtdg4y5r3zarvary0c5xw7kv8f3t4") := by decide +kernel

/-- C07 fails for 32-byte hashes under version-less profiles: every such hash comes back shifted left by four bits (the first
half-byte is lost), so decoding gives a different hash unless the hash is all zero. -/
theorem C07_versionless_32_violated (H : Hashes) (a : AddressType) (ha : a ∈ profiles)
    (hE : a.encodeType = asc "bech32") (hv : a.pre = none) (p : Bytes) (hp : p.length = 32) :
    ∃ t, addressEncode H p a = .ok t ∧ addressDecode H t a = .ok (beBytes 32 (16 * beNat p)) := by
  obtain ⟨h1, _, _, _⟩ := (profiles_other a ha).2.2.2 hE
  obtain ⟨t, e1, e2⟩ := Bech32.encode_parse a.checksumType p [] (isHrp_of ha hE) (by simp)
  refine ⟨t, ?_, ?_⟩
  · rw [(bech32_unfold H hE p t).1, h1, hv]; exact e1
  · rw [(bech32_unfold H hE p t).2, e2]
    have hne : p ≠ [] := by rintro rfl; simp at hp
    have hel := Bech32.extendPayload_length p
    rw [hp] at hel
    have hval := Bech32.extendPayload_val p hne
    rw [hp] at hval
    norm_num at hval hel
    simp only [List.map_nil, List.nil_append]
    rw [Bech32.unextendPayload_val _ (by rw [hel]; omega) (Bech32.extendPayload_lt p), hel, hval]
    simp [Nat.mul_comm]

example : ∃ p : Bytes, p.length = 32 ∧ beBytes 32 (16 * beNat p) ≠ p :=
  ⟨List.replicate 32 0x11, by decide +kernel⟩

/-! ## C10 -/

/-- C10 fails for bech32: every Litecoin segwit address is accepted by the Bitcoin profile (and, in general, any profile
accepts addresses of every other bech32 network). -/
theorem C10_bech32_foreign_network_violated (H : Hashes) (a b : AddressType) (ha : a ∈ profiles)
    (hEa : a.encodeType = asc "bech32") (hEb : b.encodeType = asc "bech32") (p : Bytes) (hp : p.length = 20) :
    ∃ t, addressEncode H p a = .ok t ∧ addressDecode H t b = .ok p := by
  obtain ⟨t, e1, e2⟩ := C07_bech32_roundtrip_partial H a ha hEa p (Or.inl hp)
  refine ⟨t, e1, ?_⟩
  rw [(bech32_unfold H hEb p t).2, ← (bech32_unfold H hEa p t).2, e2]

example : LTC_mainnetAddressBech32V0 ∈ profiles ∧ LTC_mainnetAddressBech32V0.encodeType = asc "bech32" ∧
    LTC_mainnetAddressBech32V0.checksumType ≠ BTC_mainnetAddressBech32V0.checksumType := by decide +kernel

/-- C10 fails for cashaddr: with another prefix the checksum is not looked at. -/
theorem C10_cashaddr_foreign_prefix_violated (H : Hashes) :
    addressDecode H (asc "anything:qqqqqqqqqqqqqqqqqqqqqqqqqqqqqqqqqqqqqqqqqq") BCH_mainnetAddressCash =
      .ok (List.replicate 21 0) := by
  have : ∀ t, addressDecode H t BCH_mainnetAddressCash = (do
        let ret ← CashAddr.decode t
        if ret.length ≠ 21 then .err else .ok ret) := fun _ => rfl
  rw [this]; decide +kernel

/-- C10 fails for bech32m: a foreign prefix gives the empty payload with a nil error instead of an error. -/
theorem C10_bech32m_foreign_prefix_violated (H : Hashes) :
    addressDecode H (asc "abcdef1l7aum6echk45nj3s0wdvt2fg8x9yrzpqzd3ryx") XCH_mainnetAddress = .ok [] := by
  have : ∀ t, addressDecode H t XCH_mainnetAddress = (match Bech32m.bech32mDecode t (asc "xch") bech32Std with
        | .ok (some b) => .ok b
        | .ok none => .ok []
        | .err => .err
        | .panic => .panic) := fun _ => rfl
  rw [this]; decide +kernel

/-- C10, partial (bech32): whatever is accepted has a checksum that is correct for the prefix it carries, which is what stands before
the first '1' (the whole text, if there is none). Missing: that the prefix is the profile's (false). C134 says exactly what is accepted. -/
theorem C10_bech32_checksum_partial (H : Hashes) (a : AddressType) (hE : a.encodeType = asc "bech32") (t p : Bytes)
    (h : addressDecode H t a = .ok p) :
    ∃ vs, Bech32.parse 0x31 t = .ok (t.takeWhile (· ≠ 0x31), vs) ∧
      Bech32.verifyChecksum (t.takeWhile (· ≠ 0x31)) vs = true ∧ (p.length = 20 ∨ p.length = 32) := by
  rw [(bech32_unfold H hE p t).2, Res.bind_eq_ok] at h
  obtain ⟨r, h1, h2⟩ := h
  obtain ⟨hrp, vs, h3, h4⟩ := Bech32.decode_ok h1
  have hhrp : hrp = t.takeWhile (· ≠ 0x31) := by
    unfold Bech32.parse at h3
    split at h3
    · cases h3
    · split_ifs at h3
      split at h3
      · cases h3
      · cases h3; rfl
  subst hhrp
  refine ⟨vs, h3, h4, ?_⟩
  split_ifs at h2 with hl
  cases h2
  omega

/-- C10, partial (bech32m): a non-empty payload is only ever returned for a text that consists of the profile's own prefix,
the separator and symbols of the alphabet carrying a valid Bech32m checksum, in one case throughout. Missing: a foreign
prefix is not reported as an error. -/
theorem C10_bech32m_own_prefix_partial (H : Hashes) (a : AddressType) (hE : a.encodeType = asc "bech32m") (t p : Bytes)
    (h : addressDecode H t a = .ok p) (hne : p ≠ []) :
    ∃ d vs, t.map Bech32m.toLower = a.checksumType ++ 0x31 :: d ∧ Bech32m.revAll a.alphabet d = some vs ∧
      Bech32m.verifyChecksum a.checksumType vs = some .bech32m ∧
      (t.map Bech32m.toLower = t ∨ t.map Bech32m.toUpper = t) ∧ t.length ≤ 90 := by
  have hunf : addressDecode H t a = (match Bech32m.bech32mDecode t a.checksumType a.alphabet with
        | .ok (some b) => .ok b
        | .ok none => .ok []
        | .err => .err
        | .panic => .panic) := by
      unfold addressDecode; rw [hE]; rfl
  rw [hunf] at h
  split at h
  · rename_i b hb
    cases h
    unfold Bech32m.bech32mDecode at hb
    rw [Res.bind_eq_ok] at hb
    obtain ⟨⟨hrp, data, spec⟩, h1, h2⟩ := hb
    simp only at h2
    obtain ⟨d, vs, k1, k2, k3, _, k4, k5⟩ := Bech32m.decode_ok h1
    split_ifs at h2 with hc
    · cases h2
    · simp only [not_or, not_not, ne_eq] at hc
      obtain ⟨rfl, rfl⟩ := hc
      exact ⟨d, vs, k1, k2, k3, k4, k5⟩
  · cases h; exact absurd rfl hne
  · cases h
  · cases h

example : addressDecode toyHashes (asc "xch1qyp07ferw55") XCH_mainnetAddress = .ok [1, 2, 255] := by decide +kernel

/-! ## C12 -/

theorem Addr.cash_unfold (H : Hashes) (p t : Bytes) :
    addressEncode H p BCH_mainnetAddressCash = CashAddr.encode (asc "bitcoincash") Bech32.stdAlphabet
      (if p.length ≠ 21 then H.hash .hash160 p else p) ∧
    addressDecode H t BCH_mainnetAddressCash = (do
        let ret ← CashAddr.decode t
        if ret.length ≠ 21 then .err else .ok ret) := ⟨rfl, rfl⟩

/-- C12, partial: a 21-byte payload (type byte 0, then the 20-byte hash) round-trips. Missing: the bare 20-byte hash and
other type bytes, for which it is false. -/
theorem C12_cashaddr_roundtrip_partial (H : Hashes) (h : Bytes) (hh : h.length = 20) :
    ∃ t, addressEncode H (0 :: h) BCH_mainnetAddressCash = .ok t ∧
      addressDecode H t BCH_mainnetAddressCash = .ok (0 :: h) := by
  obtain ⟨t, e1, e2⟩ := CashAddr.decode_encode21 0 h hh
  refine ⟨t, ?_, ?_⟩
  · rw [(cash_unfold H _ t).1]; simpa [hh] using e1
  · rw [(cash_unfold H (0 :: h) t).2, e2]; simp [hh]

/-- C12 fails for a bare 20-byte hash: it is hashed once more and the text that comes out is not even accepted. -/
theorem C12_bare_hash_violated (H : Hashes) (h : Bytes) (hh : h.length = 20) :
    ∃ t, addressEncode H h BCH_mainnetAddressCash = .ok t ∧
      addressDecode H t BCH_mainnetAddressCash = .err := by
  have hl : (H.hash .hash160 h).length = 20 := by simp [H.size, Alg.size]
  obtain ⟨x, r, hx⟩ : ∃ x r, H.hash .hash160 h = x :: r := by
    cases he : H.hash .hash160 h with
    | nil => rw [he] at hl; simp at hl
    | cons x r => exact ⟨x, r, rfl⟩
  have hr : r.length = 19 := by rw [hx] at hl; simpa using hl
  obtain ⟨cs, e1, e2⟩ := CashAddr.encode_parse x r
  refine ⟨asc "bitcoincash" ++ 0x3a :: cs, ?_, ?_⟩
  · rw [(cash_unfold H h []).1, if_pos (by rw [hh]; decide), hx, e1]
  · rw [(cash_unfold H h _).2, e2]
    have hlen := Bech32.takeSymbols_length (((r.length + 1) * 8 + 4) / 5) ((x <<< 3) :: r)
    obtain ⟨ret, hret, hrl⟩ := CashAddr.untake_ne_panic
      (Bech32.takeSymbols (((r.length + 1) * 8 + 4) / 5) ((x <<< 3) :: r)).length
      (Bech32.takeSymbols (((r.length + 1) * 8 + 4) / 5) ((x <<< 3) :: r))
      (List.replicate ((Bech32.takeSymbols (((r.length + 1) * 8 + 4) / 5) ((x <<< 3) :: r)).length * 5 / 8) 0)
      (by rw [hlen, hr]; omega) (by rw [hlen, hr]; simp)
    unfold CashAddr.unextendPayload
    rw [hret]
    simp only [Res.bind_ok]
    rw [List.length_replicate, hlen, hr] at hrl
    rw [if_pos (by rw [hrl]; decide)]

/-- C12 fails for other type bytes: type 1 (script hash) comes back as 8. -/
theorem C12_type_byte_violated (H : Hashes) (h : Bytes) (hh : h.length = 20) :
    ∃ t, addressEncode H (1 :: h) BCH_mainnetAddressCash = .ok t ∧
      addressDecode H t BCH_mainnetAddressCash = .ok (8 :: h) := by
  obtain ⟨t, e1, e2⟩ := CashAddr.decode_encode21 1 h hh
  refine ⟨t, ?_, ?_⟩
  · rw [(cash_unfold H _ t).1]; simpa [hh] using e1
  · rw [(cash_unfold H (1 :: h) t).2, e2]; simp [hh]; decide

example : (List.replicate 20 (3 : UInt8)).length = 20 := by decide

/-! ## C13 -/

/-- C13, ICX: every 20-byte hash is written as "hx" and 40 hex digits and decodes to itself. -/
theorem C13_icx_roundtrip (H : Hashes) (h : Bytes) (hh : h.length = 20) :
    addressEncode H h ICX_walletAddress = .ok (asc "hx" ++ Hex.encode h) ∧
      addressDecode H (asc "hx" ++ Hex.encode h) ICX_walletAddress = .ok h := by
  constructor
  · have : addressEncode H h ICX_walletAddress =
        .ok (asc "hx" ++ Hex.encode (if h.length ≠ 20 then calcHash H h (asc "sha3_256_last_twenty") else h)) := rfl
    rw [this]; simp [hh]
  · have : addressDecode H (asc "hx" ++ Hex.encode h) ICX_walletAddress =
        (if (asc "hx" ++ Hex.encode h).length - 2 ≠ 40 then .err else Hex.decode (Hex.encode h)) := rfl
    rw [this, Hex.decode_encode]
    have hx : (asc "hx").length = 2 := rfl
    simp [hh, hx]

/-- C13, Ethereum, partial: of a 32-byte digest the last 20 bytes are written in hex, and decoding returns these, with or
without "0x" in front. Missing: a 20-byte address given to the encoder (false, next theorem). -/
theorem C13_eip55_roundtrip_partial (H : Hashes) (d : Bytes) (hd : d.length = 32) :
    addressEncode H d ETH_mainnetPublicAddress = .ok (Hex.encode (d.drop 12)) ∧
      addressDecode H (Hex.encode (d.drop 12)) ETH_mainnetPublicAddress = .ok (d.drop 12) ∧
      addressDecode H (asc "0x" ++ Hex.encode (d.drop 12)) ETH_mainnetPublicAddress = .ok (d.drop 12) := by
  have hdl : (d.drop 12).length = 20 := by simp [hd]
  have hdec : ∀ t, addressDecode H t ETH_mainnetPublicAddress = (do
        let ret ← eip55Decode t
        if ret.length ≠ 20 then .err else .ok ret) := fun _ => rfl
  refine ⟨?_, ?_, ?_⟩
  · have : addressEncode H d ETH_mainnetPublicAddress =
        eip55Encode (if d.length ≠ 32 then calcHash H d (asc "keccak256") else d) := rfl
    rw [this, if_neg (by simp [hd]), eip55Encode, slice_ok (by omega) le_rfl]
    simp
  · rw [hdec, eip55Decode, slice_ok (by omega) (by rw [Hex.encode_length, hdl]; omega)]
    simp only [Res.bind_ok, List.drop_zero]
    have hno : (Hex.encode (d.drop 12)).take 2 ≠ asc "0x" := by
      cases he : d.drop 12 with
      | nil => rw [he] at hdl; simp at hdl
      | cons x r =>
        simp only [Hex.encode, List.take_succ_cons, List.take_zero]
        have : ∀ x : UInt8, [Hex.digit (x / 16), Hex.digit (x % 16)] ≠ asc "0x" := by
          apply Hex.u8_forall; decide +kernel
        exact this x
    rw [if_neg hno, Hex.decode_encode]
    simp [hdl]
  · rw [hdec, eip55Decode, slice_ok (by omega) (by simp [asc])]
    have h1 : ((asc "0x" ++ Hex.encode (d.drop 12)).take 2).drop 0 = asc "0x" := rfl
    simp only [Res.bind_ok]
    rw [h1, if_pos rfl]
    have h2 : (asc "0x" ++ Hex.encode (d.drop 12)).drop 2 = Hex.encode (d.drop 12) := rfl
    rw [h2, Hex.decode_encode]
    simp [hdl]

/-- C13 fails for a 20-byte address given to the encoder: it is hashed again and the text is the address of the digest. -/
theorem C13_eip55_address_rehashed_violated (H : Hashes) (h : Bytes) (hh : h.length = 20) :
    ∃ t, addressEncode H h ETH_mainnetPublicAddress = .ok t ∧
      addressDecode H t ETH_mainnetPublicAddress = .ok ((H.hash .keccak256 h).drop 12) := by
  have hl : (H.hash .keccak256 h).length = 32 := by simp [H.size, Alg.size]
  obtain ⟨e1, e2, _⟩ := C13_eip55_roundtrip_partial H (H.hash .keccak256 h) hl
  refine ⟨_, ?_, e2⟩
  rw [← e1]
  have : ∀ d, addressEncode H d ETH_mainnetPublicAddress =
        eip55Encode (if d.length ≠ 32 then calcHash H d (asc "keccak256") else d) := fun _ => rfl
  rw [this, this, if_pos (by rw [hh]; decide), if_neg (by rw [hl]; decide)]
  rfl

/-- The hex digits of either case. -/
def Addr.isHexDigit (c : UInt8) : Prop :=
  (0x30 ≤ c ∧ c ≤ 0x39) ∨ (0x61 ≤ c ∧ c ≤ 0x66) ∨ (0x41 ≤ c ∧ c ≤ 0x46)

theorem Addr.value_none (c : UInt8) : Hex.value c = none ↔ ¬ isHexDigit c := by
  revert c; unfold isHexDigit; apply Hex.u8_forall; decide +kernel

/-- C13: texts with a character that is no hex digit (apart from the "0x"/"hx" prefix) are never accepted, nor texts of
another length. -/
theorem C13_malformed_rejected (H : Hashes) (t p : Bytes) :
    (addressDecode H t ETH_mainnetPublicAddress = .ok p →
      ∃ d, (t = d ∨ t = asc "0x" ++ d) ∧ d.length = 40 ∧ p.length = 20 ∧ ∀ c ∈ d, isHexDigit c) ∧
    (addressDecode H t ICX_walletAddress = .ok p →
      ∃ d, t = asc "hx" ++ d ∧ d.length = 40 ∧ p.length = 20 ∧ ∀ c ∈ d, isHexDigit c) := by
  have hhex : ∀ (d q : Bytes), Hex.decode d = .ok q → ∀ c ∈ d, isHexDigit c := by
    intro d q hq c hc
    by_contra hn
    exact ((Hex.decode_isOk_iff d).mp ⟨q, hq⟩).2 c hc ((value_none c).mpr hn)
  constructor
  · intro h
    have hdec : addressDecode H t ETH_mainnetPublicAddress = (do
        let ret ← eip55Decode t
        if ret.length ≠ 20 then .err else .ok ret) := rfl
    rw [hdec, Res.bind_eq_ok] at h
    obtain ⟨ret, h1, h2⟩ := h
    split_ifs at h2 with hl
    cases h2
    rw [eip55Decode, Res.bind_eq_ok] at h1
    obtain ⟨two, h3, h4⟩ := h1
    have hp : p.length = 20 := by omega
    have hlen := Hex.decode_length _ _ h4
    split_ifs at h4 hlen with h0
    · refine ⟨t.drop 2, Or.inr ?_, by omega, hp, hhex _ _ h4⟩
      unfold slice at h3
      split_ifs at h3
      cases h3
      rw [← h0]; simp
    · exact ⟨t, Or.inl rfl, by omega, hp, hhex _ _ h4⟩
  · intro h
    have hdec : addressDecode H t ICX_walletAddress = icxDecode t := rfl
    rw [hdec] at h
    match t, h with
    | [], h => simp [icxDecode, index] at h
    | [x], h =>
      simp only [icxDecode, index, List.getElem?_cons_zero, Res.bind_ok] at h
      split_ifs at h <;> simp at h
    | x :: y :: d, h =>
      simp only [icxDecode, index, List.getElem?_cons_zero, List.getElem?_cons_succ, Res.bind_ok] at h
      split_ifs at h with h1 h2 h3
      simp only [not_not] at h1 h2 h3
      subst h1 h2
      have hd : d.length = 40 := by simpa using h3
      have h4 : Hex.decode d = .ok p := h
      have := Hex.decode_length _ _ h4
      exact ⟨d, rfl, hd, by omega, hhex _ _ h4⟩

example : addressDecode toyHashes (asc "0x00112233445566778899aabbccddeeff0011223g") ETH_mainnetPublicAddress = .err := by
  decide +kernel

end Verif
