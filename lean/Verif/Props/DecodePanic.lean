import Verif.Props.Bech32Lang

/-! C05, exactly: the texts that make `AddressDecode` crash. -/

namespace Verif
open Verif.Spec Verif.Addr Verif.Spec.Bech32Lang Verif.Spec.Bch

namespace DecPanic

theorem bind_panic {α β : Type} (x : Res α) (f : α → Res β) (hf : ∀ a, f a ≠ .panic) : (x >>= f) = .panic ↔ x = .panic := by
  cases x with
  | ok a => simp [hf a]
  | err => simp
  | panic => simp

/-- Every base58 profile has version bytes that do not start with its suffix, and a suffix no longer than the version bytes. -/
theorem profiles_suf : ∀ a ∈ profiles, a.encodeType = asc "base58" →
    (a.suf.getD []).length ≤ 1 ∧ (∀ s ∈ a.suf.getD [], (a.pre.getD []).length = 1 ∧ s ∉ a.pre.getD []) := by decide +kernel

theorem matchAt_panic : ∀ (pat data : Bytes) (off : Nat), off ≤ data.length →
    (matchAt data off pat = .panic ↔ data.drop off <+: pat ∧ data.drop off ≠ pat)
  | [], data, off, h => by
    simp only [matchAt, reduceCtorEq, List.prefix_nil, false_iff, not_and, not_not, imp_self]
  | p :: ps, data, off, h => by
    unfold matchAt index
    by_cases hlt : off < data.length
    · rw [List.getElem?_eq_getElem hlt]
      simp only
      rw [List.drop_eq_getElem_cons hlt]
      by_cases hb : data[off] = p
      · rw [if_neg (by simpa using hb), matchAt_panic ps data (off + 1) (by omega), List.cons_prefix_cons]
        simp [hb]
      · rw [if_pos hb, List.cons_prefix_cons]
        simp [hb]
    · have : off = data.length := by omega
      subst this
      simp

theorem recoverData_panic (d : Bytes) (a : AddressType) (ha : a ∈ profiles) (hE : a.encodeType = asc "base58") :
    recoverData d a.pre a.suf = .panic ↔ d <+: a.pre.getD [] ∧ d ≠ a.pre.getD [] := by
  obtain ⟨h1, h2⟩ := profiles_suf a ha hE
  have hm := matchAt_panic (a.pre.getD []) d 0 (by omega)
  rw [List.drop_zero] at hm
  unfold recoverData
  simp only
  cases hc : matchAt d 0 (a.pre.getD []) with
  | panic => simpa using hm.mp hc
  | err =>
    have : ¬ (d <+: a.pre.getD [] ∧ d ≠ a.pre.getD []) := by rw [← hm, hc]; simp
    simpa using this
  | ok u =>
    have hn : ¬ (d <+: a.pre.getD [] ∧ d ≠ a.pre.getD []) := by rw [← hm, hc]; simp
    have hp := matchAt_ok _ _ _ hc
    rw [List.drop_zero] at hp
    have hpl : (a.pre.getD []).length ≤ d.length := by
      have := congrArg List.length hp
      rw [List.length_take] at this; omega
    simp only [Res.bind_ok]
    refine iff_of_false ?_ hn
    cases hs : a.suf with
    | none =>
      simp only
      rw [slice_ok hpl le_rfl]; simp
    | some s =>
      rw [hs] at h1 h2
      simp only [Option.getD_some] at h1 h2
      match s, h1, h2 with
      | [], _, _ =>
        simp only [List.length_nil, Nat.not_lt_zero, if_false, Nat.sub_zero, matchAt, Res.bind_ok]
        rw [slice_ok hpl le_rfl]; simp
      | [x], _, h2 =>
        obtain ⟨g1, g2⟩ := h2 x (by simp)
        have hd : ¬ d.length < [x].length := by simp only [List.length_singleton]; omega
        dsimp only
        rw [if_neg hd]
        cases hc2 : matchAt d (d.length - [x].length) [x] with
        | panic => exact absurd hc2 (matchAt_ne_panic _ _ _ (by omega))
        | err => simp
        | ok u =>
          simp only [Res.bind_ok]
          by_cases hl : d.length = 1
          · exfalso
            have hq := matchAt_ok _ _ _ hc2
            simp only [hl, List.length_singleton, Nat.sub_self, List.drop_zero] at hq
            apply g2
            rw [List.take_of_length_le (by omega)] at hp
            rw [List.take_of_length_le (by omega)] at hq
            rw [← hp, hq]; simp
          · rw [slice_ok (by simp only [List.length_singleton]; omega) (by omega)]; simp

end DecPanic

open DecPanic

/-- C05, exactly, base58: `AddressDecode` crashes on a text under a base58 profile if and only if the text is the Base58 form, with a correct checksum, of
a proper beginning of the version bytes, and of nothing more. -/
theorem C05_panic_base58 (H : Hashes) (a : AddressType) (ha : a ∈ profiles) (hE : a.encodeType = asc "base58") (t : Bytes) :
    addressDecode H t a = .panic ↔
      ∃ d c, d <+: a.pre.getD [] ∧ d ≠ a.pre.getD [] ∧ IsChecksum H a.checksumType d c ∧ IsBase58 a.alphabet (d ++ c) t := by
  obtain ⟨h1, h2, h3, h4⟩ := profiles_base58 a ha hE
  have hal : IsAlphabet a.alphabet := ⟨h1, h2⟩
  have hunf : addressDecode H t a = (do
      let data ← (do
        let body ← base58CheckBody H t a.alphabet a.checksumType
        recoverData body a.pre a.suf)
      if data.length ≠ a.hashLen then .err else .ok data) := by
    unfold addressDecode; rw [hE]; rfl
  rw [hunf, bind_panic _ _ (by intro x; split_ifs <;> simp)]
  constructor
  · intro h
    cases hb : base58CheckBody H t a.alphabet a.checksumType with
    | panic => exact absurd hb (base58CheckBody_ne_panic H hal h3 t)
    | err => rw [hb] at h; simp at h
    | ok body =>
      rw [hb] at h
      simp only [Res.bind_ok] at h
      obtain ⟨k1, k2⟩ := (recoverData_panic body a ha hE).mp h
      obtain ⟨c, hc, he⟩ := (base58CheckBody_iff H hal t body).mp hb
      exact ⟨body, c, k1, k2, (calcChecksum_iff H _ _ _).mp hc, (encode_iff hal _ _).mp he⟩
  · rintro ⟨d, c, k1, k2, k3, k4⟩
    rw [(base58CheckBody_iff H hal t d).mpr ⟨c, (calcChecksum_iff H _ _ _).mpr k3, (encode_iff hal _ _).mpr k4⟩]
    simp only [Res.bind_ok]
    exact (recoverData_panic d a ha hE).mpr ⟨k1, k2⟩

-- every base58 profile with version bytes has such texts: the checksum of nothing is one
example : ∀ a ∈ profiles, a.encodeType = asc "base58" → a.pre.getD [] ≠ [] →
    ([] : Bytes) <+: a.pre.getD [] ∧ [] ≠ a.pre.getD [] := by
  intro a _ _ h
  exact ⟨List.nil_prefix, fun e => h e.symm⟩

example : BTC_mainnetAddressP2PKH ∈ profiles ∧ BTC_mainnetAddressP2PKH.encodeType = asc "base58" ∧
    BTC_mainnetAddressP2PKH.pre.getD [] ≠ [] := by decide +kernel

/-- C05, exactly, bech32: `AddressDecode` crashes under a bech32 profile on the empty text, on texts with a correct BIP 173 checksum and at most seven
symbols (no byte of payload), and on no other text. -/
theorem C05_panic_bech32 (H : Hashes) (a : AddressType) (hE : a.encodeType = asc "bech32") (t : Bytes) :
    addressDecode H t a = .panic ↔ t = [] ∨
      ∃ pre d vs, (Separated 0x31 t pre d ∨ (Unseparated 0x31 t d ∧ pre = t)) ∧ OneCase t ∧ List.Forall₂ Symbol d vs ∧
        remainder bech32Gen (1 :: (hrpSymbols pre ++ vs)) = [0, 0, 0, 0, 0, 1] ∧ vs.length ≤ 7 := by
  rw [(bech32_unfold H hE [] t).2, bind_panic _ _ (by intro x; split_ifs <;> simp)]
  by_cases hne : t = []
  · subst hne
    exact iff_of_true rfl (Or.inl rfl)
  simp only [hne, false_or]
  obtain ⟨g1, g2⟩ := Bech32.parse_ne_panic 0x31 (Or.inl rfl) t hne
  constructor
  · intro h
    by_cases hlen : (if (0x31 : UInt8) ∈ t then (t.takeWhile (· ≠ 0x31)).length else 0) + 9 ≤ t.length
    · exact absurd h (Bech32.decode_ne_panic t hlen)
    unfold Bech32.decode at h
    cases hp : Bech32.parse 0x31 t with
    | panic => exact absurd hp g1
    | err => rw [hp] at h; simp at h
    | ok q =>
      obtain ⟨pre, vs⟩ := q
      obtain ⟨d, k1, k2, k3⟩ := (Bech32.parse_iff 0x31 (Or.inl rfl) t pre vs).mp hp
      obtain ⟨g3, g4⟩ := g2 pre vs hp
      rw [hp] at h
      simp only [Res.bind_ok] at h
      cases hv : Bech32.verifyChecksum pre vs with
      | false => simp [hv] at h
      | true => exact ⟨pre, d, vs, k1, k2, k3, (C64_bech32_is_bip173 pre vs g3).mp hv, by omega⟩
  · rintro ⟨pre, d, vs, k1, k2, k3, k4, k5⟩
    have hlt := Bech32.symbols_lt k3
    unfold Bech32.decode
    rw [(Bech32.parse_iff 0x31 (Or.inl rfl) t pre vs).mpr ⟨d, k1, k2, k3⟩]
    simp only [Res.bind_ok, (C64_bech32_is_bip173 pre vs hlt).mpr k4, Bool.not_true, Bool.false_eq_true, if_false]
    by_cases h6 : vs.length < 6
    · rw [if_pos h6]
    · rw [if_neg h6]
      have hx : Bech32.unextendPayload (vs.take (vs.length - 6)) = .panic := by
        have : vs.length = 6 ∨ vs.length = 7 := by omega
        rcases this with h | h
        · simp [h, Bech32.unextendPayload, Bech32.untake]
        · match vs, h with
          | x :: r, h =>
            rw [h]
            simp [Bech32.unextendPayload, Bech32.untake, Bech32.orLast]
      rw [hx]; rfl

-- "a12uel5l", the shortest valid string of BIP 173, crashes
example (H : Hashes) : addressDecode H (asc "a12uel5l") BTC_mainnetAddressBech32V0 = .panic := by
  refine (C05_panic_bech32 H _ rfl _).mpr (Or.inr ⟨asc "a", asc "2uel5l", [10, 28, 25, 31, 20, 31], Or.inl ?_, ?_, ?_, ?_, ?_⟩)
  · unfold Separated; decide +kernel
  · unfold OneCase; decide +kernel
  · decide +kernel
  · decide +kernel
  · decide

/-- C05, exactly, cashaddr: `AddressDecode` crashes under the cashaddr profile on the empty text, on texts with at most nine symbols (whose checksum must be
correct if the prefix is "bitcoincash"), and on no other text. -/
theorem C05_panic_cashaddr (H : Hashes) (t : Bytes) :
    addressDecode H t BCH_mainnetAddressCash = .panic ↔ t = [] ∨
      ∃ pre d vs, (Separated 0x3a t pre d ∨ (Unseparated 0x3a t d ∧ pre = t)) ∧ OneCase t ∧ List.Forall₂ Symbol d vs ∧
        (pre = asc "bitcoincash" →
          remainder cashGen (1 :: (cashPrefixSymbols (asc "bitcoincash") ++ vs)) = [0, 0, 0, 0, 0, 0, 0, 1]) ∧ vs.length ≤ 9 := by
  rw [(cash_unfold H [] t).2, bind_panic _ _ (by intro x; split_ifs <;> simp)]
  by_cases hne : t = []
  · subst hne
    exact iff_of_true rfl (Or.inl rfl)
  simp only [hne, false_or]
  obtain ⟨g1, g2⟩ := Bech32.parse_ne_panic 0x3a (Or.inr rfl) t hne
  constructor
  · intro h
    by_cases hlen : (if (0x3a : UInt8) ∈ t then (t.takeWhile (· ≠ 0x3a)).length else 0) + 11 ≤ t.length
    · exact absurd h (CashAddr.decode_ne_panic t hlen)
    unfold CashAddr.decode at h
    cases hp : Bech32.parse 0x3a t with
    | panic => exact absurd hp g1
    | err => rw [hp] at h; simp at h
    | ok q =>
      obtain ⟨pre, vs⟩ := q
      obtain ⟨d, k1, k2, k3⟩ := (Bech32.parse_iff 0x3a (Or.inr rfl) t pre vs).mp hp
      obtain ⟨g3, g4⟩ := g2 pre vs hp
      rw [hp] at h
      simp only [Res.bind_ok] at h
      by_cases hcs : pre = asc "bitcoincash" ∧ (!CashAddr.verifyChecksum CashAddr.bitcoincashExpandPrefix vs) = true
      · rw [if_pos hcs] at h; cases h
      · refine ⟨pre, d, vs, k1, k2, k3, fun hpre => (C64_cashaddr_is_spec vs g3).mp ?_, by omega⟩
        cases hv : CashAddr.verifyChecksum CashAddr.bitcoincashExpandPrefix vs with
        | true => rfl
        | false => exact absurd ⟨hpre, by simp [hv]⟩ hcs
  · rintro ⟨pre, d, vs, k1, k2, k3, k4, k5⟩
    have hlt := Bech32.symbols_lt k3
    unfold CashAddr.decode
    rw [(Bech32.parse_iff 0x3a (Or.inr rfl) t pre vs).mpr ⟨d, k1, k2, k3⟩]
    simp only [Res.bind_ok]
    rw [if_neg (by
      rintro ⟨hpre, hv⟩
      rw [(C64_cashaddr_is_spec vs hlt).mpr (k4 hpre)] at hv
      cases hv)]
    by_cases h8 : vs.length < 8
    · rw [if_pos h8]
    · rw [if_neg h8]
      have : vs.length = 8 ∨ vs.length = 9 := by omega
      rcases this with h | h
      · simp [h, CashAddr.unextendPayload, CashAddr.untake]
      · match vs, h with
        | x :: r, h =>
          rw [h]
          simp [CashAddr.unextendPayload, CashAddr.untake, Bech32.orLast]

-- any short word in the 32 symbols crashes, for instance "bch:qqq"
example (H : Hashes) : addressDecode H (asc "bch:qqq") BCH_mainnetAddressCash = .panic := by
  refine (C05_panic_cashaddr H _).mpr (Or.inr ⟨asc "bch", asc "qqq", [0, 0, 0], Or.inl ?_, ?_, ?_, ?_, ?_⟩)
  · unfold Separated; decide +kernel
  · unfold OneCase; decide +kernel
  · decide +kernel
  · decide +kernel
  · decide

/-- C05, exactly, the other formats: Ethereum texts crash if they have fewer than two bytes, ICX texts if they are empty or just "h"; EOS, aeternity, Monero and
Chia texts never crash. -/
theorem C05_panic_other (H : Hashes) (a : AddressType) (ha : a ∈ profiles) (t : Bytes) :
    (a.encodeType = asc "eip55" → (addressDecode H t a = .panic ↔ t.length < 2)) ∧
    (a.encodeType = asc "ICX" → (addressDecode H t a = .panic ↔ t = [] ∨ t = asc "h")) ∧
    (a.encodeType ∈ [asc "eos", asc "aeternity", asc "XMR", asc "bech32m"] → addressDecode H t a ≠ .panic) := by
  refine ⟨fun hE => ?_, fun hE => ?_, fun hE => ?_⟩
  · by_cases hl : t.length < 2
    · refine iff_of_true ?_ hl
      unfold addressDecode eip55Decode slice
      rw [hE, if_neg (by decide +kernel), if_neg (by decide +kernel), if_neg (by decide +kernel), if_pos rfl,
        if_neg (by omega)]
      rfl
    · refine iff_of_false (C05_decode_no_panic_partial H a ha t ?_) hl
      unfold longEnough
      rw [hE]
      exact ⟨fun h => absurd h (by decide +kernel), fun h => absurd h (by decide +kernel), fun h => absurd h (by decide +kernel), fun _ => by omega⟩
  · have hunf : addressDecode H t a = icxDecode t := by
      unfold addressDecode; rw [hE]; rfl
    rw [hunf]
    match t with
    | [] => exact iff_of_true rfl (Or.inl rfl)
    | [x] =>
      by_cases hx : x = 0x68
      · subst hx; exact iff_of_true rfl (Or.inr rfl)
      · have h1 : icxDecode [x] = .err := by
          simp only [icxDecode, index, List.getElem?_cons_zero, Res.bind_ok]
          rw [if_pos hx]
        rw [h1]
        refine iff_of_false (by simp) ?_
        have : asc "h" = [0x68] := rfl
        rw [this]; simp [hx]
    | x :: y :: d =>
      refine iff_of_false ?_ (by have : asc "h" = [0x68] := rfl
                                 rw [this]; simp)
      simp only [icxDecode, index, List.getElem?_cons_zero, List.getElem?_cons_succ, Res.bind_ok]
      split_ifs
      · simp
      · simp
      · simp
      · exact Hex.decode_ne_panic _
  · apply C05_decode_no_panic_partial H a ha t
    unfold longEnough
    simp only [List.mem_cons, List.not_mem_nil, or_false] at hE
    refine ⟨fun h => ?_, fun h => ?_, fun h => ?_, fun h => ?_⟩ <;> exfalso <;> revert h <;>
      rcases hE with hE | hE | hE | hE <;> rw [hE] <;> decide +kernel

example : ETH_mainnetPublicAddress ∈ profiles ∧ ICX_walletAddress ∈ profiles ∧ XMR_mainnetPublicAddress ∈ profiles ∧
    ETH_mainnetPublicAddress.encodeType = asc "eip55" ∧ ICX_walletAddress.encodeType = asc "ICX" ∧
    XMR_mainnetPublicAddress.encodeType = asc "XMR" := by decide +kernel

end Verif
