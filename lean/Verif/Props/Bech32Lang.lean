import Verif.Lemmas.Bech32Lang
import Verif.Props.Address
import Verif.Props.Bch

/-! C134, C135: which texts `AddressDecode` accepts under a bech32 and under a cashaddr profile. -/

namespace Verif
open Verif.Addr Verif.Spec.Bech32Lang Verif.Spec.Bch

/-! ## C134 -/

/-- C134: `AddressDecode` under a bech32 profile returns `p` for exactly these texts: letters of one case and digits; a prefix of letters, '1' and data
symbols, or no '1' at all and data symbols after the first character, the whole text then counting as the prefix; a correct BIP 173 checksum; and as
many symbols as make 20 or 32 bytes. Nothing else of the profile or the text matters. -/
theorem C134_accepted (H : Hashes) (a : AddressType) (hE : a.encodeType = asc "bech32") (t p : Bytes) :
    addressDecode H t a = .ok p ↔
      ∃ pre d vs, (Separated 0x31 t pre d ∨ (Unseparated 0x31 t d ∧ pre = t)) ∧ OneCase t ∧ List.Forall₂ Symbol d vs ∧
        remainder bech32Gen (1 :: (hrpSymbols pre ++ vs)) = [0, 0, 0, 0, 0, 1] ∧
        (((vs.length = 38 ∨ vs.length = 39) ∧ p = beBytes 20 (number (vs.take (vs.length - 6)))) ∨
         (vs.length = 58 ∧ p = beBytes 32 (number (vs.take (vs.length - 6)))) ∨
         ((vs.length = 59 ∨ vs.length = 60) ∧ p = beBytes 32 (number (vs.take (vs.length - 6)) / 16))) := by
  rw [(bech32_unfold H hE p t).2]
  constructor
  · intro h
    rw [Res.bind_eq_ok] at h
    obtain ⟨r, h1, h2⟩ := h
    split_ifs at h2 with hl
    cases h2
    unfold Bech32.decode at h1
    rw [Res.bind_eq_ok] at h1
    obtain ⟨⟨pre, vs⟩, h3, h4⟩ := h1
    obtain ⟨d, k1, k2, k3⟩ := (Bech32.parse_iff 0x31 (Or.inl rfl) t pre vs).mp h3
    have hlt := Bech32.symbols_lt k3
    cases hv : Bech32.verifyChecksum pre vs with
    | false => simp [hv] at h4
    | true =>
      simp only [hv, Bool.not_true, Bool.false_eq_true, if_false] at h4
      exact ⟨pre, d, vs, k1, k2, k3, (C64_bech32_is_bip173 pre vs hlt).mp hv,
        (Bech32.decode_payload vs hlt p).mp ⟨h4, by omega⟩⟩
  · rintro ⟨pre, d, vs, k1, k2, k3, k4, k5⟩
    have hlt := Bech32.symbols_lt k3
    obtain ⟨e1, e2⟩ := (Bech32.decode_payload vs hlt p).mpr k5
    have hd : Bech32.decode t = .ok p := by
      unfold Bech32.decode
      rw [(Bech32.parse_iff 0x31 (Or.inl rfl) t pre vs).mpr ⟨d, k1, k2, k3⟩]
      simp only [Res.bind_ok, (C64_bech32_is_bip173 pre vs hlt).mpr k4, Bool.not_true, Bool.false_eq_true, if_false]
      exact e1
    rw [hd]
    simp only [Res.bind_ok]
    rw [if_neg (by omega)]

example : Separated 0x31 (asc "bc1qw508d6qejxtdg4y5r3zarvary0c5xw7kv8f3t4") (asc "bc") (asc "qw508d6qejxtdg4y5r3zarvary0c5xw7kv8f3t4") ∧
    OneCase (asc "bc1qw508d6qejxtdg4y5r3zarvary0c5xw7kv8f3t4") := by
  unfold Separated OneCase; decide +kernel

/-- C134, partial: under a bech32 profile of the table, an accepted text with the profile's prefix, its version symbol, the right number of symbols,
zero padding bits and no capital letters is the text that `AddressEncode` writes for the result. Missing: the decoder demands none of these
conditions (see the next theorems). -/
theorem C134_canonical_partial (H : Hashes) (a : AddressType) (ha : a ∈ profiles) (hE : a.encodeType = asc "bech32") (t p d : Bytes)
    (vs cs : List Nat) (hp : p.length = 20 ∨ (p.length = 32 ∧ a.pre = some [0])) (h : addressDecode H t a = .ok p)
    (ht : t = a.checksumType ++ 0x31 :: d) (hsmall : ∀ c ∈ t, ¬ Capital c)
    (hd : List.Forall₂ Symbol d ((a.pre.getD []).map UInt8.toNat ++ vs ++ cs)) (hn : vs.length = (8 * p.length + 4) / 5) (hcs : cs.length = 6)
    (hpad : number vs % 2 ^ (5 * vs.length - 8 * p.length) = 0) :
    addressEncode H p a = .ok t := by
  obtain ⟨h1, h2, h3, h4⟩ := (profiles_other a ha).2.2.2 hE
  rw [(bech32_unfold H hE p t).1, h1]
  have hlow : ∀ c ∈ a.checksumType, Small c := fun c hc => (Bech32.small_iff c).mpr (h4 c hc)
  have hsep : (0x31 : UInt8) ∉ a.checksumType := fun h => absurd (hlow _ h) (by decide)
  obtain ⟨pre, d', ws, k1, k2, k3, k4, k5⟩ := (C134_accepted H a hE t p).mp h
  -- the split is the expected one
  have hsplit : pre = a.checksumType ∧ d' = d := by
    rcases k1 with ⟨m1, m2, m3⟩ | ⟨⟨m1, _⟩, _⟩
    · have hsep' : (0x31 : UInt8) ∉ pre := fun h => by
        rcases m2 _ h with h | h <;> exact absurd h (by decide)
      have htw : ∀ (q r : Bytes), (0x31 : UInt8) ∉ q → (q ++ 0x31 :: r).takeWhile (· ≠ 0x31) = q := by
        intro q r hq
        rw [List.takeWhile_append_of_pos]
        · simp
        · intro c hcc; simp only [ne_eq, decide_not, Bool.not_eq_eq_eq_not, Bool.not_true, decide_eq_false_iff_not]
          rintro rfl; exact hq hcc
      have e := htw pre d' hsep'
      rw [← m3, ht, htw _ d hsep] at e
      subst e
      rw [ht] at m3
      have := List.append_cancel_left m3
      simp only [List.cons.injEq, true_and] at this
      exact ⟨rfl, this.symm⟩
    · exact absurd (by rw [ht]; simp) m1
  obtain ⟨rfl, rfl⟩ := hsplit
  have hws : ws = (a.pre.getD []).map UInt8.toNat ++ vs ++ cs := by
    have e1 := (Bech32.revAll_iff d' ws).mpr k3
    rw [(Bech32.revAll_iff d' _).mpr hd] at e1
    cases e1; rfl
  have hlt := Bech32.symbols_lt k3
  have hvslt : ∀ v ∈ vs, v < 32 := fun v hv => hlt v (by rw [hws]; simp [hv])
  have hcslt : ∀ v ∈ cs, v < 32 := fun v hv => hlt v (by rw [hws]; simp [hv])
  have hplt : ∀ v ∈ (a.pre.getD []).map UInt8.toNat, v < 32 := fun v hv => hlt v (by rw [hws]; simp only [List.mem_append]; tauto)
  have htake : ws.take (ws.length - 6) = (a.pre.getD []).map UInt8.toNat ++ vs := by
    rw [hws]; apply List.take_left'; simp only [List.length_append]; omega
  have hnum : number ((a.pre.getD []).map UInt8.toNat ++ vs) = number vs := by
    rcases h2 with h | h <;> rw [h]
    · rfl
    · simp [number]
  rw [htake, hnum] at k5
  have hprelen : (a.pre.getD []).length ≤ 1 := by rcases h2 with h | h <;> rw [h] <;> simp
  have hwl : ws.length = (a.pre.getD []).length + vs.length + 6 := by rw [hws]; simp [hcs]; omega
  have hnlt := Bech32.number_lt vs hvslt
  have hne : p ≠ [] := by rintro rfl; simp at hp
  -- the payload symbols
  have hext : Bech32.extendPayload p = vs := by
    apply Bech32m.horner_inj (b := 32) (by omega) _ _ (by rw [Bech32.extendPayload_length, hn]; omega) (Bech32.extendPayload_lt p) hvslt
    rw [Bech32.extendPayload_val p hne, ← Bech32.number_eq]
    rcases hp with hp | ⟨hp, hv⟩
    · rw [hp] at hn hpad ⊢
      norm_num at hn
      rw [hn] at hnlt
      rcases k5 with ⟨_, rfl⟩ | ⟨hx, _⟩ | ⟨hx, _⟩
      · rw [beNat_beBytes]
        norm_num at hnlt ⊢
        omega
      · omega
      · omega
    · rw [hp] at hn hpad ⊢
      norm_num at hn
      rw [hn] at hnlt
      rw [hn] at hpad
      rw [hv] at hwl
      simp only [Option.getD_some, List.length_singleton] at hwl
      rcases k5 with ⟨hx, _⟩ | ⟨hx, _⟩ | ⟨_, rfl⟩
      · omega
      · omega
      · rw [beNat_beBytes]
        norm_num at hnlt hpad ⊢
        omega
  have hck : cs = Bech32.calcChecksum a.checksumType ((a.pre.getD []).map UInt8.toNat ++ vs) := by
    apply Bech32.checksum_unique _ _ _ _ hcslt hcs
    · rw [← hws]; exact (C64_bech32_is_bip173 _ ws hlt).mpr k4
    · intro v hv
      rcases List.mem_append.mp hv with h | h
      · exact hplt v h
      · exact hvslt v h
  have hchars := Bech32.toChars_symbols hd (fun c hc => hsmall c (by rw [ht]; simp [hc]))
  unfold Bech32.encode
  rw [h1] at *
  simp only [hext]
  rw [← hck, hchars, ht]
  simp

example : addressDecode toyHashes (asc "bc1qw508d6qejxtdg4y5r3zarvary0c5xw7kv8f3t4") BTC_mainnetAddressBech32V0 = .ok
    [0x75, 0x1e, 0x76, 0xe8, 0x19, 0x91, 0x96, 0xd4, 0x54, 0x94, 0x1c, 0x45, 0xd1, 0xb3, 0xa3, 0x23, 0xf1, 0x43, 0x3b, 0xd6] := by decide +kernel

/-- C134 fails: a text with neither prefix nor separator is accepted; its first character is skipped. -/
theorem C134_no_separator_violated (H : Hashes) (a : AddressType) (hE : a.encodeType = asc "bech32") :
    addressDecode H (asc "qqqqqqqqqqqqqqqqqqqqqqqqqqqqqqqqpl8xqjr") a = .ok (List.replicate 19 0 ++ [1]) := by
  rw [(bech32_unfold H hE [] _).2]; decide +kernel

/-- C134 fails: the version symbol is not looked at. A text with any version symbol is accepted, as the payload of the profile's version. -/
theorem C134_version_violated (H : Hashes) (a : AddressType) (ha : a ∈ profiles) (hE : a.encodeType = asc "bech32") (v : UInt8) (hv : v.toNat < 32)
    (p : Bytes) (hp : p.length = 20 ∨ p.length = 32) :
    ∃ t, addressEncode H p { a with pre := some [v] } = .ok t ∧ addressDecode H t a = .ok p := by
  obtain ⟨h1, _, h3, h4⟩ := (profiles_other a ha).2.2.2 hE
  have hE' : ({ a with pre := some [v] } : AddressType).encodeType = asc "bech32" := hE
  have hne : p ≠ [] := by rintro rfl; simp at hp
  have hel := Bech32.extendPayload_length p
  have hval := Bech32.extendPayload_val p hne
  rw [← Bech32.number_eq] at hval
  have hdlt : ∀ x ∈ v.toNat :: Bech32.extendPayload p, x < 32 := by
    intro x hx
    rcases List.mem_cons.mp hx with rfl | h
    · exact hv
    · exact Bech32.extendPayload_lt p x h
  have hcl : (Bech32.calcChecksum a.checksumType (v.toNat :: Bech32.extendPayload p)).length = 6 := PolyMod.symbolsOf_length _ _
  have hver := Bech32.verify_calc a.checksumType (v.toNat :: Bech32.extendPayload p) hdlt
  have hall : ∀ x ∈ v.toNat :: Bech32.extendPayload p ++ Bech32.calcChecksum a.checksumType (v.toNat :: Bech32.extendPayload p), x < 32 := by
    intro x hx
    rcases List.mem_append.mp hx with h | h
    · exact hdlt x h
    · exact PolyMod.symbolsOf_lt _ _ x h
  obtain ⟨ds, r1, r2, r3⟩ := Bech32.stdChars _ hall
  have hnum : number (v.toNat :: Bech32.extendPayload p) = v.toNat * 32 ^ (Bech32.extendPayload p).length + number (Bech32.extendPayload p) := by
    rw [Bech32.number_eq, Bech32.number_eq, Base58.horner_eq 32 (Bech32.extendPayload p) 0]
    simp only [Base58.horner]
    rw [Base58.horner_eq]
    simp
  refine ⟨a.checksumType ++ 0x31 :: ds, ?_, ?_⟩
  · rw [(bech32_unfold H hE' p []).1]
    unfold Bech32.encode
    simp only [h1, Option.getD_some, List.map_cons, List.map_nil, List.singleton_append]
    rw [r1]
    simp only [List.append_assoc, List.cons_append, List.nil_append]
  · rw [C134_accepted H a hE]
    refine ⟨a.checksumType, ds, _, Or.inl ⟨h3, fun c hc => Or.inl ((Bech32.small_iff c).mpr (h4 c hc)), rfl⟩, ?_, (Bech32.revAll_iff ds _).mp r2,
      (C64_bech32_is_bip173 _ _ hall).mp hver, ?_⟩
    · right
      intro c hc
      rcases List.mem_append.mp hc with h | h
      · have := (Bech32.small_iff c).mpr (h4 c h)
        unfold Small at this; unfold Capital; omega
      rcases List.mem_cons.mp h with rfl | h
      · decide
      · rcases r3 c h with k | k
        · have := (Bech32.small_iff c).mpr k
          unfold Small at this; unfold Capital; omega
        · have := (Bech32.digit_iff c).mpr k.1
          unfold Digit at this; unfold Capital; omega
    · have hl : (v.toNat :: Bech32.extendPayload p ++ Bech32.calcChecksum a.checksumType (v.toNat :: Bech32.extendPayload p)).length =
          (p.length * 8 + 4) / 5 + 7 := by
        simp only [List.length_append, List.length_cons, hcl, hel]
      rw [hl, List.take_left' (by simp [hel]), hnum, hval, hel]
      have hpl := beNat_lt p
      generalize v.toNat = V
      rcases hp with hp | hp
      · left
        rw [hp] at hpl
        refine ⟨Or.inr (by omega), ?_⟩
        apply beNat_inj (by simp [hp])
        rw [beNat_beBytes, show (p.length * 8 + 4) / 5 = 32 by omega, show 5 * 32 - 8 * p.length = 0 by omega,
          show (32 : Nat) ^ 32 = 256 ^ 20 by norm_num, Nat.pow_zero, Nat.mul_one, Nat.add_comm, Nat.add_mul_mod_self_right, Nat.mod_eq_of_lt hpl]
      · right; right
        rw [hp] at hpl
        refine ⟨Or.inl (by omega), ?_⟩
        apply beNat_inj (by simp [hp])
        rw [beNat_beBytes, show (p.length * 8 + 4) / 5 = 52 by omega, show 5 * 52 - 8 * p.length = 4 by omega]
        exact (Bech32.drop_version V (beNat p) (32 ^ 52) (256 ^ 32) (by norm_num) hpl).symm

example : (BTC_mainnetAddressBech32V0 ∈ profiles ∧ BTC_mainnetAddressBech32V0.pre = some [0]) ∧ (1 : UInt8).toNat < 32 := by decide +kernel

/-- C134 fails: the padding bits are not looked at. Every 32-byte payload has sixteen accepted texts of one and the same prefix and version. -/
theorem C134_padding_violated (H : Hashes) (a : AddressType) (ha : a ∈ profiles) (hE : a.encodeType = asc "bech32")
    (p : Bytes) (hp : p.length = 32) (w : Nat) (hw : w < 16) :
    ∃ t d vs cs, t = a.checksumType ++ 0x31 :: d ∧ List.Forall₂ Symbol d (0 :: vs ++ cs) ∧ vs.length = 52 ∧ cs.length = 6 ∧
      number vs = 16 * beNat p + w ∧ addressDecode H t a = .ok p := by
  obtain ⟨_, _, h3, h4⟩ := (profiles_other a ha).2.2.2 hE
  have hne : p ≠ [] := by rintro rfl; simp at hp
  have hel := Bech32.extendPayload_length p
  have hval := Bech32.extendPayload_val p hne
  have hlt := Bech32.extendPayload_lt p
  rw [hp] at hel hval
  norm_num at hel hval
  obtain ⟨es, e, hes⟩ : ∃ es e, Bech32.extendPayload p = es ++ [e] := by
    have h0 : Bech32.extendPayload p ≠ [] := by intro h; rw [h] at hel; simp at hel
    exact ⟨_, _, (List.dropLast_append_getLast h0).symm⟩
  rw [hes] at hel hval hlt
  rw [← Bech32.number_eq, Bech32.number_snoc] at hval
  have helt := hlt e (by simp)
  have hvslt : ∀ v ∈ es ++ [e + w], v < 32 := by
    intro v hv
    rcases List.mem_append.mp hv with h | h
    · exact hlt v (by simp [h])
    · simp at h; omega
  have hnum : number (es ++ [e + w]) = 16 * beNat p + w := by rw [Bech32.number_snoc]; omega
  have hdlt : ∀ v ∈ 0 :: (es ++ [e + w]), v < 32 := by
    intro v hv
    rcases List.mem_cons.mp hv with rfl | h
    · omega
    · exact hvslt v h
  have hcl : (Bech32.calcChecksum a.checksumType (0 :: (es ++ [e + w]))).length = 6 := PolyMod.symbolsOf_length _ _
  have hcslt : ∀ v ∈ Bech32.calcChecksum a.checksumType (0 :: (es ++ [e + w])), v < 32 := PolyMod.symbolsOf_lt _ _
  have hver := Bech32.verify_calc a.checksumType (0 :: (es ++ [e + w])) hdlt
  have hall : ∀ v ∈ 0 :: (es ++ [e + w]) ++ Bech32.calcChecksum a.checksumType (0 :: (es ++ [e + w])), v < 32 := by
    intro v hv
    rcases List.mem_append.mp hv with h | h
    · exact hdlt v h
    · exact hcslt v h
  obtain ⟨ds, _, r2, r3⟩ := Bech32.stdChars _ hall
  refine ⟨_, ds, es ++ [e + w], _, rfl, (Bech32.revAll_iff ds _).mp r2, by simpa using hel, hcl, hnum, ?_⟩
  rw [C134_accepted H a hE]
  refine ⟨a.checksumType, ds, _, Or.inl ⟨h3, fun c hc => Or.inl ((Bech32.small_iff c).mpr (h4 c hc)), rfl⟩, ?_, (Bech32.revAll_iff ds _).mp r2,
    (C64_bech32_is_bip173 _ _ hall).mp hver, ?_⟩
  · right
    intro c hc
    rcases List.mem_append.mp hc with h | h
    · have := (Bech32.small_iff c).mpr (h4 c h)
      unfold Small at this; unfold Capital; omega
    rcases List.mem_cons.mp h with rfl | h
    · decide
    · rcases r3 c h with k | k
      · have := (Bech32.small_iff c).mpr k
        unfold Small at this; unfold Capital; omega
      · have := (Bech32.digit_iff c).mpr k.1
        unfold Digit at this; unfold Capital; omega
  · right; right
    have hes2 : es.length = 51 := by simpa using hel
    have hl : (0 :: (es ++ [e + w]) ++ Bech32.calcChecksum a.checksumType (0 :: (es ++ [e + w]))).length = 59 := by
      simp only [List.length_append, List.length_cons, List.length_nil, hcl, hes2]
    refine ⟨Or.inl hl, ?_⟩
    rw [hl, List.take_left' (by simp [hes2])]
    have : number (0 :: (es ++ [e + w])) = number (es ++ [e + w]) := by simp [number]
    rw [this, hnum, show (16 * beNat p + w) / 16 = beNat p by omega, ← hp]
    exact (beBytes_beNat p).symm

example : (List.replicate 32 (7 : UInt8)).length = 32 ∧ LTC_mainnetAddressBech32V0 ∈ profiles := by decide +kernel

/-! ## C135 -/

/-- C135: `AddressDecode` under the cashaddr profile returns `p` for exactly these texts: letters of one case and digits; a prefix of letters, ':' and data
symbols, or no ':' at all and data symbols after the first character; if the prefix is "bitcoincash" in small letters, a correct checksum; 42 or 43
symbols. -/
theorem C135_accepted (H : Hashes) (t p : Bytes) :
    addressDecode H t BCH_mainnetAddressCash = .ok p ↔
      ∃ pre d vs, (Separated 0x3a t pre d ∨ (Unseparated 0x3a t d ∧ pre = t)) ∧ OneCase t ∧ List.Forall₂ Symbol d vs ∧
        (pre = asc "bitcoincash" →
          remainder cashGen (1 :: (cashPrefixSymbols (asc "bitcoincash") ++ vs)) = [0, 0, 0, 0, 0, 0, 0, 1]) ∧
        ((vs.length = 42 ∧ p = beBytes 21 (number (vs.take 34) / 4)) ∨ (vs.length = 43 ∧ p = beBytes 21 (number (vs.take 34)))) := by
  rw [(cash_unfold H p t).2]
  constructor
  · intro h
    rw [Res.bind_eq_ok] at h
    obtain ⟨r, h1, h2⟩ := h
    split_ifs at h2 with hl
    cases h2
    unfold CashAddr.decode at h1
    rw [Res.bind_eq_ok] at h1
    obtain ⟨⟨pre, vs⟩, h3, h4⟩ := h1
    obtain ⟨d, k1, k2, k3⟩ := (Bech32.parse_iff 0x3a (Or.inr rfl) t pre vs).mp h3
    have hlt := Bech32.symbols_lt k3
    dsimp only at h4
    by_cases hc : pre = asc "bitcoincash" ∧ (!CashAddr.verifyChecksum CashAddr.bitcoincashExpandPrefix vs) = true
    · rw [if_pos hc] at h4; cases h4
    · rw [if_neg hc] at h4
      refine ⟨pre, d, vs, k1, k2, k3, fun hpre => (C64_cashaddr_is_spec vs hlt).mp ?_,
        (CashAddr.decode_payload vs hlt p).mp ⟨h4, by omega⟩⟩
      cases hv : CashAddr.verifyChecksum CashAddr.bitcoincashExpandPrefix vs with
      | true => rfl
      | false => exact absurd ⟨hpre, by simp [hv]⟩ hc
  · rintro ⟨pre, d, vs, k1, k2, k3, k4, k5⟩
    have hlt := Bech32.symbols_lt k3
    obtain ⟨e1, e2⟩ := (CashAddr.decode_payload vs hlt p).mpr k5
    have hd : CashAddr.decode t = .ok p := by
      unfold CashAddr.decode
      rw [(Bech32.parse_iff 0x3a (Or.inr rfl) t pre vs).mpr ⟨d, k1, k2, k3⟩]
      simp only [Res.bind_ok]
      rw [if_neg, e1]
      rintro ⟨hpre, hv⟩
      rw [(C64_cashaddr_is_spec vs hlt).mpr (k4 hpre)] at hv
      cases hv
    rw [hd]
    simp only [Res.bind_ok]
    rw [if_neg (by omega)]

/-- C135, partial: an accepted text with the prefix "bitcoincash", no capital letters, 42 symbols, zero padding bits and the type byte zero is the text that
`AddressEncode` writes for the result. Missing: the decoder demands none of these conditions. -/
theorem C135_canonical_partial (H : Hashes) (t h d : Bytes) (vs cs : List Nat) (hh : addressDecode H t BCH_mainnetAddressCash = .ok (0 :: h))
    (ht : t = asc "bitcoincash" ++ 0x3a :: d) (hsmall : ∀ c ∈ t, ¬ Capital c) (hd : List.Forall₂ Symbol d (vs ++ cs))
    (hn : vs.length = 34) (hcs : cs.length = 8) (hpad : number vs % 4 = 0) :
    addressEncode H (0 :: h) BCH_mainnetAddressCash = .ok t := by
  obtain ⟨pre, d', ws, k1, k2, k3, k4, k5⟩ := (C135_accepted H t (0 :: h)).mp hh
  have hsep : (0x3a : UInt8) ∉ asc "bitcoincash" := by decide +kernel
  have hsplit : pre = asc "bitcoincash" ∧ d' = d := by
    rcases k1 with ⟨m1, m2, m3⟩ | ⟨⟨m1, _⟩, _⟩
    · have hsep' : (0x3a : UInt8) ∉ pre := fun h => by
        rcases m2 _ h with h | h <;> exact absurd h (by decide)
      have htw : ∀ (q r : Bytes), (0x3a : UInt8) ∉ q → (q ++ 0x3a :: r).takeWhile (· ≠ 0x3a) = q := by
        intro q r hq
        rw [List.takeWhile_append_of_pos]
        · simp
        · intro c hcc; simp only [ne_eq, decide_not, Bool.not_eq_eq_eq_not, Bool.not_true, decide_eq_false_iff_not]
          rintro rfl; exact hq hcc
      have e := htw pre d' hsep'
      rw [← m3, ht, htw _ d hsep] at e
      subst e
      rw [ht] at m3
      have := List.append_cancel_left m3
      simp only [List.cons.injEq, true_and] at this
      exact ⟨rfl, this.symm⟩
    · exact absurd (by rw [ht]; simp) m1
  obtain ⟨rfl, rfl⟩ := hsplit
  have hws : ws = vs ++ cs := by
    have e1 := (Bech32.revAll_iff d' ws).mpr k3
    rw [(Bech32.revAll_iff d' _).mpr hd] at e1
    cases e1; rfl
  have hlt := Bech32.symbols_lt k3
  have hvslt : ∀ v ∈ vs, v < 32 := fun v hv => hlt v (by rw [hws]; simp [hv])
  have hcslt : ∀ v ∈ cs, v < 32 := fun v hv => hlt v (by rw [hws]; simp [hv])
  have htake : ws.take 34 = vs := by rw [hws]; exact List.take_left' hn
  have hwl : ws.length = 42 := by rw [hws]; simp [hn, hcs]
  rw [htake] at k5
  have hp : (0 :: h) = beBytes 21 (number vs / 4) := by
    rcases k5 with ⟨_, h⟩ | ⟨h, _⟩
    · exact h
    · omega
  have hhl : h.length = 20 := by have := congrArg List.length hp; simpa using this
  have hnlt := Bech32.number_lt vs hvslt
  rw [hn] at hnlt
  have hext : CashAddr.extendPayload (0 :: h) = .ok vs := by
    have e : CashAddr.extendPayload (0 :: h) = .ok (Bech32.extendPayload (0 :: h)) := rfl
    rw [e]
    congr 1
    apply Bech32m.horner_inj (b := 32) (by omega) _ _ (by rw [Bech32.extendPayload_length]; simp [hn, hhl]) (Bech32.extendPayload_lt _) hvslt
    rw [Bech32.extendPayload_val _ (by simp), ← Bech32.number_eq, hp, beNat_beBytes]
    simp only [beBytes_length]
    norm_num at hnlt ⊢
    omega
  have hck : cs = CashAddr.calcChecksum CashAddr.bitcoincashExpandPrefix vs := by
    apply CashAddr.checksum_unique _ _ hvslt hcslt hcs
    rw [← hws]; exact (C64_cashaddr_is_spec ws hlt).mpr (k4 rfl)
  have hchars := Bech32.toChars_symbols hd (fun c hc => hsmall c (by rw [ht]; simp [hc]))
  rw [(cash_unfold H (0 :: h) t).1]
  rw [if_neg (by simp [hhl])]
  unfold CashAddr.encode
  simp only [hext, Res.bind_ok, if_true]
  rw [← hck, hchars, ht]
  simp

example : addressDecode toyHashes (asc "bitcoincash:qpm2qsznhks23z7629mms6s4cwef74vcwvy22gdx6a") BCH_mainnetAddressCash = .ok
    [0x00, 0x76, 0xa0, 0x40, 0x53, 0xbd, 0xa0, 0xa8, 0x8b, 0xda, 0x51, 0x77, 0xb8, 0x6a, 0x15, 0xc3, 0xb2, 0x9f, 0x55, 0x98, 0x73] := by decide +kernel

/-- C135 fails: with no separator nothing is checked at all. Any 43 characters of the alphabet are accepted, whatever they are. -/
theorem C135_no_separator_violated (H : Hashes) (t : Bytes) (hl : t.length = 43) (ht : ∀ c ∈ t, c ∈ alphabet) :
    ∃ p, addressDecode H t BCH_mainnetAddressCash = .ok p := by
  have key : ∀ c : UInt8, c ∈ alphabet → (∃ v : Fin 32, Symbol c v.val) ∧ ¬ Capital c ∧ (Small c ∨ Capital c ∨ Digit c) ∧ c ≠ 0x3a := by
    apply Hex.u8_forall; decide +kernel
  obtain ⟨x, d, rfl⟩ : ∃ x d, t = x :: d := by
    cases t with
    | nil => simp at hl
    | cons x d => exact ⟨x, d, rfl⟩
  have hsym : ∀ d : Bytes, (∀ c ∈ d, c ∈ alphabet) → ∃ vs, List.Forall₂ Symbol d vs := by
    intro d
    induction d with
    | nil => intro _; exact ⟨[], .nil⟩
    | cons c cs ih =>
      intro h
      obtain ⟨vs, hv⟩ := ih (fun x hx => h x (by simp [hx]))
      obtain ⟨⟨v, h1⟩, _⟩ := key c (h c (by simp))
      exact ⟨v.val :: vs, .cons h1 hv⟩
  obtain ⟨vs, hvs⟩ := hsym d (fun c hc => ht c (by simp [hc]))
  have hlen : vs.length = 42 := by have := hvs.length_eq; simp at hl; omega
  refine ⟨beBytes 21 (number (vs.take 34) / 4), ?_⟩
  rw [C135_accepted]
  refine ⟨x :: d, d, vs, Or.inr ⟨⟨fun h => (key _ (ht _ h)).2.2.2 rfl, x, (key x (ht x (by simp))).2.2.1, rfl⟩, rfl⟩,
    Or.inr (fun c hc => (key c (ht c hc)).2.1), hvs, ?_, Or.inl ⟨hlen, rfl⟩⟩
  intro h
  have := congrArg List.length h
  rw [hl] at this
  exact absurd this (by decide)

example : (List.replicate 43 (0x71 : UInt8)).length = 43 ∧ ∀ c ∈ List.replicate 43 (0x71 : UInt8), c ∈ alphabet := by decide +kernel

/-- C135 fails: a text in capital letters is accepted without a look at the checksum. Here the last character of an address has been altered. -/
theorem C135_capitals_violated (H : Hashes) :
    addressDecode H (asc "BITCOINCASH:QPM2QSZNHKS23Z7629MMS6S4CWEF74VCWVY22GDX6Q") BCH_mainnetAddressCash = .ok
      [0x00, 0x76, 0xa0, 0x40, 0x53, 0xbd, 0xa0, 0xa8, 0x8b, 0xda, 0x51, 0x77, 0xb8, 0x6a, 0x15, 0xc3, 0xb2, 0x9f, 0x55, 0x98, 0x73] ∧
    addressDecode H (asc "bitcoincash:qpm2qsznhks23z7629mms6s4cwef74vcwvy22gdx6q") BCH_mainnetAddressCash = .err := by
  rw [(cash_unfold H [] _).2, (cash_unfold H [] _).2]; decide +kernel

end Verif
