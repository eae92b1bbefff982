import Verif.Lemmas.Bech32Err
import Verif.Lemmas.AddressEncoder

/-! C07-C12: bech32, bech32m and cashaddr.  -/

namespace Verif
open Verif.Spec

/-! ## C08 checksums verify -/

/-- C08, bech32: for every prefix and every data part, the written checksum verifies. -/
theorem C08_bech32_checksum_verifies (hrp : Bytes) (data : List Nat) (hd : ∀ v ∈ data, v < 32) :
    Bech32.verifyChecksum hrp (data ++ Bech32.calcChecksum hrp data) = true :=
  Bech32.verify_calc hrp data hd

/-- C08, bech32m file, both variants; verification also tells which variant was written. -/
theorem C08_bech32m_checksum_verifies (hrp : Bytes) (data : List Nat) (hd : ∀ v ∈ data, v < 32) (s : Bech32m.Spec) :
    Bech32m.verifyChecksum hrp (data ++ Bech32m.createChecksum hrp data s) = some s :=
  Bech32m.verify_create hrp data hd s

/-- C08, cashaddr (the code has one built-in prefix). -/
theorem C08_cashaddr_checksum_verifies (data : List Nat) (hd : ∀ v ∈ data, v < 32) :
    CashAddr.verifyChecksum CashAddr.bitcoincashExpandPrefix
      (data ++ CashAddr.calcChecksum CashAddr.bitcoincashExpandPrefix data) = true :=
  CashAddr.verify_calc data hd

-- the official BIP173 test address: data part of BC1QW508D6QEJXTDG4Y5R3ZARVARY0C5XW7KV8F3T4
example : Bech32.calcChecksum (asc "bc") [0, 14, 20, 15, 7, 13, 26, 0, 25, 18, 6, 11, 13, 8, 21, 4, 20, 3, 17, 2, 29,
    3, 12, 29, 3, 4, 15, 24, 20, 6, 14, 30, 22] = [12, 7, 9, 17, 11, 21] := by decide +kernel

/-! ## C09 a single wrong character is detected -/

/-- C09, bech32: if an address `hrp 1 data` is accepted, replacing one character after the separator by any other
character (letter of either case, digit, separator or foreign character) makes decoding fail. -/
theorem C09_bech32_single_error (hrp a b : Bytes) (c c' : UInt8) (hn : (0x31 : UInt8) ∉ hrp) (hne : c ≠ c')
    (p : Bytes) (h : Bech32.decode (hrp ++ 0x31 :: (a ++ c :: b)) = .ok p) :
    ∀ q, Bech32.decode (hrp ++ 0x31 :: (a ++ c' :: b)) ≠ .ok q := by
  intro q hq
  obtain ⟨p1, vs, h1, h2⟩ := Bech32.decode_ok h
  obtain ⟨p1', vs', h1', h2'⟩ := Bech32.decode_ok hq
  obtain ⟨rfl, rfl, va, v, v', vb, rfl, rfl, hv, hlt, hlt'⟩ :=
    Bech32.parse_single 0x31 (Or.inl rfl) hrp a b c c' hn hne _ _ _ _ h1 h1'
  rw [Bech32.verify_single _ va vb v v' hlt hlt' hv h2] at h2'
  cases h2'

/-- C09, cashaddr. -/
theorem C09_cashaddr_single_error (a b : Bytes) (c c' : UInt8) (hne : c ≠ c')
    (p : Bytes) (h : CashAddr.decode (asc "bitcoincash" ++ 0x3a :: (a ++ c :: b)) = .ok p) :
    ∀ q, CashAddr.decode (asc "bitcoincash" ++ 0x3a :: (a ++ c' :: b)) ≠ .ok q := by
  intro q hq
  obtain ⟨p1, vs, h1, h2⟩ := CashAddr.decode_ok h
  obtain ⟨p1', vs', h1', h2'⟩ := CashAddr.decode_ok hq
  obtain ⟨rfl, rfl, va, v, v', vb, rfl, rfl, hv, hlt, hlt'⟩ :=
    Bech32.parse_single 0x3a (Or.inr rfl) (asc "bitcoincash") a b c c' (by decide) hne _ _ _ _ h1 h1'
  have h3 := h2' rfl
  rw [CashAddr.verify_single _ va vb v v' hlt hlt' hv (h2 rfl)] at h3
  cases h3

/-- C09, bech32m: a verified data part no longer verifies (under the same variant) after changing one symbol. -/
theorem C09_bech32m_single_error (hrp : Bytes) (a b : List Nat) (s s' : Nat) (hs : s < 32) (hs' : s' < 32)
    (hne : s ≠ s') (spec : Bech32m.Spec) (h : Bech32m.verifyChecksum hrp (a ++ s :: b) = some spec) :
    Bech32m.verifyChecksum hrp (a ++ s' :: b) ≠ some spec :=
  Bech32m.verify_single hrp a b s s' hs hs' hne spec h

example : Bech32.decode (asc "bc1qw508d6qejxtdg4y5r3zarvary0c5xw7kv8f3t4") =
    .ok [0x75, 0x1e, 0x76, 0xe8, 0x19, 0x91, 0x96, 0xd4, 0x54, 0x94, 0x1c, 0x45, 0xd1, 0xb3, 0xa3, 0x23, 0xf1, 0x43,
      0x3b, 0xd6] := by decide +kernel
example : Bech32.decode (asc "bc1qw508d6qejxtdg4y5r3zarvary0c5xw7kv8f3tq") = .err := by decide +kernel

/-! ## C11 bech32m -/

/-- C11 (a): regrouping bytes into 5-bit symbols with padding and back without padding is the identity. -/
theorem C11_convertbits_roundtrip (data : List Nat) (hd : ∀ v ∈ data, v < 256) :
    ∃ c, Bech32m.convertbits data 8 5 true = .ok c ∧ (∀ v ∈ c, v < 32) ∧ c.length = (8 * data.length + 4) / 5 ∧
      Bech32m.convertbits c 5 8 false = .ok data := by
  obtain ⟨c, c1, c2, c3, c4⟩ := Bech32m.conv85 data hd
  exact ⟨c, c1, c3, c2, Bech32m.conv58 data c hd c2 c3 c4⟩

/-- C11 (b): Bech32m round trip for every payload whose text fits in 90 characters, for every prefix of printable
characters without upper case. -/
theorem C11_bech32m_roundtrip (hrp payload : Bytes) (hne : hrp ≠ [])
    (hh : ∀ c ∈ hrp, 33 ≤ c ∧ c ≤ 126 ∧ ¬ (0x41 ≤ c ∧ c ≤ 0x5a))
    (hlen : hrp.length + 1 + (8 * payload.length + 4) / 5 + 6 ≤ 90) :
    ∃ t, Bech32m.bech32mEncode hrp payload Bech32.stdAlphabet = .ok t ∧
      t.length = hrp.length + 1 + (8 * payload.length + 4) / 5 + 6 ∧
      Bech32m.bech32mDecode t hrp Bech32.stdAlphabet = .ok (some payload) :=
  Bech32m.roundtrip hrp payload ⟨hne, fun c hc => ⟨(hh c hc).1, (hh c hc).2.1, by
    simp [Bech32m.toLower, (hh c hc).2.2]⟩⟩ hlen

example : (3 + 1 + (8 * 32 + 4) / 5 + 6 ≤ 90) := by decide

/-! ## C56 upper-case forms -/

/-- C56 fails for bech32: BIP173 asks decoders to accept the all-upper-case form of an address; this (the first address of
the BIP) is rejected although its lower-case form is accepted. -/
theorem C56_bech32_upper_case_violated :
    Bech32.decode (asc "BC1QW508D6QEJXTDG4Y5R3ZARVARY0C5XW7KV8F3T4") = .err ∧
    (Bech32.decode (asc "bc1qw508d6qejxtdg4y5r3zarvary0c5xw7kv8f3t4")).isOk = true := by decide +kernel

/-- C56 fails for cashaddr: an upper-case address is accepted without any look at its checksum. -/
theorem C56_cashaddr_upper_case_unchecked_violated :
    CashAddr.decode (asc "BITCOINCASH:QQQQQQQQQQQQQQQQQQQQQQQQQQQQQQQQQQQQQQQQQQ") = .ok (List.replicate 21 0) ∧
    CashAddr.decode (asc "bitcoincash:qqqqqqqqqqqqqqqqqqqqqqqqqqqqqqqqqqqqqqqqqq") = .err := by decide +kernel

/-- C56 holds for bech32m: a text and its upper-case form decode alike. -/
theorem C56_bech32m_upper_case_partial (t hrp charset : Bytes) (ht : t.map Bech32m.toLower = t) :
    Bech32m.bech32mDecode (t.map Bech32m.toUpper) hrp charset = Bech32m.bech32mDecode t hrp charset := by
  have h1 : ∀ c : UInt8, Bech32m.toLower c = c → Bech32m.toLower (Bech32m.toUpper c) = c := by
    apply Hex.u8_forall; decide +kernel
  have h2 : ∀ c : UInt8, Bech32m.toUpper (Bech32m.toUpper c) = Bech32m.toUpper c := by
    apply Hex.u8_forall; decide +kernel
  have hl : (t.map Bech32m.toUpper).map Bech32m.toLower = t := by
    clear h2
    induction t with
    | nil => rfl
    | cons x xs ih =>
      simp only [List.map_cons, List.cons.injEq] at ht ⊢
      exact ⟨h1 x ht.1, ih ht.2⟩
  have hu : (t.map Bech32m.toUpper).map Bech32m.toUpper = t.map Bech32m.toUpper := by
    simp [h2]
  have : Bech32m.decode (t.map Bech32m.toUpper) charset = Bech32m.decode t charset := by
    unfold Bech32m.decode
    simp only [List.length_map, hl, hu, ht]
    simp
  unfold Bech32m.bech32mDecode
  rw [this]

example : (asc "xch1qyp07ferw55").map Bech32m.toLower = asc "xch1qyp07ferw55" := by decide +kernel

end Verif
