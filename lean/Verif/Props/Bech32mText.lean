import Verif.Lemmas.Bech32mText

/-! C133: which texts are accepted as Bech32m addresses, when texts may contain any characters. -/

namespace Verif
open Verif.Addr Verif.Spec Verif.Bech32m

private theorem ok_iff (H : Hashes) {a : AddressType} (hE : a.encodeType = asc "bech32m") (t p : Bytes) (hp : p ≠ []) :
    addressDecode H t a = .ok p ↔ bech32mDecode t a.checksumType a.alphabet = .ok (some p) := by
  have hunf : addressDecode H t a = (match bech32mDecode t a.checksumType a.alphabet with
        | .ok (some b) => .ok b
        | .ok none => .ok []
        | .err => .err
        | .panic => .panic) := by
      unfold addressDecode; rw [hE]; rfl
  rw [hunf]
  cases h : bech32mDecode t a.checksumType a.alphabet with
  | ok o => cases o <;> simp [hp, eq_comm]
  | err => simp
  | panic => simp

private theorem text_ok_iff (T : CaseTable) (a : AddressType) (t p : Bytes) (hp : p ≠ []) :
    addressDecodeText T t a = .ok p ↔ bech32mDecodeText T t a.checksumType a.alphabet = .ok (some p) := by
  unfold addressDecodeText
  cases h : bech32mDecodeText T t a.checksumType a.alphabet with
  | ok o => cases o <;> simp [hp, eq_comm]
  | err => simp
  | panic => simp

/-- C133: on texts of ASCII characters nothing depends on the tables of letter case, so Model/Bech32m.lean describes the decoder there. -/
theorem C133_ascii (H : Hashes) (T : CaseTable) (a : AddressType) (hE : a.encodeType = asc "bech32m") (s : Bytes) (hs : Ascii s) :
    addressDecodeText T s a = addressDecode H s a := by
  unfold addressDecodeText
  rw [bech32mDecodeText_ascii T hs]
  unfold addressDecode
  rw [hE]
  rfl

/-- C133, which texts are accepted: those of ASCII characters that are accepted, and the same written in capitals with some letters K replaced by the Kelvin
sign (and some letters I by the dotted capital I), as long as the text takes at most ninety bytes. -/
theorem C133_accepted (H : Hashes) (T : CaseTable) (hT : GoCase T) (a : AddressType) (hE : a.encodeType = asc "bech32m")
    (ha : Ascii a.alphabet) (s p : Bytes) (hp : p ≠ []) :
    addressDecodeText T s a = .ok p ↔
      s.length ≤ 90 ∧ ∃ t, Ascii t ∧ addressDecode H t a = .ok p ∧ (s = t ∨ (t.map toUpper = t ∧ Disguise t s)) := by
  rw [text_ok_iff T a s p hp]
  constructor
  · intro h
    unfold bech32mDecodeText at h
    rw [Res.bind_eq_ok] at h
    obtain ⟨r, h1, h2⟩ := h
    obtain ⟨hn, t, t1, t2, t3⟩ := (decodeText_ok_iff hT ha s r).mp h1
    refine ⟨hn, t, t1, (ok_iff H hE t p hp).mpr ?_, t3⟩
    unfold bech32mDecode
    rw [t2]
    exact h2
  · rintro ⟨hn, t, t1, t2, t3⟩
    have t2' := (ok_iff H hE t p hp).mp t2
    unfold bech32mDecode at t2'
    rw [Res.bind_eq_ok] at t2'
    obtain ⟨r, h1, h2⟩ := t2'
    unfold bech32mDecodeText
    rw [(decodeText_ok_iff hT ha s r).mpr ⟨hn, t, t1, h1, t3⟩]
    exact h2

/-- C133, partial: a text with a small letter in it (such as every text the encoder writes) is only accepted when all its characters are ASCII.
Missing: texts in capitals (`C133_ascii_only_violated`). -/
theorem C133_small_letters_partial (H : Hashes) (T : CaseTable) (hT : GoCase T) (a : AddressType) (hE : a.encodeType = asc "bech32m")
    (ha : Ascii a.alphabet) (s p : Bytes) (hp : p ≠ []) (c : UInt8) (hc : c ∈ s) (hl : 0x61 ≤ c ∧ c ≤ 0x7a)
    (h : addressDecodeText T s a = .ok p) : Ascii s := by
  obtain ⟨_, t, t1, _, rfl | ⟨t3, t4⟩⟩ := (C133_accepted H T hT a hE ha s p hp).mp h
  · exact t1
  · exfalso
    have hmem : ∀ {t s : Bytes}, Disguise t s → c ∈ s → c ∈ t := by
      intro t s hd
      have hk : c ∉ kelvin := by
        intro hm
        simp only [kelvin, List.mem_cons, List.not_mem_nil, or_false] at hm
        rcases hm with rfl | rfl | rfl <;> revert hl <;> decide
      have hi : c ∉ dottedI := by
        intro hm
        simp only [dottedI, List.mem_cons, List.not_mem_nil, or_false] at hm
        rcases hm with rfl | rfl <;> revert hl <;> decide
      induction hd with
      | nil => exact id
      | same x _ ih =>
        intro hm
        rcases List.mem_cons.mp hm with rfl | hm
        · exact List.mem_cons_self
        · exact List.mem_cons_of_mem _ (ih hm)
      | k _ ih =>
        intro hm
        rcases List.mem_append.mp hm with hm | hm
        · exact absurd hm hk
        · exact List.mem_cons_of_mem _ (ih hm)
      | i _ ih =>
        intro hm
        rcases List.mem_append.mp hm with hm | hm
        · exact absurd hm hi
        · exact List.mem_cons_of_mem _ (ih hm)
    have hct := hmem t4 hc
    have hfix : ∀ x ∈ t, toUpper x = x := by
      intro x hx
      obtain ⟨i, hi, rfl⟩ := List.getElem_of_mem hx
      have := congrArg (fun l => l[i]?) t3
      simpa [hi] using this
    have key : ∀ x : UInt8, 0x61 ≤ x ∧ x ≤ 0x7a → toUpper x ≠ x := by
      apply Hex.u8_forall; decide +kernel
    exact key c hl (hfix c hct)

/-- C133 fails: a Chia address written in capitals with the Kelvin sign for the letter K, which no other decoder takes for the same text, is accepted. -/
theorem C133_ascii_only_violated (T : CaseTable) (hT : GoCase T) :
    ∃ s, ¬ Ascii s ∧ kelvin <:+: s ∧ addressDecodeText T s XCH_mainnetAddress = .ok [1, 2, 5] := by
  refine ⟨asc "XCH1QYPQ25DWTU" ++ kelvin, ?_, ⟨asc "XCH1QYPQ25DWTU", [], by simp⟩, ?_⟩
  · intro h
    exact absurd (h 0xe2 (by simp [kelvin])) (by decide)
  · refine (C133_accepted toyHashes T hT XCH_mainnetAddress rfl ?_ _ _ (by simp)).mpr
      ⟨by decide, asc "XCH1QYPQ25DWTUK", ?_, by decide +kernel, Or.inr ⟨by decide +kernel, ?_⟩⟩
    · unfold Ascii; decide +kernel
    · unfold Ascii; decide +kernel
    · have : ∀ w : Bytes, Disguise (w ++ [0x4b]) (w ++ kelvin) := by
        intro w
        induction w with
        | nil => exact Disguise.k .nil
        | cons x xs ih => exact .same x ih
      exact this (asc "XCH1QYPQ25DWTU")

/-- Tables of letter case that agree with Go's on the two letters and send every other character to the replacement character. -/
def exampleCase : CaseTable where
  lower g := if g = kelvin then [0x6b] else if g = dottedI then [0x69] else [0xef, 0xbf, 0xbd]
  upper g := if g = kelvin then kelvin else if g = dottedI then dottedI else [0xef, 0xbf, 0xbd]

theorem exampleCase_go : GoCase exampleCase where
  kelvin_lower := by decide
  kelvin_upper := by decide
  dotted_lower := by decide
  dotted_upper := by decide
  other_lower g h1 h2 := by
    simp only [exampleCase, h1, h2, if_false]
    decide

example : addressDecodeText exampleCase (asc "xch1qypq25dwtuk") XCH_mainnetAddress = .ok [1, 2, 5] := by decide +kernel
example : addressDecodeText exampleCase (asc "XCH1QYPQ25DWTUK") XCH_mainnetAddress = .ok [1, 2, 5] := by decide +kernel
example : addressDecodeText exampleCase (asc "XCH1QYPQ25DWTU" ++ kelvin) XCH_mainnetAddress = .ok [1, 2, 5] := by decide +kernel
example : addressDecodeText exampleCase (asc "xch1qypq25dwtu" ++ kelvin) XCH_mainnetAddress = .err := by decide +kernel
example : addressDecodeText exampleCase (asc "XCH1QYPQ25DWTU" ++ [0xc3, 0x84]) XCH_mainnetAddress = .err := by decide +kernel
example : Ascii XCH_mainnetAddress.alphabet := by unfold Ascii; decide +kernel

end Verif
