import Verif.Lemmas.Base58Conv

/-! C01, C02: Base58. -/

namespace Verif
open Verif.Spec

/-- A concrete alphabet used by the non-vacuity examples (`BTCAlphabet`, encoderProfile.go:4). -/
def btcAlphabetEx : Bytes := asc "123456789ABCDEFGHJKLMNPQRSTUVWXYZabcdefghijkmnopqrstuvwxyz"

example : IsAlphabet btcAlphabetEx := ⟨by decide, by decide⟩

/-- C01. For every byte string and every alphabet, encoding succeeds (no scratch-buffer overrun), yields the
standard Base58 text, and decoding that text returns exactly the byte string. -/
theorem C01_base58_roundtrip {α : Type} [DecidableEq α] (alph : List α) (hal : IsAlphabet alph) (b : Bytes) :
    ∃ t, Base58.encode alph b = .ok t ∧ IsBase58 alph b t ∧ Base58.decode alph t = .ok b := by
  have hlt := Base58.conv_lt (a := 256) (b := 58) (by omega) (b.map UInt8.toNat)
  rw [← Base58.base58Digits_eq] at hlt
  obtain ⟨t, ht, hm⟩ := Base58.symbols_eq alph hal.length (base58Digits b) hlt
  refine ⟨t, ?_, hm, ?_⟩
  · rw [Base58.encode_eq alph hal.length, ht]
  · obtain ⟨h1, h2⟩ := Base58.idxOf_symbols alph hal _ _ ht
    rw [Base58.decode_eq alph hal t h2, h1, Base58.base58Digits_eq, Base58.conv_conv (by omega)]
    · rw [Base58.map_toNat_ofNat]
    · intro d hd
      obtain ⟨x, _, rfl⟩ := List.mem_map.mp hd
      exact x.toNat_lt

-- [0,0,1,2] has two leading zero bytes and the number 258 = 4*58+26
example : Base58.encode btcAlphabetEx [0, 0, 1, 2] = .ok (asc "115T") := by decide +kernel
example : Base58.decode btcAlphabetEx (asc "115T") = .ok [0, 0, 1, 2] := by decide +kernel

/-- C02 (a). Decoding never panics, and fails exactly on texts with a symbol outside the alphabet. -/
theorem C02_base58_decode_total {α : Type} [DecidableEq α] (alph : List α) (hal : IsAlphabet alph)
    (t : List α) :
    ((∀ c ∈ t, c ∈ alph) → ∃ b, Base58.decode alph t = .ok b) ∧
    ((∃ c ∈ t, c ∉ alph) → Base58.decode alph t = .err) := by
  constructor
  · intro h; exact ⟨_, Base58.decode_eq alph hal t h⟩
  · rintro ⟨c, hc, hn⟩
    exact Base58.decode_err alph hal t (fun h => hn (h c hc))

example : Base58.decode btcAlphabetEx (asc "1l5T") = .err := by decide +kernel

/-- C02 (b). Whatever text decodes, re-encoding the bytes gives back that very text. -/
theorem C02_base58_canonical {α : Type} [DecidableEq α] (alph : List α) (hal : IsAlphabet alph)
    (t : List α) (b : Bytes) (h : Base58.decode alph t = .ok b) : Base58.encode alph b = .ok t := by
  by_cases ht : ∀ c ∈ t, c ∈ alph
  · rw [Base58.decode_eq alph hal t ht] at h
    cases h
    rw [Base58.encode_eq alph hal.length, Base58.base58Digits_eq, Base58.map_ofNat_toNat,
      Base58.conv_conv (by omega), Base58.symbols_idxOf alph t ht]
    · intro d hd
      obtain ⟨c, hc, rfl⟩ := List.mem_map.mp hd
      rw [← hal.length]; exact List.idxOf_lt_length_of_mem (ht c hc)
    · exact Base58.conv_lt (by omega) _
  · rw [Base58.decode_err alph hal t ht] at h; cases h

/-- C02 (c). Two different texts never decode to the same bytes. -/
theorem C02_base58_decode_injective {α : Type} [DecidableEq α] (alph : List α) (hal : IsAlphabet alph)
    (t₁ t₂ : List α) (b : Bytes) (h₁ : Base58.decode alph t₁ = .ok b) (h₂ : Base58.decode alph t₂ = .ok b) :
    t₁ = t₂ := by
  have e₁ := C02_base58_canonical alph hal t₁ b h₁
  have e₂ := C02_base58_canonical alph hal t₂ b h₂
  rw [e₁] at e₂
  exact Res.ok.inj e₂

example : Base58.decode btcAlphabetEx (asc "1A") = .ok [0, 9] := by decide +kernel

end Verif
