import Verif.Lemmas.Bech32
import Verif.Model.CashAddr

namespace Verif.Bech32
open Verif Verif.PolyMod
open Verif.Base58 (horner horner_append horner_eq horner_lt)

/-- The nibble shift done by `hex(b)[1:len-1]`. -/
theorem hex_nibble_shift : ∀ (b : Bytes) (n : Nat), b.length = n + 1 →
    Hex.decode (((Hex.encode b).take (2 * n + 1)).drop 1) = .ok (beBytes n (beNat b / 16))
  | [], n, h => by simp at h
  | [x], n, h => by
    have : n = 0 := by simpa using h.symm
    subst this
    simp [Hex.encode, Hex.decode, beBytes, leBytes]
  | x :: y :: r, n, h => by
    obtain ⟨m, rfl⟩ : ∃ m, n = m + 1 := ⟨n - 1, by simp at h; omega⟩
    have hlen : (y :: r).length = m + 1 := by simpa using h
    have ih := hex_nibble_shift (y :: r) m hlen
    have hS : ((Hex.encode (x :: y :: r)).take (2 * (m + 1) + 1)).drop 1
        = Hex.digit (x % 16) :: Hex.digit (y / 16) :: ((Hex.encode (y :: r)).take (2 * m + 1)).drop 1 := by
      have e : 2 * (m + 1) + 1 = 2 * m + 1 + 1 + 1 := by omega
      have e2 : 2 * m + 1 + 1 = (2 * m + 1) + 1 := rfl
      simp only [Hex.encode, e, List.take_succ_cons, List.drop_succ_cons, List.drop_zero]
    rw [hS]
    simp only [Hex.decode, Hex.value_digit_hi, Hex.value_digit_lo, ih]
    congr 1
    apply beNat_inj (by simp)
    rw [beNat_cons, beNat_beBytes, beNat_beBytes, beBytes_length, beNat_cons x]
    have hx := x.toNat_lt
    have hy := y.toNat_lt
    have hbyte : (x % 16 * 16 + y / 16).toNat = x.toNat % 16 * 16 + y.toNat / 16 := by
      rw [UInt8.toNat_add, UInt8.toNat_mul, UInt8.toNat_mod, UInt8.toNat_div]
      have : (16 : UInt8).toNat = 16 := rfl
      rw [this]; omega
    have hT := beNat_cons y r
    have hr := beNat_lt r
    have hrl : r.length = m := by simpa using hlen
    rw [hbyte, hlen]
    rw [hrl] at hT hr
    generalize beNat (y :: r) = T at *
    generalize beNat r = ρ at *
    have hp : (256 : Nat) ^ (m + 1) = 256 * 256 ^ m := pow_succ' 256 m
    rw [hp]
    generalize 256 ^ m = K at *
    subst hT
    have hdiv : (x.toNat * (256 * K) + (y.toNat * K + ρ)) / 16
        = (16 * x.toNat + y.toNat / 16) * K + (y.toNat % 16 * K + ρ) / 16 := by
      have e : x.toNat * (256 * K) + (y.toNat * K + ρ)
          = 16 * ((16 * x.toNat + y.toNat / 16) * K) + (y.toNat % 16 * K + ρ) := by
        conv_lhs => rw [← Nat.div_add_mod y.toNat 16]
        ring
      rw [e, Nat.mul_add_div (by omega)]
    have hdiv2 : (y.toNat * K + ρ) / 16 = (y.toNat / 16) * K + (y.toNat % 16 * K + ρ) / 16 := by
      have e : y.toNat * K + ρ = 16 * ((y.toNat / 16) * K) + (y.toNat % 16 * K + ρ) := by
        conv_lhs => rw [← Nat.div_add_mod y.toNat 16]
        ring
      rw [e, Nat.mul_add_div (by omega)]
    have hsmall : (y.toNat % 16 * K + ρ) / 16 < K := by
      apply Nat.div_lt_of_lt_mul
      have : (y.toNat % 16 + 1) * K ≤ 16 * K := Nat.mul_le_mul_right _ (by omega)
      rw [Nat.add_mul] at this
      omega
    rw [hdiv, mul_add_mod_mul hsmall, hdiv2, Nat.mul_comm (y.toNat / 16), Nat.mul_add_mod,
      Nat.mod_eq_of_lt hsmall]
    congr 2
    omega

/-- Text produced by `encode` and what `parse` makes of it. -/
theorem encode_parse (hrp payload pre : Bytes) (hh : IsHrp hrp) (hpre : ∀ c ∈ pre, c.toNat < 32) :
    ∃ addr, encode hrp stdAlphabet payload pre = .ok addr ∧
      decode addr = (do
        let ret ← unextendPayload (pre.map UInt8.toNat ++ extendPayload payload)
        if ret.length = 33 then do
          let tmp ← slice (Hex.encode ret) 1 65
          match Hex.decode tmp with
          | .ok b => .ok b
          | _ => .ok []
        else .ok ret) := by
  set ext := pre.map UInt8.toNat ++ extendPayload payload with hext
  have hextlt : ∀ v ∈ ext, v < 32 := by
    intro v hv
    rcases List.mem_append.mp hv with h | h
    · obtain ⟨c, hc, rfl⟩ := List.mem_map.mp h; exact hpre c hc
    · exact extendPayload_lt _ v h
  obtain ⟨cs, h1, h2, h3⟩ := stdChars (ext ++ calcChecksum hrp ext) (by
    intro v hv
    rcases List.mem_append.mp hv with h | h
    · exact hextlt v h
    · exact symbolsOf_lt _ _ v h)
  refine ⟨hrp ++ [0x31] ++ cs, ?_, ?_⟩
  · unfold encode; rw [← hext]; simp only [h1]
  · unfold decode
    rw [parse_encode 0x31 (Or.inl rfl) hrp hh cs _ h2 h3]
    have hck : (calcChecksum hrp ext).length = 6 := symbolsOf_length _ _
    have hlen : (ext ++ calcChecksum hrp ext).length = ext.length + 6 := by simp [hck]
    simp only [Res.bind_ok, verify_calc hrp ext hextlt, hlen]
    rw [if_neg (by simp), if_neg (by omega)]
    have htake : (ext ++ calcChecksum hrp ext).take (ext.length + 6 - 6) = ext := by simp
    rw [htake]
    rfl

theorem horner_zero_cons (ds : List Nat) : horner 32 0 (0 :: ds) = horner 32 0 ds := by simp [horner]

theorem rt20 (hrp payload pre : Bytes) (hh : IsHrp hrp) (hp : payload.length = 20) (hpre : pre = [] ∨ pre = [0]) :
    ∃ addr, encode hrp stdAlphabet payload pre = .ok addr ∧ decode addr = .ok payload := by
  obtain ⟨addr, h1, h2⟩ := encode_parse hrp payload pre hh (by
    rcases hpre with rfl | rfl <;> simp)
  refine ⟨addr, h1, ?_⟩
  rw [h2]
  have hne : payload ≠ [] := by rintro rfl; simp at hp
  have hel := extendPayload_length payload
  rw [hp] at hel
  have hv := extendPayload_val payload hne
  rw [hp] at hv
  norm_num at hv hel
  have hun : unextendPayload (pre.map UInt8.toNat ++ extendPayload payload) = .ok payload := by
    have hlt : ∀ v ∈ pre.map UInt8.toNat ++ extendPayload payload, v < 32 := by
      intro v hv
      rcases List.mem_append.mp hv with h | h
      · rcases hpre with rfl | rfl <;> simp at h; omega
      · exact extendPayload_lt _ v h
    rw [unextendPayload_val _ (by simp; omega) hlt]
    congr 1
    have hval : horner 32 0 (pre.map UInt8.toNat ++ extendPayload payload) = beNat payload := by
      rcases hpre with rfl | rfl
      · simpa using hv
      · simp only [List.map_cons, List.map_nil, List.singleton_append]
        exact (horner_zero_cons _).trans hv
    rw [hval]
    have hl : (pre.map UInt8.toNat ++ extendPayload payload).length * 5 / 8 = 20 := by
      rcases hpre with rfl | rfl <;> simp [hel]
    rw [hl, ← hp]
    exact beBytes_beNat payload
  rw [hun]
  simp [hp]

theorem rt32 (hrp payload : Bytes) (hh : IsHrp hrp) (hp : payload.length = 32) :
    ∃ addr, encode hrp stdAlphabet payload [0] = .ok addr ∧ decode addr = .ok payload := by
  obtain ⟨addr, h1, h2⟩ := encode_parse hrp payload [0] hh (by simp)
  refine ⟨addr, h1, ?_⟩
  rw [h2]
  have hne : payload ≠ [] := by rintro rfl; simp at hp
  have hel := extendPayload_length payload
  rw [hp] at hel
  have hv := extendPayload_val payload hne
  rw [hp] at hv
  norm_num at hv hel
  have hun : unextendPayload ([0].map UInt8.toNat ++ extendPayload payload) = .ok (beBytes 33 (beNat payload * 16)) := by
    have hlt : ∀ v ∈ [0].map UInt8.toNat ++ extendPayload payload, v < 32 := by
      intro v hv
      rcases List.mem_append.mp hv with h | h
      · simp at h; omega
      · exact extendPayload_lt _ v h
    rw [unextendPayload_val _ (by simp; omega) hlt]
    congr 1
    have hval : horner 32 0 ([0].map UInt8.toNat ++ extendPayload payload) = beNat payload * 16 := by
      simp only [List.map_cons, List.map_nil, List.singleton_append]
      exact (horner_zero_cons _).trans hv
    rw [hval]
    simp [hel]
  rw [hun]
  simp only [Res.bind_ok, beBytes_length, if_true]
  have hlt := beNat_lt payload
  rw [hp] at hlt
  have hs : slice (Hex.encode (beBytes 33 (beNat payload * 16))) 1 65
      = .ok (((Hex.encode (beBytes 33 (beNat payload * 16))).take (2 * 32 + 1)).drop 1) :=
    slice_ok (by omega) (by simp)
  rw [hs]
  simp only [Res.bind_ok]
  rw [hex_nibble_shift _ 32 (by simp), beNat_beBytes_of_lt]
  · simp only
    congr 1
    rw [Nat.mul_div_cancel _ (by omega), ← hp]
    exact beBytes_beNat payload
  · have : (256 : Nat) ^ 33 = 256 ^ 32 * 256 := pow_succ 256 32
    omega

end Verif.Bech32
