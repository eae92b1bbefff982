import Verif.Lemmas.Bech32RT

namespace Verif.CashAddr
open Verif Verif.PolyMod Verif.Bech32
open Verif.Base58 (horner horner_append horner_eq horner_lt)

theorem orLast_ok8 (b : Bytes) (hb : b ≠ []) (e : Nat) (he : e < 8) (hz : beNat b % 8 = 0) :
    ∃ r, orLast b e = .ok r ∧ r.length = b.length ∧ beNat r = beNat b + e := by
  obtain ⟨a, x, rfl⟩ : ∃ a x, b = a ++ [x] := ⟨b.dropLast, b.getLast hb, (List.dropLast_append_getLast hb).symm⟩
  have hor : ∀ (x : UInt8) (e : Fin 8), x.toNat % 8 = 0 → (x ||| UInt8.ofNat e.val).toNat = x.toNat + e.val := by
    apply Hex.u8_forall; decide +kernel
  have hbx : beNat (a ++ [x]) = beNat a * 256 + x.toNat := by rw [beNat_append]; simp [beNat, leNat]
  refine ⟨a ++ [x ||| UInt8.ofNat e], ?_, by simp, ?_⟩
  · have hne : a ++ [x] ≠ [] := by simp
    unfold orLast
    split
    · rename_i h; exact absurd h hne
    · simp
  · have := hor x ⟨e, he⟩ (by rw [hbx] at hz; omega)
    rw [beNat_append, hbx]
    simp only [List.length_singleton, pow_one]
    simp only [beNat, List.reverse_singleton, leNat] at this ⊢
    omega

theorem shl3_val (b : Bytes) : (shlN 3 b).length = b.length ∧ beNat (shlN 3 b) = (8 * beNat b) % 256 ^ b.length := by
  simp only [shlN, byteShl1_length, byteShl1_val, true_and]
  have h : ∀ a m : Nat, 2 * (a % m) % m = (2 * a) % m := fun a m => by rw [Nat.mul_mod, Nat.mod_mod, ← Nat.mul_mod]
  simp only [h]
  congr 1; ring

/-- Packing 34 symbols: the last two bits are dropped. -/
theorem untake34 : ∀ (es : List Nat) (e f : Nat) (ret : Bytes), ret ≠ [] → (∀ v ∈ es ++ [e, f], v < 32) →
    beNat ret % 32 = 0 →
    ∃ r, untake 34 (es ++ [e, f]) ret = .ok r ∧ r.length = ret.length ∧
      beNat r % 256 ^ ret.length = (8 * horner 32 (beNat ret / 32) (es ++ [e]) + f / 4) % 256 ^ ret.length
  | [], e, f, ret, hr, hv, hz => by
    have hlen : 1 ≤ ret.length := by
      cases ret with
      | nil => exact absurd rfl hr
      | cons => simp
    obtain ⟨r, h1, h2, h3⟩ := orLast_ok ret hr e (hv e (by simp)) hz
    obtain ⟨g1, g2⟩ := shl3_val r
    have hne : shlN 3 r ≠ [] := by
      intro h; rw [h, h2] at g1; simp at g1; omega
    have hf := hv f (by simp)
    have h256 : (256 : Nat) ^ ret.length = 8 * (32 * 256 ^ (ret.length - 1)) := by
      have : ret.length = ret.length - 1 + 1 := by omega
      conv_lhs => rw [this, pow_succ]
      ring
    obtain ⟨r', h4, h5, h6⟩ := orLast_ok8 (shlN 3 r) hne (f >>> 2) (by rw [Nat.shiftRight_eq_div_pow]; omega) (by
      rw [g2, h2, h256, Nat.mod_mul_right_mod]; omega)
    refine ⟨r', ?_, by rw [h5, g1, h2], ?_⟩
    · simp only [List.nil_append, untake, h1]; exact h4
    · rw [h6, g2, h2, h3, Nat.shiftRight_eq_div_pow]
      simp only [List.nil_append, horner]
      have e1 : 32 * (beNat ret / 32) + e = beNat ret + e := by omega
      rw [e1, Nat.add_mod, Nat.mod_mod, ← Nat.add_mod]
  | a :: es, e, f, ret, hr, hv, hz => by
    have hlen : 1 ≤ ret.length := by
      cases ret with
      | nil => exact absurd rfl hr
      | cons => simp
    obtain ⟨r, h1, h2, h3⟩ := orLast_ok ret hr a (hv a (by simp)) hz
    have hne : byteShl5 r ≠ [] := by
      intro h; have := congrArg List.length h; rw [byteShl5_length, h2] at this
      exact hr (List.eq_nil_of_length_eq_zero (by simpa using this))
    have h256 : (256 : Nat) ^ ret.length = 32 * (8 * 256 ^ (ret.length - 1)) := by
      have : ret.length = ret.length - 1 + 1 := by omega
      conv_lhs => rw [this, pow_succ]
      ring
    have hz' : beNat (byteShl5 r) % 32 = 0 := by
      rw [byteShl5_val, h2, h256, Nat.mod_mul_right_mod]; omega
    obtain ⟨r', h4, h5, h6⟩ := untake34 es e f (byteShl5 r) hne
      (fun v hv' => hv v (by simp [List.mem_cons] at hv' ⊢; tauto)) hz'
    refine ⟨r', ?_, by rw [h5]; simp [h2], ?_⟩
    · have : untake 34 (a :: es ++ [e, f]) ret = untake 34 (es ++ [e, f]) (byteShl5 r) := by
        cases es with
        | nil =>
          simp only [List.cons_append, List.nil_append]
          conv_lhs => unfold untake
          simp only [h1]
        | cons b bs =>
          simp only [List.cons_append]
          rw [untake, h1]
          simp
      rw [this]; exact h4
    · rw [byteShl5_length, h2] at h6
      rw [h6]
      have hdiv : beNat (byteShl5 r) / 32 = (beNat ret + a) % (8 * 256 ^ (ret.length - 1)) := by
        rw [byteShl5_val, h2, h3, h256, Nat.mul_mod_mul_left, Nat.mul_div_cancel_left _ (by omega)]
      rw [hdiv]
      have hh : 32 * (beNat ret / 32) + a = beNat ret + a := by omega
      simp only [List.cons_append, horner]
      rw [hh, horner_eq, horner_eq, h256]
      have key : ∀ (A B K L : Nat), (32 * (A % K) * L + B) % (32 * K) = (32 * A * L + B) % (32 * K) := by
        intro A B K L
        have : 32 * A * L = 32 * (A % K) * L + (32 * K) * (A / K * L) := by
          conv_lhs => rw [← Nat.mod_add_div A K]
          ring
        rw [this, Nat.add_right_comm, Nat.add_mul_mod_self_left]
      have e1 : ∀ A : Nat, 8 * (A * 32 ^ (es ++ [e]).length + Nat.ofDigits 32 (es ++ [e]).reverse) + f / 4
          = 32 * A * (8 * 32 ^ es.length) + (8 * Nat.ofDigits 32 (es ++ [e]).reverse + f / 4) := by
        intro A; simp only [List.length_append, List.length_singleton, pow_succ]; ring
      rw [e1, e1]
      exact key _ _ _ _

theorem unextend34 (ext : List Nat) (hl : ext.length = 34) (hv : ∀ v ∈ ext, v < 32) :
    unextendPayload ext = .ok (beBytes 21 (horner 32 0 ext / 4)) := by
  obtain ⟨es, e, f, rfl⟩ : ∃ es e f, ext = es ++ [e, f] := by
    have h1 := List.take_append_drop 32 ext
    have h2 : (ext.drop 32).length = 2 := by simp [hl]
    match h3 : ext.drop 32, h2 with
    | [e, f], _ => exact ⟨ext.take 32, e, f, by rw [← h3, h1]⟩
  have hz : ∀ n, beNat (List.replicate n 0) = 0 := by
    intro n
    induction n with
    | zero => rfl
    | succ n ih => rw [List.replicate_succ, beNat_cons, ih]; simp
  obtain ⟨r, h3, h4, h5⟩ := untake34 es e f (List.replicate 21 0) (by simp) hv (by rw [hz])
  unfold unextendPayload
  rw [hl, h3]
  simp only [List.length_replicate, hz, Nat.zero_div] at h4 h5
  congr 1
  rw [← beBytes_beNat r, h4]
  apply beNat_inj (by simp)
  rw [beNat_beBytes, beNat_beBytes, h5]
  congr 1
  have hf := hv f (by simp)
  have : horner 32 0 (es ++ [e, f]) = 32 * horner 32 0 (es ++ [e]) + f := by
    have e2 : es ++ [e, f] = (es ++ [e]) ++ [f] := by simp
    rw [e2, horner_append]; rfl
  rw [this]; omega

theorem verify_calc (data : List Nat) (hd : ∀ v ∈ data, v < 32) :
    verifyChecksum bitcoincashExpandPrefix (data ++ calcChecksum bitcoincashExpandPrefix data) = true := by
  have h := run_checksum fit_cash (bitcoincashExpandPrefix ++ data) (by
    intro v hv
    rcases List.mem_append.mp hv with h | h
    · exact (by decide : ∀ v ∈ bitcoincashExpandPrefix, v < 32) v h
    · exact hd v h) 8 1 rfl (by decide)
  unfold verifyChecksum polyMod
  unfold calcChecksum polyMod
  rw [← List.append_assoc, h]
  rfl

theorem isHrp_bitcoincash : IsHrp (asc "bitcoincash") := by
  constructor <;> decide

/-- What decoding returns for an encoded 21-byte payload: the first byte comes back shifted. -/
theorem decode_encode21 (t : UInt8) (r : Bytes) (hr : r.length = 20) :
    ∃ addr, encode (asc "bitcoincash") stdAlphabet (t :: r) = .ok addr ∧ decode addr = .ok ((t <<< 3) :: r) := by
  set ext := takeSymbols (((r.length + 1) * 8 + 4) / 5) ((t <<< 3) :: r) with hext
  have hextE : ext = Bech32.extendPayload ((t <<< 3) :: r) := by rw [hext]; rfl
  have hextlt : ∀ v ∈ ext, v < 32 := takeSymbols_lt _ _
  have hextlen : ext.length = 34 := by rw [hext, takeSymbols_length, hr]
  obtain ⟨cs, h1, h2, h3⟩ := stdChars (ext ++ calcChecksum bitcoincashExpandPrefix ext) (by
    intro v hv
    rcases List.mem_append.mp hv with h | h
    · exact hextlt v h
    · exact symbolsOf_lt _ _ v h)
  refine ⟨asc "bitcoincash" ++ [0x3a] ++ cs, ?_, ?_⟩
  · unfold encode
    simp only [extendPayload, Res.bind_ok, if_true]
    rw [← hext, h1]
    rfl
  · unfold decode
    rw [parse_encode 0x3a (Or.inr rfl) _ isHrp_bitcoincash cs _ h2 (by
      intro c hc
      rcases h3 c hc with h | h
      · exact Or.inl h
      · refine Or.inr ⟨h.1, ?_⟩
        rintro rfl
        revert h; decide)]
    have hck : (calcChecksum bitcoincashExpandPrefix ext).length = 8 := symbolsOf_length _ _
    have hlen : (ext ++ calcChecksum bitcoincashExpandPrefix ext).length = 42 := by simp [hck, hextlen]
    simp only [Res.bind_ok, verify_calc ext hextlt, hlen]
    rw [if_neg (by simp), if_neg (by omega)]
    have htake : (ext ++ calcChecksum bitcoincashExpandPrefix ext).take (42 - 8) = ext := by
      have : 42 - 8 = ext.length := by rw [hextlen]
      rw [this]; simp
    rw [htake, unextend34 ext hextlen hextlt]
    congr 1
    have hv := extendPayload_val ((t <<< 3) :: r) (by simp)
    have hl2 : ((t <<< 3) :: r).length = 21 := by simp [hr]
    rw [hl2] at hv
    norm_num at hv
    rw [hextE, hv, Nat.mul_div_cancel _ (by omega), ← hl2]
    exact beBytes_beNat _

/-- Text produced by `encode` for any non-empty payload and what `decode` makes of it. -/
theorem encode_parse (t : UInt8) (r : Bytes) :
    ∃ cs, encode (asc "bitcoincash") stdAlphabet (t :: r) = .ok (asc "bitcoincash" ++ 0x3a :: cs) ∧
      decode (asc "bitcoincash" ++ 0x3a :: cs) =
        unextendPayload (takeSymbols (((r.length + 1) * 8 + 4) / 5) ((t <<< 3) :: r)) := by
  set ext := takeSymbols (((r.length + 1) * 8 + 4) / 5) ((t <<< 3) :: r) with hext
  have hextlt : ∀ v ∈ ext, v < 32 := takeSymbols_lt _ _
  obtain ⟨cs, h1, h2, h3⟩ := stdChars (ext ++ calcChecksum bitcoincashExpandPrefix ext) (by
    intro v hv
    rcases List.mem_append.mp hv with h | h
    · exact hextlt v h
    · exact symbolsOf_lt _ _ v h)
  have e : asc "bitcoincash" ++ 0x3a :: cs = asc "bitcoincash" ++ [0x3a] ++ cs := by simp
  refine ⟨cs, ?_, ?_⟩
  · unfold encode
    simp only [extendPayload, Res.bind_ok, if_true]
    rw [← hext, h1, e]
    rfl
  · unfold decode
    rw [e, parse_encode 0x3a (Or.inr rfl) _ isHrp_bitcoincash cs _ h2 (by
      intro c hc
      rcases h3 c hc with h | h
      · exact Or.inl h
      · refine Or.inr ⟨h.1, ?_⟩
        rintro rfl
        revert h; decide)]
    have hck : (calcChecksum bitcoincashExpandPrefix ext).length = 8 := symbolsOf_length _ _
    have hlen : (ext ++ calcChecksum bitcoincashExpandPrefix ext).length = ext.length + 8 := by simp [hck]
    simp only [Res.bind_ok, verify_calc ext hextlt, hlen]
    rw [if_neg (by simp), if_neg (by omega)]
    have htake : (ext ++ calcChecksum bitcoincashExpandPrefix ext).take (ext.length + 8 - 8) = ext := by simp
    rw [htake]

end Verif.CashAddr
