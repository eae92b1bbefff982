import Verif.Lemmas.Bech32Err
import Verif.Lemmas.AddressEncoder

/-! When decoding cannot panic. -/

namespace Verif.Addr
open Verif Verif.Spec

/-- A Base58 text has at most two characters per byte. -/
theorem base58_length_le {alph : Bytes} (b t : Bytes) (h : IsBase58 alph b t) : t.length ≤ 2 * b.length := by
  have hl : t.length = (base58Digits b).length := by
    have := congrArg List.length h
    simpa using this
  rw [hl, base58Digits, List.length_append, List.length_replicate, List.length_reverse]
  have hsplit : b = List.replicate (leadingZeros b) 0 ++ b.dropWhile (· == 0) := by
    have h1 := List.takeWhile_append_dropWhile (p := (· == 0)) (l := b)
    have h2 : b.takeWhile (· == 0) = List.replicate (leadingZeros b) 0 := by
      rw [List.eq_replicate_iff]
      refine ⟨rfl, fun c hc => ?_⟩
      have : ∀ (l : Bytes), ∀ c ∈ l.takeWhile (· == 0), c = 0 := by
        intro l
        induction l with
        | nil => simp
        | cons x xs ih =>
          intro c hc
          by_cases hx : x = 0
          · subst hx
            simp only [beq_self_eq_true, List.takeWhile_cons_of_pos, List.mem_cons] at hc
            rcases hc with h | h
            · exact h
            · exact ih c h
          · simp [hx] at hc
      exact this b c hc
    rw [← h2]; exact h1.symm
  have hz : ∀ n, beNat (List.replicate n 0) = 0 := by
    intro n
    induction n with
    | zero => rfl
    | succ n ih => rw [List.replicate_succ, beNat_cons, ih]; simp
  set d := b.dropWhile (· == 0) with hd
  have hv : beNat b = beNat d := by
    rw [hsplit, beNat_append, hz]; simp
  have hlen : b.length = leadingZeros b + d.length := by
    have := congrArg List.length hsplit
    simpa using this
  have hdig : (Nat.digits 58 (beNat d)).length ≤ 2 * d.length := by
    rw [Nat.digits_length_le_iff (by omega)]
    calc beNat d < 256 ^ d.length := beNat_lt d
      _ ≤ (58 ^ 2) ^ d.length := Nat.pow_le_pow_left (by norm_num) _
      _ = 58 ^ (2 * d.length) := by rw [← pow_mul]
  rw [hv]; omega

end Verif.Addr

namespace Verif.Bech32
open Verif

theorem split_sep (sep : UInt8) : ∀ t : Bytes, sep ∈ t →
    ∃ a b, t = a ++ sep :: b ∧ sep ∉ a ∧ t.takeWhile (· ≠ sep) = a
  | [], h => by simp at h
  | x :: xs, h => by
    by_cases hx : x = sep
    · subst hx
      exact ⟨[], xs, rfl, by simp, by simp⟩
    · have hm : sep ∈ xs := by
        rcases List.mem_cons.mp h with e | e
        · exact absurd e.symm hx
        · exact e
      obtain ⟨a, b, h1, h2, h3⟩ := split_sep sep xs hm
      refine ⟨x :: a, b, by rw [h1]; rfl, ?_, ?_⟩
      · simp only [List.mem_cons, not_or]
        exact ⟨fun e => hx e.symm, h2⟩
      · rw [List.takeWhile_cons_of_pos (by simpa using hx), h3]

theorem parse_ne_panic (sep : UInt8) (hs : sep = 0x31 ∨ sep = 0x3a) (t : Bytes) (hne : t ≠ []) :
    parse sep t ≠ .panic ∧ ∀ p vs, parse sep t = .ok (p, vs) → (∀ v ∈ vs, v < 32) ∧
      vs.length = t.length - (if sep ∈ t then (t.takeWhile (· ≠ sep)).length else 0) - 1 := by
  generalize hk : (if sep ∈ t then (t.takeWhile (· ≠ sep)).length else 0) = k
  unfold parse
  cases hsc : scan sep 0 ⟨false, false, false, 0⟩ t with
  | none => simp
  | some s =>
    have hps : s.prefixSize = k ∧ s.prefixSize + 1 ≤ t.length := by
      rw [← hk]
      by_cases hm : sep ∈ t
      · rw [if_pos hm]
        obtain ⟨a, b, h1, h2, h3⟩ := split_sep sep t hm
        rw [h3]
        rw [h1] at hsc
        have h4 := (scan_split sep hs a b h2 s hsc).2.2.1
        refine ⟨h4, ?_⟩
        rw [h4, h1]; simp
      · rw [if_neg hm]
        have h4 := scan_prefixSize sep t _ _ _ hsc hm
        have := List.length_pos_iff.mpr hne
        rw [h4]; exact ⟨rfl, by simp only; omega⟩
    obtain ⟨hps, hlt⟩ := hps
    simp only
    split_ifs with h1 h2
    · simp
    · omega
    · cases hr : revAll (t.drop (s.prefixSize + 1)) with
      | none => simp
      | some vs =>
        simp only [ne_eq, reduceCtorEq, not_false_eq_true, Res.ok.injEq, Prod.mk.injEq, true_and]
        rintro p vs' ⟨_, rfl⟩
        refine ⟨revAll_lt _ _ hr, ?_⟩
        have : vs.length = (t.drop (s.prefixSize + 1)).length := by
          have hl : ∀ (cs : Bytes) (vs : List Nat), revAll cs = some vs → vs.length = cs.length := by
            intro cs
            induction cs with
            | nil => intro vs h; simp [revAll] at h; subst h; rfl
            | cons c cs ih =>
              intro vs h
              simp only [revAll] at h
              split at h
              · rename_i v ws _ h2
                cases h
                simp [ih ws h2]
              · cases h
          exact hl _ _ hr
        rw [this, List.length_drop, hps]; omega

/-- `Decode` of bech32.go cannot panic when the data part has at least eight characters. -/
theorem decode_ne_panic (t : Bytes)
    (h : (if (0x31 : UInt8) ∈ t then (t.takeWhile (· ≠ 0x31)).length else 0) + 9 ≤ t.length) :
    decode t ≠ .panic := by
  have hne : t ≠ [] := by rintro rfl; simp at h
  obtain ⟨h1, h2⟩ := parse_ne_panic 0x31 (Or.inl rfl) t hne
  unfold decode
  cases hp : parse 0x31 t with
  | panic => exact absurd hp h1
  | err => simp
  | ok pv =>
    obtain ⟨p, vs⟩ := pv
    obtain ⟨h3, h4⟩ := h2 p vs hp
    have h5 : 8 ≤ vs.length := by rw [h4]; omega
    simp only [Res.bind_ok]
    split_ifs with h6 h7
    · simp
    · omega
    · have h8 := unextendPayload_val (vs.take (vs.length - 6)) (by simp; omega)
        (fun v hv => h3 v (List.mem_of_mem_take hv))
      rw [h8]
      simp only [Res.bind_ok]
      split_ifs with h9
      · have : slice (Hex.encode (beBytes ((vs.take (vs.length - 6)).length * 5 / 8)
            (Base58.horner 32 0 (vs.take (vs.length - 6))))) 1 65 = .ok _ := slice_ok (by omega) (by
            rw [Hex.encode_length, h9]; omega)
        rw [this]
        simp only [Res.bind_ok]
        split <;> simp
      · simp

end Verif.Bech32

namespace Verif.CashAddr
open Verif Verif.Bech32

theorem orLast_length {b : Bytes} (hb : b ≠ []) (e : Nat) : ∃ r, orLast b e = .ok r ∧ r.length = b.length := by
  cases b with
  | nil => exact absurd rfl hb
  | cons x xs => exact ⟨_, rfl, by simp⟩

theorem shlN_length : ∀ (n : Nat) (b : Bytes), (shlN n b).length = b.length
  | 0, _ => rfl
  | n + 1, b => by simp [shlN, shlN_length n, byteShl1_length]

theorem byteShl5_length' (b : Bytes) : (byteShl5 b).length = b.length := by
  simp [byteShl5, byteShl1_length]

theorem ne_nil_of_length {a b : Bytes} (h : a.length = b.length) (hb : b ≠ []) : a ≠ [] := by
  rintro rfl
  exact hb (List.eq_nil_of_length_eq_zero h.symm)

theorem untake_ne_panic (n : Nat) : ∀ (es : List Nat) (ret : Bytes), 2 ≤ es.length → ret ≠ [] →
    ∃ r, untake n es ret = .ok r ∧ r.length = ret.length
  | [], _, h, _ => by simp at h
  | [_], _, h, _ => by simp at h
  | [e, f], ret, _, hr => by
    obtain ⟨r, h1, h2⟩ := orLast_length hr e
    have hne : shlN (5 - n * 5 % 8) r ≠ [] := ne_nil_of_length (shlN_length _ _) (ne_nil_of_length h2 hr)
    obtain ⟨r', h3, h4⟩ := orLast_length hne (f >>> (n * 5 % 8))
    refine ⟨r', ?_, by rw [h4, shlN_length, h2]⟩
    conv_lhs => unfold untake
    simp only [h1, h3]
  | e :: f :: g :: es, ret, _, hr => by
    obtain ⟨r, h1, h2⟩ := orLast_length hr e
    obtain ⟨r', h3, h4⟩ := untake_ne_panic n (f :: g :: es) (byteShl5 r) (by simp)
      (ne_nil_of_length (byteShl5_length' _) (ne_nil_of_length h2 hr))
    refine ⟨r', ?_, by rw [h4, byteShl5_length', h2]⟩
    conv_lhs => unfold untake
    simp only [h1, h3]

/-- `Decode` of base32PolyMod.go cannot panic when the data part has at least ten characters. -/
theorem decode_ne_panic (t : Bytes)
    (h : (if (0x3a : UInt8) ∈ t then (t.takeWhile (· ≠ 0x3a)).length else 0) + 11 ≤ t.length) :
    decode t ≠ .panic := by
  have hne : t ≠ [] := by rintro rfl; simp at h
  obtain ⟨h1, h2⟩ := parse_ne_panic 0x3a (Or.inr rfl) t hne
  unfold decode
  cases hp : parse 0x3a t with
  | panic => exact absurd hp h1
  | err => simp
  | ok pv =>
    obtain ⟨p, vs⟩ := pv
    obtain ⟨h3, h4⟩ := h2 p vs hp
    have h5 : 10 ≤ vs.length := by rw [h4]; omega
    simp only [Res.bind_ok]
    split_ifs with h6 h7
    · simp
    · omega
    · obtain ⟨r, hr, _⟩ := untake_ne_panic (vs.take (vs.length - 8)).length (vs.take (vs.length - 8))
        (List.replicate ((vs.take (vs.length - 8)).length * 5 / 8) 0) (by simp; omega) (by
          simp; omega)
      unfold unextendPayload
      rw [hr]; simp

end Verif.CashAddr

namespace Verif.Bech32m
open Verif

theorem convertbits_ne_panic (d : List Nat) (f t : Nat) (p : Bool) : convertbits d f t p ≠ .panic := by
  unfold convertbits
  simp only
  split_ifs <;> simp

theorem decode_ne_panic (s charset : Bytes) : decode s charset ≠ .panic := by
  unfold decode
  simp only
  split_ifs
  · simp
  · simp
  · split
    · simp
    · split_ifs
      · simp
      · simp
      · simp
      · split
        · simp
        · split <;> simp

theorem lastSep_split {s : Bytes} {pos : Nat} (h : lastSep s = some pos) :
    s = s.take pos ++ 0x31 :: s.drop (pos + 1) := by
  unfold lastSep at h
  split_ifs at h with hm
  cases h
  have hm' : (0x31 : UInt8) ∈ s.reverse := by simpa using hm
  have hlt := List.idxOf_lt_length_of_mem hm'
  have hget := List.getElem_idxOf hlt
  rw [List.getElem_reverse] at hget
  rw [List.length_reverse] at hlt
  have hlt2 : s.length - 1 - s.reverse.idxOf 0x31 < s.length := by omega
  conv_lhs => rw [← List.take_append_drop (s.length - 1 - s.reverse.idxOf 0x31) s]
  rw [List.drop_eq_getElem_cons hlt2, hget]

/-- What an accepted Bech32/Bech32m text looks like. -/
theorem decode_ok {t charset hrp : Bytes} {data : List Nat} {spec : Spec}
    (h : decode t charset = .ok (hrp, data, spec)) :
    ∃ d vs, t.map toLower = hrp ++ 0x31 :: d ∧ revAll charset d = some vs ∧ verifyChecksum hrp vs = some spec ∧
      data = vs.take (vs.length - 6) ∧ (t.map toLower = t ∨ t.map toUpper = t) ∧ t.length ≤ 90 := by
  unfold decode at h
  simp only at h
  split_ifs at h with h1 h2
  split at h
  · cases h
  · rename_i pos hpos
    split_ifs at h with h3 h4 h5
    split at h
    · cases h
    · rename_i vs hvs
      split at h
      · cases h
      · rename_i sp hsp
        cases h
        exact ⟨_, vs, lastSep_split hpos, hvs, hsp, rfl, by tauto, by omega⟩

theorem bech32mDecode_ne_panic (t hrp charset : Bytes) : bech32mDecode t hrp charset ≠ .panic := by
  unfold bech32mDecode
  cases hd : decode t charset with
  | panic => exact absurd hd (decode_ne_panic _ _)
  | err => simp
  | ok r =>
    obtain ⟨a, b, c⟩ := r
    simp only [Res.bind_ok]
    split_ifs
    · simp
    · cases hc : convertbits b 5 8 false with
      | panic => exact absurd hc (convertbits_ne_panic _ _ _ _)
      | err => simp
      | ok r => simp

end Verif.Bech32m

namespace Verif.Addr
open Verif Verif.Spec

theorem base58_decode_ne_panic {alph : Bytes} (hal : IsAlphabet alph) (t : Bytes) : Base58.decode alph t ≠ .panic := by
  by_cases ht : ∀ c ∈ t, c ∈ alph
  · obtain ⟨b, hb⟩ := (C02_base58_decode_total alph hal t).1 ht
    rw [hb]; simp
  · have : ∃ c ∈ t, c ∉ alph := by
      by_contra hcon
      exact ht (fun c hc => by by_contra hn; exact hcon ⟨c, hc, hn⟩)
    rw [(C02_base58_decode_total alph hal t).2 this]; simp

theorem xmrDecodeBlocks_spec {alph : Bytes} (hal : IsAlphabet alph) : ∀ (k : Nat) (t : Bytes),
    xmrDecodeBlocks alph k t ≠ .panic ∧ ∀ d, xmrDecodeBlocks alph k t = .ok d → d.length = 8 * k + 5
  | 0, t => by
    unfold xmrDecodeBlocks
    cases hd : Base58.decode alph t with
    | panic => exact absurd hd (base58_decode_ne_panic hal t)
    | err => simp
    | ok b =>
      simp only [Res.bind_ok]
      split_ifs with h
      · simp
      · refine ⟨by simp, fun d h2 => ?_⟩
        cases h2
        simp; omega
  | k + 1, t => by
    obtain ⟨i1, i2⟩ := xmrDecodeBlocks_spec hal k (t.drop 11)
    unfold xmrDecodeBlocks
    cases hd : Base58.decode alph (t.take 11) with
    | panic => exact absurd hd (base58_decode_ne_panic hal _)
    | err => simp
    | ok b =>
      simp only [Res.bind_ok]
      split_ifs with h
      · simp
      · cases hr : xmrDecodeBlocks alph k (t.drop 11) with
        | panic => exact absurd hr i1
        | err => simp
        | ok r =>
          refine ⟨by simp, fun d h2 => ?_⟩
          simp only [Res.bind_ok, Res.ok.injEq] at h2
          subst h2
          simp [i2 r hr]; omega

end Verif.Addr
