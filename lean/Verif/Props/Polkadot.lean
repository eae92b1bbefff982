import Verif.Model.Polkadot
import Verif.Spec.Polkadot
import Verif.Lemmas.Base
import Verif.Lemmas.Hex
import Mathlib.Data.List.Induction

/-! C32–C34: SCALE compact integers, eras, extrinsics. -/

namespace Verif
open Verif.Polkadot Verif.Spec.Polkadot

namespace Polkadot

theorem leNat_replicate_zero (n : Nat) : leNat (List.replicate n 0) = 0 := by
  induction n with
  | zero => rfl
  | succ n ih => simp [List.replicate_succ, leNat, ih]

theorem removeExtra_spec (b : Bytes) (h : leNat b ≠ 0) :
    ∃ r m, removeExtra b = .ok r ∧ b = r ++ List.replicate m 0 ∧ r ≠ [] ∧ 256 ^ (r.length - 1) ≤ leNat b := by
  induction b using List.reverseRecOn with
  | nil => simp [leNat] at h
  | append_singleton b x ih =>
    by_cases hx : x = 0
    · subst hx
      have hz : leNat (b ++ [0]) = leNat b := by rw [leNat_append]; simp [leNat]
      rw [hz] at h ⊢
      obtain ⟨r, m, h1, h2, h3, h4⟩ := ih h
      refine ⟨r, m + 1, ?_, ?_, h3, h4⟩
      · unfold removeExtra at h1 ⊢
        simpa using h1
      · conv_lhs => rw [h2]
        rw [List.append_assoc, ← List.replicate_succ']
    · refine ⟨b ++ [x], 0, ?_, by simp, by simp, ?_⟩
      · unfold removeExtra
        simp [hx]
      · rw [leNat_append]
        have : 1 ≤ x.toNat := by
          rcases Nat.eq_zero_or_pos x.toNat with h0 | h0
          · exact absurd (UInt8.toNat.inj (by simpa using h0)) hx
          · exact h0
        simp only [List.length_append, List.length_singleton, Nat.add_sub_cancel, leNat]
        nlinarith [Nat.zero_le (leNat b), Nat.pow_pos (n := b.length) (show 0 < 256 by omega)]

theorem shl2_length : ∀ (c : UInt8) (b : Bytes), (shl2 c b).1.length = b.length
  | _, [] => rfl
  | c, x :: xs => by simp [shl2, shl2_length _ xs]

theorem shl2_byte (x : UInt8) : (x <<< 2).toNat + 256 * ((x &&& 192) >>> 6).toNat = 4 * x.toNat ∧ ((x &&& 192) >>> 6).toNat < 4 ∧
    (x <<< 2).toNat % 4 = 0 := by
  revert x; apply Hex.u8_forall; decide +kernel

theorem or_low : ∀ c : Fin 4, ∀ x : UInt8, ((x <<< 2) ||| UInt8.ofNat c.val).toNat = (x <<< 2).toNat + c.val := by
  intro c x
  revert x; apply Hex.u8_forall; revert c; decide +kernel

theorem or_low' (x c : UInt8) (hc : c.toNat < 4) : ((x <<< 2) ||| c).toNat = (x <<< 2).toNat + c.toNat := by
  have := or_low ⟨c.toNat, hc⟩ x
  simpa using this

theorem shl2_value : ∀ (b : Bytes) (c : UInt8), c.toNat < 4 →
    leNat (shl2 c b).1 + 256 ^ b.length * (shl2 c b).2.toNat = 4 * leNat b + c.toNat
  | [], c, _ => by simp [shl2, leNat]
  | x :: xs, c, hc => by
    obtain ⟨h1, h2, _⟩ := shl2_byte x
    have ih := shl2_value xs ((x &&& 192) >>> 6) h2
    simp only [shl2, leNat, List.length_cons, or_low' x c hc]
    rw [pow_succ]
    generalize (shl2 ((x &&& 192) >>> 6) xs).1 = s at *
    generalize (shl2 ((x &&& 192) >>> 6) xs).2 = d at *
    generalize 256 ^ xs.length = p at *
    have : p * 256 * d.toNat = 256 * (p * d.toNat) := by ring
    omega

/-- The short forms: 1, 2 or 4 bytes whose value leaves two bits free. -/
theorem bytesToCompact_spec (b : Bytes) (n : Nat) (hn : n = 1 ∨ n = 2 ∨ n = 4) (hl : b.length = n) (hv : 4 * leNat b < 256 ^ n) :
    ∃ r, bytesToCompact b = .ok r ∧ r.length = n ∧ leNat r = 4 * leNat b + (if n = 1 then 0 else if n = 2 then 1 else 2) := by
  have h := shl2_value b 0 (by decide)
  have hlen := shl2_length 0 b
  obtain ⟨x, xs, rfl⟩ := List.exists_cons_of_ne_nil (l := b) (by rintro rfl; simp at hl; omega)
  have hc : (shl2 0 (x :: xs)).2 = 0 := by
    by_contra hne
    have h1 : 1 ≤ (shl2 0 (x :: xs)).2.toNat := by
      rcases Nat.eq_zero_or_pos (shl2 0 (x :: xs)).2.toNat with h0 | h0
      · exact absurd (UInt8.toNat.inj (by simpa using h0)) hne
      · exact h0
    rw [hl] at h
    have : 256 ^ n * 1 ≤ 256 ^ n * (shl2 0 (x :: xs)).2.toNat := Nat.mul_le_mul_left _ h1
    simp at h
    omega
  have hs : (shl2 0 (x :: xs)).1 = ((x <<< 2) ||| 0) :: (shl2 ((x &&& 192) >>> 6) xs).1 := rfl
  rw [hc] at h
  simp only [UInt8.toNat_zero, Nat.mul_zero, Nat.add_zero] at h
  have hx0 := or_low' x 0 (by decide)
  refine ⟨(((x <<< 2) ||| 0) ||| mode n) :: (shl2 ((x &&& 192) >>> 6) xs).1, ?_, ?_, ?_⟩
  · unfold bytesToCompact
    rw [if_neg (by rw [hl]; omega), hl]
    simp only [hc, hs]
    have e : (((x <<< 2 ||| 0) ||| mode n) :: (shl2 ((x &&& 192) >>> 6) xs).1).length = n := by
      rw [hs] at hlen; simpa [hl] using hlen
    simp only [ne_eq, not_true_eq_false, if_false]
    have e2 : modeBytes (mode n) - (((x <<< 2 ||| 0) ||| mode n) :: (shl2 ((x &&& 192) >>> 6) xs).1).length = 0 := by
      rw [e]
      rcases hn with rfl | rfl | rfl <;> decide
    rw [e2]
    simp
  · rw [hs] at hlen; simpa [hl] using hlen
  · rw [hs] at h
    simp only [leNat] at h ⊢
    have e0 : (x <<< 2 ||| (0 : UInt8)) = x <<< 2 := by simp
    rw [e0] at h ⊢
    have hm : (mode n).toNat < 4 := by rcases hn with rfl | rfl | rfl <;> decide
    rw [or_low' x _ hm]
    have : (mode n).toNat = (if n = 1 then 0 else if n = 2 then 1 else 2) := by rcases hn with rfl | rfl | rfl <;> decide
    omega

theorem head_mod4 (x : UInt8) (xs : Bytes) : leNat (x :: xs) % 4 = x.toNat % 4 := by
  simp only [leNat]; omega

theorem bitLen_le (n k : Nat) : bitLen n ≤ k ↔ n < 2 ^ k := by
  unfold bitLen
  by_cases h : n = 0
  · subst h; simp
  · rw [if_neg h, Nat.succ_le_iff, Nat.log2_lt h]

/-- Number of bytes of a number against its bit length. -/
theorem bitLen_bytes (n k : Nat) (h1 : 256 ^ (k - 1) ≤ n) (h2 : n < 256 ^ k) : 8 * (k - 1) < bitLen n ∧ bitLen n ≤ 8 * k := by
  have e : ∀ j : Nat, (256 : Nat) ^ j = 2 ^ (8 * j) := fun j => by rw [pow_mul]; norm_num
  constructor
  · rw [← Nat.not_le, bitLen_le, ← e]; omega
  · rw [bitLen_le, ← e]; exact h2

/-- Long form, for a value whose absolute value as int64 has as many bytes as the value. -/
theorem encode_long (v : UInt64) (hv : 2 ^ 30 ≤ v.toNat) :
    ∃ r, encode v = .ok (Hex.encode (getPrefix v :: r)) ∧ leNat r = v.toNat ∧ r.length ≤ 8 ∧ 256 ^ (r.length - 1) ≤ v.toNat ∧
      v.toNat < 256 ^ r.length := by
  have h64 := v.toNat_lt
  have hle : leNat (leBytes 8 v.toNat) = v.toNat := leNat_leBytes_of_lt h64
  obtain ⟨r, m, h1, h2, _, h4⟩ := removeExtra_spec (leBytes 8 v.toNat) (by rw [hle]; omega)
  have hr : leNat r = v.toNat := by
    rw [← hle, h2, leNat_append, leNat_replicate_zero]; simp
  have hlen : r.length ≤ 8 := by
    have := congrArg List.length h2
    simp at this; omega
  refine ⟨r, ?_, hr, hlen, by rw [hle] at h4; exact h4, by rw [← hr]; exact leNat_lt r⟩
  unfold encode
  rw [if_pos (by omega), h1]
  simp only [Res.bind_ok, ← Hex.encode_append, List.singleton_append]

theorem prefix_value (v : UInt64) (k : Nat) (h4 : 4 ≤ k) (h8 : k ≤ 8) (hb : 8 * (k - 1) < 64 - leadingZeros v)
    (hb2 : 64 - leadingZeros v ≤ 8 * k) (hz : leadingZeros v ≤ 64) : (getPrefix v).toNat = 4 * (k - 4) + 3 := by
  unfold getPrefix
  have : leadingZeros v / 8 = 8 - k := by omega
  rw [this]
  have : k = 4 ∨ k = 5 ∨ k = 6 ∨ k = 7 ∨ k = 8 := by omega
  rcases this with rfl | rfl | rfl | rfl | rfl <;> rfl

end Polkadot
open Polkadot

/-- C32 for every value from 1 to 2^64 - 2^56: the text is the hex form of the minimal SCALE compact encoding. Missing: 0 and the values
above, see the two theorems below. -/
theorem C32_compact_partial (v : UInt64) (h0 : v ≠ 0) (h1 : v.toNat ≤ 2 ^ 64 - 2 ^ 56) :
    ∃ b, Polkadot.encode v = .ok (Hex.encode b) ∧ IsCompact b v.toNat := by
  have hpos : v.toNat ≠ 0 := fun h => h0 (UInt64.toNat.inj (by simpa using h))
  have h64 := v.toNat_lt
  by_cases hv : 2 ^ 30 ≤ v.toNat
  · obtain ⟨r, e1, e2, e3, e4, e5⟩ := encode_long v hv
    have hk : 4 ≤ r.length := by
      by_contra hlt
      have : 256 ^ r.length ≤ 256 ^ 3 := Nat.pow_le_pow_right (by omega) (by omega)
      omega
    have hbl : 8 * (r.length - 1) < 64 - leadingZeros v ∧ 64 - leadingZeros v ≤ 8 * r.length ∧ leadingZeros v ≤ 64 := by
      unfold leadingZeros
      split
      · rename_i hlt
        have hb := bitLen_bytes v.toNat r.length e4 e5
        have : bitLen v.toNat ≤ 64 := by rw [bitLen_le]; omega
        omega
      · rename_i hge
        have hr8 : r.length = 8 := by
          by_contra hne
          have : 256 ^ r.length ≤ 256 ^ 7 := Nat.pow_le_pow_right (by omega) (by omega)
          omega
        have hb1 : ¬ bitLen (2 ^ 64 - v.toNat) ≤ 56 := by rw [bitLen_le]; omega
        have hb2 : bitLen (2 ^ 64 - v.toNat) ≤ 64 := by rw [bitLen_le]; omega
        omega
    have hp := prefix_value v r.length hk e3 hbl.1 hbl.2.1 hbl.2.2
    refine ⟨getPrefix v :: r, e1, ?_, by omega, by omega, by omega, ?_⟩
    · intro rest
      rw [List.cons_append]
      unfold decodeCompact
      simp only [hp]
      rw [if_neg (by omega), if_neg (by omega), if_neg (by omega)]
      have : (4 * (r.length - 4) + 3) / 4 + 4 = r.length := by omega
      rw [this, if_neg (by simp), List.take_left, List.drop_left, e2]
    · intro _
      simp only [List.length_cons, Nat.add_sub_cancel]
      exact ⟨by rw [show r.length + 1 - 2 = r.length - 1 from by omega]; exact e4, e5⟩
  · have hle : leNat (leBytes 4 v.toNat) = v.toNat := leNat_leBytes_of_lt (by omega)
    obtain ⟨r, m, c1, c2, c3, c4⟩ := removeExtra_spec (leBytes 4 v.toNat) (by rw [hle]; exact hpos)
    rw [hle] at c4
    have hr : leNat r = v.toNat := by
      rw [← hle, c2, leNat_append, leNat_replicate_zero]; simp
    have hlen : r.length + m = 4 := by
      have := congrArg List.length c2
      simp at this; omega
    have hn : compactLength v.toNat = 1 ∨ compactLength v.toNat = 2 ∨ compactLength v.toNat = 4 := by
      unfold compactLength
      split
      · simp
      · split
        · simp
        · rw [if_pos (by omega)]; simp
    have hrn : r.length ≤ compactLength v.toNat := by
      by_contra hgt
      have hgt' : compactLength v.toNat ≤ r.length - 1 := by omega
      have h3 : 256 ^ compactLength v.toNat ≤ v.toNat := le_trans (Nat.pow_le_pow_right (by omega) hgt') c4
      unfold compactLength at h3
      split at h3
      · omega
      · split at h3
        · omega
        · rw [if_pos (by omega)] at h3; omega
    have h5 : compactLength v.toNat ≠ 5 := by omega
    have hbig : 4 * v.toNat < 256 ^ compactLength v.toNat := by
      unfold compactLength
      split
      · omega
      · split
        · omega
        · rw [if_pos (by omega)]; omega
    have hval : leNat (r ++ List.replicate (compactLength v.toNat - r.length) 0) = v.toNat := by
      rw [leNat_append, leNat_replicate_zero, hr]; simp
    obtain ⟨s, d1, d2, d3⟩ := bytesToCompact_spec (r ++ List.replicate (compactLength v.toNat - r.length) 0) (compactLength v.toNat) hn
      (by simp; omega) (by rw [hval]; exact hbig)
    rw [hval] at d3
    obtain ⟨x, xs, rfl⟩ := List.exists_cons_of_ne_nil (l := s) (by rintro rfl; simp at d2; omega)
    refine ⟨x :: xs, ?_, ?_, ?_, ?_, ?_, by omega⟩
    · unfold Polkadot.encode
      rw [if_neg (by omega), c1]
      simp only [Res.bind_ok]
      rw [d1]
      simp only [Res.bind_ok, h5, if_false]
    · intro rest
      have hm := head_mod4 x xs
      have htake : ∀ n, (x :: xs).length = n → ((x :: xs) ++ rest).take n = x :: xs ∧ ((x :: xs) ++ rest).drop n = rest ∧
          ¬ ((x :: xs) ++ rest).length < n := by
        rintro n rfl
        simp
      rw [d3] at hm
      unfold decodeCompact
      rcases hn with h | h | h
      · rw [h] at d2 d3 hm
        have : xs = [] := by simpa using d2
        subst this
        simp only [leNat] at d3
        simp only [List.cons_append, List.nil_append]
        rw [if_pos (by simp at hm; omega)]
        simp at d3
        congr 2; omega
      · rw [h] at d2 d3 hm
        simp only [List.cons_append]
        obtain ⟨t1, t2, t3⟩ := htake 2 d2
        rw [List.cons_append] at t1 t2 t3
        simp at hm
        rw [if_neg (by omega), if_pos (by omega), if_neg t3, t1, t2, d3]
        simp
        omega
      · rw [h] at d2 d3 hm
        simp only [List.cons_append]
        obtain ⟨t1, t2, t3⟩ := htake 4 d2
        rw [List.cons_append] at t1 t2 t3
        simp at hm
        rw [if_neg (by omega), if_neg (by omega), if_pos (by omega), if_neg t3, t1, t2, d3]
        simp
        omega
    · intro hlt
      rw [d2]; unfold compactLength; rw [if_pos (by omega)]
    · intro hge hlt
      rw [d2]; unfold compactLength; rw [if_neg (by omega), if_pos (by omega)]
    · intro hge hlt
      rw [d2]; unfold compactLength; rw [if_neg (by omega), if_neg (by omega), if_pos (by omega)]

example : (5000000000 : UInt64) ≠ 0 ∧ (5000000000 : UInt64).toNat ≤ 2 ^ 64 - 2 ^ 56 ∧
    Polkadot.encode 5000000000 = .ok (asc "0700f2052a01") := by decide +kernel

/-- The part of C32 that fails (a): the value 0 makes `Encode` panic. -/
theorem C32_zero_violated : Polkadot.encode 0 = .panic := by decide +kernel

/-- The part of C32 that fails (b): for every value above 2^64 - 2^56 the text does not decode to the value (the length prefix is
computed from the value as a negative int64). -/
theorem C32_large_violated (v : UInt64) (h : 2 ^ 64 - 2 ^ 56 < v.toNat) :
    ∃ b, Polkadot.encode v = .ok (Hex.encode b) ∧ decodeCompact b ≠ some (v.toNat, []) := by
  have h64 := v.toNat_lt
  obtain ⟨r, e1, e2, e3, e4, e5⟩ := encode_long v (by omega)
  have hr8 : r.length = 8 := by
    by_contra hne
    have : 256 ^ r.length ≤ 256 ^ 7 := Nat.pow_le_pow_right (by omega) (by omega)
    omega
  refine ⟨_, e1, ?_⟩
  have hz : 8 ≤ leadingZeros v ∧ leadingZeros v ≤ 64 := by
    unfold leadingZeros
    rw [if_neg (by omega)]
    have : bitLen (2 ^ 64 - v.toNat) ≤ 56 := by rw [bitLen_le]; omega
    omega
  have hp : (getPrefix v).toNat ≠ 19 := by
    unfold getPrefix
    have : leadingZeros v / 8 = 1 ∨ leadingZeros v / 8 = 2 ∨ leadingZeros v / 8 = 3 ∨ leadingZeros v / 8 = 4 ∨ leadingZeros v / 8 = 5 ∨
      leadingZeros v / 8 = 6 ∨ leadingZeros v / 8 = 7 ∨ leadingZeros v / 8 = 8 := by omega
    rcases this with e | e | e | e | e | e | e | e <;> rw [e] <;> decide
  have hp3 : (getPrefix v).toNat % 4 = 3 := by
    unfold getPrefix
    have : leadingZeros v / 8 = 1 ∨ leadingZeros v / 8 = 2 ∨ leadingZeros v / 8 = 3 ∨ leadingZeros v / 8 = 4 ∨ leadingZeros v / 8 = 5 ∨
      leadingZeros v / 8 = 6 ∨ leadingZeros v / 8 = 7 ∨ leadingZeros v / 8 = 8 := by omega
    rcases this with e | e | e | e | e | e | e | e <;> rw [e] <;> decide
  unfold decodeCompact
  simp only
  rw [if_neg (by omega), if_neg (by omega), if_neg (by omega)]
  split
  · simp
  · rename_i hl
    intro hc
    simp only [Option.some.injEq, Prod.mk.injEq] at hc
    have := List.drop_eq_nil_iff.mp hc.2
    omega

example : (2 : Nat) ^ 64 - 2 ^ 56 < (UInt64.ofNat (2 ^ 64 - 1)).toNat := by decide +kernel

/-- C33: for every height the two bytes denote, by the Substrate rule, a valid mortal era of 64 blocks whose phase is the height modulo
64, and seen from any of the 64 blocks from the given height on, the era starts exactly at that height. -/
theorem C33_era (height : UInt64) :
    decodeEra (getEra height) = some (64, height.toNat % 64) ∧
    ∀ current, height.toNat ≤ current → current < height.toNat + 64 → birth 64 (height.toNat % 64) current = height.toNat := by
  constructor
  · have hm : (height % 64).toNat = height.toNat % 64 := by simp [UInt64.toNat_mod]
    have hlt : (height % 64).toNat < 64 := by rw [hm]; omega
    rw [← hm]
    unfold getEra
    generalize height % 64 = p at hlt
    have hfin : ∀ q : Fin 64, decodeEra (let encoded := (if (6 - 1 : UInt64) < 15 then (6 - 1 : UInt64) else 15) + (UInt64.ofNat q.val / 1) <<< 4;
        [(encoded &&& 0xff).toUInt8, (encoded >>> 8).toUInt8]) = some (64, (UInt64.ofNat q.val).toNat) := by decide +kernel
    have := hfin ⟨p.toNat, hlt⟩
    simpa using this
  · intro c h1 h2
    unfold birth
    have : height.toNat % 64 ≤ c := by omega
    rw [Nat.max_eq_left this]
    have e : (c - height.toNat % 64) / 64 = height.toNat / 64 := by omega
    rw [e]
    omega

example : getEra 100 = [0x45, 0x02] ∧ decodeEra [0x45, 0x02] = some (64, 36) := by decide +kernel

namespace Polkadot

theorem zeroOrCompact_spec (v : UInt64) (h1 : v.toNat ≤ 2 ^ 64 - 2 ^ 56) : ∃ b, zeroOrCompact v = .ok b ∧ IsCompact b v.toNat := by
  unfold zeroOrCompact
  by_cases h0 : v = 0
  · subst h0
    refine ⟨[0], by simp, ?_, by simp, by simp, by simp, by simp⟩
    intro rest
    simp [decodeCompact]
  · obtain ⟨b, e1, e2⟩ := C32_compact_partial v h0 h1
    refine ⟨b, ?_, e2⟩
    rw [if_neg h0, e1]
    simp [Hex.decodePrefix_encode]

theorem IsCompact.ne_nil {b : Bytes} {v : Nat} (h : IsCompact b v) : b ≠ [] := by
  rintro rfl
  have := h.1 []
  simp [decodeCompact] at this

theorem method_spec (code recipient : Bytes) (amount : UInt64) (h1 : amount.toNat ≤ 2 ^ 64 - 2 ^ 56) (m : Bytes)
    (h : method code recipient amount = .ok m) :
    ∃ dest amt, Hex.decode recipient = .ok dest ∧ dest.length = 32 ∧ amount ≠ 0 ∧ IsCompact amt amount.toNat ∧
      m = Hex.decodePrefix code ++ dest ++ amt := by
  unfold method at h
  split at h
  · rename_i pub hp
    by_cases c1 : pub.length ≠ 32
    · rw [if_pos c1] at h; cases h
    rw [if_neg c1] at h
    by_cases c2 : amount = 0
    · rw [if_pos c2] at h; cases h
    rw [if_neg c2] at h
    obtain ⟨b, e1, e2⟩ := C32_compact_partial amount c2 h1
    rw [e1] at h
    simp only [Res.bind_ok, Hex.decodePrefix_encode] at h
    rw [if_neg (IsCompact.ne_nil e2)] at h
    cases h
    exact ⟨pub, b, hp, by simpa using c1, c2, e2, rfl⟩
  · cases h
  · cases h

theorem method_ok (code recipient dest : Bytes) (amount : UInt64) (h1 : amount.toNat ≤ 2 ^ 64 - 2 ^ 56) (h0 : amount ≠ 0)
    (hd : Hex.decode recipient = .ok dest) (hl : dest.length = 32) : ∃ m, method code recipient amount = .ok m := by
  obtain ⟨b, e1, e2⟩ := C32_compact_partial amount h0 h1
  unfold method
  rw [hd]
  simp only [hl, ne_eq, not_true_eq_false, if_false, h0, e1, Res.bind_ok, Hex.decodePrefix_encode, (IsCompact.ne_nil e2)]
  exact ⟨_, rfl⟩

theorem compact_length_le {b : Bytes} {v : Nat} (h : IsCompact b v) (hv : v < 2 ^ 64) : b.length ≤ 9 := by
  by_cases h1 : v < 2 ^ 6
  · have := h.2.1 h1; omega
  by_cases h2 : v < 2 ^ 14
  · have := h.2.2.1 (by omega) h2; omega
  by_cases h3 : v < 2 ^ 30
  · have := h.2.2.2.1 (by omega) h3; omega
  have := h.2.2.2.2 (by omega)
  by_contra hc
  have : 256 ^ 8 ≤ 256 ^ (b.length - 2) := Nat.pow_le_pow_right (by omega) (by omega)
  omega

theorem decodePrefix_length : ∀ t : Bytes, (Hex.decodePrefix t).length ≤ t.length
  | [] => by simp [Hex.decodePrefix]
  | [_] => by simp [Hex.decodePrefix]
  | a :: b :: rest => by
    unfold Hex.decodePrefix
    split
    · have := decodePrefix_length rest
      simp only [List.length_cons]; omega
    · simp

end Polkadot

/-- What the API is given, decoded: the fields of the transaction structure as a block chain node understands them. -/
structure Spec.Polkadot.Decoded (ts : TxStruct) (code : Bytes) where
  sender : Bytes
  dest : Bytes
  genesis : Bytes
  block : Bytes
  call : Bytes
  amt : Bytes
  era : Bytes
  nonce : Bytes
  tip : Bytes
  senderHex : Hex.decode ts.senderPubkey = .ok sender
  senderLen : sender.length = 32
  destHex : Hex.decode ts.recipientPubkey = .ok dest
  destLen : dest.length = 32
  genesisHex : Hex.decode ts.genesisHash = .ok genesis
  genesisLen : genesis.length = 32
  blockHex : Hex.decode ts.blockHash = .ok block
  blockLen : block.length = 32
  amtC : IsCompact amt ts.amount.toNat
  nonceC : IsCompact nonce ts.nonce.toNat
  tipC : IsCompact tip ts.fee.toNat
  eraD : decodeEra era = some (64, ts.blockHeight.toNat % 64)
  callE : call = Hex.decodePrefix code ++ dest ++ amt

/-- The signed message: call, era, nonce, tip, versions, genesis hash, hash of the era's block. -/
def Spec.Polkadot.Decoded.message {ts : TxStruct} {code : Bytes} (d : Spec.Polkadot.Decoded ts code) : Bytes :=
  d.call ++ d.era ++ d.nonce ++ d.tip ++ leBytes 4 ts.specVersion.toNat ++ leBytes 4 ts.txVersion.toNat ++ d.genesis ++ d.block

/-- The body of the version 4 signed extrinsic (ed25519): version byte, sender, signature, era, nonce, tip, call. -/
def Spec.Polkadot.Decoded.extrinsic {ts : TxStruct} {code : Bytes} (d : Spec.Polkadot.Decoded ts code) (sig : Bytes) : Bytes :=
  [0x84, 0x00] ++ d.sender ++ [0x00] ++ sig ++ d.era ++ d.nonce ++ d.tip ++ d.call

namespace Polkadot

theorem hash32_ok {t b : Bytes} (h : hash32 t = .ok b) : Hex.decode t = .ok b ∧ b.length = 32 := by
  unfold hash32 at h
  split at h
  · rename_i hx
    split at h
    · cases h
    · rename_i hc
      cases h
      exact ⟨hx, by simpa using hc⟩
  · cases h
  · cases h

theorem payload_ok {ts : TxStruct} {code msg : Bytes} (h : payload ts code = .ok msg) :
    ∃ m nonce fee genesis block, method code ts.recipientPubkey ts.amount = .ok m ∧ ts.blockHeight ≠ 0 ∧
      zeroOrCompact ts.nonce = .ok nonce ∧ zeroOrCompact ts.fee = .ok fee ∧ hash32 ts.genesisHash = .ok genesis ∧
      hash32 ts.blockHash = .ok block ∧ msg = Hex.encode (m ++ getEra ts.blockHeight ++ nonce ++ fee ++ leBytes 4 ts.specVersion.toNat ++
        leBytes 4 ts.txVersion.toNat ++ genesis ++ block) := by
  unfold payload at h
  obtain ⟨m, hm, h⟩ := Res.bind_eq_ok.mp h
  by_cases c : ts.blockHeight = 0
  · rw [if_pos c] at h; cases h
  rw [if_neg c] at h
  obtain ⟨n, hn, h⟩ := Res.bind_eq_ok.mp h
  obtain ⟨f, hf, h⟩ := Res.bind_eq_ok.mp h
  obtain ⟨g, hg, h⟩ := Res.bind_eq_ok.mp h
  obtain ⟨b, hb, h⟩ := Res.bind_eq_ok.mp h
  cases h
  exact ⟨m, n, f, g, b, hm, c, hn, hf, hg, hb, rfl⟩

end Polkadot

/-- C34, soundness: whenever combining reports success with a non-empty text, the text is `0x` and the hex form of the length-prefixed
extrinsic made of exactly the call, era, nonce and tip of the message that was returned for signing, and that message was verified
under the sender key in the extrinsic with the signature in the extrinsic. Missing: amounts, nonces and tips above 2^64 - 2^56 (C32), and
the empty text (next theorems). -/
theorem C34_combine_partial (verify : Bytes → Bytes → Bytes → Bool) (ts : TxStruct) (code sigHex t : Bytes)
    (ha : ts.amount.toNat ≤ 2 ^ 64 - 2 ^ 56) (hn : ts.nonce.toNat ≤ 2 ^ 64 - 2 ^ 56) (hf : ts.fee.toNat ≤ 2 ^ 64 - 2 ^ 56)
    (hcode : code.length < 2 ^ 32) (h : verifyAndCombine verify code ts sigHex = .ok (t, true)) (ht : t ≠ []) :
    ∃ (d : Spec.Polkadot.Decoded ts code) (sig len : Bytes),
      createEmpty ts code = .ok (ts, Hex.encode d.message) ∧ Hex.decode sigHex = .ok sig ∧ sig.length = 64 ∧
      verify d.sender d.message sig = true ∧ IsCompact len (d.extrinsic sig).length ∧
      t = asc "0x" ++ Hex.encode (len ++ d.extrinsic sig) := by
  unfold verifyAndCombine at h
  split at h
  · cases h
  · cases h
  rename_i msg hp
  obtain ⟨m, nonce, fee, genesis, block, p1, p2, p3, p4, p5, p6, p7⟩ := payload_ok hp
  split at h
  swap
  · cases h
  rename_i sig hsig
  by_cases hs : sig.length ≠ 64
  · rw [if_pos hs] at h; cases h
  rw [if_neg hs] at h
  have hs' : sig.length = 64 := by simpa using hs
  split at h
  swap
  · cases h
  rename_i hver
  split at h
  · rename_i t' hg
    have : t' = t := by cases h; rfl
    subst this
    unfold getSigned at hg
    split at hg
    swap
    · cases hg; exact absurd rfl ht
    rename_i sender hsend
    by_cases hl : sender.length ≠ 32
    · rw [if_pos hl] at hg; cases hg; exact absurd rfl ht
    rw [if_neg hl] at hg
    rw [hsig] at hg
    simp only [] at hg
    rw [if_neg hs, if_neg p2, p3, p4, p1] at hg
    simp only [Res.bind_ok] at hg
    obtain ⟨dest, amt, m1, m2, m3, m4, m5⟩ := method_spec _ _ _ ha _ p1
    obtain ⟨nb, n1, n2⟩ := zeroOrCompact_spec _ hn
    obtain ⟨fb, f1, f2⟩ := zeroOrCompact_spec _ hf
    rw [p3] at n1; cases n1
    rw [p4] at f1; cases f1
    obtain ⟨g1, g2⟩ := hash32_ok p5
    obtain ⟨b1, b2⟩ := hash32_ok p6
    let d : Spec.Polkadot.Decoded ts code :=
      ⟨sender, dest, genesis, block, m, amt, getEra ts.blockHeight, nonce, fee, hsend, by simpa using hl, m1, m2, g1, g2, b1, b2, m4, n2, f2,
        (C33_era ts.blockHeight).1, m5⟩
    have hlenb : (d.extrinsic sig).length ≤ 2 ^ 33 ∧ (d.extrinsic sig).length ≠ 0 := by
      have l1 := compact_length_le n2 ts.nonce.toNat_lt
      have l2 := compact_length_le f2 ts.fee.toNat_lt
      have l3 := compact_length_le m4 ts.amount.toNat_lt
      have l4 := decodePrefix_length code
      have l5 : (getEra ts.blockHeight).length = 2 := rfl
      have l6 : sender.length = 32 := by simpa using hl
      simp only [Spec.Polkadot.Decoded.extrinsic, d, m5, List.length_append, List.length_cons, List.length_nil]
      omega
    have hu : (UInt64.ofNat (d.extrinsic sig).length).toNat = (d.extrinsic sig).length := by
      rw [UInt64.toNat_ofNat']; omega
    have hu0 : UInt64.ofNat (d.extrinsic sig).length ≠ 0 := by
      intro hz
      rw [hz] at hu
      simp at hu
      omega
    obtain ⟨len, c1, c2⟩ := C32_compact_partial (UInt64.ofNat (d.extrinsic sig).length) hu0 (by rw [hu]; omega)
    rw [hu] at c2
    refine ⟨d, sig, len, ?_, hsig, hs', ?_, c2, ?_⟩
    · unfold createEmpty
      rw [hp, p7]
      rfl
    · rw [Hex.decodePrefix_of_ok _ _ hsend, p7, Hex.decodePrefix_encode] at hver
      exact hver
    · have e : [0x84, 0x00] ++ sender ++ [0x00] ++ sig ++ getEra ts.blockHeight ++ nonce ++ fee ++ m = d.extrinsic sig := rfl
      rw [e, c1] at hg
      simp only [Res.bind_ok, Hex.decodePrefix_encode] at hg
      cases hg
      rw [List.append_assoc, Hex.encode_append]
  · cases h
  · cases h

/-- C34, completeness: for well-formed fields both calls succeed: the message is returned, and any signature that verifies is
combined into a non-empty extrinsic. -/
theorem C34_complete_partial (verify : Bytes → Bytes → Bytes → Bool) (ts : TxStruct) (code sigHex : Bytes)
    (ha : ts.amount.toNat ≤ 2 ^ 64 - 2 ^ 56) (hn : ts.nonce.toNat ≤ 2 ^ 64 - 2 ^ 56) (hf : ts.fee.toNat ≤ 2 ^ 64 - 2 ^ 56)
    (hcode : code.length < 2 ^ 32) (h0 : ts.amount ≠ 0) (hb : ts.blockHeight ≠ 0)
    (sender dest genesis block sig : Bytes) (h1 : Hex.decode ts.senderPubkey = .ok sender) (l1 : sender.length = 32)
    (h2 : Hex.decode ts.recipientPubkey = .ok dest) (l2 : dest.length = 32)
    (h3 : Hex.decode ts.genesisHash = .ok genesis) (l3 : genesis.length = 32)
    (h4 : Hex.decode ts.blockHash = .ok block) (l4 : block.length = 32)
    (h5 : Hex.decode sigHex = .ok sig) (l5 : sig.length = 64) :
    ∃ msg, createEmpty ts code = .ok (ts, Hex.encode msg) ∧
      (verify sender msg sig = true → ∃ t, t ≠ [] ∧ verifyAndCombine verify code ts sigHex = .ok (t, true)) ∧
      (verify sender msg sig = false → verifyAndCombine verify code ts sigHex = .ok ([], false)) := by
  obtain ⟨m, hm⟩ := method_ok code _ _ _ ha h0 h2 l2
  obtain ⟨nb, n1, n2⟩ := zeroOrCompact_spec _ hn
  obtain ⟨fb, f1, f2⟩ := zeroOrCompact_spec _ hf
  have hg : hash32 ts.genesisHash = .ok genesis := by unfold hash32; rw [h3]; simp [l3]
  have hbk : hash32 ts.blockHash = .ok block := by unfold hash32; rw [h4]; simp [l4]
  obtain ⟨dest', amt, _, m2, m3, m4, m5⟩ := method_spec _ _ _ ha _ hm
  have hp : payload ts code = .ok (Hex.encode (m ++ getEra ts.blockHeight ++ nb ++ fb ++ leBytes 4 ts.specVersion.toNat ++
      leBytes 4 ts.txVersion.toNat ++ genesis ++ block)) := by
    unfold payload
    rw [hm]
    simp only [Res.bind_ok]
    rw [if_neg hb, n1, f1, hg, hbk]
    rfl
  refine ⟨_, by unfold createEmpty; rw [hp]; rfl, ?_, ?_⟩
  · intro hv
    unfold verifyAndCombine
    rw [hp]
    simp only [h5, l5, ne_eq, not_true_eq_false, if_false]
    rw [Hex.decodePrefix_of_ok _ _ h1, Hex.decodePrefix_encode, if_pos hv]
    have hgs : ∃ t, t ≠ [] ∧ getSigned ts code sigHex = .ok t := by
      unfold getSigned
      rw [h1]
      simp only [l1, h5, l5, ne_eq, not_true_eq_false, if_false, hb, n1, f1, hm, Res.bind_ok]
      generalize hbody : [0x84, 0x00] ++ sender ++ [0x00] ++ sig ++ getEra ts.blockHeight ++ nb ++ fb ++ m = body
      have hlenb : body.length ≤ 2 ^ 33 ∧ body.length ≠ 0 := by
        have l1' := compact_length_le n2 ts.nonce.toNat_lt
        have l2' := compact_length_le f2 ts.fee.toNat_lt
        have l3' := compact_length_le m4 ts.amount.toNat_lt
        have l4' := decodePrefix_length code
        have l5' : (getEra ts.blockHeight).length = 2 := rfl
        rw [← hbody, m5]
        simp only [List.length_append, List.length_cons, List.length_nil]
        omega
      have hu : (UInt64.ofNat body.length).toNat = body.length := by
        rw [UInt64.toNat_ofNat']; omega
      have hu0 : UInt64.ofNat body.length ≠ 0 := by
        intro hz
        rw [hz] at hu
        simp at hu
        omega
      obtain ⟨len, c1, _⟩ := C32_compact_partial (UInt64.ofNat body.length) hu0 (by rw [hu]; omega)
      rw [c1]
      exact ⟨_, by simp [asc], rfl⟩
    obtain ⟨t, t0, hgs⟩ := hgs
    rw [hgs]
    exact ⟨t, t0, rfl⟩
  · intro hv
    unfold verifyAndCombine
    rw [hp]
    simp only [h5, l5, ne_eq, not_true_eq_false, if_false]
    rw [Hex.decodePrefix_of_ok _ _ h1, Hex.decodePrefix_encode, hv]
    rfl

/-- A concrete transaction meeting the hypotheses. -/
def Polkadot.demo : TxStruct where
  senderPubkey := Hex.encode (List.replicate 32 0x11)
  recipientPubkey := Hex.encode (List.replicate 32 0x22)
  amount := 5000000000
  nonce := 0
  fee := 70
  blockHeight := 1000
  blockHash := Hex.encode (List.replicate 32 0x33)
  genesisHash := Hex.encode (List.replicate 32 0x44)
  specVersion := 25
  txVersion := 5

example : (createEmpty demo (asc "050000")).isOk = true ∧
    (match verifyAndCombine (fun _ _ _ => true) (asc "050000") demo (Hex.encode (List.replicate 64 7)) with
      | .ok (t, b) => t.length == 296 && b
      | _ => false) = true := by decide +kernel

/-- The part of C34 that fails: a sender key text with a stray character after the 64 hex digits is used for verification (the digits
before it), so a correct signature is accepted, but no extrinsic is built: the result is the empty text together with success. Shown for
every otherwise well-formed transaction. -/
theorem C34_empty_success_violated (verify : Bytes → Bytes → Bytes → Bool) (ts : TxStruct) (code sigHex sender msg sig : Bytes)
    (h1 : ts.senderPubkey = Hex.encode sender ++ asc "z") (h2 : createEmpty ts code = .ok (ts, Hex.encode msg))
    (h3 : Hex.decode sigHex = .ok sig) (l3 : sig.length = 64) (hv : verify sender msg sig = true) :
    verifyAndCombine verify code ts sigHex = .ok ([], true) := by
  unfold createEmpty at h2
  obtain ⟨m, hm, h2⟩ := Res.bind_eq_ok.mp h2
  have hm' : m = Hex.encode msg := by cases h2; rfl
  subst hm'
  have hdec : ∀ s : Bytes, Hex.decode (Hex.encode s ++ asc "z") = .err := by
    intro s
    have := Hex.decode_isOk_iff (Hex.encode s ++ asc "z")
    rcases hd : Hex.decode (Hex.encode s ++ asc "z") with b | _ | _
    · have := this.mp ⟨b, hd⟩
      have e : (Hex.encode s ++ asc "z").length % 2 = 1 := by
        rw [List.length_append, Hex.encode_length]
        simp [asc]
      omega
    · rfl
    · exact absurd hd (Hex.decode_ne_panic _)
  unfold verifyAndCombine
  rw [hm]
  simp only [h3, l3, ne_eq, not_true_eq_false, if_false, h1, Hex.decodePrefix_encode]
  rw [Hex.decodePrefix_append _ _ _ (Hex.decode_encode sender)]
  have e : Hex.decodePrefix (asc "z") = [] := by decide
  rw [e, List.append_nil, if_pos hv]
  unfold getSigned
  rw [h1, hdec]

example : (createEmpty { demo with senderPubkey := Hex.encode (List.replicate 32 0x11) ++ asc "z" } (asc "050000")).isOk = true := by
  decide +kernel

/-- C34, when the result is empty, for all transactions and signatures: success comes with the empty text exactly if the sender key is not the
hexadecimal text of 32 bytes. -/
theorem C34_empty_exact_partial (verify : Bytes → Bytes → Bytes → Bool) (ts : TxStruct) (code sigHex t : Bytes)
    (h : verifyAndCombine verify code ts sigHex = .ok (t, true)) :
    t = [] ↔ ¬ ∃ sender, Hex.decode ts.senderPubkey = .ok sender ∧ sender.length = 32 := by
  unfold verifyAndCombine at h
  split at h
  · cases h
  · cases h
  split at h
  swap
  · cases h
  rename_i sig hsig
  split at h
  · cases h
  rename_i hl
  split at h
  swap
  · cases h
  split at h
  · rename_i t' hg
    obtain rfl : t' = t := by cases h; rfl
    unfold getSigned at hg
    cases hd : Hex.decode ts.senderPubkey with
    | err => rw [hd] at hg; cases hg; simp
    | panic => rw [hd] at hg; cases hg; simp
    | ok sender =>
      rw [hd] at hg
      simp only at hg
      by_cases hs : sender.length = 32
      · rw [if_neg (by simpa using hs), hsig] at hg
        simp only at hg
        rw [if_neg hl] at hg
        split at hg
        · cases hg
        simp only [Res.bind_eq_ok, Res.ok.injEq] at hg
        obtain ⟨_, _, _, _, _, _, _, _, rfl⟩ := hg
        constructor
        · intro hc
          simp [asc] at hc
        · intro hn
          exact absurd ⟨sender, rfl, hs⟩ hn
      · rw [if_pos hs] at hg
        cases hg
        simp [hs]
  · cases h
  · cases h

end Verif
