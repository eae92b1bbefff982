import Verif.Lemmas.BtcSig

/-! Properties C24, C25, C26: signatures in Bitcoin unlocking scripts (package btcTransaction). -/

namespace Verif
open Verif.Spec Verif.Btc

/-- C24 (a). Every 64-byte signature with non-zero r and s is written as one push of a canonical DER signature of exactly
that r and s, followed by the signature type. -/
theorem C24_encode_canonical (sig : Bytes) (ht : UInt8) (hl : sig.length = 64) (hr : beNat (sig.take 32) ≠ 0)
    (hs : beNat (sig.drop 32) ≠ 0) :
    ∃ R S, IsDerInt R (beNat (sig.take 32)) ∧ IsDerInt S (beNat (sig.drop 32)) ∧ R.length ≤ 33 ∧ S.length ≤ 33 ∧
      encodeSig sig ht = .ok (push (derSig R S ++ [ht])) := by
  obtain ⟨R, h1, h2, h3⟩ := derBody_spec (sig.take 32) (by simp; omega) hr
  obtain ⟨S, k1, k2, k3⟩ := derBody_spec (sig.drop 32) (by simp; omega) hs
  refine ⟨R, S, h2, k2, h3, k3, ?_⟩
  unfold encodeSig
  rw [slice_ok (by omega) (by omega)]
  simp only [List.drop_zero, Res.bind_ok, h1, k1]
  simp [push, derSig]

/-- C24 (b), restricted: a signature and public key written to an unlocking script are read back unchanged, together with the
signature type, provided that r is below 2^247 or s at least 2^231. Missing: shorter s next to a full-width r, see
`C24_short_s_violated`. -/
theorem C24_roundtrip_partial (sig pub : Bytes) (ht : UInt8) (hl : sig.length = 64) (hp : pub.length = 33)
    (hr : beNat (sig.take 32) ≠ 0) (hs : beNat (sig.drop 32) ≠ 0)
    (hrange : beNat (sig.take 32) < 2 ^ 247 ∨ 2 ^ 231 ≤ beNat (sig.drop 32)) :
    ∃ script, encodeSigPub sig pub ht = .ok script ∧ decodeSigPub script = .ok (sig, pub, ht) := by
  obtain ⟨R, S, dR, dS, lR, lS, he⟩ := C24_encode_canonical sig ht hl hr hs
  refine ⟨push (derSig R S ++ [ht]) ++ 0x21 :: pub, ?_, ?_⟩
  · unfold encodeSigPub
    rw [he]
    simp [hp]
  rw [Btc.push_der R S ht _]
  generalize hm : [UInt8.ofNat (R.length + S.length + 7), 0x30, UInt8.ofNat (R.length + S.length + 4), 0x02,
    UInt8.ofNat R.length] ++ R ++ (0x02 :: UInt8.ofNat S.length :: (S ++ ht :: 0x21 :: pub)) = script
  have hlen : script.length = 42 + R.length + S.length := by rw [← hm]; simp [hp]; omega
  have z33 : ∀ {c : Bytes} {b : Bytes}, b.length = 32 → IsDerInt c (beNat b) → c.length = 33 → ∀ x ∈ c.head?, x = 0 := by
    intro c b hb hd hc x hx
    cases c with
    | nil => simp at hx
    | cons y t =>
      simp at hx; subst hx
      by_contra h0
      have hv := hd.value
      rw [beNat_cons] at hv
      have h1 := beNat_lt b
      have hy : 1 ≤ y.toNat := by
        by_contra hcc
        exact h0 (UInt8.toNat_inj.mp (by simp; omega))
      have h2 : 1 * 256 ^ t.length ≤ y.toNat * 256 ^ t.length := Nat.mul_le_mul_right _ hy
      have ht : t.length = 32 := by simpa using hc
      rw [ht] at h2 hv
      rw [hb] at h1
      omega
  have rs := readSig_ok (UInt8.ofNat (R.length + S.length + 7)) (UInt8.ofNat (R.length + S.length + 4)) R S
    (ht :: 0x21 :: pub) script.length lR lS (z33 (by simp; omega) dR) (z33 (by simp; omega) dS) (by omega)
  rw [hm] at rs
  have bR : intBody R = sig.take 32 := intBody_der _ _ (by simp; omega) dR lR
  have bS : intBody S = sig.drop 32 := intBody_der _ _ (by simp; omega) dS lS
  have hshort : R.length < 32 ∨ 30 ≤ S.length := by
    rcases hrange with h | h
    · left
      by_contra hc
      have := Btc.IsDerInt.ge dR (by omega)
      have : 2 ^ 247 ≤ 2 ^ (8 * (R.length - 1) - 1) := Nat.pow_le_pow_right (by omega) (by omega)
      omega
    · right
      by_contra hc
      have := Btc.IsDerInt.lt dS
      have : 2 ^ (8 * S.length - 1) ≤ 2 ^ 231 := Nat.pow_le_pow_right (by omega) (by omega)
      omega
  obtain ⟨pre, hpre, hprel⟩ := memAfter_tail [UInt8.ofNat (R.length + S.length + 7), 0x30,
    UInt8.ofNat (R.length + S.length + 4), 0x02, UInt8.ofNat R.length] R S (ht :: 0x21 :: pub) lS hshort
  have hprel' : pre.length = 7 + R.length + S.length := by rw [hprel]; simp; omega
  unfold decodeSigPub
  simp only
  rw [if_neg (by omega)]
  have i0 : index script 0 = .ok (UInt8.ofNat (R.length + S.length + 7)) := by rw [← hm]; rfl
  have i1 : at' (memAfter [UInt8.ofNat (R.length + S.length + 7), 0x30,
      UInt8.ofNat (R.length + S.length + 4), 0x02, UInt8.ofNat R.length] R S (ht :: 0x21 :: pub)) script.length
      (7 + R.length + S.length) = .ok ht := by
    rw [at', if_neg (by omega), hpre]; exact index_at _ _ _ hprel'
  have i2 : at' (memAfter [UInt8.ofNat (R.length + S.length + 7), 0x30,
      UInt8.ofNat (R.length + S.length + 4), 0x02, UInt8.ofNat R.length] R S (ht :: 0x21 :: pub)) script.length
      (7 + R.length + S.length + 1) = .ok 0x21 := by
    rw [at', if_neg (by omega), hpre, show pre ++ ht :: 0x21 :: pub = (pre ++ [ht]) ++ 0x21 :: pub by simp]
    exact index_at _ _ _ (by simp [hprel'])
  have i3 : slice (memAfter [UInt8.ofNat (R.length + S.length + 7), 0x30,
      UInt8.ofNat (R.length + S.length + 4), 0x02, UInt8.ofNat R.length] R S (ht :: 0x21 :: pub))
      (7 + R.length + S.length + 2) (7 + R.length + S.length + 35) = .ok pub := by
    rw [hpre, show pre ++ ht :: 0x21 :: pub = (pre ++ [ht, 0x21]) ++ pub by simp]
    exact slice_suffix _ _ (by simp [hprel']) (by rw [hp])
  simp only [i0, rs, i1, i2, i3, Res.bind_ok]
  rw [if_neg (by decide), if_neg (by omega), if_neg, if_neg (by omega), bR, bS, List.take_append_drop]
  simp only [not_or, not_not]
  refine ⟨?_, ?_, ?_⟩
  all_goals (apply UInt8.toNat_inj.mp; simp <;> omega)

example : ∃ sig : Bytes, sig.length = 64 ∧ beNat (sig.take 32) ≠ 0 ∧ 2 ^ 231 ≤ beNat (sig.drop 32) :=
  ⟨List.replicate 64 0x81, rfl, by decide +kernel, by decide +kernel⟩

/-- The signature used below: r has its top bit set, s = 2^216. -/
def Btc.shortSig : Bytes := List.replicate 32 0x81 ++ (List.replicate 4 0 ++ 1 :: List.replicate 27 0)

/-- The part of C24 (b) that fails. Reading r leaves a slice into the script, and appending s to it overwrites the script
behind r: with a full-width r and a short s the bytes read next (type, key length, key) are bytes of s. A script written
for r with the top bit set and s = 2^216 is rejected by the reader. -/
theorem C24_short_s_violated : ∃ script, encodeSigPub shortSig (2 :: List.replicate 32 7) 1 = .ok script ∧
    decodeSigPub script = .err :=
  ⟨_, rfl, by decide +kernel⟩

/-- The same overwriting makes the reader return a wrong signature type: for s of 29 bytes the type is read from the last
byte of s. -/
theorem C24_sigtype_violated : ∃ sig pub script : Bytes, sig.length = 64 ∧ pub.length = 33 ∧
    encodeSigPub sig pub 1 = .ok script ∧ decodeSigPub script = .ok (sig, pub, 0x42) :=
  ⟨List.replicate 32 0x81 ++ ([0, 0, 0, 1] ++ List.replicate 27 5 ++ [0x42]), 2 :: List.replicate 32 7, _, rfl, rfl, rfl,
    by decide +kernel⟩

/-- A zero r or s makes the writer panic instead of returning an error. -/
theorem C24_zero_violated (sig : Bytes) (ht : UInt8) (hl : sig.length = 64)
    (h0 : beNat (sig.take 32) = 0 ∨ beNat (sig.drop 32) = 0) : encodeSig sig ht = .panic := by
  unfold encodeSig
  rw [slice_ok (by omega) (by omega)]
  simp only [List.drop_zero, Res.bind_ok]
  by_cases hr : beNat (sig.take 32) = 0
  · rw [derBody_zero _ (by simp; omega) hr]; rfl
  · obtain ⟨R, h1, _, _⟩ := derBody_spec (sig.take 32) (by simp; omega) hr
    rw [h1, derBody_zero _ (by simp; omega) (by tauto)]; rfl

/-! ### Canonical signatures only -/

/-- C25 is false: the reader accepts several scripts for the same signature. The 33-byte form of r is accepted with a
non-zero first byte (which is dropped), and short forms with superfluous zero bytes are accepted. -/
theorem C25_malleable_violated : ∃ a b c : Bytes, a ≠ b ∧ b ≠ c ∧ a ≠ c ∧
    ∃ sig, decodeSig a a.length = .ok (sig, 1, a) ∧ encodeSig sig 1 = .ok a ∧
      (∃ m, decodeSig b b.length = .ok (sig, 1, m)) ∧ ∃ m, decodeSig c c.length = .ok (sig, 1, m) := by
  refine ⟨push (derSig ([1] ++ List.replicate 30 5) (List.replicate 32 6) ++ [1]),
    push (derSig ([0, 1] ++ List.replicate 30 5) (List.replicate 32 6) ++ [1]),
    push (derSig ([1] ++ List.replicate 30 5) ([0] ++ List.replicate 32 6) ++ [1]), by decide +kernel, by decide +kernel,
    by decide +kernel, [0, 1] ++ List.replicate 30 5 ++ List.replicate 32 6, by decide +kernel, by decide +kernel,
    ⟨_, rfl⟩, ⟨_, rfl⟩⟩

/-- A first byte that is not zero is ignored: two signatures with different r in the script are read as the same. -/
theorem C25_first_byte_violated : ∃ a b : Bytes, ∃ sig m m', a ≠ b ∧ decodeSig a a.length = .ok (sig, 1, m) ∧
    decodeSig b b.length = .ok (sig, 1, m') ∧ beNat ((a.drop 5).take 33) ≠ beNat ((b.drop 5).take 33) :=
  ⟨push (derSig ([0] ++ List.replicate 32 0x85) (List.replicate 32 6) ++ [1]),
    push (derSig ([7] ++ List.replicate 32 0x85) (List.replicate 32 6) ++ [1]),
    List.replicate 32 0x85 ++ List.replicate 32 6, _, _, by decide +kernel, rfl, rfl,
    by decide +kernel⟩

/-- C25, restricted: an accepted script is one push of a DER-shaped signature with consistent lengths and one type byte; the
signature is 64 bytes with r and s the values of its integers modulo 2^256; and if those integers are canonical and non-zero, writing the
signature again gives the same script, and the reported type is the last byte unless s is shorter than 30 bytes. Missing: the reader does
not check that the integers are canonical (`C25_malleable_violated`). -/
theorem C25_shape_partial (b sig m : Bytes) (ht : UInt8) (h : decodeSig b b.length = .ok (sig, ht, m)) :
    ∃ R S t, b = push (derSig R S ++ [t]) ∧ sig.length = 64 ∧ beNat (sig.take 32) = beNat R % 2 ^ 256 ∧
      beNat (sig.drop 32) = beNat S % 2 ^ 256 ∧ (R.length < 32 ∨ 30 ≤ S.length → ht = t) ∧
      (IsDerInt R (beNat (sig.take 32)) → IsDerInt S (beNat (sig.drop 32)) → beNat (sig.take 32) ≠ 0 →
        beNat (sig.drop 32) ≠ 0 → encodeSig sig t = .ok b) := by
  obtain ⟨R, S, t, lR, lS, hb, hsig, hty⟩ := decodeSig_shape h
  have iR := intBody_length lR
  have iS := intBody_length lS
  have t1 : sig.take 32 = intBody R := by rw [hsig, ← iR, List.take_left]
  have t2 : sig.drop 32 = intBody S := by rw [hsig, ← iR, List.drop_left]
  have hl : sig.length = 64 := by rw [hsig]; simp [iR, iS]
  refine ⟨R, S, t, hb, hl, ?_, ?_, hty, ?_⟩
  · rw [t1, intBody_value lR]
  · rw [t2, intBody_value lS]
  · intro dR dS nR nS
    obtain ⟨R', S', dR', dS', _, _, he⟩ := C24_encode_canonical sig t hl nR nS
    rw [he, hb, IsDerInt.unique dR' dR, IsDerInt.unique dS' dS]

example : ∃ b sig m, decodeSig b b.length = .ok (sig, 1, m) :=
  ⟨push (derSig (List.replicate 32 5) (List.replicate 32 6) ++ [1]), _, _, rfl⟩

/-! ### Low S -/

/-- C26, restricted: the normalised signature keeps r and has s replaced by the smaller of s and n - s, and it is 64 bytes long
whenever the replacement is at least 2^240. Missing: smaller replacements, see `C26_width_violated`. -/
theorem C26_low_s_partial (sig : Bytes) (hl : sig.length = 64) (hs : beNat (sig.drop 32) < curveOrder) :
    (serilizeS sig).take 32 = sig.take 32 ∧
      beNat ((serilizeS sig).drop 32) = min (beNat (sig.drop 32)) (curveOrder - beNat (sig.drop 32)) ∧
      (2 ^ 240 ≤ curveOrder - beNat (sig.drop 32) → (serilizeS sig).length = 64) := by
  unfold serilizeS
  simp only
  generalize hv : beNat (sig.drop 32) = v at *
  have hn : curveOrder = 2 * halfOrder + 1 := by decide
  have t32 : (sig.take 32).length = 32 := by simp; omega
  have ea : ((curveOrder : Int) - (v : Int)).natAbs = curveOrder - v := by omega
  rw [ea]
  split
  · rename_i hgt
    refine ⟨?_, ?_, ?_⟩
    · rw [List.take_left' t32]
    · rw [List.drop_left' t32, OwKeychain.beNat_padLoop, OwKeychain.beNat_bigBytes]
      omega
    · intro h240
      have hup : curveOrder - v < 256 ^ 32 := by
        have : curveOrder < 256 ^ 32 := by decide
        omega
      have l1 := (OwKeychain.bigBytes_length_le (curveOrder - v) 32).mpr hup
      have l2 : ¬ (OwKeychain.bigBytes (curveOrder - v)).length ≤ 30 := by
        rw [OwKeychain.bigBytes_length_le]
        have : (256 : Nat) ^ 30 = 2 ^ 240 := by norm_num
        omega
      rw [List.length_append, t32, OwKeychain.pad_length _ l1]
      omega
  · rename_i hgt
    refine ⟨rfl, ?_, fun _ => hl⟩
    rw [hv]
    omega

example : ∃ sig : Bytes, sig.length = 64 ∧ beNat (sig.drop 32) < curveOrder ∧ halfOrder < beNat (sig.drop 32) ∧
    2 ^ 240 ≤ curveOrder - beNat (sig.drop 32) := ⟨List.replicate 64 0x90, rfl, by decide +kernel, by decide +kernel, by decide +kernel⟩

/-- The width is wrong for every s within 2^240 of the order: the padding loop stops half-way, and the signature has fewer than 64
bytes. -/
theorem C26_width_violated (sig : Bytes) (hl : sig.length = 64) (hs : beNat (sig.drop 32) < curveOrder)
    (hsmall : curveOrder - beNat (sig.drop 32) < 2 ^ 240) : (serilizeS sig).length < 64 := by
  unfold serilizeS
  simp only
  generalize hv : beNat (sig.drop 32) = v at *
  have t32 : (sig.take 32).length = 32 := by simp; omega
  have ea : ((curveOrder : Int) - (v : Int)).natAbs = curveOrder - v := by omega
  rw [ea]
  have hbig : v > halfOrder := by
    have h1 : halfOrder + 2 ^ 240 < curveOrder := by decide +kernel
    clear hv ea
    generalize halfOrder = a at *
    generalize curveOrder = b at *
    generalize 2 ^ 240 = c at *
    omega
  rw [if_pos hbig]
  have l1 := (OwKeychain.bigBytes_length_le (curveOrder - v) 30).mpr (by
    rw [show (256 : Nat) ^ 30 = 2 ^ 240 by norm_num]
    exact hsmall)
  rw [List.length_append, t32, OwKeychain.pad_length _ (by omega)]
  omega

example : ∃ sig : Bytes, sig.length = 64 ∧ beNat (sig.drop 32) < curveOrder ∧
    curveOrder - beNat (sig.drop 32) < 2 ^ 240 :=
  ⟨List.replicate 32 1 ++ beBytes 32 (curveOrder - 5), by decide +kernel, by decide +kernel, by decide +kernel⟩

end Verif
