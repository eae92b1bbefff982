import Verif.Lemmas.Crc32

/-! C106: the checksum of `addressEncoder.CRC32`. -/

namespace Verif
open Spec.Crc32

/-- C106, value: for every message `CRC32` returns the four bytes, highest first, of the CRC-32 checksum of the bit-serial description. -/
theorem C106_value (s : Bytes) :
    checksum s < 2 ^ 32 ∧
    Crc32.crc32 s = [UInt8.ofNat (checksum s / 2 ^ 24), UInt8.ofNat (checksum s / 2 ^ 16), UInt8.ofNat (checksum s / 2 ^ 8), UInt8.ofNat (checksum s)] := by
  rw [Crc32.checksum_eq]
  refine ⟨UInt32.toNat_lt _, ?_⟩
  unfold Crc32.crc32 Crc32.putUint32
  generalize ~~~ (s.foldl Crc32.step (~~~ 0)) = w
  have h : ∀ (k : Nat), k < 32 → (w >>> UInt32.ofNat k).toUInt8 = UInt8.ofNat (w.toNat / 2 ^ k) := by
    intro k hk
    apply UInt8.toNat_inj.mp
    simp [UInt32.toNat_shiftRight, Nat.shiftRight_eq_div_pow, Nat.mod_eq_of_lt (show k < 4294967296 by omega), Nat.mod_eq_of_lt hk]
  have h24 := h 24 (by omega)
  have h16 := h 16 (by omega)
  have h8 := h 8 (by omega)
  have h0 : w.toUInt8 = UInt8.ofNat w.toNat := by apply UInt8.toNat_inj.mp; simp
  rw [h0, ← h24, ← h16, ← h8]; rfl

example : Crc32.crc32 (asc "123456789") = [0xcb, 0xf4, 0x39, 0x26] := by decide +kernel

/-- C106, detection: two messages of one length that differ, but only within four consecutive bytes, have different checksums, whatever stands
before and behind those bytes. -/
theorem C106_burst (before behind l m : Bytes) (hlen : l.length = m.length) (h4 : l.length ≤ 4) (hne : l ≠ m) :
    Crc32.crc32 (before ++ l ++ behind) ≠ Crc32.crc32 (before ++ m ++ behind) := by
  intro h
  have hv : checksum (before ++ l ++ behind) = checksum (before ++ m ++ behind) := by
    have ⟨b1, e1⟩ := C106_value (before ++ l ++ behind)
    have ⟨b2, e2⟩ := C106_value (before ++ m ++ behind)
    rw [e1, e2] at h
    generalize checksum (before ++ l ++ behind) = x at *
    generalize checksum (before ++ m ++ behind) = y at *
    simp only [List.cons.injEq, and_true] at h
    obtain ⟨p, q, r, t⟩ := h
    have p := congrArg UInt8.toNat p; have q := congrArg UInt8.toNat q
    have r := congrArg UInt8.toNat r; have t := congrArg UInt8.toNat t
    simp only [UInt8.toNat_ofNat'] at p q r t
    omega
  rw [Crc32.checksum_eq, Crc32.checksum_eq] at hv
  have hw := UInt32.toNat_inj.mp hv
  simp only [List.foldl_append] at hw
  have hw' : List.foldl Crc32.step (List.foldl Crc32.step (List.foldl Crc32.step (~~~0) before) l) behind =
      List.foldl Crc32.step (List.foldl Crc32.step (List.foldl Crc32.step (~~~0) before) m) behind := by
    apply Crc32.ext_bit; intro i hi
    have := congrArg (fun w => Crc32.bit w i) hw
    simpa [Crc32.bit, hi] using this
  exact hne (Crc32.foldl_inj_window hlen h4 (Crc32.foldl_inj_state behind hw'))

example : ([1, 2, 3, 4] : Bytes).length = ([1, 2, 9, 4] : Bytes).length ∧ ([1, 2, 3, 4] : Bytes).length ≤ 4 ∧ ([1, 2, 3, 4] : Bytes) ≠ [1, 2, 9, 4] := by
  decide

/-- Four is the limit: behind any common beginning and before any common end, these two runs of five bytes give the same checksum. -/
theorem C106_limit_five_bytes (before behind : Bytes) :
    Crc32.crc32 (before ++ [0, 0, 0, 0, 0] ++ behind) = Crc32.crc32 (before ++ [0x41, 0x06, 0x71, 0xdb, 0x01] ++ behind) := by
  unfold Crc32.crc32
  simp only [List.foldl_append]
  congr 3
  generalize before.foldl Crc32.step (~~~ 0) = c
  simp only [List.foldl_cons, List.foldl_nil, Crc32.step_eq]
  simp only [Crc32.rounds_xor, ← Crc32.rounds_add]
  rw [UInt32.xor_assoc, UInt32.xor_assoc, UInt32.xor_assoc, UInt32.xor_assoc, UInt32.xor_assoc, UInt32.xor_assoc, UInt32.xor_assoc,
    UInt32.xor_assoc]
  exact congrArg (Crc32.rounds _ c ^^^ ·) (by decide +kernel)

end Verif
