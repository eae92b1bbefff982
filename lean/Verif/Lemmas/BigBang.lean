import Verif.Model.BigBang
import Verif.Spec.BigBang
import Verif.Lemmas.Base
import Verif.Lemmas.Hex

/-! Lemmas about `bigbangTransaction`. -/

namespace Verif.BigBang
open Verif Verif.Spec.BigBang

/-! ### The division is linear and injective -/

theorem bitStep_eq (c : BitVec 24) : bitStep c = (c <<< 1) ^^^ (if c.msb then poly else 0#24) := by
  unfold bitStep
  split <;> simp

theorem bitStep_xor (a b : BitVec 24) : bitStep (a ^^^ b) = bitStep a ^^^ bitStep b := by
  simp only [bitStep_eq, BitVec.msb_xor, BitVec.shiftLeft_xor_distrib]
  cases a.msb <;> cases b.msb <;> simp only [Bool.xor_self, Bool.xor_true, Bool.xor_false, Bool.not_false, if_true,
    Bool.false_eq_true, if_false, BitVec.xor_zero]
  · ac_rfl
  · ac_rfl
  · have : a <<< 1 ^^^ poly ^^^ (b <<< 1 ^^^ poly) = a <<< 1 ^^^ b <<< 1 ^^^ (poly ^^^ poly) := by ac_rfl
    rw [this, BitVec.xor_self, BitVec.xor_zero]

theorem bitSteps_xor : ∀ (n : Nat) (a b : BitVec 24), bitSteps n (a ^^^ b) = bitSteps n a ^^^ bitSteps n b
  | 0, _, _ => rfl
  | n + 1, a, b => by
    unfold bitSteps
    rw [bitStep_xor, bitSteps_xor n]

theorem bitStep_zero : bitStep 0 = 0 := by decide +kernel

theorem bitSteps_zero : ∀ n, bitSteps n 0 = 0
  | 0 => rfl
  | n + 1 => by unfold bitSteps; rw [bitStep_zero, bitSteps_zero n]

theorem bitStep_eq_zero {c : BitVec 24} (h : bitStep c = 0) : c = 0 := by
  rw [bitStep_eq] at h
  cases hm : c.msb with
  | true =>
    rw [hm] at h
    have h0 := congrArg (fun x : BitVec 24 => x.getLsbD 0) h
    simp [poly] at h0
  | false =>
    rw [hm] at h
    simp only [Bool.false_eq_true, if_false] at h
    replace h : c <<< 1 = 0 := by simpa using h
    apply BitVec.eq_of_getLsbD_eq
    intro i hi
    by_cases h23 : i = 23
    · subst h23
      have : c.msb = c.getLsbD 23 := by simp [BitVec.msb_eq_getLsbD_last]
      rw [← this, hm]; simp
    · have h0 := congrArg (fun x : BitVec 24 => x.getLsbD (i + 1)) h
      have : i + 1 < 24 := by omega
      simpa [this, BitVec.getLsbD_eq_getElem hi] using h0

theorem bitSteps_eq_zero : ∀ {n : Nat} {c : BitVec 24}, bitSteps n c = 0 → c = 0
  | 0, _, h => h
  | n + 1, _, h => bitStep_eq_zero (bitSteps_eq_zero (n := n) h)

/-- Without a one among the top `n` bits, the division only shifts. -/
theorem bitSteps_shift : ∀ (n : Nat) (c : BitVec 24), (∀ i < n, c.getLsbD (23 - i) = false) → n ≤ 24 → bitSteps n c = c <<< n
  | 0, c, _, _ => by simp [bitSteps]
  | n + 1, c, h, hn => by
    unfold bitSteps
    have hm : c.msb = false := by
      have := h 0 (by omega)
      simpa [BitVec.msb_eq_getLsbD_last] using this
    have hs : bitStep c = c <<< 1 := by unfold bitStep; rw [hm]; simp
    rw [hs, bitSteps_shift n (c <<< 1) _ (by omega)]
    · rw [← BitVec.shiftLeft_add, Nat.add_comm]
    · intro i hi
      have := h (i + 1) (by omega)
      rw [BitVec.getLsbD_shiftLeft]
      have e : 23 - i - 1 = 23 - (i + 1) := by omega
      rw [e, this]; simp

/-! ### The table -/

theorem table_eq : ∀ i : Fin 256, ((table.getD i.val 0).toBitVec.setWidth 24) =
    bitSteps 8 ((BitVec.ofNat 24 i.val) <<< 16) := by decide +kernel

theorem idx_lt (c : UInt32) (b : UInt8) : (b.toUInt32 ^^^ ((0xFF : UInt32) &&& (c >>> 16))).toNat < 256 := by
  rw [UInt32.toNat_xor]
  apply Nat.xor_lt_two_pow (n := 8)
  · rw [UInt8.toNat_toUInt32]; exact b.toNat_lt
  · rw [UInt32.toNat_and]
    exact Nat.lt_of_le_of_lt Nat.and_le_left (by decide)

theorem idx_bv (c : BitVec 32) (b : BitVec 8) :
    ((b.setWidth 32 ^^^ (0xFF#32 &&& (c >>> 16))).setWidth 24) <<< 16 =
      (b.setWidth 24 <<< 16) ^^^ ((c.setWidth 24 >>> 16) <<< 16) := by
  apply BitVec.eq_of_getLsbD_eq
  intro i hi
  simp only [BitVec.getLsbD_shiftLeft, BitVec.getLsbD_setWidth, BitVec.getLsbD_xor, BitVec.getLsbD_and, BitVec.getLsbD_ushiftRight]
  by_cases h : i < 16
  · simp [h]
  · have h1 : i - 16 < 24 := by omega
    have h2 : 16 + (i - 16) < 24 := by omega
    have h4 : i - 16 < 32 := by omega
    have h3 : (0xFF#32).getLsbD (i - 16) = true := by
      have : ∀ j : Fin 8, (0xFF#32).getLsbD j.val = true := by decide
      exact this ⟨i - 16, by omega⟩
    simp only [h1, h2, h3, h4, hi, h, decide_true, decide_false, Bool.not_false, Bool.true_and]

theorem low_bv (c : BitVec 24) : bitSteps 8 c = (c <<< 8) ^^^ bitSteps 8 ((c >>> 16) <<< 16) := by
  have hc : c = (c ^^^ ((c >>> 16) <<< 16)) ^^^ ((c >>> 16) <<< 16) := by
    rw [BitVec.xor_assoc, BitVec.xor_self, BitVec.xor_zero]
  have h : bitSteps 8 (c ^^^ ((c >>> 16) <<< 16)) = c <<< 8 := by
    rw [bitSteps_shift 8 _ _ (by decide)]
    · apply BitVec.eq_of_getLsbD_eq
      intro i hi
      simp only [BitVec.getLsbD_shiftLeft, BitVec.getLsbD_xor, BitVec.getLsbD_ushiftRight]
      have h1 : i - 8 < 16 := by omega
      simp [h1]
    · intro i hi
      simp only [BitVec.getLsbD_shiftLeft, BitVec.getLsbD_xor, BitVec.getLsbD_ushiftRight]
      have h1 : ¬ (23 - i < 16) := by omega
      have h2 : 16 + (23 - i - 16) = 23 - i := by omega
      have h3 : 23 - i < 24 := by omega
      simp [h1, h2, h3]
  conv_lhs => rw [hc]
  rw [bitSteps_xor, h]

theorem crcStep_eq (c : UInt32) (b : UInt8) :
    (crcStep c b).toBitVec.setWidth 24 = byteStep (c.toBitVec.setWidth 24) b := by
  unfold crcStep byteStep
  have ht := table_eq ⟨_, idx_lt c b⟩
  have hi : BitVec.ofNat 24 (b.toUInt32 ^^^ ((0xFF : UInt32) &&& (c >>> 16))).toNat =
      (b.toBitVec.setWidth 32 ^^^ (0xFF#32 &&& (c.toBitVec >>> 16))).setWidth 24 := by
    rw [← BitVec.ofNat_toNat]
    rfl
  simp only [hi, idx_bv] at ht
  rw [UInt32.toBitVec_xor, BitVec.setWidth_xor, ht, bitSteps_xor, bitSteps_xor, low_bv (c.toBitVec.setWidth 24)]
  have hs : (c <<< 8).toBitVec.setWidth 24 = c.toBitVec.setWidth 24 <<< 8 := by
    have : (c <<< 8).toBitVec = c.toBitVec <<< 8 := rfl
    rw [this]
    apply BitVec.eq_of_getLsbD_eq
    intro i hi
    simp only [BitVec.getLsbD_shiftLeft, BitVec.getLsbD_setWidth]
    have h1 : i < 32 := by omega
    have h2 : i - 8 < 24 := by omega
    simp [hi, h1, h2]
  rw [hs]
  ac_rfl

theorem foldl_eq : ∀ (data : Bytes) (c : UInt32),
    (data.foldl crcStep c).toBitVec.setWidth 24 = data.foldl byteStep (c.toBitVec.setWidth 24)
  | [], _ => rfl
  | b :: bs, c => by
    rw [List.foldl_cons, List.foldl_cons, foldl_eq bs, crcStep_eq]

theorem crc24q_eq (data : Bytes) : (crc24q data).toNat = (crc24 data).toNat := by
  have h := foldl_eq data 0
  unfold crc24q crc24
  have h0 : (0 : UInt32).toBitVec.setWidth 24 = (0 : BitVec 24) := by decide
  rw [h0] at h
  rw [← h, UInt32.toNat_and, BitVec.toNat_setWidth]
  have : (16777215 : UInt32).toNat = 2 ^ 24 - 1 := by decide
  rw [this, Nat.and_two_pow_sub_one_eq_mod]
  rfl

/-! ### Error detection -/

theorem xor4 (a b x y : BitVec 24) : (a ^^^ x) ^^^ (b ^^^ y) = (a ^^^ b) ^^^ (x ^^^ y) := by ac_rfl

theorem byteStep_xor (a b : BitVec 24) (x y : UInt8) : byteStep a x ^^^ byteStep b y = byteStep (a ^^^ b) (x ^^^ y) := by
  unfold byteStep
  rw [← bitSteps_xor, UInt8.toBitVec_xor, BitVec.setWidth_xor, BitVec.shiftLeft_xor_distrib, xor4]

/-- The checksum register after equal data differs exactly when it differed before. -/
theorem foldl_inj : ∀ (data : Bytes) (a b : BitVec 24), data.foldl byteStep a = data.foldl byteStep b → a = b
  | [], _, _, h => h
  | x :: xs, a, b, h => by
    have h1 := foldl_inj xs _ _ h
    have h2 : byteStep (a ^^^ b) (x ^^^ x) = 0#24 := by
      rw [← byteStep_xor, h1, BitVec.xor_self]
    unfold byteStep at h2
    have h3 := bitSteps_eq_zero h2
    have h4 : (x ^^^ x).toBitVec.setWidth 24 <<< 16 = 0#24 := by rw [UInt8.xor_self]; decide
    rw [h4, BitVec.xor_zero] at h3
    exact BitVec.xor_eq_zero_iff.mp h3

theorem bitSteps_add : ∀ (m n : Nat) (c : BitVec 24), bitSteps m (bitSteps n c) = bitSteps (n + m) c
  | m, 0, c => by simp [bitSteps]
  | m, n + 1, c => by
    rw [Nat.succ_add]
    exact bitSteps_add m n (bitStep c)

theorem byte_shift (y : UInt8) (k : Nat) (h : k ≤ 16) :
    y.toBitVec.setWidth 24 <<< 16 = bitSteps k (y.toBitVec.setWidth 24 <<< (16 - k)) := by
  rw [bitSteps_shift k _ _ (by omega), ← BitVec.shiftLeft_add, Nat.sub_add_cancel h]
  intro i hi
  simp only [BitVec.getLsbD_shiftLeft, BitVec.getLsbD_setWidth]
  rw [BitVec.getLsbD_of_ge y.toBitVec _ (by omega)]
  simp

theorem steps3 (x y z : UInt8) :
    byteStep (byteStep (byteStep 0 x) y) z = bitSteps 24 ((x.toBitVec.setWidth 24 <<< 16 ^^^ y.toBitVec.setWidth 24 <<< 8) ^^^
      z.toBitVec.setWidth 24 <<< 0) := by
  unfold byteStep
  have hy := byte_shift y 8 (by decide)
  have hz := byte_shift z 16 (by decide)
  rw [hy, hz]
  generalize x.toBitVec.setWidth 24 <<< 16 = X
  simp only [Nat.sub_self, Nat.reduceSub]
  generalize y.toBitVec.setWidth 24 <<< 8 = Y
  generalize z.toBitVec.setWidth 24 <<< 0 = Z
  have : (0 : BitVec 24) ^^^ X = X := BitVec.zero_xor
  rw [this, ← bitSteps_xor, bitSteps_add, ← bitSteps_xor, bitSteps_add]

theorem zero3 {x y z : UInt8} (h : byteStep (byteStep (byteStep 0 x) y) z = 0) : x = 0 ∧ y = 0 ∧ z = 0 := by
  rw [steps3] at h
  have h0 := bitSteps_eq_zero h
  have bit : ∀ i, ((x.toBitVec.setWidth 24 <<< 16 ^^^ y.toBitVec.setWidth 24 <<< 8) ^^^
      z.toBitVec.setWidth 24 <<< 0).getLsbD i = false := by
    intro i; rw [h0]; exact BitVec.getLsbD_zero
  have aux : ∀ w : UInt8, (∀ i < 8, w.toBitVec.getLsbD i = false) → w = 0 := by
    intro w hw
    apply UInt8.eq_of_toBitVec_eq
    apply BitVec.eq_of_getLsbD_eq
    intro i hi
    rw [hw i hi]
    exact BitVec.getLsbD_zero.symm
  refine ⟨aux x ?_, aux y ?_, aux z ?_⟩ <;> intro i hi
  · have := bit (16 + i)
    simp only [BitVec.getLsbD_xor, BitVec.getLsbD_shiftLeft, BitVec.getLsbD_setWidth] at this
    rw [BitVec.getLsbD_of_ge y.toBitVec _ (by omega), BitVec.getLsbD_of_ge z.toBitVec _ (by omega)] at this
    have e1 : 16 + i < 24 := by omega
    have e2 : i < 24 := by omega
    simpa [e1, e2] using this
  · have := bit (8 + i)
    simp only [BitVec.getLsbD_xor, BitVec.getLsbD_shiftLeft, BitVec.getLsbD_setWidth] at this
    rw [BitVec.getLsbD_of_ge z.toBitVec _ (by omega)] at this
    have e1 : 8 + i < 24 := by omega
    have e2 : i < 24 := by omega
    have e3 : 8 + i < 16 := by omega
    simpa [e1, e2, e3] using this
  · have := bit i
    simp only [BitVec.getLsbD_xor, BitVec.getLsbD_shiftLeft, BitVec.getLsbD_setWidth] at this
    have e2 : i < 24 := by omega
    have e3 : i < 16 := by omega
    simpa [e2, e3, hi] using this

theorem u8_xor_eq {x y : UInt8} (h : x ^^^ y = 0) : x = y := by
  have : x = (x ^^^ y) ^^^ y := by rw [UInt8.xor_assoc, UInt8.xor_self, UInt8.xor_zero]
  rw [this, h, UInt8.zero_xor]

theorem burst3 {c : BitVec 24} {x y z x' y' z' : UInt8}
    (h : byteStep (byteStep (byteStep c x) y) z = byteStep (byteStep (byteStep c x') y') z') : x = x' ∧ y = y' ∧ z = z' := by
  have h1 : byteStep (byteStep (byteStep 0 (x ^^^ x')) (y ^^^ y')) (z ^^^ z') = 0 := by
    have h0 : (0 : BitVec 24) = c ^^^ c := BitVec.xor_self.symm
    rw [h0, ← byteStep_xor, ← byteStep_xor, ← byteStep_xor, h, BitVec.xor_self, BitVec.xor_self]
  obtain ⟨a, b, d⟩ := zero3 h1
  exact ⟨u8_xor_eq a, u8_xor_eq b, u8_xor_eq d⟩

theorem burst {c : BitVec 24} {m m' : Bytes} (hl : m.length = m'.length) (h3 : m.length ≤ 3)
    (h : m.foldl byteStep c = m'.foldl byteStep c) : m = m' := by
  match m, m', hl, h3, h with
  | [], [], _, _, _ => rfl
  | [x], [x'], _, _, h =>
    have h' : byteStep (byteStep (byteStep c x) 0) 0 = byteStep (byteStep (byteStep c x') 0) 0 := by
      simp only [List.foldl_cons, List.foldl_nil] at h; rw [h]
    rw [(burst3 h').1]
  | [x, y], [x', y'], _, _, h =>
    have h' : byteStep (byteStep (byteStep c x) y) 0 = byteStep (byteStep (byteStep c x') y') 0 := by
      simp only [List.foldl_cons, List.foldl_nil] at h; rw [h]
    rw [(burst3 h').1, (burst3 h').2.1]
  | [x, y, z], [x', y', z'], _, _, h =>
    have := burst3 h
    rw [this.1, this.2.1, this.2.2]

/-! ### Base32 -/

theorem symbol_val : ∀ v : Fin 32, symbol (Spec.BigBang.alphabet.getD v.val 0) = some v.val := by decide +kernel

theorem symbol_some {c : UInt8} {v : Nat} (h : symbol c = some v) : v < 32 ∧ Spec.BigBang.alphabet.getD v 0 = c := by
  unfold symbol at h
  split at h
  · rename_i hm
    cases h
    have hl : List.idxOf c alphabet < alphabet.length := List.idxOf_lt_length_iff.mpr hm
    refine ⟨by simpa [alphabet, asc] using hl, ?_⟩
    show alphabet.getD (List.idxOf c alphabet) 0 = c
    rw [List.getD_eq_getElem?_getD, List.getElem?_eq_getElem hl, Option.getD_some]
    exact List.getElem_idxOf hl
  · cases h

theorem base32_cons5 {g : Bytes} (hg : g.length = 5) (r : Bytes) :
    base32 (g ++ r) = (List.range 8).map (sym5 (beNat g)) ++ base32 r := by
  match g, hg with
  | [a, b, c, d, e], _ => rfl

theorem base32Decode_ok : ∀ {t b : Bytes}, base32Decode t = some b → b.length % 5 = 0 ∧ t = base32 b
  | [], b, h => by cases h; exact ⟨rfl, rfl⟩
  | [_], _, h => by simp [base32Decode] at h
  | [_, _], _, h => by simp [base32Decode] at h
  | [_, _, _], _, h => by simp [base32Decode] at h
  | [_, _, _, _], _, h => by simp [base32Decode] at h
  | [_, _, _, _, _], _, h => by simp [base32Decode] at h
  | [_, _, _, _, _, _], _, h => by simp [base32Decode] at h
  | [_, _, _, _, _, _, _], _, h => by simp [base32Decode] at h
  | c0 :: c1 :: c2 :: c3 :: c4 :: c5 :: c6 :: c7 :: rest, b, h => by
    unfold base32Decode at h
    split at h
    · rename_i a0 a1 a2 a3 a4 a5 a6 a7 r h0 h1 h2 h3 h4 h5 h6 h7 hr
      cases h
      obtain ⟨ih1, ih2⟩ := base32Decode_ok hr
      refine ⟨by rw [List.length_append, beBytes_length]; omega, ?_⟩
      rw [base32_cons5 (beBytes_length _ _), ← ih2]
      obtain ⟨l0, e0⟩ := symbol_some h0
      obtain ⟨l1, e1⟩ := symbol_some h1
      obtain ⟨l2, e2⟩ := symbol_some h2
      obtain ⟨l3, e3⟩ := symbol_some h3
      obtain ⟨l4, e4⟩ := symbol_some h4
      obtain ⟨l5, e5⟩ := symbol_some h5
      obtain ⟨l6, e6⟩ := symbol_some h6
      obtain ⟨l7, e7⟩ := symbol_some h7
      rw [beNat_beBytes_of_lt (by omega)]
      generalize hV : ((((((a0 * 32 + a1) * 32 + a2) * 32 + a3) * 32 + a4) * 32 + a5) * 32 + a6) * 32 + a7 = V
      have d0 : V / 32 ^ 7 % 32 = a0 := by omega
      have d1 : V / 32 ^ 6 % 32 = a1 := by omega
      have d2 : V / 32 ^ 5 % 32 = a2 := by omega
      have d3 : V / 32 ^ 4 % 32 = a3 := by omega
      have d4 : V / 32 ^ 3 % 32 = a4 := by omega
      have d5 : V / 32 ^ 2 % 32 = a5 := by omega
      have d6 : V / 32 ^ 1 % 32 = a6 := by omega
      have d7 : V / 32 ^ 0 % 32 = a7 := by omega
      show _ = (List.map (sym5 V) [0, 1, 2, 3, 4, 5, 6, 7]) ++ rest
      simp only [List.map, sym5, Nat.reduceSub, Nat.sub_zero, Nat.sub_self, d0, d1, d2, d3, d4, d5, d6, d7, e0, e1, e2, e3, e4, e5,
        e6, e7, List.cons_append, List.nil_append]
    · cases h

theorem base32Decode_base32 : ∀ {b : Bytes}, b.length % 5 = 0 → base32Decode (base32 b) = some b
  | [], _ => rfl
  | [_], h => by simp at h
  | [_, _], h => by simp at h
  | [_, _, _], h => by simp at h
  | [_, _, _, _], h => by simp at h
  | b0 :: b1 :: b2 :: b3 :: b4 :: rest, h => by
    have ih := base32Decode_base32 (b := rest) (by simp only [List.length_cons] at h; omega)
    have hV : beNat [b0, b1, b2, b3, b4] < 256 ^ 5 := beNat_lt _
    have hb : beBytes 5 (beNat [b0, b1, b2, b3, b4]) = [b0, b1, b2, b3, b4] :=
      beBytes_beNat [b0, b1, b2, b3, b4]
    unfold base32
    generalize beNat [b0, b1, b2, b3, b4] = V at hV hb
    have hs : ∀ n, symbol (Spec.BigBang.alphabet.getD (n % 32) 0) = some (n % 32) :=
      fun n => symbol_val ⟨n % 32, Nat.mod_lt _ (by decide)⟩
    show base32Decode ((List.map (sym5 V) [0, 1, 2, 3, 4, 5, 6, 7]) ++ base32 rest) = _
    simp only [List.map, sym5, List.cons_append, List.nil_append, base32Decode, hs, ih]
    have hh : ((((((V / 32 ^ (7 - 0) % 32 * 32 + V / 32 ^ (7 - 1) % 32) * 32 + V / 32 ^ (7 - 2) % 32) * 32 + V / 32 ^ (7 - 3) % 32) *
        32 + V / 32 ^ (7 - 4) % 32) * 32 + V / 32 ^ (7 - 5) % 32) * 32 + V / 32 ^ (7 - 6) % 32) * 32 + V / 32 ^ (7 - 7) % 32 = V := by
      simp only [Nat.reduceSub, Nat.sub_zero]
      omega
    rw [hh, hb]
    rfl

/-! ### The checksum bit by bit -/

/-- One bit of data. -/
def crcBit (c : BitVec 24) (b : Bool) : BitVec 24 := bitStep (c ^^^ (if b then 0x800000#24 else 0#24))

/-- Bits placed at the top of the register. -/
def align : List Bool → BitVec 24
  | [] => 0
  | b :: l => (if b then 0x800000#24 else 0#24) ^^^ (align l >>> 1)

/-- The `w` low bits of a number, most significant first. -/
def bitsOf : Nat → Nat → List Bool
  | 0, _ => []
  | w + 1, n => (n / 2 ^ w % 2 == 1) :: bitsOf w n

theorem align_low : ∀ (l : List Bool) (i : Nat), i + l.length < 24 → (align l).getLsbD i = false
  | [], _, _ => BitVec.getLsbD_zero
  | b :: l, i, h => by
    simp only [List.length_cons] at h
    unfold align
    rw [BitVec.getLsbD_xor, BitVec.getLsbD_ushiftRight, align_low l (1 + i) (by omega)]
    have : (0x800000#24).getLsbD i = false := by
      have : ∀ j : Fin 23, (0x800000#24).getLsbD j.val = false := by decide
      exact this ⟨i, by omega⟩
    cases b
    · simp
    · simp only [if_true, this]; rfl

theorem bitStep_half {A : BitVec 24} (h : A.getLsbD 0 = false) : bitStep (A >>> 1) = A := by
  unfold bitStep
  have hm : (A >>> 1).msb = false := by
    rw [BitVec.msb_eq_getLsbD_last, BitVec.getLsbD_ushiftRight]
    exact BitVec.getLsbD_of_ge A _ (by decide)
  rw [hm]
  simp only [Bool.false_eq_true, if_false]
  apply BitVec.eq_of_getLsbD_eq
  intro i hi
  rw [BitVec.getLsbD_shiftLeft, BitVec.getLsbD_ushiftRight]
  by_cases h0 : i = 0
  · subst h0; rw [h]; rfl
  · have e : 1 + (i - 1) = i := by omega
    have e1 : ¬ i < 1 := by omega
    rw [e]
    simp [hi, e1]

theorem foldl_crcBit : ∀ (l : List Bool) (c : BitVec 24), l.length ≤ 24 →
    l.foldl crcBit c = bitSteps l.length (c ^^^ align l)
  | [], c, _ => by
    have : (c ^^^ align [] : BitVec 24) = c := BitVec.xor_zero
    rw [this]; rfl
  | b :: l, c, h => by
    simp only [List.length_cons] at h
    have ha : (align l).getLsbD 0 = false := align_low l 0 (by omega)
    rw [List.foldl_cons, foldl_crcBit l _ (by omega)]
    show bitSteps l.length _ = bitSteps l.length (bitStep _)
    refine congrArg (bitSteps l.length) ?_
    have he : align (b :: l) = (if b then 0x800000#24 else 0#24) ^^^ (align l >>> 1) := rfl
    unfold crcBit
    rw [he, ← BitVec.xor_assoc, bitStep_xor _ (align l >>> 1), bitStep_half ha]

theorem align_inj : ∀ {l m : List Bool}, l.length = m.length → l.length ≤ 24 → align l = align m → l = m
  | [], [], _, _, _ => rfl
  | b :: l, b' :: m, hl, h24, h => by
    simp only [List.length_cons, Nat.add_right_cancel_iff] at hl h24
    unfold align at h
    have top : ∀ (x : Bool) (A : BitVec 24), ((if x then 0x800000#24 else 0#24) ^^^ (A >>> 1)).getLsbD 23 = x := by
      intro x A
      rw [BitVec.getLsbD_xor, BitVec.getLsbD_ushiftRight, BitVec.getLsbD_of_ge A _ (by decide)]
      cases x <;> decide
    have hb : b = b' := by
      have := congrArg (fun v : BitVec 24 => v.getLsbD 23) h
      simp only [top] at this
      exact this
    subst hb
    have hs : align l >>> 1 = align m >>> 1 := (BitVec.xor_right_inj _).mp h
    have h0 : align l = align m := by
      rw [← bitStep_half (align_low l 0 (by omega)), ← bitStep_half (align_low m 0 (by omega)), hs]
    rw [align_inj hl (by omega) h0]

theorem byteStep_bits (c : BitVec 24) (x : UInt8) : byteStep c x = (bitsOf 8 x.toNat).foldl crcBit c := by
  have h8 : (bitsOf 8 x.toNat).length = 8 := rfl
  rw [foldl_crcBit _ _ (by rw [h8]; decide), h8]
  unfold byteStep
  refine congrArg (fun v => bitSteps 8 (c ^^^ v)) ?_
  revert x
  apply Hex.u8_forall
  decide +kernel

/-- The bits of a byte string. -/
def bits8 (b : Bytes) : List Bool := b.flatMap fun x => bitsOf 8 x.toNat

theorem foldl_bits8 : ∀ (b : Bytes) (c : BitVec 24), b.foldl byteStep c = (bits8 b).foldl crcBit c
  | [], _ => rfl
  | x :: xs, c => by
    rw [List.foldl_cons, byteStep_bits, foldl_bits8 xs]
    unfold bits8
    rw [List.flatMap_cons, List.foldl_append]

theorem crcBit_inj {a b : BitVec 24} {x : Bool} (h : crcBit a x = crcBit b x) : a = b := by
  unfold crcBit at h
  have h2 : bitStep (a ^^^ b) = 0#24 := by
    have : a ^^^ b = (a ^^^ (if x then 0x800000#24 else 0#24)) ^^^ (b ^^^ (if x then 0x800000#24 else 0#24)) := by
      rw [xor4, BitVec.xor_self, BitVec.xor_zero]
    rw [this, bitStep_xor, h, BitVec.xor_self]
  exact BitVec.xor_eq_zero_iff.mp (bitStep_eq_zero h2)

theorem foldl_crcBit_inj : ∀ (l : List Bool) (a b : BitVec 24), l.foldl crcBit a = l.foldl crcBit b → a = b
  | [], _, _, h => h
  | _ :: xs, _, _, h => crcBit_inj (foldl_crcBit_inj xs _ _ h)

theorem bitSteps_inj {n : Nat} {a b : BitVec 24} (h : bitSteps n a = bitSteps n b) : a = b := by
  apply BitVec.xor_eq_zero_iff.mp
  apply bitSteps_eq_zero (n := n)
  rw [bitSteps_xor, h]
  exact BitVec.xor_self

/-- A burst of at most 24 bits is always detected. -/
theorem burstBits {pre m m' suf : List Bool} (hl : m.length = m'.length) (h24 : m.length ≤ 24)
    (h : (pre ++ m ++ suf).foldl crcBit 0 = (pre ++ m' ++ suf).foldl crcBit 0) : m = m' := by
  rw [List.foldl_append, List.foldl_append, List.foldl_append, List.foldl_append] at h
  have h1 := foldl_crcBit_inj _ _ _ h
  rw [foldl_crcBit m _ h24, foldl_crcBit m' _ (hl ▸ h24), ← hl] at h1
  exact align_inj hl h24 ((BitVec.xor_right_inj _).mp (bitSteps_inj h1))

theorem bitsOf_length : ∀ (w n : Nat), (bitsOf w n).length = w
  | 0, _ => rfl
  | w + 1, n => by unfold bitsOf; rw [List.length_cons, bitsOf_length w]

theorem align_bitsOf : ∀ (w n : Nat), w ≤ 24 → ∀ i < 24,
    (align (bitsOf w n)).getLsbD i = (decide (24 - w ≤ i) && n.testBit (i - (24 - w)))
  | 0, n, _, i, hi => by
    have : ¬ (24 - 0 ≤ i) := by omega
    simp only [this, decide_false, Bool.false_and]
    exact BitVec.getLsbD_zero
  | w + 1, n, hw, i, hi => by
    have he : align (bitsOf (w + 1) n) = (if (n / 2 ^ w % 2 == 1) = true then 0x800000#24 else 0#24) ^^^ (align (bitsOf w n) >>> 1) := rfl
    rw [he, BitVec.getLsbD_xor, BitVec.getLsbD_ushiftRight]
    by_cases h23 : i = 23
    · subst h23
      rw [BitVec.getLsbD_of_ge (align (bitsOf w n)) _ (by decide)]
      have e1 : 24 - (w + 1) ≤ 23 := by omega
      have e2 : 23 - (24 - (w + 1)) = w := by omega
      have e3 : n.testBit w = (n / 2 ^ w % 2 == 1) := by
        rw [Nat.testBit_eq_decide_div_mod_eq]; rfl
      simp only [e1, e2, e3, decide_true, Bool.true_and, Bool.xor_false]
      cases (n / 2 ^ w % 2 == 1) <;> decide
    · rw [align_bitsOf w n (by omega) (1 + i) (by omega)]
      have top : (if (n / 2 ^ w % 2 == 1) = true then 0x800000#24 else 0#24).getLsbD i = false := by
        have : ∀ j : Fin 23, (0x800000#24).getLsbD j.val = false := by decide
        have := this ⟨i, by omega⟩
        cases (n / 2 ^ w % 2 == 1)
        · simp
        · simpa using this
      rw [top]
      have e1 : (24 - w ≤ 1 + i) = (24 - (w + 1) ≤ i) := by apply propext; omega
      have e2 : 1 + i - (24 - w) = i - (24 - (w + 1)) := by omega
      rw [Bool.false_xor, e2]
      simp only [e1]

theorem bitsOf_append : ∀ (v w a b : Nat), b < 2 ^ w → bitsOf (v + w) (a * 2 ^ w + b) = bitsOf v a ++ bitsOf w b
  | 0, w, a, b, h => by
    rw [Nat.zero_add]
    have : ∀ k ≤ w, bitsOf k (a * 2 ^ w + b) = bitsOf k b := by
      intro k
      induction k with
      | zero => intro _; rfl
      | succ k ih =>
        intro hk
        unfold bitsOf
        rw [ih (by omega)]
        have : (a * 2 ^ w + b) / 2 ^ k % 2 = b / 2 ^ k % 2 := by
          obtain ⟨d, rfl⟩ := Nat.exists_eq_add_of_lt hk
          have : a * 2 ^ (k + d + 1) + b = b + (a * 2 ^ d * 2) * 2 ^ k := by
            rw [Nat.pow_add, Nat.pow_add]; ring
          rw [this, Nat.add_mul_div_right _ _ (Nat.two_pow_pos k), Nat.add_mul_mod_self_right]
        rw [this]
    rw [this w (le_refl w)]
    rfl
  | v + 1, w, a, b, h => by
    have e : v + 1 + w = (v + w) + 1 := by omega
    rw [e]
    unfold bitsOf
    rw [bitsOf_append v w a b h, Nat.pow_add, Nat.mul_comm (2 ^ v), ← Nat.div_div_eq_div_mul, Nat.add_comm (a * 2 ^ w),
      Nat.add_mul_div_right _ _ (Nat.two_pow_pos w), Nat.div_eq_of_lt h, Nat.zero_add]
    cases w <;> rfl

theorem bits8_eq : ∀ b : Bytes, bits8 b = bitsOf (8 * b.length) (beNat b)
  | [] => rfl
  | x :: xs => by
    have ih := bits8_eq xs
    have hx := beNat_lt xs
    rw [beNat_cons, List.length_cons]
    have e : 8 * (xs.length + 1) = 8 + 8 * xs.length := by omega
    have p : 256 ^ xs.length = 2 ^ (8 * xs.length) := by rw [Nat.pow_mul]
    rw [p] at hx
    rw [e, p, bitsOf_append _ _ _ _ hx, ← ih]
    unfold bits8
    rw [List.flatMap_cons]

/-- The register becomes zero when its own content is appended. -/
theorem residue (key : Bytes) : (key ++ beBytes 3 (crc24 key).toNat).foldl byteStep 0 = 0 := by
  rw [List.foldl_append]
  show List.foldl byteStep (crc24 key) _ = 0
  generalize crc24 key = c
  rw [foldl_bits8, bits8_eq, beBytes_length, beNat_beBytes_of_lt c.isLt]
  have hl : (bitsOf 24 c.toNat).length = 24 := bitsOf_length _ _
  show List.foldl crcBit c (bitsOf 24 c.toNat) = 0
  rw [foldl_crcBit _ _ (by rw [hl]), hl]
  have : align (bitsOf 24 c.toNat) = c := by
    apply BitVec.eq_of_getLsbD_eq
    intro i hi
    rw [align_bitsOf 24 _ (le_refl _) i hi]
    simp [BitVec.getLsbD]
  rw [this, BitVec.xor_self]
  exact bitSteps_zero 24

/-! ### The bits of an address -/

/-- The bits of a text of base32 symbols. -/
def bits5 (t : Bytes) : List Bool := t.flatMap fun c => bitsOf 5 ((symbol c).getD 0)

theorem bits5_base32 : ∀ {b : Bytes}, b.length % 5 = 0 → bits5 (base32 b) = bits8 b
  | [], _ => rfl
  | [_], h => by simp at h
  | [_, _], h => by simp at h
  | [_, _, _], h => by simp at h
  | [_, _, _, _], h => by simp at h
  | b0 :: b1 :: b2 :: b3 :: b4 :: rest, h => by
    have ih := bits5_base32 (b := rest) (by simp only [List.length_cons] at h; omega)
    have hV : beNat [b0, b1, b2, b3, b4] < 256 ^ 5 := beNat_lt _
    have hb := bits8_eq [b0, b1, b2, b3, b4]
    have hsplit : bits8 (b0 :: b1 :: b2 :: b3 :: b4 :: rest) = bits8 [b0, b1, b2, b3, b4] ++ bits8 rest := by
      unfold bits8
      rw [← List.flatMap_append]; rfl
    unfold base32
    rw [hsplit, hb, ← ih]
    unfold bits5
    rw [List.flatMap_append]
    refine congrArg (· ++ _) ?_
    generalize beNat [b0, b1, b2, b3, b4] = V at hV
    have hs : ∀ n, symbol (Spec.BigBang.alphabet.getD (n % 32) 0) = some (n % 32) :=
      fun n => symbol_val ⟨n % 32, Nat.mod_lt _ (by decide)⟩
    show List.flatMap _ (List.map (sym5 V) [0, 1, 2, 3, 4, 5, 6, 7]) = bitsOf 40 V
    simp only [List.map, sym5, List.flatMap_cons, List.flatMap_nil, hs, Option.getD_some, List.append_nil, Nat.reduceSub, Nat.sub_zero,
      Nat.sub_self]
    have step : ∀ k n, bitsOf (k + 5) n = bitsOf k (n / 32) ++ bitsOf 5 (n % 32) := by
      intro k n
      rw [← bitsOf_append k 5 (n / 32) (n % 32) (Nat.mod_lt _ (by decide))]
      refine congrArg (bitsOf (k + 5)) ?_
      show n = n / 32 * 32 + n % 32
      omega
    rw [step 35, step 30, step 25, step 20, step 15, step 10, step 5]
    simp only [List.append_assoc, Nat.div_div_eq_div_mul, Nat.reduceMul, Nat.reducePow, Nat.div_one]
    have top : V / 34359738368 = V / 34359738368 % 32 := by omega
    rw [← top]

theorem bits5_length : ∀ t : Bytes, (bits5 t).length = 5 * t.length
  | [] => rfl
  | c :: cs => by
    have ih := bits5_length cs
    unfold bits5 at ih ⊢
    rw [List.flatMap_cons, List.length_append, ih, bitsOf_length, List.length_cons]
    omega

theorem bitsOf_inj : ∀ {w a b : Nat}, a < 2 ^ w → b < 2 ^ w → bitsOf w a = bitsOf w b → a = b
  | 0, a, b, ha, hb, _ => by omega
  | w + 1, a, b, ha, hb, h => by
    have ha' := Nat.div_add_mod a (2 ^ w)
    have hb' := Nat.div_add_mod b (2 ^ w)
    have hpow : 2 ^ (w + 1) = 2 ^ w * 2 := Nat.pow_succ _ _
    have la : a / 2 ^ w < 2 := (Nat.div_lt_iff_lt_mul (Nat.two_pow_pos w)).mpr (by omega)
    have lb : b / 2 ^ w < 2 := (Nat.div_lt_iff_lt_mul (Nat.two_pow_pos w)).mpr (by omega)
    have e : ∀ n, bitsOf (w + 1) n = bitsOf 1 (n / 2 ^ w) ++ bitsOf w (n % 2 ^ w) := by
      intro n
      rw [← bitsOf_append 1 w _ _ (Nat.mod_lt _ (Nat.two_pow_pos w)), Nat.add_comm 1 w, Nat.mul_comm, Nat.div_add_mod]
    rw [e a, e b] at h
    obtain ⟨h1, h2⟩ := List.append_inj h (by rw [bitsOf_length, bitsOf_length])
    have h3 := bitsOf_inj (Nat.mod_lt _ (Nat.two_pow_pos w)) (Nat.mod_lt _ (Nat.two_pow_pos w)) h2
    have h4 : a / 2 ^ w = b / 2 ^ w := by
      generalize a / 2 ^ w = x at *
      generalize b / 2 ^ w = y at *
      simp only [bitsOf, Nat.pow_zero, Nat.div_one, List.cons.injEq, and_true] at h1
      have hx : x % 2 = x := Nat.mod_eq_of_lt la
      have hy : y % 2 = y := Nat.mod_eq_of_lt lb
      rw [hx, hy] at h1
      by_cases x1 : x = 1
      · subst x1
        have : (y == 1) = true := by rw [← h1]; rfl
        exact (beq_iff_eq.mp this).symm
      · have hx1 : (x == 1) = false := by simpa using x1
        rw [hx1] at h1
        have : y ≠ 1 := by intro hh; rw [hh] at h1; cases h1
        omega
    rw [← ha', ← hb', h3, h4]

theorem bits5_inj : ∀ {s t : Bytes}, s.length = t.length → (∀ c ∈ s, symbol c ≠ none) → (∀ c ∈ t, symbol c ≠ none) →
    bits5 s = bits5 t → s = t
  | [], [], _, _, _, _ => rfl
  | c :: s, d :: t, hl, hs, ht, h => by
    unfold bits5 at h
    rw [List.flatMap_cons, List.flatMap_cons] at h
    obtain ⟨h1, h2⟩ := List.append_inj h (by rw [bitsOf_length, bitsOf_length])
    have ih := bits5_inj (by simpa using hl) (fun x hx => hs x (List.mem_cons_of_mem _ hx)) (fun x hx => ht x (List.mem_cons_of_mem _ hx)) h2
    rw [ih]
    have hc := hs c (List.mem_cons_self ..)
    have hd := ht d (List.mem_cons_self ..)
    cases e1 : symbol c with
    | none => exact absurd e1 hc
    | some x =>
      cases e2 : symbol d with
      | none => exact absurd e2 hd
      | some y =>
        rw [e1, e2] at h1
        obtain ⟨l1, r1⟩ := symbol_some e1
        obtain ⟨l2, r2⟩ := symbol_some e2
        have := bitsOf_inj (w := 5) l1 l2 h1
        rw [← r1, ← r2, this]

theorem base32_symbols : ∀ (b : Bytes), ∀ c ∈ base32 b, symbol c ≠ none
  | [], c, h => by simp [base32] at h
  | [_], c, h => by simp [base32] at h
  | [_, _], c, h => by simp [base32] at h
  | [_, _, _], c, h => by simp [base32] at h
  | [_, _, _, _], c, h => by simp [base32] at h
  | b0 :: b1 :: b2 :: b3 :: b4 :: rest, c, h => by
    unfold base32 at h
    rcases List.mem_append.mp h with h | h
    · obtain ⟨i, _, rfl⟩ := List.mem_map.mp h
      have hs := symbol_val ⟨beNat [b0, b1, b2, b3, b4] / 32 ^ (7 - i) % 32, Nat.mod_lt _ (by decide)⟩
      unfold sym5
      simp only at hs
      rw [hs]
      simp
    · exact base32_symbols rest c h

/-! ### Address decoding -/

theorem checksum_bytes (key : Bytes) : (beBytes 4 (crc24q key).toNat).drop 1 = beBytes 3 (crc24 key).toNat := by
  rw [crc24q_eq]
  have this : (crc24 key).toNat < 16777216 := (crc24 key).isLt
  generalize (crc24 key).toNat = n at *
  apply beNat_inj (by simp)
  rw [beNat_beBytes_of_lt this]
  have h4 : beNat (beBytes 4 n) = n := beNat_beBytes_of_lt (by omega)
  have hl := beBytes_length 4 n
  match beBytes 4 n, hl, h4 with
  | [a, b, c, d], _, h4 =>
    simp only [beNat_cons, List.length_cons, List.length_nil, beNat_nil, List.drop_succ_cons, List.drop_zero, Nat.zero_add,
      Nat.reduceAdd, Nat.reducePow, Nat.pow_zero] at h4 ⊢
    clear hl
    have ha : a.toNat = 0 := by
      by_contra hne
      have : 1 * 16777216 ≤ a.toNat * 16777216 := Nat.mul_le_mul_right _ (by omega)
      omega
    rw [ha] at h4
    rw [← h4, Nat.zero_mul, Nat.zero_add]

theorem addressDecode_ok_iff (text b : Bytes) : addressDecode text = .ok b ↔
    text.head? = some 0x31 ∧ ∃ key, IsAddress key (stripNewlines text) ∧ b = 1 :: key := by
  unfold addressDecode
  match text with
  | [] => simp
  | p :: rest =>
    simp only [List.head?_cons, Option.some.injEq]
    by_cases hp : p = 0x31
    · subst hp
      have hs : stripNewlines (0x31 :: rest) = 0x31 :: stripNewlines rest := rfl
      rw [hs]
      simp only [ne_eq, not_true_eq_false, if_false, true_and]
      constructor
      · intro h
        split at h
        · cases h
        · rename_i pk hpk
          obtain ⟨_, ht⟩ := base32Decode_ok hpk
          by_cases hl : pk.length = 35
          · rw [if_neg (by simpa using hl)] at h
            by_cases hc : (beBytes 4 (crc24q (pk.take 32)).toNat).drop 1 = pk.drop 32
            · rw [if_neg (by simpa using hc)] at h
              cases h
              refine ⟨pk.take 32, ⟨by rw [List.length_take, hl]; rfl, ?_⟩, rfl⟩
              rw [← checksum_bytes, hc, List.take_append_drop, ← ht]
            · rw [if_pos (by simpa using hc)] at h; cases h
          · rw [if_pos (by simpa using hl)] at h; cases h
      · rintro ⟨key, ⟨hk, ht⟩, rfl⟩
        have ht := (List.cons.inj ht).2
        have hlen : (key ++ beBytes 3 (crc24 key).toNat).length = 35 := by rw [List.length_append, beBytes_length, hk]
        rw [ht, base32Decode_base32 (by rw [hlen])]
        simp only [hlen, not_true_eq_false, if_false]
        have h1 : (key ++ beBytes 3 (crc24 key).toNat).take 32 = key := by rw [← hk, List.take_left]
        have h2 : (key ++ beBytes 3 (crc24 key).toNat).drop 32 = beBytes 3 (crc24 key).toNat := by rw [← hk, List.drop_left]
        rw [h1, h2, checksum_bytes]
        simp
    · simp [hp]

/-! ### Transactions -/

theorem reverseHex_ok_iff (t r : Bytes) : Btc.reverseHexToBytes t = .ok r ↔ Hex.decode t = .ok r.reverse := by
  unfold Btc.reverseHexToBytes
  constructor
  · intro h
    split at h
    · cases h
    · obtain ⟨b, hb, hr⟩ := Res.bind_eq_ok.mp h
      cases hr
      rw [List.reverse_reverse]; exact hb
  · intro h
    have he := ((Hex.decode_isOk_iff t).mp ⟨_, h⟩).1
    rw [if_neg (by omega), h, Res.bind_ok, List.reverse_reverse]

theorem hex_len {t b : Bytes} (h : Hex.decode t = .ok b) : t.length = 2 * b.length := by
  have := Hex.decode_length _ _ h
  omega

/-- The inputs of the request, as the wire format sees them. -/
def InputsOf (vs : List Vin) (ins : List (Bytes × UInt8)) : Prop :=
  List.Forall₂ (fun v i => Hex.decode v.txid = .ok i.1 ∧ i.1.length = 32 ∧ v.vout = i.2) vs ins

theorem newTxIns_ok : ∀ {vs : List Vin} {bs : List Bytes}, newTxIns vs = .ok bs →
    ∃ ins, InputsOf vs ins ∧ bs = ins.map fun i => i.1.reverse ++ [i.2]
  | [], bs, h => by cases h; exact ⟨[], .nil, rfl⟩
  | v :: vs, bs, h => by
    unfold newTxIns at h
    obtain ⟨b, hb, h⟩ := Res.bind_eq_ok.mp h
    obtain ⟨r, hr, h⟩ := Res.bind_eq_ok.mp h
    cases h
    obtain ⟨ins, h1, rfl⟩ := newTxIns_ok hr
    unfold newTxIn at hb
    split at hb
    · cases hb
    rename_i hl
    obtain ⟨x, hx, hb⟩ := Res.bind_eq_ok.mp hb
    cases hb
    rw [reverseHex_ok_iff] at hx
    have := hex_len hx
    refine ⟨(x.reverse, v.vout) :: ins, .cons ⟨hx, ?_, rfl⟩ h1, by simp⟩
    simp only
    omega

theorem newTxIns_of : ∀ {vs : List Vin} {ins : List (Bytes × UInt8)}, InputsOf vs ins →
    newTxIns vs = .ok (ins.map fun i => i.1.reverse ++ [i.2])
  | _, _, .nil => rfl
  | _, _, .cons (a := v) (b := i) ⟨hd, hl, hv⟩ h => by
    unfold newTxIns newTxIn
    rw [newTxIns_of h, if_neg (by rw [hex_len hd, hl]; decide), (reverseHex_ok_iff v.txid i.1.reverse).mpr (by rw [List.reverse_reverse]; exact hd)]
    simp only [Res.bind_ok, hv]
    rfl

theorem data_eq (d : Bytes) : (if d = [] then [0] else UInt8.ofNat d.length :: d) = UInt8.ofNat d.length :: d := by
  split
  · rename_i h; subst h; rfl
  · rfl

/-- The transaction is the encoding of the request. -/
theorem newTx_ok_iff (timestamp lockUntil : UInt32) (anchor : Bytes) (inputs : List Vin) (to_ : Bytes) (amount fee : UInt64)
    (data raw : Bytes) : newTx timestamp lockUntil anchor inputs to_ amount fee data = .ok raw ↔
      ∃ t : Tx, raw = t.wire ∧ t.time = timestamp.toNat ∧ t.lockUntil = lockUntil.toNat ∧ Hex.decode anchor = .ok t.anchor ∧
        inputs ≠ [] ∧ InputsOf inputs t.inputs ∧ to_.head? = some 0x31 ∧ IsAddress t.to_ (stripNewlines to_) ∧
        t.amount = amount.toNat ∧ amount ≠ 0 ∧ t.fee = fee.toNat ∧ fee ≠ 0 ∧ t.data = data := by
  unfold newTx
  constructor
  · intro h
    obtain ⟨a, ha, h⟩ := Res.bind_eq_ok.mp h
    split at h
    · cases h
    rename_i hne
    obtain ⟨bs, hbs, h⟩ := Res.bind_eq_ok.mp h
    obtain ⟨tb, htb, h⟩ := Res.bind_eq_ok.mp h
    split at h
    · cases h
    rename_i ham
    split at h
    · cases h
    rename_i hfee
    obtain ⟨ins, hi, rfl⟩ := newTxIns_ok hbs
    obtain ⟨hh, key, hk, rfl⟩ := (addressDecode_ok_iff _ _).mp htb
    cases h
    refine ⟨⟨timestamp.toNat, lockUntil.toNat, a.reverse, ins, key, amount.toNat, fee.toNat, data⟩, ?_, rfl, rfl,
      (reverseHex_ok_iff _ _).mp ha, hne, hi, hh, hk, rfl, ham, rfl, hfee, rfl⟩
    rw [data_eq]
    unfold Tx.wire
    simp only [List.reverse_reverse, List.length_map, List.flatMap, List.append_assoc, List.cons_append, List.nil_append]
    rfl
  · rintro ⟨t, rfl, h1, h2, h3, h4, h5, h6, h7, h8, h9, h10, h11, h12⟩
    rw [(reverseHex_ok_iff anchor t.anchor.reverse).mpr (by rw [List.reverse_reverse]; exact h3), Res.bind_ok, if_neg h4,
      newTxIns_of h5, Res.bind_ok, (addressDecode_ok_iff to_ (1 :: t.to_)).mpr ⟨h6, t.to_, h7, rfl⟩, Res.bind_ok, if_neg h9, if_neg h11,
      data_eq, ← h1, ← h2, ← h8, ← h10, ← h12]
    unfold Tx.wire
    simp only [List.length_map, List.flatMap, List.append_assoc, List.cons_append, List.nil_append]
    rfl

/-- Equal-length parts of equal lists. -/
theorem app {a b c d : Bytes} (h : a ++ b = c ++ d) (hl : a.length = c.length) : a = c ∧ b = d := List.append_inj h hl

theorem inputs_inj : ∀ {xs ys : List (Bytes × UInt8)} {r s : Bytes}, xs.length = ys.length → (∀ i ∈ xs, i.1.length = 32) →
    (∀ i ∈ ys, i.1.length = 32) →
    (xs.flatMap fun i => i.1.reverse ++ [i.2]) ++ r = (ys.flatMap fun i => i.1.reverse ++ [i.2]) ++ s → xs = ys ∧ r = s
  | [], [], _, _, _, _, _, h => ⟨rfl, h⟩
  | x :: xs, y :: ys, r, s, hl, hx, hy, h => by
    rw [List.flatMap_cons, List.flatMap_cons, List.append_assoc (_ ++ _), List.append_assoc (_ ++ _)] at h
    have lx := hx x (List.mem_cons_self ..)
    have ly := hy y (List.mem_cons_self ..)
    obtain ⟨h1, h2⟩ := app h (by simp [lx, ly])
    obtain ⟨h3, h4⟩ := app h1 (by simp [lx, ly])
    obtain ⟨h5, h6⟩ := inputs_inj (by simpa using hl) (fun i hi => hx i (List.mem_cons_of_mem _ hi))
      (fun i hi => hy i (List.mem_cons_of_mem _ hi)) h2
    refine ⟨?_, h6⟩
    have e1 : x.1 = y.1 := List.reverse_inj.mp h3
    have e2 : x.2 = y.2 := (List.cons.inj h4).1
    rw [h5, Prod.ext e1 e2]

theorem u8_inj {m n : Nat} (hm : m < 256) (hn : n < 256) (h : UInt8.ofNat m = UInt8.ofNat n) : m = n := by
  have := congrArg UInt8.toNat h
  rwa [UInt8.toNat_ofNat_of_lt' hm, UInt8.toNat_ofNat_of_lt' hn] at this

/-- No encoding is the beginning of another one. -/
theorem wire_prefix {t u : Tx} {r s : Bytes} (ht : t.Fits) (hu : u.Fits) (h : t.wire ++ r = u.wire ++ s) : t = u ∧ r = s := by
  obtain ⟨t1, t2, t3, t4, t5, t6, t7, t8, t9⟩ := ht
  obtain ⟨u1, u2, u3, u4, u5, u6, u7, u8, u9⟩ := hu
  unfold Tx.wire at h
  simp only [List.append_assoc, List.cons_append, List.nil_append, List.cons.injEq, true_and] at h
  obtain ⟨e1, h⟩ := app h (by simp)
  obtain ⟨e2, h⟩ := app h (by simp)
  obtain ⟨e3, h⟩ := app h (by simp [t3, u3])
  obtain ⟨e4, h⟩ := List.cons.inj h
  obtain ⟨e5, h⟩ := inputs_inj (u8_inj t4 u4 e4) t5 u5 h
  obtain ⟨_, h⟩ := List.cons.inj h
  obtain ⟨e6, h⟩ := app h (by simp [t6, u6])
  obtain ⟨e7, h⟩ := app h (by simp)
  obtain ⟨e8, h⟩ := app h (by simp)
  obtain ⟨e9, h⟩ := List.cons.inj h
  obtain ⟨e10, hrs⟩ := app h (u8_inj t9 u9 e9)
  have w1 := leBytes_inj (k := 4) (by simpa using t1) (by simpa using u1) e1
  have w2 := leBytes_inj (k := 4) (by simpa using t2) (by simpa using u2) e2
  have w7 := leBytes_inj (k := 8) (by simpa using t7) (by simpa using u7) e7
  have w8 := leBytes_inj (k := 8) (by simpa using t8) (by simpa using u8) e8
  have w3 : t.anchor = u.anchor := List.reverse_inj.mp e3
  cases t; cases u
  simp only at *
  subst w1 w2 w3 w7 w8 e5 e6 e10
  exact ⟨rfl, hrs⟩

end Verif.BigBang
