import Verif.Model.Crc32
import Verif.Spec.Crc32

/-! Lemmas on the CRC-32 rounds. -/

namespace Verif.Crc32
open Verif

/-- Bit `i` of a word. -/
def bit (w : UInt32) (i : Nat) : Bool := w.toBitVec.getLsbD i

theorem bit_lt {w : UInt32} {i : Nat} (h : 32 ≤ i) : bit w i = false := BitVec.getLsbD_of_ge _ _ h

theorem ext_bit {v w : UInt32} (h : ∀ i, i < 32 → bit v i = bit w i) : v = w := by
  apply UInt32.eq_of_toBitVec_eq
  apply BitVec.eq_of_getLsbD_eq
  intro i hi; exact h i hi

theorem bit_xor (v w : UInt32) (i : Nat) : bit (v ^^^ w) i = xor (bit v i) (bit w i) := by simp [bit]

theorem bit_shr (v : UInt32) (k i : Nat) (hk : k < 32) : bit (v >>> (UInt32.ofNat k)) i = bit v (k + i) := by
  unfold bit
  rw [UInt32.toBitVec_shiftRight]
  simp [BitVec.getLsbD_ushiftRight, Nat.mod_eq_of_lt (show k < 4294967296 by omega), Nat.mod_eq_of_lt hk]

theorem and_one (w : UInt32) : (w &&& 1 = 1) ↔ bit w 0 = true := by
  constructor
  · intro h
    have : bit (w &&& 1) 0 = bit 1 0 := by rw [h]
    simpa [bit] using this
  · intro h
    apply ext_bit
    intro i hi
    unfold bit at *
    rcases Nat.eq_zero_or_pos i with rfl | hp
    · simpa using h
    · simp only [UInt32.toBitVec_and, BitVec.getLsbD_and]
      have : (1 : UInt32).toBitVec.getLsbD i = false := by
        show (1#32).getLsbD i = false
        simp [BitVec.getLsbD_one]; omega
      rw [this]; simp

/-- The generator in the reflected order. -/
def polyBit (i : Nat) : Bool := bit 0xedb88320 i

theorem bit_round (w : UInt32) (i : Nat) : bit (round w) i = xor (bit w (i + 1)) (bit w 0 && polyBit i) := by
  unfold round
  have hs : bit (w >>> 1) i = bit w (i + 1) := by
    have := bit_shr w 1 i (by omega); rw [Nat.add_comm]; simpa using this
  by_cases h : bit w 0 = true
  · rw [if_pos ((and_one w).mpr h), bit_xor, hs, h]; simp [polyBit]
  · rw [if_neg (fun h' => h ((and_one w).mp h')), hs]; simp [Bool.not_eq_true _ ▸ h]

theorem polyBit_top : polyBit 31 = true := by decide

theorem xor_cancel_right {a b c : UInt32} (h : a ^^^ c = b ^^^ c) : a = b := by
  apply ext_bit; intro i _
  have := congrArg (fun w => bit w i) h
  simpa [bit_xor] using this

theorem xor_cancel_left {a b c : UInt32} (h : c ^^^ a = c ^^^ b) : a = b := by
  apply ext_bit; intro i _
  have := congrArg (fun w => bit w i) h
  simpa [bit_xor] using this

theorem round_xor (v w : UInt32) : round (v ^^^ w) = round v ^^^ round w := by
  apply ext_bit; intro i _
  simp only [bit_xor, bit_round]
  cases bit v (i+1) <;> cases bit w (i+1) <;> cases bit v 0 <;> cases bit w 0 <;> cases polyBit i <;> rfl

theorem rounds_xor (n : Nat) (v w : UInt32) : rounds n (v ^^^ w) = rounds n v ^^^ rounds n w := by
  induction n generalizing v w with
  | zero => rfl
  | succ n ih => simp only [rounds, round_xor, ih]

theorem round_inj {v w : UInt32} (h : round v = round w) : v = w := by
  have hb : ∀ i, xor (bit v (i + 1)) (bit v 0 && polyBit i) = xor (bit w (i + 1)) (bit w 0 && polyBit i) := by
    intro i; rw [← bit_round, ← bit_round, h]
  have h0 : bit v 0 = bit w 0 := by
    have := hb 31
    rw [bit_lt (w := v) (show 32 ≤ 31 + 1 by omega), bit_lt (w := w) (show 32 ≤ 31 + 1 by omega), polyBit_top] at this
    simpa using this
  apply ext_bit; intro i _
  rcases i with _ | i
  · exact h0
  · have := hb i
    rw [h0] at this
    simpa using this

theorem rounds_inj {n : Nat} {v w : UInt32} (h : rounds n v = rounds n w) : v = w := by
  induction n generalizing v w with
  | zero => exact h
  | succ n ih => exact round_inj (ih h)

theorem rounds_add (m n : Nat) (w : UInt32) : rounds (m + n) w = rounds n (rounds m w) := by
  induction m generalizing w with
  | zero => simp [rounds]
  | succ m ih => rw [Nat.succ_add]; simp only [rounds, ih]

/-- As long as the low bits are zero, the rounds only shift. -/
theorem bit_rounds_low (n : Nat) (w : UInt32) (h : ∀ j, j < n → bit w j = false) (i : Nat) : bit (rounds n w) i = bit w (n + i) := by
  induction n generalizing w with
  | zero => simp [rounds]
  | succ n ih =>
    simp only [rounds]
    have hr : ∀ j, bit (round w) j = bit w (j + 1) := by intro j; rw [bit_round, h 0 (by omega)]; simp
    rw [ih (round w) (by intro j hj; rw [hr]; exact h _ (by omega)), hr]
    congr 1; omega

theorem bit_ofByte (b : UInt8) (i : Nat) : bit b.toUInt32 i = b.toNat.testBit i := by
  unfold bit
  rw [UInt8.toBitVec_toUInt32]
  by_cases h : i < 32
  · simp [BitVec.getLsbD]
  · have : b.toNat < 2 ^ i := Nat.lt_of_lt_of_le b.toNat_lt (by
      show 2 ^ 8 ≤ 2 ^ i
      exact Nat.pow_le_pow_right (by omega) (by omega))
    rw [Nat.testBit_lt_two_pow this, BitVec.getLsbD_of_ge _ _ (by omega)]

theorem bit_toUInt8 (w : UInt32) (i : Nat) (h : i < 8) : w.toUInt8.toNat.testBit i = bit w i := by
  unfold bit
  rw [BitVec.getLsbD]
  simp [Nat.testBit_mod_two_pow (j := 8), UInt32.toNat_toUInt8, h]

theorem table_get (b : UInt8) : table.getD b.toNat 0 = rounds 8 b.toUInt32 := by
  unfold table
  rw [List.getD_eq_getElem?_getD, List.getElem?_map, List.getElem?_range b.toNat_lt]
  simp

/-- The table-driven step is eight rounds on the state with the byte xored in. -/
theorem step_eq (c : UInt32) (b : UInt8) : step c b = rounds 8 (c ^^^ b.toUInt32) := by
  unfold step
  rw [table_get]
  -- the low byte and the rest
  have hsplit : c ^^^ b.toUInt32 = (c.toUInt8 ^^^ b).toUInt32 ^^^ (c ^^^ c.toUInt8.toUInt32) := by
    apply ext_bit; intro i _
    simp only [bit_xor, bit_ofByte, UInt8.toNat_xor, Nat.testBit_xor]
    cases bit c i <;> cases b.toNat.testBit i <;> cases c.toUInt8.toNat.testBit i <;> rfl
  have hlow : ∀ j, j < 8 → bit (c ^^^ c.toUInt8.toUInt32) j = false := by
    intro j hj; rw [bit_xor, bit_ofByte, bit_toUInt8 _ _ hj]; simp
  rw [hsplit, rounds_xor]
  congr 1
  apply ext_bit; intro i _
  rw [bit_rounds_low 8 _ hlow, bit_xor, bit_ofByte,
    Nat.testBit_lt_two_pow (x := c.toUInt8.toNat) (Nat.lt_of_lt_of_le c.toUInt8.toNat_lt (by
      show 2 ^ 8 ≤ 2 ^ (8 + i)
      exact Nat.pow_le_pow_right (by omega) (by omega)))]
  have := bit_shr c 8 i (by omega)
  simpa using this

/-- The register of the specification that holds a word: coefficient of x^31 in the lowest bit. -/
def regOf (w : UInt32) : List Bool := (List.range 32).map (fun i => bit w i)

theorem poly_get : ∀ i, i < 32 → Spec.Crc32.poly[i]? = some (polyBit i) := by
  decide

theorem poly_length : Spec.Crc32.poly.length = 32 := by decide

theorem regOf_length (w : UInt32) : (regOf w).length = 32 := by simp [regOf]

theorem regOf_get (w : UInt32) (i : Nat) (h : i < 32) : (regOf w)[i]? = some (bit w i) := by
  simp [regOf, h]

theorem ext_reg {l : List Bool} {w : UInt32} (hl : l.length = 32) (h : ∀ i, i < 32 → l[i]? = some (bit w i)) : l = regOf w := by
  apply List.ext_getElem?
  intro i
  by_cases hi : i < 32
  · rw [h i hi, regOf_get w i hi]
  · rw [List.getElem?_eq_none (by omega), List.getElem?_eq_none (by rw [regOf_length]; omega)]

theorem shift_regOf (w : UInt32) (b : Bool) : Spec.Crc32.shift (regOf w) b = regOf (round (w ^^^ (if b then 1 else 0))) := by
  have hcons : regOf w = bit w 0 :: (List.range 31).map (fun i => bit w (i + 1)) := by
    simp only [regOf, List.range_succ_eq_map (n := 31), List.map_cons, List.map_map]; rfl
  have hrest : ∀ i, i < 32 → ((List.range 31).map (fun i => bit w (i + 1)) ++ [false])[i]? = some (bit w (i + 1)) := by
    intro i hi
    rw [List.getElem?_append]
    by_cases h31 : i < 31
    · simp [h31]
    · have : i = 31 := by omega
      subst this; simp [bit_lt]
  have hb0 : bit (w ^^^ (if b then 1 else 0)) 0 = xor (bit w 0) b := by
    rw [bit_xor]; cases b <;> rfl
  have hbs : ∀ i, bit (w ^^^ (if b then 1 else 0)) (i + 1) = bit w (i + 1) := by
    intro i; rw [bit_xor]
    have : bit (if b then 1 else 0) (i + 1) = false := by
      cases b
      · show (0#32).getLsbD _ = false; simp
      · show (1#32).getLsbD _ = false; simp [BitVec.getLsbD_one]
    rw [this]; simp
  rw [hcons]
  simp only [Spec.Crc32.shift]
  by_cases he : bit w 0 = b
  · rw [if_pos he]
    apply ext_reg (by simp)
    intro i hi
    rw [hrest i hi, bit_round, hb0, hbs, he]; simp
  · rw [if_neg he]
    apply ext_reg (by simp [poly_length])
    intro i hi
    rw [List.getElem?_zipWith, hrest i hi, poly_get i hi, bit_round, hb0, hbs]
    have : xor (bit w 0) b = true := by
      generalize bit w 0 = x at he
      cases x <;> cases b <;> simp_all
    rw [this]; simp

/-- Bits entering one at a time are xored in before the rounds. -/
theorem foldl_shift (l : List Bool) (w v : UInt32) (hv : ∀ i, bit v i = l.getD i false) :
    l.foldl Spec.Crc32.shift (regOf w) = regOf (rounds l.length (w ^^^ v)) := by
  induction l generalizing w v with
  | nil =>
    have : v = 0 := ext_bit (by intro i _; rw [hv i]; show _ = (0#32).getLsbD i; simp)
    subst this; simp [rounds]
  | cons b l ih =>
    rw [List.foldl_cons, shift_regOf, List.length_cons]
    simp only [rounds]
    have hb : ∀ i, bit (v ^^^ (if b then 1 else 0)) i = if i = 0 then false else bit v i := by
      intro i; rw [bit_xor]
      rcases i with _ | i
      · rw [hv 0]; cases b <;> rfl
      · have : bit (if b then 1 else 0) (i + 1) = false := by
          cases b
          · show (0#32).getLsbD _ = false; simp
          · show (1#32).getLsbD _ = false; simp [BitVec.getLsbD_one]
        rw [this]; simp
    rw [ih _ (round (v ^^^ (if b then 1 else 0)))]
    · congr 2
      rw [← round_xor]
      congr 1
      apply ext_bit; intro i _
      simp only [bit_xor]
      cases bit w i <;> cases bit v i <;> cases bit (if b then (1 : UInt32) else 0) i <;> rfl
    · intro i
      rw [bit_round, hb, hb]
      simp [hv (i + 1)]

theorem foldl_bitsOf (w : UInt32) (b : UInt8) : (Spec.Crc32.bitsOf b).foldl Spec.Crc32.shift (regOf w) = regOf (step w b) := by
  rw [step_eq, foldl_shift _ w b.toUInt32]
  · simp [Spec.Crc32.bitsOf]
  · intro i
    rw [bit_ofByte]
    by_cases h : i < 8
    · simp [Spec.Crc32.bitsOf, List.getD_eq_getElem?_getD, h]
    · rw [Nat.testBit_lt_two_pow (Nat.lt_of_lt_of_le b.toNat_lt (by
        show 2 ^ 8 ≤ 2 ^ i
        exact Nat.pow_le_pow_right (by omega) (by omega)))]
      simp [Spec.Crc32.bitsOf, List.getD_eq_getElem?_getD, h]

theorem foldl_message (s : Bytes) (w : UInt32) :
    (s.flatMap Spec.Crc32.bitsOf).foldl Spec.Crc32.shift (regOf w) = regOf (s.foldl step w) := by
  induction s generalizing w with
  | nil => rfl
  | cons b s ih => rw [List.flatMap_cons, List.foldl_append, foldl_bitsOf, ih, List.foldl_cons]

theorem regOf_ones : List.replicate 32 true = regOf (~~~ 0) := by decide

theorem regOf_not (w : UInt32) : (regOf w).map not = regOf (~~~ w) := by
  apply ext_reg (by simp [regOf_length])
  intro i hi
  rw [List.getElem?_map, regOf_get w i hi]
  simp [bit, hi]

theorem valueOf_lt (l : List Bool) : Spec.Crc32.valueOf l < 2 ^ l.length := by
  induction l with
  | nil => simp [Spec.Crc32.valueOf]
  | cons b l ih =>
    simp only [Spec.Crc32.valueOf, List.length_cons, Nat.pow_succ]
    have := b.toNat_lt; omega

theorem testBit_valueOf (l : List Bool) (i : Nat) : (Spec.Crc32.valueOf l).testBit i = l.getD i false := by
  induction l generalizing i with
  | nil => simp [Spec.Crc32.valueOf]
  | cons b l ih =>
    simp only [Spec.Crc32.valueOf]
    rcases i with _ | i
    · rw [Nat.testBit_zero]; cases b <;> simp [Nat.add_mul_mod_self_left]
    · rw [Nat.testBit_succ]
      have : (b.toNat + 2 * Spec.Crc32.valueOf l) / 2 = Spec.Crc32.valueOf l := by have := b.toNat_lt; omega
      rw [this, ih]; simp

theorem valueOf_regOf (w : UInt32) : Spec.Crc32.valueOf (regOf w) = w.toNat := by
  apply Nat.eq_of_testBit_eq
  intro i
  rw [testBit_valueOf]
  by_cases h : i < 32
  · rw [List.getD_eq_getElem?_getD, regOf_get w i h]; rfl
  · rw [List.getD_eq_getElem?_getD, List.getElem?_eq_none (by rw [regOf_length]; omega)]
    rw [Nat.testBit_lt_two_pow (Nat.lt_of_lt_of_le w.toNat_lt (Nat.pow_le_pow_right (by omega) (by omega)))]; rfl

theorem checksum_eq (s : Bytes) : Spec.Crc32.checksum s = (~~~ (s.foldl step (~~~ 0))).toNat := by
  unfold Spec.Crc32.checksum Spec.Crc32.register
  rw [regOf_ones, foldl_message, regOf_not, valueOf_regOf]

/-! ### Differences within four consecutive bytes -/

theorem step_inj_state {c d : UInt32} {b : UInt8} (h : step c b = step d b) : c = d := by
  rw [step_eq, step_eq] at h
  exact xor_cancel_right (rounds_inj h)

theorem foldl_inj_state (s : Bytes) {c d : UInt32} (h : s.foldl step c = s.foldl step d) : c = d := by
  induction s generalizing c d with
  | nil => exact h
  | cons b s ih => exact step_inj_state (ih h)

/-- A window of bytes entering is one word xored in before all its rounds. -/
theorem foldl_window (l : Bytes) (w v : UInt32) (hv : ∀ i, bit v i = (l.flatMap Spec.Crc32.bitsOf).getD i false) :
    l.foldl step w = rounds (l.flatMap Spec.Crc32.bitsOf).length (w ^^^ v) := by
  have h := foldl_message l w
  rw [foldl_shift _ _ v hv] at h
  apply ext_bit; intro i hi
  have := congrArg (fun r => r[i]?) h
  simp only [regOf_get _ _ hi, Option.some.injEq] at this
  exact this.symm

theorem bits_length (l : Bytes) : (l.flatMap Spec.Crc32.bitsOf).length = 8 * l.length := by
  induction l with
  | nil => rfl
  | cons b l ih => rw [List.flatMap_cons, List.length_append, ih]; simp [Spec.Crc32.bitsOf]; omega

theorem bitsOf_inj {b c : UInt8} (h : Spec.Crc32.bitsOf b = Spec.Crc32.bitsOf c) : b = c := by
  apply UInt8.toNat_inj.mp
  apply Nat.eq_of_testBit_eq
  intro i
  by_cases hi : i < 8
  · have := congrArg (fun r => r[i]?) h
    simpa [Spec.Crc32.bitsOf, hi] using this
  · have h8 : 2 ^ 8 ≤ 2 ^ i := Nat.pow_le_pow_right (by omega) (by omega)
    rw [Nat.testBit_lt_two_pow (Nat.lt_of_lt_of_le b.toNat_lt h8), Nat.testBit_lt_two_pow (Nat.lt_of_lt_of_le c.toNat_lt h8)]

theorem bits_inj {l m : Bytes} (hl : l.length = m.length) (h : l.flatMap Spec.Crc32.bitsOf = m.flatMap Spec.Crc32.bitsOf) : l = m := by
  induction l generalizing m with
  | nil => cases m <;> simp_all
  | cons b l ih =>
    cases m with
    | nil => simp at hl
    | cons c m =>
      rw [List.flatMap_cons, List.flatMap_cons] at h
      have ⟨h1, h2⟩ := List.append_inj h (by simp [Spec.Crc32.bitsOf])
      rw [bitsOf_inj h1, ih (by simpa using hl) h2]

theorem exists_word (l : List Bool) (h : l.length ≤ 32) : ∃ v : UInt32, ∀ i, bit v i = l.getD i false := by
  refine ⟨UInt32.ofNat (Spec.Crc32.valueOf l), fun i => ?_⟩
  have hlt : Spec.Crc32.valueOf l < 2 ^ 32 := Nat.lt_of_lt_of_le (valueOf_lt l) (Nat.pow_le_pow_right (by omega) h)
  rw [← testBit_valueOf]
  unfold bit
  rw [BitVec.getLsbD]
  show (UInt32.ofNat (Spec.Crc32.valueOf l)).toNat.testBit i = _
  rw [UInt32.toNat_ofNat_of_lt' hlt]

theorem foldl_inj_window {l m : Bytes} (hl : l.length = m.length) (h4 : l.length ≤ 4) {c : UInt32}
    (h : l.foldl step c = m.foldl step c) : l = m := by
  obtain ⟨v, hv⟩ := exists_word (l.flatMap Spec.Crc32.bitsOf) (by rw [bits_length]; omega)
  obtain ⟨u, hu⟩ := exists_word (m.flatMap Spec.Crc32.bitsOf) (by rw [bits_length]; omega)
  rw [foldl_window l c v hv, foldl_window m c u hu, bits_length, bits_length, hl] at h
  have huv : v = u := xor_cancel_left (rounds_inj h)
  apply bits_inj hl
  apply List.ext_getElem?
  intro i
  by_cases hi : i < 8 * l.length
  · have : (l.flatMap Spec.Crc32.bitsOf).getD i false = (m.flatMap Spec.Crc32.bitsOf).getD i false := by rw [← hv, ← hu, huv]
    rw [List.getElem?_eq_getElem (by rw [bits_length]; exact hi), List.getElem?_eq_getElem (by rw [bits_length]; omega)]
    rw [List.getD_eq_getElem?_getD, List.getD_eq_getElem?_getD, List.getElem?_eq_getElem (by rw [bits_length]; exact hi),
      List.getElem?_eq_getElem (by rw [bits_length]; omega)] at this
    simpa using this
  · rw [List.getElem?_eq_none (by rw [bits_length]; omega), List.getElem?_eq_none (by rw [bits_length]; omega)]

end Verif.Crc32
