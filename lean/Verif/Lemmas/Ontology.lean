import Verif.Model.Ontology
import Verif.Spec.Ontology
import Verif.Lemmas.OwKeychain
import Verif.Lemmas.BtcTx

/-! Lemmas about the script integers of the Ontology model. -/

namespace Verif.Ontology
open Verif Verif.Spec.OntVM OwKeychain

theorem readInstr_push (d rest : Bytes) (hl : d.length < 2 ^ 32) :
    readInstr (getLength d.length ++ d ++ rest) = some (.push (.bytes d), rest) := by
  unfold getLength
  split
  · rename_i h
    have e : (UInt8.ofNat d.length).toNat = d.length := by rw [UInt8.toNat_ofNat']; omega
    simp only [List.cons_append, List.nil_append, readInstr, e]
    rw [if_pos (by omega)]
    simp [pushN, operand]
  split
  · rename_i h h2
    have e : (UInt8.ofNat d.length).toNat = d.length := by rw [UInt8.toNat_ofNat']; omega
    simp only [List.cons_append, List.nil_append, readInstr]
    rw [if_neg (by decide), if_pos trivial, if_neg (by simp)]
    simp [pushN, operand, leNat, e]
  split
  · rename_i h h2 h3
    have e := leNat_leBytes_of_lt (k := 2) (n := d.length) (by omega)
    simp only [List.append_assoc, List.cons_append, readInstr]
    rw [if_neg (by decide), if_neg (by decide), if_pos trivial, if_neg (by simp; try omega)]
    rw [List.take_left' (by simp), List.drop_left' (by simp), e]
    simp [pushN, operand]
  · rename_i h h2 h3
    have e := leNat_leBytes_of_lt (k := 4) (n := d.length) (by omega)
    simp only [List.append_assoc, List.cons_append, readInstr]
    rw [if_neg (by decide), if_neg (by decide), if_neg (by decide), if_pos trivial, if_neg (by simp; try omega)]
    rw [List.take_left' (by simp), List.drop_left' (by simp), e]
    simp [pushN, operand]

theorem bigBytes_length_eq {m k : Nat} (h1 : 256 ^ k ≤ m) (h2 : m < 256 ^ (k + 1)) : (bigBytes m).length = k + 1 := by
  have a := (bigBytes_length_le m (k + 1)).mpr h2
  have b := (bigBytes_length_le m k).not.mpr (by omega)
  omega

theorem exists_pow {m : Nat} (h : m ≠ 0) : ∃ k, 256 ^ k ≤ m ∧ m < 256 ^ (k + 1) :=
  ⟨Nat.log 256 m, Nat.pow_log_le_self 256 h, Nat.lt_pow_succ_log_self (by omega) m⟩

/-- First byte and the rest of a number of `k + 1` bytes. -/
theorem bigBytes_cons {m k : Nat} (h1 : 256 ^ k ≤ m) (h2 : m < 256 ^ (k + 1)) :
    ∃ b rest, bigBytes m = b :: rest ∧ rest.length = k ∧ m = b.toNat * 256 ^ k + beNat rest ∧ beNat rest < 256 ^ k := by
  have hl := bigBytes_length_eq h1 h2
  have hv := beNat_bigBytes m
  cases hb : bigBytes m with
  | nil => rw [hb] at hl; simp at hl
  | cons b rest =>
    rw [hb] at hl hv
    simp at hl
    rw [beNat_cons, hl] at hv
    have := beNat_lt rest
    rw [hl] at this
    exact ⟨b, rest, rfl, hl, hv.symm, this⟩

theorem top_bit (b : UInt8) : (b >>> 7 = 0 ↔ b.toNat < 128) ∧ (b >>> 7 = 1 ↔ 128 ≤ b.toNat) := by
  revert b
  apply Hex.u8_forall
  decide +kernel

theorem top_iff {m k : Nat} {b : UInt8} {r : Nat} (hm : m = b.toNat * 256 ^ k + r) (hr : r < 256 ^ k) :
    b.toNat < 128 ↔ m < 128 * 256 ^ k := by
  constructor
  · intro h
    have : (b.toNat + 1) * 256 ^ k ≤ 128 * 256 ^ k := Nat.mul_le_mul_right _ h
    rw [Nat.add_mul] at this
    omega
  · intro h
    by_contra hc
    have : 128 * 256 ^ k ≤ b.toNat * 256 ^ k := Nat.mul_le_mul_right _ (by omega)
    omega

theorem leNat_compl (l : Bytes) : leNat (l.map (~~~ ·)) + leNat l + 1 = 256 ^ l.length := by
  induction l with
  | nil => rfl
  | cons x xs ih =>
    have hx : (~~~ x).toNat + x.toNat = 255 := by
      revert x
      apply Hex.u8_forall
      decide +kernel
    simp only [List.map_cons, leNat, List.length_cons, Nat.pow_succ]
    omega

theorem beNat_compl (l : Bytes) : beNat (l.map (~~~ ·)) + beNat l + 1 = 256 ^ l.length := by
  have := leNat_compl l.reverse
  rw [List.map_reverse, List.length_reverse] at this
  exact this

theorem leNat_bigBytes_reverse (n : Nat) : leNat (bigBytes n).reverse = n := beNat_bigBytes n

/-- The bytes pushed for a number, without their length. -/
def neoBody (data : Int) : Bytes :=
  match bigBytes data.natAbs with
  | [] => []
  | b :: rest =>
    if data < 0 then (bigBytes (beNat ((b :: rest).map (~~~ ·)) + 1)).reverse ++ (if b >>> 7 = 0 then [255] else [])
    else (b :: rest).reverse ++ (if b >>> 7 = 1 then [0] else [])

theorem neo_eq {x : Int} (h : x ≠ 0) : bigIntToNeoBytes x = getLength (neoBody x).length ++ neoBody x := by
  unfold bigIntToNeoBytes neoBody
  obtain ⟨k, h1, h2⟩ := exists_pow (m := x.natAbs) (by omega)
  obtain ⟨b, rest, hb, -⟩ := bigBytes_cons h1 h2
  rw [hb]

theorem neoBody_pos {x : Int} (h : 0 < x) : twos (neoBody x) = x ∧ (neoBody x).length ≤ (bigBytes x.natAbs).length + 1 := by
  obtain ⟨k, h1, h2⟩ := exists_pow (m := x.natAbs) (by omega)
  obtain ⟨b, rest, hb, hl, hm, hr⟩ := bigBytes_cons h1 h2
  have hv : leNat (b :: rest).reverse = x.natAbs := by rw [← hb]; exact beNat_bigBytes _
  have ht := top_iff hm hr
  unfold neoBody
  rw [hb]
  simp only
  rw [if_neg (by omega)]
  refine ⟨?_, by split <;> simp⟩
  have e : 256 ^ (k + 1) = 256 * 256 ^ k := by rw [Nat.pow_succ, Nat.mul_comm]
  by_cases c : b.toNat < 128
  · rw [if_neg (by rw [(top_bit b).2]; omega), List.append_nil]
    have := ht.mp c
    unfold twos
    rw [hv, if_neg (by simp only [List.length_reverse, List.length_cons, hl]; omega)]
    omega
  · rw [if_pos (by rw [(top_bit b).2]; omega)]
    unfold twos
    have hz : leNat ((b :: rest).reverse ++ [0]) = x.natAbs := by
      rw [leNat_append, hv]; simp [leNat]
    rw [hz, if_neg]
    · omega
    · have : 256 ^ (k + 1 + 1) = 256 * 256 ^ (k + 1) := by rw [Nat.pow_succ, Nat.mul_comm]
      simp only [List.length_append, List.length_reverse, List.length_cons, List.length_nil, hl]
      rw [this]
      omega

/-- Negative numbers: `k + 1` bytes in the absolute value. -/
theorem neoBody_neg {x : Int} {k : Nat} (h : x < 0) (h1 : 256 ^ k ≤ x.natAbs) (h2 : x.natAbs < 256 ^ (k + 1)) :
    neoBody x = (bigBytes (256 ^ (k + 1) - x.natAbs)).reverse ++ (if x.natAbs < 128 * 256 ^ k then [255] else []) := by
  obtain ⟨b, rest, hb, hl, hm, hr⟩ := bigBytes_cons h1 h2
  have ht := top_iff hm hr
  have hc := beNat_compl (b :: rest)
  rw [← hb, beNat_bigBytes, bigBytes_length_eq h1 h2, hb] at hc
  unfold neoBody
  rw [hb]
  simp only
  rw [if_pos h, show beNat ((b :: rest).map (~~~ ·)) + 1 = 256 ^ (k + 1) - x.natAbs by omega]
  congr 1
  by_cases c : b.toNat < 128
  · rw [if_pos ((top_bit b).1.mpr c), if_pos (ht.mp c)]
  · rw [if_neg (by rw [(top_bit b).1]; exact c), if_neg (fun h => c (ht.mpr h))]

theorem neoBody_neg_ok {x : Int} {k : Nat} (h : x < 0) (h1 : 256 ^ k ≤ x.natAbs) (h2 : x.natAbs ≤ 128 * 256 ^ k) :
    twos (neoBody x) = x ∧ (neoBody x).length ≤ k + 2 := by
  have e : 256 ^ (k + 1) = 256 * 256 ^ k := by rw [Nat.pow_succ, Nat.mul_comm]
  have e2 : 256 ^ (k + 2) = 256 * 256 ^ (k + 1) := by rw [Nat.pow_succ, Nat.mul_comm]
  have hp : 0 < 256 ^ k := by positivity
  rw [neoBody_neg h h1 (by omega)]
  have hl := bigBytes_length_eq (m := 256 ^ (k + 1) - x.natAbs) (k := k) (by omega) (by omega)
  by_cases c : x.natAbs < 128 * 256 ^ k
  · rw [if_pos c]
    refine ⟨?_, by simp [hl]⟩
    unfold twos
    rw [leNat_append, leNat_bigBytes_reverse]
    simp only [List.length_append, List.length_reverse, List.length_cons, List.length_nil, hl, leNat]
    rw [show k + 1 + (0 + 1) = k + 2 by omega, if_pos]
    · have e3 : (256 : Int) ^ (k + 2) = ((256 ^ (k + 2) : Nat) : Int) := by push_cast; rfl
      rw [e3, e2]
      push_cast [Nat.cast_sub (show x.natAbs ≤ 256 ^ (k + 1) by omega)]
      rw [abs_of_neg h]
      ring
    · have : UInt8.toNat 255 = 255 := rfl
      rw [this, e2]
      omega
  · rw [if_neg c, List.append_nil]
    refine ⟨?_, by simp [hl]⟩
    unfold twos
    rw [leNat_bigBytes_reverse]
    simp only [List.length_reverse, hl]
    rw [if_pos (by omega)]
    have e3 : (256 : Int) ^ (k + 1) = ((256 ^ (k + 1) : Nat) : Int) := by push_cast; rfl
    rw [e3]
    omega

theorem neoBody_neg_bad {x : Int} {k : Nat} (h : x < 0) (h1 : 128 * 256 ^ k < x.natAbs) (h2 : x.natAbs < 256 ^ (k + 1)) :
    x < twos (neoBody x) ∧ (neoBody x).length ≤ k + 1 := by
  have e : 256 ^ (k + 1) = 256 * 256 ^ k := by rw [Nat.pow_succ, Nat.mul_comm]
  have hp : 0 < 256 ^ k := by positivity
  rw [neoBody_neg h (by omega) h2, if_neg (by omega), List.append_nil]
  obtain ⟨j, j1, j2⟩ := exists_pow (m := 256 ^ (k + 1) - x.natAbs) (by omega)
  have hl := bigBytes_length_eq j1 j2
  have hjk : j ≤ k := by
    by_contra hc
    have : 256 ^ (k + 1) ≤ 256 ^ j := Nat.pow_le_pow_right (by omega) (by omega)
    omega
  refine ⟨?_, by simp [hl, hjk]⟩
  unfold twos
  rw [leNat_bigBytes_reverse]
  simp only [List.length_reverse, hl]
  split
  · rename_i hc
    have hj : j < k := by
      by_contra hc2
      have : j = k := by omega
      subst this
      omega
    have : 256 ^ (j + 1) ≤ 256 ^ k := Nat.pow_le_pow_right (by omega) (by omega)
    have e3 : (256 : Int) ^ (j + 1) = ((256 ^ (j + 1) : Nat) : Int) := by push_cast; rfl
    rw [e3]
    omega
  · omega

theorem readInstr_small (n : UInt8) (h0 : 0 < n.toNat) (h1 : n.toNat < 16) (rest : Bytes) :
    readInstr ([0x51 - 1 + n] ++ rest) = some (.push (.int n.toNat), rest) := by
  have : (0x51 - 1 + n).toNat = n.toNat + 0x50 := by
    rw [UInt8.toNat_add]
    have : UInt8.toNat (0x51 - 1) = 0x50 := rfl
    omega
  have h2 : ∀ v : UInt8, v.toNat < 0x51 ∨ 0x60 < v.toNat → 0x51 - 1 + n ≠ v := by
    intro v hv he
    rw [← he] at hv
    omega
  simp only [List.cons_append, List.nil_append, readInstr]
  rw [if_neg (by omega), if_neg (h2 _ (by decide)), if_neg (h2 _ (by decide)), if_neg (h2 _ (by decide)), if_neg (h2 _ (by decide)),
    if_pos (by omega), this]
  simp

end Verif.Ontology
