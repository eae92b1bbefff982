import Verif.Lemmas.BlakeStream
import Verif.Lemmas.Base
import Verif.Lemmas.Hex
import Mathlib.Data.List.Basic

/-! Padding and chaining of `Sum`, against the specification of BLAKE-256. -/

namespace Verif.Blake
open Verif

/-- The digest `d` was started from the bare digest `c` and has absorbed `m`. -/
def Absorbed (d c : Digest) (m : Bytes) : Prop := Rep d (block c m) (m.drop (m.length / 64 * 64))

theorem absorbed_write {d c : Digest} {m p : Bytes} (h : Absorbed d c m) : Absorbed (write d p) c (m ++ p) := by
  have := write_rep _ _ _ p h
  have e : m ++ p = m.take (m.length / 64 * 64) ++ (m.drop (m.length / 64 * 64) ++ p) := by
    rw [← List.append_assoc, List.take_append_drop]
  have hl : (m.take (m.length / 64 * 64)).length = 64 * (m.length / 64) := by rw [List.length_take]; omega
  have b : block (block c m) (m.drop (m.length / 64 * 64) ++ p) = block c (m ++ p) := by
    rw [e, block_append _ _ _ _ hl, block_take]
  have ld : (m.drop (m.length / 64 * 64)).length = m.length % 64 := by rw [List.length_drop]; omega
  have dd : (m ++ p).drop ((m ++ p).length / 64 * 64) =
      (m.drop (m.length / 64 * 64) ++ p).drop ((m.drop (m.length / 64 * 64) ++ p).length / 64 * 64) := by
    rw [List.length_append, List.length_append, ld]
    conv_lhs => rw [e]
    rw [show (m.length + p.length) / 64 * 64 = 64 * (m.length / 64) + (m.length % 64 + p.length) / 64 * 64 from by omega, ← hl,
      List.drop_length_add_append]
  rw [b, ← dd] at this
  exact this

theorem absorbed_writes {d c : Digest} {m : Bytes} (h : Absorbed d c m) (ps : List Bytes) :
    Absorbed (ps.foldl write d) c (m ++ ps.flatten) := by
  induction ps generalizing d m with
  | nil => simpa using h
  | cons p ps ih =>
    have := ih (absorbed_write (p := p) h)
    simpa [List.append_assoc] using this

theorem Rep.finish {d d' c : Digest} {pend : Bytes} (h : Rep d c pend) (h' : Rep d' c pend) :
    (finish d).h = (finish d').h ∧ (finish d).hashSize = (finish d').hashSize := by
  rcases Nat.lt_trichotomy pend.length 55 with hl | hl | hl
  · exact ⟨(finish_lt h hl).h.trans (finish_lt h' hl).h.symm, (finish_lt h hl).size.trans (finish_lt h' hl).size.symm⟩
  · exact ⟨(finish_eq h hl).h.trans (finish_eq h' hl).h.symm, (finish_eq h hl).size.trans (finish_eq h' hl).size.symm⟩
  · exact ⟨(finish_gt h hl).h.trans (finish_gt h' hl).h.symm, (finish_gt h hl).size.trans (finish_gt h' hl).size.symm⟩

theorem Rep.sum {d d' c : Digest} {pend : Bytes} (h : Rep d c pend) (h' : Rep d' c pend) (inp : Bytes) : sum d inp = sum d' inp := by
  obtain ⟨a, b⟩ := h.finish h'
  unfold Blake.sum
  simp only
  rw [a, b]

theorem sum_append (d : Digest) (inp : Bytes) : Blake.sum d inp = inp ++ Blake.sum d [] := by simp [Blake.sum]

/-! ### The chain of full blocks -/

theorem spec_compress_length (h s : List UInt32) (t : Nat) (b : Bytes) : (Spec.Blake.compress h s t b).length = 8 := by
  simp [Spec.Blake.compress]

/-- The chain value after the full blocks of a message. -/
def full (s : List UInt32) (p : Bytes) (n : Nat) (h : List UInt32) : List UInt32 :=
  (List.range n).foldl (fun h i => Spec.Blake.compress h s (512 * (i + 1)) ((p.drop (64 * i)).take 64)) h

theorem full_length (s : List UInt32) (p : Bytes) (n : Nat) (h : List UInt32) (hh : h.length = 8) : (full s p n h).length = 8 := by
  cases n with
  | zero => simpa [full] using hh
  | succ n => rw [full, List.range_succ, List.foldl_append]; exact spec_compress_length _ _ _ _

theorem block_spec (c : Digest) (ht : c.t = 0) (hn : c.nullt = false) (hh : c.h.length = 8) :
    ∀ (n : Nat) (p : Bytes), p.length = 64 * n → 512 * n < 2 ^ 64 →
      block c p = { c with t := UInt64.ofNat (512 * n), h := full c.s p n c.h }
  | 0, p, hp, _ => by
    rw [block_short _ _ (by omega)]
    obtain ⟨z, h, s, t, nul, x, nx⟩ := c
    simp only at ht
    subst ht
    rfl
  | n + 1, p, hp, hb => by
    have hl : (p.take (64 * n)).length = 64 * n := by rw [List.length_take]; omega
    have hd : (p.drop (64 * n)).length = 64 := by rw [List.length_drop]; omega
    conv_lhs => rw [← List.take_append_drop (64 * n) p]
    rw [block_append n _ _ _ hl, block_spec c ht hn hh n _ hl (by omega), block_one _ _ hd,
      compress_eq _ _ hd (full_length _ _ _ _ hh)]
    have e : full c.s (p.take (64 * n)) n c.h = full c.s p n c.h := by
      refine List.foldl_ext _ _ _ fun h i hi => ?_
      rw [List.mem_range] at hi
      rw [List.drop_take, List.take_take, min_eq_left (by omega)]
    have tt : (UInt64.ofNat (512 * n) + 512).toNat = 512 * (n + 1) := by
      rw [UInt64.toNat_add, UInt64.toNat_ofNat']
      have : (512 : UInt64).toNat = 512 := rfl
      rw [this]
      omega
    have tu : UInt64.ofNat (512 * n) + 512 = UInt64.ofNat (512 * (n + 1)) := by
      apply UInt64.toNat_inj.mp
      rw [tt, UInt64.toNat_ofNat']
      omega
    simp only [hn, Bool.false_eq_true, if_false]
    rw [tt, tu, e]
    have : full c.s p (n + 1) c.h = Spec.Blake.compress (full c.s p n c.h) c.s (512 * (n + 1)) (p.drop (64 * n)) := by
      rw [full, List.range_succ, List.foldl_append]
      simp only [List.foldl_cons, List.foldl_nil]
      rw [List.take_of_length_le (i := 64) (by omega)]
      rfl
    rw [this]

/-! ### The padding -/

/-- Padding after `n` bytes of the last block, without the length. -/
def tail (mk : UInt8) (n : Nat) : Bytes :=
  if n < 55 then 0x80 :: List.replicate (54 - n) 0 ++ [mk]
  else if n = 55 then [0x80 + mk]
  else 0x80 :: List.replicate (63 - n) 0 ++ (List.replicate 55 0 ++ [mk])

theorem shr64_toNat (l : UInt64) (k : UInt64) (hk : k.toNat < 64) : (shr64 l k).toNat = l.toNat / 2 ^ k.toNat % 256 := by
  rw [shr64, UInt64.toNat_toUInt8, UInt64.toNat_shiftRight, Nat.mod_eq_of_lt hk, Nat.shiftRight_eq_div_pow]

theorem shr32_toNat (l : UInt32) (k : UInt32) (hk : k.toNat < 32) : (shr32 l k).toNat = l.toNat / 2 ^ k.toNat % 256 := by
  rw [shr32, UInt32.toNat_toUInt8, UInt32.toNat_shiftRight, Nat.mod_eq_of_lt hk, Nat.shiftRight_eq_div_pow]

theorem lenField_eq (l : UInt64) : lenField l = beBytes 8 l.toNat := by
  apply List.map_injective_iff.mpr (fun a b (h : UInt8.toNat a = UInt8.toNat b) => UInt8.toNat_inj.mp h)
  simp only [lenField, beBytes, leBytes, List.map_cons, List.map_nil, List.reverse_cons, List.reverse_nil, List.nil_append,
    List.cons_append]
  simp only [shr64_toNat l 56 (by decide), shr64_toNat l 48 (by decide), shr64_toNat l 40 (by decide), shr64_toNat l 32 (by decide),
    shr64_toNat l 24 (by decide), shr64_toNat l 16 (by decide), shr64_toNat l 8 (by decide), shr64_toNat l 0 (by decide)]
  simp [Nat.div_div_eq_div_mul]

theorem word_bytes (l : UInt32) : [shr32 l 24, shr32 l 16, shr32 l 8, shr32 l 0] = beBytes 4 l.toNat := by
  apply List.map_injective_iff.mpr (fun a b (h : UInt8.toNat a = UInt8.toNat b) => UInt8.toNat_inj.mp h)
  simp only [beBytes, leBytes, List.map_cons, List.map_nil, List.reverse_cons, List.reverse_nil, List.nil_append,
    List.cons_append]
  simp only [shr32_toNat l 24 (by decide), shr32_toNat l 16 (by decide), shr32_toNat l 8 (by decide), shr32_toNat l 0 (by decide)]
  simp [Nat.div_div_eq_div_mul]

theorem full_take (s : List UInt32) (p : Bytes) (n : Nat) (h : List UInt32) : full s (p.take (n * 64)) n h = full s p n h := by
  refine List.foldl_ext _ _ _ fun h i hi => ?_
  rw [List.mem_range] at hi
  rw [List.drop_take, List.take_take, min_eq_left (by omega)]

theorem block_message (c : Digest) (ht : c.t = 0) (hn : c.nullt = false) (hh : c.h.length = 8) (m : Bytes) (hm : 8 * m.length < 2 ^ 64) :
    block c m = { c with t := UInt64.ofNat (512 * (m.length / 64)), h := full c.s m (m.length / 64) c.h } := by
  rw [← block_take, block_spec c ht hn hh (m.length / 64) _ (by rw [List.length_take]; omega) (by omega), full_take]

theorem chain_split (iv s : List UInt32) (m w : Bytes) (k : Nat) (hk : (m ++ w).length / 64 = m.length / 64 + k) :
    Spec.Blake.chain iv s m.length (m ++ w) = (List.range k).foldl (fun h j => Spec.Blake.compress h s
      (Spec.Blake.counter m.length (m.length / 64 + j)) (((m.drop (m.length / 64 * 64) ++ w).drop (64 * j)).take 64)) (full s m (m.length / 64) iv) := by
  rw [Spec.Blake.chain, hk, List.range_add, List.foldl_append, List.foldl_map]
  have e : (List.range (m.length / 64)).foldl (fun h i => Spec.Blake.compress h s (Spec.Blake.counter m.length i) (((m ++ w).drop (64 * i)).take 64)) iv =
      full s m (m.length / 64) iv := by
    refine List.foldl_ext _ _ _ fun h i hi => ?_
    rw [List.mem_range] at hi
    have : Spec.Blake.counter m.length i = 512 * (i + 1) := by
      rw [Spec.Blake.counter, if_pos (by omega), min_eq_right (by omega)]
    rw [this, List.drop_append_of_le_length (by omega), List.take_append_of_le_length (by rw [List.length_drop]; omega)]
  rw [e]
  refine List.foldl_ext _ _ _ fun h j hj => ?_
  have : (m ++ w).drop (64 * (m.length / 64 + j)) = (m.drop (m.length / 64 * 64) ++ w).drop (64 * j) := by
    rw [← List.drop_append_of_le_length (by omega), List.drop_drop]
    congr 1
    omega
  rw [this]

theorem shl3 (n : Nat) (hn : n < 64) : (UInt64.ofNat n <<< 3).toNat = 8 * n := by
  rw [UInt64.toNat_shiftLeft, UInt64.toNat_ofNat']
  have : (3 : UInt64).toNat % 64 = 3 := rfl
  rw [this, Nat.shiftLeft_eq]
  omega

theorem total (N n : Nat) (hn : n < 64) (h : 512 * N + 8 * n < 2 ^ 64) :
    (UInt64.ofNat (512 * N) + (UInt64.ofNat n <<< 3)).toNat = 512 * N + 8 * n := by
  rw [UInt64.toNat_add, shl3 n hn, UInt64.toNat_ofNat']
  omega

theorem compress_h (d : Digest) (p : Bytes) (hp : p.length = 64) (hh : d.h.length = 8) :
    (compress d p).h = Spec.Blake.compress d.h d.s (if d.nullt then 0 else (d.t + 512).toNat) p := by rw [compress_eq d p hp hh]

theorem arith_lt (a b : UInt64) : a - (440 - b) - 8 - 64 + 512 = a + b := by
  apply UInt64.toNat_inj.mp
  have ha := a.toNat_lt
  have hb := b.toNat_lt
  simp only [UInt64.toNat_add, UInt64.toNat_sub, show (440 : UInt64).toNat = 440 from rfl, show (8 : UInt64).toNat = 8 from rfl,
    show (64 : UInt64).toNat = 64 from rfl, show (512 : UInt64).toNat = 512 from rfl]
  omega

theorem arith_eq (a : UInt64) : a - 8 - 64 + 512 = a + 440 := by
  apply UInt64.toNat_inj.mp
  have ha := a.toNat_lt
  simp only [UInt64.toNat_add, UInt64.toNat_sub, show (440 : UInt64).toNat = 440 from rfl, show (8 : UInt64).toNat = 8 from rfl,
    show (64 : UInt64).toNat = 64 from rfl, show (512 : UInt64).toNat = 512 from rfl]
  omega

theorem arith_gt (a b : UInt64) : a - (512 - b) + 512 = a + b := by
  apply UInt64.toNat_inj.mp
  have ha := a.toNat_lt
  have hb := b.toNat_lt
  simp only [UInt64.toNat_add, UInt64.toNat_sub, show (512 : UInt64).toNat = 512 from rfl]
  omega

theorem finish_spec {c : Digest} (ht : c.t = 0) (hn : c.nullt = false) (hh : c.h.length = 8) {m : Bytes} (hm : 8 * m.length < 2 ^ 64)
    {d : Digest} (h : Absorbed d c m) : (finish d).hashSize = c.hashSize ∧
      (finish d).h = Spec.Blake.chain c.h c.s m.length (m ++ (tail (markByte c.hashSize) (m.length % 64) ++ beBytes 8 (8 * m.length))) := by
  unfold Absorbed at h
  rw [block_message c ht hn hh m hm] at h
  have hp : (m.drop (m.length / 64 * 64)).length = m.length % 64 := by rw [List.length_drop]; omega
  have hfl := full_length c.s m (m.length / 64) c.h hh
  have htot := total (m.length / 64) (m.length % 64) (by omega) (by omega)
  have hlf : lenField (UInt64.ofNat (512 * (m.length / 64)) + (UInt64.ofNat (m.length % 64) <<< 3)) = beBytes 8 (8 * m.length) := by
    rw [lenField_eq, htot]
    congr 1
    omega
  rcases Nat.lt_trichotomy (m.length % 64) 55 with hl | hl | hl
  · have r := finish_lt h (by omega)
    simp only [hp, hlf, hn, Bool.false_or] at r
    have tl : tail (markByte c.hashSize) (m.length % 64) = 0x80 :: List.replicate (54 - m.length % 64) 0 ++ [markByte c.hashSize] := by
      rw [tail, if_pos hl]
    have lw : (m.drop (m.length / 64 * 64) ++ (tail (markByte c.hashSize) (m.length % 64) ++ beBytes 8 (8 * m.length))).length = 64 := by
      rw [List.length_append, hp, tl]
      simp
      omega
    refine ⟨r.size, ?_⟩
    rw [r.h, chain_split _ _ _ _ 1 (by rw [List.length_append] at lw ⊢; omega)]
    simp only [List.range_one, List.foldl_cons, List.foldl_nil, Nat.mul_zero, List.drop_zero, Nat.add_zero]
    rw [List.take_of_length_le (by omega)]
    have ew : m.drop (m.length / 64 * 64) ++ (tail (markByte c.hashSize) (m.length % 64) ++ beBytes 8 (8 * m.length)) =
        m.drop (m.length / 64 * 64) ++ (0x80 :: List.replicate (54 - m.length % 64) 0 : Bytes) ++ [markByte c.hashSize] ++ beBytes 8 (8 * m.length) := by
      rw [tl]
      simp only [List.append_assoc]
    rw [ew] at lw ⊢
    rw [compress_h _ _ lw hfl]
    simp only
    congr 1
    rw [arith_lt, htot, Spec.Blake.counter]
    by_cases h0 : m.length % 64 = 0
    · rw [if_pos (by simpa using h0), if_neg (by omega)]
    · rw [if_neg (by simpa using h0), if_pos (by omega), min_eq_left (by omega)]
      omega
  · have r := finish_eq h (by omega)
    simp only [hp, hlf, hn] at r
    have tl : tail (markByte c.hashSize) (m.length % 64) = [0x80 + markByte c.hashSize] := by
      rw [tail, if_neg (by omega), if_pos hl]
    have lw : (m.drop (m.length / 64 * 64) ++ (tail (markByte c.hashSize) (m.length % 64) ++ beBytes 8 (8 * m.length))).length = 64 := by
      rw [List.length_append, hp, tl]
      simp
      omega
    refine ⟨r.size, ?_⟩
    rw [r.h, chain_split _ _ _ _ 1 (by rw [List.length_append] at lw ⊢; omega)]
    simp only [List.range_one, List.foldl_cons, List.foldl_nil, Nat.mul_zero, List.drop_zero, Nat.add_zero]
    rw [List.take_of_length_le (by omega)]
    have ew : m.drop (m.length / 64 * 64) ++ (tail (markByte c.hashSize) (m.length % 64) ++ beBytes 8 (8 * m.length)) =
        m.drop (m.length / 64 * 64) ++ [0x80 + markByte c.hashSize] ++ beBytes 8 (8 * m.length) := by
      rw [tl]
      simp only [List.append_assoc]
    rw [ew] at lw ⊢
    rw [compress_h _ _ lw hfl]
    have e : UInt64.ofNat (m.length % 64) <<< 3 = (440 : UInt64) := by
      rw [hl]
      decide
    rw [e] at htot
    have c0 : Spec.Blake.counter m.length (m.length / 64) = 512 * (m.length / 64) + 8 * (m.length % 64) := by
      rw [Spec.Blake.counter, if_pos (by omega), min_eq_left (by omega)]
      omega
    simp only [Bool.false_eq_true, if_false]
    rw [arith_eq, htot, c0]
  · have r := finish_gt h (by omega)
    simp only [hp, hlf, hn] at r
    have lt : m.length % 64 < 64 := by omega
    have tl : tail (markByte c.hashSize) (m.length % 64) =
        0x80 :: List.replicate (63 - m.length % 64) 0 ++ (List.replicate 55 0 ++ [markByte c.hashSize]) := by
      rw [tail, if_neg (by omega), if_neg (by omega)]
    have l1 : (m.drop (m.length / 64 * 64) ++ (0x80 :: List.replicate (63 - m.length % 64) 0 : Bytes)).length = 64 := by
      rw [List.length_append, hp]
      simp
      omega
    have l2 : ((List.replicate 55 0 : Bytes) ++ [markByte c.hashSize] ++ beBytes 8 (8 * m.length)).length = 64 := by simp
    have ew : m.drop (m.length / 64 * 64) ++ (tail (markByte c.hashSize) (m.length % 64) ++ beBytes 8 (8 * m.length)) =
        (m.drop (m.length / 64 * 64) ++ (0x80 :: List.replicate (63 - m.length % 64) 0 : Bytes)) ++
          ((List.replicate 55 0 : Bytes) ++ [markByte c.hashSize] ++ beBytes 8 (8 * m.length)) := by
      rw [tl]
      simp only [List.append_assoc]
    have lw := congrArg List.length ew
    rw [List.length_append (as := m.drop (m.length / 64 * 64) ++ (0x80 :: List.replicate (63 - m.length % 64) 0 : Bytes)), l1, l2] at lw
    refine ⟨r.size, ?_⟩
    rw [r.h, chain_split _ _ _ _ 2 (by rw [List.length_append] at lw ⊢; omega)]
    simp only [show List.range 2 = [0, 1] from rfl, List.foldl_cons, List.foldl_nil, Nat.mul_zero, List.drop_zero, Nat.add_zero]
    rw [ew]
    have b0 := List.take_left' (l₂ := (List.replicate 55 0 : Bytes) ++ [markByte c.hashSize] ++ beBytes 8 (8 * m.length)) l1
    have b1 := List.drop_left' (l₂ := (List.replicate 55 0 : Bytes) ++ [markByte c.hashSize] ++ beBytes 8 (8 * m.length)) l1
    rw [Nat.mul_one, b0, b1, List.take_of_length_le (le_of_eq l2)]
    have e1 := compress_h { c with t := UInt64.ofNat (512 * (m.length / 64)) - ((512 : UInt64) - UInt64.ofNat (m.length % 64) <<< 3), h := full c.s m (m.length / 64) c.h, nullt := false } _ l1 hfl
    rw [compress_h _ _ l2 (by rw [e1]; exact spec_compress_length _ _ _ _)]
    simp only [if_true] at e1 ⊢
    rw [e1]
    have c0 : Spec.Blake.counter m.length (m.length / 64) = 512 * (m.length / 64) + 8 * (m.length % 64) := by
      rw [Spec.Blake.counter, if_pos (by omega), min_eq_left (by omega)]
      omega
    have c1 : Spec.Blake.counter m.length (m.length / 64 + 1) = 0 := by
      rw [Spec.Blake.counter, if_neg (by omega)]
    rw [arith_gt, htot, c0, c1]
    rfl

/-! ### The padding in bits -/

theorem bits_append (a b : Bytes) : Spec.Blake.bits (a ++ b) = Spec.Blake.bits a ++ Spec.Blake.bits b := List.flatMap_append

theorem bits_cons (x : UInt8) (b : Bytes) :
    Spec.Blake.bits (x :: b) = ((List.range 8).map fun i => x.toNat.testBit (7 - i)) ++ Spec.Blake.bits b := List.flatMap_cons

theorem bits_length (b : Bytes) : (Spec.Blake.bits b).length = 8 * b.length := by
  induction b with
  | nil => rfl
  | cons x b ih =>
    rw [bits_cons, List.length_append, ih]
    simp
    omega

theorem bits_zeros (n : Nat) : Spec.Blake.bits (List.replicate n 0) = List.replicate (8 * n) false := by
  induction n with
  | zero => rfl
  | succ n ih =>
    rw [List.replicate_succ, bits_cons, ih, show 8 * (n + 1) = 8 + 8 * n from by omega, List.replicate_add]
    rfl

theorem byte_bits (x : UInt8) :
    UInt8.ofNat (((List.range 8).map fun i => x.toNat.testBit (7 - i)).foldl (fun n b => 2 * n + (if b then 1 else 0)) 0) = x := by
  revert x
  apply Hex.u8_forall
  decide +kernel

theorem bits_inj : ∀ (a b : Bytes), Spec.Blake.bits a = Spec.Blake.bits b → a = b
  | [], [], _ => rfl
  | [], y :: b, h => by
    have := congrArg List.length h
    simp [bits_length] at this
  | x :: a, [], h => by
    have := congrArg List.length h
    simp [bits_length] at this
  | x :: a, y :: b, h => by
    rw [bits_cons, bits_cons] at h
    obtain ⟨h1, h2⟩ := List.append_inj h (by simp)
    rw [bits_inj a b h2, ← byte_bits x, h1, byte_bits]

theorem padded_unique {mark : Bool} {m p q : Bytes} (hp : Spec.Blake.IsPadded mark m p) (hq : Spec.Blake.IsPadded mark m q) : p = q := by
  obtain ⟨k, hk, ep, lp⟩ := hp
  obtain ⟨j, hj, eq, lq⟩ := hq
  have a := congrArg List.length ep
  have b := congrArg List.length eq
  simp only [bits_length, List.length_append, List.length_cons, List.length_replicate, beBytes_length] at a b
  have : k = j := by omega
  subst this
  exact bits_inj _ _ (ep.trans eq.symm)

theorem tail_padded (size : Nat) (m : Bytes) :
    Spec.Blake.IsPadded (decide (size ≠ 224)) m (m ++ (tail (markByte size) (m.length % 64) ++ beBytes 8 (8 * m.length))) := by
  have hb : Spec.Blake.bits [markByte size] = List.replicate 7 false ++ [decide (size ≠ 224)] := by
    unfold markByte
    by_cases h : size = 224
    · rw [if_pos h, decide_eq_false (by simpa using h)]
      decide
    · rw [if_neg h, decide_eq_true (by simpa using h)]
      decide
  have hc : Spec.Blake.bits [0x80 + markByte size] = true :: List.replicate 6 false ++ [decide (size ≠ 224)] := by
    unfold markByte
    by_cases h : size = 224
    · rw [if_pos h, decide_eq_false (by simpa using h)]
      decide
    · rw [if_neg h, decide_eq_true (by simpa using h)]
      decide
  have h80 : ∀ b, Spec.Blake.bits (0x80 :: b) = true :: List.replicate 7 false ++ Spec.Blake.bits b := fun b => by
    rw [bits_cons]
    rfl
  generalize decide (size ≠ 224) = mark at *
  generalize markByte size = mk at *
  rcases Nat.lt_trichotomy (m.length % 64) 55 with hl | hl | hl
  · refine ⟨7 + (8 * (54 - m.length % 64) + 7), by omega, ?_, ?_⟩
    · rw [tail, if_pos hl, bits_append, bits_append, List.cons_append, h80, bits_append, hb, bits_zeros, List.replicate_add, List.replicate_add]
      simp
    · rw [tail, if_pos hl]
      simp
      omega
  · refine ⟨6, by omega, ?_, ?_⟩
    · rw [tail, if_neg (by omega), if_pos hl, bits_append, bits_append, hc]
      simp
    · rw [tail, if_neg (by omega), if_pos hl]
      simp
      omega
  · have : m.length % 64 < 64 := by omega
    refine ⟨7 + (8 * (63 - m.length % 64) + (8 * 55 + 7)), by omega, ?_, ?_⟩
    · rw [tail, if_neg (by omega), if_neg (by omega), bits_append, bits_append, List.cons_append, h80, bits_append, bits_append, hb, bits_zeros,
        bits_zeros, List.replicate_add, List.replicate_add, List.replicate_add]
      simp only [List.append_assoc, List.cons_append, List.nil_append]
    · rw [tail, if_neg (by omega), if_neg (by omega)]
      simp
      omega

/-! ### Digests in use -/

theorem iv256_spec : Spec.Blake.IsIv256 iv256 := by unfold Spec.Blake.IsIv256; decide +kernel
theorem iv224_spec : Spec.Blake.IsIv224 iv224 := by unfold Spec.Blake.IsIv224; decide +kernel

/-- A fresh digest: the state after `New`, `New224`, one of the salted constructors, or `Reset`. -/
structure Fresh (d : Digest) (z : Nat) (salt : List UInt32) : Prop where
  size : d.hashSize = z
  salt : d.s = salt
  iv : d.h = if z = 224 then iv224 else iv256
  t : d.t = 0
  nullt : d.nullt = false
  nx : d.nx = 0
  buf : d.x.length = 64

/-- A fresh digest without its buffer. -/
def start (z : Nat) (salt : List UInt32) : Digest := ⟨z, if z = 224 then iv224 else iv256, salt, 0, false, [], 0⟩

theorem Fresh.absorbed {d : Digest} {z : Nat} {s : List UInt32} (h : Fresh d z s) : Absorbed d (start z s) [] := by
  unfold Absorbed
  rw [block_short _ _ (by simp)]
  obtain ⟨h1, h2, h3, h4, h5, h6, h7⟩ := h
  refine ⟨?_, h7, ?_, by simp, ?_⟩
  · rw [h1, h2, h3, h4, h5]; rfl
  · rw [h6]; rfl
  · rw [h6]; rfl

theorem block_static : ∀ (n : Nat) (c : Digest) (p : Bytes), p.length / 64 = n → (block c p).hashSize = c.hashSize ∧ (block c p).s = c.s
  | 0, c, p, h => by rw [block_short _ _ (by omega)]; exact ⟨rfl, rfl⟩
  | n + 1, c, p, h => by
    rw [block_step _ _ (by omega)]
    exact block_static n (compress c (p.take 64)) _ (by rw [List.length_drop]; omega)

theorem Absorbed.reset {d : Digest} {z : Nat} {s : List UInt32} {m : Bytes} (h : Absorbed d (start z s) m) : Fresh (reset d) z s := by
  obtain ⟨b1, b2⟩ := block_static _ (start z s) m rfl
  have hz : d.hashSize = z := (Rep.size h).trans b1
  have hs : d.s = s := (show d.s = _ by rw [← Rep.bare h]).trans b2
  exact ⟨hz, hs, by show (if d.hashSize = 224 then iv224 else iv256) = _; rw [hz], rfl, rfl, rfl, h.buf⟩

theorem fresh_new : Fresh new 256 [0, 0, 0, 0] := ⟨rfl, rfl, rfl, rfl, rfl, rfl, rfl⟩
theorem fresh_new224 : Fresh new224 224 [0, 0, 0, 0] := ⟨rfl, rfl, rfl, rfl, rfl, rfl, rfl⟩

theorem salt_words (salt : Bytes) (hs : salt.length = 16) :
    [word salt, word (salt.drop 4), word (salt.drop 8), word (salt.drop 12)] = Spec.Blake.saltWords salt := by
  unfold Spec.Blake.saltWords
  simp only [show List.range 4 = [0, 1, 2, 3] from rfl, List.map_cons, List.map_nil, Nat.mul_zero, List.drop_zero]
  rw [word_eq _ (by omega), word_eq _ (by rw [List.length_drop]; omega), word_eq _ (by rw [List.length_drop]; omega),
    word_eq _ (by rw [List.length_drop]; omega)]

theorem newSalt_iff (salt : Bytes) (d : Digest) : newSalt salt = .ok d → salt.length = 16 ∧ Fresh d 256 (Spec.Blake.saltWords salt) := by
  unfold newSalt setSalt
  intro h
  by_cases hl : salt.length = 16
  · rw [if_neg (by simpa using hl)] at h
    cases h
    exact ⟨hl, rfl, salt_words salt hl, rfl, rfl, rfl, rfl, rfl⟩
  · rw [if_pos hl] at h
    cases h

theorem new224Salt_iff (salt : Bytes) (d : Digest) : new224Salt salt = .ok d → salt.length = 16 ∧ Fresh d 224 (Spec.Blake.saltWords salt) := by
  unfold new224Salt setSalt
  intro h
  by_cases hl : salt.length = 16
  · rw [if_neg (by simpa using hl)] at h
    cases h
    exact ⟨hl, rfl, salt_words salt hl, rfl, rfl, rfl, rfl, rfl⟩
  · rw [if_pos hl] at h
    cases h

theorem sum_absorbed {d : Digest} {z : Nat} {s : List UInt32} {m : Bytes} (h : Absorbed d (start z s) m) (inp : Bytes) (hm : 8 * m.length < 2 ^ 64) :
    sum d inp = inp ++ ((Spec.Blake.chain (if z = 224 then iv224 else iv256) s m.length
      (m ++ (tail (markByte z) (m.length % 64) ++ beBytes 8 (8 * m.length)))).take (z / 32)).flatMap fun w => beBytes 4 w.toNat := by
  obtain ⟨f1, f2⟩ := finish_spec rfl rfl (by show (if z = 224 then iv224 else iv256).length = 8; split <;> rfl) hm h
  simp only [start] at f1 f2
  unfold sum
  simp only
  rw [f1, f2, Nat.shiftRight_eq_div_pow]
  congr 2
  funext w
  exact word_bytes w

theorem chain_length (iv s : List UInt32) (len : Nat) (p : Bytes) (hp : 64 ≤ p.length) : (Spec.Blake.chain iv s len p).length = 8 := by
  obtain ⟨n, hn⟩ : ∃ n, p.length / 64 = n + 1 := ⟨p.length / 64 - 1, by omega⟩
  rw [Spec.Blake.chain, hn, List.range_succ, List.foldl_append]
  exact spec_compress_length _ _ _ _

theorem tail_length (mk : UInt8) (n : Nat) (hn : n < 64) : 56 ≤ n + (tail mk n).length := by
  unfold tail
  split
  · simp; omega
  · split
    · simp; omega
    · simp; omega

theorem words_length (l : List UInt32) : (l.flatMap fun w => beBytes 4 w.toNat).length = 4 * l.length := by
  induction l with
  | nil => rfl
  | cons x l ih => rw [List.flatMap_cons, List.length_append, ih, beBytes_length, List.length_cons]; omega

theorem padded_length (mk : UInt8) (m : Bytes) : 64 ≤ (m ++ (tail mk (m.length % 64) ++ beBytes 8 (8 * m.length))).length := by
  have := tail_length mk (m.length % 64) (by omega)
  rw [List.length_append, List.length_append, beBytes_length]
  omega

theorem absorbed256 {d : Digest} {s : List UInt32} {m : Bytes} (h : Absorbed d (start 256 s) m) (hm : 8 * m.length < 2 ^ 64) :
    ∃ out, out.length = 32 ∧ Spec.Blake.IsBlake256 s m out ∧ ∀ inp, sum d inp = inp ++ out := by
  have l := chain_length iv256 s m.length _ (padded_length (markByte 256) m)
  refine ⟨_, ?_, ⟨iv256, _, iv256_spec, tail_padded 256 m, rfl⟩, fun inp => ?_⟩
  · rw [words_length, l]
  · rw [sum_absorbed h inp hm, show 256 / 32 = 8 from rfl]
    rw [if_neg (by decide), List.take_of_length_le (le_of_eq l)]

theorem absorbed224 {d : Digest} {s : List UInt32} {m : Bytes} (h : Absorbed d (start 224 s) m) (hm : 8 * m.length < 2 ^ 64) :
    ∃ out, out.length = 28 ∧ Spec.Blake.IsBlake224 s m out ∧ ∀ inp, sum d inp = inp ++ out := by
  have l := chain_length iv224 s m.length _ (padded_length (markByte 224) m)
  refine ⟨_, ?_, ⟨iv224, _, iv224_spec, tail_padded 224 m, rfl⟩, fun inp => ?_⟩
  · rw [words_length, List.length_take, l]; rfl
  · rw [sum_absorbed h inp hm, show 224 / 32 = 7 from rfl, if_pos rfl]

theorem iv_unique {p : List UInt32 → Prop} {l : List Nat} (hp : ∀ iv, p iv → iv.map (·.toNat) = l) {a b : List UInt32} (ha : p a) (hb : p b) : a = b :=
  List.map_injective_iff.mpr (fun x y (h : UInt32.toNat x = UInt32.toNat y) => UInt32.toNat_inj.mp h) ((hp a ha).trans (hp b hb).symm)

end Verif.Blake
