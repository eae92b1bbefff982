import Verif.Lemmas.Blake
import Verif.Lemmas.Base
import Verif.Lemmas.Hex

/-! Lemmas about the model of `blake256`: blocks, streaming, padding. -/

namespace Verif.Blake
open Verif

theorem message_eq (p : Bytes) (h : p.length = 64) (i : Nat) : word (p.drop (4 * i)) = UInt32.ofNat (beNat ((p.drop (4 * i)).take 4)) := by
  by_cases hi : i < 16
  · exact word_eq _ (by rw [List.length_drop]; omega)
  · rw [List.drop_eq_nil_of_le (by omega)]
    decide

theorem lo_eq (t : UInt64) : t.toUInt32 = UInt32.ofNat (t.toNat % 2 ^ 32) := by
  apply UInt32.toNat_inj.mp
  simp

theorem hi_eq (t : UInt64) : (t >>> 32).toUInt32 = UInt32.ofNat (t.toNat / 2 ^ 32) := by
  apply UInt32.toNat_inj.mp
  simp [Nat.shiftRight_eq_div_pow]

/-- One block is one application of the compression function. -/
theorem compress_eq (d : Digest) (p : Bytes) (hp : p.length = 64) (hh : d.h.length = 8) :
    compress d p = { d with t := d.t + 512, h := Spec.Blake.compress d.h d.s (if d.nullt then 0 else (d.t + 512).toNat) p } := by
  obtain ⟨hs, h, s, t, nullt, x, nx⟩ := d
  simp only at hh
  match h, hh with
  | [h0, h1, h2, h3, h4, h5, h6, h7], _ =>
    unfold compress Spec.Blake.compress
    simp only [message_eq p hp]
    have lo : (if nullt = true then (0 : UInt32) else (t + 512).toUInt32) = UInt32.ofNat ((if nullt = true then 0 else (t + 512).toNat) % 2 ^ 32) := by
      split
      · rfl
      · exact lo_eq _
    have hi : (if nullt = true then (0 : UInt32) else ((t + 512) >>> 32).toUInt32) = UInt32.ofNat ((if nullt = true then 0 else (t + 512).toNat) / 2 ^ 32) := by
      split
      · rfl
      · exact hi_eq _
    rw [lo, hi, rounds_spec _ _ rfl]
    simp only [List.getD_cons_zero, List.getD_cons_succ, List.cons_append, List.nil_append, show Spec.Blake.pi = cst from rfl]
    have c : ∀ i, cst.getD i 0 ^^^ s.getD i 0 = s.getD i 0 ^^^ cst.getD i 0 := fun i => UInt32.xor_comm _ _
    have c' : ∀ i x, cst.getD i 0 ^^^ UInt32.ofNat x = UInt32.ofNat x ^^^ cst.getD i 0 := fun i x => UInt32.xor_comm _ _
    simp only [c, c']
    generalize List.foldl _ _ _ = v
    have e : ∀ a b c d : UInt32, a ^^^ (b ^^^ c ^^^ d) = a ^^^ d ^^^ b ^^^ c := by
      intro a b c d
      rw [UInt32.xor_comm _ d, ← UInt32.xor_assoc, ← UInt32.xor_assoc]
    simp only [e]
    rfl

theorem compress_length (h s : List UInt32) (t : Nat) (p : Bytes) : (Spec.Blake.compress h s t p).length = 8 := by
  simp [Spec.Blake.compress]

theorem block_short (d : Digest) (p : Bytes) (h : p.length < 64) : block d p = d := by
  rw [block, if_pos h]

theorem block_step (d : Digest) (p : Bytes) (h : ¬p.length < 64) : block d p = block (compress d (p.take 64)) (p.drop 64) := by
  rw [block, if_neg h]

theorem block_append : ∀ (n : Nat) (d : Digest) (p q : Bytes), p.length = 64 * n → block d (p ++ q) = block (block d p) q
  | 0, d, p, q, h => by
    have : p = [] := List.length_eq_zero_iff.mp (by omega)
    subst this
    rw [List.nil_append, block_short d [] (by simp)]
  | n + 1, d, p, q, h => by
    have l : ¬p.length < 64 := by omega
    have l' : ¬(p ++ q).length < 64 := by rw [List.length_append]; omega
    rw [block_step _ _ l', block_step _ _ l, List.take_append_of_le_length (by omega), List.drop_append_of_le_length (by omega)]
    exact block_append n _ _ q (by rw [List.length_drop]; omega)

/-- Only the full blocks count. -/
theorem block_take (d : Digest) (p : Bytes) : block d (p.take (p.length / 64 * 64)) = block d p := by
  have h := block_append (p.length / 64) d (p.take (p.length / 64 * 64)) (p.drop (p.length / 64 * 64)) (by rw [List.length_take]; omega)
  rw [List.take_append_drop] at h
  rw [h, block_short _ (p.drop _) (by rw [List.length_drop]; omega)]

theorem block_one (d : Digest) (p : Bytes) (h : p.length = 64) : block d p = compress d p := by
  rw [block_step _ _ (by omega), List.take_of_length_le (by omega), block_short _ _ (by rw [List.length_drop]; omega)]

/-- `block` does not look at the buffer. -/
theorem block_bare : ∀ (n : Nat) (d : Digest) (p : Bytes) (x : Bytes) (k : Nat), p.length / 64 = n →
    block { d with x := x, nx := k } p = { block d p with x := x, nx := k }
  | 0, d, p, x, k, h => by rw [block_short _ _ (by omega), block_short _ _ (by omega)]
  | n + 1, d, p, x, k, h => by
    rw [block_step _ _ (by omega), block_step d _ (by omega)]
    exact block_bare n (compress d (p.take 64)) _ x k (by rw [List.length_drop]; omega)

/-- The digest `d` has the chain value and counters of `c` and the bytes `pend` in its buffer. -/
structure Rep (d c : Digest) (pend : Bytes) : Prop where
  bare : ({ d with x := [], nx := 0 } : Digest) = c
  buf : d.x.length = 64
  nx : d.nx = pend.length
  short : pend.length < 64
  pend : d.x.take d.nx = pend

theorem Rep.mk' {hs h s t nl} {x pend : Bytes} {n : Nat} (h1 : x.length = 64) (h2 : n = pend.length) (h3 : pend.length < 64) (h4 : x.take n = pend) :
    Rep ⟨hs, h, s, t, nl, x, n⟩ ⟨hs, h, s, t, nl, [], 0⟩ pend := ⟨rfl, h1, h2, h3, h4⟩

theorem fill_length (x : Bytes) (nx : Nat) (p : Bytes) (hx : x.length = 64) (hn : nx ≤ 64) : (fill x nx p).length = 64 := by
  simp only [fill, List.length_append, List.length_take, List.length_drop]
  omega

theorem fill_take (x : Bytes) (nx : Nat) (p : Bytes) (hx : x.length = 64) (hn : nx ≤ 64) :
    (fill x nx p).take (nx + min p.length (64 - nx)) = x.take nx ++ p.take (64 - nx) := by
  unfold fill
  apply List.take_left'
  simp only [List.length_append, List.length_take]
  omega

/-- `Write` with an empty buffer. -/
theorem write_empty (d c : Digest) (p : Bytes) (h : Rep d c []) :
    Rep (let (d, p) := writeBlocks d p
      if p.length > 0 then { d with x := fill d.x 0 p, nx := min p.length 64 } else d) (block c p) (p.drop (p.length / 64 * 64)) := by
  obtain ⟨h1, h2, h3, _, h5⟩ := h
  subst h1
  have hlen : (p.drop (p.length / 64 * 64)).length < 64 := by rw [List.length_drop]; omega
  obtain ⟨hs, hh, s, t, nl, x, nx⟩ := d
  simp only at h2 h3 h5 ⊢
  simp only [List.length_nil] at h3
  subst h3
  unfold writeBlocks
  split
  · rename_i hge
    simp only
    rw [block_take]
    have e : block ⟨hs, hh, s, t, nl, x, 0⟩ p = { block ⟨hs, hh, s, t, nl, [], 0⟩ p with x := x, nx := 0 } :=
      block_bare (p.length / 64) ⟨hs, hh, s, t, nl, [], 0⟩ p x 0 rfl
    rw [e]
    have nn : (block ⟨hs, hh, s, t, nl, [], 0⟩ p) = { block ⟨hs, hh, s, t, nl, [], 0⟩ p with x := [], nx := 0 } := by
      rw [← block_bare (p.length / 64) _ _ _ _ rfl]
    rw [nn]
    generalize block ⟨hs, hh, s, t, nl, [], 0⟩ p = c
    generalize hr : p.drop (p.length / 64 * 64) = r at *
    split
    · refine ⟨rfl, fill_length _ _ _ h2 (by omega), by simp only; omega, hlen, ?_⟩
      have := fill_take x 0 r h2 (by omega)
      simp only [Nat.zero_add, Nat.sub_zero, List.take_zero, List.nil_append] at this
      simp only
      rw [this, List.take_of_length_le (by omega)]
    · have : r = [] := List.length_eq_zero_iff.mp (by omega)
      subst this
      exact ⟨rfl, h2, rfl, by simp, rfl⟩
  · rename_i hlt
    have z : p.length / 64 * 64 = 0 := by omega
    simp only [z, List.drop_zero]
    rw [block_short _ _ (by omega)]
    split
    · refine ⟨rfl, fill_length _ _ _ h2 (by omega), by simp only; omega, by omega, ?_⟩
      have := fill_take x 0 p h2 (by omega)
      simp only [Nat.zero_add, Nat.sub_zero, List.take_zero, List.nil_append] at this
      simp only
      rw [this, List.take_of_length_le (by omega)]
    · have : p = [] := List.length_eq_zero_iff.mp (by omega)
      subst this
      exact ⟨rfl, h2, rfl, by simp, rfl⟩

/-- `Write` appends the data to the bytes in the buffer, compresses the full blocks and keeps the rest. -/
theorem write_rep (d c : Digest) (pend p : Bytes) (h : Rep d c pend) :
    Rep (write d p) (block c (pend ++ p)) ((pend ++ p).drop ((pend ++ p).length / 64 * 64)) := by
  unfold write writeBuffer
  obtain ⟨h1, h2, h3, h4, h5⟩ := h
  by_cases hn : d.nx > 0
  · rw [if_pos hn]
    simp only
    by_cases hfull : d.nx + min p.length (64 - d.nx) = 64
    · rw [if_pos hfull]
      have hpl : 64 - d.nx ≤ p.length := by omega
      have hnn : (if p.length > 64 - d.nx then 64 - d.nx else p.length) = 64 - d.nx := by split <;> omega
      rw [hnn]
      have hx : fill d.x d.nx p = pend ++ p.take (64 - d.nx) := by
        have := fill_take d.x d.nx p h2 (by omega)
        rw [hfull, List.take_of_length_le (by rw [fill_length _ _ _ h2 (by omega)]), h5] at this
        exact this
      have hb : (pend ++ p.take (64 - d.nx)).length = 64 := by rw [List.length_append, List.length_take]; omega
      have hsplit : pend ++ p = (pend ++ p.take (64 - d.nx)) ++ p.drop (64 - d.nx) := by rw [List.append_assoc, List.take_append_drop]
      have hdrop : (pend ++ p).drop ((pend ++ p).length / 64 * 64) =
          (p.drop (64 - d.nx)).drop ((p.drop (64 - d.nx)).length / 64 * 64) := by
        have hl : (pend ++ p).length / 64 * 64 = 64 + (p.drop (64 - d.nx)).length / 64 * 64 := by
          rw [List.length_append, List.length_drop]; omega
        rw [hl, ← List.drop_drop, hsplit, List.drop_left' hb]
      rw [hdrop, hsplit, block_append 1 _ _ _ (by omega)]
      apply write_empty
      subst h1
      obtain ⟨hs, hh, s, t, nl, x, nx⟩ := d
      simp only at *
      rw [hx]
      have e := block_bare 1 ⟨hs, hh, s, t, nl, [], 0⟩ (pend ++ p.take (64 - nx)) (pend ++ p.take (64 - nx)) (nx + min p.length (64 - nx)) (by omega)
      simp only at e
      rw [e]
      have nn : (block ⟨hs, hh, s, t, nl, [], 0⟩ (pend ++ p.take (64 - nx))) =
          { block ⟨hs, hh, s, t, nl, [], 0⟩ (pend ++ p.take (64 - nx)) with x := [], nx := 0 } := by
        rw [← block_bare 1 _ _ _ _ (by omega)]
      refine ⟨?_, hb, rfl, by simp, rfl⟩
      exact nn.symm
    · rw [if_neg hfull]
      have hlt : p.length < 64 - d.nx := by omega
      have hnn : (if p.length > 64 - d.nx then 64 - d.nx else p.length) = p.length := by split <;> omega
      rw [hnn, List.drop_length]
      have hl : (pend ++ p).length < 64 := by rw [List.length_append]; omega
      unfold writeBlocks
      rw [block_short _ _ hl, show (pend ++ p).length / 64 * 64 = 0 from by omega, List.drop_zero, if_neg (by simp)]
      simp only
      rw [if_neg (by simp)]
      refine ⟨h1, fill_length _ _ _ h2 (by omega), by show d.nx + min p.length (64 - d.nx) = _; rw [List.length_append]; omega, hl, ?_⟩
      simp only
      rw [fill_take _ _ _ h2 (by omega), h5, List.take_of_length_le (by omega)]
  · rw [if_neg hn]
    have : pend = [] := List.length_eq_zero_iff.mp (by omega)
    subst this
    exact write_empty d c p ⟨h1, h2, h3, h4, h5⟩

theorem write_short {d c : Digest} {pend p : Bytes} (h : Rep d c pend) (hl : (pend ++ p).length < 64) : Rep (write d p) c (pend ++ p) := by
  have := write_rep d c pend p h
  rwa [block_short _ _ hl, show (pend ++ p).length / 64 * 64 = 0 from by omega, List.drop_zero] at this

theorem write_full {d c : Digest} {pend p : Bytes} (h : Rep d c pend) (hl : (pend ++ p).length = 64) :
    Rep (write d p) (compress c (pend ++ p)) [] := by
  have := write_rep d c pend p h
  rwa [block_one _ _ hl, hl, show 64 / 64 * 64 = 64 from rfl, List.drop_eq_nil_of_le (by omega)] at this

theorem Rep.setT {d c : Digest} {pend : Bytes} (h : Rep d c pend) (a : UInt64) : Rep { d with t := a } { c with t := a } pend := by
  obtain ⟨h1, h2, h3, h4, h5⟩ := h
  subst h1
  exact ⟨rfl, h2, h3, h4, h5⟩

theorem Rep.setNull {d c : Digest} {pend : Bytes} (h : Rep d c pend) (a : Bool) : Rep { d with nullt := a } { c with nullt := a } pend := by
  obtain ⟨h1, h2, h3, h4, h5⟩ := h
  subst h1
  exact ⟨rfl, h2, h3, h4, h5⟩

theorem Rep.t {d c : Digest} {pend : Bytes} (h : Rep d c pend) : d.t = c.t := by rw [← h.bare]
theorem Rep.size {d c : Digest} {pend : Bytes} (h : Rep d c pend) : d.hashSize = c.hashSize := by rw [← h.bare]
theorem Rep.h {d c : Digest} {pend : Bytes} (h : Rep d c pend) : d.h = c.h := by rw [← h.bare]

/-- The length field of `Sum`. -/
def lenField (l : UInt64) : Bytes := [shr64 l 56, shr64 l 48, shr64 l 40, shr64 l 32, shr64 l 24, shr64 l 16, shr64 l 8, shr64 l 0]

/-- The byte with the last bit of the padding. -/
def markByte (size : Nat) : UInt8 := if size = 224 then 0x00 else 0x01

theorem Rep.subT {d c : Digest} {pend : Bytes} (h : Rep d c pend) (a : UInt64) : Rep { d with t := d.t - a } { c with t := c.t - a } pend := by
  rw [h.t]
  exact h.setT _

theorem compress_size (d : Digest) (p : Bytes) : (compress d p).hashSize = d.hashSize := rfl

theorem mark_of {d c : Digest} {pend : Bytes} (h : Rep d c pend) : (if d.hashSize = 224 then (0 : UInt8) else 1) = markByte c.hashSize := by
  rw [h.size]
  rfl

attribute [local irreducible] write compress in
/-- `Sum` with less than 55 bytes in the buffer. -/
theorem finish_lt {d c : Digest} {pend : Bytes} (h : Rep d c pend) (hn : pend.length < 55) :
    Rep (finish d) (compress { c with t := c.t - ((440 : UInt64) - (UInt64.ofNat pend.length <<< 3)) - 8 - 64, nullt := c.nullt || decide (pend.length = 0) }
      (pend ++ (0x80 :: List.replicate (54 - pend.length) 0 : Bytes) ++ [markByte c.hashSize] ++
        lenField (c.t + (UInt64.ofNat pend.length <<< 3)))) [] := by
  have hnx := h.nx
  have ht := h.t
  have hp : pad.take (55 - pend.length) = 0x80 :: List.replicate (54 - pend.length) 0 := by
    obtain ⟨k, hk⟩ : ∃ k, 55 - pend.length = k + 1 := ⟨54 - pend.length, by omega⟩
    rw [hk, pad, List.take_succ_cons, List.take_replicate, show min k 63 = 54 - pend.length from by omega]
  have r0 : Rep (if d.nx = 0 then { d with nullt := true } else d) { c with nullt := c.nullt || decide (pend.length = 0) } pend := by
    rw [hnx]
    split
    · rename_i h0
      have := h.setNull true
      rw [hnx] at this
      simpa [h0] using this
    · rename_i h0
      simpa [h0] using h
  have r1 := r0.subT ((440 : UInt64) - (UInt64.ofNat pend.length <<< 3))
  have r2 := write_short (p := 0x80 :: List.replicate (54 - pend.length) 0) r1 (by simp; omega)
  have r3 := write_short (p := [markByte c.hashSize]) r2 (by simp; omega)
  have r4 := (r3.subT 8).subT 64
  have r5 := write_full (p := lenField (c.t + (UInt64.ofNat pend.length <<< 3))) r4 (by simp [lenField]; omega)
  refine Eq.subst (motive := fun z => Rep z _ []) (?_ : _ = finish d) r5
  · symm
    unfold finish
    simp only
    rw [if_neg (by omega), if_pos (by omega)]
    have n0 := r0.nx
    have z2 := r2.size
    generalize (if d.nx = 0 then ({ d with nullt := true } : Digest) else d) = d0 at *
    rw [show pad.take (55 - d0.nx) = 0x80 :: List.replicate (54 - pend.length) 0 from by rw [n0, hp], hnx]
    generalize write _ (128 :: List.replicate (54 - pend.length) 0) = d2 at *
    rw [z2, ht]
    rfl

/-- `Sum` with 55 bytes in the buffer. -/
theorem finish_eq {d c : Digest} {pend : Bytes} (h : Rep d c pend) (hn : pend.length = 55) :
    Rep (finish d) (compress { c with t := c.t - 8 - 64 }
      (pend ++ [0x80 + markByte c.hashSize] ++ lenField (c.t + (UInt64.ofNat pend.length <<< 3)))) [] := by
  have hnx := h.nx
  have ht := h.t
  have hz := h.size
  have r1 := h.subT 8
  have r2 := write_short (p := [0x80 + markByte c.hashSize]) r1 (by simp; omega)
  have r3 := r2.subT 64
  have r4 := write_full (p := lenField (c.t + (UInt64.ofNat pend.length <<< 3))) r3 (by simp [lenField]; omega)
  refine Eq.subst (motive := fun z => Rep z _ []) (?_ : _ = finish d) r4
  · symm
    unfold finish
    simp only
    rw [if_pos (by omega)]
    have e : (if d.hashSize = 224 then (0x80 : UInt8) else 0x81) = 0x80 + markByte c.hashSize := by
      rw [hz]
      unfold markByte
      split <;> rfl
    rw [e]
    generalize write _ [0x80 + markByte c.hashSize] = d2 at *
    rw [ht, hnx]
    rfl

attribute [local irreducible] write compress in
/-- `Sum` with more than 55 bytes in the buffer. -/
theorem finish_gt {d c : Digest} {pend : Bytes} (h : Rep d c pend) (hn : 55 < pend.length) :
    Rep (finish d) (compress { compress { c with t := c.t - ((512 : UInt64) - (UInt64.ofNat pend.length <<< 3)) }
        (pend ++ (0x80 :: List.replicate (63 - pend.length) 0 : Bytes)) with
        t := (compress { c with t := c.t - ((512 : UInt64) - (UInt64.ofNat pend.length <<< 3)) }
          (pend ++ (0x80 :: List.replicate (63 - pend.length) 0 : Bytes))).t - 440 - 8 - 64
        nullt := true }
      ((List.replicate 55 0 : Bytes) ++ [markByte c.hashSize] ++ lenField (c.t + (UInt64.ofNat pend.length <<< 3)))) [] := by
  have hs := h.short
  rw [← h.nx] at hs hn ⊢
  have hl := h.nx
  have hp : pad.take (64 - d.nx) = 0x80 :: List.replicate (63 - d.nx) 0 := by
    obtain ⟨k, hk⟩ : ∃ k, 64 - d.nx = k + 1 := ⟨63 - d.nx, by omega⟩
    rw [hk, pad, List.take_succ_cons, List.take_replicate, show min k 63 = 63 - d.nx from by omega]
  have hp2 : (pad.take 56).drop 1 = List.replicate 55 0 := by decide
  rw [← h.t]
  have r1 := h.setT (d.t - ((512 : UInt64) - (UInt64.ofNat d.nx <<< 3)))
  have r2 := write_full (p := 0x80 :: List.replicate (63 - d.nx) 0) r1 (by simp; omega)
  have r3 := r2.subT 440
  have r4 := write_short (p := List.replicate 55 0) r3 (by simp)
  have m4 := mark_of r4
  have r5 := r4.setNull true
  have r6 := write_short (p := [markByte c.hashSize]) r5 (by simp)
  have r7 := (r6.subT 8).subT 64
  have r8 := write_full (p := lenField (d.t + (UInt64.ofNat d.nx <<< 3))) r7 (by simp [lenField])
  refine Eq.subst (motive := fun z => Rep z _ []) (?_ : _ = finish d) r8
  symm
  unfold finish
  simp only
  rw [if_neg (by omega), if_neg (by omega), hp2, hp]
  simp only [compress_size] at m4
  rw [m4]
  rfl

end Verif.Blake
