import Verif.Model.Base

/-! Independent specification of BLAKE-256 and BLAKE-224, after the submission "SHA-3 proposal BLAKE" (version 1.3, sections 2.1 and 2.2). -/

namespace Verif.Spec.Blake
open Verif

/-- The permutations of section 2.1.1. -/
def sigma : List (List Nat) := [
  [0, 1, 2, 3, 4, 5, 6, 7, 8, 9, 10, 11, 12, 13, 14, 15],
  [14, 10, 4, 8, 9, 15, 13, 6, 1, 12, 0, 2, 11, 7, 5, 3],
  [11, 8, 12, 0, 5, 2, 15, 13, 10, 14, 3, 6, 7, 1, 9, 4],
  [7, 9, 3, 1, 13, 12, 11, 14, 2, 6, 5, 10, 4, 0, 15, 8],
  [9, 0, 5, 7, 2, 4, 10, 15, 14, 1, 11, 12, 6, 8, 3, 13],
  [2, 12, 6, 10, 0, 11, 8, 3, 4, 13, 7, 5, 15, 14, 1, 9],
  [12, 5, 1, 15, 14, 13, 4, 10, 0, 7, 6, 3, 9, 2, 8, 11],
  [13, 11, 7, 14, 12, 1, 3, 9, 5, 0, 15, 4, 8, 6, 2, 10],
  [6, 15, 14, 9, 11, 3, 0, 8, 12, 2, 13, 7, 1, 4, 10, 5],
  [10, 2, 8, 4, 7, 6, 1, 5, 15, 11, 9, 14, 3, 12, 13, 0]]

/-- The constants of section 2.1.1: leading digits of pi. -/
def pi : List UInt32 := [
  0x243F6A88, 0x85A308D3, 0x13198A2E, 0x03707344, 0xA4093822, 0x299F31D0, 0x082EFA98, 0xEC4E6C89,
  0x452821E6, 0x38D01377, 0xBE5466CF, 0x34E90C6C, 0xC0AC29B7, 0xC97C50DD, 0x3F84D5B5, 0xB5470917]

/-- The initial value of BLAKE-256 is the one of SHA-256: the first 32 bits of the fractional parts of the square roots of the first eight
primes. -/
def IsIv256 (iv : List UInt32) : Prop :=
  iv.map (·.toNat) = [2, 3, 5, 7, 11, 13, 17, 19].map fun p => Nat.sqrt (p * 2 ^ 64) % 2 ^ 32

/-- The initial value of BLAKE-224 is the one of SHA-224: the second 32 bits of the fractional parts of the square roots of the ninth to
sixteenth prime. -/
def IsIv224 (iv : List UInt32) : Prop :=
  iv.map (·.toNat) = [23, 29, 31, 37, 41, 43, 47, 53].map fun p => Nat.sqrt (p * 2 ^ 128) % 2 ^ 32

/-- Rotation by `n` places towards the less significant bits. -/
def rotr (x : UInt32) (n : Nat) : UInt32 := ⟨x.toBitVec.rotateRight n⟩

/-- The function `G` number `i` of round `r` on the words `a b c d` of the state. -/
def g (m : Nat → UInt32) (r i : Nat) (a b c d : UInt32) : UInt32 × UInt32 × UInt32 × UInt32 :=
  let s := fun k => (sigma.getD (r % 10) []).getD k 0
  let k := fun n => pi.getD n 0
  let a := a + b + (m (s (2 * i)) ^^^ k (s (2 * i + 1)))
  let d := rotr (d ^^^ a) 16
  let c := c + d
  let b := rotr (b ^^^ c) 12
  let a := a + b + (m (s (2 * i + 1)) ^^^ k (s (2 * i)))
  let d := rotr (d ^^^ a) 8
  let c := c + d
  let b := rotr (b ^^^ c) 7
  (a, b, c, d)

/-- `G` applied to four places of the state of sixteen words. -/
def gAt (m : Nat → UInt32) (r i a b c d : Nat) (v : List UInt32) : List UInt32 :=
  let (x, y, z, w) := g m r i (v.getD a 0) (v.getD b 0) (v.getD c 0) (v.getD d 0)
  (((v.set a x).set b y).set c z).set d w

/-- A round: `G` on the columns, then on the diagonals. -/
def round (m : Nat → UInt32) (v : List UInt32) (r : Nat) : List UInt32 :=
  let v := gAt m r 0 0 4 8 12 v
  let v := gAt m r 1 1 5 9 13 v
  let v := gAt m r 2 2 6 10 14 v
  let v := gAt m r 3 3 7 11 15 v
  let v := gAt m r 4 0 5 10 15 v
  let v := gAt m r 5 1 6 11 12 v
  let v := gAt m r 6 2 7 8 13 v
  gAt m r 7 3 4 9 14 v

/-- The compression function: chain value `h` of eight words, salt `s` of four words, counter `t`, block of 64 bytes. -/
def compress (h s : List UInt32) (t : Nat) (block : Bytes) : List UInt32 :=
  let m := fun i => UInt32.ofNat (beNat ((block.drop (4 * i)).take 4))
  let k := fun n => pi.getD n 0
  let t0 := UInt32.ofNat (t % 2 ^ 32)
  let t1 := UInt32.ofNat (t / 2 ^ 32)
  let v := h ++ [s.getD 0 0 ^^^ k 0, s.getD 1 0 ^^^ k 1, s.getD 2 0 ^^^ k 2, s.getD 3 0 ^^^ k 3, t0 ^^^ k 4, t0 ^^^ k 5, t1 ^^^ k 6, t1 ^^^ k 7]
  let v := (List.range 14).foldl (round m) v
  (List.range 8).map fun i => h.getD i 0 ^^^ s.getD (i % 4) 0 ^^^ v.getD i 0 ^^^ v.getD (i + 8) 0

/-- The counter of block `i` of a message of `len` bytes: message bits up to and including the block, zero for a block without message bits. -/
def counter (len i : Nat) : Nat := if 64 * i < len then min (8 * len) (512 * (i + 1)) else 0

/-- The chain value after all blocks of the padded message. -/
def chain (iv s : List UInt32) (len : Nat) (padded : Bytes) : List UInt32 :=
  (List.range (padded.length / 64)).foldl (fun h i => compress h s (counter len i) ((padded.drop (64 * i)).take 64)) iv

/-- The bits of a byte sequence, most significant first. -/
def bits (b : Bytes) : List Bool := b.flatMap fun x => (List.range 8).map fun i => x.toNat.testBit (7 - i)

/-- Padding: a bit 1, the least number of zero bits, one more bit (1 for BLAKE-256 and 0 for BLAKE-224), the bit length of the message in 64
bits; the result has a multiple of 512 bits. -/
def IsPadded (mark : Bool) (m padded : Bytes) : Prop :=
  ∃ k < 512, bits padded = bits m ++ true :: List.replicate k false ++ mark :: bits (beBytes 8 (8 * m.length)) ∧ padded.length % 64 = 0

/-- BLAKE-256 with salt. -/
def IsBlake256 (salt : List UInt32) (m out : Bytes) : Prop :=
  ∃ iv padded, IsIv256 iv ∧ IsPadded true m padded ∧ out = (chain iv salt m.length padded).flatMap fun w => beBytes 4 w.toNat

/-- BLAKE-224 with salt: the first seven words. -/
def IsBlake224 (salt : List UInt32) (m out : Bytes) : Prop :=
  ∃ iv padded, IsIv224 iv ∧ IsPadded false m padded ∧ out = ((chain iv salt m.length padded).take 7).flatMap fun w => beBytes 4 w.toNat

/-- The words of a 16-byte salt. -/
def saltWords (s : Bytes) : List UInt32 := (List.range 4).map fun i => UInt32.ofNat (beNat ((s.drop (4 * i)).take 4))

end Verif.Spec.Blake
