import Verif.Model.Base

/-! `addressEncoder/blake256`: BLAKE-256 and BLAKE-224, with the streaming interface of Go's `hash.Hash`. -/

namespace Verif.Blake

/-- The constants `cst0` … `cst15` [blake256block.go:14-31]. -/
def cst : List UInt32 := [0x243F6A88, 0x85A308D3, 0x13198A2E, 0x03707344, 0xA4093822, 0x299F31D0, 0x082EFA98, 0xEC4E6C89,
  0x452821E6, 0x38D01377, 0xBE5466CF, 0x34E90C6C, 0xC0AC29B7, 0xC97C50DD, 0x3F84D5B5, 0xB5470917]

/-- `iv256` [blake256.go:35-37]. -/
def iv256 : List UInt32 := [0x6A09E667, 0xBB67AE85, 0x3C6EF372, 0xA54FF53A, 0x510E527F, 0x9B05688C, 0x1F83D9AB, 0x5BE0CD19]

/-- `iv224` [blake256.go:39-41]. -/
def iv224 : List UInt32 := [0xC1059ED8, 0x367CD507, 0x3070DD17, 0xF70E5939, 0xFFC00B31, 0x68581511, 0x64F98FA7, 0xBEFA4FA4]

/-- The type `digest` [blake256.go:23-31]; the arrays are lists: `h` of 8 words, `s` of 4 words, `x` of 64 bytes. -/
structure Digest where
  hashSize : Nat
  h : List UInt32
  s : List UInt32
  t : UInt64
  nullt : Bool
  x : Bytes
  nx : Nat

/-- Seven consecutive statements of a round,
`va += m[i] ^ cstj; va += vb; vd ^= va; vd = vd<<(32-r) | vd>>r; vc += vd; vb ^= vc; vb = vb<<(32-q) | vb>>q`. -/
structure Step where
  a : Nat
  b : Nat
  c : Nat
  d : Nat
  i : Nat
  j : Nat
  r : UInt32
  q : UInt32
deriving DecidableEq

/-- The seven statements of a step on the list of the local variables `v0` … `v15`. -/
def Step.run (m : Nat → UInt32) (v : List UInt32) (e : Step) : List UInt32 :=
  let v := v.set e.a (v.getD e.a 0 + (m e.i ^^^ cst.getD e.j 0))
  let v := v.set e.a (v.getD e.a 0 + v.getD e.b 0)
  let v := v.set e.d (v.getD e.d 0 ^^^ v.getD e.a 0)
  let v := v.set e.d (v.getD e.d 0 <<< (32 - e.r) ||| v.getD e.d 0 >>> e.r)
  let v := v.set e.c (v.getD e.c 0 + v.getD e.d 0)
  let v := v.set e.b (v.getD e.b 0 ^^^ v.getD e.c 0)
  v.set e.b (v.getD e.b 0 <<< (32 - e.q) ||| v.getD e.b 0 >>> e.q)

/-- Round 1 [blake256block.go:73-185], sixteen steps of seven lines in the order of the file. -/
def round1 : List Step := [
  ⟨0, 4, 8, 12, 0, 1, 16, 12⟩, ⟨1, 5, 9, 13, 2, 3, 16, 12⟩, ⟨2, 6, 10, 14, 4, 5, 16, 12⟩, ⟨3, 7, 11, 15, 6, 7, 16, 12⟩,
  ⟨2, 6, 10, 14, 5, 4, 8, 7⟩, ⟨3, 7, 11, 15, 7, 6, 8, 7⟩, ⟨1, 5, 9, 13, 3, 2, 8, 7⟩, ⟨0, 4, 8, 12, 1, 0, 8, 7⟩,
  ⟨0, 5, 10, 15, 8, 9, 16, 12⟩, ⟨1, 6, 11, 12, 10, 11, 16, 12⟩, ⟨2, 7, 8, 13, 12, 13, 16, 12⟩, ⟨3, 4, 9, 14, 14, 15, 16, 12⟩,
  ⟨2, 7, 8, 13, 13, 12, 8, 7⟩, ⟨3, 4, 9, 14, 15, 14, 8, 7⟩, ⟨1, 6, 11, 12, 11, 10, 8, 7⟩, ⟨0, 5, 10, 15, 9, 8, 8, 7⟩]

/-- Round 2 [blake256block.go:187-299], sixteen steps of seven lines in the order of the file. -/
def round2 : List Step := [
  ⟨0, 4, 8, 12, 14, 10, 16, 12⟩, ⟨1, 5, 9, 13, 4, 8, 16, 12⟩, ⟨2, 6, 10, 14, 9, 15, 16, 12⟩, ⟨3, 7, 11, 15, 13, 6, 16, 12⟩,
  ⟨2, 6, 10, 14, 15, 9, 8, 7⟩, ⟨3, 7, 11, 15, 6, 13, 8, 7⟩, ⟨1, 5, 9, 13, 8, 4, 8, 7⟩, ⟨0, 4, 8, 12, 10, 14, 8, 7⟩,
  ⟨0, 5, 10, 15, 1, 12, 16, 12⟩, ⟨1, 6, 11, 12, 0, 2, 16, 12⟩, ⟨2, 7, 8, 13, 11, 7, 16, 12⟩, ⟨3, 4, 9, 14, 5, 3, 16, 12⟩,
  ⟨2, 7, 8, 13, 7, 11, 8, 7⟩, ⟨3, 4, 9, 14, 3, 5, 8, 7⟩, ⟨1, 6, 11, 12, 2, 0, 8, 7⟩, ⟨0, 5, 10, 15, 12, 1, 8, 7⟩]

/-- Round 3 [blake256block.go:301-413], sixteen steps of seven lines in the order of the file. -/
def round3 : List Step := [
  ⟨0, 4, 8, 12, 11, 8, 16, 12⟩, ⟨1, 5, 9, 13, 12, 0, 16, 12⟩, ⟨2, 6, 10, 14, 5, 2, 16, 12⟩, ⟨3, 7, 11, 15, 15, 13, 16, 12⟩,
  ⟨2, 6, 10, 14, 2, 5, 8, 7⟩, ⟨3, 7, 11, 15, 13, 15, 8, 7⟩, ⟨1, 5, 9, 13, 0, 12, 8, 7⟩, ⟨0, 4, 8, 12, 8, 11, 8, 7⟩,
  ⟨0, 5, 10, 15, 10, 14, 16, 12⟩, ⟨1, 6, 11, 12, 3, 6, 16, 12⟩, ⟨2, 7, 8, 13, 7, 1, 16, 12⟩, ⟨3, 4, 9, 14, 9, 4, 16, 12⟩,
  ⟨2, 7, 8, 13, 1, 7, 8, 7⟩, ⟨3, 4, 9, 14, 4, 9, 8, 7⟩, ⟨1, 6, 11, 12, 6, 3, 8, 7⟩, ⟨0, 5, 10, 15, 14, 10, 8, 7⟩]

/-- Round 4 [blake256block.go:415-527], sixteen steps of seven lines in the order of the file. -/
def round4 : List Step := [
  ⟨0, 4, 8, 12, 7, 9, 16, 12⟩, ⟨1, 5, 9, 13, 3, 1, 16, 12⟩, ⟨2, 6, 10, 14, 13, 12, 16, 12⟩, ⟨3, 7, 11, 15, 11, 14, 16, 12⟩,
  ⟨2, 6, 10, 14, 12, 13, 8, 7⟩, ⟨3, 7, 11, 15, 14, 11, 8, 7⟩, ⟨1, 5, 9, 13, 1, 3, 8, 7⟩, ⟨0, 4, 8, 12, 9, 7, 8, 7⟩,
  ⟨0, 5, 10, 15, 2, 6, 16, 12⟩, ⟨1, 6, 11, 12, 5, 10, 16, 12⟩, ⟨2, 7, 8, 13, 4, 0, 16, 12⟩, ⟨3, 4, 9, 14, 15, 8, 16, 12⟩,
  ⟨2, 7, 8, 13, 0, 4, 8, 7⟩, ⟨3, 4, 9, 14, 8, 15, 8, 7⟩, ⟨1, 6, 11, 12, 10, 5, 8, 7⟩, ⟨0, 5, 10, 15, 6, 2, 8, 7⟩]

/-- Round 5 [blake256block.go:529-641], sixteen steps of seven lines in the order of the file. -/
def round5 : List Step := [
  ⟨0, 4, 8, 12, 9, 0, 16, 12⟩, ⟨1, 5, 9, 13, 5, 7, 16, 12⟩, ⟨2, 6, 10, 14, 2, 4, 16, 12⟩, ⟨3, 7, 11, 15, 10, 15, 16, 12⟩,
  ⟨2, 6, 10, 14, 4, 2, 8, 7⟩, ⟨3, 7, 11, 15, 15, 10, 8, 7⟩, ⟨1, 5, 9, 13, 7, 5, 8, 7⟩, ⟨0, 4, 8, 12, 0, 9, 8, 7⟩,
  ⟨0, 5, 10, 15, 14, 1, 16, 12⟩, ⟨1, 6, 11, 12, 11, 12, 16, 12⟩, ⟨2, 7, 8, 13, 6, 8, 16, 12⟩, ⟨3, 4, 9, 14, 3, 13, 16, 12⟩,
  ⟨2, 7, 8, 13, 8, 6, 8, 7⟩, ⟨3, 4, 9, 14, 13, 3, 8, 7⟩, ⟨1, 6, 11, 12, 12, 11, 8, 7⟩, ⟨0, 5, 10, 15, 1, 14, 8, 7⟩]

/-- Round 6 [blake256block.go:643-755], sixteen steps of seven lines in the order of the file. -/
def round6 : List Step := [
  ⟨0, 4, 8, 12, 2, 12, 16, 12⟩, ⟨1, 5, 9, 13, 6, 10, 16, 12⟩, ⟨2, 6, 10, 14, 0, 11, 16, 12⟩, ⟨3, 7, 11, 15, 8, 3, 16, 12⟩,
  ⟨2, 6, 10, 14, 11, 0, 8, 7⟩, ⟨3, 7, 11, 15, 3, 8, 8, 7⟩, ⟨1, 5, 9, 13, 10, 6, 8, 7⟩, ⟨0, 4, 8, 12, 12, 2, 8, 7⟩,
  ⟨0, 5, 10, 15, 4, 13, 16, 12⟩, ⟨1, 6, 11, 12, 7, 5, 16, 12⟩, ⟨2, 7, 8, 13, 15, 14, 16, 12⟩, ⟨3, 4, 9, 14, 1, 9, 16, 12⟩,
  ⟨2, 7, 8, 13, 14, 15, 8, 7⟩, ⟨3, 4, 9, 14, 9, 1, 8, 7⟩, ⟨1, 6, 11, 12, 5, 7, 8, 7⟩, ⟨0, 5, 10, 15, 13, 4, 8, 7⟩]

/-- Round 7 [blake256block.go:757-869], sixteen steps of seven lines in the order of the file. -/
def round7 : List Step := [
  ⟨0, 4, 8, 12, 12, 5, 16, 12⟩, ⟨1, 5, 9, 13, 1, 15, 16, 12⟩, ⟨2, 6, 10, 14, 14, 13, 16, 12⟩, ⟨3, 7, 11, 15, 4, 10, 16, 12⟩,
  ⟨2, 6, 10, 14, 13, 14, 8, 7⟩, ⟨3, 7, 11, 15, 10, 4, 8, 7⟩, ⟨1, 5, 9, 13, 15, 1, 8, 7⟩, ⟨0, 4, 8, 12, 5, 12, 8, 7⟩,
  ⟨0, 5, 10, 15, 0, 7, 16, 12⟩, ⟨1, 6, 11, 12, 6, 3, 16, 12⟩, ⟨2, 7, 8, 13, 9, 2, 16, 12⟩, ⟨3, 4, 9, 14, 8, 11, 16, 12⟩,
  ⟨2, 7, 8, 13, 2, 9, 8, 7⟩, ⟨3, 4, 9, 14, 11, 8, 8, 7⟩, ⟨1, 6, 11, 12, 3, 6, 8, 7⟩, ⟨0, 5, 10, 15, 7, 0, 8, 7⟩]

/-- Round 8 [blake256block.go:871-983], sixteen steps of seven lines in the order of the file. -/
def round8 : List Step := [
  ⟨0, 4, 8, 12, 13, 11, 16, 12⟩, ⟨1, 5, 9, 13, 7, 14, 16, 12⟩, ⟨2, 6, 10, 14, 12, 1, 16, 12⟩, ⟨3, 7, 11, 15, 3, 9, 16, 12⟩,
  ⟨2, 6, 10, 14, 1, 12, 8, 7⟩, ⟨3, 7, 11, 15, 9, 3, 8, 7⟩, ⟨1, 5, 9, 13, 14, 7, 8, 7⟩, ⟨0, 4, 8, 12, 11, 13, 8, 7⟩,
  ⟨0, 5, 10, 15, 5, 0, 16, 12⟩, ⟨1, 6, 11, 12, 15, 4, 16, 12⟩, ⟨2, 7, 8, 13, 8, 6, 16, 12⟩, ⟨3, 4, 9, 14, 2, 10, 16, 12⟩,
  ⟨2, 7, 8, 13, 6, 8, 8, 7⟩, ⟨3, 4, 9, 14, 10, 2, 8, 7⟩, ⟨1, 6, 11, 12, 4, 15, 8, 7⟩, ⟨0, 5, 10, 15, 0, 5, 8, 7⟩]

/-- Round 9 [blake256block.go:985-1097], sixteen steps of seven lines in the order of the file. -/
def round9 : List Step := [
  ⟨0, 4, 8, 12, 6, 15, 16, 12⟩, ⟨1, 5, 9, 13, 14, 9, 16, 12⟩, ⟨2, 6, 10, 14, 11, 3, 16, 12⟩, ⟨3, 7, 11, 15, 0, 8, 16, 12⟩,
  ⟨2, 6, 10, 14, 3, 11, 8, 7⟩, ⟨3, 7, 11, 15, 8, 0, 8, 7⟩, ⟨1, 5, 9, 13, 9, 14, 8, 7⟩, ⟨0, 4, 8, 12, 15, 6, 8, 7⟩,
  ⟨0, 5, 10, 15, 12, 2, 16, 12⟩, ⟨1, 6, 11, 12, 13, 7, 16, 12⟩, ⟨2, 7, 8, 13, 1, 4, 16, 12⟩, ⟨3, 4, 9, 14, 10, 5, 16, 12⟩,
  ⟨2, 7, 8, 13, 4, 1, 8, 7⟩, ⟨3, 4, 9, 14, 5, 10, 8, 7⟩, ⟨1, 6, 11, 12, 7, 13, 8, 7⟩, ⟨0, 5, 10, 15, 2, 12, 8, 7⟩]

/-- Round 10 [blake256block.go:1099-1211], sixteen steps of seven lines in the order of the file. -/
def round10 : List Step := [
  ⟨0, 4, 8, 12, 10, 2, 16, 12⟩, ⟨1, 5, 9, 13, 8, 4, 16, 12⟩, ⟨2, 6, 10, 14, 7, 6, 16, 12⟩, ⟨3, 7, 11, 15, 1, 5, 16, 12⟩,
  ⟨2, 6, 10, 14, 6, 7, 8, 7⟩, ⟨3, 7, 11, 15, 5, 1, 8, 7⟩, ⟨1, 5, 9, 13, 4, 8, 8, 7⟩, ⟨0, 4, 8, 12, 2, 10, 8, 7⟩,
  ⟨0, 5, 10, 15, 15, 11, 16, 12⟩, ⟨1, 6, 11, 12, 9, 14, 16, 12⟩, ⟨2, 7, 8, 13, 3, 12, 16, 12⟩, ⟨3, 4, 9, 14, 13, 0, 16, 12⟩,
  ⟨2, 7, 8, 13, 12, 3, 8, 7⟩, ⟨3, 4, 9, 14, 0, 13, 8, 7⟩, ⟨1, 6, 11, 12, 14, 9, 8, 7⟩, ⟨0, 5, 10, 15, 11, 15, 8, 7⟩]

/-- Round 11 [blake256block.go:1213-1325], sixteen steps of seven lines in the order of the file. -/
def round11 : List Step := [
  ⟨0, 4, 8, 12, 0, 1, 16, 12⟩, ⟨1, 5, 9, 13, 2, 3, 16, 12⟩, ⟨2, 6, 10, 14, 4, 5, 16, 12⟩, ⟨3, 7, 11, 15, 6, 7, 16, 12⟩,
  ⟨2, 6, 10, 14, 5, 4, 8, 7⟩, ⟨3, 7, 11, 15, 7, 6, 8, 7⟩, ⟨1, 5, 9, 13, 3, 2, 8, 7⟩, ⟨0, 4, 8, 12, 1, 0, 8, 7⟩,
  ⟨0, 5, 10, 15, 8, 9, 16, 12⟩, ⟨1, 6, 11, 12, 10, 11, 16, 12⟩, ⟨2, 7, 8, 13, 12, 13, 16, 12⟩, ⟨3, 4, 9, 14, 14, 15, 16, 12⟩,
  ⟨2, 7, 8, 13, 13, 12, 8, 7⟩, ⟨3, 4, 9, 14, 15, 14, 8, 7⟩, ⟨1, 6, 11, 12, 11, 10, 8, 7⟩, ⟨0, 5, 10, 15, 9, 8, 8, 7⟩]

/-- Round 12 [blake256block.go:1327-1439], sixteen steps of seven lines in the order of the file. -/
def round12 : List Step := [
  ⟨0, 4, 8, 12, 14, 10, 16, 12⟩, ⟨1, 5, 9, 13, 4, 8, 16, 12⟩, ⟨2, 6, 10, 14, 9, 15, 16, 12⟩, ⟨3, 7, 11, 15, 13, 6, 16, 12⟩,
  ⟨2, 6, 10, 14, 15, 9, 8, 7⟩, ⟨3, 7, 11, 15, 6, 13, 8, 7⟩, ⟨1, 5, 9, 13, 8, 4, 8, 7⟩, ⟨0, 4, 8, 12, 10, 14, 8, 7⟩,
  ⟨0, 5, 10, 15, 1, 12, 16, 12⟩, ⟨1, 6, 11, 12, 0, 2, 16, 12⟩, ⟨2, 7, 8, 13, 11, 7, 16, 12⟩, ⟨3, 4, 9, 14, 5, 3, 16, 12⟩,
  ⟨2, 7, 8, 13, 7, 11, 8, 7⟩, ⟨3, 4, 9, 14, 3, 5, 8, 7⟩, ⟨1, 6, 11, 12, 2, 0, 8, 7⟩, ⟨0, 5, 10, 15, 12, 1, 8, 7⟩]

/-- Round 13 [blake256block.go:1441-1553], sixteen steps of seven lines in the order of the file. -/
def round13 : List Step := [
  ⟨0, 4, 8, 12, 11, 8, 16, 12⟩, ⟨1, 5, 9, 13, 12, 0, 16, 12⟩, ⟨2, 6, 10, 14, 5, 2, 16, 12⟩, ⟨3, 7, 11, 15, 15, 13, 16, 12⟩,
  ⟨2, 6, 10, 14, 2, 5, 8, 7⟩, ⟨3, 7, 11, 15, 13, 15, 8, 7⟩, ⟨1, 5, 9, 13, 0, 12, 8, 7⟩, ⟨0, 4, 8, 12, 8, 11, 8, 7⟩,
  ⟨0, 5, 10, 15, 10, 14, 16, 12⟩, ⟨1, 6, 11, 12, 3, 6, 16, 12⟩, ⟨2, 7, 8, 13, 7, 1, 16, 12⟩, ⟨3, 4, 9, 14, 9, 4, 16, 12⟩,
  ⟨2, 7, 8, 13, 1, 7, 8, 7⟩, ⟨3, 4, 9, 14, 4, 9, 8, 7⟩, ⟨1, 6, 11, 12, 6, 3, 8, 7⟩, ⟨0, 5, 10, 15, 14, 10, 8, 7⟩]

/-- Round 14 [blake256block.go:1555-1667], sixteen steps of seven lines in the order of the file. -/
def round14 : List Step := [
  ⟨0, 4, 8, 12, 7, 9, 16, 12⟩, ⟨1, 5, 9, 13, 3, 1, 16, 12⟩, ⟨2, 6, 10, 14, 13, 12, 16, 12⟩, ⟨3, 7, 11, 15, 11, 14, 16, 12⟩,
  ⟨2, 6, 10, 14, 12, 13, 8, 7⟩, ⟨3, 7, 11, 15, 14, 11, 8, 7⟩, ⟨1, 5, 9, 13, 1, 3, 8, 7⟩, ⟨0, 4, 8, 12, 9, 7, 8, 7⟩,
  ⟨0, 5, 10, 15, 2, 6, 16, 12⟩, ⟨1, 6, 11, 12, 5, 10, 16, 12⟩, ⟨2, 7, 8, 13, 4, 0, 16, 12⟩, ⟨3, 4, 9, 14, 15, 8, 16, 12⟩,
  ⟨2, 7, 8, 13, 0, 4, 8, 7⟩, ⟨3, 4, 9, 14, 8, 15, 8, 7⟩, ⟨1, 6, 11, 12, 10, 5, 8, 7⟩, ⟨0, 5, 10, 15, 6, 2, 8, 7⟩]

/-- The fourteen rounds [blake256block.go:73-1667]. -/
def rounds : List Step :=
  round1 ++ round2 ++ round3 ++ round4 ++ round5 ++ round6 ++ round7 ++ round8 ++ round9 ++ round10 ++ round11 ++ round12 ++ round13 ++ round14

/-- `uint32(p[0])<<24 | uint32(p[1])<<16 | uint32(p[2])<<8 | uint32(p[3])` [blake256block.go:56-71, blake256.go:154-157]. -/
def word (p : Bytes) : UInt32 :=
  (p.getD 0 0).toUInt32 <<< 24 ||| (p.getD 1 0).toUInt32 <<< 16 ||| (p.getD 2 0).toUInt32 <<< 8 ||| (p.getD 3 0).toUInt32

/-- One turn of the loop of `block` on the 64 bytes `p` [blake256block.go:37-1677]. -/
def compress (d : Digest) (p : Bytes) : Digest :=
  let h := fun i => d.h.getD i 0
  let s := fun i => d.s.getD i 0
  let t := d.t + 512
  let c := fun i => cst.getD i 0
  let lo : UInt32 := if d.nullt then 0 else t.toUInt32
  let hi : UInt32 := if d.nullt then 0 else (t >>> 32).toUInt32
  let v0 : List UInt32 := [h 0, h 1, h 2, h 3, h 4, h 5, h 6, h 7, c 0 ^^^ s 0, c 1 ^^^ s 1, c 2 ^^^ s 2, c 3 ^^^ s 3,
    c 4 ^^^ lo, c 5 ^^^ lo, c 6 ^^^ hi, c 7 ^^^ hi]
  let m := fun i => word (p.drop (4 * i))
  let vs := rounds.foldl (Step.run m) v0
  let v := fun i => vs.getD i 0
  { d with t := t, h := [
    h 0 ^^^ (v 0 ^^^ v 8 ^^^ s 0), h 1 ^^^ (v 1 ^^^ v 9 ^^^ s 1), h 2 ^^^ (v 2 ^^^ v 10 ^^^ s 2), h 3 ^^^ (v 3 ^^^ v 11 ^^^ s 3),
    h 4 ^^^ (v 4 ^^^ v 12 ^^^ s 0), h 5 ^^^ (v 5 ^^^ v 13 ^^^ s 1), h 6 ^^^ (v 6 ^^^ v 14 ^^^ s 2), h 7 ^^^ (v 7 ^^^ v 15 ^^^ s 3)] }

/-- `block` [blake256block.go:33-1681]: compresses the full 64-byte blocks of `p`. -/
def block (d : Digest) (p : Bytes) : Digest :=
  if p.length < 64 then d else block (compress d (p.take 64)) (p.drop 64)
termination_by p.length
decreasing_by rw [List.length_drop]; omega

/-- `copy(d.x[d.nx:], p)` into the buffer of 64 bytes. -/
def fill (x : Bytes) (nx : Nat) (p : Bytes) : Bytes := x.take nx ++ p.take (64 - nx) ++ x.drop (nx + min p.length (64 - nx))

/-- The first half of `Write` [blake256.go:64-75]: data goes into a partly filled buffer. Returns the rest of the data. -/
def writeBuffer (d : Digest) (p : Bytes) : Digest × Bytes :=
  if d.nx > 0 then
    let n := if p.length > 64 - d.nx then 64 - d.nx else p.length
    let d := { d with x := fill d.x d.nx p, nx := d.nx + min p.length (64 - d.nx) }
    let d := if d.nx = 64 then { block d d.x with nx := 0 } else d
    (d, p.drop n)
  else (d, p)

/-- The middle of `Write` [blake256.go:76-80]: full blocks are compressed from the data. `len(p) &^ 63` is the largest multiple of 64. -/
def writeBlocks (d : Digest) (p : Bytes) : Digest × Bytes :=
  if p.length ≥ 64 then
    let n := p.length / 64 * 64
    (block d (p.take n), p.drop n)
  else (d, p)

/-- `Write` [blake256.go:62-85]. -/
def write (d : Digest) (p : Bytes) : Digest :=
  let (d, p) := writeBuffer d p
  let (d, p) := writeBlocks d p
  if p.length > 0 then { d with x := fill d.x 0 p, nx := min p.length 64 } else d

/-- `pad` [blake256.go:43]. -/
def pad : Bytes := 0x80 :: List.replicate 63 0

/-- `byte(x >> k)` of a 64-bit number. -/
def shr64 (l : UInt64) (k : UInt64) : UInt8 := (l >>> k).toUInt8

/-- `byte(x >> k)` of a 32-bit number. -/
def shr32 (l : UInt32) (k : UInt32) : UInt8 := (l >>> k).toUInt8

/-- The padding part of `Sum` [blake256.go:90-136] on the copy of the digest. -/
def finish (d : Digest) : Digest :=
  let nx : UInt64 := UInt64.ofNat d.nx
  let l := d.t + (nx <<< 3)
  let len := [shr64 l 56, shr64 l 48, shr64 l 40, shr64 l 32, shr64 l 24, shr64 l 16, shr64 l 8, shr64 l 0]
  let d :=
    if d.nx = 55 then
      let d := { d with t := d.t - 8 }
      write d [if d.hashSize = 224 then 0x80 else 0x81]
    else
      let d :=
        if d.nx < 55 then
          let d := if d.nx = 0 then { d with nullt := true } else d
          let d := { d with t := d.t - ((440 : UInt64) - (nx <<< 3)) }
          write d (pad.take (55 - d.nx))
        else
          let d := { d with t := d.t - ((512 : UInt64) - (nx <<< 3)) }
          let d := write d (pad.take (64 - d.nx))
          let d := { d with t := d.t - 440 }
          let d := write d ((pad.take 56).drop 1)
          { d with nullt := true }
      let d := write d [if d.hashSize = 224 then 0x00 else 0x01]
      { d with t := d.t - 8 }
  let d := { d with t := d.t - 64 }
  write d len

/-- `Sum` [blake256.go:88-148]; `d.h[:d.hashSize>>5]` has `d.hashSize/32` words, which is also the number that fits `out`. -/
def sum (d : Digest) (inp : Bytes) : Bytes :=
  let d := finish d
  inp ++ (d.h.take (d.hashSize >>> 5)).flatMap fun s => [shr32 s 24, shr32 s 16, shr32 s 8, shr32 s 0]

/-- `setSalt` [blake256.go:150-158]. -/
def setSalt (d : Digest) (s : Bytes) : Res Digest :=
  if s.length ≠ 16 then .panic
  else .ok { d with s := [word s, word (s.drop 4), word (s.drop 8), word (s.drop 12)] }

/-- `New` [blake256.go:161-166]. -/
def new : Digest := ⟨256, iv256, [0, 0, 0, 0], 0, false, List.replicate 64 0, 0⟩

/-- `New224` [blake256.go:179-184]. -/
def new224 : Digest := ⟨224, iv224, [0, 0, 0, 0], 0, false, List.replicate 64 0, 0⟩

/-- `NewSalt` [blake256.go:169-176]. -/
def newSalt (salt : Bytes) : Res Digest := setSalt new salt

/-- `New224Salt` [blake256.go:187-194]. -/
def new224Salt (salt : Bytes) : Res Digest := setSalt new224 salt

/-- `Reset` [blake256.go:47-56]. -/
def reset (d : Digest) : Digest :=
  { d with h := if d.hashSize = 224 then iv224 else iv256, t := 0, nx := 0, nullt := false }

/-- `DoubleBlake256` [blake256.go:196-204]. -/
def doubleBlake256 (data : Bytes) : Bytes := sum (write new (sum (write new data) [])) []

end Verif.Blake
