import Verif.Model.Base

/-!
Model of `addressEncoder/base58.go`. The same file is copied (modulo names) in btcTransaction, omniTransaction,
rippleTransaction, ontologyTransaction, waykichainTransaction, virtualeconomyTransaction, bigbangTransaction, ...

Texts are lists over an arbitrary rune type `α` (Go: `[]rune(input)`); for ASCII alphabets `α = UInt8`.
The scratch array `output` is represented in reverse (`buf[j]` is `output[capacity-1-j]`), with its full length
`capacity`, so that running off its front (`outputIdx = -1`) is the outcome `panic`.
-/

namespace Verif.Base58
open Verif

/-- Lookup of a rune in the decode tables [base58.go:33-41, 108-122].
Simplification: an alphabet is assumed to have no repeated rune (with repetitions Go's table keeps the last index
for runes < 256). -/
def lookup {α : Type} [DecidableEq α] (alph : List α) (c : α) : Option Nat :=
  if c ∈ alph then some (alph.idxOf c) else none

/-- Inner loop of both directions [base58.go:61-66, 124-129]: starting at the end of the scratch array, while
`carry != 0 || outputIdx > outputReverseEnd`, multiply-add one cell. `word` is the wrap-around of the Go type of
`carry` (uint32 when encoding, 64-bit int when decoding), `mul`/`to` are 256/58 when encoding and 58/256 when decoding.
`used` is `capacity-1-outputReverseEnd`; the result is the new array and the new `used`. -/
def carryLoop (word mul tb used : Nat) : Nat → Nat → List Nat → Res (List Nat × Nat)
  | j, carry, [] => if carry ≠ 0 ∨ j < used then .panic else .ok ([], j)
  | j, carry, d :: ds =>
    if carry ≠ 0 ∨ j < used then
      let c := (carry + mul * d) % word
      match carryLoop word mul tb used (j + 1) (c / tb) ds with
      | .ok (rest, u) => .ok ((c % tb) % 256 :: rest, u)
      | .err => .err
      | .panic => .panic
    else .ok (d :: ds, j)

/-- Outer loop of the encoder [base58.go:58-68]. -/
def encLoop : Bytes → List Nat × Nat → Res (List Nat × Nat)
  | [], st => .ok st
  | b :: bs, (buf, used) =>
    match carryLoop (2 ^ 32) 256 58 used 0 b.toNat buf with
    | .ok st => encLoop bs st
    | .err => .err
    | .panic => .panic

/-- Outer loop of the decoder [base58.go:107-131]. -/
def decLoop {α : Type} [DecidableEq α] (alph : List α) : List α → List Nat × Nat → Res (List Nat × Nat)
  | [], st => .ok st
  | c :: cs, (buf, used) =>
    match lookup alph c with
    | none => .err
    | some d =>
      match carryLoop (2 ^ 64) 58 256 used 0 d buf with
      | .ok st => decLoop alph cs st
      | .err => .err
      | .panic => .panic

/-- Read the symbols of a list of digits from the encode table (index out of range panics). -/
def symbols {α : Type} (alph : List α) : List Nat → Res (List α)
  | [] => .ok []
  | n :: ns =>
    match index alph n, symbols alph ns with
    | .ok c, .ok cs => .ok (c :: cs)
    | _, _ => .panic

/-- `Base58Encode` together with `NewBase58Alphabet` [base58.go:22-43, 46-90]: panics when the alphabet does not
have 58 runes. -/
def encode {α : Type} (alph : List α) (input : Bytes) : Res (List α) :=
  if alph.length ≠ 58 then .panic else
  let prefixZeroes := (input.takeWhile (· == 0)).length
  let capacity := input.length * 138 / 100 + 1
  match encLoop (input.drop prefixZeroes) (List.replicate capacity 0, 0) with
  | .ok (buf, used) => symbols alph (List.replicate prefixZeroes 0 ++ (buf.take used).reverse)
  | .err => .err
  | .panic => .panic

/-- `Base58Decode` together with `NewBase58Alphabet` [base58.go:22-43, 93-138]. -/
def decode {α : Type} [DecidableEq α] (alph : List α) (input : List α) : Res Bytes :=
  if alph.length ≠ 58 then .panic else
  let capacity := input.length * 733 / 1000 + 1
  let prefixZeroes := (input.takeWhile (fun c => alph[0]? == some c)).length
  match decLoop alph input (List.replicate capacity 0, 0) with
  | .ok (buf, used) => .ok (List.replicate prefixZeroes 0 ++ ((buf.take used).reverse.map UInt8.ofNat))
  | .err => .err
  | .panic => .panic

end Verif.Base58
