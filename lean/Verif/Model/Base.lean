/-
Base vocabulary of the model: outcomes of Go calls, byte strings, fixed-width integers in
little/big endian (Go standard library `encoding/binary`), slicing with run-time bound checks.
-/

namespace Verif

/-- A Go `[]byte` or `string`, as the list of its bytes. -/
abbrev Bytes := List UInt8

/-- Outcome of a Go call returning `(T, error)`: a value with nil error, a non-nil error (texts are
not modelled), or a run-time panic. -/
inductive Res (α : Type u) where
  | ok (a : α)
  | err
  | panic
deriving DecidableEq, Repr

namespace Res

/-- Sequencing of Go statements: an error return or panic stops the function. -/
protected def bind {α : Type u} {β : Type v} (x : Res α) (f : α → Res β) : Res β :=
  match x with
  | ok a => f a
  | err => err
  | panic => panic

instance : Monad Res where
  pure := ok
  bind := Res.bind

/-- Does the call return normally with a nil error? -/
def isOk {α : Type u} : Res α → Bool
  | ok _ => true
  | _ => false

/-- Turn a missing value into an error. -/
def ofOption {α : Type u} : Option α → Res α
  | some a => ok a
  | none => err

end Res

/-- Go slicing `b[i:j]`: panics unless `i ≤ j ≤ len(b)`.
Simplification: the capacity of a slice is taken to be its length. -/
def slice {α : Type u} (b : List α) (i j : Nat) : Res (List α) :=
  if i ≤ j ∧ j ≤ b.length then .ok ((b.take j).drop i) else .panic

/-- Go indexing `b[i]`: panics when out of range. -/
def index {α : Type u} (b : List α) (i : Nat) : Res α :=
  match b[i]? with
  | some x => .ok x
  | none => .panic

/-- ASCII text as bytes. -/
def asc (s : String) : Bytes := s.toList.map (fun c => c.toNat.toUInt8)

/-- `k` bytes little endian of `n mod 256^k` (Go `binary.LittleEndian.PutUintXX` after conversion). -/
def leBytes : Nat → Nat → Bytes
  | 0, _ => []
  | k + 1, n => UInt8.ofNat n :: leBytes k (n / 256)

/-- `k` bytes big endian of `n mod 256^k` (Go `binary.BigEndian.PutUintXX`). -/
def beBytes (k n : Nat) : Bytes := (leBytes k n).reverse

/-- Value of a little endian byte string. -/
def leNat : Bytes → Nat
  | [] => 0
  | b :: bs => b.toNat + 256 * leNat bs

/-- Value of a big endian byte string (Go `new(big.Int).SetBytes`). -/
def beNat (b : Bytes) : Nat := leNat b.reverse

end Verif
