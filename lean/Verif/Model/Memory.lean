import Verif.Model.Base

/-! Go's byte slices as windows on shared arrays. The other models treat a `[]byte` as the list of its bytes; here a slice is a reference, so that
`append` into spare capacity and writing in place can be seen by every other slice of the same array. (The Go Programming Language Specification,
"Slice types", "Slice expressions", "Appending to and copying slices".) -/

namespace Verif.Mem
open Verif

/-- The byte arrays allocated so far; an array is named by its position. Simplification: nothing is freed. -/
abbrev Heap := List Bytes

/-- A slice: array, position of the first element, length and capacity. A nil slice has capacity 0. -/
structure Slice where
  arr : Nat
  off : Nat
  len : Nat
  cap : Nat
deriving DecidableEq

/-- The array with a number. -/
def array (h : Heap) (a : Nat) : Bytes := h.getD a []

/-- The bytes of a slice. -/
def read (h : Heap) (s : Slice) : Bytes := ((array h s.arr).drop s.off).take s.len

/-- The slice expression `s[i:j]`; the capacity reaches to the end of that of `s`. The bound checks are the caller's. -/
def Slice.sub (s : Slice) (i j : Nat) : Slice := ⟨s.arr, s.off + i, j - i, s.cap - i⟩

/-- Overwrite the bytes from position `p` on. -/
def patch (b : Bytes) (p : Nat) (d : Bytes) : Bytes := b.take p ++ d ++ b.drop (p + d.length)

/-- Write to an array. -/
def write (h : Heap) (a p : Nat) (d : Bytes) : Heap := h.modify a fun b => patch b p d

/-- A new array with exactly these bytes (`make` and `copy`, a composite literal, the result of a library function). -/
def alloc (h : Heap) (b : Bytes) : Slice × Heap := (⟨h.length, 0, b.length, b.length⟩, h ++ [b])

/-- `append(s, d...)`: in place if the capacity suffices, otherwise in a new array whose capacity the run-time system chooses (`grow`, given the old
capacity and the needed one; at least the needed one). -/
def append (grow : Nat → Nat → Nat) (h : Heap) (s : Slice) (d : Bytes) : Slice × Heap :=
  if s.len + d.length ≤ s.cap then ({ s with len := s.len + d.length }, write h s.arr (s.off + s.len) d)
  else
    let c := max (grow s.cap (s.len + d.length)) (s.len + d.length)
    (⟨h.length, 0, s.len + d.length, c⟩, h ++ [read h s ++ d ++ List.replicate (c - (s.len + d.length)) 0])

/-- Reversing in place: `for i, j := 0, len(s)-1; i < j; i, j = i+1, j-1 { s[i], s[j] = s[j], s[i] }`. -/
def reverse (h : Heap) (s : Slice) : Heap := write h s.arr s.off (read h s).reverse

end Verif.Mem
