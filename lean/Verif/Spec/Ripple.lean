import Verif.Model.Base

/-! The binary format of XRP ledger transactions (xrpl.org, "Serialization Format"): a reader written from the specification. -/

namespace Verif.Spec.Ripple
open Verif

/-- A field id: the type code in the high half of the first byte and the field code in the low half; a zero half means that the code
follows in a byte of its own (type first). -/
def readId : Bytes → Option (Nat × Nat × Bytes)
  | [] => none
  | b :: rest =>
    let t := b.toNat / 16
    let f := b.toNat % 16
    if t ≠ 0 ∧ f ≠ 0 then some (t, f, rest)
    else
      match t, f, rest with
      | 0, 0, t :: f :: rest => some (t.toNat, f.toNat, rest)
      | 0, _, t :: rest => some (t.toNat, f, rest)
      | _, 0, f :: rest => some (t, f.toNat, rest)
      | _, _, _ => none

/-- The length of a variable-length field: one byte up to 192, two up to 12480, three up to 918744. -/
def readLength : Bytes → Option (Nat × Bytes)
  | [] => none
  | a :: rest =>
    if a.toNat ≤ 192 then some (a.toNat, rest)
    else if a.toNat ≤ 240 then
      match rest with
      | b :: rest => some (193 + (a.toNat - 193) * 256 + b.toNat, rest)
      | _ => none
    else if a.toNat ≤ 254 then
      match rest with
      | b :: c :: rest => some (12481 + (a.toNat - 241) * 65536 + b.toNat * 256 + c.toNat, rest)
      | _ => none
    else none

def takeExact (n : Nat) (b : Bytes) : Option (Bytes × Bytes) := if n ≤ b.length then some (b.take n, b.drop n) else none

/-- The content of a field, by type: 16-bit and 32-bit integers, XRP amounts (first bit 0), variable-length data and accounts; objects
and arrays (and their end markers) have no content of their own. -/
def readContent (t : Nat) (b : Bytes) : Option (Bytes × Bytes) :=
  if t = 1 then takeExact 2 b
  else if t = 2 then takeExact 4 b
  else if t = 6 then if ∀ x ∈ b.head?, x.toNat < 128 then takeExact 8 b else none
  else if t = 7 ∨ t = 8 then
    match readLength b with
    | some (n, rest) => takeExact n rest
    | none => none
  else if t = 14 ∨ t = 15 then some ([], b)
  else none

/-- The fields of a serialised transaction: type code, field code, content. The first argument bounds the number of fields. -/
def fields : Nat → Bytes → Option (List (Nat × Nat × Bytes))
  | _, [] => some []
  | 0, _ => none
  | n + 1, b =>
    match readId b with
    | none => none
    | some (t, f, rest) =>
      match readContent t rest with
      | none => none
      | some (c, rest) =>
        match fields n rest with
        | none => none
        | some l => some ((t, f, c) :: l)

/-- All fields of a transaction. -/
def parse (b : Bytes) : Option (List (Nat × Nat × Bytes)) := fields b.length b

/-- The content of an XRP amount: bit 62 marks a positive amount, the 62 bits below are the number of drops. -/
def amount (drops : Nat) : Bytes := beBytes 8 (2 ^ 62 + drops)

/-- Optional fields: destination tag, signature, memo (type and format only if not empty). -/
def tagFields : Option Nat → List (Nat × Nat × Bytes)
  | some n => [(2, 14, beBytes 4 n)]
  | none => []
def sigFields : Option Bytes → List (Nat × Nat × Bytes)
  | some s => [(7, 4, s)]
  | none => []
def memoFields : Option (Bytes × Bytes × Bytes) → List (Nat × Nat × Bytes)
  | some (ty, data, format) => [(15, 9, []), (14, 10, [])] ++ (if ty = [] then [] else [(7, 12, ty)]) ++ [(7, 13, data)] ++
      (if format = [] then [] else [(7, 14, format)]) ++ [(14, 1, []), (15, 1, [])]
  | none => []

/-- The fields of a payment, in canonical order (by type code, then field code). -/
def payment (sequence lastLedger drops fee : Nat) (tag : Option Nat) (pub account destination : Bytes) (signature : Option Bytes)
    (memo : Option (Bytes × Bytes × Bytes)) : List (Nat × Nat × Bytes) :=
  [(1, 2, beBytes 2 0), (2, 2, beBytes 4 0x80000000), (2, 4, beBytes 4 sequence)] ++ tagFields tag ++
  [(2, 27, beBytes 4 lastLedger), (6, 1, amount drops), (6, 8, amount fee), (7, 3, pub)] ++ sigFields signature ++
  [(8, 1, account), (8, 3, destination)] ++ memoFields memo

end Verif.Spec.Ripple
