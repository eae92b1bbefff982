import Verif.Model.Base

/-! JSON (RFC 8259) without white space, as a relation between texts and values, and UTF-8 (RFC 3629). Independent of the model of Go's
`encoding/json`. -/

namespace Verif.Spec
open Verif

/-- A Unicode scalar value. -/
def IsScalar (n : Nat) : Prop := n < 0xd800 ∨ (0xe000 ≤ n ∧ n < 0x110000)

/-- Its UTF-8 form. -/
def utf8 (n : Nat) : Bytes :=
  if n < 0x80 then [UInt8.ofNat n]
  else if n < 0x800 then [UInt8.ofNat (0xc0 + n / 64), UInt8.ofNat (0x80 + n % 64)]
  else if n < 0x10000 then [UInt8.ofNat (0xe0 + n / 4096), UInt8.ofNat (0x80 + n / 64 % 64), UInt8.ofNat (0x80 + n % 64)]
  else [UInt8.ofNat (0xf0 + n / 262144), UInt8.ofNat (0x80 + n / 4096 % 64), UInt8.ofNat (0x80 + n / 64 % 64), UInt8.ofNat (0x80 + n % 64)]

/-- The bytes are the UTF-8 form of some text. -/
def IsUtf8 (s : Bytes) : Prop := ∃ cs : List Nat, (∀ c ∈ cs, IsScalar c) ∧ s = cs.flatMap utf8

/-- A JSON value; a number is its text. -/
inductive Json where
  | null
  | bool (b : Bool)
  | num (text : Bytes)
  | str (s : Bytes)
  | arr (l : List Json)
  | obj (l : List (Bytes × Json))

/-- The value of a text of decimal digits. -/
def decValue (ds : Bytes) : Nat := ds.foldl (fun a d => 10 * a + (d.toNat - 0x30)) 0

/-- A natural number in decimal digits without superfluous zeros. -/
def IsDigits (ds : Bytes) (n : Nat) : Prop :=
  ds ≠ [] ∧ (∀ d ∈ ds, 0x30 ≤ d.toNat ∧ d.toNat ≤ 0x39) ∧ (ds.head? = some 0x30 → ds = [0x30]) ∧ decValue ds = n

/-- An integer in decimal digits. -/
def IsDecimal (t : Bytes) (n : Int) : Prop :=
  (∃ k : Nat, n = k ∧ IsDigits t k) ∨ (∃ (k : Nat) (ds : Bytes), n = -(k : Int) ∧ 0 < k ∧ t = 0x2d :: ds ∧ IsDigits ds k)

/-- The escapes of one character. -/
def escapes : List (UInt8 × UInt8) :=
  [(0x22, 0x22), (0x5c, 0x5c), (0x2f, 0x2f), (0x62, 0x08), (0x66, 0x0c), (0x6e, 0x0a), (0x72, 0x0d), (0x74, 0x09)]

/-- The value of a hexadecimal digit. -/
def hexDigit (c : UInt8) : Option Nat :=
  if 0x30 ≤ c ∧ c ≤ 0x39 then some (c.toNat - 0x30)
  else if 0x41 ≤ c ∧ c ≤ 0x46 then some (c.toNat - 0x41 + 10)
  else if 0x61 ≤ c ∧ c ≤ 0x66 then some (c.toNat - 0x61 + 10)
  else none

/-- The characters between the quotes of a string and the bytes (UTF-8) of the text they stand for. Escaped surrogate pairs, which the
programs considered never write, are left out. -/
inductive IsChars : Bytes → Bytes → Prop
  | nil : IsChars [] []
  | plain (c : Nat) (t s : Bytes) : IsScalar c → 0x20 ≤ c → c ≠ 0x22 → c ≠ 0x5c → IsChars t s → IsChars (utf8 c ++ t) (utf8 c ++ s)
  | escape (e v : UInt8) (t s : Bytes) : (e, v) ∈ escapes → IsChars t s → IsChars (0x5c :: e :: t) (v :: s)
  | unicode (a b c d : UInt8) (va vb vc vd : Nat) (t s : Bytes) : hexDigit a = some va → hexDigit b = some vb → hexDigit c = some vc →
      hexDigit d = some vd → IsScalar (va * 4096 + vb * 256 + vc * 16 + vd) → IsChars t s →
      IsChars (0x5c :: 0x75 :: a :: b :: c :: d :: t) (utf8 (va * 4096 + vb * 256 + vc * 16 + vd) ++ s)

mutual
/-- The text of a value. -/
inductive IsJson : Bytes → Json → Prop
  | null : IsJson (asc "null") .null
  | true : IsJson (asc "true") (.bool true)
  | false : IsJson (asc "false") (.bool false)
  | num (t : Bytes) (n : Int) : IsDecimal t n → IsJson t (.num t)
  | str (t s : Bytes) : IsChars t s → IsJson (0x22 :: t ++ [0x22]) (.str s)
  | arr (t : Bytes) (l : List Json) : IsElements t l → IsJson (0x5b :: t ++ [0x5d]) (.arr l)
  | obj (t : Bytes) (l : List (Bytes × Json)) : IsMembers t l → IsJson (0x7b :: t ++ [0x7d]) (.obj l)

/-- The text between the brackets of an array. -/
inductive IsElements : Bytes → List Json → Prop
  | nil : IsElements [] []
  | one (t : Bytes) (v : Json) : IsJson t v → IsElements t [v]
  | cons (t t' : Bytes) (v v' : Json) (l : List Json) : IsJson t v → IsElements t' (v' :: l) → IsElements (t ++ 0x2c :: t') (v :: v' :: l)

/-- The text between the braces of an object. -/
inductive IsMembers : Bytes → List (Bytes × Json) → Prop
  | nil : IsMembers [] []
  | one (k s t : Bytes) (v : Json) : IsChars k s → IsJson t v → IsMembers (0x22 :: k ++ 0x22 :: 0x3a :: t) [(s, v)]
  | cons (k s t t' : Bytes) (v : Json) (m : Bytes × Json) (l : List (Bytes × Json)) : IsChars k s → IsJson t v → IsMembers t' (m :: l) →
      IsMembers (0x22 :: k ++ 0x22 :: 0x3a :: t ++ 0x2c :: t') ((s, v) :: m :: l)
end

/-- The member names of every object are in strictly increasing byte order. -/
inductive Sorted : Json → Prop
  | null : Sorted .null
  | bool (b : Bool) : Sorted (.bool b)
  | num (t : Bytes) : Sorted (.num t)
  | str (s : Bytes) : Sorted (.str s)
  | arr (l : List Json) : (∀ v ∈ l, Sorted v) → Sorted (.arr l)
  | obj (l : List (Bytes × Json)) : (l.map Prod.fst).Pairwise (· < ·) → (∀ m ∈ l, Sorted m.2) → Sorted (.obj l)

end Verif.Spec
