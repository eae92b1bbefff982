import Verif.Model.Hex
import Verif.Spec.Json

/-! Go's `encoding/json`, as far as the repository uses it: `Marshal` of structs, slices, strings and integers, and `Unmarshal` into such structs.
This is code of the standard library, described here from its documentation and source: a struct becomes an object of its exported fields in
the order of declaration, strings are escaped as below. A `Json` value (the type of the specification) stands for the Go value. -/

namespace Verif.Json
open Verif Verif.Spec

/-- `utf8.DecodeRune`: the number of bytes of the character at the start, 0 if there is none (Go reports the error character with length 1). -/
def runeLen : Bytes → Nat
  | [] => 0
  | b :: r =>
    if b < 0x80 then 1
    else if b < 0xc2 then 0
    else if b < 0xe0 then
      match r with
      | c :: _ => if 0x80 ≤ c ∧ c ≤ 0xbf then 2 else 0
      | _ => 0
    else if b < 0xf0 then
      match r with
      | c :: d :: _ =>
        if (if b = 0xe0 then 0xa0 else 0x80) ≤ c ∧ c ≤ (if b = 0xed then 0x9f else 0xbf) ∧ 0x80 ≤ d ∧ d ≤ 0xbf then 3 else 0
      | _ => 0
    else if b < 0xf5 then
      match r with
      | c :: d :: e :: _ =>
        if (if b = 0xf0 then 0x90 else 0x80) ≤ c ∧ c ≤ (if b = 0xf4 then 0x8f else 0xbf) ∧ 0x80 ≤ d ∧ d ≤ 0xbf ∧ 0x80 ≤ e ∧ e ≤ 0xbf then 4 else 0
      | _ => 0
    else 0

/-- `utf8.EncodeRune` of a valid code point. -/
def encodeRune (n : Nat) : Bytes :=
  if n < 0x80 then [UInt8.ofNat n]
  else if n < 0x800 then [UInt8.ofNat (0xc0 + n / 64), UInt8.ofNat (0x80 + n % 64)]
  else if n < 0x10000 then [UInt8.ofNat (0xe0 + n / 4096), UInt8.ofNat (0x80 + n / 64 % 64), UInt8.ofNat (0x80 + n % 64)]
  else [UInt8.ofNat (0xf0 + n / 262144), UInt8.ofNat (0x80 + n / 4096 % 64), UInt8.ofNat (0x80 + n / 64 % 64), UInt8.ofNat (0x80 + n % 64)]

/-! ### Marshal -/

/-- One ASCII character of a string: `<`, `>`, `&`, quotes, backslash and control characters are escaped (Go before 1.22 writes backspace and form feed
as `\u0008` and `\u000c`). -/
def escByte (b : UInt8) : Bytes :=
  if b = 0x22 ∨ b = 0x5c then [0x5c, b]
  else if b = 0x0a then [0x5c, 0x6e]
  else if b = 0x0d then [0x5c, 0x72]
  else if b = 0x09 then [0x5c, 0x74]
  else if b < 0x20 ∨ b = 0x3c ∨ b = 0x3e ∨ b = 0x26 then [0x5c, 0x75, 0x30, 0x30, Hex.digit (b / 16), Hex.digit (b % 16)]
  else [b]

/-- The characters between the quotes; `n` bounds the number of steps. Bytes that are not UTF-8 become `�`; the line separators U+2028 and
U+2029 are escaped. -/
def quoteBody : Nat → Bytes → Bytes
  | 0, _ => []
  | _ + 1, [] => []
  | n + 1, b :: r =>
    if b < 0x80 then escByte b ++ quoteBody n r
    else if runeLen (b :: r) = 0 then [0x5c, 0x75, 0x66, 0x66, 0x66, 0x64] ++ quoteBody n r
    else if (b :: r).take 3 = [0xe2, 0x80, 0xa8] then [0x5c, 0x75, 0x32, 0x30, 0x32, 0x38] ++ quoteBody n ((b :: r).drop 3)
    else if (b :: r).take 3 = [0xe2, 0x80, 0xa9] then [0x5c, 0x75, 0x32, 0x30, 0x32, 0x39] ++ quoteBody n ((b :: r).drop 3)
    else (b :: r).take (runeLen (b :: r)) ++ quoteBody n ((b :: r).drop (runeLen (b :: r)))

/-- A string. -/
def quote (s : Bytes) : Bytes := 0x22 :: quoteBody s.length s ++ [0x22]

mutual
/-- `json.Marshal`. -/
def marshal : Json → Bytes
  | .null => asc "null"
  | .bool b => if b then asc "true" else asc "false"
  | .num t => t
  | .str s => quote s
  | .arr l => 0x5b :: elements l ++ [0x5d]
  | .obj l => 0x7b :: members l ++ [0x7d]

/-- The elements of an array, separated by commas. -/
def elements : List Json → Bytes
  | [] => []
  | [v] => marshal v
  | v :: v' :: l => marshal v ++ 0x2c :: elements (v' :: l)

/-- The members of an object, separated by commas. -/
def members : List (Bytes × Json) → Bytes
  | [] => []
  | [m] => quote m.1 ++ 0x3a :: marshal m.2
  | m :: m' :: l => quote m.1 ++ 0x3a :: marshal m.2 ++ 0x2c :: members (m' :: l)
end

/-- `strconv.FormatInt(n, 10)`, also the form of an integer in `Marshal`. -/
def formatNat (n : Nat) : Bytes := (Nat.toDigits 10 n).map (fun c => c.toNat.toUInt8)
def formatInt : Int → Bytes
  | .ofNat n => formatNat n
  | .negSucc n => 0x2d :: formatNat (n + 1)

/-! ### Unmarshal -/

/-- White space between tokens. -/
def isSpace (b : UInt8) : Bool := b == 0x20 || b == 0x09 || b == 0x0a || b == 0x0d
def skip (b : Bytes) : Bytes := b.dropWhile isSpace

def isDigit (b : UInt8) : Bool := decide (0x30 ≤ b ∧ b ≤ 0x39)

/-- `getu4` of a `\u` escape, without the backslash and the letter. -/
def hex4 : Bytes → Option (Nat × Bytes)
  | a :: b :: c :: d :: r =>
    match Hex.value a, Hex.value b, Hex.value c, Hex.value d with
    | some a, some b, some c, some d => some (a.toNat * 4096 + b.toNat * 256 + c.toNat * 16 + d.toNat, r)
    | _, _, _, _ => none
  | _ => none

/-- The character of an escape (`\u` excepted). -/
def unescape (e : UInt8) : Option UInt8 :=
  if e = 0x22 ∨ e = 0x5c ∨ e = 0x2f then some e
  else if e = 0x62 then some 0x08
  else if e = 0x66 then some 0x0c
  else if e = 0x6e then some 0x0a
  else if e = 0x72 then some 0x0d
  else if e = 0x74 then some 0x09
  else none

/-- A string after its opening quote: `unquote`, with the checks of the scanner. Bytes that are not UTF-8 and lone surrogates become U+FFFD; `n` bounds
the number of steps. -/
def string : Nat → Bytes → Option (Bytes × Bytes)
  | 0, _ => none
  | _ + 1, [] => none
  | n + 1, b :: r =>
    if b = 0x22 then some ([], r)
    else if b = 0x5c then
      match r with
      | [] => none
      | e :: r =>
        if e = 0x75 then
          match hex4 r with
          | none => none
          | some (u, r) =>
            if u < 0xd800 ∨ 0xe000 ≤ u then (string n r).map fun p => (encodeRune u ++ p.1, p.2)
            else
              match r with
              | 0x5c :: 0x75 :: r' =>
                match hex4 r' with
                | none => none
                | some (v, r'') =>
                  if u < 0xdc00 ∧ 0xdc00 ≤ v ∧ v < 0xe000 then
                    (string n r'').map fun p => (encodeRune (0x10000 + (u - 0xd800) * 1024 + (v - 0xdc00)) ++ p.1, p.2)
                  else (string n r).map fun p => ([0xef, 0xbf, 0xbd] ++ p.1, p.2)
              | _ => (string n r).map fun p => ([0xef, 0xbf, 0xbd] ++ p.1, p.2)
        else
          match unescape e with
          | none => none
          | some v => (string n r).map fun p => (v :: p.1, p.2)
    else if b < 0x20 then none
    else if runeLen (b :: r) = 0 then (string n r).map fun p => ([0xef, 0xbf, 0xbd] ++ p.1, p.2)
    else (string n ((b :: r).drop (runeLen (b :: r)))).map fun p => ((b :: r).take (runeLen (b :: r)) ++ p.1, p.2)

/-- Digits, at least one. -/
def digits1 (b : Bytes) : Option (Bytes × Bytes) :=
  match b.takeWhile isDigit with
  | [] => none
  | d => some (d, b.dropWhile isDigit)

/-- The digits before the point. -/
def wholePart : Bytes → Option (Bytes × Bytes)
  | 0x30 :: r => some ([0x30], r)
  | b => digits1 b

/-- A fraction, if there is one. -/
def fraction : Bytes → Option (Bytes × Bytes)
  | 0x2e :: r => (digits1 r).map fun p => (0x2e :: p.1, p.2)
  | b => some ([], b)

/-- An exponent, if there is one. -/
def exponent : Bytes → Option (Bytes × Bytes)
  | e :: r =>
    if e = 0x65 ∨ e = 0x45 then
      match r with
      | s :: r' => if s = 0x2b ∨ s = 0x2d then (digits1 r').map fun p => (e :: s :: p.1, p.2) else (digits1 r).map fun p => (e :: p.1, p.2)
      | [] => none
    else some ([], e :: r)
  | [] => some ([], [])

/-- A number after its sign. -/
def unsigned (b : Bytes) : Option (Bytes × Bytes) :=
  match wholePart b with
  | none => none
  | some (w, b) =>
    match fraction b with
    | none => none
    | some (f, b) => (exponent b).map fun p => (w ++ f ++ p.1, p.2)

/-- A number. -/
def number : Bytes → Option (Bytes × Bytes)
  | 0x2d :: r => (unsigned r).map fun p => (0x2d :: p.1, p.2)
  | b => unsigned b

mutual
/-- A value; `n` bounds the depth and the number of elements. The limit of 10000 nested brackets of later Go versions is not modelled. -/
def value : Nat → Bytes → Option (Json × Bytes)
  | 0, _ => none
  | n + 1, b =>
    match skip b with
    | 0x7b :: r =>
      match skip r with
      | 0x7d :: r => some (.obj [], r)
      | r => (membersOf n r).map fun p => (.obj p.1, p.2)
    | 0x5b :: r =>
      match skip r with
      | 0x5d :: r => some (.arr [], r)
      | r => (elementsOf n r).map fun p => (.arr p.1, p.2)
    | 0x22 :: r => (string (r.length + 1) r).map fun p => (.str p.1, p.2)
    | 0x74 :: 0x72 :: 0x75 :: 0x65 :: r => some (.bool true, r)
    | 0x66 :: 0x61 :: 0x6c :: 0x73 :: 0x65 :: r => some (.bool false, r)
    | 0x6e :: 0x75 :: 0x6c :: 0x6c :: r => some (.null, r)
    | r => (number r).map fun p => (.num p.1, p.2)

/-- The elements of an array up to its closing bracket. -/
def elementsOf : Nat → Bytes → Option (List Json × Bytes)
  | 0, _ => none
  | n + 1, b =>
    match value n b with
    | none => none
    | some (v, r) =>
      match skip r with
      | 0x2c :: r => (elementsOf n r).map fun p => (v :: p.1, p.2)
      | 0x5d :: r => some ([v], r)
      | _ => none

/-- The members of an object up to its closing brace. -/
def membersOf : Nat → Bytes → Option (List (Bytes × Json) × Bytes)
  | 0, _ => none
  | n + 1, b =>
    match skip b with
    | 0x22 :: r =>
      match string (r.length + 1) r with
      | none => none
      | some (k, r) =>
        match skip r with
        | 0x3a :: r =>
          match value n r with
          | none => none
          | some (v, r) =>
            match skip r with
            | 0x2c :: r => (membersOf n r).map fun p => ((k, v) :: p.1, p.2)
            | 0x7d :: r => some ([(k, v)], r)
            | _ => none
        | _ => none
    | _ => none
end

/-- The value of a whole text, `none` if the text is not JSON. -/
def parse (b : Bytes) : Option Json :=
  match value (2 * b.length + 2) b with
  | some (v, r) => if skip r = [] then some v else none
  | none => none

/-- `strconv.ParseInt(s, 10, 64)` of a number of a JSON text. -/
def parseInt (t : Bytes) : Option Int :=
  match t with
  | 0x2d :: ds => if ds ≠ [] ∧ ds.all isDigit ∧ decVal ds ≤ 2 ^ 63 then some (-(decVal ds : Int)) else none
  | ds => if ds ≠ [] ∧ ds.all isDigit ∧ decVal ds < 2 ^ 63 then some (decVal ds) else none
where
  /-- The value of the digits. -/
  decVal : Bytes → Nat := fun ds => ds.foldl (fun a d => a * 10 + (d - 0x30).toNat) 0

end Verif.Json
