import Verif.Model.Base

/-!
`addressEncoder/base64.go`: the `Encoding` type, its constructor, encoder and decoder. The fields are unexported and
`NewEncoding` is the only constructor, so the padding character is always `=` and `strict` is always false: the two fields are left out
(the code for `NoPadding` and for `strict` is not modelled). The zero value `Encoding{}` is not modelled.
-/

namespace Verif.AddrBase64
open Verif

/-- base64.go:10-15. `decodeMap` is the array as a function of the byte; its 257th entry is never read. -/
structure Encoding where
  encode : Bytes
  decodeMap : UInt8 → UInt8

/-- base64.go:36-41: all entries 0xff, then `decodeMap[encoder[i]] = i` for increasing `i`, from index `i` on. -/
def fillMap : Bytes → Nat → (UInt8 → UInt8) → (UInt8 → UInt8)
  | [], _, m => m
  | c :: r, i, m => fillMap r (i + 1) (fun x => if x = c then UInt8.ofNat i else m x)

/-- Go's `copy(dst, src)`: overwrites the first `min(len(dst), len(src))` bytes of `dst`. -/
def copy (dst src : Bytes) : Bytes := src.take dst.length ++ dst.drop src.length

/-- base64.go:22-43 (`NewEncoding`). `new(Encoding)` leaves `encode` nil, and `copy` does not lengthen its destination. -/
def newEncoding (encoder : Bytes) : Res Encoding :=
  if encoder.length ≠ 64 then .panic
  else if encoder.any (fun c => c = 0x0a ∨ c = 0x0d) then .panic
  else .ok { encode := copy [] encoder, decodeMap := fillMap encoder 0 (fun _ => 0xff) }

/-- base64.go:45-50. -/
def encodedLen (n : Nat) : Nat := (n + 2) / 3 * 4

/-- base64.go:52-59. -/
def decodedLen (n : Nat) : Nat := n / 4 * 3

/-- `dst[i] = x`: panics when out of range. -/
def store (dst : Bytes) (i : Nat) (x : UInt8) : Res Bytes := if i < dst.length then .ok (dst.set i x) else .panic

/-- One assignment `dst[i] = enc.encode[v&0x3F]`. -/
def storeSym (e : Encoding) (dst : Bytes) (i v : Nat) : Res Bytes := do
  let c ← index e.encode (v % 64)
  store dst i c

/-- base64.go:61-106 (`Encode`), from offset `di` of `dst` on. The three-byte loop and the remainder in one recursion. -/
def encodeFrom (e : Encoding) : Bytes → Bytes → Nat → Res Bytes
  | dst, x :: y :: z :: r, di => do
    let val := x.toNat * 65536 + y.toNat * 256 + z.toNat
    let dst ← storeSym e dst di (val / 262144)
    let dst ← storeSym e dst (di + 1) (val / 4096)
    let dst ← storeSym e dst (di + 2) (val / 64)
    let dst ← storeSym e dst (di + 3) val
    encodeFrom e dst r (di + 4)
  | dst, [x, y], di => do
    let val := x.toNat * 65536 + y.toNat * 256
    let dst ← storeSym e dst di (val / 262144)
    let dst ← storeSym e dst (di + 1) (val / 4096)
    let dst ← storeSym e dst (di + 2) (val / 64)
    store dst (di + 3) 0x3d
  | dst, [x], di => do
    let val := x.toNat * 65536
    let dst ← storeSym e dst di (val / 262144)
    let dst ← storeSym e dst (di + 1) (val / 4096)
    let dst ← store dst (di + 2) 0x3d
    store dst (di + 3) 0x3d
  | dst, [], _ => .ok dst

/-- base64.go:315-319 (`Base64Encode`). -/
def base64Encode (e : Encoding) (src : Bytes) : Res Bytes :=
  encodeFrom e (List.replicate (encodedLen src.length) 0) src 0

/-- base64.go:109-126, 131-164: the values of the first `k` characters, none when one of them is not in the alphabet.
The source has at least `k` characters when this is called. -/
def digits (e : Encoding) : Nat → Bytes → Option (List Nat)
  | 0, _ => some []
  | _ + 1, [] => none
  | k + 1, c :: r => if e.decodeMap c = 0xff then none else (digits e k r).map (fun ds => (e.decodeMap c).toNat :: ds)

/-- The value of six-bit digits, most significant first: `n << 58 | n << 52 | …` up to the final shift. The digits are below 64,
so that `|` of the shifted values is their sum. -/
def joinDigits (ds : List Nat) : Nat := ds.foldl (fun a d => a * 64 + d) 0

/-- base64.go:108-128 (`decode32`): four digits, shifted by 26, 20, 14 and 8. -/
def decode32 (e : Encoding) (src : Bytes) : Option Nat := (digits e 4 src).map (fun ds => joinDigits ds * 2 ^ 8)

/-- base64.go:130-166 (`decode64`): eight digits, shifted by 58, 52, …, 16. -/
def decode64 (e : Encoding) (src : Bytes) : Option Nat := (digits e 8 src).map (fun ds => joinDigits ds * 2 ^ 16)

/-- base64.go:216-218, 232-234: skip over newlines. -/
def skipNl : Bytes → Bytes
  | c :: r => if c = 0x0a ∨ c = 0x0d then skipNl r else c :: r
  | [] => []

/-- How the loop of `decodeQuantum` is left: by `return si, 0, err`, or with `dlen` digits to convert. The position `si` is
`len(src) - len(rest)`. -/
inductive Quantum where
  | ret (rest : Bytes) (err : Option Nat)
  | conv (rest : Bytes) (dbuf : List Nat) (err : Option Nat)
deriving DecidableEq, Repr

/-- base64.go:231-240: the end of the padded branch. -/
def padded (total : Nat) (rest : Bytes) (dbuf : List Nat) : Quantum :=
  let r := skipNl rest
  .conv r dbuf (if r = [] then none else some (total - r.length))

/-- base64.go:179-241, the loop of `decodeQuantum`; `dbuf` holds the `j` digits read so far, `total` is `len(src)`. -/
def quantum (e : Encoding) (total : Nat) : Bytes → List Nat → Quantum
  | [], dbuf =>
    if dbuf.length = 4 then .conv [] dbuf none
    else if dbuf.length = 0 then .ret [] none
    else .ret [] (some (total - dbuf.length))
  | c :: r, dbuf =>
    if dbuf.length = 4 then .conv (c :: r) dbuf none
    else if e.decodeMap c ≠ 0xff then quantum e total r (dbuf ++ [(e.decodeMap c).toNat])
    else if c = 0x0a ∨ c = 0x0d then quantum e total r dbuf
    else if c ≠ 0x3d then .ret r (some (total - r.length - 1))
    else if dbuf.length ≤ 1 then .ret r (some (total - r.length - 1))
    else if dbuf.length = 2 then
      match skipNl r with
      | [] => .ret [] (some total)
      | d :: r' => if d ≠ 0x3d then .ret (d :: r') (some (total - (r'.length + 1) - 1)) else padded total r' dbuf
    else padded total r dbuf

/-- The bytes `bs` written at offset `n` (Go's `PutUint64(dst[n:], …)` and assignments to `dst[n+i]`); the callers check the length. -/
def putAt (dst : Bytes) (n : Nat) (bs : Bytes) : Bytes := dst.take n ++ bs ++ dst.drop (n + bs.length)

/-- What a call of the decoder returns and leaves in `dst`. -/
structure Out where
  n : Nat
  err : Option Nat
  dst : Bytes
deriving DecidableEq, Repr

/-- base64.go:174-267 (`decodeQuantum`) on `dst[n:]`, with the caller's `n += ninc`. The digits of a padded quantum that were not read are 0.
`dst = dst[dinc:]` with `dinc = 3` panics when fewer than three bytes are left, as do the assignments before it. -/
def decodeQuantum (e : Encoding) (total : Nat) (dst : Bytes) (n : Nat) (rest : Bytes) : Res (Bytes × Out) :=
  match quantum e total rest [] with
  | .ret r err => .ok (r, ⟨n, err, dst⟩)
  | .conv r dbuf err =>
    let val := dbuf.getD 0 0 * 262144 + dbuf.getD 1 0 * 4096 + dbuf.getD 2 0 * 64 + dbuf.getD 3 0
    if dst.length - n < 3 then .panic
    else .ok (r, ⟨n + (dbuf.length - 1), err, putAt dst n ((beBytes 3 val).take (dbuf.length - 1))⟩)

/-- base64.go:305-313, the last loop. The first argument bounds the rounds; every round consumes a character. -/
def loop3 (e : Encoding) (total : Nat) : Nat → Bytes → Nat → Bytes → Res Out
  | 0, dst, n, _ => .ok ⟨n, none, dst⟩
  | f + 1, dst, n, rest =>
    if rest = [] then .ok ⟨n, none, dst⟩ else do
      let (rest, o) ← decodeQuantum e total dst n rest
      if o.err ≠ none then .ok o else loop3 e total f o.dst o.n rest

/-- base64.go:290-303, the loop over four characters at a time, and what follows it. -/
def loop2 (e : Encoding) (total : Nat) : Nat → Bytes → Nat → Bytes → Res Out
  | 0, dst, n, _ => .ok ⟨n, none, dst⟩
  | f + 1, dst, n, rest =>
    if 4 ≤ rest.length ∧ 4 ≤ dst.length - n then
      match decode32 e rest with
      | some dn => loop2 e total f (putAt dst n (beBytes 4 dn)) (n + 3) (rest.drop 4)
      | none => do
        let (rest, o) ← decodeQuantum e total dst n rest
        if o.err ≠ none then .ok o else loop2 e total f o.dst o.n rest
    else loop3 e total (f + 1) dst n rest

/-- base64.go:275-288, the loop over eight characters at a time (`strconv.IntSize` is 64), and what follows it. -/
def loop1 (e : Encoding) (total : Nat) : Nat → Bytes → Nat → Bytes → Res Out
  | 0, dst, n, _ => .ok ⟨n, none, dst⟩
  | f + 1, dst, n, rest =>
    if 8 ≤ rest.length ∧ 8 ≤ dst.length - n then
      match decode64 e rest with
      | some dn => loop1 e total f (putAt dst n (beBytes 8 dn)) (n + 6) (rest.drop 8)
      | none => do
        let (rest, o) ← decodeQuantum e total dst n rest
        if o.err ≠ none then .ok o else loop1 e total f o.dst o.n rest
    else loop2 e total (f + 1) dst n rest

/-- base64.go:269-314 (`Decode`). -/
def decode (e : Encoding) (dst src : Bytes) : Res Out :=
  if src = [] then .ok ⟨0, none, dst⟩ else loop1 e src.length (src.length + 1) dst 0 src

/-- base64.go:322-328 (`Base64Decode`). -/
def base64Decode (e : Encoding) (s : Bytes) : Res (Bytes × Option Nat) := do
  let e ← newEncoding e.encode
  let o ← decode e (List.replicate (decodedLen s.length) 0) s
  .ok (o.dst.take o.n, o.err)

end Verif.AddrBase64
