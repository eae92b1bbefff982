import Verif.Model.OwKeychain
import Verif.Model.AddressMemory

/-! Package `owkeychain` on slices in memory: which arrays the fields of a key share, and programs that use keys.

`crypto/sha512`, `crypto/hmac`, `math/big` and `go-owcrypt` return new arrays. Arrays that only a finished call could reach are left out. -/

namespace Verif.KeyMem
open Verif Verif.OwKeychain Verif.Mem

/-- `ExtendedKey` [extendedkey.go:48-56]. -/
structure Key where
  depth : UInt8
  parentFP : Slice
  serializes : UInt32
  chainCode : Slice
  key : Slice
  isPrivate : Bool
  curveType : UInt32

/-- The key as a value. -/
def Key.view (h : Heap) (k : Key) : ExtendedKey :=
  ⟨k.depth, read h k.parentFP, k.serializes, read h k.chainCode, read h k.key, k.isPrivate, k.curveType⟩

/-- `MultiSigShare` [multisig.go:10-14]. -/
structure Share where
  pubkey : Slice
  chainCode : Slice
  curveType : UInt32

/-- The share as a value. -/
def Share.view (h : Heap) (s : Share) : MultiSigShare := ⟨read h s.pubkey, read h s.chainCode, s.curveType⟩

variable (E : Ext)

/-- A key all of whose fields are in new arrays: the results of `GenPrivateChild` [extendedkey.go:234-243] and `GenPublicChild`
[extendedkey.go:258-276]. (The chain code is the second half of a 64-byte array whose first half nothing refers to any more, the fingerprint the
first four bytes of a hash.) -/
def fresh (h : Heap) (r : ExtendedKey) : Key × Heap :=
  let (fp, h) := alloc h r.parentFP
  let (cc, h) := alloc h r.chainCode
  let (k, h) := alloc h r.key
  (⟨r.depth, fp, r.serializes, cc, k, r.isPrivate, r.curveType⟩, h)

/-- `InitRootKeyFromSeed` [extendedkey.go:279-301]: key and chain code are the halves `i[:32]` and `i[32:]` of one array. -/
def initRootKey (h : Heap) (seed : Bytes) (c : UInt32) : Res (Key × Heap) := do
  let r ← OwKeychain.initRootKey E seed c
  let (i, h) := alloc h (r.key ++ r.chainCode)
  let (fp, h) := alloc h r.parentFP
  .ok (⟨r.depth, fp, r.serializes, i.sub 32 64, i.sub 0 32, r.isPrivate, r.curveType⟩, h)

/-- `GenPrivateChild` [extendedkey.go:209-243]. -/
def genPrivateChild (h : Heap) (k : Key) (i : UInt32) : Res (Key × Heap) := do
  let r ← OwKeychain.genPrivateChild E (k.view h) i
  .ok (fresh h r)

/-- `GenPublicChild` [extendedkey.go:246-276]. -/
def genPublicChild (h : Heap) (k : Key) (i : UInt32) : Res (Key × Heap) := do
  let r ← OwKeychain.genPublicChild E (k.view h) i
  .ok (fresh h r)

/-- `GetPublicKey` [hdkey.go:166-176]: a public key is returned itself; that of a private key shares chain code and fingerprint with it. -/
def getPublicKey (h : Heap) (k : Key) : Key × Heap :=
  if !k.isPrivate then (k, h)
  else
    let (p, h) := alloc h (E.mulBaseG (typeChoose E.ids k.curveType) (read h k.key))
    ({ k with key := p, isPrivate := false }, h)

/-- `OWDecode` [owencode.go:85-125]: all fields are parts of the array that `Decode` returns; it begins with the five bytes of the version and ends
with the four bytes of the checksum [owencode.go:51], which are spare capacity of the key. The checks are those of the model without memory. -/
def owDecode (h : Heap) (text : Bytes) : Res (Key × Heap) := do
  let r ← OwKeychain.owDecode E text
  let d ← Base58.decode OwKeychain.alphabet text
  let (w, h) := alloc h d
  let body := w.sub 5 (d.length - 4)
  .ok (⟨r.depth, body.sub 5 9, r.serializes, body.sub 13 45, body.sub (if padded E.ids r.curveType r.isPrivate then 46 else 45) body.len, r.isPrivate,
    r.curveType⟩, h)

/-- `GetPrivateKeyBytes` [hdkey.go:179-184]: the key's own slice. -/
def privateKeyBytes (k : Key) : Res Slice := if k.isPrivate then .ok k.key else .err

/-- `GetPublicKeyBytes` [hdkey.go:141-151]: the key's own slice for a public key. -/
def publicKeyBytes (h : Heap) (k : Key) : Slice × Heap :=
  if k.isPrivate then alloc h (E.mulBaseG (typeChoose E.ids k.curveType) (read h k.key)) else (k.key, h)

/-- `ChainDecode` [multisig.go:30-58]: key and chain code are parts of one array. -/
def chainDecode (h : Heap) (text : Bytes) : Res (Share × Heap) := do
  let r ← OwKeychain.chainDecode text
  let d ← Base58.decode OwKeychain.alphabet text
  let (w, h) := alloc h d
  let p := w.sub 7 40
  .ok (⟨if r.pubkey.length = 33 then p else p.sub 1 33, w.sub 40 72, r.curveType⟩, h)

/-! ### Programs -/

/-- What a program can do with keys, shares and byte slices; the numbers are positions in the lists of those it has obtained so far. -/
inductive Op where
  /-- `InitRootKeyFromSeed`. -/
  | root (seed : Bytes) (curve : UInt32)
  /-- `OWDecode`. -/
  | owDecode (text : Bytes)
  /-- `GenPrivateChild`. -/
  | privateChild (k : Nat) (i : UInt32)
  /-- `GenPublicChild` / `DerivedPublicKeyFromSerializes`. -/
  | publicChild (k : Nat) (i : UInt32)
  /-- `GetPublicKey`. -/
  | publicKey (k : Nat)
  /-- `GetPrivateKeyBytes`. -/
  | privateBytes (k : Nat)
  /-- `GetPublicKeyBytes`. -/
  | publicBytes (k : Nat)
  /-- `ChainDecode`. -/
  | chainDecode (text : Bytes)
  /-- The field `Pubkey` of a share. -/
  | sharePubkey (s : Nat)
  /-- Bytes of the program's own, with spare capacity. -/
  | bytes (b : Bytes) (spare : Nat)
  /-- The built-in function `append` on a byte slice. -/
  | append (b : Nat) (d : Bytes)
  /-- `AddressEncode` of a byte slice. -/
  | address (b : Nat) (a : Addr.AddressType)

/-- The state of a program. -/
structure World where
  heap : Heap
  keys : List Key
  shares : List Share
  bytes : List Slice

/-- The state at the beginning. -/
def World.empty : World := ⟨[], [], [], []⟩

/-- A key is added if the call succeeded. -/
def World.addKey (w : World) : Res (Key × Heap) → World
  | .ok (k, h) => { w with heap := h, keys := w.keys ++ [k] }
  | _ => w

/-- One operation; if a call fails or an argument does not exist nothing happens. -/
def exec (grow : Nat → Nat → Nat) (w : World) : Op → World
  | .root seed c => w.addKey (initRootKey E w.heap seed c)
  | .owDecode text => w.addKey (owDecode E w.heap text)
  | .privateChild k i => match w.keys[k]? with
    | some k => w.addKey (genPrivateChild E w.heap k i)
    | none => w
  | .publicChild k i => match w.keys[k]? with
    | some k => w.addKey (genPublicChild E w.heap k i)
    | none => w
  | .publicKey k => match w.keys[k]? with
    | some k => w.addKey (.ok (getPublicKey E w.heap k))
    | none => w
  | .privateBytes k => match w.keys[k]? with
    | some k => match privateKeyBytes k with
      | .ok s => { w with bytes := w.bytes ++ [s] }
      | _ => w
    | none => w
  | .publicBytes k => match w.keys[k]? with
    | some k => { w with heap := (publicKeyBytes E w.heap k).2, bytes := w.bytes ++ [(publicKeyBytes E w.heap k).1] }
    | none => w
  | .chainDecode text => match chainDecode w.heap text with
    | .ok (s, h) => { w with heap := h, shares := w.shares ++ [s] }
    | _ => w
  | .sharePubkey s => match w.shares[s]? with
    | some s => { w with bytes := w.bytes ++ [s.pubkey] }
    | none => w
  | .bytes b spare => { w with heap := w.heap ++ [b ++ List.replicate spare 0], bytes := w.bytes ++ [⟨w.heap.length, 0, b.length, b.length + spare⟩] }
  | .append b d => match w.bytes[b]? with
    | some s => { w with heap := (Mem.append grow w.heap s d).2, bytes := w.bytes ++ [(Mem.append grow w.heap s d).1] }
    | none => w
  | .address b a => match w.bytes[b]? with
    | some s => { w with heap := (AddrMem.addressEncode E.H grow w.heap s a).2 }
    | none => w

/-- A program. -/
def run (grow : Nat → Nat → Nat) (ops : List Op) : World := ops.foldl (exec E grow) World.empty

end Verif.KeyMem
