import Verif.Model.Base58
import Verif.Model.Crypto
import Mathlib.Data.Nat.Digits.Defs

/-!
Model of package `owkeychain`: extended keys, hierarchical derivation, path parsing, the owprv/owpub/owchain texts.

External primitives (`go-owcrypt`, `crypto/hmac`, `crypto/sha512`) are parameters. `owkeychain/base58.go` is the same
algorithm as `addressEncoder/base58.go` (the tables are built once by `NewAlphabet`) and is modelled by `Verif.Base58`.
-/

namespace Verif.OwKeychain
open Verif

/-- The curve identifiers `owcrypt.ECC_CURVE_*` used by the package. Their numeric values live in the external
module; only the fact that they are different constants is used. -/
structure CurveIds where
  secp256k1 : UInt32
  secp256r1 : UInt32
  sm2 : UInt32
  ed25519Normal : UInt32
  ed25519 : UInt32
  x25519 : UInt32
  curve25519Sha256 : UInt32
  blsNul : UInt32
  blsAug : UInt32
  pasta : UInt32
  distinct : [secp256k1, secp256r1, sm2, ed25519Normal, ed25519, x25519, curve25519Sha256, blsNul, blsAug, pasta].Nodup

/-- The external functions: `hmac.New(sha512.New, key)` fed with `data`, `owcrypt.Point_mulBaseG(scalar, curve)`,
`owcrypt.Point_mulBaseG_add(point, scalar, curve)` (second result: the sum is the point at infinity),
`owcrypt.PointDecompress(point, curve)` and `owcrypt.PointCompress(point, curve)`. -/
structure Ext where
  ids : CurveIds
  H : Hashes
  hmac512 : Bytes → Bytes → Bytes
  hmac512_size : ∀ k d, (hmac512 k d).length = 64
  mulBaseG : UInt32 → Bytes → Bytes
  mulBaseGAdd : UInt32 → Bytes → Bytes → Bytes × Bool
  decompress : UInt32 → Bytes → Bytes
  compress : UInt32 → Bytes → Bytes

/-- `ExtendedKey` [extendedkey.go:48-56]. -/
structure ExtendedKey where
  depth : UInt8
  parentFP : Bytes
  serializes : UInt32
  chainCode : Bytes
  key : Bytes
  isPrivate : Bool
  curveType : UInt32
deriving DecidableEq

/-- `(*big.Int).Bytes()`: minimal big endian bytes (no leading zero; empty for 0). -/
def bigBytes (n : Nat) : Bytes := ((Nat.digits 256 n).map UInt8.ofNat).reverse

/-- Is the curve handled as ED25519 [extendedkey.go:107-110]? -/
def edLike (ids : CurveIds) (c : UInt32) : Bool :=
  c == ids.ed25519 || c == ids.x25519 || c == ids.curve25519Sha256

/-- Is it one of the two BLS12-381 identifiers [extendedkey.go:83, 178, 291]? -/
def isBls (ids : CurveIds) (c : UInt32) : Bool := c == ids.blsAug || c == ids.blsNul

/-- `typeChoose` normalisation [extendedkey.go:107-109, 151-153, 199-201, 211-213, 248-250; hdkey.go:143-145]. -/
def typeChoose (ids : CurveIds) (c : UInt32) : UInt32 :=
  if c == ids.x25519 || c == ids.curve25519Sha256 then ids.ed25519 else c

/-- `getCurveOrder` followed by `SetBytes` [hdprofile.go:33-68]: the order as a number, 0 for an unknown curve
(Go: nil slice). -/
def curveOrder (ids : CurveIds) (c : UInt32) : Nat :=
  if c = ids.secp256k1 then 0xfffffffffffffffffffffffffffffffebaaedce6af48a03bbfd25e8cd0364141
  else if c = ids.secp256r1 then 0xffffffff00000000ffffffffffffffffbce6faada7179e84f3b9cac2fc632551
  else if c = ids.sm2 then 0xfffffffeffffffffffffffffffffffff7203df6b21c6052b53bbf40939d54123
  else if c = ids.ed25519 ∨ c = ids.ed25519Normal ∨ c = ids.x25519 ∨ c = ids.curve25519Sha256 then
    0x1000000000000000000000000000000014def9dea2f79cd65812631a5cf5d3ed
  else if c = ids.blsNul ∨ c = ids.blsAug then 0x73eda753299d7d483339d80809a1d80553bda402fffe5bfeffffffff00000001
  else if c = ids.pasta then 2 ^ 256 - 1
  else 0

/-- The loop `for hm[0] >= curveoeder_bls12_381[0] { hm[0]-- }` [extendedkey.go:84-86, 292-294]: it stops at 0x72 or at
the original value if that is smaller. -/
def clampBls : Bytes → Bytes
  | [] => []
  | b :: bs => (if b ≥ 0x73 then 0x72 else b) :: bs

/-- Zero the first three bytes [extendedkey.go:88-92]. -/
def zero3 (b : Bytes) : Bytes := (b.take 3).map (fun _ => 0) ++ b.drop 3

/-- `getI` [extendedkey.go:73-95]: HMAC-SHA512 under the chain code of the (zero-padded) key data and the index. -/
def getI (E : Ext) (data chainCode : Bytes) (serializes c : UInt32) : Bytes :=
  let hm := E.hmac512 chainCode
    ((if data.length = 32 then [0] else []) ++ data ++ beBytes 4 serializes.toNat)
  let hm := if isBls E.ids c then clampBls hm else hm
  if c == E.ids.pasta then zero3 hm else hm

/-- The padding loop `for i := 0; i < 32-len(s); i++ { s = append([]byte{0}, s...) }` [extendedkey.go:122-126,
141-145]; `len(s)` is re-evaluated at every iteration. The first argument bounds the number of iterations (every
iteration lengthens `s`, so 32 is enough). -/
def padLoop : Nat → Nat → Bytes → Bytes
  | 0, _, s => s
  | f + 1, i, s => if i < 32 - s.length then padLoop f (i + 1) (0 :: s) else s

/-- `getPriChildViaPriParent` [extendedkey.go:105-148]; `none` is `ErrInvalidChild`. -/
def priChild (E : Ext) (il prikey : Bytes) (c : UInt32) : Option Bytes :=
  let c := typeChoose E.ids c
  if edLike E.ids c then
    let sum := leNat (il.take 28) * 8 + leNat prikey
    if sum % curveOrder E.ids c = 0 then none
    else some (padLoop 32 0 (bigBytes sum)).reverse
  else
    let n := curveOrder E.ids c
    if beNat il ≥ n ∨ beNat il = 0 then none
    else
      let sum := (beNat il + beNat prikey) % n
      if sum = 0 then none else some (padLoop 32 0 (bigBytes sum))

/-- `getPubChildViaPubParent` [extendedkey.go:150-192]. Here the loop bound `32-il2Len` is fixed, so the padding
is complete: the scalar is the 32-byte little endian form of `8*ilNum` (which is below 2^227). -/
def pubChild (E : Ext) (il pubkey : Bytes) (c : UInt32) : Res Bytes :=
  let c := typeChoose E.ids c
  if edLike E.ids c then
    match E.mulBaseGAdd c pubkey (leBytes 32 (leNat (il.take 28) * 8)) with
    | (p, inf) => if inf then .err else .ok p
  else
    let n := curveOrder E.ids c
    if beNat il ≥ n ∨ beNat il = 0 then .err
    else if isBls E.ids c then
      match E.mulBaseGAdd c pubkey il with
      | (p, inf) => if inf then .err else .ok p
    else do
      let parent := E.decompress c pubkey
      let tail ← slice parent 1 parent.length
      match E.mulBaseGAdd c tail il with
      | (p, inf) => if inf then .err else .ok (E.compress c p)

/-- `getFP` [extendedkey.go:194-206]. -/
def getFP (E : Ext) (key : Bytes) (isPrivate : Bool) (c : UInt32) : Bytes :=
  if !isPrivate then (E.H.hash .hash160 key).take 4
  else (E.H.hash .hash160 (E.mulBaseG (typeChoose E.ids c) key)).take 4

/-- `GenPrivateChild` [extendedkey.go:209-243]. -/
def genPrivateChild (E : Ext) (k : ExtendedKey) (serializes : UInt32) : Res ExtendedKey :=
  let c := typeChoose E.ids k.curveType
  if k.depth = 255 then .err
  else if !k.isPrivate then .err
  else
    let i := if serializes ≥ 0x80000000 then getI E k.key k.chainCode serializes c
      else getI E (E.mulBaseG c k.key) k.chainCode serializes c
    match priChild E (i.take 32) k.key c with
    | none => .err
    | some childKey => .ok
      { depth := k.depth + 1, parentFP := getFP E k.key k.isPrivate c, serializes := serializes,
        chainCode := i.drop 32, key := childKey, isPrivate := true, curveType := k.curveType }

/-- `GenPublicChild` [extendedkey.go:246-276] (also `DerivedPublicKeyFromSerializes`, hdkey.go:136-138). -/
def genPublicChild (E : Ext) (k : ExtendedKey) (serializes : UInt32) : Res ExtendedKey :=
  let c := typeChoose E.ids k.curveType
  if !k.isPrivate then
    if serializes ≥ 0x80000000 then .err
    else do
      let i := getI E k.key k.chainCode serializes c
      let childKey ← pubChild E (i.take 32) k.key c
      .ok { depth := k.depth + 1, parentFP := getFP E k.key false c, serializes := serializes,
            chainCode := i.drop (i.length / 2), key := childKey, isPrivate := false, curveType := k.curveType }
  else do
    let child ← genPrivateChild E k serializes
    .ok { depth := k.depth + 1, parentFP := child.parentFP, serializes := serializes,
          chainCode := child.chainCode, key := E.mulBaseG c child.key, isPrivate := false, curveType := k.curveType }

/-- `InitRootKeyFromSeed` [extendedkey.go:279-301]. -/
def initRootKey (E : Ext) (seed : Bytes) (curveType : UInt32) : Res ExtendedKey :=
  if seed.length < 16 ∨ seed.length > 64 then .err
  else
    let i := E.H.hash .sha512 seed
    let i := if edLike E.ids curveType then
        (i.modify 0 (fun b => b &&& 248)).modify 31 (fun b => (b &&& 63) ||| 64) else i
    let i := if isBls E.ids curveType then clampBls i else i
    let i := if curveType == E.ids.pasta then i.modify 0 (fun b => b &&& 3) else i
    .ok { depth := 0, parentFP := [0, 0, 0, 0], serializes := 0, chainCode := i.drop 32, key := i.take 32,
          isPrivate := true, curveType := curveType }

/-- `GetPublicKeyBytes` [hdkey.go:141-151]. -/
def publicKeyBytes (E : Ext) (k : ExtendedKey) : Bytes :=
  if k.isPrivate then E.mulBaseG (typeChoose E.ids k.curveType) k.key else k.key

/-- `GetUncompressedPublicKeyBytes` [hdkey.go:154-163]: the curve identifier is used as it is; `[1:]` of an empty result panics. -/
def uncompressedPublicKeyBytes (E : Ext) (k : ExtendedKey) : Res Bytes :=
  match E.decompress k.curveType (if k.isPrivate then E.mulBaseG k.curveType k.key else k.key) with
  | [] => .panic
  | _ :: b => .ok b

/-- `GetPublicKey` [hdkey.go:166-176]. -/
def getPublicKey (E : Ext) (k : ExtendedKey) : ExtendedKey :=
  if !k.isPrivate then k
  else { k with key := E.mulBaseG (typeChoose E.ids k.curveType) k.key, isPrivate := false }

/-- `GetPrivateKeyBytes` [hdkey.go:179-184]. -/
def privateKeyBytes (k : ExtendedKey) : Res Bytes := if k.isPrivate then .ok k.key else .err

/-! ### Paths -/

/-- Value of a string of decimal digits (part of Go `strconv.Atoi`). -/
def decVal (s : Bytes) : Nat := s.foldl (fun v d => 10 * v + (d.toNat - 48)) 0

/-- Go `strconv.Atoi` (64-bit): optional sign, at least one digit, value in the int64 range. -/
def atoi (s : Bytes) : Option Int :=
  let (neg, ds) := match s with
    | 0x2d :: r => (true, r)
    | 0x2b :: r => (false, r)
    | r => (false, r)
  if ds.isEmpty then none
  else if ds.all (fun d => 0x30 ≤ d && d ≤ 0x39) then
    let v : Int := if neg then -(decVal ds : Int) else decVal ds
    if -(2 ^ 63 : Int) ≤ v ∧ v < 2 ^ 63 then some v else none
  else none

/-- Go `strings.Split` with a one-byte separator. -/
def splitOn (sep : UInt8) : Bytes → List Bytes
  | [] => [[]]
  | x :: xs =>
    if x = sep then [] :: splitOn sep xs
    else match splitOn sep xs with
      | h :: t => (x :: h) :: t
      | [] => [[x]]

/-- Go conversion `uint32(index)` of a 64-bit int. -/
def toUint32 (i : Int) : UInt32 := UInt32.ofNat (i % 2 ^ 32).toNat

/-- One path component [hdkey.go:38-57, 105-124]: `strings.Index(elem, "'") == len(elem)-1` marks a hardened index;
the addition of `HardenedKeyStart` is on uint32. -/
def pathIndex (elem : Bytes) : Option UInt32 :=
  if elem.isEmpty then none
  else if elem.idxOf 0x27 = elem.length - 1 then
    (atoi elem.dropLast).map (fun i => toUint32 i + 0x80000000)
  else (atoi elem).map toUint32

/-- The loops over the components [hdkey.go:38-64, 105-130]; `step` is `GenPrivateChild` / `GenPublicChild`. -/
def walk (step : ExtendedKey → UInt32 → Res ExtendedKey) : List Bytes → ExtendedKey → Res ExtendedKey
  | [], k => .ok k
  | e :: es, k =>
    match pathIndex e with
    | none => .err
    | some i =>
      match step k i with
      | .ok k' => walk step es k'
      | .err => .err
      | .panic => .panic

/-- `DerivedPrivateKeyWithPath` [hdkey.go:17-66]. -/
def derivePrivate (E : Ext) (seed path : Bytes) (curveType : UInt32) : Res ExtendedKey :=
  let path := path.filter (fun b => b ≠ 0x20)
  if path = asc "m" ∨ path = asc "/" ∨ path = [] then initRootKey E seed curveType
  else if ¬ (asc "m/").isPrefixOf path then .err
  else
    match initRootKey E seed curveType with
    | .ok root => walk (genPrivateChild E) (splitOn 0x2f (path.drop 2)) root
    | .err => .err
    | .panic => .panic

/-- `DerivedPublicKeyFromPath` [hdkey.go:97-133]. -/
def derivePublicFromPath (E : Ext) (k : ExtendedKey) (path : Bytes) : Res ExtendedKey :=
  let path := path.filter (fun b => b ≠ 0x20)
  if ¬ (asc "/").isPrefixOf path then .err
  else walk (genPublicChild E) ((splitOn 0x2f path).drop 1) k

/-- `CoinType` and the two predefined coins [hdprofile.go:12-22]. -/
structure CoinType where
  hdIndex : UInt32
  curveType : UInt32

/-- `openwalletPrePath` [hdprofile.go:9]. -/
def prePath : Bytes := asc "m/44'/88'"

/-- `GetCoinRootPublicKey` [hdkey.go:68-78]. -/
def coinRootPublicKey (E : Ext) (seed : Bytes) (coin : CoinType) : Res ExtendedKey := do
  let tmp ← derivePrivate E seed prePath coin.curveType
  genPublicChild E tmp coin.hdIndex

/-- `DerivedPrivateKeyBytes` [hdkey.go:80-94]. -/
def derivedPrivateKeyBytes (E : Ext) (seed : Bytes) (coin : CoinType) (serializes : UInt32) : Res Bytes := do
  let tmp ← derivePrivate E seed prePath coin.curveType
  let root ← genPrivateChild E tmp coin.hdIndex
  let k ← genPrivateChild E root serializes
  .ok k.key

/-! ### owprv / owpub texts -/

/-- `BitcoinAlphabet` [base58.go:15]. -/
def alphabet : Bytes := asc "123456789ABCDEFGHJKLMNPQRSTUVWXYZabcdefghijkmnopqrstuvwxyz"

/-- The version prefixes [hdprofile.go:25-27]. -/
def owprvPrefix : Bytes := [0x07, 0xa8, 0x10, 0x0c, 0x28]
def owpubPrefix : Bytes := [0x07, 0xa8, 0x10, 0x31, 0xa2]
def owpubPrefixBLS : Bytes := [0x3e, 0x00, 0xfa, 0xea, 0x69]

/-- `Base58checkEncode` [owencode.go:16-30] (two nested `sha256` calls are the double SHA-256). -/
def b58CheckEncode (H : Hashes) (data fix : Bytes) : Res Bytes :=
  Base58.encode alphabet (fix ++ data ++ (H.hash .doubleSha256 (fix ++ data)).take 4)

/-- The loop comparing `fix` with the first bytes of the decoded text [owencode.go:38-42], indexing it. -/
def cmpPrefix : Bytes → Bytes → Res Unit
  | [], _ => .ok ()
  | _ :: _, [] => .panic
  | f :: fs, d :: ds => if f ≠ d then .err else cmpPrefix fs ds

/-- `Base58checkDecode` [owencode.go:32-52]. -/
def b58CheckDecode (H : Hashes) (text fix : Bytes) : Res Bytes := do
  let d ← Base58.decode alphabet text
  cmpPrefix fix d
  if d.length < 4 then .panic
  let body ← slice d 0 (d.length - 4)
  if (H.hash .doubleSha256 body).take 4 ≠ d.drop (d.length - 4) then .err
  slice d fix.length (d.length - 4)

/-- Does the serialised key carry a zero byte before the key data [owencode.go:71, 115]? -/
def padded (ids : CurveIds) (curveType : UInt32) (isPrivate : Bool) : Bool := edLike ids curveType || isPrivate

/-- `OWEncode` [owencode.go:64-83]. -/
def owEncode (E : Ext) (k : ExtendedKey) : Res Bytes :=
  let data := beBytes 4 k.curveType.toNat ++ [k.depth] ++ k.parentFP ++ beBytes 4 k.serializes.toNat ++ k.chainCode ++
    (if padded E.ids k.curveType k.isPrivate then [0] else []) ++ k.key
  if k.isPrivate then b58CheckEncode E.H data owprvPrefix
  else if isBls E.ids k.curveType then b58CheckEncode E.H data owpubPrefixBLS
  else b58CheckEncode E.H data owpubPrefix

/-- The field extraction at the end of `OWDecode` [owencode.go:110-124]. -/
def owFields (ids : CurveIds) (d : Bytes) (isPrivate : Bool) : Res ExtendedKey := do
  let ct ← slice d 0 4
  let curveType := UInt32.ofNat (beNat ct)
  let depth ← index d 4
  let parentFP ← slice d 5 9
  let se ← slice d 9 13
  let chainCode ← slice d 13 45
  if padded ids curveType isPrivate then
    let z ← index d 45
    if z ≠ 0 then .err
    let key ← slice d 46 d.length
    .ok { depth := depth, parentFP := parentFP, serializes := UInt32.ofNat (beNat se), chainCode := chainCode,
          key := key, isPrivate := isPrivate, curveType := curveType }
  else
    let key ← slice d 45 d.length
    .ok { depth := depth, parentFP := parentFP, serializes := UInt32.ofNat (beNat se), chainCode := chainCode,
          key := key, isPrivate := isPrivate, curveType := curveType }

/-- `OWDecode` [owencode.go:85-125]. -/
def owDecode (E : Ext) (text : Bytes) : Res ExtendedKey :=
  if (asc "owpub").isPrefixOf text then
    match b58CheckDecode E.H text owpubPrefix with
    | .panic => .panic
    | .ok d => owFields E.ids d false
    | .err => do
      let d ← b58CheckDecode E.H text owpubPrefixBLS
      owFields E.ids d false
  else if (asc "owprv").isPrefixOf text then do
    let d ← b58CheckDecode E.H text owprvPrefix
    owFields E.ids d true
  else .err

/-! ### owchain texts -/

/-- `ChainPrefix` [multisig.go:8]. -/
def chainPrefix : Bytes := [0x08, 0x61, 0x24, 0x96, 0x12, 0xae, 0x5c]

/-- `MultiSigShare` [multisig.go:10-14]. -/
structure MultiSigShare where
  pubkey : Bytes
  chainCode : Bytes
  curveType : UInt32
deriving DecidableEq

/-- `ChianEncode` [multisig.go:16-28]. -/
def chainEncode (ms : MultiSigShare) : Res Bytes :=
  Base58.encode alphabet (chainPrefix ++ (if ms.pubkey.length = 32 then [0] else []) ++ ms.pubkey ++ ms.chainCode ++
    beBytes 4 ms.curveType.toNat)

/-- `ChainDecode` [multisig.go:30-58]. -/
def chainDecode (text : Bytes) : Res MultiSigShare :=
  if ¬ (asc "owchain").isPrefixOf text then .err
  else do
    let d ← Base58.decode alphabet text
    if d.length ≠ 76 then .err
    cmpPrefix chainPrefix d
    let p ← slice d 7 40
    let z ← index p 0
    let pubkey ← if z = 0 then slice p 1 p.length else .ok p
    let cc ← slice d 40 72
    let ct ← slice d 72 d.length
    .ok { pubkey := pubkey, chainCode := cc, curveType := UInt32.ofNat (beNat ct) }

/-- `GetMultiSigShareData` [multisig.go:60-77]. -/
def shareData (E : Ext) (owpub : Bytes) : Res Bytes := do
  let k ← owDecode E owpub
  let k := if k.isPrivate then getPublicKey E k else k
  chainEncode { pubkey := k.key, chainCode := k.chainCode, curveType := k.curveType }

end Verif.OwKeychain
