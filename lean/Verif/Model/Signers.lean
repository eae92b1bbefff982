import Verif.Model.BigBang
import Verif.Model.Elastos
import Verif.Model.Wayki
import Verif.Model.Filenet
import Verif.Model.Moac
import Verif.Model.Ripple
import Verif.Model.Ontology

/-! The signing functions of seven packages. In all of them `sign key hash` is the external `owcrypt.Signature(key, nil, hash, curve)`; `none`
is a result code other than SUCCESS. A nil key is the empty list. -/

namespace Verif

/-- `SignTransactionHash` [bigbangTransaction/transaction.go:26-43]. -/
def BigBang.signTransactionHash (sign : Bytes → Bytes → Option Bytes) (hash prikey : Bytes) : Res Bytes :=
  match Hex.decode hash with
  | .ok h =>
    if h.length ≠ 32 then .err
    else if prikey.length ≠ 32 then .err
    else
      match sign prikey h with
      | none => .err
      | some sig => .ok (Hex.encode sig)
  | _ => .err

/-- `SignRawTransaction` [elastosTransaction/transaction.go:53-65]. -/
def Elastos.signRawTransaction (sign : Bytes → Bytes → Option Bytes) (hash prikey : Bytes) : Res Bytes :=
  match Hex.decode hash with
  | .ok h =>
    match sign prikey h with
    | none => .err
    | some sig => .ok sig
  | _ => .err

/-- `SignRawTransaction` [waykichainTransaction/transaction.go:47-59]. -/
def Wayki.signRawTransaction (sign : Bytes → Bytes → Option Bytes) (hash prikey : Bytes) : Res Bytes :=
  match Hex.decode hash with
  | .ok h =>
    match sign prikey h with
    | none => .err
    | some sig => .ok sig
  | _ => .err

/-- `SignTransaction` [filenetTransaction/transaction.go:36-52]. -/
def Filenet.signTransaction (sign : Bytes → Bytes → Option Bytes) (hash prikey : Bytes) : Res Bytes :=
  if hash = [] ∨ prikey.length ≠ 32 then .err
  else
    match Hex.decode hash with
    | .ok h =>
      if h.length ≠ 32 then .err
      else
        match sign prikey h with
        | none => .err
        | some sig => .ok (Hex.encode sig)
    | _ => .err

/-- `SignRawTransaction` [moacchainTransaction/transaction.go:23-33]; here `sign` also returns the recovery byte. -/
def Moac.signRawTransaction (sign : Bytes → Bytes → Option (Bytes × UInt8)) (hash prikey : Bytes) : Res Bytes :=
  match Hex.decode hash with
  | .ok h =>
    if h.length ≠ 32 then .err
    else
      match sign prikey h with
      | none => .err
      | some (sig, v) => .ok (sig ++ [v])
  | _ => .err

/-- `SignRawTransaction` [rippleTransaction/transaction.go:19-29]. The text of `serilizeS` [txUtils.go:97-114] and its constants are those of
`btcTransaction`; its `sig[32:]` panics on short results. -/
def Ripple.signRawTransaction (sign : Bytes → Bytes → Option Bytes) (hash prikey : Bytes) : Res Bytes :=
  match Hex.decode hash with
  | .ok h =>
    match sign prikey h with
    | none => .err
    | some sig => if sig.length < 32 then .panic else .ok (Hex.encode (Btc.serilizeS sig))
  | _ => .err

namespace Ontology

/-- `CurveOrder` [ontologyTransaction/txProfile.go:55]: the order of secp256r1. -/
def curveOrder : Nat := 0xffffffff00000000ffffffffffffffffbce6faada7179e84f3b9cac2fc632551

/-- `HalfCurveOrder` [ontologyTransaction/txProfile.go:56]. -/
def halfOrder : Nat := 0x7fffffff800000007fffffffffffffffde737d56d38bcf4279dce5617e3192a8

/-- `serilizeS` [ontologyTransaction/txSigPub.go:15-32] for slices of at least 32 bytes; the padding loop re-evaluates `len(s)`, and
`big.Int.Bytes` drops the sign. -/
def serilizeS (sig : Bytes) : Bytes :=
  let s := beNat (sig.drop 32)
  if s > halfOrder then
    sig.take 32 ++ OwKeychain.padLoop 32 0 (OwKeychain.bigBytes ((curveOrder : Int) - (s : Int)).natAbs)
  else sig

/-- The external functions of `calcSignaturePubkey` on secp256r1: `owcrypt.Signature`, `owcrypt.GenPubkey` (`none`: not SUCCESS) and
`owcrypt.PointCompress`. -/
structure Signer where
  sign : Bytes → Bytes → Option Bytes
  genPub : Bytes → Option Bytes
  compress : Bytes → Bytes

/-- `SignRawTransactionHash` [ontologyTransaction/transaction.go:80-86] with `calcSignaturePubkey` [txSigPub.go:34-53]. -/
def signRawTransactionHash (S : Signer) (txHash prikey : Bytes) : Res SigPub :=
  match Hex.decode txHash with
  | .ok h =>
    if h.length ≠ 32 ∨ prikey.length ≠ 32 then .err
    else
      match S.sign prikey h with
      | none => .err
      | some sig =>
        if sig.length < 32 then .panic
        else
          match S.genPub prikey with
          | none => .err
          | some pub => .ok ⟨serilizeS sig, S.compress pub⟩
  | _ => .err

end Ontology

end Verif
