import Verif.Model.Btc

/-!
`/repo/binancechainTransaction`. The message types, the address reader and the codecs are those of the external module
`binance-chain/go-sdk` (with tendermint's amino); they are parameters here (`Sdk`), and so are the curve functions of `go-owcrypt`.
-/

namespace Verif.Binance
open Verif

/-- `ctypes.Coin`. -/
structure Coin where
  denom : Bytes
  amount : Int
deriving DecidableEq

/-- `msg.Transfer`: the receiver and the coins sent. -/
structure Transfer where
  toAddr : Bytes
  coins : List Coin
deriving DecidableEq

/-- `tx.StdSignDoc`: the messages are raw JSON texts. -/
structure Doc where
  chainID : Bytes
  accountNumber : Int
  sequence : Int
  memo : Bytes
  msgs : List Bytes
  source : Int
  data : Bytes
deriving DecidableEq

/-- `tx.StdSignature`, the key as the 33 bytes `NewPubkey` copies. -/
structure StdSignature where
  accountNumber : Int
  sequence : Int
  pubKey : Bytes
  signature : Bytes
deriving DecidableEq

/-- `tx.StdTx`. -/
structure StdTx (M : Type) where
  msgs : List M
  signatures : List StdSignature
  memo : Bytes
  source : Int
  data : Bytes
deriving DecidableEq

/-- The functions of the SDK that are called; `M` is the type of messages.
`signBytes` is `tx.StdSignBytes`, of which `StdSignMsg.Bytes` is the call with the message's fields. `readDoc` is `Cdc.UnmarshalJSON` into a
`StdSignDoc`, `readMsg` is `json.Unmarshal` into a `SendMsg`; `marshalTx` and `unmarshalTx` are the length-prefixed binary codec. -/
structure Sdk (M : Type) where
  decodeAndConvert : Bytes → Option (Bytes × Bytes)
  createSendMsg : Bytes → List Coin → List Transfer → M
  signBytes : Bytes → Int → Int → List M → Bytes → Int → Bytes → Bytes
  readDoc : Bytes → Option Doc
  readMsg : Bytes → Option M
  marshalTx : StdTx M → Option Bytes
  unmarshalTx : Bytes → Option (StdTx M)

/-- profile.go:4. -/
def bech32Prefix : Bytes := asc "bnb"

/-- profile.go:5. -/
def chainID : Bytes := asc "Binance-Chain-Tigris"

/-- msg-send.go:10-41 (`CreateSendMsg`). -/
def createSendMsg {M : Type} (S : Sdk M) (fromAddress toAddress denom : Bytes) (amount : Int) : Res M :=
  match S.decodeAndConvert fromAddress with
  | none => .err
  | some (p, src) =>
    if p ≠ bech32Prefix then .err else
    match S.decodeAndConvert toAddress with
    | none => .err
    | some (p, to') =>
      if p ≠ bech32Prefix then .err
      else .ok (S.createSendMsg src [⟨denom, amount⟩] [⟨to', [⟨denom, amount⟩]⟩])

/-- transaction.go:12-32 (`CreateEmptyTransactionAndHash`); `Data` is nil. -/
def createEmptyTransactionAndHash {M : Type} (S : Sdk M) (H : Hashes) (fromAddress toAddress denom : Bytes)
    (amount accountNumber sequence source : Int) (memo : Bytes) : Res (Bytes × Bytes) := do
  let m ← createSendMsg S fromAddress toAddress denom amount
  let b := S.signBytes chainID accountNumber sequence [m] memo source []
  .ok (b, Hex.encode (H.hash .sha256 b))

/-- transaction.go:34-48 (`SignRawTransaction`). The text of `serilizeS` (utils.go:14-33) is that of `btcTransaction`; its `sig[32:]` panics on
short results. -/
def signRawTransaction (sign : Bytes → Bytes → Option Bytes) (hash prikey : Bytes) : Res Bytes :=
  match Hex.decode hash with
  | .ok h =>
    if h.length ≠ 32 then .err else
    match sign prikey h with
    | none => .err
    | some sig => if sig.length < 32 then .panic else .ok (Btc.serilizeS sig)
  | _ => .err

/-- transaction.go:50-107 (`VerifyAndCombineRawTransaction`): `stdSignDoc.Msgs[0]` panics without messages, and `[1:]` of a nil result of
`PointDecompress` panics. -/
def verifyAndCombineRawTransaction {M : Type} (S : Sdk M) (H : Hashes) (E : Btc.Curve) (emptyTrans signature pubkey : Bytes) : Res (Bool × Bytes) :=
  match S.readDoc emptyTrans with
  | none => .ok (false, [])
  | some doc => do
    let raw ← index doc.msgs 0
    match S.readMsg raw with
    | none => .ok (false, [])
    | some m =>
      match Hex.decode signature with
      | .ok sig =>
        if sig.length ≠ 64 then .ok (false, []) else
        match Hex.decode pubkey with
        | .ok pub =>
          if pub.length ≠ 33 then .ok (false, []) else do
            let p ← slice (E.decompress pub) 1 (E.decompress pub).length
            let hash := H.hash .sha256 (S.signBytes chainID doc.accountNumber doc.sequence [m] doc.memo doc.source doc.data)
            if E.verify p hash sig = false then .ok (false, []) else
            match S.marshalTx ⟨[m], [⟨doc.accountNumber, doc.sequence, pub, sig⟩], doc.memo, doc.source, doc.data⟩ with
            | none => .ok (false, [])
            | some bz => .ok (true, Hex.encode bz)
        | _ => .ok (false, [])
      | _ => .ok (false, [])

/-- transaction.go:109-118 (`DecodeRawTransaction`). -/
def decodeRawTransaction {M : Type} (S : Sdk M) (trx : Bytes) : Res (StdTx M) := Res.ofOption (S.unmarshalTx trx)

end Verif.Binance
