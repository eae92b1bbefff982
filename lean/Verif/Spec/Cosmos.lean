import Verif.Spec.Json
import Verif.Spec.Base64
import Mathlib.Data.List.Forall2

/-! The sign document of the Cosmos SDK (`StdSignDoc`, amino JSON) and the transaction (`StdTx`) sent to a node. -/

namespace Verif.Spec.Cosmos
open Verif Verif.Spec

/-- An amount of one kind of coin. -/
structure Coin where
  denom : Bytes
  amount : Int
deriving DecidableEq

/-- A transfer. -/
structure Msg where
  type : Bytes
  sender : Bytes
  recipient : Bytes
  amount : List Coin
deriving DecidableEq

/-- What is signed. -/
structure SignDoc where
  chainId : Bytes
  accountNumber : Int
  sequence : Int
  memo : Bytes
  gas : Int
  fee : List Coin
  msgs : List Msg

/-- A coin as JSON: the amount is a decimal number in a string. -/
def IsCoin (c : Coin) (j : Json) : Prop :=
  ∃ a, IsDecimal a c.amount ∧ j = .obj [(asc "amount", .str a), (asc "denom", .str c.denom)]

/-- Several coins. -/
def IsCoins (l : List Coin) (j : Json) : Prop := ∃ cs, List.Forall₂ IsCoin l cs ∧ j = .arr cs

/-- A transfer as JSON. -/
def IsMsg (m : Msg) (j : Json) : Prop :=
  ∃ cs, IsCoins m.amount cs ∧
    j = .obj [(asc "type", .str m.type),
      (asc "value", .obj [(asc "amount", cs), (asc "from_address", .str m.sender), (asc "to_address", .str m.recipient)])]

/-- Several transfers. -/
def IsMsgs (l : List Msg) (j : Json) : Prop := ∃ ms, List.Forall₂ IsMsg l ms ∧ j = .arr ms

/-- The fee. -/
def IsFee (fee : List Coin) (gas : Int) (j : Json) : Prop :=
  ∃ cs g, IsCoins fee cs ∧ IsDecimal g gas ∧ j = .obj [(asc "amount", cs), (asc "gas", .str g)]

/-- The sign document. -/
def IsSignDoc (d : SignDoc) (j : Json) : Prop :=
  ∃ acc seq fee msgs, IsDecimal acc d.accountNumber ∧ IsDecimal seq d.sequence ∧ IsFee d.fee d.gas fee ∧ IsMsgs d.msgs msgs ∧
    j = .obj [(asc "account_number", .str acc), (asc "chain_id", .str d.chainId), (asc "fee", fee), (asc "memo", .str d.memo),
      (asc "msgs", msgs), (asc "sequence", .str seq)]

end Verif.Spec.Cosmos
