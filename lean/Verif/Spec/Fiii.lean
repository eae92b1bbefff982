import Verif.Spec.Json
import Verif.Spec.Btc
import Mathlib.Data.List.Forall2

/-! The JSON transactions of FiiiCoin, and the bytes whose SHA-256 is the transaction hash. -/

namespace Verif.Spec.Fiii
open Verif Verif.Spec

/-- An input: the transaction id as text and as bytes, the output number, the unlocking script (text). -/
structure In where
  txidText : Bytes
  txid : Bytes
  index : Int
  unlock : Bytes

/-- An output: amount and locking script (text). -/
structure Out where
  amount : Int
  lock : Bytes

/-- A transaction. -/
structure Tx where
  version : Int
  hash : Bytes
  timestamp : Int
  locktime : Int
  expired : Int
  ins : List In
  outs : List Out
  size : Int

/-- An input as JSON. -/
def IsInput (i : In) (j : Json) : Prop :=
  ∃ idx sz, IsDecimal idx i.index ∧ IsDecimal sz i.unlock.length ∧
    j = .obj [(asc "OutputTransactionHash", .str i.txidText), (asc "OutputIndex", .num idx), (asc "Size", .num sz), (asc "UnlockScript", .str i.unlock)]

/-- An output with its number as JSON. -/
def IsOutput (o : Out × Nat) (j : Json) : Prop :=
  ∃ idx amt sz, IsDecimal idx o.2 ∧ IsDecimal amt o.1.amount ∧ IsDecimal sz o.1.lock.length ∧
    j = .obj [(asc "Index", .num idx), (asc "Amount", .num amt), (asc "Size", .num sz), (asc "LockScript", .str o.1.lock)]

/-- A transaction as JSON. -/
def IsTx (t : Tx) (j : Json) : Prop :=
  ∃ ver ts lt ex ni no ins outs sz, IsDecimal ver t.version ∧ IsDecimal ts t.timestamp ∧ IsDecimal lt t.locktime ∧ IsDecimal ex t.expired ∧
    IsDecimal ni t.ins.length ∧ IsDecimal no t.outs.length ∧ IsDecimal sz t.size ∧ List.Forall₂ IsInput t.ins ins ∧
    List.Forall₂ IsOutput t.outs.zipIdx outs ∧
    j = .obj [(asc "Version", .num ver), (asc "Hash", .str t.hash), (asc "Timestamp", .num ts), (asc "Locktime", .num lt), (asc "ExpiredTime", .num ex),
      (asc "InputCount", .num ni), (asc "OutputCount", .num no), (asc "Inputs", .arr ins), (asc "Outputs", .arr outs), (asc "Size", .num sz)]

/-- An integer in `k` bytes, big endian, two's complement. -/
def be (k : Nat) (n : Int) : Bytes := beBytes k (n % 256 ^ k).toNat

/-- The bytes of a transaction that are hashed. -/
def body (t : Tx) : Bytes :=
  be 8 t.timestamp ++ be 8 t.locktime ++ be 8 t.expired ++ be 4 t.ins.length ++
    (t.ins.flatMap fun i => i.txid ++ be 4 i.index ++ be 4 i.unlock.length ++ i.unlock) ++
    be 4 t.outs.length ++ (t.outs.zipIdx.flatMap fun o => be 4 o.2 ++ be 8 o.1.amount ++ be 4 o.1.lock.length ++ o.1.lock)

/-- Hexadecimal with capital letters. -/
def hexUpper (b : Bytes) : Bytes :=
  b.flatMap fun x => [(asc "0123456789ABCDEF").getD (x.toNat / 16) 0, (asc "0123456789ABCDEF").getD (x.toNat % 16) 0]

/-- Pay to public key hash. -/
def lockText (h : Bytes) : Bytes := asc "OP_DUP OP_HASH160 " ++ hexUpper h ++ asc " OP_EQUALVERIFY OP_CHECKSIG"

/-- Signature and key (with the DER header of an Ed25519 key). -/
def unlockText (sig pub : Bytes) : Bytes := hexUpper sig ++ asc "[ALL] " ++ asc "302A300506032B6570032100" ++ hexUpper pub

/-- What is signed for an input. -/
def message (txid : Bytes) (index : Int) : Bytes := txid ++ be 4 index

end Verif.Spec.Fiii
