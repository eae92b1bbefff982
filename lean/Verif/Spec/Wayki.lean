import Verif.Model.Base

/-! The WaykiChain wire format, as a reader (written from the node's serialisation: `ReadVarInt`, CompactSize-prefixed byte vectors). -/

namespace Verif.Spec.Wicc
open Verif

/-- `ReadVarInt`: seven bits per byte, most significant first; a set top bit means "add one and continue". -/
def readVarInt (n : Nat) : Bytes → Option (Nat × Bytes)
  | [] => none
  | c :: r => if c.toNat < 128 then some (n * 128 + c.toNat, r) else readVarInt (n * 128 + (c.toNat - 128) + 1) r

def varInt (b : Bytes) : Option (Nat × Bytes) := readVarInt 0 b

def take (n : Nat) (b : Bytes) : Option (Bytes × Bytes) := if b.length < n then none else some (b.take n, b.drop n)

/-- A byte vector behind its CompactSize length. -/
def vec : Bytes → Option (Bytes × Bytes)
  | [] => none
  | c :: r =>
    if c.toNat < 253 then take c.toNat r
    else
      let w := if c.toNat = 253 then 2 else if c.toNat = 254 then 4 else 8
      (take w r).bind fun (l, r) => take (leNat l) r

/-- A register id: a vector holding two numbers (block height, index). -/
def regId (b : Bytes) : Option ((Nat × Nat) × Bytes) :=
  (vec b).bind fun (d, r) => (varInt d).bind fun (h, d) => (varInt d).bind fun (i, d) => if d = [] then some ((h, i), r) else none

/-- Type byte and version 1. -/
def header (ty : UInt8) : Bytes → Option Bytes
  | a :: b :: r => if a = ty ∧ b = 1 then some r else none
  | _ => none

structure Common where
  height : Nat
  sender : Nat × Nat
  receiver : Bytes
  fee : Nat
  amount : Nat
  memo : Bytes
deriving DecidableEq

/-- A base-coin transfer. -/
def common (b : Bytes) : Option Common := do
  let b ← header 3 b
  let (height, b) ← varInt b
  let (sender, b) ← regId b
  let (receiver, b) ← vec b
  let (fee, b) ← varInt b
  let (amount, b) ← varInt b
  let (memo, b) ← vec b
  if b = [] then some ⟨height, sender, receiver, fee, amount, memo⟩ else none

structure Register where
  height : Nat
  pubkey : Bytes
  minerKey : Bytes
  fee : Nat
deriving DecidableEq

/-- An account registration. -/
def register (b : Bytes) : Option Register := do
  let b ← header 2 b
  let (height, b) ← varInt b
  let (pubkey, b) ← vec b
  let (miner, b) ← vec b
  let (fee, b) ← varInt b
  if b = [] then some ⟨height, pubkey, miner, fee⟩ else none

structure Contract where
  height : Nat
  sender : Nat × Nat
  app : Nat × Nat
  fee : Nat
  amount : Nat
  args : Bytes
deriving DecidableEq

/-- A contract call. -/
def contract (b : Bytes) : Option Contract := do
  let b ← header 4 b
  let (height, b) ← varInt b
  let (sender, b) ← regId b
  let (app, b) ← regId b
  let (fee, b) ← varInt b
  let (amount, b) ← varInt b
  let (args, b) ← vec b
  if b = [] then some ⟨height, sender, app, fee, amount, args⟩ else none

structure Ucoin where
  height : Nat
  sender : Nat × Nat
  feeSymbol : Bytes
  fee : Nat
  receiver : Bytes
  coin : Bytes
  amount : Nat
  memo : Bytes
deriving DecidableEq

/-- A transfer of any coin, with one receiver. -/
def ucoin (b : Bytes) : Option Ucoin := do
  let b ← header 11 b
  let (height, b) ← varInt b
  let (sender, b) ← regId b
  let (feeSymbol, b) ← vec b
  let (fee, b) ← varInt b
  let (count, b) ← take 1 b
  if count ≠ [1] then none
  else
    let (receiver, b) ← vec b
    let (coin, b) ← vec b
    let (amount, b) ← varInt b
    let (memo, b) ← vec b
    if b = [] then some ⟨height, sender, feeSymbol, fee, receiver, coin, amount, memo⟩ else none

/-- The value of a decimal numeral. -/
def decimal (t : Bytes) : Nat := t.foldl (fun n c => n * 10 + (c.toNat - 0x30)) 0

/-- The text spells the register id `h-i`. -/
def SpellsRegId (t : Bytes) (h i : Nat) : Prop :=
  ∃ a b, t = a ++ asc "-" ++ b ∧ a ≠ [] ∧ b ≠ [] ∧ (∀ c ∈ a, 0x30 ≤ c.toNat ∧ c.toNat ≤ 0x39) ∧ (∀ c ∈ b, 0x30 ≤ c.toNat ∧ c.toNat ≤ 0x39) ∧
    decimal a = h ∧ decimal b = i

end Verif.Spec.Wicc
