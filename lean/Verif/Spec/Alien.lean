import Verif.Spec.Verge

/-! Independent specification of Aliencoin transactions: the Bitcoin format of version 1. -/

namespace Verif.Spec.Alien
open Verif Verif.Spec Verif.Spec.Verge

/-- The content of an Aliencoin transaction. -/
structure ATx where
  ins : List In
  outs : List Out
  lockTime : Nat

/-- A transaction of version 1 with the given unlocking scripts. -/
def ATx.wire (t : ATx) (scripts : List Bytes) : Bytes :=
  leBytes 4 1 ++ compactSize t.ins.length ++ (List.zipWith inWire t.ins scripts).flatten ++
    compactSize t.outs.length ++ t.outs.flatMap outWire ++ leBytes 4 t.lockTime

/-- The transaction before signing. -/
def ATx.unsigned (t : ATx) : Bytes := t.wire (t.ins.map fun _ => [])

/-- What input `k` signs: the transaction with the script it spends in place `k` and empty scripts elsewhere, and the signature type 1. -/
def ATx.preimage (t : ATx) (k : Nat) : Bytes := t.wire (t.ins.mapIdx fun j i => if j = k then i.lock else []) ++ leBytes 4 1

/-- The numbers the program writes properly. Let `k` count the zero bytes in the places 0, 2, 4, … before the first other one there: the first `k`
bytes are zero, and without them (if there are any) the number is in its shortest form, with a zero byte in front exactly if the next byte is 0x80
or more. In particular all numbers without a leading zero byte. -/
def Plain (x : Bytes) : Prop :=
  ∃ k, (∀ j < k, x[j]? = some 0 ∧ x[2 * j]? = some 0) ∧ (∃ c, x[2 * k]? = some c ∧ c ≠ 0) ∧
    (k = 0 ∨ ∃ a b t, x.drop k = a :: b :: t ∧ a.toNat < 0x80 ∧ (a = 0 → 0x80 ≤ b.toNat))

/-- All bytes in the places 0, 2, 4, …, 30 are zero. -/
def EvenZero (x : Bytes) : Prop := ∀ j < 16, x[2 * j]? = some 0

end Verif.Spec.Alien
