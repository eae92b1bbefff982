import Verif.Spec.Base58
import Verif.Model.Hex

/-! Independent specification of Filenet addresses and transfers. -/

namespace Verif.Spec.Filenet
open Verif

/-- The Base58 alphabet of Filenet addresses. -/
def alphabet : Bytes := asc "123456789ABCDEFGHJKLMNPQRSTUVWXYZabcdefghijkmnopqrstuvwxyz"

/-- `text` is the address of the 20-byte hash `h`: Base58 of the lower-case hex text of `h`. -/
def IsAddress (h text : Bytes) : Prop := h.length = 20 ∧ IsBase58 alphabet (Hex.encode h) text

/-- The content of a transfer: sender hash, announced total, time in seconds, and the payments. -/
structure Tx where
  from_ : Bytes
  total : Nat
  time : Nat
  outs : List (Bytes × Nat)

/-- The fields fit the wire format. -/
def Tx.Fits (t : Tx) : Prop :=
  t.from_.length = 20 ∧ t.outs.length < 2 ^ 64 ∧ t.total < 2 ^ 64 ∧ t.time < 2 ^ 64 ∧ ∀ o ∈ t.outs, o.1.length = 20 ∧ o.2 < 2 ^ 64

/-- The wire format: sender, number of payments, total, time, then for each payment the receiver and the amount. -/
def Tx.wire (t : Tx) : Bytes :=
  t.from_ ++ leBytes 8 t.outs.length ++ leBytes 8 t.total ++ leBytes 8 t.time ++ t.outs.flatMap fun o => o.1 ++ leBytes 8 o.2

end Verif.Spec.Filenet
