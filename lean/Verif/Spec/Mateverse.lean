import Verif.Spec.HyperCash
import Verif.Model.Hex

/-! Specification of Metaverse (package `mateverseTransaction`) transactions as byte strings: version 4 transactions in the format of
Bitcoin. Outputs and lock time are one opaque byte string, because the package copies them without looking at them. -/

namespace Verif.Spec.Mateverse
open Verif Verif.Spec

structure In where
  txid : Bytes
  vout : Nat
  sequence : Nat

structure Tx where
  ins : List In
  /-- Outputs and lock time, serialised. -/
  tail : Bytes

/-- One input carrying a script. -/
def inWire (i : In) (script : Bytes) : Bytes := i.txid.reverse ++ leBytes 4 i.vout ++ varBytes script ++ leBytes 4 i.sequence

/-- The transaction with the given scripts in its inputs. -/
def Tx.wire (t : Tx) (scripts : List Bytes) : Bytes :=
  leBytes 4 4 ++ compactSize t.ins.length ++ (List.zipWith inWire t.ins scripts).flatten ++ t.tail

/-- The transaction before signing: no scripts. -/
def Tx.empty (t : Tx) : Bytes := t.wire (List.replicate t.ins.length [])

/-- What input `k` signs: the transaction with the script it spends in place `k`, no scripts elsewhere, and hash type 1. -/
def Tx.preimage (t : Tx) (k : Nat) (lock : Bytes) : Bytes := t.wire ((List.replicate t.ins.length []).set k lock) ++ leBytes 4 1

/-- Field sizes of the format. -/
def Tx.Valid (t : Tx) : Prop :=
  t.ins ≠ [] ∧ t.ins.length < 2 ^ 16 ∧ t.tail ≠ [] ∧ ∀ i ∈ t.ins, i.txid.length = 32 ∧ i.vout < 2 ^ 32 ∧ i.sequence < 2 ^ 32

/-- Lock scripts as printed by the chain's node (or given in hex), and the bytes they stand for: payment to a key hash, the same behind an
attenuation model (pushed with the two-byte length opcode 4d) and an input point, and any script of at least 25 bytes in hex. -/
inductive IsLock : Bytes → Bytes → Prop
  | keyHash (h : Bytes) (hh : h.length = 20) :
      IsLock (asc "dup hash160 [ " ++ Hex.encode h ++ asc " ] equalverify checksig") (p2pkhScript h)
  | attenuated (model point h : Bytes) (hm : model.length < 2 ^ 16) (hp : point.length ≤ 75) (hh : h.length = 20) :
      IsLock (asc "[ " ++ Hex.encode model ++ asc " ] [ " ++ Hex.encode point ++ asc " ] checkattenuationverify dup hash160 [ " ++
          Hex.encode h ++ asc " ] equalverify checksig")
        ([0x4d] ++ leBytes 2 model.length ++ model ++ push point ++ [0xb2] ++ p2pkhScript h)
  | hex (s : Bytes) (hs : 25 ≤ s.length) : IsLock (Hex.encode s) s

end Verif.Spec.Mateverse
