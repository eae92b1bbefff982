import Verif.Spec.Bytom

/-! The shape of a serialised Bytom transaction, as relations between bytes and the fields of the decoded structures. -/

namespace Verif.Spec.BytomWire
open Verif

/-- A variable-length integer: bytes with the high bit set, then one without. -/
def IsVarint (v : Bytes) : Prop := ∃ hs l, v = hs ++ [l] ∧ (∀ h ∈ hs, (0x80 : UInt8) ≤ h) ∧ l < (0x80 : UInt8)

/-- A non-empty string of at most 255 bytes behind one byte with its length. -/
def IsStr (b s : Bytes) : Prop := s ≠ [] ∧ s.length < 256 ∧ b = UInt8.ofNat s.length :: s

/-- The witness part of an input. `strict` asks for the length byte to be right: 0x63 for signature and key. -/
inductive Witness (strict : Bool) : Bytes → Option Bytom.SigPub → Option Bytes → Prop
  | none : Witness strict [1, 0] none none
  | single (k : UInt8) (sig pub : Bytes) : sig.length = 64 → pub.length = 32 → 2 ≤ k → (strict = true → k = 0x63) →
      Witness strict ([k, 2, 0x40] ++ sig ++ [32] ++ pub) (some ⟨some sig, some pub⟩) none
  | multi (k : UInt8) (rest : Bytes) : 2 ≤ k → rest.length + 1 = k.toNat → Witness strict ([k, 1, 3] ++ rest) none (some ([1, 3] ++ rest))

/-- An input: asset version 1, the commitment (version 1, the spent output with VM version 1 and its program), the witness. -/
def IsIn (strict : Bool) (b : Bytes) (i : Bytom.TxIn) : Prop :=
  ∃ pos prog commitment commitment' body w : Bytes, i.sourceID.length = 32 ∧ i.assetID.length = 32 ∧ IsVarint i.amount ∧
    i.sourcePosition.length = 1 ∧ i.sourcePosition = pos ∧ IsStr prog i.controlProgram ∧
    body = i.sourceID ++ i.assetID ++ i.amount ++ pos ++ [1] ++ prog ∧ IsStr commitment body ∧
    IsStr commitment' (1 :: commitment) ∧ Witness strict w i.sigPub i.multiSig ∧ b = [1] ++ commitment' ++ w

/-- An output: asset version 1, the asset, amount and program (kept with its length byte) with VM version 1, an empty witness. -/
def IsOut (b : Bytes) (o : Bytom.TxOut) : Prop :=
  ∃ prog commitment : Bytes, o.assetID.length = 32 ∧ IsVarint o.amount ∧ IsStr o.controlProgram prog ∧
    IsStr commitment (o.assetID ++ o.amount ++ [1] ++ o.controlProgram) ∧ b = [1] ++ commitment ++ [0]

/-- A transaction: flags 7, the version, the time range, the inputs and the outputs with one byte for each number. `strict` asks for a version
of one byte; otherwise bytes with the high bit set may stand before it. -/
def IsTx (strict : Bool) (b : Bytes) (t : Bytom.Transaction) : Prop :=
  ∃ skip : Bytes, ∃ ver : UInt8, ∃ ins outs : List Bytes, (∀ h ∈ skip, (0x80 : UInt8) ≤ h) ∧ ver < 0x80 ∧ (strict = true → skip = []) ∧ t.version = [ver] ∧
    IsVarint t.timeRange ∧ List.Forall₂ (IsIn strict) ins t.inputs ∧ List.Forall₂ IsOut outs t.outputs ∧
    0 < t.inputs.length ∧ t.inputs.length < 256 ∧ 0 < t.outputs.length ∧ t.outputs.length < 256 ∧
    b = [7] ++ skip ++ [ver] ++ t.timeRange ++ [UInt8.ofNat t.inputs.length] ++ ins.flatten ++ [UInt8.ofNat t.outputs.length] ++ outs.flatten

end Verif.Spec.BytomWire
