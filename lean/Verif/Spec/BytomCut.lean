import Verif.Spec.BytomWire
import Verif.Spec.Eip55

/-! Bytom transaction texts that end inside a variable-length integer, and the signed records an input can take. -/

namespace Verif.Spec.BytomCut
open Verif Verif.Spec.BytomWire

/-- At least one byte, and all with the high bit set: a variable-length integer whose end is missing. -/
def Endless (b : Bytes) : Prop := b ≠ [] ∧ ∀ h ∈ b, (0x80 : UInt8) ≤ h

/-- An input whose commitment ends inside the amount; anything may follow. -/
def CutIn (b : Bytes) : Prop :=
  ∃ source asset amount inner outer rest : Bytes, source.length = 32 ∧ asset.length = 32 ∧ Endless amount ∧
    IsStr inner (source ++ asset ++ amount) ∧ IsStr outer ([1] ++ inner) ∧ b = [1] ++ outer ++ rest

/-- An output whose commitment ends inside the amount; anything may follow. -/
def CutOut (b : Bytes) : Prop :=
  ∃ asset amount commitment rest : Bytes, asset.length = 32 ∧ Endless amount ∧ IsStr commitment (asset ++ amount) ∧ b = [1] ++ commitment ++ rest

/-- The bytes of some inputs, one after another. -/
def Inputs (n : Nat) (b : Bytes) : Prop := ∃ ws, ∃ is : List Bytom.TxIn, ws.length = n ∧ List.Forall₂ (IsIn false) ws is ∧ b = ws.flatten

/-- The bytes of some outputs, one after another. -/
def Outputs (n : Nat) (b : Bytes) : Prop := ∃ ws, ∃ os : List Bytom.TxOut, ws.length = n ∧ List.Forall₂ IsOut ws os ∧ b = ws.flatten

/-- A text that starts like a transaction and then ends within the time range, within the amount of an input's commitment behind fewer inputs than
announced, or within the amount of an output's commitment behind all inputs and fewer outputs than announced. -/
def CutTx (b : Bytes) : Prop :=
  ∃ skip tail : Bytes, ∃ ver : UInt8, (∀ h ∈ skip, (0x80 : UInt8) ≤ h) ∧ ver < 0x80 ∧ b = [7] ++ skip ++ [ver] ++ tail ∧
    (Endless tail ∨
      ∃ time body : Bytes, ∃ n : UInt8, IsVarint time ∧ n ≠ 0 ∧ tail = time ++ [n] ++ body ∧
        ((∃ ins cut, ∃ k < n.toNat, Inputs k ins ∧ CutIn cut ∧ body = ins ++ cut) ∨
         (∃ ins outs cut, ∃ m : UInt8, ∃ k < m.toNat, Inputs n.toNat ins ∧ Outputs k outs ∧ CutOut cut ∧ body = ins ++ [m] ++ outs ++ cut)))

/-- An argument describing a spent output that can be used: hexadecimal texts and numbers below 2^56. -/
def GoodIn (v : Bytom.Vin) : Prop :=
  (∃ s, Eip55.HexText v.sourceID s) ∧ v.sourcePosition.toNat < 2 ^ 56 ∧ (∃ a, Eip55.HexText v.assetID a) ∧ v.amount.toNat < 2 ^ 56 ∧
    ∃ c, Eip55.HexText v.controlProgram c

/-- A number of 2^56 or more, behind hexadecimal texts. -/
def LargeIn (v : Bytom.Vin) : Prop :=
  (∃ s, Eip55.HexText v.sourceID s) ∧ (2 ^ 56 ≤ v.sourcePosition.toNat ∨ ((∃ a, Eip55.HexText v.assetID a) ∧ 2 ^ 56 ≤ v.amount.toNat))

/-- The signed record of an input with a script: keys of 32 bytes for all, and signatures of 64 bytes for the first as many as are required. -/
def Complete (th : Bytom.TxHash) : Prop :=
  (∀ m ∈ th.multi, ∃ k, m.sigPub.pubkey = some k ∧ k.length = 32) ∧
    ∃ sigs more : List Bytes, th.multi.filterMap (fun m => m.sigPub.signature) = sigs ++ more ∧ sigs.length = th.nRequired.toNat ∧ ∀ s ∈ sigs, s.length = 64

/-- The record can be put into an input: one with a script that is complete, or one of a single key. -/
def Fills (th : Bytom.TxHash) : Prop := if th.nRequired = 0 then th.normal ≠ none else Complete th

end Verif.Spec.BytomCut
