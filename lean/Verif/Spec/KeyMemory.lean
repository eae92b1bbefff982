import Verif.Model.KeyMemory

/-! Specification for C125: what the keys and shares of a program are if every key and every share is a value of its own, which nothing can change. -/

namespace Verif.Spec.KeyMem
open Verif Verif.OwKeychain Verif.KeyMem

/-- Keys, with a note whether they were made from a seed, and shares. -/
structure Values where
  keys : List (ExtendedKey × Bool)
  shares : List MultiSigShare

/-- A key is added if the call succeeded. -/
def Values.addKey (v : Values) (seed : Bool) : Res ExtendedKey → Values
  | .ok k => { v with keys := v.keys ++ [(k, seed)] }
  | _ => v

/-- One operation. Byte slices are not part of the values: obtaining them, appending to them and encoding them changes nothing. -/
def step (E : Ext) (v : Values) : Op → Values
  | .root seed c => v.addKey true (initRootKey E seed c)
  | .owDecode text => v.addKey false (owDecode E text)
  | .privateChild k i => match v.keys[k]? with
    | some k => v.addKey false (genPrivateChild E k.1 i)
    | none => v
  | .publicChild k i => match v.keys[k]? with
    | some k => v.addKey false (genPublicChild E k.1 i)
    | none => v
  | .publicKey k => match v.keys[k]? with
    | some k => v.addKey false (.ok (getPublicKey E k.1))
    | none => v
  | .chainDecode text => match chainDecode text with
    | .ok s => { v with shares := v.shares ++ [s] }
    | _ => v
  | _ => v

/-- The values after a program. -/
def values (E : Ext) (ops : List Op) : Values := ops.foldl (step E) ⟨[], []⟩

/-- The operation hands out neither the private bytes of a key made from a seed nor the key field of a share. -/
def Careful (v : Values) : Op → Prop
  | .privateBytes k => ∀ x, v.keys[k]? ≠ some (x, true)
  | .sharePubkey _ => False
  | _ => True

/-- All operations of a program are of that kind. -/
def CarefulFrom (E : Ext) : Values → List Op → Prop
  | _, [] => True
  | v, o :: os => Careful v o ∧ CarefulFrom E (step E v o) os

end Verif.Spec.KeyMem
