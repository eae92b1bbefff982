import Verif.Model.Base

/-! Base64 with padding over an arbitrary alphabet, as a relation between texts and data (RFC 4648, section 4). -/

namespace Verif.Spec
open Verif

/-- An alphabet: 64 different characters, without the padding character and line breaks. -/
def IsAlphabet64 (alph : Bytes) : Prop :=
  alph.length = 64 ∧ alph.Nodup ∧ (0x3d : UInt8) ∉ alph ∧ (0x0a : UInt8) ∉ alph ∧ (0x0d : UInt8) ∉ alph

/-- The text without its line breaks. -/
def noBreaks (t : Bytes) : Bytes := t.filter (fun c => c != 0x0a && c != 0x0d)

/-- `Base64Reads alph t b`: the text `t` stands for the bytes `b`. Four characters are the 24 bits of three bytes; one or two last bytes
are completed by `=` signs, and the bits left over (`r`) do not matter. -/
inductive Base64Reads (alph : Bytes) : Bytes → Bytes → Prop
  | nil : Base64Reads alph [] []
  | one (a b x : UInt8) (va vb r : Nat) : alph[va]? = some a → alph[vb]? = some b → r < 16 → va * 64 + vb = x.toNat * 16 + r →
      Base64Reads alph [a, b, 0x3d, 0x3d] [x]
  | two (a b c x y : UInt8) (va vb vc r : Nat) : alph[va]? = some a → alph[vb]? = some b → alph[vc]? = some c → r < 4 →
      va * 4096 + vb * 64 + vc = (x.toNat * 256 + y.toNat) * 4 + r → Base64Reads alph [a, b, c, 0x3d] [x, y]
  | three (a b c d x y z : UInt8) (va vb vc vd : Nat) (t s : Bytes) : alph[va]? = some a → alph[vb]? = some b → alph[vc]? = some c →
      alph[vd]? = some d → va * 262144 + vb * 4096 + vc * 64 + vd = x.toNat * 65536 + y.toNat * 256 + z.toNat → Base64Reads alph t s →
      Base64Reads alph (a :: b :: c :: d :: t) (x :: y :: z :: s)

end Verif.Spec
