import Verif.Model.Base

/-! Base64 with padding (RFC 4648, section 4), as a relation between texts and data. -/

namespace Verif.Spec
open Verif

/-- The value of a character of the alphabet. -/
def b64Value (c : UInt8) : Option Nat :=
  if 0x41 ≤ c ∧ c ≤ 0x5a then some (c.toNat - 0x41)
  else if 0x61 ≤ c ∧ c ≤ 0x7a then some (c.toNat - 0x61 + 26)
  else if 0x30 ≤ c ∧ c ≤ 0x39 then some (c.toNat - 0x30 + 52)
  else if c = 0x2b then some 62
  else if c = 0x2f then some 63
  else none

/-- Three bytes are the 24 bits of four characters; the last one or two bytes are completed by zero bits and `=` signs. -/
inductive IsBase64 : Bytes → Bytes → Prop
  | nil : IsBase64 [] []
  | one (a b x : UInt8) (va vb : Nat) : b64Value a = some va → b64Value b = some vb → va * 64 + vb = x.toNat * 16 →
      IsBase64 [a, b, 0x3d, 0x3d] [x]
  | two (a b c x y : UInt8) (va vb vc : Nat) : b64Value a = some va → b64Value b = some vb → b64Value c = some vc →
      va * 4096 + vb * 64 + vc = (x.toNat * 256 + y.toNat) * 4 → IsBase64 [a, b, c, 0x3d] [x, y]
  | three (a b c d x y z : UInt8) (va vb vc vd : Nat) (t s : Bytes) : b64Value a = some va → b64Value b = some vb → b64Value c = some vc →
      b64Value d = some vd → va * 262144 + vb * 4096 + vc * 64 + vd = x.toNat * 65536 + y.toNat * 256 + z.toNat → IsBase64 t s →
      IsBase64 (a :: b :: c :: d :: t) (x :: y :: z :: s)

end Verif.Spec
