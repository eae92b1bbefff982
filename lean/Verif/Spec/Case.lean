import Verif.Model.Base

/-! Go's letter case outside ASCII, as far as `strings.ToLower` and `strings.ToUpper` can turn other characters into ASCII letters.
Texts are UTF-8. -/

namespace Verif.Spec
open Verif

/-- U+212A KELVIN SIGN, an upper-case letter whose lower case is `k`. -/
def kelvin : Bytes := [0xe2, 0x84, 0xaa]

/-- U+0130 LATIN CAPITAL LETTER I WITH DOT ABOVE, an upper-case letter whose lower case in Go's tables is `i`. -/
def dottedI : Bytes := [0xc4, 0xb0]

/-- `s` is the text `t` in which some letters `K` have been replaced by the Kelvin sign and some letters `I` by the dotted capital I. -/
inductive Disguise : Bytes → Bytes → Prop where
  | nil : Disguise [] []
  | same (c : UInt8) {t s : Bytes} : Disguise t s → Disguise (c :: t) (c :: s)
  | k {t s : Bytes} : Disguise t s → Disguise (0x4b :: t) (kelvin ++ s)
  | i {t s : Bytes} : Disguise t s → Disguise (0x49 :: t) (dottedI ++ s)

/-- Only ASCII characters. -/
def Ascii (s : Bytes) : Prop := ∀ b ∈ s, b < 0x80

end Verif.Spec
