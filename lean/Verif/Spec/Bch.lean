import Mathlib.Data.Nat.Bitwise

/-! The checksums of BIP 173, BIP 350 and the cashaddr specification, as published: remainders of polynomials over GF(32). -/

namespace Verif.Spec.Bch

/-- Multiplication by the generator `a` of GF(32) = GF(2)[a] / (a^5 + a^3 + 1). Elements are numbers below 32, bit `i` being the
coefficient of a^i. -/
def xtime (x : Nat) : Nat := if x < 16 then 2 * x else (2 * x) ^^^ 0b101001

/-- Multiplication in GF(32). -/
def gmul (x y : Nat) : Nat :=
  (if y.testBit 0 then x else 0) ^^^ (if y.testBit 1 then xtime x else 0) ^^^ (if y.testBit 2 then xtime (xtime x) else 0) ^^^
    (if y.testBit 3 then xtime (xtime (xtime x)) else 0) ^^^ (if y.testBit 4 then xtime (xtime (xtime (xtime x))) else 0)

/-- One step of polynomial division by x^n + g: bring down the coefficient `v` and subtract the leading coefficient times the divisor.
Coefficients are listed from the highest power to the lowest. -/
def divStep (g r : List Nat) (v : Nat) : List Nat :=
  match r with
  | [] => []
  | top :: rest => List.zipWith (fun x y => x ^^^ gmul top y) (rest ++ [v]) g

/-- Remainder of the polynomial with the coefficients `msg` on division by x^n + g, where n is the length of `g`. -/
def remainder (g msg : List Nat) : List Nat := msg.foldl (divStep g) (List.replicate g.length 0)

/-- BIP 173: g(x) = x^6 + {29}x^5 + {22}x^4 + {20}x^3 + {21}x^2 + {29}x + {18}. -/
def bech32Gen : List Nat := [29, 22, 20, 21, 29, 18]

/-- cashaddr: g(x) = x^8 + {19}x^7 + {3}x^6 + {25}x^5 + {11}x^4 + {25}x^3 + {3}x^2 + {19}x + {1}. -/
def cashGen : List Nat := [19, 3, 25, 11, 25, 3, 19, 1]

/-- BIP 350: the remainder 0x2bc830a3 in symbols of five bits. -/
def bech32mTarget : List Nat := [21, 28, 16, 12, 5, 3]

/-- Human readable part: the high bits of all characters, a zero, the low five bits of all characters (BIP 173). -/
def hrpSymbols (hrp : List UInt8) : List Nat := hrp.map (fun c => c.toNat / 32) ++ 0 :: hrp.map (fun c => c.toNat % 32)

/-- cashaddr: the low five bits of all characters, then a zero. -/
def cashPrefixSymbols (p : List UInt8) : List Nat := p.map (fun c => c.toNat % 32) ++ [0]

end Verif.Spec.Bch
