import Verif.Spec.OwKeychain
import Verif.Lemmas.Base
import Mathlib.Data.ZMod.Basic

/-! A concrete instance of the external functions of `owkeychain`, used only to show that the hypotheses of the
theorems can be met: "points" are residues modulo the curve order (so discrete logarithms are trivial). -/

namespace Verif.OwKeychain
open Verif Verif.Spec

def toyIds : CurveIds where
  secp256k1 := 0xECC00000
  secp256r1 := 0xECC00001
  sm2 := 0xECC00002
  ed25519Normal := 0xECC00003
  ed25519 := 0xECC00004
  x25519 := 0xECC00005
  curve25519Sha256 := 0xECC00006
  blsNul := 0xECC00007
  blsAug := 0xECC00008
  pasta := 0xECC00009
  distinct := by decide

/-- `hm` is the (constant) HMAC output. -/
def toyExt (hm : Bytes) (hs : hm.length = 64) : Ext where
  ids := toyIds
  H := toyHashes
  hmac512 _ _ := hm
  hmac512_size _ _ := hs
  mulBaseG c s :=
    if edLike toyIds c then leBytes 32 (leNat s % curveOrder toyIds c)
    else if isBls toyIds c then List.replicate 16 0 ++ beBytes 32 (beNat s % curveOrder toyIds c)
    else 2 :: beBytes 32 (beNat s % curveOrder toyIds c)
  mulBaseGAdd c p s :=
    if edLike toyIds c then
      (leBytes 32 ((leNat p + leNat s) % curveOrder toyIds c), (leNat p + leNat s) % curveOrder toyIds c == 0)
    else
      ((List.replicate (if isBls toyIds c then 16 else 32) 0) ++ beBytes 32 ((beNat p + beNat s) % curveOrder toyIds c),
        (beNat p + beNat s) % curveOrder toyIds c == 0)
  decompress _ p := 4 :: (List.replicate 32 0 ++ p.drop 1)
  compress _ p := 2 :: p.drop 32

theorem beNat_replicate (n : Nat) (b : Bytes) : beNat (List.replicate n 0 ++ b) = beNat b := by
  induction n with
  | zero => simp
  | succ n ih => simp [List.replicate_succ, beNat_cons, ih]

/-- The toy instance satisfies the group law on secp256k1. -/
def toyWeier (hm : Bytes) (hs : hm.length = 64) : WeierstrassLaw (toyExt hm hs) toyIds.secp256k1 where
  G := ZMod (curveOrder toyIds toyIds.secp256k1)
  g := 1
  order := ZMod.addOrderOf_one _
  comp P := 2 :: beBytes 32 P.val
  full P := List.replicate 32 0 ++ beBytes 32 P.val
  mulBaseG s _ _ := by
    rw [nsmul_one, ZMod.val_natCast]; rfl
  decompress P _ := rfl
  add_infinity P s _ _ := by
    have hn : NeZero (curveOrder toyIds toyIds.secp256k1) := ⟨by decide +kernel⟩
    have hlt : P.val < 256 ^ 32 := lt_trans P.val_lt (by decide +kernel)
    have e : ((toyExt hm hs).mulBaseGAdd toyIds.secp256k1 (List.replicate 32 0 ++ beBytes 32 P.val) s).2
        = ((beNat (List.replicate 32 0 ++ beBytes 32 P.val) + beNat s) % curveOrder toyIds toyIds.secp256k1 == 0) := rfl
    rw [e, beNat_replicate, beNat_beBytes_of_lt hlt, beq_iff_eq, nsmul_one]
    conv_rhs => rw [← ZMod.natCast_zmod_val P, ← Nat.cast_add, ZMod.natCast_eq_zero_iff]
    exact Nat.dvd_iff_mod_eq_zero.symm
  add P s _ _ _ := by
    have hn : NeZero (curveOrder toyIds toyIds.secp256k1) := ⟨by decide +kernel⟩
    have hlt : P.val < 256 ^ 32 := lt_trans P.val_lt (by decide +kernel)
    have e : ((toyExt hm hs).mulBaseGAdd toyIds.secp256k1 (List.replicate 32 0 ++ beBytes 32 P.val) s).1
        = List.replicate 32 0 ++ beBytes 32 ((beNat (List.replicate 32 0 ++ beBytes 32 P.val) + beNat s) %
          curveOrder toyIds toyIds.secp256k1) := rfl
    rw [e, beNat_replicate, beNat_beBytes_of_lt hlt, nsmul_one]
    conv_rhs => rw [← ZMod.natCast_zmod_val P, ← Nat.cast_add, ZMod.val_natCast]
  compress P _ := rfl

/-- The toy instance satisfies the group law on ed25519. -/
def toyEd (hm : Bytes) (hs : hm.length = 64) : SimpleLaw (toyExt hm hs) toyIds.ed25519 leNat where
  G := ZMod (curveOrder toyIds toyIds.ed25519)
  g := 1
  order := ZMod.addOrderOf_one _
  enc P := leBytes 32 P.val
  mulBaseG s _ _ := by
    rw [nsmul_one, ZMod.val_natCast]; rfl
  add_infinity P s _ _ := by
    have hn : NeZero (curveOrder toyIds toyIds.ed25519) := ⟨by decide +kernel⟩
    have hlt : P.val < 256 ^ 32 := lt_trans P.val_lt (by decide +kernel)
    have e : ((toyExt hm hs).mulBaseGAdd toyIds.ed25519 (leBytes 32 P.val) s).2
        = ((leNat (leBytes 32 P.val) + leNat s) % curveOrder toyIds toyIds.ed25519 == 0) := rfl
    rw [e, leNat_leBytes_of_lt hlt, beq_iff_eq, nsmul_one]
    conv_rhs => rw [← ZMod.natCast_zmod_val P, ← Nat.cast_add, ZMod.natCast_eq_zero_iff]
    exact Nat.dvd_iff_mod_eq_zero.symm
  add P s _ _ _ := by
    have hn : NeZero (curveOrder toyIds toyIds.ed25519) := ⟨by decide +kernel⟩
    have hlt : P.val < 256 ^ 32 := lt_trans P.val_lt (by decide +kernel)
    have e : ((toyExt hm hs).mulBaseGAdd toyIds.ed25519 (leBytes 32 P.val) s).1
        = leBytes 32 ((leNat (leBytes 32 P.val) + leNat s) % curveOrder toyIds toyIds.ed25519) := rfl
    rw [e, leNat_leBytes_of_lt hlt, nsmul_one]
    conv_rhs => rw [← ZMod.natCast_zmod_val P, ← Nat.cast_add, ZMod.val_natCast]

end Verif.OwKeychain
