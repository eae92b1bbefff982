import Verif.Model.BtcLike
import Verif.Props.DerRead

/-! C24, C25 for the package `btcLikeTxDriver`: exactly which unlocking scripts are read as a signature and a key, and which signatures survive being written and read. -/

namespace Verif
open Verif.Spec Verif.Spec.DerRead

/-- C25 for `btcLikeTxDriver`, exactly: the unlocking script of a single key is read as the signature `sig` with the key `pub` if and only if it consists of a length byte, a DER sequence of two integers of
the accepted kind (`LooseInt`), with all lengths right, and 35 more bytes that, as they are seen after appending s to r overwrote some of them, are the type 1, 0x21 and the key. -/
theorem C25_btclike_language (script sig pub : Bytes) : BtcLike.decodeSigPub script = .ok (sig, pub) ↔
    ∃ R S T, LooseInt R ∧ LooseInt S ∧ T.length = 35 ∧ script = UInt8.ofNat ((derSig R S).length + 1) :: derSig R S ++ T ∧
      sig = word R ++ word S ∧ seen R S T = 1 :: 0x21 :: pub := by
  rw [← Verif.C25_language script sig pub 1]
  unfold BtcLike.decodeSigPub
  constructor
  · intro h
    obtain ⟨⟨s, p, ty⟩, h1, h2⟩ := Res.bind_eq_ok.mp h
    dsimp only at h2
    by_cases c : ty = 1
    · subst c
      simp at h2
      rw [h1, h2.1, h2.2]
    · rw [if_pos c] at h2; simp at h2
  · intro h
    rw [h]; rfl

/-- C24 (b) for `btcLikeTxDriver`, exactly: a signature and a key written to an unlocking script are read back unchanged if and only if r is below 2^247, or the zeros that fill s up to 32 bytes where it is
appended to r hide nothing: with `S` the canonical integer of s, the bytes of the padded s from `|S| + 2` on (none if `|S| ≥ 30`) are the first of the type 1, 0x21 and the key. -/
theorem C24_btclike_exact (sig pub script : Bytes) (hl : sig.length = 64) (hp : pub.length = 33)
    (hr : beNat (sig.take 32) ≠ 0) (hs : beNat (sig.drop 32) ≠ 0) (he : BtcLike.scriptSig ⟨some sig, pub⟩ = .ok script) :
    BtcLike.decodeSigPub script = .ok (sig, pub) ↔ beNat (sig.take 32) < 2 ^ 247 ∨
      ∃ S, IsDerInt S (beNat (sig.drop 32)) ∧ sig.drop (34 + S.length) = (1 :: 0x21 :: pub : Bytes).take (30 - S.length) := by
  rw [C25_btclike_language, ← Verif.C25_language, C24_exact sig pub script 1 hl hp hr hs he]

/-- A script whose integers have 33 bytes that are not canonical is read; with the type 2 it is refused. -/
example : let N : Bytes := 7 :: List.replicate 32 0x80
    BtcLike.decodeSigPub (UInt8.ofNat ((derSig N N).length + 1) :: derSig N N ++ (1 :: 0x21 :: List.replicate 33 9)) = .ok (List.replicate 64 0x80, List.replicate 33 9) ∧
    BtcLike.decodeSigPub (UInt8.ofNat ((derSig N N).length + 1) :: derSig N N ++ (2 :: 0x21 :: List.replicate 33 9)) = .err := by
  decide +kernel

/-- An ordinary signature meets the hypotheses and is read back. -/
example : ∃ script, BtcLike.scriptSig ⟨some (List.replicate 64 0x70), 2 :: List.replicate 32 9⟩ = .ok script ∧
    BtcLike.decodeSigPub script = .ok (List.replicate 64 0x70, 2 :: List.replicate 32 9) :=
  ⟨_, rfl, by decide +kernel⟩

end Verif
