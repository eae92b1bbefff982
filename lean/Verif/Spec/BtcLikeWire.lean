import Verif.Model.BtcLike
import Verif.Spec.Btc
import Verif.Spec.Eip55

/-! The bytes that the older Bitcoin driver reads as a transaction, and those on which its decoder crashes. -/

namespace Verif.Spec.BtcLikeWire
open Verif Verif.Spec Verif.BtcLike

/-- `w` holds the number `v` of 32 bytes under the length byte `l`: 0x21 if a byte stands before it, which is zero or followed by a set high bit. -/
def Number (l : UInt8) (w v : Bytes) : Prop :=
  v.length = 32 ∧ ((l ≠ 0x21 ∧ w = v) ∨ (l = 0x21 ∧ ∃ x, w = x :: v ∧ (x = 0 ∨ ∃ y ∈ v.head?, (0x80 : UInt8) ≤ y)))

/-- A signature and a key of 33 bytes as they stand in a witness, the length bytes included; these are compared modulo 256. -/
def SigItem (s sig pub : Bytes) : Prop :=
  ∃ rl sl wr ws r v, Number rl wr r ∧ Number sl ws v ∧ pub.length = 33 ∧ sig = r ++ v ∧
    s = [rl + sl + 7, 0x30, rl + sl + 4, 0x02, rl] ++ wr ++ [0x02, sl] ++ ws ++ [0x01, 0x21] ++ pub ∧ UInt8.ofNat s.length = rl + sl + 42

/-- What stands behind the count 2 of a witness: a first length byte, and as many bytes and 34 more. -/
def Two (s : Bytes) : Prop := ∃ n body, s = n :: body ∧ body.length = n.toNat + 34

/-- The witness of an input: empty, or a signature and a key. -/
def Stack (w : Bytes) (x : SigPub) : Prop :=
  (w = [0x00] ∧ x = ⟨none, []⟩) ∨ ∃ s sig pub, w = 0x02 :: s ∧ Two s ∧ SigItem s sig pub ∧ x = ⟨some sig, pub⟩

/-- Fields of the right sizes. -/
def InOk (i : BtcLike.TxIn) : Prop := i.txid.length = 32 ∧ i.vout.length = 4 ∧ i.script.length < 256 ∧ i.sequence.length = 4
def OutOk (o : Btc.TxOut) : Prop := o.amount.length = 8 ∧ o.lockScript.length < 256

/-- Inputs and outputs with one byte for each number and each length. -/
def Body (ins : List BtcLike.TxIn) (outs : List Btc.TxOut) (b : Bytes) : Prop :=
  ins.length < 256 ∧ outs.length < 256 ∧ (∀ i ∈ ins, InOk i) ∧ (∀ o ∈ outs, OutOk o) ∧
    b = [UInt8.ofNat ins.length] ++ (ins.map (fun i => i.txid ++ i.vout ++ push i.script ++ i.sequence)).flatten ++
      [UInt8.ofNat outs.length] ++ (outs.map (fun o => o.amount ++ push o.lockScript)).flatten

/-- The bytes of a transaction: without marker and witnesses, or with a marker and a witness for every input. There may be fewer witnesses if the lock time
begins with another byte than 0 and 2. -/
def IsTx (b : Bytes) (x : BtcLike.Tx) : Prop :=
  ∃ body, Body x.vins x.vouts body ∧ x.version.length = 4 ∧ x.lockTime.length = 4 ∧
    ((x.vins ≠ [] ∧ x.witness = [] ∧ b = x.version ++ body ++ x.lockTime) ∨
      ∃ wits, List.Forall₂ Stack wits x.witness ∧ b = x.version ++ [0x00, 0x01] ++ body ++ wits.flatten ++ x.lockTime ∧
        (wits.length = x.vins.length ∨ (wits.length < x.vins.length ∧ x.lockTime.head? ≠ some 0 ∧ x.lockTime.head? ≠ some 2)))

/-- Bytes that begin like a transaction with witnesses, the first of which that is not in order has the count 2 and enough bytes, but they are not those
of a signature and a key. -/
def CrashTx (b : Bytes) : Prop :=
  ∃ version body ins outs wits ws s rest, version.length = 4 ∧ Body ins outs body ∧ List.Forall₂ Stack wits ws ∧ wits.length < ins.length ∧
    Two s ∧ (∀ sig pub, ¬ SigItem s sig pub) ∧ b = version ++ [0x00, 0x01] ++ body ++ wits.flatten ++ 0x02 :: s ++ rest

/-- Unlock data for which a hash can be computed (`outs`: the transaction has outputs): the locking script, of 22, 23 or 25 bytes, is that of a key hash, of
a script hash with a redeem script of more than one byte or one byte other than zero (and 22 bytes if it begins like a witness program), or a witness program
of 20 bytes. -/
def GoodUnlock (outs : Bool) (u : TxUnlock) : Prop :=
  ∃ lock, Eip55.HexText u.lockScript lock ∧
    ((lock.length = 25 ∧ [0x76, 0xa9, 0x14] <+: lock ∧ [0x88, 0xac] <:+ lock ∧ outs = true) ∨
     ((lock.length = 23 ∨ lock.length = 25) ∧ [0xa9, 0x14] <+: lock ∧ lock[22]? = some 0x87 ∧
       ∃ r, Eip55.HexText u.redeemScript r ∧ r ≠ [] ∧ r ≠ [0x00] ∧ ([0x00, 0x14] <+: r → r.length = 22)) ∨
     (lock.length = 22 ∧ [0x00, 0x14] <+: lock))

/-- Unlock data that crash: a locking script of 22 or 23 bytes that begins like that of a key hash, one of 22 bytes that begins like that of a script hash, or
that of a script hash with a redeem script that is empty or the byte zero. -/
def CrashUnlock (u : TxUnlock) : Prop :=
  ∃ lock, Eip55.HexText u.lockScript lock ∧
    (((lock.length = 22 ∨ lock.length = 23) ∧ [0x76, 0xa9, 0x14] <+: lock) ∨ (lock.length = 22 ∧ [0xa9, 0x14] <+: lock) ∨
     ((lock.length = 23 ∨ lock.length = 25) ∧ [0xa9, 0x14] <+: lock ∧ lock[22]? = some 0x87 ∧
       (Eip55.HexText u.redeemScript [] ∨ Eip55.HexText u.redeemScript [0x00])))

/-- Unlock data taken for those of a multi-signature output: 23 bytes that begin like a script hash or have its end, and a redeem script that ends in 0xae. -/
def MultiUnlock (u : TxUnlock) : Prop :=
  ∃ l r, Eip55.HexText u.lockScript l ∧ Eip55.HexText u.redeemScript r ∧ l.length = 23 ∧ ([0xa9, 0x14] <+: l ∨ l[22]? = some 0x87) ∧ r.getLast? = some 0xae

/-- A signature of 64 bytes with a key of 33 bytes that can be put into an input: as its witness, or as its unlocking script if neither half is zero. -/
def InsertOk (p : SigPub × TxUnlock) : Prop :=
  ∃ sig, p.1.signature = some sig ∧ sig.length = 64 ∧ p.1.pubkey.length = 33 ∧
    ((p.2.redeemScript = [] ∧ (asc "0014" <+: p.2.lockScript ∨ (beNat (sig.take 32) ≠ 0 ∧ beNat (sig.drop 32) ≠ 0))) ∨
     (p.2.redeemScript ≠ [] ∧ (p.2.lockScript = asc "00" ∨ ∃ r, Eip55.HexText p.2.redeemScript r)))

/-- One that crashes: no redeem script, no witness program, and a half of the signature is zero. -/
def InsertCrash (p : SigPub × TxUnlock) : Prop :=
  ∃ sig, p.1.signature = some sig ∧ sig.length = 64 ∧ p.1.pubkey.length = 33 ∧ p.2.redeemScript = [] ∧ ¬ asc "0014" <+: p.2.lockScript ∧
    (beNat (sig.take 32) = 0 ∨ beNat (sig.drop 32) = 0)

/-- The witness, the input and the unlock data give a signature with its key: the witness has one (and there is an unlocking script unless the output is a
witness program), or the unlocking script is read as one. -/
def VerifyOk (p : SigPub × BtcLike.TxIn × TxUnlock) : Prop :=
  (p.1.signature = none ∧ ∃ sp, BtcLike.decodeSigPub p.2.1.script = .ok sp) ∨
  (p.1.signature ≠ none ∧ (asc "0014" <+: p.2.2.lockScript ∨ p.2.1.script ≠ []))

/-- They crash: a witness with a signature, no witness program and no unlocking script. -/
def VerifyCrash (p : SigPub × BtcLike.TxIn × TxUnlock) : Prop :=
  p.1.signature ≠ none ∧ ¬ asc "0014" <+: p.2.2.lockScript ∧ p.2.1.script = []

/-- The unlock data with the redeem script found in the input. -/
def found (p : SigPub × BtcLike.TxIn × TxUnlock) : TxUnlock :=
  if p.1.signature = none ∨ (asc "0014").isPrefixOf p.2.2.lockScript then p.2.2 else { p.2.2 with redeemScript := Hex.encode p.2.1.script.tail }

/-- The witness of every input; none at all counts as empty ones. -/
def witnesses (x : BtcLike.Tx) : List SigPub := if x.witness = [] then x.vins.map (fun _ => ⟨none, []⟩) else x.witness

end Verif.Spec.BtcLikeWire
