import Verif.Spec.Btc

/-! Specification vocabulary for the Bitcoin-derived chains, written from their published formats: the replay-protected signature hash of Bitcoin
Cash and Bitcoin SV, OP_CHECKBLOCKATHEIGHT scripts of Horizen (ZEN), native-asset scripts of CXC. Independent of the model's helpers. -/

namespace Verif.Spec
open Verif

/-- As `Unsigned`, but for transactions of version `v`. -/
structure UnsignedV (v : Nat) (t : RawTx) : Prop where
  version : t.version = v
  lockTime : t.lockTime < 2 ^ 32
  insPos : 1 ≤ t.ins.length
  insLt : t.ins.length < 253
  outsPos : 1 ≤ t.outs.length
  outsLt : t.outs.length < 253
  ins : ∀ i ∈ t.ins, i.prev.length = 32 ∧ i.index < 2 ^ 32 ∧ i.script = [] ∧ i.sequence < 2 ^ 32
  outs : ∀ o ∈ t.outs, o.value < 2 ^ 64 ∧ 1 ≤ o.script.length ∧ o.script.length < 253

/-- The bytes hashed for a SIGHASH_ALL | SIGHASH_FORKID signature of input `i` on Bitcoin Cash and Bitcoin SV: the format of BIP 143 with signature
type 0x41 (fork id 0). `code` is the locking script of the output spent (P2PKH) or the redeem script (P2SH). -/
def forkIdPreimage (hash : Bytes → Bytes) (t : RawTx) (i : RawIn) (code : Bytes) (value : Nat) : Bytes :=
  leBytes 4 t.version ++ hash (t.ins.map RawIn.outpoint).flatten ++ hash (t.ins.map (fun i => leBytes 4 i.sequence)).flatten ++
    i.outpoint ++ varBytes code ++ leBytes 8 value ++ leBytes 4 i.sequence ++ hash (t.outs.map RawOut.ser).flatten ++
    leBytes 4 t.lockTime ++ leBytes 4 0x41

/-- One script instruction that pushes data with a one-byte opcode (1 to 75 bytes), or the empty push OP_0. -/
def readPush : Bytes → Option (Bytes × Bytes)
  | n :: r => if n.toNat ≤ 75 ∧ n.toNat ≤ r.length then some (r.take n.toNat, r.drop n.toNat) else none
  | [] => none

/-- A number on the script stack: lowest byte first, the top bit of the last byte is the sign. -/
def scriptNum (b : Bytes) : Int :=
  match b.getLast? with
  | none => 0
  | some top => if top.toNat < 0x80 then (leNat b : Int) else -((leNat b : Int) - 0x80 * 256 ^ (b.length - 1))

/-- The tail of a Horizen output script: the hash of a block (as in block headers, the reverse of the text shown to users) and its height, checked
by OP_CHECKBLOCKATHEIGHT. -/
def IsBlockCheck (tail hash : Bytes) (height : Int) : Prop :=
  ∃ r n, readPush tail = some (hash, r) ∧ readPush r = some (n, [0xb4]) ∧ scriptNum n = height

/-- The tail of an asset script: a push of the payload, dropped by OP_DROP. The payload is the mark "spkq", the reference of the asset and
the quantity. -/
def IsAssetTail (tail ref : Bytes) (quantity : Nat) : Prop :=
  ∃ d, readPush tail = some (d, [0x75]) ∧ d = asc "spkq" ++ ref ++ leBytes 8 quantity

end Verif.Spec
