import Verif.Model.Bytom
import Verif.Spec.Bch
import Verif.Spec.Elastos

/-! Independent specification of Bytom transactions: wire format, entry identifiers and segregated-witness addresses. Of the model only the types of
the API's arguments and of the hash functions are used. -/

namespace Verif.Spec.Bytom
open Verif

/-- Unsigned integers in groups of seven bits, least significant first. -/
abbrev varint := Spec.Elastos.uvarint

/-- A byte string behind its length. -/
def str (b : Bytes) : Bytes := varint b.length ++ b

/-- A spent output: the mux it came from, asset, amount, position in the mux, control program. -/
structure In where
  source : Bytes
  asset : Bytes
  amount : Nat
  position : Nat
  program : Bytes

/-- A new output of the native asset. -/
structure Out where
  amount : Nat
  program : Bytes

/-- A transaction. -/
structure Tx where
  time : Nat
  ins : List In
  outs : List Out

/-- The native asset. -/
def btm : Bytes := List.replicate 32 0xff

/-- An input with its witness arguments: asset version 1; type 1 (spend) with the commitment; the arguments. -/
def inWire (i : In) (args : List Bytes) : Bytes :=
  [1] ++ str ([1] ++ str (i.source ++ i.asset ++ varint i.amount ++ varint i.position ++ [1] ++ str i.program)) ++
    str (varint args.length ++ args.flatMap str)

/-- An output: asset version 1; the commitment; an empty witness. -/
def outWire (o : Out) : Bytes := [1] ++ str (btm ++ varint o.amount ++ [1] ++ str o.program) ++ [0]

/-- A transaction with the witness arguments of each input: serialisation flags 7, version 1, time range, inputs, outputs. -/
def Tx.wire (t : Tx) (args : List (List Bytes)) : Bytes :=
  [7] ++ varint 1 ++ varint t.time ++ varint t.ins.length ++ (List.zipWith inWire t.ins args).flatten ++
    varint t.outs.length ++ t.outs.flatMap outWire

/-- The transaction without signatures. -/
def Tx.unsigned (t : Tx) : Bytes := t.wire (t.ins.map (fun _ => []))

/-- SHA3-256. -/
def sha3 (H : Hashes) (b : Bytes) : Bytes := H.hash .sha3_256 b

/-- The identifier of an entry with a type and a content. -/
def entry (H : Hashes) (type : String) (content : Bytes) : Bytes := sha3 H (asc "entryid:" ++ asc type ++ asc ":" ++ sha3 H content)

/-- Output entry: source, value, position, program of VM version 1. -/
def outputId (H : Hashes) (source asset : Bytes) (amount position : Nat) (program : Bytes) : Bytes :=
  entry H "output1" (source ++ asset ++ leBytes 8 amount ++ leBytes 8 position ++ leBytes 8 1 ++ str program)

/-- Spend entry: the identifier of the output spent. -/
def spendId (H : Hashes) (i : In) : Bytes := entry H "spend1" (outputId H i.source i.asset i.amount i.position i.program)

/-- Mux entry: the spends with their values and positions, and the program that always succeeds (0x51). -/
def muxId (H : Hashes) (t : Tx) : Bytes :=
  entry H "mux1" (varint t.ins.length ++
    t.ins.flatMap (fun i => spendId H i ++ i.asset ++ leBytes 8 i.amount ++ leBytes 8 i.position) ++ leBytes 8 1 ++ str [0x51])

/-- The identifiers of the outputs, numbered from 0. -/
def resultIds (H : Hashes) (t : Tx) : List Bytes := t.outs.mapIdx (fun k o => outputId H (muxId H t) btm o.amount k o.program)

/-- The transaction identifier: header entry with version 1, time range and results. -/
def txId (H : Hashes) (t : Tx) : Bytes :=
  entry H "txheader" (leBytes 8 1 ++ leBytes 8 t.time ++ varint t.outs.length ++ (resultIds H t).flatten)

/-- What the owner of an input signs. -/
def sigHash (H : Hashes) (t : Tx) (i : In) : Bytes := sha3 H (spendId H i ++ txId H t)

/-! ### Addresses (BIP 173 with version 0) -/

/-- The bits of a number, highest first. -/
def bitsOf (width n : Nat) : List Bool := (List.range width).reverse.map (fun i => n.testBit i)

/-- `text` is the address of the program hash `p` with the human-readable part `hrp`: behind "hrp1" the symbol 0, the bits of `p` in groups of five
(padded with zeros) and six symbols that make the whole a multiple of the generator up to the constant 1. -/
def IsAddress (hrp p text : Bytes) : Prop :=
  ∃ syms check : List Nat, (∀ s ∈ syms, s < 32) ∧ (∀ s ∈ check, s < 32) ∧ check.length = 6 ∧
    syms.length = (8 * p.length + 4) / 5 ∧
    syms.flatMap (bitsOf 5) = p.flatMap (fun b => bitsOf 8 b.toNat) ++ List.replicate (5 * syms.length - 8 * p.length) false ∧
    Bch.remainder Bch.bech32Gen (1 :: (Bch.hrpSymbols hrp ++ (0 :: syms ++ check))) = [0, 0, 0, 0, 0, 1] ∧
    text = hrp ++ asc "1" ++ (0 :: syms ++ check).map (fun s => (asc "qpzry9x8gf2tvdw0s3jn54khce6mua7l").getD s 0)

/-- Human-readable part of the main and test network. -/
def hrp (test : Bool) : Bytes := if test then asc "tm" else asc "bm"

/-! ### Requests -/

/-- The argument describes the spent output; texts are hexadecimal in either case. -/
def InOf (v : Bytom.Vin) (i : In) : Prop :=
  Hex.decode v.sourceID = .ok i.source ∧ Hex.decode v.assetID = .ok i.asset ∧ Hex.decode v.controlProgram = .ok i.program ∧
    v.amount.toNat = i.amount ∧ v.sourcePosition.toNat = i.position

/-- The argument pays to the address of a 20- or 32-byte hash; the control program is version 0 and the hash. -/
def OutOf (test : Bool) (v : Bytom.Vout) (o : Out) : Prop :=
  v.amount.toNat = o.amount ∧
    ∃ p : Bytes, (p.length = 20 ∨ p.length = 32) ∧ IsAddress (hrp test) p v.address ∧ o.program = [0, UInt8.ofNat p.length] ++ p

/-- The arguments of the creating function describe the transaction. -/
def RequestOf (vins : List Bytom.Vin) (vouts : List Bytom.Vout) (time : UInt64) (test : Bool) (t : Tx) : Prop :=
  List.Forall₂ InOf vins t.ins ∧ List.Forall₂ (OutOf test) vouts t.outs ∧ time.toNat = t.time

/-- Sizes for which the package is meant: one to 127 inputs and outputs, ids of 32 bytes, programs of 22 or 34 bytes, numbers below 2^56. -/
def Tx.Fits (t : Tx) : Prop :=
  0 < t.ins.length ∧ t.ins.length < 128 ∧ 0 < t.outs.length ∧ t.outs.length < 128 ∧ t.time < 2 ^ 56 ∧
  (∀ i ∈ t.ins, i.source.length = 32 ∧ i.asset.length = 32 ∧ i.amount < 2 ^ 56 ∧ i.position < 2 ^ 56 ∧
    (i.program.length = 22 ∨ i.program.length = 34)) ∧
  ∀ o ∈ t.outs, o.amount < 2 ^ 56 ∧ (o.program.length = 22 ∨ o.program.length = 34)

/-! ### Signatures -/

/-- The program `required`-of-keys checks: hash of the transaction (0xae), the keys, the two numbers as opcodes 0x51.., CHECKMULTISIG (0xad). -/
def multiScript (required : Nat) (keys : List Bytes) : Bytes :=
  [0xae] ++ keys.flatMap str ++ [UInt8.ofNat (0x50 + required), UInt8.ofNat (0x50 + keys.length), 0xad]

/-- The signed hash is one for a single key; its witness is signature and key. -/
def SingleSig (th : Bytom.TxHash) (args : List Bytes) : Prop :=
  th.nRequired = 0 ∧ ∃ a s p : Bytes, th.normal = some ⟨a, ⟨some s, some p⟩⟩ ∧ s.length = 64 ∧ p.length = 32 ∧ args = [s, p]

/-- The signed hash is one for two of two or three keys of 32 bytes, signed with at least two signatures of 64 bytes; its witness is the first two
signatures and the script. -/
def TwoSigs (th : Bytom.TxHash) (keys : List Bytes) (args : List Bytes) : Prop :=
  th.nRequired = 2 ∧ (keys.length = 2 ∨ keys.length = 3) ∧ (∀ k ∈ keys, k.length = 32) ∧
    th.multi.map (fun m => m.sigPub.pubkey) = keys.map some ∧
    ∃ s1 s2 : Bytes, ∃ more : List Bytes, th.multi.filterMap (fun m => m.sigPub.signature) = s1 :: s2 :: more ∧
      s1.length = 64 ∧ s2.length = 64 ∧ args = [s1, s2, multiScript 2 keys]

end Verif.Spec.Bytom
