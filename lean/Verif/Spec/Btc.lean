import Verif.Model.Crypto
import Verif.Spec.Base58

/-! Specification vocabulary for Bitcoin transactions, written from the published formats (BIP 66, BIP 143, the
transaction serialisation of Bitcoin Core). Independent of the model's helpers. -/

namespace Verif.Spec
open Verif

/-- `c` is the content of a DER INTEGER with non-negative value `v`: not empty, sign bit clear, no unnecessary leading zero. -/
structure IsDerInt (c : Bytes) (v : Nat) : Prop where
  value : beNat c = v
  nonempty : c ≠ []
  nonneg : ∀ x ∈ c.head?, x.toNat < 0x80
  minimal : ∀ y t, c = 0 :: y :: t → 0x80 ≤ y.toNat

/-- A DER-encoded ECDSA signature `SEQUENCE { INTEGER R, INTEGER S }` (short lengths). -/
def derSig (R S : Bytes) : Bytes :=
  let body := [0x02, UInt8.ofNat R.length] ++ R ++ [0x02, UInt8.ofNat S.length] ++ S
  [0x30, UInt8.ofNat body.length] ++ body

/-- A script pushing `d` (at most 75 bytes). -/
def push (d : Bytes) : Bytes := UInt8.ofNat d.length :: d

/-! ### Transactions -/

/-- Bitcoin's variable length integers ("CompactSize"). -/
def compactSize (n : Nat) : Bytes :=
  if n < 0xfd then [UInt8.ofNat n]
  else if n ≤ 0xffff then 0xfd :: leBytes 2 n
  else if n ≤ 0xffffffff then 0xfe :: leBytes 4 n
  else 0xff :: leBytes 8 n

/-- A byte string behind its length. -/
def varBytes (b : Bytes) : Bytes := compactSize b.length ++ b

/-- An input: the transaction spent (hash in serialisation order, i.e. the reverse of the displayed id), the output
spent, the unlocking script and the sequence number. -/
structure RawIn where
  prev : Bytes
  index : Nat
  script : Bytes
  sequence : Nat

/-- An output: amount in the smallest unit, locking script. -/
structure RawOut where
  value : Nat
  script : Bytes

/-- A transaction (without witness data). -/
structure RawTx where
  version : Nat
  ins : List RawIn
  outs : List RawOut
  lockTime : Nat

def RawIn.outpoint (i : RawIn) : Bytes := i.prev ++ leBytes 4 i.index
def RawIn.ser (i : RawIn) : Bytes := i.outpoint ++ varBytes i.script ++ leBytes 4 i.sequence
def RawOut.ser (o : RawOut) : Bytes := leBytes 8 o.value ++ varBytes o.script

/-- The serialisation of a transaction without witness data. -/
def RawTx.ser (t : RawTx) : Bytes :=
  leBytes 4 t.version ++ compactSize t.ins.length ++ (t.ins.map RawIn.ser).flatten ++
    compactSize t.outs.length ++ (t.outs.map RawOut.ser).flatten ++ leBytes 4 t.lockTime

/-- A version 2 transaction without unlocking scripts whose numbers fit their fields, with 1 to 252 inputs and outputs and output scripts
of 1 to 252 bytes. -/
structure Unsigned (t : RawTx) : Prop where
  version : t.version = 2
  lockTime : t.lockTime < 2 ^ 32
  insPos : 1 ≤ t.ins.length
  insLt : t.ins.length < 253
  outsPos : 1 ≤ t.outs.length
  outsLt : t.outs.length < 253
  ins : ∀ i ∈ t.ins, i.prev.length = 32 ∧ i.index < 2 ^ 32 ∧ i.script = [] ∧ i.sequence < 2 ^ 32
  outs : ∀ o ∈ t.outs, o.value < 2 ^ 64 ∧ 1 ≤ o.script.length ∧ o.script.length < 253

/-- The bytes hashed for a SIGHASH_ALL signature of input `k` before segregated witness: the transaction with all unlocking scripts
empty except that of input `k`, which is `code`; followed by the signature type. -/
def legacyPreimage (t : RawTx) (k : Nat) (code : Bytes) : Bytes :=
  RawTx.ser { t with ins := t.ins.mapIdx (fun j i => { i with script := if j = k then code else [] }) } ++ leBytes 4 1

/-- The bytes hashed for a SIGHASH_ALL signature of input `i` by BIP 143. -/
def bip143Preimage (hash : Bytes → Bytes) (t : RawTx) (i : RawIn) (code : Bytes) (value : Nat) : Bytes :=
  leBytes 4 t.version ++ hash (t.ins.map RawIn.outpoint).flatten ++ hash (t.ins.map (fun i => leBytes 4 i.sequence)).flatten ++
    i.outpoint ++ varBytes code ++ leBytes 8 value ++ leBytes 4 i.sequence ++ hash (t.outs.map RawOut.ser).flatten ++
    leBytes 4 t.lockTime ++ leBytes 4 1

/-! ### Locking scripts and addresses -/

/-- Pay to public key hash, pay to script hash, pay to witness program (version 0). -/
def p2pkhScript (h : Bytes) : Bytes := [0x76, 0xa9, 0x14] ++ h ++ [0x88, 0xac]
def p2shScript (h : Bytes) : Bytes := [0xa9, 0x14] ++ h ++ [0x87]
def witnessV0Script (program : Bytes) : Bytes := 0x00 :: push program

/-- The text is the Base58Check text of version bytes `ver` and hash `h`. -/
def IsBase58Check (H : Hashes) (alph ver h text : Bytes) : Prop :=
  IsBase58 alph (ver ++ h ++ (H.hash .doubleSha256 (ver ++ h)).take 4) text

/-- Multisig policy script: `m` of the keys. -/
def multisigScript (m : Nat) (keys : List Bytes) : Bytes :=
  [UInt8.ofNat (0x50 + m)] ++ (keys.map push).flatten ++ [UInt8.ofNat (0x50 + keys.length), 0xae]

end Verif.Spec
