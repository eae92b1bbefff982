import Verif.Model.SignConc
import Verif.Spec.Rfc6979
import Mathlib.Data.ZMod.Basic

/-! What a caller of the signing functions relies on when several calls run at the same time: each returns what it returns when it runs alone. -/

namespace Verif.Spec.SignConc
open Verif Verif.SigSet Verif.SignConc

/-- A request to sign: recoverable signatures (`EthSignature` and its copies) or EOS signatures (`SignCanonical`). -/
inductive Request where
  | eth (key hash : Bytes)
  | eos (key hash : Bytes)

/-- What the request gives in a process with no other signer. -/
noncomputable def alone (E : Ec) (sha : Bytes → Bytes) : Request → Res Bytes
  | .eth key hash => ethSignature E key hash
  | .eos key hash => signCanonical E sha key hash

/-- The call that serves the request. -/
noncomputable def call (E : Ec) (sha : Bytes → Bytes) : Request → Call
  | .eth key hash => ethCall E key hash
  | .eos key hash => eosCall E sha key hash

/-- A call is between storing its nonce and signing. -/
def Pending (c : Call) : Prop := ∃ key hash k, c = .sign key hash k

/-- The callers exclude each other between storing a nonce and signing: whenever the schedule lets a call store a nonce, no other call is pending. -/
def Exclusive (E : Ec) : World → List Nat → Prop
  | _, [] => True
  | w, i :: rest =>
    ((∃ nonce k, w.calls[i]? = some (.set nonce k)) → ∀ j c, j ≠ i → w.calls[j]? = some c → ¬ Pending c) ∧ Exclusive E (step E w i) rest

/-- The signatures of the library are ECDSA signatures: `k s = h + r d` modulo the order of the group, and r depends on the nonce only. -/
structure Ecdsa (E : Ec) : Prop where
  equation : ∀ key hash nonce raw, E.sign key hash nonce = some raw →
    (beNat nonce : ZMod Rfc6979.q) * (beNat (raw.drop 32) : ZMod Rfc6979.q) =
      (beNat hash : ZMod Rfc6979.q) + (beNat (raw.take 32) : ZMod Rfc6979.q) * (beNat key : ZMod Rfc6979.q)
  same_r : ∀ key hash key' hash' nonce raw raw', E.sign key hash nonce = some raw → E.sign key' hash' nonce = some raw' →
    raw.take 32 = raw'.take 32

/-- The value s published in a 65-byte signature r || s || recovery. -/
def sOf (sig : Bytes) : ZMod Rfc6979.q := (beNat ((sig.drop 32).take 32) : ZMod Rfc6979.q)

/-- The value r. -/
def rOf (sig : Bytes) : ZMod Rfc6979.q := (beNat (sig.take 32) : ZMod Rfc6979.q)

end Verif.Spec.SignConc
