import Verif.Model.Btc
import Verif.Model.Memory

/-! `EncodeCheck` of the Bitcoin packages [btcTransaction/base58.go:169-174; the same text in `bitcoincashTransaction`, `bitcoinsvTransaction`,
`cxcTransaction`, `hcTransaction`, `zencashTransaction`, `omniTransaction`, `vollarTransaction`, `elastosTransaction`, `waykichainTransaction` and
`fiiiTransaction`] on slices in memory, step by step, so that several calls can run at the same time. `CreateMultiSig` [txMultiSig.go:59] and `newTxHash`
[txHash.go:63-65] call it with the prefix that their caller passes.

A step reads or writes one byte of memory, or reserves memory for an `append`. Simplifications: copying the old bytes into a new array is one step
together with reserving it; memory is sequentially consistent (a Go program with a data race may do worse). -/

namespace Verif.CheckMem
open Verif Verif.Mem

/-- How far a call is. `joining` is the first `append`, of which `i` bytes have been copied; `hashing` is `owcrypt.Hash(data, …)`, which has read the
bytes `seen`; `sealing` is the second `append`, `encoding` is `Encode(data, …)`. -/
inductive Stage
  | start
  | joining (data : Slice) (i : Nat)
  | hashing (data : Slice) (seen : Bytes)
  | sealing (data : Slice) (sum : Bytes) (i : Nat)
  | encoding (data : Slice) (seen : Bytes)
  | done (text : Res Bytes)

/-- A call `EncodeCheck(pre, hash)`. -/
structure Call where
  pre : Slice
  hash : Slice
  stage : Stage

/-- The memory that `append` of `n` bytes to `s` uses: the array of `s` if the capacity suffices, otherwise a new one with the bytes of `s` (see
`Mem.append`). The appended bytes are not written yet. -/
def reserve (grow : Nat → Nat → Nat) (h : Heap) (s : Slice) (n : Nat) : Slice × Heap :=
  if s.len + n ≤ s.cap then ({ s with len := s.len + n }, h)
  else
    let c := max (grow s.cap (s.len + n)) (s.len + n)
    (⟨h.length, 0, s.len + n, c⟩, h ++ [read h s ++ List.replicate (c - s.len) 0])

/-- `s[i]`. -/
def byteAt (h : Heap) (s : Slice) (i : Nat) : UInt8 := (array h s.arr).getD (s.off + i) 0

/-- One step of a call [base58.go:169-174]. -/
def step (H : Hashes) (grow : Nat → Nat → Nat) : Heap × Call → Heap × Call
  | (h, ⟨pre, hash, .start⟩) =>
    let r := reserve grow h pre hash.len
    (r.2, ⟨pre, hash, .joining r.1 0⟩)
  | (h, ⟨pre, hash, .joining d i⟩) =>
    if i < hash.len then (write h d.arr (d.off + pre.len + i) [byteAt h hash i], ⟨pre, hash, .joining d (i + 1)⟩)
    else (h, ⟨pre, hash, .hashing d []⟩)
  | (h, ⟨pre, hash, .hashing d seen⟩) =>
    if seen.length < d.len then (h, ⟨pre, hash, .hashing d (seen ++ [byteAt h d seen.length])⟩)
    else
      let sum := (H.hash .doubleSha256 seen).take 4
      let r := reserve grow h d sum.length
      (r.2, ⟨pre, hash, .sealing r.1 sum 0⟩)
  | (h, ⟨pre, hash, .sealing d sum i⟩) =>
    if i < sum.length then (write h d.arr (d.off + (d.len - sum.length) + i) [sum.getD i 0], ⟨pre, hash, .sealing d sum (i + 1)⟩)
    else (h, ⟨pre, hash, .encoding d []⟩)
  | (h, ⟨pre, hash, .encoding d seen⟩) =>
    if seen.length < d.len then (h, ⟨pre, hash, .encoding d (seen ++ [byteAt h d seen.length])⟩)
    else (h, ⟨pre, hash, .done (Base58.encode Btc.alphabet seen)⟩)
  | (h, ⟨pre, hash, .done t⟩) => (h, ⟨pre, hash, .done t⟩)

/-- Memory and the calls that run on it. -/
structure State where
  heap : Heap
  calls : List Call

/-- The state in which all calls are about to begin. -/
def init (h : Heap) (args : List (Slice × Slice)) : State := ⟨h, args.map fun a => ⟨a.1, a.2, .start⟩⟩

/-- One step of call number `i`. -/
def stepAt (H : Hashes) (grow : Nat → Nat → Nat) (s : State) (i : Nat) : State :=
  match s.calls[i]? with
  | none => s
  | some c => ⟨(step H grow (s.heap, c)).1, s.calls.set i (step H grow (s.heap, c)).2⟩

/-- The calls make steps in the order that the schedule says. -/
def run (H : Hashes) (grow : Nat → Nat → Nat) (s : State) (schedule : List Nat) : State := schedule.foldl (stepAt H grow) s

/-- What call number `i` has returned, if it has. -/
def result (s : State) (i : Nat) : Option (Res Bytes) :=
  match s.calls[i]? with
  | some ⟨_, _, .done t⟩ => some t
  | _ => none

end Verif.CheckMem
