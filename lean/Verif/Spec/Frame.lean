import Verif.Spec.Verge

/-! Independent specification: a transaction of the Bitcoin family around the scripts of its inputs. -/

namespace Verif.Spec
open Verif

/-- What precedes the number of inputs; per input the 36 bytes before its script and the 4 bytes behind; what follows the inputs. -/
structure Frame where
  head : Bytes
  ins : List (Bytes × Bytes)
  tail : Bytes

/-- The transaction with the given (length-prefixed) scripts. -/
def Frame.fill (f : Frame) (scripts : List Bytes) : Bytes :=
  f.head ++ [UInt8.ofNat f.ins.length] ++ (List.zipWith (fun i s => i.1 ++ s ++ i.2) f.ins scripts).flatten ++ f.tail

/-- The outputs behind their number, each with an amount and a script behind its one-byte length, and four bytes of lock time. -/
def IsTail (b : Bytes) : Prop :=
  ∃ (outs : List (Bytes × Bytes)) (lockTime : Bytes), outs.length < 256 ∧ (∀ o ∈ outs, o.1.length = 8 ∧ o.2.length < 256) ∧ lockTime.length = 4 ∧
    b = [UInt8.ofNat outs.length] ++ outs.flatMap (fun o => o.1 ++ push o.2) ++ lockTime

/-- A frame with `n` bytes before the number of inputs. -/
structure Frame.Ok (f : Frame) (n : Nat) : Prop where
  head : f.head.length = n
  some_input : f.ins ≠ []
  few_inputs : f.ins.length < 256
  input : ∀ i ∈ f.ins, i.1.length = 36 ∧ i.2.length = 4
  tail : IsTail f.tail

/-- A frame of a Vollar transaction with the outputs `body`: four bytes of version and a flag first; each output has an amount, a flag, a script
behind its one-byte length and 32 bytes more; nothing follows. -/
structure Frame.VOk (f : Frame) (body : Bytes) : Prop where
  head : f.head.length = 5
  some_input : f.ins ≠ []
  few_inputs : f.ins.length < 256
  input : ∀ i ∈ f.ins, i.1.length = 36 ∧ i.2.length = 4
  tail : ∃ outs : List (Bytes × Bytes × Bytes), outs.length < 256 ∧ (∀ o ∈ outs, o.1.length = 9 ∧ o.2.1.length < 256 ∧ o.2.2.length = 32) ∧
    body = outs.flatMap (fun o => o.1 ++ push o.2.1 ++ o.2.2) ∧ f.tail = [UInt8.ofNat outs.length] ++ body

/-- What an input of a Vollar transaction signs: hashes of all outpoints, all sequence numbers and all outputs; 80 zero bytes; signature type 1;
outpoint, script and sequence number of the input. -/
def Frame.vpreimage (hash : Bytes → Bytes) (f : Frame) (body : Bytes) (i : Bytes × Bytes) (lock : Bytes) : Bytes :=
  hash (f.ins.flatMap (·.1)) ++ hash (f.ins.flatMap (·.2)) ++ hash body ++ List.replicate 80 0 ++ leBytes 4 1 ++ i.1 ++ push lock ++ i.2

end Verif.Spec
