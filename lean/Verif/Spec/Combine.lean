import Verif.Spec.Crash
import Verif.Spec.Btc

/-! Texts made of parts, what HyperCash signs, and the signatures Aliencoin cannot write. -/

namespace Verif.Spec.Combine
open Verif Verif.Spec

/-- `text` is `first` and the parts `rest`, separated by `sep`, which none of them contains. -/
def Parts (sep : UInt8) (text first : Bytes) (rest : List Bytes) : Prop :=
  text = first ++ rest.flatMap (fun p => sep :: p) ∧ sep ∉ first ∧ ∀ p ∈ rest, sep ∉ p

/-- What input `k` of `n` signs in HyperCash: hash type 1, the hash of the transaction `tx` with serialisation type 1 (bytes 2 and 3), and the hash of the
witness in which all scripts are empty but the script `lock` of this input. -/
def hcMessage (digest : Bytes → Bytes) (tx lock : Bytes) (n k : Nat) : Bytes :=
  digest ([1, 0, 0, 0] ++ digest (tx.take 2 ++ [1, 0] ++ tx.drop 4) ++
    digest ([1, 0, 3, 0] ++ compactSize n ++ List.replicate k 0 ++ lock ++ List.replicate (n - 1 - k) 0))

/-- At most 62 bytes, and zero in all even places. -/
def EvenZero (r : Bytes) : Prop := r.length ≤ 62 ∧ ∀ i x, r[2 * i]? = some x → x = 0

/-- A signature of which r is incomplete, or r or s is zero in all even places. -/
def Unwritable2 (sig : Bytes) : Prop := sig.length < 32 ∨ EvenZero (sig.take 32) ∨ EvenZero (sig.drop 32)

end Verif.Spec.Combine
