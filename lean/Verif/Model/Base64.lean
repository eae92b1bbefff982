import Verif.Model.Base

/-! Go's `encoding/base64`, `StdEncoding.EncodeToString`: code of the standard library, described from its source. -/

namespace Verif.Base64
open Verif

/-- `encodeStd`. -/
def alphabet : Bytes := asc "ABCDEFGHIJKLMNOPQRSTUVWXYZabcdefghijklmnopqrstuvwxyz0123456789+/"

/-- `enc.encode[v&0x3F]`. -/
def sym (v : Nat) : UInt8 := alphabet.getD (v % 64) 0

/-- `Encode`: groups of three bytes, then the rest with padding. -/
def encode : Bytes → Bytes
  | x :: y :: z :: r =>
    let val := x.toNat * 65536 + y.toNat * 256 + z.toNat
    sym (val / 262144) :: sym (val / 4096) :: sym (val / 64) :: sym val :: encode r
  | [x, y] =>
    let val := x.toNat * 65536 + y.toNat * 256
    [sym (val / 262144), sym (val / 4096), sym (val / 64), 0x3d]
  | [x] =>
    let val := x.toNat * 65536
    [sym (val / 262144), sym (val / 4096), 0x3d, 0x3d]
  | [] => []

end Verif.Base64
