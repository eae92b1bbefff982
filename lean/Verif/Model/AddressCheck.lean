import Verif.Model.AddressEncoder

/-! Model of `addressEncoder/addressCheck.go`. -/

namespace Verif.Addr
open Verif

variable (H : Hashes)

/-- The test `addr[0] == c0 && addr[1] == c1 && ...`: left to right, stopping at the first difference, indexing panics
past the end. -/
def hasChars (addr : Bytes) : Nat → Bytes → Res Bool
  | _, [] => .ok true
  | i, c :: cs =>
    match index addr i with
    | .ok b => if b = c then hasChars addr (i + 1) cs else .ok false
    | _ => .panic

/-- A chain of `if addr starts with w { AddressDecode(addr, profile) }`; each taken branch returns. Falling through
returns `false, ErrorSymbolType` [addressCheck.go:454]. The Go pair `(false, err)` is `err`, `(true, nil)` is
`ok true`. -/
def tryRules (addr : Bytes) : List (Bytes × AddressType) → Res Bool
  | [] => .err
  | (w, a) :: rest => do
    let hit ← hasChars addr 0 w
    if hit then do
      let _ ← addressDecode H addr a
      .ok true
    else tryRules addr rest

/-- The branches of the `switch symbol` statement, in source order [addressCheck.go:21-448]. A test
`addr[0] == x || addr[0] == y` is two rules. The ETH case has no test (empty word). -/
def ruleTable : List (Bytes × List (Bytes × AddressType)) := [
  (asc "BTC", [
    (asc "1", BTC_mainnetAddressP2PKH), (asc "3", BTC_mainnetAddressP2SH), (asc "bc", BTC_mainnetAddressBech32V0),
    (asc "m", BTC_testnetAddressP2PKH), (asc "n", BTC_testnetAddressP2PKH), (asc "2", BTC_testnetAddressP2SH),
    (asc "tb", BTC_testnetAddressBech32V0)]),
  (asc "ZEC", [
    (asc "t1", ZEC_mainnet_t_AddressP2PKH), (asc "t3", ZEC_mainnet_t_AddressP2SH),
    (asc "tm", ZEC_testnet_t_AddressP2PKH), (asc "t2", ZEC_testnet_t_AddressP2SH)]),
  (asc "LTC", [
    (asc "L", LTC_mainnetAddressP2PKH), (asc "3", LTC_mainnetAddressP2SH), (asc "M", LTC_mainnetAddressP2SH2),
    (asc "ltc", LTC_mainnetAddressBech32V0), (asc "m", LTC_testnetAddressP2PKH), (asc "n", LTC_testnetAddressP2PKH),
    (asc "2", LTC_testnetAddressP2SH), (asc "tltc", LTC_testnetAddressBech32V0)]),
  (asc "BCH", [
    (asc "1", BCH_mainnetAddressLegacy), (asc "bitcoincash:", BCH_mainnetAddressCash)]),
  (asc "XTZ", [
    (asc "tz1", XTZ_mainnetAddress_tz1), (asc "tz2", XTZ_mainnetAddress_tz2), (asc "tz3", XTZ_mainnetAddress_tz3)]),
  (asc "HC", [(asc "Hs", HC_mainnetPublicAddress)]),
  (asc "ETH", [([], ETH_mainnetPublicAddress)]),
  (asc "QTUM", [
    (asc "Q", QTUM_mainnetAddressP2PKH), (asc "M", QTUM_mainnetAddressP2SH), (asc "q", QTUM_testnetAddressP2PKH),
    (asc "m", QTUM_testnetAddressP2SH)]),
  (asc "DCRD", [
    (asc "Ds", DCRD_mainnetAddressP2PKH), (asc "bg", DCRD_mainnetAddressP2PK), (asc "De", DCRD_mainnetAddressPKHEdwards),
    (asc "DS", DCRD_mainnetAddressPKHSchnorr), (asc "Dc", DCRD_mainnetAddressP2SH),
    (asc "24", DCRD_mainnetAddressPrivate), (asc "Ts", DCRD_testnetAddressP2PKH), (asc "2F", DCRD_testnetAddressP2PK),
    (asc "Te", DCRD_testnetAddressPKHEdwards), (asc "TS", DCRD_testnetAddressP2PKHSchnorr),
    (asc "Tc", DCRD_testnetAddressP2SH), (asc "25", DCRD_testnetAddressPrivate), (asc "Ss", DCRD_simnetAddressP2PKH),
    (asc "2D", DCRD_simnetAddressP2PK), (asc "Se", DCRD_simnetAddressPKHEdwards), (asc "SS", DCRD_simnetAddressPKHSchnorr),
    (asc "Sc", DCRD_simnetAddressP2SH)]),
  (asc "NAS", [(asc "n1", NAS_AccountAddress), (asc "n2", NAS_SmartContractAddress)]),
  (asc "TRX", [(asc "T", TRON_mainnetAddress)]),
  (asc "ICX", [(asc "hx", ICX_walletAddress)]),
  (asc "VSYS", [(asc "A", VSYS_mainnetAddress)])]

/-- Case selection; `none` is `default`. -/
def rulesOf (symbol : Bytes) : Option (List (Bytes × AddressType)) := ruleTable.lookup symbol

/-- `AddressCheck` [addressCheck.go:19-455]; unsupported symbols are accepted without any check. -/
def addressCheck (addr symbol : Bytes) : Res Bool :=
  match rulesOf symbol with
  | none => .ok true
  | some rules => tryRules H addr rules

end Verif.Addr
