import Verif.Model.Crypto
import Verif.Model.Profiles

/-! Specification vocabulary for Base58Check addresses, written from the published formats. -/

namespace Verif.Spec
open Verif

/-- Names of checksum rules and the digest whose first four bytes are the checksum. -/
def checksumRules (H : Hashes) : List (Bytes × (Bytes → Bytes)) :=
  [(asc "doubleSHA256", H.hash .doubleSha256),
   (asc "doubleBlake256", H.hash .doubleBlake256),
   (asc "keccak256", H.hash .keccak256),
   (asc "sha3_256", H.hash .sha3_256),
   (asc "blake2b_and_keccak256_first_twenty", fun d => H.hash .keccak256 (H.hash (.blake2b 32) d)),
   (asc "ripemd160", H.hash .ripemd160)]

/-- `c` is the checksum of `d` under the rule called `rule`. -/
def IsChecksum (H : Hashes) (rule d c : Bytes) : Prop :=
  ∃ digest, (rule, digest) ∈ checksumRules H ∧ c = (digest d).take 4

/-- `rule` names a known checksum rule. -/
def KnownRule (rule : Bytes) : Prop :=
  rule ∈ [asc "doubleSHA256", asc "doubleBlake256", asc "keccak256", asc "sha3_256",
    asc "blake2b_and_keccak256_first_twenty", asc "ripemd160"]

instance (rule : Bytes) : Decidable (KnownRule rule) := by unfold KnownRule; infer_instance

open Verif.Addr in
/-- The address profiles belonging to each coin symbol that `AddressCheck` supports, by the profiles' names. -/
def coinProfiles : List (Bytes × List AddressType) :=
  [(asc "BTC", [BTC_mainnetAddressP2PKH, BTC_mainnetAddressP2SH, BTC_mainnetAddressBech32V0, BTC_testnetAddressP2PKH,
      BTC_testnetAddressP2SH, BTC_testnetAddressBech32V0]),
   (asc "ZEC", [ZEC_mainnet_t_AddressP2PKH, ZEC_mainnet_t_AddressP2SH, ZEC_testnet_t_AddressP2PKH,
      ZEC_testnet_t_AddressP2SH]),
   (asc "LTC", [LTC_mainnetAddressP2PKH, LTC_mainnetAddressP2SH, LTC_mainnetAddressP2SH2, LTC_mainnetAddressBech32V0,
      LTC_testnetAddressP2PKH, LTC_testnetAddressP2SH, LTC_testnetAddressBech32V0]),
   (asc "BCH", [BCH_mainnetAddressLegacy, BCH_mainnetAddressCash]),
   (asc "XTZ", [XTZ_mainnetAddress_tz1, XTZ_mainnetAddress_tz2, XTZ_mainnetAddress_tz3]),
   (asc "HC", [HC_mainnetPublicAddress]),
   (asc "ETH", [ETH_mainnetPublicAddress]),
   (asc "QTUM", [QTUM_mainnetAddressP2PKH, QTUM_mainnetAddressP2SH, QTUM_testnetAddressP2PKH, QTUM_testnetAddressP2SH]),
   (asc "DCRD", [DCRD_mainnetAddressP2PKH, DCRD_mainnetAddressP2PK, DCRD_mainnetAddressPKHEdwards,
      DCRD_mainnetAddressPKHSchnorr, DCRD_mainnetAddressP2SH, DCRD_mainnetAddressPrivate, DCRD_testnetAddressP2PKH,
      DCRD_testnetAddressP2PK, DCRD_testnetAddressPKHEdwards, DCRD_testnetAddressP2PKHSchnorr, DCRD_testnetAddressP2SH,
      DCRD_testnetAddressPrivate, DCRD_simnetAddressP2PKH, DCRD_simnetAddressP2PK, DCRD_simnetAddressPKHEdwards,
      DCRD_simnetAddressPKHSchnorr, DCRD_simnetAddressP2SH]),
   (asc "NAS", [NAS_AccountAddress, NAS_SmartContractAddress]),
   (asc "TRX", [TRON_mainnetAddress]),
   (asc "ICX", [ICX_walletAddress]),
   (asc "VSYS", [VSYS_mainnetAddress])]

/-- Length of the human-readable part: the characters before the separator (0 without a separator). -/
def hrpLength (sep : UInt8) (t : Bytes) : Nat := if sep ∈ t then (t.takeWhile (· ≠ sep)).length else 0

/-- The text has the minimal length that `AddressDecode` takes for granted, per encoding: 17 characters (Base58), eight
(bech32) or ten (cashaddr) characters after the separator, two characters (hex styles); no condition otherwise. -/
def longEnough (encodeType t : Bytes) : Prop :=
  (encodeType = asc "base58" → 17 ≤ t.length) ∧
  (encodeType = asc "bech32" → hrpLength 0x31 t + 1 + 8 ≤ t.length) ∧
  (encodeType = asc "base32PolyMod" → hrpLength 0x3a t + 1 + 10 ≤ t.length) ∧
  (encodeType = asc "eip55" ∨ encodeType = asc "ICX" → 2 ≤ t.length)

end Verif.Spec
