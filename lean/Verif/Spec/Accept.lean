import Verif.Model.Profiles

/-! The address profiles of the coins `AddressCheck` knows, by the names of the profiles [encoderProfile.go]: those with a
Base58 form whose texts are accepted under the symbol of their coin, and those whose texts are not. -/

namespace Verif.Spec.Accept
open Verif Verif.Addr

/-- Symbol and profile: Base58 addresses that `AddressCheck` accepts. -/
def accepted : List (Bytes × AddressType) :=
  [(asc "BTC", BTC_mainnetAddressP2SH), (asc "BTC", BTC_testnetAddressP2PKH), (asc "BTC", BTC_testnetAddressP2SH),
   (asc "ZEC", ZEC_mainnet_t_AddressP2PKH), (asc "ZEC", ZEC_mainnet_t_AddressP2SH),
   (asc "ZEC", ZEC_testnet_t_AddressP2PKH), (asc "ZEC", ZEC_testnet_t_AddressP2SH),
   (asc "LTC", LTC_mainnetAddressP2PKH), (asc "LTC", LTC_mainnetAddressP2SH), (asc "LTC", LTC_mainnetAddressP2SH2),
   (asc "LTC", LTC_testnetAddressP2PKH), (asc "LTC", LTC_testnetAddressP2SH),
   (asc "XTZ", XTZ_mainnetAddress_tz1), (asc "XTZ", XTZ_mainnetAddress_tz2), (asc "XTZ", XTZ_mainnetAddress_tz3),
   (asc "HC", HC_mainnetPublicAddress), (asc "HC", HC_mainnetAddressP2PKH),
   (asc "QTUM", QTUM_mainnetAddressP2PKH), (asc "QTUM", QTUM_mainnetAddressP2SH), (asc "QTUM", QTUM_testnetAddressP2PKH),
   (asc "QTUM", QTUM_testnetAddressP2SH),
   (asc "DCRD", DCRD_mainnetAddressP2PKH), (asc "DCRD", DCRD_mainnetAddressP2PK), (asc "DCRD", DCRD_mainnetAddressPKHEdwards),
   (asc "DCRD", DCRD_mainnetAddressPKHSchnorr), (asc "DCRD", DCRD_mainnetAddressP2SH), (asc "DCRD", DCRD_mainnetAddressPrivate),
   (asc "DCRD", DCRD_testnetAddressP2PKH), (asc "DCRD", DCRD_testnetAddressP2PK), (asc "DCRD", DCRD_testnetAddressPKHEdwards),
   (asc "DCRD", DCRD_testnetAddressP2PKHSchnorr), (asc "DCRD", DCRD_testnetAddressP2SH),
   (asc "DCRD", DCRD_testnetAddressPrivate), (asc "DCRD", DCRD_simnetAddressP2PKH), (asc "DCRD", DCRD_simnetAddressP2PK),
   (asc "DCRD", DCRD_simnetAddressPKHEdwards), (asc "DCRD", DCRD_simnetAddressPKHSchnorr),
   (asc "DCRD", DCRD_simnetAddressP2SH),
   (asc "NAS", NAS_AccountAddress), (asc "TRX", TRON_mainnetAddress), (asc "VSYS", VSYS_mainnetAddress)]

/-- Symbol and profile: the same for version 0. -/
def acceptedZero : List (Bytes × AddressType) :=
  [(asc "BTC", BTC_mainnetAddressP2PKH), (asc "BCH", BCH_mainnetAddressLegacy)]

/-- Symbol and profile: Base58 addresses that `AddressCheck` refuses. -/
def refused : List (Bytes × AddressType) :=
  [(asc "LTC", LTC_testnetAddressP2SH2), (asc "DCRD", DCRD_simnetAddressPrivate), (asc "TRX", TRON_testnetAddress),
   (asc "VSYS", VSYS_testnetAddress),
   (asc "HC", HC_mainnetAddressP2PK), (asc "HC", HC_mainnetAddressP2PKBliss), (asc "HC", HC_mainnetAddressPKHEdwards),
   (asc "HC", HC_mainnetAddressPKHSchnorr), (asc "HC", HC_mainnetAddressPKHBliss), (asc "HC", HC_mainnetAddressP2SH),
   (asc "HC", HC_mainnetAddressPrivate), (asc "HC", HC_testnetAddressP2PK), (asc "HC", HC_testnetAddressP2PKBliss),
   (asc "HC", HC_testnetAddressP2PKH), (asc "HC", HC_testnetAddressPKHEdwards), (asc "HC", HC_testnetAddressP2PKHSchnorr),
   (asc "HC", HC_testnetAddressPKHBliss), (asc "HC", HC_testnetAddressP2SH), (asc "HC", HC_testnetAddressPrivate),
   (asc "HC", HC_simnetAddressP2PK), (asc "HC", HC_simnetAddressP2PKBliss), (asc "HC", HC_simnetAddressP2PKH),
   (asc "HC", HC_simnetAddressPKHEdwards), (asc "HC", HC_simnetAddressPKHSchnorr), (asc "HC", HC_simnetAddressPKHBliss),
   (asc "HC", HC_simnetAddressP2SH), (asc "HC", HC_simnetAddressPrivate)]

end Verif.Spec.Accept
