import Verif.Model.Profiles

/-! How the texts of the built-in Base58 profiles start and how long they are, from the documents of the networks and, for Decred and HyperCash, from the comments beside the profiles
[encoderProfile.go:131-150, 190-216]. (For the test network of TV there is no document; the characters are those of the program.) -/

namespace Verif.Spec.Starts
open Verif Verif.Addr

/-- Profile, first characters of its texts, length of its texts. -/
def documented : List (AddressType × List Bytes × Nat) :=
  [(BTC_mainnetAddressP2SH, [asc "3"], 34),
   (BTC_mainnetPrivateWIF, [asc "5"], 51),
   (BTC_mainnetPrivateWIFCompressed, [asc "K", asc "L"], 52),
   (BTC_mainnetPublicBIP32, [asc "xpub"], 111),
   (BTC_mainnetPrivateBIP32, [asc "xprv"], 111),
   (BTC_testnetAddressP2PKH, [asc "m", asc "n"], 34),
   (BTC_testnetAddressP2SH, [asc "2"], 35),
   (BTC_testnetPrivateWIF, [asc "9"], 51),
   (BTC_testnetPrivateWIFCompressed, [asc "c"], 52),
   (BTC_testnetPublicBIP32, [asc "tpub"], 111),
   (BTC_testnetPrivateBIP32, [asc "tprv"], 111),
   (DOGE_multiSignAddressP2PKH, [asc "9", asc "A"], 34),
   (ONT_Address, [asc "A"], 34),
   (ZEC_mainnet_t_AddressP2PKH, [asc "t1"], 35),
   (ZEC_mainnet_t_AddressP2SH, [asc "t3"], 35),
   (ZEC_testnet_t_AddressP2PKH, [asc "tm"], 35),
   (ZEC_testnet_t_AddressP2SH, [asc "t2"], 35),
   (LTC_mainnetAddressP2PKH, [asc "L"], 34),
   (LTC_mainnetAddressP2SH, [asc "3"], 34),
   (LTC_mainnetAddressP2SH2, [asc "M"], 34),
   (LTC_mainnetPrivateWIF, [asc "6"], 51),
   (LTC_mainnetPrivateWIFCompressed, [asc "T"], 52),
   (LTC_mainnetPublicBIP32, [asc "xpub"], 111),
   (LTC_mainnetPrivateBIP32, [asc "xprv"], 111),
   (LTC_testnetAddressP2PKH, [asc "m", asc "n"], 34),
   (LTC_testnetAddressP2SH, [asc "2"], 35),
   (LTC_testnetAddressP2SH2, [asc "Q"], 34),
   (LTC_testnetPrivateWIF, [asc "9"], 51),
   (LTC_testnetPrivateWIFCompressed, [asc "c"], 52),
   (LTC_testnetPublicBIP32, [asc "tpub"], 111),
   (LTC_testnetPrivateBIP32, [asc "tprv"], 111),
   (XTZ_mainnetAddress_tz1, [asc "tz1"], 36),
   (XTZ_mainnetAddress_tz2, [asc "tz2"], 36),
   (XTZ_mainnetAddress_tz3, [asc "tz3"], 36),
   (XTZ_mainnetPublic_edpk, [asc "edpk"], 54),
   (XTZ_mainnetPrivate_spsk, [asc "spsk"], 54),
   (XTZ_mainnetPrivate_p2sk, [asc "p2sk"], 54),
   (QTUM_mainnetAddressP2PKH, [asc "Q"], 34),
   (QTUM_mainnetAddressP2SH, [asc "M"], 34),
   (QTUM_mainnetPrivateWIF, [asc "5"], 51),
   (QTUM_mainnetPrivateWIFCompressed, [asc "K", asc "L"], 52),
   (QTUM_mainnetPublicBIP32, [asc "xpub"], 111),
   (QTUM_mainnetPrivateBIP32, [asc "xprv"], 111),
   (QTUM_testnetAddressP2PKH, [asc "q"], 34),
   (QTUM_testnetAddressP2SH, [asc "m"], 34),
   (QTUM_testnetPrivateWIF, [asc "9"], 51),
   (QTUM_testnetPrivateWIFCompressed, [asc "c"], 52),
   (QTUM_testnetPublicBIP32, [asc "tpub"], 111),
   (QTUM_testnetPrivateBIP32, [asc "tprv"], 111),
   (DCRD_mainnetAddressP2PKH, [asc "Ds"], 35),
   (DCRD_mainnetAddressPKHEdwards, [asc "De"], 35),
   (DCRD_mainnetAddressPKHSchnorr, [asc "DS"], 35),
   (DCRD_mainnetAddressP2SH, [asc "Dc"], 35),
   (DCRD_testnetAddressP2PKH, [asc "Ts"], 35),
   (DCRD_testnetAddressPKHEdwards, [asc "Te"], 35),
   (DCRD_testnetAddressP2PKHSchnorr, [asc "TS"], 35),
   (DCRD_testnetAddressP2SH, [asc "Tc"], 35),
   (DCRD_simnetAddressP2PKH, [asc "Ss"], 35),
   (DCRD_simnetAddressPKHEdwards, [asc "Se"], 35),
   (DCRD_simnetAddressPKHSchnorr, [asc "SS"], 35),
   (DCRD_simnetAddressP2SH, [asc "Sc"], 35),
   (NAS_AccountAddress, [asc "n1"], 35),
   (TRON_mainnetAddress, [asc "T"], 34),
   (TRON_testnetAddress, [asc "27"], 35),
   (VSYS_mainnetAddress, [asc "AR"], 35),
   (EOS_mainnetPrivateWIF, [asc "5"], 51),
   (EOS_mainnetPrivateWIFCompressed, [asc "K", asc "L"], 52),
   (ELA_Address, [asc "E"], 34),
   (WICC_mainnetAddressP2PKH, [asc "W"], 34),
   (WICC_testnetAddressP2PKH, [asc "w"], 34),
   (TV_mainnetAddress, [asc "tv"], 35),
   (TV_testnetAddress, [asc "u6"], 35),
   (HC_mainnetPublicAddress, [asc "Hs"], 35),
   (HC_mainnetAddressP2PKH, [asc "Hs"], 35),
   (HC_mainnetAddressPKHSchnorr, [asc "HS"], 35),
   (HC_mainnetAddressPKHBliss, [asc "Hb"], 35),
   (HC_mainnetAddressP2SH, [asc "Hc"], 35),
   (HC_testnetAddressP2PKH, [asc "Ts"], 35),
   (HC_testnetAddressPKHEdwards, [asc "Te"], 35),
   (HC_testnetAddressP2PKHSchnorr, [asc "TS"], 35),
   (HC_testnetAddressPKHBliss, [asc "Tb"], 35),
   (HC_testnetAddressP2SH, [asc "Tc"], 35),
   (HC_simnetAddressP2PKH, [asc "Ss"], 35),
   (HC_simnetAddressPKHEdwards, [asc "Se"], 35),
   (HC_simnetAddressPKHSchnorr, [asc "SS"], 35),
   (HC_simnetAddressPKHBliss, [asc "Sb"], 35),
   (HC_simnetAddressP2SH, [asc "Sc"], 35),
   (BSV_mainnetAddressP2SH, [asc "3"], 34)]

/-- Version 0: the texts start with the first symbol of the alphabet and have 25 to 34 characters. -/
def zeroVersion : List (AddressType × Bytes) :=
  [(BTC_mainnetAddressP2PKH, asc "1"), (XRP_Address, asc "r"), (BCH_mainnetAddressLegacy, asc "1"), (BSV_mainnetAddressP2PKH, asc "1")]

/-- Profile, the first characters its texts are documented to have, and the ones they have instead. Decred and HyperCash: the payloads of these kinds are longer than the 20 bytes of the profiles. Tezos: the
version bytes of the two forms of Ed25519 private keys (64 and 32 bytes) are exchanged. -/
def never : List (AddressType × Bytes × Bytes × Nat) :=
  [(XTZ_mainnetPrivate_edsk, asc "edsk", asc "CBT4", 98),
   (XTZ_mainnetPrivate_edsk2, asc "edsk", asc "3BhD", 55),
   (DCRD_mainnetAddressP2PK, asc "Dk", asc "bg", 35),
   (DCRD_mainnetAddressPrivate, asc "Pm", asc "24", 36),
   (DCRD_testnetAddressP2PK, asc "Tk", asc "2F", 36),
   (DCRD_testnetAddressPrivate, asc "Pt", asc "25", 36),
   (DCRD_simnetAddressP2PK, asc "Sk", asc "2D", 36),
   (DCRD_simnetAddressPrivate, asc "Ps", asc "25", 36),
   (HC_mainnetAddressP2PK, asc "Hk", asc "nY", 35),
   (HC_mainnetAddressP2PKBliss, asc "Hk", asc "En", 35),
   (HC_mainnetAddressPrivate, asc "Hm", asc "nb", 35),
   (HC_testnetAddressP2PK, asc "Tk", asc "2F", 36),
   (HC_testnetAddressP2PKBliss, asc "Tk", asc "P2", 35),
   (HC_testnetAddressPrivate, asc "Pt", asc "25", 36),
   (HC_simnetAddressP2PK, asc "Sk", asc "2D", 36),
   (HC_simnetAddressP2PKBliss, asc "Sk", asc "NC", 35),
   (HC_simnetAddressPrivate, asc "Ps", asc "25", 36)]

/-- Profile, documented first characters, and those of some other texts. -/
def sometimes : List (AddressType × Bytes × Bytes × Nat) :=
  [(NAS_SmartContractAddress, asc "n2", asc "n1", 35),
   (VSYS_testnetAddress, asc "AU", asc "AT", 35),
   (HC_mainnetAddressPKHEdwards, asc "He", asc "Hf", 35)]

/-- The bech32, cashaddr and bech32m profiles and the account formats with a fixed front part. -/
def fronted : List (AddressType × Bytes) :=
  [(BTC_mainnetAddressBech32V0, asc "bc1q"), (BTC_testnetAddressBech32V0, asc "tb1q"), (LTC_mainnetAddressBech32V0, asc "ltc1q"), (LTC_testnetAddressBech32V0, asc "tltc1q"),
   (BTM_mainnetAddressBech32V0, asc "bm1q"), (BTM_testnetAddressBech32V0, asc "tm1q"), (ATOM_mainnetAddress, asc "cosmos1"), (ATOM_testnetAddress, asc "cosmos1"), (BNB_mainnetAddress, asc "bnb1"),
   (EVA_mainnetAddress, asc "eva1"), (EVA_testnetAddress, asc "eva1"), (BCH_mainnetAddressCash, asc "bitcoincash:"), (ICX_walletAddress, asc "hx"), (EOS_mainnetPublic, asc "EOS"),
   (AE_mainnetAddress, asc "ak_")]

/-- Monero: profile and first characters. -/
def monero : List (AddressType × List Bytes) :=
  [(XMR_mainnetPublicAddress, [asc "4"]), (XMR_mainnetPublicSubAddress, [asc "8"]), (XMR_mainnetPublicIntegratedAddress, [asc "4"]), (XMR_testnetPublicAddress, [asc "9", asc "A"]),
   (XMR_testnetPublicSubAddress, [asc "B"]), (XMR_testnetPublicIntegratedAddress, [asc "A"])]

/-- Profiles of different coins or networks that the networks themselves do not tell apart (same version bytes, length, suffix and checksum). -/
def shared : List (List AddressType) :=
  [[BTC_mainnetAddressP2PKH, BCH_mainnetAddressLegacy, BSV_mainnetAddressP2PKH],
   [BTC_mainnetAddressP2SH, LTC_mainnetAddressP2SH, BSV_mainnetAddressP2SH],
   [BTC_mainnetPrivateWIF, QTUM_mainnetPrivateWIF, EOS_mainnetPrivateWIF],
   [BTC_mainnetPrivateWIFCompressed, QTUM_mainnetPrivateWIFCompressed, EOS_mainnetPrivateWIFCompressed],
   [BTC_mainnetPublicBIP32, LTC_mainnetPublicBIP32, QTUM_mainnetPublicBIP32],
   [BTC_mainnetPrivateBIP32, LTC_mainnetPrivateBIP32, QTUM_mainnetPrivateBIP32],
   [BTC_testnetAddressP2PKH, LTC_testnetAddressP2PKH],
   [BTC_testnetAddressP2SH, LTC_testnetAddressP2SH],
   [BTC_testnetPrivateWIF, LTC_testnetPrivateWIF, QTUM_testnetPrivateWIF],
   [BTC_testnetPrivateWIFCompressed, LTC_testnetPrivateWIFCompressed, QTUM_testnetPrivateWIFCompressed],
   [BTC_testnetPublicBIP32, LTC_testnetPublicBIP32, QTUM_testnetPublicBIP32],
   [BTC_testnetPrivateBIP32, LTC_testnetPrivateBIP32, QTUM_testnetPrivateBIP32],
   [LTC_mainnetAddressP2SH2, QTUM_mainnetAddressP2SH],
   [LTC_testnetAddressP2SH2, QTUM_mainnetAddressP2PKH],
   [DCRD_testnetAddressP2PKH, HC_testnetAddressP2PKH],
   [DCRD_testnetAddressP2PK, HC_testnetAddressP2PK],
   [DCRD_testnetAddressPKHEdwards, HC_testnetAddressPKHEdwards],
   [DCRD_testnetAddressP2PKHSchnorr, HC_testnetAddressP2PKHSchnorr],
   [DCRD_testnetAddressP2SH, HC_testnetAddressP2SH],
   [DCRD_testnetAddressPrivate, HC_testnetAddressPrivate],
   [DCRD_simnetAddressP2PKH, HC_simnetAddressP2PKH],
   [DCRD_simnetAddressP2PK, HC_simnetAddressP2PK],
   [DCRD_simnetAddressPKHEdwards, HC_simnetAddressPKHEdwards],
   [DCRD_simnetAddressPKHSchnorr, HC_simnetAddressPKHSchnorr],
   [DCRD_simnetAddressP2SH, HC_simnetAddressP2SH],
   [DCRD_simnetAddressPrivate, HC_simnetAddressPrivate]]

end Verif.Spec.Starts
