import Verif.Model.Crypto

/-! Model of `addressEncoder/encoderProfile.go`: the table of address profiles, transcribed entry by entry. Texts are
byte strings. `Prefix`/`Suffix` are `Option` because `catData`/`recoverData` distinguish nil from empty. -/

namespace Verif.Addr
open Verif

/-- `AddressType` [encoderProfile.go:26-34]. -/
structure AddressType where
  encodeType : Bytes
  alphabet : Bytes
  checksumType : Bytes
  hashType : Bytes
  hashLen : Nat
  pre : Option Bytes
  suf : Option Bytes
deriving DecidableEq

/-- The Base58 alphabet shared by all profiles but XRP [encoderProfile.go:4-21]. -/
def base58Btc : Bytes := asc "123456789ABCDEFGHJKLMNPQRSTUVWXYZabcdefghijkmnopqrstuvwxyz"
/-- `XRPAlphabet` [encoderProfile.go:7]. -/
def base58Xrp : Bytes := asc "rpshnaf39wBUDNEGHJKLM4PQRST7VWXYZ2bcdeCg65jkm8oFqi1tuvAxyz"
/-- The 32-symbol alphabet of all bech32-family profiles [encoderProfile.go:9-23]. -/
def bech32Std : Bytes := asc "qpzry9x8gf2tvdw0s3jn54khce6mua7l"

/-- [encoderProfile.go:42] -/
def BTC_mainnetAddressP2PKH : AddressType := ⟨asc "base58", base58Btc, asc "doubleSHA256", asc "h160", 20, some [0x00], none⟩
/-- [encoderProfile.go:43] -/
def BTC_mainnetAddressP2SH : AddressType := ⟨asc "base58", base58Btc, asc "doubleSHA256", asc "h160", 20, some [0x05], none⟩
/-- [encoderProfile.go:44] -/
def BTC_mainnetAddressBech32V0 : AddressType := ⟨asc "bech32", bech32Std, asc "bc", asc "h160", 20, some [0], none⟩
/-- [encoderProfile.go:45] -/
def BTC_mainnetPrivateWIF : AddressType := ⟨asc "base58", base58Btc, asc "doubleSHA256", asc "", 32, some [0x80], none⟩
/-- [encoderProfile.go:46] -/
def BTC_mainnetPrivateWIFCompressed : AddressType := ⟨asc "base58", base58Btc, asc "doubleSHA256", asc "", 32, some [0x80], some [0x01]⟩
/-- [encoderProfile.go:47] -/
def BTC_mainnetPublicBIP32 : AddressType := ⟨asc "base58", base58Btc, asc "doubleSHA256", asc "", 74, some [0x04, 0x88, 0xB2, 0x1E], none⟩
/-- [encoderProfile.go:48] -/
def BTC_mainnetPrivateBIP32 : AddressType := ⟨asc "base58", base58Btc, asc "doubleSHA256", asc "", 74, some [0x04, 0x88, 0xAD, 0xE4], none⟩
/-- [encoderProfile.go:49] -/
def BTC_testnetAddressP2PKH : AddressType := ⟨asc "base58", base58Btc, asc "doubleSHA256", asc "h160", 20, some [0x6F], none⟩
/-- [encoderProfile.go:50] -/
def BTC_testnetAddressP2SH : AddressType := ⟨asc "base58", base58Btc, asc "doubleSHA256", asc "h160", 20, some [0xC4], none⟩
/-- [encoderProfile.go:51] -/
def BTC_testnetAddressBech32V0 : AddressType := ⟨asc "bech32", bech32Std, asc "tb", asc "h160", 20, some [0], none⟩
/-- [encoderProfile.go:52] -/
def BTC_testnetPrivateWIF : AddressType := ⟨asc "base58", base58Btc, asc "doubleSHA256", asc "", 32, some [0xEF], none⟩
/-- [encoderProfile.go:53] -/
def BTC_testnetPrivateWIFCompressed : AddressType := ⟨asc "base58", base58Btc, asc "doubleSHA256", asc "", 32, some [0xEF], some [0x01]⟩
/-- [encoderProfile.go:54] -/
def BTC_testnetPublicBIP32 : AddressType := ⟨asc "base58", base58Btc, asc "doubleSHA256", asc "", 74, some [0x04, 0x35, 0x87, 0xCF], none⟩
/-- [encoderProfile.go:55] -/
def BTC_testnetPrivateBIP32 : AddressType := ⟨asc "base58", base58Btc, asc "doubleSHA256", asc "", 74, some [0x04, 0x35, 0x83, 0x94], none⟩
/-- [encoderProfile.go:58] -/
def XMR_mainnetPublicAddress : AddressType := ⟨asc "XMR", base58Btc, asc "keccak256", asc "", 64, some [0x12], none⟩
/-- [encoderProfile.go:59] -/
def XMR_mainnetPublicSubAddress : AddressType := ⟨asc "XMR", base58Btc, asc "keccak256", asc "", 64, some [0x2A], none⟩
/-- [encoderProfile.go:60] -/
def XMR_mainnetPublicIntegratedAddress : AddressType := ⟨asc "XMR", base58Btc, asc "keccak256", asc "payID", 72, some [0x13], none⟩
/-- [encoderProfile.go:61] -/
def XMR_testnetPublicAddress : AddressType := ⟨asc "XMR", base58Btc, asc "keccak256", asc "", 64, some [0x35], none⟩
/-- [encoderProfile.go:62] -/
def XMR_testnetPublicSubAddress : AddressType := ⟨asc "XMR", base58Btc, asc "keccak256", asc "", 64, some [0x3f], none⟩
/-- [encoderProfile.go:63] -/
def XMR_testnetPublicIntegratedAddress : AddressType := ⟨asc "XMR", base58Btc, asc "keccak256", asc "payID", 72, some [0x36], none⟩
/-- [encoderProfile.go:67] -/
def DOGE_multiSignAddressP2PKH : AddressType := ⟨asc "base58", base58Btc, asc "doubleSHA256", asc "h160", 20, some [0x16], none⟩
/-- [encoderProfile.go:69] -/
def ONT_Address : AddressType := ⟨asc "base58", base58Btc, asc "doubleSHA256", asc "h160", 20, some [0x17], none⟩
/-- [encoderProfile.go:71] -/
def XRP_Address : AddressType := ⟨asc "base58", base58Xrp, asc "doubleSHA256", asc "h160", 20, some [0x00], none⟩
/-- [encoderProfile.go:73] -/
def BTM_mainnetAddressBech32V0 : AddressType := ⟨asc "bech32", bech32Std, asc "bm", asc "h160", 20, some [0], none⟩
/-- [encoderProfile.go:74] -/
def BTM_testnetAddressBech32V0 : AddressType := ⟨asc "bech32", bech32Std, asc "tm", asc "h160", 20, some [0], none⟩
/-- [encoderProfile.go:76] -/
def ZEC_mainnet_t_AddressP2PKH : AddressType := ⟨asc "base58", base58Btc, asc "doubleSHA256", asc "h160", 20, some [0x1C, 0xB8], none⟩
/-- [encoderProfile.go:77] -/
def ZEC_mainnet_t_AddressP2SH : AddressType := ⟨asc "base58", base58Btc, asc "doubleSHA256", asc "h160", 20, some [0x1C, 0xBD], none⟩
/-- [encoderProfile.go:78] -/
def ZEC_testnet_t_AddressP2PKH : AddressType := ⟨asc "base58", base58Btc, asc "doubleSHA256", asc "h160", 20, some [0x1D, 0x25], none⟩
/-- [encoderProfile.go:79] -/
def ZEC_testnet_t_AddressP2SH : AddressType := ⟨asc "base58", base58Btc, asc "doubleSHA256", asc "h160", 20, some [0x1C, 0xBA], none⟩
/-- [encoderProfile.go:82] -/
def LTC_mainnetAddressP2PKH : AddressType := ⟨asc "base58", base58Btc, asc "doubleSHA256", asc "h160", 20, some [0x30], none⟩
/-- [encoderProfile.go:83] -/
def LTC_mainnetAddressP2SH : AddressType := ⟨asc "base58", base58Btc, asc "doubleSHA256", asc "h160", 20, some [0x05], none⟩
/-- [encoderProfile.go:84] -/
def LTC_mainnetAddressP2SH2 : AddressType := ⟨asc "base58", base58Btc, asc "doubleSHA256", asc "h160", 20, some [0x32], none⟩
/-- [encoderProfile.go:85] -/
def LTC_mainnetAddressBech32V0 : AddressType := ⟨asc "bech32", bech32Std, asc "ltc", asc "h160", 20, some [0], none⟩
/-- [encoderProfile.go:86] -/
def LTC_mainnetPrivateWIF : AddressType := ⟨asc "base58", base58Btc, asc "doubleSHA256", asc "", 32, some [0xB0], none⟩
/-- [encoderProfile.go:87] -/
def LTC_mainnetPrivateWIFCompressed : AddressType := ⟨asc "base58", base58Btc, asc "doubleSHA256", asc "", 32, some [0xB0], some [0x01]⟩
/-- [encoderProfile.go:88] -/
def LTC_mainnetPublicBIP32 : AddressType := ⟨asc "base58", base58Btc, asc "doubleSHA256", asc "", 74, some [0x04, 0x88, 0xB2, 0x1E], none⟩
/-- [encoderProfile.go:89] -/
def LTC_mainnetPrivateBIP32 : AddressType := ⟨asc "base58", base58Btc, asc "doubleSHA256", asc "", 74, some [0x04, 0x88, 0xAD, 0xE4], none⟩
/-- [encoderProfile.go:90] -/
def LTC_testnetAddressP2PKH : AddressType := ⟨asc "base58", base58Btc, asc "doubleSHA256", asc "h160", 20, some [0x6F], none⟩
/-- [encoderProfile.go:91] -/
def LTC_testnetAddressP2SH : AddressType := ⟨asc "base58", base58Btc, asc "doubleSHA256", asc "h160", 20, some [0xC4], none⟩
/-- [encoderProfile.go:92] -/
def LTC_testnetAddressP2SH2 : AddressType := ⟨asc "base58", base58Btc, asc "doubleSHA256", asc "h160", 20, some [0x3A], none⟩
/-- [encoderProfile.go:93] -/
def LTC_testnetAddressBech32V0 : AddressType := ⟨asc "bech32", bech32Std, asc "tltc", asc "h160", 20, some [0], none⟩
/-- [encoderProfile.go:94] -/
def LTC_testnetPrivateWIF : AddressType := ⟨asc "base58", base58Btc, asc "doubleSHA256", asc "", 32, some [0xEF], none⟩
/-- [encoderProfile.go:95] -/
def LTC_testnetPrivateWIFCompressed : AddressType := ⟨asc "base58", base58Btc, asc "doubleSHA256", asc "", 32, some [0xEF], some [0x01]⟩
/-- [encoderProfile.go:96] -/
def LTC_testnetPublicBIP32 : AddressType := ⟨asc "base58", base58Btc, asc "doubleSHA256", asc "", 74, some [0x04, 0x35, 0x87, 0xCF], none⟩
/-- [encoderProfile.go:97] -/
def LTC_testnetPrivateBIP32 : AddressType := ⟨asc "base58", base58Btc, asc "doubleSHA256", asc "", 74, some [0x04, 0x35, 0x83, 0x94], none⟩
/-- [encoderProfile.go:100] -/
def BCH_mainnetAddressLegacy : AddressType := ⟨asc "base58", base58Btc, asc "doubleSHA256", asc "h160", 20, some [0x00], none⟩
/-- [encoderProfile.go:101] -/
def BCH_mainnetAddressCash : AddressType := ⟨asc "base32PolyMod", bech32Std, asc "bitcoincash", asc "h160", 21, none, none⟩
/-- [encoderProfile.go:104] -/
def XTZ_mainnetAddress_tz1 : AddressType := ⟨asc "base58", base58Btc, asc "doubleSHA256", asc "blake2b160", 20, some [0x06, 0xA1, 0x9F], none⟩
/-- [encoderProfile.go:105] -/
def XTZ_mainnetAddress_tz2 : AddressType := ⟨asc "base58", base58Btc, asc "doubleSHA256", asc "blake2b160", 20, some [0x06, 0xA1, 0xA1], none⟩
/-- [encoderProfile.go:106] -/
def XTZ_mainnetAddress_tz3 : AddressType := ⟨asc "base58", base58Btc, asc "doubleSHA256", asc "blake2b160", 20, some [0x06, 0xA1, 0xA4], none⟩
/-- [encoderProfile.go:107] -/
def XTZ_mainnetPublic_edpk : AddressType := ⟨asc "base58", base58Btc, asc "doubleSHA256", asc "", 32, some [0x0D, 0x0F, 0x25, 0xD9], none⟩
/-- [encoderProfile.go:108] -/
def XTZ_mainnetPrivate_edsk : AddressType := ⟨asc "base58", base58Btc, asc "doubleSHA256", asc "", 64, some [0x0D, 0x0F, 0x3A, 0x07], none⟩
/-- [encoderProfile.go:109] -/
def XTZ_mainnetPrivate_edsk2 : AddressType := ⟨asc "base58", base58Btc, asc "doubleSHA256", asc "", 32, some [0x2B, 0xF6, 0x4E, 0x07], none⟩
/-- [encoderProfile.go:110] -/
def XTZ_mainnetPrivate_spsk : AddressType := ⟨asc "base58", base58Btc, asc "doubleSHA256", asc "", 32, some [0x11, 0xA2, 0xE0, 0xC9], none⟩
/-- [encoderProfile.go:111] -/
def XTZ_mainnetPrivate_p2sk : AddressType := ⟨asc "base58", base58Btc, asc "doubleSHA256", asc "blake2b160", 32, some [0x10, 0x51, 0xEE, 0xBD], none⟩
/-- [encoderProfile.go:114] -/
def ETH_mainnetPublicAddress : AddressType := ⟨asc "eip55", [], asc "", asc "keccak256", 32, none, none⟩
/-- [encoderProfile.go:117] -/
def QTUM_mainnetAddressP2PKH : AddressType := ⟨asc "base58", base58Btc, asc "doubleSHA256", asc "h160", 20, some [0x3A], none⟩
/-- [encoderProfile.go:118] -/
def QTUM_mainnetAddressP2SH : AddressType := ⟨asc "base58", base58Btc, asc "doubleSHA256", asc "h160", 20, some [0x32], none⟩
/-- [encoderProfile.go:119] -/
def QTUM_mainnetPrivateWIF : AddressType := ⟨asc "base58", base58Btc, asc "doubleSHA256", asc "", 32, some [0x80], none⟩
/-- [encoderProfile.go:120] -/
def QTUM_mainnetPrivateWIFCompressed : AddressType := ⟨asc "base58", base58Btc, asc "doubleSHA256", asc "", 32, some [0x80], some [0x01]⟩
/-- [encoderProfile.go:121] -/
def QTUM_mainnetPublicBIP32 : AddressType := ⟨asc "base58", base58Btc, asc "doubleSHA256", asc "", 74, some [0x04, 0x88, 0xB2, 0x1E], none⟩
/-- [encoderProfile.go:122] -/
def QTUM_mainnetPrivateBIP32 : AddressType := ⟨asc "base58", base58Btc, asc "doubleSHA256", asc "", 74, some [0x04, 0x88, 0xAD, 0xE4], none⟩
/-- [encoderProfile.go:123] -/
def QTUM_testnetAddressP2PKH : AddressType := ⟨asc "base58", base58Btc, asc "doubleSHA256", asc "h160", 20, some [0x78], none⟩
/-- [encoderProfile.go:124] -/
def QTUM_testnetAddressP2SH : AddressType := ⟨asc "base58", base58Btc, asc "doubleSHA256", asc "h160", 20, some [0x6E], none⟩
/-- [encoderProfile.go:125] -/
def QTUM_testnetPrivateWIF : AddressType := ⟨asc "base58", base58Btc, asc "doubleSHA256", asc "", 32, some [0xEF], none⟩
/-- [encoderProfile.go:126] -/
def QTUM_testnetPrivateWIFCompressed : AddressType := ⟨asc "base58", base58Btc, asc "doubleSHA256", asc "", 32, some [0xEF], some [0x01]⟩
/-- [encoderProfile.go:127] -/
def QTUM_testnetPublicBIP32 : AddressType := ⟨asc "base58", base58Btc, asc "doubleSHA256", asc "", 74, some [0x04, 0x35, 0x87, 0xCF], none⟩
/-- [encoderProfile.go:128] -/
def QTUM_testnetPrivateBIP32 : AddressType := ⟨asc "base58", base58Btc, asc "doubleSHA256", asc "", 74, some [0x04, 0x35, 0x83, 0x94], none⟩
/-- [encoderProfile.go:131] -/
def DCRD_mainnetAddressP2PKH : AddressType := ⟨asc "base58", base58Btc, asc "doubleBlake256", asc "ripemd160", 20, some [0x07, 0x3f], none⟩
/-- [encoderProfile.go:132] -/
def DCRD_mainnetAddressP2PK : AddressType := ⟨asc "base58", base58Btc, asc "doubleBlake256", asc "ripemd160", 20, some [0x13, 0x86], none⟩
/-- [encoderProfile.go:133] -/
def DCRD_mainnetAddressPKHEdwards : AddressType := ⟨asc "base58", base58Btc, asc "doubleBlake256", asc "ripemd160", 20, some [0x07, 0x1f], none⟩
/-- [encoderProfile.go:134] -/
def DCRD_mainnetAddressPKHSchnorr : AddressType := ⟨asc "base58", base58Btc, asc "doubleBlake256", asc "ripemd160", 20, some [0x07, 0x01], none⟩
/-- [encoderProfile.go:135] -/
def DCRD_mainnetAddressP2SH : AddressType := ⟨asc "base58", base58Btc, asc "doubleBlake256", asc "ripemd160", 20, some [0x07, 0x1a], none⟩
/-- [encoderProfile.go:136] -/
def DCRD_mainnetAddressPrivate : AddressType := ⟨asc "base58", base58Btc, asc "doubleBlake256", asc "ripemd160", 20, some [0x22, 0xde], none⟩
/-- [encoderProfile.go:138] -/
def DCRD_testnetAddressP2PKH : AddressType := ⟨asc "base58", base58Btc, asc "doubleBlake256", asc "ripemd160", 20, some [0x0f, 0x21], none⟩
/-- [encoderProfile.go:139] -/
def DCRD_testnetAddressP2PK : AddressType := ⟨asc "base58", base58Btc, asc "doubleBlake256", asc "ripemd160", 20, some [0x28, 0xf7], none⟩
/-- [encoderProfile.go:140] -/
def DCRD_testnetAddressPKHEdwards : AddressType := ⟨asc "base58", base58Btc, asc "doubleBlake256", asc "ripemd160", 20, some [0x0f, 0x01], none⟩
/-- [encoderProfile.go:141] -/
def DCRD_testnetAddressP2PKHSchnorr : AddressType := ⟨asc "base58", base58Btc, asc "doubleBlake256", asc "ripemd160", 20, some [0x0e, 0xe3], none⟩
/-- [encoderProfile.go:142] -/
def DCRD_testnetAddressP2SH : AddressType := ⟨asc "base58", base58Btc, asc "doubleBlake256", asc "ripemd160", 20, some [0x0e, 0xfc], none⟩
/-- [encoderProfile.go:143] -/
def DCRD_testnetAddressPrivate : AddressType := ⟨asc "base58", base58Btc, asc "doubleBlake256", asc "ripemd160", 20, some [0x23, 0x0e], none⟩
/-- [encoderProfile.go:145] -/
def DCRD_simnetAddressP2PKH : AddressType := ⟨asc "base58", base58Btc, asc "doubleBlake256", asc "ripemd160", 20, some [0x0e, 0x91], none⟩
/-- [encoderProfile.go:146] -/
def DCRD_simnetAddressP2PK : AddressType := ⟨asc "base58", base58Btc, asc "doubleBlake256", asc "ripemd160", 20, some [0x27, 0x6f], none⟩
/-- [encoderProfile.go:147] -/
def DCRD_simnetAddressPKHEdwards : AddressType := ⟨asc "base58", base58Btc, asc "doubleBlake256", asc "ripemd160", 20, some [0x0e, 0x71], none⟩
/-- [encoderProfile.go:148] -/
def DCRD_simnetAddressPKHSchnorr : AddressType := ⟨asc "base58", base58Btc, asc "doubleBlake256", asc "ripemd160", 20, some [0x0e, 0x53], none⟩
/-- [encoderProfile.go:149] -/
def DCRD_simnetAddressP2SH : AddressType := ⟨asc "base58", base58Btc, asc "doubleBlake256", asc "ripemd160", 20, some [0x0e, 0x6c], none⟩
/-- [encoderProfile.go:150] -/
def DCRD_simnetAddressPrivate : AddressType := ⟨asc "base58", base58Btc, asc "doubleBlake256", asc "ripemd160", 20, some [0x23, 0x07], none⟩
/-- [encoderProfile.go:153] -/
def NAS_AccountAddress : AddressType := ⟨asc "base58", base58Btc, asc "sha3_256", asc "sha3_256_ripemd160", 20, some [0x19, 0x57], none⟩
/-- [encoderProfile.go:154] -/
def NAS_SmartContractAddress : AddressType := ⟨asc "base58", base58Btc, asc "sha3_256", asc "sha3_256_ripemd160", 20, some [0x19, 0x58], none⟩
/-- [encoderProfile.go:157] -/
def TRON_mainnetAddress : AddressType := ⟨asc "base58", base58Btc, asc "doubleSHA256", asc "keccak256_last_twenty", 20, some [0x41], none⟩
/-- [encoderProfile.go:158] -/
def TRON_testnetAddress : AddressType := ⟨asc "base58", base58Btc, asc "doubleSHA256", asc "keccak256_last_twenty", 20, some [0xa0], none⟩
/-- [encoderProfile.go:160] -/
def ICX_walletAddress : AddressType := ⟨asc "ICX", [], asc "hx", asc "sha3_256_last_twenty", 20, none, none⟩
/-- [encoderProfile.go:163] -/
def VSYS_mainnetAddress : AddressType := ⟨asc "base58", base58Btc, asc "blake2b_and_keccak256_first_twenty", asc "blake2b_and_keccak256_first_twenty", 20, some [0x05, 0x4D], none⟩
/-- [encoderProfile.go:164] -/
def VSYS_testnetAddress : AddressType := ⟨asc "base58", base58Btc, asc "blake2b_and_keccak256_first_twenty", asc "blake2b_and_keccak256_first_twenty", 20, some [0x05, 0x54], none⟩
/-- [encoderProfile.go:167] -/
def EOS_mainnetPublic : AddressType := ⟨asc "eos", base58Btc, asc "ripemd160", asc "", 33, some (asc "EOS"), none⟩
/-- [encoderProfile.go:168] -/
def EOS_mainnetPrivateWIF : AddressType := ⟨asc "base58", base58Btc, asc "doubleSHA256", asc "", 32, some [0x80], none⟩
/-- [encoderProfile.go:169] -/
def EOS_mainnetPrivateWIFCompressed : AddressType := ⟨asc "base58", base58Btc, asc "doubleSHA256", asc "", 32, some [0x80], some [0x01]⟩
/-- [encoderProfile.go:172] -/
def AE_mainnetAddress : AddressType := ⟨asc "aeternity", base58Btc, asc "doubleSHA256", asc "", 32, some (asc "ak_"), none⟩
/-- [encoderProfile.go:175] -/
def ATOM_mainnetAddress : AddressType := ⟨asc "bech32", bech32Std, asc "cosmos", asc "h160", 20, none, none⟩
/-- [encoderProfile.go:176] -/
def ATOM_testnetAddress : AddressType := ⟨asc "bech32", bech32Std, asc "cosmos", asc "h160", 20, none, none⟩
/-- [encoderProfile.go:179] -/
def ELA_Address : AddressType := ⟨asc "base58", base58Btc, asc "doubleSHA256", asc "h160", 20, some [0x21], none⟩
/-- [encoderProfile.go:182] -/
def WICC_mainnetAddressP2PKH : AddressType := ⟨asc "base58", base58Btc, asc "doubleSHA256", asc "h160", 20, some [0x49], none⟩
/-- [encoderProfile.go:183] -/
def WICC_testnetAddressP2PKH : AddressType := ⟨asc "base58", base58Btc, asc "doubleSHA256", asc "h160", 20, some [0x87], none⟩
/-- [encoderProfile.go:186] -/
def TV_mainnetAddress : AddressType := ⟨asc "base58", base58Btc, asc "blake2b_and_keccak256_first_twenty", asc "blake2b_and_keccak256_first_twenty", 20, some [0x1D, 0x3B], none⟩
/-- [encoderProfile.go:187] -/
def TV_testnetAddress : AddressType := ⟨asc "base58", base58Btc, asc "blake2b_and_keccak256_first_twenty", asc "blake2b_and_keccak256_first_twenty", 20, some [0x1D, 0x54], none⟩
/-- [encoderProfile.go:190] -/
def HC_mainnetPublicAddress : AddressType := ⟨asc "base58", base58Btc, asc "doubleBlake256", asc "h160", 20, some [0x09, 0x7F], none⟩
/-- [encoderProfile.go:191] -/
def HC_mainnetAddressP2PK : AddressType := ⟨asc "base58", base58Btc, asc "doubleBlake256", asc "h160", 20, some [0x19, 0xa4], none⟩
/-- [encoderProfile.go:192] -/
def HC_mainnetAddressP2PKBliss : AddressType := ⟨asc "base58", base58Btc, asc "doubleBlake256", asc "h160", 20, some [0x07, 0xc3], none⟩
/-- [encoderProfile.go:193] -/
def HC_mainnetAddressP2PKH : AddressType := ⟨asc "base58", base58Btc, asc "doubleBlake256", asc "h160", 20, some [0x09, 0x7f], none⟩
/-- [encoderProfile.go:194] -/
def HC_mainnetAddressPKHEdwards : AddressType := ⟨asc "base58", base58Btc, asc "doubleBlake256", asc "h160", 20, some [0x09, 0x60], none⟩
/-- [encoderProfile.go:195] -/
def HC_mainnetAddressPKHSchnorr : AddressType := ⟨asc "base58", base58Btc, asc "doubleBlake256", asc "h160", 20, some [0x09, 0x41], none⟩
/-- [encoderProfile.go:196] -/
def HC_mainnetAddressPKHBliss : AddressType := ⟨asc "base58", base58Btc, asc "doubleBlake256", asc "h160", 20, some [0x09, 0x58], none⟩
/-- [encoderProfile.go:197] -/
def HC_mainnetAddressP2SH : AddressType := ⟨asc "base58", base58Btc, asc "doubleBlake256", asc "h160", 20, some [0x09, 0x5a], none⟩
/-- [encoderProfile.go:198] -/
def HC_mainnetAddressPrivate : AddressType := ⟨asc "base58", base58Btc, asc "doubleBlake256", asc "h160", 20, some [0x19, 0xab], none⟩
/-- [encoderProfile.go:200] -/
def HC_testnetAddressP2PK : AddressType := ⟨asc "base58", base58Btc, asc "doubleBlake256", asc "h160", 20, some [0x28, 0xf7], none⟩
/-- [encoderProfile.go:201] -/
def HC_testnetAddressP2PKBliss : AddressType := ⟨asc "base58", base58Btc, asc "doubleBlake256", asc "h160", 20, some [0x0c, 0x66], none⟩
/-- [encoderProfile.go:202] -/
def HC_testnetAddressP2PKH : AddressType := ⟨asc "base58", base58Btc, asc "doubleBlake256", asc "h160", 20, some [0x0f, 0x21], none⟩
/-- [encoderProfile.go:203] -/
def HC_testnetAddressPKHEdwards : AddressType := ⟨asc "base58", base58Btc, asc "doubleBlake256", asc "h160", 20, some [0x0f, 0x01], none⟩
/-- [encoderProfile.go:204] -/
def HC_testnetAddressP2PKHSchnorr : AddressType := ⟨asc "base58", base58Btc, asc "doubleBlake256", asc "h160", 20, some [0x0e, 0xe3], none⟩
/-- [encoderProfile.go:205] -/
def HC_testnetAddressPKHBliss : AddressType := ⟨asc "base58", base58Btc, asc "doubleBlake256", asc "h160", 20, some [0x0e, 0xf9], none⟩
/-- [encoderProfile.go:206] -/
def HC_testnetAddressP2SH : AddressType := ⟨asc "base58", base58Btc, asc "doubleBlake256", asc "h160", 20, some [0x0e, 0xfc], none⟩
/-- [encoderProfile.go:207] -/
def HC_testnetAddressPrivate : AddressType := ⟨asc "base58", base58Btc, asc "doubleBlake256", asc "h160", 20, some [0x23, 0x0e], none⟩
/-- [encoderProfile.go:209] -/
def HC_simnetAddressP2PK : AddressType := ⟨asc "base58", base58Btc, asc "doubleBlake256", asc "h160", 20, some [0x27, 0x6f], none⟩
/-- [encoderProfile.go:210] -/
def HC_simnetAddressP2PKBliss : AddressType := ⟨asc "base58", base58Btc, asc "doubleBlake256", asc "h160", 20, some [0x0b, 0xef], none⟩
/-- [encoderProfile.go:211] -/
def HC_simnetAddressP2PKH : AddressType := ⟨asc "base58", base58Btc, asc "doubleBlake256", asc "h160", 20, some [0x0e, 0x91], none⟩
/-- [encoderProfile.go:212] -/
def HC_simnetAddressPKHEdwards : AddressType := ⟨asc "base58", base58Btc, asc "doubleBlake256", asc "h160", 20, some [0x0e, 0x71], none⟩
/-- [encoderProfile.go:213] -/
def HC_simnetAddressPKHSchnorr : AddressType := ⟨asc "base58", base58Btc, asc "doubleBlake256", asc "h160", 20, some [0x0e, 0x53], none⟩
/-- [encoderProfile.go:214] -/
def HC_simnetAddressPKHBliss : AddressType := ⟨asc "base58", base58Btc, asc "doubleBlake256", asc "h160", 20, some [0x0e, 0x69], none⟩
/-- [encoderProfile.go:215] -/
def HC_simnetAddressP2SH : AddressType := ⟨asc "base58", base58Btc, asc "doubleBlake256", asc "h160", 20, some [0x0e, 0x6c], none⟩
/-- [encoderProfile.go:216] -/
def HC_simnetAddressPrivate : AddressType := ⟨asc "base58", base58Btc, asc "doubleBlake256", asc "h160", 20, some [0x23, 0x07], none⟩
/-- [encoderProfile.go:219] -/
def BNB_mainnetAddress : AddressType := ⟨asc "bech32", bech32Std, asc "bnb", asc "h160", 20, none, none⟩
/-- [encoderProfile.go:221] -/
def BSV_mainnetAddressP2PKH : AddressType := ⟨asc "base58", base58Btc, asc "doubleSHA256", asc "h160", 20, some [0x00], none⟩
/-- [encoderProfile.go:222] -/
def BSV_mainnetAddressP2SH : AddressType := ⟨asc "base58", base58Btc, asc "doubleSHA256", asc "h160", 20, some [0x05], none⟩
/-- [encoderProfile.go:224] -/
def EVA_mainnetAddress : AddressType := ⟨asc "bech32", bech32Std, asc "eva", asc "h160", 20, none, none⟩
/-- [encoderProfile.go:225] -/
def EVA_testnetAddress : AddressType := ⟨asc "bech32", bech32Std, asc "eva", asc "h160", 20, none, none⟩
/-- [encoderProfile.go:227] -/
def XCH_mainnetAddress : AddressType := ⟨asc "bech32m", bech32Std, asc "xch", asc "", 32, none, none⟩

/-- All profiles of the table [encoderProfile.go:40-228]. -/
def profiles : List AddressType :=
  [BTC_mainnetAddressP2PKH,
   BTC_mainnetAddressP2SH,
   BTC_mainnetAddressBech32V0,
   BTC_mainnetPrivateWIF,
   BTC_mainnetPrivateWIFCompressed,
   BTC_mainnetPublicBIP32,
   BTC_mainnetPrivateBIP32,
   BTC_testnetAddressP2PKH,
   BTC_testnetAddressP2SH,
   BTC_testnetAddressBech32V0,
   BTC_testnetPrivateWIF,
   BTC_testnetPrivateWIFCompressed,
   BTC_testnetPublicBIP32,
   BTC_testnetPrivateBIP32,
   XMR_mainnetPublicAddress,
   XMR_mainnetPublicSubAddress,
   XMR_mainnetPublicIntegratedAddress,
   XMR_testnetPublicAddress,
   XMR_testnetPublicSubAddress,
   XMR_testnetPublicIntegratedAddress,
   DOGE_multiSignAddressP2PKH,
   ONT_Address,
   XRP_Address,
   BTM_mainnetAddressBech32V0,
   BTM_testnetAddressBech32V0,
   ZEC_mainnet_t_AddressP2PKH,
   ZEC_mainnet_t_AddressP2SH,
   ZEC_testnet_t_AddressP2PKH,
   ZEC_testnet_t_AddressP2SH,
   LTC_mainnetAddressP2PKH,
   LTC_mainnetAddressP2SH,
   LTC_mainnetAddressP2SH2,
   LTC_mainnetAddressBech32V0,
   LTC_mainnetPrivateWIF,
   LTC_mainnetPrivateWIFCompressed,
   LTC_mainnetPublicBIP32,
   LTC_mainnetPrivateBIP32,
   LTC_testnetAddressP2PKH,
   LTC_testnetAddressP2SH,
   LTC_testnetAddressP2SH2,
   LTC_testnetAddressBech32V0,
   LTC_testnetPrivateWIF,
   LTC_testnetPrivateWIFCompressed,
   LTC_testnetPublicBIP32,
   LTC_testnetPrivateBIP32,
   BCH_mainnetAddressLegacy,
   BCH_mainnetAddressCash,
   XTZ_mainnetAddress_tz1,
   XTZ_mainnetAddress_tz2,
   XTZ_mainnetAddress_tz3,
   XTZ_mainnetPublic_edpk,
   XTZ_mainnetPrivate_edsk,
   XTZ_mainnetPrivate_edsk2,
   XTZ_mainnetPrivate_spsk,
   XTZ_mainnetPrivate_p2sk,
   ETH_mainnetPublicAddress,
   QTUM_mainnetAddressP2PKH,
   QTUM_mainnetAddressP2SH,
   QTUM_mainnetPrivateWIF,
   QTUM_mainnetPrivateWIFCompressed,
   QTUM_mainnetPublicBIP32,
   QTUM_mainnetPrivateBIP32,
   QTUM_testnetAddressP2PKH,
   QTUM_testnetAddressP2SH,
   QTUM_testnetPrivateWIF,
   QTUM_testnetPrivateWIFCompressed,
   QTUM_testnetPublicBIP32,
   QTUM_testnetPrivateBIP32,
   DCRD_mainnetAddressP2PKH,
   DCRD_mainnetAddressP2PK,
   DCRD_mainnetAddressPKHEdwards,
   DCRD_mainnetAddressPKHSchnorr,
   DCRD_mainnetAddressP2SH,
   DCRD_mainnetAddressPrivate,
   DCRD_testnetAddressP2PKH,
   DCRD_testnetAddressP2PK,
   DCRD_testnetAddressPKHEdwards,
   DCRD_testnetAddressP2PKHSchnorr,
   DCRD_testnetAddressP2SH,
   DCRD_testnetAddressPrivate,
   DCRD_simnetAddressP2PKH,
   DCRD_simnetAddressP2PK,
   DCRD_simnetAddressPKHEdwards,
   DCRD_simnetAddressPKHSchnorr,
   DCRD_simnetAddressP2SH,
   DCRD_simnetAddressPrivate,
   NAS_AccountAddress,
   NAS_SmartContractAddress,
   TRON_mainnetAddress,
   TRON_testnetAddress,
   ICX_walletAddress,
   VSYS_mainnetAddress,
   VSYS_testnetAddress,
   EOS_mainnetPublic,
   EOS_mainnetPrivateWIF,
   EOS_mainnetPrivateWIFCompressed,
   AE_mainnetAddress,
   ATOM_mainnetAddress,
   ATOM_testnetAddress,
   ELA_Address,
   WICC_mainnetAddressP2PKH,
   WICC_testnetAddressP2PKH,
   TV_mainnetAddress,
   TV_testnetAddress,
   HC_mainnetPublicAddress,
   HC_mainnetAddressP2PK,
   HC_mainnetAddressP2PKBliss,
   HC_mainnetAddressP2PKH,
   HC_mainnetAddressPKHEdwards,
   HC_mainnetAddressPKHSchnorr,
   HC_mainnetAddressPKHBliss,
   HC_mainnetAddressP2SH,
   HC_mainnetAddressPrivate,
   HC_testnetAddressP2PK,
   HC_testnetAddressP2PKBliss,
   HC_testnetAddressP2PKH,
   HC_testnetAddressPKHEdwards,
   HC_testnetAddressP2PKHSchnorr,
   HC_testnetAddressPKHBliss,
   HC_testnetAddressP2SH,
   HC_testnetAddressPrivate,
   HC_simnetAddressP2PK,
   HC_simnetAddressP2PKBliss,
   HC_simnetAddressP2PKH,
   HC_simnetAddressPKHEdwards,
   HC_simnetAddressPKHSchnorr,
   HC_simnetAddressPKHBliss,
   HC_simnetAddressP2SH,
   HC_simnetAddressPrivate,
   BNB_mainnetAddress,
   BSV_mainnetAddressP2PKH,
   BSV_mainnetAddressP2SH,
   EVA_mainnetAddress,
   EVA_testnetAddress,
   XCH_mainnetAddress]

end Verif.Addr
