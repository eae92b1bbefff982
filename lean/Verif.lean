import Verif.Props.Base58
import Verif.Lemmas.Hex
import Verif.Model.PolyMod
import Verif.Model.Bech32
import Verif.Model.CashAddr
import Verif.Model.Bech32m
import Verif.Lemmas.PolyMod
import Verif.Lemmas.Bech32
import Verif.Lemmas.Bech32RT
import Verif.Lemmas.CashAddr
import Verif.Lemmas.Bech32m
import Verif.Model.AddressEncoder
import Verif.Lemmas.AddressEncoder
import Verif.Lemmas.Bech32Err
import Verif.Lemmas.AddressPanic
import Verif.Props.Bech32
import Verif.Props.Address
import Verif.Model.AddressCheck
import Verif.Model.OwKeychain
import Verif.Spec.OwKeychain
import Verif.Lemmas.OwKeychain
import Verif.Lemmas.OwToy
import Verif.Lemmas.OwPath
import Verif.Props.OwKeychain
import Verif.Props.OwText
import Verif.Props.OwPath
import Verif.Props.OwUncompressed
import Verif.Model.Btc
import Verif.Spec.Btc
import Verif.Lemmas.BtcSig
import Verif.Lemmas.BtcTx
import Verif.Props.BtcSig
import Verif.Props.BtcTx
import Verif.Props.BtcMulti
import Verif.Props.BtcHash
import Verif.Props.BtcVerify
import Verif.Props.BtcSpend
import Verif.Props.BtcSpendVerify
import Verif.Spec.Bch
import Verif.Props.Bch
import Verif.Spec.Bip32
import Verif.Props.Bip32
import Verif.Model.Polkadot
import Verif.Model.Omni
import Verif.Spec.Polkadot
import Verif.Spec.Omni
import Verif.Props.Polkadot
import Verif.Props.Omni
import Verif.Model.Ripple
import Verif.Spec.Ripple
import Verif.Lemmas.Ripple
import Verif.Props.Ripple
import Verif.Model.Vsys
import Verif.Props.Vsys
import Verif.Props.Ontology
import Verif.Props.OntologyVM
import Verif.Props.Wayki
import Verif.Props.Moac
import Verif.Props.SignatureSet
import Verif.Props.BigBang
import Verif.Props.Filenet
import Verif.Props.Elastos
import Verif.Props.OntologyCombine
import Verif.Props.HyperCash
import Verif.Props.HyperCashList
import Verif.Props.Mateverse
import Verif.Props.Verge
import Verif.Props.VergeLimits
import Verif.Props.BtcKinds
import Verif.Props.Blake
import Verif.Props.BtcVariantsSign
import Verif.Props.BtcVariantsCreate
import Verif.Props.BtcVariantsOmni
import Verif.Props.BtcVariantsSpend
import Verif.Props.BtcExact
import Verif.Props.ForkLastKey
import Verif.Props.OtherRedeem
import Verif.Props.BtcHc
import Verif.Props.BtcRecord
import Verif.Props.BtcEndToEnd
import Verif.Props.BtcInsert
import Verif.Props.Cosmos
import Verif.Spec.Fiii
import Verif.Model.Fiii
import Verif.Lemmas.Fiii
import Verif.Props.Fiii
import Verif.Props.BtcAddress
import Verif.Props.Alien
import Verif.Props.Crc32
import Verif.Props.Bytom
import Verif.Props.BtcLike
import Verif.Props.BtcLikeSign
import Verif.Props.BtcLikeLimits
import Verif.Props.BtcLikeSigner
import Verif.Props.BtcLikeMulti
import Verif.Props.AddrBase64
import Verif.Props.Binance
import Verif.Props.BytomWire
import Verif.Props.BytomMulti
import Verif.Spec.BytomCut
import Verif.Props.BytomPanic
import Verif.Props.BytomPanicSign
import Verif.Props.BytomPanicCreate
import Verif.Props.PolkadotText
import Verif.Props.SendText
import Verif.Model.Memory
import Verif.Lemmas.Memory
import Verif.Model.AddressMemory
import Verif.Lemmas.AddressMemory
import Verif.Props.AddressMemory
import Verif.Model.KeyMemory
import Verif.Spec.KeyMemory
import Verif.Spec.OmniMessage
import Verif.Lemmas.KeyMemory
import Verif.Model.CheckMemory
import Verif.Lemmas.CheckMemory
import Verif.Props.CheckMemory
import Verif.Props.KeyMemory
import Verif.Model.BtcMemory
import Verif.Lemmas.BtcMemory
import Verif.Props.BtcMemory
import Verif.Model.Signers
import Verif.Spec.Signing
import Verif.Props.SignEndToEnd
import Verif.Model.SignConc
import Verif.Spec.SignConc
import Verif.Props.SignConc
import Verif.Model.FilenetMemory
import Verif.Props.FilenetMemory
import Verif.Spec.Case
import Verif.Model.Bech32mText
import Verif.Lemmas.Bech32mText
import Verif.Props.Bech32mText
import Verif.Props.Bech32Lang
import Verif.Props.Bech32mLang
import Verif.Props.DecodePanic
import Verif.Spec.Eip55
import Verif.Props.Eip55
import Verif.Props.BtcParse
import Verif.Props.CreatePanic
import Verif.Props.CreatePanicOther
import Verif.Spec.Cut
import Verif.Props.DecodeCut
import Verif.Props.SignPanic
import Verif.Props.SignPanicVerify
import Verif.Spec.Combine
import Verif.Props.CombinePanic
import Verif.Props.CombinePanicUtxo
import Verif.Props.CombinePanicHc
import Verif.Props.CombineViolated
import Verif.Props.BtcCount
import Verif.Spec.JsonFields
import Verif.Props.PolkadotRead
import Verif.Spec.BtcLikeWire
import Verif.Props.BtcLikeWire
import Verif.Props.BtcLikePanic
import Verif.Props.BtcLikePanicSign
import Verif.Props.BtcLikePanicUse
import Verif.Spec.InsertCrash
import Verif.Props.InsertPanic
import Verif.Spec.ForkCrash
import Verif.Props.ForkPanic
import Verif.Spec.DerRead
import Verif.Props.DerRead
import Verif.Props.BtcLikeDer
import Verif.Spec.Starts
import Verif.Props.Starts
import Verif.Spec.Accept
import Verif.Props.AddrAccept
import Verif.Props.UpperCase
import Verif.Props.CreatePanicMore
