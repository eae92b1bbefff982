{"id": "C01", "title": "Base58 encode then decode is the identity", "statement": "For every byte string b and every 58-symbol alphabet, Base58Decode(Base58Encode(b)) returns exactly b (including leading zero bytes) with no error, and neither call indexes outside its pre-sized scratch buffer (no panic).", "quantifier": "all byte strings of any length, all alphabets of 58 distinct runes", "why_tests_cant": "The domain is infinite; unit tests sample a handful of literals. The scratch-buffer bound (len*138/100+1, len*733/1000+1) is an inequality over all lengths.", "anchors": ["addressEncoder/base58.go: Base58Encode, Base58Decode, NewBase58Alphabet"]}
{"id": "C02", "title": "Base58 decoding is exact and canonical", "statement": "Base58Decode fails exactly when the text contains a symbol outside the alphabet; when it succeeds, re-encoding the result gives back the very same text, so two different texts never decode to the same bytes.", "quantifier": "all texts over any characters, all alphabets", "why_tests_cant": "The domain is infinite; unit tests sample a handful of literals.", "anchors": ["addressEncoder/base58.go: Base58Decode, Base58Encode"]}
{"id": "C03", "title": "Base58Check address round trip for every coin profile", "statement": "For every base58-family address profile in the library and every payload of the profile's length, AddressDecode(AddressEncode(payload, profile), profile) returns the payload and no error.", "quantifier": "all payloads of length HashLen, all base58 profiles in encoderProfile.go, any 4-byte checksum function", "why_tests_cant": "The domain is infinite; unit tests sample a handful of literals. Payload space is 2^160 and larger.", "anchors": ["addressEncoder/addressEncoder.go: AddressEncode, AddressDecode, encodeData, decodeData, catData, recoverData", "addressEncoder/encoderProfile.go"]}
{"id": "C04", "title": "An accepted Base58Check address is well formed", "statement": "Whenever AddressDecode accepts a text under a base58 profile, the text is exactly the encoding of profile prefix, returned payload, profile suffix and the correct checksum; hence an accepted text is the only text for its payload.", "quantifier": "all texts and all base58 profiles with known checksum types", "why_tests_cant": "Soundness of acceptance is a statement about all texts, not about those in a test table.", "anchors": ["addressEncoder/addressEncoder.go: AddressDecode, verifyChecksum, recoverData"]}
{"id": "C05", "title": "AddressDecode never crashes on untrusted text", "statement": "AddressDecode returns either a payload or an error on every text; it never panics.", "quantifier": "all texts, all profiles", "why_tests_cant": "Crash freedom quantifies over all inputs, including truncated and malformed ones.", "anchors": ["addressEncoder/addressEncoder.go: AddressDecode, recoverData, verifyChecksum", "addressEncoder/bech32/bech32.go: Decode", "addressEncoder/eip55/eip55.go: Eip55_decode"]}
{"id": "C06", "title": "AddressCheck accepts only decodable addresses of the requested coin", "statement": "AddressCheck(text, coin) returns true only if the text decodes under one of that coin's own address profiles, and returns (not panics) for every text.", "quantifier": "all texts and all symbol strings", "why_tests_cant": "Requires every text and every coin symbol.", "anchors": ["addressEncoder/addressCheck.go: AddressCheck"]}
{"id": "C07", "title": "Bech32 addresses round trip", "statement": "For every 20-byte and 32-byte hash, encoding it as a segwit v0 (bech32) address and decoding the address returns the same hash; the same for the version-less 20-byte bech32 addresses (cosmos family).", "quantifier": "all 20-byte/32-byte payloads, all bech32 profiles", "why_tests_cant": "The domain is infinite; unit tests sample a handful of literals.", "anchors": ["addressEncoder/bech32/bech32.go: Encode, Decode, extendPayload, unecxtendPayload"]}
{"id": "C08", "title": "The checksum written by bech32 encoders always verifies", "statement": "For every human-readable prefix and every data part, appending the computed checksum makes the verification succeed, at any length (bech32, bech32m and cashaddr variants).", "quantifier": "all prefixes and all data parts of any length", "why_tests_cant": "Depends on algebra over GF(2) for arbitrary lengths.", "anchors": ["addressEncoder/bech32/bech32.go: polyMod, calcChecksum, verifyChecksum", "addressEncoder/bech32m/bech32m.go: polymod, createChecksum, verifyChecksum", "addressEncoder/base32PolyMod/base32PolyMod.go: polyMod, calcChecksum, verifyChecksum"]}
{"id": "C09", "title": "A single mistyped character in a bech32 or cashaddr address is always detected", "statement": "If a checksummed data part verifies, then changing exactly one symbol of it (to any other symbol) makes verification fail, at any length.", "quantifier": "all valid data parts, all positions, all substituted symbols", "why_tests_cant": "Exhausting positions and symbols for every length is not testable.", "anchors": ["addressEncoder/bech32/bech32.go: polyMod, verifyChecksum", "addressEncoder/bech32m/bech32m.go: polymod, verifyChecksum", "addressEncoder/base32PolyMod/base32PolyMod.go: polyMod, verifyChecksum"]}
{"id": "C10", "title": "A bech32 decoder only accepts addresses of its own network", "statement": "Decoding with a coin's bech32/cashaddr/bech32m profile succeeds only when the human-readable part is that profile's prefix and the checksum verifies.", "quantifier": "all texts, all bech32-family profiles", "why_tests_cant": "A negative property over all texts of other networks.", "anchors": ["addressEncoder/bech32/bech32.go: Decode", "addressEncoder/base32PolyMod/base32PolyMod.go: Decode", "addressEncoder/bech32m/bech32m.go: Bech32mDecode, Decode", "addressEncoder/addressEncoder.go: AddressDecode"]}
{"id": "C11", "title": "Bech32m encode/decode and 8-to-5 bit regrouping round trip", "statement": "Regrouping any byte string to 5-bit symbols with padding and back without padding returns the byte string; Bech32mDecode(Bech32mEncode(prefix, payload)) returns the payload for every payload that fits the 90-character limit.", "quantifier": "all byte strings (regrouping), all payloads up to the length limit, all lower-case prefixes", "why_tests_cant": "The domain is infinite; unit tests sample a handful of literals.", "anchors": ["addressEncoder/bech32m/bech32m.go: Convertbits, Encode, Decode, Bech32mEncode, Bech32mDecode"]}
{"id": "C12", "title": "Cashaddr addresses round trip", "statement": "For every 20-byte hash, decoding the cashaddr encoding returns the hash.", "quantifier": "all 20-byte payloads", "why_tests_cant": "The domain is infinite; unit tests sample a handful of literals.", "anchors": ["addressEncoder/base32PolyMod/base32PolyMod.go: Encode, Decode"]}
{"id": "C13", "title": "Hex-style (eip55/ICX) addresses round trip and reject malformed hex", "statement": "Decoding the hex-style encoding of an address hash returns the hash; texts with non-hex characters are rejected.", "quantifier": "all 20-byte hashes and all texts", "why_tests_cant": "The domain is infinite; unit tests sample a handful of literals.", "anchors": ["addressEncoder/eip55/eip55.go: Eip55_encode, Eip55_decode", "addressEncoder/addressEncoder.go: AddressEncode, AddressDecode"]}
{"id": "C14", "title": "Extended keys survive serialisation", "statement": "OWDecode(OWEncode(k)) returns an extended key equal to k in every field for every well-formed key, and the text starts with owprv/owpub according to the key's privacy flag.", "quantifier": "all extended keys with well-formed field sizes", "why_tests_cant": "The domain is infinite; unit tests sample a handful of literals.", "anchors": ["owkeychain/owencode.go: OWEncode, OWDecode"]}
{"id": "C15", "title": "Public and private child derivation commute", "statement": "For every private extended key and every non-hardened index, deriving the private child and taking its public key gives the same public key, chain code, depth and index as deriving the child from the public parent.", "quantifier": "all private parents, all non-hardened indexes, all secp256k1-like groups", "why_tests_cant": "The statement ranges over the whole key space and index space.", "anchors": ["owkeychain/extendedkey.go: GenPrivateChild, GenPublicChild, GetPublicKey"]}
{"id": "C16", "title": "Key derivation guards", "statement": "A public key can never yield a private child or a hardened child, and derivation never silently exceeds the maximum depth 255.", "quantifier": "all extended keys and indexes", "why_tests_cant": "Quantifies over all keys, including those at the depth limit.", "anchors": ["owkeychain/extendedkey.go: GenPrivateChild, GenPublicChild"]}
{"id": "C17", "title": "Derived ed25519 secret scalars stay valid along every path", "statement": "Every ed25519 private key derived from any seed along any path of at most 255 steps is exactly 32 bytes and a multiple of 8 (cofactor cleared), without overflow.", "quantifier": "all seeds, all paths up to the depth limit, all HMAC outputs", "why_tests_cant": "Invariant over every derivation history.", "anchors": ["owkeychain/extendedkey.go: getPriChildViaPriParent", "owkeychain/hdkey.go: InitRootKeyFromSeed"]}
{"id": "C18", "title": "Derived private keys are always 32 bytes", "statement": "Every derived secp256k1 private child key is exactly 32 bytes long (the width every consumer of the key assumes).", "quantifier": "all parents, indexes and HMAC outputs", "why_tests_cant": "Fails only with probability about 2^-16 per derivation: random tests do not hit it.", "anchors": ["owkeychain/extendedkey.go: getPriChildViaPriParent"]}
{"id": "C19", "title": "Derivation paths denote the child indexes they spell", "statement": "A path component n or n' that is accepted denotes child index n (n < 2^31) or n + 2^31; anything outside that range is rejected.", "quantifier": "all path strings", "why_tests_cant": "All strings; boundary wraps appear only at 2^31 and 2^32.", "anchors": ["owkeychain/hdkey.go: DerivedPrivateKeyWithPath, getCoinTypeFromPath"]}
{"id": "C20", "title": "Raw bitcoin transaction encode/decode round trip", "statement": "Decoding the transaction produced by CreateEmptyRawTransaction yields exactly the inputs (txid, vout, sequence), outputs (amount, script), version and lock time it was created from, in order.", "quantifier": "all non-empty input lists and output lists with fewer than 253 entries, all amounts, txids, lock times", "why_tests_cant": "The domain is infinite; unit tests sample a handful of literals.", "anchors": ["btcTransaction/txStruct.go: newEmptyTransaction, encodeToBytes, DecodeRawTransaction", "btcTransaction/txIn.go", "btcTransaction/txOut.go"]}
{"id": "C21", "title": "Sequence numbers encode replaceability and lock time", "statement": "Every input of a created transaction has sequence 0xFFFFFFFD if replaceable, else 0xFFFFFFFE if the lock time is non-zero, else 0xFFFFFFFF.", "quantifier": "all inputs and parameters", "why_tests_cant": "Universally quantified over inputs.", "anchors": ["btcTransaction/txIn.go: newTxInForEmptyTrans"]}
{"id": "C22", "title": "Input and output counts are encoded as counts", "statement": "A transaction with n inputs and m outputs serialises to a byte string whose count fields denote n and m.", "quantifier": "all n, m", "why_tests_cant": "Breaks only at 253/256 entries, beyond test fixtures.", "anchors": ["btcTransaction/txStruct.go: encodeToBytes"]}
{"id": "C23", "title": "Decoding a raw transaction never crashes", "statement": "DecodeRawTransaction returns a transaction or an error for every byte string; it never panics.", "quantifier": "all byte strings", "why_tests_cant": "Crash freedom over all inputs.", "anchors": ["btcTransaction/txStruct.go: DecodeRawTransaction"]}
{"id": "C24", "title": "DER signatures survive script encoding", "statement": "Every 64-byte signature with non-zero r and s that is written to an unlocking script is read back unchanged, and the script is canonical DER.", "quantifier": "all 64-byte signatures", "why_tests_cant": "2^512 signatures; corner cases on leading zero/high-bit bytes.", "anchors": ["btcTransaction/SignaturePubkey.go: encodeSignatureToScript, decodeSignatureFromScript"]}
{"id": "C25", "title": "Only canonical DER signatures are read back", "statement": "If a script decodes to a signature then re-encoding that signature yields the same script (no malleability).", "quantifier": "all scripts", "why_tests_cant": "Universal over scripts.", "anchors": ["btcTransaction/SignaturePubkey.go: decodeSignatureFromScript"]}
{"id": "C26", "title": "Signatures are normalised to low S at full width", "statement": "The signature returned by the signing helpers is 64 bytes, keeps r, and has s replaced by min(s, n-s).", "quantifier": "all 64-byte signatures with 0 < s < n", "why_tests_cant": "The width bug appears only when n-s has at least two leading zero bytes (2^-16).", "anchors": ["btcTransaction/SignaturePubkey.go: serilizeS", "signatureSet/signature.go: serilizeS", "and 11 further copies"]}
{"id": "C27", "title": "Multisig redeem scripts parse back to their policy", "statement": "For every 1 <= m <= n <= 16 and list of n compressed public keys, parsing the redeem script built for them returns m and exactly those keys in order.", "quantifier": "all m, n, keys", "why_tests_cant": "The domain is infinite; unit tests sample a handful of literals.", "anchors": ["btcTransaction/txMultiSig.go: CreateMultiSig, getMultiDetails"]}
{"id": "C28", "title": "Multisig verification needs m distinct keys", "statement": "VerifyRawTransaction accepts an m-of-n multisig input only if m signatures verify under m distinct keys of the redeem script.", "quantifier": "all signature/key combinations", "why_tests_cant": "Requires all combinations of signatures.", "anchors": ["btcTransaction/transaction.go: VerifyRawTransaction"]}
{"id": "C29", "title": "The message signed for each input is the standard signature hash preimage", "statement": "For SIGHASH_ALL the bytes hashed for input i equal the legacy (P2PKH/P2SH) or BIP143 (segwit) preimage of the transaction, for every transaction and i.", "quantifier": "all transactions and input indexes", "why_tests_cant": "The domain is infinite; unit tests sample a handful of literals.", "anchors": ["btcTransaction/txHash.go: getHashesForSig, getBytesForSig, calcSegwitBytesForSig"]}
{"id": "C30", "title": "Paying an address produces the script the address stands for", "statement": "For every address accepted as destination the output script is P2PKH, P2SH or P2WPKH of the address's hash, according to the network prefix only.", "quantifier": "all addresses", "why_tests_cant": "Universal over addresses.", "anchors": ["btcTransaction/txOut.go: newTxOutForEmptyTrans"]}
{"id": "C31", "title": "Reading a transaction id does not change the transaction", "statement": "Reading the id of an input is a pure observation: it returns the same value each time and leaves the serialised transaction unchanged.", "quantifier": "all transactions, all read sequences", "why_tests_cant": "History property.", "anchors": ["btcTransaction/txIn.go: GetTxID", "btcTransaction/txUtils.go: reverseBytes"]}
{"id": "C32", "title": "SCALE compact integers are encoded per specification", "statement": "The compact encoding of every unsigned 64-bit value decodes (per the SCALE specification) to the same value and consumes exactly the bytes written.", "quantifier": "all 64-bit values", "why_tests_cant": "2^64 values; mode boundaries at 2^6, 2^14, 2^30 and sign handling near 2^64.", "anchors": ["polkadotTransaction/codec.go: Encode, BytesToCompactBytes, getPrefix"]}
{"id": "C33", "title": "Mortal eras denote the block they were created for", "statement": "The two era bytes produced for a block height decode (per the specification) to period 64 and phase height mod 64.", "quantifier": "all heights", "why_tests_cant": "All 64-bit heights.", "anchors": ["polkadotTransaction/txEra.go: GetEra"]}
{"id": "C34", "title": "The submitted polkadot extrinsic carries exactly the signed payload", "statement": "The signed extrinsic returned after verification contains the same call, era, nonce and tip that were signed, and an invalid sender key or signature never yields success with an empty transaction.", "quantifier": "all transfers", "why_tests_cant": "All parameter combinations.", "anchors": ["polkadotTransaction/transaction.go: VerifyAndCombineTransaction", "polkadotTransaction/txStruct.go: NewTxPayLoad, GetSignedTransaction"]}
{"id": "C35", "title": "Omni payload scripts are well-formed OP_RETURN pushes", "statement": "Every omni payload output is OP_RETURN followed by one push whose length byte equals the number of following bytes, and carries property id and amount big-endian.", "quantifier": "all property ids, amounts, memos", "why_tests_cant": "The domain is infinite; unit tests sample a handful of literals.", "anchors": ["omniTransaction/txPayload.go", "omniTransaction/txOmni.go"]}
{"id": "C36", "title": "Ripple transactions decode to what was asked for", "statement": "Parsing the serialised payment (per the XRP binary format) returns the same sequence, amount, fee, destination tag, ledger bound, keys, accounts and memo.", "quantifier": "all parameters", "why_tests_cant": "The domain is infinite; unit tests sample a handful of literals.", "anchors": ["rippleTransaction/txStruct.go: NewTxStruct, ToBytes, ToEmptyRawWiths"]}
{"id": "C37", "title": "Ripple combine is signing of the same transaction", "statement": "Combining an unsigned transaction with a signature gives exactly the serialisation of the same transaction with the signature field filled in, and the hash verified is the hash that was returned for signing.", "quantifier": "all transactions and signatures", "why_tests_cant": "The domain is infinite; unit tests sample a handful of literals.", "anchors": ["rippleTransaction/transaction.go: CreateEmptyRawTransactionAndHash, VerifyAndCombinRawTransaction", "rippleTransaction/txStruct.go"]}
{"id": "C38", "title": "VSYS transactions round trip", "statement": "Decoding the unsigned VSYS transfer returns the type, amount, fee, fee scale, recipient and attachment it was built from.", "quantifier": "all transfers", "why_tests_cant": "The domain is infinite; unit tests sample a handful of literals.", "anchors": ["virtualeconomyTransaction/transaction.go: CreateEmptyTransaction", "virtualeconomyTransaction/txDecode.go: TxStructDecode"]}
{"id": "C39", "title": "Ontology transactions round trip, signed or unsigned", "statement": "DecodeRawTransaction inverts serialisation for unsigned transactions and for transactions with any number of signatures, and combining keeps all verified signatures.", "quantifier": "all transactions, all signature lists", "why_tests_cant": "The domain is infinite; unit tests sample a handful of literals.", "anchors": ["ontologyTransaction/txStruct.go: ToBytes, DecodeRawTransaction", "ontologyTransaction/transaction.go: VerifyAndCombineRawTransaction"]}
{"id": "C40", "title": "Ontology VM integers denote the requested amount", "statement": "The script bytes pushed for an amount decode, per the VM's two's-complement little-endian rule, to that amount.", "quantifier": "all integers", "why_tests_cant": "All integers of any size and sign.", "anchors": ["ontologyTransaction/txUtils.go: uint64ToEmitBytes, bigIntToEmitBytes, bigIntToNeoBytes"]}
{"id": "C41", "title": "WaykiChain variable-length integers are injective and decodable", "statement": "Every amount, fee and height is encoded so that the chain's varint decoder reads back the same number and the following bytes are untouched.", "quantifier": "all int64 values", "why_tests_cant": "All 64-bit values.", "anchors": ["waykichainTransaction/txUtils.go: int64ToUvarint, sizeofVarInt"]}
{"id": "C42", "title": "WaykiChain verifies the hash it asked to be signed", "statement": "For every transaction type, the hash recomputed from the raw transaction at combine time equals the hash returned at creation time, and combining appends the DER signature to the same raw transaction.", "quantifier": "all transactions of the four supported types", "why_tests_cant": "The domain is infinite; unit tests sample a handful of literals.", "anchors": ["waykichainTransaction/txStruct.go: ToBytes, GetHash, getHashFromEmptyRawTrans", "waykichainTransaction/transaction.go: VerifyAndCombineRawTransaction"]}
{"id": "C43", "title": "WaykiChain register ids are parsed as written", "statement": "A register id accepted as source denotes the two numbers it spells.", "quantifier": "all strings", "why_tests_cant": "All strings.", "anchors": ["waykichainTransaction/txUtils.go: isRegIdStr", "waykichainTransaction/txStruct.go: NewCommonTx, NewCallContractTx, NewUcoinTransferTx"]}
{"id": "C44", "title": "MOAC transactions are canonical RLP", "statement": "Unsigned and signed MOAC transactions are canonical RLP lists whose items are the given nonce, prices, limits, recipient, amount and signature.", "quantifier": "all parameters", "why_tests_cant": "The domain is infinite; unit tests sample a handful of literals.", "anchors": ["moacchainTransaction/txUtils.go: getUint64Bytes, getBigIntBytes, getHeadBytes, putint", "moacchainTransaction/txStruct.go: ToBytes"]}
{"id": "C45", "title": "MOAC combine accepts every transaction it created", "statement": "For every unsigned transaction created by the library and a valid signature, combining succeeds and yields the same fields with the signature attached.", "quantifier": "all transactions", "why_tests_cant": "Fails only when the RLP body reaches 56 bytes.", "anchors": ["moacchainTransaction/transaction.go: VerifyAndCombineRawTransaction", "moacchainTransaction/txStruct.go: decodeEmpty, addSig"]}
{"id": "C46", "title": "EOS canonical signing", "statement": "A signature returned by SignCanonical is 65 bytes, has header 31 or 32, satisfies the canonical-form test and recovers to the signer's public key.", "quantifier": "all keys and hashes, all behaviours of the curve library", "why_tests_cant": "All keys/hashes.", "anchors": ["eosSignature/signature.go: SignCanonical, makeCompact, isCanonical"]}
{"id": "C47", "title": "Range check of private keys and nonces against the curve order", "statement": "The overflow test used before signing answers true exactly when the 256-bit number is at least the curve order.", "quantifier": "all 32-byte strings", "why_tests_cant": "2^256 inputs.", "anchors": ["signatureSet/ethSignature.go: eth_check_overflow_uint64, eth_check_overflow_uint32, eth_check_is_zero"]}
{"id": "C48", "title": "ETH-style signing makes progress and normalises S consistently", "statement": "Each retry of the signing loop uses a fresh nonce; when S is replaced by n-S the recovery id is flipped and the output is exactly r||(n-S)||v.", "quantifier": "all keys, hashes, nonces", "why_tests_cant": "Retry branch has probability 2^-128; short S has probability 2^-8.", "anchors": ["signatureSet/ethSignature.go: eth_nonce_function_rfc6979, eth_signatureInner, EthSignature"]}
{"id": "C49", "title": "Signer registry: first registration wins, lookup ignores case", "statement": "After any sequence of registrations, looking a symbol up (in any letter case) returns the signer of its first registration, or nothing if never registered.", "quantifier": "all registration histories", "why_tests_cant": "All histories.", "anchors": ["signatureSet/init.go: RegTxSigner, GetTxSigner"]}
{"id": "C50", "title": "CRC-24Q table matches the polynomial and protects addresses", "statement": "The table-driven checksum equals bitwise CRC-24 with polynomial 0x864CFB for every byte string, and BigBang address decoding accepts a text only with a matching checksum, returning its 32-byte key.", "quantifier": "all byte strings, all addresses", "why_tests_cant": "The domain is infinite; unit tests sample a handful of literals.", "anchors": ["bigbangTransaction/crc24.go: crc24q", "bigbangTransaction/address.go: addressDecode"]}
{"id": "C51", "title": "Elastos sign requests cover each funding address exactly once", "statement": "The list of hashes to sign contains every distinct input address exactly once, in order of first use, each with the same transaction hash.", "quantifier": "all input lists", "why_tests_cant": "All lists.", "anchors": ["elastosTransaction/transaction.go: CreateEmptyRawTransactionAndHash"]}
{"id": "C52", "title": "Filenet totals equal the sum of the outputs", "statement": "The total written in a Filenet transfer is the sum of the output amounts, and decoding the raw transfer returns exactly the outputs in address order.", "quantifier": "all output lists and amounts", "why_tests_cant": "Overflow and ordering over all lists.", "anchors": ["filenetTransaction/txStruct.go: NewTxStruct, ToBytes, decodeRawTransaction"]}
{"id": "C53", "title": "HyperCash verification hashes equal signing hashes", "statement": "For each input the hash recomputed at combine time equals the hash returned for signing at creation time.", "quantifier": "all transactions", "why_tests_cant": "The domain is infinite; unit tests sample a handful of literals.", "anchors": ["hypercashTransaction/transaction.go: CreateEmptyTransactionAndHash, VerifyAndCombineTransaction", "hypercashTransaction/TxStruct.go: GetHash, ToBytes"]}
{"id": "C54", "title": "Vollar/Verge transactions round trip through their raw text form", "statement": "DecodeTxStructRaw of the text returned at creation gives back the same inputs, outputs and lock scripts, and the hashes recomputed at combine time equal those returned for signing.", "quantifier": "all transactions with fewer than 256 inputs and outputs", "why_tests_cant": "The domain is infinite; unit tests sample a handful of literals.", "anchors": ["vollarTransaction/txStruct.go: ToBytes, DecodeTxStructRaw, GetHash", "vergeTransaction/txStruct.go"]}
{"id": "C55", "title": "A combined transaction needs at least one valid signature", "statement": "Verify-and-combine functions report success only if a signature verified for every input/payer of the transaction.", "quantifier": "all signature lists", "why_tests_cant": "All lists, including the empty one.", "anchors": ["ontologyTransaction/transaction.go: VerifyAndCombineRawTransaction", "elastosTransaction/transaction.go: VerifyAndCombineRawTransaction", "mateverseTransaction/transaction.go: VerifyAndCombineTransaction"]}
{"id": "C56", "title": "Upper-case bech32 addresses", "statement": "The all-upper-case form of a bech32-family address (allowed by BIP173/BIP350/cashaddr) decodes exactly like its lower-case form, and in particular only with a correct checksum.", "quantifier": "all texts", "why_tests_cant": "Quantifies over all addresses; tests only try lower case.", "anchors": ["addressEncoder/bech32/bech32.go: Decode", "addressEncoder/base32PolyMod/base32PolyMod.go: Decode", "addressEncoder/bech32m/bech32m.go: Decode"]}
{"id": "C57", "title": "EOS, aeternity and Monero texts are canonical", "statement": "For each payload there is exactly one text that AddressDecode accepts under the EOS, aeternity or a Monero profile.", "quantifier": "all texts and payloads", "why_tests_cant": "Malleability is about all other texts.", "anchors": ["addressEncoder/eos.go: decodeEOS", "addressEncoder/aeternity.go: decodeAE", "addressEncoder/addressEncoder.go: AddressDecode (XMR)"]}
{"id": "C58", "title": "OWDecode never crashes", "statement": "OWDecode applied to any text returns a key or an error; it never panics, whatever the length or content of the text.", "quantifier": "every byte string given to OWDecode", "why_tests_cant": "The decoder slices the payload at fixed offsets; safety depends on every text with the accepted leading letters decoding to enough bytes, which is an arithmetic fact over all texts.", "anchors": ["owkeychain/owencode.go:OWDecode", "owkeychain/base58.go:Decode"]}
{"id": "C59", "title": "Coin account keys agree", "statement": "For every seed, coin and address index below 2^31: if a private key is derived for (coin, index), then the coin's root public key exists and its public child at that index is exactly the public key of that private key.", "quantifier": "every seed, coin type, address index", "why_tests_cant": "Depends on the algebra of child derivation for every key and on byte widths of intermediate keys.", "anchors": ["owkeychain/hdkey.go:GetCoinRootPublicKey", "owkeychain/hdkey.go:DerivedPrivateKeyBytes"]}
{"id": "C60", "title": "owchain share texts round trip", "statement": "ChianEncode of a multisig share followed by ChainDecode returns the same public key, chain code and curve type; the text starts with owchain; ChainDecode never panics; a corrupted text is not accepted as a different share.", "quantifier": "every share; every text", "why_tests_cant": "Quantifies over all keys, chain codes, curve types and all texts.", "anchors": ["owkeychain/multisig.go:ChianEncode", "owkeychain/multisig.go:ChainDecode"]}
{"id": "C61", "title": "Verification binds the key to the output spent", "statement": "VerifyRawTransaction returns true only if, for every input, the public key (or redeem script) in the unlocking script hashes to the hash in the locking script of the output it spends.", "quantifier": "all transactions, unlock data, keys and signatures", "why_tests_cant": "A test checks some honest keys; the claim is about every dishonest one.", "anchors": ["btcTransaction/transaction.go: VerifyRawTransaction"]}
{"id": "C62", "title": "Inserting signatures never succeeds with an empty result", "statement": "If InsertSignatureIntoEmptyTransaction returns no error, the returned text is a transaction (not empty).", "quantifier": "all transactions, hashes and unlock data", "why_tests_cant": "Requires every kind of unknown script.", "anchors": ["btcTransaction/transaction.go: InsertSignatureIntoEmptyTransaction"]}
{"id": "C63", "title": "A transaction signed through the API verifies", "statement": "For every unsigned transaction: if the messages come from CreateRawTransactionHashForSig and valid signatures are filled in, InsertSignatureIntoEmptyTransaction succeeds and VerifyRawTransaction accepts the result.", "quantifier": "all transactions, unlock data, keys and valid signatures", "why_tests_cant": "Composition of four functions over all transactions.", "anchors": ["btcTransaction/transaction.go: CreateRawTransactionHashForSig, InsertSignatureIntoEmptyTransaction, VerifyRawTransaction"]}
{"id": "C64", "title": "Bech32, bech32m and cashaddr checksums are the published codes", "statement": "A bech32 (bech32m, cashaddr) string is accepted exactly when the polynomial over GF(32) formed from its prefix and data leaves the remainder prescribed by BIP 173 (BIP 350, the cashaddr specification) on division by the published generator polynomial.", "quantifier": "all prefixes and all data parts of any length", "why_tests_cant": "Test vectors exercise a handful of the 32 feedback constants' combinations; the equivalence ranges over all messages.", "anchors": ["addressEncoder/bech32.go: polyMod, verifyChecksum", "addressEncoder/bech32m.go", "addressEncoder/cashaddr (bech32.go)"]}
{"id": "C65", "title": "Child key derivation follows BIP 32", "statement": "For secp256k1, P-256 and SM2 the child of an extended key is the one BIP 32 defines (HMAC input, index encoding, group order, chain code); for ed25519 the child scalar is parent + 8*I[0..28] and is refused exactly if it is a multiple of the group order.", "quantifier": "all parent keys, chain codes and indices", "why_tests_cant": "All key/index pairs; wrong boundaries show up with negligible probability in tests.", "anchors": ["owkeychain/extendedkey.go: getI, getPriChildViaPriParent, getPubChildViaPubParent, GenPrivateChild, GenPublicChild", "owkeychain/hdprofile.go"]}
{"id": "C66", "title": "Omni transactions can pay every address kind", "statement": "Every recipient address that the Bitcoin package accepts for the same network (in particular native segwit addresses) can be paid by an Omni transaction.", "quantifier": "all addresses, amounts and payloads", "why_tests_cant": "The failure depends on an absent continue statement and affects every bech32 address; the tests only use Base58 recipients.", "anchors": ["omniTransaction/txOut.go: newTxOutForEmptyTrans"]}
{"id": "C67", "title": "Ripple: the verified key is the key in the transaction", "statement": "VerifyAndCombinRawTransaction reports success only if the signature is valid under the signing key named inside the transaction.", "quantifier": "all payments, keys and signatures", "why_tests_cant": "Tests use one matching key pair.", "anchors": ["rippleTransaction/transaction.go: VerifyAndCombinRawTransaction"]}
{"id": "C69", "title": "Running an Ontology transfer moves the requested amount", "statement": "The script of a created transaction, run by the Ontology VM, makes exactly one native call: it transfers the requested amount of the requested token from the sender's account to the receiver's (for a withdrawal, from the ONT contract's allowance). Sender, receiver and payer are accepted only if they are Ontology addresses; the payer pays with the gas price and limit given, and the signers returned are the payer and the sender.", "quantifier": "all addresses, all amounts, the three asset types, both API versions", "why_tests_cant": "It relates every script the library can build to the semantics of the VM that runs it.", "anchors": ["ontologyTransaction/txInvokeCode.go: NativeInvoke.ToBytes, NativeInvokeV2.ToBytes", "ontologyTransaction/transaction.go: CreateRawTransactionAndHash, CreateRawTransactionAndHashV2"]}
{"id": "C70", "title": "A WaykiChain raw transaction is read by the chain as the transaction that was asked for", "statement": "For each of the four transaction types, the raw transaction that is returned parses, by the chain's own format, to the requested height, source, destination, fee, amount, coin, contract data and nothing else.", "quantifier": "all heights, fees and amounts that are not negative, all register ids, addresses, keys, coins and contract data", "why_tests_cant": "All field values; length prefixes and variable-length integers shift everything behind them when wrong.", "anchors": ["waykichainTransaction/transaction.go: CreateEmptyRawTransactionAndHash", "waykichainTransaction/txStruct.go: NewCommonTx, NewRegisterAccountTx, NewCallContractTx, NewUcoinTransferTx, ToBytes"]}
{"id": "C71", "title": "EOS signing nonces are the RFC 6979 nonces, at full width", "statement": "For attempt i the nonce used by the EOS signing call is the RFC 6979 nonce (HMAC-SHA256, secp256k1) for the private key and the attempt's digest - the hash for i = 0, SHA-256(hash followed by i zero bytes) otherwise - encoded in 32 bytes; the search ends exactly when RFC 6979 defines a nonce.", "quantifier": "all private keys, hashes and attempt numbers, all HMAC functions with 32-byte output", "why_tests_cant": "A nonce outside the range, or with a leading zero byte, is too rare to be hit by tests; a wrong nonce leaks the private key without any visible failure.", "anchors": ["eosSignature/randomGenerator.go: generateRandomFromNonce, bits2octets, int2octets, hashToInt", "eosSignature/signature.go: signRFC6979"]}
{"id": "C72", "title": "Transaction hashes are signed by the signer of the symbol", "statement": "Signing a hash for a symbol uses the signer registered for it, whatever the curve; if none is registered, NAS and TRX use the recoverable signature; any other symbol gets the plain signature, on secp256k1 normalised to low S in 64 bytes.", "quantifier": "all registries, symbols, messages, keys, curves and all behaviours of the external signature", "why_tests_cant": "The choice depends on the whole registration history and on symbol case; the width fault appears with probability 2^-16.", "anchors": ["signatureSet/signature.go: SignTxHash, serilizeS"]}
{"id": "C73", "title": "BigBang transfers say what was asked", "statement": "A created BigBang transaction is the wire form of exactly the requested transfer (time, lock time, anchor, inputs in order, recipient key, amount, fee, data), its hash to sign is BLAKE2b-256 of it, and two different requests never give the same bytes; combining succeeds only with a valid Ed25519 signature of that very transaction and leaves it unchanged.", "quantifier": "all requests, all texts, all signatures and keys", "why_tests_cant": "Layout faults and collisions between requests show only for particular lengths and values; the domain is infinite.", "anchors": ["bigbangTransaction/transaction.go: CreateEmptyTransactionAndHash, VerifyAndCombineTransaction", "bigbangTransaction/txStruct.go: NewTxStruct, ToBytes", "bigbangTransaction/txIn.go: NewTxIn"]}
{"id": "C74", "title": "An Elastos transfer text states exactly the request", "statement": "CreateEmptyRawTransactionAndHash succeeds exactly for requests with at least one input and output, hex ids and valid receiver addresses; the text is the wire format of that request, and two requests with the same text (hence the same hash) spend the same outputs and pay the same amounts of the same assets to the same addresses.", "quantifier": "all input and output lists (of less than 2^56 entries)", "why_tests_cant": "Lists of any length, ids and addresses of any content; injectivity relates all pairs of requests.", "anchors": ["elastosTransaction/transaction.go: CreateEmptyRawTransactionAndHash", "elastosTransaction/txStruct.go: NewTransaction, GetEmptyAndHash", "elastosTransaction/txIn.go: NewInput", "elastosTransaction/txOut.go: NewOutput", "elastosTransaction/base58.go: GetProgramHashFromAddress"]}
{"id": "C75", "title": "A HyperCash transfer text states exactly the request, and its hashes are those the chain checks", "statement": "CreateEmptyTransactionAndHash succeeds exactly for requests with at least one input and output, 32-byte hex ids, hex scripts and valid receiver addresses; the text is the chain's serialisation of that request (token transfers with the omni data output included) followed by each input's script and value, and hash k is the chain's signature hash of input k.", "quantifier": "all input and output lists, lock times and expiries", "why_tests_cant": "Lists of any length and scripts of any size.", "anchors": ["hypercashTransaction/transaction.go: CreateEmptyTransactionAndHash, CreateOmniEmptyTransactionAndHash", "hypercashTransaction/TxStruct.go: NewTxStruct, ToBytes, GetHash", "hypercashTransaction/txIn.go", "hypercashTransaction/txOut.go"]}
{"id": "C76", "title": "The inputs listed for a HyperCash transfer text are those it was created from", "statement": "GetVinList of a text returned at creation gives the transaction ids and output numbers of the inputs, in order.", "quantifier": "all accepted transactions", "why_tests_cant": "Any number of inputs.", "anchors": ["hypercashTransaction/transaction.go: GetVinList"]}
{"id": "C77", "title": "HyperCash and Metaverse signing return a valid low-S signature", "statement": "SignTransaction returns the signer's r and the smaller of s and n - s.", "quantifier": "all hashes, keys and signatures produced by the external signer", "why_tests_cant": "The failing s values have probability 2^-16; tests will not meet them.", "anchors": ["hypercashTransaction/transaction.go: SignTransaction", "hypercashTransaction/txSignature.go: serilizeS", "mateverseTransaction/transaction.go: SignTransaction", "mateverseTransaction/txUtils.go: serilizeS"]}
{"id": "C78", "title": "The inputs listed for a Metaverse unsigned transaction are its inputs", "statement": "GetInputsFromEmptyRawTransaction lists the ids, output numbers and sequence numbers of all inputs, in order, for every unsigned transaction; whatever it accepts has that form.", "quantifier": "all transactions with 1 to 65535 inputs; all texts", "why_tests_cant": "Any number of inputs and any bytes behind them.", "anchors": ["mateverseTransaction/transaction.go: GetInputsFromEmptyRawTransaction", "mateverseTransaction/txIn.go: decodeEmptyTx"]}
{"id": "C79", "title": "Metaverse signing hashes are those the chain checks", "statement": "For an unsigned transaction whose inputs got their lock scripts as the node prints them (payment to key hash, with attenuation, or hex), GetSigHash stores in input k the double SHA-256 of the transaction with that script in input k, no scripts elsewhere, and hash type 1.", "quantifier": "all transactions with 1 to 65535 inputs, all key hashes, attenuation models, input points and scripts", "why_tests_cant": "Any number of inputs and scripts of any content and length.", "anchors": ["mateverseTransaction/transaction.go: GetSigHash", "mateverseTransaction/txIn.go: getHashFromLockScript, getHashCalcBytes"]}
{"id": "C80", "title": "Metaverse combining gives the signed transaction exactly for verified signatures", "statement": "VerifyAndCombineTransaction on the inputs of an unsigned transaction succeeds exactly when every input carries a valid signature for its hash, and returns that transaction with DER signature and key as script in every input.", "quantifier": "all transactions with 1 to 65535 inputs, all signatures, keys and hashes", "why_tests_cant": "All lists of inputs and all signatures.", "anchors": ["mateverseTransaction/transaction.go: VerifyAndCombineTransaction", "mateverseTransaction/txIn.go: getSubmitBytes", "mateverseTransaction/txSigPub.go"]}
{"id": "C81", "title": "Verge transactions have the chain's layout and signature hashes", "statement": "For a request with 1 to 252 inputs (hex ids of 32 bytes, spent scripts below 253 bytes) and at most 252 outputs to standard addresses, CreateEmptyTransactionAndHash returns the chain's serialisation of the unsigned version-1 transaction with time now+interval, followed by the lock scripts, and the k-th hash is the double SHA-256 of the transaction with the spent script in place k only and signature type 1.", "quantifier": "all well-formed requests, all clocks", "why_tests_cant": "The domain is infinite; unit tests sample a handful of literals.", "anchors": ["vergeTransaction/transaction.go: CreateEmptyTransactionAndHash", "vergeTransaction/txStruct.go: NewTxStruct, ToBytes, GetHash"]}
{"id": "C82", "title": "Vollar transactions have the chain's layout and signature hashes", "statement": "For a request with 1 to 252 inputs (hex ids of 32 bytes, spent scripts below 253 bytes) and at most 252 outputs to standard addresses, the Vollar package returns the chain's serialisation of the unsigned transaction followed by the lock scripts, and hash k is the double SHA-256 of the digest of all outpoints, sequences and outputs, zero fields, signature type, outpoint, script and sequence of input k.", "quantifier": "all well-formed requests", "why_tests_cant": "The domain is infinite; unit tests sample a handful of literals.", "anchors": ["vollarTransaction/transaction.go: CreateEmptyRawTransactionAndHash", "vollarTransaction/txStruct.go: NewTxStruct, ToBytes, GetHash"]}
{"id": "C83", "title": "Verge and Vollar combining accepts exactly the right signatures", "statement": "For a transaction created from a well-formed request and a list of 64-byte signatures with 33-byte keys, Verge combining succeeds exactly when there is one signature per hash, each verifies under its key and has no zero part; Vollar combining answers true exactly under the same condition and answers false, with the transaction, when some signature does not verify; the result is the chain's serialisation with the unlocking scripts in input order.", "quantifier": "all well-formed requests and signature lists", "why_tests_cant": "All lists of signatures, all verification outcomes.", "anchors": ["vergeTransaction/transaction.go: VerifyAndCombineTransaction", "vollarTransaction/transaction.go: VerifyAndCombineRawTransaction"]}
{"id": "C84", "title": "Verge and Vollar signing return a valid low-S signature", "statement": "The signing functions return the signer's r and the smaller of s and n - s, in 64 bytes.", "quantifier": "all hashes, keys and signatures produced by the external signer", "why_tests_cant": "The failing s values have probability about 2^-16; tests will not meet them.", "anchors": ["vergeTransaction/transaction.go: SignTransaction", "vollarTransaction/transaction.go: SignRawTransaction", "vergeTransaction/txSigPub.go: serilizeS"]}
{"id": "C85", "title": "blake256 computes BLAKE-256, BLAKE-224 and their salted forms", "statement": "For every message of less than 2^64 bits, New, Write and Sum return the bytes given to Sum followed by the BLAKE-256 hash of the message as specified by the SHA-3 submission (permutations, constants of pi, SHA-2 initial values, fourteen rounds, bit counter, padding); New224 gives BLAKE-224; NewSalt and New224Salt accept exactly 16-byte salts (others panic) and give the salted hash; DoubleBlake256 is BLAKE-256 applied twice.", "quantifier": "all messages shorter than 2^64 bits, all salts, all prefixes given to Sum", "why_tests_cant": "the compression function is 224 unrolled steps and the padding has three cases by length modulo 64; test vectors reach a handful of lengths and one value each", "anchors": ["addressEncoder/blake256/blake256.go: New, New224, NewSalt, New224Salt, Write, Sum, setSalt, DoubleBlake256", "addressEncoder/blake256/blake256block.go: block"]}
{"id": "C86", "title": "the BLAKE hash does not depend on how the input is cut, and Reset starts over", "statement": "After any sequence of Write and Reset calls on a digest, Sum returns the hash of the concatenation of everything written since the last Reset (with the salt of the constructor, which Reset keeps); two histories with the same message give the same sum, whatever the length of the message.", "quantifier": "all histories of Write and Reset calls, all chunk boundaries, all four constructors", "why_tests_cant": "chunk boundaries interact with the 64-byte buffer; the number of histories is unbounded", "anchors": ["addressEncoder/blake256/blake256.go: Write, Reset, Sum"]}
{"id": "C87", "title": "Bitcoin Cash and Bitcoin SV signature hashes are the replay-protected ones", "statement": "For every unsigned transaction of version 1 and every list of unlocking data, CreateRawTransactionHashForSig of the Bitcoin Cash and Bitcoin SV packages returns, for each input, the double SHA-256 of the BIP 143 style message with signature type 0x41 of that transaction, input, script code and amount, and never panics.", "quantifier": "all unsigned transactions with fewer than 253 inputs and outputs, all unlocking data, all input kinds", "why_tests_cant": "the hash depends on the position, all other inputs and outputs, and the script kind; the space of transactions is unbounded", "anchors": ["bitcoincashTransaction/transaction.go: CreateRawTransactionHashForSig", "bitcoincashTransaction/txHash.go: getBytesForSig, newTxHash, checkScriptType", "bitcoinsvTransaction/transaction.go: CreateRawTransactionHashForSig", "bitcoinsvTransaction/txHash.go: getBytesForSig, newTxHash, checkScriptType"]}
{"id": "C88", "title": "CXC, HyperCash and Horizen signature hashes commit to the transaction and the script spent", "statement": "For every unsigned transaction and every list of unlocking data, CreateRawTransactionHashForSig of the CXC and Horizen packages returns, for each input, the legacy SIGHASH_ALL hash of the transaction with the locking script of that input (including its asset data or block reference) and the address the script pays to; texts that are not hex are rejected. Those of the HyperCash package return what the Bitcoin package returns for the same arguments, and so do its functions that insert signatures and verify.", "quantifier": "all unsigned transactions with fewer than 253 inputs and outputs, all locking scripts", "why_tests_cant": "the hash depends on the whole transaction and the position of the input", "anchors": ["cxcTransaction/transaction.go: CreateRawTransactionHashForSig", "cxcTransaction/txHash.go: checkScriptType", "zencashTransaction/transaction.go: CreateRawTransactionHashForSig", "zencashTransaction/txHash.go: getHashesForSig", "hcTransaction/transaction.go: CreateRawTransactionHashForSig, InsertSignatureIntoEmptyTransaction, VerifyRawTransaction"]}
{"id": "C89", "title": "Bitcoin-derived packages pay exactly the requested addresses and amounts", "statement": "CreateEmptyRawTransaction of the Bitcoin Cash, Bitcoin SV, HyperCash (UTXO) and CXC packages succeeds exactly if there are inputs and outputs, the ids are hex texts of 32 bytes and the addresses are addresses of the chain, and the text returned is the serialisation of the transaction that spends these inputs and pays each address its amount.", "quantifier": "all lists of inputs and outputs (fewer than 253), lock times, replaceable flags and network prefixes", "why_tests_cant": "quantifies over all addresses and amounts; a wrong prefix or missed case loses funds", "anchors": ["bitcoincashTransaction/transaction.go: CreateEmptyRawTransaction", "bitcoincashTransaction/txOut.go: newTxOutForEmptyTrans", "bitcoinsvTransaction/txOut.go: newTxOutForEmptyTrans", "hcTransaction/txOut.go: newTxOutForEmptyTrans", "cxcTransaction/txOut.go: newTxOutForEmptyTrans"]}
{"id": "C90", "title": "Horizen outputs carry the given block hash and height", "statement": "CreateEmptyRawTransaction of the Horizen package succeeds exactly if the inputs, outputs, addresses and the 32-byte block hash are valid, and every output script is the script of its address followed by a check that the block with the given hash is at the given height.", "quantifier": "all inputs, outputs, block hashes and 64-bit heights", "why_tests_cant": "the height is a script number of variable length with a sign bit; only special heights go wrong", "anchors": ["zencashTransaction/transaction.go: CreateEmptyRawTransaction", "zencashTransaction/txOut.go: newTxOutForEmptyTrans"]}
{"id": "C91", "title": "CXC asset outputs carry the asset reference and quantity", "statement": "Every text returned by CreateEmptyAssetRawTransaction is the serialisation of the transaction that spends the inputs and has, for each transfer in order, an output of amount zero paying the address followed by a push of the asset reference and quantity, and then the change output; such outputs can be spent with the same package.", "quantifier": "all inputs, transfers (fewer than 252), references, quantities, change outputs", "why_tests_cant": "quantifies over reference texts of any length; wrong ones are only noticed when the asset cannot be spent", "anchors": ["cxcTransaction/transaction.go: CreateEmptyAssetRawTransaction", "cxcTransaction/txAsset.go: getTransferPayload, newAssetTxOutForEmptyTrans", "cxcTransaction/txHash.go: checkScriptType"]}
{"id": "C92", "title": "Signing and verifying round trip on Bitcoin-derived packages", "statement": "For the Bitcoin Cash, Bitcoin SV, CXC, HyperCash (UTXO) and Horizen packages: inserting valid signatures over the returned hashes into the unsigned transaction gives a text that VerifyRawTransaction accepts, and a text that VerifyRawTransaction accepts carries for every input a valid signature, over the hash of that input, by the owner of the output spent.", "quantifier": "all transactions, unlocking data, keys and signatures, every signature scheme", "why_tests_cant": "quantifies over all signed transactions, including adversarial ones", "anchors": ["bitcoincashTransaction/transaction.go: InsertSignatureIntoEmptyTransaction, VerifyRawTransaction", "bitcoinsvTransaction/transaction.go", "cxcTransaction/transaction.go", "hcTransaction/transaction.go", "zencashTransaction/transaction.go"]}
{"id": "C93", "title": "Omni messages on Bitcoin Cash and Bitcoin SV", "statement": "CreateEmptyOmniRawTransaction of the Bitcoin Cash and Bitcoin SV packages succeeds exactly for valid inputs, ids and recipient addresses (those CreateEmptyRawTransaction accepts), and the transaction pays each recipient and carries, in a last output of amount zero, an OP_RETURN push of the Omni message of the requested type and fields.", "quantifier": "all inputs, recipients, message types, property ids, amounts", "why_tests_cant": "quantifies over all messages and recipients; the wrong message moves other tokens", "anchors": ["bitcoincashTransaction/transaction.go: CreateEmptyOmniRawTransaction", "bitcoincashTransaction/txOut.go: newOmniTxOutForEmptyTrans", "bitcoincashTransaction/txPayload.go", "bitcoinsvTransaction/transaction.go: CreateEmptyOmniRawTransaction"]}
{"id": "C94", "title": "Cosmos/Evaio sign text is the canonical sign document", "statement": "For every chain id, memo, account number, sequence, gas, fee coins and transfers, NewTxStruct followed by CreateEmptyTransactionAndHash returns the canonical amino-JSON sign document (no white space, member names sorted, integers as decimal strings) with exactly these contents, fee coins of amount zero left out, and its SHA-256.", "quantifier": "all chain ids, memos, account numbers, sequences, gas values, fee coin lists and transfer lists", "why_tests_cant": "nodes recompute this text byte by byte; a deviation for any string with special characters or any number makes the signature invalid", "anchors": ["cosmosTransaction/transaction.go: CreateEmptyTransactionAndHash", "cosmosTransaction/txStruct.go: NewTxStruct", "cosmosTransaction/coin.go: NewCoin", "cosmosTransaction/fee.go: NewStdFee", "cosmosTransaction/message.go", "evaioTransaction (same text)"]}
{"id": "C95", "title": "Different Cosmos transactions have different sign texts", "statement": "Two Cosmos or Evaio transactions that differ in any field have different sign texts.", "quantifier": "all pairs of transactions", "why_tests_cant": "ranges over pairs of transactions; a collision would let one signature authorise another transfer", "anchors": ["cosmosTransaction/transaction.go: CreateEmptyTransactionAndHash"]}
{"id": "C96", "title": "The Cosmos/Evaio transaction to send is the one signed", "statement": "For every transaction, hexadecimal signature, key, key type and mode, CreateJsonForSend returns JSON with the transfers, fee and memo of the sign text, the given mode, and one signature entry holding the base64 of the signature and of the key (for Cosmos also the account number and sequence signed); a signature that is not hexadecimal is an error.", "quantifier": "all transactions, signature texts, keys, key types, modes", "why_tests_cant": "ranges over all transactions; a difference makes the node verify the signature against another document", "anchors": ["cosmosTransaction/transaction.go: CreateJsonForSend", "cosmosTransaction/txSend.go", "evaioTransaction/transaction.go: CreateJsonForSend", "evaioTransaction/txSend.go"]}
{"id": "C97", "title": "Cosmos/Evaio: signing the hash gives a signature accepted for the text", "statement": "SignTransactionHash of the hash returned with a transaction yields, for every 32-byte key, a 64-byte signature with low s that VerifyTransactionSig accepts for the returned text; wrong hash texts and keys, and failures of the signer, are errors; VerifyTransactionSig accepts exactly what the library accepts for the SHA-256 of the text.", "quantifier": "all transactions, keys, signature schemes closed under negating s", "why_tests_cant": "depends on rare values of s (leading zero bytes) and on failures of the signer", "anchors": ["cosmosTransaction/transaction.go: SignTransactionHash, serilizeS, VerifyTransactionSig", "evaioTransaction/transaction.go"]}
{"id": "C98", "title": "Cosmos/Evaio Bech32 round trip", "statement": "Bech32Decode(Bech32Encode(prefix, alphabet, payload)) returns the payload for every lower-case prefix and every payload.", "quantifier": "all prefixes of lower-case letters, all payloads", "why_tests_cant": "ranges over all payloads and lengths", "anchors": ["cosmosTransaction/bech32.go: Bech32Encode, Bech32Decode", "evaioTransaction/bech32.go"]}
{"id": "C99", "title": "FiiiCoin transactions are created as requested", "statement": "CreateEmptyTransactionAndMessage succeeds exactly for at least one input and output, transaction ids of 64 hexadecimal digits, positive amounts and addresses that are the Base58Check text of the given prefix and a 20-byte hash; it then returns the JSON transaction with exactly these contents (pay-to-public-key-hash scripts, counts, sizes, the clock) and per input the hexadecimal text of transaction id and output number; otherwise it returns an error.", "quantifier": "all inputs, outputs, versions, lock and expiry times, clock values", "why_tests_cant": "ranges over all requests and address texts", "anchors": ["fiiiTransaction/transaction.go: CreateEmptyTransactionAndMessage", "fiiiTransaction/txInput.go: NewInputMsg, genMessage", "fiiiTransaction/txOutput.go: NewOutputMsg, genLockScript", "fiiiTransaction/base58.go: DecodeCheck"]}
{"id": "C100", "title": "FiiiCoin: signing and combining", "statement": "For every created transaction, VerifyAndCombineTransaction succeeds exactly if there is, per message and in order, a 64-byte signature and 32-byte key that verify for the bytes of the message; the result is the same transaction with these signatures as unlocking scripts, the SHA-256 of its bytes as hash and its size. SignTransactionMessage signs the bytes of a hexadecimal message with a 32-byte key and refuses everything else; its signatures combine. Combining never panics, whatever the text.", "quantifier": "all created transactions (numbers of Go's int), all lists of signatures and keys, all texts for the last sentence", "why_tests_cant": "ranges over all transactions and signature lists; passes through a JSON writer and reader", "anchors": ["fiiiTransaction/transaction.go: SignTransactionMessage, VerifyAndCombineTransaction", "fiiiTransaction/txStruct.go: Complete", "fiiiTransaction/txUnlock.go: GenUnlockScript", "fiiiTransaction/txInput.go: genMessageBytes, ToBytes", "fiiiTransaction/txOutput.go: ToBytes"]}
{"id": "C101", "title": "A FiiiCoin signature authorises one transaction only", "statement": "Signatures made for one created transaction are accepted only for a transaction with the same inputs and outputs.", "quantifier": "all pairs of created transactions", "why_tests_cant": "ranges over pairs of transactions", "anchors": ["fiiiTransaction/txInput.go: genMessage, genMessageBytes", "fiiiTransaction/transaction.go: VerifyAndCombineTransaction"]}
{"id": "C102", "title": "Bitcoin family: every hash names who must sign it", "statement": "Each hash returned by CreateRawTransactionHashForSig comes with the party that has to sign: for a pay-to-public-key-hash output the address of the key hash in the spent script under the network's prefix (the cashaddr address for Bitcoin Cash), for a witness key hash inside a script hash the script-hash address, for a witness key hash the bech32 address that pays to the spent script, for a multisig redeem script the number of signatures and the keys in order; and with the signature type asked for.", "quantifier": "all unsigned transactions, all lists of inputs to unlock, all networks; multisig of at most 15 keys; Bitcoin and, for pay-to-public-key-hash, Bitcoin Cash, Bitcoin SV, CXC, HC, Horizen", "why_tests_cant": "ranges over all transactions, scripts and positions in the list of inputs", "anchors": ["btcTransaction/txHash.go: newTxHash, getHashesForSig", "bitcoincashTransaction/txHash.go: newTxHash", "bitcoinsvTransaction/txHash.go: newTxHash", "cxcTransaction/txHash.go: newTxHash", "hcTransaction/txHash.go: newTxHash", "zencashTransaction/txHash.go: newTxHash"]}
{"id": "C103", "title": "Verge, Aliencoin, Vollar: combining changes nothing but the scripts, whatever the text", "statement": "Whatever text VerifyAndCombineTransaction accepts, it is the hexadecimal form of one transaction with an empty script in every input, followed by exactly one lock script per input. The result is that same transaction, byte for byte, with only the empty scripts replaced by the unlocking scripts of the given signatures, in order; and every signature is valid for the hash of that transaction with the given lock script in place of its input.", "quantifier": "all texts, also those no creating function returned; all lists of 64-byte signatures and 33-byte keys", "why_tests_cant": "ranges over all texts, in particular over tampered ones", "anchors": ["vergeTransaction/transaction.go: VerifyAndCombineTransaction", "vergeTransaction/txStruct.go: DecodeTxStructRaw, GetHash, ToBytes", "aliencoinTransaction/transaction.go: VerifyAndCombineTransaction", "aliencoinTransaction/txStruct.go: DecodeTxStructRaw", "vollarTransaction/transaction.go: VerifyAndCombineRawTransaction"]}
{"id": "C104", "title": "Aliencoin transactions and signature hashes have the chain's layout", "statement": "For every well-formed request CreateEmptyTransactionAndHash returns the hexadecimal serialisation of exactly the requested inputs, outputs and lock time, followed by the lock scripts, and for input k the double SHA-256 of the transaction with the spent script in place k and signature type 1. Addresses that are not Base58Check texts of one of the two prefixes are never paid.", "quantifier": "all requests of 1 to 252 inputs with 32-byte ids and lock scripts below 253 bytes and at most 252 outputs; for the last sentence all requests", "why_tests_cant": "ranges over all requests", "anchors": ["aliencoinTransaction/transaction.go: CreateEmptyTransactionAndHash", "aliencoinTransaction/txStruct.go: NewTxStruct, ToBytes, GetHash", "aliencoinTransaction/txIn.go: NewTxIn", "aliencoinTransaction/txOut.go: NewTxOut"]}
{"id": "C105", "title": "Aliencoin: combining signatures", "statement": "For every created transaction of a well-formed request VerifyAndCombineTransaction succeeds exactly if there is one signature per hash, each valid for it; the result is the chain's serialisation of the transaction with the unlocking scripts (DER form of the signature, hash type, key) of these signatures, in order.", "quantifier": "all well-formed requests, all lists of 64-byte signatures and 33-byte keys", "why_tests_cant": "ranges over all signatures: the encoding goes wrong for about one signature in 250", "anchors": ["aliencoinTransaction/transaction.go: VerifyAndCombineTransaction", "aliencoinTransaction/txSigPub.go: ToBytes"]}
{"id": "C106", "title": "CRC32 is the CRC-32 checksum and detects every change within four bytes", "statement": "For every byte string CRC32 returns the four bytes, highest first, of its CRC-32 checksum (generator x^32+x^26+x^23+x^22+x^16+x^12+x^11+x^10+x^8+x^7+x^5+x^4+x^2+x+1, bits sent lowest first, register preset to ones and complemented). Two strings of the same length that differ, but only within four consecutive bytes, never have the same checksum.", "quantifier": "all byte strings; all positions and contents of the differing bytes", "why_tests_cant": "ranges over all byte strings and all pairs of them", "anchors": ["addressEncoder/crc32.go: CRC32"]}
{"id": "C107", "title": "A created Bytom transaction is the chain's serialisation of the request", "statement": "For every list of one to 127 inputs (32-byte source and asset identifiers, 22- or 34-byte control programs, in hexadecimal), one to 127 outputs paying to version-0 addresses of the selected network, and amounts, positions and time range below 2^56, CreateEmptyRawTransaction returns the hexadecimal form of Bytom's serialisation of exactly that transaction: inputs and outputs in the given order, outputs in the native asset and to the program hash of the address, no witness arguments.", "quantifier": "all inputs, outputs, amounts, positions, time ranges and both networks", "why_tests_cant": "ranges over all requests", "anchors": ["bytomTransaction/transaction.go: CreateEmptyRawTransaction", "bytomTransaction/txStruct.go: newEmptyTransaction, toBytes", "bytomTransaction/txIn.go", "bytomTransaction/txOut.go", "bytomTransaction/bech32.go"]}
{"id": "C108", "title": "Hashes of a Bytom transaction: one per input, with its signer", "statement": "For every transaction CreateEmptyRawTransaction created, CreateRawTransactionHashForSig returns one item per input, in order: the hash of the input's spend identifier and the transaction identifier, and for a control program of a single key the address it pays to; an input of a multi-signature script is marked as such.", "quantifier": "all created transactions", "why_tests_cant": "ranges over all transactions", "anchors": ["bytomTransaction/transaction.go: CreateRawTransactionHashForSig", "bytomTransaction/txStruct.go: DecodeRawTransaction, getInputID, getMuxID, getOutID, getTxID"]}
{"id": "C109", "title": "Signatures of single-key Bytom inputs are inserted and verified one to one", "statement": "For a created transaction whose inputs belong to single keys, InsertSignatureIntoEmptyTransaction with one signature and key per input returns the serialisation with these as witness arguments, and with any other number of signatures an error; VerifyRawTransaction accepts a transaction exactly if every input has a signature valid for its hash under the key its control program names.", "quantifier": "all transactions, all lists of signatures and keys, any verification function", "why_tests_cant": "ranges over all transactions and signatures", "anchors": ["bytomTransaction/transaction.go: InsertSignatureIntoEmptyTransaction, VerifyRawTransaction"]}
{"id": "C110", "title": "Bytom multi-signature addresses and scripts", "statement": "CreateMultiSig returns, for public keys of 32 bytes and a number of required signatures from one to the number of keys, the script over the keys in the given order and the address of the script's SHA3-256 hash on the selected network; it returns an error for everything else. PadMultiSig of such a script (at most sixteen required) recovers the keys in order and the required number.", "quantifier": "all lists of keys, all required numbers, both networks", "why_tests_cant": "ranges over all lists of keys", "anchors": ["bytomTransaction/txMultiSig.go: CreateMultiSig", "bytomTransaction/txHash.go: PadMultiSig"]}
{"id": "C111", "title": "Signatures of Bytom multi-signature inputs", "statement": "For a created transaction whose inputs belong to scripts requiring m of n keys, InsertSignatureIntoEmptyTransaction with at least m signatures per input returns the serialisation with the first m signatures and the script as witness arguments; VerifyRawTransaction accepts the result exactly if the signatures are valid under m different keys of the script.", "quantifier": "all transactions, scripts and signatures, any verification function", "why_tests_cant": "ranges over all transactions, scripts and signatures", "anchors": ["bytomTransaction/transaction.go: InsertSignatureIntoEmptyTransaction, VerifyRawTransaction", "bytomTransaction/txMultiSig.go"]}
{"id": "C112", "title": "Bytom transactions pay only to addresses of the selected network", "statement": "CreateEmptyRawTransaction returns a transaction only if every receiver is a well-formed version-0 address with valid checksum and the human-readable part of the selected network; otherwise it returns an error.", "quantifier": "all receivers, both networks", "why_tests_cant": "ranges over all texts", "anchors": ["bytomTransaction/transaction.go: CreateEmptyRawTransaction", "bytomTransaction/txOut.go: SetControlProgram", "bytomTransaction/bech32.go"]}
{"id": "C113", "title": "A transaction created with the older Bitcoin driver is the requested one", "statement": "btcLikeTxDriver.CreateEmptyRawTransaction succeeds exactly for non-empty lists of inputs with 32-byte transaction ids and non-empty lists of outputs with well-formed test-network addresses, and then returns the hexadecimal form of the standard serialisation of the version 2 transaction with exactly these inputs and outputs in order, with the sequence numbers the lock time and the replacement flag call for. It never panics.", "quantifier": "all inputs, outputs, lock times and both values of the flag", "why_tests_cant": "ranges over all requests", "anchors": ["btcLikeTxDriver/transaction.go: CreateEmptyRawTransaction", "btcLikeTxDriver/txStruct.go: newTransaction, encodeToBytes", "btcLikeTxDriver/txIn.go", "btcLikeTxDriver/txOut.go"]}
{"id": "C114", "title": "The older Bitcoin driver parses the standard serialisation exactly", "statement": "btcLikeTxDriver.DecodeRawTransaction reads the standard serialisation of every transaction, with or without witness data, into exactly its fields, loses no byte of what it accepts, and answers anything else with an error, never a panic.", "quantifier": "all transactions and all byte strings", "why_tests_cant": "ranges over all byte strings", "anchors": ["btcLikeTxDriver/txStruct.go: DecodeRawTransaction", "btcLikeTxDriver/witness.go: decodeFromSegwitBytes"]}
{"id": "C115", "title": "Hashes to sign of the older Bitcoin driver are those the chain checks", "statement": "For every unsigned transaction and unlock data describing the outputs it spends (key hash, nested and native witness key hash), CreateRawTransactionHashForSig returns for each input, in order, the double SHA-256 of the bytes the chain checks (original or BIP 143 preimage with SIGHASH_ALL); for locking scripts of other forms it returns an error.", "quantifier": "all transactions and unlock data", "why_tests_cant": "ranges over all transactions and outputs", "anchors": ["btcLikeTxDriver/transaction.go: CreateRawTransactionHashForSig", "btcLikeTxDriver/txStruct.go: getHashesForSig, calcSegwitHash, checkScriptType"]}
{"id": "C116", "title": "Signatures are inserted, read back and verified by the older Bitcoin driver", "statement": "For an unsigned transaction, unlock data and one signature with its key per input, InsertSignatureIntoEmptyTransaction and SignEmptyRawTransaction return the transaction spent with them as the chain requires (scripts and witness data, canonical signatures with low s), and VerifyRawTransaction accepts this exactly if each signature verifies for its hash under a key the output names. Wrong numbers of signatures give an error; the caller's data can be used for the next call.", "quantifier": "all transactions, unlock data, signatures and keys; any curve and signing function", "why_tests_cant": "ranges over all signatures and keys, including rare ones with leading zeros", "anchors": ["btcLikeTxDriver/transaction.go: InsertSignatureIntoEmptyTransaction, SignEmptyRawTransaction, SignRawTransactionHash, VerifyRawTransaction", "btcLikeTxDriver/witness.go", "btcLikeTxDriver/signaturepubkey.go"]}
{"id": "C117", "title": "Multi-signature outputs in the older Bitcoin driver", "statement": "btcLikeTxDriver.CreateMultiSig returns, for one to sixteen keys of 33 or 65 bytes and a required number between one and the number of keys, the standard script over the keys in the given order and the test-network address of its nested witness script hash, and an error otherwise. For a transaction spending such an output the hash to sign is that of BIP 143 with the script, inserting the required signatures returns the transaction spent with them, and the result verifies if the signatures are valid.", "quantifier": "all keys, required numbers, transactions and signatures", "why_tests_cant": "ranges over all scripts and numbers of signatures", "anchors": ["btcLikeTxDriver/multiSig.go: CreateMultiSig, isMultiSig, calcRedeemHash", "btcLikeTxDriver/txStruct.go: encodeToBytes", "btcLikeTxDriver/transaction.go: InsertSignatureIntoEmptyTransaction, VerifyRawTransaction"]}
{"id": "C118", "title": "The package's own base64 codec", "statement": "For an alphabet of 64 different characters without '=', CR and LF, addressEncoder.NewEncoding returns an encoding whose Base64Encode returns the padded base64 text of any bytes, whose Base64Decode returns the bytes of any such text, and whose Decode, given a buffer of DecodedLen bytes, writes the bytes of any base64 text, ignoring line breaks, and reports an error for every other text.", "quantifier": "all alphabets, byte strings, texts and buffers", "why_tests_cant": "ranges over all texts, with line breaks at any place and padding errors of every kind; three loops of different widths handle the same text depending on its length and the buffer's", "anchors": ["addressEncoder/base64.go: NewEncoding, Encode, Decode, decodeQuantum, decode32, decode64, Base64Encode, Base64Decode"]}
{"id": "C119", "title": "Binance Chain transfers", "statement": "binancechainTransaction.CreateEmptyTransactionAndHash succeeds exactly for two addresses with the prefix bnb. VerifyAndCombineRawTransaction on any text returns true exactly when the signature is valid under the key for the hash of that text, and then DecodeRawTransaction of the result gives the transfer asked for with the given memo, numbers, key and signature; otherwise it returns false. SignRawTransaction returns a signature of 64 bytes with the lower s, which is accepted.", "quantifier": "all addresses, amounts, numbers, memos, texts, keys and signatures; all message codecs that read back what they write", "why_tests_cant": "ranges over all texts and signatures", "anchors": ["binancechainTransaction/transaction.go: CreateEmptyTransactionAndHash, SignRawTransaction, VerifyAndCombineRawTransaction, DecodeRawTransaction", "binancechainTransaction/msg-send.go: CreateSendMsg", "binancechainTransaction/utils.go: serilizeS"]}
{"id": "C120", "title": "Bytom decoder accepts exactly the serialised transactions", "statement": "bytomTransaction.DecodeRawTransaction accepts a text exactly if it is the serialisation of some transaction, and every transaction has exactly one accepted text, so that two different accepted texts are different transactions; every other text gives an error.", "quantifier": "all byte strings and all transactions", "why_tests_cant": "ranges over all byte strings; malleability is a statement about pairs of texts", "anchors": ["bytomTransaction/txStruct.go: DecodeRawTransaction", "bytomTransaction/txIn.go: decodeCommitment", "bytomTransaction/txOut.go: decodeOutputScript"]}
{"id": "C121", "title": "A Polkadot transfer survives its text form", "statement": "polkadotTransaction.CreateEmptyTransactionAndMessage returns the JSON text of the transfer and its message; VerifyAndCombineTransaction reads from this text exactly this transfer, so it succeeds exactly if the signature is valid for that message; different transfers have different texts; numbers outside their range are refused; no text makes it crash; SignTransaction signs exactly the decoded message with a 32-byte key.", "quantifier": "all transfers, all texts, signatures, keys and transfer codes", "why_tests_cant": "ranges over all texts and all values of ten fields", "anchors": ["polkadotTransaction/txStruct.go: ToJSONString, NewTxStructFromJSON", "polkadotTransaction/transaction.go: CreateEmptyTransactionAndMessage, SignTransaction, VerifyAndCombineTransaction"]}
{"id": "C122", "title": "The JSON messages for VSYS and Filenet nodes state what was signed", "statement": "The text returned by virtualeconomyTransaction.CreateJSONRawForSendTransaction and by filenetTransaction.VerifyAndCombineTransaction is a JSON object with exactly the fields of the signed transaction (amounts, fee, addresses, time, payments in order, key and signature), for every transaction text that is accepted; for a created transaction these are the fields of the request.", "quantifier": "all transaction texts, keys and signatures; all requests", "why_tests_cant": "ranges over all texts and all values of the fields", "anchors": ["virtualeconomyTransaction/transaction.go: CreateJSONRawForSendTransaction", "filenetTransaction/transaction.go: VerifyAndCombineTransaction", "filenetTransaction/txStruct.go: decodeRawTransaction"]}
{"id": "C123", "title": "Signed Bitcoin transactions are in the standard form", "statement": "For every unsigned transaction and every record of signatures that is complete for the outputs spent, InsertSignatureIntoEmptyTransaction returns the serialisation of the signed transaction that BIP 11, 16, 141 and 144 prescribe: the unlocking script and witness stack of each input, witness data only if there are any.", "quantifier": "all unsigned transactions, all lists of inputs of mixed kinds, all keys and signatures", "why_tests_cant": "ranges over all transactions, mixtures of inputs, numbers of keys and signatures", "anchors": ["btcTransaction/transaction.go: InsertSignatureIntoEmptyTransaction", "btcTransaction/txHash.go: encodeToScript", "btcTransaction/txIn.go: toBytes, toSegwitBytes", "bitcoincashTransaction/transaction.go: InsertSignatureIntoEmptyTransaction", "bitcoinsvTransaction/transaction.go", "cxcTransaction/transaction.go", "hcTransaction/transaction.go"]}
{"id": "C124", "title": "Encoding an address leaves the caller's memory alone", "statement": "AddressEncode(bytes, profile) returns the address of the bytes it is given, and afterwards no memory the caller can reach has changed: neither the bytes passed nor the memory behind them nor a neighbouring slice of the same array.", "quantifier": "all profiles, all slices with all capacities, all contents of memory, all hash functions", "why_tests_cant": "ranges over all slices and everything that shares memory with them; tests pass fresh slices", "anchors": ["addressEncoder/addressEncoder.go: AddressEncode", "addressEncoder/eos.go: encodeEOS", "addressEncoder/aeternity.go: encodeAE"]}
{"id": "C125", "title": "Using the bytes a key returns does not change the key", "statement": "Whatever sequence of operations a program performs (making keys from seeds and texts, deriving, decoding shares, taking the bytes of keys and shares, appending to those bytes, encoding addresses of them), every key and every share keeps the value it was made with.", "quantifier": "all programs over these operations, all growth policies of append, all hash functions and curves", "why_tests_cant": "ranges over all histories of operations and all sharing of memory", "anchors": ["owkeychain/hdkey.go: InitRootKeyFromSeed, GetPrivateKeyBytes, GetPublicKeyBytes, genPrivateChildFromPrivate, OWDecode", "owkeychain/multisig.go: ChainDecode", "addressEncoder/eos.go: encodeEOS"]}
{"id": "C126", "title": "From a request to a verified transaction on the Bitcoin packages", "statement": "For the Bitcoin, Omni, Bitcoin Cash, Bitcoin SV, CXC and HyperCash packages: take what CreateEmptyRawTransaction returned for a request, sign the messages that CreateRawTransactionHashForSig returned for it, and pass the signatures to InsertSignatureIntoEmptyTransaction. The result is the standard serialisation of the one transaction that spends the requested outputs, pays the requested recipients (and carries the requested Omni message), unlocked with these signatures; the messages signed are the ones the protocol defines for that transaction; and VerifyRawTransaction accepts it.", "quantifier": "all requests, all mixtures of inputs, all keys and signatures, every signature scheme and hash function", "why_tests_cant": "ranges over all requests and signatures through four calls in sequence", "anchors": ["btcTransaction/transaction.go: CreateEmptyRawTransaction, CreateRawTransactionHashForSig, InsertSignatureIntoEmptyTransaction, VerifyRawTransaction", "omniTransaction/transaction.go", "bitcoincashTransaction/transaction.go", "bitcoinsvTransaction/transaction.go", "cxcTransaction/transaction.go", "hcTransaction/transaction.go"]}
{"id": "C127", "title": "Addresses made by concurrent calls are the right ones", "statement": "EncodeCheck(prefix, hash) of the Bitcoin-like packages may be called by any number of goroutines at the same time, with prefixes and hashes that share memory: every call returns, with the Base58Check text of the prefix and hash it was given, and no memory of the callers changes.", "quantifier": "all numbers of calls, all slices with all capacities and all sharing, all interleavings of their steps, all growth policies of append, all hash functions", "why_tests_cant": "ranges over all schedules; the default prefixes and a single goroutine never show it", "anchors": ["btcTransaction/base58.go: EncodeCheck", "btcTransaction/txMultiSig.go: CreateMultiSig", "btcTransaction/txHash.go: newTxHash", "bitcoincashTransaction/base58.go: EncodeCheck", "fiiiTransaction/base58.go: EncodeCheck"]}
{"id": "C128", "title": "The uncompressed public key is the point of the key", "statement": "For every extended key, GetUncompressedPublicKeyBytes returns the uncompressed coordinates of the point whose compressed form GetPublicKeyBytes returns, and a private key and its public counterpart (GetPublicKey) give the same bytes.", "quantifier": "all extended keys on all curves", "why_tests_cant": "ranges over all keys, curves and key texts; usual tests use secp256k1 keys from a seed", "anchors": ["owkeychain/hdkey.go: GetUncompressedPublicKeyBytes, GetPublicKeyBytes, GetPublicKey"]}
{"id": "C129", "title": "A transaction signed with the package's own function can be completed", "statement": "For BigBang, Wayki, Elastos, Filenet, Moac, Ripple and Ontology: the hash that the creation function returns, given with any private key to the package's signing function, yields (unless the curve library reports a failure) a signature that the package's combining function accepts for the created transaction together with the public key of that private key; the result is the created transaction completed with that signature.", "quantifier": "all requests for which a transaction is created, all private keys, all signatures the curve library may return", "why_tests_cant": "ranges over all requests, keys and signatures; which signatures occur depends on the hash, and the bad ones have probability 2^-16 or less", "anchors": ["bigbangTransaction/transaction.go: SignTransactionHash, VerifyAndCombineTransaction", "waykichainTransaction/transaction.go: SignRawTransaction", "elastosTransaction/transaction.go: SignRawTransaction", "filenetTransaction/transaction.go: SignTransaction", "moacchainTransaction/transaction.go: SignRawTransaction", "rippleTransaction/transaction.go: SignRawTransaction; txUtils.go: serilizeS", "ontologyTransaction/transaction.go: SignRawTransactionHash; txSigPub.go: calcSignaturePubkey, serilizeS"]}
{"id": "C130", "title": "Signatures made by concurrent signers are those of a single signer", "statement": "When several goroutines call the recoverable signing functions (ETH, NAS, TRON, ICX) or the EOS signing function at the same time, each call returns the signature it returns when it is the only one; in particular two different requests never share a nonce.", "quantifier": "all numbers of calls, keys, hashes and interleavings of the operations of the calls on the library's nonce variable", "why_tests_cant": "ranges over all schedules; the harmful ones need one call to be interrupted between two adjacent library calls", "anchors": ["signatureSet/ethSignature.go: eth_signatureInner, EthSignature", "signatureSet/nasSignature.go: NasSignature", "signatureSet/tronSignature.go: TronSignature", "signatureSet/icxSignature.go: IcxSignature", "eosSignature/signature.go: signRFC6979, SignCanonical"]}
{"id": "C131", "title": "Creating a Filenet transfer leaves the caller's list of payments as it was", "statement": "After CreateEmptyTransactionAndHash returns, with or without an error, the slice of payments that the caller passed, and the array behind it, hold what they held before.", "quantifier": "all senders, arrays and slices of them, times and sorting algorithms", "why_tests_cant": "ranges over all lists and slices; a test sees it only if it looks at its argument after the call", "anchors": ["filenetTransaction/txStruct.go: NewTxStruct", "filenetTransaction/transaction.go: CreateEmptyTransactionAndHash", "filenetTransaction/txTo.go: Swap"]}
{"id": "C132", "title": "A Filenet transfer does not depend on the order in which the payments are listed", "statement": "Two requests with the same sender, the same payments in any two orders and the same time give the same answer: the same transaction text and hash, or an error for both.", "quantifier": "all senders, times, lists of payments and permutations of them, and all sorting algorithms", "why_tests_cant": "ranges over all permutations of all lists; the standard library's sort is not stable", "anchors": ["filenetTransaction/txStruct.go: NewTxStruct", "filenetTransaction/txTo.go: Less"]}
{"id": "C133", "title": "A Bech32m address is a text of ASCII characters", "statement": "AddressDecode with a Bech32m profile (Chia) accepts a text only if all its characters are ASCII; a text with any other character, or with bytes that are no character, is refused.", "quantifier": "all texts (any bytes), all Bech32m profiles with an ASCII alphabet, all tables of letter case that agree with Go's about the two letters whose lower case is ASCII", "why_tests_cant": "ranges over all texts in UTF-8 and over malformed ones; the failing ones contain look-alike letters", "anchors": ["addressEncoder/bech32m/bech32m.go: Decode, Bech32mDecode", "addressEncoder/addressEncoder.go: AddressDecode"]}
{"id": "C134", "title": "AddressDecode accepts exactly the Bech32 addresses of its profile", "statement": "Under a bech32 profile, AddressDecode accepts a text only if it is a BIP 173 address: a prefix, the separator '1', the profile's version symbol, the symbols of a 20-byte or 32-byte payload with zero padding bits, and six checksum symbols, all in one case; and what it accepts is what AddressEncode writes for the result, up to the case.", "quantifier": "every bech32 profile and every text", "why_tests_cant": "The set of texts is unbounded and the accepted ones are not listed anywhere; only a characterisation of the decoder shows that texts without separator, with a foreign version or with non-zero padding are let through.", "anchors": ["addressEncoder/bech32/bech32.go:Decode", "addressEncoder/bech32/bech32.go:unecxtendPayload", "addressEncoder/addressEncoder.go:AddressDecode"]}
{"id": "C135", "title": "AddressDecode accepts exactly the cashaddr addresses of Bitcoin Cash", "statement": "Under the cashaddr profile, AddressDecode accepts a text only if it is a cashaddr address: the prefix \"bitcoincash\", ':' and 42 symbols with a correct checksum and zero padding bits, in one case; and what it accepts is what AddressEncode writes for the result, up to the case.", "quantifier": "every text", "why_tests_cant": "The set of texts is unbounded; only a characterisation of the decoder shows for which texts the checksum is not looked at.", "anchors": ["addressEncoder/base32PolyMod/base32PolyMod.go:Decode", "addressEncoder/base32PolyMod/base32PolyMod.go:unecxtendPayload", "addressEncoder/addressEncoder.go:AddressDecode"]}
{"id": "C136", "title": "The record of an input tells through its methods how to sign it", "statement": "CreateRawTransactionHashForSig returns one record per input, in order, and for each of them either IsMultisig is false, GetNormalTxAddress gives an address, GetMultiTxPubkeys is empty and the output spent is unlocked by one key; or IsMultisig is true, GetMultiTxPubkeys gives the keys listed in the redeem script in their order, at least as many as have to sign, at most 16 of which have to, and the output spent is a script hash whose redeem script starts with that number, those keys and their count and ends with the multisig opcode. In the second case GetNormalTxAddress panics, so IsMultisig must be asked first.", "quantifier": "all transaction texts, all unlocking data, all networks, with and without witnesses; Bitcoin, HC, Omni, and without the clause on the output spent Bitcoin Cash, Bitcoin SV, CXC, Horizen", "why_tests_cant": "It ranges over all scripts a caller may pass; a test cannot exclude a record that has neither an address nor keys.", "anchors": ["btcTransaction/txHash.go:IsMultisig", "btcTransaction/txHash.go:GetNormalTxAddress", "btcTransaction/txHash.go:GetMultiTxPubkeys", "btcTransaction/txHash.go:newTxHash", "btcTransaction/txMultiSig.go:getMultiDetails"]}
{"id": "C137", "title": "AddressDecode accepts exactly the Chia addresses", "statement": "Under the Bech32m profile, AddressDecode accepts a text only if it is the text AddressEncode writes for the payload returned, of at most 90 characters, in small letters or in capitals throughout; every other text is an error.", "quantifier": "every text of ASCII characters (for other texts see C133)", "why_tests_cant": "The set of texts is unbounded and the accepted ones are not listed anywhere; that there are no further spellings of a payload is a statement about all texts.", "anchors": ["addressEncoder/bech32m/bech32m.go:Decode", "addressEncoder/bech32m/bech32m.go:Bech32mDecode", "addressEncoder/bech32m/bech32m.go:Convertbits", "addressEncoder/addressEncoder.go:AddressDecode"]}
{"id": "C138", "title": "Ethereum addresses are accepted only in the capitalisation of EIP-55", "statement": "Under an Ethereum (eip55) profile AddressDecode accepts a text with letters of both cases only if the capitals are those that EIP-55 prescribes, so that a mistyped letter is noticed; the bytes returned determine the text up to the optional 0x and the case of its letters.", "quantifier": "every text, every 20-byte address, every letter position", "why_tests_cant": "Which texts are accepted, and that no others are, is a statement about all texts.", "anchors": ["addressEncoder/eip55/eip55.go:Eip55_decode", "addressEncoder/addressEncoder.go:AddressDecode"]}
{"id": "C139", "title": "The Bitcoin decoder accepts only serialised transactions and loses nothing", "statement": "If DecodeRawTransaction of one of the Bitcoin packages accepts a byte string, the byte string is the standard serialisation of the transaction returned, no other byte string is read as that transaction, and serialising it again gives the bytes back.", "quantifier": "every byte string, every transaction version, with and without segwit", "why_tests_cant": "It is a statement about all byte strings the decoder accepts, not about those an encoder produces.", "anchors": ["btcTransaction/txStruct.go:DecodeRawTransaction", "btcTransaction/txStruct.go:encodeToBytes", "btcTransaction/txIn.go:toBytes", "bitcoincashTransaction/txStruct.go:DecodeRawTransaction", "zencashTransaction/txStruct.go:DecodeRawTransaction"]}
{"id": "C140", "title": "Creating a transaction never crashes", "statement": "The functions that create an unsigned transaction from inputs and receivers return a transaction or an error for every request; no address text makes them panic.", "quantifier": "every request (inputs, outputs, receivers, amounts, options) and every network, for btcTransaction, bitcoincash/bitcoinsv, cxc, hc, zencash, verge, vollar, aliencoin, hypercash, fiii, ontology, vsys, moac, bigbang, wayki, ripple, elastos, omni (and Omni messages on bitcoincash/bitcoinsv), assets of cxc, filenet", "why_tests_cant": "The texts that crash are defined by their checksum and length; the claim is about all address texts a user can type.", "anchors": ["btcTransaction/transaction.go:CreateEmptyRawTransaction", "btcTransaction/base58.go:DecodeCheck", "btcTransaction/bech32.go:Bech32Decode", "vergeTransaction/base58.go:DecodeCheck", "hypercashTransaction/txOut.go:NewTxOut", "ontologyTransaction/txStruct.go:NewEmptyTransaction", "virtualeconomyTransaction/base58.go:DecodeCheck", "moacchainTransaction/txUtils.go:getAddressHashBytes", "bigbangTransaction/address.go:addressDecode", "fiiiTransaction/base58.go:DecodeCheck"]}
{"id": "C141", "title": "Hashing, inserting signatures and verifying never crash", "statement": "CreateRawTransactionHashForSig, InsertSignatureIntoEmptyTransaction and VerifyRawTransaction return a result or an error for every text, unlocking data and signed records; none of these inputs makes them panic.", "quantifier": "every text, every list of unlocking data, every list of records, segwit on or off, every network, hash function and curve, for btcTransaction, cxcTransaction, hcTransaction, bitcoincashTransaction, bitcoinsvTransaction, zencashTransaction", "why_tests_cant": "The inputs are arbitrary texts and records from other parties; the panicking ones are rare (a truncation at one place, a zero half of a signature, swapped unlocking data).", "anchors": ["btcTransaction/transaction.go:CreateRawTransactionHashForSig", "btcTransaction/transaction.go:InsertSignatureIntoEmptyTransaction", "btcTransaction/transaction.go:VerifyRawTransaction", "btcTransaction/SignaturePubkey.go:encodeSignatureToScript", "btcTransaction/txMultiSig.go:decodeMultiBytes", "btcTransaction/txHash.go:encodeToScript"]}
{"id": "C142", "title": "Completing a transaction never crashes", "statement": "The call that checks signatures and combines them with an unsigned transaction returns a result or an error for every text, every signature and every key; none of these inputs makes it panic.", "quantifier": "every text, every list of signatures and public keys (of any length and content), every hash function and curve, for WaykiChain, Ripple, MOAC, Ontology, Elastos, Filenet, VSYS, FiiiCoin, Verge, Aliencoin, Vollar, HyperCash Metaverse, Binance Chain and Polkadot", "why_tests_cant": "Texts, keys and signatures come from other parties; the ones that panic are rare (a key that is not on the curve, a signature with a zero number, a text of one byte), and which one is reached depends on the position of the first wrong signature.", "anchors": ["waykichainTransaction/transaction.go:VerifyAndCombineRawTransaction", "moacchainTransaction/transaction.go:VerifyAndCombineRawTransaction", "ontologyTransaction/transaction.go:VerifyAndCombineRawTransaction", "elastosTransaction/transaction.go:VerifyAndCombineRawTransaction", "filenetTransaction/transaction.go:VerifyAndCombineTransaction", "fiiiTransaction/transaction.go:VerifyAndCombineTransaction", "vergeTransaction/transaction.go:VerifyAndCombineTransaction", "aliencoinTransaction/transaction.go:VerifyAndCombineTransaction", "vollarTransaction/transaction.go:VerifyAndCombineRawTransaction", "hypercashTransaction/transaction.go:VerifyAndCombineTransaction", "mateverseTransaction/transaction.go:VerifyAndCombineTransaction", "binancechainTransaction/transaction.go:VerifyAndCombineRawTransaction", "polkadotTransaction/transaction.go:VerifyAndCombineTransaction", "rippleTransaction/transaction.go:VerifyAndCombinRawTransaction"]}
{"id": "C143", "title": "The Bytom functions never crash", "statement": "Creating a Bytom transaction, reading one, computing its hashes, signing, inserting signatures, verifying, making and reading multi-signature scripts return a result or an error for every argument; none makes them panic.", "quantifier": "every request (inputs, receivers, time range, network), every text, every list of signed records, every script, list of keys and required number, every hash function and signature scheme", "why_tests_cant": "The arguments that crash are rare (a text ending inside a variable-length integer, an amount of 2^56 or more, a control program of one byte, a receiver of one character) and lie behind parts that are in order; showing that there are no others means following every read of the decoder over all texts.", "anchors": ["bytomTransaction/txStruct.go:DecodeRawTransaction", "bytomTransaction/transaction.go:CreateEmptyRawTransaction", "bytomTransaction/transaction.go:CreateRawTransactionHashForSig", "bytomTransaction/transaction.go:SignRawTransactionHash", "bytomTransaction/transaction.go:InsertSignatureIntoEmptyTransaction", "bytomTransaction/transaction.go:VerifyRawTransaction", "bytomTransaction/txMultiSig.go:CreateMultiSig", "bytomTransaction/txHash.go:PadMultiSig", "bytomTransaction/txUtil.go:uint64ToUvarint"]}
{"id": "C144", "title": "The functions of the older Bitcoin driver never crash", "statement": "In btcLikeTxDriver, creating a transaction, computing its hashes, signing (in one step or two), inserting signatures, verifying and making a multi-signature address return a result or an error for every argument; none makes them panic.", "quantifier": "every request (inputs, outputs, lock time, replaceability), every text, every list of unlock data and of signatures, every list of keys and required number, every hash function and curve", "why_tests_cant": "The arguments that crash lie behind parts that are in order (a witness of two items that is no signature and key, a locking script cut off inside its last bytes, a redeem script of one zero byte, a signature half that is zero); showing that there are no others means following every read over all byte sequences.", "anchors": ["btcLikeTxDriver/transaction.go:CreateEmptyRawTransaction", "btcLikeTxDriver/transaction.go:CreateRawTransactionHashForSig", "btcLikeTxDriver/transaction.go:SignEmptyRawTransaction", "btcLikeTxDriver/transaction.go:SignRawTransactionHash", "btcLikeTxDriver/transaction.go:InsertSignatureIntoEmptyTransaction", "btcLikeTxDriver/transaction.go:VerifyRawTransaction", "btcLikeTxDriver/txStruct.go:DecodeRawTransaction", "btcLikeTxDriver/multiSig.go:CreateMultiSig"]}
{"id": "C145", "title": "The texts of every address profile start as that network documents", "statement": "Every text AddressEncode produces under a built-in profile starts with the characters the network documents for that kind of address or key (1 and 3 for Bitcoin, xpub for an extended key, tz1 for Tezos, bc1 for segwit, ...), and under the Base58 profiles with a non-zero version it has one fixed length.", "quantifier": "every built-in profile, every payload of the profile's length (or any bytes that are hashed to it), every hash function", "why_tests_cant": "The first characters of a Base58 text depend on the whole number, so a handful of payloads does not show that all 2^160 or 2^592 of them start alike; three profiles start as documented for some payloads and not for others.", "anchors": ["addressEncoder/encoderProfile.go", "addressEncoder/addressEncoder.go:AddressEncode", "addressEncoder/base58.go:Base58Encode"]}
{"id": "C146", "title": "A Base58 text of one kind or network is not accepted as one of another", "statement": "A text that AddressDecode accepts under one built-in Base58 profile is rejected under every other built-in Base58 profile, so an address, key or script of one kind or network cannot be taken for that of another.", "quantifier": "every pair of built-in Base58 profiles with the same alphabet, every text, every hash function", "why_tests_cant": "Rejection must hold for every text and every checksum function; a test tries a few texts. It rests on total lengths and version bytes over all pairs of profiles.", "anchors": ["addressEncoder/encoderProfile.go", "addressEncoder/addressEncoder.go:AddressDecode", "addressEncoder/base58.go:Base58Decode"]}
{"id": "C147", "title": "An extended key is read from one text only", "statement": "A text that OWDecode accepts is the text OWEncode writes for the key it returns. So two different texts never stand for the same extended key, and a wallet may compare keys by their texts.", "quantifier": "every text, every extended key (private or public, any curve identifier, any field contents), every hash function", "why_tests_cant": "Uniqueness ranges over all texts: a test that writes and reads back a few keys never meets the second text of a key.", "anchors": ["owkeychain/owencode.go:OWEncode", "owkeychain/owencode.go:OWDecode", "owkeychain/hdprofile.go"]}
{"id": "C148", "title": "AddressCheck accepts every address the library makes for that coin", "statement": "For every coin AddressCheck knows, a text that AddressEncode makes under one of that coin's built-in address profiles is accepted by AddressCheck with that coin's symbol. So a wallet never refuses a payment to an address made by the same library.", "quantifier": "every coin symbol with rules, every built-in address profile of that coin, every public key or hash, every hash function", "why_tests_cant": "AddressCheck chooses the profile by the first characters, and which first characters occur depends on the whole number the Base58 text spells. Tests with a few keys miss the keys whose address starts otherwise (Nebulas contracts).", "anchors": ["addressEncoder/addressCheck.go:AddressCheck", "addressEncoder/addressEncoder.go:AddressEncode", "addressEncoder/encoderProfile.go"]}
