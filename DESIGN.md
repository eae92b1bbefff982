# Formal model of blocktree/go-owcdrivers in Lean 4

`/repo` is read as text; nothing in it is built or run. The model is in `lean/Verif`.

## Conventions

* `Bytes := List UInt8`. A Go `[]byte`/`string` is a list of bytes. Go `nil` and empty slices are
  identified, except where the code distinguishes them (then an `Option` is used and the comment says so).
* `Res a = ok a | err | panic`. A Go `(T, error)` result is `ok`/`err`; a run-time panic (index or slice out of
  range, nil dereference, explicit panic) is the outcome `panic`. Error *texts* are not modelled.
* Fixed-width Go integers are `UInt8/16/32/64`, or `Nat` reduced explicitly (`% 2^k`), never unbounded by accident.
* Loops are structural recursion (or recursion on an explicit decreasing measure). No `partial`, `unsafe`, `implemented_by`.
* Cryptographic primitives of the external module `go-owcrypt` (hashes, HMAC, EC point arithmetic, ECDSA
  sign/verify) are not in `/repo`. They are parameters of the model: arbitrary functions, constrained only by hypotheses that each
  theorem states explicitly (for instance a length, or a group law).
* Every definition carries a comment `[file:lines]` and, where it simplifies, a line `Simplification:`.
* Layout: `Verif/Model/*` model; `Verif/Spec/*` independent specifications; `Verif/Lemmas/*` helper lemmas;
  `Verif/Props/*` property theorems with a non-vacuity `example` beside each.

When a property as a user would want it is false of the code, the file contains (a) a theorem with a concrete
witness refuting it (`Cxx_..._violated`) and (b) the strongest restricted version we proved (`Cxx_..._partial`).
The manifest status is then `partial`.

## Trusted base

* Lean 4.33.0 kernel; axioms `propext`, `Classical.choice`, `Quot.sound` only.
* The transcription Go -> Lean (by hand, cited line by line).
* The specifications in `Verif/Spec`.
* Go semantics assumed: slices in bounds or panic; integer conversions truncate; `append` is list append where the
  slice is not shared (aliasing is modelled explicitly where a property is about it).

## Per property plan

| id | what is modelled | proof |
|----|------------------|-------|
| C01 | Base58Encode/Decode with explicit scratch buffers | refinement to positional numeral semantics; capacity inequality by powers |
| C02 | same | same refinement, uniqueness of digits |
| C03 | AddressEncode/AddressDecode base58 branch, profile table | from C01 plus list lemmas; table quantified |
| C04 | same | from C02 |
| C05 | same with explicit panic | negation (witness) + exact partial condition |
| C06 | AddressCheck decision logic | case analysis; negations by witness |
| C07 | bech32.go | convertbits round trip, charset bijection |
| C08 | polyMod of the three variants | linearity over xor by induction |
| C09 | same | linearity + injectivity of one step, any length |
| C10 | Decode of the three variants | negation by witness + partial |
| C11 | bech32m.go | bit regrouping invariants |
| C12 | base32PolyMod.go | as C07 |
| C13 | eip55.go, ICX branch | hex round trip |
| C14 | owencode.go | from C01 + field slicing |
| C15 | extendedkey.go over an abstract group | algebra in the group; encoding width |
| C16 | extendedkey.go guards | case analysis; negation at depth 255 |
| C17 | ed25519 derivation arithmetic | invariant by induction on the path |
| C18 | padding loop | negation + exact characterisation |
| C19 | path parsing | negation + partial |
| C20 | txStruct/txIn/txOut encode and decode | parser/printer induction over lists; exact reading of every mixture of input kinds (BtcKinds) |
| C21 | newTxInForEmptyTrans | induction over list |
| C22 | count bytes | negation + partial |
| C23 | DecodeRawTransaction with panic outcome | negation, and an exact description of the panicking inputs (Spec/Cut.lean) |
| C24 | DER functions | list normalisation lemmas; exact round trip from the exact reader (Props/DerRead, Props/BtcLikeDer) |
| C25 | same | negation; exact language of both readers, with the overwriting of the script's memory (Spec/DerRead, Props/DerRead, Props/BtcLikeDer) |
| C26 | serilizeS | characterisation of padding loop, negation + partial |
| C27 | CreateMultiSig/getMultiDetails | induction over keys |
| C28 | verification loop | negation + partial (soundness: each signature verifies under some key) |
| C29 | getBytesForSig / calcSegwitBytesForSig | refinement to spec preimages |
| C30 | newTxOutForEmptyTrans | case analysis; negation for nil prefix |
| C31 | TxIn with mutable TxID; inputs as slices of the caller's raw bytes (Model/BtcMemory.lean) | negation; every history of reads by induction: what each returns and what the raw bytes then decode to |
| C32 | codec.go | numeral lemmas; negation at top range |
| C33 | txEra.go | arithmetic |
| C34 | txStruct/transaction | list equality; negation for junk key |
| C35 | txPayload.go | lengths; negation |
| C36 | ripple txStruct | spec parser; partial on ranges |
| C37 | ripple combine | list equality |
| C38 | vsys | parser/printer; negation for attachment |
| C39 | ontology | parser/printer; negations |
| C40 | ontology neo ints | two's complement arithmetic; negation for negatives |
| C41 | wayki varint | numeral system induction; negation for negatives |
| C42 | wayki | list equality |
| C43 | wayki regid | witness + partial |
| C44 | moac RLP | canonical RLP spec; negation for small ints |
| C45 | moac combine | negation + partial |
| C46 | eos | loop invariant over abstract curve |
| C47 | eth overflow | lexicographic limb comparison = numeric comparison |
| C48 | eth nonce / low s | witness + partial |
| C49 | signer registry | induction over histories |
| C50 | crc24 | table proven for all 256 entries; induction on bytes |
| C51 | elastos | induction over lists |
| C52 | filenet | sum mod 2^64; negation + partial |
| C53 | hypercash | list equality |
| C54 | vollar/verge | parser/printer; requests outside the limits from bounds on what the decoder returns (Props/VergeLimits) |
| C55 | combine with empty signature lists | negation |
| C56 | bech32/cashaddr/bech32m decoders on upper-case text | negation (bech32, cashaddr) + proof (bech32m) |
| C57 | EOS, aeternity, Monero branches of AddressDecode | negation + proof |
| C58 | OWDecode with panic outcome | leading letters force the payload length (numeral bounds) |
| C59 | GetCoinRootPublicKey, DerivedPrivateKeyBytes | from C15, C17, C18 |
| C60 | multisig.go ChianEncode/ChainDecode | from C01 + field slicing; negations |
| C61 | VerifyRawTransaction | negations by concrete forged spends and, for every hash and curve, from the exact condition (any key, any redeem script: Props/BtcExact, Props/OtherRedeem); each signature verifies under the given key |
| C62 | InsertSignatureIntoEmptyTransaction | exact: empty text if and only if some output to spend is of an unknown kind (`Spec/BtcKinds.lean`); negation, general in transaction and unknown script |
| C63 | the whole pipeline of transaction.go | composition of C20, C24, C29 and C123 lemmas by induction over the inputs |
| C64 | PolyMod.run with the code constants; independent GF(32) division in Spec/Bch.lean | step correspondence (packed list vs. shift register) plus a kernel check of the 32 feedback words; induction over the message |
| C65 | OwKeychain model; Spec/Bip32.lean with decimal orders from the standards | case analysis on the derivation, numeric value of padded keys |
| C66 | Omni model: outputs loop | Base58 recipients: equivalence by induction over the outputs; false otherwise: every transaction with a recipient containing a character outside Base58 is rejected |
| C67 | Ripple model | holds of the key passed; false of the key named: any key and any signature valid under it is accepted |
| C69 | Model/Ontology.lean; VM specification Spec/Ontology.lean (instruction reader, stack machine with heap) | The script parses to a fixed list of instructions with four variable operands; execution is by computation; amounts by C40. |
| C70 | Model/Wayki.lean; Spec/Wayki.lean is a parser of the chain's format (varint, CompactSize vectors) | Parser applied to the output, field by field; lengths of 253 and more are shown not to be read back |
| C71 | SigSet.generateRandom with an unbounded search for the first block in range | refinement to an independent RFC 6979 specification |
| C72 | SigSet.signTxHash | case analysis, reusing C26 for the normalisation |
| C73 | Model/BigBang: newTx, createEmpty, verifyAndCombine; clock, BLAKE2b and Ed25519 are parameters | exact characterisation of success; prefix-freeness of the wire form |
| C74 | Model/Elastos: request to bytes, with counts, addresses and checksums | exact characterisation against Spec/Elastos; prefix-freeness of the count format; counterexample family for ids of wrong length |
| C75 | Model/HyperCash: request to structure to bytes and hashes | exact characterisation against Spec/HyperCash; counterexample family for long scripts |
| C76 | Model/HyperCash: getVinList on the texts createEmpty returns | induction over the inputs; families of counterexamples from 253 inputs on |
| C77 | Model/HyperCash: signTransaction with the in-place write of serilizeS | length arithmetic of the padding loop |
| C78 | Model/Mateverse: the parser on byte strings | induction over the inputs, both directions, against Spec/Mateverse |
| C79 | Model/Mateverse: strings.ReplaceAll and Split on byte strings, the hashing loop with its updates of the inputs | rewriting lemmas for ReplaceAll on hex; induction over the inputs; length argument for long scripts |
| C80 | Model/Mateverse: verification loop and serialisation | exact characterisation by induction over the inputs |
| C81 | Model/Verge.lean | field-by-field against Spec/Verge.lean, lists by induction |
| C82 | Model/Vollar.lean | field-by-field against Spec/Verge.lean, lists by induction |
| C83 | Model/Verge.lean, Model/Vollar.lean | decoding lemma for the created text, then induction over inputs and signatures together |
| C84 | Model/Verge.lean, Model/Vollar.lean | arithmetic on the curve order, as in C26 |
| C85 | Model/Blake.lean: all of blake256.go, and the 14 x 16 unrolled half-steps of block as a table generated from the source text | Lemmas/Blake.lean (the unrolled, interleaved steps are a reordering of the specified rounds), BlakeStream.lean (buffering), BlakePad.lean (padding, counters, chaining); specification in Spec/Blake.lean with bit-level padding; uniqueness of the specified hash |
| C86 | Model/Blake.lean: write with its buffer and block phases, reset, sum on a copy | invariant: the digest represents (chain value, pending bytes) of the message so far; induction over the history |
| C87 | Model/BtcVariants.lean: Variant bch, bsv; createHashes | decoding the text gives back the transaction (Lemmas/BtcVariants.lean); the assembled bytes are forkIdPreimage |
| C88 | Model/BtcVariants.lean: Variant cxc, zen; createHashes | as C87, with the legacy message of Spec/Btc.lean |
| C89 | Model/BtcVariants.lean: createBch, createHc, createCxc | equivalence with a relational specification (IsRequest, PaysBase58) |
| C90 | Model/BtcVariants.lean: createZen, outsZen, blockTail | equivalence; minimal little-endian form of the height and the reading of script numbers |
| C91 | Model/BtcVariants.lean: createAsset, outAsset, assetTail, checkCxc | destructing the construction; reading the push back |
| C92 | Model/BtcVariants.lean: insertSignatures, verifyRaw | induction over the inputs, of all kinds for BCH, BSV, CXC, HC (by agreement with the Bitcoin lemmas of C63 and C123), P2PKH for Horizen; inversion of the verifier; negations for every hash and curve (Props/ForkLastKey, Props/OtherRedeem) |
| C93 | Model/BtcVariants.lean: createBchOmni; Model/Omni.lean: getPayload | equivalence with the relational specification for all twelve message types (Spec/OmniMessage.lean), using C35 for the payload; counterexamples for long texts, unreadable addresses and the third prefix |
| C94 | Model/Cosmos.lean, Model/Json.lean (encoding/json) | the JSON value satisfies the relational specification Spec/Cosmos.lean; the text is derivable in the JSON grammar Spec/Json.lean (escaping proved character by character) |
| C95 | Model/Cosmos.lean, Model/Json.lean | unambiguity of the JSON grammar (a parser that inverts Marshal, by mutual induction) |
| C96 | Model/Cosmos.lean, Model/Base64.lean | grammar derivation of the text, base64 relation by structural induction |
| C97 | Model/Cosmos.lean, Model/Btc.lean: serilizeS | case analysis on s, arithmetic of the padding loop (C26) |
| C98 | Model/Bech32.lean | base-32 numerals, checksum linearity |
| C99 | Model/Fiii.lean, Model/Json.lean, Model/Base58.lean | characterisation of each loop by induction, Base58 round trip, derivation in the JSON grammar |
| C100 | Model/Fiii.lean (including json.Unmarshal into the structs, case-insensitive names as an arbitrary relation) | Unmarshal inverts Marshal (field by field), induction over inputs and signatures |
| C101 | Model/Fiii.lean | injectivity of the message for the outpoint; counterexamples for everything else |
| C102 | Model/Btc.lean, Model/BtcVariants.lean | k-th hash characterised by induction over the inputs (the scripts stored on the way do not influence later hashes), then the address theorems C11, C12, C30 and the multisig round trip C27 |
| C103 | Model/Verge.lean, Model/Alien.lean, Model/Vollar.lean | inverse of the decoder (every accepted text is determined by the fields read), loops by induction |
| C104 | Model/Alien.lean | characterisation of each loop, comparison with the specification of the chain's format |
| C105 | Model/Alien.lean | induction over the signatures; counterexamples: the loop dropping zero bytes reads byte 2i of the number in step i |
| C106 | Model/Crc32.lean | the round is linear over GF(2) and injective; the table step is eight rounds on the xored state; simulation of the bit-serial register of Spec/Crc32.lean |
| C107 | Model/Bytom.lean | wire format and BIP 173 addresses in Spec/Bytom.lean; varint and address lemmas (bits regrouped, checksum as remainder), induction over the lists; C107_limit_panics: numbers of 2^56 and more panic |
| C108 | Model/Bytom.lean | entry identifiers in Spec/Bytom.lean; decoding inverts the serialisation (induction); false for source positions of 128 and more: the transaction is created but its text refused |
| C109 | Model/Bytom.lean | insertion and decoding as simulation of Tx.wire; false for fewer signatures (partly signed transaction returned), more (panic), unsigned transactions (verification panics) and keys that are not the owner's (accepted) |
| C110 | Model/Bytom.lean | induction over the keys; addresses as in C107 |
| C111 | Model/Bytom.lean | as C109, for scripts of two of two or three keys; false for every other number of required signatures and for more keys (the witness always says two length bytes 01 and argument count 3) and for one signature given twice (counted twice) |
| C112 | Model/Bytom.lean | soundness of the decoder (checksum as remainder, bits regrouped); false for human-readable parts that only begin like the network's, and texts of fewer than two characters panic |
| C113 | Model/BtcLike.lean | characterised against the wire format of Spec/Btc.lean (induction over the lists); false for bech32 addresses (refused), 253 and more inputs or outputs (single count byte) and short addresses (panic) |
| C114 | Model/BtcLike.lean | induction over inputs and outputs, both directions; false for witness stacks that do not hold a signature and a key (panic) and scripts of 254 bytes and more |
| C115 | Model/BtcLike.lean | preimages in Spec/Btc.lean; loop lemma per input; false for locking scripts of 22 bytes that begin like pay to public key hash (panic) |
| C116 | Model/BtcLike.lean | spent transaction in Spec/BtcLike.lean; simulation of the loops, encoding and decoding of the signed form inverted, then C115 for the hashes; negations proved for all transactions with one input |
| C117 | Model/BtcLike.lean | address as an equivalence; insertion computed for every number of signatures and compared with the spent transaction of Spec/BtcLike.lean |
| C118 | Model/AddrBase64.lean | Decode: every way a quantum can end is related to the text without its line breaks, then induction over the three loops gives exactly the relation of Spec/AddrBase64.lean, no panic included. Encode, Base64Encode and Base64Decode: shown to panic for every alphabet. |
| C119 | Model/Binance.lean, with the SDK's address reader, message constructor and codecs as parameters | direct computation under the assumption that the SDK reads back what it writes (a concrete codec meeting it is given); low s from C26 |
| C120 | Model/Bytom.lean (decoders); the wire format as relations in Spec/BytomWire.lean | iff characterisation of every reader, composed by induction on the numbers of inputs and outputs |
| C121 | Model/PolkadotText.lean over Model/Json.lean (Go's encoding/json) and Model/Polkadot.lean | the writer's text satisfies the JSON relation of Spec/Json.lean; the reader inverts that relation; the rest is C34 |
| C122 | Model/SendText.lean over Model/Json.lean, Model/Vsys.lean, Model/Filenet.lean | from the decoding theorems C38 and C52 and the proof that the JSON writer meets the JSON relation |
| C123 | Model/Btc.lean, Model/BtcVariants.lean; the standard forms in Spec/BtcSpend.lean | induction over the inputs; counting lengths shows that the count byte of a multi-signature witness is right only for two signatures |
| C124 | Model/Memory.lean (arrays, slices, append), Model/AddressMemory.lean | case split over the encoders; the memory after each; round trip (C03) shows that the address of the neighbour changes |
| C125 | Model/Memory.lean, Model/KeyMemory.lean; the value semantics in Spec/KeyMemory.lean | refinement: an invariant relates memory and values (every field is a valid slice, nothing a program holds has room that reaches a field), preserved by each operation |
| C126 | Model/Btc.lean, Model/Omni.lean, Model/BtcVariants.lean: all four calls | composition of C22, C66, C89 (creation), C29 (messages), C123 (signed form), C63 and C92 (verification): a requested transaction meets their hypotheses |
| C127 | Model/CheckMemory.lean: the call as a sequence of steps that read or write one byte of shared memory; schedules are lists of call numbers | invariant over all schedules (each call has an array of its own that begins with the bytes written so far); rank function for termination; explicit schedule for the violation |
| C128 | Model/OwKeychain.lean: uncompressedPublicKeyBytes over the external point functions | group law of the curve (parameter) for secp256k1, secp256r1 and SM2; agreement of private and public key for all other curves; negations for the two Montgomery curves and for keys that are not points |
| C129 | Model/Signers.lean: the seven signing functions over the external signature function; Spec/Signing.lean: what is assumed of it | composition of the theorems on creating and combining of each package with the inversion of the signing function; normalisation of s for the orders of secp256k1 and secp256r1 |
| C130 | Model/SignConc.lean: a call as its sequence of operations on the one nonce variable of the curve library (the API of `Signature` with `NOUNCE_OUTSIDE_FLAG` has no nonce argument, so the nonce given to `PreprocessRandomNum` must live in the process), a process as calls interleaved by a schedule; assumption: the variable is shared by all goroutines and each library call is atomic | invariant over schedules: every call either settles to its sequential result or waits on a cell that holds its own nonce; violation by the schedule [0,1,0,1] for arbitrary requests, with the linear equation between the keys that follows from ECDSA |
| C131 | Model/FilenetMemory.lean: the call on a slice of an array of the caller, returning the result and the array | case analysis of the points where the call returns; uniqueness of the sorted permutation |
| C132 | Model/Filenet.lean: newTx over an arbitrary sorting function | uniqueness of the sorted permutation of a list with distinct keys |
| C133 | Model/Bech32mText.lean: the decoder on texts of any bytes, over the tables of letter case | induction over the characters of the text; the accepted texts are characterised exactly |
| C134 | Bech32.parse, Bech32.decode, addressDecode; independent specification of the language in Spec/Bech32Lang.lean and of the checksum in Spec/Bch.lean | exact characterisation of the scanner by induction on the text; value of the packed symbols; uniqueness of the checksum symbols from linearity of the remainder |
| C135 | Bech32.parse (shared scanner), CashAddr.decode, CashAddr.unextendPayload, addressDecode; specification as for C134 | exact characterisation of the scanner; value of 34 and 35 packed symbols; uniqueness of the checksum symbols |
| C136 | BtcRecord.lean (the methods), Btc.createHashes, BtcVariants.createHashes, getMultiDetails | inversion of checkScriptType, newTxHash and getMultiDetails; induction over the inputs |
| C137 | Bech32m.decode, Bech32m.bech32mDecode, Bech32m.convertbits, addressDecode; specification as for C134 with the remainder of BIP 350 | exact characterisation of the decoder; regrouping with padding undoes regrouping without; uniqueness of the checksum symbols |
| C138 | eip55Decode, icxDecode, addressDecode; independent specification of hexadecimal texts and of the EIP-55 capitalisation in Spec/Eip55.lean | exact characterisation of the hex decoder by induction on the text; changing the case of one letter preserves it |
| C139 | decodeTxV (decodeTx is its instance for version 2), decodeBody, decodeIn, decodeUnlock, decodeWitness, encodeTx; RawTx.ser of Spec/Btc.lean | inversion of every parsing step by induction over counts: the bytes read are a function of the structure returned |
| C140 | the create functions of the packages as modelled for C30, C54, C81, C88, C99 and others; Spec/Crash.lean: ShortBase58, ShortBech32, FirstBad | one lemma on loops that stop at the first failure, and one on creation as inputs, outputs, serialisation; per package the inputs accepted and the texts that crash are characterised by equivalences |
| C141 | createHashes, insertSignatures, verifyRaw of Model/Btc.lean and Model/BtcVariants.lean; Spec/Cut.lean: CutWitness, the cut transactions of C23; Spec/InsertCrash.lean: the records that crash the insertion; Spec/ForkCrash.lean: the unlock data that crashes the hashing in Bitcoin Cash and SV | every step is shown not to panic; the decoder by C23_panic_hex_exact; the insertion by induction over the inputs; violations by running a successful call with one thing changed |
| C142 | verifyAndCombine of the models of these packages, Vsys.createJSON; Spec/Crash.lean: Unwritable, FirstBad; Spec/Combine.lean: Parts, hcMessage, Unwritable2 | induction over the loops, with the inputs before the first bad one in order; decoders are shown not to panic; strict characterisations |
| C143 | Model/Bytom (all functions of the package with panic as an outcome), Spec/BytomCut (texts cut off inside an integer, usable inputs, complete records) | False as stated. C143_read, C143_hashes, C143_insert and C143_create say exactly which arguments crash; C143_verify says it up to which of several inputs is met first; C143_never shows that the other calls do not crash. Each by following the reads: a read panics only where a variable-length integer has no end. Witnesses: C143_cut_violated, C143_program_violated, C143_receiver_violated. |
| C144 | Model/BtcLike (all functions of the package with panic as an outcome), Spec/BtcLikeWire (the bytes of a transaction, those that crash the decoder, unlock data and signatures that are good or crash) | False as stated. C144_read, C144_create, C144_hashes, C144_insert and C144_verify say exactly which arguments crash; C144_sign reduces signing in one step to the hashes; C144_never covers the other calls. By following the reads of the decoder (C114_language gives its exact language on the way) and the loops over the inputs. Witnesses: C144_empty_violated, C144_cut_script_violated. |
| C145 | Model/Profiles and Model/Address (all profiles and AddressEncode), Spec/Starts (the documented starts and lengths per profile, written from the networks' documentation) | False as stated. C145_starts_partial, C145_zero, C145_front, C145_monero, C145_chia prove it for all other profiles, by bounding the number that the version bytes and any payload form between powers of 58; C145_occur shows every listed start occurs; C145_listed that no profile is left out. C145_never_violated (17 profiles that never start as documented, among them the two Tezos private key forms with exchanged version bytes, with the start they have instead) and C145_sometimes_violated (3 profiles). |
| C146 | Model/Profiles and Model/Address (all profiles and AddressDecode), Spec/Starts.shared (the groups of profiles that coincide) | False as stated: C146_shared_violated (26 groups of profiles of different coins or networks that accept exactly the same texts). C146_other_partial: all other pairs never accept the same text, from the exact language of AddressDecode, injectivity of Base58 and a comparison of all pairs of profiles. C146_groups: the groups are complete. |
| C147 | Model/OwKeychain (owEncode, owDecode, b58CheckEncode, b58CheckDecode, the three version prefixes), Spec/OwKeychain (keyBody, IsKeyText: the fields and the checked Base58 text written out) | False as stated for public keys: C147_bls_short_violated and C147_long_plain_violated (every 33-byte public key on a BLS curve, and every 48-byte one on a plain curve, is read from a text that OWEncode does not write for it, and the text it does write is rejected). C147_texts_read gives exactly the texts read as each key; C147_private_canonical and C147_private_unique prove the property for all private keys; C147_public_canonical_partial proves it for all public texts but those under the version prefix of the other kind of curves. |
| C148 | Model/AddressCheck (all rules), Model/AddressEncoder, Model/Profiles; Spec/Accept (symbol and profile, accepted and refused) | False as stated: C148_refuses_violated (27 profiles of Litecoin, Decred, Tron, VSYS and HyperCash whose addresses are all refused), C148_nebulas_violated (contract addresses are accepted exactly when they start with n2; both cases occur), C148_cash_hash_violated. Proved for all profiles the rules name: C148_accepts_partial, C148_accepts_zero, C148_accepts_segwit, C148_accepts_cashaddr, C148_accepts_hex, from the first characters of every text (C145), the round trips and a routing lemma for rule lists. C148_listed: no profile named by a rule is left out. |

## What is modelled, package by package

| package of /repo | model | not modelled |
|---|---|---|
| addressEncoder | AddressEncoder, AddressMemory (slices), AddressCheck, Profiles, Base58, Bech32, Bech32m, Bech32mText (texts outside ASCII), CashAddr, PolyMod, Hex (eip55), Blake (blake256), Crc32, AddrBase64 | hashes other than BLAKE-256; names of encodings outside ASCII; `Strict` and `NoPadding` of base64.go |
| aliencoinTransaction | Alien | — |
| bigbangTransaction | BigBang (crc24 included), Signers | — |
| binancechainTransaction | Binance | internals of the Binance SDK (address reader, message constructor and codecs are parameters) |
| bitcoincashTransaction, bitcoinsvTransaction, cxcTransaction, hcTransaction, zencashTransaction | BtcVariants over Btc and Omni | getters of txHash.go/txIn.go that return one field |
| btcLikeTxDriver | BtcLike | — |
| btcTransaction | Btc, BtcMemory (slices), CheckMemory (concurrent calls of `EncodeCheck`) | getters that return one field |
| bytomTransaction | Bytom | getters and setters of one field |
| cosmosTransaction, evaioTransaction | Cosmos, Base64, Json | error texts |
| elastosTransaction | Elastos, Signers | — |
| eosSignature, signatureSet | SignatureSet, SignConc (concurrent signers) | `VSYSSignature` (a stub that returns nothing) |
| fiiiTransaction | Fiii, Json | reuse of slice memory when a JSON list occurs twice |
| filenetTransaction | Filenet, FilenetMemory (slices), SendText, Signers | the sorting algorithm (any sorter), the clock (an argument) |
| hypercashTransaction | HyperCash | — |
| mateverseTransaction | Mateverse | setters of one field |
| moacchainTransaction | Moac, Signers | — |
| omniTransaction | Omni over Btc | — |
| ontologyTransaction | Ontology, Signers | getters that return one field unchanged |
| owkeychain | OwKeychain, KeyMemory (slices) | random seed generation |
| polkadotTransaction | Polkadot, PolkadotText | — |
| rippleTransaction | Ripple, Signers | — |
| vergeTransaction, vollarTransaction | Verge, Vollar | — |
| virtualeconomyTransaction | Vsys, SendText | the curve arithmetic behind `SignTransaction` (parameters) |
| waykichainTransaction | Wayki, Signers | — |

Not modelled anywhere: elliptic-curve arithmetic and hashes of the external module `go-owcrypt` (parameters with stated
assumptions), randomness, goroutines other than concurrent callers of `EncodeCheck` (C127) and of the signing functions with external nonces (C130) (the code starts none), error texts, printing, tests, and `example_owkeychain.go`.

`FINDINGS.md` lists every place where a property is false of the code, with the theorem that shows it.
`AXIOMS.md` lists the axioms of every property theorem. `seeded/LOG.jsonl` lists the wrong programs tried.
