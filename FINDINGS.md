# Findings

Places where a property a user would rely on is false of the code. Each is a theorem about the model (name in brackets, file under `lean/Verif/Props`).
This file is generated from the comments of the theorems.


## C05 AddressDecode never crashes on untrusted text

* C05 fails: the empty text makes `AddressDecode` panic under bech32, eip55 and ICX profiles, and for base58 profiles there is (whatever the hash function) a text with a valid checksum and an empty body that makes it panic. (`C05_decode_panics_violated`, Address.lean)

## C06 AddressCheck accepts only decodable addresses of the requested coin

* C06 fails: the empty text makes `AddressCheck` panic for every supported coin, "b" for BTC, "bitcoin" for BCH. (`C06_check_panics_violated`, Address.lean)
* C06 fails for every other symbol: any text whatsoever is accepted. (`C06_unknown_symbol_violated`, Address.lean)

## C07 Bech32 addresses round trip

* C07 fails for 32-byte hashes under version-less profiles: every such hash comes back shifted left by four bits (the first half-byte is lost), so decoding gives a different hash unless the hash is all zero. (`C07_versionless_32_violated`, Address.lean)

## C10 A bech32 decoder only accepts addresses of its own network

* C10 fails for bech32: every Litecoin segwit address is accepted by the Bitcoin profile (and, in general, any profile accepts addresses of every other bech32 network). (`C10_bech32_foreign_network_violated`, Address.lean)
* C10 fails for bech32m: a foreign prefix gives the empty payload with a nil error instead of an error. (`C10_bech32m_foreign_prefix_violated`, Address.lean)
* C10 fails for cashaddr: with another prefix the checksum is not looked at. (`C10_cashaddr_foreign_prefix_violated`, Address.lean)

## C12 Cashaddr addresses round trip

* C12 fails for a bare 20-byte hash: it is hashed once more and the text that comes out is not even accepted. (`C12_bare_hash_violated`, Address.lean)
* C12 fails for other type bytes: type 1 (script hash) comes back as 8. (`C12_type_byte_violated`, Address.lean)

## C13 Hex-style (eip55/ICX) addresses round trip and reject malformed hex

* C13 fails for a 20-byte address given to the encoder: it is hashed again and the text is the address of the digest. (`C13_eip55_address_rehashed_violated`, Address.lean)

## C14 Extended keys survive serialisation

* The part of C14 that fails (b): public keys of 32 bytes on the curve `ED25519_NORMAL` (an ed25519 curve that is not in the zero-padded list of `OWEncode`) are serialised to a text that `OWDecode` rejects. (`C14_ed25519_normal_violated`, OwKeychain.lean)
* The part of C14 that fails (a): a private key stored in fewer than 32 bytes (see C18) is serialised to a text that `OWDecode` rejects. (`C14_short_private_key_violated`, OwKeychain.lean)

## C16 Key derivation guards

* The part of C16 that fails: public derivation has no depth guard. From a public key at depth 255 every accepted child wraps around to depth 0 (it then serialises like a master key), and such children are accepted. (`C16_depth_public_violated`, OwKeychain.lean)

## C18 Derived private keys are always 32 bytes

* The part of C18 that fails, exactly: outside the ed25519 family the serialisation of an accepted private child can be read back when the child's number is at least 2^240, and is refused when it is smaller. (`C18_child_text_violated`, OwKeychain.lean)
* The part of C18 that fails: on secp256k1 a valid 32-byte parent has accepted children whose key is only 31 bytes long (the zero padding loop stops half way), and the serialisation of such a child cannot be read back. (`C18_short_child_key_violated`, OwKeychain.lean)

## C19 Derivation paths denote the child indexes they spell

* The part of C19 that fails: out-of-range components are accepted and wrap around. For every seed and curve, `m/4294967296` is the key of `m/0`; `m/2147483648'` (marked hardened) is the non-hardened key `m/0`; the unmarked `m/2147483648` is the hardened key `m/0'`; and the negative component -1 gives the key of `m/2147483647'`. (`C19_out_of_range_violated`, OwPath.lean)

## C20 Raw bitcoin transaction encode/decode round trip

* The part of C20 that fails for signed transactions (1): a signed P2SH-P2WPKH transaction is not decoded to what was encoded, the push byte stays in the script. (`C20_p2wpkh_violated`, BtcTx.lean)
* (2): a P2SH multisig unlocking script of fewer than 253 bytes loses its length byte. (`C20_small_multisig_violated`, BtcTx.lean)

## C22 Input and output counts are encoded as counts

* C22 is false from 253 entries on: the counts are single bytes (the number modulo 256) where the format wants three bytes or more, so that no created text of such a transaction is its serialisation. (`C22_counts_violated`, BtcTx.lean)
* With 256 inputs (or any multiple) the count is written as 0; the package's own decoder then takes the transaction for one with witness data or rejects it: it never returns the transaction created. (`C22_wrapped_count_violated`, BtcTx.lean)

## C23 Decoding a raw transaction never crashes

* A transaction that ends in the middle of a sequence number makes the decoder panic if the slice has no spare capacity. (`C23_truncated_sequence_violated`, BtcTx.lean)
* A segwit multisig transaction that ends after the witness item count makes the decoder panic whatever the capacity. (`C23_truncated_witness_violated`, BtcTx.lean)
* And so does the hex interface: `VerifyRawTransaction` panics on that text, for all hash functions and curves. (`C23_verify_panics_violated`, BtcTx.lean)

## C24 DER signatures survive script encoding

* The part of C24 (b) that fails. Reading r leaves a slice into the script, and appending s to it overwrites the script behind r: with a full-width r and a short s the bytes read next (type, key length, key) are bytes of s. A script written for r with the top bit set and s = 2^216 is rejected by the reader. (`C24_short_s_violated`, BtcSig.lean)
* The same overwriting makes the reader return a wrong signature type: for s of 29 bytes the type is read from the last byte of s. (`C24_sigtype_violated`, BtcSig.lean)
* A zero r or s makes the writer panic instead of returning an error. (`C24_zero_violated`, BtcSig.lean)

## C25 Only canonical DER signatures are read back

* A first byte that is not zero is ignored: two signatures with different r in the script are read as the same. (`C25_first_byte_violated`, BtcSig.lean)
* C25 is false: the reader accepts several scripts for the same signature. The 33-byte form of r is accepted with a non-zero first byte (which is dropped), and short forms with superfluous zero bytes are accepted. (`C25_malleable_violated`, BtcSig.lean)

## C26 Signatures are normalised to low S at full width

* The width is wrong for every s within 2^240 of the order: the padding loop stops half-way, and the signature has fewer than 64 bytes. (`C26_width_violated`, BtcSig.lean)

## C27 Multisig redeem scripts parse back to their policy

* C27 is false for 16 keys: every policy of 16 compressed keys is rejected, although 16 is the documented maximum. (`C27_sixteen_keys_violated`, BtcMulti.lean)
* C27 is false for uncompressed keys: `CreateMultiSig` accepts 65-byte keys, but the redeem script is then rejected by the parser used for signing and verifying, so that funds sent to the address cannot be spent with this package. (`C27_uncompressed_violated`, BtcMulti.lean)

## C28 Multisig verification needs m distinct keys

* C28 is false of the API: one signature by one of two keys, written twice, satisfies a 2-of-2 policy. The curve accepts signatures under `key1` only. (`C28_api_violated`, BtcVerify.lean)
* C28 is false of the API, whatever the hash functions and the curve are: a script for `m` signatures of its keys is satisfied by `m` signatures of its last key alone. (`C28_last_key_violated`, BtcExact.lean)
* C28 is false: one signature, repeated, by the second key alone satisfies every 2-of-n check, whatever the other keys. (`C28_one_key_violated`, BtcMulti.lean)

## C29 The message signed for each input is the standard signature hash preimage

* C29 is false for redeem scripts of 253 bytes and more (eight or more keys): `getBytesForSig` writes the length in one byte, and the bytes hashed are not the preimage, whatever the transaction. (`C29_long_redeem_violated`, BtcHash.lean)

## C30 Paying an address produces the script the address stands for

* C30 is false (1): the Bitcoin networks leave the second script-hash prefix empty, so a Base58Check text with no version byte at all, which is an address of no network, is accepted and paid to a script hash. (`C30_no_version_violated`, BtcTx.lean)
* C30 is false (3): the human-readable part is not compared with the network's, the address text only has to begin with it: a regtest address ("bcrt") is accepted on mainnet ("bc"). (`C30_other_network_violated`, BtcTx.lean)
* C30 is false (5): a short Base58 text makes the creation of the transaction panic. (`C30_short_address_violated`, BtcTx.lean)
* C30 is false (2): the witness version is ignored, so an address for a version-1 program is paid to a version-0 program. (`C30_version_ignored_violated`, BtcTx.lean)
* C30 is false (4): the Zcash networks have an empty bech32 prefix, with which every text begins: no Base58 address with a character that is no bech32 symbol is ever accepted, whatever its checksum. In particular transparent Zcash addresses, which start with "t1" or "t3", are only accepted if they happen to be valid bech32. (`C30_zcash_violated`, BtcTx.lean)

## C31 Reading a transaction id does not change the transaction

* C31 fails outside the transaction too: reading an id changes the raw bytes that the caller passed to `DecodeRawTransaction`, for every id that is not a palindrome; afterwards they are the raw bytes of a transaction that spends something else. (`C31_bytes_violated`, BtcMemory.lean)
* C31 is false: the read reverses the stored bytes, so the second read returns a different text, and so does every serialisation after one read, for every id that is not a palindrome. (`C31_second_read_violated`, BtcTx.lean)

## C32 SCALE compact integers are encoded per specification

* The part of C32 that fails (b): for every value above 2^64 - 2^56 the text does not decode to the value (the length prefix is computed from the value as a negative int64). (`C32_large_violated`, Polkadot.lean)
* The part of C32 that fails (a): the value 0 makes `Encode` panic. (`C32_zero_violated`, Polkadot.lean)

## C34 The submitted polkadot extrinsic carries exactly the signed payload

* The part of C34 that fails: a sender key text with a stray character after the 64 hex digits is used for verification (the digits before it), so a correct signature is accepted, but no extrinsic is built: the result is the empty text together with success. Shown for every otherwise well-formed transaction. (`C34_empty_success_violated`, Polkadot.lean)

## C35 Omni payload scripts are well-formed OP_RETURN pushes

* The part of C35 that fails (b): a freeze order for an invalid address is turned, without an error, into a payload that holds nothing but the marker. (`C35_bad_address_violated`, Omni.lean)
* The part of C35 that fails (a): with any memo of 55 bytes or more the script is not OP_RETURN with one push. (`C35_long_memo_violated`, Omni.lean)

## C36 Ripple transactions decode to what was asked for

* Where C36 fails (b): amounts from 2^62 drops on are cut to 62 bits. (`C36_amount_violated`, Ripple.lean)
* Where C36 fails (c): with a memo of more than 192 bytes the serialisation is never read as the payment that was asked for. (`C36_long_memo_violated`, Ripple.lean)
* Where C36 fails (a): tags are cut to 32 bits. (`C36_tag_violated`, Ripple.lean)

## C38 VSYS transactions round trip

* Where C38 fails (a): a transfer with an attachment. The text does not depend on the attachment, and it cannot be decoded. (`C38_attachment_violated`, Vsys.lean)
* Where C38 fails (b): the length of the recipient is not checked. Every text that is the Base58Check form of anything but 22 bytes is accepted as a recipient, and the resulting transaction cannot be decoded. (`C38_recipient_length_violated`, Vsys.lean)

## C39 Ontology transactions round trip, signed or unsigned

* Where C39 fails (b): a script of more than 255 bytes is serialised with its length reduced modulo 256, and does not come back. (`C39_long_script_violated`, Ontology.lean)
* Where C39 fails (a): a transaction with exactly one signature (the usual transfer) never decodes. (`C39_one_signature_violated`, Ontology.lean)
* Where C39 fails (c): combining into a transaction that already carries (two or more) signatures keeps its first signature and drops all others, the new ones included, and still answers `true`. (`C39_recombine_violated`, Ontology.lean)

## C40 Ontology VM integers denote the requested amount

* Where C40 fails: every negative number whose absolute value has its top bit set (the power of two excepted) is pushed as a larger number; -129 becomes 127 and -255 becomes 1. (`C40_negative_violated`, Ontology.lean)

## C41 WaykiChain variable-length integers are injective and decodable

* Where C41 fails: a negative number (accepted as amount and as fee) is encoded like its remainder modulo 128; -1 like 127. (`C41_negative_violated`, Wayki.lean)

## C43 WaykiChain register ids are parsed as written

* Where C43 fails (a): numbers of 2^63 and more are accepted and replaced by 2^63 - 1. (`C43_overflow_violated`, Wayki.lean)
* Where C43 fails (b): with white space in front the first number is replaced by 0 (and with white space behind, the second). (`C43_space_violated`, Wayki.lean)
* Where C43 fails (c): for a transfer of another coin the source is not checked at all. A text without "-" is accepted, and the chain cannot read the result as a register id. (`C43_unchecked_violated`, Wayki.lean)

## C44 MOAC transactions are canonical RLP

* Where C44 fails (b): the sign is lost. (`C44_sign_violated`, Moac.lean)
* Where C44 fails (a): if an amount, limit or price is 1 to 127, the transaction is not the RLP of any list of strings. (`C44_small_violated`, Moac.lean)

## C45 MOAC combine accepts every transaction it created

* Where C45 fails: transactions that the library created itself, of 57 to 130 bytes, are refused whatever the signature. (`C45_long_violated`, Moac.lean)

## C48 ETH-style signing makes progress and normalises S consistently

* C48, low S is violated: whenever the raw s is within 2^240 of the order, the s field of the returned signature is not n - s. (`C48_low_s_violated`, SignatureSet.lean)
* C48, progress is violated: whenever the first block is out of range, where RFC 6979 goes on to the next block, the call never returns a signature (after 2^27 - 1 rounds it panics). (`C48_progress_violated`, SignatureSet.lean)

## C52 Filenet totals equal the sum of the outputs

* Where C52 fails (b): an address made from a hex text with capital letters is accepted but replaced by another text. (`C52_address_violated`, Filenet.lean)
* Where decoding fails: a raw text that announces more payments than memory can hold kills the program instead of being refused. (`C52_alloc_violated`, Filenet.lean)
* Where C52 fails (a): for every request whose amounts add up to 2^64 or more, the total in the transfer is the sum modulo 2^64, not the sum. (`C52_total_violated`, Filenet.lean)

## C54 Vollar/Verge transactions round trip through their raw text form

* Where C54 fails: an address of the package whose payload is not 20 bytes long is accepted, but the text of a transaction paying to it cannot be decoded, whatever its inputs. (`C54_verge_address_violated`, Verge.lean)
* Where C54 fails: Verge transactions without inputs are created, but their text is always rejected. (`C54_verge_empty_violated`, Verge.lean)
* Where C54 fails: ids of any length are accepted, and a text made from an empty id cannot be decoded. (`C54_verge_id_violated`, Verge.lean)
* Where C54 fails, for every request outside `C54_verge_partial` with an id of another length or with more than 255 inputs or outputs: it is accepted, but nothing that its text is decoded to (if it is decoded at all) has the ids and as many outputs as were asked for. (`C54_verge_limits_violated`, VergeLimits.lean)
* The same for Vollar. (`C54_vollar_id_violated`, Verge.lean)
* The same for Vollar. (`C54_vollar_limits_violated`, VergeLimits.lean)

## C55 A combined transaction needs at least one valid signature

* Failure mode: a key that cannot be decompressed stops the program (here: any list starting with such a key). (`C55_elastos_key_violated`, Elastos.lean)
* Where C55 fails for `elastosTransaction`: every transaction, whatever it spends, combines successfully with no signature at all, and with signatures by any keys whatsoever. (`C55_elastos_violated`, Elastos.lean)
* Where C55 fails (a): with an empty list of inputs every unsigned transaction is accepted, and a transaction without inputs is returned. (`C55_mateverse_empty_violated`, Mateverse.lean)
* Where C55 fails (b): the signatures are not tied to the transaction. Inputs accepted with one transaction are accepted with every other one, and the result pays what the other one pays. (`C55_mateverse_swap_violated`, Mateverse.lean)
* Where C55 fails for `ontologyTransaction`: every unsigned transaction, whoever has to sign it, combines successfully with no signature at all; the result is the unsigned transaction. (`C55_ontology_violated`, OntologyCombine.lean)

## C56 Upper-case bech32 addresses

* C56 is false of every bech32 text: if a text in small letters with a prefix `p` decodes, its all-capital form is refused, unless the length of the prefix is a multiple of 1023 (when it decodes to the same). (`C56_bech32_capitals_violated`, UpperCase.lean)
* C56 fails for bech32: BIP173 asks decoders to accept the all-upper-case form of an address; this (the first address of the BIP) is rejected although its lower-case form is accepted. (`C56_bech32_upper_case_violated`, Bech32.lean)
* C56 is false of every cashaddr text: in capital letters the last eight symbols, which are the checksum, can be anything. (`C56_cashaddr_capitals_violated`, UpperCase.lean)
* C56 fails for cashaddr: an upper-case address is accepted without any look at its checksum. (`C56_cashaddr_upper_case_unchecked_violated`, Bech32.lean)

## C57 EOS, aeternity and Monero texts are canonical

* C57 fails for EOS: the same key has several accepted texts. (`C57_eos_alias_violated`, Address.lean)
* C57 fails for Monero: a block value and the same value plus 2^64 are both accepted, so the zero payload has two accepted texts. (`C57_monero_two_texts_violated`, Address.lean)

## C60 owchain share texts round trip

* The part of C60 that fails (b): a BLS12-381 share (48-byte public key) is encoded to a text that `ChainDecode` rejects. (`C60_owchain_bls_violated`, OwPath.lean)
* The part of C60 that fails (a): the text has no checksum. Take any share that can be read back and whose curve type is not within 58 of the ends of the 32-bit range, and replace the last symbol of its text by any other symbol of the alphabet: the new text is read without complaint as a share of the same key with another curve type. (`C60_owchain_no_checksum_violated`, OwPath.lean)

## C61 Verification binds the key to the output spent

* C61 is false (3), whatever the hash functions and the curve are: a transaction that spends a P2PKH output is accepted with the signature of *any* key on the curve, although the key does not have the hash in the locking script. (`C61_any_key_violated`, BtcExact.lean)
* C61 is false (4), whatever the hash functions and the curve are: an output that the unlock data say is locked to `m` of the keys `keys` is spent with `m` signatures of as many other keys `own`: the attacker has the signatures inserted with unlock data of their own (`mine`) over the message for the true unlock data `u`, and `VerifyRawTransaction` with `u` accepts the result. (`C61_any_redeem_violated`, OtherRedeem.lean)
* C61 is false (1): a P2PKH output can be spent with a key that does not hash to the hash in the locking script. (`C61_wrong_key_violated`, BtcVerify.lean)
* C61 is false (2): a multisig output can be spent with a redeem script (and keys) different from the one in the unlock data. (`C61_wrong_redeem_violated`, BtcVerify.lean)

## C62 Inserting signatures never succeeds with an empty result

* C62 is false: for every unsigned transaction, a locking script of an unknown kind makes `InsertSignatureIntoEmptyTransaction` return the empty text without an error. (`C62_empty_text_violated`, BtcVerify.lean)

## C63 A transaction signed through the API verifies

* C63 is false of short multi-signature scripts: an unlocking script of at most 108 bytes is taken for a signature and a key, and `VerifyRawTransaction` refuses what `InsertSignatureIntoEmptyTransaction` returned, whatever the signatures are worth. (One input.) (`C63_short_multisig_violated`, BtcSpendVerify.lean)
* C63 is false of witnesses for eight keys or more: the length of the script does not fit its byte, and `VerifyRawTransaction` refuses what `InsertSignatureIntoEmptyTransaction` returned, whatever the signatures are worth. (One input.) (`C63_witness_keys_violated`, BtcSpendVerify.lean)

## C65 Child key derivation follows BIP 32

* C65 fails when I_L is zero: BIP 32 has a child, whose key is the parent's, and the code reports an error. (`C65_zero_violated`, Bip32.lean)

## C66 Omni transactions can pay every address kind

* C66: a bech32 address is a possible recipient in a Bitcoin transaction but never in an Omni transaction: if its text contains a character that Base58 does not use (like `0` or `l`), creation always fails. (`C66_bech32_recipient_violated`, Omni.lean)

## C67 Ripple: the verified key is the key in the transaction

* C67 is false: the key used for verification is not compared with the key in the transaction. Whatever key the transaction names, a valid signature by any other key is combined into it and reported as a success. (`C67_foreign_key_violated`, Ripple.lean)

## C69 Running an Ontology transfer moves the requested amount

* Where C69 fails: the payer is not checked. A payer text of any other kind (a Bitcoin address, say) is accepted, and its hash is charged as if it were an Ontology account. (`C69_payer_violated`, OntologyVM.lean)
* With a payer text of another kind (`C69_payer_violated`) the payer read back is an account the caller did not name. (`C69_read_back_violated`, OntologyVM.lean)

## C70 A WaykiChain raw transaction is read by the chain as the transaction that was asked for

* Where C70 fails: contract arguments of 253 bytes and more are accepted, but the chain cannot read them as they were. (`C70_long_contract_violated`, Wayki.lean)

## C71 EOS signing nonces are the RFC 6979 nonces, at full width

* C71, width: the nonce handed to the signature is not padded; it has fewer than 32 bytes whenever it is below 2^248. (`C71_width_violated`, SignatureSet.lean)

## C72 Transaction hashes are signed by the signer of the symbol

* C72 fails for small n - s: a signature of any other symbol on secp256k1 whose n - s is below 2^240 comes back with fewer than 64 bytes. (`C72_low_s_violated`, SignatureSet.lean)

## C73 BigBang transfers say what was asked

* Where C73 fails (a): the length of the anchor is not checked. A transfer whose first of two inputs spends output 1 has the same bytes as a transfer that spends only the second input and has a longer anchor. (`C73_anchor_violated`, BigBang.lean)
* Where C73 fails (c): 256 inputs are accepted, with count byte 0; unless the first one's transaction id happens to end in 01, the result is not the wire form of any transfer that fits the format. (`C73_count_violated`, BigBang.lean)
* Where C73 fails (b): data of 256 bytes are accepted, with length byte 0; the result is not the wire form of any transfer that fits the format. (`C73_data_violated`, BigBang.lean)

## C74 An Elastos transfer text states exactly the request

* Where C74 fails: ids of any length are accepted. With `x` any 31 bytes and `y` any 32 bytes, the request spending output 0xff00+`a` of a 31-byte id and output `n` of a 33-byte id has the same text, so the same hash, as one that spends two well-formed ids. (`C74_id_length_violated`, Elastos.lean)

## C75 A HyperCash transfer text states exactly the request, and its hashes are those the chain checks

* Where C75 fails: when an input spends a script of 253 bytes or more, its hash is computed from bytes that are not those the chain hashes (the length is written in one byte, modulo 256). (`C75_long_script_violated`, HyperCash.lean)

## C76 The inputs listed for a HyperCash transfer text are those it was created from

* Where C76 fails (b): for a transaction with exactly 253 inputs, a list is returned, and its first id is not that of the first input (unless that id is `00fd` repeated). (`C76_253_violated`, HyperCashList.lean)
* Where C76 fails (a): the text of a transaction with more than 253 inputs is refused. (`C76_many_violated`, HyperCashList.lean)

## C77 HyperCash and Metaverse signing return a valid low-S signature

* Where C77 fails: whenever n - s is positive and below 2^240, the second half of the result is neither s nor n - s, so the signature is not valid any more. (`C77_low_s_violated`, HyperCashList.lean)
* Where C77 fails in this package: as in `C77_low_s_violated`. (`C77_mateverse_low_s_violated`, Mateverse.lean)

## C79 Metaverse signing hashes are those the chain checks

* Where C79 fails: for a lock script of 253 bytes or more the hash is computed from bytes other than those input k signs. (`C79_long_script_violated`, Mateverse.lean)

## C84 Verge and Vollar signing return a valid low-S signature

* Where C84 fails: when n - s has two or more leading zero bytes the returned signature is shorter than 64 bytes. (`C84_low_s_violated`, Verge.lean)

## C87 Bitcoin Cash and Bitcoin SV signature hashes are the replay-protected ones

* C87 is false for multisig without `SegwitON`: what is hashed is the old format (behind it the signature type 0x41), which Bitcoin Cash and Bitcoin SV do not accept; it is different from the replay-protected preimage for every transaction where not even the lengths agree (as with one input and one or two P2PKH outputs). (`C87_multisig_old_format_violated`, BtcVariantsSign.lean)
* C87 is false for witness inputs: `CreateRawTransactionHashForSig` of both packages panics for every transaction with an input spending a P2WPKH output (instead of an error: there are no such outputs to spend on these chains), if the inputs before it are accepted. (`C87_witness_panics_violated`, BtcVariantsSign.lean)

## C88 CXC, HyperCash and Horizen signature hashes commit to the transaction and the script spent

* C88 is false for Horizen in another way: a locking script that is not hex is not rejected; the message is computed from what comes before the first fault. (`C88_zen_not_hex_violated`, BtcVariantsSign.lean)
* C88 is false for Horizen outputs locked by a script hash: the redeem script is ignored, so that the message is not the one for the redeem script unless that script is the locking script itself. (`C88_zen_script_hash_violated`, BtcVariantsSign.lean)

## C89 Bitcoin-derived packages pay exactly the requested addresses and amounts

* C89 is false of CXC and HC: although both have code for bech32 addresses, one with a character that Base58 does not use (like `0` or `l`) is never accepted as a recipient. (`C89_bech32_violated`, BtcVariantsCreate.lean)
* C89 is false of Bitcoin Cash: an address with a character that Base58 does not use, in particular every cashaddr text with its `bitcoincash:`, is not accepted as a recipient; but such a text is what the package itself reports as the address of a P2PKH output (second part). (`C89_cashaddr_violated`, BtcVariantsCreate.lean)
* C89 is false of HC on its main network, for every recipient: the P2PKH addresses of the network all start with `Hs`, which is what the package takes for the bech32 prefix; mixed case is not bech32, so that creation fails. (`C89_hc_mainnet_violated`, BtcVariantsCreate.lean)

## C90 Horizen outputs carry the given block hash and height

* C90 is false for block hashes of another length: they are not rejected, and no output refers to that hash. (`C90_hash_length_violated`, BtcVariantsCreate.lean)
* C90 is false for heights whose highest byte has its top bit set (128 to 255, 32768 to 65535, 8388608 to 16777215, ...): no output of any created transaction refers to a block at that height, because the script number is negative or zero. (`C90_top_bit_violated`, BtcVariantsCreate.lean)

## C91 CXC asset outputs carry the asset reference and quantity

* C91 is false for longer references: from 64 bytes on the opcode in front of the payload is not a push of that many bytes. (`C91_long_reference_violated`, BtcVariantsCreate.lean)

## C92 Signing and verifying round trip on Bitcoin-derived packages

* C92 is false (2), whatever the hash functions and the curve are: in Bitcoin Cash, Bitcoin SV, CXC and HC, too, a P2PKH output can be spent with any key. (`C92_any_key_violated`, BtcExact.lean)
* C92 is false (4), whatever the hash functions and the curve are: in Bitcoin Cash, Bitcoin SV, CXC and HC, too, an output that the unlock data say is locked to `m` of the keys `keys` is spent with `m` signatures of as many other keys `own`: the attacker has the signatures inserted with unlock data of their own (`mine`) over the message for the true unlock data `u`, and `VerifyRawTransaction` with `u` accepts the result. (`C92_any_redeem_violated`, OtherRedeem.lean)
* C92 is false (3), whatever the hash functions and the curve are: in Bitcoin Cash, Bitcoin SV, CXC and HC, too, a script for `m` signatures of its keys is satisfied by `m` signatures of its last key alone. (`C92_last_key_violated`, ForkLastKey.lean)
* C92 is false: a Bitcoin Cash P2PKH output can be spent with a key that does not hash to the hash in the locking script. (`C92_wrong_key_violated`, BtcVariantsSign.lean)

## C93 Omni messages on Bitcoin Cash and Bitcoin SV

* C93 is false for freeze orders with an address that is not Base58: the transaction is created as for other requests, with a message that holds nothing but the marker. (`C93_bad_address_violated`, BtcVariantsOmni.lean)
* C93 is false for long texts: with any text of 55 to 229 bytes the transaction is created as for other requests, and its last output is not an OP_RETURN with one push, so the message is lost. (`C93_long_text_violated`, BtcVariantsOmni.lean)
* C93 is false for recipients under the third prefix (P2SH addresses of the networks where it differs from the second): a plain transfer to such an address is created, an Omni transfer never is. (`C93_script_address_violated`, BtcVariantsOmni.lean)

## C94 Cosmos/Evaio sign text is the canonical sign document

* Where C94 fails (2): when the first fee coin is zero all others are dropped: the document is the one of a transaction without fee. (`C94_fee_dropped_violated`, Cosmos.lean)
* Where C94 fails (4): a fee of one zero coin is emptied by its first use; using it for a second transaction panics. (`C94_fee_reuse_violated`, Cosmos.lean)
* Where C94 fails (1): without fee coins `NewTxStruct` panics, for every request. (`C94_no_fee_violated`, Cosmos.lean)
* Where C94 fails (3): if a zero coin comes later in the fee, or in a transfer, then the text returned is not the sign document of *any* request: the coin is written with an empty amount. (`C94_zero_coin_violated`, Cosmos.lean)

## C95 Different Cosmos transactions have different sign texts

* Where C95 fails: bytes that are not UTF-8 are all written as the replacement character, so that transactions with different memos have the same sign text, whatever the rest. (`C95_not_utf8_violated`, Cosmos.lean)

## C97 Cosmos/Evaio: signing the hash gives a signature accepted for the text

* Where C97 fails (2): when the library refuses to sign and returns no signature, the program panics instead of returning the error. (`C97_failure_panics_violated`, Cosmos.lean)
* Where C97 fails (1): when n - s has two or more leading zero bytes the signature has fewer than 64 bytes. (`C97_width_violated`, Cosmos.lean)

## C98 Cosmos/Evaio Bech32 round trip

* Where C98 fails (2): the text of an empty payload makes the decoder panic. (`C98_empty_violated`, Cosmos.lean)
* Where C98 fails (1): every payload of another length whose last bit is set comes back changed (the padding bits are read as part of the payload); a payload of 33 bytes, such as a public key, comes back with 32. (`C98_length_violated`, Cosmos.lean)

## C99 FiiiCoin transactions are created as requested

* An address with a valid checksum and a prefix that continues it stop the program. (`C99_long_prefix_violated`, Fiii.lean)
* An output whose address is a Base58 text of less than four bytes stops the program, whatever the rest. (`C99_short_address_violated`, Fiii.lean)

## C101 A FiiiCoin signature authorises one transaction only

* Nothing else is covered: the signatures for one transaction are accepted for every other one with the same inputs, whatever its outputs, version, times and locks. (`C101_outputs_violated`, Fiii.lean)
* The output number is signed modulo 2³². (`C101_vout_violated`, Fiii.lean)

## C105 Aliencoin: combining signatures

* Where C105 fails: exactly for the signatures that are not plain. If one of the numbers is not, the script written (if any) is not the one that carries the signature: a number gets the sign of a negative number, has a superfluous zero byte or lacks its leading bytes. (`C105_other_violated`, Alien.lean)
* Where C105 fails: the program panics exactly if one of the numbers has zero bytes in the places 0, 2, 4, …, 30; it never returns an error. (`C105_panic_violated`, Alien.lean)

## C108 Hashes of a Bytom transaction: one per input, with its signer

* C108 is false beyond that: a transaction is created for inputs with larger positions, but its text is always refused when the hashes are asked for, and when signatures are inserted. (`C108_positions_violated`, Bytom.lean)

## C109 Signatures of single-key Bytom inputs are inserted and verified one to one

* The verifier does not look at whose key it is: whatever the programs of the inputs, a transaction passes with any one key that signed all inputs. (`C109_foreign_key_violated`, Bytom.lean)
* C109 is false of missing signatures: with fewer signatures than inputs (but one at least) a transaction is returned all the same; the remaining inputs have no witness. (`C109_missing_violated`, Bytom.lean)
* And with more signatures than inputs the function panics. (`C109_surplus_violated`, Bytom.lean)
* The verifier panics on a transaction without signatures whose first input belongs to a single key. (`C109_unsigned_violated`, Bytom.lean)

## C111 Signatures of Bytom multi-signature inputs

* C111 is false of all other numbers of signatures and keys: unless two signatures and at most three keys are required, what is inserted for a script is not the serialisation of signatures and script. Together with `C111_two_partial` this covers all scripts. (`C111_counts_violated`, BytomMulti.lean)
* C111 is false of scripts requiring one signature: what is inserted is not the serialisation of signature and script. (`C111_one_of_violated`, Bytom.lean)
* C111 is false of one signer: a single signature by the second of two keys, given twice, passes for both. (`C111_one_signer_violated`, Bytom.lean)

## C112 Bytom transactions pay only to addresses of the selected network

* C112 is false of other human-readable parts: for every part that only begins like that of the network there are addresses of every program hash, and a transaction paying to them is created. (`C112_foreign_violated`, Bytom.lean)
* An address of fewer than two characters makes the function panic. (`C112_short_violated`, Bytom.lean)

## C113 A transaction created with the older Bitcoin driver is the requested one

* C113 is false (1): although there is code for bech32 addresses, one with a character that Base58 does not use (`0` or `l`) is never accepted as a recipient. (The bech32 branch falls through to the Base58 branch.) (`C113_bech32_violated`, BtcLike.lean)
* C113 is false (2): with 253 or more inputs or outputs the text is not the standard serialisation of the requested transaction. (`C113_counts_violated`, BtcLike.lean)
* C113 is false (3): a short Base58 text makes the creation of the transaction panic. (`C113_short_address_violated`, BtcLike.lean)

## C114 The older Bitcoin driver parses the standard serialisation exactly

* C114 (a) is false of longer scripts: the standard serialisation of a transaction whose first input has an unlocking script of 254 or more bytes is never parsed into a transaction with this script. (`C114_long_script_violated`, BtcLike.lean)
* C114 (c) is false with the witness marker: any transaction with one input whose witness stack has two entries, the first of which is not a signature (does not start with 0x30) but long enough, makes parsing panic. (`C114_witness_panics_violated`, BtcLike.lean)

## C115 Hashes to sign of the older Bitcoin driver are those the chain checks

* C115 is false for short locking scripts: one of 22 bytes that begins like pay to public key hash makes the call panic. (`C115_short_script_violated`, BtcLikeLimits.lean)

## C116 Signatures are inserted, read back and verified by the older Bitcoin driver

* C116 is false for too few signatures: there is no error, inserting panics. (`C116_few_signatures_violated`, BtcLikeLimits.lean)
* C116 is false for a public key that ends in 0xae: the unlocking script of the only input is taken for a multi-signature script, and the transaction cannot be made. (`C116_key_ae_violated`, BtcLikeLimits.lean)
* C116 is false across calls: computing the hashes writes the locking script of a native witness output into the redeem script of the caller's data; inserting the signature with the same data then adds an unlocking script, which the chain does not allow. (`C116_reuse_violated`, BtcLikeLimits.lean)
* C116 is false for signatures with a small r: in a witness the zeros in front of r are kept, so that the signature is not canonical DER, which the chain rejects. (`C116_short_r_violated`, BtcLikeLimits.lean)
* C116 is false for signing two or more inputs of a witness kind: only the first witness is stored, and what is returned without an error is not the spent transaction. (`C116_sign_violated`, BtcLikeSigner.lean)
* C116 is false across calls (2): inserting a signature overwrites the locking script of a native witness output in the caller's data; verifying the result with the same data panics. (`C116_verify_after_insert_violated`, BtcLikeLimits.lean)
* C116 is false for the identity of the key: a signature of any key is accepted for any key hash, as long as it verifies for the hash of the input. Stated for a transaction that is accepted, given an output of which the key hash is not that of the key. (`C116_wrong_key_violated`, BtcLikeLimits.lean)

## C117 Multi-signature outputs in the older Bitcoin driver

* C117 is false for any other number of signatures: the count of entries in the witness is always four, so what is returned without an error is not the spent transaction. (`C117_count_violated`, BtcLikeMulti.lean)
* C117 is false for more inputs: the script itself is written as the unlocking script of the first input. (`C117_inputs_violated`, BtcLikeMulti.lean)
* C117 is false for verifying: whatever the signatures, the text made from them is refused, since a witness of four entries is not parsed. (`C117_verify_violated`, BtcLikeMulti.lean)

## C118 The package's own base64 codec

* Full statement of C118 (encoding): `Base64Encode` returns the base64 text of its input. False for every alphabet and every non-empty input: the constructor copies the alphabet into a nil slice, so that the first table lookup panics; `Encode` does so with every buffer. (`C118_encode_violated`, AddrBase64.lean)
* Full statement of C118 (decoding a string): `Base64Decode` returns the bytes a base64 text stands for. False for every alphabet and every text, the empty one included: it builds a new encoding from the alphabet the constructor did not store, and that panics. (`C118_string_violated`, AddrBase64.lean)

## C119 Binance Chain transfers

* Where C119 fails (1): the chain named in the text is not looked at. A text for any other chain is combined with a signature for the hash on the main chain; if the two hashes differ and the signature is valid for that hash only, the returned transaction carries a signature that is not valid for the text given. (`C119_chain_violated`, Binance.lean)
* Where C119 fails (2): messages after the first are dropped. A text with more messages is combined exactly as the text with the first one. (`C119_messages_violated`, Binance.lean)
* Where C119 fails (3): a text without messages, and a key that does not decompress, make the call panic instead of returning false. (`C119_panic_violated`, Binance.lean)
* Where C119 fails (4): when n - s has two or more leading zero bytes the signature has fewer than 64 bytes, which combining refuses. (`C119_width_violated`, Binance.lean)

## C120 Bytom decoder accepts exactly the serialised transactions

* Where C120 fails (3): a text cut off inside the time range makes the decoder panic instead of returning an error. (`C120_cut_violated`, BytomWire.lean)
* Where C120 fails (1): bytes with the high bit set before the version are skipped, so that every serialisation has further texts that are read as the same transaction. (`C120_version_violated`, BytomWire.lean)
* Where C120 fails (2): the length byte of a single-key witness is not looked at: texts with any other number from 2 on in its place are read as the same transaction. (`C120_witness_violated`, BytomWire.lean)

## C122 The JSON messages for VSYS and Filenet nodes state what was signed

* C122 fails for Filenet requests whose amounts add up to 2^64 or more: the message of a combined transaction states another total. (`C122_filenet_total_violated`, SendText.lean)
* C122 fails for VSYS transfers with an attachment: they are created, and no signature and key get a message for them. (`C122_vsys_attachment_violated`, SendText.lean)

## C123 Signed Bitcoin transactions are in the standard form

* C123 is false of all other multi-signature witnesses: with one signature or more than two, or with eight keys or more, the text returned without an error is not the standard serialisation of the signed transaction. (`C123_witness_multisig_violated`, BtcSpend.lean)

## C124 Encoding an address leaves the caller's memory alone

* C124 fails for two keys that lie one behind the other in one array: encoding the first one makes `AddressEncode` return a wrong address for the second, unless the second happens to begin with the checksum of the first. (`C124_neighbour_violated`, AddressMemory.lean)
* C124 fails for EOS public keys and aeternity accounts: if the argument has room for four bytes behind it, these four bytes of the caller's array are overwritten with the checksum (and nothing else is). (`C124_spare_violated`, AddressMemory.lean)

## C125 Using the bytes a key returns does not change the key

* C125 fails for keys made from a seed: appending up to 32 bytes to the bytes that `GetPrivateKeyBytes` returns overwrites the chain code of the key. (`C125_seed_violated`, KeyMemory.lean)
* C125 fails for shares: `ChainDecode` puts key and chain code into one array, so `AddressEncode` of the field `Pubkey` of a share of an EOS key (33 bytes) or an aeternity key (32 bytes) overwrites the first four bytes of the field `ChainCode`; `ChianEncode` then gives another text. (`C125_share_violated`, KeyMemory.lean)

## C126 From a request to a verified transaction on the Bitcoin packages

* C126 is false of multi-signature witnesses with one or more than two signatures, or with a script of 253 bytes or more, whatever the rest of the request is: the four calls succeed and `VerifyRawTransaction` accepts the result, but the result is not the standard serialisation of the signed transaction. (`C126_witness_violated`, BtcEndToEnd.lean)

## C127 Addresses made by concurrent calls are the right ones

* C127 also fails for one call alone when the prefix has room behind it: the text is right, but the bytes of the caller's array behind the prefix are overwritten with the hash. (`C127_neighbour_violated`, CheckMemory.lean)
* C127 fails for a prefix with room for the hash behind it: of two calls with this prefix, the first may return the address of the other's hash (and then not an address of its own, if the hashes are different). (`C127_shared_prefix_violated`, CheckMemory.lean)

## C128 The uncompressed public key is the point of the key

* The part of C128 that fails (a): on X25519 and Curve25519 `GetPublicKeyBytes` and `GetPublicKey` return the ed25519 point, while the uncompressed key is made from the point the other curve has. Where the two points differ and decompression is injective, the private key and its public counterpart never give the same bytes. (`C128_montgomery_violated`, OwUncompressed.lean)
* The part of C128 that fails (b): the call panics exactly if the external function does not decompress the key's point (in particular for a public key read from a text whose bytes are not a point). (`C128_no_point_violated`, OwUncompressed.lean)

## C129 A transaction signed with the package's own function can be completed

* Where C129 fails for Ontology: a signature with n - s below 2^240 is returned with fewer than 64 bytes, and combining answers with an error. (`C129_ontology_violated`, SignEndToEnd.lean)
* Where C129 fails for Ripple: whenever n - s is below 2^240 (s above the half), the signing function returns fewer than 64 bytes, and combining refuses them: no transaction comes out. (`C129_ripple_violated`, SignEndToEnd.lean)

## C130 Signatures made by concurrent signers are those of a single signer

* The two published signatures have the same r and give away a secret: a linear equation between the two private keys whose coefficients are published (s up to its sign). If the library makes ECDSA signatures and no s is within 2^240 of the order (see `C48_low_s_violated`), then `b (h1 + r d1) = a (h2 + r d2)`, where `a` and `b` are the published values s up to sign. Each signer learns the key of the other. (`C130_key_leak_violated`, SignConc.lean)
* C130 is violated: when two calls store their nonces before either signs, both return successfully and both signatures are made with the nonce of the second request. The first caller's signature is not the one it gets alone, whenever the two nonces have different r. (`C130_nonce_violated`, SignConc.lean)
* The same key in both requests: the key is the solution of a linear equation with published coefficients. (`C130_own_key_violated`, SignConc.lean)
* The recovery byte of the first signature belongs to another nonce: the signature agrees with the proper one for the nonce in use on r and s, and on the last byte exactly when the two nonce points have the same parity. (`C130_recovery_violated`, SignConc.lean)

## C131 Creating a Filenet transfer leaves the caller's list of payments as it was

* C131 is violated: whenever the sender is an address and the payments are not in ascending order, the caller's slice is reordered, also when the call then fails. (`C131_reordered_violated`, FilenetMemory.lean)

## C132 A Filenet transfer does not depend on the order in which the payments are listed

* C132 is violated: two payments of different amounts to one address, listed in the two possible orders, give two different transactions. The hypothesis on the sorting algorithm (two entries with equal addresses stay where they are) is what `sort.Sort` does with two entries. (`C132_same_address_violated`, FilenetMemory.lean)

## C133 A Bech32m address is a text of ASCII characters

* C133 fails: a Chia address written in capitals with the Kelvin sign for the letter K, which no other decoder takes for the same text, is accepted. (`C133_ascii_only_violated`, Bech32mText.lean)

## C134 AddressDecode accepts exactly the Bech32 addresses of its profile

* C134 fails: a text with neither prefix nor separator is accepted; its first character is skipped. (`C134_no_separator_violated`, Bech32Lang.lean)
* C134 fails: the padding bits are not looked at. Every 32-byte payload has sixteen accepted texts of one and the same prefix and version. (`C134_padding_violated`, Bech32Lang.lean)
* C134 fails: the version symbol is not looked at. A text with any version symbol is accepted, as the payload of the profile's version. (`C134_version_violated`, Bech32Lang.lean)

## C135 AddressDecode accepts exactly the cashaddr addresses of Bitcoin Cash

* C135 fails: a text in capital letters is accepted without a look at the checksum. Here the last character of an address has been altered. (`C135_capitals_violated`, Bech32Lang.lean)
* C135 fails: with no separator nothing is checked at all. Any 43 characters of the alphabet are accepted, whatever they are. (`C135_no_separator_violated`, Bech32Lang.lean)

## C137 AddressDecode accepts exactly the Chia addresses

* C137 fails: every text written for another prefix is accepted with an empty payload instead of an error. (`C137_foreign_violated`, Bech32mLang.lean)

## C138 Ethereum addresses are accepted only in the capitalisation of EIP-55

* C138 fails: no capitalisation is checked. Whatever text EIP-55 prescribes for twenty bytes, and whatever letter of it is written in the other case, the wrong text is accepted as well and stands for the same bytes. (`C138_checksum_violated`, Eip55.lean)

## C139 The Bitcoin decoder accepts only serialised transactions and loses nothing

* C139 fails for multisig inputs without witness data: two different byte strings are read as the same transaction. The unlocking script of one is the script of the other together with its three length bytes. (`C139_collision_violated`, BtcParse.lean)
* C139 fails from 253 on: a byte string read as an unsigned transaction with that many inputs or outputs, or with such a script, is not the standard serialisation of any transaction with these inputs and outputs. (`C139_counts_violated`, BtcParse.lean)
* C139 fails for P2SH-P2WPKH inputs: serialising the decoded transaction never gives the bytes it was read from. (`C139_nested_violated`, BtcParse.lean)

## C140 Creating a transaction never crashes

* C140 is false, in every one of these packages and whatever the network: a payment to the empty address crashes as soon as the inputs are in order. (`C140_empty_violated`, CreatePanicOther.lean)

## C141 Hashing, inserting signatures and verifying never crash

* C141 is false for inserting: for every insertion that succeeds with a signed transaction, in each of the packages, giving the same records but only the first `k` of them (at least one) panics instead of reporting that signatures are missing. (`C141_insert_few_violated`, SignPanic.lean)
* C141 is false for inserting, second case: for every insertion that succeeds, replacing the `k`-th record by one with neither single nor multisig part, or by one whose 64-byte signature has a half that is zero, panics. (`C141_insert_zero_violated`, SignPanic.lean)
* C141 is false for verifying: take any transaction with one input that verifies against unlocking data for a P2PKH output. Verifying it against unlocking data for a multisig output instead (any `required` of `keys`) panics instead of answering false. The curve must not accept an empty signature. (`C141_verify_key_as_multi_violated`, SignPanicVerify.lean)
* The other way round: a transaction with one input that verifies without segwit against unlocking data for a multisig output makes the call panic when it is verified against unlocking data for a P2PKH output. (`C141_verify_multi_as_key_violated`, SignPanicVerify.lean)
* C141 is false for verifying, third case: there is a transaction text that makes the call panic whatever the unlocking data of its only input, as long as they are for a P2PKH output and accepted: the unlocking script is the three bytes fd 00 00. (`C141_verify_script_violated`, SignPanicVerify.lean)

## C142 Completing a transaction never crashes

* Where C142 fails (d): Filenet, a text of 44 bytes that announces more payments than memory can hold. (`C142_filenet_count_violated`, CombineViolated.lean)
* Where C142 fails (a): a public key that is not a point of the curve panics in WaykiChain, Ripple, Elastos, Ontology and Metaverse, whatever the signature is, instead of being refused. (`C142_key_violated`, CombineViolated.lean)
* Where C142 fails (e): MOAC panics for the empty text with a signature that is right for it. (`C142_moac_empty_violated`, CombineViolated.lean)
* Where C142 fails (c): Vollar writes the signatures before it has checked them. A transaction the package made itself, with two inputs, and two signatures of which one is all zero, panics for every curve. (`C142_vollar_zero_violated`, CombineViolated.lean)
* Where C142 fails (b): WaykiChain panics for the empty text and for a known type alone, whatever the key and the signature are. (`C142_wayki_short_violated`, CombineViolated.lean)

## C143 The Bytom functions never crash

* C143 is false of texts cut off in the time range: every function that reads one crashes. (`C143_cut_violated`, BytomPanicCreate.lean)
* C143 is false of transactions with a control program of one byte, whichever it is: the text is read, but asking for its hashes crashes; so does verifying it, and so does inserting a record without its data. (`C143_program_violated`, BytomPanicCreate.lean)
* C143 is false of receivers: a text of fewer than two characters makes the creation crash, whatever the inputs are. (`C143_receiver_violated`, BytomPanicCreate.lean)

## C144 The functions of the older Bitcoin driver never crash

* C144 is false: if hashes can be computed, they crash once the locking script of one of the inputs has lost its two last bytes (that of a key hash is `76 a9 14`, the hash, `88 ac`). (`C144_cut_script_violated`, BtcLikePanicUse.lean)
* C144 is false: whatever the transaction, as soon as its transaction ids are in order, an output to the empty address crashes the creation. (`C144_empty_violated`, BtcLikePanicUse.lean)

## C145 The texts of every address profile start as that network documents

* C145 is false under these profiles: no payload at all gives a text with the documented start (the texts start with other characters, always the same). (`C145_never_violated`, Starts.lean)
* C145 is false under three more profiles: the texts start with the documented characters or with others, and both occur. (`C145_sometimes_violated`, Starts.lean)

## C146 A Base58 text of one kind or network is not accepted as one of another

* C146 is false for these profiles of different coins or networks: each of them accepts exactly the same texts as the others of its group, with the same results. (`C146_shared_violated`, Starts.lean)

## C147 An extended key is read from one text only

* C147 (e), the part that fails. Every public key of 33 bytes on a BLS curve is read from a text under the version prefix of the other curves. `OWEncode` writes another text for it, and that text `OWDecode` rejects. (`C147_bls_short_violated`, OwText.lean)
* C147 (f), the part that fails. Every public key of 48 bytes on a curve that is neither a BLS curve nor one of the zero-padded ones is read from a text under the version prefix of the BLS curves. `OWEncode` writes another text for it, and that text `OWDecode` rejects. (`C147_long_plain_violated`, OwText.lean)

## C148 AddressCheck accepts every address the library makes for that coin

* C148 is false for Bitcoin Cash when only the 20-byte hash is given, as for all other coins: the address made is refused. (`C148_cash_hash_violated`, AddrAccept.lean)
* C148 is false for Nebulas contracts: an address is accepted exactly when it starts with "n2", refused when it starts with "n1", and both occur. (`C148_nebulas_violated`, AddrAccept.lean)
* C148 is false under these profiles of the same coins: every address is refused, whatever public key or hash it is made of. (`C148_refuses_violated`, AddrAccept.lean)
