{
 "claims": [
  {
   "property": "C01",
   "status": "proved",
   "theorems": [
    "Verif.C01_base58_roundtrip"
   ],
   "note": "All alphabets, all lengths; scratch buffer bounds are part of the model (panic outcome)."
  },
  {
   "property": "C02",
   "status": "proved",
   "theorems": [
    "Verif.C02_base58_decode_total",
    "Verif.C02_base58_canonical",
    "Verif.C02_base58_decode_injective"
   ],
   "note": ""
  },
  {
   "property": "C03",
   "status": "proved",
   "theorems": [
    "Verif.C03_base58check_roundtrip",
    "Verif.C03_base58check_roundtrip_custom",
    "Verif.C03_prefixed_roundtrip",
    "Verif.C03_monero_roundtrip"
   ],
   "note": "Hash functions are an arbitrary family with the documented digest lengths."
  },
  {
   "property": "C04",
   "status": "proved",
   "theorems": [
    "Verif.C04_accepted_iff_wellformed",
    "Verif.C04_accepted_text_unique",
    "Verif.C04_versions_disjoint"
   ],
   "note": ""
  },
  {
   "property": "C05",
   "status": "partial",
   "theorems": [
    "Verif.C05_decode_panics_violated",
    "Verif.C05_decode_no_panic_partial",
    "Verif.C05_panic_base58",
    "Verif.C05_panic_bech32",
    "Verif.C05_panic_cashaddr",
    "Verif.C05_panic_other"
   ],
   "note": "False as stated (panics on short texts, witnesses for every hash family); proved for texts of minimal length, for every profile. C05_panic_base58, C05_panic_bech32, C05_panic_cashaddr and C05_panic_other say exactly which texts crash, for every profile."
  },
  {
   "property": "C06",
   "status": "partial",
   "theorems": [
    "Verif.C06_exact_base58",
    "Verif.C06_check_sound_partial",
    "Verif.C06_unknown_symbol_violated",
    "Verif.C06_check_panics_violated",
    "Verif.C06_check_returns_partial"
   ],
   "note": "False as stated (unknown symbols accepted, short texts panic); soundness for supported coins and termination on long enough texts proved. C06_exact_base58: for the seven coins with Base58 addresses only, true exactly for the texts that decode."
  },
  {
   "property": "C07",
   "status": "partial",
   "theorems": [
    "Verif.C07_bech32_roundtrip_partial",
    "Verif.C07_versionless_32_violated"
   ],
   "note": "False for 32-byte hashes under version-less profiles (shifted by 4 bits, proved for all); all other cases proved."
  },
  {
   "property": "C08",
   "status": "proved",
   "theorems": [
    "Verif.C08_bech32_checksum_verifies",
    "Verif.C08_bech32m_checksum_verifies",
    "Verif.C08_cashaddr_checksum_verifies"
   ],
   "note": ""
  },
  {
   "property": "C09",
   "status": "proved",
   "theorems": [
    "Verif.C09_bech32_single_error",
    "Verif.C09_cashaddr_single_error",
    "Verif.C09_bech32m_single_error",
    "Verif.C09_bech32m_text_single_error"
   ],
   "note": "bech32 and cashaddr at text level; bech32m at symbol level."
  },
  {
   "property": "C10",
   "status": "partial",
   "theorems": [
    "Verif.C10_bech32_foreign_network_violated",
    "Verif.C10_cashaddr_foreign_prefix_violated",
    "Verif.C10_bech32m_foreign_prefix_violated",
    "Verif.C10_bech32_checksum_partial",
    "Verif.C10_bech32m_own_prefix_partial"
   ],
   "note": "False as stated: foreign networks are accepted (proved for every pair of profiles). Proved: own checksum always correct."
  },
  {
   "property": "C11",
   "status": "proved",
   "theorems": [
    "Verif.C11_convertbits_roundtrip",
    "Verif.C11_bech32m_roundtrip"
   ],
   "note": ""
  },
  {
   "property": "C12",
   "status": "partial",
   "theorems": [
    "Verif.C12_cashaddr_roundtrip_partial",
    "Verif.C12_bare_hash_violated",
    "Verif.C12_type_byte_violated"
   ],
   "note": "False for bare 20-byte hashes (re-hashed) and type bytes other than 0; proved for type 0 + hash."
  },
  {
   "property": "C13",
   "status": "partial",
   "theorems": [
    "Verif.C13_icx_roundtrip",
    "Verif.C13_eip55_roundtrip_partial",
    "Verif.C13_eip55_address_rehashed_violated",
    "Verif.C13_malformed_rejected"
   ],
   "note": "ICX proved; eip55 proved for 32-byte digests, false for 20-byte addresses (re-hashed); malformed texts rejected (proved)."
  },
  {
   "property": "C14",
   "status": "partial",
   "theorems": [
    "Verif.C14_owkey_roundtrip",
    "Verif.C14_short_private_key_violated",
    "Verif.C14_ed25519_normal_violated",
    "Verif.C14_read_back_exact"
   ],
   "note": "Proved for well-formed keys of every curve; false for every private key shorter than 32 bytes and for some ed25519-labelled keys (proved). C14_read_back_exact: the exact condition for every key."
  },
  {
   "property": "C15",
   "status": "partial",
   "theorems": [
    "Verif.C15_commute_weierstrass_partial",
    "Verif.C15_commute_ed25519"
   ],
   "note": "ed25519 family: proved for every seed and path. Weierstrass curves: proved when parent and child scalars are 32 bytes (C18 shows this is not guaranteed). Curve arithmetic enters as a stated group law."
  },
  {
   "property": "C16",
   "status": "partial",
   "theorems": [
    "Verif.C16_no_private_from_public",
    "Verif.C16_no_hardened_from_public",
    "Verif.C16_depth_private_partial",
    "Verif.C16_depth_public_violated"
   ],
   "note": "Guards proved; depth overflow is rejected for private parents and wraps to 0 for public parents (proved violation)."
  },
  {
   "property": "C17",
   "status": "proved",
   "theorems": [
    "Verif.C17_ed25519_scalars"
   ],
   "note": "Every seed, path and HMAC function."
  },
  {
   "property": "C18",
   "status": "partial",
   "theorems": [
    "Verif.C18_private_child_partial",
    "Verif.C18_short_child_key_violated",
    "Verif.C18_child_text_violated"
   ],
   "note": "False: children below 2^240 are stored in fewer than 32 bytes (exact), and the serialised child is read back exactly when its number is at least 2^240 and refused otherwise."
  },
  {
   "property": "C19",
   "status": "partial",
   "theorems": [
    "Verif.C19_path_denotes",
    "Verif.C19_relative_path_denotes",
    "Verif.C19_spaces_ignored",
    "Verif.C19_out_of_range_violated",
    "Verif.C19_accepted_shape_partial"
   ],
   "note": "Every path of in-range components denotes the fold of its children; out-of-range and negative components are silently accepted (proved violation)."
  },
  {
   "property": "C20",
   "status": "partial",
   "theorems": [
    "Verif.C20_signed_exact",
    "Verif.C20_create_decode",
    "Verif.C20_signed_roundtrip_partial",
    "Verif.C20_p2wpkh_violated",
    "Verif.C20_small_multisig_violated"
   ],
   "note": "Create/decode proved for up to 255 inputs and outputs, all flags. Signed transactions: proved for the kinds in GoodIn; false for P2SH-P2WPKH and short P2SH multisig scripts (proved). C20_signed_exact says what any mixture of these kinds is decoded to, and that it is the encoded transaction iff no input is of the two kinds."
  },
  {
   "property": "C21",
   "status": "proved",
   "theorems": [
    "Verif.C21_sequence"
   ],
   "note": "All inputs."
  },
  {
   "property": "C22",
   "status": "partial",
   "theorems": [
    "Verif.C22_standard_serialisation_partial",
    "Verif.C22_counts_violated",
    "Verif.C22_wrapped_count_violated"
   ],
   "note": "Standard serialisation proved below 253 inputs/outputs/script bytes; false from 253 (non-standard count byte) and wraps at 256."
  },
  {
   "property": "C23",
   "status": "partial",
   "theorems": [
    "Verif.C23_no_panic_partial",
    "Verif.C23_no_panic_hex_partial",
    "Verif.C23_truncated_sequence_violated",
    "Verif.C23_truncated_witness_violated",
    "Verif.C23_verify_panics_violated",
    "Verif.C23_panic_exact",
    "Verif.C23_panic_hex_exact"
   ],
   "note": "Characterised exactly: C23_panic_exact and C23_panic_hex_exact say for which bytes the decoder panics (if and only if): segwit on, and the beginning of a witness transaction ending right behind the item count 04 of a multisig input's witness (Spec/Cut.lean). With fewer than 6 bytes of spare capacity truncated sequence numbers panic as well (proved)."
  },
  {
   "property": "C24",
   "status": "partial",
   "theorems": [
    "Verif.C24_btclike_exact",
    "Verif.C24_encode_canonical",
    "Verif.C24_roundtrip_partial",
    "Verif.C24_short_s_violated",
    "Verif.C24_sigtype_violated",
    "Verif.C24_zero_violated",
    "Verif.C24_exact"
   ],
   "note": "Encoding always canonical; a signature and key are read back unchanged exactly if r < 2^247 or the padding of s hides nothing (C24_exact; always so for s >= 2^231); false for short s, sig types and zero (proved). The same for btcLikeTxDriver: C24_btclike_exact."
  },
  {
   "property": "C25",
   "status": "partial",
   "theorems": [
    "Verif.C25_btclike_language",
    "Verif.C25_malleable_violated",
    "Verif.C25_first_byte_violated",
    "Verif.C25_shape_partial",
    "Verif.C25_language",
    "Verif.C25_signature"
   ],
   "note": "False: non-canonical DER accepted. Exactly what is accepted, and as what: C25_language (scripts of one key), C25_signature (one signature of a multisignature script), C25_btclike_language (btcLikeTxDriver, type 1 only)."
  },
  {
   "property": "C26",
   "status": "partial",
   "theorems": [
    "Verif.C26_low_s_partial",
    "Verif.C26_width_violated"
   ],
   "note": "Low-s proved; width of the result violated for small values (proved)."
  },
  {
   "property": "C27",
   "status": "partial",
   "theorems": [
    "Verif.C27_roundtrip_partial",
    "Verif.C27_sixteen_keys_violated",
    "Verif.C27_uncompressed_violated"
   ],
   "note": "Proved for up to 15 compressed keys; 16 always rejected; uncompressed keys accepted but unparseable."
  },
  {
   "property": "C28",
   "status": "partial",
   "theorems": [
    "Verif.C28_last_key_violated",
    "Verif.C28_each_signature_partial",
    "Verif.C28_one_key_violated",
    "Verif.C28_api_violated"
   ],
   "note": "False: one key suffices for 2-of-n (general theorems for verifyOne and for the API: the last key alone satisfies every policy, C28_last_key_violated, and a concrete witness). Proved: exact condition under which verifyOne accepts."
  },
  {
   "property": "C29",
   "status": "partial",
   "theorems": [
    "Verif.C29_p2pkh_partial",
    "Verif.C29_multisig_partial",
    "Verif.C29_p2sh_p2wpkh_partial",
    "Verif.C29_p2wpkh_partial",
    "Verif.C29_p2wsh_partial",
    "Verif.C29_long_redeem_violated"
   ],
   "note": "Proved for all five kinds below 253 inputs/outputs/script bytes; false for redeem scripts of 253 bytes or more."
  },
  {
   "property": "C30",
   "status": "partial",
   "theorems": [
    "Verif.C30_base58_script_partial",
    "Verif.C30_bech32_script_partial",
    "Verif.C30_no_version_violated",
    "Verif.C30_version_ignored_violated",
    "Verif.C30_other_network_violated",
    "Verif.C30_zcash_violated",
    "Verif.C30_short_address_violated"
   ],
   "note": "Proved for matching networks; version bytes and networks are not checked otherwise (violations proved)."
  },
  {
   "property": "C31",
   "status": "partial",
   "theorems": [
    "Verif.C31_history_partial",
    "Verif.C31_bytes_violated",
    "Verif.C31_two_reads_partial",
    "Verif.C31_second_read_violated"
   ],
   "note": "False: reading the id reverses it in place, in the decoded transaction and in the caller's raw bytes (the inputs are parts of them). For every history of reads it is proved what each read returns and what the raw bytes then decode to."
  },
  {
   "property": "C32",
   "status": "partial",
   "theorems": [
    "Verif.C32_compact_partial",
    "Verif.C32_zero_violated",
    "Verif.C32_large_violated"
   ],
   "note": "Proved for 0 < v < 2^30 etc. (C32_compact_partial); C32_zero_violated and C32_large_violated show the classes of values for which the encoding is not SCALE compact."
  },
  {
   "property": "C33",
   "status": "proved",
   "theorems": [
    "Verif.C33_era"
   ],
   "note": ""
  },
  {
   "property": "C34",
   "status": "partial",
   "theorems": [
    "Verif.C34_combine_partial",
    "Verif.C34_complete_partial",
    "Verif.C34_empty_success_violated",
    "Verif.C34_empty_exact_partial"
   ],
   "note": "Sound and complete for amounts, nonces and tips up to 2^64 - 2^56 (above, C32 fails). Success with the empty text happens exactly if the sender key is not the text of 32 bytes (C34_empty_exact_partial), which the second half of the property denies (C34_empty_success_violated)."
  },
  {
   "property": "C35",
   "status": "partial",
   "theorems": [
    "Verif.C35_fixed_size",
    "Verif.C35_memo_partial",
    "Verif.C35_long_memo_violated",
    "Verif.C35_address_partial",
    "Verif.C35_bad_address_violated",
    "Verif.C35_last_output"
   ],
   "note": "Proved for all fixed-size message types, memos up to 54 bytes and valid addresses, plus the position of the payload in the transaction text. False otherwise: memos of 55 bytes or more give a script that is not one push (C35_long_memo_violated), invalid addresses give a payload with nothing but the marker (C35_bad_address_violated)."
  },
  {
   "property": "C36",
   "status": "partial",
   "theorems": [
    "Verif.C36_payment_partial",
    "Verif.C36_tag_violated",
    "Verif.C36_amount_violated",
    "Verif.C36_long_memo_violated"
   ],
   "note": "Proved against an independent reader of the XRP binary format for tags below 2^32, amounts and fees below 2^62 drops, memo texts up to 192 bytes. Outside of these bounds it is false, for every such input: C36_tag_violated, C36_amount_violated, C36_long_memo_violated."
  },
  {
   "property": "C37",
   "status": "proved",
   "theorems": [
    "Verif.C37_hash",
    "Verif.C37_combine",
    "Verif.C37_combine_read"
   ],
   "note": "Hash and combining in full: C37_combine has no bounds on the fields; C37_combine_read adds, within the bounds of C36, how the combined transaction is read. r, s non-zero."
  },
  {
   "property": "C38",
   "status": "partial",
   "theorems": [
    "Verif.C38_roundtrip_partial",
    "Verif.C38_attachment_violated",
    "Verif.C38_recipient_length_violated",
    "Verif.C38_decode_canonical",
    "Verif.C38_verify",
    "Verif.C38_sign"
   ],
   "note": "Proved for transactions without attachment and a recipient of 26 bytes; both exceptions are shown to break the round trip (C38_attachment_violated, C38_recipient_length_violated). Every accepted byte string is the canonical encoding of what it decodes to (C38_decode_canonical)."
  },
  {
   "property": "C39",
   "status": "partial",
   "theorems": [
    "Verif.C39_unsigned_partial",
    "Verif.C39_signed_partial",
    "Verif.C39_one_signature_violated",
    "Verif.C39_long_script_violated",
    "Verif.C39_decode_canonical",
    "Verif.C39_combine_partial",
    "Verif.C39_recombine_violated"
   ],
   "note": "Unsigned transactions round trip for scripts of 1-255 bytes; two or more signatures all come back but regrouped; combining into an unsigned transaction keeps all signatures and verifies each. False for exactly one signature (never decodes), for longer scripts, and when combining into an already signed transaction (new signatures dropped): C39_*_violated."
  },
  {
   "property": "C40",
   "status": "partial",
   "theorems": [
    "Verif.C40_uint64",
    "Verif.C40_bigint_partial",
    "Verif.C40_negative_violated"
   ],
   "note": "All uint64 amounts (C40_uint64); big integers: all that are not negative and part of the negative ones (C40_bigint_partial); the remaining negative ones are provably wrong (C40_negative_violated)."
  },
  {
   "property": "C41",
   "status": "partial",
   "theorems": [
    "Verif.C41_roundtrip_partial",
    "Verif.C41_prefix_free_partial",
    "Verif.C41_negative_violated"
   ],
   "note": "Round trip and prefix-freedom for every number that is not negative; negative numbers are accepted and encoded like their remainder modulo 128 (C41_negative_violated)."
  },
  {
   "property": "C42",
   "status": "proved",
   "theorems": [
    "Verif.C42_combine",
    "Verif.C42_hash_commits"
   ],
   "note": "Proved for all four types; the signature has 64 bytes with two non-zero halves. Equal hashes mean equal transactions, or a collision (C42_hash_commits)."
  },
  {
   "property": "C43",
   "status": "partial",
   "theorems": [
    "Verif.C43_regid_general",
    "Verif.C43_regid_partial",
    "Verif.C43_accepted",
    "Verif.C43_source_checked",
    "Verif.C43_overflow_violated",
    "Verif.C43_space_violated",
    "Verif.C43_unchecked_violated"
   ],
   "note": "Proved for ids without surrounding white space and with numbers below 2^63 (C43_regid_partial; C43_accepted characterises the accepted texts). False for larger numbers, for white space, and for coin transfers, where nothing is checked (C43_*_violated)."
  },
  {
   "property": "C44",
   "status": "partial",
   "theorems": [
    "Verif.C44_rlp_injective",
    "Verif.C44_unsigned_partial",
    "Verif.C44_address_checked",
    "Verif.C44_small_violated",
    "Verif.C44_sign_violated"
   ],
   "note": "Unsigned: proved for amounts, limits and prices that are 0 or at least 128 and have at most 55 bytes (C44_unsigned_partial); signed: see C45_combine_partial. False for values 1 to 127 (no RLP list at all, C44_small_violated) and for negative ones (sign lost, C44_sign_violated). RLP itself is proved injective."
  },
  {
   "property": "C45",
   "status": "partial",
   "theorems": [
    "Verif.C45_verified",
    "Verif.C45_combine_partial",
    "Verif.C45_long_violated"
   ],
   "note": "Success implies a verified signature of the given key (C45_verified). Completeness for transactions of at most 56 bytes (C45_combine_partial); from 57 to 130 bytes combining always refuses (C45_long_violated)."
  },
  {
   "property": "C46",
   "status": "proved",
   "theorems": [
    "Verif.C46_canonical",
    "Verif.C46_complete"
   ],
   "note": "Proved for all external operations with 64-byte signatures: soundness (65 bytes, header, canonical r and s, recovery) and completeness within 25 attempts."
  },
  {
   "property": "C47",
   "status": "proved",
   "theorems": [
    "Verif.C47_range_check",
    "Verif.C47_key_refused"
   ],
   "note": "Proved for all strings of at least 32 bytes, both word widths, and for the signing call."
  },
  {
   "property": "C48",
   "status": "partial",
   "theorems": [
    "Verif.C48_first_nonce",
    "Verif.C48_first_round",
    "Verif.C48_repeated_nonce",
    "Verif.C48_progress_violated",
    "Verif.C48_low_s_partial",
    "Verif.C48_low_s_violated"
   ],
   "note": "Progress violated (every round repeats the first nonce block; the call panics after 2^27-1 rounds); low S and recovery flag proved unless n-s < 2^240, where the s field is provably wrong."
  },
  {
   "property": "C49",
   "status": "proved",
   "theorems": [
    "Verif.C49_first_wins",
    "Verif.C49_nil_panics",
    "Verif.C49_builtin"
   ],
   "note": "Proved for all registration histories and any upper-casing function; built-in signers proved stable for ASCII upper-casing."
  },
  {
   "property": "C50",
   "status": "proved",
   "theorems": [
    "Verif.C50_crc",
    "Verif.C50_accepts",
    "Verif.C50_complete",
    "Verif.C50_typo",
    "Verif.C50_line_breaks"
   ],
   "note": "Proved in full for all byte strings and texts, plus: every key has an address, and up to four adjacent wrong characters are always detected. Line breaks after the first character are ignored by the decoder (C50_line_breaks), and the empty text panics."
  },
  {
   "property": "C51",
   "status": "proved",
   "theorems": [
    "Verif.C51_hashes"
   ],
   "note": "Holds in full."
  },
  {
   "property": "C52",
   "status": "partial",
   "theorems": [
    "Verif.C52_layout",
    "Verif.C52_decode",
    "Verif.C52_roundtrip_partial",
    "Verif.C52_total_violated",
    "Verif.C52_address_violated",
    "Verif.C52_alloc_violated",
    "Verif.C52_combine"
   ],
   "note": "Layout, decoding and combining characterised exactly for all inputs. The full round trip holds when the amounts add up to less than 2^64 and the addresses are in their usual form; violated otherwise (total wraps modulo 2^64; capital-letter hex addresses are rewritten; a huge count kills the decoder). The sorting algorithm is a parameter (any sorted permutation)."
  },
  {
   "property": "C53",
   "status": "proved",
   "theorems": [
    "Verif.C53_combine",
    "Verif.C53_combine_omni",
    "Verif.C53_count"
   ],
   "note": "Holds in full (plain and token transfers)."
  },
  {
   "property": "C54",
   "status": "partial",
   "theorems": [
    "Verif.C54_verge_partial",
    "Verif.C54_vollar_partial",
    "Verif.C54_verge_id_violated",
    "Verif.C54_vollar_id_violated",
    "Verif.C54_verge_scripts",
    "Verif.C54_vollar_scripts",
    "Verif.C54_verge_empty_violated",
    "Verif.C54_verge_address_violated",
    "Verif.C54_verge_limits_violated",
    "Verif.C54_vollar_limits_violated"
   ],
   "note": "Proved for 1-255 inputs with 32-byte ids and (Verge) standard addresses: the text decodes to the same content and the recomputed hashes equal the returned ones. False beyond that: ids of other lengths, Verge transactions without inputs and payments to Verge addresses whose payload is not 20 bytes (for all inputs and payloads) are accepted but cannot be decoded. Every request with an id of another length or more than 255 inputs or outputs is lost (C54_verge_limits_violated, C54_vollar_limits_violated)."
  },
  {
   "property": "C55",
   "status": "partial",
   "theorems": [
    "Verif.C55_elastos_partial",
    "Verif.C55_elastos_violated",
    "Verif.C55_elastos_key_violated",
    "Verif.C55_mateverse_partial",
    "Verif.C55_mateverse_empty_violated",
    "Verif.C55_mateverse_swap_violated",
    "Verif.C55_ontology_partial",
    "Verif.C55_ontology_violated"
   ],
   "note": "Ontology, Elastos, Metaverse: every signature given is verified, but an empty list is accepted, the payers/inputs are not compared with the list, and Metaverse does not recompute the hash (the _violated theorems); those parts of the property are false of the code."
  },
  {
   "property": "C56",
   "status": "partial",
   "theorems": [
    "Verif.C56_bech32_upper_case_violated",
    "Verif.C56_cashaddr_upper_case_unchecked_violated",
    "Verif.C56_bech32m_upper_case_partial",
    "Verif.C56_bech32_capitals_violated",
    "Verif.C56_cashaddr_capitals_violated",
    "Verif.C56_cashaddr_same_partial"
   ],
   "note": "False for bech32: the capital form of every accepted text is refused unless the length of its prefix is a multiple of 1023 (exact, for all texts). False for cashaddr: in capitals the checksum can be anything (for all texts); a good text decodes alike in capitals. Proved for bech32m."
  },
  {
   "property": "C57",
   "status": "partial",
   "theorems": [
    "Verif.C57_eos_alias_violated",
    "Verif.C57_monero_two_texts_violated",
    "Verif.C57_aeternity_unique_partial"
   ],
   "note": "False for EOS and Monero; proved for aeternity."
  },
  {
   "property": "C58",
   "status": "proved",
   "theorems": [
    "Verif.C58_owdecode_total"
   ],
   "note": "All texts, all hash families."
  },
  {
   "property": "C59",
   "status": "partial",
   "theorems": [
    "Verif.C59_coin_keys_ed25519",
    "Verif.C59_coin_keys_weierstrass_partial"
   ],
   "note": "ed25519 family proved; Weierstrass curves conditional on 32-byte keys."
  },
  {
   "property": "C60",
   "status": "partial",
   "theorems": [
    "Verif.C60_owchain_roundtrip",
    "Verif.C60_owchain_total",
    "Verif.C60_owchain_language",
    "Verif.C60_owchain_no_checksum_violated",
    "Verif.C60_owchain_bls_violated"
   ],
   "note": "Proved: 33-byte and 32-byte public keys round trip, the texts read are exactly the texts written for such shares, no panic. False: without a checksum, replacing the last symbol of (almost) any share text by any other symbol gives a text read as a share with another curve type; BLS shares are undecodable."
  },
  {
   "property": "C61",
   "status": "partial",
   "theorems": [
    "Verif.C61_exact_partial",
    "Verif.C61_any_key_violated",
    "Verif.C61_wrong_key_violated",
    "Verif.C61_wrong_redeem_violated",
    "Verif.C61_signature_partial",
    "Verif.C61_any_redeem_violated"
   ],
   "note": "False: neither the key nor the redeem script is compared with the locking script (C61_any_key_violated for every transaction, hash and curve; two concrete forgeries). Proved: for transactions completed by the API, of all input kinds, VerifyRawTransaction answers and accepts exactly if the signatures of every input are right for its message (C61_exact_partial); every accepted single-key input carries a signature that verifies under the key in its script. For every hash and curve, other keys' redeem script is accepted: C61_any_redeem_violated."
  },
  {
   "property": "C62",
   "status": "partial",
   "theorems": [
    "Verif.C62_kinds_partial",
    "Verif.C62_variants_partial",
    "Verif.C62_empty_text_violated"
   ],
   "note": "Exactly: a call without an error returns the empty text if and only if some output to spend is of an unknown kind (C62_kinds_partial, C62_variants_partial for BCH, BSV, CXC; never for Horizen); any other result is bytes starting with the version. False for unknown kinds (C62_empty_text_violated)."
  },
  {
   "property": "C63",
   "status": "partial",
   "theorems": [
    "Verif.C63_count",
    "Verif.C63_all_inputs_partial",
    "Verif.C63_short_multisig_violated",
    "Verif.C63_witness_keys_violated",
    "Verif.C63_sign_verify_partial"
   ],
   "note": "Proved for all mixtures of P2PKH, nested and native P2WPKH, P2SH and P2SH-P2WSH multi-signature inputs, with signatures in the range of C24. Proved false of multi-signature scripts of at most 108 bytes (short signatures) and of witnesses for eight keys or more."
  },
  {
   "property": "C64",
   "status": "proved",
   "theorems": [
    "Verif.C64_bech32_is_bip173",
    "Verif.C64_bech32m_is_bip350",
    "Verif.C64_cashaddr_is_spec"
   ],
   "note": "Spec: GF(32) multiplication and polynomial long division written from the standards."
  },
  {
   "property": "C65",
   "status": "partial",
   "theorems": [
    "Verif.C65_ckd_priv_partial",
    "Verif.C65_zero_violated",
    "Verif.C65_ckd_pub",
    "Verif.C65_ed25519_partial"
   ],
   "note": "Partial: the code also refuses I_L = 0, where BIP 32 has a child (C65_zero_violated), and child keys may be shorter than 32 bytes (C18)."
  },
  {
   "property": "C66",
   "status": "partial",
   "theorems": [
    "Verif.C66_base58_partial",
    "Verif.C66_unknown_type",
    "Verif.C66_bech32_recipient_violated"
   ],
   "note": "Proved for Base58 recipients as an equivalence (C66_base58_partial: created iff every recipient decodes under a known prefix), and unknown message types are refused (C66_unknown_type). False for bech32 recipients: C66_bech32_recipient_violated shows that no address with a character outside the Base58 alphabet (0, l, ...) can be a recipient, because a bech32 recipient is decoded as Base58Check afterwards."
  },
  {
   "property": "C67",
   "status": "partial",
   "theorems": [
    "Verif.C67_named_key_partial",
    "Verif.C67_foreign_key_violated"
   ],
   "note": "Holds of the key passed to the call, hence for callers that pass the key named in the transaction (C67_named_key_partial). False in general: the key passed is never compared with the SigningPubKey field (C67_foreign_key_violated)."
  },
  {
   "property": "C69",
   "status": "partial",
   "theorems": [
    "Verif.C69_transfer",
    "Verif.C69_transferV2",
    "Verif.C69_withdraw",
    "Verif.C69_withdrawV2",
    "Verif.C69_addresses_checked",
    "Verif.C69_payer_violated",
    "Verif.C69_address_exists",
    "Verif.C69_read_back",
    "Verif.C69_read_back_violated"
   ],
   "note": "Proved for sender, receiver, token, amount, signers, fees in both API versions (C69_transfer, C69_transferV2, C69_withdraw, C69_withdrawV2, C69_addresses_checked). The clause on the payer is false: its prefix is not checked (C69_payer_violated). The package's getters return the nonce, fee, payer and payload of what was created (C69_read_back) except where C69_read_back_violated says."
  },
  {
   "property": "C70",
   "status": "partial",
   "theorems": [
    "Verif.C70_common_partial",
    "Verif.C70_register_partial",
    "Verif.C70_contract_partial",
    "Verif.C70_ucoin_partial",
    "Verif.C70_long_contract_violated"
   ],
   "note": "Proved for all four types with fields of at most 252 bytes and numbers that fit (C70_*_partial). False for contract data of 253 bytes or more (C70_long_contract_violated)."
  },
  {
   "property": "C71",
   "status": "partial",
   "theorems": [
    "Verif.C71_rfc6979_partial",
    "Verif.C71_width_violated"
   ],
   "note": "Exact as a number; the 32-byte width is violated: the nonce is passed without leading zeros (31 bytes or fewer below 2^248)."
  },
  {
   "property": "C72",
   "status": "partial",
   "theorems": [
    "Verif.C72_dispatch",
    "Verif.C72_low_s_partial",
    "Verif.C72_low_s_violated"
   ],
   "note": "Dispatch proved in full; low S partial: for n-s below 2^240 the result is shorter than 64 bytes (C72_low_s_violated, the padding fault of C26)."
  },
  {
   "property": "C73",
   "status": "partial",
   "theorems": [
    "Verif.C73_layout",
    "Verif.C73_injective_partial",
    "Verif.C73_anchor_violated",
    "Verif.C73_data_violated",
    "Verif.C73_count_violated",
    "Verif.C73_combine",
    "Verif.C73_end_to_end"
   ],
   "note": "Layout, completeness, combining and end-to-end proved in full; injectivity proved for requests that fit the format and violated outside it (anchor length, input count and data length are not checked)."
  },
  {
   "property": "C74",
   "status": "partial",
   "theorems": [
    "Verif.C74_layout",
    "Verif.C74_wire_injective",
    "Verif.C74_injective_partial",
    "Verif.C74_id_length_violated"
   ],
   "note": "The exact result and injectivity for 32-byte ids are proved; ids of other lengths are accepted and collide (C74_id_length_violated)."
  },
  {
   "property": "C75",
   "status": "partial",
   "theorems": [
    "Verif.C75_layout_partial",
    "Verif.C75_omni_partial",
    "Verif.C75_long_script_violated"
   ],
   "note": "Proved in full for spent scripts below 253 bytes; longer ones get a wrong hash (C75_long_script_violated)."
  },
  {
   "property": "C76",
   "status": "partial",
   "theorems": [
    "Verif.C76_vin_list_partial",
    "Verif.C76_many_violated",
    "Verif.C76_253_violated"
   ],
   "note": "Proved for less than 253 inputs. Exactly 253 inputs give a shifted list without an error (C76_253_violated), more are refused (C76_many_violated)."
  },
  {
   "property": "C77",
   "status": "partial",
   "theorems": [
    "Verif.C77_low_s_partial",
    "Verif.C77_low_s_violated",
    "Verif.C77_mateverse_low_s_partial",
    "Verif.C77_mateverse_low_s_violated"
   ],
   "note": "Proved when n - s is at least 2^240; below that the result holds neither s nor n - s (C77_low_s_violated)."
  },
  {
   "property": "C78",
   "status": "proved",
   "theorems": [
    "Verif.C78_inputs",
    "Verif.C78_only"
   ],
   "note": "Holds in full; C78_only describes exactly which texts are accepted (some count encodings the chain does not use are)."
  },
  {
   "property": "C79",
   "status": "partial",
   "theorems": [
    "Verif.C79_hashes_partial",
    "Verif.C79_repeat",
    "Verif.C79_long_script_violated"
   ],
   "note": "Proved for scripts below 253 bytes; longer ones get a wrong hash (C79_long_script_violated). A second call with the inputs the first one left changes nothing (C79_repeat)."
  },
  {
   "property": "C80",
   "status": "proved",
   "theorems": [
    "Verif.C80_combine"
   ],
   "note": "Holds in full when the inputs given are those of the transaction; what happens otherwise is in C55."
  },
  {
   "property": "C81",
   "status": "proved",
   "theorems": [
    "Verif.C81_verge_layout",
    "Verif.C81_limit_many",
    "Verif.C81_limit_long_script"
   ],
   "note": "Beyond the limits in the quantifier the layout is wrong: C81_limit_many (253 or more inputs are counted in one byte), C81_limit_long_script."
  },
  {
   "property": "C82",
   "status": "proved",
   "theorems": [
    "Verif.C82_vollar_layout",
    "Verif.C82_limit_many"
   ],
   "note": "C82_limit_many shows the layout is wrong from 253 inputs on."
  },
  {
   "property": "C83",
   "status": "proved",
   "theorems": [
    "Verif.C83_verge_combine",
    "Verif.C83_vollar_combine"
   ],
   "note": "EC verification and decompression are parameters."
  },
  {
   "property": "C84",
   "status": "partial",
   "theorems": [
    "Verif.C84_low_s_partial",
    "Verif.C84_low_s_violated"
   ],
   "note": "False: when n - s has two or more leading zero bytes the result is shorter than 64 bytes (C84_low_s_violated); everything else proved."
  },
  {
   "property": "C85",
   "status": "proved",
   "theorems": [
    "Verif.C85_blake256_unique",
    "Verif.C85_blake224_unique",
    "Verif.C85_blake256",
    "Verif.C85_blake224",
    "Verif.C85_blake256_salt",
    "Verif.C85_blake224_salt",
    "Verif.C85_double"
   ],
   "note": "blake256block.go is translated step by step; Go slices of the state are lists of words"
  },
  {
   "property": "C86",
   "status": "proved",
   "theorems": [
    "Verif.C86_history",
    "Verif.C86_history_salt",
    "Verif.C86_chunks"
   ],
   "note": "Sum works on a copy of the digest (d := *d0), which the functional model renders as not changing the digest"
  },
  {
   "property": "C87",
   "status": "partial",
   "theorems": [
    "Verif.C87_p2pkh_partial",
    "Verif.C87_multisig_partial",
    "Verif.C87_multisig_old_format_violated",
    "Verif.C87_witness_panics_violated"
   ],
   "note": "P2PKH and multisig with SegwitON hold; false for multisig with SegwitON=false (legacy message is hashed) and for witness inputs (nil dereference, proved)"
  },
  {
   "property": "C88",
   "status": "partial",
   "theorems": [
    "Verif.C88_hc",
    "Verif.C88_cxc_partial",
    "Verif.C88_zen_partial",
    "Verif.C88_zen_script_hash_violated",
    "Verif.C88_zen_not_hex_violated"
   ],
   "note": "false for Horizen: script-hash outputs are reported with a meaningless key-hash address, and locking scripts that are not hex are cut at the first bad digit instead of rejected HyperCash: the three functions agree with those of btcTransaction (C88_hc), so the messages are those of C29."
  },
  {
   "property": "C89",
   "status": "partial",
   "theorems": [
    "Verif.C89_bch_partial",
    "Verif.C89_hc_cxc_partial",
    "Verif.C89_cashaddr_violated",
    "Verif.C89_bech32_violated",
    "Verif.C89_hc_mainnet_violated"
   ],
   "note": "Base58Check addresses proved as an equivalence; false: cashaddr texts (which the package itself prints) are not accepted as recipients, an address with the bech32 prefix makes CXC/HyperCash fail or pay a wrong script, and every HyperCash main-network address (\"Hs...\") is rejected"
  },
  {
   "property": "C90",
   "status": "partial",
   "theorems": [
    "Verif.C90_block_reference_partial",
    "Verif.C90_top_bit_violated",
    "Verif.C90_hash_length_violated"
   ],
   "note": "false for heights whose top byte is 0x80 or more (8388608 to 16777215 for instance: negative number) and for block hashes of another length (accepted); both proved"
  },
  {
   "property": "C91",
   "status": "partial",
   "theorems": [
    "Verif.C91_assets_partial",
    "Verif.C91_long_reference_violated",
    "Verif.C91_limit_spendable"
   ],
   "note": "references of at most 63 bytes; false from 64 bytes on (the length byte is not a push opcode), and spendable exactly for 16-byte references (C91_limit_spendable)"
  },
  {
   "property": "C92",
   "status": "partial",
   "theorems": [
    "Verif.C92_exact_partial",
    "Verif.C92_any_key_violated",
    "Verif.C92_sign_verify_partial",
    "Verif.C92_verified_partial",
    "Verif.C92_wrong_key_violated",
    "Verif.C92_all_inputs_partial",
    "Verif.C92_last_key_violated",
    "Verif.C92_any_redeem_violated"
   ],
   "note": "BCH, BSV, CXC, HC: all mixtures of the input kinds each package supports, any signature type, exact condition of acceptance (C92_exact_partial, C92_all_inputs_partial); Horizen: P2PKH inputs. Verification does not compare the key with the output spent (C92_any_key_violated for every transaction, C92_wrong_key_violated). For every hash and curve: signatures of the last key alone suffice (C92_last_key_violated), and so do those of other keys with their own redeem script (C92_any_redeem_violated)."
  },
  {
   "property": "C93",
   "status": "partial",
   "theorems": [
    "Verif.C93_omni_partial",
    "Verif.C93_script_address_violated",
    "Verif.C93_long_text_violated",
    "Verif.C93_bad_address_violated"
   ],
   "note": "C93_omni_partial covers all twelve message types. False for texts of 55 bytes or more (C93_long_text_violated), unreadable freeze addresses (C93_bad_address_violated), and addresses under the third prefix, which only plain transfers accept (C93_script_address_violated)."
  },
  {
   "property": "C94",
   "status": "partial",
   "theorems": [
    "Verif.C94_sign_document_partial",
    "Verif.C94_no_fee_violated",
    "Verif.C94_fee_dropped_violated",
    "Verif.C94_zero_coin_violated",
    "Verif.C94_fee_reuse_violated"
   ],
   "note": "proved for UTF-8 texts, non-zero transfers, and fees of non-zero coins or one zero coin; violated: no fee coin (panic), first fee coin zero (all dropped), other zero coins (empty amount and denomination), second use of a zero fee (panic)"
  },
  {
   "property": "C95",
   "status": "partial",
   "theorems": [
    "Verif.C95_sign_text_injective_partial",
    "Verif.C95_not_utf8_violated"
   ],
   "note": "proved for UTF-8 texts; texts with other bytes collide (C95_not_utf8_violated)"
  },
  {
   "property": "C96",
   "status": "proved",
   "theorems": [
    "Verif.C96_cosmos_send",
    "Verif.C96_evaio_send"
   ],
   "note": "for UTF-8 texts, as in C95"
  },
  {
   "property": "C97",
   "status": "partial",
   "theorems": [
    "Verif.C97_sign_verify_partial",
    "Verif.C97_width_violated",
    "Verif.C97_failure_panics_violated",
    "Verif.C97_refusals"
   ],
   "note": "violated: n - s below 2^240 gives fewer than 64 bytes; a failing signer that returns no bytes makes the program panic"
  },
  {
   "property": "C98",
   "status": "partial",
   "theorems": [
    "Verif.C98_bech32_roundtrip_partial",
    "Verif.C98_length_violated",
    "Verif.C98_empty_violated"
   ],
   "note": "proved for all non-empty payloads of a length divisible by 5 (20-byte hashes); for every other length payloads with last bit set come back changed, 33-byte keys lose a byte, the empty payload panics"
  },
  {
   "property": "C99",
   "status": "partial",
   "theorems": [
    "Verif.C99_create_partial",
    "Verif.C99_short_address_violated",
    "Verif.C99_long_prefix_violated"
   ],
   "note": "success characterised exactly; violated: addresses of fewer than four bytes and prefixes that continue the address make the program panic instead of returning an error"
  },
  {
   "property": "C100",
   "status": "proved",
   "theorems": [
    "Verif.C100_combine",
    "Verif.C100_sign_combine",
    "Verif.C100_sign",
    "Verif.C100_no_panic",
    "Verif.C100_reader_space",
    "Verif.C100_reader_range"
   ],
   "note": ""
  },
  {
   "property": "C101",
   "status": "partial",
   "theorems": [
    "Verif.C101_message_partial",
    "Verif.C101_vout_violated",
    "Verif.C101_outputs_violated"
   ],
   "note": "false: the message covers only the outpoint (C101_outputs_violated: the same signatures combine with any outputs) and the output number only modulo 2^32; proved: messages of different outpoints with 32-bit output numbers differ"
  },
  {
   "property": "C102",
   "status": "proved",
   "theorems": [
    "Verif.C102_btc_p2pkh",
    "Verif.C102_btc_p2sh",
    "Verif.C102_btc_witness",
    "Verif.C102_btc_multisig",
    "Verif.C102_variants_p2pkh",
    "Verif.C102_bch_p2pkh"
   ],
   "note": ""
  },
  {
   "property": "C103",
   "status": "proved",
   "theorems": [
    "Verif.C103_verge",
    "Verif.C103_aliencoin",
    "Verif.C103_vollar"
   ],
   "note": ""
  },
  {
   "property": "C104",
   "status": "proved",
   "theorems": [
    "Verif.C104_aliencoin_layout",
    "Verif.C104_aliencoin_refuses"
   ],
   "note": ""
  },
  {
   "property": "C105",
   "status": "partial",
   "theorems": [
    "Verif.C105_combine_partial",
    "Verif.C105_other_violated",
    "Verif.C105_panic_violated"
   ],
   "note": "False: exactly for the signatures of which a number is not plain (C105_other_violated: the script written carries the signature iff both numbers are plain; C105_panic_violated: it panics iff one number has zero bytes in all even places); proved for all plain signatures."
  },
  {
   "property": "C106",
   "status": "proved",
   "theorems": [
    "Verif.C106_value",
    "Verif.C106_burst",
    "Verif.C106_limit_five_bytes"
   ],
   "note": ""
  },
  {
   "property": "C107",
   "status": "proved",
   "theorems": [
    "Verif.C107_layout",
    "Verif.C107_limit_panics"
   ],
   "note": ""
  },
  {
   "property": "C108",
   "status": "partial",
   "theorems": [
    "Verif.C108_hashes_partial",
    "Verif.C108_positions_violated"
   ],
   "note": "False for source positions from 128: a transaction is created but neither hashed nor signed (C108_positions_violated). The reference follows the code in putting the source position in the mux entry."
  },
  {
   "property": "C109",
   "status": "partial",
   "theorems": [
    "Verif.C109_sign_verify_partial",
    "Verif.C109_missing_violated",
    "Verif.C109_surplus_violated",
    "Verif.C109_unsigned_violated",
    "Verif.C109_foreign_key_violated"
   ],
   "note": "Proved: insertion of exactly as many signatures as inputs, and acceptance iff each signature is valid for the key beside it. False: fewer signatures are accepted, more panic, verifying an unsigned transaction panics, the key is not compared with the control program."
  },
  {
   "property": "C110",
   "status": "proved",
   "theorems": [
    "Verif.C110_create",
    "Verif.C110_pad",
    "Verif.C110_pad_only"
   ],
   "note": ""
  },
  {
   "property": "C111",
   "status": "partial",
   "theorems": [
    "Verif.C111_two_partial",
    "Verif.C111_one_signer_violated",
    "Verif.C111_one_of_violated",
    "Verif.C111_too_few",
    "Verif.C111_counts_violated"
   ],
   "note": "Proved for two of two or three keys, with the acceptance condition the code has (number of matching pairs of a signature and a key not before it is two). False for every other number of required signatures and for four or more keys (C111_counts_violated): what is inserted is not the serialisation of the signatures and the script. One signature by the second key counts twice. Together the theorems cover all scripts of keys of 32 bytes."
  },
  {
   "property": "C112",
   "status": "partial",
   "theorems": [
    "Verif.C112_receivers_partial",
    "Verif.C112_foreign_violated",
    "Verif.C112_short_violated"
   ],
   "note": "Proved: every receiver is a checksummed version-0 address whose human-readable part begins with the network's. False: longer human-readable parts are accepted, and texts shorter than two characters panic."
  },
  {
   "property": "C113",
   "status": "partial",
   "theorems": [
    "Verif.C113_create_partial",
    "Verif.C113_bech32_violated",
    "Verif.C113_counts_violated",
    "Verif.C113_short_address_violated"
   ],
   "note": "Proved for Base58 addresses and at most 252 inputs and outputs. False: bech32 recipients are refused although there is code for them, larger counts are not serialised, short Base58 texts panic."
  },
  {
   "property": "C114",
   "status": "partial",
   "theorems": [
    "Verif.C114_parse_partial",
    "Verif.C114_exact_partial",
    "Verif.C114_no_panic_partial",
    "Verif.C114_witness_panics_violated",
    "Verif.C114_long_script_violated",
    "Verif.C114_language"
   ],
   "note": "Proved without the witness marker, and for counts and scripts up to 252. False: witness stacks of other contents panic, long scripts are misread. C114_language gives the exact bytes the decoder reads, and what it answers for each."
  },
  {
   "property": "C115",
   "status": "partial",
   "theorems": [
    "Verif.C115_short_script_violated",
    "Verif.C115_hashes_partial"
   ],
   "note": "Proved for the three kinds of output, counts and scripts up to 252. False: some locking scripts that are too short panic."
  },
  {
   "property": "C116",
   "status": "partial",
   "theorems": [
    "Verif.C116_short_r_violated",
    "Verif.C116_key_ae_violated",
    "Verif.C116_reuse_violated",
    "Verif.C116_verify_after_insert_violated",
    "Verif.C116_few_signatures_violated",
    "Verif.C116_wrong_key_violated",
    "Verif.C116_insert_partial",
    "Verif.C116_verify_partial",
    "Verif.C116_count",
    "Verif.C116_roundtrip_partial",
    "Verif.C116_sign_partial",
    "Verif.C116_sign_violated",
    "Verif.C116_sign_hashes",
    "Verif.C116_sign_hashes_count",
    "Verif.C116_sign_hashes_sound"
   ],
   "note": "Proved for distinct calls with fresh data, canonical signatures, keys and programs not ending in 0xae. False: r below 2^247 is not encoded canonically in a witness, a key ending in 0xae is mistaken for a multi-signature script, data already used for hashing or inserting give a wrong transaction or a panic, too few signatures panic, the key is not compared with the output. SignEmptyRawTransaction is proved for at most one witness input and false for two or more (only the first witness is stored)."
  },
  {
   "property": "C117",
   "status": "partial",
   "theorems": [
    "Verif.C117_address",
    "Verif.C117_insert_partial",
    "Verif.C117_count_violated",
    "Verif.C117_verify_violated",
    "Verif.C117_hash_partial",
    "Verif.C117_inputs_violated"
   ],
   "note": "Address proved in full; hash and insertion proved for one input, exactly two signatures and scripts below 253 bytes. False: any other number of signatures (the witness count is a constant), transactions with more inputs (the script becomes the unlocking script), and verification, which refuses every signed text."
  },
  {
   "property": "C118",
   "status": "partial",
   "theorems": [
    "Verif.C118_decode_partial",
    "Verif.C118_limit_short_buffer",
    "Verif.C118_encode_violated",
    "Verif.C118_string_violated",
    "Verif.C118_constructor",
    "Verif.C118_reads_standard_partial",
    "Verif.C118_lengths"
   ],
   "note": "Decode proved in full as an equivalence (texts read with which bytes, everything else an error, no panic) for buffers of DecodedLen bytes; that bound is shown to be needed. False: Encode and Base64Encode panic for every non-empty input, Base64Decode for every input, since the constructor copies the alphabet into a nil slice."
  },
  {
   "property": "C119",
   "status": "partial",
   "theorems": [
    "Verif.C119_combine_partial",
    "Verif.C119_sound_partial",
    "Verif.C119_chain_violated",
    "Verif.C119_messages_violated",
    "Verif.C119_panic_violated",
    "Verif.C119_sign_partial",
    "Verif.C119_width_violated"
   ],
   "note": "Proved for the texts of the package and, as soundness, for all texts relative to the first message on the main chain. False: the chain named in the text and all messages after the first are ignored; texts without messages and keys that do not decompress panic; signatures whose n - s has two leading zero bytes are too short."
  },
  {
   "property": "C120",
   "status": "partial",
   "theorems": [
    "Verif.C120_language_partial",
    "Verif.C120_unique_partial",
    "Verif.C120_version_violated",
    "Verif.C120_witness_violated",
    "Verif.C120_cut_violated"
   ],
   "note": "The accepted language is given exactly. False: bytes with the high bit set before the version are skipped, the length byte of a single-key witness is not looked at (both make texts malleable), and texts cut off in a variable-length integer panic."
  },
  {
   "property": "C121",
   "status": "proved",
   "theorems": [
    "Verif.C121_read_any",
    "Verif.C121_text",
    "Verif.C121_read",
    "Verif.C121_injective",
    "Verif.C121_range",
    "Verif.C121_combine",
    "Verif.C121_sign",
    "Verif.C121_no_panic",
    "Verif.C121_sound",
    "Verif.C121_limit_utf8"
   ],
   "note": "Proved. Keys that are not UTF-8 are not kept by the text (C121_limit_utf8); they are no hex texts. Amounts, nonces and tips above 2^64-2^56 as in C32/C34."
  },
  {
   "property": "C122",
   "status": "partial",
   "theorems": [
    "Verif.C122_vsys_sound",
    "Verif.C122_vsys_request_partial",
    "Verif.C122_vsys_attachment_violated",
    "Verif.C122_filenet_sound",
    "Verif.C122_filenet_request_partial",
    "Verif.C122_filenet_total_violated"
   ],
   "note": "Proved for every accepted text; from the request with the exceptions of C38 (attachments, addresses of wrong length: C122_vsys_attachment_violated) and C52 (total beyond 2^64: C122_filenet_total_violated; unusual address forms)."
  },
  {
   "property": "C123",
   "status": "partial",
   "theorems": [
    "Verif.C123_insert_partial",
    "Verif.C123_witness_multisig_violated",
    "Verif.C123_variants_partial"
   ],
   "note": "Proved for all mixtures of P2PKH, nested and native P2WPKH, P2SH multi-signature inputs, and P2SH-P2WSH inputs with two required signatures and at most seven keys; proved false for all other P2SH-P2WSH inputs. C123_variants_partial: the same for the BCH, BSV, CXC and HC packages."
  },
  {
   "property": "C124",
   "status": "partial",
   "theorems": [
    "Verif.C124_text",
    "Verif.C124_memory_partial",
    "Verif.C124_profiles_partial",
    "Verif.C124_spare_violated",
    "Verif.C124_neighbour_violated"
   ],
   "note": "The text is right in all memories. Memory unchanged for all profiles but EOS_mainnetPublic and AE_mainnetAddress, and for those if there is no room behind the slice; proved false for those otherwise: four bytes behind the argument are overwritten with the checksum, and a key lying there gets a wrong address."
  },
  {
   "property": "C125",
   "status": "partial",
   "theorems": [
    "Verif.C125_history_partial",
    "Verif.C125_seed_violated",
    "Verif.C125_share_violated"
   ],
   "note": "Proved for all programs that take neither the private bytes of a key made from a seed nor the Pubkey field of a decoded share; proved false for both: appending to the private bytes of a root key overwrites its chain code, and AddressEncode of a share's Pubkey overwrites its ChainCode."
  },
  {
   "property": "C126",
   "status": "partial",
   "theorems": [
    "Verif.C126_btc_partial",
    "Verif.C126_witness_violated",
    "Verif.C126_bch_bsv_partial",
    "Verif.C126_cxc_hc_partial",
    "Verif.C126_omni_partial"
   ],
   "note": "Missing: 253 inputs or outputs and more, scripts of 253 bytes and more, witnesses with a number of signatures other than two, where the code goes wrong (C22, C29, C123). The messages are shown to be the protocol's for BTC, Omni and HC, and for P2PKH outputs in BCH, BSV and CXC; for the others see C87 and C88. C126_witness_violated: with such a witness the result is accepted by VerifyRawTransaction although it is not the standard serialisation."
  },
  {
   "property": "C127",
   "status": "partial",
   "theorems": [
    "Verif.C127_returns",
    "Verif.C127_schedules_partial",
    "Verif.C127_shared_prefix_violated",
    "Verif.C127_neighbour_violated"
   ],
   "note": "Missing: prefixes with room for the hash behind them (a slice of a larger array). There it is false: append writes the hash behind the prefix, so two concurrent calls overwrite each other and one returns the address of the other's hash (C127_shared_prefix_violated), and a single call overwrites the caller's bytes behind the prefix (C127_neighbour_violated). The prefixes of the predefined networks are literals without spare capacity. Memory is sequentially consistent in the model."
  },
  {
   "property": "C128",
   "status": "partial",
   "theorems": [
    "Verif.C128_weierstrass_partial",
    "Verif.C128_pair_partial",
    "Verif.C128_montgomery_violated",
    "Verif.C128_no_point_violated"
   ],
   "note": "Missing: X25519 and Curve25519 keys, for which the function forgets the switch to ed25519 that GetPublicKeyBytes and GetPublicKey make (C128_montgomery_violated); public keys that the external function cannot decompress make it panic (C128_no_point_violated)."
  },
  {
   "property": "C129",
   "status": "partial",
   "theorems": [
    "Verif.C129_bigbang",
    "Verif.C129_wayki",
    "Verif.C129_elastos",
    "Verif.C129_filenet",
    "Verif.C129_moac_partial",
    "Verif.C129_ripple_partial",
    "Verif.C129_ripple_violated",
    "Verif.C129_ontology_partial",
    "Verif.C129_ontology_violated"
   ],
   "note": "Missing: Moac outside the bounds of C45; for Ripple and Ontology signatures with n - s below 2^240, which are returned too short and then refused (C129_ripple_violated, C129_ontology_violated)."
  },
  {
   "property": "C130",
   "status": "partial",
   "theorems": [
    "Verif.C130_alone",
    "Verif.C130_exclusive_partial",
    "Verif.C130_serial",
    "Verif.C130_nonce_violated",
    "Verif.C130_key_leak_violated",
    "Verif.C130_own_key_violated",
    "Verif.C130_recovery_violated"
   ],
   "note": "Holds for every schedule in which no call stores a nonce while another is between storing and signing (C130_exclusive_partial), false otherwise: both signatures use one nonce (C130_nonce_violated), which gives away the keys (C130_key_leak_violated, C130_own_key_violated), and the recovery byte is that of another nonce (C130_recovery_violated)."
  },
  {
   "property": "C131",
   "status": "partial",
   "theorems": [
    "Verif.C131_result",
    "Verif.C131_elsewhere",
    "Verif.C131_kept_partial",
    "Verif.C131_reordered_violated",
    "Verif.C131_repeat"
   ],
   "note": "False whenever the payments are not in ascending order of their addresses (C131_reordered_violated); outside the slice nothing changes, inside it payments are only moved (C131_elsewhere), and a second call changes nothing more (C131_repeat)."
  },
  {
   "property": "C132",
   "status": "partial",
   "theorems": [
    "Verif.C132_order_partial",
    "Verif.C132_same_address_violated"
   ],
   "note": "Proved for payments to different addresses; false for two payments of different amounts to one address (C132_same_address_violated)."
  },
  {
   "property": "C133",
   "status": "partial",
   "theorems": [
    "Verif.C133_ascii",
    "Verif.C133_accepted",
    "Verif.C133_small_letters_partial",
    "Verif.C133_ascii_only_violated"
   ],
   "note": "False: in an address written in capitals the letter K may be replaced by the Kelvin sign U+212A (C133_ascii_only_violated); C133_accepted lists exactly what is accepted. A text with a small letter is only accepted if it is ASCII."
  },
  {
   "property": "C134",
   "status": "partial",
   "theorems": [
    "Verif.C134_accepted",
    "Verif.C134_canonical_partial",
    "Verif.C134_no_separator_violated",
    "Verif.C134_version_violated",
    "Verif.C134_padding_violated"
   ],
   "note": "C134_accepted characterises the accepted texts and the result exactly. C134_canonical_partial: with the profile's prefix and version, zero padding and no capitals the text is the one AddressEncode writes. Violated: texts without separator are accepted (the first character is skipped and the whole text counts as prefix), any version symbol is accepted, padding bits are ignored (sixteen texts per 32-byte payload)."
  },
  {
   "property": "C135",
   "status": "partial",
   "theorems": [
    "Verif.C135_accepted",
    "Verif.C135_canonical_partial",
    "Verif.C135_no_separator_violated",
    "Verif.C135_capitals_violated"
   ],
   "note": "C135_accepted characterises the accepted texts and the result exactly. C135_canonical_partial: small letters, own prefix, 42 symbols, zero padding and type byte zero give the text AddressEncode writes. Violated: any 43 alphabet characters without separator are accepted unchecked; an address in capital letters is accepted without looking at its checksum."
  },
  {
   "property": "C136",
   "status": "proved",
   "theorems": [
    "Verif.C136_btc",
    "Verif.C136_variants",
    "Verif.C136_zen",
    "Verif.C136_limit_tail"
   ],
   "note": "C136_limit_tail: what follows the number of keys in the redeem script is not examined (except its last byte), so a script that is no multisig script is reported as one. Which address the first method returns is C102."
  },
  {
   "property": "C137",
   "status": "partial",
   "theorems": [
    "Verif.C137_accepted_partial",
    "Verif.C137_empty",
    "Verif.C137_foreign_violated"
   ],
   "note": "C137_accepted_partial: a non-empty payload is returned for exactly the encoder's own text in one case. C137_empty says exactly for which other texts the empty payload is returned without an error; C137_foreign_violated: these include every address of another prefix."
  },
  {
   "property": "C138",
   "status": "partial",
   "theorems": [
    "Verif.C138_accepted",
    "Verif.C138_icx",
    "Verif.C138_checksum_violated",
    "Verif.C138_spellings_partial"
   ],
   "note": "C138_accepted and C138_icx say exactly which texts are accepted. C138_checksum_violated: the EIP-55 text with any letter in the wrong case is accepted too (the check is commented out in the code). C138_spellings_partial: nothing but the case of letters and 0x can differ."
  },
  {
   "property": "C139",
   "status": "partial",
   "theorems": [
    "Verif.C139_unsigned_partial",
    "Verif.C139_counts_violated",
    "Verif.C139_injective_partial",
    "Verif.C139_reencode_partial",
    "Verif.C139_nested_violated",
    "Verif.C139_collision_violated"
   ],
   "note": "C139_unsigned_partial: unsigned transactions with counts below 253 are read only from their standard serialisation (C20 is the converse). C139_injective_partial, C139_reencode_partial: everything except legacy multisig and P2SH-P2WPKH inputs. C139_counts_violated, C139_nested_violated, C139_collision_violated show the exceptions fail for every such input."
  },
  {
   "property": "C140",
   "status": "partial",
   "theorems": [
    "Verif.C140_btc",
    "Verif.C140_bch",
    "Verif.C140_cxc_hc",
    "Verif.C140_zen",
    "Verif.C140_verge",
    "Verif.C140_vollar",
    "Verif.C140_alien",
    "Verif.C140_hypercash",
    "Verif.C140_fall",
    "Verif.C140_omni",
    "Verif.C140_filenet",
    "Verif.C140_cxc_asset",
    "Verif.C140_vsys",
    "Verif.C140_moac",
    "Verif.C140_bigbang",
    "Verif.C140_ontology",
    "Verif.C140_never",
    "Verif.C140_elastos",
    "Verif.C140_fiii",
    "Verif.C140_empty_violated"
   ],
   "note": "False, and characterised exactly: each theorem says for which requests the function panics (if and only if). C140_empty_violated: the empty address crashes in all UTXO packages. C140_never: WaykiChain and Ripple never crash; C140_elastos: Elastos does not. C140_cxc_hc and C140_zen are about requests without an address under the bech32 prefix, C140_fall about all. C140_omni: Omni messages on the Omni, Bitcoin Cash and Bitcoin SV packages; C140_cxc_asset: assets of CXC; C140_filenet: Filenet never crashes."
  },
  {
   "property": "C141",
   "status": "partial",
   "theorems": [
    "Verif.C141_hashes_fork_exact",
    "Verif.C141_insert_exact",
    "Verif.C141_hashes",
    "Verif.C141_hashes_fork_partial",
    "Verif.C141_hashes_zen_partial",
    "Verif.C141_insert_partial",
    "Verif.C141_insert_few_violated",
    "Verif.C141_insert_zero_violated",
    "Verif.C141_verify_partial",
    "Verif.C141_verify_key_as_multi_violated",
    "Verif.C141_verify_multi_as_key_violated",
    "Verif.C141_verify_script_violated"
   ],
   "note": "Hashes: exact for Bitcoin, CXC and HyperCash (C141_hashes: panics if and only if segwit is on and the text is a cut witness transaction); for Bitcoin Cash and SV (C141_hashes_fork_exact: also if the first unlock data that gives no record is for a witness program, with hash type 0x41 and an amount; C141_hashes_fork_partial is the case without such data) and Horizen with scripts of 23 bytes or more. Inserting: exact for all six packages (C141_insert_exact; CrashingRecords says at which record it crashes: missing, without a place for its signature, or with a zero half of a signature); C141_insert_partial is the case of records in order, C141_insert_few_violated and C141_insert_zero_violated break any insertion that succeeds. Verifying: exact without multisig; swapped unlocking data (both ways) and an unlocking script fd 00 00 make it panic. Missing: verification of well-formed multisig inputs."
  },
  {
   "property": "C142",
   "status": "partial",
   "theorems": [
    "Verif.C142_wayki",
    "Verif.C142_ripple",
    "Verif.C142_moac",
    "Verif.C142_ontology",
    "Verif.C142_elastos",
    "Verif.C142_filenet",
    "Verif.C142_never",
    "Verif.C142_hypercash",
    "Verif.C142_metaverse",
    "Verif.C142_verge",
    "Verif.C142_alien",
    "Verif.C142_vollar",
    "Verif.C142_key_violated",
    "Verif.C142_wayki_short_violated",
    "Verif.C142_vollar_zero_violated",
    "Verif.C142_filenet_count_violated",
    "Verif.C142_moac_empty_violated",
    "Verif.C142_binance"
   ],
   "note": "False as stated. For every package the exact condition under which the call panics is a theorem (C142_<package>): mostly a public key that is not a point behind right signatures only (C142_key_violated), or a right signature one of whose numbers is missing or zero. Vollar writes signatures before checking them (C142_vollar_zero_violated); WaykiChain panics for an empty text; MOAC for an empty text with a right signature; Filenet for a count larger than memory. VSYS and FiiiCoin never panic (C142_never). Elastos for fewer than 2^56 signatures. Polkadot never panics: C121_no_panic."
  },
  {
   "property": "C143",
   "status": "partial",
   "theorems": [
    "Verif.C143_read",
    "Verif.C143_hashes",
    "Verif.C143_create",
    "Verif.C143_cut_violated",
    "Verif.C143_program_violated",
    "Verif.C143_receiver_violated",
    "Verif.C143_insert",
    "Verif.C143_verify",
    "Verif.C143_never"
   ],
   "note": "False as stated: exact characterisation of the crashing arguments of the decoder, the hashes, the insertion and the creation; for the verification the crashing inputs are named and such transactions are never accepted. Multi-signature scripts and signing never crash."
  },
  {
   "property": "C144",
   "status": "partial",
   "theorems": [
    "Verif.C144_create",
    "Verif.C144_hashes",
    "Verif.C144_insert",
    "Verif.C144_verify",
    "Verif.C144_never",
    "Verif.C144_sign",
    "Verif.C144_empty_violated",
    "Verif.C144_cut_script_violated",
    "Verif.C144_read"
   ],
   "note": "False as stated: exact characterisation of the crashing arguments of every function; the verification under a curve whose decompression never answers with an empty point, signing under a curve whose signatures are 64 bytes with r and s in range."
  },
  {
   "property": "C145",
   "status": "partial",
   "theorems": [
    "Verif.C145_starts_partial",
    "Verif.C145_occur",
    "Verif.C145_zero",
    "Verif.C145_never_violated",
    "Verif.C145_sometimes_violated",
    "Verif.C145_front",
    "Verif.C145_monero",
    "Verif.C145_chia",
    "Verif.C145_listed"
   ],
   "note": "False for 20 profiles (17 never, 3 only for some payloads), shown for each; proved for all others. The Chia and Bech32 parts say how a text starts if there is one. The documented starts are a table in Spec/Starts."
  },
  {
   "property": "C146",
   "status": "partial",
   "theorems": [
    "Verif.C146_other_partial",
    "Verif.C146_shared_violated",
    "Verif.C146_groups"
   ],
   "note": "Exact: two profiles either share no text or accept the same texts, and the second happens only in the listed groups. Ripple's profile, the only one with another alphabet, is not compared."
  },
  {
   "property": "C147",
   "status": "partial",
   "theorems": [
    "Verif.C147_texts_read",
    "Verif.C147_private_canonical",
    "Verif.C147_private_unique",
    "Verif.C147_public_canonical_partial",
    "Verif.C147_bls_short_violated",
    "Verif.C147_long_plain_violated"
   ],
   "note": "Exact language of OWDecode for every text. Proved for private keys. False for public keys: the version prefix is not checked against the curve identifier, and key lengths are not checked."
  },
  {
   "property": "C148",
   "status": "partial",
   "theorems": [
    "Verif.C148_accepts_partial",
    "Verif.C148_accepts_zero",
    "Verif.C148_accepts_segwit",
    "Verif.C148_accepts_cashaddr",
    "Verif.C148_accepts_hex",
    "Verif.C148_refuses_violated",
    "Verif.C148_nebulas_violated",
    "Verif.C148_cash_hash_violated",
    "Verif.C148_listed",
    "Verif.C148_decodable"
   ],
   "note": "Exact per profile. Refusal of the 27 profiles and of Nebulas contract addresses that start with n1 is shown for every public key or hash."
  }
 ]
}