# Axioms each theorem depends on

Generated with `#print axioms` for all 669 property theorems.


## Classical.choice, Quot.sound, propext

C01_base58_roundtrip, C02_base58_canonical, C02_base58_decode_injective, C02_base58_decode_total, C03_base58check_roundtrip, C03_base58check_roundtrip_custom, C03_monero_roundtrip, C03_prefixed_roundtrip, C04_accepted_iff_wellformed, C04_accepted_text_unique, C04_versions_disjoint, C05_decode_no_panic_partial, C05_decode_panics_violated, C05_panic_base58, C05_panic_bech32, C05_panic_cashaddr, C05_panic_other, C06_check_panics_violated, C06_check_returns_partial, C06_check_sound_partial, C06_exact_base58, C06_unknown_symbol_violated, C07_bech32_roundtrip_partial, C07_versionless_32_violated, C08_bech32_checksum_verifies, C08_bech32m_checksum_verifies, C08_cashaddr_checksum_verifies, C09_bech32_single_error, C09_bech32m_single_error, C09_bech32m_text_single_error, C09_cashaddr_single_error, C10_bech32_checksum_partial, C10_bech32_foreign_network_violated, C10_bech32m_foreign_prefix_violated, C10_bech32m_own_prefix_partial, C10_cashaddr_foreign_prefix_violated, C11_bech32m_roundtrip, C11_convertbits_roundtrip, C12_bare_hash_violated, C12_cashaddr_roundtrip_partial, C12_type_byte_violated, C13_eip55_address_rehashed_violated, C13_eip55_roundtrip_partial, C13_icx_roundtrip, C13_malformed_rejected, C14_ed25519_normal_violated, C14_owkey_roundtrip, C14_read_back_exact, C14_short_private_key_violated, C15_commute_ed25519, C15_commute_weierstrass_partial, C16_depth_private_partial, C16_depth_public_violated, C16_no_hardened_from_public, C16_no_private_from_public, C17_ed25519_scalars, C18_child_text_violated, C18_private_child_partial, C18_short_child_key_violated, C19_accepted_shape_partial, C19_out_of_range_violated, C19_path_denotes, C19_relative_path_denotes, C19_spaces_ignored, C20_create_decode, C20_signed_exact, C20_signed_roundtrip_partial, C21_sequence, C22_counts_violated, C22_standard_serialisation_partial, C22_wrapped_count_violated, C23_no_panic_hex_partial, C23_no_panic_partial, C23_panic_exact, C23_panic_hex_exact, C23_verify_panics_violated, C24_btclike_exact, C24_encode_canonical, C24_exact, C24_roundtrip_partial, C24_zero_violated, C25_btclike_language, C25_language, C25_shape_partial, C25_signature, C26_low_s_partial, C26_width_violated, C27_roundtrip_partial, C27_uncompressed_violated, C28_api_violated, C28_each_signature_partial, C28_last_key_violated, C28_one_key_violated, C29_long_redeem_violated, C29_multisig_partial, C29_p2pkh_partial, C29_p2sh_p2wpkh_partial, C29_p2wpkh_partial, C29_p2wsh_partial, C30_base58_script_partial, C30_bech32_script_partial, C30_no_version_violated, C30_other_network_violated, C30_short_address_violated, C30_version_ignored_violated, C30_zcash_violated, C31_bytes_violated, C31_history_partial, C32_compact_partial, C32_large_violated, C34_combine_partial, C34_complete_partial, C34_empty_exact_partial, C34_empty_success_violated, C35_address_partial, C35_bad_address_violated, C35_fixed_size, C35_last_output, C35_long_memo_violated, C35_memo_partial, C36_amount_violated, C36_long_memo_violated, C36_payment_partial, C36_tag_violated, C37_combine, C37_combine_read, C37_hash, C38_attachment_violated, C38_decode_canonical, C38_recipient_length_violated, C38_roundtrip_partial, C39_combine_partial, C39_decode_canonical, C39_recombine_violated, C39_signed_partial, C40_bigint_partial, C40_negative_violated, C40_uint64, C42_combine, C42_hash_commits, C43_accepted, C43_overflow_violated, C43_regid_general, C43_regid_partial, C43_source_checked, C43_space_violated, C43_unchecked_violated, C44_address_checked, C44_rlp_injective, C44_sign_violated, C44_small_violated, C44_unsigned_partial, C45_combine_partial, C45_long_violated, C45_verified, C46_canonical, C46_complete, C47_key_refused, C47_range_check, C48_first_round, C48_low_s_partial, C48_low_s_violated, C48_progress_violated, C49_builtin, C49_first_wins, C50_accepts, C50_complete, C50_crc, C50_line_breaks, C50_typo, C51_hashes, C52_address_violated, C52_alloc_violated, C52_combine, C52_decode, C52_layout, C52_roundtrip_partial, C52_total_violated, C53_combine, C53_combine_omni, C53_count, C54_verge_address_violated, C54_verge_empty_violated, C54_verge_id_violated, C54_verge_limits_violated, C54_verge_partial, C54_verge_scripts, C54_vollar_id_violated, C54_vollar_limits_violated, C54_vollar_partial, C54_vollar_scripts, C55_elastos_partial, C55_elastos_violated, C55_mateverse_empty_violated, C55_mateverse_partial, C55_mateverse_swap_violated, C55_ontology_violated, C56_bech32_capitals_violated, C56_bech32_upper_case_violated, C56_bech32m_upper_case_partial, C56_cashaddr_capitals_violated, C56_cashaddr_same_partial, C56_cashaddr_upper_case_unchecked_violated, C57_aeternity_unique_partial, C57_eos_alias_violated, C57_monero_two_texts_violated, C58_owdecode_total, C59_coin_keys_ed25519, C59_coin_keys_weierstrass_partial, C60_owchain_bls_violated, C60_owchain_language, C60_owchain_no_checksum_violated, C60_owchain_roundtrip, C60_owchain_total, C61_any_key_violated, C61_any_redeem_violated, C61_exact_partial, C61_signature_partial, C61_wrong_key_violated, C61_wrong_redeem_violated, C62_empty_text_violated, C62_kinds_partial, C62_variants_partial, C63_all_inputs_partial, C63_count, C63_short_multisig_violated, C63_sign_verify_partial, C63_witness_keys_violated, C64_bech32_is_bip173, C64_bech32m_is_bip350, C64_cashaddr_is_spec, C65_ckd_priv_partial, C65_ckd_pub, C65_ed25519_partial, C65_zero_violated, C66_base58_partial, C66_bech32_recipient_violated, C66_unknown_type, C67_foreign_key_violated, C67_named_key_partial, C69_address_exists, C69_addresses_checked, C69_payer_violated, C69_read_back, C69_read_back_violated, C69_transfer, C69_transferV2, C69_withdraw, C69_withdrawV2, C70_common_partial, C70_contract_partial, C70_long_contract_violated, C70_register_partial, C70_ucoin_partial, C71_rfc6979_partial, C71_width_violated, C72_dispatch, C72_low_s_partial, C72_low_s_violated, C73_combine, C73_data_violated, C73_end_to_end, C73_injective_partial, C73_layout, C74_id_length_violated, C74_injective_partial, C74_layout, C74_wire_injective, C75_layout_partial, C75_long_script_violated, C75_omni_partial, C76_253_violated, C76_many_violated, C76_vin_list_partial, C77_low_s_partial, C77_low_s_violated, C77_mateverse_low_s_partial, C77_mateverse_low_s_violated, C78_inputs, C79_hashes_partial, C79_long_script_violated, C79_repeat, C80_combine, C81_limit_long_script, C81_limit_many, C81_verge_layout, C82_limit_many, C82_vollar_layout, C83_verge_combine, C83_vollar_combine, C84_low_s_partial, C84_low_s_violated, C85_blake224, C85_blake224_salt, C85_blake224_unique, C85_blake256, C85_blake256_salt, C85_blake256_unique, C85_double, C86_chunks, C86_history, C86_history_salt, C87_multisig_old_format_violated, C87_multisig_partial, C87_p2pkh_partial, C87_witness_panics_violated, C88_cxc_partial, C88_hc, C88_zen_not_hex_violated, C88_zen_partial, C88_zen_script_hash_violated, C89_bch_partial, C89_bech32_violated, C89_cashaddr_violated, C89_hc_cxc_partial, C89_hc_mainnet_violated, C90_block_reference_partial, C90_hash_length_violated, C90_top_bit_violated, C91_assets_partial, C91_limit_spendable, C91_long_reference_violated, C92_all_inputs_partial, C92_any_key_violated, C92_any_redeem_violated, C92_exact_partial, C92_last_key_violated, C92_sign_verify_partial, C92_verified_partial, C92_wrong_key_violated, C93_bad_address_violated, C93_long_text_violated, C93_omni_partial, C93_script_address_violated, C94_sign_document_partial, C94_zero_coin_violated, C95_not_utf8_violated, C95_sign_text_injective_partial, C96_cosmos_send, C96_evaio_send, C97_failure_panics_violated, C97_refusals, C97_sign_verify_partial, C97_width_violated, C98_bech32_roundtrip_partial, C98_empty_violated, C98_length_violated, C99_create_partial, C99_long_prefix_violated, C99_short_address_violated, C100_combine, C100_no_panic, C100_reader_range, C100_reader_space, C100_sign, C100_sign_combine, C101_message_partial, C101_outputs_violated, C102_bch_p2pkh, C102_btc_multisig, C102_btc_p2pkh, C102_btc_p2sh, C102_btc_witness, C102_variants_p2pkh, C103_aliencoin, C103_verge, C103_vollar, C104_aliencoin_layout, C104_aliencoin_refuses, C105_combine_partial, C105_other_violated, C105_panic_violated, C106_burst, C106_value, C107_layout, C107_limit_panics, C108_hashes_partial, C108_positions_violated, C109_foreign_key_violated, C109_missing_violated, C109_sign_verify_partial, C109_surplus_violated, C109_unsigned_violated, C110_create, C110_pad, C110_pad_only, C111_counts_violated, C111_one_of_violated, C111_one_signer_violated, C111_two_partial, C112_foreign_violated, C112_receivers_partial, C112_short_violated, C113_bech32_violated, C113_counts_violated, C113_create_partial, C113_short_address_violated, C114_exact_partial, C114_language, C114_long_script_violated, C114_parse_partial, C114_witness_panics_violated, C115_hashes_partial, C115_short_script_violated, C116_count, C116_few_signatures_violated, C116_insert_partial, C116_key_ae_violated, C116_reuse_violated, C116_roundtrip_partial, C116_short_r_violated, C116_sign_hashes, C116_sign_hashes_count, C116_sign_hashes_sound, C116_sign_partial, C116_sign_violated, C116_verify_after_insert_violated, C116_verify_partial, C116_wrong_key_violated, C117_address, C117_count_violated, C117_hash_partial, C117_inputs_violated, C117_insert_partial, C117_verify_violated, C118_decode_partial, C118_lengths, C118_reads_standard_partial, C119_chain_violated, C119_combine_partial, C119_messages_violated, C119_panic_violated, C119_sign_partial, C119_sound_partial, C119_width_violated, C120_language_partial, C120_unique_partial, C120_version_violated, C120_witness_violated, C121_combine, C121_injective, C121_limit_utf8, C121_no_panic, C121_read, C121_read_any, C121_sound, C121_text, C122_filenet_request_partial, C122_filenet_sound, C122_filenet_total_violated, C122_vsys_attachment_violated, C122_vsys_request_partial, C122_vsys_sound, C123_insert_partial, C123_variants_partial, C123_witness_multisig_violated, C124_memory_partial, C124_neighbour_violated, C124_profiles_partial, C124_spare_violated, C124_text, C125_history_partial, C125_seed_violated, C125_share_violated, C126_bch_bsv_partial, C126_btc_partial, C126_cxc_hc_partial, C126_omni_partial, C126_witness_violated, C127_neighbour_violated, C127_returns, C127_schedules_partial, C127_shared_prefix_violated, C128_montgomery_violated, C128_weierstrass_partial, C129_bigbang, C129_elastos, C129_filenet, C129_moac_partial, C129_ontology_partial, C129_ontology_violated, C129_ripple_partial, C129_ripple_violated, C129_wayki, C130_alone, C130_exclusive_partial, C130_key_leak_violated, C130_nonce_violated, C130_own_key_violated, C130_recovery_violated, C130_serial, C131_elsewhere, C131_kept_partial, C131_reordered_violated, C131_repeat, C131_result, C132_order_partial, C132_same_address_violated, C133_accepted, C133_ascii, C133_ascii_only_violated, C133_small_letters_partial, C134_accepted, C134_canonical_partial, C134_no_separator_violated, C134_padding_violated, C134_version_violated, C135_accepted, C135_canonical_partial, C135_capitals_violated, C135_no_separator_violated, C136_btc, C136_limit_tail, C136_variants, C136_zen, C137_accepted_partial, C137_empty, C137_foreign_violated, C138_accepted, C138_checksum_violated, C138_icx, C138_spellings_partial, C139_collision_violated, C139_counts_violated, C139_injective_partial, C139_nested_violated, C139_reencode_partial, C139_unsigned_partial, C140_alien, C140_bch, C140_bigbang, C140_btc, C140_cxc_asset, C140_cxc_hc, C140_elastos, C140_empty_violated, C140_fall, C140_fiii, C140_filenet, C140_hypercash, C140_moac, C140_never, C140_omni, C140_ontology, C140_verge, C140_vollar, C140_vsys, C140_zen, C141_hashes, C141_hashes_fork_exact, C141_hashes_fork_partial, C141_hashes_zen_partial, C141_insert_exact, C141_insert_few_violated, C141_insert_partial, C141_insert_zero_violated, C141_verify_key_as_multi_violated, C141_verify_multi_as_key_violated, C141_verify_partial, C141_verify_script_violated, C142_alien, C142_binance, C142_elastos, C142_filenet, C142_filenet_count_violated, C142_hypercash, C142_key_violated, C142_metaverse, C142_moac, C142_moac_empty_violated, C142_never, C142_ontology, C142_ripple, C142_verge, C142_vollar, C142_vollar_zero_violated, C142_wayki, C142_wayki_short_violated, C143_create, C143_cut_violated, C143_hashes, C143_insert, C143_never, C143_program_violated, C143_read, C143_receiver_violated, C143_verify, C144_create, C144_cut_script_violated, C144_empty_violated, C144_hashes, C144_insert, C144_never, C144_read, C144_sign, C144_verify, C145_chia, C145_front, C145_listed, C145_monero, C145_never_violated, C145_occur, C145_sometimes_violated, C145_starts_partial, C145_zero, C146_groups, C146_other_partial, C146_shared_violated, C147_bls_short_violated, C147_long_plain_violated, C147_private_canonical, C147_private_unique, C147_public_canonical_partial, C147_texts_read, C148_accepts_cashaddr, C148_accepts_hex, C148_accepts_partial, C148_accepts_segwit, C148_accepts_zero, C148_cash_hash_violated, C148_decodable, C148_listed, C148_nebulas_violated, C148_refuses_violated

## Quot.sound, propext

C27_sixteen_keys_violated, C32_zero_violated, C33_era, C38_sign, C38_verify, C39_long_script_violated, C39_one_signature_violated, C39_unsigned_partial, C41_negative_violated, C41_prefix_free_partial, C41_roundtrip_partial, C48_first_nonce, C48_repeated_nonce, C49_nil_panics, C55_elastos_key_violated, C55_ontology_partial, C73_anchor_violated, C78_only, C106_limit_five_bytes, C111_too_few, C114_no_panic_partial, C118_constructor, C118_encode_violated, C118_limit_short_buffer, C121_range, C121_sign, C128_no_point_violated

## propext

C20_p2wpkh_violated, C20_small_multisig_violated, C23_truncated_sequence_violated, C23_truncated_witness_violated, C24_short_s_violated, C24_sigtype_violated, C25_first_byte_violated, C25_malleable_violated, C31_second_read_violated, C31_two_reads_partial, C73_count_violated, C94_fee_dropped_violated, C94_fee_reuse_violated, C94_no_fee_violated, C101_vout_violated, C118_string_violated, C120_cut_violated, C128_pair_partial
