'Props.C01_round_trip' depends on axioms: [propext, Classical.choice, Quot.sound]
'Props.C02_encrypt_succeeds' depends on axioms: [propext, Classical.choice, Quot.sound]
'Props.C03_accepts_iff_tag_partial' depends on axioms: [propext, Classical.choice, Quot.sound]
'Props.C03_return_value' depends on axioms: [propext, Classical.choice, Quot.sound]
'Props.C03_not_armv7m' depends on axioms: [propext, Classical.choice, Quot.sound]
'Props.C04_no_unverified_plaintext' depends on axioms: [propext, Classical.choice, Quot.sound]
'Props.C04_no_write' depends on axioms: [propext, Classical.choice, Quot.sound]
'Props.C05_tag_change_rejected' depends on axioms: [propext, Classical.choice, Quot.sound]
'Props.C05_some_tag_accepted' depends on axioms: [propext, Classical.choice, Quot.sound]
'Props.C06_canonical' depends on axioms: [propext, Classical.choice, Quot.sound]
'Props.C06_unique_ciphertext' depends on axioms: [propext, Classical.choice, Quot.sound]
'Props.C07_ref_encrypt' depends on axioms: [propext, Classical.choice, Quot.sound]
'Props.C07_ref_decrypt' depends on axioms: [propext, Classical.choice, Quot.sound]
'Props.C08_not_armv7m' depends on axioms: [propext, Classical.choice, Quot.sound]
'Props.C08_same_ciphertext_partial' depends on axioms: [propext, Classical.choice, Quot.sound]
'Props.C08_cross_decrypt_partial' depends on axioms: [propext, Classical.choice, Quot.sound]
'Props.C09_overread' depends on axioms: [propext, Classical.choice, Quot.sound]
'Props.C09_false' depends on axioms: [propext, Classical.choice, Quot.sound]
'Props.C09_encrypt_in_bounds_partial' depends on axioms: [propext, Classical.choice, Quot.sound]
'Props.C09_decrypt_in_bounds_partial' depends on axioms: [propext, Classical.choice, Quot.sound]
'Props.C10_encrypt_frame' depends on axioms: [propext, Classical.choice, Quot.sound]
'Props.C10_decrypt_frame' depends on axioms: [propext, Classical.choice, Quot.sound]
'Props.C10_encrypt_keeps_inputs' depends on axioms: [propext, Classical.choice, Quot.sound]
'Props.C11_encrypt_no_ad' depends on axioms: [propext, Classical.choice, Quot.sound]
'Props.C11_encrypt_no_message' depends on axioms: [propext, Classical.choice, Quot.sound]
'Props.C11_decrypt_no_ad' depends on axioms: [propext, Classical.choice, Quot.sound]
'Props.C11_decrypt_no_message' depends on axioms: [propext, Classical.choice, Quot.sound]
'Props.C12_encrypt_in_place' depends on axioms: [propext, Classical.choice, Quot.sound]
'Props.C12_decrypt_in_place' depends on axioms: [propext, Classical.choice, Quot.sound]
'Props.C12_encrypt_moved_down' depends on axioms: [propext, Classical.choice, Quot.sound]
'Props.C12_decrypt_moved_down' depends on axioms: [propext, Classical.choice, Quot.sound]
'Props.C13_nsec_ignored' depends on axioms: [propext, Classical.choice, Quot.sound]
'Props.C14_truncated_is_undefined' depends on axioms: [propext, Classical.choice, Quot.sound]
'Props.C14_false' depends on axioms: [propext, Classical.choice, Quot.sound]
'Props.C14_partial' depends on axioms: [propext, Classical.choice, Quot.sound]
'Props.C15_encrypt_history_independent' depends on axioms: [propext, Classical.choice, Quot.sound]
'Props.C15_decrypt_history_independent' depends on axioms: [propext, Classical.choice, Quot.sound]
'Props.C15_decrypt_depends_on_inputs' depends on axioms: [propext, Classical.choice, Quot.sound]
'Props.C16_concurrent_partial' depends on axioms: [propext, Classical.choice, Quot.sound]
'Props.C16_false_stp' depends on axioms: [propext, Classical.choice, Quot.sound]
'Props.C17_stp_accepts_iff' depends on axioms: [propext, Classical.choice, Quot.sound]
'Props.C17_stp_rejects_only_wrong' depends on axioms: [propext, Classical.choice, Quot.sound]
'Props.C18_stream_cipher' depends on axioms: [propext, Classical.choice, Quot.sound]
'Props.C18_decrypt_same_keystream' depends on axioms: [propext, Classical.choice, Quot.sound]
'Props.C19_prefix' depends on axioms: [propext, Classical.choice, Quot.sound]
'Props.C20_injective' depends on axioms: [propext, Classical.choice, Quot.sound]
'Props.C21_encrypt_trace' depends on axioms: [propext, Classical.choice, Quot.sound]
'Props.C21_decrypt_trace' depends on axioms: [propext, Classical.choice, Quot.sound]
'Props.C21_encrypt_defined' depends on axioms: [propext, Classical.choice, Quot.sound]
'Props.C22_spec_partial' depends on axioms: [propext, Classical.choice, Quot.sound]
'Props.C22_bijection' depends on axioms: [propext, Quot.sound]
'Props.C22_code_bijection' depends on axioms: [propext, Classical.choice, Quot.sound]
'Props.C22_armv7m_differs' depends on axioms: [propext, Classical.choice, Quot.sound]
'Props.C22_ref_rounds' depends on axioms: [propext, Quot.sound]
'Props.C23_spec' depends on axioms: [propext, Classical.choice, Quot.sound]
'Props.C23_bijection' depends on axioms: [propext, Classical.choice, Quot.sound]
'Props.C23_ref_rounds' depends on axioms: [propext, Quot.sound]
'Props.C24_mac_of_absorbed' depends on axioms: [propext, Quot.sound]
'Props.C24_injective' depends on axioms: [propext, Quot.sound]
'Props.C24_nonce' depends on axioms: [propext]
'Props.C24_code' depends on axioms: [propext, Classical.choice, Quot.sound]
'Props.C25_ascon_hash_partial' depends on axioms: [propext, Classical.choice, Quot.sound]
'Props.C25_not_armv7m' depends on axioms: [propext, Classical.choice, Quot.sound]
'Props.C26_hash_memory' depends on axioms: [propext, Classical.choice, Quot.sound]
'Props.C26_hash_null_input' depends on axioms: [propext, Classical.choice, Quot.sound]
'Props.C26_hash_placement' depends on axioms: [propext, Classical.choice, Quot.sound]
'Props.C27_encrypt_unaffected_by_hash' depends on axioms: [propext, Classical.choice, Quot.sound]
'Props.C27_decrypt_unaffected_by_hash' depends on axioms: [propext, Classical.choice, Quot.sound]
'Props.C28_encrypt_partial' depends on axioms: [propext, Classical.choice, Quot.sound]
'Props.C28_decrypt_partial' depends on axioms: [propext, Classical.choice, Quot.sound]
'Props.C28_tolerant_partial' depends on axioms: [propext, Classical.choice, Quot.sound]
'Props.C28_false' depends on axioms: [propext, Classical.choice, Quot.sound]
'Props.C28_iff' depends on axioms: [propext, Classical.choice, Quot.sound]
'Props.C28_false_tag' depends on axioms: [propext, Classical.choice, Quot.sound]
'Props.C29_rounds_present' depends on axioms: [propext, Quot.sound]
'Props.C29_ascon_partial' depends on axioms: [propext, Classical.choice, Quot.sound]
'Props.C29_keccak' depends on axioms: [propext, Classical.choice, Quot.sound]
'Props.C29_ascon_suffix' depends on axioms: [propext, Quot.sound]
'Props.C29_keccak_suffix' depends on axioms: [propext, Quot.sound]
'Props.C29_avx_two_lanes' depends on axioms: [propext, Classical.choice, Quot.sound]
'Props.C30_roundtrip' depends on axioms: [propext, Classical.choice, Quot.sound]
'Props.C30_xor' depends on axioms: [propext, Classical.choice, Quot.sound]
'Props.C30_bi32_inverse' depends on axioms: [propext, Classical.choice, Quot.sound]
'Props.C30_bi32_bits' depends on axioms: [propext, Classical.choice, Quot.sound]
'Props.C30_bi32_ops' depends on axioms: [propext, Classical.choice, Quot.sound]
'Props.C30_bi8_inverse' depends on axioms: [propext, Classical.choice, Quot.sound]
'Props.C30_bi8_bits' depends on axioms: [propext, Classical.choice, Quot.sound]
'Props.C30_bi8_ops' depends on axioms: [propext, Classical.choice, Quot.sound]
'Props.C30_opt64_ror' depends on axioms: [propext, Quot.sound]
'Props.C30_opt8_ror' depends on axioms: [propext, Classical.choice, Quot.sound]
'Props.C31_tables' depends on axioms: [propext, Quot.sound]
'Props.C31_encrypt_code' depends on axioms: [propext, Classical.choice, Quot.sound]
'Props.C31_rk_start' depends on axioms: [propext, Quot.sound]
'Props.C31_initial_states' depends on axioms: [propext, Quot.sound]
'Props.C31_hash' depends on axioms: [propext, Quot.sound]
'Props.C31_after_permutation' depends on axioms: [propext, Classical.choice, Quot.sound]
'Props.C31_same_rounds' depends on axioms: [propext, Quot.sound]
'Props.C31_hash_after_permutation' depends on axioms: [propext, Quot.sound]
'Props.C32_false_avx512' depends on axioms: [propext, Classical.choice, Quot.sound]
'Props.C32_encrypt_partial' depends on axioms: [propext, Classical.choice, Quot.sound]
'Props.C32_decrypt_reads_partial' depends on axioms: [propext, Classical.choice, Quot.sound]
'Props.C32_truncates' depends on axioms: [propext, Classical.choice, Quot.sound]
'Props.C32_false_ad' depends on axioms: [propext, Classical.choice, Quot.sound]
'Props.C32_false_forgery' depends on axioms: [propext, Classical.choice, Quot.sound]
'Props.C32_false_llp64_opt64' depends on axioms: [propext, Classical.choice, Quot.sound]
'Props.C32_false_llp64_avx512' depends on axioms: [propext, Classical.choice, Quot.sound]
'Props.C32_false_llp64_in_place' depends on axioms: [propext, Classical.choice, Quot.sound]
'Props.C33_fused' depends on axioms: [propext, Classical.choice, Quot.sound]
'Props.C34_encrypt_via_rk' depends on axioms: [propext, Classical.choice, Quot.sound]
'Props.C34_decrypt_via_rk' depends on axioms: [propext, Classical.choice, Quot.sound]
'Props.C34_rk_last' depends on axioms: [propext, Quot.sound]
'Props.C34_shared_prefix' depends on axioms: [propext, Quot.sound]
'Props.C34_two_successors' depends on axioms: [propext, Quot.sound]
'Props.C35_generator' depends on axioms: [propext, Classical.choice, Quot.sound]
'Props.C35_generator_sizes' depends on axioms: [propext, Classical.choice, Quot.sound]
'Props.C35_generator_ref' depends on axioms: [propext, Classical.choice, Quot.sound]
'Props.C35_not_opened' depends on axioms: [propext, Classical.choice, Quot.sound]
'Props.C35_demo' depends on axioms: [propext, Classical.choice, Quot.sound]
'Props.C35_file_determines' depends on axioms: [propext, Classical.choice, Quot.sound]
'Props.C35_self_check_insufficient' depends on axioms: [propext, Classical.choice, Quot.sound]
'Props.C36_generator' depends on axioms: [propext, Classical.choice, Quot.sound]
'Props.C36_generator_sizes' depends on axioms: [propext, Classical.choice, Quot.sound]
'Props.C36_file_determines' depends on axioms: [propext, Classical.choice, Quot.sound]
'Props.C36_armv7m_file_wrong' depends on axioms: [propext, Classical.choice, Quot.sound]
'Props.C37_repeat' depends on axioms: [propext, Classical.choice, Quot.sound]
'Props.C37_bulk' depends on axioms: [propext, Classical.choice, Quot.sound]
'Props.C37_repeat_hash' depends on axioms: [propext, Classical.choice, Quot.sound]
'Props.C38_threads' depends on axioms: [propext, Classical.choice, Quot.sound]
'Props.C38_no_race' depends on axioms: [propext, Classical.choice, Quot.sound]
'Props.C39_hash_trace' depends on axioms: [propext, Quot.sound]
'Props.C40_armv6m_permute_nrounds' depends on axioms: [propext, Classical.choice, Quot.sound]
'Props.C40_armv6m_permute_20rounds' depends on axioms: [propext, Classical.choice, Quot.sound]
'Props.C40_armv6m_initialize' depends on axioms: [propext, Classical.choice, Quot.sound]
'Props.C40_armv6m_static_initialize' depends on axioms: [propext, Quot.sound]
'Props.C40_armv6m_add_byte' depends on axioms: [propext, Quot.sound]
'Props.C40_armv6m_add_bytes' depends on axioms: [propext, Classical.choice, Quot.sound]
'Props.C40_armv6m_overwrite_bytes' depends on axioms: [propext, Quot.sound]
'Props.C40_armv6m_extract_bytes' depends on axioms: [propext, Quot.sound]
'Props.C40_armv6m_extract_and_add_bytes' depends on axioms: [propext, Classical.choice, Quot.sound]
'Props.C40_armv6m_overwrite_with_zeroes' depends on axioms: [propext, Quot.sound]
'Props.C40_armv7m_permute_nrounds' depends on axioms: [propext, Classical.choice, Quot.sound]
'Props.C40_armv7m_permute_20rounds' depends on axioms: [propext, Classical.choice, Quot.sound]
'Props.C40_armv7m_initialize' depends on axioms: [propext, Classical.choice, Quot.sound]
'Props.C40_armv7m_static_initialize' depends on axioms: [propext, Quot.sound]
'Props.C40_armv7m_add_byte' depends on axioms: [propext, Quot.sound]
'Props.C40_armv7m_add_bytes' depends on axioms: [propext, Classical.choice, Quot.sound]
'Props.C40_armv7m_overwrite_bytes' depends on axioms: [propext, Quot.sound]
'Props.C40_armv7m_extract_bytes' depends on axioms: [propext, Quot.sound]
'Props.C40_armv7m_extract_and_add_bytes' depends on axioms: [propext, Classical.choice, Quot.sound]
'Props.C40_armv7m_overwrite_with_zeroes' depends on axioms: [propext, Classical.choice, Quot.sound]
'Props.C40_armv7m_needs_unaligned' depends on axioms: [propext, Quot.sound]
'Props.C41_flags_kept' depends on axioms: [propext, Quot.sound]
'Props.C41_armv6m_flags' depends on axioms: [propext, Quot.sound]
'Props.C41_not_armv6m_flags' depends on axioms: [propext, Classical.choice, Quot.sound]
'Props.C41_armv6' depends on axioms: [propext, Classical.choice, Quot.sound]
'Props.C41_armv67m' depends on axioms: [propext, Classical.choice, Quot.sound]
'Props.C41_armv7m' depends on axioms: [propext, Classical.choice, Quot.sound]
'Props.C41_armv6m_partial' depends on axioms: [propext, Classical.choice, Quot.sound]
'Props.C41_models' depends on axioms: [propext, Classical.choice, Quot.sound]
'Props.C41_armv6m_shared' depends on axioms: [propext, Classical.choice, Quot.sound]
'Props.C41_not_armv6m' depends on axioms: [propext, Classical.choice, Quot.sound]
'Props.C42_same_tag' depends on axioms: [propext, Classical.choice, Quot.sound]
'Props.C42_accepted_tag' depends on axioms: [propext, Classical.choice, Quot.sound]
'Props.C42_two_accepted' depends on axioms: [propext, Classical.choice, Quot.sound]
'Props.C42_same_digest' depends on axioms: [propext, Quot.sound]
'Props.C42_hash_code' depends on axioms: [propext, Classical.choice, Quot.sound]
'Props.C43_encrypt' depends on axioms: [propext, Classical.choice, Quot.sound]
'Props.C43_tag_last' depends on axioms: [propext, Classical.choice, Quot.sound]
'Props.C43_decrypt' depends on axioms: [propext, Classical.choice, Quot.sound]
'Props.C43_no_release' depends on axioms: [propext, Classical.choice, Quot.sound]
'Props.C43_hash' depends on axioms: [propext, Classical.choice, Quot.sound]
'Props.C43_retry_encrypt' depends on axioms: [propext, Classical.choice, Quot.sound]
'Props.C43_retry_decrypt' depends on axioms: [propext, Classical.choice, Quot.sound]
'Props.C43_retry_hash' depends on axioms: [propext, Classical.choice, Quot.sound]
'Props.C43_in_place_not_repeatable' depends on axioms: [propext, Classical.choice, Quot.sound]
'Props.C44_static_unchanged' depends on axioms: [propext, Classical.choice, Quot.sound]
'Props.C44_static_public' depends on axioms: [propext, Classical.choice, Quot.sound]
'Props.C45_encrypt_initialised' depends on axioms: [propext, Classical.choice, Quot.sound]
'Props.C45_decrypt_initialised' depends on axioms: [propext, Classical.choice, Quot.sound]
'Props.C45_model_is_instance' depends on axioms: [propext, Classical.choice, Quot.sound]
'Props.C46_encrypt_partial' depends on axioms: [propext, Classical.choice, Quot.sound]
'Props.C46_decrypt_partial' depends on axioms: [propext, Classical.choice, Quot.sound]
'Props.C46_little' depends on axioms: [propext, Classical.choice, Quot.sound]
'Props.C46_mode' depends on axioms: [propext, Classical.choice, Quot.sound]
'Props.C46_round_trip' depends on axioms: [propext, Classical.choice, Quot.sound]
'Props.C46_opt8_body_partial' depends on axioms: [propext, Classical.choice, Quot.sound]
'Props.C46_opt8_hash' depends on axioms: [propext, Classical.choice, Quot.sound]
'Props.C46_not' depends on axioms: [propext, Classical.choice, Quot.sound]
'Props.C46_not_hash' depends on axioms: [propext, Classical.choice, Quot.sound]
'Props.C46_mixed_little' depends on axioms: [propext, Classical.choice, Quot.sound]
'Props.C46_mixed_round_trip' depends on axioms: [propext, Classical.choice, Quot.sound]
'Props.C46_mixed_not' depends on axioms: [propext, Classical.choice, Quot.sound]
'Props.C46_mixed_not_hash' depends on axioms: [propext, Classical.choice, Quot.sound]
'Props.C46_keccak_little' depends on axioms: [propext, Classical.choice, Quot.sound]
'Props.C46_keccak_round_trip_partial' depends on axioms: [propext, Classical.choice, Quot.sound]
'Props.C46_keccak_not_round_trip' depends on axioms: [propext, Classical.choice, Quot.sound]
'Props.C47_encrypt_linear' depends on axioms: [propext, Classical.choice, Quot.sound]
'Props.C47_decrypt_linear' depends on axioms: [propext, Classical.choice, Quot.sound]
'Props.C47_hash_linear' depends on axioms: [propext, Classical.choice, Quot.sound]
'Props.C48_any_permutation_encrypt' depends on axioms: [propext, Classical.choice, Quot.sound]
'Props.C48_any_permutation_decrypt' depends on axioms: [propext, Classical.choice, Quot.sound]
'Props.C48_instance' depends on axioms: [propext, Classical.choice, Quot.sound]
'Props.C48_prescribed_encrypt' depends on axioms: [propext, Classical.choice, Quot.sound]
'Props.C48_prescribed_decrypt' depends on axioms: [propext, Classical.choice, Quot.sound]
'Props.C48_count' depends on axioms: [propext, Classical.choice, Quot.sound]
'Props.C48_count_decrypt' depends on axioms: [propext, Classical.choice, Quot.sound]
'Props.C49_ref' depends on axioms: [propext, Quot.sound]
'Props.C49_absorb' depends on axioms: [propext, Quot.sound]
'Props.C49_opt64' depends on axioms: [propext, Quot.sound]
'Props.C49_opt32' depends on axioms: [propext, Quot.sound]
'Props.C49_opt8' depends on axioms: [propext, Classical.choice, Quot.sound]
'Props.C49_bi32' depends on axioms: [propext, Quot.sound]
'Props.C49_bi8_partial' depends on axioms: [propext, Quot.sound]
'Props.C49_bi8_avr' depends on axioms: [propext, Classical.choice, Quot.sound]
'Props.C49_bi8_false' depends on axioms: [propext, Quot.sound]
'Props.C49_a128' depends on axioms: [propext, Quot.sound]
'Props.C49_a128_32' depends on axioms: [propext, Quot.sound]
'Props.C49_keccak' depends on axioms: [propext, Classical.choice, Quot.sound]
'Props.C49_iv_partial' depends on axioms: [propext, Quot.sound]
'Props.C49_iv_false' depends on axioms: [propext, Quot.sound]
'Props.C50_encrypt_partial' depends on axioms: [propext, Classical.choice, Quot.sound]
'Props.C50_decrypt_partial' depends on axioms: [propext, Classical.choice, Quot.sound]
'Props.C50_union_writes' depends on axioms: [propext, Classical.choice, Quot.sound]
'Props.C50_false' depends on axioms: [propext, Classical.choice, Quot.sound]
'Props.C50_iff' depends on axioms: [propext, Classical.choice, Quot.sound]
'Props.C50_hash_writes' depends on axioms: [propext, Quot.sound]
'Props.C50_accesses' depends on axioms: [propext]
'Props.C50_kref_state' depends on axioms: [propext, Quot.sound]
'Props.C50_state' depends on axioms: [propext, Quot.sound]
'Props.C50_ke' depends on axioms: [propext, Quot.sound]
'Props.C50_avx_state' depends on axioms: [propext, Classical.choice, Quot.sound]
'Props.C50_tag_writes' depends on axioms: [propext, Quot.sound]
'Props.C50_tag_partial' depends on axioms: [propext, Classical.choice, Quot.sound]
'Props.C50_union_encrypt_partial' depends on axioms: [propext, Classical.choice, Quot.sound]
'Props.C50_union_decrypt_partial' depends on axioms: [propext, Quot.sound]
'Props.C50_hash_stores' depends on axioms: [propext, Classical.choice, Quot.sound]
'Props.C51_avx_encrypt_partial' depends on axioms: [propext, Classical.choice, Quot.sound]
'Props.C51_avx_key_remains' depends on axioms: [propext, Classical.choice, Quot.sound]
'Props.C51_avx_misaligned' depends on axioms: [propext, Classical.choice, Quot.sound]
'Props.C51_avx_false' depends on axioms: [propext, Classical.choice, Quot.sound]
'Props.C51_ke_key_remains' depends on axioms: [propext, Classical.choice, Quot.sound]
'Props.C51_ke_key_remains_dec' depends on axioms: [propext, Classical.choice, Quot.sound]
'Props.C51_decrypt_partial' depends on axioms: [propext, Classical.choice, Quot.sound]
'Props.C51_tag_remains' depends on axioms: [propext, Classical.choice, Quot.sound]
'Props.C51_misaligned' depends on axioms: [propext, Quot.sound]
'Props.C51_false' depends on axioms: [propext, Quot.sound]
'Props.C51_iff' depends on axioms: [propext, Classical.choice, Quot.sound]
'Props.C51_kref_encrypt_partial' depends on axioms: [propext, Classical.choice, Quot.sound]
'Props.C51_kref_decrypt_partial' depends on axioms: [propext, Classical.choice, Quot.sound]
'Props.C51_kref_key_remains' depends on axioms: [propext, Classical.choice, Quot.sound]
'Props.C51_kref_key_remains_dec' depends on axioms: [propext, Classical.choice, Quot.sound]
'Props.C51_kref_misaligned' depends on axioms: [propext, Classical.choice, Quot.sound]
'Props.C51_kref_false' depends on axioms: [propext, Classical.choice, Quot.sound]
'Props.C51_kref_authkey_remains' depends on axioms: [propext, Classical.choice, Quot.sound]
'Props.C51_kref_authkey_remains_rejected' depends on axioms: [propext, Classical.choice, Quot.sound]
'Props.C51_kref_tag_from_rejected' depends on axioms: [propext, Classical.choice, Quot.sound]
'Props.C51_kref_forgery_from_rejected' depends on axioms: [propext, Classical.choice, Quot.sound]
'Props.C51_state_encrypt_partial' depends on axioms: [propext, Classical.choice, Quot.sound]
'Props.C51_state_decrypt_partial' depends on axioms: [propext, Classical.choice, Quot.sound]
'Props.C51_state_avx_partial' depends on axioms: [propext, Classical.choice, Quot.sound]
'Props.C51_key_remains' depends on axioms: [propext, Classical.choice, Quot.sound]
'Props.C51_key_remains_dec' depends on axioms: [propext, Classical.choice, Quot.sound]
'Props.C51_state_misaligned' depends on axioms: [propext, Quot.sound]
'Props.C51_state_misaligned_dec' depends on axioms: [propext, Quot.sound]
'Props.C51_state_false' depends on axioms: [propext, Quot.sound]
'Props.C51_ke_encrypt_partial' depends on axioms: [propext, Classical.choice, Quot.sound]
'Props.C51_ke_decrypt_partial' depends on axioms: [propext, Classical.choice, Quot.sound]
'Props.C51_ke_misaligned' depends on axioms: [propext, Quot.sound]
'Props.C51_ke_false' depends on axioms: [propext, Quot.sound]
'Props.C51_state_authkey_remains' depends on axioms: [propext, Classical.choice, Quot.sound]
'Props.C51_avx_authkey_remains' depends on axioms: [propext, Classical.choice, Quot.sound]
'Props.C51_state_authkey_remains_rejected' depends on axioms: [propext, Classical.choice, Quot.sound]
'Props.C51_state_authkey_remains_dec' depends on axioms: [propext, Classical.choice, Quot.sound]
'Props.C51_state_tag_from_rejected' depends on axioms: [propext, Classical.choice, Quot.sound]
'Props.C51_state_forgery_from_rejected' depends on axioms: [propext, Classical.choice, Quot.sound]
'Props.C51_state_plaintext_from_key' depends on axioms: [propext, Classical.choice, Quot.sound]
'Props.C51_avx_plaintext_from_key' depends on axioms: [propext, Classical.choice, Quot.sound]
'Props.C51_ke_plaintext_from_key' depends on axioms: [propext, Classical.choice, Quot.sound]
'Props.C51_kref_plaintext_from_key' depends on axioms: [propext, Classical.choice, Quot.sound]
'Props.C51_avx_key_remains_dec' depends on axioms: [propext, Classical.choice, Quot.sound]
'Props.C51_tables_partial' depends on axioms: [propext, Classical.choice, Quot.sound]
'Props.C51_hash_table_partial' depends on axioms: [propext, Classical.choice, Quot.sound]
'Props.C51_tables_misaligned' depends on axioms: [propext, Classical.choice, Quot.sound]
'Props.C51_hash_table_misaligned' depends on axioms: [propext, Quot.sound]
'Props.C51_tables_false' depends on axioms: [propext, Classical.choice, Quot.sound]
'Props.C51_tables_iff' depends on axioms: [propext, Classical.choice, Quot.sound]
'Props.C52_ref_partial' depends on axioms: [propext, Classical.choice, Quot.sound]
'Props.C52_opt_partial' depends on axioms: [propext, Classical.choice, Quot.sound]
'Props.C52_not_ad' depends on axioms: [propext, Classical.choice, Quot.sound]
'Props.C52_not_ciphertext' depends on axioms: [propext, Classical.choice, Quot.sound]
'Props.C52_not_hash' depends on axioms: [propext, Classical.choice, Quot.sound]
'Props.C52_slack' depends on axioms: [propext, Quot.sound]
'Props.C52_keccak_not' depends on axioms: [propext, Classical.choice, Quot.sound]
'Props.C52_keccak_not_padding' depends on axioms: [propext, Classical.choice, Quot.sound]
'Props.C53_false_avx512' depends on axioms: [propext, Classical.choice, Quot.sound]
'Props.C53_avx512_iff' depends on axioms: [propext, Classical.choice, Quot.sound]
'Props.C53_encrypt' depends on axioms: [propext, Classical.choice, Quot.sound]
'Props.C53_decrypt' depends on axioms: [propext, Classical.choice, Quot.sound]
'Props.C53_hash' depends on axioms: [propext, Classical.choice, Quot.sound]
'Props.C53_encrypt_succeeds' depends on axioms: [propext, Classical.choice, Quot.sound]
'Props.C53_decrypt_returns' depends on axioms: [propext, Classical.choice, Quot.sound]
