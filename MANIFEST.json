{
 "claims": [
  {
   "property": "C01",
   "status": "proved",
   "theorems": [
    "Props.C01_round_trip"
   ],
   "note": "Valid calls within the implementation's limits (Target.limits): word-aligned buffers on platforms that reject misaligned accesses (C28), lengths its length type can hold (C32), and for isapk128*/opt_64 the bytes it reads behind ad (C09)."
  },
  {
   "property": "C02",
   "status": "proved",
   "theorems": [
    "Props.C02_encrypt_succeeds"
   ],
   "note": "Valid calls within the implementation's limits (Target.limits): word-aligned buffers on platforms that reject misaligned accesses (C28), lengths its length type can hold (C32), and for isapk128*/opt_64 the bytes it reads behind ad (C09)."
  },
  {
   "property": "C03",
   "status": "partial",
   "theorems": [
    "Props.C03_accepts_iff_tag_partial",
    "Props.C03_return_value",
    "Props.C03_not_armv7m"
   ],
   "note": "All modelled implementations except bi_32_armv7m, of which it is false (C03_not_armv7m). Valid calls within the implementation's limits (Target.limits): word-aligned buffers on platforms that reject misaligned accesses (C28), lengths its length type can hold (C32), and for isapk128*/opt_64 the bytes it reads behind ad (C09)."
  },
  {
   "property": "C04",
   "status": "proved",
   "theorems": [
    "Props.C04_no_unverified_plaintext",
    "Props.C04_no_write"
   ],
   "note": "Valid calls within the implementation's limits (Target.limits): word-aligned buffers on platforms that reject misaligned accesses (C28), lengths its length type can hold (C32), and for isapk128*/opt_64 the bytes it reads behind ad (C09)."
  },
  {
   "property": "C05",
   "status": "proved",
   "theorems": [
    "Props.C05_tag_change_rejected",
    "Props.C05_some_tag_accepted"
   ],
   "note": "Valid calls within the implementation's limits (Target.limits): word-aligned buffers on platforms that reject misaligned accesses (C28), lengths its length type can hold (C32), and for isapk128*/opt_64 the bytes it reads behind ad (C09)."
  },
  {
   "property": "C06",
   "status": "proved",
   "theorems": [
    "Props.C06_canonical",
    "Props.C06_unique_ciphertext"
   ],
   "note": "Valid calls within the implementation's limits (Target.limits): word-aligned buffers on platforms that reject misaligned accesses (C28), lengths its length type can hold (C32), and for isapk128*/opt_64 the bytes it reads behind ad (C09)."
  },
  {
   "property": "C07",
   "status": "proved",
   "theorems": [
    "Props.C07_ref_encrypt",
    "Props.C07_ref_decrypt"
   ],
   "note": "Valid calls within the implementation's limits (Target.limits): word-aligned buffers on platforms that reject misaligned accesses (C28), lengths its length type can hold (C32), and for isapk128*/opt_64 the bytes it reads behind ad (C09)."
  },
  {
   "property": "C08",
   "status": "partial",
   "theorems": [
    "Props.C08_not_armv7m",
    "Props.C08_same_ciphertext_partial",
    "Props.C08_cross_decrypt_partial"
   ],
   "note": "All modelled implementations except bi_32_armv7m, of which it is false (C08_not_armv7m). Valid calls within the implementation's limits (Target.limits): word-aligned buffers on platforms that reject misaligned accesses (C28), lengths its length type can hold (C32), and for isapk128*/opt_64 the bytes it reads behind ad (C09)."
  },
  {
   "property": "C09",
   "status": "partial",
   "theorems": [
    "Props.C09_overread",
    "Props.C09_false",
    "Props.C09_encrypt_in_bounds_partial",
    "Props.C09_decrypt_in_bounds_partial"
   ],
   "note": "Proved for every implementation except isapk128av20/opt_64 and isapk128v20/opt_64, of which it is false: they read up to 6 bytes behind the associated data (C09_overread, C09_false)."
  },
  {
   "property": "C10",
   "status": "proved",
   "theorems": [
    "Props.C10_encrypt_frame",
    "Props.C10_decrypt_frame",
    "Props.C10_encrypt_keeps_inputs"
   ],
   "note": "Valid calls within the implementation's limits (Target.limits): word-aligned buffers on platforms that reject misaligned accesses (C28), lengths its length type can hold (C32), and for isapk128*/opt_64 the bytes it reads behind ad (C09)."
  },
  {
   "property": "C11",
   "status": "proved",
   "theorems": [
    "Props.C11_encrypt_no_ad",
    "Props.C11_encrypt_no_message",
    "Props.C11_decrypt_no_ad",
    "Props.C11_decrypt_no_message"
   ],
   "note": "Valid calls within the implementation's limits (Target.limits): word-aligned buffers on platforms that reject misaligned accesses (C28), lengths its length type can hold (C32), and for isapk128*/opt_64 the bytes it reads behind ad (C09)."
  },
  {
   "property": "C12",
   "status": "proved",
   "theorems": [
    "Props.C12_encrypt_in_place",
    "Props.C12_decrypt_in_place",
    "Props.C12_encrypt_moved_down",
    "Props.C12_decrypt_moved_down"
   ],
   "note": "Valid calls within the implementation's limits (Target.limits): word-aligned buffers on platforms that reject misaligned accesses (C28), lengths its length type can hold (C32), and for isapk128*/opt_64 the bytes it reads behind ad (C09)."
  },
  {
   "property": "C13",
   "status": "proved",
   "theorems": [
    "Props.C13_nsec_ignored"
   ],
   "note": "Valid calls within the implementation's limits (Target.limits): word-aligned buffers on platforms that reject misaligned accesses (C28), lengths its length type can hold (C32), and for isapk128*/opt_64 the bytes it reads behind ad (C09)."
  },
  {
   "property": "C14",
   "status": "partial",
   "theorems": [
    "Props.C14_truncated_is_undefined",
    "Props.C14_false",
    "Props.C14_partial"
   ],
   "note": "The property is false of the code (C14_false: clen < 16 runs into undefined behaviour in every implementation); C14_partial covers clen >= 16."
  },
  {
   "property": "C15",
   "status": "proved",
   "theorems": [
    "Props.C15_encrypt_history_independent",
    "Props.C15_decrypt_history_independent",
    "Props.C15_decrypt_depends_on_inputs"
   ],
   "note": "Valid calls within the implementation's limits (Target.limits): word-aligned buffers on platforms that reject misaligned accesses (C28), lengths its length type can hold (C32), and for isapk128*/opt_64 the bytes it reads behind ad (C09)."
  },
  {
   "property": "C16",
   "status": "partial",
   "theorems": [
    "Props.C16_concurrent_partial",
    "Props.C16_false_stp"
   ],
   "note": "Proved for all implementations except stp; false for the stp variants, which communicate through global variables (C16_false_stp). Valid calls within the implementation's limits (Target.limits): word-aligned buffers on platforms that reject misaligned accesses (C28), lengths its length type can hold (C32), and for isapk128*/opt_64 the bytes it reads behind ad (C09)."
  },
  {
   "property": "C17",
   "status": "proved",
   "theorems": [
    "Props.C17_stp_accepts_iff",
    "Props.C17_stp_rejects_only_wrong"
   ],
   "note": "Valid calls within the implementation's limits (Target.limits): word-aligned buffers on platforms that reject misaligned accesses (C28), lengths its length type can hold (C32), and for isapk128*/opt_64 the bytes it reads behind ad (C09)."
  },
  {
   "property": "C18",
   "status": "proved",
   "theorems": [
    "Props.C18_stream_cipher",
    "Props.C18_decrypt_same_keystream"
   ],
   "note": "Valid calls within the implementation's limits (Target.limits): word-aligned buffers on platforms that reject misaligned accesses (C28), lengths its length type can hold (C32), and for isapk128*/opt_64 the bytes it reads behind ad (C09)."
  },
  {
   "property": "C19",
   "status": "proved",
   "theorems": [
    "Props.C19_prefix"
   ],
   "note": "Valid calls within the implementation's limits (Target.limits): word-aligned buffers on platforms that reject misaligned accesses (C28), lengths its length type can hold (C32), and for isapk128*/opt_64 the bytes it reads behind ad (C09)."
  },
  {
   "property": "C20",
   "status": "proved",
   "theorems": [
    "Props.C20_injective"
   ],
   "note": "Valid calls within the implementation's limits (Target.limits): word-aligned buffers on platforms that reject misaligned accesses (C28), lengths its length type can hold (C32), and for isapk128*/opt_64 the bytes it reads behind ad (C09)."
  },
  {
   "property": "C21",
   "status": "proved",
   "theorems": [
    "Props.C21_encrypt_trace",
    "Props.C21_decrypt_trace",
    "Props.C21_encrypt_defined"
   ],
   "note": "Valid calls within the implementation's limits (Target.limits): word-aligned buffers on platforms that reject misaligned accesses (C28), lengths its length type can hold (C32), and for isapk128*/opt_64 the bytes it reads behind ad (C09)."
  },
  {
   "property": "C22",
   "status": "partial",
   "theorems": [
    "Props.C22_spec_partial",
    "Props.C22_bijection",
    "Props.C22_code_bijection",
    "Props.C22_armv7m_differs",
    "Props.C22_ref_rounds"
   ],
   "note": "Equality with the specification for all implementations except bi_32_armv7m, of which it is false (C22_armv7m_differs); bijectivity for all implementations including it."
  },
  {
   "property": "C23",
   "status": "proved",
   "theorems": [
    "Props.C23_spec",
    "Props.C23_bijection",
    "Props.C23_ref_rounds"
   ],
   "note": ""
  },
  {
   "property": "C24",
   "status": "proved",
   "theorems": [
    "Props.C24_mac_of_absorbed",
    "Props.C24_injective",
    "Props.C24_nonce",
    "Props.C24_code"
   ],
   "note": ""
  },
  {
   "property": "C25",
   "status": "partial",
   "theorems": [
    "Props.C25_ascon_hash_partial",
    "Props.C25_not_armv7m"
   ],
   "note": "All implementations of crypto_hash except bi_32_armv7m, of which it is false (C25_not_armv7m)."
  },
  {
   "property": "C26",
   "status": "proved",
   "theorems": [
    "Props.C26_hash_memory",
    "Props.C26_hash_null_input",
    "Props.C26_hash_placement"
   ],
   "note": ""
  },
  {
   "property": "C27",
   "status": "proved",
   "theorems": [
    "Props.C27_encrypt_unaffected_by_hash",
    "Props.C27_decrypt_unaffected_by_hash"
   ],
   "note": "Valid calls within the implementation's limits (Target.limits): word-aligned buffers on platforms that reject misaligned accesses (C28), lengths its length type can hold (C32), and for isapk128*/opt_64 the bytes it reads behind ad (C09)."
  },
  {
   "property": "C28",
   "status": "partial",
   "theorems": [
    "Props.C28_encrypt_partial",
    "Props.C28_decrypt_partial",
    "Props.C28_tolerant_partial",
    "Props.C28_false",
    "Props.C28_iff",
    "Props.C28_false_tag"
   ],
   "note": "True exactly of the byte-wise reference implementations (C28_iff); every other implementation is undefined for misaligned buffers on a platform that does not tolerate them (C28_false, C28_false_tag); on a tolerant platform all alignments work (C28_tolerant_partial)."
  },
  {
   "property": "C29",
   "status": "partial",
   "theorems": [
    "Props.C29_rounds_present",
    "Props.C29_ascon_partial",
    "Props.C29_keccak",
    "Props.C29_ascon_suffix",
    "Props.C29_keccak_suffix",
    "Props.C29_avx_two_lanes"
   ],
   "note": "All implementations except bi_32_armv7m, whose round exchanges lanes (C22_armv7m_differs); its loop runs the right number of rounds with the right constants (Opt.Armv7m.seq_rep)."
  },
  {
   "property": "C30",
   "status": "proved",
   "theorems": [
    "Props.C30_roundtrip",
    "Props.C30_xor",
    "Props.C30_bi32_inverse",
    "Props.C30_bi32_bits",
    "Props.C30_bi32_ops",
    "Props.C30_bi8_inverse",
    "Props.C30_bi8_bits",
    "Props.C30_bi8_ops",
    "Props.C30_opt64_ror",
    "Props.C30_opt8_ror"
   ],
   "note": ""
  },
  {
   "property": "C31",
   "status": "proved",
   "theorems": [
    "Props.C31_tables",
    "Props.C31_encrypt_code",
    "Props.C31_rk_start",
    "Props.C31_initial_states",
    "Props.C31_hash",
    "Props.C31_after_permutation",
    "Props.C31_same_rounds",
    "Props.C31_hash_after_permutation"
   ],
   "note": ""
  },
  {
   "property": "C32",
   "status": "partial",
   "theorems": [
    "Props.C32_false_avx512",
    "Props.C32_encrypt_partial",
    "Props.C32_decrypt_reads_partial",
    "Props.C32_truncates",
    "Props.C32_false_ad",
    "Props.C32_false_forgery",
    "Props.C32_false_llp64_opt64",
    "Props.C32_false_llp64_avx512",
    "Props.C32_false_llp64_in_place"
   ],
   "note": "Proved for all implementations with 64-bit lengths (encryption of isapa128av20/avx_512 only below 2^63; from there on it reads beyond a local variable, C32_false_avx512). False of the ARM implementations of isapk128av20 and isapk128v20, and, where unsigned long has 32 bits (64-bit Windows), of isapa128v20/opt_64 and isapa128av20/avx_512: lengths are taken modulo 2^32 (C32_truncates, C32_false_ad, C32_false_forgery), and the latter two do not encrypt all of a message longer than 2^32 bytes (C32_false_llp64_opt64, C32_false_llp64_avx512, C32_false_llp64_in_place)."
  },
  {
   "property": "C33",
   "status": "proved",
   "theorems": [
    "Props.C33_fused"
   ],
   "note": "Valid calls within the implementation's limits (Target.limits): word-aligned buffers on platforms that reject misaligned accesses (C28), lengths its length type can hold (C32), and for isapk128*/opt_64 the bytes it reads behind ad (C09)."
  },
  {
   "property": "C34",
   "status": "proved",
   "theorems": [
    "Props.C34_encrypt_via_rk",
    "Props.C34_decrypt_via_rk",
    "Props.C34_rk_last",
    "Props.C34_shared_prefix",
    "Props.C34_two_successors"
   ],
   "note": "Valid calls within the implementation's limits (Target.limits): word-aligned buffers on platforms that reject misaligned accesses (C28), lengths its length type can hold (C32), and for isapk128*/opt_64 the bytes it reads behind ad (C09)."
  },
  {
   "property": "C35",
   "status": "proved",
   "theorems": [
    "Props.C35_generator",
    "Props.C35_generator_sizes",
    "Props.C35_generator_ref",
    "Props.C35_not_opened",
    "Props.C35_demo",
    "Props.C35_file_determines",
    "Props.C35_self_check_insufficient"
   ],
   "note": "The generator with 32/32 bytes on platforms that tolerate misaligned accesses, for every implementation; for other sizes and platforms under the implementation's limits (none for the reference code)."
  },
  {
   "property": "C36",
   "status": "proved",
   "theorems": [
    "Props.C36_generator",
    "Props.C36_generator_sizes",
    "Props.C36_file_determines",
    "Props.C36_armv7m_file_wrong"
   ],
   "note": "1024 bytes on platforms that tolerate misaligned accesses; other sizes and platforms with word-aligned arrays."
  },
  {
   "property": "C37",
   "status": "proved",
   "theorems": [
    "Props.C37_repeat",
    "Props.C37_bulk",
    "Props.C37_repeat_hash"
   ],
   "note": "Conforming implementations, calls within the implementation's limits."
  },
  {
   "property": "C38",
   "status": "proved",
   "theorems": [
    "Props.C38_threads",
    "Props.C38_no_race"
   ],
   "note": "Valid calls within the implementation's limits; at most one thread calls stp variants (otherwise false: C16_false_stp). Sequentially consistent interleaving of single accesses."
  },
  {
   "property": "C39",
   "status": "proved",
   "theorems": [
    "Props.C39_hash_trace"
   ],
   "note": "All implementations of crypto_hash, all arguments."
  },
  {
   "property": "C40",
   "status": "proved",
   "theorems": [
    "Props.C40_armv6m_permute_nrounds",
    "Props.C40_armv6m_permute_20rounds",
    "Props.C40_armv6m_initialize",
    "Props.C40_armv6m_static_initialize",
    "Props.C40_armv6m_add_byte",
    "Props.C40_armv6m_add_bytes",
    "Props.C40_armv6m_overwrite_bytes",
    "Props.C40_armv6m_extract_bytes",
    "Props.C40_armv6m_extract_and_add_bytes",
    "Props.C40_armv6m_overwrite_with_zeroes",
    "Props.C40_armv7m_permute_nrounds",
    "Props.C40_armv7m_permute_20rounds",
    "Props.C40_armv7m_initialize",
    "Props.C40_armv7m_static_initialize",
    "Props.C40_armv7m_add_byte",
    "Props.C40_armv7m_add_bytes",
    "Props.C40_armv7m_overwrite_bytes",
    "Props.C40_armv7m_extract_bytes",
    "Props.C40_armv7m_extract_and_add_bytes",
    "Props.C40_armv7m_overwrite_with_zeroes",
    "Props.C40_armv7m_needs_unaligned"
   ],
   "note": "For the ARMv7-M permutation on processors that permit unaligned word loads; where they fault, so does the routine (C40_armv7m_needs_unaligned). The memory the caller provides is described in Spec/AsmCall.lean."
  },
  {
   "property": "C41",
   "status": "partial",
   "theorems": [
    "Props.C41_flags_kept",
    "Props.C41_armv6m_flags",
    "Props.C41_not_armv6m_flags",
    "Props.C41_armv6",
    "Props.C41_armv67m",
    "Props.C41_armv7m",
    "Props.C41_armv6m_partial",
    "Props.C41_models",
    "Props.C41_armv6m_shared",
    "Props.C41_not_armv6m"
   ],
   "note": "False of bi_32_armv6m, _compact, _stp (C41_not_armv6m; C41_armv6m_shared says what happens); for them C41_armv6m_partial requires C_o to be an immediate value or in a register of its own. Full for the other blocks. The same three also change the flags without declaring it (C41_armv6m_flags, C41_not_armv6m_flags); the others keep them (C41_flags_kept). The assembler's encoding limits (e.g. ranges of immediates) are not modelled."
  },
  {
   "property": "C42",
   "status": "proved",
   "theorems": [
    "Props.C42_same_tag",
    "Props.C42_accepted_tag",
    "Props.C42_two_accepted",
    "Props.C42_same_digest",
    "Props.C42_hash_code"
   ],
   "note": ""
  },
  {
   "property": "C43",
   "status": "proved",
   "theorems": [
    "Props.C43_encrypt",
    "Props.C43_tag_last",
    "Props.C43_decrypt",
    "Props.C43_no_release",
    "Props.C43_hash",
    "Props.C43_retry_encrypt",
    "Props.C43_retry_decrypt",
    "Props.C43_retry_hash",
    "Props.C43_in_place_not_repeatable"
   ],
   "note": ""
  },
  {
   "property": "C44",
   "status": "proved",
   "theorems": [
    "Props.C44_static_unchanged",
    "Props.C44_static_public"
   ],
   "note": "Unchanged globals: all calls that end, whatever their arguments. Stp variants: valid calls within the implementation's limits. Stack and registers are not modelled."
  },
  {
   "property": "C45",
   "status": "proved",
   "theorems": [
    "Props.C45_encrypt_initialised",
    "Props.C45_decrypt_initialised",
    "Props.C45_model_is_instance"
   ],
   "note": "Valid calls within the implementation's limits. The variables concerned are listed in Model/Locals.lean."
  },
  {
   "property": "C46",
   "status": "partial",
   "theorems": [
    "Props.C46_encrypt_partial",
    "Props.C46_decrypt_partial",
    "Props.C46_little",
    "Props.C46_mode",
    "Props.C46_round_trip",
    "Props.C46_opt8_body_partial",
    "Props.C46_opt8_hash",
    "Props.C46_not",
    "Props.C46_not_hash",
    "Props.C46_mixed_little",
    "Props.C46_mixed_round_trip",
    "Props.C46_mixed_not",
    "Props.C46_mixed_not_hash",
    "Props.C46_keccak_little",
    "Props.C46_keccak_round_trip_partial",
    "Props.C46_keccak_not_round_trip"
   ],
   "note": "Proved for the reference code of isapa128av20 and isapa128v20. False of opt_64, opt_32, opt_32_compact, opt_32_tiny, opt_8, opt_8_tiny of isapa128av20 (C46_not); proved of them: they compute ISAP with another bijection and decrypt what they encrypt (C46_mode, C46_round_trip); body and hash of opt_8, opt_8_tiny are right. Also false of bi_32, bi_32_compact, bi_8 and of opt_64, opt_32, opt_32_armv67m of isapa128v20 (C46_mixed_not, C46_mixed_not_hash), which decrypt what they encrypt (C46_mixed_round_trip). False of opt_64 of isapk128av20, which rejects some of its own ciphertexts (C46_keccak_not_round_trip); opt_64 of ISAP-K decrypts what it encrypts for lengths that leave 6 to 17 bytes for the last block, or less than a block (C46_keccak_round_trip_partial). The big-endian branch of the Keccak reference cannot be built; the other optimized versions are not modelled for big-endian platforms."
  },
  {
   "property": "C47",
   "status": "proved",
   "theorems": [
    "Props.C47_encrypt_linear",
    "Props.C47_decrypt_linear",
    "Props.C47_hash_linear"
   ],
   "note": "Valid calls within the implementation's limits. A step is a memory access, an access to a global variable or a branch; the code between two steps has a length that does not depend on the arguments."
  },
  {
   "property": "C48",
   "status": "proved",
   "theorems": [
    "Props.C48_any_permutation_encrypt",
    "Props.C48_any_permutation_decrypt",
    "Props.C48_instance",
    "Props.C48_prescribed_encrypt",
    "Props.C48_prescribed_decrypt",
    "Props.C48_count",
    "Props.C48_count_decrypt"
   ],
   "note": "For every implementation but avx_512 of ISAP-A-128a (which fuses halves of the 12-round permutation with 6-round ones) and every function on states in place of the permutation. Dependence on the permutation, not a log of calls."
  },
  {
   "property": "C49",
   "status": "partial",
   "theorems": [
    "Props.C49_ref",
    "Props.C49_absorb",
    "Props.C49_opt64",
    "Props.C49_opt32",
    "Props.C49_opt8",
    "Props.C49_bi32",
    "Props.C49_bi8_partial",
    "Props.C49_bi8_avr",
    "Props.C49_bi8_false",
    "Props.C49_a128",
    "Props.C49_a128_32",
    "Props.C49_keccak",
    "Props.C49_iv_partial",
    "Props.C49_iv_false"
   ],
   "note": "False with a 16-bit int of bi_8 (ROR8 shifts bytes from 0x80 by 8, C49_bi8_false; C49_bi8_avr says exactly when) and of the 64-bit code of ISAP-K (C49_iv_false); proved for these with a 32-bit int (C49_bi8_partial, C49_iv_partial) and for all other expressions for both sizes."
  },
  {
   "property": "C50",
   "status": "partial",
   "theorems": [
    "Props.C50_encrypt_partial",
    "Props.C50_decrypt_partial",
    "Props.C50_union_writes",
    "Props.C50_false",
    "Props.C50_iff",
    "Props.C50_hash_writes",
    "Props.C50_accesses",
    "Props.C50_kref_state",
    "Props.C50_state",
    "Props.C50_ke",
    "Props.C50_avx_state",
    "Props.C50_tag_writes",
    "Props.C50_tag_partial",
    "Props.C50_union_encrypt_partial",
    "Props.C50_union_decrypt_partial",
    "Props.C50_hash_stores"
   ],
   "note": "True exactly of the byte-wise reference implementations (C50_iff, C50_encrypt_partial, C50_decrypt_partial); false of all others (C50_false), also of those that read through a union, because they store the ciphertext as uint64_t (C50_union_writes); crypto_hash stores the digest as uint64_t, and nothing else (C50_hash_writes, C50_hash_stores). Local arrays: the Keccak reference, isapa128v20, isapa128av20/avx_512 and ISAP-K opt_64 access arrays of characters by words in every call (C50_kref_state, C50_state, C50_ke for non-empty messages, C50_avx_state, C50_tag_writes); the others, except the stp variants, access tag[16] as characters (C50_tag_partial). The versions that read through the union store by words nothing but full blocks of the ciphertext or plaintext, and so neither tag[16] nor T[16] (C50_union_encrypt_partial, C50_union_decrypt_partial); the model does not tell their reads of the message, which are through uint64_t *, from those through the union."
  },
  {
   "property": "C51",
   "status": "partial",
   "theorems": [
    "Props.C51_avx_encrypt_partial",
    "Props.C51_avx_key_remains",
    "Props.C51_avx_misaligned",
    "Props.C51_avx_false",
    "Props.C51_ke_key_remains",
    "Props.C51_ke_key_remains_dec",
    "Props.C51_decrypt_partial",
    "Props.C51_tag_remains",
    "Props.C51_misaligned",
    "Props.C51_false",
    "Props.C51_iff",
    "Props.C51_kref_encrypt_partial",
    "Props.C51_kref_decrypt_partial",
    "Props.C51_kref_key_remains",
    "Props.C51_kref_key_remains_dec",
    "Props.C51_kref_misaligned",
    "Props.C51_kref_false",
    "Props.C51_kref_authkey_remains",
    "Props.C51_kref_authkey_remains_rejected",
    "Props.C51_kref_tag_from_rejected",
    "Props.C51_kref_forgery_from_rejected",
    "Props.C51_state_encrypt_partial",
    "Props.C51_state_decrypt_partial",
    "Props.C51_state_avx_partial",
    "Props.C51_key_remains",
    "Props.C51_key_remains_dec",
    "Props.C51_state_misaligned",
    "Props.C51_state_misaligned_dec",
    "Props.C51_state_false",
    "Props.C51_ke_encrypt_partial",
    "Props.C51_ke_decrypt_partial",
    "Props.C51_ke_misaligned",
    "Props.C51_ke_false",
    "Props.C51_state_authkey_remains",
    "Props.C51_avx_authkey_remains",
    "Props.C51_state_authkey_remains_rejected",
    "Props.C51_state_authkey_remains_dec",
    "Props.C51_state_tag_from_rejected",
    "Props.C51_state_forgery_from_rejected",
    "Props.C51_state_plaintext_from_key",
    "Props.C51_avx_plaintext_from_key",
    "Props.C51_ke_plaintext_from_key",
    "Props.C51_kref_plaintext_from_key",
    "Props.C51_avx_key_remains_dec",
    "Props.C51_tables_partial",
    "Props.C51_hash_table_partial",
    "Props.C51_tables_misaligned",
    "Props.C51_hash_table_misaligned",
    "Props.C51_tables_false",
    "Props.C51_tables_iff"
   ],
   "note": "False on strict platforms of the implementations that access tag[16] or T[16] by words (C51_misaligned, C51_false, C51_iff), of isapa128v20/opt_64, opt_32 and opt_32_armv67m because of state[40] and ke[24] (C51_state_misaligned, C51_state_false, C51_ke_misaligned, C51_ke_false), of isapa128av20/avx_512 because of state_enc[40] and state_mac[40] (C51_avx_misaligned, C51_avx_false), of the Keccak reference because of state[50] (C51_kref_misaligned, C51_kref_false) and of those that read the tables by words (C51_tables_misaligned, C51_tables_false, C51_tables_iff, C51_hash_table_misaligned); proved if these arrays are aligned (the theorems _partial)."
  },
  {
   "property": "C52",
   "status": "partial",
   "theorems": [
    "Props.C52_ref_partial",
    "Props.C52_opt_partial",
    "Props.C52_not_ad",
    "Props.C52_not_ciphertext",
    "Props.C52_not_hash",
    "Props.C52_slack",
    "Props.C52_keccak_not",
    "Props.C52_keccak_not_padding"
   ],
   "note": "Proved for the reference code of isapa128av20 and isapa128v20 (C52_ref_partial) and for six portable versions of isapa128av20 (C52_opt_partial). False on big-endian platforms of opt_64, opt_32, opt_32_armv67m of isapa128v20 and bi_32, bi_32_compact of isapa128av20 (C52_not_ad, C52_not_ciphertext, C52_not_hash). Also false of opt_64 of isapk128av20 and isapk128v20 (C52_keccak_not, C52_keccak_not_padding). Not proved for bi_8; the other implementations are not modelled for big-endian platforms."
  },
  {
   "property": "C53",
   "status": "proved",
   "theorems": [
    "Props.C53_false_avx512",
    "Props.C53_avx512_iff",
    "Props.C53_encrypt",
    "Props.C53_decrypt",
    "Props.C53_hash",
    "Props.C53_encrypt_succeeds",
    "Props.C53_decrypt_returns"
   ],
   "note": "For all calls, valid or not. The programs with checked arrays (Target.aeadChk, Target.hashChk) have the same outcomes as those of the other theorems (Target.aead, Target.hash). Rotations by bytes in opt_8 and bi_8 and members of unions have constant indices and are not modelled as arrays. C53_avx512_iff: for isapa128av20/avx_512 the bound 2^63 is exact."
  }
 ]
}