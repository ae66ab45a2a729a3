{
 "claims": [
  {
   "property": "C01",
   "status": "proved",
   "theorems": [
    "Qrl.Props.C01_hex_roundtrip",
    "Qrl.Props.C01_hex_encoding"
   ],
   "note": ""
  },
  {
   "property": "C02",
   "status": "proved",
   "theorems": [
    "Qrl.Props.C02_hex_accepts",
    "Qrl.Props.C02_hex_canonical",
    "Qrl.Props.C02_hex_injective",
    "Qrl.Props.C02_hex_undefined",
    "Qrl.Props.C02_hex_outcome"
   ],
   "note": ""
  },
  {
   "property": "C03",
   "status": "proved",
   "theorems": [
    "Qrl.Props.C03_hex_wrap"
   ],
   "note": ""
  },
  {
   "property": "C04",
   "status": "proved",
   "theorems": [
    "Qrl.Props.C04_mnemonic_roundtrip",
    "Qrl.Props.C04_mnemonic_encoding",
    "Qrl.Props.C04_mnemonic_throws",
    "Qrl.Props.C04_mnemonic_empty",
    "Qrl.Props.C04_wordlist"
   ],
   "note": ""
  },
  {
   "property": "C05",
   "status": "proved",
   "theorems": [
    "Qrl.Props.C05_mnemonic_accepts",
    "Qrl.Props.C05_mnemonic_words",
    "Qrl.Props.C05_mnemonic_canonical",
    "Qrl.Props.C05_mnemonic_injective",
    "Qrl.Props.C05_mnemonic_value",
    "Qrl.Props.C05_mnemonic_same_words"
   ],
   "note": ""
  },
  {
   "property": "C06",
   "status": "proved",
   "theorems": [
    "Qrl.Props.C06_odd_rejected",
    "Qrl.Props.C06_odd_accepted",
    "Qrl.Props.C06_refuted"
   ],
   "note": "The natural statement (odd word counts are rejected) is false of the code and refuted by C06_refuted; the true part is C06_odd_rejected."
  },
  {
   "property": "C07",
   "status": "proved",
   "theorems": [
    "Qrl.Props.C07_descriptor_roundtrip",
    "Qrl.Props.C07_descriptor_injective",
    "Qrl.Props.C07_descriptor_layout",
    "Qrl.Props.C07_descriptor_throws",
    "Qrl.Props.C07_descriptor_normalise"
   ],
   "note": ""
  },
  {
   "property": "C08",
   "status": "proved",
   "theorems": [
    "Qrl.Props.C08_sigtype_ignored",
    "Qrl.Props.C08_sigtype_indistinguishable",
    "Qrl.Props.C08_verify_ignores_sigtype",
    "Qrl.Props.C08_verify_descriptor_nibbles",
    "Qrl.Props.C08_other_sigtype_refuted"
   ],
   "note": "The natural statement is false of the code; the theorems state and prove what the code does instead (the nibble is masked and never affects verify)."
  },
  {
   "property": "C09",
   "status": "proved",
   "theorems": [
    "Qrl.Props.C09_extended_seed_constructor",
    "Qrl.Props.C09_extended_seed_roundtrip",
    "Qrl.Props.C09_extended_seed_back"
   ],
   "note": ""
  },
  {
   "property": "C10",
   "status": "proved",
   "theorems": [
    "Qrl.Props.C10_address_value",
    "Qrl.Props.C10_address_throws",
    "Qrl.Props.C10_address_valid"
   ],
   "note": ""
  },
  {
   "property": "C11",
   "status": "proved",
   "theorems": [
    "Qrl.Props.C11_address_valid",
    "Qrl.Props.C11_checksum_unique",
    "Qrl.Props.C11_corrupted",
    "Qrl.Props.C11_unowned_refuted"
   ],
   "note": ""
  },
  {
   "property": "C12",
   "status": "proved",
   "theorems": [
    "Qrl.Props.C12_fast_sign_verifies",
    "Qrl.Props.C39_fast_succeeds"
   ],
   "note": ""
  },
  {
   "property": "C13",
   "status": "proved",
   "theorems": [
    "Qrl.Props.C13_basic_sign_verifies"
   ],
   "note": ""
  },
  {
   "property": "C14",
   "status": "proved",
   "theorems": [
    "Qrl.Props.C14_same_key",
    "Qrl.Props.C14_same_signatures"
   ],
   "note": "Same signatures for heights up to 24, the range in which XmssBasic::sign is defined."
  },
  {
   "property": "C15",
   "status": "proved",
   "theorems": [
    "Qrl.Props.C15_fast_key",
    "Qrl.Props.C15_basic_key",
    "Qrl.Props.C12_fast_sign_verifies",
    "Qrl.Props.C13_basic_sign_verifies"
   ],
   "note": ""
  },
  {
   "property": "C16",
   "status": "proved",
   "theorems": [
    "Qrl.Props.C16_fast_no_reuse"
   ],
   "note": ""
  },
  {
   "property": "C17",
   "status": "proved",
   "theorems": [
    "Qrl.Props.C17_fast_setIndex",
    "Qrl.Props.C17_fast_exhaustion",
    "Qrl.Props.C17_fast_at_most",
    "Qrl.Props.C17_fast_all_used"
   ],
   "note": ""
  },
  {
   "property": "C18",
   "status": "proved",
   "theorems": [
    "Qrl.Props.C18_basic_reuse_refuted",
    "Qrl.Props.C18_basic_exhausted_refuted",
    "Qrl.Props.C18_basic_refines",
    "Qrl.Props.C18_basic_reuse_always"
   ],
   "note": "The natural property is false of the code; both refutations are proved for every seed, height and hash function."
  },
  {
   "property": "C19",
   "status": "proved",
   "theorems": [
    "Qrl.Props.C19_fast_refines_counter",
    "Qrl.Props.C19_fast_defined",
    "Qrl.Props.C39_fast_succeeds"
   ],
   "note": ""
  },
  {
   "property": "C20",
   "status": "proved",
   "theorems": [
    "Qrl.Props.C20_verify_spec",
    "Qrl.Props.C20_verify_no_throw",
    "Qrl.Props.C20_verify_true",
    "Qrl.Props.C20_verify_malformed"
   ],
   "note": ""
  },
  {
   "property": "C21",
   "status": "proved",
   "theorems": [
    "Qrl.Props.C21_verify_safe",
    "Qrl.Props.C21_message_unchanged"
   ],
   "note": ""
  },
  {
   "property": "C22",
   "status": "proved",
   "theorems": [
    "Qrl.Props.C22_signature_size",
    "Qrl.Props.C22_height_from_size",
    "Qrl.Props.C22_size_roundtrip",
    "Qrl.Props.C12_fast_sign_verifies",
    "Qrl.Props.C13_basic_sign_verifies"
   ],
   "note": ""
  },
  {
   "property": "C23",
   "status": "proved",
   "theorems": [
    "Qrl.Props.C23_wots_correct"
   ],
   "note": ""
  },
  {
   "property": "C24",
   "status": "proved",
   "theorems": [
    "Qrl.Props.C24_digits",
    "Qrl.Props.C24_no_forward_forgery",
    "Qrl.Props.C24_w256_refuted"
   ],
   "note": "For w = 256 the property is false of the code and refuted by C24_w256_refuted."
  },
  {
   "property": "C25",
   "status": "proved",
   "theorems": [
    "Qrl.Props.C25_two_signatures",
    "Qrl.Props.C25_no_second_message",
    "Qrl.Props.C25_honest_key",
    "Qrl.Props.C25_honest_basic",
    "Qrl.Props.C25_calls_complete",
    "Qrl.Props.C25_node_calls_complete"
   ],
   "note": "Reductions: the conclusion names two calls out of an explicit list that collide, or a chain that has been inverted; that this is hard is a cryptographic assumption outside the model."
  },
  {
   "property": "C26",
   "status": "proved",
   "theorems": [
    "Qrl.Props.C26_fast_stable",
    "Qrl.Props.C26_fast_layout",
    "Qrl.Props.C26_basic_layout",
    "Qrl.Props.C26_basic_stable"
   ],
   "note": ""
  },
  {
   "property": "C27",
   "status": "proved",
   "theorems": [
    "Qrl.Props.C27_base_setIndex",
    "Qrl.Props.C17_fast_setIndex",
    "Qrl.Props.C12_fast_sign_verifies"
   ],
   "note": ""
  },
  {
   "property": "C28",
   "status": "proved",
   "theorems": [
    "Qrl.Props.C28_pool_in_order",
    "Qrl.Props.C28_pool_once",
    "Qrl.Props.C28_pool_current",
    "Qrl.Props.C28_pool_mutex",
    "Qrl.Props.C28_pool_none_skipped",
    "Qrl.Props.C28_pool_no_deadlock",
    "Qrl.Props.C28_pool_terminates",
    "Qrl.Props.C28_pool_completes",
    "Qrl.Props.C29_pool_trees"
   ],
   "note": "Schedules include failures of std::async to start a thread, of push_back to store its future, and of tree building to get memory: such a failure loses the claimed index (C28_pool_none_skipped counts them). Memory-model effects below the level of the mutex are not modelled."
  },
  {
   "property": "C29",
   "status": "proved",
   "theorems": [
    "Qrl.Props.C29_pool_trees",
    "Qrl.Props.C29_pool_tree_of_claim",
    "Qrl.Props.C29_pool_tree_value"
   ],
   "note": ""
  },
  {
   "property": "C30",
   "status": "proved",
   "theorems": [
    "Qrl.Props.C30_pool_inputs",
    "Qrl.Props.C30_same_length",
    "Qrl.Props.C30_trees_differ",
    "Qrl.Props.C30_other_length_refuted",
    "Qrl.Props.C30_other_length_shared"
   ],
   "note": ""
  },
  {
   "property": "C31",
   "status": "proved",
   "theorems": [
    "Qrl.Props.C31_pool_cache",
    "Qrl.Props.C31_pool_get_once",
    "Qrl.Props.C31_pool_full",
    "Qrl.Props.C31_pool_refilled",
    "Qrl.Props.C31_pool_available",
    "Qrl.Props.C31_pool_empty_forever"
   ],
   "note": ""
  },
  {
   "property": "C32",
   "status": "proved",
   "theorems": [
    "Qrl.Props.C32_shake128",
    "Qrl.Props.C32_shake256",
    "Qrl.Props.C32_permutation",
    "Qrl.Props.C32_bits_injective",
    "Qrl.Props.C32_states"
   ],
   "note": "The specification is at bit level, section by section of FIPS 202."
  },
  {
   "property": "C33",
   "status": "proved",
   "theorems": [
    "Qrl.Props.C33_shake_prefix"
   ],
   "note": ""
  },
  {
   "property": "C34",
   "status": "proved",
   "theorems": [
    "Qrl.Props.C34_sha2_n",
    "Qrl.Props.C34_sha2_n_add"
   ],
   "note": ""
  },
  {
   "property": "C35",
   "status": "proved",
   "theorems": [
    "Qrl.Props.C35_hash_chain",
    "Qrl.Props.C35_hash_chain_stable",
    "Qrl.Props.C35_hash_chain_inputs"
   ],
   "note": ""
  },
  {
   "property": "C36",
   "status": "proved",
   "theorems": [
    "Qrl.Props.C36_verify_unsupported",
    "Qrl.Props.C36_basic_unsupported",
    "Qrl.Props.C36_fast_unsupported"
   ],
   "note": "The natural statement (an unsupported hash function is refused) is false of the code; the theorems prove that every such key or seed leads to undefined behaviour."
  },
  {
   "property": "C37",
   "status": "proved",
   "theorems": [
    "Qrl.Props.C37_address_injective",
    "Qrl.Props.C37_uses_distinct",
    "Qrl.Props.C37_calls_distinct",
    "Qrl.Props.C37_prf_call",
    "Qrl.Props.C37_msg_call",
    "Qrl.Props.C37_f_call",
    "Qrl.Props.C37_ltree_call",
    "Qrl.Props.C37_tree_call"
   ],
   "note": ""
  },
  {
   "property": "C38",
   "status": "proved",
   "theorems": [
    "Qrl.Props.C38_leaf",
    "Qrl.Props.C38_ltree",
    "Qrl.Props.C38_wots_pkgen",
    "Qrl.Props.C38_wots_sign",
    "Qrl.Props.C38_treehash",
    "Qrl.Props.C38_authpath",
    "Qrl.Props.C38_bds_round",
    "Qrl.Props.C38_bds_update"
   ],
   "note": ""
  },
  {
   "property": "C39",
   "status": "proved",
   "theorems": [
    "Qrl.Props.C39_fast_throws",
    "Qrl.Props.C39_fast_succeeds",
    "Qrl.Props.C39_fast_tall_refuted",
    "Qrl.Props.C39_extended_seed_throws",
    "Qrl.Props.C39_basic_throws",
    "Qrl.Props.C39_basic_succeeds",
    "Qrl.Props.C39_basic_tall_refuted"
   ],
   "note": ""
  },
  {
   "property": "C40",
   "status": "proved",
   "theorems": [
    "Qrl.Props.C40_validate",
    "Qrl.Props.C40_text",
    "Qrl.Props.C40_getters",
    "Qrl.Props.C40_hexseed",
    "Qrl.Props.C40_hexseed_vs_native",
    "Qrl.Props.C40_hexseed_throws",
    "Qrl.Props.C40_hexseed_roundtrip",
    "Qrl.Props.C40_mnemonic_roundtrip",
    "Qrl.Props.C40_own_address",
    "Qrl.Props.C40_address_of_key",
    "Qrl.Props.C40_address_of_key_value",
    "Qrl.Props.C40_address_of_key_throws",
    "Qrl.Props.C40_sign_verify",
    "Qrl.Props.C40_basic_verify_spec",
    "Qrl.Props.C40_basic_sign_verify",
    "Qrl.Props.C40_basic_hexseed"
   ],
   "note": "The emscripten glue between JS strings and std::string is not modelled."
  },
  {
   "property": "C41",
   "status": "proved",
   "theorems": [
    "Qrl.Props.C41_kyber_constructor",
    "Qrl.Props.C41_kyber_encode",
    "Qrl.Props.C41_kyber_decode",
    "Qrl.Props.C41_kyber_exchange",
    "Qrl.Props.C41_dilithium_sign",
    "Qrl.Props.C41_dilithium_split",
    "Qrl.Props.C41_dilithium_open",
    "Qrl.Props.C41_dilithium_unchecked_refuted",
    "Qrl.Props.C41_extract_after_open_refuted",
    "Qrl.Props.C41_js_open_verdict_lost_refuted",
    "Qrl.Props.C41_js_hex",
    "Qrl.Props.C41_js_extract_refuted"
   ],
   "note": "The Kyber and Dilithium reference code is absent from the repository; its published contract is a hypothesis (KemContract, SignContract), shown satisfiable."
  },
  {
   "property": "C42",
   "status": "proved",
   "theorems": [
    "Qrl.Props.C42_random_seed",
    "Qrl.Props.C48_returns_platform_bytes",
    "Qrl.Props.C48_throws_iff"
   ],
   "note": "The JS part is C48."
  },
  {
   "property": "C43",
   "status": "proved",
   "theorems": [
    "Qrl.Props.C43_history_independent",
    "Qrl.Props.C43_sign_is_skip"
   ],
   "note": ""
  },
  {
   "property": "C44",
   "status": "proved",
   "theorems": [
    "Qrl.Props.C44_initialize_resets",
    "Qrl.Props.C44_reuse_refuted",
    "Qrl.Props.C44_full_refines",
    "Qrl.Props.C44_full_sign_verifies",
    "Qrl.Props.C44_total",
    "Qrl.Props.C44_any_sign",
    "Qrl.Props.C44_supported_agree"
   ],
   "note": "The natural statement is false of the code: refuted by C44_reuse_refuted, for every fresh object."
  },
  {
   "property": "C45",
   "status": "proved",
   "theorems": [
    "Qrl.Props.C45_basic_tall"
   ],
   "note": "The natural property is false of the code; the failure is proved for every seed, hash function, w, history and message."
  },
  {
   "property": "C46",
   "status": "proved",
   "theorems": [
    "Qrl.Props.C46_ctor_total",
    "Qrl.Props.C46_sign_total",
    "Qrl.Props.C46_basic_bad_w",
    "Qrl.Props.C46_verify_bad_w",
    "Qrl.Props.C46_verify_crash",
    "Qrl.Props.C46_basic_history"
   ],
   "note": "The natural property is false of the code."
  },
  {
   "property": "C47",
   "status": "proved",
   "theorems": [
    "Qrl.Props.C47_updateSK",
    "Qrl.Props.C47_updateSK_forward",
    "Qrl.Props.C47_updateSK_rewind_refuted"
   ],
   "note": "xmss_updateSK is exported by the C library; the C++ classes do not call it."
  },
  {
   "property": "C48",
   "status": "proved",
   "theorems": [
    "Qrl.Props.C48_returns_platform_bytes",
    "Qrl.Props.C48_throws_iff"
   ],
   "note": "The platform generator is a parameter."
  },
  {
   "property": "C49",
   "status": "proved",
   "theorems": [
    "Qrl.Props.C49_copy_refuted",
    "Qrl.Props.C49_original_spoiled",
    "Qrl.Props.C49_spoiled_rejected"
   ],
   "note": "The natural property is false of the code."
  },
  {
   "property": "C50",
   "status": "proved",
   "theorems": [
    "Qrl.Props.C50_shake128_short",
    "Qrl.Props.C50_shake256_short",
    "Qrl.Props.C50_shake128_second_block",
    "Qrl.Props.C50_shake256_second_block",
    "Qrl.Props.C50_shake128_panics",
    "Qrl.Props.C50_shake256_panics",
    "Qrl.Props.C50_shake128_collisions",
    "Qrl.Props.C50_shake256_collisions",
    "Qrl.Props.C50_shake128_fips_refuted",
    "Qrl.Props.C50_shake256_fips_refuted",
    "Qrl.Props.C50_shake_agrees",
    "Qrl.Props.C50_sha2_n"
   ],
   "note": "The natural property is false of the Rust port; these theorems say exactly what holds."
  },
  {
   "property": "C51",
   "status": "proved",
   "theorems": [
    "Qrl.Props.C51_same_getters",
    "Qrl.Props.C51_counts",
    "Qrl.Props.C51_object_address",
    "Qrl.Props.C51_address_defined",
    "Qrl.Props.C51_address_same",
    "Qrl.Props.C51_address_is_valid",
    "Qrl.Props.C51_fast_same_key",
    "Qrl.Props.C51_basic_same_key",
    "Qrl.Props.C51_new_refuses",
    "Qrl.Props.C51_tall_panics",
    "Qrl.Props.C51_from_extended_seed",
    "Qrl.Props.C51_extended_seed_roundtrip"
   ],
   "note": "Heights of 32 and more in builds without overflow checks are the subject of C74."
  },
  {
   "property": "C52",
   "status": "proved",
   "theorems": [
    "Qrl.Props.C52_fast_history",
    "Qrl.Props.C52_same_as_cpp",
    "Qrl.Props.C52_no_reuse",
    "Qrl.Props.C52_sign_panics_iff",
    "Qrl.Props.C52_sign_cut",
    "Qrl.Props.C52_sign_verifies",
    "Qrl.Props.C52_basic_history",
    "Qrl.Props.C52_basic_reuse_refuted",
    "Qrl.Props.C52_basic_tall_refuted",
    "Qrl.Props.C52_basic_wrap_refuted",
    "Qrl.Props.C52_release_history",
    "Qrl.Props.C52_release_panics_iff",
    "Qrl.Props.C52_release_inside",
    "Qrl.Props.C52_release_indices",
    "Qrl.Props.C52_release_rollover_refuted"
   ],
   "note": "The natural property is false of the Rust XMSSBasic."
  },
  {
   "property": "C53",
   "status": "proved",
   "theorems": [
    "Qrl.Props.C53_message_classes",
    "Qrl.Props.C53_accepts_iff",
    "Qrl.Props.C53_panics_iff",
    "Qrl.Props.C53_outcomes",
    "Qrl.Props.C53_agrees_short",
    "Qrl.Props.C53_forgery",
    "Qrl.Props.C53_refuses",
    "Qrl.Props.C53_signed_forgery"
   ],
   "note": "The natural properties are false of the Rust port."
  },
  {
   "property": "C54",
   "status": "proved",
   "theorems": [
    "Qrl.Props.C54_from_bytes",
    "Qrl.Props.C54_from_bytes_total",
    "Qrl.Props.C54_roundtrip",
    "Qrl.Props.C54_same_bytes",
    "Qrl.Props.C54_cpp_accepts_more"
   ],
   "note": ""
  },
  {
   "property": "C55",
   "status": "proved",
   "theorems": [
    "Qrl.Props.C55_hex_same",
    "Qrl.Props.C55_hstr2bin_same",
    "Qrl.Props.C55_hstr2bin_total",
    "Qrl.Props.C55_hex_roundtrip",
    "Qrl.Props.C55_mnemonic_same",
    "Qrl.Props.C55_mnemonic_accepts",
    "Qrl.Props.C55_mnemonic_value",
    "Qrl.Props.C55_mnemonic_roundtrip",
    "Qrl.Props.C55_mnemonic_cpp",
    "Qrl.Props.C55_mnemonic_cpp_refuted"
   ],
   "note": ""
  },
  {
   "property": "C56",
   "status": "proved",
   "theorems": [
    "Qrl.Props.C56_history",
    "Qrl.Props.C56_available",
    "Qrl.Props.C56_bad_height",
    "Qrl.Props.C56_tall_panics",
    "Qrl.Props.C56_texts_distinct",
    "Qrl.Props.C56_seeds_distinct",
    "Qrl.Props.C56_base_clash_refuted",
    "Qrl.Props.C56_seed_repeats_refuted",
    "Qrl.Props.C56_cpp_differs_refuted"
   ],
   "note": "Indices below 2^64. ThreadPool::install is synchronous, so the pool has no concurrency."
  },
  {
   "property": "C57",
   "status": "proved",
   "theorems": [
    "Qrl.Props.C57_kyber_new",
    "Qrl.Props.C57_kyber_exchange",
    "Qrl.Props.C57_kyber_self",
    "Qrl.Props.C57_dilithium_new",
    "Qrl.Props.C57_dilithium_open",
    "Qrl.Props.C57_extract",
    "Qrl.Props.C57_extract_swapped_refuted",
    "Qrl.Props.C57_extract_wrong_refuted"
   ],
   "note": "The crates are parameters with a stated contract, shown satisfiable."
  },
  {
   "property": "C58",
   "status": "proved",
   "theorems": [
    "Qrl.Props.C58_chain",
    "Qrl.Props.C58_short",
    "Qrl.Props.C58_truncated",
    "Qrl.Props.C58_identical_refuted",
    "Qrl.Props.C58_panics"
   ],
   "note": "The natural property is false of the Rust port."
  },
  {
   "property": "C59",
   "status": "proved",
   "theorems": [
    "Qrl.Props.C59_random",
    "Qrl.Props.C59_random_same",
    "Qrl.Props.C59_entropy_refuted"
   ],
   "note": "The system generator is a parameter."
  },
  {
   "property": "C60",
   "status": "proved",
   "theorems": [
    "Qrl.Props.C60_full_history",
    "Qrl.Props.C60_rewind_refuted"
   ],
   "note": "The natural property is false of the Rust port."
  },
  {
   "property": "C61",
   "status": "proved",
   "theorems": [
    "Qrl.Props.C61_update_sk",
    "Qrl.Props.C61_rewind_refuted"
   ],
   "note": ""
  },
  {
   "property": "C62",
   "status": "proved",
   "theorems": [
    "Qrl.Props.C62_restore_identical",
    "Qrl.Props.C62_wallet_refines",
    "Qrl.Props.C62_no_reuse_across_crashes",
    "Qrl.Props.C62_save_after_sign_refuted",
    "Qrl.Props.C62_exhausted_restore_refuted"
   ],
   "note": "The wallet (disk, crash, restart procedure) is a specification written for this property; every library call it makes is the model's."
  },
  {
   "property": "C63",
   "status": "proved",
   "theorems": [
    "Qrl.Props.C63_address_binds",
    "Qrl.Props.C63_address_tells",
    "Qrl.Props.C63_secret_binds",
    "Qrl.Props.C63_extended_seed_binds"
   ],
   "note": ""
  },
  {
   "property": "C64",
   "status": "proved",
   "theorems": [
    "Qrl.Props.C64_forgery"
   ],
   "note": "Hardness of finding collisions or earlier chain values is nowhere assumed."
  },
  {
   "property": "C65",
   "status": "proved",
   "theorems": [
    "Qrl.Props.C65_hash_forward",
    "Qrl.Props.C65_checksum_protects",
    "Qrl.Props.C65_w256_positions",
    "Qrl.Props.C65_w256_condition",
    "Qrl.Props.C65_w256_refuted"
   ],
   "note": "The natural property is false of the code for w = 256; an example beside the theorems forges end to end."
  },
  {
   "property": "C66",
   "status": "proved",
   "theorems": [
    "Qrl.Props.C66_destroy_safe",
    "Qrl.Props.C66_failed_constructor_safe",
    "Qrl.Props.C66_destroy_ends",
    "Qrl.Props.C66_failed_constructor_ends"
   ],
   "note": "Relies on the C++ rules that members are destroyed in reverse order of declaration and that a std::async future waits for its task; both are in the model."
  },
  {
   "property": "C67",
   "status": "proved",
   "theorems": [
    "Qrl.Props.C67_verify_spec",
    "Qrl.Props.C67_sign_verifies",
    "Qrl.Props.C67_bits_ignored",
    "Qrl.Props.C67_bits_exact",
    "Qrl.Props.C67_lost_bits",
    "Qrl.Props.C67_supported_agree",
    "Qrl.Props.C67_w17",
    "Qrl.Props.C67_w257",
    "Qrl.Props.C67_authenticates_refuted",
    "Qrl.Props.C67_fast_authenticates_refuted",
    "Qrl.Props.C44_any_sign"
   ],
   "note": "The natural property is false of the code. XmssBasic heights up to 24 for signing (C18/C45 say what happens beyond)."
  },
  {
   "property": "C68",
   "status": "proved",
   "theorems": [
    "Qrl.Props.C68_value_semantics",
    "Qrl.Props.C68_move_safe",
    "Qrl.Props.C68_swap_safe",
    "Qrl.Props.C68_dangling_refuted",
    "Qrl.Props.C68_assign_dangling_refuted",
    "Qrl.Props.C68_assign_moved_refuted",
    "Qrl.Props.C68_vector_growth_refuted",
    "Qrl.Props.C68_alias_reuse"
   ],
   "note": "The natural property is false of the code. Assigning an object to itself by moving is unspecified and modelled as undefined."
  },
  {
   "property": "C69",
   "status": "proved",
   "theorems": [
    "Qrl.Props.C69_full_history",
    "Qrl.Props.C69_basic_history",
    "Qrl.Props.C69_supported_agree",
    "Qrl.Props.C69_verify",
    "Qrl.Props.C69_debug_unusable",
    "Qrl.Props.C69_sign_verifies",
    "Qrl.Props.C69_release_forgery_refuted",
    "Qrl.Props.C69_message_independent_refuted",
    "Qrl.Props.C69_sizes"
   ],
   "note": "The natural property is false of the Rust port. From w = 2^16 on the float computation of the parameters is not modelled."
  },
  {
   "property": "C70",
   "status": "proved",
   "theorems": [
    "Qrl.Props.C70_reuse_forges",
    "Qrl.Props.C70_fast_forgery",
    "Qrl.Props.C70_basic_forgery",
    "Qrl.Props.C70_copy_forgery"
   ],
   "note": "An example beside the theorems forges end to end after initialize_tree."
  },
  {
   "property": "C71",
   "status": "proved",
   "theorems": [
    "Qrl.Props.C71_refines",
    "Qrl.Props.C71_no_reuse",
    "Qrl.Props.C71_same_extended_seed",
    "Qrl.Props.C71_same_replies",
    "Qrl.Props.C71_sign_verifies",
    "Qrl.Props.C71_long_message_refuted"
   ],
   "note": "Ideal wallet and events in Spec/CrossWallet. A Rust panic is modelled as the end of the process. Beside the theorems a wallet goes C++, Rust, C++ with a kill in between."
  },
  {
   "property": "C72",
   "status": "proved",
   "theorems": [
    "Qrl.Props.C72_history",
    "Qrl.Props.C72_short_argument_refuted",
    "Qrl.Props.C72_exchange",
    "Qrl.Props.C72_stale_cyphertext_refuted",
    "Qrl.Props.C72_failed_decode_refuted",
    "Qrl.Props.C72_js_history",
    "Qrl.Props.C72_js_dilithium",
    "Qrl.Props.C72_rust_history"
   ],
   "note": "As for C41 the KEM is a parameter with its published contract. JS text is assumed 7-bit (other characters are undefined, C02)."
  },
  {
   "property": "C73",
   "status": "proved",
   "theorems": [
    "Qrl.Props.C73_signer_history",
    "Qrl.Props.C73_wrong_arguments",
    "Qrl.Props.C73_runtime_error",
    "Qrl.Props.C73_verify_silent"
   ],
   "note": "The exception handlers of the .i files are modelled, the SWIG typemaps are not. Only the two exceptions the library itself throws are in the model."
  },
  {
   "property": "C74",
   "status": "proved",
   "theorems": [
    "Qrl.Props.C74_distinct_heights_refuted",
    "Qrl.Props.C74_recovery_refuted",
    "Qrl.Props.C74_never_verifies",
    "Qrl.Props.C74_basic_signs",
    "Qrl.Props.C74_fast_first"
   ],
   "note": "The natural properties are false of the Rust port. Beyond its first signature an XMSSFast of such a height is covered by C74_never_verifies only."
  },
  {
   "property": "C75",
   "status": "proved",
   "theorems": [
    "Qrl.Props.C75_alone",
    "Qrl.Props.C75_fast_locked",
    "Qrl.Props.C75_basic_locked",
    "Qrl.Props.C75_fast_race_refuted",
    "Qrl.Props.C75_fast_race_every_index",
    "Qrl.Props.C75_fast_one_preemption",
    "Qrl.Props.C75_fast_one_preemption_every_index",
    "Qrl.Props.C75_fast_past_end",
    "Qrl.Props.C75_fast_any_schedule",
    "Qrl.Props.C75_basic_race_refuted",
    "Qrl.Props.C75_basic_any_schedule",
    "Qrl.Props.C75_race_forgery"
   ],
   "note": "The natural property is false of the code. Steps are atomic and sequentially consistent; formally a C++ data race is undefined behaviour, so the refutations show executions a real machine can show, and the any-schedule theorems hold of this step model only. XmssBasic heights up to 24. The Rust methods take &mut self, which excludes such calls at compile time."
  },
  {
   "property": "C76",
   "status": "proved",
   "theorems": [
    "Qrl.Props.C76_verify",
    "Qrl.Props.C76_fast_new",
    "Qrl.Props.C76_fast_set_index",
    "Qrl.Props.C76_fast_sign",
    "Qrl.Props.C76_basic_new",
    "Qrl.Props.C76_basic_sign",
    "Qrl.Props.C76_rust_verify"
   ],
   "note": "Counts the values of SHA-256 the result depends on (the query count of the random-oracle model), not time: hashing whose result is thrown away would not be seen. For the SHAKE functions, which the model computes itself, the count is 0. The four usual w; XmssBasic heights up to 24."
  },
  {
   "property": "C77",
   "status": "proved",
   "theorems": [
    "Qrl.Props.C77_price",
    "Qrl.Props.C77_forge_any_randomiser",
    "Qrl.Props.C77_basic_price",
    "Qrl.Props.C77_fast_price",
    "Qrl.Props.C77_basic_forge",
    "Qrl.Props.C77_basic_once"
   ],
   "note": "Hardness of finding collisions, coverage or earlier chain values is nowhere assumed. XmssBasic heights up to 24 (C18/C45 say what happens beyond). An example beside the theorems forges end to end after setIndex(0)."
  },
  {
   "property": "C78",
   "status": "proved",
   "theorems": [
    "Qrl.Props.C78_fast_public_key",
    "Qrl.Props.C78_basic_public_key",
    "Qrl.Props.C78_fast_basic_public_key",
    "Qrl.Props.C78_fast_address",
    "Qrl.Props.C78_basic_address",
    "Qrl.Props.C78_fast_basic_address"
   ],
   "note": "Hardness of finding collisions is nowhere assumed. The public key of an object does not change (C26)."
  },
  {
   "property": "C79",
   "status": "proved",
   "theorems": [
    "Qrl.Props.C79_chain_values",
    "Qrl.Props.C79_signatures",
    "Qrl.Props.C79_fast_signatures",
    "Qrl.Props.C79_one_signer",
    "Qrl.Props.C79_pool"
   ],
   "note": "Hardness of finding collisions is nowhere assumed. The signatures of C79_signatures are the ones both classes return (C18, C19)."
  },
  {
   "property": "C80",
   "status": "proved",
   "theorems": [
    "Qrl.Props.C80_accepts_read",
    "Qrl.Props.C80_price",
    "Qrl.Props.C80_once",
    "Qrl.Props.C80_fast",
    "Qrl.Props.C80_basic"
   ],
   "note": "Hardness of finding collisions and chain preimages is nowhere assumed; the message classes of the port are those of C53."
  },
  {
   "property": "C81",
   "status": "proved",
   "theorems": [
    "Qrl.Props.C81_kem_keypair_refuted",
    "Qrl.Props.C81_sign_keypair_refuted"
   ],
   "note": "The natural property (they make a key pair) is false of the code. Non-termination is the least solution of the recursive equation; in C++ an endless recursion without side effects is moreover undefined behaviour."
  },
  {
   "property": "C82",
   "status": "proved",
   "theorems": [
    "Qrl.Props.C82_fast_history",
    "Qrl.Props.C82_fast_no_reuse",
    "Qrl.Props.C82_basic_history",
    "Qrl.Props.C82_init_first",
    "Qrl.Props.C82_init_failed_refuted",
    "Qrl.Props.C82_init_zero_key_refuted",
    "Qrl.Props.C82_init_between_refuted",
    "Qrl.Props.C82_init_dangling_refuted",
    "Qrl.Props.C82_init_enough",
    "Qrl.Props.C82_init_retry"
   ],
   "note": "Only the std::vector allocations of this repository's code are counted; PicoSHA2 is taken not to allocate and the stack not to run out."
  },
  {
   "property": "C83",
   "status": "proved",
   "theorems": [
    "Qrl.Props.C83_shake128",
    "Qrl.Props.C83_shake256",
    "Qrl.Props.C83_overread_refuted",
    "Qrl.Props.C83_verify_sig",
    "Qrl.Props.C83_verify_sig_zero",
    "Qrl.Props.C83_trailing",
    "Qrl.Props.C83_agrees"
   ],
   "note": "What a panicking call has already written to the caller's buffer is not modelled. Height 0 with a signature slice of 128 GB or more is left out."
  },
  {
   "property": "C84",
   "status": "proved",
   "theorems": [
    "Qrl.Props.C84_value",
    "Qrl.Props.C84_refused",
    "Qrl.Props.C84_accepts",
    "Qrl.Props.C84_same_wallet",
    "Qrl.Props.C84_wrong_word_refuted",
    "Qrl.Props.C84_letter_refuted"
   ],
   "note": "The natural property is false of the code. Hardness of finding collisions is nowhere assumed."
  },
  {
   "property": "C85",
   "status": "proved",
   "theorems": [
    "Qrl.Props.C85_verify_bound",
    "Qrl.Props.C85_verify_exact",
    "Qrl.Props.C85_verify_overflow_refuted",
    "Qrl.Props.C85_fast_new",
    "Qrl.Props.C85_fast_new_exact",
    "Qrl.Props.C85_fast_set_index",
    "Qrl.Props.C85_fast_sign",
    "Qrl.Props.C85_fast_sign_exact",
    "Qrl.Props.C85_sign_without_verify",
    "Qrl.Props.C85_basic_sign",
    "Qrl.Props.C85_basic_exact",
    "Qrl.Props.C85_basic_tall_refuted",
    "Qrl.Props.verify_reach"
   ],
   "note": "Counts the declared arrays of each C function (Model/Stack); scalars, saved registers and return addresses are not counted, so the upper bounds are those of the arrays and the overflows happen a little earlier. How many times loops run that depend on hash values is an argument over which the theorems quantify. verify_reach ties the model of the checks to the model of verify."
  },
  {
   "property": "C86",
   "status": "proved",
   "theorems": [
    "Qrl.Props.C86_value",
    "Qrl.Props.C86_accepts",
    "Qrl.Props.C86_same_wallet",
    "Qrl.Props.C86_moves",
    "Qrl.Props.C86_format_refuted",
    "Qrl.Props.C86_spacing_refuted",
    "Qrl.Props.C86_wrong_word_refuted"
   ],
   "note": "The natural properties that every phrase moves, that both accept the same texts and that a wrong word is noticed are refuted."
  },
  {
   "property": "C87",
   "status": "proved",
   "theorems": [
    "Qrl.Props.C87_fast_stable",
    "Qrl.Props.C87_fast_calls",
    "Qrl.Props.C87_basic_stable"
   ],
   "note": "The C++ counterparts are C26 and C49."
  },
  {
   "property": "C88",
   "status": "proved",
   "theorems": [
    "Qrl.Props.C88_verify",
    "Qrl.Props.C88_registered",
    "Qrl.Props.C88_foreign",
    "Qrl.Props.C88_fast_sign",
    "Qrl.Props.C88_fast_registered",
    "Qrl.Props.C88_fast_history",
    "Qrl.Props.C88_rust_history",
    "Qrl.Props.C88_basic_key",
    "Qrl.Props.C88_basic_sign",
    "Qrl.Props.C88_rust_verify"
   ],
   "note": "Verif/Spec/Rfc8391 is a transcription of the RFC's pseudocode that shares no definition with the model or with the other specification. The RFC defines w = 4 and 16; for 2 and 256 its formulas are taken as they stand. The SHAKE functions are those of FIPS 202 (C32). Signing with XmssBasic up to height 24 (above, C45), its keys at every height."
  },
  {
   "property": "C89",
   "status": "proved",
   "theorems": [
    "Qrl.Props.C89_verifysig",
    "Qrl.Props.C89_verifysig_height0",
    "Qrl.Props.C89_header_refuted",
    "Qrl.Props.C89_genkeypair",
    "Qrl.Props.C89_signmsg",
    "Qrl.Props.C89_signmsg_short",
    "Qrl.Props.C89_roundtrip",
    "Qrl.Props.C89_fast_genkeypair_odd",
    "Qrl.Props.C89_fast_genkeypair",
    "Qrl.Props.C89_fast_history",
    "Qrl.Props.C89_fast_beyond",
    "Qrl.Props.C89_fast_exhausted_refuted"
   ],
   "note": "The comments in the headers and the natural property that a used-up key is noticed are false of the code. Overlapping buffers are not modelled. Histories of up to 2^32 - 2^h calls, so that the index does not wrap. Height 0 with a signature buffer of 128 GiB or more is left out."
  },
  {
   "property": "C90",
   "status": "proved",
   "theorems": [
    "Qrl.Props.C90_agrees",
    "Qrl.Props.C90_fast_no_reuse",
    "Qrl.Props.C90_fast_burned",
    "Qrl.Props.C90_fast_next_refuted",
    "Qrl.Props.C90_fast_next_rejected",
    "Qrl.Props.C90_fast_healed",
    "Qrl.Props.C90_basic_history"
   ],
   "note": "The natural property that a caught panic costs one index only is false of XMSSFast. The tree state a panic inside the rounds leaves is arbitrary in the model; panics of the allocator and stack overflow (which abort) are not modelled."
  },
  {
   "property": "C91",
   "status": "proved",
   "theorems": [
    "Qrl.Props.C91_gen_keypair",
    "Qrl.Props.C91_sign_msg",
    "Qrl.Props.C91_sign_short",
    "Qrl.Props.C91_roundtrip",
    "Qrl.Props.C91_fast_odd",
    "Qrl.Props.C91_fast_gen_keypair",
    "Qrl.Props.C91_fast_history",
    "Qrl.Props.C91_fast_accepted",
    "Qrl.Props.C91_fast_exhausted_refuted"
   ],
   "note": "The natural property that xmss_fast_sign_msg stops at the last leaf is false. xmss_sign_msg in release builds: indices below 2^(25 + h), which are all of them from height 8 on. What a panicking call has already written to the slices is not modelled here; C90 treats it for the signer objects."
  },
  {
   "property": "C92",
   "status": "proved",
   "theorems": [
    "Qrl.Props.C92_set_params",
    "Qrl.Props.C92_two",
    "Qrl.Props.C92_genkeypair_odd",
    "Qrl.Props.C92_genkeypair",
    "Qrl.Props.C92_history",
    "Qrl.Props.C92_same",
    "Qrl.Props.C92_large_refuted"
   ],
   "note": "The arrays of the traversal state hold nothing before key generation. That the sizes for k are also the smallest that work is not claimed. The natural property, for every even k, is false for k = 28: C92_large_refuted. Histories of up to 2^32 - 2^h calls."
  },
  {
   "property": "C93",
   "status": "proved",
   "theorems": [
    "Qrl.Props.C93_params",
    "Qrl.Props.C93_odd",
    "Qrl.Props.C93_gen_keypair",
    "Qrl.Props.C93_history",
    "Qrl.Props.C93_same",
    "Qrl.Props.C93_two",
    "Qrl.Props.C93_large_debug_refuted",
    "Qrl.Props.C93_large_release_refuted"
   ],
   "note": "The natural property, for every even k, is false for k = 28. C93_large_release_refuted: w = 2, 4, 16, 256 and messages the crate hashes correctly. What a panicking call has already written is not modelled."
  },
  {
   "property": "C94",
   "status": "proved",
   "theorems": [
    "Qrl.Props.C94_pairs",
    "Qrl.Props.C94_hash_values",
    "Qrl.Props.C94_hash_unsupported",
    "Qrl.Props.C94_hmsg_keylen",
    "Qrl.Props.C94_params",
    "Qrl.Props.C94_wots_correct",
    "Qrl.Props.C94_wots_unsupported",
    "Qrl.Props.C94_no_forward_forgery",
    "Qrl.Props.C94_w256_refuted",
    "Qrl.Props.C94_same_32"
   ],
   "note": "The natural properties that an unsupported pair is reported and that w = 256 is secure are false of the code. n up to 4096. C++ only; for Rust see C96."
  },
  {
   "property": "C95",
   "status": "proved",
   "theorems": [
    "Qrl.Props.C95_verify_32",
    "Qrl.Props.C95_counter_64",
    "Qrl.Props.C95_only_32"
   ],
   "note": "The natural property, verification for every supported n, is false of the code (C95_only_32). That the root computed for n = 64 is that of RFC 8391 is not claimed; key generation and signing with n = 64 are modelled only as far as WOTS+ (C94)."
  },
  {
   "property": "C96",
   "status": "proved",
   "theorems": [
    "Qrl.Props.C96_hash_unsupported",
    "Qrl.Props.C96_hash_returns",
    "Qrl.Props.C96_verify_32",
    "Qrl.Props.C96_panics",
    "Qrl.Props.C96_small_verdict",
    "Qrl.Props.C96_accepts_all_refuted"
   ],
   "note": "The natural property, verification for every n, is false of the code. n below 32: the buffers are large enough, otherwise a call may panic. n = 0 is not treated. What a panicking call has already written is not modelled."
  },
  {
   "property": "C97",
   "status": "proved",
   "theorems": [
    "Qrl.Props.C97_gen_keypair",
    "Qrl.Props.C97_gen_keypair_32",
    "Qrl.Props.C97_root_ignores_secret",
    "Qrl.Props.C97_generated_key_refuted"
   ],
   "note": "The natural property, unforgeability in the sense of the verdict, is false of the code below n = 32. n = 0 and n above 32 are not treated; what a panicking call has already written is not modelled."
  },
  {
   "property": "C98",
   "status": "proved",
   "theorems": [
    "Qrl.Props.C98_prf_shake128",
    "Qrl.Props.C98_prf_shake256_refuted",
    "Qrl.Props.C98_expand_seed_refuted",
    "Qrl.Props.C98_get_seed_refuted",
    "Qrl.Props.C98_hash_f_refuted",
    "Qrl.Props.C98_hash_h_refuted"
   ],
   "note": "The natural properties are false of the code; the theorems named _refuted say exactly which bytes count."
  }
 ]
}