{
 "claims": [
  {
   "property": "C01",
   "status": "proved",
   "theorems": [
    "Verif.C01_hash_text_roundtrip",
    "Verif.C01_hash_text_injective",
    "Verif.C01_fromString_error_iff"
   ],
   "note": ""
  },
  {
   "property": "C02",
   "status": "proved",
   "theorems": [
    "Verif.C02_fromBytes_spec",
    "Verif.C02_fromBytes_idempotent",
    "Verif.C02_second_preimage"
   ],
   "note": "for every digest function sha: Str -> 64 bytes; second preimage on 64-byte documents is a violation family"
  },
  {
   "property": "C03",
   "status": "proved",
   "theorems": [
    "Verif.C03_multi_is_concat",
    "Verif.C03_regroup",
    "Verif.C03_not_injective",
    "Verif.C03_binding_same_lengths"
   ],
   "note": "includes the violation (boundaries are not bound)"
  },
  {
   "property": "C04",
   "status": "proved",
   "theorems": [
    "Verif.C04_compare_iff",
    "Verif.C04_compare_equiv"
   ],
   "note": ""
  },
  {
   "property": "C05",
   "status": "proved",
   "theorems": [
    "Verif.HashTree.C05_shape"
   ],
   "note": ""
  },
  {
   "property": "C06",
   "status": "proved",
   "theorems": [
    "Verif.HashTree.C06_leaves",
    "Verif.HashTree.C06_block_json_roundtrip"
   ],
   "note": ""
  },
  {
   "property": "C07",
   "status": "proved",
   "theorems": [
    "Verif.HashTree.C07_head_binds_leaves",
    "Verif.HashTree.C07_head_binds_leaves_injective"
   ],
   "note": ""
  },
  {
   "property": "C08",
   "status": "proved",
   "theorems": [
    "Verif.HashTree.C08_append_empty_block",
    "Verif.HashTree.C08_interior_as_blocks",
    "Verif.HashTree.C08_head_not_binding"
   ],
   "note": "violation families, whatever the hash function"
  },
  {
   "property": "C09",
   "status": "proved",
   "theorems": [
    "Verif.HashTree.C09_order_restores",
    "Verif.HashTree.C09_order_sound",
    "Verif.HashTree.C09_order_accepts_substitute"
   ],
   "note": ""
  },
  {
   "property": "C10",
   "status": "proved",
   "theorems": [
    "Verif.HashTree.C10_order_fails_with_empty_block"
   ],
   "note": "violation family"
  },
  {
   "property": "C11",
   "status": "proved",
   "theorems": [
    "Verif.HashTree.C11_few_blocks",
    "Verif.HashTree.C11_panics_iff"
   ],
   "note": ""
  },
  {
   "property": "C12",
   "status": "proved",
   "theorems": [
    "Verif.Cipher.C12_decrypt_encrypt",
    "Verif.Cipher.C12_build_ok"
   ],
   "note": ""
  },
  {
   "property": "C13",
   "status": "proved",
   "theorems": [
    "Verif.Cipher.C13_decrypt_ok_iff",
    "Verif.Cipher.C13_wrong_password_accepted",
    "Verif.Cipher.C13_last_byte_malleable",
    "Verif.Cipher.C13_each_byte",
    "Verif.Cipher.C13_malleable",
    "Verif.Cipher.C13_truncated"
   ],
   "note": "violation families"
  },
  {
   "property": "C14",
   "status": "proved",
   "theorems": [
    "Verif.Cipher.C14_base64_roundtrip",
    "Verif.Cipher.C14_base64_length",
    "Verif.Cipher.C14_hex_roundtrip",
    "Verif.Cipher.C14_base64_text",
    "Verif.Cipher.C14_hex_text",
    "Verif.Cipher.C14_alphabet"
   ],
   "note": ""
  },
  {
   "property": "C15",
   "status": "proved",
   "theorems": [
    "Verif.Signature.C15_sign_recovers_key",
    "Verif.Signature.C15_other_message"
   ],
   "note": ""
  },
  {
   "property": "C16",
   "status": "proved",
   "theorems": [
    "Verif.Signature.C16_verify_accepts_everything",
    "Verif.Signature.C16_forged_text_accepted",
    "Verif.Signature.C16_zero_challenge"
   ],
   "note": "violation: Verify authenticates nothing"
  },
  {
   "property": "C17",
   "status": "proved",
   "theorems": [
    "Verif.Signature.C17_ring_sign_verifies"
   ],
   "note": ""
  },
  {
   "property": "C18",
   "status": "proved",
   "theorems": [
    "Verif.Signature.C18_ring_sign_error_iff"
   ],
   "note": ""
  },
  {
   "property": "C19",
   "status": "proved",
   "theorems": [
    "Verif.Signature.C19_empty_ring_verifies",
    "Verif.Signature.C19_empty_ring_text",
    "Verif.Signature.C19_panics_iff",
    "Verif.Signature.C19_extra_responses_ignored"
   ],
   "note": "violation families"
  },
  {
   "property": "C20",
   "status": "proved",
   "theorems": [
    "Verif.Signature.C20_sign_and_ring_leak",
    "Verif.Signature.C20_two_rings_leak",
    "Verif.Signature.C20_decoy_response_leak",
    "Verif.Signature.C20_responses_linkable"
   ],
   "note": "violation: key extraction"
  },
  {
   "property": "C21",
   "status": "proved",
   "theorems": [
    "Verif.Signature.C21_private_key",
    "Verif.Signature.C21_public_key",
    "Verif.Signature.C21_signature",
    "Verif.Signature.C21_ring_signature",
    "Verif.Signature.C21_text_injective"
   ],
   "note": ""
  },
  {
   "property": "C22",
   "status": "proved",
   "theorems": [
    "Verif.Signature.C22_verification_iff",
    "Verif.Signature.C22_never_false",
    "Verif.Signature.C22_empty_accepted"
   ],
   "note": ""
  },
  {
   "property": "C23",
   "status": "proved",
   "theorems": [
    "Verif.Ledger.C23_block",
    "Verif.Ledger.C23_chain",
    "Verif.Ledger.C23_unit_content",
    "Verif.Ledger.C23_unit",
    "Verif.Ledger.C23_genesis",
    "Verif.Ledger.C23_genesis_private",
    "Verif.Ledger.C23_content",
    "Verif.Ledger.C23_origin",
    "Verif.Ledger.C23_transaction",
    "Verif.Ledger.C23_secret",
    "Verif.Ledger.C23_receipt",
    "Verif.Ledger.C23_transaction_private",
    "Verif.Ledger.C23_identity",
    "Verif.Ledger.C23_identity_transactions",
    "Verif.Ledger.C23_lists"
   ],
   "note": ""
  },
  {
   "property": "C24",
   "status": "proved",
   "theorems": [
    "Verif.Ledger.C24_genesis_units"
   ],
   "note": ""
  },
  {
   "property": "C25",
   "status": "proved",
   "theorems": [
    "Verif.Ledger.C25_ring_bounds",
    "Verif.Ledger.C25_duplicates_accepted"
   ],
   "note": ""
  },
  {
   "property": "C26",
   "status": "proved",
   "theorems": [
    "Verif.Ledger.C26_same_text_same_hash",
    "Verif.Ledger.C26_move_digit"
   ],
   "note": "violation family"
  },
  {
   "property": "C27",
   "status": "proved",
   "theorems": [
    "Verif.Ledger.C27_receipt_hash_constant",
    "Verif.Ledger.C27_private_hash_constant",
    "Verif.Ledger.C27_privates_hash_length"
   ],
   "note": "violation, whatever the hash function"
  },
  {
   "property": "C28",
   "status": "proved",
   "theorems": [
    "Verif.Ledger.C28_block_binding",
    "Verif.Ledger.C28_chain_binding",
    "Verif.Ledger.C28_content_binding",
    "Verif.Ledger.C28_transaction_binding",
    "Verif.Ledger.C28_unit_binding",
    "Verif.Ledger.C28_genesis_binding"
   ],
   "note": ""
  },
  {
   "property": "C29",
   "status": "proved",
   "theorems": [
    "Verif.Peers.C29_parse_iff",
    "Verif.Peers.C29_no_panic",
    "Verif.Peers.C29_roundtrip_iff",
    "Verif.Peers.C29_roundtrip",
    "Verif.Peers.C29_negative_port",
    "Verif.Peers.C29_peers"
   ],
   "note": ""
  },
  {
   "property": "C30",
   "status": "proved",
   "theorems": [
    "Verif.Cardinality.C30_isValid_iff",
    "Verif.Cardinality.C30_specific_isValid",
    "Verif.Cardinality.C30_delimiter"
   ],
   "note": ""
  },
  {
   "property": "C31",
   "status": "proved",
   "theorems": [
    "Verif.Cardinality.C31_print_panics_iff",
    "Verif.Cardinality.C31_roundtrip_iff",
    "Verif.Cardinality.C31_print_injective",
    "Verif.Cardinality.C31_trim",
    "Verif.Cardinality.C31_parse_no_panic",
    "Verif.Cardinality.C31_parse_iff"
   ],
   "note": ""
  },
  {
   "property": "C32",
   "status": "proved",
   "theorems": [
    "Verif.Cardinality.C32_never_mandatory_or_zero",
    "Verif.Cardinality.C32_empty_range_accepted",
    "Verif.Cardinality.C32_negative_accepted",
    "Verif.Cardinality.C32_builder"
   ],
   "note": ""
  },
  {
   "property": "C33",
   "status": "proved",
   "theorems": [
    "Verif.Patterns.C33_contains_longest",
    "Verif.Patterns.C33_contains_zero_iff",
    "Verif.Patterns.C33_longest_exists",
    "Verif.Patterns.C33_group_result"
   ],
   "note": ""
  },
  {
   "property": "C34",
   "status": "proved",
   "theorems": [
    "Verif.Patterns.C34_builders",
    "Verif.Patterns.C34_pattern_result",
    "Verif.Patterns.C34_anchored",
    "Verif.Patterns.C34_leading_unique"
   ],
   "note": ""
  },
  {
   "property": "C35",
   "status": "proved",
   "theorems": [
    "Verif.Patterns.C35_group_remaining",
    "Verif.Patterns.C35_remaining_iff"
   ],
   "note": ""
  },
  {
   "property": "C36",
   "status": "proved",
   "theorems": [
    "Verif.Patterns.C36_earliest_pattern",
    "Verif.Patterns.C36_error_iff"
   ],
   "note": ""
  },
  {
   "property": "C37",
   "status": "proved",
   "theorems": [
    "Verif.Patterns.C37_pattern_rule",
    "Verif.Patterns.C37_huge_maximum",
    "Verif.Patterns.C37_constant_rule",
    "Verif.Patterns.C37_empty_rule"
   ],
   "note": ""
  },
  {
   "property": "C38",
   "status": "proved",
   "theorems": [
    "Verif.Lexer.C38_unique_iff",
    "Verif.Lexer.C38_unique_find",
    "Verif.Lexer.C38_duplicates",
    "Verif.Lexer.C38_last_wins",
    "Verif.Lexer.C38_links"
   ],
   "note": ""
  },
  {
   "property": "C39",
   "status": "proved",
   "theorems": [
    "Verif.Lexer.C39_fuel",
    "Verif.Lexer.C39_prefix"
   ],
   "note": ""
  },
  {
   "property": "C40",
   "status": "proved",
   "theorems": [
    "Verif.Lexer.C40_repetitions",
    "Verif.Lexer.C40_zero_maximum"
   ],
   "note": ""
  },
  {
   "property": "C41",
   "status": "proved",
   "theorems": [
    "Verif.Lexer.C41_not_diverges"
   ],
   "note": ""
  },
  {
   "property": "C42",
   "status": "proved",
   "theorems": [
    "Verif.Lexer.C42_best_line",
    "Verif.Lexer.C42_unique"
   ],
   "note": ""
  },
  {
   "property": "C43",
   "status": "proved",
   "theorems": [
    "Verif.Lexer.C43_position",
    "Verif.Lexer.C43_position_lost",
    "Verif.Lexer.C43_path",
    "Verif.Lexer.C43_not",
    "Verif.Lexer.C43_not_position",
    "Verif.Lexer.C43_channel_position",
    "Verif.Lexer.C43_nameless"
   ],
   "note": ""
  },
  {
   "property": "C44",
   "status": "proved",
   "theorems": [
    "Verif.Lexer.C44_ast",
    "Verif.Lexer.C44_prefix_success",
    "Verif.Lexer.C44_prefix_panic",
    "Verif.Lexer.C44_mirror",
    "Verif.Lexer.C44_not_violation"
   ],
   "note": ""
  },
  {
   "property": "C45",
   "status": "proved",
   "theorems": [
    "Verif.Lexer.C45_outcome",
    "Verif.Lexer.C45_shape",
    "Verif.Lexer.C45_node_content",
    "Verif.Lexer.C45_ast_root"
   ],
   "note": ""
  },
  {
   "property": "C46",
   "status": "proved",
   "theorems": [
    "Verif.Lexer.C46_own_root",
    "Verif.Lexer.C46_violation"
   ],
   "note": ""
  },
  {
   "property": "C47",
   "status": "proved",
   "theorems": [
    "Verif.Lexer.C47_scan",
    "Verif.Lexer.C47_total",
    "Verif.Lexer.C47_unique",
    "Verif.Lexer.C47_own_node",
    "Verif.Lexer.C47_violation"
   ],
   "note": ""
  },
  {
   "property": "C48",
   "status": "proved",
   "theorems": [
    "Verif.Lexer.C48_execute",
    "Verif.Lexer.C48_execute_err",
    "Verif.Lexer.C48_application",
    "Verif.Lexer.C48_application_loses",
    "Verif.Lexer.C48_trigger_node",
    "Verif.Lexer.C48_trigger_missing",
    "Verif.Lexer.C48_ends",
    "Verif.Lexer.C48_loop"
   ],
   "note": ""
  },
  {
   "property": "C49",
   "status": "proved",
   "theorems": [
    "Verif.Lexer.C49_references_fail",
    "Verif.Lexer.C49_references_error",
    "Verif.Lexer.C49_no_links",
    "Verif.Lexer.C49_success_word"
   ],
   "note": ""
  },
  {
   "property": "C50",
   "status": "proved",
   "theorems": [
    "Verif.Lexer.C50_reports",
    "Verif.Lexer.C50_one_bad_token",
    "Verif.Lexer.C50_flag",
    "Verif.Lexer.C50_success_word",
    "Verif.Lexer.C50_trailing_text"
   ],
   "note": ""
  },
  {
   "property": "C51",
   "status": "proved",
   "theorems": [
    "Verif.Base.C51_build",
    "Verif.Base.C51_meaning",
    "Verif.Base.C51_normal"
   ],
   "note": ""
  },
  {
   "property": "C52",
   "status": "proved",
   "theorems": [
    "Verif.Ledger.C52_single_element_hash"
   ],
   "note": "violation"
  },
  {
   "property": "C53",
   "status": "proved",
   "theorems": [
    "Verif.Ledger.C53_unit_ring_confusion",
    "Verif.Ledger.C53_secret_origin_or_side",
    "Verif.Ledger.C53_origin_kind_not_hashed"
   ],
   "note": "violation"
  },
  {
   "property": "C54",
   "status": "proved",
   "theorems": [
    "Verif.Patterns.C54_complete_remaining",
    "Verif.Patterns.C54_reverse_loses_text",
    "Verif.Patterns.C54_partial_serie_loses_text"
   ],
   "note": ""
  },
  {
   "property": "C55",
   "status": "proved",
   "theorems": [
    "Verif.Lexer.C55_language_sound",
    "Verif.Lexer.C55_mandatory_tail_ignored"
   ],
   "note": ""
  },
  {
   "property": "C56",
   "status": "proved",
   "theorems": [
    "Verif.Lexer.C56_terminates"
   ],
   "note": ""
  },
  {
   "property": "C57",
   "status": "proved",
   "theorems": [
    "Verif.Lexer.C57_repetition_lost"
   ],
   "note": ""
  },
  {
   "property": "C58",
   "status": "proved",
   "theorems": [
    "Verif.Lexer.C58_constant_alternatives"
   ],
   "note": ""
  },
  {
   "property": "C59",
   "status": "proved",
   "theorems": [
    "Verif.Lexer.C59_no_panic",
    "Verif.Lexer.C59_switch_line_panics"
   ],
   "note": ""
  },
  {
   "property": "C60",
   "status": "proved",
   "theorems": [
    "Verif.Lexer.C60_history",
    "Verif.Lexer.C60_prefix_history"
   ],
   "note": ""
  },
  {
   "property": "C61",
   "status": "proved",
   "theorems": [
    "Verif.HashTree.C61_head_is_merkle_root"
   ],
   "note": ""
  },
  {
   "property": "C62",
   "status": "proved",
   "theorems": [
    "Verif.Signature.C62_verify_iff",
    "Verif.Signature.C62_message_bound"
   ],
   "note": ""
  },
  {
   "property": "C63",
   "status": "proved",
   "theorems": [
    "Verif.Signature.C63_nonce_not_reused",
    "Verif.Signature.C63_deterministic"
   ],
   "note": ""
  },
  {
   "property": "C64",
   "status": "proved",
   "theorems": [
    "Verif.Signature.C64_linebreaks_ignored",
    "Verif.Signature.C64_base64_shape"
   ],
   "note": ""
  },
  {
   "property": "C65",
   "status": "proved",
   "theorems": [
    "Verif.Lexer.C65_pattern_builders",
    "Verif.Lexer.C65_rule_builder",
    "Verif.Lexer.C65_cardinality_builder",
    "Verif.Lexer.C65_specific_builder",
    "Verif.Lexer.C65_grammar_builders",
    "Verif.Lexer.C65_grammar_builders_iff"
   ],
   "note": ""
  },
  {
   "property": "C66",
   "status": "proved",
   "theorems": [
    "Verif.Lexer.C66_compiles_iff",
    "Verif.Lexer.C66_ends",
    "Verif.Lexer.C66_history",
    "Verif.Lexer.C66_mutual_accepted"
   ],
   "note": ""
  },
  {
   "property": "C67",
   "status": "proved",
   "theorems": [
    "Verif.Lexer.C67_language",
    "Verif.Lexer.C67_language_no_channels",
    "Verif.Lexer.C67_valid_is_word"
   ],
   "note": ""
  },
  {
   "property": "C68",
   "status": "proved",
   "theorems": [
    "Verif.Lexer.C68_channel_line",
    "Verif.Lexer.C68_no_switch",
    "Verif.Lexer.C68_switch_late",
    "Verif.Lexer.C68_switch_once"
   ],
   "note": ""
  },
  {
   "property": "C69",
   "status": "proved",
   "theorems": [
    "Verif.Lexer.C69_right",
    "Verif.Lexer.C69_left_cut",
    "Verif.Lexer.C69_left_empty",
    "Verif.Lexer.C69_left_twice_diverges",
    "Verif.Lexer.C69_guard_unsound"
   ],
   "note": ""
  },
  {
   "property": "C70",
   "status": "proved",
   "theorems": [
    "Verif.Lexer.C70_remembers",
    "Verif.Lexer.C70_history"
   ],
   "note": ""
  },
  {
   "property": "C71",
   "status": "proved",
   "theorems": [
    "Verif.Base.C71_instruction",
    "Verif.Base.C71_element",
    "Verif.Base.C71_single",
    "Verif.Base.C71_two",
    "Verif.Base.C71_mandatory",
    "Verif.Base.C71_lists",
    "Verif.Base.C71_empty_declarations",
    "Verif.Base.C71_value",
    "Verif.Base.C71_compare"
   ],
   "note": ""
  },
  {
   "property": "C72",
   "status": "proved",
   "theorems": [
    "Verif.Base.C72_unsigned",
    "Verif.Base.C72_negative",
    "Verif.Base.C72_every",
    "Verif.Base.C72_int",
    "Verif.Base.C72_minus",
    "Verif.Base.C72_index"
   ],
   "note": ""
  },
  {
   "property": "C73",
   "status": "proved",
   "theorems": [
    "Verif.Base.C73_operator",
    "Verif.Base.C73_one",
    "Verif.Base.C73_different"
   ],
   "note": ""
  },
  {
   "property": "C74",
   "status": "proved",
   "theorems": [
    "Verif.Base.C74_violation_operands",
    "Verif.Base.C74_violation_if",
    "Verif.Base.C74_violation_for",
    "Verif.Base.C74_violation_operator",
    "Verif.Base.C74_violation_fetch",
    "Verif.Base.C74_violation_slice"
   ],
   "note": "violation families"
  },
  {
   "property": "C75",
   "status": "proved",
   "theorems": [
    "Verif.Base.C75_violation_names",
    "Verif.Base.C75_violation_firsts",
    "Verif.Base.C75_violation_values",
    "Verif.Base.C75_violation_declarations"
   ],
   "note": "violation families"
  },
  {
   "property": "C76",
   "status": "proved",
   "theorems": [
    "Verif.Base.C76_ends"
   ],
   "note": ""
  },
  {
   "property": "C77",
   "status": "proved",
   "theorems": [
    "Verif.Base.C77_violation"
   ],
   "note": "violation family"
  },
  {
   "property": "C78",
   "status": "proved",
   "theorems": [
    "Verif.Base.C78_type",
    "Verif.Base.C78_one"
   ],
   "note": ""
  },
  {
   "property": "C79",
   "status": "proved",
   "theorems": [
    "Verif.Base.C79_token",
    "Verif.Base.C79_program"
   ],
   "note": ""
  },
  {
   "property": "C80",
   "status": "proved",
   "theorems": [
    "Verif.Base.C80_program",
    "Verif.Base.C80_if",
    "Verif.Base.C80_for"
   ],
   "note": ""
  },
  {
   "property": "C81",
   "status": "proved",
   "theorems": [
    "Verif.Base.C81_token",
    "Verif.Base.C81_program"
   ],
   "note": ""
  },
  {
   "property": "C82",
   "status": "proved",
   "theorems": [
    "Verif.Base.C82_program"
   ],
   "note": ""
  },
  {
   "property": "C83",
   "status": "proved",
   "theorems": [
    "Verif.Text.C83_tokens_read",
    "Verif.Text.C83_lines_complete"
   ],
   "note": ""
  },
  {
   "property": "C84",
   "status": "proved",
   "theorems": [
    "Verif.Text.C84_switch_lost",
    "Verif.Text.C84_switch_lost_single",
    "Verif.Text.C84_shipped_switch"
   ],
   "note": "violation family and a line of the shipped grammar"
  },
  {
   "property": "C85",
   "status": "proved",
   "theorems": [
    "Verif.Text.C85_tokens_no_panic"
   ],
   "note": ""
  },
  {
   "property": "C86",
   "status": "proved",
   "theorems": [
    "Verif.Text.C86_rules_read"
   ],
   "note": ""
  },
  {
   "property": "C87",
   "status": "proved",
   "theorems": [
    "Verif.Text.C87_hashes_violation",
    "Verif.Text.C87_semicolon_violation",
    "Verif.Text.C87_panic_violation"
   ],
   "note": "violation families"
  },
  {
   "property": "C88",
   "status": "proved",
   "theorems": [
    "Verif.Text.C88_patterns_read"
   ],
   "note": ""
  },
  {
   "property": "C89",
   "status": "proved",
   "theorems": [
    "Verif.Text.C89_option_violation"
   ],
   "note": "violation family"
  },
  {
   "property": "C90",
   "status": "proved",
   "theorems": [
    "Verif.Text.C90_patterns_no_panic"
   ],
   "note": ""
  },
  {
   "property": "C91",
   "status": "proved",
   "theorems": [
    "Verif.Base.C91_base_texts_read",
    "Verif.Base.C91_view",
    "Verif.Base.C91_all_kinds"
   ],
   "note": ""
  },
  {
   "property": "C92",
   "status": "proved",
   "theorems": [
    "Verif.Lexer.C92_derivation",
    "Verif.Lexer.C92_proper_prefix",
    "Verif.Lexer.C92_complete",
    "Verif.Lexer.C92_word"
   ],
   "note": ""
  },
  {
   "property": "C93",
   "status": "proved",
   "theorems": [
    "Verif.Base.C93_tree",
    "Verif.Base.C93_simple",
    "Verif.Base.C93_conforms",
    "Verif.Base.C93_program",
    "Verif.Base.C93_example"
   ],
   "note": ""
  },
  {
   "property": "C94",
   "status": "proved",
   "theorems": [
    "Verif.Base.C94_shipped",
    "Verif.Base.C94_setting",
    "Verif.Lexer.C94_order",
    "Verif.Lexer.C94_order_matters"
   ],
   "note": "with a violation"
  },
  {
   "property": "C95",
   "status": "proved",
   "theorems": [
    "Verif.Base.C95_open_brace",
    "Verif.Base.C95_open_bracket",
    "Verif.Base.C95_list_type",
    "Verif.Base.C95_trailing",
    "Verif.Base.C95_brace_rejected"
   ],
   "note": "violations, on the shipped texts, by kernel evaluation transferred to all orders, settings and larger numbers of steps"
  },
  {
   "property": "C96",
   "status": "proved",
   "theorems": [
    "Verif.Lexer.C96_left_recursion_diverges",
    "Verif.Lexer.C96_empty_script"
   ],
   "note": "violation family"
  },
  {
   "property": "C97",
   "status": "proved",
   "theorems": [
    "Verif.Lexer.C97_guarded_ends"
   ],
   "note": ""
  },
  {
   "property": "C98",
   "status": "proved",
   "theorems": [
    "Verif.Lexer.C98_answers"
   ],
   "note": ""
  },
  {
   "property": "C99",
   "status": "proved",
   "theorems": [
    "Verif.Base.C99_base_total"
   ],
   "note": ""
  },
  {
   "property": "C100",
   "status": "proved",
   "theorems": [
    "Verif.Text.C100_references_read"
   ],
   "note": ""
  },
  {
   "property": "C101",
   "status": "proved",
   "theorems": [
    "Verif.Text.C101_include_rejected",
    "Verif.Text.C101_one_path_violation"
   ],
   "note": "includes a violation family (one path panics)"
  },
  {
   "property": "C102",
   "status": "proved",
   "theorems": [
    "Verif.Text.C102_dot_violation",
    "Verif.Text.C102_keyword_violation"
   ],
   "note": "violation family and a witness"
  },
  {
   "property": "C103",
   "status": "proved",
   "theorems": [
    "Verif.Lexer.C103_converts",
    "Verif.Base.C103_base_root"
   ],
   "note": ""
  },
  {
   "property": "C104",
   "status": "proved",
   "theorems": [
    "Verif.Base.C104_no_panic",
    "Verif.Base.C104_total",
    "Verif.Base.C104_error_occurs"
   ],
   "note": "hypothesis: the parameter for strconv.ParseFloat never panics; includes a text on which every run is an error"
  },
  {
   "property": "C105",
   "status": "proved",
   "theorems": [
    "Verif.Rsa.C105_decrypt_encrypt",
    "Verif.Rsa.C105_encrypt_iff",
    "Verif.Rsa.C105_small_keys_violation",
    "Verif.Rsa.C105_decrypt_total"
   ],
   "note": "includes the violation for small keys"
  },
  {
   "property": "C106",
   "status": "proved",
   "theorems": [
    "Verif.Rsa.C106_public_roundtrip",
    "Verif.Rsa.C106_public_exact",
    "Verif.Rsa.C106_public_valid",
    "Verif.Rsa.C106_public_malleable_violation",
    "Verif.Rsa.C106_hash_binds",
    "Verif.Rsa.C106_private_roundtrip",
    "Verif.Rsa.C106_private_valid",
    "Verif.Rsa.C106_unchecked_violation",
    "Verif.Rsa.C106_built"
   ],
   "note": "includes the violations (malleable encoding, unchecked builder)"
  },
  {
   "property": "C107",
   "status": "proved",
   "theorems": [
    "Verif.Base.C107_written",
    "Verif.Base.C107_read",
    "Verif.Base.C107_only",
    "Verif.Base.C107_unique",
    "Verif.Base.C107_program",
    "Verif.Base.C107_text"
   ],
   "note": ""
  },
  {
   "property": "C108",
   "status": "proved",
   "theorems": [
    "Verif.Base.C108_if",
    "Verif.Base.C108_true",
    "Verif.Base.C108_declaration",
    "Verif.Base.C108_two_readings"
   ],
   "note": "witnesses of the violations, end to end"
  },
  {
   "property": "C109",
   "status": "proved",
   "theorems": [
    "Verif.Lexer.C109_reading",
    "Verif.Lexer.C109_any_order",
    "Verif.Lexer.C109_history",
    "Verif.Lexer.C109_no_backtracking"
   ],
   "note": "the iff is for a fixed order of the channels; any order: C109_any_order"
  },
  {
   "property": "C110",
   "status": "proved",
   "theorems": [
    "Verif.Lexer.C110_reordered"
   ],
   "note": ""
  },
  {
   "property": "C111",
   "status": "proved",
   "theorems": [
    "Verif.Signature.C111_made",
    "Verif.Signature.C111_verifies",
    "Verif.Signature.C111_everyone",
    "Verif.Signature.C111_ambiguous",
    "Verif.Signature.C111_exposed",
    "Verif.Signature.C111_two_answers"
   ],
   "note": "includes the violation by the shared nonce"
  },
  {
   "property": "C112",
   "status": "proved",
   "theorems": [
    "Verif.Lexer.C112_not",
    "Verif.Lexer.C112_vacuous_violation"
   ],
   "note": "includes the violation family (valid although nothing is read)"
  },
  {
   "property": "C113",
   "status": "proved",
   "theorems": [
    "Verif.Ledger.C113_history",
    "Verif.Ledger.C113_chain",
    "Verif.Ledger.C113_transactions"
   ],
   "note": ""
  },
  {
   "property": "C114",
   "status": "proved",
   "theorems": [
    "Verif.Ledger.C114_double_spend_violation",
    "Verif.Ledger.C114_unauthorized_violation",
    "Verif.Ledger.C114_unlinked_violation",
    "Verif.Ledger.C114_amount_violation"
   ],
   "note": "violation families"
  },
  {
   "property": "C115",
   "status": "proved",
   "theorems": [
    "Verif.Ledger.C115_provenance",
    "Verif.Ledger.C115_authorization"
   ],
   "note": ""
  },
  {
   "property": "C116",
   "status": "proved",
   "theorems": [
    "Verif.Kyber.C116_prime",
    "Verif.Kyber.C116_add",
    "Verif.Kyber.C116_sub",
    "Verif.Kyber.C116_neg",
    "Verif.Kyber.C116_mul",
    "Verif.Kyber.C116_mulAdd",
    "Verif.Kyber.C116_inv",
    "Verif.Kyber.C116_div",
    "Verif.Kyber.C116_bytes",
    "Verif.Kyber.C116_read"
   ],
   "note": "the arithmetic of the vendored library, byte for byte"
  },
  {
   "property": "C117",
   "status": "proved",
   "theorems": [
    "Verif.SigBytes.C117_limit",
    "Verif.SigBytes.C117_mul",
    "Verif.SigBytes.C117_mul_wrong",
    "Verif.SigBytes.C117_large_key",
    "Verif.SigBytes.C117_large_key_ring"
   ],
   "note": "includes the violation families above the limit"
  },
  {
   "property": "C118",
   "status": "proved",
   "theorems": [
    "Verif.SigBytes.C118_refines",
    "Verif.SigBytes.C118_sign",
    "Verif.SigBytes.C118_ring"
   ],
   "note": "the hypotheses on challenges say that two hashes are not zero modulo the order"
  },
  {
   "property": "C119",
   "status": "proved",
   "theorems": [
    "Verif.SigBytes.C119_private_keys",
    "Verif.SigBytes.C119_private_key_text",
    "Verif.SigBytes.C119_responses",
    "Verif.SigBytes.C119_challenge",
    "Verif.SigBytes.C119_ring_text",
    "Verif.SigBytes.C119_any_response",
    "Verif.SigBytes.C119_text_changes_key"
   ],
   "note": "violation families"
  },
  {
   "property": "C120",
   "status": "proved",
   "theorems": [
    "Verif.Memory.C120_tree",
    "Verif.Memory.C120_tree_memory",
    "Verif.Memory.C120_tree_again",
    "Verif.Memory.C120_tree_overwrites",
    "Verif.Memory.C120_tree_other_head",
    "Verif.Memory.C120_transactions",
    "Verif.Memory.C120_transactions_write",
    "Verif.Memory.C120_transactions_frame",
    "Verif.Memory.C120_ring",
    "Verif.Memory.C120_ring_write",
    "Verif.Memory.C120_lists",
    "Verif.Memory.C120_lists_kinds",
    "Verif.Memory.C120_lists_write",
    "Verif.Memory.C120_ring_hashes_write",
    "Verif.Memory.C120_lists_frame"
   ],
   "note": "includes the violation families"
  },
  {
   "property": "C121",
   "status": "proved",
   "theorems": [
    "Verif.Signature.C121_one_member",
    "Verif.Signature.C121_two_members",
    "Verif.Signature.C121_last_member"
   ],
   "note": "includes the violation families"
  },
  {
   "property": "C122",
   "status": "proved",
   "theorems": [
    "Verif.SigEd.C122_curve",
    "Verif.SigEd.C122_operations",
    "Verif.SigEd.C122_sum",
    "Verif.SigEd.C122_large",
    "Verif.SigEd.C122_equal"
   ],
   "note": "a field element is its residue modulo the prime; the ten limbs are C126 to C128"
  },
  {
   "property": "C123",
   "status": "proved",
   "theorems": [
    "Verif.SigEd.C123_base",
    "Verif.SigEd.C123_public_keys",
    "Verif.SigEd.C123_neutral"
   ],
   "note": ""
  },
  {
   "property": "C124",
   "status": "proved",
   "theorems": [
    "Verif.SigEd.C124_accepted",
    "Verif.SigEd.C124_decoder",
    "Verif.SigEd.C124_round_trip",
    "Verif.SigEd.C124_texts",
    "Verif.SigEd.C124_neutral_texts",
    "Verif.SigEd.C124_outside"
   ],
   "note": "includes the violation families"
  },
  {
   "property": "C125",
   "status": "proved",
   "theorems": [
    "Verif.SigEd.C125_refines",
    "Verif.SigEd.C125_sign",
    "Verif.SigEd.C125_large_key",
    "Verif.SigEd.C125_ring",
    "Verif.SigEd.C125_outside",
    "Verif.SigEd.C125_chance"
   ],
   "note": "includes the violation (C125_outside, C125_chance); SHA-256 is any function"
  },
  {
   "property": "C126",
   "status": "proved",
   "theorems": [
    "Verif.Kyber.C126_mul",
    "Verif.Kyber.C126_square",
    "Verif.Kyber.C126_linear",
    "Verif.Kyber.C126_choice",
    "Verif.Kyber.C126_powers",
    "Verif.Kyber.C126_read",
    "Verif.Kyber.C126_write",
    "Verif.Kyber.C126_tests",
    "Verif.Kyber.C126_limit"
   ],
   "note": "includes the limit of the bounds (C126_limit)"
  },
  {
   "property": "C127",
   "status": "proved",
   "theorems": [
    "Verif.Kyber.C127_operations",
    "Verif.Kyber.C127_equal",
    "Verif.Kyber.C127_read",
    "Verif.Kyber.C127_round_trip",
    "Verif.Kyber.C127_history"
   ],
   "note": ""
  },
  {
   "property": "C128",
   "status": "proved",
   "theorems": [
    "Verif.SigLimb.C128_refines",
    "Verif.SigLimb.C128_sign",
    "Verif.SigLimb.C128_large_key",
    "Verif.SigLimb.C128_ring"
   ],
   "note": "SHA-256 is any function"
  },
  {
   "property": "C129",
   "status": "proved",
   "theorems": [
    "Verif.SigLimb.C129_both",
    "Verif.SigLimb.C129_decoy"
   ],
   "note": "violation families"
  },
  {
   "property": "C130",
   "status": "proved",
   "theorems": [
    "Verif.SigLimb.C130_swap",
    "Verif.SigLimb.C130_made"
   ],
   "note": "violation families"
  },
  {
   "property": "C131",
   "status": "proved",
   "theorems": [
    "Verif.Base.C131_exponential"
   ],
   "note": "violation family; the work is the number of passes over the channels"
  },
  {
   "property": "C132",
   "status": "proved",
   "theorems": [
    "Verif.HashTree.C132_block",
    "Verif.HashTree.C132_block_injective",
    "Verif.HashTree.C132_lost_violation",
    "Verif.HashTree.C132_no_reader_violation",
    "Verif.HashTree.C132_read_back_violation"
   ],
   "note": "includes the violations"
  },
  {
   "property": "C133",
   "status": "proved",
   "theorems": [
    "Verif.Lexer.C133_exact",
    "Verif.Lexer.C133_missing",
    "Verif.Lexer.C133_not",
    "Verif.Lexer.C133_input",
    "Verif.Lexer.C133_input_violation",
    "Verif.Lexer.C133_valid_not_exact_violation",
    "Verif.Lexer.C133_exact_not_valid_violation",
    "Verif.Lexer.C133_input_runs_violation"
   ],
   "note": "includes the violations"
  }
 ]
}