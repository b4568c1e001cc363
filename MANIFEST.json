{
 "claims": [
  {
   "property": "C01",
   "status": "proved",
   "theorems": [
    "Toku.Props.C01_fields_roundtrip",
    "Toku.Props.C01_fields_injective",
    "Toku.Props.C01_read_own_writes"
   ],
   "note": "Any list of writes, any trailing bytes; total length below 2^62 (a Go slice cannot be longer)."
  },
  {
   "property": "C02",
   "status": "proved",
   "theorems": [
    "Toku.Props.C02_varint_shortest",
    "Toku.Props.C02_varint_prefix_free",
    "Toku.Props.C02_varint_read_iff"
   ],
   "note": "All uint64 values; reader accepts exactly the four CompactSize forms."
  },
  {
   "property": "C03",
   "status": "partial",
   "theorems": [
    "Toku.Props.C03_read_exact_partial",
    "Toku.Props.C03_varBytes_panics",
    "Toku.Props.C03_varBytes_panic_iff"
   ],
   "note": "Holds except for variable-length fields whose declared length reaches position 2^63, where the code panics (C03_varBytes_panics, C03_varBytes_panic_iff)."
  },
  {
   "property": "C04",
   "status": "proved",
   "theorems": [
    "Toku.Props.C04_decode_encode",
    "Toku.Props.C04_encode_injective"
   ],
   "note": "All byte strings."
  },
  {
   "property": "C05",
   "status": "proved",
   "theorems": [
    "Toku.Props.C05_encode_decode",
    "Toku.Props.C05_decode_injective",
    "Toku.Props.C05_invalid_empty",
    "Toku.Props.C05_encode_alphabet"
   ],
   "note": "All strings."
  },
  {
   "property": "C06",
   "status": "proved",
   "theorems": [
    "Toku.Props.C06_check_decode_encode",
    "Toku.Props.C06_check_encode_decode",
    "Toku.Props.C06_check_reject",
    "Toku.Props.C06_check_short"
   ],
   "note": "SHA-256 is an arbitrary function with 32-byte output."
  },
  {
   "property": "C07",
   "status": "proved",
   "theorems": [
    "Toku.Props.C07_decode_encode",
    "Toku.Props.C07_encode_rejects"
   ],
   "note": "All human-readable parts of printable lower-case ASCII and all 5-bit data within 90 characters."
  },
  {
   "property": "C08",
   "status": "proved",
   "theorems": [
    "Toku.Props.C08_decode_canonical",
    "Toku.Props.C08_unique_text",
    "Toku.Props.C08_upper_case",
    "Toku.Props.C08_decode_total",
    "Toku.Props.C08_mixed_case"
   ],
   "note": "All strings; the decoder model has no panic outcome except explicit ones, none reachable."
  },
  {
   "property": "C09",
   "status": "proved",
   "theorems": [
    "Toku.Props.C09_detects_up_to_four",
    "Toku.Props.C09_detects_one_or_two"
   ],
   "note": "All positions and replacement characters; proved for up to four substitutions (stronger than stated)."
  },
  {
   "property": "C10",
   "status": "proved",
   "theorems": [
    "Toku.Props.C10_regroup_bits",
    "Toku.Props.C10_regroup_roundtrip",
    "Toku.Props.C10_regroup_strict",
    "Toku.Props.C10_regroup_accepts_iff"
   ],
   "note": "All byte strings; also stated as equality of bit streams."
  },
  {
   "property": "C11",
   "status": "proved",
   "theorems": [
    "Toku.Props.C11_witness_decode_encode",
    "Toku.Props.C11_witness_encode_decode",
    "Toku.Props.C11_witness_unique"
   ],
   "note": "All programs whose text fits 90 characters."
  },
  {
   "property": "C12",
   "status": "partial",
   "theorems": [
    "Toku.Props.C12_witness_decode_panics",
    "Toku.Props.C12_witness_decode_panic_iff_partial",
    "Toku.Props.C12_no_panic_on_programs_partial"
   ],
   "note": "False as stated: panics exactly on valid Bech32 texts with empty data part (C12_witness_decode_panics); exact panic condition proved."
  },
  {
   "property": "C13",
   "status": "proved",
   "theorems": [
    "Toku.Props.C13_id_roundtrip",
    "Toku.Props.C13_id_display_reversed",
    "Toku.Props.C13_id_text_roundtrip",
    "Toku.Props.C13_id_rejects"
   ],
   "note": "All byte strings and all texts."
  },
  {
   "property": "C14",
   "status": "partial",
   "theorems": [
    "Toku.Props.C14_roundtrip_partial",
    "Toku.Props.C14_min_panics",
    "Toku.Props.C14_zero_empty",
    "Toku.Props.C14_sign_magnitude"
   ],
   "note": "Round trip proved for every int64 but the least, on which the encoder panics (proved)."
  },
  {
   "property": "C15",
   "status": "proved",
   "theorems": [
    "Toku.Props.C15_int32",
    "Toku.Props.C15_accepts_iff",
    "Toku.Props.C15_injective",
    "Toku.Props.C15_range",
    "Toku.Props.C15_total"
   ],
   "note": "Acceptance characterised for every byte string and limit; injective; four-byte range exact."
  },
  {
   "property": "C16",
   "status": "partial",
   "theorems": [
    "Toku.Props.C16_push_partial",
    "Toku.Props.C16_push_00_pushes_empty",
    "Toku.Props.C16_push_81_unreadable",
    "Toku.Props.C16_push_shortest"
   ],
   "note": "Proved for every string but 00 and 81; for those two the statement is false (proved). Shortest form proved."
  },
  {
   "property": "C17",
   "status": "partial",
   "theorems": [
    "Toku.Props.C17_int_partial",
    "Toku.Props.C17_minus_one_unreadable"
   ],
   "note": "Proved for every number but -1, for which the built script is unreadable (proved)."
  },
  {
   "property": "C18",
   "status": "proved",
   "theorems": [
    "Toku.Props.C18_lossless",
    "Toku.Props.C18_parses_iff",
    "Toku.Props.C18_fails_iff",
    "Toku.Props.C18_total"
   ],
   "note": "Scripts shorter than 2^62 bytes."
  },
  {
   "property": "C19",
   "status": "proved",
   "theorems": [
    "Toku.Props.C19_concat"
   ],
   "note": "Scripts shorter than 2^62 bytes."
  },
  {
   "property": "C20",
   "status": "partial",
   "theorems": [
    "Toku.Props.C20_removes_partial",
    "Toku.Props.C20_unparseable_unchanged",
    "Toku.Props.C20_idempotent",
    "Toku.Props.C20_codeseparator_kept"
   ],
   "note": "Removal proved for every parseable script, idempotence for every script; OP_CODESEPARATOR is unsupported and so never removed (proved)."
  },
  {
   "property": "C21",
   "status": "proved",
   "theorems": [
    "Toku.Props.C21_multisig_iff",
    "Toku.Props.C21_too_many_sigs"
   ],
   "note": "Oracles set and not panicking; counts below 2^31; more signatures than keys is an error."
  },
  {
   "property": "C22",
   "status": "partial",
   "theorems": [
    "Toku.Props.C22_execute_panics_iff_partial",
    "Toku.Props.C22_no_multisig_no_panic_partial",
    "Toku.Props.C22_verify_panics_iff_partial",
    "Toku.Props.C22_negative_key_count_panics",
    "Toku.Props.C22_negative_sig_count_panics",
    "Toku.Props.C22_empty_sig_panics"
   ],
   "note": "False: three panicking scripts proved. Proved exactly when: Execute and Verify panic if and only if a CHECKMULTISIG is reached, in an executing branch, with a negative count or with signatures whose checks come to an empty one or to a missing callback."
  },
  {
   "property": "C23",
   "status": "partial",
   "theorems": [
    "Toku.Props.C23_iff",
    "Toku.Props.C23_p2pkh_sound_all_partial",
    "Toku.Props.C23_skipped",
    "Toku.Props.C23_p2pkh_sound_partial",
    "Toku.Props.C23_unbalanced_spends",
    "Toku.Props.C23_pushes"
   ],
   "note": "False for unlocking scripts that end in a skipped branch: the locking script then has no effect (C23_skipped; OP_0 OP_IF spends everything, C23_unbalanced_spends). C23_iff is the exact condition for every unlocking script: a skipped branch, or a key of the hash and a good signature (and the key run as a script if two more values are below). C23_pushes gives the result for unlocking scripts of pushes."
  },
  {
   "property": "C24",
   "status": "proved",
   "theorems": [
    "Toku.Props.C24_p2pkh_complete"
   ],
   "note": ""
  },
  {
   "property": "C25",
   "status": "partial",
   "theorems": [
    "Toku.Props.C25_iff",
    "Toku.Props.C25_redeem_hash_checked",
    "Toku.Props.C25_p2sh_partial",
    "Toku.Props.C25_short_not_executed"
   ],
   "note": "False for one or two values (redeem script not run) and for unlocking scripts that end in a skipped branch. C25_iff is the exact condition for every unlocking script."
  },
  {
   "property": "C26",
   "status": "proved",
   "theorems": [
    "Toku.Props.C26_conditionals",
    "Toku.Props.C26_every_wellnested"
   ],
   "note": "Every well-nested script is a structured program, and runs as one."
  },
  {
   "property": "C27",
   "status": "partial",
   "theorems": [
    "Toku.Props.C27_history_partial",
    "Toku.Props.C27_history_state_partial",
    "Toku.Props.C27_leftover_redeem",
    "Toku.Props.C27_depends_on_history",
    "Toku.Props.C27_leftover_stack_used"
   ],
   "note": "False in general (three counterexamples proved). Proved for an engine without open conditionals, if the unlocking script and a redeem script that is run do not fail for a missing element on a fresh engine and the redeem script leaves an element."
  },
  {
   "property": "C28",
   "status": "partial",
   "theorems": [
    "Toku.Props.C28_spendable_iff",
    "Toku.Props.C28_return_is_noop",
    "Toku.Props.C28_return_spendable",
    "Toku.Props.C28_unspendable_partial"
   ],
   "note": "False: OP_RETURN is a no-op. Exactly when an output beginning with it can be spent: what follows is a sequence of instructions (C28_spendable_iff)."
  },
  {
   "property": "C29",
   "status": "proved",
   "theorems": [
    "Toku.Props.C29_parse_iff",
    "Toku.Props.C29_build",
    "Toku.Props.C29_parse_build",
    "Toku.Props.C29_build_parse",
    "Toku.Props.C29_one_kind",
    "Toku.Props.C29_rejects"
   ],
   "note": ""
  },
  {
   "property": "C30",
   "status": "partial",
   "theorems": [
    "Toku.Props.C30_generated_iff_partial",
    "Toku.Props.C30_zero_accepted",
    "Toku.Props.C30_negative_accepted",
    "Toku.Props.C30_parses",
    "Toku.Props.C30_enforces",
    "Toku.Props.C30_recognised_iff",
    "Toku.Props.C30_recognised",
    "Toku.Props.C30_generated_exact",
    "Toku.Props.C30_nonpositive"
   ],
   "note": "Parsing and enforcement proved in full; the lower bound 1 <= m is not checked by the code: C30_generated_exact says for every int what is generated, C30_nonpositive what the scripts for zero and negative numbers do."
  },
  {
   "property": "C31",
   "status": "proved",
   "theorems": [
    "Toku.Props.C31_roundtrip"
   ],
   "note": ""
  },
  {
   "property": "C32",
   "status": "partial",
   "theorems": [
    "Toku.Props.C32_canonical_partial",
    "Toku.Props.C32_base58_unique_partial",
    "Toku.Props.C32_prefix_confusion",
    "Toku.Props.C32_network_bound"
   ],
   "note": "Network binding proved in full; canonicity proved except for witness texts with a second separator, where it is false (negation proved)."
  },
  {
   "property": "C33",
   "status": "partial",
   "theorems": [
    "Toku.Props.C33_panics",
    "Toku.Props.C33_panic_iff_partial"
   ],
   "note": "False: proved to panic exactly on texts that are valid Bech32 with an empty data part."
  },
  {
   "property": "C34",
   "status": "proved",
   "theorems": [
    "Toku.Props.C34_format",
    "Toku.Props.C34_roundtrip"
   ],
   "note": ""
  },
  {
   "property": "C35",
   "status": "proved",
   "theorems": [
    "Toku.Props.C35_format",
    "Toku.Props.C35_roundtrip",
    "Toku.Props.C35_injective"
   ],
   "note": ""
  },
  {
   "property": "C36",
   "status": "partial",
   "theorems": [
    "Toku.Props.C36_nowitness_partial",
    "Toku.Props.C36_witness_partial",
    "Toku.Props.C36_after_set_partial",
    "Toku.Props.C36_negation",
    "Toku.Props.C36_never"
   ],
   "note": "False for every raw transaction the witness parser accepts: the result serialises without marker, flag and witnesses (C36_never), because HasWitness looks at the locking script. Proved for the parser and serialiser without witnesses and, after SetTxIn, for witness ones."
  },
  {
   "property": "C37",
   "status": "proved",
   "theorems": [
    "Toku.Props.C37_txid",
    "Toku.Props.C37_preimage"
   ],
   "note": ""
  },
  {
   "property": "C38",
   "status": "partial",
   "theorems": [
    "Toku.Props.C38_sizes_partial",
    "Toku.Props.C38_no_witness_partial",
    "Toku.Props.C38_negation"
   ],
   "note": "BaseSize counts the unlocking scripts of witness inputs, Size misses two bytes and Vsize rounds down (C38_negation); the exact formulas are proved."
  },
  {
   "property": "C39",
   "status": "proved",
   "theorems": [
    "Toku.Props.C39_format",
    "Toku.Props.C39_commits"
   ],
   "note": ""
  },
  {
   "property": "C40",
   "status": "partial",
   "theorems": [
    "Toku.Props.C40_signed_script",
    "Toku.Props.C40_all_partial",
    "Toku.Props.C40_other_types",
    "Toku.Props.C40_negation"
   ],
   "note": "True for SIGHASH_ALL; every other legacy hash type covers only the version, lock time and type (C40_other_types, C40_negation)."
  },
  {
   "property": "C41",
   "status": "proved",
   "theorems": [
    "Toku.Props.C41_script_code",
    "Toku.Props.C41_script_code_set",
    "Toku.Props.C41_bip143",
    "Toku.Props.C41_bip143_types",
    "Toku.Props.C41_injective",
    "Toku.Props.C41_single_ignores_outputs"
   ],
   "note": ""
  },
  {
   "property": "C42",
   "status": "partial",
   "theorems": [
    "Toku.Props.C42_exact",
    "Toku.Props.C42_covering_partial",
    "Toku.Props.C42_converse",
    "Toku.Props.C42_reached",
    "Toku.Props.C42_history_partial",
    "Toku.Props.C42_negation_mixed",
    "Toku.Props.C42_negation_addOutput"
   ],
   "note": "C42_exact says, for every history of an object, exactly which bytes are hashed (digests of the contents at the first witness hash, zeros once any type called for zeros); C42_reached: all objects made by the methods have such a history. So the property holds exactly when every earlier type covers what this one covers and the covered contents are those of the first hash (C42_covering_partial, C42_converse, C42_history_partial); it fails otherwise (C42_negation_mixed, C42_negation_addOutput)."
  },
  {
   "property": "C43",
   "status": "partial",
   "theorems": [
    "Toku.Props.C43_signed_verifies_partial",
    "Toku.Props.C43_negation_swallowed",
    "Toku.Props.C43_negation_mixed"
   ],
   "note": "Proved for any order of signing when the witness inputs use hash types of one class and the scheme is lawful. False with mixed classes (C43_negation_mixed) and when the redeem script does not match the P2WSH program (C43_negation_swallowed: success is reported, nothing is signed)."
  },
  {
   "property": "C44",
   "status": "partial",
   "theorems": [
    "Toku.Props.C44_negation",
    "Toku.Props.C44_redeem_bound_partial"
   ],
   "note": "False in general: C44_negation spends any P2WSH program with an unrelated multisig script and no signature. Proved: the last push hashes like the redeem script supplied by the caller."
  },
  {
   "property": "C45",
   "status": "partial",
   "theorems": [
    "Toku.Props.C45_conserved_mod",
    "Toku.Props.C45_conserved_partial",
    "Toku.Props.C45_negation"
   ],
   "note": "Exact when coins and payments each total below 2^63; for all inputs the equation holds modulo 2^64. Payments totalling 2^63 or more are taken for negative numbers: C45_negation."
  },
  {
   "property": "C46",
   "status": "partial",
   "theorems": [
    "Toku.Props.C46_fee_cap_partial",
    "Toku.Props.C46_negation"
   ],
   "note": "Needs totals below 2^63 and a fixed fee below 2^63. A fixed fee of 2^64-1 is taken for -1: C46_negation."
  },
  {
   "property": "C47",
   "status": "partial",
   "theorems": [
    "Toku.Props.C47_outputs",
    "Toku.Props.C47_change_partial",
    "Toku.Props.C47_input_is_coin",
    "Toku.Props.C47_succeeds_iff_partial",
    "Toku.Props.C47_errors_partial",
    "Toku.Props.C47_calls"
   ],
   "note": "Order of inputs and outputs for every configuration; that the change is the exact remainder, and that shortfalls are errors, for totals below 2^63 (see C45_negation for what happens beyond)."
  },
  {
   "property": "C48",
   "status": "partial",
   "theorems": [
    "Toku.Props.C48_estimate_partial",
    "Toku.Props.C48_exact",
    "Toku.Props.C48_bound_iff",
    "Toku.Props.C48_normal",
    "Toku.Props.C48_negation",
    "Toku.Props.C48_mixed",
    "Toku.Props.C48_mixed_iff"
   ],
   "note": "Exact for all mixes of inputs: C48_exact without witness inputs (a bound for 107-byte scripts exactly when there are no more outputs than inputs, C48_bound_iff), C48_mixed with them (C48_mixed_iff for standard inputs); fails for every transaction with only witness inputs: C48_negation."
  },
  {
   "property": "C49",
   "status": "partial",
   "theorems": [
    "Toku.Props.C49_keys",
    "Toku.Props.C49_agree_partial",
    "Toku.Props.C49_agree_success",
    "Toku.Props.C49_private_total",
    "Toku.Props.C49_agree_path",
    "Toku.Props.C49_hardened",
    "Toku.Props.C49_negation"
   ],
   "note": "Public derivation agrees with private derivation in every field, for one step and for paths, whenever it succeeds; private derivation always succeeds. Missing: public derivation is an error when the left half of the hash is a multiple of N, where private derivation returns a child (C49_negation, for some hash functions)."
  },
  {
   "property": "C50",
   "status": "partial",
   "theorems": [
    "Toku.Props.C50_text",
    "Toku.Props.C50_round_trip_partial",
    "Toku.Props.C50_negation",
    "Toku.Props.C50_reject_length",
    "Toku.Props.C50_reject_checksum",
    "Toku.Props.C50_accepted",
    "Toku.Props.C50_no_panic"
   ],
   "note": "Round trip for every key that is not the point at infinity, rejection of wrong lengths and checksums, and what is accepted is the text of the key. The public part of private key 0 has a text that is refused (C50_negation)."
  },
  {
   "property": "C51",
   "status": "partial",
   "theorems": [
    "Toku.Props.C51_path",
    "Toku.Props.C51_unambiguous",
    "Toku.Props.C51_malformed_partial",
    "Toku.Props.C51_negation_panic",
    "Toku.Props.C51_negation_wrap",
    "Toku.Props.C51_ok_iff",
    "Toku.Props.C51_panics_iff"
   ],
   "note": "Well-formed paths mean what they say and malformed ones are errors, except: an empty component panics (C51_negation_panic) and a hardened number of 2^31 or more wraps to a non-hardened child (C51_negation_wrap). C51_ok_iff and C51_panics_iff give the result for every text."
  },
  {
   "property": "C52",
   "status": "proved",
   "theorems": [
    "Toku.Props.C52_mnemonic",
    "Toku.Props.C52_lossless",
    "Toku.Props.C52_sizes",
    "Toku.Props.C52_new",
    "Toku.Props.C52_lists"
   ],
   "note": "For every word list of 2048 different words; C52_lists shows that the three lists in the code are such lists."
  },
  {
   "property": "C53",
   "status": "partial",
   "theorems": [
    "Toku.Props.C53_accepted",
    "Toku.Props.C53_no_panic",
    "Toku.Props.C53_count",
    "Toku.Props.C53_unknown_word",
    "Toku.Props.C53_checksum",
    "Toku.Props.C53_valid",
    "Toku.Props.C53_array_partial",
    "Toku.Props.C53_negation"
   ],
   "note": "Proved in full for EntropyFromMnemonic and IsMnemonicValid. MnemonicToByteArray agrees with them on texts with single spaces; C53_negation: with tabs between the words it accepts any checksum."
  },
  {
   "property": "C54",
   "status": "proved",
   "theorems": [
    "Toku.Props.C54_complete",
    "Toku.Props.C54_absent",
    "Toku.Props.C54_empty"
   ],
   "note": ""
  },
  {
   "property": "C55",
   "status": "partial",
   "theorems": [
    "Toku.Props.C55_root_partial",
    "Toku.Props.C55_wrong",
    "Toku.Props.C55_negation"
   ],
   "note": "The root is the Bitcoin root for the sizes 2^d - 2^j + 1 (C55_root_partial), and for all other sizes it is not, unless hashed strings collide or a node is 32 zero bytes (C55_wrong); C55_negation: six leaves, with SHA-256 itself. A pair of two nils is hashed as 64 zero bytes."
  },
  {
   "property": "C56",
   "status": "proved",
   "theorems": [
    "Toku.Props.C56_binding",
    "Toku.Props.C56_verify",
    "Toku.Props.C56_member",
    "Toku.Props.C56_tree",
    "Toku.Props.C56_negation_phantom",
    "Toku.Props.C56_negation_long"
   ],
   "note": "Collisions are exhibited among what is hashed on the two ways up. Beyond the statement: C56_negation_phantom (a tree of six leaves proves 32 zero bytes) and C56_negation_long (bytes after the 32nd of a leaf are ignored)."
  },
  {
   "property": "C57",
   "status": "proved",
   "theorems": [
    "Toku.Props.C57_points",
    "Toku.Props.C57_coords_injective",
    "Toku.Props.C57_isOnCurve",
    "Toku.Props.C57_add",
    "Toku.Props.C57_double"
   ],
   "note": ""
  },
  {
   "property": "C58",
   "status": "proved",
   "theorems": [
    "Toku.Props.C58_mult",
    "Toku.Props.C58_baseMult",
    "Toku.Props.C58_order",
    "Toku.Props.C58_distinct",
    "Toku.Props.C58_group"
   ],
   "note": "Also proved: the curve has exactly N points, so every point is a multiple of the generator."
  },
  {
   "property": "C59",
   "status": "proved",
   "theorems": [
    "Toku.Props.C59_panics_iff",
    "Toku.Props.C59_compressed_overwrites",
    "Toku.Props.C59_serialize",
    "Toku.Props.C59_parse",
    "Toku.Props.C59_round_trip"
   ],
   "note": ""
  },
  {
   "property": "C60",
   "status": "partial",
   "theorems": [
    "Toku.Props.C60_accepted_partial",
    "Toku.Props.C60_no_panic",
    "Toku.Props.C60_negation",
    "Toku.Props.C60_accepted_iff"
   ],
   "note": "False as stated: a 65-byte string with prefix 5 is accepted (C60_negation). C60_accepted_iff is the exact condition: the three standard serialisations of the finite curve points, and the uncompressed one with prefix 5; parsing never panics."
  },
  {
   "property": "C61",
   "status": "proved",
   "theorems": [
    "Toku.Props.C61_prvFromBytes",
    "Toku.Props.C61_pubAdd",
    "Toku.Props.C61_add",
    "Toku.Props.C61_serialize"
   ],
   "note": ""
  },
  {
   "property": "C62",
   "status": "proved",
   "theorems": [
    "Toku.Props.C62_verify",
    "Toku.Props.C62_sign_any_nonce",
    "Toku.Props.C62_sign",
    "Toku.Props.C62_ecdsa",
    "Toku.Props.C62_ecdsaVerify"
   ],
   "note": "crypto/ecdsa.Verify is modelled as the generic algorithm of the standard library on the methods of the curve. Verification is proved equivalent to the textbook test for all points and numbers."
  },
  {
   "property": "C63",
   "status": "proved",
   "theorems": [
    "Toku.Props.C63_range_any_nonce",
    "Toku.Props.C63_range",
    "Toku.Props.C63_equation"
   ],
   "note": ""
  },
  {
   "property": "C64",
   "status": "proved",
   "theorems": [
    "Toku.Props.C64_range",
    "Toku.Props.C64_rfc6979",
    "Toku.Props.C64_running"
   ],
   "note": "Termination of the loop is not claimed: the model has a bound on the rounds and the theorems say exactly when the loop has returned."
  },
  {
   "property": "C65",
   "status": "partial",
   "theorems": [
    "Toku.Props.C65_marshal",
    "Toku.Props.C65_round_trip",
    "Toku.Props.C65_accepted_partial",
    "Toku.Props.C65_shortest",
    "Toku.Props.C65_no_panic",
    "Toku.Props.C65_negation",
    "Toku.Props.C65_accepted_iff"
   ],
   "note": "Strictness is false: trailing bytes inside the sequence and after it are accepted (C65_negation). Proved: the writer writes the unique DER form, round trips below 2 GiB, accepted strings are DER up to trailing bytes, and no panic. Exactly which byte strings are accepted: C65_accepted_iff."
  },
  {
   "property": "C66",
   "status": "partial",
   "theorems": [
    "Toku.Props.C66_sign",
    "Toku.Props.C66_sign_verifies_partial",
    "Toku.Props.C66_bytes",
    "Toku.Props.C66_schnorr_partial",
    "Toku.Props.C66_negation",
    "Toku.Props.C66_verifies_iff"
   ],
   "note": "False for an arbitrary hash function: with challenge 0 modulo N the signature is refused (C66_negation), because the opposite of the point at infinity is taken as (0, P). Proved: signing returns a signature by the BIP equation or fails only on nonce 0, and the signature is accepted whenever the challenge is not 0 modulo N. Exactly: a signature made by Sign is accepted iff its challenge is not 0 modulo N (C66_verifies_iff; 7 is no cube modulo P, so with challenge 0 it is always refused)."
  },
  {
   "property": "C67",
   "status": "partial",
   "theorems": [
    "Toku.Props.C67_verify",
    "Toku.Props.C67_accepted_partial",
    "Toku.Props.C67_malleable",
    "Toku.Props.C67_negation_bytes",
    "Toku.Props.C67_panic",
    "Toku.Props.C67_negation",
    "Toku.Props.C67_verify_zero",
    "Toku.Props.C67_bounds",
    "Toku.Props.C67_malleable_only",
    "Toku.Props.C67_negation_equation"
   ],
   "note": "False: s = N is accepted when s = 0 is (C67_negation), and as bytes a zero byte between the halves changes nothing (C67_negation_bytes). Proved: acceptance is exactly the BIP equation with r < P and s <= N; the only congruent pair is 0 and N; short inputs panic. With challenge 0 the exact result is in C67_verify_zero; r < P, s <= N and the 0/N pair hold whatever the challenge (C67_bounds, C67_malleable_only)."
  },
  {
   "property": "C68",
   "status": "proved",
   "theorems": [
    "Toku.Props.C68_round_trip",
    "Toku.Props.C68_generated",
    "Toku.Props.C68_encrypt",
    "Toku.Props.C68_decrypt",
    "Toku.Props.C68_condition",
    "Toku.Props.C68_randomiser_zero"
   ],
   "note": "for randomisers coprime to n, as Paillier requires; C68_randomiser_zero shows what the code does with randomiser 0, which rand.Int can return"
  },
  {
   "property": "C69",
   "status": "proved",
   "theorems": [
    "Toku.Props.C69_add",
    "Toku.Props.C69_sub",
    "Toku.Props.C69_addPlaintext",
    "Toku.Props.C69_multPlaintext",
    "Toku.Props.C69_divPlaintext",
    "Toku.Props.C69_div_panics",
    "Toku.Props.C69_refused",
    "Toku.Props.C69_chain"
   ],
   "note": ""
  },
  {
   "property": "C70",
   "status": "partial",
   "theorems": [
    "Toku.Props.C70_agree",
    "Toku.Props.C70_single_partial",
    "Toku.Props.C70_verifies_partial",
    "Toku.Props.C70_completes",
    "Toku.Props.C70_negation",
    "Toku.Props.C70_rfc_partial"
   ],
   "note": "the code takes r as the x coordinate itself, not modulo N, so the signature is refused when x >= N: C70_negation. Proved for x < N; agreement of both parties is proved in full."
  },
  {
   "property": "C71",
   "status": "partial",
   "theorems": [
    "Toku.Props.C71_accepted_iff_partial",
    "Toku.Props.C71_agree_partial",
    "Toku.Props.C71_negation",
    "Toku.Props.C71_zero_partial"
   ],
   "note": "false of the code: each party uses its own point in the challenge. C71_negation gives keys and a message whose result is refused; C71_accepted_iff_partial says exactly when it is accepted; agreement of the parties is proved. Challenge 0, left out there, is C71_zero_partial."
  },
  {
   "property": "C72",
   "status": "partial",
   "theorems": [
    "Toku.Props.C72_secret",
    "Toku.Props.C72_verifies_partial",
    "Toku.Props.C72_completes",
    "Toku.Props.C72_published_partial",
    "Toku.Props.C72_negation",
    "Toku.Props.C72_zero",
    "Toku.Props.C72_rfc_partial"
   ],
   "note": "signature accepted only if the x coordinate of the shared point is below N (as C70). Recovery from the number of phase 5 is proved in full; from the s of the published signature Alice may get N - t: C72_negation, C72_published_partial."
  },
  {
   "property": "C73",
   "status": "proved",
   "theorems": [
    "Toku.Props.C73_chunks",
    "Toku.Props.C73_interleaved",
    "Toku.Props.C73_no_panic"
   ],
   "note": ""
  },
  {
   "property": "C74",
   "status": "proved",
   "theorems": [
    "Toku.Props.C74_rfc2898"
   ],
   "note": "HMAC is a parameter (standard library)."
  },
  {
   "property": "C75",
   "status": "partial",
   "theorems": [
    "Toku.Props.C75_roundtrip",
    "Toku.Props.C75_roundtrip_partial",
    "Toku.Props.C75_roundtrip_iff",
    "Toku.Props.C75_negation",
    "Toku.Props.C75_appends"
   ],
   "note": "True for all messages except getheaders: its stop hash is not decoded and an empty locator list comes back with a locator of zeros (C75_negation, C75_roundtrip_iff). C75_roundtrip says what comes back in every case."
  },
  {
   "property": "C76",
   "status": "partial",
   "theorems": [
    "Toku.Props.C76_stream",
    "Toku.Props.C76_stream_partial",
    "Toku.Props.C76_stream_iff",
    "Toku.Props.C76_negation",
    "Toku.Props.C76_long_command"
   ],
   "note": "Pings and pongs arrive as messages of unknown type, getheaders as in C75, commands over twelve bytes are cut; C76_stream says what arrives for every sequence, C76_stream_iff which sequences arrive unchanged."
  },
  {
   "property": "C77",
   "status": "partial",
   "theorems": [
    "Toku.Props.C77_checksum_partial",
    "Toku.Props.C77_command",
    "Toku.Props.C77_damaged",
    "Toku.Props.C77_negation"
   ],
   "note": "The checksum is enforced; the magic of the network is never compared (C77_negation)."
  },
  {
   "property": "C78",
   "status": "partial",
   "theorems": [
    "Toku.Props.C78_getdata",
    "Toku.Props.C78_inv_partial",
    "Toku.Props.C78_headers_partial",
    "Toku.Props.C78_negation",
    "Toku.Props.C78_headers_negation"
   ],
   "note": "Holds for getdata. AddInvVect and AddBlockHeader test the length before adding a batch (C78_negation, C78_headers_negation); true for batches of one."
  },
  {
   "property": "C79",
   "status": "partial",
   "theorems": [
    "Toku.Props.C79_loop_partial",
    "Toku.Props.C79_disconnect_once",
    "Toku.Props.C79_negation"
   ],
   "note": "True as long as no payload makes decoding panic; then the process crashes and the disconnect handler is not called (C79_negation). With the handlers and other goroutines: C110."
  },
  {
   "property": "C80",
   "status": "proved",
   "theorems": [
    "Toku.Props.C80_whole_frames",
    "Toku.Props.C80_always",
    "Toku.Props.C80_calls",
    "Toku.Props.C80_exclusion"
   ],
   "note": "Mutex, net.Conn and bufio are modelled by what they promise; goroutines may call at any time and bytes go out in pieces of any size."
  },
  {
   "property": "C81",
   "status": "partial",
   "theorems": [
    "Toku.Props.C81_reader_blocks",
    "Toku.Props.C81_deadlock",
    "Toku.Props.C81_negation",
    "Toku.Props.C81_write_completes_partial"
   ],
   "note": "False: ReadMessage holds the lock of the stream while it waits (C81_reader_blocks, C81_deadlock, C81_negation). The partial theorem covers every state in which no reader waits for bytes that have not arrived."
  },
  {
   "property": "C82",
   "status": "partial",
   "theorems": [
    "Toku.Props.C82_panics_iff",
    "Toku.Props.C82_never_panics_partial",
    "Toku.Props.C82_negation"
   ],
   "note": "False: a reject or version payload with a string length of 2^63 panics (C82_negation); C82_panics_iff says exactly which payloads do."
  },
  {
   "property": "C83",
   "status": "proved",
   "theorems": [
    "Toku.Props.C83_published",
    "Toku.Props.C83_hash160"
   ],
   "note": "SHA-256 is a parameter (standard library)."
  },
  {
   "property": "C84",
   "status": "proved",
   "theorems": [
    "Toku.Props.C84_signed_wire_verifies"
   ],
   "note": ""
  },
  {
   "property": "C85",
   "status": "proved",
   "theorems": [
    "Toku.Props.C85_fees",
    "Toku.Props.C85_no_rate"
   ],
   "note": "Double arithmetic is modelled as rounding of rationals to 53 bits, ties to even."
  },
  {
   "property": "C86",
   "status": "proved",
   "theorems": [
    "Toku.Props.C86_pub",
    "Toku.Props.C86_verify",
    "Toku.Props.C86_lawful",
    "Toku.Props.C86_signed_verifies",
    "Toku.Props.C86_signed_wire_verifies"
   ],
   "note": "The conditions of C43 and C84 other than those on the signature scheme remain."
  },
  {
   "property": "C87",
   "status": "partial",
   "theorems": [
    "Toku.Props.C87_master",
    "Toku.Props.C87_private_partial",
    "Toku.Props.C87_public_partial",
    "Toku.Props.C87_negation_depth",
    "Toku.Props.C87_negation_range"
   ],
   "note": "Master key and children are those of BIP 32. The refusals of BIP 32 are missing in the code: left half of N or more (C87_negation_range), depth beyond 255 (C87_negation_depth)."
  },
  {
   "property": "C88",
   "status": "partial",
   "theorems": [
    "Toku.Props.C88_seed",
    "Toku.Props.C88_checked_partial",
    "Toku.Props.C88_default"
   ],
   "note": "The seed itself is proved for all texts. NewSeedWithErrorChecking inherits the acceptance of wrong checksums from MnemonicToByteArray (C53_negation)."
  },
  {
   "property": "C89",
   "status": "partial",
   "theorems": [
    "Toku.Props.C89_negation",
    "Toku.Props.C89_same_partial"
   ],
   "note": "false of the code when the y coordinate of the shared point is not a residue: C89_negation, with the private key following from the two results."
  },
  {
   "property": "C90",
   "status": "proved",
   "theorems": [
    "Toku.Props.C90_one_run",
    "Toku.Props.C90_two_runs",
    "Toku.Props.C90_same_nonce",
    "Toku.Props.C90_schnorr",
    "Toku.Props.C90_schnorr_sign"
   ],
   "note": ""
  },
  {
   "property": "C91",
   "status": "partial",
   "theorems": [
    "Toku.Props.C91_layout",
    "Toku.Props.C91_layout_partial",
    "Toku.Props.C91_version_iff",
    "Toku.Props.C91_negation"
   ],
   "note": "All messages but version (ports little-endian, C91_version_iff) and getheaders without locators."
  },
  {
   "property": "C92",
   "status": "partial",
   "theorems": [
    "Toku.Props.C92_size_partial",
    "Toku.Props.C92_negation"
   ],
   "note": "Wrong for verack, reject, messages of unknown type and getheaders without locators (C92_negation)."
  },
  {
   "property": "C93",
   "status": "proved",
   "theorems": [
    "Toku.Props.C93_blockHash",
    "Toku.Props.C93_identity"
   ],
   "note": "SHA-256 is a parameter (standard library)."
  },
  {
   "property": "C94",
   "status": "proved",
   "theorems": [
    "Toku.Props.C94_delivery"
   ],
   "note": "As long as no read has given up; pings, pongs and getheaders change as in C76. The model of streams is that of C80."
  },
  {
   "property": "C95",
   "status": "partial",
   "theorems": [
    "Toku.Props.C95_assembles_partial",
    "Toku.Props.C95_unambiguous",
    "Toku.Props.C95_rejects_iff",
    "Toku.Props.C95_panics_iff",
    "Toku.Props.C95_bad_quote",
    "Toku.Props.C95_empty_word"
   ],
   "note": "C95_assembles_partial assumes no malformed quotes; C95_bad_quote shows what those do, C95_rejects_iff and C95_panics_iff say exactly when Load fails or panics (the integer -2^63)."
  },
  {
   "property": "C96",
   "status": "partial",
   "theorems": [
    "Toku.Props.C96_shows",
    "Toku.Props.C96_fails_iff",
    "Toku.Props.C96_injective",
    "Toku.Props.C96_reassembles_partial",
    "Toku.Props.C96_data_changed",
    "Toku.Props.C96_empty"
   ],
   "note": "Shown and injective in full. Reading back holds without pushes of data and for a non-empty script; C96_data_changed and C96_empty are the counterexamples."
  },
  {
   "property": "C97",
   "status": "partial",
   "theorems": [
    "Toku.Props.C97_verifies_partial",
    "Toku.Props.C97_wire_partial",
    "Toku.Props.C97_completes",
    "Toku.Props.C97_p2pkh_example",
    "Toku.Props.C97_p2pkh_example_refused"
   ],
   "note": "The hypothesis that the x coordinate of the shared point is below N is needed (C70_negation). The wiring of the P2PKH example is shown wrong for parties with the same Paillier key; with different keys the first party decrypts noise, about which nothing is proved."
  },
  {
   "property": "C98",
   "status": "partial",
   "theorems": [
    "Toku.Props.C98_panics_iff_partial",
    "Toku.Props.C98_silent_answer_panics",
    "Toku.Props.C98_errors_returned"
   ],
   "note": "The claim asks for no panic at all; C98_panics_iff_partial says exactly when a call panics and C98_silent_answer_panics gives an answer that does it."
  },
  {
   "property": "C99",
   "status": "partial",
   "theorems": [
    "Toku.Props.C99_count_and_hash",
    "Toku.Props.C99_block_partial",
    "Toku.Props.C99_stale_block_refused",
    "Toku.Props.C99_header_partial",
    "Toku.Props.C99_previous_hash_wrong",
    "Toku.Props.C99_mock_header",
    "Toku.Props.C99_missing_members_unnoticed"
   ],
   "note": "Headers are returned with 48 wrong bytes for each neighbour hash (C99_previous_hash_wrong); blocks outside the best chain are refused (C99_stale_block_refused). Numbers, hashes and blocks of the best chain are as the node gave them. Floats are kept as text."
  },
  {
   "property": "C100",
   "status": "partial",
   "theorems": [
    "Toku.Props.C100_panics_iff",
    "Toku.Props.C100_unsigned_panics",
    "Toku.Props.C100_same_text_iff",
    "Toku.Props.C100_read_back"
   ],
   "note": "Proved: when ToString panics (exactly for an input with script code but without witness), and exactly which parts of transactions of readable scripts decide the text. False in the code and proved so: unsigned witness transactions have no text (panic); later witness items, version, lock time, sequence numbers are not shown; fee and witness size are wrong after reading from wire format. The texts of errors and of %.2f are parameters."
  },
  {
   "property": "C101",
   "status": "partial",
   "theorems": [
    "Toku.Props.C101_verdict",
    "Toku.Props.C101_off",
    "Toku.Props.C101_records",
    "Toku.Props.C101_skipped_recorded",
    "Toku.Props.C101_step_numbers",
    "Toku.Props.C101_stack_text"
   ],
   "note": "Proved: same verdict with any log; nothing recorded without debugging; the records tell the run, with the resulting stack and the remaining script; the stack text is injective up to one exception. False in the code and proved so: records also for skipped instructions, step numbers not from 1, empty stack and one empty item print alike."
  },
  {
   "property": "C102",
   "status": "partial",
   "theorems": [
    "Toku.Props.C102_verdict",
    "Toku.Props.C102_writes",
    "Toku.Props.C102_unchanged",
    "Toku.Props.C102_again_partial",
    "Toku.Props.C102_negation"
   ],
   "note": "Proved: the verdict depends on the bytes only; exactly which cells may be written; slices not reaching into them, and the unlocking script, are unchanged. False in the code and proved so: with overlapping slices Verify changes the locking script and a second call gives another verdict; the statement about a second call is proved for slices that do not overlap there."
  },
  {
   "property": "C103",
   "status": "proved",
   "theorems": [
    "Toku.Props.C103_refines",
    "Toku.Props.C103_independent"
   ],
   "note": "Slices whose capacity is cut short (three-index slices) do not occur in the code and are left out."
  },
  {
   "property": "C104",
   "status": "proved",
   "theorems": [
    "Toku.Props.C104_below",
    "Toku.Props.C104_final"
   ],
   "note": ""
  },
  {
   "property": "C105",
   "status": "partial",
   "theorems": [
    "Toku.Props.C105_values",
    "Toku.Props.C105_taken_partial",
    "Toku.Props.C105_others",
    "Toku.Props.C105_reset_overwrites",
    "Toku.Props.C105_reset_raw",
    "Toku.Props.C105_negation",
    "Toku.Props.C105_own_script",
    "Toku.Props.C105_reads",
    "Toku.Props.C105_verify_overwrites"
   ],
   "note": "false after Reset: C105_negation (for every builder that has written something), C105_reset_overwrites and C105_reset_raw give exactly what happens, C105_own_script for AddData, C105_verify_overwrites for Verify; without Reset: C105_taken_partial"
  },
  {
   "property": "C106",
   "status": "proved",
   "theorems": [
    "Toku.Props.C106_nonce"
   ],
   "note": ""
  },
  {
   "property": "C107",
   "status": "proved",
   "theorems": [
    "Toku.Props.C107_key"
   ],
   "note": ""
  },
  {
   "property": "C108",
   "status": "proved",
   "theorems": [
    "Toku.Props.C108_built_verifies",
    "Toku.Props.C108_calls",
    "Toku.Props.C108_built_wire_verifies",
    "Toku.Props.C108_signing_succeeds"
   ],
   "note": ""
  },
  {
   "property": "C109",
   "status": "proved",
   "theorems": [
    "Toku.Props.C109_watch",
    "Toku.Props.C109_wallet"
   ],
   "note": ""
  },
  {
   "property": "C110",
   "status": "proved",
   "theorems": [
    "Toku.Props.C110_order",
    "Toku.Props.C110_prefix",
    "Toku.Props.C110_one_at_a_time",
    "Toku.Props.C110_whole_frames",
    "Toku.Props.C110_send_waits",
    "Toku.Props.C110_send_completes",
    "Toku.Props.C110_close",
    "Toku.Props.C110_ends",
    "Toku.Props.C110_crash"
   ],
   "note": "What handlers do besides Send and Close, and the addresses of the two ends, are outside the model."
  },
  {
   "property": "C111",
   "status": "partial",
   "theorems": [
    "Toku.Props.C111_legacy_input",
    "Toku.Props.C111_legacy_iff",
    "Toku.Props.C111_received_legacy_iff",
    "Toku.Props.C111_received_p2wsh_partial",
    "Toku.Props.C111_anyone_can_spend",
    "Toku.Props.C111_spendable_iff",
    "Toku.Props.C111_verify_keeps",
    "Toku.Props.C111_forged",
    "Toku.Props.C111_forged_wire",
    "Toku.Props.C111_p2wpkh_iff",
    "Toku.Props.C111_received_partial"
   ],
   "note": "False for P2PKH, P2SH and P2WSH coins: C111_forged. Holds for P2WPKH (C111_received_partial, C111_p2wpkh_iff), and for P2WSH coins spent with a witness of three or more items that ends in a multisig script (C111_received_p2wsh_partial). C111_legacy_iff and C111_received_legacy_iff say exactly which received transactions are accepted when the coins are P2PKH and P2SH coins. Which outputs are spendable at all is exact (C111_spendable_iff). The P2WPKH theorems are for signature schemes whose verification does not panic; true for the one implemented (C86)."
  },
  {
   "property": "C112",
   "status": "proved",
   "theorems": [
    "Toku.Props.C112_second_pass",
    "Toku.Props.C112_verify_iff",
    "Toku.Props.C112_pushes_suffice"
   ],
   "note": ""
  },
  {
   "property": "C113",
   "status": "partial",
   "theorems": [
    "Toku.Props.C113_closed",
    "Toku.Props.C113_started",
    "Toku.Props.C113_phase3",
    "Toku.Props.C113_agrees",
    "Toku.Props.C113_nonce_partial",
    "Toku.Props.C113_failed_phase2",
    "Toku.Props.C113_schnorr_closed"
   ],
   "note": "Closed parties: every answer after Close is given by a function without the secrets, for all sequences of calls before and after (ECDSA, Alice, Bob, Schnorr). Phase 3 panics exactly without a successful phase 2. The nonce belongs to the hash if no phase 2 has failed; after a failed one it does not (C113_failed_phase2), and the private key can be computed."
  },
  {
   "property": "C114",
   "status": "partial",
   "theorems": [
    "Toku.Props.C114_deserialize",
    "Toku.Props.C114_deserializeNoWitness",
    "Toku.Props.C114_partial",
    "Toku.Props.C114_negation_empty",
    "Toku.Props.C114_legacy_partial",
    "Toku.Props.C114_outputs_unread",
    "Toku.Props.C114_negation"
   ],
   "note": "False: C114_negation (outputs replaced without a new signature after an accepted Verify on the same object) and C114_negation_empty. C114_deserialize and C114_deserializeNoWitness say what reading into a used object gives; it is the same as with a new object if the object has no cached digests (C114_partial), and the verdict is the same if only P2PKH and P2SH coins are spent (C114_legacy_partial). Once the digest of the outputs is cached the outputs are not looked at for P2WPKH and P2WSH coins (C114_outputs_unread). C114_deserialize assumes at least one input in the bytes; without one the witness data of the old inputs is read."
  },
  {
   "property": "C115",
   "status": "partial",
   "theorems": [
    "Toku.Props.C115_same",
    "Toku.Props.C115_left_legacy",
    "Toku.Props.C115_left_segwit",
    "Toku.Props.C115_negation",
    "Toku.Props.C115_negation_segwit",
    "Toku.Props.C115_negation_outputs",
    "Toku.Props.C115_negation_later",
    "Toku.Props.C115_partial",
    "Toku.Props.C115_negation_version",
    "Toku.Props.C115_recovery"
   ],
   "note": "The code violates the statement: a failed read changes the object and can leave nil pointers on which the methods panic (negation theorems). Proved: exactly what each cut leaves, that digest caches are kept, and that a later complete read repairs the object."
  },
  {
   "property": "C116",
   "status": "partial",
   "theorems": [
    "Toku.Props.C116_partial",
    "Toku.Props.C116_negation",
    "Toku.Props.C116_schnorr_partial",
    "Toku.Props.C116_schnorr_negation"
   ],
   "note": "A party keeps the slice of the hash, not its bytes: a caller that stores another hash there after phase 2 gets two signatures with one nonce, which give away the private key (C116_negation, C116_schnorr_negation). Without such stores the results are those of the calls by value."
  },
  {
   "property": "C117",
   "status": "partial",
   "theorems": [
    "Toku.Props.C117_partial",
    "Toku.Props.C117_full_partial",
    "Toku.Props.C117_legacy_partial",
    "Toku.Props.C117_writes",
    "Toku.Props.C117_negation_next",
    "Toku.Props.C117_negation_reuse",
    "Toku.Props.C117_negation_sent"
   ],
   "note": "False for signatures with spare capacity: the hash type is written behind the signature in the memory of the caller (C117_negation_next) and the witness keeps that memory (C117_negation_reuse, C117_negation_sent). Proved when no step touches bytes that the transaction holds, in particular for signatures that fill their array and for coins without witness; C117_writes says exactly which byte changes."
  },
  {
   "property": "C118",
   "status": "partial",
   "theorems": [
    "Toku.Props.C118_bech32_partial",
    "Toku.Props.C118_bech32_negation",
    "Toku.Props.C118_sum_partial",
    "Toku.Props.C118_k0_partial",
    "Toku.Props.C118_e_partial",
    "Toku.Props.C118_e_negation"
   ],
   "note": "The results of Bech32Encode, GetK0 and Sum are those of the bytes for every layout, but bytes behind the argument are overwritten; exactly which is proved. The result of GetE is wrong if the message lies behind rX in the same array (C118_e_negation)."
  },
  {
   "property": "C119",
   "status": "partial",
   "theorems": [
    "Toku.Props.C119_negation",
    "Toku.Props.C119_ecdsa_partial"
   ],
   "note": "False of the code for Schnorr: the shared key is the plain sum of the public keys, so a counterpart presenting xG minus the key of the party alone holds the private key of the sum (C119_negation). For ECDSA: a counterpart whose key is a combination of the generator and the key of the party, and who holds the private key of the shared key, has an equation for the private key of the party with at most two solutions."
  },
  {
   "property": "C120",
   "status": "proved",
   "theorems": [
    "Toku.Props.C120_schnorr",
    "Toku.Props.C120_ecdsa"
   ],
   "note": ""
  },
  {
   "property": "C121",
   "status": "partial",
   "theorems": [
    "Toku.Props.C121_same_verdict",
    "Toku.Props.C121_p2wpkh",
    "Toku.Props.C121_p2wpkh_script",
    "Toku.Props.C121_negation",
    "Toku.Props.C121_p2wsh_script",
    "Toku.Props.C121_negation_p2wsh",
    "Toku.Props.C121_negation_p2pkh",
    "Toku.Props.C121_other_s",
    "Toku.Props.C121_other_signature",
    "Toku.Props.C121_trailing",
    "Toku.Props.C121_negation_signature",
    "Toku.Props.C121_identifier_partial"
   ],
   "note": "False: C121_negation (any script in the script field of a received P2WPKH input gives another identifier and the same object after SetTxIn), C121_negation_p2wsh (the same for a P2WSH input with a multi-signature script), C121_negation_p2pkh (a push in front of a P2PKH script), C121_negation_signature (another ECDSA signature, from C121_other_s and C121_other_signature), C121_p2wpkh (further witness items). C121_same_verdict says what Verify reads of scripts and witnesses. C121_identifier_partial: with witness inputs only, equal SIGHASH_ALL hashes give equal identifiers after SetTxIn, or a SHA-256 collision."
  },
  {
   "property": "C122",
   "status": "partial",
   "theorems": [
    "Toku.Props.C122_negation",
    "Toku.Props.C122_negation_family",
    "Toku.Props.C122_negation_step",
    "Toku.Props.C122_hardened_partial"
   ],
   "note": "False for non-hardened descendants: C122_negation gives a computation that returns the whole extended private key of the account from its extended public key and the private key of one descendant, for every list of non-hardened indices (private key below N, public derivation succeeding); C122_negation_family: hence all other keys, hardened ones too; C122_negation_step: one step without conditions. Missing from the full statement: for hardened indices only that this computation returns nothing is proved; that none does is a claim on HMAC-SHA512."
  },
  {
   "property": "C123",
   "status": "partial",
   "theorems": [
    "Toku.Props.C123_negation_repeat",
    "Toku.Props.C123_negation_mnemonic",
    "Toku.Props.C123_negation_count",
    "Toku.Props.C123_negation_mnemonics",
    "Toku.Props.C123_negation_missing",
    "Toku.Props.C123_first"
   ],
   "note": "False: the seed of math/rand is the clock modulo 2^31 - 1. C123_negation_repeat / C123_negation_mnemonic: times 2147483647 ns apart give the same entropy / mnemonic; C123_negation_count / C123_negation_mnemonics: at most 2^31 - 2 results, listed; C123_negation_missing: some entropy is never returned. C123_first: the first seven bytes in closed form. The generator is that of the Go library, written down from its published source with its constant table as a parameter; nothing of the full statement remains true to prove."
  },
  {
   "property": "C124",
   "status": "partial",
   "theorems": [
    "Toku.Props.C124_run",
    "Toku.Props.C124_verify",
    "Toku.Props.C124_sound_partial",
    "Toku.Props.C124_sound_p2sh_partial",
    "Toku.Props.C124_complete_partial",
    "Toku.Props.C124_negation_limits",
    "Toku.Props.C124_negation_empty",
    "Toku.Props.C124_negation_return",
    "Toku.Props.C124_negation_open",
    "Toku.Props.C124_negation_left",
    "Toku.Props.C124_negation_dummy",
    "Toku.Props.C124_negation_minimal",
    "Toku.Props.C124_negation_p2sh"
   ],
   "note": "C124_run and C124_verify say exactly which rules the engine follows (for all scripts, stacks and callbacks). C124_sound_partial, C124_sound_p2sh_partial and C124_complete_partial are the parts of the agreement with Bitcoin that hold; the eight C124_negation theorems give scripts on which the two differ. Opcodes the library does not know are outside."
  },
  {
   "property": "C125",
   "status": "partial",
   "theorems": [
    "Toku.Props.C125_p2sh_partial",
    "Toku.Props.C125_negation_p2sh",
    "Toku.Props.C125_p2wsh_partial",
    "Toku.Props.C125_negation_p2wsh",
    "Toku.Props.C125_p2pkh"
   ],
   "note": "C125_p2pkh covers P2PKH and P2WPKH in full; C125_p2sh_partial needs a script of at most 520 bytes and C125_p2wsh_partial at most 20 keys. Outside these bounds the property is false: C125_negation_p2sh and C125_negation_p2wsh show that no unlocking script or witness is accepted unless it has a second script with the same hash, while the library makes the address. The signature checks are the callbacks of the engine; sigop counts of blocks and relay policy are not modelled."
  },
  {
   "property": "C126",
   "status": "partial",
   "theorems": [
    "Toku.Props.C126_negation_legacy",
    "Toku.Props.C126_negation_single",
    "Toku.Props.C126_negation_redeem",
    "Toku.Props.C126_negation_mixed",
    "Toku.Props.C126_signed_partial",
    "Toku.Props.C126_built_partial"
   ],
   "note": "C126_signed_partial (SignIndex) and C126_built_partial (builder). Hypotheses that are needed: legacy inputs use ALL, witness inputs ALL or NONE with or without ANYONECANPAY, none covering something that an earlier signed one did not (C126_negation_legacy, C126_negation_single, C126_negation_mixed); no redeem script with P2PKH (C126_negation_redeem); P2SH scripts of at most 520 bytes and at most 20 keys (C125). The hypothesis hdel excludes a P2PKH signature that equals the 20 bytes of the key hash, which Bitcoin would delete from the script before hashing. Not in Spec/Validity: amounts, double spending, lock times, block limits, taproot."
  },
  {
   "property": "C127",
   "status": "partial",
   "theorems": [
    "Toku.Props.C127_negation_none",
    "Toku.Props.C127_negation_single",
    "Toku.Props.C127_negation_prefix",
    "Toku.Props.C127_negation_script",
    "Toku.Props.C127_negation_trailing",
    "Toku.Props.C127_negation_mixed",
    "Toku.Props.C127_negation_stale",
    "Toku.Props.C127_partial"
   ],
   "note": "C127_partial, for inputs that spend P2PKH and P2WPKH coins by a signature and a key (KeySpend): Bitcoin-valid implies accepted, and with StrictForm both are equivalent; hash types of witness inputs may differ as long as none covers more than an earlier one. Why the full statement is false: C127_negation_none, C127_negation_single, C127_negation_mixed (valid, refused), C127_negation_prefix, C127_negation_script, C127_negation_trailing, C127_negation_stale (accepted, not valid). For P2SH and P2WSH coins Verify is not Bitcoin's rule (C44, C111), so they are not in the theorem; C128 has them for m-of-n scripts."
  },
  {
   "property": "C128",
   "status": "partial",
   "theorems": [
    "Toku.Props.C128_standard_valid",
    "Toku.Props.C128_standard_valid_key",
    "Toku.Props.C128_any_partial",
    "Toku.Props.C128_standard_partial",
    "Toku.Props.C128_negation_unrecognised",
    "Toku.Props.C128_negation_scripts",
    "Toku.Props.C128_negation_hash_lock",
    "Toku.Props.C128_complete_partial",
    "Toku.Props.C128_exact_partial",
    "Toku.Props.C128_negation_program",
    "Toku.Props.C128_negation_dummy",
    "Toku.Props.C128_negation_items"
   ],
   "note": "C128_complete_partial: what Bitcoin takes the library takes, for inputs that spend P2PKH, P2WPKH coins by a signature and a key, and P2SH, P2WSH coins by m signatures for an m-of-n script (SpendsWith). C128_exact_partial: equivalence with StrictlySpends. C128_any_partial: the same equivalence where such inputs are mixed with P2SH coins of any redeem script made of the opcodes that the library knows, conditions included, and P2PKH coins opened by any pushes, under stricter rules (minimal numbers and IF arguments, hash type ALL, nothing left); such inputs are valid (C128_standard_valid, C128_standard_valid_key) and accepted (C128_standard_partial); a hashed timelock contract is the example. Why the full statement is false: C128_negation_program, C128_negation_dummy, C128_negation_items (accepted, not valid), C128_negation_unrecognised, C128_negation_scripts (every valid spending of a P2WSH coin whose script is not taken for a multisig script is refused), C128_negation_hash_lock (there are such, for every text) and those of C127. Other hash types in legacy inputs and non-minimal forms are refused by the library (C127_negation_none, C124_negation_minimal, C124_negation_left). Missing: forms of unlocking the other coins beyond these."
  },
  {
   "property": "C129",
   "status": "partial",
   "theorems": [
    "Toku.Props.C129_unique",
    "Toku.Props.C129_published_partial",
    "Toku.Props.C129_alice_partial",
    "Toku.Props.C129_negation"
   ],
   "note": "C129_unique: for a key, hash and r >= P - N the accepted s is unique up to sign. C129_published_partial: from any accepted signature with the shared r Alice computes the secret or its opposite (Bob honest). C129_alice_partial: her own number is a signature only for the secrets 1 and N - 1. C129_negation: a Bob who sends an encryption of 0 in phase 4 is not noticed, and Alice is left with 0."
  },
  {
   "property": "C130",
   "status": "partial",
   "theorems": [
    "Toku.Props.C130_exact",
    "Toku.Props.C130_bob_exact",
    "Toku.Props.C130_negation"
   ],
   "note": "False: C130_negation (for all keys, nonces and hashes a counterpart without any knowledge makes the party report a refused signature). C130_exact and C130_bob_exact say for every ciphertext what is reported and exactly when it is accepted, for shared points with P - N <= x < N; for x >= N nothing is accepted (C70_negation)."
  },
  {
   "property": "C131",
   "status": "partial",
   "theorems": [
    "Toku.Props.C131_legacy_amounts",
    "Toku.Props.C131_negation_nothing",
    "Toku.Props.C131_fees",
    "Toku.Props.C131_fees_sign",
    "Toku.Props.C131_built",
    "Toku.Props.C131_negation_fees",
    "Toku.Props.C131_negation_twice"
   ],
   "note": "False: C131_negation_nothing, C131_negation_twice, C131_negation_fees. Proved: the verdict of Verify does not depend on the amounts of legacy coins (C131_legacy_amounts); a built transaction spends a coin twice exactly when it was given twice (C131_built); Fees is the difference modulo 2^64, and below 2^63 its sign tells (C131_fees, C131_fees_sign)."
  },
  {
   "property": "C132",
   "status": "partial",
   "theorems": [
    "Toku.Props.C132_delivery",
    "Toku.Props.C132_negation_talk",
    "Toku.Props.C132_negation_silence",
    "Toku.Props.C132_negation",
    "Toku.Props.C132_answer_partial",
    "Toku.Props.C132_catches_up_partial"
   ],
   "note": "False: once both loops wait with nothing under way, at least one of the two handlers is never called again, in every run (C132_negation_talk), and this state is reached by starting both loops and then sending (C132_negation); until a deadline passes nothing is sent at all (C132_negation_silence). Proved: the order, and that neither disconnects or crashes the other, in every run (C132_delivery); a message and an answer pass if the first is sent before the loop starts (C132_answer_partial). As long as the loop of the sender is not inside ReadMessage, every Send can return and everything sent be handed over, from every reachable state without failure (C132_catches_up_partial)."
  },
  {
   "property": "C133",
   "status": "partial",
   "theorems": [
    "Toku.Props.C133_exact",
    "Toku.Props.C133_negation",
    "Toku.Props.C133_exact_zero",
    "Toku.Props.C133_negation_any"
   ],
   "note": "False: C133_negation_any (for every party, key, point and hash a counterpart without any knowledge makes the party report a refused signature; C133_negation with two answers when the challenge is not 0). C133_exact and C133_exact_zero say for every list of byte strings what is reported and exactly when it is accepted."
  },
  {
   "property": "C134",
   "status": "proved",
   "theorems": [
    "Toku.Props.C134_script",
    "Toku.Props.C134_text",
    "Toku.Props.C134_different",
    "Toku.Props.C134_nil"
   ],
   "note": ""
  },
  {
   "property": "C135",
   "status": "partial",
   "theorems": [
    "Toku.Props.C135_ecdsa_iff",
    "Toku.Props.C135_negation",
    "Toku.Props.C135_schnorr",
    "Toku.Props.C135_schnorr_partial",
    "Toku.Props.C135_negation_schnorr"
   ],
   "note": "False: nothing compares the shared key with the party's own. With ECDSA it is the own key exactly if the counterpart has the private key 1 (`C135_ecdsa_iff`), and such a counterpart ends the run holding a signature of the hash under the party's own key (`C135_negation`). With Schnorr it never is for a key read from a text (`C135_schnorr_partial`); for the object with coordinates 0 and 0 it is, and what the party sends in phase 4 is then the ordinary signature of the hash (`C135_negation_schnorr`). `C135_negation` needs that s is not 0 and the x coordinate of the shared point is below N."
  },
  {
   "property": "C136",
   "status": "partial",
   "theorems": [
    "Toku.Props.C136_prefix_partial",
    "Toku.Props.C136_negation_repeated",
    "Toku.Props.C136_negation_rows",
    "Toku.Props.C136_negation_zeros"
   ],
   "note": "`C136_prefix_partial`: if both trees have the same number of rows (the ceiling of the logarithm of the number of leaves), one list is the beginning of the other or a collision is found at the leaves with one number. The rest is false: `C136_negation_repeated` (for every such size), `C136_negation_rows`, `C136_negation_zeros`."
  },
  {
   "property": "C137",
   "status": "partial",
   "theorems": [
    "Toku.Props.C137_field_partial",
    "Toku.Props.C137_negation",
    "Toku.Props.C137_negation_never",
    "Toku.Props.C137_by_hand_partial",
    "Toku.Props.C137_sent_partial"
   ],
   "note": "The waiting is false for every builder configuration (`C137_negation`, `C137_negation_never`). Proved: the field holds the last lock time set (`C137_field_partial`); by hand, the transaction waits iff the lock time is not 0 and a sequence number is below the maximum, signing changing neither (`C137_by_hand_partial`); sending keeps it (`C137_sent_partial`)."
  },
  {
   "property": "C138",
   "status": "partial",
   "theorems": [
    "Toku.Props.C138_relayed_iff_partial",
    "Toku.Props.C138_negation_change",
    "Toku.Props.C138_negation_payment",
    "Toku.Props.C138_negation_data"
   ],
   "note": "`C138_relayed_iff_partial`: exactly when the outputs are passed on. False otherwise: `C138_negation_change`, `C138_negation_payment`, `C138_negation_data`. The rules are the default ones of the reference client before version 30, for outputs only."
  },
  {
   "property": "C139",
   "status": "partial",
   "theorems": [
    "Toku.Props.C139_addressed_partial",
    "Toku.Props.C139_negation_nil",
    "Toku.Props.C139_negation_hash"
   ],
   "note": "`C139_addressed_partial`: payments to an address. False for a nil address (`C139_negation_nil`), and so for every address made from a hash of the wrong length (`C139_negation_hash`)."
  },
  {
   "property": "C140",
   "status": "partial",
   "theorems": [
    "Toku.Props.C140_passes_iff_partial",
    "Toku.Props.C140_real_coins_partial",
    "Toku.Props.C140_negation_twice",
    "Toku.Props.C140_negation_size",
    "Toku.Props.C140_negation_money"
   ],
   "note": "`C140_passes_iff_partial`: exactly when. `C140_real_coins_partial`: for different, real coins and sensible settings. False otherwise: `C140_negation_twice`, `C140_negation_size`, `C140_negation_money`, and the outpoint of no coin (example)."
  },
  {
   "property": "C141",
   "status": "partial",
   "theorems": [
    "Toku.Props.C141_negation_witness",
    "Toku.Props.C141_negation_mixed",
    "Toku.Props.C141_negation_change",
    "Toku.Props.C141_negation_data",
    "Toku.Props.C141_legacy_partial"
   ],
   "note": "`C141_legacy_partial`: legacy inputs without change and data, to two satoshi. False for all spendings of witness coins only (`C141_negation_witness`), of witness coins with at most twenty legacy ones each (`C141_negation_mixed`), and for usual legacy ones with change (`C141_negation_change`) or data (`C141_negation_data`)."
  }
 ]
}