{
 "claims": [
  {
   "property": "C01",
   "status": "proved",
   "theorems": [
    "Cesride.C01_text_roundtrip",
    "Cesride.C01_constructible"
   ],
   "note": ""
  },
  {
   "property": "C02",
   "status": "proved",
   "theorems": [
    "Cesride.C02_binary_roundtrip"
   ],
   "note": ""
  },
  {
   "property": "C03",
   "status": "proved",
   "theorems": [
    "Cesride.C03_domains_equivalent",
    "Cesride.isDecoding_unique"
   ],
   "note": ""
  },
  {
   "property": "C04",
   "status": "proved",
   "theorems": [
    "Cesride.C04_text_canonical",
    "Cesride.C04_text_unique",
    "Cesride.C04_pad_accepted"
   ],
   "note": "Holds with the exception stated in the property; the exception (pad characters) is a defect, witnessed by C04_pad_accepted."
  },
  {
   "property": "C05",
   "status": "proved",
   "theorems": [
    "Cesride.C05_binary_canonical"
   ],
   "note": ""
  },
  {
   "property": "C06",
   "status": "proved",
   "theorems": [
    "Cesride.C06_sizes",
    "Cesride.C06_short_raw_accepted",
    "Cesride.C13_aligned",
    "Cesride.C04_text_canonical",
    "Cesride.C05_binary_canonical"
   ],
   "note": "Holds except for text with pad characters; that exception is a defect, witnessed by C06_short_raw_accepted."
  },
  {
   "property": "C07",
   "status": "proved",
   "theorems": [
    "Cesride.C07_self_framing"
   ],
   "note": ""
  },
  {
   "property": "C08",
   "status": "proved",
   "theorems": [
    "Cesride.C08_truncated"
   ],
   "note": ""
  },
  {
   "property": "C09",
   "status": "proved",
   "theorems": [
    "Cesride.C09_text_streams",
    "Cesride.C09_binary_streams"
   ],
   "note": ""
  },
  {
   "property": "C10",
   "status": "proved",
   "theorems": [
    "Cesride.C10_fixed_raw"
   ],
   "note": ""
  },
  {
   "property": "C11",
   "status": "proved",
   "theorems": [
    "Cesride.C11_variable_code",
    "Cesride.C11_huge_raw_truncated",
    "Cesride.C11_huge_raw_accepted"
   ],
   "note": "Holds below 2^32 bytes; above, the length is truncated to 32 bits (defect, proved for all such raw)."
  },
  {
   "property": "C12",
   "status": "proved",
   "theorems": [
    "Cesride.C12_all_text_panics_exactly",
    "Cesride.C12_binary_panics_exactly",
    "Cesride.C12_bytes",
    "Cesride.C12_text_panics_exactly",
    "Cesride.C12_non_ascii_panics"
   ],
   "note": "Exact set of panicking inputs proved for all binary and all text; they are defects."
  },
  {
   "property": "C13",
   "status": "proved",
   "theorems": [
    "Cesride.C13_aligned"
   ],
   "note": ""
  },
  {
   "property": "C14",
   "status": "proved",
   "theorems": [
    "Cesride.C14_table",
    "Cesride.C14_unknown_variable_code_accepted"
   ],
   "note": ""
  },
  {
   "property": "C15",
   "status": "proved",
   "theorems": [
    "Cesride.C15_int_roundtrip",
    "Cesride.C15_int_injective",
    "Cesride.C15_reader_total"
   ],
   "note": ""
  },
  {
   "property": "C16",
   "status": "proved",
   "theorems": [
    "Cesride.C16_code_roundtrip",
    "Cesride.C16_nab_sextets"
   ],
   "note": ""
  },
  {
   "property": "C17",
   "status": "proved",
   "theorems": [
    "Cesride.C17_text_roundtrip",
    "Cesride.C20_permitted_accepted",
    "Cesride.C21_lead_code_defect"
   ],
   "note": "Holds for all sixteen signature codes and permitted indices; the exceptions stated in the property are defects, proved by C20_same_index_not_enforced and C21_lead_code_defect."
  },
  {
   "property": "C18",
   "status": "proved",
   "theorems": [
    "Cesride.C18_binary_roundtrip"
   ],
   "note": "Exact: 3A and 3B panic in qb2 with overflow checks (defect), everything else round-trips."
  },
  {
   "property": "C19",
   "status": "proved",
   "theorems": [
    "Cesride.C19_domains_equivalent"
   ],
   "note": ""
  },
  {
   "property": "C20",
   "status": "proved",
   "theorems": [
    "Cesride.C20_limits",
    "Cesride.C20_permitted_accepted",
    "Cesride.C20_same_index_not_enforced"
   ],
   "note": "Exact outcome proved for every code, raw, index and ondex; the missing same-index rule is a defect."
  },
  {
   "property": "C21",
   "status": "proved",
   "theorems": [
    "Cesride.C21_text_canonical",
    "Cesride.C21_binary_canonical",
    "Cesride.C21_self_framing",
    "Cesride.C21_truncated"
   ],
   "note": ""
  },
  {
   "property": "C22",
   "status": "proved",
   "theorems": [
    "Cesride.C22_all_text_panics_exactly",
    "Cesride.C22_text_bytes_panics_exactly",
    "Cesride.C22_no_panic",
    "Cesride.C22_nonascii_panics"
   ],
   "note": "Exact set of panicking texts; binary and ASCII inputs never panic."
  },
  {
   "property": "C23",
   "status": "proved",
   "theorems": [
    "Cesride.C23_roundtrip",
    "Cesride.C24_obtained_fits"
   ],
   "note": ""
  },
  {
   "property": "C24",
   "status": "proved",
   "theorems": [
    "Cesride.C24_limits",
    "Cesride.C24_unknown_code",
    "Cesride.C24_obtained_fits",
    "Cesride.C24_count_forms"
   ],
   "note": ""
  },
  {
   "property": "C25",
   "status": "proved",
   "theorems": [
    "Cesride.C25_text_canonical",
    "Cesride.C25_binary_canonical",
    "Cesride.C25_self_framing",
    "Cesride.C25_truncated",
    "Cesride.C25_disjoint"
   ],
   "note": ""
  },
  {
   "property": "C26",
   "status": "proved",
   "theorems": [
    "Cesride.C26_all_text_panics_exactly",
    "Cesride.C26_text_bytes_panics_exactly",
    "Cesride.C26_panics_exactly",
    "Cesride.C26_panics"
   ],
   "note": "Exact set of panicking texts; the panics are defects. Binary never panics."
  },
  {
   "property": "C27",
   "status": "proved",
   "theorems": [
    "Cesride.C27_semver",
    "Cesride.C27_parts"
   ],
   "note": ""
  },
  {
   "property": "C28",
   "status": "proved",
   "theorems": [
    "Cesride.C28_number_roundtrip",
    "Cesride.C28_number_hex",
    "Cesride.C28_number_injective"
   ],
   "note": ""
  },
  {
   "property": "C29",
   "status": "proved",
   "theorems": [
    "Cesride.C29_seqner_roundtrip",
    "Cesride.C29_seqner_order"
   ],
   "note": ""
  },
  {
   "property": "C30",
   "status": "proved",
   "theorems": [
    "Cesride.C30_number_text",
    "Cesride.C30_number_binary",
    "Cesride.C30_seqner_text",
    "Cesride.C30_seqner_binary",
    "Cesride.C30_bytes",
    "Cesride.C30_pad_panics"
   ],
   "note": "The text theorems are exact: the panic happens precisely for padded text; a defect of the code."
  },
  {
   "property": "C31",
   "status": "proved",
   "theorems": [
    "Cesride.C31_bext_roundtrip",
    "Cesride.C31_bext_exact",
    "Cesride.C31_bext_not_injective"
   ],
   "note": "Exact, including the loss of a leading A (defect)."
  },
  {
   "property": "C32",
   "status": "proved",
   "theorems": [
    "Cesride.C32_bext_refused"
   ],
   "note": ""
  },
  {
   "property": "C33",
   "status": "proved",
   "theorems": [
    "Cesride.C33_date_roundtrip",
    "Cesride.C33_date_short"
   ],
   "note": ""
  },
  {
   "property": "C34",
   "status": "proved",
   "theorems": [
    "Cesride.C34_unweighted_decision",
    "Cesride.C34_distinct_indices",
    "Cesride.C34_repetitions_count",
    "Cesride.C34_accepted"
   ],
   "note": "Exact; repeated indices are counted as often as they occur (defect, proved for all)."
  },
  {
   "property": "C35",
   "status": "proved",
   "theorems": [
    "Cesride.C35_weights",
    "Cesride.C35_weights_given",
    "Cesride.C35_weights_given_sith",
    "Cesride.C35_weighted_decision",
    "Cesride.C35_never_approves_short",
    "Cesride.C35_exact_when_small",
    "Cesride.C35_accepted",
    "Cesride.C35_accepted_exactly",
    "Cesride.weight_iff",
    "Cesride.C35_extra_slashes",
    "Cesride.C35_extra_slashes_accepted",
    "Cesride.C36_not_monotone_release"
   ],
   "note": "Exact with overflow checks whenever there is no panic; exact in every profile for weights whose sums fit 31 bits; sound (never approves too little weight) always."
  },
  {
   "property": "C36",
   "status": "proved",
   "theorems": [
    "Cesride.C36_monotone_weighted",
    "Cesride.C36_monotone_small",
    "Cesride.C36_monotone_unweighted",
    "Cesride.C36_set_of_positions",
    "Cesride.C36_order",
    "Cesride.C36_full_set",
    "Cesride.C36_not_monotone_release"
   ],
   "note": "The overflow exception without overflow checks is a defect, witnessed by C36_not_monotone_release."
  },
  {
   "property": "C37",
   "status": "proved",
   "theorems": [
    "Cesride.C37_limen",
    "Cesride.C37_sith",
    "Cesride.C37_thold",
    "Cesride.C37_json",
    "Cesride.C37_empty_exception"
   ],
   "note": "The empty threshold is the only exception (thresholds below 2^27 weights)."
  },
  {
   "property": "C38",
   "status": "proved",
   "theorems": [
    "Cesride.C38_unweighted_evaluation",
    "Cesride.C38_out_of_range_panics",
    "Cesride.C38_weighted_evaluation",
    "Cesride.C38_evaluation_panics_exactly",
    "Cesride.C38_value_panics_exactly",
    "Cesride.C38_sith_panics_exactly",
    "Cesride.C38_limen_panics_exactly",
    "Cesride.C35_exact_when_small",
    "Cesride.C38_construction",
    "Cesride.C38_construction_sith",
    "Cesride.C38_construction_release",
    "Cesride.C38_construction_release_sith",
    "Cesride.C38_construction_panics",
    "Cesride.C38_construction_overflow",
    "Cesride.sample_panics"
   ],
   "note": "All panic conditions are exact, in both overflow-check profiles. The panics are defects."
  },
  {
   "property": "C39",
   "status": "proved",
   "theorems": [
    "Cesride.C39_injective",
    "Cesride.C39_stream",
    "Cesride.C39_roundtrip",
    "Cesride.C39_defect_depth",
    "Cesride.C39_defect_float"
   ],
   "note": "Exact at the parser's recursion limit. Floats are covered: they are their printed texts, read back under FloatsRead."
  },
  {
   "property": "C40",
   "status": "proved",
   "theorems": [
    "Cesride.C40_accepted_iff",
    "Cesride.C40_versify_deversify",
    "Cesride.C40_deversify_versify",
    "Cesride.C40_versify_ok_iff",
    "Cesride.C40_total"
   ],
   "note": "Exact: sizes from 2^24 and version digits from 16 are written but refused when read."
  },
  {
   "property": "C41",
   "status": "proved",
   "theorems": [
    "Cesride.C41_size",
    "Cesride.C41_bytes",
    "Cesride.C41_version_first",
    "Cesride.C41_total",
    "Cesride.C41_idempotent",
    "Cesride.C41_defect"
   ],
   "note": "A version-like text in front of the version field is overwritten instead of it (defect, witnessed)."
  },
  {
   "property": "C42",
   "status": "proved",
   "theorems": [
    "Cesride.C42_serder_panics_iff",
    "Cesride.C42_creder_panics_iff",
    "Cesride.C42_no_short_message",
    "Cesride.C42_truncated"
   ],
   "note": "Exact characterisation of the panics (defect documented in the property); everything else is Ok or Err."
  },
  {
   "property": "C43",
   "status": "proved",
   "theorems": [
    "Cesride.C43_verifies",
    "Cesride.C43_verifies_same",
    "Cesride.C43_map",
    "Cesride.C43_version",
    "Cesride.C43_succeeds_plain",
    "Cesride.C43_succeeds_versioned",
    "Cesride.C43_label_v"
   ],
   "note": "Hash functions abstract (any with the right output lengths). The kind passed to verify must be absent or JSON."
  },
  {
   "property": "C44",
   "status": "proved",
   "theorems": [
    "Cesride.C44_content",
    "Cesride.C44_binds",
    "Cesride.C44_reachable",
    "Cesride.saidify_plain"
   ],
   "note": "Collision as explicit alternative."
  },
  {
   "property": "C45",
   "status": "proved",
   "theorems": [
    "Cesride.C45_said_field",
    "Cesride.C45_never_hashed",
    "Cesride.C45_content_not_bound",
    "Cesride.C45_content_not_bound_creder",
    "Cesride.C45_saidified_serder",
    "Cesride.C45_saidified_creder"
   ],
   "note": "The SAID field is reported faithfully; that content is never checked is proved as the defect."
  },
  {
   "property": "C46",
   "status": "proved",
   "theorems": [
    "Cesride.C46_serder_map",
    "Cesride.C46_creder_map",
    "Cesride.C46_bytes",
    "Cesride.C46_disjoint",
    "Cesride.C46_defect"
   ],
   "note": ""
  },
  {
   "property": "C47",
   "status": "proved",
   "theorems": [
    "Cesride.C47_digest",
    "Cesride.C47_digest_derives",
    "Cesride.C47_basic",
    "Cesride.C47_basic_derives",
    "Cesride.C47_list_refused",
    "Cesride.C47_trailing_defect"
   ],
   "note": "Derived prefixes verify; exact condition for basic ones (no text after the key), list-valued n, b, a refused."
  },
  {
   "property": "C48",
   "status": "proved",
   "theorems": [
    "Cesride.C48_transferable",
    "Cesride.C48_nontransferable",
    "Cesride.C48_digest",
    "Cesride.C48_binds",
    "Cesride.C48_defect"
   ],
   "note": "Exact for basic prefixes; digest prefixes bind the content, hash function abstract."
  },
  {
   "property": "C49",
   "status": "proved",
   "theorems": [
    "Cesride.C49_roundtrip",
    "Cesride.C49_refused",
    "Cesride.C49_too_long",
    "Cesride.C49_no_panic",
    "Cesride.C49_defect",
    "Cesride.C49_code"
   ],
   "note": ""
  },
  {
   "property": "C50",
   "status": "proved",
   "theorems": [
    "Cesride.C50_resolve",
    "Cesride.C50_built",
    "Cesride.C50_no_panic",
    "Cesride.C50_deterministic",
    "Cesride.C50_reads_deterministic",
    "Cesride.C50_portable",
    "Cesride.C50_word_size"
   ],
   "note": ""
  },
  {
   "property": "C51",
   "status": "proved",
   "theorems": [
    "Cesride.C51_starts_with",
    "Cesride.C51_starts_with_prefix",
    "Cesride.C51_strip_root",
    "Cesride.C51_strip_longer",
    "Cesride.C51_defect_panic",
    "Cesride.C51_defect"
   ],
   "note": ""
  },
  {
   "property": "C52",
   "status": "proved",
   "theorems": [
    "Cesride.C52_signing_code"
   ],
   "note": "The curve library is abstract (any with the stated laws)."
  },
  {
   "property": "C53",
   "status": "proved",
   "theorems": [
    "Cesride.C53_key_transport",
    "Cesride.C53_unindexed_verifies",
    "Cesride.C53_indexed_verifies",
    "Cesride.C53_verify_no_panic"
   ],
   "note": "Assumes the curve library's law that its signatures verify, for all random numbers."
  },
  {
   "property": "C54",
   "status": "proved",
   "theorems": [
    "Cesride.C54_codes_checked",
    "Cesride.C54_codes_built",
    "Cesride.C54_parsed_unchecked"
   ],
   "note": ""
  },
  {
   "property": "C55",
   "status": "proved",
   "theorems": [
    "Cesride.C55_code",
    "Cesride.C55_verify",
    "Cesride.C55_hash",
    "Cesride.C55_compare",
    "Cesride.C55_compare_same",
    "Cesride.C55_compare_text"
   ],
   "note": "Exact for digest objects that have a text."
  },
  {
   "property": "C56",
   "status": "proved",
   "theorems": [
    "Cesride.C56_positions",
    "Cesride.C56_distinct_paths",
    "Cesride.C56_extension",
    "Cesride.C56_first_failure",
    "Cesride.C56_overflow",
    "Cesride.C56_derivation",
    "Cesride.C56_paths_collide"
   ],
   "note": "Argon2 abstract."
  },
  {
   "property": "C57",
   "status": "proved",
   "theorems": [
    "Cesride.C57_material_sizes",
    "Cesride.C57_complete",
    "Cesride.C57_ed448_signature_truncated"
   ],
   "note": "Holds for every fixed code but 1AAE; the exception is a defect."
  },
  {
   "property": "C58",
   "status": "proved",
   "theorems": [
    "Cesride.C58_panics",
    "Cesride.C58_saidify"
   ],
   "note": "Exact for SAIDs that have a text."
  },
  {
   "property": "C59",
   "status": "proved",
   "theorems": [
    "Cesride.C59_serder",
    "Cesride.C59_creder",
    "Cesride.C59_shorthand"
   ],
   "note": ""
  },
  {
   "property": "C60",
   "status": "proved",
   "theorems": [
    "Cesride.C60_verfers",
    "Cesride.C60_digers",
    "Cesride.C60_werfers",
    "Cesride.C60_sn",
    "Cesride.C60_pre_est",
    "Cesride.C60_thresholds",
    "Cesride.C60_fn",
    "Cesride.C60_fn_defect"
   ],
   "note": ""
  },
  {
   "property": "C61",
   "status": "proved",
   "theorems": [
    "Cesride.C61_fields"
   ],
   "note": ""
  },
  {
   "property": "C62",
   "status": "proved",
   "theorems": [
    "Cesride.C62_code",
    "Cesride.C62_raw_fresh",
    "Cesride.C62_ked_fresh",
    "Cesride.C62_kind_idempotent",
    "Cesride.C62_failed_update_remains"
   ],
   "note": "Failed updates are the documented defect."
  },
  {
   "property": "C63",
   "status": "proved",
   "theorems": [
    "Cesride.C63_verify_panics"
   ],
   "note": "Exact."
  },
  {
   "property": "C64",
   "status": "proved",
   "theorems": [
    "Cesride.C64_tail",
    "Cesride.C64_panics",
    "Cesride.C64_container"
   ],
   "note": ""
  },
  {
   "property": "C65",
   "status": "proved",
   "theorems": [
    "Cesride.C65_from_raw",
    "Cesride.C65_generated",
    "Cesride.C65_codes",
    "Cesride.C65_transport",
    "Cesride.C65_text_panics_exactly"
   ],
   "note": ""
  },
  {
   "property": "C66",
   "status": "proved",
   "theorems": [
    "Cesride.C66_digestive",
    "Cesride.C66_transferable",
    "Cesride.C66_keys"
   ],
   "note": ""
  },
  {
   "property": "C67",
   "status": "proved",
   "theorems": [
    "Cesride.C67_primitive",
    "Cesride.C67_indexed",
    "Cesride.C67_counter",
    "Cesride.C67_typed"
   ],
   "note": "The Diger oddity is part of C67_typed."
  },
  {
   "property": "C68",
   "status": "proved",
   "theorems": [
    "Cesride.C68_number",
    "Cesride.C68_seqner",
    "Cesride.C68_event"
   ],
   "note": "The defect is the exact characterisation in each theorem."
  },
  {
   "property": "C69",
   "status": "proved",
   "theorems": [
    "Cesride.C69_document",
    "Cesride.C69_checks",
    "Cesride.C69_saidify_defect",
    "Cesride.C69_ked_defect",
    "Cesride.C69_threshold"
   ],
   "note": "The defects are C69_saidify_defect and C69_ked_defect."
  },
  {
   "property": "C70",
   "status": "proved",
   "theorems": [
    "Cesride.C70_text",
    "Cesride.C70_deep",
    "Cesride.C70_ascii",
    "Cesride.C70_defect"
   ],
   "note": "The defects are C70_deep, C70_defect and the panic clause of C70_text."
  },
  {
   "property": "C71",
   "status": "proved",
   "theorems": [
    "Cesride.C71_writes",
    "Cesride.C71_position",
    "Cesride.C71_conversions"
   ],
   "note": ""
  },
  {
   "property": "C72",
   "status": "proved",
   "theorems": [
    "Cesride.C72_equivalence",
    "Cesride.C72_content",
    "Cesride.C72_text",
    "Cesride.C72_order",
    "Cesride.C72_zeros"
   ],
   "note": "The oddity is C72_order."
  },
  {
   "property": "C73",
   "status": "proved",
   "theorems": [
    "Cesride.C73_primitives",
    "Cesride.C73_objects",
    "Cesride.C73_siger",
    "Cesride.C73_raw"
   ],
   "note": ""
  },
  {
   "property": "C74",
   "status": "proved",
   "theorems": [
    "Cesride.C74_code",
    "Cesride.C74_allow",
    "Cesride.C74_basic",
    "Cesride.C74_digest"
   ],
   "note": "C74_digest describes every derived digest prefix; that one is derived is C47_digest_derives."
  },
  {
   "property": "C75",
   "status": "proved",
   "theorems": [
    "Cesride.C75_text_stream",
    "Cesride.C75_binary_stream",
    "Cesride.C75_composable",
    "Cesride.C75_convert",
    "Cesride.C75_unambiguous",
    "Cesride.C75_counted_group"
   ],
   "note": "Client loop (parse by kind, skip full_size) over arbitrary lists of primitives, indexed signatures and counters; induction on the list. Binary part needs each element's qb2 to succeed (C19 says when: the 6-digit indexed codes panic in overflow-checked builds)."
  },
  {
   "property": "C76",
   "status": "proved",
   "theorems": [
    "Cesride.C76_matter_writes",
    "Cesride.C76_matter_reads",
    "Cesride.C76_indexer_writes",
    "Cesride.C76_indexer_reads",
    "Cesride.C76_counter",
    "Cesride.isWire_unique",
    "Cesride.isWire_inj"
   ],
   "note": ""
  },
  {
   "property": "C77",
   "status": "proved",
   "theorems": [
    "Cesride.C77_fixed_point",
    "Cesride.C77_field_ignored",
    "Cesride.C77_same_as_saidify",
    "Cesride.C77_code_from_field"
   ],
   "note": ""
  },
  {
   "property": "C78",
   "status": "proved",
   "theorems": [
    "Cesride.C78_numbers",
    "Cesride.C78_text",
    "Cesride.C78_date",
    "Cesride.C78_digest",
    "Cesride.C78_generated",
    "Cesride.C78_nothing"
   ],
   "note": "Pather's short constructors are covered by C49."
  },
  {
   "property": "C79",
   "status": "proved",
   "theorems": [
    "Cesride.C79_ignore"
   ],
   "note": ""
  },
  {
   "property": "C80",
   "status": "proved",
   "theorems": [
    "Cesride.C80_texts",
    "Cesride.C80_absent",
    "Cesride.C80_other_ignored",
    "Cesride.C80_other_allowed",
    "Cesride.C80_arrays",
    "Cesride.C80_signers",
    "Cesride.C80_compare"
   ],
   "note": ""
  },
  {
   "property": "C81",
   "status": "proved",
   "theorems": [
    "Cesride.C81_read",
    "Cesride.C81_unique",
    "Cesride.C81_bindings"
   ],
   "note": "grammar of RFC 8259 as inductive relations in Spec/JsonText; reader sound and complete for it; panics exactly on awkward numbers (defect)"
  },
  {
   "property": "C82",
   "status": "proved",
   "theorems": [
    "Cesride.C82_serder",
    "Cesride.C82_creder",
    "Cesride.C82_determined"
   ],
   "note": "exact acceptance of bytes, with the grammar of C81 and the version texts of C40"
  },
  {
   "property": "C83",
   "status": "proved",
   "theorems": [
    "Cesride.C83_matter_text",
    "Cesride.C83_matter_text_nopad",
    "Cesride.C83_matter_binary",
    "Cesride.C83_indexer_text",
    "Cesride.C83_indexer_binary",
    "Cesride.C83_indexer_codes",
    "Cesride.C83_counter_text",
    "Cesride.C83_counter_binary"
   ],
   "note": "parsers as exact recognizers of the wire format of Spec/Wire and its padded variant Spec/Read; test codes of the indexer are covered by C17-C21 only"
  },
  {
   "property": "C84",
   "status": "proved",
   "theorems": [
    "Cesride.C84_binary",
    "Cesride.C84_text",
    "Cesride.C84_text_reads_back",
    "Cesride.C84_text_defect",
    "Cesride.C84_indexed_text",
    "Cesride.C84_indexed_binary",
    "Cesride.C84_indexed_binary_defect",
    "Cesride.C84_reserved"
   ],
   "note": "encoders over arbitrary field values, not only constructed objects"
  },
  {
   "property": "C85",
   "status": "proved",
   "theorems": [
    "Cesride.C85_serder",
    "Cesride.C85_creder",
    "Cesride.C85_bytes",
    "Cesride.C85_copy",
    "Cesride.C85_panics"
   ],
   "note": "exact acceptance of documents and the exact object; the panic without d is a defect, proved exactly"
  },
  {
   "property": "C86",
   "status": "proved",
   "theorems": [
    "Cesride.C86_bexter",
    "Cesride.C86_bexter_defect",
    "Cesride.C86_seqner",
    "Cesride.C86_dater",
    "Cesride.C86_number"
   ],
   "note": "all constructors and arguments; the spare bits of a Bexter are the defect, exact"
  },
  {
   "property": "C87",
   "status": "proved",
   "theorems": [
    "Cesride.C87_received",
    "Cesride.C87_sound"
   ],
   "note": "the receiving loop is client code in Props/Signed.lean; everything it calls is the modelled library; sample_received is a concrete run"
  },
  {
   "property": "C88",
   "status": "proved",
   "theorems": [
    "Cesride.C88_text",
    "Cesride.C88_other",
    "Cesride.C88_cut",
    "Cesride.C88_inside"
   ],
   "note": "Lean's own Char and String encoding is the specification"
  },
  {
   "property": "C89",
   "status": "proved",
   "theorems": [
    "Cesride.C89_text",
    "Cesride.C89_binary",
    "Cesride.C89_schedule_text",
    "Cesride.C89_schedule_binary"
   ],
   "note": "the waiting loops are client code in Props/Incomplete.lean"
  },
  {
   "property": "C90",
   "status": "proved",
   "theorems": [
    "Cesride.C90_history",
    "Cesride.C90_rotation",
    "Cesride.C90_accepts",
    "Cesride.sample_replayed",
    "Cesride.sample_refused",
    "Cesride.sample_accepts"
   ],
   "note": "The client loops are not library code; everything they call is. Collisions are pinned to the serialized contents of two events, or two key texts, in the histories, because any hash function has some collision."
  },
  {
   "property": "C91",
   "status": "proved",
   "theorems": [
    "Cesride.C91_duplicity",
    "Cesride.C91_admits",
    "Cesride.sample_fork",
    "Cesride.sample_admits"
   ],
   "note": "The client loops are not library code; everything they call is."
  },
  {
   "property": "C92",
   "status": "proved",
   "theorems": [
    "Cesride.C92_received",
    "Cesride.C92_sound",
    "Cesride.C92_threshold",
    "Cesride.sample_receipts"
   ],
   "note": "The client loop is not library code; everything it calls is."
  },
  {
   "property": "C93",
   "status": "proved",
   "theorems": [
    "Cesride.C93_sound",
    "Cesride.C93_judged",
    "Cesride.C93_rotated",
    "Cesride.sample_rotated",
    "Cesride.sample_not_rotated"
   ],
   "note": "The client loop is not library code; everything it calls is."
  },
  {
   "property": "C94",
   "status": "proved",
   "theorems": [
    "Cesride.C94_graph",
    "Cesride.C94_edges",
    "Cesride.C94_opens",
    "Cesride.sample_dossier",
    "Cesride.sample_no_dossier"
   ],
   "note": "The client loop is not library code; everything it calls is. Collisions are pinned to two credentials at the same place of the two graphs."
  },
  {
   "property": "C95",
   "status": "proved",
   "theorems": [
    "Cesride.C95_construction",
    "Cesride.C95_messages",
    "Cesride.C95_signing",
    "Cesride.C95_encoding",
    "Cesride.C95_altered",
    "Cesride.C95_saids",
    "Cesride.C95_thresholds",
    "Cesride.C95_paths"
   ],
   "note": "Exceptions: the panics of checked builds (C18, C36) and path components that are numbers of more than 32 bits (C50)."
  },
  {
   "property": "C96",
   "status": "proved",
   "theorems": [
    "Cesride.C96_integers",
    "Cesride.C96_floats",
    "Cesride.C96_float_to_integer",
    "Cesride.C96_integer_to_float",
    "Cesride.C96_integer_lost",
    "Cesride.C96_refused",
    "Cesride.C96_equal",
    "Cesride.C96_shown"
   ],
   "note": "f32 and f64 are modelled by their IEEE bit patterns and specified by the rational number they stand for. Exception (defect): infinities and NaN."
  },
  {
   "property": "C97",
   "status": "proved",
   "theorems": [
    "Cesride.C97_entries",
    "Cesride.C97_orders",
    "Cesride.C97_text_varies",
    "Cesride.C97_said_varies",
    "Cesride.C97_written"
   ],
   "note": "The iteration order of the map is a parameter of the model (any order). Exception (defect): the text and the SAID depend on it."
  },
  {
   "property": "C98",
   "status": "proved",
   "theorems": [
    "Cesride.C98_agree",
    "Cesride.C98_accepted",
    "Cesride.C98_named",
    "Cesride.sample_disclosed",
    "Cesride.sample_not_disclosed"
   ],
   "note": "The client loop is not library code; everything it calls is. Collisions are pinned to two documents shown at the same place."
  },
  {
   "property": "C99",
   "status": "proved",
   "theorems": [
    "Cesride.C99_build",
    "Cesride.C99_panics_exactly",
    "Cesride.C99_usable",
    "Cesride.C99_typed",
    "Cesride.C99_defects"
   ],
   "note": "whole function for every UTF-8 code; the three defects are part of the statement"
  },
  {
   "property": "C100",
   "status": "proved",
   "theorems": [
    "Cesride.C100_lists",
    "Cesride.C100_fields",
    "Cesride.C100_reading",
    "Cesride.C100_signing",
    "Cesride.C100_signers",
    "Cesride.C100_digests",
    "Cesride.C100_values",
    "Cesride.C100_date"
   ],
   "note": "exact conditions, or never, for every state"
  },
  {
   "property": "C101",
   "status": "proved",
   "theorems": [
    "Cesride.C101_number_text",
    "Cesride.C101_json_text",
    "Cesride.C101_list",
    "Cesride.C101_limen",
    "Cesride.C101_several",
    "Cesride.C101_shown"
   ],
   "note": "reading each form reduces to the threshold value (C34, C35, C37); which weight texts are read: C35; panics: C38"
  },
  {
   "property": "C102",
   "status": "proved",
   "theorems": [
    "Cesride.C102_keys",
    "Cesride.C102_digests",
    "Cesride.C102_threshold",
    "Cesride.C102_transport",
    "Cesride.C102_values",
    "Cesride.C102_salt",
    "Cesride.C102_messages",
    "Cesride.C102_codes"
   ],
   "note": ""
  },
  {
   "property": "C103",
   "status": "proved",
   "theorems": [
    "Cesride.C103_received",
    "Cesride.C103_sound",
    "Cesride.C103_rounds",
    "Cesride.C103_same"
   ],
   "note": "Client of C91 with the position in the stream carried along (Props/Log). C103_received: SignedLog is built only from library calls (Serder::new, Counter::new, sign_indexed, qb64). C103_sound: for every byte stream, parts without gaps, signatures within the part of their event. C103_rounds: the bound on rounds never matters. Samples: sample_signed_log, sample_log."
  },
  {
   "property": "C104",
   "status": "proved",
   "theorems": [
    "Cesride.C104_same",
    "Cesride.C104_written",
    "Cesride.C104_read",
    "Cesride.C104_salter",
    "Cesride.C104_dropped",
    "Cesride.C104_signer_life",
    "Cesride.C104_salter_life",
    "Cesride.C104_bytes_defect",
    "Cesride.C104_text_defect",
    "Cesride.C104_signer_defect",
    "Cesride.C104_sign_defect",
    "Cesride.C104_stretch_defect",
    "Cesride.C104_signers_defect",
    "Cesride.C104_refused_defect",
    "Cesride.C104_replaced_defect",
    "Cesride.C104_refused_text_defect"
   ],
   "note": "Model/Secrets follows, for each call, the contents of the buffers it gives back (zeroize, Zeroizing, ZeroizeOnDrop, scopes left by ? and by panics); C104_same: its outcomes are those of the other models. Blank: every byte given back is zero. Leaves: apart from zeros, exactly these buffers, in any order. Buffers inside the libraries, stack slots and what the caller holds are not followed."
  },
  {
   "property": "C105",
   "status": "proved",
   "theorems": [
    "Cesride.C105_accepts",
    "Cesride.C105_binds",
    "Cesride.C105_place",
    "Cesride.C105_forgery",
    "Cesride.C105_moved",
    "Cesride.C105_rooted",
    "Cesride.C105_back",
    "Cesride.C105_defect"
   ],
   "note": "Client signPart/checkPart (Props/PathSigned) built from library calls. C105_binds uses the injectivity of the JSON text (C39) and that no text of a primitive begins with a brace or bracket. C105_moved: equality of the whole outcome of tail, errors included. C105_defect: the two exceptions, concretely."
  },
  {
   "property": "C106",
   "status": "proved",
   "theorems": [
    "Cesride.C106_call",
    "Cesride.C106_untyped",
    "Cesride.C106_kept",
    "Cesride.C106_history",
    "Cesride.C106_signatures",
    "Cesride.C106_numbers",
    "Cesride.C106_documents",
    "Cesride.C106_pairs",
    "Cesride.C106_looked_at",
    "Cesride.C106_made_and_freed",
    "Cesride.C106_second_signature",
    "Cesride.C106_second_number",
    "Cesride.C106_same_document"
   ],
   "note": "Model of the code wasm-bindgen generates (Model/Js): a heap of JavaScript objects, arguments by value and by reference, every binding that takes objects as a call. C106_call and C106_history hold for any call of that shape, C106_kept also for calls that break the types. C106_signatures, _numbers, _documents, _pairs: the answer of each binding by what its arguments are worth. C106_second_signature, _second_number, _same_document: the defects, in every state."
  },
  {
   "property": "C107",
   "status": "proved",
   "theorems": [
    "Cesride.Builder.C107_agreement",
    "Cesride.Builder.C107_progress",
    "Cesride.Builder.C107_default_defect",
    "Cesride.Builder.C107_given",
    "Cesride.Builder.C107_ends_defect"
   ],
   "note": "Requirements stated on sets of witnesses (Spec.Agreement, Spec.Progress), not on the formula. `ample` is in a test module of the crate and used there by `incept`. C107_progress is an equivalence: the default is reachable exactly when n < 4 or n mod 3 is not 1."
  },
  {
   "property": "C108",
   "status": "proved",
   "theorems": [
    "Cesride.Builder.C108_event",
    "Cesride.Builder.C108_thresholds",
    "Cesride.Builder.C108_written",
    "Cesride.Builder.C108_witnesses",
    "Cesride.Builder.C108_self_addressing",
    "Cesride.Builder.C108_basic",
    "Cesride.Builder.C108_codes",
    "Cesride.Builder.C108_accepts",
    "Cesride.Builder.C108_accepts_key",
    "Cesride.Builder.C108_unchecked_defect",
    "Cesride.Builder.C108_salt_defect",
    "Cesride.Builder.C108_next_defect",
    "Cesride.Builder.C108_said_defect"
   ],
   "note": "The fields are stated by Spec.inceptionEntries, the rest by the accessors and checks of the library. `incept` is in a test module of the crate. The arguments for which there is an event are those of `Builder.Proper`; C108_example, C108_basic_example and C108_intive_example are concrete cases for every environment and hash. C108_said_defect concerns checking a self-addressing event with `Saider::verify` instead of `Prefixer::verify`."
  },
  {
   "property": "C109",
   "status": "proved",
   "theorems": [
    "Cesride.Builder.C109_written",
    "Cesride.Builder.C109_read",
    "Cesride.Builder.C109_receipt",
    "Cesride.Builder.C109_receipt_accepts",
    "Cesride.Builder.C109_dropped_defect",
    "Cesride.Builder.C109_seal_defect",
    "Cesride.Builder.C109_example",
    "Cesride.Builder.C109_receipt_example"
   ],
   "note": "messagize and receipt live in the test module of salter.rs; the reader is a client loop over the public parsers. The hypothesis of C109_read that the event is read back is C59 (for receipts it is the last part of C109_receipt). Fewer than 2^32 signatures per group (the count is truncated to u32 beyond)."
  },
  {
   "property": "C110",
   "status": "proved",
   "theorems": [
    "Cesride.Builder.C110_reads",
    "Cesride.Builder.C110_accepted",
    "Cesride.Builder.C110_receipted",
    "Cesride.Builder.C110_enough",
    "Cesride.Builder.C110_exchange",
    "Cesride.Builder.C110_sound",
    "Cesride.Builder.C110_confirm_sound",
    "Cesride.Builder.C110_one_event",
    "Cesride.Builder.C110_said_defect",
    "Cesride.Builder.C110_example"
   ],
   "note": "The receivers `acceptInception` and `confirm` are clients written over the public readers, accessors and checks. Fewer than 2^32 bytes and signatures. C110_example is an exchange computed by the model that meets all hypotheses."
  },
  {
   "property": "C111",
   "status": "proved",
   "theorems": [
    "Cesride.Builder.C111_founded",
    "Cesride.Builder.C111_accepted",
    "Cesride.Builder.C111_everyone",
    "Cesride.Builder.C111_example",
    "Cesride.Builder.C111_example_half"
   ],
   "note": "`found`, `announce` and `witnessed` are clients over the public constructors and accessors (and incept, messagize, receipt of the salter.rs tests). Default thresholds, code E; at most 4096 signers, next signers and witnesses and at most 4095 signatures per message (the counter code has two digits); delegator text of at most 64 KiB. Signature creation is the assumed correct Crypto of C53."
  },
  {
   "property": "C112",
   "status": "proved",
   "theorems": [
    "Cesride.Builder.C112_starts",
    "Cesride.Builder.C112_rotates",
    "Cesride.Builder.C112_replay",
    "Cesride.Builder.C112_abandoned",
    "Cesride.Builder.C112_example"
   ],
   "note": "`rotate`, `announceRotation` and `receive` are clients over the public constructors and accessors; `Life` is the inductive set of histories built with them. Rotations without changes of witnesses, thresholds of half of the keys; any number of interactions (C115) anywhere in the history."
  },
  {
   "property": "C113",
   "status": "proved",
   "theorems": [
    "Cesride.C113_matter_text",
    "Cesride.C113_indexer_text",
    "Cesride.C113_matter_binary",
    "Cesride.C113_indexer_binary",
    "Cesride.C113_counter_text",
    "Cesride.C113_counter_binary",
    "Cesride.C113_agree",
    "Cesride.C113_op_codes"
   ],
   "note": "Stated with Spec.TextStart and Spec.BinaryStart over the table of code lengths (Spec) and the codes themselves. A text whose cut falls inside a multi-byte character panics instead (C12, C22, C26), hence the clause on MidChar. C113_op_codes is the defect."
  },
  {
   "property": "C114",
   "status": "proved",
   "theorems": [
    "Cesride.C114_text_in",
    "Cesride.C114_text_out",
    "Cesride.C114_mended",
    "Cesride.C114_complete",
    "Cesride.C114_valid",
    "Cesride.C114_back",
    "Cesride.C114_distinct",
    "Cesride.C114_lone_defect",
    "Cesride.C114_number",
    "Cesride.C114_whole",
    "Cesride.C114_wrapped_defect",
    "Cesride.C114_sign"
   ],
   "note": "Model/JsPlain: the conversions of wasm-bindgen 0.2.84 (TextEncoder, TextDecoder, ToInt32). Arguments of other JavaScript types are not modelled. C114_sign: for any number, through C52 and C53."
  },
  {
   "property": "C115",
   "status": "proved",
   "theorems": [
    "Cesride.Builder.C115_anchors",
    "Cesride.Builder.C112_rotates",
    "Cesride.Builder.C112_replay",
    "Cesride.Builder.C115_example"
   ],
   "note": "`interact` and `announce` are clients over the public constructors and accessors; the receiver is that of C103 (`admitFront`). `Life.anchored` puts the event into the histories of C112, so that `C112_rotates` and `C112_replay` speak of mixed histories. Serialised JSON only."
  },
  {
   "property": "C116",
   "status": "proved",
   "theorems": [
    "Cesride.Builder.C116_control",
    "Cesride.Builder.C116_example"
   ],
   "note": "`receiveNext` is the step of the receiver of C112; the client is not library code, everything it calls is. The receiver does not compare identifier and sequence number of the event with those before: whoever signs answers for them."
  },
  {
   "property": "C117",
   "status": "proved",
   "theorems": [
    "Cesride.C117_primitives",
    "Cesride.C117_indexed",
    "Cesride.C117_unnamed_defect",
    "Cesride.C117_r1_defect",
    "Cesride.C117_example"
   ],
   "note": "Model/JsCodex: the enumeration object, the generated conversion and the two functions. Spec/JsCodex lists the names by purpose, from the tables of the standard."
  },
  {
   "property": "C118",
   "status": "proved",
   "theorems": [
    "Cesride.C118_primitives",
    "Cesride.C118_signers",
    "Cesride.C118_salters",
    "Cesride.C118_writing",
    "Cesride.C118_signing",
    "Cesride.C118_stretching",
    "Cesride.C118_derived",
    "Cesride.C118_decode",
    "Cesride.C118_utf8",
    "Cesride.C118_panics",
    "Cesride.C118_quoted_defect",
    "Cesride.C118_debug_defect",
    "Cesride.C118_faithful"
   ],
   "note": "Model/Told: the functions of the model again, with the text of each error and panic; C118_faithful says that without the texts they are the functions of the other properties. The messages of the standard library and the foreign crates are parameters (Voice) with laws; C118_voice is an instance."
  },
  {
   "property": "C119",
   "status": "proved",
   "theorems": [
    "Cesride.Builder.C119_named",
    "Cesride.Builder.C119_kinds",
    "Cesride.Builder.C119_sound",
    "Cesride.Builder.C119_judged",
    "Cesride.Builder.C119_delegates",
    "Cesride.Builder.C119_control",
    "Cesride.Builder.C119_stays",
    "Cesride.Builder.C119_binds",
    "Cesride.Builder.C119_example"
   ],
   "note": "Props/Delegation: the library has no program that checks delegation; the one of the statement uses only modelled functions (as in C112). Lives, votes and collisions as in C112, C115 and C116. C119_example is a case: a delegator, a delegated identifier with a rotation, refused before and accepted after the approval."
  },
  {
   "property": "C120",
   "status": "proved",
   "theorems": [
    "Cesride.Builder.C120_accepted",
    "Cesride.Builder.C120_chain",
    "Cesride.Builder.C120_issues",
    "Cesride.Builder.C120_stays",
    "Cesride.Builder.C120_control",
    "Cesride.Builder.C120_binds",
    "Cesride.Builder.C120_example"
   ],
   "note": "Props/Credential: the library has no program that checks issuance; those of the statement use only modelled functions (receive of C112 for the histories of a chain). Lives, votes and collisions as in C112, C115 and C116. C120_example is a case: a chain of two credentials, refused while the first was not issued. There is no revocation in it: the library has no transaction event logs."
  },
  {
   "property": "C121",
   "status": "proved",
   "theorems": [
    "Cesride.Builder.C121_agreement",
    "Cesride.Builder.C121_consensus",
    "Cesride.Builder.C121_safe",
    "Cesride.Builder.C121_starts",
    "Cesride.Builder.C121_rotates",
    "Cesride.Builder.C121_anchors",
    "Cesride.Builder.C121_follows",
    "Cesride.Builder.C121_example"
   ],
   "note": "Props/Agreement, Props/Agreement2: the receiver is not library code, everything it calls is modelled; the witnesses are those of the inception at all times (changes of witnesses by rotations are not modelled); the evidence is by position, so that a witness named twice in an inception from the outside counts twice - in a founding (C111) the witnesses are different. C121_agreement is about any bytes and any threshold with the stated intersection property, C121_consensus and C121_safe are about founded identifiers; C121_starts, C121_rotates, C121_anchors and C121_follows are the second part. The example has two receivers that disagree, with both witnesses faulty."
  },
  {
   "property": "C122",
   "status": "proved",
   "theorems": [
    "Cesride.C122_compiles",
    "Cesride.C122_pasted",
    "Cesride.C122_read_or_written",
    "Cesride.C122_shapes",
    "Cesride.C122_leading_commas"
   ],
   "note": "Props/Dat: the macro is modelled arm by arm on token trees; an expression of the program is one token that begins with none of the macro's own tokens, with the document that Value::from makes of it (C96, C97). The grammar of Spec/Dat is separate from the macro, and C122_compiles is an equivalence. The text of a pasted literal is taken to mean in Rust what it means in JSON. The compiler's limit of 128 macro expansions inside one another is not modelled (longer documents do not compile)."
  }
 ]
}