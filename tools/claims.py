c("C01", "proved", "C01_text_roundtrip C01_constructible")
c("C02", "proved", "C02_binary_roundtrip")
c("C03", "proved", "C03_domains_equivalent isDecoding_unique")
c("C04", "proved", "C04_text_canonical C04_text_unique C04_pad_accepted", "Holds with the exception stated in the property; the exception (pad characters) is a defect, witnessed by C04_pad_accepted.")
c("C05", "proved", "C05_binary_canonical")
c("C06", "proved", "C06_sizes C06_short_raw_accepted C13_aligned C04_text_canonical C05_binary_canonical", "Holds except for text with pad characters; that exception is a defect, witnessed by C06_short_raw_accepted.")
c("C07", "proved", "C07_self_framing")
c("C08", "proved", "C08_truncated")
c("C09", "proved", "C09_text_streams C09_binary_streams")
c("C10", "proved", "C10_fixed_raw")
c("C11", "proved", "C11_variable_code C11_huge_raw_truncated C11_huge_raw_accepted", "Holds below 2^32 bytes; above, the length is truncated to 32 bits (defect, proved for all such raw).")
c("C12", "proved", "C12_all_text_panics_exactly C12_binary_panics_exactly C12_bytes C12_text_panics_exactly C12_non_ascii_panics", "Exact set of panicking inputs proved for all binary and all text; they are defects.")
c("C13", "proved", "C13_aligned")
c("C14", "proved", "C14_table C14_unknown_variable_code_accepted")
c("C15", "proved", "C15_int_roundtrip C15_int_injective C15_reader_total")
c("C16", "proved", "C16_code_roundtrip C16_nab_sextets")
c("C57", "proved", "C57_material_sizes C57_complete C57_ed448_signature_truncated", "Holds for every fixed code but 1AAE; the exception is a defect.")
c("C17", "proved", "C17_text_roundtrip C20_permitted_accepted C21_lead_code_defect", "Holds for all sixteen signature codes and permitted indices; the exceptions stated in the property are defects, proved by C20_same_index_not_enforced and C21_lead_code_defect.")
c("C18", "proved", "C18_binary_roundtrip", "Exact: 3A and 3B panic in qb2 with overflow checks (defect), everything else round-trips.")
c("C19", "proved", "C19_domains_equivalent")
c("C20", "proved", "C20_limits C20_permitted_accepted C20_same_index_not_enforced", "Exact outcome proved for every code, raw, index and ondex; the missing same-index rule is a defect.")
c("C21", "proved", "C21_text_canonical C21_binary_canonical C21_self_framing C21_truncated")
c("C22", "proved", "C22_all_text_panics_exactly C22_text_bytes_panics_exactly C22_no_panic C22_nonascii_panics", "Exact set of panicking texts; binary and ASCII inputs never panic.")
c("C23", "proved", "C23_roundtrip C24_obtained_fits")
c("C24", "proved", "C24_limits C24_unknown_code C24_obtained_fits C24_count_forms")
c("C25", "proved", "C25_text_canonical C25_binary_canonical C25_self_framing C25_truncated C25_disjoint")
c("C26", "proved", "C26_all_text_panics_exactly C26_text_bytes_panics_exactly C26_panics_exactly C26_panics", "Exact set of panicking texts; the panics are defects. Binary never panics.")
c("C27", "proved", "C27_semver C27_parts")
c("C28", "proved", "C28_number_roundtrip C28_number_hex C28_number_injective")
c("C29", "proved", "C29_seqner_roundtrip C29_seqner_order")
c("C30", "proved", "C30_number_text C30_number_binary C30_seqner_text C30_seqner_binary C30_bytes C30_pad_panics", "The text theorems are exact: the panic happens precisely for padded text; a defect of the code.")
c("C31", "proved", "C31_bext_roundtrip C31_bext_exact C31_bext_not_injective", "Exact, including the loss of a leading A (defect).")
c("C32", "proved", "C32_bext_refused")
c("C33", "proved", "C33_date_roundtrip C33_date_short")
c("C39", "proved", "C39_injective C39_stream C39_roundtrip C39_defect_depth C39_defect_float", "Exact at the parser's recursion limit. Floats are covered: they are their printed texts, read back under FloatsRead.")
c("C34", "proved", "C34_unweighted_decision C34_distinct_indices C34_repetitions_count C34_accepted", "Exact; repeated indices are counted as often as they occur (defect, proved for all).")
c("C35", "proved", "C35_weights C35_weights_given C35_weights_given_sith C35_weighted_decision C35_never_approves_short C35_exact_when_small C35_accepted C35_accepted_exactly weight_iff C35_extra_slashes C35_extra_slashes_accepted C36_not_monotone_release", "Exact with overflow checks whenever there is no panic; exact in every profile for weights whose sums fit 31 bits; sound (never approves too little weight) always.")
c("C36", "proved", "C36_monotone_weighted C36_monotone_small C36_monotone_unweighted C36_set_of_positions C36_order C36_full_set C36_not_monotone_release", "The overflow exception without overflow checks is a defect, witnessed by C36_not_monotone_release.")
c("C37", "proved", "C37_limen C37_sith C37_thold C37_json C37_empty_exception", "The empty threshold is the only exception (thresholds below 2^27 weights).")
c("C38", "proved", "C38_unweighted_evaluation C38_out_of_range_panics C38_weighted_evaluation C38_evaluation_panics_exactly C38_value_panics_exactly C38_sith_panics_exactly C38_limen_panics_exactly C35_exact_when_small C38_construction C38_construction_sith C38_construction_release C38_construction_release_sith C38_construction_panics C38_construction_overflow sample_panics", "All panic conditions are exact, in both overflow-check profiles. The panics are defects.")
c("C40", "proved", "C40_accepted_iff C40_versify_deversify C40_deversify_versify C40_versify_ok_iff C40_total", "Exact: sizes from 2^24 and version digits from 16 are written but refused when read.")
c("C41", "proved", "C41_size C41_bytes C41_version_first C41_total C41_idempotent C41_defect", "A version-like text in front of the version field is overwritten instead of it (defect, witnessed).")
c("C43", "proved", "C43_verifies C43_verifies_same C43_map C43_version C43_succeeds_plain C43_succeeds_versioned C43_label_v", "Hash functions abstract (any with the right output lengths). The kind passed to verify must be absent or JSON.")
c("C44", "proved", "C44_content C44_binds C44_reachable saidify_plain", "Collision as explicit alternative.")
c("C55", "proved", "C55_code C55_verify C55_hash C55_compare C55_compare_same C55_compare_text", "Exact for digest objects that have a text.")
c("C58", "proved", "C58_panics C58_saidify", "Exact for SAIDs that have a text.")
c("C42","proved","C42_serder_panics_iff C42_creder_panics_iff C42_no_short_message C42_truncated","Exact characterisation of the panics (defect documented in the property); everything else is Ok or Err.")
c("C45","proved","C45_said_field C45_never_hashed C45_content_not_bound C45_content_not_bound_creder C45_saidified_serder C45_saidified_creder","The SAID field is reported faithfully; that content is never checked is proved as the defect.")
c("C46","proved","C46_serder_map C46_creder_map C46_bytes C46_disjoint C46_defect","")
c("C59","proved","C59_serder C59_creder C59_shorthand","")
c("C60","proved","C60_verfers C60_digers C60_werfers C60_sn C60_pre_est C60_thresholds C60_fn C60_fn_defect","")
c("C61","proved","C61_fields","")
c("C62","proved","C62_code C62_raw_fresh C62_ked_fresh C62_kind_idempotent C62_failed_update_remains","Failed updates are the documented defect.")
c("C47","proved","C47_digest C47_digest_derives C47_basic C47_basic_derives C47_list_refused C47_trailing_defect","Derived prefixes verify; exact condition for basic ones (no text after the key), list-valued n, b, a refused.")
c("C48","proved","C48_transferable C48_nontransferable C48_digest C48_binds C48_defect","Exact for basic prefixes; digest prefixes bind the content, hash function abstract.")
c("C63","proved","C63_verify_panics","Exact.")

c("C49","proved","C49_roundtrip C49_refused C49_too_long C49_no_panic C49_defect C49_code","")
c("C50","proved","C50_resolve C50_built C50_no_panic C50_deterministic C50_reads_deterministic C50_portable C50_word_size","")
c("C51","proved","C51_starts_with C51_starts_with_prefix C51_strip_root C51_strip_longer C51_defect_panic C51_defect","")
c("C64","proved","C64_tail C64_panics C64_container","")

c("C52","proved","C52_signing_code","The curve library is abstract (any with the stated laws).")
c("C53","proved","C53_key_transport C53_unindexed_verifies C53_indexed_verifies C53_verify_no_panic","Assumes the curve library's law that its signatures verify, for all random numbers.")
c("C54","proved","C54_codes_checked C54_codes_built C54_parsed_unchecked","")
c("C56","proved","C56_positions C56_distinct_paths C56_extension C56_first_failure C56_overflow C56_derivation C56_paths_collide","Argon2 abstract.")
c("C65","proved","C65_from_raw C65_generated C65_codes C65_transport C65_text_panics_exactly","")
c("C66","proved","C66_digestive C66_transferable C66_keys","")
c("C67","proved","C67_primitive C67_indexed C67_counter C67_typed","The Diger oddity is part of C67_typed.")
c("C68","proved","C68_number C68_seqner C68_event","The defect is the exact characterisation in each theorem.")
c("C69","proved","C69_document C69_checks C69_saidify_defect C69_ked_defect C69_threshold","The defects are C69_saidify_defect and C69_ked_defect.")
c("C70","proved","C70_text C70_deep C70_ascii C70_defect","The defects are C70_deep, C70_defect and the panic clause of C70_text.")
c("C71","proved","C71_writes C71_position C71_conversions","")
c("C72","proved","C72_equivalence C72_content C72_text C72_order C72_zeros","The oddity is C72_order.")
c("C73","proved","C73_primitives C73_objects C73_siger C73_raw","")
c("C74","proved","C74_code C74_allow C74_basic C74_digest","C74_digest describes every derived digest prefix; that one is derived is C47_digest_derives.")
c("C75","proved","C75_text_stream C75_binary_stream C75_composable C75_convert C75_unambiguous C75_counted_group","Client loop (parse by kind, skip full_size) over arbitrary lists of primitives, indexed signatures and counters; induction on the list. Binary part needs each element's qb2 to succeed (C19 says when: the 6-digit indexed codes panic in overflow-checked builds).")
c("C76","proved","C76_matter_writes C76_matter_reads C76_indexer_writes C76_indexer_reads C76_counter isWire_unique isWire_inj","")
c("C77","proved","C77_fixed_point C77_field_ignored C77_same_as_saidify C77_code_from_field","")
c("C78","proved","C78_numbers C78_text C78_date C78_digest C78_generated C78_nothing","Pather's short constructors are covered by C49.")
c("C79","proved","C79_ignore","")
c("C80","proved","C80_texts C80_absent C80_other_ignored C80_other_allowed C80_arrays C80_signers C80_compare","")
c("C81","proved","C81_read C81_unique C81_bindings","grammar of RFC 8259 as inductive relations in Spec/JsonText; reader sound and complete for it; panics exactly on awkward numbers (defect)")
c("C82","proved","C82_serder C82_creder C82_determined","exact acceptance of bytes, with the grammar of C81 and the version texts of C40")
c("C83","proved","C83_matter_text C83_matter_text_nopad C83_matter_binary C83_indexer_text C83_indexer_binary C83_indexer_codes C83_counter_text C83_counter_binary","parsers as exact recognizers of the wire format of Spec/Wire and its padded variant Spec/Read; test codes of the indexer are covered by C17-C21 only")
c("C84","proved","C84_binary C84_text C84_text_reads_back C84_text_defect C84_indexed_text C84_indexed_binary C84_indexed_binary_defect C84_reserved","encoders over arbitrary field values, not only constructed objects")
c("C85","proved","C85_serder C85_creder C85_bytes C85_copy C85_panics","exact acceptance of documents and the exact object; the panic without d is a defect, proved exactly")
c("C86","proved","C86_bexter C86_bexter_defect C86_seqner C86_dater C86_number","all constructors and arguments; the spare bits of a Bexter are the defect, exact")
c("C87","proved","C87_received C87_sound","the receiving loop is client code in Props/Signed.lean; everything it calls is the modelled library; sample_received is a concrete run")
c("C88","proved","C88_text C88_other C88_cut C88_inside","Lean's own Char and String encoding is the specification")
c("C89","proved","C89_text C89_binary C89_schedule_text C89_schedule_binary","the waiting loops are client code in Props/Incomplete.lean")
c("C90","proved","C90_history C90_rotation C90_accepts sample_replayed sample_refused sample_accepts","The client loops are not library code; everything they call is. Collisions are pinned to the serialized contents of two events, or two key texts, in the histories, because any hash function has some collision.")
c("C91","proved","C91_duplicity C91_admits sample_fork sample_admits","The client loops are not library code; everything they call is.")
c("C92","proved","C92_received C92_sound C92_threshold sample_receipts","The client loop is not library code; everything it calls is.")
c("C93","proved","C93_sound C93_judged C93_rotated sample_rotated sample_not_rotated","The client loop is not library code; everything it calls is.")
c("C94","proved","C94_graph C94_edges C94_opens sample_dossier sample_no_dossier","The client loop is not library code; everything it calls is. Collisions are pinned to two credentials at the same place of the two graphs.")
c("C95","proved","C95_construction C95_messages C95_signing C95_encoding C95_altered C95_saids C95_thresholds C95_paths","Exceptions: the panics of checked builds (C18, C36) and path components that are numbers of more than 32 bits (C50).")
c("C96","proved","C96_integers C96_floats C96_float_to_integer C96_integer_to_float C96_integer_lost C96_refused C96_equal C96_shown","f32 and f64 are modelled by their IEEE bit patterns and specified by the rational number they stand for. Exception (defect): infinities and NaN.")
c("C97","proved","C97_entries C97_orders C97_text_varies C97_said_varies C97_written","The iteration order of the map is a parameter of the model (any order). Exception (defect): the text and the SAID depend on it.")
c("C98","proved","C98_agree C98_accepted C98_named sample_disclosed sample_not_disclosed","The client loop is not library code; everything it calls is. Collisions are pinned to two documents shown at the same place.")
c("C99","proved","C99_build C99_panics_exactly C99_usable C99_typed C99_defects","whole function for every UTF-8 code; the three defects are part of the statement")
c("C100","proved","C100_lists C100_fields C100_reading C100_signing C100_signers C100_digests C100_values C100_date","exact conditions, or never, for every state")
c("C101","proved","C101_number_text C101_json_text C101_list C101_limen C101_several C101_shown","reading each form reduces to the threshold value (C34, C35, C37); which weight texts are read: C35; panics: C38")
c("C102","proved","C102_keys C102_digests C102_threshold C102_transport C102_values C102_salt C102_messages C102_codes","")

c("C103","proved","C103_received C103_sound C103_rounds C103_same","Client of C91 with the position in the stream carried along (Props/Log). C103_received: SignedLog is built only from library calls (Serder::new, Counter::new, sign_indexed, qb64). C103_sound: for every byte stream, parts without gaps, signatures within the part of their event. C103_rounds: the bound on rounds never matters. Samples: sample_signed_log, sample_log.")

c("C104","proved","C104_same C104_written C104_read C104_salter C104_dropped C104_signer_life C104_salter_life C104_bytes_defect C104_text_defect C104_signer_defect C104_sign_defect C104_stretch_defect C104_signers_defect C104_refused_defect C104_replaced_defect C104_refused_text_defect","Model/Secrets follows, for each call, the contents of the buffers it gives back (zeroize, Zeroizing, ZeroizeOnDrop, scopes left by ? and by panics); C104_same: its outcomes are those of the other models. Blank: every byte given back is zero. Leaves: apart from zeros, exactly these buffers, in any order. Buffers inside the libraries, stack slots and what the caller holds are not followed.")

c("C105","proved","C105_accepts C105_binds C105_place C105_forgery C105_moved C105_rooted C105_back C105_defect","Client signPart/checkPart (Props/PathSigned) built from library calls. C105_binds uses the injectivity of the JSON text (C39) and that no text of a primitive begins with a brace or bracket. C105_moved: equality of the whole outcome of tail, errors included. C105_defect: the two exceptions, concretely.")

c("C106","proved","C106_call C106_untyped C106_kept C106_history C106_signatures C106_numbers C106_documents C106_pairs C106_looked_at C106_made_and_freed C106_second_signature C106_second_number C106_same_document","Model of the code wasm-bindgen generates (Model/Js): a heap of JavaScript objects, arguments by value and by reference, every binding that takes objects as a call. C106_call and C106_history hold for any call of that shape, C106_kept also for calls that break the types. C106_signatures, _numbers, _documents, _pairs: the answer of each binding by what its arguments are worth. C106_second_signature, _second_number, _same_document: the defects, in every state.")

c("C107","proved","Builder.C107_agreement Builder.C107_progress Builder.C107_default_defect Builder.C107_given Builder.C107_ends_defect","Requirements stated on sets of witnesses (Spec.Agreement, Spec.Progress), not on the formula. `ample` is in a test module of the crate and used there by `incept`. C107_progress is an equivalence: the default is reachable exactly when n < 4 or n mod 3 is not 1.")

c("C108","proved","Builder.C108_event Builder.C108_thresholds Builder.C108_written Builder.C108_witnesses Builder.C108_self_addressing Builder.C108_basic Builder.C108_codes Builder.C108_accepts Builder.C108_accepts_key Builder.C108_unchecked_defect Builder.C108_salt_defect Builder.C108_next_defect Builder.C108_said_defect","The fields are stated by Spec.inceptionEntries, the rest by the accessors and checks of the library. `incept` is in a test module of the crate. The arguments for which there is an event are those of `Builder.Proper`; C108_example, C108_basic_example and C108_intive_example are concrete cases for every environment and hash. C108_said_defect concerns checking a self-addressing event with `Saider::verify` instead of `Prefixer::verify`.")
c("C109","proved","Builder.C109_written Builder.C109_read Builder.C109_receipt Builder.C109_receipt_accepts Builder.C109_dropped_defect Builder.C109_seal_defect Builder.C109_example Builder.C109_receipt_example","messagize and receipt live in the test module of salter.rs; the reader is a client loop over the public parsers. The hypothesis of C109_read that the event is read back is C59 (for receipts it is the last part of C109_receipt). Fewer than 2^32 signatures per group (the count is truncated to u32 beyond).")
c("C110","proved","Builder.C110_reads Builder.C110_accepted Builder.C110_receipted Builder.C110_enough Builder.C110_exchange Builder.C110_sound Builder.C110_confirm_sound Builder.C110_one_event Builder.C110_said_defect Builder.C110_example","The receivers `acceptInception` and `confirm` are clients written over the public readers, accessors and checks. Fewer than 2^32 bytes and signatures. C110_example is an exchange computed by the model that meets all hypotheses.")
c("C111","proved","Builder.C111_founded Builder.C111_accepted Builder.C111_everyone Builder.C111_example Builder.C111_example_half","`found`, `announce` and `witnessed` are clients over the public constructors and accessors (and incept, messagize, receipt of the salter.rs tests). Default thresholds, code E; at most 4096 signers, next signers and witnesses and at most 4095 signatures per message (the counter code has two digits); delegator text of at most 64 KiB. Signature creation is the assumed correct Crypto of C53.")
c("C112","proved","Builder.C112_starts Builder.C112_rotates Builder.C112_replay Builder.C112_abandoned Builder.C112_example","`rotate`, `announceRotation` and `receive` are clients over the public constructors and accessors; `Life` is the inductive set of histories built with them. Rotations without changes of witnesses, thresholds of half of the keys; any number of interactions (C115) anywhere in the history.")
c("C113","proved","C113_matter_text C113_indexer_text C113_matter_binary C113_indexer_binary C113_counter_text C113_counter_binary C113_agree C113_op_codes","Stated with Spec.TextStart and Spec.BinaryStart over the table of code lengths (Spec) and the codes themselves. A text whose cut falls inside a multi-byte character panics instead (C12, C22, C26), hence the clause on MidChar. C113_op_codes is the defect.")
c("C114","proved","C114_text_in C114_text_out C114_mended C114_complete C114_valid C114_back C114_distinct C114_lone_defect C114_number C114_whole C114_wrapped_defect C114_sign","Model/JsPlain: the conversions of wasm-bindgen 0.2.84 (TextEncoder, TextDecoder, ToInt32). Arguments of other JavaScript types are not modelled. C114_sign: for any number, through C52 and C53.")
c("C115","proved","Builder.C115_anchors Builder.C112_rotates Builder.C112_replay Builder.C115_example","`interact` and `announce` are clients over the public constructors and accessors; the receiver is that of C103 (`admitFront`). `Life.anchored` puts the event into the histories of C112, so that `C112_rotates` and `C112_replay` speak of mixed histories. Serialised JSON only.")
c("C116","proved","Builder.C116_control Builder.C116_example","`receiveNext` is the step of the receiver of C112; the client is not library code, everything it calls is. The receiver does not compare identifier and sequence number of the event with those before: whoever signs answers for them.")
c("C117","proved","C117_primitives C117_indexed C117_unnamed_defect C117_r1_defect C117_example","Model/JsCodex: the enumeration object, the generated conversion and the two functions. Spec/JsCodex lists the names by purpose, from the tables of the standard.")
c("C118","proved","C118_primitives C118_signers C118_salters C118_writing C118_signing C118_stretching C118_derived C118_decode C118_utf8 C118_panics C118_quoted_defect C118_debug_defect C118_faithful","Model/Told: the functions of the model again, with the text of each error and panic; C118_faithful says that without the texts they are the functions of the other properties. The messages of the standard library and the foreign crates are parameters (Voice) with laws; C118_voice is an instance.")
c("C119","proved","Builder.C119_named Builder.C119_kinds Builder.C119_sound Builder.C119_judged Builder.C119_delegates Builder.C119_control Builder.C119_stays Builder.C119_binds Builder.C119_example","Props/Delegation: the library has no program that checks delegation; the one of the statement uses only modelled functions (as in C112). Lives, votes and collisions as in C112, C115 and C116. C119_example is a case: a delegator, a delegated identifier with a rotation, refused before and accepted after the approval.")
c("C120","proved","Builder.C120_accepted Builder.C120_chain Builder.C120_issues Builder.C120_stays Builder.C120_control Builder.C120_binds Builder.C120_example","Props/Credential: the library has no program that checks issuance; those of the statement use only modelled functions (receive of C112 for the histories of a chain). Lives, votes and collisions as in C112, C115 and C116. C120_example is a case: a chain of two credentials, refused while the first was not issued. There is no revocation in it: the library has no transaction event logs.")
c("C121","proved","Builder.C121_agreement Builder.C121_consensus Builder.C121_safe Builder.C121_starts Builder.C121_rotates Builder.C121_anchors Builder.C121_follows Builder.C121_example","Props/Agreement, Props/Agreement2: the receiver is not library code, everything it calls is modelled; the witnesses are those of the inception at all times (changes of witnesses by rotations are not modelled); the evidence is by position, so that a witness named twice in an inception from the outside counts twice - in a founding (C111) the witnesses are different. C121_agreement is about any bytes and any threshold with the stated intersection property, C121_consensus and C121_safe are about founded identifiers; C121_starts, C121_rotates, C121_anchors and C121_follows are the second part. The example has two receivers that disagree, with both witnesses faulty.")
c("C122","proved","C122_compiles C122_pasted C122_read_or_written C122_shapes C122_leading_commas","Props/Dat: the macro is modelled arm by arm on token trees; an expression of the program is one token that begins with none of the macro's own tokens, with the document that Value::from makes of it (C96, C97). The grammar of Spec/Dat is separate from the macro, and C122_compiles is an equivalence. The text of a pasted literal is taken to mean in Rust what it means in JSON. The compiler's limit of 128 macro expansions inside one another is not modelled (longer documents do not compile).")
