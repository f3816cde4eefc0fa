{"id": "C01", "title": "Matter text round-trip", "statement": "For every code in the code table and every raw byte string long enough for it, a primitive built from (code, raw) encodes to qb64 text, and parsing that text yields a primitive with the same code, size and raw bytes.", "quantifier": "all table codes (fixed and variable), all raw byte strings below the 3*64^4 byte limit, overflow checks on or off", "why_tests_cant": "raw content and (for variable codes) raw length are unbounded; padding behaviour depends on length mod 3 and on the small/large boundary", "anchors": ["src/core/matter/mod.rs::new_with_code_and_raw", "src/core/matter/mod.rs::infil", "src/core/matter/mod.rs::exfil", "src/core/matter/tables.rs::sizage"]}
{"id": "C02", "title": "Matter binary round-trip", "statement": "For every code and raw as in C01, the primitive encodes to qb2 bytes and parsing those bytes yields the same code, size and raw bytes.", "quantifier": "all table codes, all raw byte strings, overflow checks on or off", "why_tests_cant": "unbounded raw; code/size packing into bytes by shifts", "anchors": ["src/core/matter/mod.rs::binfil", "src/core/matter/mod.rs::bexfil", "src/core/util.rs::code_b2_to_b64", "src/core/util.rs::nab_sextets"]}
{"id": "C03", "title": "Text and binary domains are equivalent", "statement": "The qb2 encoding of a primitive is exactly the Base64URL decoding of its qb64 encoding (so the two domains convert without going through the object), and its length is 3/4 of the text length.", "quantifier": "all constructible primitives", "why_tests_cant": "an equation between two independently written encoders over unbounded data", "anchors": ["src/core/matter/mod.rs::infil", "src/core/matter/mod.rs::binfil"]}
{"id": "C04", "title": "Parsed text is canonical (no malleability)", "statement": "If qb64 text is accepted, re-encoding the parsed primitive reproduces exactly the characters that were consumed, and no two different consumed texts denote the same primitive. (Known exception, a defect: '=' pad characters inside the consumed part are accepted and the resulting object does not re-encode; uniqueness still holds.)", "quantifier": "all accepted input texts", "why_tests_cant": "needs every accepted string, including pad characters and trailing bits, not samples", "anchors": ["src/core/matter/mod.rs::exfil", "src/core/matter/mod.rs::infil"]}
{"id": "C05", "title": "Parsed binary is canonical", "statement": "If qb2 bytes are accepted, re-encoding the parsed primitive reproduces exactly the bytes consumed.", "quantifier": "all accepted byte strings", "why_tests_cant": "all pad-bit and lead-byte patterns of unbounded inputs", "anchors": ["src/core/matter/mod.rs::bexfil", "src/core/matter/mod.rs::binfil"]}
{"id": "C06", "title": "Accepted primitives have the size their code promises", "statement": "Every primitive obtained from (code, raw), qb2, or qb64 without '=' in the consumed characters has raw length equal to the fixed raw size of its code, or 3*size minus lead size for variable codes, and full_size equals the number of characters consumed. (Known exception, a defect: text with '=' yields an object with too little raw material.)", "quantifier": "all inputs to all constructors", "why_tests_cant": "size invariant over all accepted inputs", "anchors": ["src/core/matter/mod.rs::new_with_code_and_raw", "src/core/matter/mod.rs::exfil", "src/core/matter/mod.rs::bexfil", "src/core/matter/mod.rs::full_size", "src/core/matter/tables.rs::raw_size"]}
{"id": "C07", "title": "Self-framing: trailing data does not change a parse", "statement": "Parsing a primitive's encoding followed by any further data gives the same primitive as parsing the encoding alone, in text and in binary.", "quantifier": "all primitives, all suffixes", "why_tests_cant": "unbounded suffixes", "anchors": ["src/core/matter/mod.rs::exfil", "src/core/matter/mod.rs::bexfil"]}
{"id": "C08", "title": "Truncated primitives are refused as shortage", "statement": "Every proper prefix of a primitive's qb64 or qb2 encoding is refused with an error (empty or shortage kind), never accepted and never a panic.", "quantifier": "all primitives, all cut points", "why_tests_cant": "every cut point of every primitive", "anchors": ["src/core/matter/mod.rs::exfil", "src/core/matter/mod.rs::bexfil"]}
{"id": "C09", "title": "Unique decodability of primitive streams", "statement": "Two streams of concatenated primitive encodings are equal only if they are encodings of the same list of primitives (prefix-freeness plus injectivity).", "quantifier": "all lists of primitives", "why_tests_cant": "induction over stream length", "anchors": ["src/core/matter/mod.rs::infil", "src/core/matter/mod.rs::exfil", "src/core/matter/mod.rs::binfil"]}
{"id": "C10", "title": "Raw material is never silently padded", "statement": "Building from (code, raw) with a fixed code fails with a shortage if raw is shorter than the code's raw size, and otherwise stores exactly the leading raw-size bytes.", "quantifier": "all fixed codes, all raw byte strings", "why_tests_cant": "all lengths and contents", "anchors": ["src/core/matter/mod.rs::new_with_code_and_raw", "src/core/matter/tables.rs::raw_size"]}
{"id": "C11", "title": "Variable-size code selection", "statement": "For a variable code the stored code is the one whose lead size makes the payload a multiple of three bytes, the small family is used exactly below 64^2 quadlets, promotion keeps the code family, sizes from 64^4 quadlets up are refused, and raw is stored unchanged. (For raw below 2^32 bytes; known exception, a defect: longer raw is cut to its length modulo 2^32.)", "quantifier": "all variable codes, all raw lengths", "why_tests_cant": "boundaries at 12285..12288 and 50331645..50331648 bytes and all residues", "anchors": ["src/core/matter/mod.rs::new_with_code_and_raw"]}
{"id": "C12", "title": "Matter parsing never panics", "statement": "new_with_qb64b, new_with_qb64 and new_with_qb2 return Ok or Err on every input, except exactly these (defects): input that starts with a variable-size head promising lead bytes and no (or, in text, too little) material; and text in which a multi-byte character lies across one of the offsets where the text is cut (after the code, after the size digits, after the primitive).", "quantifier": "all strings, all byte strings, overflow checks on or off", "why_tests_cant": "panic freedom over all inputs", "anchors": ["src/core/matter/mod.rs::exfil", "src/core/matter/mod.rs::bexfil", "src/core/util.rs"]}
{"id": "C13", "title": "Encodings are aligned and transport-safe", "statement": "qb64 of a constructed primitive starts with its code, consists only of Base64URL characters (no padding), has length a multiple of 4 and equal to full_size; qb2 has length a multiple of 3.", "quantifier": "all constructible primitives", "why_tests_cant": "all contents/lengths", "anchors": ["src/core/matter/mod.rs::infil", "src/core/matter/mod.rs::binfil", "src/core/matter/mod.rs::full_size"]}
{"id": "C14", "title": "Code table coherence", "statement": "For each code in the table the hard size derived from the first character (text) or first sextet (binary) is the length of the code, code size and full size are 24-bit alignable with the lead size, and no code is a prefix of another, so code selection is unambiguous.", "quantifier": "all codes of the table, all first characters/sextets", "why_tests_cant": "cross-table consistency between three independently written tables", "anchors": ["src/core/matter/tables.rs::sizage", "src/core/matter/tables.rs::hardage", "src/core/matter/tables.rs::bardage"]}
{"id": "C15", "title": "Base64 integer conversion round-trip", "statement": "u32/u64 to fixed-width Base64 and back is the identity for every value that fits the width, the width is exact, and distinct values give distinct texts.", "quantifier": "all n < 64^len, all len", "why_tests_cant": "the implementation uses floating-point logarithms; all values near powers of 64 matter", "anchors": ["src/core/util.rs::u32_to_b64", "src/core/util.rs::u64_to_b64", "src/core/util.rs::b64_to_u32", "src/core/util.rs::b64_to_u64"]}
{"id": "C16", "title": "Code text/binary conversion round-trip", "statement": "code_b64_to_b2 followed by code_b2_to_b64 of the same length is the identity on Base64URL codes of 1..8 characters, and nab_sextets returns the leading sextets of the data.", "quantifier": "all codes up to 8 characters, all byte strings", "why_tests_cant": "64^8 codes; arbitrary trailing bytes", "anchors": ["src/core/util.rs::code_b64_to_b2", "src/core/util.rs::code_b2_to_b64", "src/core/util.rs::nab_sextets"]}
{"id": "C17", "title": "Indexed signature text round-trip", "statement": "For every indexer code in the current/both codex and every index/ondex permitted for it, building from raw, encoding to qb64 and parsing gives back the same code, index, ondex and raw. Objects parsed from binary, or from text without pad characters, round-trip too. (Known exception, a defect: the codes A, C and E carry one index for both lists but building with a different ondex is accepted and the ondex is lost in transport, see C20; and the lead-byte test code 1z cannot be re-encoded.)", "quantifier": "all signature codes, all indices/ondices in range, all raw", "why_tests_cant": "index x ondex x raw space", "anchors": ["src/core/indexer/mod.rs::new_with_code_and_raw", "src/core/indexer/mod.rs::infil", "src/core/indexer/mod.rs::exfil", "src/core/indexer/tables.rs::sizage"]}
{"id": "C18", "title": "Indexed signature binary round-trip", "statement": "As C17 for qb2, in every build profile. (Known exception, a defect: with overflow checks qb2 of the codes 3A and 3B panics.)", "quantifier": "all signature codes, all indices/ondices, all raw, overflow checks on or off", "why_tests_cant": "profile-dependent integer overflow", "anchors": ["src/core/indexer/mod.rs::binfil", "src/core/indexer/mod.rs::bexfil"]}
{"id": "C19", "title": "Indexed signature domains are equivalent", "statement": "The qb2 of an indexed signature is the Base64URL decoding of its qb64.", "quantifier": "all constructible indexed signatures", "why_tests_cant": "as C03", "anchors": ["src/core/indexer/mod.rs::infil", "src/core/indexer/mod.rs::binfil"]}
{"id": "C20", "title": "Index and ondex limits are enforced", "statement": "Building an indexed signature is refused exactly when the index or ondex does not fit the code or violates the code's current-only/same-index rule; accepted objects report the index and ondex that were asked for. (Known exception, a defect: for the same-index codes A, C and E a different ondex is accepted.)", "quantifier": "all codes, all u32 indices and optional ondices", "why_tests_cant": "2^64 index pairs", "anchors": ["src/core/indexer/mod.rs::new_with_code_and_raw"]}
{"id": "C21", "title": "Indexed parse is canonical and self-framing", "statement": "Accepted indexer text without pad characters re-encodes to the consumed characters; trailing data is ignored; truncations are refused.", "quantifier": "all accepted texts, all suffixes, all cut points", "why_tests_cant": "unbounded", "anchors": ["src/core/indexer/mod.rs::exfil", "src/core/indexer/mod.rs::infil"]}
{"id": "C22", "title": "Indexer parsing never panics", "statement": "Indexer parsing from qb64/qb64b/qb2 returns Ok or Err on every input, except exactly this (a defect): text in which a multi-byte character lies across one of the offsets where the text is cut (after the code, after the index digits, after the digits of the other index, after the signature).", "quantifier": "all inputs, overflow checks on or off", "why_tests_cant": "panic freedom", "anchors": ["src/core/indexer/mod.rs::exfil", "src/core/indexer/mod.rs::bexfil"]}
{"id": "C23", "title": "Counter round-trip in both domains", "statement": "For every counter code and every count the code can carry, text and binary encodings parse back to the same code and count, and qb2 is the Base64URL decoding of qb64.", "quantifier": "all counter codes, all counts", "why_tests_cant": "up to 64^5 counts per code", "anchors": ["src/core/counter/mod.rs::new_with_code_and_count", "src/core/counter/mod.rs::infil", "src/core/counter/mod.rs::exfil", "src/core/counter/mod.rs::binfil", "src/core/counter/mod.rs::bexfil", "src/core/counter/tables.rs"]}
{"id": "C24", "title": "Counter count limits", "statement": "A counter is constructed exactly when count <= 64^ss - 1 for the code's soft size ss; otherwise an error.", "quantifier": "all codes, all u32 counts", "why_tests_cant": "2^32 counts", "anchors": ["src/core/counter/mod.rs::new_with_code_and_count"]}
{"id": "C25", "title": "Counter parse is canonical, self-framing and disjoint from primitives", "statement": "Accepted counter text re-encodes to the consumed characters; trailing data is ignored; no text or binary that starts a counter is accepted as a primitive or vice versa.", "quantifier": "all texts/bytes", "why_tests_cant": "unbounded; cross-type ambiguity", "anchors": ["src/core/counter/mod.rs::exfil", "src/core/counter/mod.rs::bexfil", "src/core/matter/mod.rs::exfil", "src/core/counter/tables.rs::hardage", "src/core/matter/tables.rs::hardage"]}
{"id": "C26", "title": "Counter parsing never panics", "statement": "Counter parsing returns Ok or Err on every input, except exactly these (defects): a one byte text, and text in which a multi-byte character lies across one of the offsets where the text is cut (after two characters, after the code, after the count).", "quantifier": "all inputs", "why_tests_cant": "panic freedom", "anchors": ["src/core/counter/mod.rs::exfil", "src/core/counter/mod.rs::bexfil"]}
{"id": "C27", "title": "Semantic version encoding", "statement": "sem_ver_str_to_b64 accepts exactly texts of one to three dot-separated components each standing for 0..63 (an empty or missing component stands for 0; a numeral may have leading zeros and a plus sign, or a minus sign if it is zero), gives the three characters of the numbers, and distinct versions give distinct texts; sem_ver_to_b64 accepts exactly parts up to 63. Neither panics.", "quantifier": "all version strings", "why_tests_cant": "64^3 versions and all malformed strings", "anchors": ["src/core/counter/mod.rs::sem_ver_str_to_b64"]}
{"id": "C28", "title": "Number round-trip and minimality", "statement": "For every u128 n, Number built from n reports num = n and numh = hex of n, uses the smallest of the four number codes that fits, and survives qb64/qb2 transport. The hexadecimal constructor accepts exactly the hexadecimal numerals of such numbers (and the empty text as 0).", "quantifier": "all u128 values", "why_tests_cant": "2^128 values", "anchors": ["src/core/number.rs::Number::new", "src/core/number.rs::num", "src/core/number.rs::numh"]}
{"id": "C29", "title": "Sequence numbers round-trip and order", "statement": "Seqner built from sn reports sn and snh, round-trips through qb64/qb2, and comparing the fixed-width raw (or qb2) bytes lexicographically is comparing sequence numbers.", "quantifier": "all pairs of u128 values", "why_tests_cant": "2^256 pairs", "anchors": ["src/core/seqner.rs::Seqner"]}
{"id": "C30", "title": "Number and sequence accessors never panic on parsed input", "statement": "num()/sn() of an object accepted by a parsing constructor returns Ok or Err. (Known exception, a defect: an object parsed from text that has a pad character '=' among its consumed characters and a number code; there num()/sn() panics.)", "quantifier": "all accepted inputs", "why_tests_cant": "panic freedom", "anchors": ["src/core/number.rs::num", "src/core/seqner.rs::sn"]}
{"id": "C31", "title": "Bexter text round-trip", "statement": "bext() of a Bexter built from any Base64URL text returns that text, also after qb64/qb2 transport. (Known exception, a defect: a text whose length is a multiple of four and that starts with 'A' comes back without that 'A'; so 'A' followed by a text of length 3 mod 4 builds the same object as that text.)", "quantifier": "all Base64URL texts of any length", "why_tests_cant": "unbounded texts; depends on length mod 4 and leading characters", "anchors": ["src/core/bexter.rs::bext", "src/core/bexter.rs::rawify"]}
{"id": "C32", "title": "Bexter refuses non-Base64URL text", "statement": "Building a Bexter from text containing any character outside [A-Za-z0-9-_] is an error.", "quantifier": "all strings", "why_tests_cant": "all strings", "anchors": ["src/core/bexter.rs::Bexter::new_with_bext"]}
{"id": "C33", "title": "Date-time round-trip", "statement": "dts() of a Dater built from a 32-character ISO-8601 microsecond date-time with offset returns the same string, also after qb64/qb2 transport; shorter strings are refused. Characters after the 32nd are dropped silently.", "quantifier": "all 32-character date-times over digits, '-', 'T', ':', '.', '+'", "why_tests_cant": "all date-times", "anchors": ["src/core/dater.rs"]}
{"id": "C34", "title": "Unweighted threshold decision", "statement": "An unweighted threshold of n > 0 is satisfied exactly when the number of distinct signing indices is at least n; 0 is never satisfied. (Known exception, a defect: repeated indices are counted as often as they occur, so one index repeated n times satisfies n.)", "quantifier": "all thresholds, all index lists", "why_tests_cant": "unbounded index lists incl. duplicates", "anchors": ["src/core/tholder.rs::satisfy_numeric"]}
{"id": "C35", "title": "Weighted threshold decision", "statement": "A weighted threshold is satisfied by in-range indices exactly when, in every clause, the weights at the distinct given positions sum to at least 1 in exact rational arithmetic. (Known exceptions, defects: when an intermediate fraction does not fit 32 bits the evaluation panics with overflow checks and may refuse, never approve, wrongly without them; a weight text with two or more slashes counts as its first part.)", "quantifier": "all clause lists, all index lists", "why_tests_cant": "unbounded clause structures; rational arithmetic", "anchors": ["src/core/tholder.rs::satisfy_weighted", "src/core/tholder.rs::values_to_rationals"]}
{"id": "C36", "title": "Threshold satisfaction is monotone and order-independent", "statement": "Adding signatures never un-satisfies a threshold; order and (for weighted) repetition of indices are irrelevant; the full set of positions satisfies every accepted weighted threshold. (Known exception, a defect: without overflow checks, sums that do not fit 32 bits wrap and adding signatures can un-satisfy.)", "quantifier": "all thresholds, all index lists", "why_tests_cant": "all supersets/permutations", "anchors": ["src/core/tholder.rs::satisfy"]}
{"id": "C37", "title": "Threshold serialization round-trip", "statement": "Rebuilding a threshold from its limen() or its sith() gives a threshold with the same weights/number and therefore the same decisions. (Known exception: the empty list of clauses, accepted as a threshold value, has a limen and a sith that are refused. Ranges over thresholds of fewer than 2^27 weights.)", "quantifier": "all accepted thresholds", "why_tests_cant": "unbounded clause lists", "anchors": ["src/core/tholder.rs::limen", "src/core/tholder.rs::process_limen", "src/core/tholder.rs::sith"]}
{"id": "C38", "title": "When thresholds panic", "statement": "Evaluating or constructing a threshold returns an answer or an error, except exactly in these cases (defects). Evaluating an unweighted threshold never panics. Evaluating a weighted one panics exactly on a list with a position it does not have and, with overflow checks, when adding up its clauses or the weights at the given positions, clause by clause until one does not reach one, meets a sum that does not fit 32 bits. Constructing one from a value panics exactly when, reading the weights in order, zero over zero is met before anything else that is refused, or, with overflow checks, all weights are read and a sum does not fit, no clause before it being below one; from the form in an event additionally when the value is a JSON text with a number the library cannot take; from a limen exactly when its text is shorter than its code, a multi-byte character lies across the end of the code, the number or text primitive panics when read or the number when evaluated, or the clauses it stands for panic.", "quantifier": "all threshold values, texts and limens, all index lists, both overflow-check profiles (also different ones for construction and evaluation)", "why_tests_cant": "an exact condition over all values, texts and index lists", "anchors": ["src/core/tholder.rs::satisfy_weighted", "src/core/tholder.rs::values_to_rationals"]}
{"id": "C39", "title": "JSON serialization is injective", "statement": "Two values with the same compact JSON text are the same value (including key order), so hashing or signing the text commits to the value; and parsing the text gives the value back. (Known exceptions, defects: values nested 128 levels or deeper print a text that is refused as malformed; a value with a float that prints without a point, like 1e300, prints a text on which the reader panics.)", "quantifier": "all nested values (floats finite, and for reading back only floats that print with a point and that the JSON reader reads exactly)", "why_tests_cant": "structural induction over unbounded values; string escapes", "anchors": ["src/data.rs::to_json"]}
{"id": "C40", "title": "Version string round-trip", "statement": "deversify(versify(ident, version, kind, size)) returns the same components when both version digits are below 16 and the size is below 2^24 (otherwise the written string is refused by deversify), and every string accepted by deversify is exactly what versify produces for the returned components.", "quantifier": "all idents, versions, sizes; all strings", "why_tests_cant": "all sizes and all strings", "anchors": ["src/core/common.rs::versify", "src/core/common.rs::deversify"]}
{"id": "C41", "title": "Sizeified messages declare their true length", "statement": "A message serialized by the library carries a version string whose size field equals the byte length of the serialization (for messages below 2^32 bytes), and the returned bytes are the serialization of the returned map when no version-like text precedes the version field; with the version field first sizing always succeeds below 2^24 bytes. (Known exception, a defect: a version-like key in front of the version field is overwritten in the returned bytes instead of the version field.)", "quantifier": "all maps with a version field", "why_tests_cant": "unbounded maps", "anchors": ["src/core/common.rs::sizeify"]}
{"id": "C42", "title": "When reading a message panics", "statement": "Building a Serder or Creder from raw bytes returns Ok or Err, and no message is ever read from fewer bytes than it declares. (Known exception, a defect: it panics, exactly when the bytes announce version 1.0 JSON and either the declared size exceeds the available bytes, or the declared bytes are JSON with a number that does not convert, JSON that is not an object, an object without d, or a d text on which the primitive parser panics. In particular every truncation to at least 29 bytes of valid UTF-8 of a message panics, shorter ones are errors.)", "quantifier": "all byte strings, all declared sizes", "why_tests_cant": "panic freedom", "anchors": ["src/core/common.rs::sniff", "src/core/common.rs::loads", "src/core/sadder.rs::inhale"]}
{"id": "C43", "title": "A freshly computed SAID verifies", "statement": "For every map, digest code, label other than the version field and ignore list: when saidify returns a SAID and a map, verify accepts them, whether or not it checks the version string and the field; the returned map is the given one with the SAID's text in the label field and a sized version string; and saidify succeeds on every map that has the label field and either no version field or a current version string as first field (serialization below 16 MiB).", "quantifier": "all maps, digestive codes, labels", "why_tests_cant": "unbounded maps; hashing abstract", "anchors": ["src/core/saider.rs::saidify", "src/core/saider.rs::verify", "src/core/saider.rs::derive"]}
{"id": "C44", "title": "SAID binds content", "statement": "If a SAID verifies against two maps (same code, label, ignore list), the maps agree except in the label field, ignored fields, and the size in the version string, unless the digest function collides on the two explicit serializations.", "quantifier": "all pairs of maps (floats finite)", "why_tests_cant": "unbounded maps", "anchors": ["src/core/saider.rs::derive", "src/core/saider.rs::verify"]}
{"id": "C45", "title": "SAID of a message object", "statement": "A Serder/Creder constructed from raw or a map reports the SAID of its d field (the field text starts with the reported text) with the requested digest code; a map completed by saidify with the version field first is accepted unchanged and reports exactly the computed SAID, which verifies. (Known exception, a defect: the SAID is never compared with the content. The outcome does not depend on the hash function, and in every accepted map with the version field first any other field can be given any value (while the message stays below 16 MiB) and is accepted with the same SAID.)", "quantifier": "all inputs to the constructors", "why_tests_cant": "needs every tampered message", "anchors": ["src/core/sadder.rs::exhale", "src/core/sadder.rs::inhale", "src/core/serder.rs", "src/core/creder.rs"]}
{"id": "C46", "title": "Protocol identifier separation", "statement": "Serder accepts only maps whose v field is a KERI 1.0 version string and Creder only ACDC ones; from raw, only bytes that announce that protocol; no input is accepted by both. (Known exception, a defect: from raw the protocol is that of the first version-like text within the first 12 bytes, which can be a key other than v, so the v field of the map can name the other protocol.)", "quantifier": "all maps", "why_tests_cant": "all maps", "anchors": ["src/core/serder.rs", "src/core/creder.rs"]}
{"id": "C47", "title": "Derived prefixes verify", "statement": "A prefix derived from a valid inception event verifies against that event, for basic transferable and digest derivations and for basic non-transferable ones. The same holds after the prefix is put into the field i (and, for digests, anything into the field d), also when the field i is checked. (Known exceptions, defects: when the text of the key goes on after the key, a basic prefix is derived that does not verify; and an event with a list, even an empty one, in n, b or a yields no non-transferable prefix although the prefix verifies against the event with an empty list in n.)", "quantifier": "all event maps accepted for derivation", "why_tests_cant": "unbounded events", "anchors": ["src/core/prefixer.rs"]}
{"id": "C48", "title": "Prefix verification binds the event", "statement": "A digest prefix verifies only against inception events whose digest (with dummied prefix fields and sized version string) is the prefix, so that two events with their version string in front verifying under one prefix agree in all but i, d and the version size unless the hash collides; a basic prefix verifies exactly when the event's single signing key is the prefix (and i is the prefix if checked, and for non-transferable keys no next key is given). (Known exception, a defect: with a version-like key in front of the version field that key is not bound.)", "quantifier": "all prefixes, all events (the comparison of two events: floats finite)", "why_tests_cant": "unbounded events", "anchors": ["src/core/prefixer.rs"]}
{"id": "C49", "title": "Path text round-trip", "statement": "A list of texts and integers builds a Pather exactly when every component is a Base64URL text and the path text (a hyphen before each component) fits the size limit (texts below 4 GiB); the Pather comes back from qb64, qb64b and qb2, and path() returns the component texts exactly when no component contains a hyphen and the first is not empty. A code asked for is used as for a text object (C31). Building and reading paths never panics. (Known exception, a defect: components with a hyphen, including negative integers, are accepted but come back in pieces, and a path that begins with an empty component comes back empty.)", "quantifier": "all component lists", "why_tests_cant": "unbounded lists and component texts", "anchors": ["src/core/pather.rs::path", "src/core/pather.rs::bextify"]}
{"id": "C50", "title": "Path resolution matches the document", "statement": "resolve() of a path returns the value reached by following its components from the root, and is an error, never a panic, exactly when a step does not exist. A component that is a decimal numeral of a number that fits a machine word selects by position in lists and also in maps; another component selects by key in maps; an empty component ends the walk at a map. (A map key that is a decimal numeral can therefore not be selected by name.) A path without numerals of 2^32 or more resolves alike on all platforms; with such a numeral a 32-bit platform looks up a key where a 64-bit platform takes a position.", "quantifier": "all documents, all paths", "why_tests_cant": "structural induction over documents/paths", "anchors": ["src/core/pather.rs::resolve"]}
{"id": "C51", "title": "Path relations", "statement": "starts_with is true for each path whose components are the first components of this path; it is true exactly when the other path is empty, or its components but the last are the first components of this path and its last component begins the next one. When the components of a root are the first components of a path and occur nowhere else in it, strip gives the path of the other components, and root puts the root back in front; a longer root leaves the path alone. (Known exceptions, defects: starts_with accepts a last component that is only the beginning of a component; strip panics on a root with a component the path lacks, removes the last occurrence of a repeated component, and removes components that are not in front.)", "quantifier": "all pairs of paths", "why_tests_cant": "unbounded paths", "anchors": ["src/core/pather.rs::starts_with", "src/core/pather.rs::strip", "src/core/pather.rs::root"]}
{"id": "C52", "title": "Signing code selection", "statement": "sign_indexed picks the shortest code of the signer's scheme able to carry the index/ondex pair with the current-only rule, refuses pairs no code of the scheme can carry, and the resulting Siger reports exactly the given index and ondex (by default the index; 0 when current-only) and the signer's verification key.", "quantifier": "all curves, all index/ondex, only flag", "why_tests_cant": "2^64 pairs", "anchors": ["src/core/signer.rs::sign_indexed", "src/core/signer.rs"]}
{"id": "C53", "title": "Signatures verify", "statement": "A signer, however obtained, signs every message, and the signature verifies under the signer's verification key over the same bytes, unindexed and (when the indices can be carried) indexed; key and signatures come back unchanged from qb64, qb64b and qb2, so they still verify. Verification never panics on any key, signature bytes or message.", "quantifier": "all signers, all messages (assuming the curve library's sign/verify law)", "why_tests_cant": "all messages", "anchors": ["src/core/signer.rs", "src/core/verfer.rs", "src/core/cigar.rs", "src/core/siger.rs"]}
{"id": "C54", "title": "Typed primitives only carry their own codes", "statement": "Verfer, Diger, Saider, Cigar, Siger, Signer, Dater, Seqner, Bexter and Pather objects obtained from any constructor with any arguments have a code allowed for that type; Number, Salter and Prefixer objects do when built from a number, raw bytes, randomness or an event. (Known exception, a defect: a Number, Salter or Prefixer read from qb64, qb64b or qb2 is accepted with every primitive code.)", "quantifier": "all constructors, all inputs", "why_tests_cant": "all inputs", "anchors": ["src/core/verfer.rs", "src/core/diger.rs", "src/core/cigar.rs", "src/core/siger.rs", "src/core/saider.rs", "src/core/dater.rs", "src/core/seqner.rs", "src/core/number.rs", "src/core/salter.rs", "src/core/signer.rs", "src/core/prefixer.rs", "src/core/bexter.rs", "src/core/pather.rs"]}
{"id": "C55", "title": "Digest comparison", "statement": "Diger.verify tells for every digest object and all data whether its raw is the digest of the data under its code. Hashing data gives a digest that verifies. Diger.compare with another digest object is true exactly when both texts (equivalently code and raw) are equal or the codes differ and both are digests of the data. Comparing with a text: true for the own text, otherwise the parse error, an error for a non-digest code, false for the same code, else whether both are digests of the data.", "quantifier": "all digests, all data", "why_tests_cant": "all data", "anchors": ["src/core/diger.rs::compare", "src/core/diger.rs::verify"]}
{"id": "C56", "title": "Deterministic key derivation", "statement": "Salter.signers(count, start) has count entries, the i-th is the signer derived for the path followed by start+i in lower-case hexadecimal, different positions have different derivation paths, and extending count or shifting start yields the same signers for the same positions; the first position that fails decides the failure. The private key is Argon2id over path and salt at the costs of the tier (min when temporary, else the given or own tier; unknown tiers refused). (Known exceptions, defects: positions beyond the machine's usize (64 bits; 32 for the JavaScript bindings) panic or wrap; path and position are joined without separator, so path '1' position 0 and the empty path position 16 give the same keys.)", "quantifier": "all salts, counts, starts, paths, tiers, codes", "why_tests_cant": "unbounded counts", "anchors": ["src/core/salter.rs::signers", "src/core/salter.rs::signer"]}
{"id": "C57", "title": "Fixed codes carry the whole material they name", "statement": "The raw size of each fixed-size code equals the size of the cryptographic material it is named after (seed, key, digest, signature, number, date-time, sealed box). The two codes reserved for tests aside, every code with a raw size is such a code. (Known exception, a defect: 1AAE, Ed448 signature, stores only 39 of 114 bytes and drops the rest silently.)", "quantifier": "all fixed codes of the table, all raw byte strings", "why_tests_cant": "a table test repeats the table; the claim relates it to the outside meaning of each code and to every raw string", "anchors": ["src/core/matter/tables.rs: sizage, raw_size, Codex", "src/core/matter/mod.rs: new_with_code_and_raw"]}
{"id": "C58", "title": "When SAID checking panics", "statement": "Checking a SAID against a value panics exactly when the value is not a map, or when the label field is to be compared, is missing from the map, and all other checks succeed; saidify never panics. (The panics are defects: they are reachable from decoded JSON of an untrusted party.)", "quantifier": "all SAIDs with a text, all values, all labels, kinds, ignore lists and flags", "why_tests_cant": "exact panic freedom over unbounded values", "anchors": ["src/core/saider.rs::verify", "src/core/saider.rs::derive", "src/core/saider.rs::saidify", "src/data.rs: Index<&str>, IndexMut<&str>"]}
{"id": "C59", "title": "Message round trip", "statement": "The raw bytes of a Serder/Creder built from a map with v first and nesting below 128, shorter than 4 GiB, read again, give an equal object; also when followed by any further valid UTF-8 text, while a tail that is not UTF-8 makes the whole input refused. The digest code asked for when building from a map is the code of the SAID in the map (Blake3-256 when none is asked for) and the kind must be JSON; from bytes the code is Blake3-256.", "quantifier": "all such maps (floats finite, and for reading back only floats that print with a point and that the JSON reader reads exactly), all tails", "why_tests_cant": "Every map and every tail are infinite; tests use a handful of fixtures.", "anchors": ["src/core/sadder.rs: populate_from_raw, populate_from_ked", "src/core/common.rs: sniff, sizeify, loads", "src/core/serder.rs: new", "src/core/creder.rs: new"]}
{"id": "C60", "title": "Event accessors read the event", "statement": "verfers/digers/werfers return one primitive per entry of k/n/b in order, each the parse of its text with an allowed code; without a list k/n give none; sn is the hexadecimal number in s; pre is i; est is true exactly for icp, rot, dip, drt; tholder/ntholder are the thresholds in kt/nt; fner is the number that the text of f encodes as qb64, absent without f, and _fn its value, an error without f. (Known exceptions, defects: a missing s, i or t panics; _fn reads f as a primitive text and so never returns a number for a lower-case hexadecimal f.)", "quantifier": "all message maps", "why_tests_cant": "Tests fix one event; the claim is about every list length, order and content.", "anchors": ["src/core/serder.rs: verfers, digers, werfers, tholder, ntholder, sn, _fn, pre, est"]}
{"id": "C61", "title": "Credential accessors read the credential", "statement": "issuer, schema, subject, status and chains return the i, s, a, ri, e fields of the map; a missing ri is None, missing e is an empty map. (Known exception, a defect: missing i, s or a panics.)", "quantifier": "all credential maps", "why_tests_cant": "Claim over every map, including those with missing fields.", "anchors": ["src/core/creder.rs: crd, issuer, schema, subject, status, chains"]}
{"id": "C62", "title": "Updating a message object forgets its history", "statement": "After any sequence of populate_from_raw, populate_from_ked and populate_from_kind_and_self calls, successful or failed, the digest code is the initial one, and a further populate_from_raw/ked has the outcome, and on success the result, of constructing a fresh object with that code; setting kind JSON on an object built from a map with v first changes nothing. (Known exception, a defect: a failed update is not undone; the object can be left with the new map and bytes and the old SAID.)", "quantifier": "all update histories", "why_tests_cant": "A property of all call histories, including those with failing calls in the middle.", "anchors": ["src/core/sadder.rs: populate_from_raw, populate_from_ked, populate_from_kind_and_self"]}
{"id": "C63", "title": "Checking a prefix panics only without event type", "statement": "Checking a prefix against an event returns true, false or an error for every map with a field t, whatever its other fields are; it panics exactly when the event is not a map or has no field t.", "quantifier": "all prefixes with a text, all values, prefixed or not", "why_tests_cant": "ranges over all JSON documents and prefixes", "anchors": ["src/core/prefixer.rs: Prefixer::verify, verify_nontransferable, verify_transferable, verify_digest"]}
{"id": "C64", "title": "Tail of a path", "statement": "tail() of a path over a message returns the text the path leads to when that text starts with a valid digest primitive, the JSON text of a map or list it leads to (which parses back to that map or list when it is nested below 128), and is an error in every other case. (Known exception, a defect: it panics exactly when the path leads to a text on which the reader of primitives panics, see C12.)", "quantifier": "all messages, all paths (parsing back: floats finite, and for reading back only floats that print with a point and that the JSON reader reads exactly)", "why_tests_cant": "unbounded documents and paths", "anchors": ["src/core/pather.rs::tail"]}
{"id": "C65", "title": "Signer construction", "statement": "Signer.new from raw bytes uses exactly the first 32 bytes as the private key, refuses fewer bytes, refuses keys the library refuses and codes that are not private keys, and its verification key has the scheme's transferable or non-transferable code as asked (transferable by default); without material it uses a generated key. A signer whose key has a qb64 comes back from qb64, qb64b and qb2 with the same keys. (Known exception, a defect: reading a signer from the text of an Ed25519 private key with '=' padding panics.)", "quantifier": "all codes, raw bytes, flags, texts (curve library abstract)", "why_tests_cant": "2^256 keys and unbounded texts", "anchors": ["src/core/signer.rs::new", "src/core/signer.rs::derive_verfer", "src/crypto/sign.rs::public_key"]}
{"id": "C66", "title": "Classification of primitives", "statement": "digestive is true exactly for the nine digest codes, i.e. exactly when verify of the digest API answers at all and when a digest object can be built from the primitive's text; transferable is false exactly for the four non-transferable public key codes; every key object is the transferable or non-transferable key of one of the schemes and transferable tells which; the key of a Signer is transferable exactly as asked.", "quantifier": "all primitives, all constructor arguments, all data", "why_tests_cant": "unbounded primitives and inputs; tests sample a few codes", "anchors": ["src/core/matter/mod.rs::digestive", "src/core/matter/mod.rs::transferable", "src/core/verfer.rs::new", "src/core/diger.rs::new", "src/core/signer.rs::new"]}
{"id": "C67", "title": "Which constructor arguments count", "statement": "When several arguments are given, raw bytes win and need a code; otherwise text bytes win over text over binary, and neither the code argument nor the later inputs influence the result; text bytes that are valid UTF-8 read as the text and others are refused. Reading a typed object is reading the primitive and then checking its code against the type's list (for Salter, Number and Prefixer the code argument is checked instead and the code read is not). For counters a code wins, with the count, else the count text, else 1. (Known oddity: a digest object built with data hides an unreadable input by taking the digest of the data.)", "quantifier": "all combinations of constructor arguments, for all primitive types", "why_tests_cant": "the combinations of optional unbounded arguments", "anchors": ["src/core/matter/mod.rs::new", "src/core/indexer/mod.rs::new", "src/core/counter/mod.rs::new", "src/core/diger.rs::new", "src/core/salter.rs::new", "src/core/number.rs::new", "src/core/prefixer.rs::new"]}
{"id": "C68", "title": "128-bit numbers through the JavaScript bindings", "statement": "A number read from a Number, a Seqner or an event by the JavaScript bindings and used to build a new Number or Seqner gives back the same number whenever it is below 2^64. (Known exception, a defect: the wrapper that turns the two 64-bit halves back into one number never shifts the high half, so a number of 2^64 or more comes back as its high half or-ed onto its low half, and the rebuilt object is the same exactly when the number is below 2^64.)", "quantifier": "all 128-bit numbers; all events with a readable sequence number", "why_tests_cant": "2^128 values; the bundled tests use small numbers only", "anchors": ["wasm/src/util.rs::U128", "wasm/src/primitives/number.rs::num", "wasm/src/primitives/seqner.rs::sn", "wasm/src/primitives/serder.rs::sn"]}
{"id": "C69", "title": "Documents through the JavaScript bindings", "statement": "A document handed over as text by JavaScript is what the text parses to, and a text that does not parse panics rather than being reported as an error. Verifying a printed document nested less than 128 deep, or building a message from it, gives exactly the verdict of the library on the document. A threshold shown by thold(), or (when it has a clause) by sith(), and used to build a threshold gives the same threshold. (Known exceptions, defects: saidify never succeeds in JavaScript, it panics whenever the library succeeds; ked() panics for every message that can be built.)", "quantifier": "all texts, all documents (floats finite, and for reading back only floats that print with a point and that the JSON reader reads exactly), all messages, all thresholds", "why_tests_cant": "arbitrary documents of unbounded size and nesting", "anchors": ["wasm/src/util.rs::to_value", "wasm/src/primitives/saider.rs::saidify", "wasm/src/primitives/serder.rs::ked", "wasm/src/primitives/tholder.rs::thold", "wasm/src/primitives/prefixer.rs::verify"]}
{"id": "C70", "title": "Printing a message for people", "statement": "pretty(size) of a message gives one text that does not depend on size, reads back as exactly the map of the message, and is returned whole when it is at most size bytes (1024 when no size is given); otherwise its first size bytes are returned, and for a message whose compact text is ASCII this never fails. (Known exceptions, defects: a message nested 128 deep or more is refused with a JSON error; when the cut falls inside a multi-byte character the call panics instead of returning, exactly then, and for every size from 11 on a one-field document does it.)", "quantifier": "all messages (floats finite, and for reading back only floats that print with a point and that the JSON reader reads exactly), all sizes", "why_tests_cant": "unbounded documents and sizes; the panic depends on which byte lands on the cut", "anchors": ["src/core/sadder.rs::pretty"]}
{"id": "C71", "title": "Editing a document", "statement": "After any sequence of writes by key to an object every key holds what was last written to it, or its old value if it was never written; keys already there keep their places and new ones follow in the order of their first write, and no write fails. Writing by position changes that position alone, keeps the keys, and panics exactly where reading panics. Every document converts to exactly one native kind (null to none), giving its content, and every other conversion is refused with a conversion error.", "quantifier": "all documents, all sequences of writes", "why_tests_cant": "unbounded histories of edits on unbounded documents", "anchors": ["src/data.rs::Value", "src/data.rs::IndexMut", "src/data.rs::Index", "src/data.rs::to_bool", "src/data.rs::to_map"]}
{"id": "C72", "title": "Comparing documents", "statement": "== on documents is an equivalence: scalars are equal when they are the same (or are the two floating point zeros, whose texts differ), arrays when they have the same length and equal elements in the same places, objects when they have the same keys with equal values. Documents with the same text are equal. (Known oddity: the order of the entries of an object is ignored although the text, and so the SAID, depends on it: reordering the entries of an object gives an equal document with a different text.)", "quantifier": "all documents (floats finite)", "why_tests_cant": "unbounded documents; all reorderings", "anchors": ["src/data.rs::Value", "src/data.rs::to_json"]}
{"id": "C73", "title": "Typed objects survive transport", "statement": "Any key, digest, SAID, number, sequence number, date-time, text, path, prefix, signature, salt or private key, obtained from its constructor with any arguments, that has a qb64 text also has a qb2 form, and the constructors from qb64, qb64b and qb2 of its type all give back the same object (signatures when given the same public key, salts the same tier, private keys the same transferability; indexed signatures when the index and ondex are allowed for the code). From raw bytes, the code is required for digests, SAIDs, signatures, indexed signatures and prefixes and has a default for the others; the object is the one the general constructor builds, and codes not of the type are refused.", "quantifier": "all arguments of all constructors, all types", "why_tests_cant": "13 types times 3 encodings times all contents, including objects obtained by parsing", "anchors": ["src/core/diger.rs::new_with_qb64", "src/core/siger.rs::new_with_qb2", "src/core/salter.rs::new_with_raw", "src/core/verfer.rs::new", "src/core/number.rs::new", "src/core/seqner.rs::new", "src/core/dater.rs::new", "src/core/bexter.rs::new", "src/core/pather.rs::new", "src/core/prefixer.rs::new", "src/core/saider.rs::new", "src/core/cigar.rs::new", "src/core/signer.rs::new"]}
{"id": "C74", "title": "Which prefix an event yields", "statement": "Deriving a prefix from an event: without a code the code is that of the prefix in the field i (no field i, or none that can be read: an error); a code that is no prefix code or not in a non-empty list of allowed codes is refused, an allowed one gives the same as without list. For a key code the prefix derived is exactly the single signing key of an inception event when that key has the code asked for (and, for a non-transferable key, when n, b and a are missing or empty texts), and nothing is derived otherwise. For a digest code it is the digest of the event with dummied i and d and sized version string.", "quantifier": "all events, codes and lists of allowed codes", "why_tests_cant": "unbounded event documents and code lists", "anchors": ["src/core/prefixer.rs::new", "src/core/prefixer.rs::derive"]}
{"id": "C75", "title": "Mixed CESR streams are self-framing and composable", "statement": "Concatenate the encodings of any list of obtained primitives, indexed signatures and counters. A client that parses an element of the expected class at the front of the stream, asks it for full_size, skips that many characters (or three bytes per four characters in the binary domain) and repeats, gets back exactly the elements written and is left with exactly the data that followed. Decoding the whole text stream with a Base64URL decoder gives the concatenation of the binary forms, so en-bloc conversion between domains preserves every element. Two streams of the same kinds with equal text, or with equal binary, hold equal elements. A counter followed by as many groups as it counts is read back as that counter and those groups.", "quantifier": "every list of obtained elements of the three classes in any order and number, every UTF-8 text / every byte string after them, every grouping pattern", "why_tests_cant": "The claim is about concatenations of unbounded length of elements with data-dependent sizes; a misframing may only show after a particular sequence.", "anchors": ["src/core/matter/mod.rs: Matter::new, qb64, qb2, full_size", "src/core/indexer/mod.rs: Indexer::new, qb64, qb2, full_size", "src/core/counter/mod.rs: Counter::new, qb64, qb2, full_size"]}
{"id": "C76", "title": "Encodings are in the CESR wire format", "statement": "The text of every obtained primitive, indexed signature and counter consists of its code, the Base64 digits of its size, indices or count, as few zero bits as align it to 24 bits, and the raw bytes, with nothing else; its binary has the same bits. Conversely every text or binary of that form, whoever wrote it, is read as the code, size, indices, count and raw it spells.", "quantifier": "all codes of the tables, all raw of the promised size, all sizes, permitted indices and counts", "why_tests_cant": "Round trips only compare the library with itself, and test vectors only sample the format; interoperation needs the exact bits for every value.", "anchors": ["src/core/matter/mod.rs: infil, binfil, exfil, bexfil", "src/core/indexer/mod.rs: infil, binfil, exfil, bexfil", "src/core/counter/mod.rs: infil, binfil, exfil, bexfil"]}
{"id": "C77", "title": "Computing a SAID is stable", "statement": "Saidifying the map that saidify returned, with the same arguments, returns the same SAID and the same map; the SAID made from that map without naming a code is the same too; what the SAID field held before has no influence on the result. With a code named, a Saider made from a map is the one saidify computes and exists exactly when saidify succeeds; without one the code is that of the primitive at the start of the text in the field (Blake3-256 for an empty text), a failing parse of that text is the failure, a field that is no text is a validation error and a missing field a value error.", "quantifier": "all maps, digest codes, serialization kinds, labels, ignore lists, hashes", "why_tests_cant": "all nested documents and all digest functions", "anchors": ["src/core/saider.rs::saidify", "src/core/saider.rs::new", "src/core/saider.rs::new_with_sad"]}
{"id": "C78", "title": "Objects made from content, and from nothing", "statement": "The short constructors that take content give objects that give it back: Number and Seqner from a number below 2^128 or any hexadecimal numeral of it (a text that is no such numeral is an error, except that Number reads the empty text as zero), Bexter from a text over the URL-safe alphabet (others refused; exception of C31 for a leading A), Dater from a 32-character date-time whatever code is named (shorter ones refused), Diger from data under the digest code named or Blake3-256 (other codes refused). Without material a Salter holds the 16 random bytes and the given tier, low by default, a Signer the generated key of the named or the Ed25519 scheme, a Dater the clock's time, Number and Seqner zero; every other class refuses to be built from nothing.", "quantifier": "all numbers, texts, data, codes, tiers, random bytes, clocks", "why_tests_cant": "all texts and numbers up to 128 bits", "anchors": ["src/core/number.rs::new_with_num", "src/core/seqner.rs::new_with_sn", "src/core/bexter.rs::new_with_bext", "src/core/dater.rs::new_with_dts", "src/core/diger.rs::new_with_ser", "src/core/salter.rs::new_with_defaults", "src/core/signer.rs::new_with_defaults"]}
{"id": "C79", "title": "Which names in an ignore list matter", "statement": "Making a Saider from a map, saidify and verification depend on the ignore list only through the question which fields of the map (and the SAID field) it names: order, repetitions and names that are no fields have no influence.", "quantifier": "all maps, pairs of ignore lists that name the same fields, codes, kinds, labels, hashes", "why_tests_cant": "all documents and all lists", "anchors": ["src/core/saider.rs::derive", "src/core/saider.rs::verify", "src/core/saider.rs::saidify"]}
{"id": "C80", "title": "Lists in the JavaScript bindings", "statement": "A JavaScript array of texts given as ignore or allow list means the same list in the library; no list means none; a text argument that is no document panics. An entry that is no text counts as the empty text, so it has no influence in an ignore list unless the map has a field with the empty name, and an allow list with only such entries allows no code while an empty one allows all. The arrays of keys and digests of an event have the library's entries in order without gaps; the list of signers has the library's length and entries and none beyond the end; compare_dig and compare_diger are the library's comparison with a text and with a digest object.", "quantifier": "all documents, arrays, codes, events, salts, counts", "why_tests_cant": "arrays of any length with arbitrary entries", "anchors": ["wasm/src/primitives/saider.rs", "wasm/src/primitives/prefixer.rs", "wasm/src/primitives/serder.rs", "wasm/src/primitives/signer.rs", "wasm/src/primitives/salter.rs", "wasm/src/primitives/diger.rs"]}
{"id": "C81", "title": "Only JSON is read, and as JSON means it", "statement": "Reading a document from text (a message body, a threshold text starting with '[', a document argument of the JavaScript bindings) yields a value exactly when the text is JSON by RFC 8259 with at most 127 arrays and objects inside one another: one value, blanks only around tokens, nothing after it, no control characters or lone surrogates in texts, no leading zeros, no trailing commas. The value is the one the text denotes: escapes and surrogate pairs are decoded to UTF-8, integers of 64 bits stay integers (except -0) and other numbers are floating point, and a repeated key keeps its first place and its last value. A text that denotes nothing is refused with the JSON error. (Known exception, a defect: a text with an integer of 2^63 or more, or a float that prints without a point such as 1e300, makes the reader panic.)", "quantifier": "all byte strings, all behaviours of the float printer", "why_tests_cant": "It is an equivalence between a recursive reader and a grammar over all texts; tests sample accepted texts and a few malformed ones.", "anchors": ["src/core/common.rs: loads", "src/data.rs: From<&serde_json::Value>", "src/core/tholder.rs: process_sith", "wasm/src/util.rs: ValueWrapper"]}
{"id": "C82", "title": "Which bytes are a message", "statement": "A Serder (Creder) is built from bytes exactly when the bytes announce, in the first version-like text within their first 12 bytes, a JSON message of protocol KERI (ACDC) version 1.0 of a size not larger than the bytes, the bytes of that size are the JSON text of an object without numbers the library cannot take, and its entry d is the text of a digest primitive whose code is the one asked for (Blake3-256 by default). The object then holds exactly those bytes, the document they denote, that size and that SAID object, and bytes determine all of these. Other arguments and whatever follows the message do not matter. In particular the SAID itself is not checked at construction.", "quantifier": "all byte strings, codes, other arguments, hash functions", "why_tests_cant": "Exact acceptance over all byte strings cannot be sampled.", "anchors": ["src/core/sadder.rs: populate_from_raw, inhale", "src/core/serder.rs: new", "src/core/creder.rs: new"]}
{"id": "C83", "title": "Which texts and bytes are primitives, indexed signatures and counters", "statement": "A text is accepted as a primitive with a given code, size and raw material exactly when it starts with the wire text of these (head of the code, zero bits up to the boundary, raw), and bytes are accepted exactly when they start with bytes having the same bits. The same holds for an indexed signature of one of the sixteen signature codes, with its index, other index and raw, and for a counter with its code and count; whatever follows is ignored. (Known exception, a defect: the text of a primitive or indexed signature is also accepted when up to two of its last characters are replaced by '=', and then as many raw bytes are missing in what is read; a text without '=' is accepted exactly as stated.) Anything accepted as an indexed signature has one of the sixteen signature codes or one of the three test codes.", "quantifier": "all texts, byte strings, primitives, indexed signatures, counters, builds", "why_tests_cant": "Exact acceptance over all texts and byte strings cannot be sampled.", "anchors": ["src/core/matter/mod.rs: new_with_qb64, new_with_qb2, exfil, bexfil", "src/core/indexer/mod.rs: exfil, bexfil", "src/core/counter/mod.rs: exfil, bexfil"]}
{"id": "C84", "title": "Objects altered through the setters", "statement": "The setters of primitives and indexed signatures are public, so an object can hold any code, size, index, other index and raw. Encoding such an object to binary never panics (Known exception: the codes 3A and 3B, see C18) and, for a primitive, succeeds exactly when the code is known and the fields belong together: a fixed-size code has exactly its number of raw bytes; under a variable-size code size, lead and raw agree and the size fits its digits. Then text and binary are the same data and read back as an object with this code and raw (and size, where the code has one). Encoding to text succeeds exactly when this holds up to whole groups of three raw bytes; a text that was encoded reads back as the same code, size and raw exactly when the fields belong together. (Known exceptions, defects: raw that is too long or short by a multiple of three bytes, or a wrong size, is encoded to text that reads back as something else or not at all; with overflow checks, encoding to text panics for 2AAA and 3AAA when the raw leaves no room for their lead bytes.) For the sixteen signature codes, encoding to text never panics, succeeds exactly when index, other index and raw fit the fields of the code, and reads back as the same code, index, raw and the other index that the code can express; binary is the same data whenever the fields fit, and a raw of the wrong length is always refused. (Known exceptions, defects: another index set on a current-only code that has a field for it is written, and the text is then refused by the reader; for codes with a field for another index, binary encoding accepts an index beyond its digits and writes a different one.) For the three reserved codes 0z, 1z and 4z, encoding to text succeeds exactly when index (for 0z the number of raw triples), other index and raw (53 bytes for 1z and 4z) fit. (Known exceptions, defects: with overflow checks it panics for an index of 0z whose size in characters does not fit 32 bits and, under 1z and 4z, for a raw that leaves no room for the lead byte.)", "quantifier": "all codes, sizes, indices, other indices and raw materials, in any combination; all builds", "why_tests_cant": "The fields range over arbitrary combinations, most of which no constructor produces.", "anchors": ["src/core/matter/mod.rs: Matter::set_code, set_raw, set_size, infil, binfil", "src/core/indexer/mod.rs: Indexer::set_code, set_raw, set_index, set_ondex, infil, binfil"]}
{"id": "C85", "title": "Which documents make a message", "statement": "Without bytes, a Serder (Creder) is built from a document exactly when the document is an object whose entry v is a text of the form of a version string saying KERI (ACDC), version 1.0 and JSON (whatever size it says), the requested kind is none or JSON, the first version-like text in the document's JSON text starts within the first 12 bytes, the length of that JSON text (modulo 2^32) is below 2^24, and its entry d is the text of a digest primitive whose code is the one asked for (Blake3-256 by default). The message then holds the document with v replaced by the version string of that length, the JSON text with the first version-like text replaced by it, that length as size, and that SAID object. The bytes have the length of the JSON text, and are the JSON text of the held document when v is the first entry. Without bytes and document a given message is taken over unchanged if it has the right protocol; with nothing given there is an error. (Known exception, a defect: a document which meets all other conditions, for either protocol, makes the constructors panic exactly when it has no entry d or has there a text on which the primitive parser panics, C12.)", "quantifier": "all documents, kinds, codes, given messages, hash functions, builds", "why_tests_cant": "Exact acceptance over all documents cannot be sampled.", "anchors": ["src/core/sadder.rs: new, populate_from_ked, exhale", "src/core/common.rs: sizeify", "src/core/serder.rs: new", "src/core/creder.rs: new"]}
{"id": "C86", "title": "The content of an object determines the object", "statement": "For any sequence number, date-time, text or number object (the number with one of the number codes, see C54) that was obtained from its constructor with any arguments and that has a qb64 text, the content accessor (sn, dts, bext, num) succeeds, and the content constructor applied to the content gives back: for a sequence number and a date-time (whose text always has 32 characters) the same object; for a number an object with the same number, the same object exactly when the smallest code was used; for a text, with the same code, an object with the same code and size. (Known exception, a defect: the text of a Bexter made from raw bytes does not show the first four bits when two bytes remain over a multiple of three, nor the first two bits when one byte remains; it is given back exactly when these bits are zero, so different Bexters of the same code can have the same text.)", "quantifier": "all arguments of the constructors of Seqner, Dater, Bexter and Number; all builds", "why_tests_cant": "All raw bytes and texts; the lost bits need particular lengths and bytes.", "anchors": ["src/core/bexter.rs: bext, rawify, new", "src/core/dater.rs: dts, new", "src/core/seqner.rs: sn, new", "src/core/number.rs: num, new"]}
{"id": "C87", "title": "Signed events", "statement": "A receiver that parses an event from the front of a byte stream, then a counter, then as many indexed signatures as it says, verifies each over the bytes of the event under the key its index names, and asks the event's threshold about the distinct positions that verified: for any event built from a map with the texts of signers' public keys in k, signed by any of these signers at their positions, with any valid text after the signatures, it gets the event back, exactly the positions that signed, the verdict of the threshold and of the SAID, and exactly the text that followed. For every byte stream whatsoever that it does not refuse, a position is reported exactly when a signature in the stream names it and verifies over the bytes of the event under the key at that position, no position is reported twice, and a numeric threshold is reported met only if it is positive and at most the number of different positions that signed.", "quantifier": "all events with up to 2^32 bytes, signers, seeds, messages, signatures, order and repetitions of signatures, texts after them; all byte streams; all signature schemes with the laws of the crypto interface (events that are built and read back: floats finite, and for reading back only floats that print with a point and that the JSON reader reads exactly; nested less than 128 deep)", "why_tests_cant": "All events, sets of signers and streams, including hostile ones with repeated signatures.", "anchors": ["src/core/serder.rs: new, verfers, tholder", "src/core/signer.rs: sign_indexed", "src/core/siger.rs: new", "src/core/counter/mod.rs: new", "src/core/verfer.rs: verify", "src/core/tholder.rs: satisfy", "src/core/saider.rs: verify"]}
{"id": "C88", "title": "Text given as bytes", "statement": "Bytes given where text is expected (a primitive, an indexed signature or a counter as bytes, a message, a threshold) are read like the text when they are the UTF-8 encoding of a Unicode text, and are refused with an error when they are not, whatever they start with: no overlong forms, no surrogates, nothing beyond U+10FFFF, and in particular no binary attachments after a message. Where the library cuts a text it gets exactly the characters between two places between characters; at an offset inside a character the cut panics (these are the panics of C12, C22 and C26).", "quantifier": "all bytes, all Unicode texts, all offsets", "why_tests_cant": "All byte sequences and all characters.", "anchors": ["src/core/matter/mod.rs: new_with_qb64b", "src/core/indexer/mod.rs: new_with_qb64b", "src/core/counter/mod.rs: new_with_qb64b", "src/core/common.rs: sniff, loads", "src/core/tholder.rs: process_limen"]}
{"id": "C89", "title": "Streams that arrive in pieces", "statement": "When only the first part of a stream of primitives, indexed signatures and counters has arrived, the elements that are complete are read as they were sent, and the constructor of the next one answers with an error that says there is nothing yet (empty material) or too little (shortage; one byte of a binary counter: too small), never with a wrong element. (Known exception, a defect: one character of a counter text panics.) So a client that waits for four characters (three bytes) and on a shortage reads exactly the elements that were sent, in order and with nothing left over, however the stream is cut into pieces.", "quantifier": "all sequences of obtainable elements, both domains, all cut points, all ways to cut a stream into pieces", "why_tests_cant": "Every schedule of arrival and every sequence of elements.", "anchors": ["src/core/matter/mod.rs: exfil, bexfil", "src/core/indexer/mod.rs: exfil, bexfil", "src/core/counter/mod.rs: exfil, bexfil"]}
{"id": "C90", "title": "Chained histories", "statement": "Take a client that replays a key event log with the library: every event is read from bytes with Serder::new_with_raw, its SAID must verify against its own map (Saider::verify with prefixed and versioned), a first event has no `p` and every other event has the SAID text of the event before it in `p`, and an establishment event that is not the first must have keys (verfers) whose texts verify, position by position, under the digests (digers) of the latest establishment event. Then (1) two histories of any lengths that this client accepts and that end with the same SAID are the same sequence of maps, unless two specific events in them have different contents with the same digest; (2) after such histories any two establishment events it accepts set the same keys, unless additionally two specific key texts have the same digest; (3) an event built from a map with the version string first, with the right SAID, prior SAID and committed keys, is accepted from its bytes.", "quantifier": "all histories of any length, all events (floats finite, and for reading back only floats that print with a point and that the JSON reader reads exactly), all pairs of histories, every hash function", "why_tests_cant": "The claim compares any two accepted histories of any length, under any hash function; it combines reading, SAID verification, the canonical text of digests and key parsing.", "anchors": ["src/core/serder.rs: new_with_raw, verfers, digers, est", "src/core/sadder.rs: said", "src/core/saider.rs: verify, new", "src/core/diger.rs: verify"]}
{"id": "C91", "title": "Duplicity is evident", "statement": "Take a client that replays signed key event logs with the library: every event is accepted as in C90 and is followed by a counter and indexed signatures (Siger::new_with_qb64) of which those that verify (Verfer::verify) over its bytes, under the key at the position they name, reach the signing threshold (Tholder::satisfy) in force, counting each position once; keys and threshold are those of the event itself for an establishment event and otherwise of the latest establishment event. If two logs of any lengths that this client admits begin with the same SAID, then one is a continuation of the other (as maps), or there is a common part after which the two logs contain two different events, each carrying verifying signatures over its own bytes that reach the threshold in force - under the same keys and threshold if neither event sets keys, under the same keys if both do (unless two committed key texts have the same digest) - or the two first events have different contents with the same digest. An accepted event signed by the holders of the keys in force, enough to reach the threshold, is admitted.", "quantifier": "all pairs of admitted logs of any length, all events, signature sets, thresholds, hash functions and signature schemes (floats in events finite)", "why_tests_cant": "Quantifies over all pairs of histories and all sets of signatures, under any hash function and signature scheme.", "anchors": ["src/core/serder.rs: new_with_raw, verfers, digers, tholder, est", "src/core/saider.rs: verify", "src/core/siger.rs: new_with_qb64", "src/core/verfer.rs: verify", "src/core/tholder.rs: satisfy", "src/core/counter/mod.rs: new_with_qb64, full_size"]}
{"id": "C92", "title": "Receipted events", "statement": "Take an event built with Serder::new_with_ked whose b field lists witness keys and whose bt field is a hexadecimal number, and any list of witnesses each of which signs the raw bytes of the event with Signer::sign_unindexed. A client that reads the concatenation of the raw bytes, a counter of code -C and the couples of key text (Verfer) and signature text (Cigar), followed by any further text - taking the event with Serder::new_with_raw, the counter with Counter::new_with_qb64, the couples with Verfer::new_with_qb64 and Cigar::new_with_qb64, skipping full_size characters each time, and comparing the keys of the signatures that verify with Serder::werfers - gets back the same event, exactly the witnesses that are named in b and signed, each once, whether they are at least as many as bt says, and the further text unchanged. Conversely for every byte stream that this client accepts: a key is reported exactly if b names it and a couple found in the text after the event consists of this key and a signature that verifies under it over the bytes of the event, and no key is counted twice. The number that is asked for is what the bt field says: an integer that is not negative, or a hexadecimal number below 2^128, no digits at all counting as zero; with anything else in bt nothing is accepted.", "quantifier": "all events, all lists of witnesses (with repetitions and strangers), all thresholds, all further text; all byte streams (events that are built and read back: floats finite, and for reading back only floats that print with a point and that the JSON reader reads exactly; nested less than 128 deep)", "why_tests_cant": "Quantifies over all events, witness lists, key kinds and streams, including repeated receipts and receipts of strangers.", "anchors": ["src/core/serder.rs: new_with_raw, werfers", "src/core/verfer.rs: new_with_qb64, verify", "src/core/cigar.rs: new_with_qb64", "src/core/signer.rs: sign_unindexed", "src/core/counter/mod.rs: new_with_qb64, full_size", "src/core/number.rs: new_with_numh"]}
{"id": "C93", "title": "Partial rotations", "statement": "A rotation event may use some of the keys that the latest establishment event has committed to in n, and new keys besides: each indexed signature names the position of its key in the event (index) and the position of the commitment that this key opens (ondex). Take a client that reads an event with Serder::new_with_raw, verifies its SAID, checks that p is the SAID of the latest event, reads a counter and indexed signatures, and accepts if the positions of the keys whose signatures verify (Verfer::verify) satisfy Serder::tholder of the event, and the ondex positions of those whose key text is committed to at that position (Diger::verify against Serder::digers of the latest establishment event) satisfy Serder::ntholder of that event. For every byte stream that it accepts: the event is genuine and linked; every counted position was named by a signature found in the stream that verifies over the bytes of the event; the counted commitments are different positions, each opened by a key of the event that hashes to it and has signed; if the commitments are digests of one kind that all differ, they were opened by different keys, so that a numeric threshold n needs n different keys that were committed to. Conversely a rotation built with Serder::new_with_ked and signed with Signer::sign_indexed - keys committed to with both positions, new keys with the current position only - is accepted exactly if its signers reach both thresholds - then with exactly these positions and the further text unchanged - and is otherwise refused with a validation error.", "quantifier": "all histories, all byte streams; all events, signers, commitments, positions and thresholds (events that are built and read back: floats finite, and for reading back only floats that print with a point and that the JSON reader reads exactly; nested less than 128 deep)", "why_tests_cant": "Quantifies over all histories, key lists, positions and byte streams, including streams made by someone without the keys.", "anchors": ["src/core/serder.rs: new_with_raw, verfers, digers, tholder, ntholder, est", "src/core/signer.rs: sign_indexed", "src/core/indexer/mod.rs: ondex", "src/core/siger.rs: new_with_qb64", "src/core/diger.rs: verify", "src/core/tholder.rs: satisfy"]}
{"id": "C94", "title": "Credential graphs", "statement": "Take a client that checks a credential together with the credentials it rests on: each is read from bytes with Creder::new_with_raw, its SAID must verify against its own map (Saider::verify with prefixed and versioned), and the SAIDs that its edge section (Creder::chains) names in n, in order, must be those of the credentials supplied for it, which are checked in the same way, to any depth. Two such collections that the client accepts, of any shapes, whose top credentials have the same SAID consist of the same credentials - same shape, same maps - unless at one and the same place in both two credentials have different contents with the same digest. So one SAID fixes everything a credential rests on. Conversely credentials built with Creder::new_with_ked from maps with the version string first, with the right SAIDs in d and in the edges, are accepted from their bytes with any text after them. In what is accepted the credentials that a credential rests on are exactly those whose SAID its edge section names, at every depth of groups and lists of edges.", "quantifier": "all collections of any shape and depth, all credentials (floats finite, and for reading back only floats that print with a point and that the JSON reader reads exactly), all pairs of collections, every hash function", "why_tests_cant": "The claim compares any two accepted graphs of any depth and width, under any hash function.", "anchors": ["src/core/creder.rs: new_with_raw, new_with_ked, chains", "src/core/sadder.rs: said", "src/core/saider.rs: verify, new"]}
{"id": "C95", "title": "All builds and platforms give the same answers", "statement": "Building, parsing and deriving primitives, counters, indexed signatures, prefixes, SAIDs, events and credentials, reading their fields, and signing give the same answer (value, error or panic) in debug and release builds, on 32- and 64-bit machines and however the processor rounds; so do the text and binary forms of obtained objects, SAID, digest and prefix checks on obtained objects, and the signers of a salt at positions that fit 32 bits. For objects altered after construction and for weighted thresholds the builds agree except that a build with overflow checks may panic where the others answer. Following a path is the same unless a component is a number that does not fit 32 bits. (Known exceptions, defects: C18, C36, C50.)", "quantifier": "all pairs of builds (overflow checks on or off, word size of at least 32 bits, any rounding of the logarithm that is exact when the number fits) and all arguments", "why_tests_cant": "a test runs in one build on one machine; the claim compares all of them on all inputs", "anchors": ["src/core/util.rs: u32_to_b64, u64_to_b64, code_b2_to_b64", "src/core/matter/mod.rs: new, qb64, qb2", "src/core/indexer/mod.rs: infil, binfil", "src/core/counter/mod.rs: new, qb64, qb2, count_as_b64", "src/core/tholder.rs: new, satisfy", "src/core/pather.rs: resolve", "src/core/salter.rs: signers", "src/core/saider.rs: saidify, verify", "src/core/prefixer.rs: new, verify"]}
{"id": "C96", "title": "Native numbers in and out of documents", "statement": "Every i8, i16, i32, i64, u8, u16 and u32 put into a document (Value::from) comes out as the same integer by to_i64 and by i64::try_from, and to_f64 refuses it; every f64 comes out as the same float by to_f64 and f64::try_from, every f32 as the double of the same value, sign and kind, and to_i64 refuses them. i64::try_from on a float drops the fraction (the integer of no larger magnitude less than one away), and goes to the end of the range when the float is out of range; f64::try_from on an integer gives the nearest double, with ties to the even one, so exactly the integer up to 2^53 in magnitude, and then i64::try_from of the result gives the integer back. What is not a number is refused by all of them. Two numbers in documents are equal exactly when both are integers or both floats and have the same value; NaN equals nothing. Integers print and read as themselves. (Known exception, a defect: infinities and NaN are accepted, print as null, and are read back as null.)", "quantifier": "all integers of all seven widths, all bit patterns of f32 and f64, all other documents", "why_tests_cant": "2^64 bit patterns; rounding is specified against all other floats", "anchors": ["src/data.rs: From<f32>, From<f64>, From<i8>..From<u32> for Value, TryFrom<&Value> for i64, TryFrom<&Value> for f64, to_i64, to_f64, Number, to_json"]}
{"id": "C97", "title": "Documents made from maps", "statement": "A document made from a HashMap (Value::from(&HashMap)) has exactly the entries of the map; whatever the order of the map's iterator, the documents are equal and hold the same value at every key. A document written down with dat!({..}) holds at every key the value written last for it, has its keys in the order of their first writing, and with no key written twice is the entries as they are written, so its text and SAID are determined. (Known exception, a defect: the iterator of a HashMap has no fixed order, and the order goes into the document: any map of two or more entries has two orders whose documents, although equal, have different JSON texts, and whose SAIDs differ unless the hash collides on the two contents. So the SAID of a document made from a HashMap is not a function of the map.)", "quantifier": "all maps, all iteration orders, all sequences of written entries (plain values), every hash function, all digest codes, kinds and labels", "why_tests_cant": "ranges over all maps and all orders of an iterator that is random in each process", "anchors": ["src/data.rs: From<&HashMap<String, Value>> for Value, dat!, to_json, PartialEq", "src/core/saider.rs: saidify"]}
{"id": "C98", "title": "Selective disclosure", "statement": "Take a client that checks a document under a SAID together with some of its parts: the SAID must verify against the document (Saider::verify with prefixed and versioned), and each part comes with a path (Pather) that leads, in the document above it, to a text from which a SAID is read (Saider::new_with_qb64); the part is checked under that SAID in the same way, to any depth. Two disclosures accepted under the same SAID, each showing whichever parts it likes, agree on everything both show: two documents reached along the same paths are the same map, unless at one place on the way the two documents shown there have different contents with the same digest. Every document of an accepted disclosure carries in d the text of the SAID under which it was checked, and that is what the text at the path in the document above it begins with. Conversely documents made with Saider::saidify, with the text of a part's SAID at each path, are accepted, whichever parts are shown.", "quantifier": "all trees of documents (floats finite), all paths, all choices of parts shown, all pairs of disclosures, every hash function, all digest codes", "why_tests_cant": "compares any two accepted disclosures of any depth and any choice of parts, under any hash function", "anchors": ["src/core/saider.rs: verify, saidify, new_with_qb64", "src/core/pather.rs: resolve, new_with_path", "src/core/bexter.rs: bext"]}
{"id": "C99", "title": "Building a primitive from a code and raw bytes, whatever the code", "statement": "new_with_code_and_raw (and new with raw) is determined for every text given as code. An empty code is an error; a fixed-size code takes the first bytes of the raw that the code carries and refuses a shorter raw. When the code starts with one of 4 to 9 the raw is taken whole (its length modulo 2^32), the digit is replaced by the one for the lead bytes (and 4, 5, 6 by the large form from 4096 groups of three bytes on; from 64^4 groups on it is refused), and the characters that follow are taken over unchecked. Every other code is an error. With a code of the library the build never panics; what was built has a text, and a binary form, exactly when its code is one of the library. (Known exceptions, defects: a code that starts with 4 to 9 and lacks the one or three characters that should follow, or has multi-byte characters there, panics; a wrong character after 4 to 9 builds an object that cannot be encoded; characters beyond the code are ignored.) Verfer, Cigar, Diger, Seqner, Dater, Bexter and Pather given raw panic exactly when this build panics, because they look at the code afterwards; Number, Salter, Prefixer, Saider and Siger never do, nor does Signer unless another input is given besides the raw.", "quantifier": "all UTF-8 texts as code, all raw byte strings, all other constructor arguments, all hash and signature functions", "why_tests_cant": "the code argument is free text and the raw of any length; only the table codes are ever tried in tests", "anchors": ["src/core/matter/mod.rs: new_with_code_and_raw", "src/core/matter/tables.rs: SMALL_VRZ_DEX, LARGE_VRZ_DEX, raw_size", "src/core/verfer.rs: new", "src/core/cigar.rs: new", "src/core/diger.rs: new", "src/core/seqner.rs: new", "src/core/dater.rs: new", "src/core/bexter.rs: new", "src/core/pather.rs: new", "src/core/number.rs: new", "src/core/salter.rs: new", "src/core/prefixer.rs: new", "src/core/saider.rs: new", "src/core/signer.rs: new", "src/core/siger.rs: new"]}
{"id": "C100", "title": "Where the remaining calls panic", "statement": "Outside reading a primitive (C12, C22, C26), reading JSON and building (C99), the calls of the library panic exactly here. Lists of an event: verfers, digers, werfers panic exactly when all entries before some text can be read (with a code of the type) and reading that text panics. tholder and ntholder: exactly when reading the threshold panics (C38). sner, sn: exactly without a field s. fner: exactly when reading the text in f panics; fn: also when its value does. status and chains never. Typed constructors given a text, text bytes or binary: exactly when reading the primitive panics; a Signer also on an Ed25519 private key of less than 32 bytes; Number, Salter and Prefixer only when the code argument is of the type. Signing (indexed or not), verifying a signature, stretching a salt and deriving a signer never panic, for every state of the object; signers panics exactly in a build with overflow checks when the positions leave the range of usize and every signer before can be derived. Verifying a digest and comparing two digest objects never panic; comparing with a digest text panics exactly when it differs from the own text and reading it panics. Number's num, numh and positive panic exactly when the raw is not as long as the code says, Seqner's sn and snh on less than 16 bytes; bext and dts never. A Dater built from a text panics exactly when byte 32 of the text is inside a multi-byte character. (Each panic is a defect: the functions return a Result.)", "quantifier": "every event, credential, list, primitive state, text, binary, signer, salt, digest, curve, path, tier, index, build profile and word size; every hash and signature library with the stated laws", "why_tests_cant": "the absence of panics, and exact panic conditions, range over all inputs and states; tests show single panics at best", "anchors": ["src/core/serder.rs: verfers, digers, werfers, tholder, ntholder, sner, sn, fner, fn", "src/core/creder.rs: status, chains", "src/core/signer.rs: sign_unindexed, sign_indexed, derive_verfer", "src/core/verfer.rs: verify", "src/core/salter.rs: stretch, signer, signers", "src/core/diger.rs: verify, compare_dig, compare_diger", "src/core/number.rs: num, numh, positive", "src/core/seqner.rs: sn, snh", "src/core/bexter.rs: bext", "src/core/dater.rs: new, dts", "src/crypto/sign.rs"]}
{"id": "C101", "title": "How a threshold is read", "statement": "As the field of an event: a text that does not start with [ is accepted exactly when it is a hexadecimal numeral below 2^32 (either case, optional plus sign, leading zeros, also a minus sign before zeros only), and then is the same threshold as that number; a text that starts with [ is read as JSON and, if that is a list, taken as that list; a non-empty list of lists of texts is the same threshold as that value, a non-empty list of texts the same as a single clause of them; a number is that number; everything else is refused. As a limen: a number primitive is the threshold of its value when that is below 2^32 and is refused otherwise; a Base64 text primitive is the threshold of the unique list of clauses it writes (clauses separated by a, weights by c, s for the slash); any other primitive, and bytes that are none, are refused. Several forms at once are read in the order value, limen (an empty one counts as none), event form; every one has to be accepted and the last one is the threshold; none at all is refused. An accepted threshold of a number shows the number, also as its size; one of weights shows no number and the count of weights as its size.", "quantifier": "every value, text, limen and combination of them", "why_tests_cant": "texts, lists and limens of any length; an exact acceptance condition", "anchors": ["src/core/tholder.rs: new, process_thold, process_limen, process_sith, process_unweighted, num, size, weighted"]}
{"id": "C102", "title": "Objects from default() vouch for nothing", "statement": "The classes have a public default(), that holds nothing and has a code of its class (Ed25519 keys, seeds and signatures, Blake3-256 digests, the smallest text and number, low tier; a counter has no code). Whatever the signature, data, document, event, path, options and libraries: the default Verfer verifies no signature (always an error), and so does the key of a Cigar or Siger that was made or read without naming a key; the default Signer signs nothing, indexed or not; the default Diger matches no data and compares equal to nothing; the default Saider verifies no document, the default Prefixer no event; the default Tholder is met by no set of signatures, although it shows the number 1, and has no limen; the default Salter stretches and derives nothing when the key-stretching library refuses an empty salt. Only the default Bexter and Pather can be encoded, and read back as themselves; the default Dater has a text, its code, which is not read back, and no binary; every other class gives an error. A default Serder or Creder is accepted as the message to copy, has no SAID, no bytes, an empty map, no keys, commitments, witnesses and thresholds. (Known exceptions, defects: num, numh, positive of the default Number, sn, snh of the default Seqner, and the accessors of required fields of a default message panic.)", "quantifier": "every signature, data, digest, document, event, index set, option, hash and signature library and build", "why_tests_cant": "that nothing at all is approved ranges over all inputs", "anchors": ["impl Default in src/core/{verfer,signer,cigar,siger,diger,saider,prefixer,number,seqner,dater,bexter,pather,salter,counter/mod,tholder,serder,creder}.rs"]}
{"id": "C103", "title": "A signed log in one byte stream", "statement": "Take a client that reads a whole log of signed events from one byte stream: it takes an event from the front (Serder::new_with_raw, accepted after the events before it as in C90), then a counter and as many indexed signatures as it says, requires that different keys in force with the event (its own keys if it sets keys, else those of the latest establishment event) reach the threshold in force with verifying signatures over the bytes of the event, and goes on with the text after the signatures until nothing is left. Then (1) every log of signed events of any length that a controller builds with the library (events from maps with the version string first and the right SAID, prior SAID and committed keys, a counter, signatures by signers whose public keys are those in force, that reach the threshold), put one after the other into one stream, is taken in full and gives exactly its events; (2) every byte stream whatsoever that is taken in full consists of one part per event, in order and without gaps, each beginning with the bytes of its event and containing the verifying signatures of different keys in force that reach the threshold; (3) the client always gets to an end: each event takes something from the stream, so a number of rounds equal to the length of the stream is enough; (4) two streams taken in full that end with the same SAID hold the same events, unless two specific events have different contents with the same digest.", "quantifier": "all logs of any length, all events and signatures in them (floats finite, and for reading back only floats that print with a point and that the JSON reader reads exactly; nested less than 128 deep, less than 2^32 bytes); all byte streams; every hash function and every signature scheme with the laws of the crypto interface", "why_tests_cant": "Framing has to hold at every boundary between events of a log of any length, and the meaning of acceptance for every hostile stream.", "anchors": ["src/core/serder.rs: new_with_raw, verfers, digers, tholder, est", "src/core/sadder.rs: new, raw, size", "src/core/counter/mod.rs: new_with_qb64, full_size", "src/core/siger.rs: new_with_qb64", "src/core/indexer/mod.rs: full_size", "src/core/saider.rs: verify", "src/core/verfer.rs: verify", "src/core/diger.rs: verify", "src/core/tholder.rs: satisfy"]}
{"id": "C104", "title": "What secrets leave in memory", "statement": "A private seed or salt that cesride handles does not stay in memory that has been given back to the allocator: when a primitive is written with qb64() or qb2(), when one is made from raw material, from a text or from binary, when a Salter is made in any of these ways or at random, and when a Signer or Salter is dropped, every buffer the crate itself filled with the material or its text is overwritten with zeros before it is freed (for calls that succeed). So a Salter that is only written and dropped leaves nothing. (Known exceptions, defects, and exact: making a Signer leaves one copy of the seed; each sign_unindexed and sign_indexed leaves one more; each stretch leaves a copy of the salt, each derived signer the salt and its seed; qb64b() leaves the text, and so does reading from qb64b; assigning new material leaves the old. Over the whole life of an object exactly these copies remain. Calls that fail may leave copies: a text refused for its pad bits leaves the decoded material, and signer() with a code no signer takes leaves the stretched seed.)", "quantifier": "all primitives, all constructor arguments, all messages signed, all sequences of uses of a signer or salter before it is dropped, all libraries", "why_tests_cant": "Freed memory cannot be observed by a safe test, and the claim is about every buffer on every path of every call.", "anchors": ["src/core/matter/mod.rs: infil, binfil, exfil, bexfil, new_with_qb64b, qb64b (zeroize, Zeroizing)", "src/core/signer.rs: Signer (ZeroizeOnDrop), new, derive_and_assign_verfer, sign_unindexed, sign_indexed, set_raw", "src/core/salter.rs: Salter (ZeroizeOnDrop), new, stretch, signer, signers"]}
{"id": "C105", "title": "Signatures on parts of documents", "statement": "Take a client that signs the part of a document a path leads to (Pather::tail, then sign_unindexed over its bytes) and one that checks such a signature (tail, then Verfer::verify). Then (1) whenever the path has a tail in the document, every signer the library makes can sign it, and the signature is accepted for that path and document, also after it went through its text; (2) the signed text fixes the part: two paths in two documents with the same tail lead to the same value, so a signature on a part of one document that is accepted for a part of another is either on the same value or verifies over two different byte strings; (3) the place is not signed: where two paths lead to the same value, every signature gets the same verdict at both; (4) when a document is put inside another one, at a place a root path without empty components leads to, the path with the root put in front (root) has the tail there that the path had before, so every signature gets the same verdict, and such a path exists as long as its text is not too long; (5) taking the root away again (strip) gives a path with the components, the tail and the verdicts of the first one, if the components of the root are different and do not occur in the path. (Known exceptions, defects: with an empty component inside the root the moved path leads elsewhere; a root whose component occurs again in the path is not taken away by strip.)", "quantifier": "all documents (for (2): with distinct keys and finite floats), all paths and roots (path texts below 4 GiB), all signers, all signatures, every hash function and every signature scheme with the laws of the crypto interface", "why_tests_cant": "That no two different parts share a signed text, and that moving keeps every verdict, has to hold for all pairs of documents and paths of any depth.", "anchors": ["src/core/pather.rs: tail, resolve, root, strip, path", "src/core/signer.rs: sign_unindexed", "src/core/verfer.rs: verify", "src/data.rs: to_json"]}
{"id": "C106", "title": "Objects handed to the JavaScript bindings", "statement": "In a JavaScript program over the bindings, for every history of calls that respects the declared types: (1) a call uses up exactly the objects handed to it as arguments — whether it succeeds or fails — and no other; no object is ever changed; the object a call answers is new and usable; so an object is usable exactly if no call was handed it, and calls that break the declared types never make other objects unusable; (2) a call with usable objects answers what the library gives for their contents; methods use up neither their own object nor the Diger that compare_diger looks at; a constructor without object arguments gives a new usable object or changes nothing; free uses up its own object and no other, and answers nothing; (3) a used-up object has no methods left, and handing it over as a required argument is an error; a call that breaks the declared types (an object of another class, a required argument left out) is an error. (Known exceptions, defects: handed over again as an optional argument, a used-up object silently counts as absent. So the second Cigar or Siger made with one Verfer carries an empty Verfer that accepts no signature, the second Number or Seqner made from one serder.sn() is zero, and one Value passed as both thold and sith of a Tholder counts only as thold.)", "quantifier": "all object heaps, all histories of calls of any length, all handles and arguments of every binding that takes objects, every hash function", "why_tests_cant": "Which objects are still usable depends on the whole history of a program; that nothing else is lost, and that every later use of a used-up object is affected, has to hold for all histories.", "anchors": ["wasm/src/primitives/cigar.rs: new, new_with_raw, new_with_qb64b, new_with_qb64, new_with_qb2", "wasm/src/primitives/siger.rs: new, new_with_raw, new_with_qb64b, new_with_qb64, new_with_qb2", "wasm/src/primitives/number.rs: new, new_with_num", "wasm/src/primitives/seqner.rs: new, new_with_sn", "wasm/src/primitives/saider.rs: new, new_with_sad, verify", "wasm/src/primitives/prefixer.rs: new, new_with_ked, verify", "wasm/src/primitives/serder.rs: new, new_with_ked", "wasm/src/primitives/tholder.rs: new, new_with_thold, new_with_sith", "wasm/src/primitives/diger.rs: compare_diger", "wasm/src/util.rs: U128Wrapper, ValueWrapper"]}
{"id": "C107", "title": "Default witness thresholds", "statement": "For the number of confirming witnesses that the builder of inception events proposes (ample) out of n witnesses: (1) when none of the numbers is given, any two sets of witnesses that reach it have more than (n-1)/3 (rounded down) witnesses in common, so a non-faulty one as long as fewer than a third are faulty, and it lies between 1 and n; (2) when (n-1)/3 witnesses do not answer, the remaining ones still reach it; (3) when the number f of faulty witnesses is given, a threshold is proposed exactly if some threshold is both safe and reachable for f, that is if 3f < n, and otherwise there is an error; the weak proposal is the smallest and the strong one the largest such threshold. (Known exceptions, defects: (2) fails exactly for n = 4, 7, 10, …, where the default is one more than necessary, so that with four witnesses a single silent one blocks; n = 0 without f, and f > n, panic in builds with overflow checks, and without them f > n is answered with a threshold that is not safe.)", "quantifier": "all numbers of witnesses below 2^126, all f, weak and strong, all sets of witnesses, builds with and without overflow checks", "why_tests_cant": "Safety and reachability speak about all pairs of sets of witnesses for all n; a test on a few n misses that the formula is off by one exactly on n = 3f + 1.", "anchors": ["src/core/serder.rs: test::ample, test::incept"]}
{"id": "C108", "title": "Inception events", "statement": "Every event that the builder of inception events returns has exactly the fields of an inception event in the usual order with the given keys, digests of next keys, witnesses, configuration, data and delegator, the sequence number 0 and a version string telling its size, and its bytes are its serialization. Its thresholds are read as those that were given, by default half of the keys rounded up; the keys can meet the signing threshold, and there are enough digests for the next one; the witness threshold is the given one, by default that of C107, and lies between 1 and the number of witnesses (0 without witnesses); no witness stands next to itself. Thresholds are written as numbers if that was asked for and they are numbers below 2^32 - 1, and otherwise as canonical hexadecimal text or as weights. The identifier is either the SAID of the event with the code E (for delegated identifiers, or when that code is asked for) and verifies against the event; or it is the only key of the event and verifies unless the key text goes on after the key, and the SAID of the event verifies. No other codes lead to an event, and without code and delegator only a single key does. Conversely, with readable thresholds that fit there is always an event, with the code E for all keys, and for a single key without code or, if it can be rotated, with its own code, unless it comes near 16 MiB. (Known exceptions, defects: keys, digests and witnesses are not looked at, so that there are events whose keys cannot be read, and a witness may come twice when another one stands between; a single key may be any primitive, such as a salt; a key that cannot be rotated is accepted with digests of next keys although the identifier does not verify then; and the SAID of a self-addressing event passes the check for SAIDs only with a hash collision.)", "quantifier": "all keys, thresholds, digests, witnesses (fewer than 2^126), data, codes, delegators, hash functions", "why_tests_cant": "The tests build a handful of events with one or two keys and compare the bytes with known ones; they say nothing about other thresholds, lists and codes, or about which arguments are refused.", "anchors": ["src/core/serder.rs: incept, ample", "src/core/prefixer.rs: new, verify", "src/core/saider.rs: saidify"]}
{"id": "C109", "title": "Messages with attached signatures are self-describing, and receipts name what they receipt", "statement": "messagize writes an event with indexed signatures obtained from the library - of the controller, optionally behind a seal whose identifier and digest are texts of primitives, and of witnesses - as one text exactly if something is given to attach, no group has more than 4095 signatures and the sequence number of a seal (unless it is for the last event) is a hexadecimal number below 2^128; otherwise it is an error, and it never panics. A reader that knows nothing but the codes of the counters gets from this text, whatever text follows that does not begin with a counter, exactly the event, the seal, the signatures of the controller, those of the witnesses, and the text that follows. receipt makes, for every identifier, sequence number below 2^128 and SAID with the default code (up to 16 MiB), an event of type rct that shows these three and is read back from its bytes whatever text follows; it is not an establishment event. (Known exceptions, defects: signatures that are not indexed are accepted and dropped without notice, a seal without signatures of the controller is dropped too, empty lists pass for signatures, and the texts of a seal are written unchecked, so that messages can be made which are not read.)", "quantifier": "all events, lists of signatures, seals, identifiers, sequence numbers, SAIDs, following texts", "why_tests_cant": "ranges over all signature lists and seals; the crate's test prints one message and never reads it", "anchors": ["src/core/salter.rs: messagize (369-426)", "src/core/salter.rs: receipt (428-452)", "src/core/salter.rs: Seal (276-297)"]}
{"id": "C110", "title": "An identifier can be founded, witnessed and accepted over one stream", "statement": "An inception event made by incept from the keys of signers and witnesses obtained from the library, with valid texts and ordinary data, is read back from its bytes whatever text follows. Signed by any of its keys with sign_indexed, written by messagize, and followed by a receipt message made for its identifier, number 0 and SAID with signatures of witnesses over the event, it is accepted by a receiver who uses nothing but the readers, accessors and checks of the library: the receiver gets the event back, finds that the identifier verifies (if it is self-addressing, or the key is transferable, or there are no next keys), learns exactly the positions of the keys that have signed and whether they reach the signing threshold (a number is reached by that many different signers; every threshold by exactly its positions), then from the receipt exactly the positions of the witnesses that have signed and whether they reach the witness threshold that was asked for, and is left with exactly the text that follows. Conversely, for every byte stream the verdicts of this receiver mean what they say: every position reported belongs to a signature in a group of the right kind that verifies under the key at that position over the bytes of the event. If two streams are accepted with the same self-addressing identifier, their events (version string in front, floats finite) agree in all fields but the version string, or the hash collides. (Known exception, a defect: the identifier check of the library does not look at the SAID field, so that the SAID of a self-addressing inception event can be replaced by any text unnoticed; the receiver must compare that field itself.)", "quantifier": "all inception arguments, signers, witnesses, sets and orders of signatures, following texts; all byte streams; all digests", "why_tests_cant": "The repository's vault test prints one such exchange and checks nothing; which signatures count, what is lost between messages and what an attacker can change are statements about all events, signatures and streams.", "anchors": ["src/core/salter.rs: tests Vault, incept, messagize, receipt", "src/core/serder.rs: Serder::new, verfers, werfers, tholder", "src/core/prefixer.rs: Prefixer::verify, verify_digest", "src/core/signer.rs: sign_indexed", "src/core/verfer.rs: verify", "src/core/tholder.rs: satisfy"]}
{"id": "C111", "title": "Any signers and witnesses can found an identifier, and a receiver accepts it", "statement": "Take any signers (at least one), next signers and witnesses (different from each other), made by the library in any way and of any of the supported kinds, at most 4096 of each, and optionally a delegator. Then the texts of their keys, the digests of the next keys and the inception event with default thresholds and a self-addressing identifier can be made without error; the event shows exactly these keys and witnesses in order, digests that verify against the next keys in order, sequence number 0, and an identifier equal to its SAID. Whichever signers sign it (in any order, repeatedly, at most 4095 signatures) and whichever witnesses sign a receipt for it, both messages can be written, and a receiver who reads them one after the other, with anything but a counter behind, gets the event back, finds that the identifier belongs to it, learns exactly who has signed, finds the event signed exactly if at least half of the signers have, finds it witnessed exactly if the default number of witnesses have signed, and is left with the text behind. In particular everything is complete if all sign.", "quantifier": "all lists of signers, next signers and witnesses, delegators, digests, sets and orders of signing positions, random values, following texts", "why_tests_cant": "That no combination of key kinds, numbers of participants and signing sets makes some step fail, overflow a size field, or be refused by the receiver is a statement about all of them; the vault test runs one, and checks nothing.", "anchors": ["src/core/salter.rs: tests Vault, incept, messagize, receipt", "src/core/signer.rs: Signer, sign_indexed", "src/core/diger.rs: Diger::new", "src/core/verfer.rs", "src/core/serder.rs", "src/core/prefixer.rs", "src/core/tholder.rs"]}
{"id": "C112", "title": "An identifier lives on: the signers committed to can always rotate, and a receiver can replay the whole history", "statement": "Take an identifier founded as in C111 and rotated any number of times as follows, with any number of interaction events (C115) before, between and after: the signers whose keys the latest event that sets keys has committed to (made by the library, of any supported kinds, at most 4096, not none) read the identifier, sequence number and SAID of the latest event, build a rotation event with the identifier, the next sequence number, the SAID as prior, their keys, digests of the keys of any next signers (at most 4096, possibly none), thresholds of half of the keys, made with Saider::saidify and Serder::new_with_ked; some of them sign it, each naming its position for the key and for the commitment, and it is written as a message. Then, as long as the sequence number fits into 128 bits, the rotation can always be made; it has the same identifier as all events before and as sequence number the number of events before; whichever of the signers sign (in any order, repeatedly, at most 4095 signatures), the message can be written, and a receiver that has the history (the client of C93) accepts it exactly if at least half of the signers have signed, and otherwise refuses it with a validation error. A receiver that has nothing but the stream of all messages, with anything but a counter behind, gets back the whole history and the text behind. If the latest event that sets keys commits to nobody, no byte stream at all is accepted as a rotation.", "quantifier": "all foundings, all numbers and orders of rotations and interactions, all lists of signers and next signers at each step, digests, sets and orders of signing positions, random values, following texts; for abandoned identifiers all byte streams", "why_tests_cant": "A statement about histories of every length, and at each step about every combination of key kinds, numbers of signers and signing sets; no test builds a single rotation.", "anchors": ["src/core/serder.rs: new_with_ked, new_with_raw, pre, sn, digers, ntholder, tholder, est", "src/core/saider.rs: saidify", "src/core/tholder.rs: new, sith, satisfy", "src/core/number.rs: numh", "src/core/signer.rs: sign_indexed", "src/core/salter.rs: tests messagize"]}
{"id": "C113", "title": "What the readers say of the start of a stream", "statement": "For a text, the primitive reader and the indexed-signature reader (qb64) answer EmptyMaterial exactly if it is empty; UnexpectedCode exactly if it starts with '-' or '_'; UnknownHardage exactly if it starts with another character that starts no code; UnknownSizage exactly if it starts with a character that starts codes and has at least as many characters as these, but they are not a code (if the place where these end is inside a multi-byte character, the reader panics instead: C12, C22, C26). For a byte string (qb2) the same holds of the characters its bits show (with UnknownBardage instead of UnknownHardage). Every other error is one of a fixed list for each reader. The counter reader answers likewise by the first two characters, for texts and byte strings; a byte string of one byte is TooSmall. Byte strings read the same way as the texts they stand for: the readers of both classify the start alike. (Known exception, a defect: the counter reader recognizes an op code, '_', only in byte strings, where it answers UnexpectedOpCode; in a text it answers, if there are two characters, UnknownHardage, as for any garbage.)", "quantifier": "all texts and all byte strings, all three readers in both domains", "why_tests_cant": "There are 256 first bytes, four-character codes and texts of any length; tests try a handful. A wrong class of error makes a stream parser take a counter for garbage or wait for more bytes forever.", "anchors": ["src/core/matter/tables.rs: hardage, bardage, sizage", "src/core/matter/mod.rs: exfil, bexfil", "src/core/indexer/tables.rs: hardage, bardage, sizage", "src/core/indexer/mod.rs: exfil, bexfil", "src/core/counter/tables.rs: hardage, bardage, sizage", "src/core/counter/mod.rs: exfil, bexfil"]}
{"id": "C114", "title": "Numbers and texts handed to the JavaScript bindings", "statement": "A JavaScript text reaches the library as the UTF-8 text of the same characters, and a text of the library reaches JavaScript as the same characters; the library always gets valid UTF-8; a text handed over and read back (Value) is unchanged, and different texts stay different, exactly if the text has no lone surrogates. A whole number from 0 below 2^32 given as position, other position, list of positions, size, count or start reaches the library unchanged, so signing, checking thresholds, stretching and deriving keys in JavaScript do exactly what the library does. (Known exceptions, defects: a lone surrogate silently becomes U+FFFD, so different texts count as the same; no number is refused: fractions are cut, and numbers from 2^32 on or below 0 count modulo 2^32, infinities and NaN as 0, so that a signature asked for at position 2^32+i is one for position i, and 2^32+i among the positions satisfies a threshold as i does.)", "quantifier": "all JavaScript texts (lists of code units), all characters, all numbers (rational, NaN, infinite), all signers, salters and thresholds", "why_tests_cant": "Texts and numbers are unbounded; tests use a few ASCII texts and small positions.", "anchors": ["wasm/src/util.rs: ValueWrapper", "wasm/src/primitives/signer.rs: sign_indexed, Signers::get", "wasm/src/primitives/siger.rs: new, new_with_raw", "wasm/src/primitives/tholder.rs: satisfy", "wasm/src/primitives/salter.rs: stretch, signers"]}
{"id": "C115", "title": "Between rotations the signers in force can always anchor data, and nothing is lost of it", "statement": "Take any history as in C112 and any list of JSON values (valid text, distinct keys in each map, floats that are read back, nested at most 125 deep, at most 8 MiB as JSON). Then, as long as the sequence number fits into 128 bits, an interaction event can be made with Saider::saidify and Serder::new_with_ked from the identifier, the next sequence number and the SAID of the latest event as prior; it has the same identifier as all events before, as sequence number the number of events before, and holds the values as they were given. Whichever of the signers whose keys are in force sign it (in any order, repeatedly, at most 4095 signatures), the message can be written, and a receiver that has the history (the client of C103) accepts it exactly if at least half of the signers have signed, and otherwise refuses it with a validation error. It changes neither the keys in force nor those committed to: the same signers can anchor more data, and the ones committed to can rotate. A receiver that has nothing but the stream of all messages gets back the whole history with the interactions in their places, and the text behind.", "quantifier": "all histories of foundings, rotations and interactions, of every length and in every order; all lists of data; digests, sets and orders of signing positions, random values, following texts", "why_tests_cant": "A statement about mixed histories of every length and about data of every shape; the tests of the project make no interaction event and keep no history.", "anchors": ["src/core/serder.rs: new_with_ked, new_with_raw, pre, sn, est, verfers, tholder", "src/core/saider.rs: saidify", "src/core/number.rs: numh", "src/core/signer.rs: sign_indexed", "src/core/salter.rs: tests messagize"]}
{"id": "C116", "title": "Nobody else can rotate or anchor: what is accepted after a history was voted for by the signers it names", "statement": "Take any history as in C112 and C115 and any bytes at all, whoever has made them. If a receiver that has the history (the client of C112: rotations are judged as in C93, other events as in C103) accepts an event from them, then the event carries the right digest of its content and names the SAID of the latest event as its prior. If the event sets keys (inception, rotation, delegated), there are positions, no position twice, not none and at least half as many as there are signers committed to, such that for the signer committed to at each of them the bytes contain, behind the event, an indexed signature that verifies over exactly the bytes of the event under that signer's public key, or the digest has a collision: another text with the same digest as that signer's key. If the event does not set keys, there are such positions for at least half of the signers in force, each with a signature that verifies under that signer's public key, without exception.", "quantifier": "all histories of foundings, rotations and interactions, of every length and in every order; all byte strings; all digests and signature schemes with the stated laws", "why_tests_cant": "A statement about every attacker: every byte string that could ever be presented after every history; tests can only present a few.", "anchors": ["src/core/serder.rs: new_with_raw, verfers, digers, tholder, ntholder, est", "src/core/saider.rs: verify", "src/core/diger.rs: verify", "src/core/verfer.rs: verify", "src/core/siger.rs: new_with_qb64", "src/core/tholder.rs: satisfy"]}
{"id": "C117", "title": "JavaScript names of the codes", "statement": "In JavaScript the members of the enumerations of primitive codes and of indexed signature codes are numbers, and the function that turns a number into a code gives for each named member the code of that name in the tables of the standard; different members have different codes; any other number makes it throw, after the conversion of C114. (Known exceptions, defects: the eight codes of ECDSA over secp256r1, that the library itself supports, have no member, while every other code of the library has one; and for a name that is no member, which is undefined in JavaScript, the functions do not throw but give the code A, that of an Ed25519 seed and of an Ed25519 indexed signature.)", "quantifier": "all JavaScript numbers and undefined; all names of members and all other names; all codes of the library", "why_tests_cant": "The repository has no test of the enumerations; a test would try a few members, while the claim is about every number and every name that a program may look up.", "anchors": ["wasm/src/primitives/codex.rs CesrideMatterCodex matter_codex_code CesrideIndexerCodex indexer_codex_code", "src/core/matter/tables.rs Codex", "src/core/indexer/tables.rs Codex"]}
{"id": "C118", "title": "What error messages reveal of secrets", "statement": "The message of an error about a seed or salt tells nothing about the secret. When two primitives, Signers or Salters are asked for with arguments that have the same outline (the same code, raw material of the same length, texts and binaries of the same length that start with the same code) and both fail with an error of the same kind, the messages are the same. When writing a primitive with qb64() or qb2(), signing with a Signer, stretching a salt or deriving a signer from it fails, the message depends only on the code, the sizes and lengths (of the material, the path) and the kind of error. When the Base64 decoder refuses the material of a text, the message shows at most one symbol by number and position, and one that is not in the alphabet, unless the text contains a padding character. When a text given as bytes is no UTF-8, the message holds two numbers. When making a primitive or a Signer from ASCII text or binary panics, the message is the one of an index out of range, which holds numbers. (Known exception, a defect: a seed or salt given as a text that has a multi-byte character across its full size panics with a message of the standard library that quotes the text, up to 256 bytes: the whole secret.) (A second known exception: the debugging form, `{:?}`, of a Signer or a Salter writes the secret out number by number.)", "quantifier": "every pair of arguments with the same outline, every code, material, text (in any encoding) and binary, every key, message, path and tier, every implementation of the foreign crates whose messages obey the stated laws", "why_tests_cant": "Non-interference is a statement about pairs of runs over all secrets; a test sees single messages.", "anchors": ["src/error.rs: Error", "src/core/matter/mod.rs: new, new_with_code_and_raw, infil, binfil, exfil, bexfil", "src/core/matter/tables.rs: sizage, hardage, bardage, raw_size", "src/core/util.rs: b64_char_to_index, code_b2_to_b64", "src/core/signer.rs: Signer::new, derive_verfer, sign_unindexed", "src/core/salter.rs: Salter::new, stretch, signer", "src/crypto/sign.rs: public_key, sign", "src/crypto/salt.rs: stretch", "src/core/signer.rs: Signer, derived Debug", "src/core/salter.rs: Salter, derived Debug"]}
{"id": "C119", "title": "A delegated identifier needs its delegator", "statement": "Take the client that reads the events of a delegator and of a delegated identifier from two streams (each as in C112) and demands that the first event of the one names the identifier of the other (that of its first event) in `di`, and that each founding and each rotation of the delegated identifier (`dip`, `drt`) has its seal - an object of its identifier, its number in hexadecimal and its SAID - among the data of an event of the delegator. What it accepts, from any bytes, satisfies this. For streams made as in C112 and C115 it accepts exactly if this holds, and refuses with an error otherwise. An identifier that is founded with a delegator names him, its events that set keys are delegated ones and no others, and every event has a seal. The signers in force of the delegator can always approve an identifier that names his: with one interaction for each of its events, both are accepted. Nobody else can: bytes that are accepted as the next event of the delegator and make a delegated event approved carry its seal and have the votes that C116 demands. What is approved stays approved, and two events with the same seal are the same map, or their contents collide.", "quantifier": "every delegator and delegated identifier founded, rotated and used for anchoring any number of times (as in C112 and C115), every bytes whoever has made them, every implementation of the signature schemes and digests", "why_tests_cant": "It is about all histories of two identifiers, and about everything that strangers might send.", "anchors": ["src/core/serder.rs: Serder::new, pre, sn, est", "src/core/sadder.rs: Sadder", "src/core/saider.rs: saidify, verify", "src/core/number.rs: Number::new, numh", "src/core/common.rs: Ilkage, Ids", "src/data.rs: Value, PartialEq", "src/core/signer.rs: Signer::sign", "src/core/verfer.rs: Verfer::verify"]}
{"id": "C120", "title": "Credentials issued by an identifier", "statement": "Take a client that has the history of an identifier (as in C112 and C115; its identifier is that of the first event) and accepts a credential from bytes - read with Creder::new_with_raw - exactly if Saider::verify (prefixed, versioned) confirms its digest, Creder::issuer is the identifier, and one event of the history has among its data (`a`) an object with the SAID of the credential at `d` and nothing else. What it accepts, from any bytes and with any history, satisfies this, and it accepts whatever does. An identifier with any history can always make a credential with any schema text, subject and edges (ordinary JSON values of together at most 8 MiB): made with Saider::saidify and Creder::new_with_ked it is genuine and shows issuer, schema, subject and edges as they were given; whatever valid text follows its bytes, it is refused with a validation error as long as no event carries its SAID; with one interaction, signed by any at least half of the signers in force, it is accepted, and stays so whatever events follow. Nobody else can issue: if bytes are accepted as the next event of the issuer and a credential is accepted with it that was not before, the event carries its SAID and has the votes that C116 demands. Two genuine credentials with the same SAID are the same map, or their contents collide. A client that reads a chain of credentials of any length, each with the stream of its issuer's events, and demands that the first issuer is one it trusts and each further one is the text at `i` of the subject of the credential before, accepts exactly the chains of which all this holds.", "quantifier": "all byte strings, histories, chains of any length, schema texts, subjects and edges, signers and sets of them, random numbers, hash and signature functions with the laws of DESIGN.md", "why_tests_cant": "Refusing what was not issued, whoever made the bytes, and accepting what was, whatever the content and the length of history and chain, are statements about all inputs; a test shows single credentials.", "anchors": ["src/core/creder.rs: Creder::new, new_with_raw, new_with_ked, issuer, schema, subject, chains", "src/core/saider.rs: Saider::saidify, Saider::verify", "src/core/sadder.rs: Sadder", "src/core/serder.rs: Serder::new, new_with_raw, pre, est", "src/core/signer.rs: Signer::sign_indexed", "src/core/common.rs: versify, sizeify"]}
{"id": "C121", "title": "Receivers who wait for the witnesses agree", "statement": "Take a client that reads from one stream an inception message and a receipt message for it, and then any number of further messages (rotations and interactions, judged as in C112 and C115), each followed by a receipt message for it, and goes on only if the identifier belongs to the inception, its keys have signed enough, and each receipt has signatures over the event of at least `bt` different positions of the witnesses `b` - those of the inception, whatever later events say. Let two such receivers read streams of any bytes whose first events are the same map, and let the witnesses and the threshold of that event be such that any two sets that reach it have more than f positions in common. Then the history of one is the beginning of that of the other (as maps), or there is a first place where they differ, and there more than f of the witnesses have signed two different events that name the same prior event; the events and the signatures stand in the streams. An identifier founded as in C111 with n witnesses, n at least 1, has such a threshold with f = (n - 1) / 3, rounded down. So if at most that many witnesses are faulty, and the others never sign two different events that name the same prior event, all receivers agree as far as each has come. Nothing honest is refused: for an identifier founded, rotated and used for anchoring as in C112 and C115, the receipt can always be written, whichever witnesses sign, and the receiver takes the event exactly if they are at least as many as C111 says are needed, and refuses with an error otherwise; with enough witnesses at each event he gets the whole history and the text that follows.", "quantifier": "every two byte streams whoever has made them, of any number of messages, every inception with any witnesses and threshold, every set of faulty witnesses, every implementation of the signature schemes and digests; for the second part every life with at most 4096 signers and witnesses at a time", "why_tests_cant": "A controller that shows different events to different receivers is the attack that witnesses are for; that no pair of streams gets two receivers to disagree without more faulty witnesses than tolerated is a statement about all byte streams and all sets of signatures in them, by counting, at every length.", "anchors": ["src/core/salter.rs: tests Vault, messagize, receipt", "src/core/serder.rs: tests incept, ample", "src/core/serder.rs: new_with_raw, werfers, verfers, tholder, ntholder, sn, pre, est", "src/core/saider.rs: verify", "src/core/verfer.rs: verify", "src/core/siger.rs, src/core/counter.rs"]}
{"id": "C122", "title": "Documents written down in a program", "statement": "A document written down in a program with dat!(..) is the one its text denotes, at any depth of nesting: elements in brackets in their order, entries in braces with each key once, at the place where it is first written and with the value written last, null, true and false for themselves, and any other expression for the document that Value::from makes of it; one comma may stand after the last element or entry. What is not of this form does not compile; what is compiles, as far as the compiler's limit on macro expansions allows. So a JSON text pasted into a program is the document that reading the text gives, whenever reading gives one, and every text that can be read can be pasted. (Known exception, a leniency: commas before the first element of an array compile and mean nothing.)", "quantifier": "all token trees, of any size and nesting; all JSON texts with at most 127 arrays and objects inside one another", "why_tests_cant": "ranges over all documents that can be written down, and over all programs that must not compile", "anchors": ["src/data.rs: dat!, data_internal_vec!, data_unexpected!, data_expect_expr_comma!, From impls for Value"]}
