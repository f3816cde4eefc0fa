C01 `Matter` encode/parse over the whole code table (`Model/Matter`). Encoding is shown equal to one closed form (digits of code, size and raw in base 64); the parser is inverted on it; table rows by kernel computation, raw unbounded.
C02 As C01 in the binary domain; the binary form is the same digit list regrouped into bytes.
C03 Both domains against `Spec/Cesr`'s independent sextet decoding; uniqueness of the decoding by induction.
C04 Inversion of the parser: an accepted text without pad characters begins with the re-encoding of the object. Exception exact.
C05 Inversion of the binary parser.
C06 Sizes read off the closed form.
C07 The parser on `text ++ rest` for every continuation that starts at a character boundary.
C08 The parser on every proper prefix of an encoding.
C09 Induction over the list of primitives with C07.
C10 Case analysis of construction from raw.
C11 Case analysis on the size class with arithmetic on 64^n and 2^32.
C12 Panic analysis of the text parser slice by slice against the cut points of the specification (`Spec/Wire`), both directions; binary parser likewise.
C13 Closed form of the encodings.
C14 Kernel computation over the finite table, plus a theorem about unknown variable-size codes.
C15 Induction on digits.
C16 Digits regrouped into bytes.
C17 As C01 for `Model/Indexer`, against `Spec/Indexed`.
C18 As C02; the overflow in `binfil` is exact.
C19 As C03.
C20 Exact outcome of construction for every code, index and ondex.
C21 Inversion of both parsers.
C22 Panic analysis of the parser slice by slice against the cut points of `Spec/Cuts`, both directions.
C23 As C01 for `Model/Counter`, against `Spec/Counted`.
C24 Exact outcome of construction.
C25 Inversion of the parsers; disjointness by first characters.
C26 Panic analysis of the parser slice by slice against the cut points of `Spec/Cuts`, both directions.
C27 Arithmetic of base-64 digits.
C28 Big-endian arithmetic over C01; hexadecimal numerals against `Spec/Prims`.
C29 As C28.
C30 Accessors on parsed objects through C04/C06; exact.
C31 Regrouping of characters and bytes; exact, including the lost `A`.
C32 The regular expression as a character test.
C33 Character substitution shown inverse on date-time texts of `Spec/Prims`.
C34 Counting of indices against the number of listed indices.
C35 The reduced `i32` fractions against exact rational sums of `Spec/Threshold`; invariants of the summation loop with and without overflow checks; the exact grammar of weight texts that are read (`Spec/Weights`).
C36 From the decision theorems and monotonicity of exact sums.
C37 Printing and reading of weights; induction over clauses.
C38 Exact panic conditions of evaluation and construction, against `Spec/Weights` (the weight texts that are read, the sums that fit 32 bits), by induction over clauses and weights.
C39 Structural induction over documents; the parser inverts the printer.
C40 `Spec/Version` and inversion of the regular expression.
C41 The sizing loop and the byte search for the version text.
C42 All branches of reading a message; exact.
C43 Saidify followed by verify; hash abstract.
C44 Content of a SAID as a specification; injectivity of the printer reduces equality of SAIDs to equality of content or a collision.
C45 The object read from raw or map; independence of the hash function.
C46 Protocol of the version text found by the byte search.
C47 Derivation followed by verification for the three kinds of prefix.
C48 Exact verification condition for basic prefixes; digest content and injectivity for the others.
C49 Components joined and split at hyphens, Base64 padding of C31.
C50 The walk over the document against `Spec/Path`, with the word size of the platform as a parameter.
C51 Lists of components.
C52 Case analysis of the code choice, exact outcome.
C53 Signing followed by verification under the crypto laws.
C54 Every constructor, every argument.
C55 Exact outcome of the comparison functions.
C56 Induction over the loop that stretches keys.
C57 Table against the sizes of the algorithms in `Spec/Cesr`.
C58 All branches of SAID verification; exact.
C59 Printing a map, reading it back, through C39 and C41.
C60 Each accessor against the field it names.
C61 Each accessor against the field it names.
C62 Updates as state transformers; the state after an update depends on the arguments only.
C63 All branches of prefix verification; exact.
C64 Resolution, then printing of the last part.
C65 Construction, generation and transport of signers; exact panic condition.
C66 Membership in the classes, against tables of `Spec/Args`.
C67 Every constructor as a function of the arguments that count (`Spec/Args`).
C68 Arithmetic of halves of 128-bit numbers.
C69 Conversions composed with the library calls.
C70 Printer, re-reader (C39) and cutting at a byte position.
C71 Writes as state transformers on entry lists and arrays.
C72 Structural induction; order-insensitive comparison of entries.
C73 Every constructor yields the result of the general constructor; re-reading by C04 and C67.
C74 Exact outcome of derivation (C47 lemmas), with the code choice and the list of allowed codes.
C75 client loop modelled in Props/Stream on top of the three classes; one lemma collects what every obtainable element satisfies (alignment, size, self framing), then induction on the list of elements.
C76 Bit-level specification (`Spec/Wire`): the closed form of C01 is compared with it; uniqueness of the wire text gives the reading direction.
C77 Characterisations of derive and saidify (C43) plus idempotence of the size update; C01 gives back the code from the text in the field.
C78 The short constructors unfold to `new`; C28, C29, C31, C33, C55 and C65 apply.
C79 Removal of ignored keys is a filter on names; the size update adds no fields.
C80 Array entries are texts or anything else (`JsVal`); unfolding to the library calls, C79 for ignored names, C74 for allow lists; induction for the array filling loop.
C81 the grammar of JSON as inductive relations between texts and documents (Spec/JsonText.lean); soundness of the reader by induction on its fuel, completeness by induction on the derivation with the fuel bound 2·length, strings and numbers separately; the entries of an object by insertion order.
C82 from the characterisation of construction from bytes (C42, C45), the announcements of C40/C46 and C81; UTF-8 validity of the body follows because an object text ends with an ASCII character.
C83 backward by the writers' characterisation (C76) and self-framing, forward by canonicity (C05, C21, C25); for text the padded variant is derived by splitting the base64 decoder's input at its first = (Lemmas/Padded.lean).
C84 the encoders are evaluated for arbitrary fields by cases on the table row; a success forces the lengths of a well-formed object (up to its unused size field), for which the round trips of C01-C03, C17-C19 apply; for the text of a misfit the reader is canonical (C04), so the size field read is the one written.
C85 the characterisation of sizeify (Lemmas/Sizeify.lean) is turned into an equivalence with the first version-like text of the serialization (find_iff), the d entry is untouched by the new version string; panics by the characterisation of the SAID constructor.
C86 an object with an encoding is well formed (Lemmas/Reencode.lean); its content text is the tail of the base64 of its raw, and the content constructor is evaluated on it; for a Bexter the characters dropped are compared with those put back (enc_lead1, enc_lead2).
C87 the client loop is written in Props/Signed.lean on the modelled API; each signature is reachable (C53) hence reads back with its length (C75), the event reads back before attachments (C59), verifies (C53); soundness by unfolding the client, with C82 for the bytes of the event and C34 for the threshold.
C88 the validity test of the model is shown to accept exactly the flat images of String.utf8EncodeChar (arithmetic on code points per length class, Lemmas/Text.lean); boundaries by induction on characters.
C89 induction over the elements: a complete element is read (C75), an incomplete one is refused as C08, C21 and C25 say; the schedule theorem is an invariant over the pieces: what was read plus what the buffer and the future pieces hold is always the stream.
C90 induction over the length of the histories: equal SAID texts are equal SAIDs (canonical text), equal digests are equal contents (injective serialization) or a collision, equal contents name the same prior SAID; the key commitments are a function of the maps
C91 the first point where two lists of maps differ (induction), C90 for the common part, the meaning of an admission from the soundness of reading signatures (as in C87), equality of the keys in force because they are a function of the maps
C92 induction over the couples: every part is at the front of the rest of the text and is read back (as in C64), the signatures verify (C53), the named keys and the number are read as in C60; the converse by taking the accepting run apart; C92_threshold says what the number asked for is, from C60_sn
C93 the accepting run taken apart, each opened position traced to a signature in the stream (as in C87), digests compared (C55), different digests of one kind belong to different key texts; the converse as in C87, with the position pair that sign_indexed writes (C52) read back from the text (C21)
C94 mutual induction over the two graphs: equal SAIDs of verified credentials give equal maps (C39, C44) or a collision, equal maps name the same SAIDs; the converse by induction with C59 and C61; C94_edges: the collected names are those of the inductive specification NamesEdge, by mutual induction over the section
C95 the build parameters enter only through the cut of numbers to a length (never reached by constructors: the value always fits), checked arithmetic and the word size; equality of the functions by rewriting, agreement up to a checked panic as a congruence for the sequencing of calls
C96 floats as IEEE bit patterns, their value as a rational number; truncation by integer division, rounding shown nearest against every float (floats from 2^l on are multiples of 2^(l-52)), widening by the value formula
C97 insertion of new keys appends; permutations with C72 and C39; SAID contents keep the order of the keys, so they differ; `dat!` as a history of writes (C71)
C98 trees of documents and paths; agreement by induction on the route with C44 (contents of verified documents) and injectivity of JSON, acceptance by induction with C43 and the text round trip of SAIDs, parts by C50 (paths) and C04
C99 the build is computed for every UTF-8 code (fixed, 4-6, 7-9, other); panics, usability and typed constructors follow from that equation and C84
C100 panic conditions: each call is a chain of steps that cannot panic and at most one that can; iff by cases on that step, induction over lists and over the positions of a salt
C101 numerals: the accumulator loop of from_str_radix against HexDigits by induction; lists: classification of the value; limens: splitting and joining at separators are inverse; several forms: by cases on the three options
C102 the lengths of empty raw stop every check before a library or the digest comparison decides; the encodings by computation
C103 The client of C91 with the rest of the stream carried along (`Props/Log`). Honest logs by induction over the log, from C90_accepts and the reading of attached signatures with any text behind them; soundness by induction over the rounds; progress because an event has at least one byte.
C104 `Model/Secrets`: the functions that handle raw material once more, in a monad that also collects the contents of each buffer given back, with one combinator per Rust idiom (plain scope, `zeroize()`, `Zeroizing`, `ZeroizeOnDrop`). Erasure to the other models by rewriting; cleanness compositionally; what is left exactly, up to order and blank buffers, for single calls and by induction over the uses of an object.
C105 `Props/PathSigned`: the client over `tail`, `sign_unindexed`, `verify`. Binding from C64, C39_injective and the first byte of a primitive; moving by induction over the root path (`walk` over an append), from what `root` builds (C49, C50); back from C51.
C106 `Model/Js`, `Props/Js`: a heap of objects with a usable flag, the generated code for arguments by value and by reference, each binding that takes objects as a call. One call by induction over its arguments, histories by induction over calls; the answer of each binding from what its arguments are worth. The defects in every state, with C102_keys and C78.
C107 `Model/Incept`, `Props/Ample`: `ample` in 128-bit arithmetic; agreement and progress as statements about finite sets (inclusion-exclusion; two extreme sets for the converse), the formula by linear arithmetic.
C108 `Model/Incept`, `Spec/Event`, `Lemmas/Incept`, `Props/Incept`, `Props/Incept2`, `Props/Incept3`: `incept` step by step; the event as a list of entries, prefix and SAID by C47, C43 and C45 with lengths of texts for the version string, thresholds by C34, C36, C37 and C101. The exceptions are built with the acceptance theorems; the SAID of a self-addressing event by comparing the two serializations that are hashed.
C109 Model/Incept.lean (messagize, receipt, Seal), Props/Attached, Props/Attached2: counters and signatures as texts (C23-C25, C75), a reader dispatching on counter codes, read back by cases on the groups; receipts by the sizing lemmas of C59.
C110 Props/Vault-Vault5: events are made again from their own map and read back by C59 (C110_reads); the receiver's steps by C108, C109, C53, C60; soundness by going through the client for arbitrary streams; C110_one_event by C48 and the injectivity of the serialization (C39).
C111 Props/Founding-Founding3: keys, commitments and signatures exist by C53, C55, C52 (key_total, commitment_total, sign_total); the event fits by bounds on the serialization (entries_le) and C108_accepts; the messages can be written by C109_written; the receiver accepts by C110_exchange.
C112 Props/Life-Life4: an invariant (Head: the latest event, and the latest one that sets keys) of the history says what the next event needs; founded_head and rotate_total establish and keep it (C43, C45, C60, C108); rotation_judged gives the verdict by C93_judged, C34 and C109_written; the replay is an induction over lives with C110_accepted at the start.
C113 Props/Start-Start3: one generic lemma per domain (textStart, binaryStart) decides the head of the reader; a small calculus of possible errors (Errs) bounds what the rest can answer; C113_agree compares the two characterizations through the bits.
C114 Props/JsPlain: encode_char and decode_char treat one character; C114_mended is an induction over the code units that keeps track of lone halves (lone_step); numbers by the uniqueness of the integer part.
C115 Props/LifeIxn, Life4: interact_total makes the event (C43, C45) and keeps the invariant of C112; interaction_judged gives the verdict of the C103 client by C90_accepts, C34 and C53; the replay is the same induction as in C112 with one more case.
C116 Props/Control: the invariant of C112 says which keys, commitments and thresholds are in force; C93_sound and attachedSigs_sound say what acceptance means; a key with the same text as a signer's is that key (C01), otherwise the digest collides.
C117 Props/JsCodex: enumeration reduces the claims for all numbers and names to a check of the finitely many members (kernel-evaluated); the code of a number depends on it through toUint32 (C114).
C118 Props/Told, Told2: Model/Told adds the message to each outcome. Two runs on arguments with the same outline take the same way through the reading of the code (`Same`), and differ after it only in errors with fixed texts (`Kin`). What the decoder reports is bounded by the law `decode_about` and by the fact that what is decoded has a length divisible by four. Panics on ASCII text come from slices of byte vectors only.
C119 Props/Delegation: the checks of the client are characterised by `Seals` (no program); kinds of events by induction on lives; approval by induction on the events with C115_anchors, acceptance with C112_replay; control from C116, binding from the injectivity of SAIDs (as in C91)
C120 Props/Credential: the checks of the clients are characterised by `Issued` and `Empowered` (no programs); the credential by C43, C45 and C59 for its fields; issuing by C115, control from C116, binding from the injectivity of SAIDs (as in C91)
C121 Props/Agreement, Agreement2: agreement by the first place where two histories differ (as in C91), the soundness of the receipt check for any bytes, and counting positions (C107_agreement); the other direction by induction over lives in which each message has a receipt, with the pieces of C111 (receipt), C112 and C115 (messages)
C122 Props/Dat: the macro as functions on token trees, the grammar as relations; soundness by recursion on the size of the token tree, completeness by induction on the derivation; pasting by mutual induction on derivations of JSON texts, then C81
