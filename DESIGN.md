# A formal model of WebOfTrust/cesride in Lean 4

(Generated by `tools/gen_design.py` from `tools/design_head.md`, `tools/design_how.txt`, `properties.jsonl` and `MANIFEST.json`.)

## Layout

| path | content |
|---|---|
| `lean/Verif/Model/*.lean` | the model: executable definitions, function by function; every definition cites the file and lines of `/repo` it models and says where it simplifies |
| `lean/Verif/Spec/*.lean` | small specifications written without the model: tables of codes and sizes, Base64 as sextets, hexadecimal numerals, exact rational sums, paths, SAID and prefix content, version texts |
| `lean/Verif/Lemmas/*.lean` | auxiliary lemmas; no property is stated there |
| `lean/Verif/Props/*.lean` | the property theorems `Cnn_…`, each with a non-trivial case that meets its hypotheses |
| `properties.jsonl` | the properties in English |
| `MANIFEST.json` | property → theorems and status (from `tools/claims.py`) |
| `seeded/LOG.jsonl` | wrong programs tried against the theorems |

## Conventions of the model

* **Outcomes.** `Res α = ok a | err e | panic`. A Rust `Err` is `err` with its kind (message texts are dropped; `Told` of `Model/Told` keeps them, for C118); a Rust panic (slice out of range or
  inside a multi-byte character, `Index` on a missing key, `unwrap`, `copy_from_slice` with the wrong length, arithmetic overflow under overflow
  checks) is the separate value `panic`. A theorem `f x = .ok y` therefore says that `f` returns, without panic, that value.
* **Strings.** A `&str`/`String` is the list of its UTF-8 bytes. Slicing is `panic` off a character boundary. Theorems range over *all* byte lists,
  a superset of valid UTF-8; constructors that take bytes (`qb64b`, raw messages) check UTF-8 as the code does (`fromUtf8`, `utf8Valid`).
* **Build.** `Env` holds what differs between builds: `usizeBits`, `overflowChecks` (debug profile panics, release wraps) and `drop`, the number of leading Base64 digits
  that the floating-point logarithm in `u32_to_b64`/`u64_to_b64` skips. The only law of `drop` is that nothing is skipped when the number fits (conversion to
  `f32` and `log2` are monotone and exact on powers of 64). Theorems are for every `Env` unless they name one.
* **Objects.** The typed primitives with only code, size and raw (Verfer, Diger, Saider, Number, Seqner, Dater, Bexter, Pather, Prefixer) are all the
  structure `Matter`; the constructors differ. Cigar, Siger, Signer, Salter, Tholder, Serder and Creder have structures of their own. Methods with `&mut self`
  (`Sadder` updates, `Value` writes) return the new state, also when they fail.
* **Documents.** `Value` has null, booleans, 64-bit integers, floats (represented by the text `serde_json` prints for them), strings, arrays, and objects as entry lists
  in insertion order (`IndexMap`, `serde_json` with `preserve_order`).

## Trusted base

* **Lean 4.33.0's kernel.** No axioms are added; no compiled evaluation is trusted. The axioms of the theorems listed in `MANIFEST.json`
  (`#print axioms`): `propext`, `Classical.choice`, `Quot.sound` and no others; the theorems that need fewer are C71_position, C71_conversions, C96_refused, C97_entries, C106_call, C106_kept, C114_text_out (without `Classical.choice`), C96_integer_lost, C104_dropped, C106_made_and_freed (only `propext`) and C104_replaced_defect (none). Closed computations
  are checked by the kernel (`decide +kernel`, and `kernel_rfl` of `Lemmas/KernelRfl.lean`, which only hands `Eq.refl` to the kernel).
* **The translation.** The model is written by hand from the Rust text; the code was never run. The citations beside the definitions make the translation checkable.
* **The models of external crates** (the parts used):
  * `base64` URL_SAFE engine — concrete (`Model/Util.lean`): padding written; on reading, canonical padding required and trailing bits zero.
  * `serde_json` printer (compact and pretty) and parser — concrete (`Model/Value.lean`, `Model/Pretty.lean`, `Model/Json.lean`): escapes, white space, numbers, surrogate pairs,
    recursion limit 128, last value of a repeated key in the place of the first. The printed text of a float is an uninterpreted function `F` of its token.
  * `num-rational`/`num-integer` on `i32` — concrete with overflow (`Model/Tholder.lean`).
  * `indexmap`, `regex` on the fixed patterns of the code, `str::split`, `replace`, `parse`, `from_str_radix`, `to_be_bytes` — concrete.
  * `blake3`, `blake2`, `sha2`, `sha3` — `structure Hash`: any functions with the right output lengths. Binding theorems have a collision of that hash as explicit alternative.
  * `ed25519_dalek`, `k256`, `p256`, `argon2` — `structure Crypto`: any functions with the stated laws (lengths; a signature made with an accepted private key verifies
    under its public key, for all random numbers; generated keys are accepted). `toy` and `zeroHash` show that the laws are satisfiable.
  * messages of the standard library and of `base64`, `argon2`, `k256`, `p256` — `structure Voice`: any texts with two laws (what the decoder reports is about the text it refused; the panic of slicing a string quotes it up to 256 bytes). `C118_voice` shows that they are satisfiable.
  * clock and random numbers — arguments.
  * `wasm-bindgen` — the generated code for arguments by value and by reference (`Model/Js.lean`), for numbers and for texts (`Model/JsPlain.lean`), as built without `--debug`; after a panic in WebAssembly nothing is claimed (C106).
* **Platform.** The width of `usize` is a field of `Env` (at least 32: 64 native, 32 for the JavaScript bindings, `Env.wasm`) wherever it decides an outcome (key positions, C56; numerals in paths, C50).

## Modelled

All of `src/core/*.rs`, `src/core/{matter,indexer,counter}/*.rs`, `src/data.rs`, the dispatch of `src/crypto/*.rs`, the short constructors, and the conversions of `wasm/src/*.rs`
(128-bit numbers, documents, arrays and lists of objects); the bodies of the other bindings are forwarding calls. Of the test modules, the builders of events and
messages (`incept`, `ample`, `receipt`, `messagize`, `Seal`), which are ordinary code over the public interface (`Model/Incept.lean`).

## Not modelled

* Message texts of errors other than those about primitives, signers and salters (C118, `Model/Told`); memory exhaustion and stack depth; `Debug` and `Display` output (other than the derived `Debug` of Signer and Salter, C118); time and cost.
* The inside of the hash, signature and key-stretching algorithms and the quality of random numbers; timing.
* Floats inside documents: a finite float is its printed text (`==` compares texts, except that the two zeros are equal; `to_f64` gives the text). The
  conversions between documents and native numbers (C96) have a model of their own, with the IEEE bit patterns of `f32` and `f64`; infinities and NaN, which print
  as `null`, are represented only there. The payload of a NaN is not claimed. The reader of `serde_json` is not exact on floats: theorems about reading a document
  back assume, for the floats in it, that they are read exactly and print with a point (`FloatsRead`); theorems that compare texts assume nothing but that floats
  are finite (`Plain`). How `serde_json` prints a float is a parameter.
* `src/data.rs`: how the compiler divides a program into the tokens and expressions that the macro `dat!` sees, and its limit on macro expansions (C122), and the `From` implementations for texts, slices and
  `IndexMap`, which copy.
* Memory (C104): buffers inside the libraries, stack slots and registers, what callers do with the values they pass or get; what `base64` has written when it refuses a text is a parameter.
* CBOR and MessagePack serializations: the code refuses them, and so does the model.
* Texts longer than 2^32 where the code computes in `u32`: modelled by reduction mod 2^32 at the casts the theorems name (C11, C41), elsewhere lengths are natural numbers.

## Method

Concrete cases that meet the hypotheses stand in the same files as the theorems, mostly at the end: as `example`, as `sample_…`, or as `C…_example` where the case is long
(a whole exchange of messages). Where the theorems of a property are spread over several files the case is in the last: `Attached2` (C109), `Agreement2` (C121), `Incept3` (C108),
`Founding3` (C111), `Vault5` (C110), `Life4` (C112, C115), `Start3` (C113), `Told2` (C118), `Prefixer2` and `Prefixer3` (C47, C48), `Saider2` (C43, C44, C58), `Tholder3`,
`Tholder4` and `Tholder5` (thresholds).

Wrong programs were tried throughout: a definition of the model is edited in a scratch copy, everything is rebuilt, and the theorems that fail are recorded in
`seeded/LOG.jsonl`. `theorems_failed_directly` are the theorems whose own proof broke; `property_theorems_lost` those of `MANIFEST.json` that depend on one of
these; `failed_after_repairing_lemmas` is from runs where broken lemmas were replaced by assumptions so that everything behind them was rechecked.

A property that the code violates is kept with its full statement: the English text names the violation as a known exception, the positive theorem carries the exact guard, and a
separate theorem proves the violation (names with `defect`, `accepted`, `panics`, `not_…`). These are findings about the code:

* text with `=` inside a primitive is accepted and gives an object with too little raw that cannot be encoded (C04, C06), makes accessors panic (C30, C65);
* parsers panic on text with multi-byte characters, on zero-size variable codes and on one-byte counter texts (C12, C22, C26);
* same-index signature codes accept a different ondex and lose it in transport (C20); `3A`/`3B` overflow in `qb2` (C18); Ed448 signatures are cut to 39 bytes (C57);
* repeated indices count repeatedly towards a numeric threshold (C34); fractions overflow 32 bits (C35, C36, C38); a weight with two slashes is read as its first part (C35);
* reading a message panics on truncated input, on JSON that is not an object and on missing fields (C42, C60, C61), and never checks the SAID against the content (C45);
* a version-like key before the version field diverts sizing, the protocol check and the prefix digest (C41, C46, C48);
* `_fn` never returns a number (C60); a failed update leaves a mixed object (C62);
* Bexter loses a leading `A` (C31); paths with hyphens or a leading empty component come back changed, `strip` and `starts_with` misbehave (C49, C51);
* Number, Salter and Prefixer accept every primitive code from text and binary (C54); stretched key paths collide (C56); Diger hides unreadable input (C67);
* the JavaScript bindings rebuild numbers of 2^64 and more wrongly (C68), `saidify` and `ked()` always panic there (C69); pretty printing panics inside characters (C70);
* objects whose size field does not fit their raw can be encoded and then read back as something else (C84); building a message from a map without `d` panics (C85); Bexters from raw bytes that differ in their first bits can show the same text (C86);
* whether a path with a large index resolves depends on the word size of the platform (C50);
* in JavaScript, an object that was handed over once silently counts as absent where the argument is optional: a second Cigar with the same Verfer carries an empty one, a second Number from the same `sn()` is zero (C106);
* the default witness threshold is one too high for 4, 7, 10, … witnesses (C107);
* the builder of inception events takes keys, digests and witnesses that cannot be read, any primitive as the only key, next keys for a key that cannot be rotated, and repeated witnesses (C108);
* the message builder drops unindexed signatures, and a seal without controller signatures, without notice, and writes the texts of a seal unchecked (C109);
* the identifier check does not look at the SAID field: the SAID of a self-addressing inception event can be replaced by any text unnoticed (C110);
* the counter reader recognizes an op code in byte strings only; in a text it is reported like garbage (C113);
* in JavaScript, positions and amounts are taken modulo 2^32 and lone surrogates in texts become U+FFFD, without notice (C114);
* in JavaScript the codes of secp256r1 have no names, and a name without code silently stands for the code `A` (C117);
* a seed or salt given as a text with a multi-byte character across its full size panics with a message that quotes it (C118);
* the derived `Debug` of `Signer` and `Salter` (both zeroized on drop) writes the whole secret (C118);
* infinities and NaN are taken into documents and come back as null (C96); the text and the SAID of a document made from a `HashMap` depend on the random order of its iterator (C97).

## Properties: what is modelled and how it is proved

### C01 Matter text round-trip — proved

`Matter` encode/parse over the whole code table (`Model/Matter`). Encoding is shown equal to one closed form (digits of code, size and raw in base 64); the parser is inverted on it; table rows by kernel computation, raw unbounded.

Theorems (`Props/Matter`): `C01_text_roundtrip`, `C01_constructible`.

### C02 Matter binary round-trip — proved

As C01 in the binary domain; the binary form is the same digit list regrouped into bytes.

Theorems (`Props/Matter`): `C02_binary_roundtrip`.

### C03 Text and binary domains are equivalent — proved

Both domains against `Spec/Cesr`'s independent sextet decoding; uniqueness of the decoding by induction.

Theorems (`Lemmas/Bits`, `Props/Matter`): `C03_domains_equivalent`, `isDecoding_unique`.

### C04 Parsed text is canonical (no malleability) — proved

Inversion of the parser: an accepted text without pad characters begins with the re-encoding of the object. Exception exact.

Theorems (`Props/Matter`): `C04_text_canonical`, `C04_text_unique`, `C04_pad_accepted`.

Holds with the exception stated in the property; the exception (pad characters) is a defect, witnessed by C04_pad_accepted.

### C05 Parsed binary is canonical — proved

Inversion of the binary parser.

Theorems (`Props/Matter`): `C05_binary_canonical`.

### C06 Accepted primitives have the size their code promises — proved

Sizes read off the closed form.

Theorems (`Props/Matter`): `C06_sizes`, `C06_short_raw_accepted`, `C13_aligned`, `C04_text_canonical`, `C05_binary_canonical`.

Holds except for text with pad characters; that exception is a defect, witnessed by C06_short_raw_accepted.

### C07 Self-framing: trailing data does not change a parse — proved

The parser on `text ++ rest` for every continuation that starts at a character boundary.

Theorems (`Props/Matter`): `C07_self_framing`.

### C08 Truncated primitives are refused as shortage — proved

The parser on every proper prefix of an encoding.

Theorems (`Props/Matter`): `C08_truncated`.

### C09 Unique decodability of primitive streams — proved

Induction over the list of primitives with C07.

Theorems (`Props/Matter`): `C09_text_streams`, `C09_binary_streams`.

### C10 Raw material is never silently padded — proved

Case analysis of construction from raw.

Theorems (`Props/Matter`): `C10_fixed_raw`.

### C100 Where the remaining calls panic — proved

panic conditions: each call is a chain of steps that cannot panic and at most one that can; iff by cases on that step, induction over lists and over the positions of a salt

Theorems (`Props/Panics3`): `C100_lists`, `C100_fields`, `C100_reading`, `C100_signing`, `C100_signers`, `C100_digests`, `C100_values`, `C100_date`.

exact conditions, or never, for every state

### C101 How a threshold is read — proved

numerals: the accumulator loop of from_str_radix against HexDigits by induction; lists: classification of the value; limens: splitting and joining at separators are inverse; several forms: by cases on the three options

Theorems (`Props/Tholder5`): `C101_number_text`, `C101_json_text`, `C101_list`, `C101_limen`, `C101_several`, `C101_shown`.

reading each form reduces to the threshold value (C34, C35, C37); which weight texts are read: C35; panics: C38

### C102 Objects from default() vouch for nothing — proved

the lengths of empty raw stop every check before a library or the digest comparison decides; the encodings by computation

Theorems (`Props/Defaults`): `C102_keys`, `C102_digests`, `C102_threshold`, `C102_transport`, `C102_values`, `C102_salt`, `C102_messages`, `C102_codes`.

### C103 A signed log in one byte stream — proved

The client of C91 with the rest of the stream carried along (`Props/Log`). Honest logs by induction over the log, from C90_accepts and the reading of attached signatures with any text behind them; soundness by induction over the rounds; progress because an event has at least one byte.

Theorems (`Props/Log`): `C103_received`, `C103_sound`, `C103_rounds`, `C103_same`.

Client of C91 with the position in the stream carried along (Props/Log). C103_received: SignedLog is built only from library calls (Serder::new, Counter::new, sign_indexed, qb64). C103_sound: for every byte stream, parts without gaps, signatures within the part of their event. C103_rounds: the bound on rounds never matters. Samples: sample_signed_log, sample_log.

### C104 What secrets leave in memory — proved

`Model/Secrets`: the functions that handle raw material once more, in a monad that also collects the contents of each buffer given back, with one combinator per Rust idiom (plain scope, `zeroize()`, `Zeroizing`, `ZeroizeOnDrop`). Erasure to the other models by rewriting; cleanness compositionally; what is left exactly, up to order and blank buffers, for single calls and by induction over the uses of an object.

Theorems (`Props/Secrets`): `C104_same`, `C104_written`, `C104_read`, `C104_salter`, `C104_dropped`, `C104_signer_life`, `C104_salter_life`, `C104_bytes_defect`, `C104_text_defect`, `C104_signer_defect`, `C104_sign_defect`, `C104_stretch_defect`, `C104_signers_defect`, `C104_refused_defect`, `C104_replaced_defect`, `C104_refused_text_defect`.

Model/Secrets follows, for each call, the contents of the buffers it gives back (zeroize, Zeroizing, ZeroizeOnDrop, scopes left by ? and by panics); C104_same: its outcomes are those of the other models. Blank: every byte given back is zero. Leaves: apart from zeros, exactly these buffers, in any order. Buffers inside the libraries, stack slots and what the caller holds are not followed.

### C105 Signatures on parts of documents — proved

`Props/PathSigned`: the client over `tail`, `sign_unindexed`, `verify`. Binding from C64, C39_injective and the first byte of a primitive; moving by induction over the root path (`walk` over an append), from what `root` builds (C49, C50); back from C51.

Theorems (`Props/PathSigned`): `C105_accepts`, `C105_binds`, `C105_place`, `C105_forgery`, `C105_moved`, `C105_rooted`, `C105_back`, `C105_defect`.

Client signPart/checkPart (Props/PathSigned) built from library calls. C105_binds uses the injectivity of the JSON text (C39) and that no text of a primitive begins with a brace or bracket. C105_moved: equality of the whole outcome of tail, errors included. C105_defect: the two exceptions, concretely.

### C106 Objects handed to the JavaScript bindings — proved

`Model/Js`, `Props/Js`: a heap of objects with a usable flag, the generated code for arguments by value and by reference, each binding that takes objects as a call. One call by induction over its arguments, histories by induction over calls; the answer of each binding from what its arguments are worth. The defects in every state, with C102_keys and C78.

Theorems (`Props/Js`): `C106_call`, `C106_untyped`, `C106_kept`, `C106_history`, `C106_signatures`, `C106_numbers`, `C106_documents`, `C106_pairs`, `C106_looked_at`, `C106_made_and_freed`, `C106_second_signature`, `C106_second_number`, `C106_same_document`.

Model of the code wasm-bindgen generates (Model/Js): a heap of JavaScript objects, arguments by value and by reference, every binding that takes objects as a call. C106_call and C106_history hold for any call of that shape, C106_kept also for calls that break the types. C106_signatures, _numbers, _documents, _pairs: the answer of each binding by what its arguments are worth. C106_second_signature, _second_number, _same_document: the defects, in every state.

### C107 Default witness thresholds — proved

`Model/Incept`, `Props/Ample`: `ample` in 128-bit arithmetic; agreement and progress as statements about finite sets (inclusion-exclusion; two extreme sets for the converse), the formula by linear arithmetic.

Theorems (`Props/Ample`): `Builder.C107_agreement`, `Builder.C107_progress`, `Builder.C107_default_defect`, `Builder.C107_given`, `Builder.C107_ends_defect`.

Requirements stated on sets of witnesses (Spec.Agreement, Spec.Progress), not on the formula. `ample` is in a test module of the crate and used there by `incept`. C107_progress is an equivalence: the default is reachable exactly when n < 4 or n mod 3 is not 1.

### C108 Inception events — proved

`Model/Incept`, `Spec/Event`, `Lemmas/Incept`, `Props/Incept`, `Props/Incept2`, `Props/Incept3`: `incept` step by step; the event as a list of entries, prefix and SAID by C47, C43 and C45 with lengths of texts for the version string, thresholds by C34, C36, C37 and C101. The exceptions are built with the acceptance theorems; the SAID of a self-addressing event by comparing the two serializations that are hashed.

Theorems (`Props/Incept`, `Props/Incept2`, `Props/Incept3`): `Builder.C108_event`, `Builder.C108_thresholds`, `Builder.C108_written`, `Builder.C108_witnesses`, `Builder.C108_self_addressing`, `Builder.C108_basic`, `Builder.C108_codes`, `Builder.C108_accepts`, `Builder.C108_accepts_key`, `Builder.C108_unchecked_defect`, `Builder.C108_salt_defect`, `Builder.C108_next_defect`, `Builder.C108_said_defect`.

The fields are stated by Spec.inceptionEntries, the rest by the accessors and checks of the library. `incept` is in a test module of the crate. The arguments for which there is an event are those of `Builder.Proper`; C108_example, C108_basic_example and C108_intive_example are concrete cases for every environment and hash. C108_said_defect concerns checking a self-addressing event with `Saider::verify` instead of `Prefixer::verify`.

### C109 Messages with attached signatures are self-describing, and receipts name what they receipt — proved

Model/Incept.lean (messagize, receipt, Seal), Props/Attached, Props/Attached2: counters and signatures as texts (C23-C25, C75), a reader dispatching on counter codes, read back by cases on the groups; receipts by the sizing lemmas of C59.

Theorems (`Props/Attached`, `Props/Attached2`): `Builder.C109_written`, `Builder.C109_read`, `Builder.C109_receipt`, `Builder.C109_receipt_accepts`, `Builder.C109_dropped_defect`, `Builder.C109_seal_defect`, `Builder.C109_example`, `Builder.C109_receipt_example`.

messagize and receipt live in the test module of salter.rs; the reader is a client loop over the public parsers. The hypothesis of C109_read that the event is read back is C59 (for receipts it is the last part of C109_receipt). Fewer than 2^32 signatures per group (the count is truncated to u32 beyond).

### C11 Variable-size code selection — proved

Case analysis on the size class with arithmetic on 64^n and 2^32.

Theorems (`Props/Matter`): `C11_variable_code`, `C11_huge_raw_truncated`, `C11_huge_raw_accepted`.

Holds below 2^32 bytes; above, the length is truncated to 32 bits (defect, proved for all such raw).

### C110 An identifier can be founded, witnessed and accepted over one stream — proved

Props/Vault-Vault5: events are made again from their own map and read back by C59 (C110_reads); the receiver's steps by C108, C109, C53, C60; soundness by going through the client for arbitrary streams; C110_one_event by C48 and the injectivity of the serialization (C39).

Theorems (`Props/Vault`, `Props/Vault2`, `Props/Vault3`, `Props/Vault4`, `Props/Vault5`): `Builder.C110_reads`, `Builder.C110_accepted`, `Builder.C110_receipted`, `Builder.C110_enough`, `Builder.C110_exchange`, `Builder.C110_sound`, `Builder.C110_confirm_sound`, `Builder.C110_one_event`, `Builder.C110_said_defect`, `Builder.C110_example`.

The receivers `acceptInception` and `confirm` are clients written over the public readers, accessors and checks. Fewer than 2^32 bytes and signatures. C110_example is an exchange computed by the model that meets all hypotheses.

### C111 Any signers and witnesses can found an identifier, and a receiver accepts it — proved

Props/Founding-Founding3: keys, commitments and signatures exist by C53, C55, C52 (key_total, commitment_total, sign_total); the event fits by bounds on the serialization (entries_le) and C108_accepts; the messages can be written by C109_written; the receiver accepts by C110_exchange.

Theorems (`Props/Founding2`, `Props/Founding3`): `Builder.C111_founded`, `Builder.C111_accepted`, `Builder.C111_everyone`, `Builder.C111_example`, `Builder.C111_example_half`.

`found`, `announce` and `witnessed` are clients over the public constructors and accessors (and incept, messagize, receipt of the salter.rs tests). Default thresholds, code E; at most 4096 signers, next signers and witnesses and at most 4095 signatures per message (the counter code has two digits); delegator text of at most 64 KiB. Signature creation is the assumed correct Crypto of C53.

### C112 An identifier lives on: the signers committed to can always rotate, and a receiver can replay the whole history — proved

Props/Life-Life4: an invariant (Head: the latest event, and the latest one that sets keys) of the history says what the next event needs; founded_head and rotate_total establish and keep it (C43, C45, C60, C108); rotation_judged gives the verdict by C93_judged, C34 and C109_written; the replay is an induction over lives with C110_accepted at the start.

Theorems (`Props/Life4`): `Builder.C112_starts`, `Builder.C112_rotates`, `Builder.C112_replay`, `Builder.C112_abandoned`, `Builder.C112_example`.

`rotate`, `announceRotation` and `receive` are clients over the public constructors and accessors; `Life` is the inductive set of histories built with them. Rotations without changes of witnesses, thresholds of half of the keys; any number of interactions (C115) anywhere in the history.

### C113 What the readers say of the start of a stream — proved

Props/Start-Start3: one generic lemma per domain (textStart, binaryStart) decides the head of the reader; a small calculus of possible errors (Errs) bounds what the rest can answer; C113_agree compares the two characterizations through the bits.

Theorems (`Props/Start`, `Props/Start2`, `Props/Start3`): `C113_matter_text`, `C113_indexer_text`, `C113_matter_binary`, `C113_indexer_binary`, `C113_counter_text`, `C113_counter_binary`, `C113_agree`, `C113_op_codes`.

Stated with Spec.TextStart and Spec.BinaryStart over the table of code lengths (Spec) and the codes themselves. A text whose cut falls inside a multi-byte character panics instead (C12, C22, C26), hence the clause on MidChar. C113_op_codes is the defect.

### C114 Numbers and texts handed to the JavaScript bindings — proved

Props/JsPlain: encode_char and decode_char treat one character; C114_mended is an induction over the code units that keeps track of lone halves (lone_step); numbers by the uniqueness of the integer part.

Theorems (`Props/JsPlain`): `C114_text_in`, `C114_text_out`, `C114_mended`, `C114_complete`, `C114_valid`, `C114_back`, `C114_distinct`, `C114_lone_defect`, `C114_number`, `C114_whole`, `C114_wrapped_defect`, `C114_sign`.

Model/JsPlain: the conversions of wasm-bindgen 0.2.84 (TextEncoder, TextDecoder, ToInt32). Arguments of other JavaScript types are not modelled. C114_sign: for any number, through C52 and C53.

### C115 Between rotations the signers in force can always anchor data, and nothing is lost of it — proved

Props/LifeIxn, Life4: interact_total makes the event (C43, C45) and keeps the invariant of C112; interaction_judged gives the verdict of the C103 client by C90_accepts, C34 and C53; the replay is the same induction as in C112 with one more case.

Theorems (`Props/Life4`): `Builder.C115_anchors`, `Builder.C112_rotates`, `Builder.C112_replay`, `Builder.C115_example`.

`interact` and `announce` are clients over the public constructors and accessors; the receiver is that of C103 (`admitFront`). `Life.anchored` puts the event into the histories of C112, so that `C112_rotates` and `C112_replay` speak of mixed histories. Serialised JSON only.

### C116 Nobody else can rotate or anchor: what is accepted after a history was voted for by the signers it names — proved

Props/Control: the invariant of C112 says which keys, commitments and thresholds are in force; C93_sound and attachedSigs_sound say what acceptance means; a key with the same text as a signer's is that key (C01), otherwise the digest collides.

Theorems (`Props/Control`): `Builder.C116_control`, `Builder.C116_example`.

`receiveNext` is the step of the receiver of C112; the client is not library code, everything it calls is. The receiver does not compare identifier and sequence number of the event with those before: whoever signs answers for them.

### C117 JavaScript names of the codes — proved

Props/JsCodex: enumeration reduces the claims for all numbers and names to a check of the finitely many members (kernel-evaluated); the code of a number depends on it through toUint32 (C114).

Theorems (`Props/JsCodex`): `C117_primitives`, `C117_indexed`, `C117_unnamed_defect`, `C117_r1_defect`, `C117_example`.

Model/JsCodex: the enumeration object, the generated conversion and the two functions. Spec/JsCodex lists the names by purpose, from the tables of the standard.

### C118 What error messages reveal of secrets — proved

Props/Told, Told2: Model/Told adds the message to each outcome. Two runs on arguments with the same outline take the same way through the reading of the code (`Same`), and differ after it only in errors with fixed texts (`Kin`). What the decoder reports is bounded by the law `decode_about` and by the fact that what is decoded has a length divisible by four. Panics on ASCII text come from slices of byte vectors only.

Theorems (`Props/Told`, `Props/Told2`): `C118_primitives`, `C118_signers`, `C118_salters`, `C118_writing`, `C118_signing`, `C118_stretching`, `C118_derived`, `C118_decode`, `C118_utf8`, `C118_panics`, `C118_quoted_defect`, `C118_debug_defect`, `C118_faithful`.

Model/Told: the functions of the model again, with the text of each error and panic; C118_faithful says that without the texts they are the functions of the other properties. The messages of the standard library and the foreign crates are parameters (Voice) with laws; C118_voice is an instance.

### C119 A delegated identifier needs its delegator — proved

Props/Delegation: the checks of the client are characterised by `Seals` (no program); kinds of events by induction on lives; approval by induction on the events with C115_anchors, acceptance with C112_replay; control from C116, binding from the injectivity of SAIDs (as in C91)

Theorems (`Props/Delegation`): `Builder.C119_named`, `Builder.C119_kinds`, `Builder.C119_sound`, `Builder.C119_judged`, `Builder.C119_delegates`, `Builder.C119_control`, `Builder.C119_stays`, `Builder.C119_binds`, `Builder.C119_example`.

Props/Delegation: the library has no program that checks delegation; the one of the statement uses only modelled functions (as in C112). Lives, votes and collisions as in C112, C115 and C116. C119_example is a case: a delegator, a delegated identifier with a rotation, refused before and accepted after the approval.

### C12 Matter parsing never panics — proved

Panic analysis of the text parser slice by slice against the cut points of the specification (`Spec/Wire`), both directions; binary parser likewise.

Theorems (`Props/Matter`, `Props/Panics`): `C12_all_text_panics_exactly`, `C12_binary_panics_exactly`, `C12_bytes`, `C12_text_panics_exactly`, `C12_non_ascii_panics`.

Exact set of panicking inputs proved for all binary and all text; they are defects.

### C120 Credentials issued by an identifier — proved

Props/Credential: the checks of the clients are characterised by `Issued` and `Empowered` (no programs); the credential by C43, C45 and C59 for its fields; issuing by C115, control from C116, binding from the injectivity of SAIDs (as in C91)

Theorems (`Props/Credential`): `Builder.C120_accepted`, `Builder.C120_chain`, `Builder.C120_issues`, `Builder.C120_stays`, `Builder.C120_control`, `Builder.C120_binds`, `Builder.C120_example`.

Props/Credential: the library has no program that checks issuance; those of the statement use only modelled functions (receive of C112 for the histories of a chain). Lives, votes and collisions as in C112, C115 and C116. C120_example is a case: a chain of two credentials, refused while the first was not issued. There is no revocation in it: the library has no transaction event logs.

### C121 Receivers who wait for the witnesses agree — proved

Props/Agreement, Agreement2: agreement by the first place where two histories differ (as in C91), the soundness of the receipt check for any bytes, and counting positions (C107_agreement); the other direction by induction over lives in which each message has a receipt, with the pieces of C111 (receipt), C112 and C115 (messages)

Theorems (`Props/Agreement`, `Props/Agreement2`): `Builder.C121_agreement`, `Builder.C121_consensus`, `Builder.C121_safe`, `Builder.C121_starts`, `Builder.C121_rotates`, `Builder.C121_anchors`, `Builder.C121_follows`, `Builder.C121_example`.

Props/Agreement, Props/Agreement2: the receiver is not library code, everything it calls is modelled; the witnesses are those of the inception at all times (changes of witnesses by rotations are not modelled); the evidence is by position, so that a witness named twice in an inception from the outside counts twice - in a founding (C111) the witnesses are different. C121_agreement is about any bytes and any threshold with the stated intersection property, C121_consensus and C121_safe are about founded identifiers; C121_starts, C121_rotates, C121_anchors and C121_follows are the second part. The example has two receivers that disagree, with both witnesses faulty.

### C122 Documents written down in a program — proved

Props/Dat: the macro as functions on token trees, the grammar as relations; soundness by recursion on the size of the token tree, completeness by induction on the derivation; pasting by mutual induction on derivations of JSON texts, then C81

Theorems (`Props/Dat`): `C122_compiles`, `C122_pasted`, `C122_read_or_written`, `C122_shapes`, `C122_leading_commas`.

Props/Dat: the macro is modelled arm by arm on token trees; an expression of the program is one token that begins with none of the macro's own tokens, with the document that Value::from makes of it (C96, C97). The grammar of Spec/Dat is separate from the macro, and C122_compiles is an equivalence. The text of a pasted literal is taken to mean in Rust what it means in JSON. The compiler's limit of 128 macro expansions inside one another is not modelled (longer documents do not compile).

### C13 Encodings are aligned and transport-safe — proved

Closed form of the encodings.

Theorems (`Props/Matter`): `C13_aligned`.

### C14 Code table coherence — proved

Kernel computation over the finite table, plus a theorem about unknown variable-size codes.

Theorems (`Props/Matter`): `C14_table`, `C14_unknown_variable_code_accepted`.

### C15 Base64 integer conversion round-trip — proved

Induction on digits.

Theorems (`Props/Util`): `C15_int_roundtrip`, `C15_int_injective`, `C15_reader_total`.

### C16 Code text/binary conversion round-trip — proved

Digits regrouped into bytes.

Theorems (`Props/Util`): `C16_code_roundtrip`, `C16_nab_sextets`.

### C17 Indexed signature text round-trip — proved

As C01 for `Model/Indexer`, against `Spec/Indexed`.

Theorems (`Props/Indexer`): `C17_text_roundtrip`, `C20_permitted_accepted`, `C21_lead_code_defect`.

Holds for all sixteen signature codes and permitted indices; the exceptions stated in the property are defects, proved by C20_same_index_not_enforced and C21_lead_code_defect.

### C18 Indexed signature binary round-trip — proved

As C02; the overflow in `binfil` is exact.

Theorems (`Props/Indexer`): `C18_binary_roundtrip`.

Exact: 3A and 3B panic in qb2 with overflow checks (defect), everything else round-trips.

### C19 Indexed signature domains are equivalent — proved

As C03.

Theorems (`Props/Indexer`): `C19_domains_equivalent`.

### C20 Index and ondex limits are enforced — proved

Exact outcome of construction for every code, index and ondex.

Theorems (`Props/Indexer`): `C20_limits`, `C20_permitted_accepted`, `C20_same_index_not_enforced`.

Exact outcome proved for every code, raw, index and ondex; the missing same-index rule is a defect.

### C21 Indexed parse is canonical and self-framing — proved

Inversion of both parsers.

Theorems (`Props/Indexer`): `C21_text_canonical`, `C21_binary_canonical`, `C21_self_framing`, `C21_truncated`.

### C22 Indexer parsing never panics — proved

Panic analysis of the parser slice by slice against the cut points of `Spec/Cuts`, both directions.

Theorems (`Props/Indexer`, `Props/Panics2`): `C22_all_text_panics_exactly`, `C22_text_bytes_panics_exactly`, `C22_no_panic`, `C22_nonascii_panics`.

Exact set of panicking texts; binary and ASCII inputs never panic.

### C23 Counter round-trip in both domains — proved

As C01 for `Model/Counter`, against `Spec/Counted`.

Theorems (`Props/Counter`): `C23_roundtrip`, `C24_obtained_fits`.

### C24 Counter count limits — proved

Exact outcome of construction.

Theorems (`Props/Counter`): `C24_limits`, `C24_unknown_code`, `C24_obtained_fits`, `C24_count_forms`.

### C25 Counter parse is canonical, self-framing and disjoint from primitives — proved

Inversion of the parsers; disjointness by first characters.

Theorems (`Props/Counter`): `C25_text_canonical`, `C25_binary_canonical`, `C25_self_framing`, `C25_truncated`, `C25_disjoint`.

### C26 Counter parsing never panics — proved

Panic analysis of the parser slice by slice against the cut points of `Spec/Cuts`, both directions.

Theorems (`Props/Counter`, `Props/Panics2`): `C26_all_text_panics_exactly`, `C26_text_bytes_panics_exactly`, `C26_panics_exactly`, `C26_panics`.

Exact set of panicking texts; the panics are defects. Binary never panics.

### C27 Semantic version encoding — proved

Arithmetic of base-64 digits.

Theorems (`Props/Counter`): `C27_semver`, `C27_parts`.

### C28 Number round-trip and minimality — proved

Big-endian arithmetic over C01; hexadecimal numerals against `Spec/Prims`.

Theorems (`Props/Prims`): `C28_number_roundtrip`, `C28_number_hex`, `C28_number_injective`.

### C29 Sequence numbers round-trip and order — proved

As C28.

Theorems (`Props/Prims`): `C29_seqner_roundtrip`, `C29_seqner_order`.

### C30 Number and sequence accessors never panic on parsed input — proved

Accessors on parsed objects through C04/C06; exact.

Theorems (`Props/Prims`): `C30_number_text`, `C30_number_binary`, `C30_seqner_text`, `C30_seqner_binary`, `C30_bytes`, `C30_pad_panics`.

The text theorems are exact: the panic happens precisely for padded text; a defect of the code.

### C31 Bexter text round-trip — proved

Regrouping of characters and bytes; exact, including the lost `A`.

Theorems (`Props/Texts`): `C31_bext_roundtrip`, `C31_bext_exact`, `C31_bext_not_injective`.

Exact, including the loss of a leading A (defect).

### C32 Bexter refuses non-Base64URL text — proved

The regular expression as a character test.

Theorems (`Props/Texts`): `C32_bext_refused`.

### C33 Date-time round-trip — proved

Character substitution shown inverse on date-time texts of `Spec/Prims`.

Theorems (`Props/Texts`): `C33_date_roundtrip`, `C33_date_short`.

### C34 Unweighted threshold decision — proved

Counting of indices against the number of listed indices.

Theorems (`Props/Tholder`): `C34_unweighted_decision`, `C34_distinct_indices`, `C34_repetitions_count`, `C34_accepted`.

Exact; repeated indices are counted as often as they occur (defect, proved for all).

### C35 Weighted threshold decision — proved

The reduced `i32` fractions against exact rational sums of `Spec/Threshold`; invariants of the summation loop with and without overflow checks; the exact grammar of weight texts that are read (`Spec/Weights`).

Theorems (`Props/Tholder`, `Props/Tholder3`, `Props/Tholder4`): `C35_weights`, `C35_weights_given`, `C35_weights_given_sith`, `C35_weighted_decision`, `C35_never_approves_short`, `C35_exact_when_small`, `C35_accepted`, `C35_accepted_exactly`, `weight_iff`, `C35_extra_slashes`, `C35_extra_slashes_accepted`, `C36_not_monotone_release`.

Exact with overflow checks whenever there is no panic; exact in every profile for weights whose sums fit 31 bits; sound (never approves too little weight) always.

### C36 Threshold satisfaction is monotone and order-independent — proved

From the decision theorems and monotonicity of exact sums.

Theorems (`Props/Tholder`, `Props/Tholder3`): `C36_monotone_weighted`, `C36_monotone_small`, `C36_monotone_unweighted`, `C36_set_of_positions`, `C36_order`, `C36_full_set`, `C36_not_monotone_release`.

The overflow exception without overflow checks is a defect, witnessed by C36_not_monotone_release.

### C37 Threshold serialization round-trip — proved

Printing and reading of weights; induction over clauses.

Theorems (`Props/Tholder2`): `C37_limen`, `C37_sith`, `C37_thold`, `C37_json`, `C37_empty_exception`.

The empty threshold is the only exception (thresholds below 2^27 weights).

### C38 When thresholds panic — proved

Exact panic conditions of evaluation and construction, against `Spec/Weights` (the weight texts that are read, the sums that fit 32 bits), by induction over clauses and weights.

Theorems (`Props/Tholder`, `Props/Tholder3`, `Props/Tholder4`): `C38_unweighted_evaluation`, `C38_out_of_range_panics`, `C38_weighted_evaluation`, `C38_evaluation_panics_exactly`, `C38_value_panics_exactly`, `C38_sith_panics_exactly`, `C38_limen_panics_exactly`, `C35_exact_when_small`, `C38_construction`, `C38_construction_sith`, `C38_construction_release`, `C38_construction_release_sith`, `C38_construction_panics`, `C38_construction_overflow`, `sample_panics`.

All panic conditions are exact, in both overflow-check profiles. The panics are defects.

### C39 JSON serialization is injective — proved

Structural induction over documents; the parser inverts the printer.

Theorems (`Props/Json`, `Props/JsonRead`): `C39_injective`, `C39_stream`, `C39_roundtrip`, `C39_defect_depth`, `C39_defect_float`.

Exact at the parser's recursion limit. Floats are covered: they are their printed texts, read back under FloatsRead.

### C40 Version string round-trip — proved

`Spec/Version` and inversion of the regular expression.

Theorems (`Props/Common`): `C40_accepted_iff`, `C40_versify_deversify`, `C40_deversify_versify`, `C40_versify_ok_iff`, `C40_total`.

Exact: sizes from 2^24 and version digits from 16 are written but refused when read.

### C41 Sizeified messages declare their true length — proved

The sizing loop and the byte search for the version text.

Theorems (`Props/Common`): `C41_size`, `C41_bytes`, `C41_version_first`, `C41_total`, `C41_idempotent`, `C41_defect`.

A version-like text in front of the version field is overwritten instead of it (defect, witnessed).

### C42 When reading a message panics — proved

All branches of reading a message; exact.

Theorems (`Props/Sadder`): `C42_serder_panics_iff`, `C42_creder_panics_iff`, `C42_no_short_message`, `C42_truncated`.

Exact characterisation of the panics (defect documented in the property); everything else is Ok or Err.

### C43 A freshly computed SAID verifies — proved

Saidify followed by verify; hash abstract.

Theorems (`Props/Sadder`, `Props/Saider`): `C43_verifies`, `C43_verifies_same`, `C43_map`, `C43_version`, `C43_succeeds_plain`, `C43_succeeds_versioned`, `C43_label_v`.

Hash functions abstract (any with the right output lengths). The kind passed to verify must be absent or JSON.

### C44 SAID binds content — proved

Content of a SAID as a specification; injectivity of the printer reduces equality of SAIDs to equality of content or a collision.

Theorems (`Props/Diger`, `Props/Saider`): `C44_content`, `C44_binds`, `C44_reachable`, `saidify_plain`.

Collision as explicit alternative.

### C45 SAID of a message object — proved

The object read from raw or map; independence of the hash function.

Theorems (`Props/Sadder`): `C45_said_field`, `C45_never_hashed`, `C45_content_not_bound`, `C45_content_not_bound_creder`, `C45_saidified_serder`, `C45_saidified_creder`.

The SAID field is reported faithfully; that content is never checked is proved as the defect.

### C46 Protocol identifier separation — proved

Protocol of the version text found by the byte search.

Theorems (`Props/Sadder`): `C46_serder_map`, `C46_creder_map`, `C46_bytes`, `C46_disjoint`, `C46_defect`.

### C47 Derived prefixes verify — proved

Derivation followed by verification for the three kinds of prefix.

Theorems (`Props/Prefixer`, `Props/Prefixer2`): `C47_digest`, `C47_digest_derives`, `C47_basic`, `C47_basic_derives`, `C47_list_refused`, `C47_trailing_defect`.

Derived prefixes verify; exact condition for basic ones (no text after the key), list-valued n, b, a refused.

### C48 Prefix verification binds the event — proved

Exact verification condition for basic prefixes; digest content and injectivity for the others.

Theorems (`Props/Prefixer`, `Props/Prefixer2`): `C48_transferable`, `C48_nontransferable`, `C48_digest`, `C48_binds`, `C48_defect`.

Exact for basic prefixes; digest prefixes bind the content, hash function abstract.

### C49 Path text round-trip — proved

Components joined and split at hyphens, Base64 padding of C31.

Theorems (`Props/Pather`): `C49_roundtrip`, `C49_refused`, `C49_too_long`, `C49_no_panic`, `C49_defect`, `C49_code`.

### C50 Path resolution matches the document — proved

The walk over the document against `Spec/Path`, with the word size of the platform as a parameter.

Theorems (`Props/Pather`): `C50_resolve`, `C50_built`, `C50_no_panic`, `C50_deterministic`, `C50_reads_deterministic`, `C50_portable`, `C50_word_size`.

### C51 Path relations — proved

Lists of components.

Theorems (`Props/Pather`): `C51_starts_with`, `C51_starts_with_prefix`, `C51_strip_root`, `C51_strip_longer`, `C51_defect_panic`, `C51_defect`.

### C52 Signing code selection — proved

Case analysis of the code choice, exact outcome.

Theorems (`Props/Signer`): `C52_signing_code`.

The curve library is abstract (any with the stated laws).

### C53 Signatures verify — proved

Signing followed by verification under the crypto laws.

Theorems (`Props/Signer`): `C53_key_transport`, `C53_unindexed_verifies`, `C53_indexed_verifies`, `C53_verify_no_panic`.

Assumes the curve library's law that its signatures verify, for all random numbers.

### C54 Typed primitives only carry their own codes — proved

Every constructor, every argument.

Theorems (`Props/Typed`): `C54_codes_checked`, `C54_codes_built`, `C54_parsed_unchecked`.

### C55 Digest comparison — proved

Exact outcome of the comparison functions.

Theorems (`Props/Diger`): `C55_code`, `C55_verify`, `C55_hash`, `C55_compare`, `C55_compare_same`, `C55_compare_text`.

Exact for digest objects that have a text.

### C56 Deterministic key derivation — proved

Induction over the loop that stretches keys.

Theorems (`Props/Salter`): `C56_positions`, `C56_distinct_paths`, `C56_extension`, `C56_first_failure`, `C56_overflow`, `C56_derivation`, `C56_paths_collide`.

Argon2 abstract.

### C57 Fixed codes carry the whole material they name — proved

Table against the sizes of the algorithms in `Spec/Cesr`.

Theorems (`Props/Util`): `C57_material_sizes`, `C57_complete`, `C57_ed448_signature_truncated`.

Holds for every fixed code but 1AAE; the exception is a defect.

### C58 When SAID checking panics — proved

All branches of SAID verification; exact.

Theorems (`Props/Saider2`): `C58_panics`, `C58_saidify`.

Exact for SAIDs that have a text.

### C59 Message round trip — proved

Printing a map, reading it back, through C39 and C41.

Theorems (`Props/Messages`, `Props/Sadder`): `C59_serder`, `C59_creder`, `C59_shorthand`.

### C60 Event accessors read the event — proved

Each accessor against the field it names.

Theorems (`Props/Serder`): `C60_verfers`, `C60_digers`, `C60_werfers`, `C60_sn`, `C60_pre_est`, `C60_thresholds`, `C60_fn`, `C60_fn_defect`.

### C61 Credential accessors read the credential — proved

Each accessor against the field it names.

Theorems (`Props/Serder`): `C61_fields`.

### C62 Updating a message object forgets its history — proved

Updates as state transformers; the state after an update depends on the arguments only.

Theorems (`Props/Serder`): `C62_code`, `C62_raw_fresh`, `C62_ked_fresh`, `C62_kind_idempotent`, `C62_failed_update_remains`.

Failed updates are the documented defect.

### C63 Checking a prefix panics only without event type — proved

All branches of prefix verification; exact.

Theorems (`Props/Prefixer2`): `C63_verify_panics`.

Exact.

### C64 Tail of a path — proved

Resolution, then printing of the last part.

Theorems (`Props/Pather`): `C64_tail`, `C64_panics`, `C64_container`.

### C65 Signer construction — proved

Construction, generation and transport of signers; exact panic condition.

Theorems (`Props/Signer`): `C65_from_raw`, `C65_generated`, `C65_codes`, `C65_transport`, `C65_text_panics_exactly`.

### C66 Classification of primitives — proved

Membership in the classes, against tables of `Spec/Args`.

Theorems (`Props/Classes`): `C66_digestive`, `C66_transferable`, `C66_keys`.

### C67 Which constructor arguments count — proved

Every constructor as a function of the arguments that count (`Spec/Args`).

Theorems (`Props/Args`): `C67_primitive`, `C67_indexed`, `C67_counter`, `C67_typed`.

The Diger oddity is part of C67_typed.

### C68 128-bit numbers through the JavaScript bindings — proved

Arithmetic of halves of 128-bit numbers.

Theorems (`Props/Wasm`): `C68_number`, `C68_seqner`, `C68_event`.

The defect is the exact characterisation in each theorem.

### C69 Documents through the JavaScript bindings — proved

Conversions composed with the library calls.

Theorems (`Props/Wasm`): `C69_document`, `C69_checks`, `C69_saidify_defect`, `C69_ked_defect`, `C69_threshold`.

The defects are C69_saidify_defect and C69_ked_defect.

### C70 Printing a message for people — proved

Printer, re-reader (C39) and cutting at a byte position.

Theorems (`Props/Pretty`): `C70_text`, `C70_deep`, `C70_ascii`, `C70_defect`.

The defects are C70_deep, C70_defect and the panic clause of C70_text.

### C71 Editing a document — proved

Writes as state transformers on entry lists and arrays.

Theorems (`Props/Data`): `C71_writes`, `C71_position`, `C71_conversions`.

### C72 Comparing documents — proved

Structural induction; order-insensitive comparison of entries.

Theorems (`Props/Data`): `C72_equivalence`, `C72_content`, `C72_text`, `C72_order`, `C72_zeros`.

The oddity is C72_order.

### C73 Typed objects survive transport — proved

Every constructor yields the result of the general constructor; re-reading by C04 and C67.

Theorems (`Props/Short`): `C73_primitives`, `C73_objects`, `C73_siger`, `C73_raw`.

### C74 Which prefix an event yields — proved

Exact outcome of derivation (C47 lemmas), with the code choice and the list of allowed codes.

Theorems (`Props/Prefixer3`): `C74_code`, `C74_allow`, `C74_basic`, `C74_digest`.

C74_digest describes every derived digest prefix; that one is derived is C47_digest_derives.

### C75 Mixed CESR streams are self-framing and composable — proved

client loop modelled in Props/Stream on top of the three classes; one lemma collects what every obtainable element satisfies (alignment, size, self framing), then induction on the list of elements.

Theorems (`Props/Stream`): `C75_text_stream`, `C75_binary_stream`, `C75_composable`, `C75_convert`, `C75_unambiguous`, `C75_counted_group`.

Client loop (parse by kind, skip full_size) over arbitrary lists of primitives, indexed signatures and counters; induction on the list. Binary part needs each element's qb2 to succeed (C19 says when: the 6-digit indexed codes panic in overflow-checked builds).

### C76 Encodings are in the CESR wire format — proved

Bit-level specification (`Spec/Wire`): the closed form of C01 is compared with it; uniqueness of the wire text gives the reading direction.

Theorems (`Props/Wire`): `C76_matter_writes`, `C76_matter_reads`, `C76_indexer_writes`, `C76_indexer_reads`, `C76_counter`, `isWire_unique`, `isWire_inj`.

### C77 Computing a SAID is stable — proved

Characterisations of derive and saidify (C43) plus idempotence of the size update; C01 gives back the code from the text in the field.

Theorems (`Props/SaidStable`): `C77_fixed_point`, `C77_field_ignored`, `C77_same_as_saidify`, `C77_code_from_field`.

### C78 Objects made from content, and from nothing — proved

The short constructors unfold to `new`; C28, C29, C31, C33, C55 and C65 apply.

Theorems (`Props/Content`): `C78_numbers`, `C78_text`, `C78_date`, `C78_digest`, `C78_generated`, `C78_nothing`.

Pather's short constructors are covered by C49.

### C79 Which names in an ignore list matter — proved

Removal of ignored keys is a filter on names; the size update adds no fields.

Theorems (`Props/WasmLists`): `C79_ignore`.

### C80 Lists in the JavaScript bindings — proved

Array entries are texts or anything else (`JsVal`); unfolding to the library calls, C79 for ignored names, C74 for allow lists; induction for the array filling loop.

Theorems (`Props/WasmLists`): `C80_texts`, `C80_absent`, `C80_other_ignored`, `C80_other_allowed`, `C80_arrays`, `C80_signers`, `C80_compare`.

### C81 Only JSON is read, and as JSON means it — proved

the grammar of JSON as inductive relations between texts and documents (Spec/JsonText.lean); soundness of the reader by induction on its fuel, completeness by induction on the derivation with the fuel bound 2·length, strings and numbers separately; the entries of an object by insertion order.

Theorems (`Props/JsonRead`): `C81_read`, `C81_unique`, `C81_bindings`.

grammar of RFC 8259 as inductive relations in Spec/JsonText; reader sound and complete for it; panics exactly on awkward numbers (defect)

### C82 Which bytes are a message — proved

from the characterisation of construction from bytes (C42, C45), the announcements of C40/C46 and C81; UTF-8 validity of the body follows because an object text ends with an ASCII character.

Theorems (`Props/JsonRead`): `C82_serder`, `C82_creder`, `C82_determined`.

exact acceptance of bytes, with the grammar of C81 and the version texts of C40

### C83 Which texts and bytes are primitives, indexed signatures and counters — proved

backward by the writers' characterisation (C76) and self-framing, forward by canonicity (C05, C21, C25); for text the padded variant is derived by splitting the base64 decoder's input at its first = (Lemmas/Padded.lean).

Theorems (`Props/Read`): `C83_matter_text`, `C83_matter_text_nopad`, `C83_matter_binary`, `C83_indexer_text`, `C83_indexer_binary`, `C83_indexer_codes`, `C83_counter_text`, `C83_counter_binary`.

parsers as exact recognizers of the wire format of Spec/Wire and its padded variant Spec/Read; test codes of the indexer are covered by C17-C21 only

### C84 Objects altered through the setters — proved

the encoders are evaluated for arbitrary fields by cases on the table row; a success forces the lengths of a well-formed object (up to its unused size field), for which the round trips of C01-C03, C17-C19 apply; for the text of a misfit the reader is canonical (C04), so the size field read is the one written.

Theorems (`Props/Altered`, `Props/Altered2`): `C84_binary`, `C84_text`, `C84_text_reads_back`, `C84_text_defect`, `C84_indexed_text`, `C84_indexed_binary`, `C84_indexed_binary_defect`, `C84_reserved`.

encoders over arbitrary field values, not only constructed objects

### C85 Which documents make a message — proved

the characterisation of sizeify (Lemmas/Sizeify.lean) is turned into an equivalence with the first version-like text of the serialization (find_iff), the d entry is untouched by the new version string; panics by the characterisation of the SAID constructor.

Theorems (`Props/FromMap`): `C85_serder`, `C85_creder`, `C85_bytes`, `C85_copy`, `C85_panics`.

exact acceptance of documents and the exact object; the panic without d is a defect, proved exactly

### C86 The content of an object determines the object — proved

an object with an encoding is well formed (Lemmas/Reencode.lean); its content text is the tail of the base64 of its raw, and the content constructor is evaluated on it; for a Bexter the characters dropped are compared with those put back (enc_lead1, enc_lead2).

Theorems (`Props/Recontent`): `C86_bexter`, `C86_bexter_defect`, `C86_seqner`, `C86_dater`, `C86_number`.

all constructors and arguments; the spare bits of a Bexter are the defect, exact

### C87 Signed events — proved

the client loop is written in Props/Signed.lean on the modelled API; each signature is reachable (C53) hence reads back with its length (C75), the event reads back before attachments (C59), verifies (C53); soundness by unfolding the client, with C82 for the bytes of the event and C34 for the threshold.

Theorems (`Props/Signed`): `C87_received`, `C87_sound`.

the receiving loop is client code in Props/Signed.lean; everything it calls is the modelled library; sample_received is a concrete run

### C88 Text given as bytes — proved

the validity test of the model is shown to accept exactly the flat images of String.utf8EncodeChar (arithmetic on code points per length class, Lemmas/Text.lean); boundaries by induction on characters.

Theorems (`Props/Text`): `C88_text`, `C88_other`, `C88_cut`, `C88_inside`.

Lean's own Char and String encoding is the specification

### C89 Streams that arrive in pieces — proved

induction over the elements: a complete element is read (C75), an incomplete one is refused as C08, C21 and C25 say; the schedule theorem is an invariant over the pieces: what was read plus what the buffer and the future pieces hold is always the stream.

Theorems (`Props/Incomplete`): `C89_text`, `C89_binary`, `C89_schedule_text`, `C89_schedule_binary`.

the waiting loops are client code in Props/Incomplete.lean

### C90 Chained histories — proved

induction over the length of the histories: equal SAID texts are equal SAIDs (canonical text), equal digests are equal contents (injective serialization) or a collision, equal contents name the same prior SAID; the key commitments are a function of the maps

Theorems (`Props/History`): `C90_history`, `C90_rotation`, `C90_accepts`, `sample_replayed`, `sample_refused`, `sample_accepts`.

The client loops are not library code; everything they call is. Collisions are pinned to the serialized contents of two events, or two key texts, in the histories, because any hash function has some collision.

### C91 Duplicity is evident — proved

the first point where two lists of maps differ (induction), C90 for the common part, the meaning of an admission from the soundness of reading signatures (as in C87), equality of the keys in force because they are a function of the maps

Theorems (`Props/Duplicity`): `C91_duplicity`, `C91_admits`, `sample_fork`, `sample_admits`.

The client loops are not library code; everything they call is.

### C92 Receipted events — proved

induction over the couples: every part is at the front of the rest of the text and is read back (as in C64), the signatures verify (C53), the named keys and the number are read as in C60; the converse by taking the accepting run apart; C92_threshold says what the number asked for is, from C60_sn

Theorems (`Props/Receipts`): `C92_received`, `C92_sound`, `C92_threshold`, `sample_receipts`.

The client loop is not library code; everything it calls is.

### C93 Partial rotations — proved

the accepting run taken apart, each opened position traced to a signature in the stream (as in C87), digests compared (C55), different digests of one kind belong to different key texts; the converse as in C87, with the position pair that sign_indexed writes (C52) read back from the text (C21)

Theorems (`Props/PartialRotation`): `C93_sound`, `C93_judged`, `C93_rotated`, `sample_rotated`, `sample_not_rotated`.

The client loop is not library code; everything it calls is.

### C94 Credential graphs — proved

mutual induction over the two graphs: equal SAIDs of verified credentials give equal maps (C39, C44) or a collision, equal maps name the same SAIDs; the converse by induction with C59 and C61; C94_edges: the collected names are those of the inductive specification NamesEdge, by mutual induction over the section

Theorems (`Props/Graph`): `C94_graph`, `C94_edges`, `C94_opens`, `sample_dossier`, `sample_no_dossier`.

The client loop is not library code; everything it calls is. Collisions are pinned to two credentials at the same place of the two graphs.

### C95 All builds and platforms give the same answers — proved

the build parameters enter only through the cut of numbers to a length (never reached by constructors: the value always fits), checked arithmetic and the word size; equality of the functions by rewriting, agreement up to a checked panic as a congruence for the sequencing of calls

Theorems (`Props/Builds`): `C95_construction`, `C95_messages`, `C95_signing`, `C95_encoding`, `C95_altered`, `C95_saids`, `C95_thresholds`, `C95_paths`.

Exceptions: the panics of checked builds (C18, C36) and path components that are numbers of more than 32 bits (C50).

### C96 Native numbers in and out of documents — proved

floats as IEEE bit patterns, their value as a rational number; truncation by integer division, rounding shown nearest against every float (floats from 2^l on are multiples of 2^(l-52)), widening by the value formula

Theorems (`Props/Native`): `C96_integers`, `C96_floats`, `C96_float_to_integer`, `C96_integer_to_float`, `C96_integer_lost`, `C96_refused`, `C96_equal`, `C96_shown`.

f32 and f64 are modelled by their IEEE bit patterns and specified by the rational number they stand for. Exception (defect): infinities and NaN.

### C97 Documents made from maps — proved

insertion of new keys appends; permutations with C72 and C39; SAID contents keep the order of the keys, so they differ; `dat!` as a history of writes (C71)

Theorems (`Props/Native`): `C97_entries`, `C97_orders`, `C97_text_varies`, `C97_said_varies`, `C97_written`.

The iteration order of the map is a parameter of the model (any order). Exception (defect): the text and the SAID depend on it.

### C98 Selective disclosure — proved

trees of documents and paths; agreement by induction on the route with C44 (contents of verified documents) and injectivity of JSON, acceptance by induction with C43 and the text round trip of SAIDs, parts by C50 (paths) and C04

Theorems (`Props/Disclosure`): `C98_agree`, `C98_accepted`, `C98_named`, `sample_disclosed`, `sample_not_disclosed`.

The client loop is not library code; everything it calls is. Collisions are pinned to two documents shown at the same place.

### C99 Building a primitive from a code and raw bytes, whatever the code — proved

the build is computed for every UTF-8 code (fixed, 4-6, 7-9, other); panics, usability and typed constructors follow from that equation and C84

Theorems (`Props/Build`): `C99_build`, `C99_panics_exactly`, `C99_usable`, `C99_typed`, `C99_defects`.

whole function for every UTF-8 code; the three defects are part of the statement
