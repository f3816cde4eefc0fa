# A formal model of WebOfTrust/cesride in Lean 4

(Generated by `tools/gen_design.py` from `tools/design_head.md`, `tools/design_how.txt`, `properties.jsonl` and `MANIFEST.json`.)

## Layout

| path | content |
|---|---|
| `lean/Verif/Model/*.lean` | the model: executable definitions, function by function; every definition cites the file and lines of `/repo` it models and says where it simplifies |
| `lean/Verif/Spec/*.lean` | small specifications written without the model: tables of codes and sizes, Base64 as sextets, hexadecimal numerals, exact rational sums, paths, SAID and prefix content, version texts |
| `lean/Verif/Lemmas/*.lean` | auxiliary lemmas; no property is stated there |
| `lean/Verif/Props/*.lean` | the property theorems `Cnn_…`, each with a non-trivial case that meets its hypotheses |
| `properties.jsonl` | the properties in English |
| `MANIFEST.json` | property → theorems and status (from `tools/claims.py`) |
| `seeded/LOG.jsonl` | wrong programs tried against the theorems |

## Conventions of the model

* **Outcomes.** `Res α = ok a | err e | panic`. A Rust `Err` is `err` with its kind (message texts are dropped; `Told` of `Model/Told` keeps them, for C118); a Rust panic (slice out of range or
  inside a multi-byte character, `Index` on a missing key, `unwrap`, `copy_from_slice` with the wrong length, arithmetic overflow under overflow
  checks) is the separate value `panic`. A theorem `f x = .ok y` therefore says that `f` returns, without panic, that value.
* **Strings.** A `&str`/`String` is the list of its UTF-8 bytes. Slicing is `panic` off a character boundary. Theorems range over *all* byte lists,
  a superset of valid UTF-8; constructors that take bytes (`qb64b`, raw messages) check UTF-8 as the code does (`fromUtf8`, `utf8Valid`).
* **Build.** `Env` holds what differs between builds: `usizeBits`, `overflowChecks` (debug profile panics, release wraps) and `drop`, the number of leading Base64 digits
  that the floating-point logarithm in `u32_to_b64`/`u64_to_b64` skips. The only law of `drop` is that nothing is skipped when the number fits (conversion to
  `f32` and `log2` are monotone and exact on powers of 64). Theorems are for every `Env` unless they name one.
* **Objects.** The typed primitives with only code, size and raw (Verfer, Diger, Saider, Number, Seqner, Dater, Bexter, Pather, Prefixer) are all the
  structure `Matter`; the constructors differ. Cigar, Siger, Signer, Salter, Tholder, Serder and Creder have structures of their own. Methods with `&mut self`
  (`Sadder` updates, `Value` writes) return the new state, also when they fail.
* **Documents.** `Value` has null, booleans, 64-bit integers, floats (represented by the text `serde_json` prints for them), strings, arrays, and objects as entry lists
  in insertion order (`IndexMap`, `serde_json` with `preserve_order`).

## Trusted base

* **Lean 4.33.0's kernel.** No axioms are added; no compiled evaluation is trusted. The axioms of the theorems listed in `MANIFEST.json`
  (`#print axioms`): `propext`, `Classical.choice`, `Quot.sound` and no others; the theorems that need fewer are C71_position, C71_conversions, C96_refused, C97_entries, C106_call, C106_kept, C114_text_out (without `Classical.choice`), C96_integer_lost, C104_dropped, C106_made_and_freed (only `propext`) and C104_replaced_defect (none). Closed computations
  are checked by the kernel (`decide +kernel`, and `kernel_rfl` of `Lemmas/KernelRfl.lean`, which only hands `Eq.refl` to the kernel).
* **The translation.** The model is written by hand from the Rust text; the code was never run. The citations beside the definitions make the translation checkable.
* **The models of external crates** (the parts used):
  * `base64` URL_SAFE engine — concrete (`Model/Util.lean`): padding written; on reading, canonical padding required and trailing bits zero.
  * `serde_json` printer (compact and pretty) and parser — concrete (`Model/Value.lean`, `Model/Pretty.lean`, `Model/Json.lean`): escapes, white space, numbers, surrogate pairs,
    recursion limit 128, last value of a repeated key in the place of the first. The printed text of a float is an uninterpreted function `F` of its token.
  * `num-rational`/`num-integer` on `i32` — concrete with overflow (`Model/Tholder.lean`).
  * `indexmap`, `regex` on the fixed patterns of the code, `str::split`, `replace`, `parse`, `from_str_radix`, `to_be_bytes` — concrete.
  * `blake3`, `blake2`, `sha2`, `sha3` — `structure Hash`: any functions with the right output lengths. Binding theorems have a collision of that hash as explicit alternative.
  * `ed25519_dalek`, `k256`, `p256`, `argon2` — `structure Crypto`: any functions with the stated laws (lengths; a signature made with an accepted private key verifies
    under its public key, for all random numbers; generated keys are accepted). `toy` and `zeroHash` show that the laws are satisfiable.
  * messages of the standard library and of `base64`, `argon2`, `k256`, `p256` — `structure Voice`: any texts with two laws (what the decoder reports is about the text it refused; the panic of slicing a string quotes it up to 256 bytes). `C118_voice` shows that they are satisfiable.
  * clock and random numbers — arguments.
  * `wasm-bindgen` — the generated code for arguments by value and by reference (`Model/Js.lean`), for numbers and for texts (`Model/JsPlain.lean`), as built without `--debug`; after a panic in WebAssembly nothing is claimed (C106).
* **Platform.** The width of `usize` is a field of `Env` (at least 32: 64 native, 32 for the JavaScript bindings, `Env.wasm`) wherever it decides an outcome (key positions, C56; numerals in paths, C50).

## Modelled

All of `src/core/*.rs`, `src/core/{matter,indexer,counter}/*.rs`, `src/data.rs`, the dispatch of `src/crypto/*.rs`, the short constructors, and the conversions of `wasm/src/*.rs`
(128-bit numbers, documents, arrays and lists of objects); the bodies of the other bindings are forwarding calls. Of the test modules, the builders of events and
messages (`incept`, `ample`, `receipt`, `messagize`, `Seal`), which are ordinary code over the public interface (`Model/Incept.lean`).

## Not modelled

* Message texts of errors other than those about primitives, signers and salters (C118, `Model/Told`); memory exhaustion and stack depth; `Debug` and `Display` output (other than the derived `Debug` of Signer and Salter, C118); time and cost.
* The inside of the hash, signature and key-stretching algorithms and the quality of random numbers; timing.
* Floats inside documents: a finite float is its printed text (`==` compares texts, except that the two zeros are equal; `to_f64` gives the text). The
  conversions between documents and native numbers (C96) have a model of their own, with the IEEE bit patterns of `f32` and `f64`; infinities and NaN, which print
  as `null`, are represented only there. The payload of a NaN is not claimed. The reader of `serde_json` is not exact on floats: theorems about reading a document
  back assume, for the floats in it, that they are read exactly and print with a point (`FloatsRead`); theorems that compare texts assume nothing but that floats
  are finite (`Plain`). How `serde_json` prints a float is a parameter.
* `src/data.rs`: how the compiler divides a program into the tokens and expressions that the macro `dat!` sees, and its limit on macro expansions (C122), and the `From` implementations for texts, slices and
  `IndexMap`, which copy.
* Memory (C104): buffers inside the libraries, stack slots and registers, what callers do with the values they pass or get; what `base64` has written when it refuses a text is a parameter.
* CBOR and MessagePack serializations: the code refuses them, and so does the model.
* Texts longer than 2^32 where the code computes in `u32`: modelled by reduction mod 2^32 at the casts the theorems name (C11, C41), elsewhere lengths are natural numbers.

## Method

Concrete cases that meet the hypotheses stand in the same files as the theorems, mostly at the end: as `example`, as `sample_…`, or as `C…_example` where the case is long
(a whole exchange of messages). Where the theorems of a property are spread over several files the case is in the last: `Attached2` (C109), `Agreement2` (C121), `Incept3` (C108),
`Founding3` (C111), `Vault5` (C110), `Life4` (C112, C115), `Start3` (C113), `Told2` (C118), `Prefixer2` and `Prefixer3` (C47, C48), `Saider2` (C43, C44, C58), `Tholder3`,
`Tholder4` and `Tholder5` (thresholds).

Wrong programs were tried throughout: a definition of the model is edited in a scratch copy, everything is rebuilt, and the theorems that fail are recorded in
`seeded/LOG.jsonl`. `theorems_failed_directly` are the theorems whose own proof broke; `property_theorems_lost` those of `MANIFEST.json` that depend on one of
these; `failed_after_repairing_lemmas` is from runs where broken lemmas were replaced by assumptions so that everything behind them was rechecked.

A property that the code violates is kept with its full statement: the English text names the violation as a known exception, the positive theorem carries the exact guard, and a
separate theorem proves the violation (names with `defect`, `accepted`, `panics`, `not_…`). These are findings about the code:

* text with `=` inside a primitive is accepted and gives an object with too little raw that cannot be encoded (C04, C06), makes accessors panic (C30, C65);
* parsers panic on text with multi-byte characters, on zero-size variable codes and on one-byte counter texts (C12, C22, C26);
* same-index signature codes accept a different ondex and lose it in transport (C20); `3A`/`3B` overflow in `qb2` (C18); Ed448 signatures are cut to 39 bytes (C57);
* repeated indices count repeatedly towards a numeric threshold (C34); fractions overflow 32 bits (C35, C36, C38); a weight with two slashes is read as its first part (C35);
* reading a message panics on truncated input, on JSON that is not an object and on missing fields (C42, C60, C61), and never checks the SAID against the content (C45);
* a version-like key before the version field diverts sizing, the protocol check and the prefix digest (C41, C46, C48);
* `_fn` never returns a number (C60); a failed update leaves a mixed object (C62);
* Bexter loses a leading `A` (C31); paths with hyphens or a leading empty component come back changed, `strip` and `starts_with` misbehave (C49, C51);
* Number, Salter and Prefixer accept every primitive code from text and binary (C54); stretched key paths collide (C56); Diger hides unreadable input (C67);
* the JavaScript bindings rebuild numbers of 2^64 and more wrongly (C68), `saidify` and `ked()` always panic there (C69); pretty printing panics inside characters (C70);
* objects whose size field does not fit their raw can be encoded and then read back as something else (C84); building a message from a map without `d` panics (C85); Bexters from raw bytes that differ in their first bits can show the same text (C86);
* whether a path with a large index resolves depends on the word size of the platform (C50);
* in JavaScript, an object that was handed over once silently counts as absent where the argument is optional: a second Cigar with the same Verfer carries an empty one, a second Number from the same `sn()` is zero (C106);
* the default witness threshold is one too high for 4, 7, 10, … witnesses (C107);
* the builder of inception events takes keys, digests and witnesses that cannot be read, any primitive as the only key, next keys for a key that cannot be rotated, and repeated witnesses (C108);
* the message builder drops unindexed signatures, and a seal without controller signatures, without notice, and writes the texts of a seal unchecked (C109);
* the identifier check does not look at the SAID field: the SAID of a self-addressing inception event can be replaced by any text unnoticed (C110);
* the counter reader recognizes an op code in byte strings only; in a text it is reported like garbage (C113);
* in JavaScript, positions and amounts are taken modulo 2^32 and lone surrogates in texts become U+FFFD, without notice (C114);
* in JavaScript the codes of secp256r1 have no names, and a name without code silently stands for the code `A` (C117);
* a seed or salt given as a text with a multi-byte character across its full size panics with a message that quotes it (C118);
* the derived `Debug` of `Signer` and `Salter` (both zeroized on drop) writes the whole secret (C118);
* infinities and NaN are taken into documents and come back as null (C96); the text and the SAID of a document made from a `HashMap` depend on the random order of its iterator (C97).

## Properties: what is modelled and how it is proved
