# Design of the formal model of swrs

swrs is a Rust library reading, editing and writing Sketchware projects: six encrypted text
files (project, file, library, resource, view, logic) plus resource files. It has two layers: the
*parser model* (`src/parser`), which mirrors the files, and the *API model* (`src/api`), which is for editing.
This document says what is modelled in Lean 4, how each property of `properties.jsonl` is
proved, and what has to be trusted.

## 1. Trusted base

* The Lean 4.33.0 kernel.
* Axioms: no axiom is declared here, and there is no `sorry`, `admit`, `native_decide`, `bv_decide`,
  `implemented_by` or `unsafe`. What each property theorem depends on is listed in section 5; it is at most
  `propext`, `Classical.choice` and `Quot.sound`.
* The faithfulness of the model to the Rust text. The code is not run; every definition of
  the model cites the lines of `/repo` it models and states its simplifications.
* The model of the dependencies (not in `/repo`, so modelled from their documented behaviour):
  * `serde`/`serde_json`: a JSON printer (compact form) and parser over texts, and the
    derive-generated decoding of records (unknown keys ignored, repeated key an error,
    missing key an error, `Option` fields optional, arrays accepted positionally). Values of ignored keys are read as leniently
    as `IgnoredAny` does (any nesting, unpaired surrogates, numbers of any size); a record with a flattened field (the project)
    keeps them instead and is strict;
  * `ritelinked::LinkedHashMap`: association list in link order (`LMap`). Whether `insert` / `entry`
    of a present key moves it to the back is a parameter (`MapPol`); every theorem holds for all
    four choices;
  * `std::collections::HashMap`: association list in an arbitrary order (`HMap`; theorems quantify
    over the order or speak about lookups);
  * `aes`/`block-modes`/`block-padding`: CBC and PKCS#7 over a concrete AES-128 (`Model/Aes.lean`), whose decryption
    is proved to invert its encryption; the CBC lemmas hold for any such block cipher;
  * `chrono`: proleptic Gregorian calendar, years limited as in the crate;
  * floating point: most theorems hold for any floating point numbers (`class Floats`: values, their texts, a reader). Theorems that
    read a printed float back assume `class FloatLaws`: the JSON form of a finite `f32` is a JSON number that reads back as the same
    value, `0.0` and `1.0` are finite, and the text of a `f64` other than NaN parses to it and does not begin with `@`.
    `Float/*` models IEEE 754 binary32 and binary64 with the readers of the standard library and of `serde_json` (its inexact one,
    without `float_roundtrip`) and proves these laws (`Float/Instance`: `ieeeFloats`; C81), so they are not assumptions about
    arithmetic. What is trusted: the readers are modelled from the algorithm of the crates (not in `/repo`); the printers by their
    specification (shortest decimal that is read back; layout of `Display` and of `ryu`);
  * `rand::random`: a parameter `rnd` of the conversion, over which theorems quantify;
  * `Path::exists`: a parameter `ex`, over which theorems quantify.
* The operating system: files are a map from paths to bytes; a crash may leave any prefix of
  a write.
* The example programs: a program is a function of its arguments and files to an exit (normal, code, panic), the
  printed text and the files; the text of a panic and the order of output on the two streams are not modelled. The
  `{:?}` text of a string is any function; where a listing is shown to tell what was printed, it is assumed to begin
  with a quote and to be readable without knowing where it ends (`LawfulDebugText`). C97 proves this of the escaping
  of the standard library, for every table of characters that can be printed.

## 2. What is modelled, and what is not

| code | model | lemmas | theorems |
|---|---|---|---|
| `src/color.rs` | `Model/Color` | `Proofs/Color` | `Props/Color` (C08–C11) |
| `src/lib.rs` | `Model/Aes`, `Crypto`, `Utf8` | `Proofs/Aes`, `Crypto`, `Utf8`, `EncryptFile` | `Props/Crypto` (C01–C07) |
| `src/parser/mod.rs`: raw project, project, resource files | `Model/Raw`, `Sketch` | `Proofs/ResourceFiles` | `Props/Raw` (C57, C58) |
| `src/parser/serde_util.rs`, `project.rs` | `Model/Date`, `Project` | `Proofs/Date`, `Project` | `Props/Project` (C12–C15) |
| `src/parser/file.rs`, `library.rs`, `resource.rs` | `Model/File`, `Library`, `Resource` | `Proofs/FileLike`, `Library`, `Lines`, `Records` | `Props/Files`, `Records` (C16–C20) |
| `src/parser/view.rs`, `src/util.rs` | `Model/View` | `Proofs/View`, `AndroidView`, `ViewRoundTrip` | `Props/View` (C21, C22, C60) |
| `src/parser/logic.rs` | `Model/Logic` | `Proofs/Logic*`, `Pool*` | `Props/Logic` (C23–C31), `LogicErrors` |
| `src/api/view.rs` | `Model/ApiView` | `Proofs/ApiView`, `ViewPlace`, `ViewFlat` | `Props/ApiView` (C32–C36), `ViewTypes` (C73) |
| `src/api/component.rs`, `src/api/screen.rs`: events | `Model/ApiEvent` | | `Props/Events` (C37–C39) |
| `src/api/mod.rs`: resources, names | `Model/ApiProject` | | `Props/Resources`, `Props/ActivityNames` (C40–C42) |
| `src/api/block.rs` | `Model/ApiSpec`, `ApiBlock`, `ApiBuilder` | `Proofs/ApiSpec`, `BlockParse`, `BlockEmit`, `BlockBack`, `BlockRound`, `BlockFail` | `Props/ApiSpec`, `Blocks`, `BlocksOut`, `BlocksRound` (C43–C51), `SpecApply` (C71), `Builder` (C72), `SpecErrors` (C74), `BlockMake` (C75), `BlockErrors` (C76) |
| `src/api/screen.rs` | `Model/ApiScreen` | `Proofs/ApiScreen` | `Props/ApiScreen` (C56, C59), `ScreenRead` (C78) |
| `src/api/mod.rs`: project conversion | `Model/ApiProject` | `Proofs/ApiProject`, `ApiRound` | `Props/ApiProject`, `ApiRound` (C52–C55, C61), `Props/Written` (C77), `ProjectConv` (C79) |
| floating point numbers (dependencies) | `Float/Ieee`, `Text`, `Instance` | `Float/Error`, `Read`, `Single` | `Props/Floats` (C81) |
| Empty collections, constructors of components | `Model/Logic`, `Model/View`, `Model/ApiBlock` | | `Props/Empty` (C80) |
| `src/lib.rs`: which cipher it is | as above | `Proofs/AesSpec`, `AesSpec2` | `Props/Cipher` (C64) |
| `src/parser/view.rs`: gravity; `src/util.rs` call by call | `Model/View`, `ViewCount` | | `Props/Gravity`, `ViewCount` (C65, C66) |
| readers of lists and of the logic file, on every text | `Model/File`, `Resource`, `Library`, `Logic` | `Proofs/Reader`, `LogicSections` | `Props/Readers` (C67, C68), `LogicRead` (C69, C70), `ProjectRead` (C13) |
| messages of errors, all files | `Model/Messages` | | `Props/Messages` (C89) |
| causes of errors (`source()`), all files | `Model/Chain` | | `Props/Chain` (C96) |
| derived `PartialEq`, all files | `Model/Equality`, `Float/Equality` | `Proofs/Equality`, `EqualityOpen`, `EqualityIeee` | `Props/Equality`, `EqualityFloat` (C98) |
| `util.rs` and all counters | `Model/Counters` | `Proofs/Counters` | `Props/Counters` (C99) |
| the recursive functions of `api/block.rs` and `api/view.rs` with a limited call stack | `Model/Depth` | `Proofs/DepthIn`, `Proofs/DepthOut`, `Proofs/DepthView` | `Props/Depth` (C100) |
| `{:?}` of a text (standard library) | `Model/DebugText` | | `Props/DebugText` (C97) |
| operations on texts and numbers (standard library) | `Base/Str`, `Num`, `Model/Utf8` | `Base/*`, `Proofs/Utf8` | `Props/Text` (C88) |
| opening and saving, all parsers | as above | `Proofs/Resave` | `Props/Resave`, `ResaveFloat` (C90) |
| edits of an API project; saving through the API | as above | `Proofs/Edits`, `ApiSave` | `Props/Edits` (C91), `ApiSave` (C92) |
| `examples/*.rs` | `Model/Examples` | `Proofs/Examples` | `Props/Examples` (C93), `ExamplesParse` (C94), `ExamplesDemo`, `ExamplesSaved` (C95) |
| the written format, all parsers | as above | `Proofs/Format`, `FileFormat` | `Props/Format`, `FileFormat` (C62, C63) |

Libraries: `Base/*` (outcomes, strings, numbers, ordered maps, floats), `Json/*` (printer, parser, decoding of records,
the JSON grammar and the round trip).

`Conformance/*` runs the repository's own tests (`/repo/tests`) on the model, by kernel evaluation, with the expected values of those
tests; and known answers of the cipher (FIPS 197; `openssl`). These are tests of the faithfulness of the model, not proofs of properties.

Not modelled: messages of errors that are never made (reconstruction), `Debug` output except where it is part of a message or printed by an example,
`Clone`/`Hash` impls, memory (but for the depth of calls, C100) and time use, integer width of `usize`. Counters are natural numbers in most of the model; C99 proves that the `u32`s of the code count the same.
Errors of `serde_json` and `ParseIntError` are one value each (the text and position of the former are
not modelled; the reason of the latter, where it is shown, is a function of the text: `Model/Messages`).

## 3. Conventions

* `Out ε α` is `ok a | err e | panic`: every `unwrap`, slice and index that may panic is explicit.
* `Str` is a list of Unicode scalar values; byte lengths and byte slices go through the UTF-8 size.
* `Verif/Base`, `Verif/Json`: libraries. `Verif/Model`: the model. `Verif/Proofs`: lemmas.
  `Verif/Props`: the property theorems, each with examples showing its hypotheses are satisfiable,
  and with a refutation when the full property is false of the code.
* A property that is false of the code as it stands has a theorem `cNN_..._false` (the negation, with a
  concrete witness) and a theorem `cNN_..._partial` that states the strongest proved part.
* The theorems were tested against wrong programs; `seeded/LOG.jsonl` records every attempt.

## 4. Properties: how they are proved and what came out

### C01 Encrypt then decrypt is the identity — proved

For every byte string d, decrypt_sw_encrypted(encrypt_sw(d)) returns Ok(d).

*Proof.* CBC by list induction over blocks; PKCS#7 by arithmetic on lengths; AES-128 inverse by tables and linear algebra over bytes.

* `Swrs.c01_decrypt_encrypt`

### C02 Ciphertext length — proved

For every byte string d, encrypt_sw(d) has length 16*(len(d)/16 + 1): always a positive multiple of 16 and strictly longer than d.

*Proof.* Length of the padding.

* `Swrs.c02_length`

### C03 Decryption is total and rejects malformed lengths — proved

decrypt_sw_encrypted never panics; an input whose length is 0 or not a multiple of 16 yields a DecryptionError; a success returns strictly fewer bytes than the input (at least 1, at most 255 fewer).

*Proof.* Case analysis of unpadding.

* `Swrs.c03_total` — decryption returns bytes or a decryption error and never panics.
* `Swrs.c03_bad_length` — an empty input or one whose length is not a multiple of 16 is an error.
* `Swrs.c03_shorter` — a success removes between 1 and 255 bytes.

### C04 Encryption loses no information — proved

Two different byte strings never encrypt to the same ciphertext.

*Proof.* From C01.

* `Swrs.c04_injective`

### C05 Encrypting a file — proved

If encrypt_sw_file_to_file(f, out) succeeds then decrypt_sw_file(target) returns the bytes f had before, where target is out, or f when out is None; every other file is unchanged. If f cannot be read the call reports an IO error and changes no file.

*Proof.* File store as a function from paths to optional bytes; case analysis.

* `Swrs.c05_encrypt_file` — after a successful `encrypt_sw_file_to_file(file, out)` the target (`out`, or the file itself) decrypts to the bytes the file had, and no other file has changed.
* `Swrs.c05_unreadable` — a file that does not exist gives an IO error and no file changes.
* `Swrs.c05_outcomes` — it returns `Ok` or an IO error and never panics; on an error nothing outside the target has changed.
* `Swrs.c05_encrypt_sw_file` — `encrypt_sw_file` returns the ciphertext of the file, from which the file is recovered.
* `Swrs.c05_files` — `decrypt_sw_file` and `encrypt_sw_file` give an IO error exactly if the file does not exist or cannot be read, and otherwise what the contents of the file decrypt and encrypt to.

### C06 Encrypting a file never destroys the source on a crash — partial

If the process dies at any point during encrypt_sw_file_to_file, the bytes of the source file (as plaintext, or as their complete ciphertext when encrypting in place) can still be recovered from disk.

*Proof.* The crash states of `fs::write` (truncate, then any prefix) are listed. *Outcome.* False of the code when encrypting in place: the file is truncated before the ciphertext is written (c06_crash_false). Proved when the target differs from the source; in place the exact set of states a crash can leave is given.

* `Swrs.c06_crash_false` — is false: encrypting in place truncates the file before writing.
* `Swrs.c06_crash_partial` — the part that holds: with a target different from the source, the source is untouched at every point.
* `Swrs.c06_in_place_partial` — in place: the states a crash can leave are exactly the original and the prefixes of the ciphertext.

### C07 Loading an encrypted project yields exactly the six texts — proved

RawSketchwareProject::from_encrypted(_wo_res) on the encryptions of six UTF-8 texts returns Ok with exactly those texts in the matching fields and the resource list passed; it fails iff some file fails to decrypt or is not UTF-8, reporting the first such file in the order project, file, library, resource, view, logic.

*Proof.* UTF-8 encoder and decoder with round trip; sequential `?` over the six files.

* `Swrs.c07_loads` — the project has exactly the six texts and the resource list given.
* `Swrs.c07_round_trip` — six encrypted texts are loaded as they are.
* `Swrs.c07_fails` — it fails iff some file has no text, with the error of the first such file; it never panics.

### C08 Colour channels — proved

from_argb(a,r,g,b) and from_rgb(r,g,b) followed by alpha/red/green/blue/rgb give back exactly the channels (alpha 0xff for from_rgb), and every colour equals from_argb of its own channels.

*Proof.* `UInt32` bit operations reduced to arithmetic.

* `Swrs.Color.c08_channels` — the channels given to `from_argb` are read back, `from_rgb` is opaque, and every colour is `from_argb` of its own channels.
* `Swrs.Color.c08_value` — the value of a colour is `0xAARRGGBB`.

### C09 Hex colours — proved

parse_hex of the 8 hex digits printed for a colour returns that colour; parse_hex of any 6 hex digits returns the opaque colour with these channels; parse_hex accepts a text iff (after prefixing ff to a 6-byte text) it is an optional '+' and hex digits of value below 2^32, otherwise it returns an error and never panics.

*Proof.* Hex digits by induction.

* `Swrs.Color.c09_accepts` — exactly which texts `parse_hex` accepts, and with what value. An optional `+` is accepted (only when `ff` has not been put before it). Everything else is an error; there is no panic case.
* `Swrs.Color.c09_six_digits` — six hex digits give the opaque colour with these channels.
* `Swrs.Color.c09_print_parse` — the eight hex digits printed for a colour parse to that colour.

### C10 Colours survive JSON — partial

Writing any colour as JSON and reading it back gives the same colour; reading any JSON integer n gives the colour whose bits are n clamped to the signed 32-bit range, so the unsigned form of an ARGB value is not accepted as the same colour.

*Proof.* JSON round trip of numbers; clamping by arithmetic. *Outcome.* False of the code for 2^63 <= n < 2^64, which wrap around before they are clamped (c10_any_integer_false, c10_u64_wraps), and for numbers beyond the range of f64, which are errors. Proved: the round trip of every colour (c10_round_trip), clamping for all i64 numbers (c10_clamp_partial) and for all other whole numbers that are read (c10_beyond: all up to 10^308, none from 10^309 on). Missing: the numbers for which the property is false.

* `Swrs.Color.c10_round_trip` — writing a colour as JSON text and reading the text back gives the same colour.
* `Swrs.Color.c10_clamp_partial` — the part that holds of every float implementation: reading the decimal text of an `i64` integer gives the colour whose 32 bits (two's complement) are the integer clamped to the `i32` range.
* `Swrs.Color.c10_unsigned_not_accepted` — the unsigned form of an ARGB value with the top bit set is read as `0x7fffffff`, not as the colour.
* `Swrs.Color.c10_u64_wraps` — an unsigned 64-bit integer of at least `2^63` wraps around before it is clamped.
* `Swrs.c10_any_integer_false` — The full property C10 is false of the code: `2^63` and all the larger `u64` numbers but the last ones are read as the smallest number, not as the largest; the last ones as small negative numbers.
* `Swrs.c10_beyond` — whole numbers that do not fit in 64 bits are clamped, too, as long as they are within the range of `f64`; beyond it they are errors.

### C11 Block categories and colours — proved

category() of a block made with category c is c; a colour has a category iff its red, green, blue are one of the nine palette entries, whatever its alpha.

*Proof.* Case analysis over the palette.

* `Swrs.Api.c11_category_of_color` — the colour of a category is opaque, has the palette's channels, and has that category.
* `Swrs.Api.c11_palette_only` — a colour has a category iff its red, green and blue are those of the category, whatever its alpha; any other colour is reported.
* `Swrs.Api.c11_alpha` — the alpha of a colour does not matter.
* `Swrs.Api.c11_block_category` — the category of a block made with a category is that category.

### C12 Records survive text form and stay on one line — proved

For every resource item, file item, library item, component, event and logic block, with arbitrary Unicode strings in every text field, reconstruct succeeds, the text contains no line break, and parse of that text returns an equal record.

*Proof.* JSON printer/parser round trip by mutual induction on trees; then decode after encode per record.

* `Swrs.c12_records` — every record of the six kinds gives one line of text, without a line break, from which it is read back.

### C13 Record parsing is insensitive to key order, unknown keys and whitespace, and rejects missing or repeated keys — proved

Parsing a JSON record depends only on the value of each declared key: permuting the keys, adding unknown keys or JSON whitespace does not change the result; a missing required key or a repeated declared key is an error.

*Proof.* Decoding of records by key. *Outcome.* The project record is C82, because it keeps unclaimed members for its flattened field and is stricter about them.

* `Swrs.c13_records_by_key` — the records of the six kinds, and the view record with its optional keys, are read by key.
* `Swrs.c13_resource_item` — what is read from an object whose declared keys all have one value, for the resource record.

### C14 Creation date survives — partial

Writing the project creation time (seconds since the epoch) in Sketchware's date format and reading it back gives the same time.

*Proof.* Calendar inverse; the writer does not zero-pad, so the full round trip is false. *Outcome.* False of the code: the writer does not zero-pad the date (c14_date_round_trip_false). The partial theorem gives the exact set of dates that survive; calendar inverse and reading of padded dates proved in full.

* `Swrs.c14_calendar` — the calendar of the model is the Gregorian one: 1970-01-01 is day 0 and each day is followed by the next one of the calendar.
* `Swrs.c14_calendar_inverse` — `from_timestamp` and `timestamp` are inverse to each other on valid dates.
* `Swrs.c14_reads_padded` — the date text of Sketchware (zero-padded) is read as the time it denotes, for every valid date of the years 0 to 9999.
* `Swrs.c14_date_round_trip_false` — The full property C14 is false of the code: the creation time 2022-01-02 03:04:05 is written `202212345`, and reading that text panics.
* `Swrs.c14_date_round_trip_partial` — proved part. The creation time `ts` denoting the date `t` is written and read back as the same time exactly when every part of `t` takes its full width. Missing: the other dates, for which the property is false.

### C15 Project file round trip — partial

Project::parse(p.reconstruct()) returns p for every project p.

*Proof.* As C14. *Outcome.* False of the code because of the date (c15_project_round_trip_false). The partial theorem gives the exact condition.

* `Swrs.c15_project_round_trip_false` — The full property C15 is false of the code: reading the text written for `c15_witness` panics.
* `Swrs.c15_project_round_trip_partial` — proved part. A project whose creation time denotes a representable date is written to a text; that text parses to the same project exactly when every part of the date takes its full width. All other fields are arbitrary. Missing: projects with other dates, for which the property is false.
* `Swrs.c15_reads_sketchware` — a text written by Sketchware (zero-padded date) for a project is read as that project.
* `Swrs.c15_reconstruct_panics` — writing a project panics exactly when its creation time is not a representable date.

### C16 Activity options bit mask — proved

from_num(o.as_num()) = o for every option set, and from_num(n).as_num() keeps exactly the low four bits of n.

*Proof.* Bit mask case analysis.

* `Swrs.c16_activity_options` — reading the number written for an option set gives the option set back; writing the options read from a number keeps exactly the low four bits; option `k` is on iff bit `k` is set.

### C17 File list round trip — partial

File::parse(f.reconstruct()) returns f: every activity and custom view comes back, in order.

*Proof.* Line machine; exact condition. *Outcome.* False of the code when there are custom views and no activity (refuted by c17_file_round_trip_false); the partial theorem gives the exact condition.

* `Swrs.c17_file_round_trip_false` — The full property C17 is false of the code: with no activity, the blank line written for the empty section ends the parse and the custom views are lost.
* `Swrs.c17_file_round_trip_partial` — proved part: a file list is read back exactly when it has an activity or no custom view; otherwise the empty list is read. Missing: the case with custom views and no activity, where the property is false.

### C18 Resource list round trip — proved

Resource::parse(r.reconstruct()) returns r: every image, sound and font comes back in its section, in order.

*Proof.* Line machine, induction over lines.

* `Swrs.c18_resource_round_trip` — a reconstructed resource list parses to the same list.

### C19 Library round trip — proved

Library::parse(l.reconstruct()) returns l for every library configuration.

*Proof.* As C18.

* `Swrs.c19_library_round_trip` — a reconstructed library configuration parses to the same configuration.

### C20 Library sections may come in any order and must all be present — proved

Library::parse finds the four sections in any order, ignores lines that are not one of the four headers, uses the last occurrence of a repeated section, and fails if and only if an item is malformed, a header is the last line, or one of the four is missing.

*Proof.* As C18.

* `Swrs.c20_library_parse` — `Library::parse` succeeds iff no header is the last line, the line after every header is a well-formed item, and each of the four headers occurs; each section is the one of the last occurrence of its header. Nothing else about the text matters: order and other lines are irrelevant.
* `Swrs.c20_library_no_panic` — `Library::parse` never panics.
* `Swrs.c20_any_order` — the four sections, each a header line and an item line, may come in any order.

### C21 View record round trip — partial

AndroidView::parse(v.reconstruct()) returns v, on one line, for every view whose float fields are finite; a view with a non-finite float reconstructs to a text that does not parse.

*Proof.* Record round trip. *Outcome.* False of the code for the fixed sizes -1 and -2 (c21_view_round_trip_false). The partial theorem gives the exact condition.

* `Swrs.c21_view_round_trip_partial` — proved part: the text of a view is one line, and it is read back as the same view exactly when the five float fields are finite and neither width nor height is `Fixed(-1)` or `Fixed(-2)`. A view with a non-finite float gives a text that does not parse. Missing: views with such a fixed size, for which the property is false (see `c21_view_round_trip_false`).
* `Swrs.c21_view_reads_back` — a view with finite floats always parses back, and everything but the two sizes is the same; the sizes have the same number.
* `Swrs.c21_view_round_trip_false` — The full property C21 is false of the code: a fixed width of -1 is read back as "wrap content".

### C22 View file round trip — partial

View::parse(v.reconstruct()) returns v: every layout with all its views, in order, and every FAB comes back.

*Proof.* File round trip; exact condition. *Outcome.* False of the code: the writer puts no blank line between layouts (c22_view_file_round_trip_false). The partial theorem gives the exact condition; c22_reads_separated shows the reader is right on separated files.

* `Swrs.c22_view_file_round_trip_partial` — proved part: the exact condition under which a view file is read back from its own reconstruction. Missing: the other files, for which the property is false: a non-empty layout followed by another layout gives an error, and without a non-empty last layout the FABs are lost.
* `Swrs.c22_view_file_round_trip_false` — The full property C22 is false of the code: two screens with views cannot be read back.
* `Swrs.c22_view_file_loss` — when the names are fine but the file is not readable, the loss is an error, or exactly the FABs of a file without views.
* `Swrs.c22_reads_separated` — a file with a blank line after every layout is read back in full, however many layouts and FABs there are: the reader is right, the writer forgets the separators.

### C23 Variable record round trip — proved

Variable::parse(v.reconstruct()) returns v, and the same for list variables, whatever characters the name contains; parse accepts exactly the texts <number 0..3>:<name>.

*Proof.* Line pools by induction.

* `Swrs.c23_variable_round_trip` — a variable or list variable is read back from its text, whatever its name is.
* `Swrs.c23_variable_accepts` — the texts that parse are exactly `<number 0..3>:<name>`; every other text is an error, never a panic.
* `Swrs.c23_variable_error` — which error is given: no colon; no number (up to 255) before the first colon; or a number over 3.
* `Swrs.c23_list_variable_error` — the same for list variables.

### C24 Variable pools round trip — partial

Parsing a reconstructed variable pool or list variable pool returns the same variables in the same order.

*Proof.* As C23. *Outcome.* False of the code: a trailing blank of the last name is trimmed away, a line break splits a name (c24_variable_pool_false). The partial theorem gives the exact condition.

* `Swrs.c24_variable_pool_partial` — proved part: a variable pool (and a list variable pool) is read back with the same variables in the same order exactly when every key is the name of its variable, no name has a line break, and the last name does not end in white space. Missing: the other pools, for which the property is false (see `c24_variable_pool_false`).
* `Swrs.c24_variable_pool_false` — The full property C24 is false of the code: a last name that ends in a blank loses it.

### C25 Moreblock declarations round trip — partial

Parsing a reconstructed moreblock pool returns the same moreblock declarations in the same order.

*Proof.* As C23. *Outcome.* False of the code: ids with a colon, line breaks, outer blanks (c25_moreblock_pool_false). The partial theorem gives the exact condition.

* `Swrs.c25_moreblock_pool_partial` — proved part: a moreblock pool is read back exactly when every key is the id of its moreblock, no id or spec has a line break, no id has a colon, the first id does not begin and the last spec does not end with white space. Missing: the other pools, for which the property is false (see `c25_moreblock_pool_false`).
* `Swrs.c25_moreblock_pool_false` — The full property C25 is false of the code: an id with a colon is cut.
* `Swrs.c25_moreblock_error` — a moreblock without a colon is refused with its text, and nothing else is.

### C26 Component, event and block pools round trip — proved

Parsing a reconstructed component pool, event pool or block container returns the same list, in order, whatever strings it contains.

*Proof.* Header splitting.

* `Swrs.c26_pools_round_trip` — these pools are always read back, in order.

### C27 Block container header round trip — partial

Parsing a reconstructed block container header returns the same screen and container name.

*Proof.* As C26. *Outcome.* False of the code for names containing .java_ (c27_header_round_trip_false). The partial theorem gives the exact condition.

* `Swrs.c27_header_round_trip_partial` — proved part: a header is read back exactly when neither name contains `.java_`. Missing: the other names, for which the property is false.
* `Swrs.c27_header_round_trip_false` — The full property C27 is false of the code.
* `Swrs.c27_header_error` — which error a header gives: it does not begin with `@`, or it has no `.java_`; every other line is read.

### C28 Logic file round trip — partial

Logic::parse(l.reconstruct()) returns l: each screen keeps its variables, lists, components, events, moreblocks and all block containers.

*Proof.* Runs of the reader over chunks. *Outcome.* False of the code: empty screens are lost (c28_empty_screen_false) and a screen without block containers cuts the file before later containers (c28_gap_false). The partial theorem gives the exact condition for every logic (c28_LogicOk, spelled out: keys, line breaks, white space at the ends, colons, ids that look like pool headers, empty and misplaced screens); the only hypothesis is that map keys are distinct, which holds by the types of the code.

* `Swrs.c28_logic_round_trip_partial` — proved part: a logic is read back with every screen the same exactly when it meets `c28_LogicOk`. The order of the screens may change: screens are compared by name. Missing: the other logics, for which the property is false (see the two `_false` theorems).
* `Swrs.c28_empty_screen_false` — The full property C28 is false of the code: an empty screen is lost.
* `Swrs.c28_gap_false` — The full property C28 is false of the code, also without empty screens: of two screens, the first with a variable only and the second with a block container, the block container of the second is lost.

### C29 Logic parsing never panics — partial

Logic::parse returns Ok or Err for every text.

*Proof.* As C28, for a whole file. *Outcome.* False of the code: @java_var panics (c29_no_panic_false). The partial theorem gives the exact set of panicking texts.

* `Swrs.c29_no_panic_false` — The full property C29 is false of the code: a pool header without a screen name makes the parser panic.
* `Swrs.c29_no_panic_partial` — proved part: the parser panics exactly when, after some number of complete sections, a line comes that is `@`, then nothing or a text that does not end in a one-byte character, then a pool suffix (`java_var` etc.). In particular it does not panic if no line has this form. Missing: those texts, where the property is false.

### C30 Pool parse errors point at the first bad line — proved

When parsing a variable, list variable, moreblock, component, event or block pool fails, the error carries the zero-based index (and, where recorded, the text) of the first line that does not parse; when every line before the first blank line parses, the pool parses.

*Proof.* As C28.

* `Swrs.c30_error_location` — the error of a pool parser carries the index and the text of the first entry line (a line before the first blank line) that does not parse, and the reason.
* `Swrs.c30_good_lines` — when every line before the first blank line parses, the pool parses, and what remains to read is what follows the blank line.

### C31 Repeated declarations — proved

When a name is declared several times in a variable, list variable or moreblock pool, parsing keeps exactly one entry for it, the last declaration, and every declared name is present.

*Proof.* As C28.

* `Swrs.c31_last_declaration` — a pool keeps one entry for each declared name, and it is the last declaration of this name.

### C32 Finding a view by id — proved

find_id(id) returns a view of the tree with that id whenever one exists (the first in depth-first order) and None otherwise; the mutable variant addresses the same view and an update through it changes only that view.

*Proof.* View trees: nested inductive type, mutual structural induction.

* `Swrs.Api.c32_find` — the view found is the first one with the id in depth-first order.
* `Swrs.Api.c32_found` — so one is found iff there is one, and what is found is in the tree and has the id.
* `Swrs.Api.c32_update` — the mutable variant addresses the view that is found, and the update changes nothing else.

### C33 Layout list to view tree — proved

parse_raw_layout places every view of the list exactly once: views with parent root at top level, every other as a child of a view with its parent's id, siblings in list order; it fails iff some view has no parent field or names a parent that does not occur earlier in the list.

*Proof.* As C32.

* `Swrs.Api.c33_accepts` — exactly the lists in which every view names the root or a view before it are accepted.
* `Swrs.Api.c33_error` — the error is that of the first view that cannot be placed.
* `Swrs.Api.c33_tree` — every view of the list is in the tree once and shows the values of its raw view; the views of the root are on top, in order; the children of a view are views of the list that name it, in order.
* `Swrs.Api.c33_children` — when the ids differ, the children of a view are all the views of the list that name it, in order.

### C34 View tree to layout list and back — proved

For every view tree with distinct ids, none of them root, whose type-specific data is consistent with its raw view, parse_raw_layout(flatten_views(t)) returns the same tree, and flattening it again gives the same list.

*Proof.* As C32; relation between flat lists and trees.

* `Swrs.Api.c34_read_back` — what reading the flattened list of any trees with distinct ids gives: the tree of the flattened views.
* `Swrs.Api.c34_round_trip` — trees with distinct ids, none of them root, are read back exactly when they are consistent with their raw views, and then flattening again gives the same list.
* `Swrs.Api.c34_again` — flattening what was read back from a consistent tree gives the same list.

### C35 Flattening writes back edits and nothing else — proved

In the flattened list each view carries the edited id, sizes, padding, margin, weights, gravity, background and type-specific values, its actual parent's id, and every raw field not exposed by the API unchanged; the list has one entry per view, each after its parent.

*Proof.* As C34.

* `Swrs.Api.c35_fields` — every field of a flattened view. It has the edited values, the parent that it was flattened with, the values of its view type where that has any, and all other fields of the raw view.
* `Swrs.Api.c35_entries` — the list has one entry for every view, flattened with the id and the type id of its parent.
* `Swrs.Api.c35_order` — every entry comes after its parent.

### C36 View type ids — partial

The type id of a reconstructed view is the one of its (possibly edited) view type, and get_type_id(from_view(v)) = v.type for every recognised view; children record that id as their parent type.

*Proof.* Case analysis over the types. *Outcome.* Refuted by two witnesses: the type ids of the types 12 to 18 differ from the types, and an edited view type does not change the type written. The partial theorems give the exact types for which it holds and exactly what type and parent type are written.

* `Swrs.Api.c36_type_id_partial` — what holds: the type id of a view type read from a view is the type of the view exactly up to type 11. Missing: the types 12 to 18.
* `Swrs.Api.c36_written_partial` — what is written: the type of a flattened view is the one of its raw view, whatever its view type is now. On top its parent is the root with type 0; below, its parent type is the type id of the view type that its parent has now, or the type of the parent's raw view if the parent has no view type.
* `Swrs.Api.c36_type_id_false` — is false: the type id of a switch is that of a vertical scroll view.
* `Swrs.Api.c36_written_false` — is false: an edited view type does not change the type that is written.

### C37 Components survive the API — proved

Converting an API component to its file form and back gives the same component; converting a file component to the API and back gives the same record iff the parameters the kind does not use are empty; unknown types are rejected with their type and id.

*Proof.* Case analysis.

* `Swrs.Api.c37_api_round_trip` — a component of the API is read back from its file form.
* `Swrs.Api.c37_file_round_trip` — a component of a file is written back as it was iff the parameters that its type does not use are empty.
* `Swrs.Api.c37_refused` — exactly the types 1 to 21 are known; the error has the type and the id.

### C38 Events survive the API — partial

Converting an API event to its file form and back gives the same event (without code); converting a file event to the API and back gives the same record; types other than 1, 2, 3 are rejected.

*Proof.* Case analysis. *Outcome.* The API round trip is proved for every event. The file round trip is refuted by a witness (view events lose the target type, activity events the target); the partial theorem gives what is kept.

* `Swrs.Api.c38_api_round_trip` — an event of the API is read back from its file form, without its code, which is beside it.
* `Swrs.Api.c38_file_round_trip_partial` — what holds for events of a file: an event is written back as it was iff it is of a component, of a view with target type 0, or of an activity without target. Missing: the others, whose target is lost.
* `Swrs.Api.c38_file_round_trip_false` — is false: the target of the event of an activity is not written back.
* `Swrs.Api.c38_refused` — exactly the types 1, 2 and 3 are known; the error has the name and the type.

### C39 Events own distinct block containers — partial

Two different events of a screen never refer to the same block container.

*Proof.* Splitting at the last underscore. *Outcome.* Refuted by two different events with one container id; c39_clash_partial is the exact condition for every pair of events.

* `Swrs.Api.c39_containers_partial` — what holds: events whose names have no underscore have the same container iff they have the same target and name. Missing: the kind of the target (a view and a component with the same id) and names with underscores.
* `Swrs.Api.c39_clash_partial` — the exact condition: two events have the same container iff they have the same target and name, or a part `m` between underscores is the end of the one's target and the beginning of the other's name.
* `Swrs.Api.c39_views` — so events of views and components without underscores in their names that share a container have the same name and id.
* `Swrs.Api.c39_containers_false` — is false: different events may have the same container, by an underscore in a name, or as the events of a view and of a component.

### C40 Resource store behaves like three maps — proved

get_resource, remove_resource and put_resource behave like lookups, removals and insertions in three maps searched in the order images, sounds, fonts: remove returns what get would have returned, a failed put changes nothing, a successful put makes the resource available in its section with its declared type.

*Proof.* Map lemmas.

* `Swrs.Api.c40_get` — what is found is the first entry of the three maps.
* `Swrs.Api.c40_getters` — the three listings and the search by id agree: an image is found under its id; a sound is found unless an image has the id, and a font unless an image or a sound has it.
* `Swrs.Api.c40_remove` — `remove` returns what `get` would have returned and removes that entry only.
* `Swrs.Api.c40_put` — a successful `put` changes one entry: the resource is in its section, with its declared type.
* `Swrs.Api.c40_history` — after any history of operations the store is the three maps after the same history.
* `Swrs.Api.c40_distinct` — in every history that starts empty no section has an id twice.

### C41 A taken resource id is refused — partial

put_resource fails with IdTaken, leaving the store unchanged, whenever some resource already has that id.

*Proof.* Map lemmas. *Outcome.* False for ids of sounds and fonts: c41_taken_false. put_resource looks only at the images; c41_taken_partial is the exact condition.

* `Swrs.Api.c41_taken_partial` — what holds: an id is refused as taken exactly when an image has it. Missing: ids of sounds and fonts.
* `Swrs.Api.c41_unchanged` — a `put` that fails leaves the store as it was.
* `Swrs.Api.c41_taken_false` — is false: a sound replaces another one with the same id.

### C42 Layout names map to distinct activity names — partial

Different screens (different layout names) use different logic entries: the layout-name to activity-name mapping never produces underscores, always ends in Activity, capitalises each underscore-separated word and is injective on screen names.

*Proof.* Induction over characters. *Outcome.* False: names that differ by an underscore, an upper-case letter after one, or an underscore before a digit are one activity (`c42_injective_false`, witness `a_1` and `a1`); every name `s` is confused with `s_` (`c42_underscore`). Exactly: each name has the activity name of one and only one canonical name, one without upper-case letters in which each underscore stands between a character and a lower-case letter (`c42_canonical`); so the mapping is injective on these (`c42_injective_partial` says it for names of lower-case words). The activity names are the texts without underscore that do not begin with a lower-case letter (`c42_names`).

* `Swrs.Api.c42_canonical` — exactly: every layout name has the activity name of one canonical name, and of no other one. So two names are confused exactly when they stand for the same canonical name.
* `Swrs.Api.c42_underscore` — no name is safe from confusion, an underscore at its end makes no difference.
* `Swrs.Api.c42_names` — the activity names are the texts without underscore that do not begin with a lower-case letter, followed by `Activity`.
* `Swrs.Api.c42_words` — the name is the underscore-separated words, each with its first letter in upper case, and `Activity`.
* `Swrs.Api.c42_shape` — there is no underscore in the name, and it ends in `Activity`.
* `Swrs.Api.c42_injective_partial` — what holds: the mapping is injective on names of words that start with a lower-case letter and have no upper-case letter. Missing: other names, for which `c42_canonical` in Props/ActivityNames says when they are confused.
* `Swrs.Api.c42_injective_false` — is false: an upper-case letter, a digit and a repeated underscore make names equal.

### C43 Converting blocks always terminates and uses each block at most once — proved

Blocks::try_from terminates on every block container, including cyclic and dangling pointers; on success every block of the container occurs at most once in the resulting tree, and the tree is made of blocks of the container only.

*Proof.* Well-founded recursion on the remaining map; induction over it.

* `Swrs.Api.c43_terminates` — the conversion terminates on every container: with calls of depth at most twice the number of blocks plus two it has its result, and a greater depth does not change it.
* `Swrs.Api.c43_accepts` — exactly what the conversion accepts: ids that are numbers, and from the first block a tree of pointers in which no id occurs twice.
* `Swrs.Api.c43_once` — on success the blocks of the tree are blocks of the container, with distinct ids: each is used at most once.
* `Swrs.Api.c43_size` — in particular the tree has at most as many blocks as the container.

### C44 Generated block ids are fresh and consecutive — proved

Converting Blocks to a BlockContainer numbers the emitted blocks 10, 11, 12, ... in order, without gaps or repetitions.

*Proof.* As C43. *Outcome.* The ids are counted with natural numbers; C99 shows that the u32 of the code gives the same container for less than 2^32 - 10 blocks, and panics (with overflow checks) beyond.

* `Swrs.Api.c44_ids` — the blocks of a generated container have the ids 10, 11, 12, ….
* `Swrs.Api.c44_distinct` — so no id occurs twice.
* `Swrs.Api.c44_converts` — which lists of blocks have a container, and how many blocks it has: all but those with an argument whose block was never looked up, on which the conversion panics.

### C45 Generated next pointers chain the blocks — partial

In the generated container, following the next pointer from the first block visits exactly the top-level blocks, in order, and ends with -1.

*Proof.* Generator as state passing; induction over trees of blocks. *Outcome.* False of the code for containers in which the last top-level block has an id of 2^31 or more: ids are written as i32 pointers, which become negative (c45_chain_false). c45_chain_iff is the exact condition for all containers that have u32 ids; c45_chain_partial is the simple case of up to 2^31 - 10 blocks.

* `Swrs.Api.c45_chain_partial` — the part that holds: following the next pointers from the first block of a container of up to 2³¹ − 10 blocks visits exactly the blocks of the list, in order, and ends with −1. Missing: larger containers, whose ids do not fit in an `i32` (`c45_chain_false`).
* `Swrs.Api.c45_chain_false` — The full property C45 is false of the code: with 2³¹ blocks the next pointer of the block 2147483647 is negative, and following the pointers does not get to the end.
* `Swrs.Api.c45_chain_iff` — exactly: in a container of fewer than 2³² − 9 blocks (the ids are `u32`, C99), following the next pointers from the first block visits exactly the blocks of the list, in order, and ends with −1, if and only if there are at most 2³¹ − 11 blocks in front of the last block of the list, counted with all arguments and substacks.

### C46 Generated substack and argument pointers — partial

In the generated container, a block's substack pointers refer to the first block of the substack and its argument references refer to the argument block.

*Proof.* As C45. *Outcome.* False of the code: a pointer to a substack or an argument is the id of the last block made of it (c46_*_false); the partial theorems say which pointers are written for every block and when they are the head's.

* `Swrs.Api.c46_substacks_partial` — what holds of substacks: the blocks made of a block are its own, those of its arguments, those of its first and those of its second substack; the pointer to a substack is the id of the *last* of its blocks, so it is the first one iff there is only one. Missing: substacks of several blocks.
* `Swrs.Api.c46_arguments_partial` — what holds of arguments: the reference to an argument block is to the *last* of the blocks made of it, so it is to the block itself iff that is the only one. Missing: argument blocks with arguments of their own.
* `Swrs.Api.c46_substacks_false` — is false of substacks: the pointer to a substack with two blocks is to the second one.
* `Swrs.Api.c46_arguments_false` — is false of arguments: the reference to an argument block with an argument is to the inner one.

### C47 Blocks round trip — partial

Blocks::try_from(BlockContainer::from(b)) returns b.

*Proof.* Emission composed with reading; relation between trees and chains of blocks. *Outcome.* False of the code (c47_round_trip_false); c47_round_trip_partial is an exact characterisation of the lists of blocks that read back.

* `Swrs.Api.c47_round_trip_partial` — what holds: exactly the lists of blocks that read back. `Top` says that substacks have one block, that neither that block nor an argument block has blocks of its own, that specs and values are written unambiguously, and that the type is no list. Missing: all other lists, for which `c47_round_trip_false` has an instance.
* `Swrs.Api.c47_round_trip_false` — is false: a block with a substack of two blocks is written to a container that reads as something else.

### C48 Block specs round trip — partial

Parsing the text of a block spec gives back its items (with empty arguments), and the text of a parsed spec is the original text.

*Proof.* Words of a spec; induction. *Outcome.* False of the code in both directions (c48_text_then_parse_false, c48_parse_then_text_false). The partial theorems give the exact condition of each direction.

* `Swrs.Api.c48_text_then_parse_partial` — what holds of writing then reading: the text of a spec reads as its items without arguments iff the spec has an item and every item is one word. Missing: the empty spec, and items of other shapes.
* `Swrs.Api.c48_parse_then_text_partial` — what holds of reading then writing: the text of a spec that was read is the original iff each of its parameter words is `%x` or `%x.name`. Missing: words such as `%s.` or `%sfoo`, read as `%s`.
* `Swrs.Api.c48_text_then_parse_false` — is false: the spec with a text of two words is read as two texts.
* `Swrs.Api.c48_parse_then_text_false` — is false: `%sfoo` is read, and written as `%s`.
* `Swrs.Api.c48_accepts` — which specs are read, and as what: word by word.

### C49 Taking and applying arguments — proved

take_args returns the arguments in order and leaves the same spec with empty arguments; applying argument texts fills exactly the empty arguments, left to right, consuming one text each, and fails iff there are too few or one is malformed.

*Proof.* As C48.

* `Swrs.Api.c49_take` — taking the arguments leaves every item without its argument, the text is the same, there is one argument per parameter, and putting them back in order gives the content.
* `Swrs.Api.c49_apply` — applying argument texts fills the empty parameters in order, one text each.
* `Swrs.Api.c49_apply_fails` — applying fails iff there are fewer texts than empty parameters, or one of the texts taken does not fit.

### C50 Spec parsing never panics — partial

BlockContent::parse and parse_wo_params return Ok or Err for every spec text.

*Proof.* As C48. *Outcome.* False of the code: a lone % panics (c50_panics_false). The partial theorems give the exact set of panicking specs, with and without arguments.

* `Swrs.Api.c50_panics_partial` — what holds: reading a spec without arguments panics iff it has a word of one of the three bad shapes after readable words. Missing: those specs, on which the code does panic.
* `Swrs.Api.c50_args_panics_partial` — what holds: reading a spec with its arguments panics iff it has a word of one of the three bad shapes, and the words before it are read with the arguments.
* `Swrs.Api.c50_panics_false` — is false: a lone percent sign is enough.
* `Swrs.Api.c50_plain` — specs without a percent sign are always read.

### C51 Block types round trip — partial

BlockType::from(t.to_string(), typename of t) returns t for every block type, and the type letters accepted are exactly v p b s d l c e f and space.

*Proof.* As C48. *Outcome.* False of the code: list types lose their type name (c51_round_trip_false). The partial theorem gives the exact condition; the accepted letters are proved in full.

* `Swrs.Api.c51_letters` — the letters accepted, and with which type names.
* `Swrs.Api.c51_refused` — a refused type is reported with its letter and its type name; reading a type never panics.
* `Swrs.Api.c51_round_trip_partial` — what holds: reading the letter and the type name of a block type gives it back iff it is not a list type. Missing: list types, which have no type name to be written.
* `Swrs.Api.c51_round_trip_false` — is false: a list block type is not read back.
* `Swrs.Api.c51_text` — what is read has the letter and the type name it was read from (view and component types keep it).
* `Swrs.Api.c51_list_elements` — a list type is read exactly for the letter `l`; its elements, as a block type of their own, are texts (`s`) if the type name is `List String` and numbers (`d`) if it is `List Number`.

### C52 Project settings survive the API — proved

Converting an API project to the parser model and back preserves metadata, colours, and libraries.

*Proof.* Composition of both conversions.

* `Swrs.Api.c52_libraries` — libraries survive.
* `Swrs.Api.c52_settings` — metadata, colours and libraries survive.

### C53 Library switches are validated — partial

Converting to the API fails with InvalidUseYNValue if firebase, admob or google map has a use flag other than Y or N, and otherwise enables exactly the libraries flagged Y.

*Proof.* Order of the `?`s. *Outcome.* False as stated: errors of screens and custom views come before (c53_order_false). c53_error_partial is the exact condition for the error; c53_enabled and c53_refused hold for all projects.

* `Swrs.Api.c53_enabled` — a project that converts has valid flags, and exactly the libraries flagged `Y` are enabled.
* `Swrs.Api.c53_error_partial` — what holds: `InvalidUseYNValue` is returned for the first invalid flag exactly when the project with the libraries switched off converts, or lacks only a resource file. Missing: the screens and the custom views are converted before, and their errors come first.
* `Swrs.Api.c53_refused` — no project with an invalid flag converts.
* `Swrs.Api.c53_order_false` — is false: the error of a custom view without layout comes before the one of an invalid flag.

### C54 Resource files survive the API — partial

Converting a project with resource files to the API and back keeps every resource file, and a project loaded without resource files can be converted to the parser model and back to the API.

*Proof.* Composition of both conversions. *Outcome.* False: c54_files_false and c54_reload_false, and for every project c54_files_lost and c54_reload_fails. c54_names_iff: names and full names of a section survive exactly if the names are distinct and the used files have the full names they are stored under.

* `Swrs.Api.c54_files_lost` — of a project loaded with resource files, no resource file is written.
* `Swrs.Api.c54_no_files_written` — of a project loaded without resource files, an empty set of resource files is written.
* `Swrs.Api.c54_names_partial` — what holds: the names and the full names of the resources survive. Missing: the files themselves.
* `Swrs.Api.c54_names_iff` — what holds, exactly: the names and the full names of the resources of a section survive exactly if the names are distinct and every file that is used has the full name that it is stored under.
* `Swrs.Api.c54_reload_fails` — a project loaded without resource files that has a resource cannot be read back from what is written.
* `Swrs.Api.c54_files_false` — is false: files are lost.
* `Swrs.Api.c54_reload_false` — is false: a project loaded without files is not read back.

### C55 Screen logic is found again — partial

After converting a project to the API, editing, writing it out and reading it again, each screen still has its variables, components, events and code.

*Proof.* Lookups in the maps written. *Outcome.* False as stated (c55_found_false): a screen that had no logic in the file is named after its layout, its logic is written under that name and not found again; c55_lost says what is lost, c55_names which screens are affected. c55_reads says for every project and every screen which logic it is read from, and c55_own_iff that all are read from their own exactly if every screen has the class name looked for and the names are distinct.

* `Swrs.Api.c55_found_partial` — what holds: if every screen has the name that its logic is looked up by, and the names are distinct, then every screen has its names, variables and components again, and its events, moreblocks and code are read from its own logic. Missing: screens with another name.
* `Swrs.Api.c55_lost` — a screen whose logic is not looked up under the name of any screen loses its variables, components, moreblocks and events.
* `Swrs.Api.c55_names` — which screens of a file have a name under which their logic is found again: those that have a logic in the file.
* `Swrs.Api.c55_found_false` — is false: a variable added to a screen that had no logic is written, but it is not found again.
* `Swrs.Api.c55_reads` — exactly: in a project converted to the parser model and back, every screen is made from its file entry and the logic of the screen `readsFrom` names, or from an empty logic if there is none.
* `Swrs.Api.c55_own_iff` — every screen is read from its own logic exactly if every screen has the class name that is looked for, and the class names are distinct.

### C56 No code is dropped — partial

Every block container of a screen is attached to an event or moreblock of the resulting API screen.

*Proof.* Lookups; erasing commutes with the conversion. *Outcome.* False as stated (c56_dropped_false): a container that no event or moreblock refers to is dropped, and c56_dropped says that it makes no difference at all. Proved: the containers that are attached are exactly those referred to.

* `Swrs.Api.c56_attached_partial` — what holds: the code of a container is attached to a moreblock or an event exactly if one refers to the container. Missing: the other containers.
* `Swrs.Api.c56_dropped` — a container that nothing refers to makes no difference, whatever is in it.
* `Swrs.Api.c56_dropped_false` — is false: a container of which no event is listed is dropped.

### C57 Resource files are sorted by kind — proved

ResourceFiles::try_from puts every file in the map of its kind under its name (the last one winning), rejects missing files and paths outside images/sounds/fonts/icons; converting to a list and back gives the same maps whatever the map iteration order.

*Proof.* Maps by kind.

* `Swrs.c57_sorted` — the conversion succeeds exactly when every file belongs in a slot (its kind and its name), and then every slot holds the last file that belongs in it.
* `Swrs.c57_rejects` — otherwise it reports the first file that belongs in no slot: missing, or outside the four folders. It never panics.
* `Swrs.c57_round_trip` — the files written as a list, in whatever order the maps are iterated, are read back as the same files.

### C58 Whole project parse and reconstruct — partial

Reconstructing a parsed project and parsing the result gives an equal project; encrypting and decrypting the six texts in between changes nothing.

*Proof.* Composition of the six round trips. *Outcome.* False of the code (c58_project_round_trip_false, a parsed project whose reconstruction panics). The partial theorem gives the exact condition in terms of C15, C17, C22 and C28 (now without any hypothesis on the parts of the logic); encryption in between is proved in full.

* `Swrs.c58_panics` — opening a project panics exactly if its project text panics (C82 tells when), or the five texts before the logic are read and the logic text panics (C69 tells when). The other texts and the resource files never make it panic.
* `Swrs.c58_parts` — a project is parsed by parsing its seven parts.
* `Swrs.c58_parse` — `parse` and `parse_wo_res` parse the six texts, with and without resource files.
* `Swrs.c58_first_error` — the error reported is that of the first part that is refused, in the order project, file, library, resource, view, logic, resource files.
* `Swrs.c58_project_round_trip_partial` — proved part: a project with a representable creation time and with resource files that were read from the same file system is written to six texts, and these are read back as the same project exactly when the date, the file list, the view file and the logic file survive (C15, C17, C22, C28). Missing: the other projects, for which the property is false.
* `Swrs.c58_encrypted` — encrypting the six texts and loading them gives the same raw project, hence the same parsed project.
* `Swrs.c58_project_round_trip_false` — is false: the empty project created on 2022-01-02 03:04:05 is read from texts as written by Sketchware, and reading the texts written for it panics.

### C59 Screens survive the API — partial

Converting an API screen to the parser model and back gives an equal screen.

*Proof.* Composition of C47, C48 and map lemmas. *Outcome.* False as stated (c59_round_trip_false). c59_round_trip_partial gives the exact condition under which a screen survives.

* `Swrs.Api.c59_round_trip_partial` — exactly which screens survive: those of `Screen.Survives`. The keys of a `LinkedHashMap` are distinct. Missing: the others, and there are such.
* `Swrs.Api.c59_fab_children` — a FAB that survives has no children.
* `Swrs.Api.c59_round_trip_false` — is false: the event of `onCreate` moves to the front, and a view below a FAB is lost.

### C60 View parse errors report the line — proved

A view file whose header has no dot is rejected with the one-based number of that line and its text; a FAB header at the end of the file is rejected with the number of lines plus one.

*Proof.* Counting lines.

* `Swrs.c60_view_no_panic` — parsing a view file never panics.
* `Swrs.c60_reports` — a header without a dot, after any well-formed sections, is reported with its one-based line number and its text; a FAB header on the last line with the number of lines plus one; a FAB that does not parse with the one-based number of its line (the content reported is the header above it).
* `Swrs.c60_error_location` — conversely, whatever the file, an error points at a line that has the fault.

### C61 Projects survive the API — proved

A project of the API whose screens and custom views survive on their own, and whose names are distinct and match, is written and read back with the same screens, custom views, libraries and settings and the same resource ids.

*Proof.* C59 with the lookups of C55.

* `Swrs.Api.c61_round_trip` — a project with resource files of its own is written, and it is read back with the same screens, custom views, libraries and settings, and the same resource ids, but with new resource files and without an icon.
* `Swrs.Api.c61_automatic` — a project with automatic resource files and no resources is read back as it was, with resource files of its own.

### C62 Text of records — proved

A resource, file, library, component, event, block, view or project record is written as a JSON object with exactly Sketchware's keys, in their order, with the documented number or word for every enum value, escaped strings, and signed decimal colours.

*Proof.* The JSON printer against a separate specification of the format; unfolding per record.

* `Swrs.c62_resource` — a resource.
* `Swrs.c62_file` — an activity or a custom view.
* `Swrs.c62_library` — a library.
* `Swrs.c62_component` — a component.
* `Swrs.c62_event` — an event.
* `Swrs.c62_block` — a block.
* `Swrs.c62_project` — a project, created at the time `t`. The numbers of the date follow each other without padding.
* `Swrs.c62_view` — a view.

### C63 Text of files — proved

The files resource, file, library, view and logic are written with exactly the section headers of Sketchware, the sections in their order, one record per line, and blank lines between the sections of a logic file; a variable line is the number of its type, a colon and its name.

*Proof.* Trimming of tidy texts; joining groups of sections.

* `Swrs.c63_resource` — the file `resource`.
* `Swrs.c63_file` — the file `file`.
* `Swrs.c63_library` — the file `library`.
* `Swrs.c63_layout` — a layout.
* `Swrs.c63_view` — the file `view`: the layouts without blank lines between them, a blank line, and the FABs. Line ends at the end of the file are left out.
* `Swrs.c63_variable` — a variable.
* `Swrs.c63_list_variable` — a list variable.
* `Swrs.c63_more_block` — a moreblock.
* `Swrs.c63_variables` — variables whose lines are tidy.
* `Swrs.c63_list_variables` — list variables whose lines are tidy.
* `Swrs.c63_more_blocks` — moreblocks whose lines are tidy.
* `Swrs.c63_events` — events.
* `Swrs.c63_components` — components.
* `Swrs.c63_logic` — the file `logic`, if every screen has block containers and no header or line starts or ends with whitespace: the sections, with blank lines between them.

### C64 The cipher is AES-128-CBC — proved

Encryption writes AES-128 (FIPS-197) in CBC mode with PKCS#7 padding, key and initialisation vector both the 16 bytes 'sketchwaresecure'; decryption accepts exactly the ciphertexts whose CBC decryption under that key ends in a valid padding.

*Proof.* FIPS-197 written out separately (polynomials over GF(2), affine map, rounds); tables compared byte by byte, rounds by induction.

* `Swrs.c64_encrypt` — the plaintext is padded to the next multiple of 16 with the number of bytes added, and encrypted.
* `Swrs.c64_length` — there are as many bytes as in the padded plaintext.
* `Swrs.c64_decrypt` — exactly the ciphertexts of padded texts are decrypted, any number from 1 to 255 of padding bytes being accepted.

### C65 Gravity flags — partial

For a gravity composed of flags with 'or', each accessor (left, right, top, bottom, center, center_horizontal, center_vertical) is true iff that flag is one of the flags set.

*Proof.* Bits of an "or" over a list. *Outcome.* False as stated: LEFT and RIGHT contain the bit of CENTER_HORIZONTAL, TOP and BOTTOM that of CENTER_VERTICAL, so a gravity that is only LEFT also reports center_horizontal (c65_reported_false). c65_reported_partial gives the exact condition for every accessor.

* `Swrs.c65_constants` — the constants are those of Android.
* `Swrs.c65_reported_false` — is false: a gravity that is only `LEFT` also reports `center_horizontal`.
* `Swrs.c65_reported_partial` — what holds: `left`, `right`, `top` and `bottom` are reported iff they were set; `center_horizontal` iff a horizontal flag or `center` was set, `center_vertical` iff a vertical one or `center` was, and `center` iff both are reported.
* `Swrs.c65_default` — the default gravity reports nothing.

### C66 Counting lines — proved

After n calls of next the counting iterator reports n and has yielded what the inner iterator yields; reading a view file with it, call by call, gives the result and the line numbers of the reader of C60.

*Proof.* Induction over calls; simulation of the reader by the counting one.

* `Swrs.c66_count` — after `n` calls the count is `n`, and the calls returned what the inner iterator yields, then nothing; the rest is yielded by the calls to come.
* `Swrs.c66_view` — reading a view file with the counting iterator, call by call, is the same as `View.parse`, for which the line numbers in errors are proved (C60).

### C67 Reading lists, for every text — proved

For every text, the readers of the file, resource and library lists skip the lines before the first header, give each line to the section of the last header before it, end at a blank line of a section (file, resource), and return either the records of each section in order or the first error: zero-based line number with text or section (file, resource); for a library the first bad item, else a header at the end, else the first missing section.

*Proof.* One generic reader for sectioned lists against a specification by line index; induction over lines.

* `Swrs.c67_file` — a file list is read as follows. Lines before the first header are skipped; the lines after a header belong to its section; a blank line of a section ends the file. Each record line is read; if one is refused, the error has the zero-based number of the first such line and its text, else the records are those of the two sections, in order.
* `Swrs.c67_resource` — a resource list is read the same way; the error has the section and the zero-based number of the line.
* `Swrs.c67_file_error` — where the error of a file list points: the line exists, has that text, is not a header, is after a header, and does not parse.
* `Swrs.c67_library` — what a library file is read as, for every text. The number in the error of a bad item is not that of its line: it is the zero-based number of the header less the number of sections before.

### C68 Line in a library error — partial

An item of a library file that does not parse is reported with the line of its header.

*Proof.* From the complete description of the library reader. *Outcome.* The property is false: the counter only counts calls of the outer loop, so the number reported is the zero-based line of the header less the number of sections before it (library reader consumes two lines per section). The partial theorem gives the exact number.

* `Swrs.c68_library_line_false` — is false: an item that does not parse is not reported with the line of its header.
* `Swrs.c68_library_line_partial` — proved part: the number reported is the zero-based line of the header less the number `k` of sections before it; the item on the next line does not parse, and those before do. So it is the line of the header iff it is the first section.

### C69 Reading a logic file, for every text — proved

A logic file is split at blank lines into paragraphs; the leading paragraphs beginning with '@' are its sections, the rest is ignored. Reading succeeds iff every section reads, and then each screen is the empty screen to which the sections of its name are applied in order; otherwise the outcome (error or panic) is that of the first section which does not read.

*Proof.* Splitting at blank lines; a section does not see what follows its blank line; induction over sections.

* `Swrs.Logic.c69_sections_only` — only the sections matter: two texts with the same sections are read alike. (So everything from the first paragraph that does not begin with a header on is ignored.)
* `Swrs.Logic.c69_ok` — a text is read exactly when every section is, and the result is that of the sections in order.
* `Swrs.Logic.c69_screen` — the screen of a name after reading: absent when no section names it, else an empty screen to which the sections of this name are applied in order. No screen sees the sections of another.
* `Swrs.Logic.c69_error` — the error is that of the first section that is refused.
* `Swrs.Logic.c69_panic` — the reader panics exactly when the sections before are read and the next one has a pool header whose last character before the suffix is missing or not one byte long.

### C70 Line in an error of the logic file — partial

The line in an error of the logic reader is the line of the header of the section at fault.

*Proof.* From C69, counting lines of sections. *Outcome.* The property is false: the counter counts sections, not lines. The partial theorem says the number is the number of sections before, where the header really is, and that the two agree exactly for the first section.

* `Swrs.Logic.c70_logic_line_partial` — proved part: the number in the error is the number of sections before the refused one. The header of that section is on the line `c70_headerLine pre`; the two agree exactly when the refused section is the first. Missing: the other errors, where the property is false.
* `Swrs.Logic.c70_logic_line_false` — The full property C70 is false of the code: here the bad line is the fourth, below a header on the third, and the error says 1.

### C71 Reading a spec with arguments agrees with applying them afterwards — partial

BlockContent::parse(spec, args) gives the same outcome as BlockContent::parse_wo_params(spec) followed by apply_args(args), for every spec that can be read alone and all argument texts.

*Proof.* Both readers through one function per item; induction over words. *Outcome.* False of the code: a menu given a text beginning with @ (c71_menu_false, c71_menu_error_false). The partial theorems give the exact condition.

* `Swrs.Api.c71_menu_false` — is false: a menu given the text `@1` keeps the text when the spec is read with its arguments, and refers to block 1 when the arguments are applied afterwards.
* `Swrs.Api.c71_menu_error_false` — is false in the outcome too: the text `@` is a value for the one and an invalid block id for the other.
* `Swrs.Api.c71_same_partial` — all but the menus given a text beginning with `@`: for a spec that can be read alone, reading it with its arguments has the same outcome (content, error or panic) as applying the arguments to it.
* `Swrs.Api.c71_exact_partial` — the condition is exact: when a spec is read with its arguments as `d`, then the spec alone is read as `d` without its arguments, and applying the arguments gives `d` iff no menu is given a text beginning with `@`.

### C72 Builder and in-place editing of arguments — proved

A content made by BlockContentBuilder has one item per call in the order of the calls. Writing through get_args_mut changes exactly the arguments written to and no text; what take_args removes can be written back and gives the original content.

*Proof.* Induction over calls and items. *Outcome.* get_args_mut is modelled by the caller's writes through the references it returns.

* `Swrs.Api.c72_builder` — whatever calls are made on a builder, the content built has one item per call, in the order of the calls; its arguments are those given, in order; its text is the words given, in order, each parameter written as such.
* `Swrs.Api.c72_edit` — writing through the references of `get_args_mut` changes the arguments at the places written to, and nothing else: the `k`-th argument becomes what was written, and every item that is a text stays where it is.
* `Swrs.Api.c72_take_then_edit` — what `take_args` removes can be written back through `get_args_mut`, which gives the content it started from.

### C73 Kind and values of a view — proved

ViewType::from_view reads exactly the records whose type is one of the known numbers and, for images and floating buttons, which name an image; the view type has the kind of the number and the values of the record, other records give the error that says why. apply_values_to_view is its inverse: values written into a record with a number of the kind are read back, and reading and writing back changes nothing, with the exact exceptions for scroll views.

*Proof.* Case analysis over the types; one case lemma for all statements.

* `Swrs.Api.c73_accepts` — the record of a view is read iff its type is one of the numbers and, for images and floating buttons, it names an image.
* `Swrs.Api.c73_error` — otherwise the error says which of the two it is, and names the view.
* `Swrs.Api.c73_values` — a view type that is read has the kind of the number, and each value that this kind has is the record's; a scroll view is horizontal or vertical by its number, whatever orientation the record has.
* `Swrs.Api.c73_written_read` — writing the values of a view type into a record with a number of its kind and reading them gives the view type back; scroll views need the number of their orientation, and have no other orientations.
* `Swrs.Api.c73_read_written` — reading a record and writing the values back changes nothing, except for a scroll view whose record has another orientation than its number says.

### C74 Errors of specs and their arguments — proved

Every error of parse_wo_params, parse and apply_args is that of the first word or parameter that cannot be read or filled, with the word or the argument text in it; and there is an error exactly then.

*Proof.* Induction over items and words; the index of the first that fails.

* `Swrs.Api.c74_apply` — applying texts gives an error iff it is that of the first empty parameter that cannot be filled; the `k`-th empty parameter is given the `k`-th text.
* `Swrs.Api.c74_alone` — reading a spec alone gives an error iff it is that of the first word that cannot be read: a parameter letter other than `s`, `d`, `b` and `m`, reported with the letter and the word.
* `Swrs.Api.c74_with_args` — reading a spec with its arguments gives an error iff it is that of the first word that cannot be read or whose argument is missing or wrong; the argument of a word is the text after those of the parameters before it.

### C75 Constructors of blocks and written parameters — proved

Block::new, new_1substack and new_2substack make a block with exactly the given fields, the substacks in order, the opaque palette colour of the category and the matching type. When a block is written, its parameters are one text per argument in order: texts and menu values unchanged, numbers as they are shown, nothing as the empty text, booleans as a reference to a new green block called true or false whose every field is determined, and blocks as a reference to the last block written for them; the blocks of the arguments follow in order.

*Proof.* Unfolding; induction over items, with C46 for the references. *Outcome.* Constructors and the parameters written for arguments (with the exact literal block of a boolean).

* `Swrs.Api.c75_constructors` — what the constructors make: the fields given, the substacks in order, the colour of the category's palette, and with substacks the type of a block that nests as many of them.
* `Swrs.Api.c75_parameters` — the parameters of the block made of a block: one for each argument, in order; the blocks of the arguments follow the block itself, in order.

### C76 Errors of converting a block container — proved

TryFrom<BlockContainer> for Blocks gives an error exactly when an id is not a number (it names the first such id) or following the pointers from the first block fails, and then the error is that of the first failure in the order first substack, second substack, spec, argument blocks, type, next block; it panics exactly when that first failure is a spec on which reading panics. What the error says is true of the container: ids, pointers, specs and types in it are those of blocks of the container.

*Proof.* A relation for the first failure, without a bound on calls; both directions by induction, with the relation for trees of C43. *Outcome.* Exactly which error or panic, by a relation without a bound on calls; and that the error is truthful. A block used twice is reported as not found; the error of a block that an argument refers to is lost (`.ok()`).

* `Swrs.Api.c76_error` — the conversion gives an error iff an id is not a number, and then the error names the first such id, or it is the first failure met when following the pointers from the first block.
* `Swrs.Api.c76_panic` — the conversion panics iff a spec on which reading panics is the first failure met.
* `Swrs.Api.c76_truthful` — what the error says is so of the container: the id is no number, the missing block is pointed to, the block whose substack is wrong has that id and pointer, the spec or the type that cannot be read is that of a block.
* `Swrs.Api.c76_panic_spec` — the conversion panics only on a container in which reading the spec of a block panics.

### C77 Everything that is written for a project — proved

Converting a project back gives, per screen, the logic with every kind of code in it under its name (and panics only as its code does); the FAB record is the FAB with no parent, parent type -1 and otherwise what its view says; file entries, layouts, FABs and logic are those of the screens, the later one winning when names are equal; resource entries are those of the resources in order, and no resource files are handed on except, when the ids are automatic, the icon; settings are unchanged; and the conversion panics exactly when the code of a screen panics or a resource path has no file name.

*Proof.* Unfolding each step; a general lemma on folding inserts gives the last entry of a name.

* `Swrs.Api.c77_logic` — the logic of a screen: its variables and lists as they are; its components in order with their ids; its events in order without those called `onCreate`; for each moreblock id the name and the text of its spec; and for each container id the container of the last code with that id, events before moreblocks.
* `Swrs.Api.c77_logic_panics` — the logic of a screen is written iff all its code is; otherwise writing panics.
* `Swrs.Api.c77_fab` — the record of a FAB: the one it was made of, with its id, the values of its kind and of its layout, without a parent.
* `Swrs.Api.c77_written` — everything in the written project except resources: the settings; one file entry per screen and custom view in order; for each name the layout of the last custom view, or else the last screen, with that name; the FAB of the last screen with that layout name that has one; the logic of the last screen with that class name.
* `Swrs.Api.c77_resources` — the resources: in each section one entry per resource, in order, with its id, the full name of its file and type 1; and the files themselves: none at all unless the ids are automatic, and then only the icon.
* `Swrs.Api.c77_new` — a project made with `new` from its parts is written without resource files and without an icon, and with the given parts.
* `Swrs.Api.c77_panics` — writing a project panics iff the code of a screen cannot be written or a resource is a path without a file name in UTF-8.

### C78 Screens made from the files — proved

Screen::from_parsed succeeds exactly when each of its steps does, in the order layout, then spec and code of each moreblock, components, then type and code of each event (first onCreate if there is code for it); otherwise its error or panic is that of the first step that fails. A made screen has the settings, variables, components, moreblocks and events of the files, each moreblock and event with the code of the container of its name unless one before took the container.

*Proof.* A general notion of steps done in order; each part of the conversion is a run of its steps (induction).

* `Swrs.Api.c78_screen_outcome` — a screen is made exactly when every step succeeds; otherwise the error, or panic, is that of the first step that fails.
* `Swrs.Api.c78_screen_value` — what is in a screen that is made. Each moreblock and each event has the code of the container of its name, unless one before it took the container; then it has no code.

### C79 Projects made from the files — proved

TryFrom<ParsedSketchwareProject> succeeds exactly when each of its steps does, in the order activities, custom views, library switches, images, sounds, fonts; otherwise its error or panic is that of the first step that fails. A made project has one screen per activity and one custom view per entry in order, each from the layout, logic and FAB of its name unless an entry before took them; libraries by their switches; resources with the files of their full names, or random ids when no files are given; and the settings of the files.

*Proof.* As C78, with the parts that are left after the entries before.

* `Swrs.Api.c79_project_outcome` — a project is made exactly when every step succeeds; otherwise the error, or panic, is that of the first step that fails.
* `Swrs.Api.c79_project_value` — what is in a project that is made.

### C80 Empty collections — proved

An empty pool (variables, lists, components, events, moreblocks, blocks) is written as the empty text and no other pool is. A text is read as an empty pool exactly when it is empty or begins with a line end. A logic file is written as nothing exactly when all its screens are empty, and read as one without screens exactly when the text does not begin with @. A view file is written as nothing exactly when it has no layout and no FAB. A list of blocks is converted to the empty container exactly when it is empty. The constructors of components leave out the last parameters.

*Proof.* Texts that are not white space survive trimming; the loop of the logic reader never loses a screen. *Outcome.* Proved in full.

* `Swrs.c80_written_empty` — an empty pool is written as nothing, and it is the only one.
* `Swrs.c80_read_empty` — a text is read as an empty pool exactly when it is empty or begins with a line end.
* `Swrs.c80_logic_written` — a logic file is written as nothing exactly when every screen in it is empty.
* `Swrs.c80_logic_read` — a logic file is read as one without screens exactly when its text does not begin with `@`.
* `Swrs.c80_view_written` — a view file is written as nothing exactly when it has no layout and no FAB.
* `Swrs.c80_blocks` — no blocks are written as an empty container, and no other list of blocks is.
* `Swrs.c80_components` — the constructors of components leave out the last parameters.

### C81 Floating point numbers keep their values — proved

A text is taken for a number argument (f64) exactly if it is a decimal number (optional sign, digits, optional fraction and exponent) or inf, infinity or nan in any case; a decimal number is read as the nearest f64 value (infinite from half a step beyond the largest value). Every f64 is read back from its text. A f32 attribute of a view is read back from its JSON text exactly if it is finite, although the JSON library does not take the nearest value when reading; so with IEEE 754 attributes a view is read back from its line exactly if its attributes are finite and no fixed size is -1 or -2. The conversion of a whole number to f64 and then to i32, which the colour reader uses, clamps it to the range of i32 (which numbers get that far is C10).

*Proof.* IEEE 754 binary formats are modelled as whole multiples of the smallest value with rounding to the nearest representable one (`Float/Ieee`), the readers and printers of the standard library, `serde_json` (without `float_roundtrip`) and `ryu` on top of them (`Float/Text`). The printers choose the shortest of candidate decimals that is read back; that one exists is proved with error bounds of the rounding (`Float/Error`, `Float/Read`, `Float/Single`: every step of serde_json's scaling is bounded and the sum stays below half a step of f32 at nine digits). `Float/Instance` collects the laws; all theorems with `FloatLaws` hold of this instance. *Outcome.* The printers are modelled by their specification: the shortest decimal that is read back, not the digit generation algorithms (Grisu/Dragon, ryu); among equally short ones the nearest.

* `Swrs.c81_accepted` — a text is taken for an `f64` number exactly if it is a decimal number, or, after an optional sign and in any case, `inf`, `infinity` or `nan`.
* `Swrs.c81_nearest` — a decimal number is read as the `f64` nearest to it, with its sign (zero has one, too); as infinite from half a step above the largest `f64` on.
* `Swrs.c81_f64_round_trip` — every `f64` is read back from its text, the infinite ones and NaN as well.
* `Swrs.c81_f32_round_trip` — a `f32` attribute of a view is read back from its text exactly if it is neither infinite nor NaN. (`serde_json` reads numbers with an error, but the error is too small to matter.)
* `Swrs.c81_view` — with IEEE 754 attributes a view is read back from its line exactly if its attributes are finite and no size is fixed at -1 or -2.
* `Swrs.c81_color_whole` — converting a whole number to `f64` and then to `i32`, as the colour reader does, keeps it if it is in the range of `i32`, and otherwise gives the nearer end of the range.

### C82 Which project texts are read, which are refused and which panic — proved

A project is read from a text exactly if the text is a JSON object in which each of the nine declared keys and the five colours occurs exactly once with a value of its type, and every other value is one that can be kept (no unpaired surrogate, no number beyond f64, not too deep): unlike the other records the project keeps all undeclared members for its flattened colours. The order of the members, white space and further members do not matter. The text panics exactly if the creation date panics (C83) while the members before it give no error, whatever comes after it, even if it is not JSON. Every other text is an error.

*Proof.* `Project.visit` goes through the members in the order of the text, as the generated visitor does, also when the text turns out not to be JSON later (`membersRead`). The theorems relate it to the grammar of JSON (`Json.IsText`) and to the list of values of each key.

* `Swrs.c82_project_read` — what is read from an object as a project: every declared key occurs exactly once, with a value of its type. Order and the form of the text do not matter, nor do other keys, as long as their values may be kept.
* `Swrs.c82_project_rejected` — a project text with a missing or repeated declared key, or outside the grammar, is never read.
* `Swrs.c82_project_panics` — reading a project panics exactly when the value of the creation date does (C83), and the members before it are such that they alone give no error: no declared key twice, values of their type, and other values that may be kept. What comes after the date does not matter, not even for the syntax.

### C83 Which creation dates are read, which panic and which are errors — proved

A creation date is cut at fixed byte positions: four bytes of year, then two each of month, day, hour, minute and second. It is read exactly if each part is a number (a sign is allowed) and they are a date and a time of the calendar, whatever follows. It panics exactly if, after parts that are numbers, the text ends before the next part or a character is cut in two, or if all parts are numbers but no date or no time. It is an error exactly if the first part that is no number is there.

*Proof.* The cuts by byte position are related to a concatenation of parts with given byte lengths.

* `Swrs.c83_date_read` — a date is read exactly from texts that begin with a year of four bytes and month, day, hour, minute and second of two bytes each, which are a date and a time of day. What follows does not matter.
* `Swrs.c83_date_panics` — reading a date panics exactly when one of the six parts is not there (the text ends before it, or a character is cut in two) after numbers in the parts before, or when all are numbers, but they are no date or no time of day.
* `Swrs.c83_date_errors` — reading a date gives an error exactly when the first part that is not a number is there.

### C84 Which texts are read as which record — proved

For each of the record kinds (resource, file, library, component, event, block, view) a text is read as a given record exactly if it is a text of a JSON object (any other members, any order) or array (all values in the declared order) in which every required key has exactly one value of its type: strings; whole numbers in the range of the field, without fraction, exponent or the form -0; the numbers and names of the variants of each enumeration and no others; flags as numbers of a byte, true unless 0; sizes; option bits; colours as numbers with their clamping and wrap-around; floats; nested records and lists of them. Optional keys may be missing or null.

*Proof.* The specification is a relation between a record and a JSON value (`Reads.IsView` and so on), with a table for each enumeration. A lemma for the derived visitor (`struct_iff`) splits a record into its keys, one lemma for each type of field does the rest.

* `Swrs.c84_resource` — a resource is read exactly from the texts of such JSON values.
* `Swrs.c84_file` — a file is read exactly from the texts of such JSON values.
* `Swrs.c84_library` — a library is read exactly from the texts of such JSON values.
* `Swrs.c84_component` — a component is read exactly from the texts of such JSON values.
* `Swrs.c84_event` — an event is read exactly from the texts of such JSON values.
* `Swrs.c84_block` — a block is read exactly from the texts of such JSON values.
* `Swrs.c84_view` — a view is read exactly from the texts of such JSON values.
* `Swrs.c84_color` — a colour is read exactly from the texts of such JSON numbers.

### C85 Names of resource files — proved

The full name of a resource file is the last component of its path, or the name given with its id. Asking for it panics exactly for a path that ends in no name (the root, `.`, `..`) or in a name that is not UTF-8, and is never an error. Files that were sorted by kind never panic, and every image, sound and font is filed under its full name.

*Proof.* Case analysis on the last component with the exact specification of UTF-8 reading; the last part uses the characterisation of sorting (C57).

* `Swrs.c85_full_name` — the full name of a resource file is the last component of its path, or the name given with its id.
* `Swrs.c85_full_name_panics` — asking for the name panics exactly if the file is a path that ends in no name or in a name that is no text; it is never an error.
* `Swrs.c85_filed` — among sorted resource files the name never panics, and every image, sound and font is filed under it.

### C86 Fresh values — proved

A view made by new_empty is written as the record with Sketchware's defaults (spelled out), with the given id, parent, type and parent type. The default colours of a project are written as spelled out, and the default colour is opaque black. A raw project made of six texts is the one loaded from their encrypted forms, with or without resource files.

*Proof.* The text of a view (C62) is split at the four given values, the rest is computed by the kernel, with IEEE 754 floats.

* `Swrs.c86_raw` — a raw project made of six texts is the one that is loaded from their encrypted forms.
* `Swrs.c86_view` — the text of a fresh view: opaque, unscaled, clickable, enabled, with a padding of 8, a dark text of size 12, a maximum of 100 and so on.
* `Swrs.c86_palette` — the colours of a fresh project.
* `Swrs.c86_color` — the default colour is opaque black.

### C87 Texts of floating point numbers — proved

The text of a finite f64 (number arguments of blocks) and of a finite f32 (attributes of views) has the digits of the shortest decimal that IEEE 754 rounds to the value, and of the shortest ones the nearest; at most 17 and 9 digits. f64 texts have no exponent; f32 texts have one exactly below 10^-6 and from 10^13 on. A JSON number of few digits (up to 33554500, exponent -54 to 39) or a whole number of 64 bits is read as the nearest f32; any one from 10^-37 to 3.4*10^38 with a relative error of at most 2^-24 + 2^-48; numbers up to 10^308 are read, from 10^309 on they are errors. Longer numbers are not always read as the nearest f32.

*Proof.* Rounding is characterised as the nearest value, ties to even. The search through the decimals next to a value finds the shortest one that rounds to it; that serde_json, which multiplies or divides in f64 before it rounds to f32, takes the same value is shown with an error bound for each power of ten, and where the bound is too weak with a table of fractions that no short decimal gets past (checked by the kernel, lifted by a lemma about Farey neighbours). *Outcome.* The library algorithms (Grisu/Dragon, ryu, serde_json's number reader) are modelled by what they compute; serde_json's reading by its own sequence of f64 operations.

* `Swrs.c87_f64_text` — the text of a finite `f64` other than zero has the digits of the shortest decimal that is rounded to it (the nearest of these), at most 17; it has no exponent, no zero in front of other digits before the point, and no zero at the end after the point; whole numbers have no point.
* `Swrs.c87_f64_other` — the texts of the other `f64`.
* `Swrs.c87_f32_text` — the text of a finite `f32` other than zero has the digits of the shortest decimal that is rounded to it (the nearest of these), at most nine. From `10^-6` up to `10^13` there is a point, digits after it, and no exponent; otherwise there is one digit before the point, which is left out if no digits follow, and an exponent.
* `Swrs.c87_f32_other` — the texts of the other `f32`.
* `Swrs.c87_short` — a JSON number of few digits and moderate size is read as the nearest `f32`, or as infinite if that is too large. (So are all the numbers that people write.)
* `Swrs.c87_whole` — whole numbers of 64 bits are read as the nearest `f32`.
* `Swrs.c87_accuracy` — any JSON number from `10^-37` to `3.4 * 10^38` is read as a `f32` with almost no more than the error of rounding.
* `Swrs.c87_range` — JSON numbers up to `10^308` are read, those from `10^309` on are errors.
* `Swrs.c87_not_nearest` — numbers of more digits are not always read as the nearest `f32`: `16777217.00000000001` is nearer to `16777218`.

### C88 How texts are taken apart — proved

Lines are what stands between line feeds (a carriage return stays). Trimming takes off, at both ends, exactly the 25 characters with the Unicode property White_Space. split_once separates at the first occurrence, split(".java_") at the leftmost. A slice is the text of the bytes in its range, and a panic when the range is inverted, too long or cuts a character. A number is one or more digits of its base (either case of hex letters), after an optional plus, or minus if signed, with a value in the range of its type. Written numbers have no leading zeros.

*Proof.* Each operation of the model is shown equivalent to a description that does not mention it: concatenations, the table of PropList.txt, Lean's own UTF-8 encoder, digits and their positional value. *Outcome.* `c88_utf8`, `c88_len`, `c88_slice`, `c88_lines`, `c88_split_once`, `c88_split_pattern`, `c88_space`, `c88_trim`, `c88_unsigned`, `c88_signed`, `c88_ids`, `c88_written`, `c88_written_int`.

* `Swrs.c88_utf8` — the bytes of a text are those of Lean's own `String`.
* `Swrs.c88_len` — the length of a text is the number of its bytes.
* `Swrs.c88_slice` — `&s[a..b]` is the text of the bytes from `a` to `b`; there is a panic when these are no text.
* `Swrs.c88_lines` — the lines of a text are what stands between the line feeds.
* `Swrs.c88_split_once` — `split_once` separates at the first occurrence.
* `Swrs.c88_split_pattern` — `split(".java_")` separates at the leftmost occurrence.
* `Swrs.c88_space` — the characters that are trimmed.
* `Swrs.c88_trim` — trimming takes the spaces off both ends, and nothing else.
* `Swrs.c88_unsigned` — which texts are unsigned numbers: at least one digit, in front of which there may be a plus sign.
* `Swrs.c88_signed` — which texts are signed numbers.
* `Swrs.c88_ids` — which texts are ids of blocks and types of variables.
* `Swrs.c88_written` — written numbers have no sign but the minus of negative ones, no leading zeros, and the value of the number.
* `Swrs.c88_written_int` — written negative numbers.

### C89 What the messages of errors tell — partial

The message of an error tells its kind and what the error is about: two errors with the same message are of the same kind and have the same names, ids, lines and counts.

*Proof.* Each message is modelled as text; for each error type it is shown which pairs of errors have the same message, by comparing beginnings and by the fact that a number next to something that is no digit can be cut off. `{:?}` of texts and paths is a parameter. *Outcome.* False: `c89_messages_false`. The message of a taken resource id always says `0` (the format argument is the literal `0.0`, api/mod.rs:229), the errors of floating buttons do not show their line, those of a block container not the number of the block, and names with spaces run together. Exactly which errors have the same message is proved for each of the error types that occur (`c89_file` to `c89_id_taken`; `c89_container_partial` and `c89_screen_partial`: names without spaces can be told). `c89_reason` and `c89_reasons`: when an id is no number, and which reason is given. `c89_says_file` to `c89_says_conversion`: which names and numbers stand in each message, the numbers in decimal.

* `Swrs.c89_file` — an error of the file list tells the line and its content.
* `Swrs.c89_library` — an error of the library file tells its kind, the header and the line.
* `Swrs.c89_resource` — an error of the resource list tells the section and the line.
* `Swrs.c89_view` — an error of the view file tells its kind, and the line of a bad header, the names of a layout (up to where the space between them is), the screen of a floating button, and the screen and line of a missing one.
* `Swrs.c89_layout` — an error of a layout tells the line in the layout.
* `Swrs.c89_logic` — an error of the logic file tells its kind, the screen, the container (up to where the word between them is) and the line.
* `Swrs.c89_variable_pools` — an error of a pool tells the number of the line in the pool.
* `Swrs.c89_variable` — an error of a variable tells its kind and the type.
* `Swrs.c89_list_variable` — an error of a list variable tells all.
* `Swrs.c89_type_value` — an unknown type of a variable is told.
* `Swrs.c89_more_block` — an error of a moreblock tells all.
* `Swrs.c89_header` — an error of a header tells all.
* `Swrs.c89_crypto` — an error of decryption tells all.
* `Swrs.c89_resource_files` — an error of the resource files tells its kind and the path.
* `Swrs.c89_project` — an error of a project tells the file.
* `Swrs.c89_reason` — there is a reason exactly for the texts that are no numbers.
* `Swrs.c89_reasons` — the reasons: an empty text; a number that is too large already before anything that is no digit; everything else.
* `Swrs.Api.c89_block_type` — an invalid type tells type and name.
* `Swrs.Api.c89_block_content` — an error of a spec tells its kind, the block, the value or the name of the parameter.
* `Swrs.Api.c89_block` — an error of a block container tells its kind, the block, the type, or the error of the spec.
* `Swrs.Api.c89_block_debug` — the error of a spec as shown in the error of a block.
* `Swrs.Api.c89_view_type` — an error of the type of a view tells all.
* `Swrs.Api.c89_parse_layout` — an error of the views of a layout tells its kind, the view and the parent.
* `Swrs.Api.c89_event` — an unknown event tells all.
* `Swrs.Api.c89_component` — an unknown component tells all.
* `Swrs.Api.c89_screen` — an error of a screen tells its kind and the moreblock, container, event, component or error of the layout.
* `Swrs.Api.c89_conversion` — an error of the conversion tells its kind and the screen, view, library and value, or resource.
* `Swrs.Api.c89_color` — an unknown colour is told.
* `Swrs.Api.c89_id_taken` — the message of a taken id does not say which one.
* `Swrs.Api.c89_messages_false` — is false: errors about different things have the same message. A taken id, the line of a floating button and the number of a block are not shown, and names with a space cannot be told apart.
* `Swrs.Api.c89_container_partial` — the names in the headers of the logic file have no spaces in Sketchware; then screen and container can be told.
* `Swrs.Api.c89_screen_partial` — likewise in the view file.
* `Swrs.c89_says_file` — what the message of a file error contains: the line number and the line.
* `Swrs.c89_says_library` — what the message of a library error contains: the header and the line number.
* `Swrs.c89_says_resource` — what the message of a resource error contains: the line number.
* `Swrs.c89_says_layout` — what the message of a layout error contains: the line number.
* `Swrs.c89_says_view` — what the message of a view error contains: the names and the line number.
* `Swrs.c89_says_logic` — what the message of a logic error contains: the names and the line number.
* `Swrs.c89_says_pools` — what the messages of pool errors contain: the count, and the line of an event.
* `Swrs.c89_says_variable` — what the messages of errors of variables contain: the type.
* `Swrs.c89_says_lines` — the same of list variables, of types and of moreblocks.
* `Swrs.Api.c89_says_block_content` — what the messages of errors of blocks contain: ids, names and values.
* `Swrs.Api.c89_says_block` — the same of the conversion of blocks; an error of the content of a block is shown.
* `Swrs.Api.c89_says_screen_parts` — what the messages of errors of views, layouts, events and components contain.
* `Swrs.Api.c89_says_screen` — what the message of an error of a screen contains.
* `Swrs.Api.c89_says_conversion` — what the message of an error of the conversion of a project contains.
* `Swrs.Api.c89_says_taken` — the message for a taken resource id has a `0` where the id should be, whatever the id.

### C90 Opening a project and saving it — partial

Opening a project (parsing its six texts and resource files) and saving it (reconstructing the texts) never fails, and opening the saved texts gives the same project.

*Proof.* Everything a reader returns is traced back to the text it came from, so that most conditions of the round trips (C15, C17, C22, C28) hold by themselves; what remains is the exact condition. *Outcome.* False: `c90_logic_false` (a readable logic file with a screen that has no code before a screen with code: after saving, the screen with code is gone, without an error), `c90_view_false` (two layouts with views: the saved file is refused), `c90_file_false` (custom views without an activity are lost without an error), `c90_infinite_false` (a number too large for `f32` is read as infinite and saved as `null`), and the dates of C14. `c90_resave_partial` is the exact condition for whole projects, `c90_project`, `c90_view` and `c90_logic` for the files; `c90_blocks_lost`: in general a gap between the screens loses a block container without an error.

* `Swrs.c90_project` — saving a project file that was read never fails, and the saved text is read back exactly when month, day, hour, minute and second of the creation date have two digits each and the year has four.
* `Swrs.c90_view` — the exact condition under which a view file that was read is the same after saving.
* `Swrs.c90_logic` — the exact condition under which a logic file that was read is the same after saving (screens are compared by name).
* `Swrs.c90_blocks_lost` — a screen without block containers that stands between written text and later block containers makes blocks disappear without an error: the saved text is read, and the last block container of some screen is gone.
* `Swrs.c90_logic_false` — is false of logic files: the text is read, with two screens; after saving one is gone, with its code.
* `Swrs.c90_view_false` — is false of view files: a file with two layouts that have views, in the form Sketchware uses, is read; the saved file is refused.
* `Swrs.c90_file_false` — is false of file lists: custom views without an activity are read, and lost in the saved file without an error.
* `Swrs.c90_resave_partial` — proved part: opening a project and saving it. Saving never fails, and the saved texts are read as the same project exactly when the creation date, the file list, the view file and the logic file survive. Missing: the other projects, for which the property is false (see `c90_logic_false`, `c90_view_false`, `c90_file_false`, `c58_project_round_trip_false`).
* `Swrs.c90_infinite_false` — is false of views with a number that is too large for `f32`: the view is read, with an infinite number; the saved view has `null` in its place and is refused.

### C91 An edit reaches only what it belongs to — proved

Editing, adding or removing a screen through the API changes nothing of the saved project but the file entry, layout and FAB of its layout name and the logic of its class name, and everything else keeps its order. An edit of a layout does not touch the logic, an edit of the logic does not touch the layouts, and editing the code of one event or moreblock changes only its own block container. The same holds for settings, libraries, resources and custom views, and for reading: a change of the layout, FAB or logic of one screen changes only that screen of the API project.

*Proof.* The loops over the screens are followed for the two projects side by side; the maps stay equal in order once the entry of the edited name is taken out, whatever the map does with the place of an entry that is inserted again. *Outcome.* `c91_screens` (edit, add, remove), `c91_places` (the places stay), `c91_layout_edit`, `c91_logic_edit`, `c91_options_edit`, `c91_settings_edit`, `c91_resources_edit`, `c91_custom_views_edit`, `c91_event_code`, `c91_moreblock_code`, `c91_read`.

* `Swrs.Api.c91_screens` — editing, adding or removing screens with the layout name `n` and the class name `j` (`mid` becomes `mid'`) leaves everything else of the saved project as it was: the settings, the libraries, the resources, the file entries of the other screens and of the custom views, and in the same order all layouts and FABs but `n` and the logic of all classes but `j`.
* `Swrs.Api.c91_places` — editing a screen also keeps the places of its layout and its logic among the others.
* `Swrs.Api.c91_layout_edit` — an edit of the layout or the FAB of a screen can always be saved, and it reaches neither the logic nor the list of files.
* `Swrs.Api.c91_logic_edit` — an edit of the variables, moreblocks, components and events of a screen reaches neither the layouts and FABs nor the list of files.
* `Swrs.Api.c91_options_edit` — an edit of the settings of a screen can always be saved and reaches neither the layouts and FABs nor the logic.
* `Swrs.Api.c91_settings_edit` — an edit of the settings, colours and libraries of a project can always be saved and reaches only the project file and the list of libraries.
* `Swrs.Api.c91_resources_edit` — an edit of the resources reaches only the list of resources and the resource files.
* `Swrs.Api.c91_custom_views_edit` — an edit of the custom views can always be saved and reaches only the list of custom views and the layouts that have the name of an old or a new custom view.
* `Swrs.Api.c91_event_code` — editing the code of an event reaches only its own block container, which stays in its place.
* `Swrs.Api.c91_moreblock_code` — editing the code of a moreblock reaches only its own block container, which stays in its place.
* `Swrs.Api.c91_read` — when two sets of files differ only in the layout and the FAB of the name `n` and in the logic of the class `j`, the projects made from them have the same screens, apart from those of the name `n` and of the class `j`, the same custom views apart from those called `n`, and the same of everything else.

### C92 A project saved through the API can be opened again — partial

Converting an API project and writing its six texts gives texts that are read back as the same project; a project that survives the conversion of C61 is then the same API project after saving and opening.

*Proof.* With distinct names the maps that are written are computed in order, so that the exact conditions of C15, C17, C22 and C28 on the texts become conditions on the screens, layouts, FABs and code of the API project; the loss of code follows from the silent loss of C90. Opening depends on the logic and resource files only by name, which gives the round trip with C61. *Outcome.* False of the code: `c92_saved_false` is a project whose first screen and whose custom view each have a button; it is saved without an error and can never be opened. `c92_saved_partial` gives the exact condition `c92_Saved` for all projects. `c92_two_layouts`: as soon as a layout other than the last one has views, what is saved can not be opened. `c92_code_lost`: a screen without code before a screen with code makes code disappear without an error. `c92_round_trip`: the whole way API project, texts, API project. `c92_same`: equal parsed projects up to order are opened as the same API project.

* `Swrs.Api.c92_saved_partial` — proved part: a project without duplicate names and with a creation time that is a date is saved, and what is saved is read back as the same project exactly when it meets `c92_Saved`. Missing: the other projects, for which the property is false.
* `Swrs.Api.c92_two_layouts` — a project in which a layout other than the last one has views is saved, but what is saved can never be opened.
* `Swrs.Api.c92_code_lost` — if a screen without code stands before a screen with code, and nothing else is wrong with the screens, then the logic file that is saved is read without an error, and the last code of some screen is gone.
* `Swrs.Api.c92_round_trip` — a project that survives the API (C61) and meets `c92_Saved` is the same after saving it, opening the six texts and converting them back; only the resource files and the icon are new, as `c61_round_trip` tells.
* `Swrs.Api.c92_saved_false` — is false: a project whose first screen has a button and whose custom view has one is saved, and it can not be opened again.

### C93 The encrypt and decrypt programs do what their names say, and say so when they can not — proved

`decrypt` prints the decrypted file or an error and exits accordingly; `encrypt` writes the encrypted file to a new file and never changes an existing one; a file encrypted by `encrypt` and given to `decrypt` is printed as it was.

*Proof.* The programs are functions from arguments and files to exit, output and files; every case of the arguments, of the files and of the cipher is a theorem, with the cipher properties of C01 and following for the round trip. *Outcome.* `c93_encrypt_exists` and `c93_encrypt_keeps`: no existing file is changed. `c93_round_trip` covers both programs one after the other.

* `Swrs.c93_decrypt_usage` — `decrypt` with any number of arguments but one shows its usage on standard error, and nothing else, and fails.
* `Swrs.c93_decrypt_success` — `decrypt` succeeds exactly if the file can be read and is an encrypted text; it then prints this text and a line end.
* `Swrs.c93_decrypt_failure` — a file that cannot be read, and one that cannot be decrypted, make it print the error on standard output and fail.
* `Swrs.c93_decrypt_panic` — it panics exactly for an encrypted file whose content is no text, and then prints nothing.
* `Swrs.c93_encrypt_usage` — `encrypt` without an argument or with more than two shows its usage on standard error and fails; no file changes.
* `Swrs.c93_encrypt` — `encrypt` never panics. It says where it saves to; it succeeds with the input as the plain text of the output, or it fails and says so on standard error. No file but the output changes.
* `Swrs.c93_encrypt_keeps` — without an output given the input itself is not touched, however the run ends.
* `Swrs.c93_encrypt_missing` — an input that does not exist makes `encrypt` fail, and no file changes or appears.
* `Swrs.c93_encrypt_exists` — every input that exists can be encrypted.
* `Swrs.c93_round_trip` — `decrypt` on the output of a successful `encrypt` prints the text of the input and a line end; if the input is no text, it panics.

### C94 The parsing programs print what the parsed file holds — partial

Each of the parse_* programs prints a listing from which the parsed data can be told, and fails with the error of the parser otherwise.

*Proof.* The `{:?}` text of a derived type is shown to be a prefix code, given that the `{:?}` text of a string is one (the class `LawfulDebugText`, with an instance); from it the printed values can be read off. *Outcome.* False as claimed: `c94_tells_false`, two resource files with different names and the same listing. Proved for all files: what each program prints, line by line, and when it fails (`c94_file` to `c94_logic`); equal listings come from equal data for lists of files, libraries and projects, whatever the names are (`c94_file_tells`, `c94_library_tells`, `c94_project_tells`). For resource lists (names without a line break) and for logics that were read it is said exactly when two listings are equal (`c94_resource_exact`, `c94_logic_exact`). `c94_view_tells_partial` gives what is told of views.

* `Swrs.c94_file` — `parse_file` lists the activities and the custom views, in order, each with its name and its derived `Debug`.
* `Swrs.c94_resource` — `parse_resource` lists fonts, images and sounds, in this order, each with its name and its full name.
* `Swrs.c94_library` — `parse_library` prints the derived `Debug` of the library.
* `Swrs.c94_project` — `parse_project` prints the derived `Debug` of the project.
* `Swrs.c94_view` — `parse_view` lists the layouts in order, each with its views, numbered from 0, and an empty line.
* `Swrs.c94_logic` — `parse_logic` lists the screens in order, each with the numbers of its parts; a part that is missing counts as empty.
* `Swrs.c94_debug` — the derived `Debug` of the structs: the name and all fields in the order of their declaration.
* `Swrs.c94_debug_parts` — the variants of the enums, booleans, and the list of texts.
* `Swrs.c94_library_tells` — different libraries give different outputs of `parse_library`.
* `Swrs.c94_project_tells` — different projects give different outputs of `parse_project`.
* `Swrs.c94_file_tells_partial` — proved part: different file lists give different outputs of `parse_file`, provided that no name has a colon, for every `{:?}` that can be read back. Missing: names with a colon, see `c94_file_tells`.
* `Swrs.c94_resource_tells_partial` — proved part: the output of `parse_resource` tells the names of all fonts, images and sounds, provided that no short name has a space and no full name a line break. Missing: the types, which are not shown, and other names, for which see `c94_tells_false`.
* `Swrs.c94_tells_false` — is false: two resource files that are read, with different names, and the same output of `parse_resource`.
* `Swrs.c94_view_tells_partial` — proved part: the output of `parse_view` tells the layouts and the id and the type of all their views, provided that no name of a layout and no id has a line break. Missing: everything else in the views, and the FABs, which are not shown.
* `Swrs.c94_logic_tells_partial` — proved part: the output of `parse_logic` tells the names of the screens and the six numbers of each, provided that no name has a line break. Missing: what is in the screens, which is only counted.
* `Swrs.Examples.c94_file_tells` — with `{:?}` as the standard library writes it, different lists of files give different outputs of `parse_file`, whatever the names are.
* `Swrs.Examples.c94_resource_exact` — what exactly the output of `parse_resource` tells, for names without line breaks: for each entry the name and the full name, joined with ` - `.
* `Swrs.Examples.c94_logic_exact` — of two logics that were read, the output of `parse_logic` tells exactly the names of the screens and the six numbers of each.

### C95 The API demo lists the whole project — partial

`api_demo1` prints every screen, every event and every block of a project in order, with each sub stack indented below its block; a project saved through the API and encrypted is listed by it.

*Proof.* The output is compared with an independently defined list of items and a walk through the blocks; the items are shown to tell the blocks apart; the end-to-end theorem composes C92, C01 and the listing. *Outcome.* False of projects with resources: `c95_saved_false`, a project that is saved and can be opened, on which the program panics; `c95_no_resources`: it panics as soon as the resource file names one image, sound or font, because it hands over no files for them. Proved: when the program succeeds and what it prints (`c95_run`, `c95_each_block`); `c95_tells`: the shape and text of the blocks can be told from the listing if the texts have no newline; `c95_saved_partial`: a project without resources that meets the conditions of C92 is listed.

* `Swrs.c95_event_type` — how the type of an event is printed.
* `Swrs.c95_run` — the program succeeds exactly if its arguments name the files of a project that can be opened; it then prints the listing. In all other cases it panics before it prints anything.
* `Swrs.c95_no_resources` — a project whose resource file has any image, sound or font makes the program panic: it opens the project with an empty list of resource files.
* `Swrs.c95_each_block` — every block of an event has exactly one line, in the order of the walk, indented by 8 spaces and 2 more for each level.
* `Swrs.c95_tells` — the listing tells the tree of the blocks with their op codes and contents, provided that no op code has a space and no content a line break; the end of a list can be seen.
* `Swrs.Api.c95_saved_partial` — proved part: saved by the API and encrypted, a project without resources that meets the conditions of C92 is listed by `api_demo1`, with the screens, events and blocks it was saved with. Missing: projects with resources, see `c95_saved_false`.
* `Swrs.Api.c95_saved_false` — is false of projects with resources: there is one that is saved and can be opened again, but `api_demo1` panics on its files.

### C96 The chain of causes of an error tells where the error is — partial

The messages of an error and of all its causes (`source()`, followed to the end) tell everything the error value holds: two errors with the same chain are the same error.

*Proof.* The chain is modelled for every error type as the list of messages, with an opaque end for errors of other libraries. Equality of chains is characterised exactly: by cases over the error types with the theorems of C89 about the single messages, and by induction over nested block errors. *Outcome.* `c96_texts_false`: as claimed it is false. The chain does not say which block of a container can not be read, in which line a bad floating button is, or whether a missing resource is an image or a sound. `c96_project`, `c96_logic`, `c96_crypto`, `c96_blocks`, `c96_screen`, `c96_conversion` say exactly what is told; in particular `c96_blocks_way`: the whole way to a block that is wrong is told. The API theorems assume that `{:?}` of a string can be read back (`LawfulDebugText`, with an instance).

* `Swrs.c96_logic` — exactly when two errors of the logic file have the same chain.
* `Swrs.c96_project` — exactly when two errors of opening a project have the same chain.
* `Swrs.c96_logic_ends` — an error of the logic file keeps the error of the library that it comes from, as the last of its chain.
* `Swrs.c96_project_ends` — an error of opening a project keeps the error of the library that it comes from, as the last of its chain.
* `Swrs.c96_crypto_ends` — decryption: the cause is the error of the library.
* `Swrs.c96_crypto` — decryption: the chain tells all that the error has.
* `Swrs.Api.c96_blocks` — exactly when two errors in the blocks of a container have the same chain: it names every block on the way to the one that is wrong.
* `Swrs.Api.c96_screen` — exactly when two errors in a screen have the same chain.
* `Swrs.Api.c96_blocks_ends` — an error in the blocks of a container keeps the error of a bad id, as the last of its chain.
* `Swrs.Api.c96_conversion_ends` — an error of the conversion to the API keeps the error of a bad id, as the last of its chain.
* `Swrs.Api.c96_conversion` — exactly when two errors of the conversion to the API have the same chain.
* `Swrs.Api.c96_blocks_way` — the chain tells the way to the block that is wrong.
* `Swrs.c96_texts_false` — as claimed is false: the chain does not tell which block of a container cannot be read (the first or the second one, both with the text `x`), not in which line a floating button is, and not whether an image or a sound is missing.

### C97 A text printed with {:?} can be read back — proved

A text can be told from its `{:?}` form, whatever is printed after it, and this form is a single line.

*Proof.* The escapes are shown to be a prefix code: each has one of three shapes, which begin differently, and the number in braces ends at the brace. The result is the instance that C94, C95 and C96 ask for. *Outcome.* `c97_lawful` discharges the assumption `LawfulDebugText` of C94 to C96 for the escaping of the standard library; only the table of characters that can be printed is left open, and nothing is assumed of it.

* `Swrs.c97_read_back` — a text can be told from its `{:?}` text, and where this ends, whatever follows.
* `Swrs.c97_one_line` — a `{:?}` text is one line.
* `Swrs.c97_plain` — what a text of plain characters without quotes and backslashes looks like.
* `Swrs.c97_lawful` — what the theorems C94 to C96 ask of `{:?}` holds of the standard library, for all tables of plain characters.
* `Swrs.c97_tells` — so the listings of the programs tell libraries and projects, and the chains of causes tell the errors in blocks.

### C98 A project that is opened twice compares equal — partial

Opening the same texts twice gives two projects that are equal under `==`; `==` is reflexive, symmetric and transitive, and projects that are equal are the same.

*Proof.* Derived equality is modelled field by field over an equality of floating point numbers; IEEE 754 equality is shown to meet its laws. The numbers in a block and in a view are collected by inductive predicates, and equality is characterised by them. *Outcome.* False: without the resource files the file ids are random, so two openings differ (`c98_ids_false`), and a number argument `NaN` is read, so a project need not be equal to itself (`c98_nan_false`; `c98_nan_text` tells which arguments). `c98_zero`: equal projects can be written differently, because of `-0`. Proved: two openings are equal exactly if the resources are and no number is NaN (`c98_twice_partial`); the resources are equal when files were given or there are none (`c98_resources`); symmetric and transitive always; equal means same without negative zeros (`c98_exact`); parsed projects are always equal to themselves (`c98_parsed`).

* `Swrs.Api.c98_self` — a project is equal to itself exactly if no number in its views and in its code is NaN.
* `Swrs.Api.c98_symm` — the comparison is symmetric.
* `Swrs.Api.c98_trans` — the comparison is transitive.
* `Swrs.Api.c98_exact` — projects without negative zeros that are equal are the same.
* `Swrs.Api.c98_parsed` — a parsed project is equal to itself: no number of a project file is read as NaN in a view.
* `Swrs.Api.c98_parsed_exact` — parsed projects without negative zeros that are equal are the same, up to the order of the maps of resource files, which have none.
* `Swrs.Api.c98_twice_partial` — what holds: a project that is opened twice is equal exactly if both have the same resources and no number in the code is NaN. Missing: the other projects, for which it is false (`c98_ids_false`, `c98_nan_false`).
* `Swrs.Api.c98_again` — a project that can be opened can be opened again.
* `Swrs.Api.c98_resources` — the resources are the same if the resource files were given, or if there are no resources.
* `Swrs.Api.c98_nan_text` — a number argument is read as NaN exactly if it is `nan` in any letter case, perhaps after a sign.
* `Swrs.Api.c98_ids_false` — is false: without the resource files every opening makes new file ids, so the two projects differ.
* `Swrs.Api.c98_nan_false` — is false: there are texts of a project with a block whose number argument is `NaN`. The project can be opened, and it is not equal to itself.
* `Swrs.Api.c98_zero` — the condition of `c98_exact` is needed: two projects that are opened and are equal, and are not the same: one has the number zero, the other the negative zero, and what is saved differs.

### C99 Line numbers and block ids do not overflow — proved

The `u32` counters of lines and of block ids do not overflow, so they count right, for every text with at most 2^32 − 4 line ends and every code with less than 2^32 − 10 blocks; the limits are real: with overflow checks a file list of 2^32 empty lines and a code of 2^32 − 9 blocks panic.

*Proof.* The functions with counters are written again with `u32` and an overflow that panics or wraps, and are proved equal to the functions with natural numbers by induction; for the iterator an invariant on the count and the lines left, for blocks the counter after a tree is the counter before plus its size. *Outcome.* `c99_bytes` gives the bound by the size of the file (less than 4 GiB). The limits are real: `c99_file_limit`, `c99_blocks_limit`.

* `Swrs.c99_bytes` — a text has no more line ends than bytes, so a text of less than 4 GiB (minus 4) meets the hypothesis of the theorems below.
* `Swrs.c99_file` — reading a file list counts right: with the `u32` of the code the result, the panics and the line numbers are those of `File.parse`.
* `Swrs.c99_resource` — the same for the resource file.
* `Swrs.c99_library` — the same for the library file.
* `Swrs.c99_view` — the same for the view file, where the end of the text is counted twice at most.
* `Swrs.c99_logic` — the same for the logic file, where the lines of each pool are counted by a `usize` and shown as a `u32`.
* `Swrs.c99_blocks` — giving ids to blocks: with the `u32` of the code the container is that of `toContainer`, if there are less than 2³² − 10 blocks, counting each boolean literal.
* `Swrs.c99_file_limit` — with overflow checks a file list of 2³² empty lines or more panics.
* `Swrs.c99_blocks_limit` — with overflow checks a container of more than 2³² − 10 blocks panics.

### C100 The call stack that the conversions need is bounded — partial

The recursive conversions (blocks from and to a container, views from and to a layout, finding a view) need a call stack whose depth is bounded independently of the input; with that depth the results are the same as without a limit.

*Proof.* The recursive functions are written again with the number of calls that may be active at once, and compared with the functions without a limit: results agree (induction on the depth), and a result exists exactly if the depth is at least the nesting, defined by the pointers of the table (reading) or by the tree (writing, flattening). *Outcome.* False: for every depth there is an input that is converted without a limit but needs more (`c100_read_bounded_false`, `c100_write_bounded_false`, `c100_layout_bounded_false`, `c100_flatten_bounded_false`). Proved: the exact depth for reading (`c100_read_partial`), writing (`c100_write_partial`) and flattening (`c100_flatten`) — the number of blocks or views inside one another —, for finding a view (`c100_find_exact`) and for layouts (`c100_layout_exact`) — the deepest level that is looked at; in terms of the resulting tree that is its levels or one less (`c100_layout_partial`); the number of blocks plus one, and of views minus one, is enough (`c100_read_enough`, `c100_layout`), so a small file is safe. How many bytes a call takes is not modelled.

* `Swrs.Api.c100_read_same` — a limit on the depth changes nothing but whether there is a result: the results are those without a limit, errors included.
* `Swrs.Api.c100_read_enough` — a depth greater than the number of blocks is enough for every container.
* `Swrs.Api.c100_read_partial` — proved part: the exact depth that a container needs which is converted: that of the blocks inside one another, in substacks and parameters, counted from the blocks of the first chain. Missing: a bound that does not depend on the container, for which see `c100_read_bounded_false`.
* `Swrs.Api.c100_read_bounded_false` — The full property C100 is false of the code: for every depth (that ids can reach) there is a container which is converted and which needs more.
* `Swrs.Api.c100_write_partial` — proved part: the exact depth that is needed to write blocks: the number of their levels. Missing: a bound that does not depend on the blocks, for which see `c100_write_bounded_false`.
* `Swrs.Api.c100_write_bounded_false` — The full property C100 is false of the code: for every depth there are blocks which are converted and which need more.
* `Swrs.Api.c100_flatten` — the exact depth that `flatten_views` needs: the number of levels of the views, at least one call.
* `Swrs.Api.c100_find` — a result of `find_id` within a depth is its result; a depth of the levels of the view is enough, and if there is no such view it is needed.
* `Swrs.Api.c100_find_exact` — the exact depth that `find_id` needs: the deepest level among the views it looks at, which are those that come before the first view with the id in depth-first order, and that view.
* `Swrs.Api.c100_layout_exact` — the exact depth that `parse_raw_layout` needs, errors included: the deepest level that is looked at when the parent of a view is searched in the tree made of the views before it.
* `Swrs.Api.c100_layout` — a result of `parse_raw_layout` within a depth is its result, errors included, and a depth of one less than the number of views is enough.
* `Swrs.Api.c100_layout_partial` — proved part: the depth that `parse_raw_layout` needs is the number of levels of the tree or one less. Missing: a bound that does not depend on the layout, for which see `c100_layout_bounded_false`.
* `Swrs.Api.c100_layout_bounded_false` — The full property C100 is false of the code: for every depth there is a layout which is converted and which needs more.
* `Swrs.Api.c100_flatten_bounded_false` — The full property C100 is false of the code: for every depth there are views for which `flatten_views` needs more.

### C101 Saving settles — partial

Opening a project and saving it may lose data (C90), but only once: when a saved project is opened and saved again, nothing changes any more, whatever was lost the first time.

*Proof.* What one save leaves of a logic file is computed exactly: the order in which the screens are found (by the first or the last kind of section they have) and the code that is cut off at the first screen without code. Both are idempotent together after two rounds (the order is a stable sort). Project, file and view files follow from the exact round trips. *Outcome.* False of logic files: the first save may lose nothing and only change the order of the screens, and the second one loses the code of a screen (`c101_logic_false`: two screens, one with code, one with a variable). Proved: one save is enough for project, file and view files (`c101_project`, `c101_file`, `c101_view`; library and resource never change, C18, C19); what a save leaves of a logic file (`c101_logic_saved`); two saves are enough for logic files (`c101_logic_partial`) and whole projects (`c101_project_partial`) whose names survive; one save is enough exactly when then no screen without code stands before one with code (`c101_logic_settled`). Whatever the names, saving comes to an end: `c101_logic_ends` (after no more saves than the saved text has characters nothing changes any more, or the file can no longer be read) and `c101_project_settles` (a project that is opened and saved for ever changes only finitely often, with the same bound). `c101_five_saves`: a logic file that changes in each of the first five saves, and then never again. Missing: that one save is enough, which is false.

* `Swrs.c101_project` — the project file settles at once: when the text saved for a project file that was read is read at all, it is read as the same project.
* `Swrs.c101_file` — the file list settles after one save, whatever it was.
* `Swrs.c101_view` — a view file that was read settles after one save, if the saved file is read at all.
* `Swrs.c101_logic_saved` — what one save leaves of a logic file that was read and whose names survive. The order of the screens may change.
* `Swrs.c101_logic_partial` — proved part: the logic file settles after two saves, if the names survive. Missing: that one save is enough, which is false (see `c101_logic_false`). Files with names that do not survive may need more saves, see `c101_logic_ends`.
* `Swrs.c101_logic_settled` — after one save, a logic file whose names survive has settled exactly when no screen without code stands before one with code.
* `Swrs.c101_logic_false` — is false of logic files: the first save loses nothing but changes the order of the screens, and then the second save loses the code.
* `Swrs.c101_project_partial` — proved part: a project that was opened, saved, opened, saved and opened again has settled: saving and opening it once more gives the same project, with the screens of the logic file in the same order. Missing: that one round is enough (false, see `c101_logic_false`). Projects with names in the logic file that do not survive may need more rounds, see `c101_project_settles`.
* `Swrs.c101_logic_ends` — however a logic file that was read is saved again and again, the changes come to an end: after at most as many saves as the first saved text has characters, the file stays the same, or it cannot be opened any more.
* `Swrs.c101_five_saves` — is false of logic files, whatever small number of saves is allowed: this one changes in each of the first five saves, because each save takes one container for a pool, and then never again.
* `Swrs.c101_project_settles` — a project that is opened and saved again and again, and that can be opened every time, settles: from some round on, not later than the number of characters of the logic file saved first, opening and saving gives the same project, with the screens of the logic file in the same order.

### C102 An edit is still there after saving and opening — partial

When a project that is saved and opened without a change is edited with the API - a variable, a component, the code of an event, a view, a setting or the project details - then after saving and opening the edited project, the edit is there and nothing else has changed.

*Proof.* Each edit is put through the exact conditions of the round trip of whole projects (C92): the edited project keeps all of them or breaks exactly the one that the edit touches. *Outcome.* False of the code: a button on a screen that is not the last layout makes the project unreadable (`c102_view_false`, in general `c102_view_not_last`), and removing a variable may lose the name of another one (`c102_remove_false`). Proved with exact conditions: any change of the variables and list variables (`c102_variables_partial`, `c102_list_variables_partial`, `c102_variable_added`), components and screen settings always (`c102_components`), the code of an event (`c102_event_code`), a new event (`c102_event_added`), a new moreblock (`c102_moreblock_added`), a floating button (`c102_fab`), a new custom view (`c102_custom_view_added`: the project is lost if another layout has views), a new screen (`c102_screen_added`), screens and custom views removed in any combination (`c102_removed`), the resource files (`c102_resources`), the views of the last layout (`c102_layout_last`), project details, colours and libraries (`c102_settings`). Missing: edits for which the property is false.

* `Swrs.Api.c102_event_added` — an event that is added, whose code is read back from its blocks and whose container is a new one, is kept exactly if every earlier screen has code, the name of its container is one line and cannot be taken for the header of a pool, and an event without code that is the last one has not a name that ends with white space.
* `Swrs.Api.c102_moreblock_added` — a moreblock that is added, whose spec and code are read back, is kept exactly if every earlier screen has code, its name and the text of its spec are one line each, the name has no colon and gives a header that is told apart from others, the spec does not end with white space, and the name does not begin with white space if it is the first moreblock.
* `Swrs.Api.c102_fab` — a FAB that is put on a screen is kept exactly if its record is read back and the last layout of the project (the one of the last screen, or of the last custom view if there is one) has views.
* `Swrs.Api.c102_resources` — whatever is done to the images, sounds and fonts of a project, as long as no id is used twice in one of the three lists and every file has a name, its ids are there after saving and opening, and nothing else has changed.
* `Swrs.Api.c102_custom_view_added` — a custom view that is added at the end, with a new name and views that are read back as a tree, is kept exactly if there is a screen, its name has no dot and no line break, its records are read back, it is not empty when there is a FAB, and no other layout has views.
* `Swrs.Api.c102_kept` — such a project is kept.
* `Swrs.Api.c102_variables_partial` — proved part: whatever is done to the variables of a screen, as long as each is filed under its name, it is still there after saving and opening exactly if no name has a line break and the last one does not end with white space. Missing: the other names, for which the property is false.
* `Swrs.Api.c102_variable_added` — a variable that is added is kept, and everything else with it, exactly if its name has no line break and does not end with white space.
* `Swrs.Api.c102_list_variables_partial` — the same for the list variables.
* `Swrs.Api.c102_components` — whatever is done to the components and the settings of a screen is kept.
* `Swrs.Api.c102_event_code` — new code of an event is kept if it is read back from its blocks (`c47_round_trip_partial` tells which code is); only an event that is left without code as the last one must not have a container name that ends with white space.
* `Swrs.Api.c102_settings` — new settings, colours and libraries of the project are kept exactly if the date of creation is one that is (`c14_date_round_trip_partial`).
* `Swrs.Api.c102_layout_last` — other views on a screen that is the last one, without custom views, are kept if they are read back from their records (`c34_round_trip`, `c36_round_trip_partial`), as long as a project with a FAB is not left without a view there.
* `Swrs.Api.c102_view_not_last` — as soon as a view is put on a screen that is not the last one, or with a custom view in the project, what is saved can never be opened.
* `Swrs.Api.c102_view_false` — The full property C102 is false of the code: with a button put on its first screen, a project that was fine is saved as something that can not be opened any more.
* `Swrs.Api.c102_remove_false` — nor is it always safe to remove something: with `x` removed from the variables `a ` and `x`, the last name is `a `, whose blank is lost.
* `Swrs.Api.c102_removed` — when screens and custom views are removed, the rest is kept exactly if a screen is left or no custom view is, and the layout that is now the last one has views if a FAB is left.
* `Swrs.Api.c102_screen_added` — a screen that is added after the others, with new names, a Java name that belongs to its layout name, distinct names inside and parts that are read back (as in C61), is kept exactly if its layout name has no dot and no line break, its logic can be told apart, its code does not come after a screen without code, its records are read back, only the last layout has views, and there is a FAB only if the last layout has views.

### C103 A saved project can be opened — partial

When a project has been opened without an error, saving it succeeds and what has been saved can be opened again without an error or panic.

*Proof.* A pool of the model prints only lines that its own reader accepts, so only the containers of the code matter: the line that is written for a container is compared with the five headers of pools, and every line of a block is refused by four of the five readers. The view file is read again up to its first empty line, as in C22. *Outcome.* False of the code: a date with a part below ten (`c58_project_round_trip_false`), views in a layout that is not the last (C90), a code container whose name is taken for a pool when it is written (`c103_logic_false` with an error, `c103_panic_false` and `c103_reopen_false` with a panic). Proved with exact conditions: the view file (`c103_view`), the logic file (`c103_logic`; pools never get in the way), the project file (`c103_project`), the file list (`c103_file`, always), whole projects (`c103_reopen_partial`; saving never fails). Missing: the projects for which the property is false.

* `Swrs.c103_logic` — the exact condition under which a logic file that was read can be opened after it is saved. Variables, lists, components, events and moreblocks never get in the way.
* `Swrs.c103_logic_false` — is false of logic files: the header `@A.java_var.java_x` is read as that of a container `var`; it is saved as `@A.java_var`, and what follows is refused as variables.
* `Swrs.c103_panic_false` — is false of logic files: the header `@A.java_éjava_var.java_x` is read as that of a container `éjava_var`; it is saved as `@A.java_éjava_var`, and reading that panics.
* `Swrs.c103_view` — the exact condition under which a view file that was read can be opened after it is saved: it survives (C90), or it has no views at all; then its floating buttons are lost.
* `Swrs.c103_project` — the project file can be opened after it is saved exactly when all parts of the date have their full width.
* `Swrs.c103_file` — the file list can always be opened after it is saved.
* `Swrs.c103_reopen_partial` — proved part: saving a project that was opened never fails, and what is saved can be opened exactly when the date has its full width, the view file survives or has no views, and no container of the code has a name that is taken for that of a pool. Missing: the other projects, for which the property is false.
* `Swrs.c103_reopen_false` — is false of projects, whatever the date and the views: a project that is opened, whose date is 2022-12-31 23:59:58 and that has no views, is saved without an error, and opening what was saved panics.

### C104 The program of the README does what it says — proved

The program in the README (in the API as it is now) never panics, prints each screen with the number of its events, adds the boolean variable hello_world to every screen and the block with its source line to the end of the first onCreate event of every screen, changes nothing else, and both edits are still there after the project is saved and opened.

*Proof.* Induction over the screens: each of the two edits keeps the exact conditions of the round trip of whole projects (C92, C102); the content of the block is computed, and it is one of those that are read back (C47). *Outcome.* The README program does not compile with the pinned library; the model uses `code.0.push` and `BlockContent::parse` in place of `push_block` and `parse_from`.

* `Swrs.Api.c104_edits` — the program never panics, and it edits each screen as it should.
* `Swrs.Api.c104_readme` — the program of the README prints a line for each screen, never panics, makes its two edits on each screen and nothing else, and when the project was one that survives (`c102_Good`), what it has made is still there after saving and opening.

### C105 The wording of error messages — proved

The message of every error is the template of its variant with each placeholder replaced by the text of the field it names, and nothing else; the `{:?}` form of the errors shown inside messages is the name of the variant with its fields.

*Proof.* A template is read character by character (`c105_fill`), independently of how the model puts a message together; one theorem for each type of error. *Outcome.* The text of a taken resource id has the number `0` in its place (`c105_addition`), because the argument in the attribute is the literal `0.0`.

* `Swrs.c105_crypto` — errors of the cipher.
* `Swrs.c105_file` — errors of the list of screens.
* `Swrs.c105_library` — errors of the libraries.
* `Swrs.c105_resource` — errors of the resources.
* `Swrs.c105_layout` — errors of a layout.
* `Swrs.c105_view` — errors of the view file.
* `Swrs.c105_variable` — errors of variables.
* `Swrs.c105_list_variable` — errors of list variables.
* `Swrs.c105_lines` — errors of moreblocks, and of the number of a type.
* `Swrs.c105_pools` — errors of the pools of a logic file, and of a block container.
* `Swrs.c105_header` — errors of the header of a block container.
* `Swrs.c105_logic` — errors of a logic file.
* `Swrs.c105_resource_files` — errors of resource files.
* `Swrs.c105_project` — errors of opening a project.
* `Swrs.Api.c105_color` — a colour that no category of blocks has.
* `Swrs.Api.c105_block_type` — errors of the type of a block.
* `Swrs.Api.c105_block_content` — errors of the content of a block.
* `Swrs.Api.c105_block_content_debug` — the same errors with `{:?}`.
* `Swrs.Api.c105_block` — errors of the conversion of blocks.
* `Swrs.Api.c105_view_type` — errors of the type of a view.
* `Swrs.Api.c105_tree` — errors of the tree of a layout, as they are and with `{:?}`.
* `Swrs.Api.c105_unknown` — errors of events and components.
* `Swrs.Api.c105_screen` — errors of a screen.
* `Swrs.Api.c105_addition` — errors of the addition of a resource. The argument of the first message is the number `0.0`, not the id.
* `Swrs.Api.c105_conversion` — errors of the conversion of a project.

### C106 Damage to an encrypted file — proved

When bytes within one 16-byte block of an encrypted file are changed, and it is none of the last two blocks, decrypting still succeeds without a sign of the damage: the text has the right length, that block is wrong, the next block has exactly the same bits flipped, and every other byte is right. For the last two blocks the bytes elsewhere are right whenever decrypting succeeds. A file that has been cut off is rejected, or decrypted to a proper beginning of the text.

*Proof.* Decryption is followed block by block: a decrypted block depends on its own encrypted block and the one before; AES is one-to-one. *Outcome.* The file format has no checksum, so damage to a file is not noticed by decrypting it; `c106_change` says exactly what is damaged.

* `Swrs.c106_change` — when bytes in block `i` of an encrypted file are changed, and this is none of the last two blocks, the file is still decrypted. All bytes outside block `i` and the next one are right; the next block has the same bits changed; block `i` is wrong.
* `Swrs.c106_elsewhere` — wherever the changed block is, if the file is still decrypted, the bytes outside this block and the next one are right.
* `Swrs.c106_cut` — an encrypted file that has been cut off is not decrypted, or to a beginning of the text that is not the whole text.

### C107 What two encrypted files have in common — proved

Two encrypted files begin with the same n blocks exactly if their texts begin with the same 16 n bytes; text added at the end of a file leaves the encrypted blocks before it unchanged.

*Proof.* The initial vector is fixed, and chaining is one-to-one on sequences of blocks. *Outcome.* Follows from the fixed initial vector: encrypted files of one project show which of them begin in the same way.

* `Swrs.c107_common` — two encrypted files begin with the same `n` blocks exactly if the two texts begin with the same `16 n` bytes.
* `Swrs.c107_append` — text that is added at the end leaves the encrypted blocks of the whole blocks before it unchanged.

### C108 The order in which resource files are listed — proved

Whether a list of resource files is accepted does not depend on its order. The order of an accepted list does not matter at all exactly if no two different files in it have the same kind and the same name (two icons count as the same name); then the project opened with the list in any order converts to the same API project. A file that the project's resource list does not name changes nothing in the API project, wherever it is in the list.

*Proof.* From the description of each slot as the last file that belongs in it; the conversion looks files up by name only. *Outcome.* With two different files of one kind and name the last one wins, so there the order decides (`c108_order`, left to right).

* `Swrs.c108_accepted` — whether a list of resource files is accepted does not depend on its order.
* `Swrs.c108_order` — the order of an accepted list does not matter exactly if no two different files of it have the same kind and name (for icons: the same kind).
* `Swrs.c108_project` — a project that is opened with its resource files listed in another order is the same project: it converts to the same API project, or with the same error.
* `Swrs.c108_stray` — a file that the resource list does not name, anywhere in the list of files, changes nothing in the API project.

### C109 Working on a project again and again — proved

A project that C102 tells to be kept is saved and opened, without a list of resource files, as the same project but for its icon and the numbers of its resource files; this holds whichever way it was opened before, nothing else can come of it, the opened project can again be edited, saved and opened in the same way, and so it stays the same however often this is repeated. Opened with the list of resource files it was saved with, a project that had been opened without one is the same, icon included, if it has no resources, and otherwise opening it is an error.

*Proof.* The condition of C102 is shown to be kept by saving and opening; the way resource ids are kept changes nothing in the six texts. *Outcome.* `c109_files`: a project that has been opened without its resource files and has resources can not be opened with the list of files that saving it gives, because the test of `automatic_res_file_ids` is the wrong way round in the code (see C54).

* `Swrs.Api.c109_opens` — a project that is kept (C102), whichever way it was opened, is saved and opened as the same project.
* `Swrs.Api.c109_only` — and nothing else can come of it.
* `Swrs.Api.c109_good` — the project that is opened can be worked on in the same way.
* `Swrs.Api.c109_rounds` — however often a project that is kept is saved and opened, it stays the same.
* `Swrs.Api.c109_files` — a project that was opened without its resource files is saved with a list of resource files, in which there is nothing but its icon. Opened with that list it is the same project, with its icon, if it has no resources (and the icon is a file in the right folder); if it has resources, opening it is an error.

### C110 What is read does not depend on the order that the linked maps keep — proved

The projects are kept in linked hash maps, and it is left open whether such a map moves an entry to the back when its key is inserted again. For any two kinds of maps, every logic file, every view file and every project is read as the same value up to the order of the entries, with the same error, or with a panic in both cases. The code of a container is the same or the same error if the number of its first block is not used by another block of it, and there is a container with a repeated first number for which the code differs. A project that can be opened through the API with one kind of maps can be opened with any other kind and is the same up to the order of the entries, if no container repeats the number of its first block.

*Proof.* Relational induction over the loops of the readers and over the recursion of the block conversion with two instances of the policy. *Outcome.* c110_code_false shows that the condition on the first block is needed.

* `Swrs.c110_logic` — a logic file is read as the same logic, with the same error or with a panic, whatever order the linked maps keep when a key is inserted again.
* `Swrs.c110_view` — a view file is read as the same views or with the same error, whatever order the linked maps keep.
* `Swrs.c110_project` — a project is opened as the same project, with the same error or with a panic, whatever order the linked maps keep.
* `Swrs.Api.c110_code` — the code of a container is the same, or the same error, whatever order the linked maps keep, if the number of its first block is not used by another one.
* `Swrs.Api.c110_api` — a project that can be opened through the API with maps of one kind is opened as the same project with maps of any other kind, if the number of the first block of every container is not used by another block of it.
* `Swrs.Api.c110_code_false` — the condition of `c110_code` is needed: in a container where the number of the first block is used again, another block is the first one if the maps move an entry to the back when its key is inserted again, and less code is read.

### C111 A library as one JSON value — proved

Library also derives Serialize and Deserialize. For every library the derived JSON text is one line, an object with the members firebase_db, compat, admob and google_map in this order, each written as in its section; reading that text gives the library back. A text is read as a library exactly if it is a text of a JSON object (any other members, any order) or array in which each of the four keys has exactly one value and that value is a library record.

*Proof.* the same tools as for the records of C12, C13, C62 and C84: the keys of the object are looked up one by one, and the members are library records

* `Swrs.c111_round_trip` — the JSON form of every library is one line, from which the library is read back.
* `Swrs.c111_text` — the text is an object with the four libraries in this order, each as it is written in its section.
* `Swrs.c111_by_key` — the JSON form is read by key.
* `Swrs.c111_read` — a library is read exactly from the texts of such JSON values.

### C112 Different data are written as different texts — partial

Writing loses nothing: two libraries, resource lists, file lists, project files, view files, logics or whole projects that are written as the same text are equal. (This concerns writing alone, also for data that are not read back.) Full statement is false for dates, view file names with line breaks and logics with unusual names.

*Proof.* Injectivity is derived from the round trips where those hold; for file lists and view files the blank and header lines of the text are separated from the record lines, so the groups of records can be told apart even where reading fails. Project texts are compared as JSON values. *Outcome.* Proved without exceptions: libraries, resource lists, file lists (also those C17 loses), components, events, blocks. Views with finite numbers have one text exactly when they differ at most in giving a size as a kind or as the number of that kind; view files with single-line names exactly when names and texts of views are the same in the same order (false with a line break in a name: c112_view_false). Project files have one text exactly when they differ at most in the creation time and the digits of both dates run together alike; dates of full width collide with no other date of the years 1000 to 9999; 2022-01-11 and 2022-11-01 do collide (c112_project_false). Logics: proved for all whose screens are filed under their names and can be told apart in the text (the conditions of C28 on each screen), also where a block container is lost in reading; empty screens are not written (c112_logic_empty); false otherwise (c112_logic_false: screen A with container B.java_c, and screen A.java_B with container c). Whole projects: all parts combined; API projects that are kept (C102) and saved as the same texts are the same.

* `Swrs.c112_library` — two libraries with the same text are the same.
* `Swrs.c112_resource` — two resource lists with the same text are the same.
* `Swrs.c112_file` — two file lists with the same text are the same, although not every file list is read back (C17).
* `Swrs.c112_view_record` — two views with finite numbers have the same text exactly when they differ in nothing but the way a size is given: their sizes stand for the same numbers and everything else is equal.
* `Swrs.c112_view` — two view files whose names are single lines have the same text exactly when they hold the same layouts and FABs, in the same order, under the same names and with the same texts of views.
* `Swrs.c112_view_false` — is false of view files in general: a layout with a line break in its name and two layouts have the same text.
* `Swrs.c112_project` — two project files have the same text exactly when the projects differ at most in the creation time and the numbers of the two dates are the same when run together.
* `Swrs.c112_full_width` — of two dates in the years 1000 to 9999, the one with full width is told apart from every other one.
* `Swrs.c112_project_false` — is false of project files: a project created on 2022-01-11 and one created on 2022-11-01 have the same text.
* `Swrs.c112_records` — two components, events or blocks with the same text are the same.
* `Swrs.c112_logic_partial` — proved part for the logic: two logics whose screens are filed under their names and can be told apart in the text (C28) and that have the same text agree on every screen that has a pool or a block container, whether the text is read back or not. Missing: other logics, for which the property is false (`c112_logic_false`), and the empty screens, which are not written (`c112_logic_empty`).
* `Swrs.c112_logic_empty` — is false of empty screens: a logic with one empty screen has the same text as the empty logic.
* `Swrs.c112_logic_false` — is false of the logic: a screen `A` with the container `B.java_c` and a screen `A.java_B` with the container `c` have the same text.
* `Swrs.c112_whole_partial` — proved part for whole projects: two projects that are written to the same texts and resource files have the same file list, library and resource list, the same project data but for the creation time, and the same resource files (if those were read from lists); views and logics are compared by `c112_view` and `c112_logic_partial`. Missing: the cases of the three `_false` theorems.
* `Swrs.Api.c112_api_partial` — proved part for the API: two projects that are kept (C102) and that are saved as the same six texts are the same but for the icon and the resource files, which are not part of the texts; the ids and the file names of the resources are the same. Missing: the projects that are not kept, for which the property is false (`c112_project_false`).

### C113 What is read is no bigger than the files — proved

Opening a project makes no more of it than is in its files: the entries of the file list and of the resource list, the layouts, views and floating buttons, and the declarations, block containers and blocks are each no more than the lines of their file, and everything in the API project together (screens, custom views, views, variables, lists, components, events, moreblocks, blocks with those nested in substacks and arguments, resources) is no more than the lines of the four files together. No block, layout or logic is used twice.

*Proof.* Each loop is shown to consume a line for every entry that it adds; a map never weighs more than what was inserted. Taking a layout, a logic or a container out of its map pays for what is made of it, with C33 and C43 for the trees of views and blocks.

* `Swrs.c113_file` — a file list has at most one entry for each line.
* `Swrs.c113_resource` — a resource list has at most one entry for each line.
* `Swrs.c113_view` — layouts, views and floating buttons together are no more than the lines of the view file.
* `Swrs.c113_logic` — all declarations, block containers and blocks of all screens together are no more than the lines of the logic file.
* `Swrs.Api.c113_screen` — a screen has no more in it than its layout, its logic and its floating button.
* `Swrs.Api.c113_converted` — a project of the API has no more in it than the parsed project.
* `Swrs.Api.c113_opened` — opening a project makes no more screens, views, declarations, blocks and resources together than there are lines in the file list, the view file, the logic file and the resource list.

### C114 Windows line ends and byte order marks — proved

A project is not read as the same data when its decrypted texts have Windows line ends (a carriage return before each line break) or begin with a byte order mark. With Windows line ends the file list and the resource list are always read as empty, without an error; an accepted view file is read without any view or floating button; an accepted logic file of more than one line is read as at most one container of blocks and no declaration; the library is always refused, with a stated error; only the project file is read as before. So a project of which all texts have Windows line ends is never opened. After a byte order mark the first line of the file list, resource list and library is not seen; view and logic files are read as empty; the project file is refused.

*Proof.* Every line but the last gets a carriage return, so it is no header and not empty; the readers are followed over such lines. For the project file the JSON grammar is shown to be closed under the change, as no string or number contains a line break. c114_opened: if only the library text keeps its line ends, the project is opened with all of this lost. *Outcome.* The loss without an error is a fault of the code.

* `Swrs.c114_file` — a file list with Windows line ends is read as an empty one, without an error.
* `Swrs.c114_resource` — a resource list with Windows line ends is read as an empty one, without an error.
* `Swrs.c114_library` — a library with Windows line ends is refused: with the header if there is one in the last line, else because the first section is missing.
* `Swrs.c114_view` — a view file with Windows line ends that is accepted is read without any view: no FAB, and no layout but perhaps an empty one of which the header is the last line.
* `Swrs.c114_logic` — a logic file with Windows line ends (of more than one line) that is accepted is read as at most one screen with one container of blocks and nothing else: no variable, no list, no component, no event, no more block.
* `Swrs.c114_project` — only the project file is read as the same data with Windows line ends.
* `Swrs.c114_refused` — a project of which the texts have Windows line ends is never opened: if its project file is read at all, the library is what is refused.
* `Swrs.c114_opened` — with a library text that is read, a project of which the other texts have Windows line ends can be opened, and what is opened then has no file item, no resource, no FAB and no view.
* `Swrs.c114_bom_lists` — after a byte order mark the first line is not seen: a file list, a resource list or a library is read as without it.
* `Swrs.c114_bom_rest` — a view or logic file that begins with a byte order mark is read as an empty one, without an error, and a project file is refused.
* `Swrs.c114_same_false` — so the same data are not always read with Windows line ends or after a byte order mark.

### C115 The order of the sections — proved

The order of the sections of a logic file or view file does not matter if no two sections are for the same thing (the same pool or container of the same screen, the layout or floating button of the same name): with its sections in any other order an accepted file is accepted and holds the same data for every name, and the project is opened through the API as an equal project, with the same error, or with a panic in both cases. In general a logic file holds, for each pool and container of each screen, what its last section for it says.

*Proof.* A header is for one thing only and a section changes only that; so each part of a screen is what the last section for it is read as. The conversion looks layouts, logics and containers up by name only. *Outcome.* c115_logic_false: with two sections for the same thing the later one is kept, so the order matters.

* `Swrs.Logic.c115_logic_last` — two logic files that are read hold the same if for every screen the last section of each kind has the same lines.
* `Swrs.Logic.c115_logic` — the order of the sections of a logic file does not matter if no two of them are for the same: with its sections in another order a logic file that is read is read, and holds the same.
* `Swrs.View.c115_view` — the order of the sections of a view file does not matter if no two of them are for the same: with its sections in another order a view file that is read is read, and holds the same.
* `Swrs.Api.c115_screen` — a screen is made alike of logics that hold the same.
* `Swrs.Api.c115_conv` — parsed projects that hold the same are opened through the API alike: as equal projects, with the same error or with a panic.
* `Swrs.Api.c115_opened` — a project can be opened with the sections of its logic file and of its view file in any order, if no two sections are for the same, and is opened through the API alike.
* `Swrs.c115_logic_false` — with two sections for the same their order matters: the later one is kept.

### C116 Texts that were cut off — proved

A file list or resource list that was cut off after any character is refused with an error or read as the first entries of each of its lists, and is read if the cut is at the end of a line. A project file that was cut off is refused with an error (never a panic) unless only white space was cut, then it is read as the same project. A library file with no section twice that was cut off is refused or read as the same libraries, and as it is written by the crate it is refused whatever part of its end is missing. A logic file cut off at the end of a line is read; a view file too, unless it then ends in the header of a floating button, which is refused; what is read consists of the first sections of the whole file, the last one perhaps with only its first lines, so without a section twice everything that is read is in the whole file: the same screens, floating buttons, and the first views of each layout.

*Proof.* No text of a JSON array or object begins another JSON text, up to white space, since its parser stops at the closing bracket whatever follows; the lines of a beginning are the first lines with the last one cut. Induction on the lines, with the sections of C115 for views and logics. *Outcome.* c116_logic_false, c116_view_false: a cut within a line of a logic or view file can go unnoticed: a variable abc becomes ab, and the header of a floating button becomes the header of an empty layout that replaces the layout of the screen.

* `Swrs.c116_file` — a file list that was cut off anywhere is refused, or is read as the first entries of each of its lists.
* `Swrs.c116_file_whole` — a file list that was cut off at the end of a line is read.
* `Swrs.c116_resource` — a resource list that was cut off anywhere is refused, or is read as the first entries of each of its lists.
* `Swrs.c116_resource_whole` — a resource list that was cut off at the end of a line is read.
* `Swrs.c116_project` — a project file that was cut off is refused with an error, and is read as the same project if only white space was cut.
* `Swrs.c116_library` — a library file without a section twice that was cut off is refused, or is read as the same.
* `Swrs.c116_project_cut` — a project file of which something else than white space was cut is refused.
* `Swrs.c116_library_written` — a library file as it is written is refused if any part of its end is missing.
* `Swrs.View.c116_view` — a view file that was cut off at the end of a line consists of the first of its sections, the last one perhaps a layout with only its first views; or it ends in the header of a floating button and is refused.
* `Swrs.View.c116_view_read` — what is read of a view file without a section twice that was cut off at the end of a line is in the whole file: each floating button, and of each layout the first views.
* `Swrs.Logic.c116_logic` — a logic file that was cut off at the end of a line is read, and consists of the first of its sections, the last one perhaps with only its first lines.
* `Swrs.Logic.c116_logic_read` — what is read of a logic file without a section twice that was cut off at the end of a line is in the whole file: each screen, and each pool and the code of each container as it is read from the first lines of its section.
* `Swrs.Logic.c116_logic_false` — a logic file cut off within a line can be read with another content: `abc` becomes `ab`.
* `Swrs.c116_view_false` — a view file cut off within a line can be read with a layout lost: the header of its floating button, cut off, is the header of an empty layout that takes its place.

### C117 Blank lines at the end — proved

Any number of line ends after the last line of the six texts of a project has no effect on what is read: the project is opened as without them. The outcome of each reader is the same, errors included, except that a floating button or a library that is missing after its header at the end of the text is reported as one that is not readable. After a project any white space may stand. In a view or logic file two blank lines end the file: whatever follows has no effect; in a list of files or resources with a section already one blank line does.

*Proof.* Line ends add blank lines; induction on the lines of each reader. For the project: an object ends in a brace and a string in a quotation mark, so no part that decides the outcome reaches into the white space after the text. *Outcome.* c117_space_false: a line with a space at the end is refused by the lists of files and resources, views and logic files. c117_one_blank_false: what follows one blank line is read in views and logic files.

* `Swrs.c117_logic` — the end of a logic file — line ends, or two blank lines and anything after them — has no effect on what is read or on the error.
* `Swrs.View.c117_view` — the end of a view file — line ends, or two blank lines and anything after them — has no effect on what is read, nor on the error, except that a floating button that is missing at the end is reported as one that is not readable.
* `Swrs.View.c117_view_ok` — a view file is read with such an end as without.
* `Swrs.c117_file` — line ends at the end of a list of files have no effect on what is read or on the error.
* `Swrs.c117_file_rest` — nor has anything after a blank line, in a list that has a section.
* `Swrs.c117_resource` — line ends at the end of a list of resources have no effect on what is read or on the error.
* `Swrs.c117_resource_rest` — nor has anything after a blank line, in a list that has a section.
* `Swrs.c117_library` — line ends at the end of a library file have no effect on what is read, nor on the error, except that a library that is missing at the end is reported as one that is not readable.
* `Swrs.c117_library_ok` — a library file is read with line ends at the end as without.
* `Swrs.c117_project` — white space at the end of a project file has no effect on what is read, on whether it is refused, or on whether reading it panics.
* `Swrs.c117_opened` — a project whose texts have line ends after them is opened as without them.
* `Swrs.c117_space_false` — a line with a space at the end is not without effect on a list of files or of resources, a view or a logic file: it is refused.
* `Swrs.c117_one_blank_false` — what follows one blank line is read, in a view and in a logic file.

### C118 The sections of the lists of files and resources — proved

A list of files or resources made of any number of sections, each a header and record lines, is read exactly when every record line is read, and holds for each kind the records of the sections of that kind in the order of the text. So with its sections in any other order a list that is read is read again, with the same records up to their order, and with exactly the same records if the sections of each kind keep their order, in particular if no two are of the same kind; and the records of one kind may be spread over any number of sections.

*Proof.* Induction on the sections and on the lines of each; the records of one kind are a filter of all records, and filters of permutations are permutations.

* `Swrs.c118_file_read` — a list of files is read from its sections, however many there are and in whatever order, exactly when every record line is read; what is read are the records of the activity sections and those of the custom view sections, each in the order of the text.
* `Swrs.c118_resource_read` — the same for a list of resources.
* `Swrs.c118_file_order` — with the sections in any other order a list of files that is read is read again, with the same activities and custom views up to their order; and with exactly the same if the sections of each kind keep their order among themselves.
* `Swrs.c118_resource_order` — the same for a list of resources.
* `Swrs.c118_apart` — in particular the order of the sections does not matter if no two are of the same kind.
* `Swrs.c118_spread` — the records may be spread over any number of sections: texts whose record lines are the same for each kind are read alike.
* `Swrs.c118_spread_resource` — the same for a list of resources.

### C119 A change of one line changes one record — proved

If two files of a project differ in one line, which in neither is blank or begins with '@', and both are read, then what is read differs in at most one record, and there it is what the two lines say: in a list of files or resources one entry of one of the lists; in a library file one of the four libraries; in a view file one view of one layout or the floating button of one screen; in a logic file one part of one screen, which differs in one component, event or block at the same place, or, for variables, list variables and more blocks, only in the entries of the names in the two lines. A project file of which the value of one key is changed differs at most in the field of that key.

*Proof.* Two runs of each reader side by side: until the changed line they are equal, and after it a relation between the two results is kept. For logic files through the sections of the text and the last section of each kind.

* `Swrs.c119_file` — a list of files of which one line is changed, and which is read, differs in one activity or in one custom view, or not at all.
* `Swrs.c119_resource` — a list of resources of which one line is changed, and which is read, differs in one image, one sound or one font, or not at all.
* `Swrs.c119_library` — a library file of which one line is changed, and which is read, differs in one library, or not at all.
* `Swrs.View.c119_view` — a view file of which one line is changed, and which is read, differs in one view of one layout, or in one floating button, or not at all.
* `Swrs.Logic.c119_logic` — a logic file of which one line is changed, and which is read, differs in one record of one part of one screen, or not at all.
* `Swrs.c119_project` — a project file of which one member is changed, and which is read, differs at most in the field of that member.

### C120 A change of one line changes one screen — proved

If two projects differ in one text only and both are opened and converted, then they differ only in what is made of that text: the settings and colours for the project file, the screens and custom views for the file list, the libraries for the library file, the resources for the resource list. If the view files differ in one line, which in neither is blank or begins with '@', then the projects differ in at most one custom view, or in at most one screen, and there only in the views or only in the floating button. If the logic files differ in one such line, then the projects differ in at most one screen, and there only in the variables, only in the list variables, only in the components, or only in the more blocks and events.

*Proof.* The value of every screen in terms of the layout, button and logic left by the activities before it, with the differences of the parsed files from C119.

* `Swrs.Api.c120_project` — whatever is changed in the project file, only the settings and colours change.
* `Swrs.Api.c120_file` — whatever is changed in the file list, only screens and custom views change.
* `Swrs.Api.c120_library` — whatever is changed in the library file, only the libraries change.
* `Swrs.Api.c120_resource` — whatever is changed in the resource list, only the resources change.
* `Swrs.Api.c120_view` — a change of one line of the view file changes one custom view or one screen, and of the screen only the views or the floating button.
* `Swrs.Api.c120_logic` — a change of one line of the logic file changes one part of one screen: its variables, its list variables, its components, or its more blocks and events.

### C121 What is read from files that are joined — proved

Let two files be read, and let the second one be written after the first one. Lists of files and resources: if no blank line follows a header in the first list and the second list begins with a header, the entries of each kind are those of the first list and then those of the second; if a blank line follows a header in the first list, the second one has no effect. Libraries: those of the second file are read. Project files: a project file with anything but white space after it is not read. View files: if the first file consists of whole sections, or ends in an open layout and a blank line is put between, every layout and floating button of the second file is read, and those of the first file for the other names; if a line that is no header follows the sections of the first file, the second file has no effect; every view file that is read ends in one of these three ways. Logic files, with a blank line between: if every paragraph of the first file has a header, the screens are those of both files, and every part of a screen (variables, list variables, components, events, more blocks, blocks of each name) is that of the second file if it has it, and otherwise that of the first file; if a paragraph has no header, the second file has no effect.

*Proof.* The loops of the readers on appended lists of lines, and the characterisations of readable view and logic files from C115 and C69 for appended sections.

* `Swrs.c121_file` — a list of files with another one after it, in the next line, is read as both one after the other; the second one begins with a header. If in the first one a blank line comes after a header, then the second one has no effect.
* `Swrs.c121_resource` — so are lists of resources.
* `Swrs.c121_library` — a library file with another one after it is read as the second one.
* `Swrs.c121_project` — a project file with anything but white space after it is not read.
* `Swrs.View.c121_ends` — every view file that is read ends in one of three ways.
* `Swrs.View.c121_view` — a view file with another one after it, in the next line if the first one consists of whole sections or after a blank line if it ends in a layout, is read as what is in the second one and, for other names, in the first one. If after the sections of the first one a line is no header, then the second one has no effect.
* `Swrs.Logic.c121_logic` — a logic file with another one after it, after a blank line, is read as what is in the second one and, for other parts and screens, in the first one, if every paragraph of the first one has a header; otherwise the second one has no effect.

### C122 One line more is one record more — proved

Let a file be read, and let one line that is neither blank nor begins with `@` be put into it. Lists of files and resources: if the line comes under a header, the list of that section gets the record of the line after the records of the lines before, and nothing else changes, or the list is refused with the number of the line; elsewhere the line has no effect. Libraries: the line has no effect, or it comes right after a header: then it is read as the library of that header and no other library changes, or the file is refused with that header. View files: in a layout, the line is read as one view more at its place in that layout, unless a later layout has the same name, or the file is refused with the name of the layout, the line and its number. Logic files (after a line that is not blank): if every paragraph up to there has a header, the line belongs to the section of the last header, the file is read exactly if the line can stand in that section, and then the one record is the only difference; otherwise the line has no effect. Conversely a list of files or resources, a view file and a logic file are still read when such a line is taken away.

*Proof.* The loops of the readers are run up to the line, where the open section is known from the lines before; the rest is read with one record more in the accumulator. For view and logic files the characterisations by sections of C115 and C69 are used.

* `Swrs.c122_file` — a list of files with one line more. In a section, after what is read from the lines before, comes the record of the line, or the list is refused with the number and the content of the line; elsewhere the line has no effect. The line is neither blank nor begins with `@`.
* `Swrs.c122_resource` — so with a list of resources.
* `Swrs.c122_file_less` — a list of files from which a line is taken away that is neither blank nor begins with `@` is still read.
* `Swrs.c122_resource_less` — so with a list of resources.
* `Swrs.c122_library` — a library file with one line more. The line has no effect, or it comes after a header: then it is read as the library of that header, and no other one changes, or the file is refused with that header. The line does not begin with `@`.
* `Swrs.View.c122_view` — a view file with one line more in a layout, which is not blank. If the line is a view, the file is read, with this view more in the layout, after those of the lines before, unless a later layout has the same name; otherwise the file is refused with the layout, the line and its number in the layout.
* `Swrs.View.c122_view_less` — a view file from which a line of a layout is taken away is still read.
* `Swrs.Logic.c122_logic` — a logic file with one line more that is not blank and comes after a line that is not. If all paragraphs up to there have headers, the line belongs to the section of the last header: the file is read exactly if the line can stand there, and then differs in this record only, or not at all if the section comes again later. Otherwise the line has no effect.
* `Swrs.Logic.c122_logic_less` — a logic file from which a line is taken away that is not blank and comes after a line that is not is still read.

### C123 One line more, in the project — proved

Let a raw project be opened and converted, and let one readable line be put into one of its texts. Activity: if the other files hold nothing of this name, the project is still opened and converted, and has one blank screen more, after the screens of the activities before. Custom view: the project is still opened, and is converted exactly if there is a layout of this name that is a tree and no other entry of the file list has this name; then it has this custom view more. Image, sound or font of a project with resource files: it is still opened, and is converted exactly if there is such a file and no other line names it; then it has this resource more. Variable or list: it is still opened and converted, and only the variables or lists of at most one screen, that of the activity of this name, change, by this declaration. Component: it is still opened; if its kind is known it is converted and only the components of at most one screen change, by this one; if not, it is not converted or is the same. Event of a known kind, without code: it is still opened and converted, and at most one screen has this event more, without code. View of a layout, with an id that no view of the layout has: if its parent is the root or a view before it, the project is still opened and converted, and only the views of at most one screen or custom view, of this name, change: they have this view more, as a leaf under its parent; if not, it is not converted or is the same.

*Proof.* C122 says what the readers make of the line; the conversions are then followed by induction on the entries before it. An entry that takes nothing from the maps leaves the rest as it is; an entry that takes something commutes with the others, whose names differ, and otherwise one of two equal names finds nothing.

* `Swrs.Api.c123_activity` — a line for an activity is added to the file list, for which the other files hold nothing. The project is still opened, and has one blank screen more, after the screens of the activities before.
* `Swrs.Api.c123_customView` — a line for a custom view is added to the file list. The project is still opened; it can be converted exactly if the view file holds a layout of this name that is a tree and that no other file entry has taken or takes; then it has this custom view more.
* `Swrs.Api.c123_variable` — a readable line is added to the variables of a screen. The project is still opened and converted, and is the same but for one screen, that of an activity of this name; of this only the variables change, by the declaration of the line.
* `Swrs.Api.c123_listVariable` — so with a readable line for a list.
* `Swrs.Api.c123_component` — a readable line is added to the components of a screen. The project is still opened. If the component is of a known kind, the project is converted, and is the same but for one screen, of which only the components change, by this component; if not, the project is not converted, or is the same.
* `Swrs.Api.c123_event` — a readable line is added to the events of a screen, for an event of a known kind for which there is no code. The project is still opened and converted, and is the same but for one screen, which has this event more, without code; the event for `onCreate`, which has no line, may come before.
* `Swrs.Api.c123_image` — a line for an image is added to the resource list of a project with resource files. The project is still opened; it can be converted exactly if there is an image file of this name that no other line names; then this image is more.
* `Swrs.Api.c123_sound` — so with a line for a sound.
* `Swrs.Api.c123_font` — so with a line for a font.
* `Swrs.Api.c123_tree` — a view with a new id and a parent that is there is added to the list of a layout. The list is still a tree, and this tree has one leaf more, the view, under its parent.
* `Swrs.Api.c123_view` — a line for a view with a new id is added to a layout, under the root or under a view that comes before. The project is still opened and converted, and is the same but for the views of one screen or of one custom view, of this name, which have this view more, as a leaf under its parent.
* `Swrs.Api.c123_view_refused` — so with a view that has no parent, or one that does not come before: the project is still opened, but it is not converted, or is the same.

### C124 The order of the entries — proved

The order in which entries are listed matters only as an order. Blocks: if the numbers of the blocks of a container are numbers and differ, then the code that is read, or the error, is the same in whatever order the blocks after the first are listed. File list: if no two activities have the same name for their logic, then a project that is converted is converted with the entries in any order, to the same screens and custom views in the order of their entries, and nothing else changes. Resource list, when the resource files are given: if no two resources of a kind have the same name, the same resources are found. Events and components of a screen: if no two events have the same container and no two components the same name, the same events and components are read. Views of a layout whose ids differ: another list of the same views gives the same tree exactly if in it every view comes after its parent and the views of each parent are in the same order. Texts: when lines that are neither blank nor headers are put in another order between two places of a file list or resource list, the same entries are read, section by section. Each of the conditions is needed.

*Proof.* With different names every entry is read from its own parts, so the conversion of a list is the conversion of its entries one by one, and permuting them permutes the results. For blocks, two maps with the same entries are read alike (C110), and the first entry stays the first. For texts, by induction on the permutation.

* `Swrs.Api.c124_blocks` — when the numbers of the blocks of a container differ, the code is the same, or the same error, in whatever order the blocks after the first one are listed.
* `Swrs.Api.c124_files` — the entries of the file list in another order, when no two activities have the same name for their logic. The project is converted as well, with the same screens and the same custom views, in the order of their entries; nothing else changes.
* `Swrs.Api.c124_resources` — the entries of the resource list in another order, when the files are given and no two entries of a section have the same name. The project is converted as well, with the same resources; nothing else changes.
* `Swrs.Api.c124_screen` — the events and the components of a screen in another order, when no two events have the same container and no two components the same name. The screen is read as well, with the same events, in the order of their lines but for the one of `onCreate`, and with the same components; nothing else changes.
* `Swrs.Api.c124_file_lines` — lines of the file list that are neither blank nor headers, in another order: the same entries are read, section by section.
* `Swrs.Api.c124_resource_lines` — lines of the resource list that are neither blank nor headers, in another order: the same resources are read, section by section.
* `Swrs.Api.c124_opened` — a project whose file list has such lines in another order is opened as well, with the same screens and the same custom views, in the order of their lines.
* `Swrs.Api.c124_first_false` — the first block must stay the first one: when it changes places with another, less code may be read.
* `Swrs.Api.c124_number_false` — the numbers must differ: of two blocks with the same number, the later one is used.
* `Swrs.Api.c124_malformed_false` — the numbers must be numbers: of two blocks without one, the error names the first.
* `Swrs.Api.c124_files_false` — the names of the logics must differ: of two activities with the same name, the first one gets the logic.
* `Swrs.Api.c124_resources_false` — the names of the resources must differ: of two entries with the same name, the later one is kept.
* `Swrs.Api.c124_screen_false` — the containers must differ: of two events with the same container, the first one gets the code.
* `Swrs.Api.c124_component_false` — the names of the components must differ: of two components with the same name, the last one is read.
* `Swrs.Api.c124_header_false` — the lines must not be headers: the entries after a header that is moved are read as others.
* `Swrs.Api.c124_views` — two lists of the same views, whose ids differ. The second one is read as the same layout as the first one exactly if in it, too, every view comes after its parent, and the views of each parent come in the same order.
* `Swrs.Api.c124_views_false` — of two views with the same name, the first one gets the children: the ids must differ.

### C125 One entry less — proved

What is missing when one entry is taken out. Block: a block whose number no other block has is taken out of a container, not the first one, whose number is not used again either; then the same code is read as before, or the same error as before, or it is an error that a block was not found; no other code is ever read. So a block with a new number behind the first changes nothing of code that can be read. View, with an id that no other view has: taken out of a layout that is a tree, the result is the same tree without this leaf if no later view names it as its parent, and otherwise the error names the first later view that did, and the missing parent. Activity, if no two activities have the same name for their logic: the project is converted without its screen and nothing else changes. Custom view: the same with the custom view. Image, sound or font, when the files are given and the names of a kind differ: without this resource. Event, if the containers differ, and component, if the names differ: the screen is read without it. The conditions on the first block, the activities, the images and the events are needed.

*Proof.* For blocks, a simulation of the two runs: the second map is the first one without one key, and either the runs never ask for this key, or the second one says that it is missing, and this error is passed on. For views, by the exact condition under which a layout is a tree and C123. For the others, each entry is read from its own parts, so the entries of the list without it are read as before.

* `Swrs.Api.c125_block` — a block whose number no other block has is taken out of a container, not the first one, whose number is not used again either. The code that is read is the same, or the same error, or it is an error that a block was not found. No other code is ever read.
* `Swrs.Api.c125_block_more` — so a block with a new number that is put behind the first one changes nothing of code that can be read.
* `Swrs.Api.c125_leaf` — a view that is nobody's parent is taken out of a layout; no other view has its id. The layout is still a tree, the same one without this leaf.
* `Swrs.Api.c125_parent` — a view that is the parent of a later one is taken out of a layout; no other view has its id. The layout is refused: the error names the first view that lost its parent, and this parent.
* `Swrs.Api.c125_activity` — an activity is taken out of the file list, when no two activities have the same name for their logic. The project is converted as well; its screen is missing, and nothing else changes.
* `Swrs.Api.c125_customView` — a custom view is taken out of the file list. The project is converted as well, without this custom view, and nothing else changes.
* `Swrs.Api.c125_image` — an image is taken out of the resource list, when the files are given and no two images have the same name. The project is converted as well, without this image, and nothing else changes.
* `Swrs.Api.c125_sound` — so with a sound.
* `Swrs.Api.c125_font` — so with a font.
* `Swrs.Api.c125_event` — an event is taken out of a screen whose events have different containers. The screen is read as well, without this event, and nothing else changes.
* `Swrs.Api.c125_component` — a component is taken out of a screen whose components have different names. The screen is read as well, without this component, and nothing else changes.
* `Swrs.Api.c125_block_false` — the block that is taken out must not be the first one: the code then begins with another block.
* `Swrs.Api.c125_activity_false` — the names of the logics must differ: when the first one of two activities with the same name is taken out, the second one gets the logic.
* `Swrs.Api.c125_image_false` — the names of the resources must differ: when the later one of two entries with the same name is taken out, the earlier one is found again.
* `Swrs.Api.c125_event_false` — the containers must differ: when the first one of two events with the same container is taken out, the second one gets the code.

### C126 The numbers of the blocks are only names — proved

When the blocks of a container get other numbers, by a function that gives different numbers to different numbers, applied to the id of each block, to its next pointer, to its substack pointers and to each parameter that is a reference, then the same code is read from the container; if it is refused, the error is the same one with the other numbers. Every such function that keeps numbers below 2^31 below 2^31 can be applied to every container. If two numbers become the same, a block can be lost. When other containers are put in the place of the containers of a screen or a project, from which the same code is read, the same screen or project is read; so a project stays the same whatever the numbers of the blocks of each container are, in whatever order the blocks after the first one are listed (their numbers being different), and whatever blocks with new numbers are put behind the first one.

*Proof.* A simulation of the two runs, by induction on the depth of the calls: the maps of the blocks that are left agree entry by entry up to the numbers, parameters are read to the same values up to the numbers, and each step takes the same entry. For screens and projects, each container is taken once, by name.

* `Swrs.Api.c126_code` — a container is read with other numbers for its blocks, given by a function that gives different numbers to different numbers, in every place that holds the number of a block. The same code is read; an error is the same with the other numbers.
* `Swrs.Api.c126_exists` — every function that gives numbers below 2³¹ to numbers below 2³¹ can be applied to the blocks of a container.
* `Swrs.Api.c126_screen` — a screen is read from its containers, and other containers are put in their place, from which the same code is read. The same screen is read.
* `Swrs.Api.c126_project` — a project that is converted is converted to the same project when other containers are put in the place of its containers, from which the same code is read.
* `Swrs.Api.c126_same` — so a project is converted to the same project whatever the numbers of the blocks of each container are, in whatever order the blocks after the first are, and whatever blocks with new numbers are put behind the first.
* `Swrs.Api.c126_code_false` — different numbers must stay different: when two blocks get the same number, one of them is lost.

### C127 The ids of the views are only names — proved

When the views of a layout get other ids, by a function that gives different ids to different ids and leaves the name `root` as it is, applied to the id and to the named parent of every view, then the same trees of views are read with the other ids; if the layout is refused, the error is the same one with the other ids. A view is found in the renamed tree under its new id exactly if it was found under the old one, and renamed trees are written as the same list with the other ids. So a screen, and a project with one such function for each layout, are read as before, with the other ids in the layouts of the screens and custom views, and nothing else changes. Both conditions on the function are needed.

*Proof.* Renaming commutes with each step: with the search, with putting a view below its parent, with the conversion of a single view, and with flattening; by induction on the tree and on the list.

* `Swrs.Api.c127_layout` — the views of a layout get other ids, by a function that gives different ids to different ids and leaves `root` as it is, also where they are named as parents. The same trees are read with the other ids; an error is the same with the other ids.
* `Swrs.Api.c127_find` — a view is found in the tree with other ids under its other id, if it is found in the tree, and it is the same one with the other ids.
* `Swrs.Api.c127_flatten` — trees with other ids are written as the same list of views with the other ids.
* `Swrs.Api.c127_screen` — the views of the layout of a screen get other ids. The same screen is read, with the other ids in its layout.
* `Swrs.Api.c127_project` — the views of the layouts of a project get other ids, in each layout by its own function. The same project is read, with the other ids in the layouts of its screens and custom views.
* `Swrs.Api.c127_layout_false` — different ids must stay different: when two views get the same id, a view in the second one is put into the first one.
* `Swrs.Api.c127_root_false` — the name `root` must stay as it is: a view in the root is refused otherwise.

### C128 The names of the screens and custom views are only names — proved

When the layouts and FABs of a project get other names by one function and the logics by another one, in the file list, the view file and the logic file, where both functions give different names to different names and the logic that belongs to the new name of an activity is the logic that belonged to the old one under its new name, then the same project is read with the other names: nothing else in any screen, custom view, library or resource changes; and if the project is refused, it is refused with the same error with the other names. In the other direction, a project of the API whose screens, code and custom views get other names in this way is written as the same files with the other names, for any two such functions. It is needed that the logics go along with the layouts, and that different names stay different.

*Proof.* Renaming the keys commutes with looking up, removing and inserting; a screen that is put together, and the logic written for one, depend on the names only in their name fields; by induction on the file list and on the screens.

* `Swrs.Api.c128_read` — the layouts and the logics of a project get other names, each by a function that keeps different names different, such that the logic of every activity is still found. The same project is read with the other names, or the same error with the other names.
* `Swrs.Api.c128_written` — the screens, their code and the custom views of a project of the API get other names, each by a function that keeps different names different. The same project is written with the other names.
* `Swrs.Api.c128_read_false` — the names of the logics must go along with those of the layouts: a screen whose layout alone is named otherwise has no variables any more.
* `Swrs.Api.c128_written_false` — different names must stay different: of two screens with the same name, one layout is written.

### C129 Code is joined, cut and shortened by changing one pointer — proved

Let the blocks of a container have different numbers, and let its code be read without an error. What is read has one block, of the same colour and operation, for each block of the row that begins with the first block and follows the pointers to the next block. When a block of the row gets a pointer to no block, the code up to it is read. When a block of the row is put first in the container, the code from it on is read. When a block of the row gets a pointer to a later block of the row, the code is read without the blocks between them. When the last block of the row gets a pointer to the first block of another container with other numbers, and the blocks of that one are put behind, the code of both is read, one after the other. Substacks and arguments of the blocks that stay are the same. The numbers must differ for this.

*Proof.* By the relational description of what is read (C43): the tree of a block depends only on the table at the numbers it uses, these are all different, and the pointer to the next block is used only in the row; by induction on the row.

* `Swrs.Api.c129_row` — what is read from a container whose blocks have different numbers has one block for each block of the row that begins with the first one, with the same colour and operation.
* `Swrs.Api.c129_cut` — the pointer of a block of the row is set to no block. The code up to this block is read.
* `Swrs.Api.c129_rest` — a block of the row is put first. The code from this block on is read.
* `Swrs.Api.c129_skip` — the pointer of a block of the row is set to a later block of the row. The code is read without the blocks between them.
* `Swrs.Api.c129_join` — two containers with different numbers. When the last block of the row of the first one gets a pointer to the first block of the second one, the code of both is read, one after the other.
* `Swrs.Api.c129_join_false` — the numbers must differ: of two blocks with the same number one is lost.

### C130 A view is moved by naming another parent — proved

In a layout whose views have different ids and that is read, one view names another parent. If that is the root or a view listed before it, the layout is read: the view is shown in the new parent instead of the old one, between the views that are listed before and after it, with everything that is in it; all other views are shown in the same order in the same views as before; and a view that holds neither the old nor the new parent is the same tree as before. If the named parent is not listed before the view, which is so for every view that is in it, the layout is refused with an error that tells the view and the parent. The ids must differ for this.

*Proof.* By the description of what is read (C33): with different ids the children of a view are the views of the list that name it, in the order of the list; what is in a view is listed after it; two trees with the same children everywhere are equal (C124).

* `Swrs.Api.c130_move` — in a layout whose views have different ids, a view names another parent, one that is listed before it, or the root. The layout is read. The view is shown in the new parent in place of the old one, at the place that the list gives it; all others are shown in the same order in the same views.
* `Swrs.Api.c130_refused` — a view that names a parent that is not listed before it, such as a view that is in it, makes the layout be refused with an error that tells both ids.
* `Swrs.Api.c130_move_false` — the ids must differ: of two views with the same id the second one is given what is in the first one when it is moved before it.

### C131 Two projects can be put together — proved

Two projects are read, and no layout, floating button or logic of one has the name of a screen or custom view of the other. With the screens and custom views of the second, and their layouts, buttons and logics, added to the files of the first, the first project is read with the screens and custom views of both, its own first, and nothing else of it changes. The same holds for the texts: with the file list, view file and logic file of the second project written after those of the first, where a file can follow (C121), and with no name that stands for something in both, the first project is opened with the screens and custom views of both. Likewise for the resources and resource files, when no resource of one has the name or the file name of one of the other. Without these conditions a screen of the first project may get the logic of the second, and of two resources with the same name only one is kept.

*Proof.* Induction over the screens of the first and then of the second project, with maps that are two maps one after the other: a lookup goes to its own map and a removal leaves the other map as it is. Resources are collected into two maps one after the other.

* `Swrs.Api.c131_merge` — two projects are read, and nothing in the view and logic files of one has the name of a screen or custom view of the other. With the screens of the second one added to its files, the first project is read with the screens and custom views of both, its own first, and with its own libraries and resources.
* `Swrs.Api.c131_merge_resources` — two projects with resource files are read, and no resource of one has the name, or the name of the file, of one of the other. With the resources and resource files of the second one added, the first project is read with the resources of both.
* `Swrs.Api.c131_opened` — two projects are opened in which no name of a screen, custom view, layout, floating button or logic is in both. The file list, view file and logic file of the second one are written after those of the first one, a blank line between them where the first file needs one; the first file of each pair is one after which another one can be written (C121). The first project is then opened with the screens and custom views of both.
* `Swrs.Api.c131_merge_false` — the names must differ: a screen of the first project that has no logic gets the logic of the screen of the same name of the second project.
* `Swrs.Api.c131_merge_resources_false` — the names of the resources must differ: of two images with the same name, only one is kept.

### C132 Code is put into the middle of code, into a block and in the place of a block — proved

Let a container whose blocks have different numbers be read without an error, and let another container, with other numbers, be put behind it. If a block of the row gets a pointer to the first block of the other container, and the last block of that one's row gets the pointer that the block had, the code of the other container is read in the middle, behind this block. If the pointer of the first or second substack of a block of the row is set to the first block of the other container, its code is read as this substack; if it is set to no block, there is no such substack. If a block of the row is replaced by another one with the same number and the same next pointer, and with blocks of its own behind, then what is read of this one and its blocks alone is read in the place of the old one. In all cases everything else is read as before, and what was in the old substack or block is left out. The numbers must differ for this.

*Proof.* By the description of the code that a container stands for (C43): a tree over the table of the blocks. The tree of the row is taken apart at the block, and put together again with another tree over the numbers of the other container, which are not in it.

* `Swrs.Api.c132_paste` — two containers with different numbers. A block of the row of the first one gets a pointer to the first block of the second one, and the last block of the row of the second one gets the pointer that this block had. The code of the second one is read in the middle of the code of the first one.
* `Swrs.Api.c132_replace` — a block of the row is replaced by another block with the same number and the same pointer to the next block, and with other blocks of its own behind. If that block, alone with its own blocks, is read as `y`, then `y` is read in the place of the block that was replaced.
* `Swrs.Api.c132_fill` — a block of the row gets a pointer from its first or second substack to the first block of another container with other numbers. The code of that container is read in this substack, and the rest as before.
* `Swrs.Api.c132_empty` — a substack pointer of a block of the row is set to no block. The block is read without this substack, and the rest as before.
* `Swrs.Api.c132_fill_false` — the numbers must differ: when the block that is put into a substack has the number of a block that comes later, the code is refused.

### C133 A layout as a text of its own — proved

A text is read as a layout exactly if each line before its first blank line is read as a view, and the layout holds these views in this order. Otherwise the error names the first line that is not a view, the number of lines before it, and the view in the line before it, if there is one. Reading a layout never panics. A layout that is written is read back exactly if each of its views is (C21). If a view file is not read because of a line of a layout, the error names the view read from the line before that one, or none if it is the first line behind the header.

*Proof.* The lines before the first blank one are read one by one; the first that fails splits them. For view files the decomposition of a text into sections and an ending is used (C60).

* `Swrs.Layout.c133_layout_reads` — a text is read as a layout exactly if every line before the first blank one is read as a view, and the layout holds these views.
* `Swrs.Layout.c133_layout_error` — otherwise the error tells the first line that is not a view, how many lines are before it, and the view in the line before it.
* `Swrs.Layout.c133_layout_no_panic` — reading a layout never panics.
* `Swrs.Layout.c133_layout_round_trip` — a layout that is written is read back exactly if each of its views is (C21).
* `Swrs.Layout.c133_view_before` — the error for a layout in a view file tells the view in the line before the line that is not a view, or none if that is the first line of the layout.

### C134 A block at any depth of the code is edited — proved

Let a container whose blocks have different numbers be read without an error, and take one of its blocks. Either the block is not in the code: then it is not the first one, and the same code is read without it and with any other block of its number. Or it is in the code at some place, in the row, in a substack or in an argument, at any depth: it is read there as it is read alone with the other blocks, and the same code with a change in this place only is read when its colour and operation are changed, when one of its substacks is taken out, when the code of another container with other numbers is put into a substack, and when it is replaced by another block with the same number and next pointer that has blocks of its own.

*Proof.* By induction over the description of the code that a container stands for (C43): the tree of the block is taken out of the tree around it, and any tree with the same first number and other numbers that are not used fits in.

* `Swrs.Api.c134_edit` — a block of a container that is read, whatever its place is. Either it is not in the code: then the container is read in the same way without it, and with any other block of its number. Or it is in the code, at some place: it is read there as it is read alone, and when its colour and operation are changed, a substack is taken out of it or put into it, or it is replaced by another block with the same number and next pointer, the same code is read with this change in this place.

### C135 The code of a project is changed container by container — proved

When other block containers are put in the place of the containers of a project that is converted, and code is read from each of them that is related to the code read before, then the project is converted too: it is the same project, and the code of each event and each more block is related to the code it had, by the relation of the container of that name in the logic of that screen. In particular, when one container is replaced, only the event or more block that has the code of that container has other code, namely that of the new container; and when one block of a container gets another colour and operation, the project is the same except that this block, at whatever depth of the code of that event or more block it is, has the new colour and operation; if it is not in the code, nothing changes.

*Proof.* The containers are taken out one after the other, by more blocks and then by events; the relation holds for the containers that are left after each step. With C134 for a single block.

* `Swrs.Api.c135_screen` — a screen is read, and other containers are put in the place of its containers, from which related code is read. The same screen is read, with related code in each event and more block.
* `Swrs.Api.c135_project` — a project is converted, and other containers are put in the place of its containers, from which related code is read. The same project is made, with related code in each event and more block of each screen.
* `Swrs.Api.c135_one` — one container of one screen is replaced by another one that is read as well. The project is converted to the same project, in which only the event or more block that has the code of that container, in the screen of that name, has other code, namely the code of the new container.
* `Swrs.Api.c135_label` — a block of a container gets another colour and another operation. The project is converted to the same project, except for the code of the event or more block of that container: there, if the block is in the code, it has the new colour and operation in its place, whatever the depth.

### C136 Rows of blocks at any depth of the code are cut, joined and filled — proved

Let a container whose blocks have different numbers be read without an error, and take one of its blocks. Either its pointer to the next block does not matter: with any other pointer the same code is read. Or the block is in a row, at the top or in a substack at any depth: without the pointer the row ends with the block; when the block points to the first block of other code with other numbers that is put into the container, this code follows it in the place of the rest of the row; when the last block of this code points where the block did before, the rest of the row follows this code; and when the block points to the block after the next one, the next one is left out of the row. Everything around the row stays the same in all of these cases.

*Proof.* By induction over the description of the code that a container stands for (C43): the tree of the row that begins with the block is taken out of the tree around it, and any tree of a row with the same first number and other numbers that are not used fits in.

* `Swrs.Api.c136_row` — a block of a container that is read. Either its pointer to the next block does not matter: it is not in the code, or it is an argument. Or it is in a row, at any depth: without its pointer the row ends with it; when it points to other code that is put into the container, this code follows it in the place of the rest of the row, and the rest of the row follows this code if the last block of it points where the block did; and when it points to the block after the next one, the next one is left out.

### C137 Code is edited in the text of the logic file — proved

Let a raw project be opened and converted, and in its logic file let lines of one block container's section, each of which is read as a block, be replaced by other lines that are read as blocks. If code is read from that container with the new blocks, the project is still opened and converted, and only the code of that container, in the screen of that logic, is other code. In particular, for a container whose blocks have different numbers: when the line of one block is changed to one with another colour and operation, this block has them at whatever depth it is, and nothing else changes; when the line points to the first block of other code with other numbers, whose lines are put at the end of the section with the last block pointing where the line did before, that code is put behind the block in its row; when the line points to the block after the next one, the next one is left out of the row. When the lines of blocks after the first one, with different numbers, are put in another order, or the new lines only give the blocks of the container other numbers or are blocks with new numbers more, the same project is opened. If the block is not in the code, or the container has no screen, nothing changes.

*Proof.* The sections of a logic file are its paragraphs (C69); replacing lines in one of them replaces blocks in one container, unless a later section has the same name. With C135 for the project and C134, C136 for one container.

* `Swrs.Api.c137_text` — in the section of one container in the text of the logic file, lines that say blocks are replaced by other lines that say blocks. If code is read from the container with the new blocks, the project is opened as before, and only the code of that container, in the screen of that name, is changed from the one to the other.
* `Swrs.Api.c137_label` — the line of one block in the text of the logic file is changed, so that the block has another colour and operation. The project is opened as before, except that this block, whatever its depth in the code of its event or more block is, has the new colour and operation.
* `Swrs.Api.c137_paste` — code is put behind a block in the text of the logic file: the line of the block points to the first block of the code, the lines of the code come at the end of the section, and the last block of the code points where the block did. The project is opened as before, except that the code follows this block in its row, whatever the depth of the row is, if the block is in a row.
* `Swrs.Api.c137_skip` — the line of a block in the text of the logic file is changed, so that it points to the block after the next one. The project is opened as before, except that the next block is left out of the row.
* `Swrs.Api.c137_same` — if the container with the new blocks only has other numbers, another order of the blocks after the first one or blocks with new numbers more, the same project is opened.
* `Swrs.Api.c137_order` — the lines of blocks that come after the first one in their container, with different numbers, may be put in another order: the same project is opened.

### C138 Views are edited in the text of the view file — proved

Let a raw project be opened and converted, and in one layout of its view file let lines that are read as views be replaced by other lines that are read as views. If the layout with the new views is a tree, the project is still opened and converted, and only the views of the screen or custom view of that name are other ones, namely that tree; if it is not, the project is not converted, or it does not show that layout and is the same. In particular: when the line of one view is changed, but neither its id nor its parent, the view, at whatever depth it is, is the new one, with the same views in it and around it; when it names another parent, which is the root or comes before it (the ids being different), it is shown there with all that is in it; when the line of a view is taken out that is the parent of no other, the view is missing; and when lines are put in another order, with every view after its parent and the views of each parent in the same order, the same project is opened. A view of a layout that is replaced by one with the same id and parent never changes the error of a layout that is refused.

*Proof.* The sections of a view file (C115, C122) and the trees of a layout: two lists of trees that differ in one view are built up side by side, as each further view is put at the same place in both. With C123 for the project and C124, C125 and C130 for one layout.

* `Swrs.Api.c138_edit` — one view of a layout is replaced by another one with the same id and parent. The same trees are read, with the new view in the place of the old one, and an error is the same.
* `Swrs.Api.c138_text` — in one layout in the text of the view file, lines that are read as views are replaced by other lines that are read as views. If the layout with the new views is a tree, the project is opened as before, and only the views of that screen or custom view are other ones.
* `Swrs.Api.c138_refused` — if the layout with the new views is no tree, the project is not converted, or it does not have that layout and is the same.
* `Swrs.Api.c138_changed` — the line of one view in the text of the view file is changed, but not the id and the parent of the view. The project is opened as before, except that the view, at whatever depth it is, is the new one, with the same views in it.
* `Swrs.Api.c138_move` — the line of one view in the text of the view file is changed, so that it names another parent, which is the root or a view before it. The project is opened as before, except that the view is shown in the new parent.
* `Swrs.Api.c138_move_refused` — the line of one view in the text of the view file is changed, so that it names a parent that is not before it. The project is not converted, or it does not have that layout and is the same.
* `Swrs.Api.c138_leaf` — the line of one view in which no view is shown is taken out of the text of the view file. The project is opened as before, without this view.
* `Swrs.Api.c138_order` — the lines of views in the text of the view file are put in another order. If the ids of the layout differ, and in the new order each view still comes after its parent and the views of each parent are in the same order, the same project is opened.

### C139 Events, components and variables are edited in the text of the logic file — proved

Let a raw project be opened and converted, and in its logic file let lines in the section of the variables, the list variables, the components or the events of a screen, each of which is read, be replaced by other lines that are read. For variables and list variables the project is still opened and converted, and only that map of that screen changes: it is collected of the old entries, with the new ones in the place of the replaced ones. For components the same holds if the new components have known types. For events it holds if the new events have known types, no two events of the screen have the same container before or after, no new event has the container of a more block, and the containers of the new events are read (or missing): then in that screen the new events are in the place of the replaced ones, each with the code of its own container (no code if there is none), and all other events keep theirs. When the line of one more block, in a section where all names differ, is replaced by one with the same name and another spec that is read, only the spec of that more block changes. If the screen of that name is not used, or a later section replaces this one, nothing changes.

*Proof.* As in C137 one paragraph of the file is changed, so that one pool of one screen of the logic changes (C69, C122). A relation between the screens that are made of two logics is carried through the conversion of the activities; each kind of pool is one step of the conversion of a screen, and for events with different containers the order in which the containers are taken does not matter (C124).

* `Swrs.Api.c139_variables` — in the section of the variables of a screen in the text of the logic file, readable lines are replaced by other readable lines. The project is opened as before, except that the variables of that screen are collected of the entries with the new ones in the place of the old ones.
* `Swrs.Api.c139_lists` — in the section of the list variables of a screen in the text of the logic file, readable lines are replaced by other readable lines. The project is opened as before, except that the list variables of that screen are collected of the entries with the new ones in the place of the old ones.
* `Swrs.Api.c139_components` — in the section of the components of a screen in the text of the logic file, readable lines are replaced by other readable lines for components of known types. The project is opened as before, except that the components of that screen are collected of the entries with the new ones in the place of the old ones.
* `Swrs.Api.c139_events` — in the section of the events of a screen in the text of the logic file, readable lines are replaced by other readable lines for events of known types. No two events of the screen have the same container, before and after, and no new event has the container of a more block. If there is code in the containers of the new events, or no container, the project is opened as before, except that in that screen the new events, each with the code of its container, are in the place of the old ones.
* `Swrs.Api.c139_moreBlock` — the line of a more block in the text of the logic file is replaced by one for a more block of the same name with another spec that is read. No two lines of the section have the same name. The project is opened as before, except that this more block, in that screen, has the new spec.

### C140 An argument of a block is edited, at any depth of the code — proved

Let a container whose blocks have different numbers be read without an error, and take one of its blocks and one of its argument texts. If the block is in the code, at any depth, one of two things holds. Either its spec has not so many arguments: then the same code is read with any other text in this place. Or the text belongs to one argument: with another text that is a value of its kind (any text without @ in front for strings, a number, true or false, any text at all for menus) the same code is read with this value in this place only; with a reference to the first block of another container with other numbers that is put behind, the same code is read with this block in this place (the blocks true and false are values for boolean arguments); and with any other text that refers to no block of the container, the container is not read. If the block is not in the code, the same code is read with any other block of its number.

*Proof.* The tree that is read (C44) is split at the block (C134). The spec is read word by word with the texts (C57), so that the text at one place belongs to one item, and the trees of the other items stay. What is read is determined by the table of blocks, so that a block that is met is also met when it is replaced: a text that can not be read is then refused.

* `Swrs.Api.c140_argument` — an argument text `p` of a block of a container that is read, whatever the place of the block is. Either the block is not in the code, and any other block of its number can be in its place. Or it is in the code at some place, where it is read as it is read alone. Then either there are fewer arguments than texts up to this one: the same code is read with any other text in its place. Or it is the text of an argument: with another text that stands for a value, the same code is read with this value in this place; with a reference to the first block of another container with other numbers, the same code is read with what is read of this block in this place; and with any other text that is no reference to a block of the container, nothing is read.

### C141 Settings are edited in the texts of the project file, the library file and the lists — proved

Let a project be opened and converted. With another text of the project file it is still opened and converted if the text can be read, and has the metadata and the colours of the new text and nothing else changes; if the text can not be read, it is not opened. With another text of the library file that can be read it is still opened, and is converted exactly if each of the libraries firebase, admob and google map is marked with Y or N: then it has the libraries that are marked with Y, and nothing else changes. If the line of an activity in the file list is replaced by another one with the same name, the project is still opened and converted, and the screen of this activity has the settings of the new line (full screen, toolbar, drawer, fab, orientation, theme, keyboard), and nothing else changes; for the line of a custom view, nothing changes at all. If the line of an image, sound or font in the resource list is replaced by another one for the same file, the project is still opened and converted, and this resource has the new name at the same place, and nothing else changes.

*Proof.* The list without the line is read (C122), and from it both lists are read, so that they differ in one entry. The conversion takes from an entry of the file list only the name and the settings, and from an entry of the resource list only the name and the file name; the other parts of the conversion are the same.

* `Swrs.Api.c141_project` — another project file. If it can be read, the project is still opened and converted, and has its metadata and its colours, and nothing else changes; if it can not be read, the project is not opened.
* `Swrs.Api.c141_library` — another library file that can be read. The project is still opened; it is converted exactly if each library but the compatibility library is marked with `Y` or `N`, and then only the libraries change, into those that are marked with `Y`.
* `Swrs.Api.c141_activity` — the line of an activity in the file list is replaced by another one with the same name. The project is still opened and converted, and only the settings of the screen of this activity change: they are those of the new line.
* `Swrs.Api.c141_customView` — the line of a custom view in the file list is replaced by another one with the same name. The project is still opened and converted, and is the same.
* `Swrs.Api.c141_image` — the line of an image in the resource list is replaced by another one for the same file. The project is still opened and converted, and only the name of this image changes.
* `Swrs.Api.c141_sound` — so with the line of a sound.
* `Swrs.Api.c141_font` — so with the line of a font.

### C142 An argument of a block is edited in the text of the logic file — proved

Let a project be opened and converted, and take the line of a block in a section of code of the text of its logic file, whose container has blocks with different numbers. If one argument text of the line is replaced by another text that is a value for the argument of this number in the spec (any text for menus; otherwise a text without @ in front, that for numbers is read as a number and for booleans is true or false), or if the spec has no such argument, the project is still opened and converted, and only this argument of this block, at whatever depth of the code it is, has the new value. If the text is replaced by a reference to the first one of blocks with other numbers whose lines are put at the end of the section, and the argument is no menu, the project is still opened and converted, and only this argument of this block has this block in its place.

*Proof.* C140 for the container and C137 for the text. The word of the spec that belongs to the argument is found by reading the spec word by word: an argument is read from the word of its number among those that begin with %.

* `Swrs.Api.c142_value` — the line of one block in the text of the logic file is changed, so that one of its argument texts is another one, that is a value for the argument of this number of the spec, if there is such an argument. The project is opened and converted as before, except that this argument of this block, at any depth of the code of its event or more block, has this value.
* `Swrs.Api.c142_fill` — the line of one block in the text of the logic file is changed, so that one of its argument texts refers to the first one of other blocks, whose lines are put at the end of the section. If the argument of this number of the spec is no menu, the project is opened and converted as before, except that this block is in the place of this argument, at any depth of the code of its event or more block.

### C143 An edit of a project changes only its own line of the texts — proved

Let a project of the API model be saved, let one thing in it be edited, and let it be saved again. This always succeeds, all texts but one are the same, and this one is the same but for the line of the thing, which is replaced by its new line: the settings of a screen in the list of files; the firebase, appcompat, admob or google map settings in the list of libraries; the id of an image, sound or font in the list of resources; a view at any depth of the layout of a screen, whose id, type and children stay, in the text of the views; a variable, a list variable or a component of a screen, and a block of the code of an event or a moreblock, in the text of the logic. The names of the classes of the screens are different (and for a view the names of the layouts, for code those of the containers), and the lines of the variables have no white space at their ends.

*Proof.* The relation `c143_Differ` says that two texts are the same but for one piece. It is carried through every step of the writers (joining, maps of pools, trimming: a piece that has no white space at its ends is never touched by a trim), and the maps of the screens are given as lists by their distinct names.

* `Swrs.Api.c143_variable` — an edit of a variable of a screen.
* `Swrs.Api.c143_list_variable` — an edit of a list variable of a screen.
* `Swrs.Api.c143_component` — an edit of a component of a screen: its kind, its parameter or its id.
* `Swrs.Api.c143_options` — an edit of the settings of a screen.
* `Swrs.Api.c143_library` — an edit of one of the libraries.
* `Swrs.Api.c143_image` — an image that gets a new id.
* `Swrs.Api.c143_sound` — a sound that gets a new id.
* `Swrs.Api.c143_font` — a font that gets a new id.
* `Swrs.Api.c143_view` — an edit of a view of a screen, at any depth, that keeps its id, its type and its children.
* `Swrs.Api.c143_event_code` — an edit of the code of an event that changes one of the blocks that are written.
* `Swrs.Api.c143_moreblock_code` — an edit of the code of a moreblock that changes one of the blocks that are written.

### C144 An edit of a block anywhere in the code changes only its own line of the text — proved

Let a project of the API model be saved, let one block of the code of an event or a moreblock be edited, at any depth of the substacks and arguments, and let it be saved again. The edit may change the operation, the colour, the type, the texts of the spec, and add, drop or change arguments that are texts, numbers or empty; it keeps the substacks and the blocks in the arguments. Saving always succeeds, all texts but the logic are the same, and the logic is the same but for the line of this block: its number, the number of the next block and those of the substacks stay, and the parameters and the spec are those of the new block. A boolean literal is written as a block and changes in the same way. The names of the classes of the screens and the names of the containers are different.

*Proof.* Induction over the place of the block: the counter after an item, a substack and a block is the same before and after the edit, so are the references to them, and the blocks that are written differ in one place (`c144_container`). C143 carries this to the text.

* `Swrs.Api.c144_container` — what is written of code that is edited in one block, at any depth: the same blocks, with the same numbers, except for this one.
* `Swrs.Api.c144_event` — an edit of a block of an event, at any depth, changes only the line of this block.
* `Swrs.Api.c144_moreblock` — an edit of a block of a moreblock, at any depth, changes only the line of this block.

### C145 Blocks that are added at the end of code renumber nothing — proved

Let a project of the API model be saved, let blocks be added at the end of the code of an event or a moreblock that is not empty, such that the new code can be written, and let it be saved again. Saving succeeds, all texts but the logic are the same, and the logic is the same but for one place: the line of the block that was the last one has the number of the first new block as its next one instead of -1, the lines of the blocks in it are the same, and after them come the lines of the new blocks. All old blocks keep their numbers and references, the new ones get the numbers after them. The names of the classes of the screens and the names of the containers are different.

*Proof.* Induction over the old code gives the blocks that are written (`c145_container`): the flag for the last block only changes the number of the next one. The joined lines have no white space at their ends, so that the trims of the writers do not touch them.

* `Swrs.Api.c145_container` — what is written of code with more blocks at its end: the same blocks with the same numbers, then the new ones with the numbers after them; the block before the new ones gets the number of the first of them as the next one.
* `Swrs.Api.c145_event` — blocks at the end of the code of an event.
* `Swrs.Api.c145_moreblock` — blocks at the end of the code of a moreblock.

### C146 Variables and components that are added, removed or reordered replace only their own lines — proved

Let a project of the API model be saved, let some of the variables, list variables or components of a screen that stand one after the other be replaced by others, and let it be saved again. There is at least one of them before and after. Saving succeeds, all texts but the logic are the same, and the logic is the same but for the lines of the things that are replaced, which become the lines of the new ones, in their order. So a variable that is added after another adds one line, and one that is removed beside another removes one. The names of the classes of the screens are different, and the lines of the variables have no white space at their ends.

*Proof.* The joined lines have no white space at their ends, so that no trim of the writers touches them; the relation of C143 carries the piece to the text.

* `Swrs.Api.c146_variables` — some of the variables of a screen, one after the other, are replaced by others: only their lines are replaced.
* `Swrs.Api.c146_list_variables` — some of the list variables of a screen are replaced by others.
* `Swrs.Api.c146_components` — some of the components of a screen are replaced by others.

### C147 An edit of the metadata or the colours changes only its own member of the project text — proved

Let a project of the API model be saved, let one of the values of its metadata (the id, the name, the name of the workspace, the name of the package, the code or the name of the version, the version of the editor) or one of its colours be edited, and let it be saved again. This always succeeds, all texts but that of the project are the same, and this one is the same but for the member of the value, which keeps its key and gets the new value. The same holds of the time of creation when the new time is a date; when it is none, the project cannot be saved.

*Proof.* C62 gives the text of the project as an object with members; one of them is another, and the relation of C143 is carried through the commas.

* `Swrs.Api.c147_metadata` — an edit of one of the texts and numbers of the metadata.
* `Swrs.Api.c147_time` — an edit of the time of creation: the project can be saved with a time that is a date, and only with one.
* `Swrs.Api.c147_colors` — an edit of one of the colours.

### C148 Resources that are added, removed or reordered replace only their own lines — proved

Let a project of the API model be saved, let some of the images, sounds or fonts that stand one after the other be replaced by others whose files have names, and let it be saved again. Saving succeeds, all texts but the list of resources are the same, and this one is the same but for the lines of the resources that are replaced, which become those of the new ones, in their order: the name of the file, the id and the type 1. There may be no image or sound before or after, so that adding one adds one line and removing one removes it; of the fonts, whose section has no end of line at its end, there is at least one before and after.

*Proof.* `resource_conv!` writes one item for each resource, whatever the files are (`c148_back`), so that the items of the parts stand one after the other; C63 gives the text and the relation of C143 carries the piece to it.

* `Swrs.Api.c148_images` — some of the images, one after the other, are replaced by others; there may be none before or after.
* `Swrs.Api.c148_sounds` — some of the sounds are replaced by others; there may be none before or after.
* `Swrs.Api.c148_fonts` — some of the fonts are replaced by others, at least one before and after.

### C149 A view that is added to a layout or removed from it adds or removes one line — proved

Let a project of the API model be saved, let a view without children be added to the layout of a screen that is not empty, at any place and any depth, or let one that is not the only one be removed, and let it be saved again. Saving succeeds, all texts but that of the views are the same, and this one has exactly one line more or less: the line of the view, with the id and the type of its parent. The names of the layouts and of the classes of the screens are different.

*Proof.* Induction over the place: `flatten_views` writes the views of a list, then what is below them, so that the lists that are written differ in one entry. With the line beside it, it is a piece that no trim touches.

* `Swrs.Api.c149_add` — a view without children that is added to the layout of a screen, at any depth; the layout is not empty.
* `Swrs.Api.c149_remove` — a view without children that is removed from the layout of a screen, at any depth; it is not the only one.

### C150 Edits of custom views and of floating buttons change only their own lines — proved

Let a project of the API model be saved, let one view of the layout of a custom view, at any depth, be edited (it keeps its id, its type and its children), or one without children be added to it or removed from it, or let the floating button of a screen be edited, and let the project be saved again. Saving succeeds, all texts but that of the views are the same, and this one differs only in the line of the view, or has exactly this line more or less. The names of the layouts and of the classes of the screens are different.

*Proof.* The loop over the screens does not read the custom views, so all but the layouts is the same; the list of the layouts differs in one entry, and with C143 and C149 this entry differs in one line. A floating button is one entry of its own list.

* `Swrs.Api.c150_edit` — an edit of a view of a custom view, at any depth, that keeps its id, its type and its children.
* `Swrs.Api.c150_add` — a view without children that is added to a custom view that is not empty, at any depth.
* `Swrs.Api.c150_remove` — a view without children that is removed from a custom view and is not its only one.
* `Swrs.Api.c150_fab` — an edit of the floating button of a screen.

### C151 Floating buttons and custom views that are added or removed change only their own runs of lines — proved

Let a project of the API model be saved, let the floating button of a screen be added, removed or replaced, or let a run of custom views be replaced by another one, and let the project be saved again. Saving succeeds. In the first case all texts but that of the views are the same, and this one has the header and the line of the new button in place of those of the old one. In the second case all texts but those of the views and of the files are the same: the text of the views has the headers and lines of the new custom views in place of those of the old ones, and in the text of the files only the section of the custom views is another one. Line ends at the end of the text of the views do not count. The names of the layouts and of the classes of the screens are different.

*Proof.* The lists of the layouts and of the buttons that are saved are those of the project in their order, so that they differ in one run; the texts are the concatenation of the lines of their entries, trimmed at the end.

* `Swrs.Api.c151_button_change` — the floating button of a screen is added, removed or replaced.
* `Swrs.Api.c151_custom_views` — custom views are added, removed or replaced.

### C152 Screens that are added or removed change only their own runs of lines — proved

Let a project of the API model be saved, let a run of its screens be replaced by another one whose code can be written (so screens are added, removed or replaced at any place), and let the project be saved again. Saving succeeds, and the texts of the project, the libraries and the resources are the same. The text of the views has the lines of the layouts and of the floating buttons of the new screens in place of those of the old ones, the text of the files has their lines in place of the old ones, and the text of the logic is that of the same list of screens with the new ones in place of the old ones: in each of its six runs of sections (variables, lists, components, events, moreblocks, blocks) the sections of the new screens stand in place of those of the old ones, and all around them is the same. Line ends at the end of the text of the views do not count. The names of the layouts and of the classes are different, before and after.

*Proof.* The loop over the screens succeeds because each of them is converted on its own; with different names the maps are the lists of the screens in their order, and the texts are concatenations over these lists.

* `Swrs.Api.c152_logic_text` — the text of the logic has six runs, one for each kind of sections. In each of them the sections of a run of screens stand side by side, and all that is around them depends on the other screens only.
* `Swrs.Api.c152_screens` — a run of screens is replaced by another one whose code can be written.

### C153 Events that are added or removed change only their line and their section of code — proved

Let a project of the API model be saved, let a run of the events of a screen be replaced by another one whose code can be written (so events are added, removed or replaced at any place), and let the project be saved again. Saving succeeds and all texts but that of the logic are the same. This one differs in two places of the screen: the section of its events is that of the new list, in which the event onCreate has no line, and of the sections of its code only those of the replaced events are replaced by those of the new ones. The classes of the screens have different names, and so have the containers of the code of the screen, before and after, and its moreblocks.

*Proof.* With different names the map of the containers is the list of the codes in their order, each converted on its own; C152 tells where the sections of a screen stand in the text.

* `Swrs.Api.c153_event_run` — a run of events is replaced by another one whose code can be written.

### C154 Moreblocks that are added or removed change only their line and their section of code — proved

Let a project of the API model be saved, let a run of the moreblocks of a screen be replaced by another one whose code can be written (so moreblocks are added, removed or replaced at any place), and let the project be saved again. Saving succeeds and all texts but that of the logic are the same. This one differs in two places of the screen: the section of its moreblocks is that of the new list, with a line `name:spec` for each, and of the sections of its code only those of the replaced moreblocks are replaced by those of the new ones. The classes of the screens have different names, and so have the containers of the code of the screen and its moreblocks, before and after.

*Proof.* As C153: with different names the map of the containers is the list of the codes in their order, each converted on its own; C152 tells where the sections of a screen stand in the text.

* `Swrs.Api.c154_moreblock_run` — a run of moreblocks is replaced by another one whose code can be written.

## 5. Axioms

* Classical.choice, Quot.sound, propext: `Swrs.c01_decrypt_encrypt`, `Swrs.c03_shorter`, `Swrs.c04_injective`, `Swrs.c05_encrypt_file`, `Swrs.c05_encrypt_sw_file`, `Swrs.c07_loads`, `Swrs.c07_round_trip`, `Swrs.c07_fails`, `Swrs.Color.c08_channels`, `Swrs.Color.c09_accepts`, `Swrs.Color.c09_six_digits`, `Swrs.Color.c09_print_parse`, `Swrs.Color.c10_round_trip`, `Swrs.Color.c10_clamp_partial`, `Swrs.Color.c10_unsigned_not_accepted`, `Swrs.Color.c10_u64_wraps`, `Swrs.c10_any_integer_false`, `Swrs.c10_beyond`, `Swrs.Api.c11_alpha`, `Swrs.c12_records`, `Swrs.c13_records_by_key`, `Swrs.c13_resource_item`, `Swrs.c14_calendar`, `Swrs.c14_calendar_inverse`, `Swrs.c14_date_round_trip_partial`, `Swrs.c15_project_round_trip_false`, `Swrs.c15_project_round_trip_partial`, `Swrs.c15_reads_sketchware`, `Swrs.c15_reconstruct_panics`, `Swrs.c19_library_round_trip`, `Swrs.c20_library_parse`, `Swrs.c20_any_order`, `Swrs.c21_view_round_trip_partial`, `Swrs.c21_view_reads_back`, `Swrs.c21_view_round_trip_false`, `Swrs.c22_view_file_round_trip_partial`, `Swrs.c22_view_file_round_trip_false`, `Swrs.c22_view_file_loss`, `Swrs.c22_reads_separated`, `Swrs.c23_variable_accepts`, `Swrs.c23_variable_error`, `Swrs.c23_list_variable_error`, `Swrs.c24_variable_pool_partial`, `Swrs.c24_variable_pool_false`, `Swrs.c25_moreblock_pool_partial`, `Swrs.c25_moreblock_pool_false`, `Swrs.c26_pools_round_trip`, `Swrs.c28_logic_round_trip_partial`, `Swrs.c28_empty_screen_false`, `Swrs.c28_gap_false`, `Swrs.c29_no_panic_partial`, `Swrs.c31_last_declaration`, `Swrs.Api.c33_accepts`, `Swrs.Api.c33_error`, `Swrs.Api.c33_tree`, `Swrs.Api.c33_children`, `Swrs.Api.c34_read_back`, `Swrs.Api.c34_round_trip`, `Swrs.Api.c34_again`, `Swrs.Api.c35_order`, `Swrs.Api.c37_file_round_trip`, `Swrs.Api.c38_file_round_trip_partial`, `Swrs.Api.c40_put`, `Swrs.Api.c40_history`, `Swrs.Api.c41_taken_partial`, `Swrs.Api.c43_accepts`, `Swrs.Api.c43_once`, `Swrs.Api.c43_size`, `Swrs.Api.c44_distinct`, `Swrs.Api.c44_converts`, `Swrs.Api.c45_chain_partial`, `Swrs.Api.c45_chain_iff`, `Swrs.Api.c47_round_trip_partial`, `Swrs.Api.c47_round_trip_false`, `Swrs.Api.c48_text_then_parse_partial`, `Swrs.Api.c48_text_then_parse_false`, `Swrs.Api.c49_apply`, `Swrs.Api.c49_apply_fails`, `Swrs.Api.c55_names`, `Swrs.Api.c55_reads`, `Swrs.Api.c56_attached_partial`, `Swrs.c57_sorted`, `Swrs.c57_rejects`, `Swrs.c57_round_trip`, `Swrs.c58_panics`, `Swrs.c58_project_round_trip_partial`, `Swrs.c58_encrypted`, `Swrs.c58_project_round_trip_false`, `Swrs.Api.c59_round_trip_partial`, `Swrs.c60_view_no_panic`, `Swrs.c60_reports`, `Swrs.c60_error_location`, `Swrs.Api.c61_round_trip`, `Swrs.Api.c61_automatic`, `Swrs.c62_resource`, `Swrs.c62_file`, `Swrs.c62_library`, `Swrs.c62_component`, `Swrs.c62_event`, `Swrs.c62_block`, `Swrs.c62_project`, `Swrs.c62_view`, `Swrs.c63_resource`, `Swrs.c63_file`, `Swrs.c63_library`, `Swrs.c63_layout`, `Swrs.c63_view`, `Swrs.c63_variable`, `Swrs.c63_list_variable`, `Swrs.c63_more_block`, `Swrs.c63_variables`, `Swrs.c63_list_variables`, `Swrs.c63_more_blocks`, `Swrs.c63_events`, `Swrs.c63_components`, `Swrs.c63_logic`, `Swrs.c64_encrypt`, `Swrs.c64_decrypt`, `Swrs.c66_view`, `Swrs.c67_file`, `Swrs.c67_resource`, `Swrs.c67_file_error`, `Swrs.c67_library`, `Swrs.c68_library_line_partial`, `Swrs.Logic.c69_sections_only`, `Swrs.Logic.c69_ok`, `Swrs.Logic.c69_screen`, `Swrs.Logic.c69_error`, `Swrs.Logic.c69_panic`, `Swrs.Logic.c70_logic_line_partial`, `Swrs.Api.c71_same_partial`, `Swrs.Api.c71_exact_partial`, `Swrs.Api.c73_accepts`, `Swrs.Api.c74_apply`, `Swrs.Api.c74_with_args`, `Swrs.Api.c77_logic_panics`, `Swrs.Api.c77_panics`, `Swrs.Api.c78_screen_outcome`, `Swrs.Api.c78_screen_value`, `Swrs.Api.c79_project_outcome`, `Swrs.Api.c79_project_value`, `Swrs.c80_written_empty`, `Swrs.c80_logic_read`, `Swrs.c80_components`, `Swrs.c81_accepted`, `Swrs.c81_nearest`, `Swrs.c81_f64_round_trip`, `Swrs.c81_f32_round_trip`, `Swrs.c81_view`, `Swrs.c81_color_whole`, `Swrs.c82_project_read`, `Swrs.c82_project_rejected`, `Swrs.c82_project_panics`, `Swrs.c83_date_read`, `Swrs.c83_date_panics`, `Swrs.c83_date_errors`, `Swrs.c84_resource`, `Swrs.c84_file`, `Swrs.c84_library`, `Swrs.c84_component`, `Swrs.c84_event`, `Swrs.c84_block`, `Swrs.c84_view`, `Swrs.c84_color`, `Swrs.c85_full_name`, `Swrs.c85_full_name_panics`, `Swrs.c85_filed`, `Swrs.c86_raw`, `Swrs.c86_view`, `Swrs.c87_f64_text`, `Swrs.c87_f64_other`, `Swrs.c87_f32_text`, `Swrs.c87_f32_other`, `Swrs.c87_short`, `Swrs.c87_whole`, `Swrs.c87_accuracy`, `Swrs.c87_range`, `Swrs.c87_not_nearest`, `Swrs.c88_utf8`, `Swrs.c88_len`, `Swrs.c88_slice`, `Swrs.c88_split_pattern`, `Swrs.c88_space`, `Swrs.c88_trim`, `Swrs.c88_unsigned`, `Swrs.c88_signed`, `Swrs.c88_ids`, `Swrs.c88_written_int`, `Swrs.c89_reasons`, `Swrs.Api.c89_color`, `Swrs.c89_says_file`, `Swrs.c89_says_library`, `Swrs.c89_says_resource`, `Swrs.c89_says_layout`, `Swrs.c89_says_view`, `Swrs.c89_says_logic`, `Swrs.c89_says_pools`, `Swrs.c89_says_variable`, `Swrs.c89_says_lines`, `Swrs.Api.c89_says_block_content`, `Swrs.Api.c89_says_block`, `Swrs.Api.c89_says_screen_parts`, `Swrs.c90_project`, `Swrs.c90_view`, `Swrs.c90_logic`, `Swrs.c90_blocks_lost`, `Swrs.c90_logic_false`, `Swrs.c90_view_false`, `Swrs.c90_resave_partial`, `Swrs.c90_infinite_false`, `Swrs.Api.c91_screens`, `Swrs.Api.c91_event_code`, `Swrs.Api.c91_moreblock_code`, `Swrs.Api.c91_read`, `Swrs.Api.c92_saved_partial`, `Swrs.Api.c92_two_layouts`, `Swrs.Api.c92_code_lost`, `Swrs.Api.c92_round_trip`, `Swrs.Api.c92_saved_false`, `Swrs.c93_decrypt_success`, `Swrs.c93_decrypt_panic`, `Swrs.c93_encrypt`, `Swrs.c93_encrypt_keeps`, `Swrs.c93_round_trip`, `Swrs.c94_file`, `Swrs.c94_resource`, `Swrs.c94_library`, `Swrs.c94_project`, `Swrs.c94_view`, `Swrs.c94_logic`, `Swrs.c94_project_tells`, `Swrs.Examples.c94_logic_exact`, `Swrs.c95_run`, `Swrs.c95_no_resources`, `Swrs.c95_each_block`, `Swrs.c95_tells`, `Swrs.Api.c95_saved_partial`, `Swrs.Api.c95_saved_false`, `Swrs.c96_texts_false`, `Swrs.c97_tells`, `Swrs.Api.c98_twice_partial`, `Swrs.Api.c98_nan_text`, `Swrs.Api.c98_ids_false`, `Swrs.Api.c98_nan_false`, `Swrs.Api.c98_zero`, `Swrs.c99_view`, `Swrs.Api.c100_read_enough`, `Swrs.Api.c100_read_partial`, `Swrs.Api.c100_read_bounded_false`, `Swrs.Api.c100_write_partial`, `Swrs.Api.c100_write_bounded_false`, `Swrs.Api.c100_flatten`, `Swrs.Api.c100_find`, `Swrs.Api.c100_find_exact`, `Swrs.Api.c100_layout_exact`, `Swrs.Api.c100_layout`, `Swrs.Api.c100_layout_partial`, `Swrs.Api.c100_layout_bounded_false`, `Swrs.Api.c100_flatten_bounded_false`, `Swrs.c101_project`, `Swrs.c101_view`, `Swrs.c101_logic_saved`, `Swrs.c101_logic_partial`, `Swrs.c101_logic_settled`, `Swrs.c101_logic_false`, `Swrs.c101_project_partial`, `Swrs.c101_logic_ends`, `Swrs.c101_five_saves`, `Swrs.c101_project_settles`, `Swrs.Api.c102_event_added`, `Swrs.Api.c102_moreblock_added`, `Swrs.Api.c102_fab`, `Swrs.Api.c102_resources`, `Swrs.Api.c102_custom_view_added`, `Swrs.Api.c102_kept`, `Swrs.Api.c102_variables_partial`, `Swrs.Api.c102_variable_added`, `Swrs.Api.c102_list_variables_partial`, `Swrs.Api.c102_components`, `Swrs.Api.c102_event_code`, `Swrs.Api.c102_settings`, `Swrs.Api.c102_layout_last`, `Swrs.Api.c102_view_not_last`, `Swrs.Api.c102_view_false`, `Swrs.Api.c102_remove_false`, `Swrs.Api.c102_removed`, `Swrs.Api.c102_screen_added`, `Swrs.c103_logic`, `Swrs.c103_logic_false`, `Swrs.c103_panic_false`, `Swrs.c103_view`, `Swrs.c103_project`, `Swrs.c103_reopen_partial`, `Swrs.c103_reopen_false`, `Swrs.Api.c104_readme`, `Swrs.c105_file`, `Swrs.c105_library`, `Swrs.c105_resource`, `Swrs.c105_layout`, `Swrs.c105_view`, `Swrs.c105_variable`, `Swrs.c105_list_variable`, `Swrs.c105_lines`, `Swrs.c105_pools`, `Swrs.c105_logic`, `Swrs.c105_resource_files`, `Swrs.Api.c105_color`, `Swrs.Api.c105_block_type`, `Swrs.Api.c105_block_content`, `Swrs.Api.c105_block_content_debug`, `Swrs.Api.c105_block`, `Swrs.Api.c105_view_type`, `Swrs.Api.c105_tree`, `Swrs.Api.c105_unknown`, `Swrs.Api.c105_screen`, `Swrs.Api.c105_addition`, `Swrs.Api.c105_conversion`, `Swrs.c106_change`, `Swrs.c106_elsewhere`, `Swrs.c106_cut`, `Swrs.c108_accepted`, `Swrs.c108_order`, `Swrs.c108_project`, `Swrs.c108_stray`, `Swrs.Api.c109_opens`, `Swrs.Api.c109_only`, `Swrs.Api.c109_rounds`, `Swrs.Api.c109_files`, `Swrs.c110_logic`, `Swrs.c110_project`, `Swrs.Api.c110_api`, `Swrs.c111_text`, `Swrs.c111_by_key`, `Swrs.c111_read`, `Swrs.c112_library`, `Swrs.c112_view_record`, `Swrs.c112_view`, `Swrs.c112_project`, `Swrs.c112_full_width`, `Swrs.c112_project_false`, `Swrs.c112_records`, `Swrs.c112_logic_partial`, `Swrs.c112_whole_partial`, `Swrs.Api.c112_api_partial`, `Swrs.Api.c113_screen`, `Swrs.Api.c113_converted`, `Swrs.Api.c113_opened`, `Swrs.c114_project`, `Swrs.c114_refused`, `Swrs.c114_bom_rest`, `Swrs.Logic.c115_logic_last`, `Swrs.Logic.c115_logic`, `Swrs.View.c115_view`, `Swrs.Api.c115_screen`, `Swrs.Api.c115_conv`, `Swrs.Api.c115_opened`, `Swrs.c116_file`, `Swrs.c116_file_whole`, `Swrs.c116_resource`, `Swrs.c116_resource_whole`, `Swrs.c116_project`, `Swrs.c116_library`, `Swrs.c116_project_cut`, `Swrs.c116_library_written`, `Swrs.View.c116_view`, `Swrs.View.c116_view_read`, `Swrs.Logic.c116_logic`, `Swrs.Logic.c116_logic_read`, `Swrs.c116_view_false`, `Swrs.c117_logic`, `Swrs.View.c117_view`, `Swrs.View.c117_view_ok`, `Swrs.c117_project`, `Swrs.c117_opened`, `Swrs.c118_apart`, `Swrs.Logic.c119_logic`, `Swrs.c119_project`, `Swrs.Api.c120_view`, `Swrs.Api.c120_logic`, `Swrs.c121_project`, `Swrs.View.c121_ends`, `Swrs.View.c121_view`, `Swrs.Logic.c121_logic`, `Swrs.c122_file`, `Swrs.c122_resource`, `Swrs.c122_file_less`, `Swrs.c122_resource_less`, `Swrs.c122_library`, `Swrs.View.c122_view`, `Swrs.View.c122_view_less`, `Swrs.Logic.c122_logic`, `Swrs.Logic.c122_logic_less`, `Swrs.Api.c123_activity`, `Swrs.Api.c123_customView`, `Swrs.Api.c123_variable`, `Swrs.Api.c123_listVariable`, `Swrs.Api.c123_component`, `Swrs.Api.c123_event`, `Swrs.Api.c123_image`, `Swrs.Api.c123_sound`, `Swrs.Api.c123_font`, `Swrs.Api.c123_tree`, `Swrs.Api.c123_view`, `Swrs.Api.c123_view_refused`, `Swrs.Api.c124_views`, `Swrs.Api.c125_leaf`, `Swrs.Api.c125_parent`, `Swrs.Api.c126_code`, `Swrs.Api.c126_exists`, `Swrs.Api.c126_same`, `Swrs.Api.c129_row`, `Swrs.Api.c129_cut`, `Swrs.Api.c129_rest`, `Swrs.Api.c129_skip`, `Swrs.Api.c129_join`, `Swrs.Api.c130_move`, `Swrs.Api.c130_refused`, `Swrs.Api.c131_merge_resources`, `Swrs.Api.c131_opened`, `Swrs.Api.c132_paste`, `Swrs.Api.c132_replace`, `Swrs.Api.c132_fill`, `Swrs.Api.c132_empty`, `Swrs.Layout.c133_view_before`, `Swrs.Api.c134_edit`, `Swrs.Api.c135_label`, `Swrs.Api.c136_row`, `Swrs.Api.c137_text`, `Swrs.Api.c137_label`, `Swrs.Api.c137_paste`, `Swrs.Api.c137_skip`, `Swrs.Api.c137_same`, `Swrs.Api.c137_order`, `Swrs.Api.c138_text`, `Swrs.Api.c138_refused`, `Swrs.Api.c138_changed`, `Swrs.Api.c138_move`, `Swrs.Api.c138_move_refused`, `Swrs.Api.c138_leaf`, `Swrs.Api.c138_order`, `Swrs.Api.c139_variables`, `Swrs.Api.c139_lists`, `Swrs.Api.c139_components`, `Swrs.Api.c139_events`, `Swrs.Api.c139_moreBlock`, `Swrs.Api.c140_argument`, `Swrs.Api.c141_activity`, `Swrs.Api.c141_customView`, `Swrs.Api.c141_image`, `Swrs.Api.c141_sound`, `Swrs.Api.c141_font`, `Swrs.Api.c142_value`, `Swrs.Api.c142_fill`, `Swrs.Api.c143_variable`, `Swrs.Api.c143_list_variable`, `Swrs.Api.c143_component`, `Swrs.Api.c143_options`, `Swrs.Api.c143_library`, `Swrs.Api.c143_image`, `Swrs.Api.c143_sound`, `Swrs.Api.c143_font`, `Swrs.Api.c143_view`, `Swrs.Api.c143_event_code`, `Swrs.Api.c143_moreblock_code`, `Swrs.Api.c144_container`, `Swrs.Api.c144_event`, `Swrs.Api.c144_moreblock`, `Swrs.Api.c145_container`, `Swrs.Api.c145_event`, `Swrs.Api.c145_moreblock`, `Swrs.Api.c146_variables`, `Swrs.Api.c146_list_variables`, `Swrs.Api.c146_components`, `Swrs.Api.c147_metadata`, `Swrs.Api.c147_time`, `Swrs.Api.c147_colors`, `Swrs.Api.c148_images`, `Swrs.Api.c148_sounds`, `Swrs.Api.c148_fonts`, `Swrs.Api.c149_add`, `Swrs.Api.c149_remove`, `Swrs.Api.c150_edit`, `Swrs.Api.c150_add`, `Swrs.Api.c150_remove`, `Swrs.Api.c150_fab`, `Swrs.Api.c151_button_change`, `Swrs.Api.c151_custom_views`, `Swrs.Api.c152_logic_text`, `Swrs.Api.c152_screens`, `Swrs.Api.c153_event_run`, `Swrs.Api.c154_moreblock_run`
* Quot.sound, propext: `Swrs.c02_length`, `Swrs.c03_total`, `Swrs.c03_bad_length`, `Swrs.c05_unreadable`, `Swrs.c05_outcomes`, `Swrs.c05_files`, `Swrs.c06_crash_false`, `Swrs.c06_crash_partial`, `Swrs.c06_in_place_partial`, `Swrs.Color.c08_value`, `Swrs.Api.c11_category_of_color`, `Swrs.Api.c11_palette_only`, `Swrs.Api.c11_block_category`, `Swrs.c14_reads_padded`, `Swrs.c14_date_round_trip_false`, `Swrs.c16_activity_options`, `Swrs.c17_file_round_trip_false`, `Swrs.c17_file_round_trip_partial`, `Swrs.c18_resource_round_trip`, `Swrs.c20_library_no_panic`, `Swrs.c23_variable_round_trip`, `Swrs.c27_header_round_trip_partial`, `Swrs.c27_header_round_trip_false`, `Swrs.c27_header_error`, `Swrs.c29_no_panic_false`, `Swrs.c30_error_location`, `Swrs.c30_good_lines`, `Swrs.Api.c32_find`, `Swrs.Api.c32_found`, `Swrs.Api.c32_update`, `Swrs.Api.c36_written_partial`, `Swrs.Api.c36_type_id_false`, `Swrs.Api.c36_written_false`, `Swrs.Api.c37_refused`, `Swrs.Api.c38_refused`, `Swrs.Api.c39_clash_partial`, `Swrs.Api.c40_remove`, `Swrs.Api.c40_distinct`, `Swrs.Api.c41_taken_false`, `Swrs.Api.c42_canonical`, `Swrs.Api.c42_names`, `Swrs.Api.c42_shape`, `Swrs.Api.c42_injective_partial`, `Swrs.Api.c43_terminates`, `Swrs.Api.c44_ids`, `Swrs.Api.c45_chain_false`, `Swrs.Api.c46_substacks_partial`, `Swrs.Api.c46_arguments_partial`, `Swrs.Api.c46_substacks_false`, `Swrs.Api.c46_arguments_false`, `Swrs.Api.c48_parse_then_text_partial`, `Swrs.Api.c48_accepts`, `Swrs.Api.c49_take`, `Swrs.Api.c50_panics_partial`, `Swrs.Api.c50_args_panics_partial`, `Swrs.Api.c50_plain`, `Swrs.Api.c51_letters`, `Swrs.Api.c51_round_trip_partial`, `Swrs.Api.c51_text`, `Swrs.Api.c51_list_elements`, `Swrs.Api.c52_settings`, `Swrs.Api.c53_enabled`, `Swrs.Api.c53_error_partial`, `Swrs.Api.c53_refused`, `Swrs.Api.c53_order_false`, `Swrs.Api.c54_files_lost`, `Swrs.Api.c54_no_files_written`, `Swrs.Api.c54_names_partial`, `Swrs.Api.c54_names_iff`, `Swrs.Api.c54_reload_fails`, `Swrs.Api.c54_files_false`, `Swrs.Api.c54_reload_false`, `Swrs.Api.c55_found_partial`, `Swrs.Api.c55_lost`, `Swrs.Api.c55_found_false`, `Swrs.Api.c55_own_iff`, `Swrs.Api.c56_dropped`, `Swrs.Api.c56_dropped_false`, `Swrs.c58_parts`, `Swrs.c58_parse`, `Swrs.c58_first_error`, `Swrs.Api.c59_round_trip_false`, `Swrs.c64_length`, `Swrs.c65_reported_false`, `Swrs.c65_reported_partial`, `Swrs.c65_default`, `Swrs.c66_count`, `Swrs.Logic.c70_logic_line_false`, `Swrs.Api.c72_builder`, `Swrs.Api.c72_edit`, `Swrs.Api.c72_take_then_edit`, `Swrs.Api.c73_error`, `Swrs.Api.c73_values`, `Swrs.Api.c73_written_read`, `Swrs.Api.c74_alone`, `Swrs.Api.c75_constructors`, `Swrs.Api.c75_parameters`, `Swrs.Api.c76_error`, `Swrs.Api.c76_panic`, `Swrs.Api.c76_truthful`, `Swrs.Api.c76_panic_spec`, `Swrs.Api.c77_logic`, `Swrs.Api.c77_written`, `Swrs.Api.c77_resources`, `Swrs.Api.c77_new`, `Swrs.c80_read_empty`, `Swrs.c80_logic_written`, `Swrs.c80_view_written`, `Swrs.c80_blocks`, `Swrs.c86_palette`, `Swrs.c86_color`, `Swrs.c88_written`, `Swrs.c89_file`, `Swrs.c89_library`, `Swrs.c89_resource`, `Swrs.c89_view`, `Swrs.c89_layout`, `Swrs.c89_logic`, `Swrs.c89_variable_pools`, `Swrs.c89_variable`, `Swrs.c89_list_variable`, `Swrs.c89_type_value`, `Swrs.c89_resource_files`, `Swrs.c89_reason`, `Swrs.Api.c89_block_content`, `Swrs.Api.c89_block`, `Swrs.Api.c89_block_debug`, `Swrs.Api.c89_view_type`, `Swrs.Api.c89_parse_layout`, `Swrs.Api.c89_event`, `Swrs.Api.c89_component`, `Swrs.Api.c89_screen`, `Swrs.Api.c89_conversion`, `Swrs.Api.c89_id_taken`, `Swrs.Api.c89_messages_false`, `Swrs.Api.c89_container_partial`, `Swrs.Api.c89_screen_partial`, `Swrs.Api.c89_says_screen`, `Swrs.Api.c89_says_conversion`, `Swrs.c90_file_false`, `Swrs.Api.c91_places`, `Swrs.Api.c91_layout_edit`, `Swrs.Api.c91_logic_edit`, `Swrs.Api.c91_options_edit`, `Swrs.Api.c91_settings_edit`, `Swrs.Api.c91_resources_edit`, `Swrs.Api.c91_custom_views_edit`, `Swrs.c93_decrypt_usage`, `Swrs.c93_decrypt_failure`, `Swrs.c93_encrypt_usage`, `Swrs.c93_encrypt_missing`, `Swrs.c93_encrypt_exists`, `Swrs.c94_debug`, `Swrs.c94_library_tells`, `Swrs.c94_file_tells_partial`, `Swrs.c94_tells_false`, `Swrs.c94_view_tells_partial`, `Swrs.c94_logic_tells_partial`, `Swrs.Examples.c94_file_tells`, `Swrs.Examples.c94_resource_exact`, `Swrs.c95_event_type`, `Swrs.c96_logic`, `Swrs.c96_project`, `Swrs.c96_logic_ends`, `Swrs.c96_project_ends`, `Swrs.Api.c96_blocks`, `Swrs.Api.c96_screen`, `Swrs.Api.c96_blocks_ends`, `Swrs.Api.c96_conversion_ends`, `Swrs.Api.c96_conversion`, `Swrs.Api.c96_blocks_way`, `Swrs.c97_read_back`, `Swrs.c97_one_line`, `Swrs.c97_plain`, `Swrs.c97_lawful`, `Swrs.Api.c98_self`, `Swrs.Api.c98_symm`, `Swrs.Api.c98_trans`, `Swrs.Api.c98_exact`, `Swrs.Api.c98_parsed`, `Swrs.Api.c98_again`, `Swrs.Api.c98_resources`, `Swrs.c99_bytes`, `Swrs.c99_file`, `Swrs.c99_resource`, `Swrs.c99_library`, `Swrs.c99_logic`, `Swrs.c99_blocks`, `Swrs.c99_file_limit`, `Swrs.c99_blocks_limit`, `Swrs.Api.c100_read_same`, `Swrs.c101_file`, `Swrs.c103_file`, `Swrs.Api.c104_edits`, `Swrs.c107_common`, `Swrs.c107_append`, `Swrs.Api.c109_good`, `Swrs.c110_view`, `Swrs.Api.c110_code`, `Swrs.Api.c110_code_false`, `Swrs.c111_round_trip`, `Swrs.c112_resource`, `Swrs.c112_file`, `Swrs.c112_view_false`, `Swrs.c112_logic_empty`, `Swrs.c112_logic_false`, `Swrs.c113_file`, `Swrs.c113_resource`, `Swrs.c113_view`, `Swrs.c113_logic`, `Swrs.c114_file`, `Swrs.c114_view`, `Swrs.c114_logic`, `Swrs.c114_opened`, `Swrs.c114_bom_lists`, `Swrs.c114_same_false`, `Swrs.c115_logic_false`, `Swrs.Logic.c116_logic_false`, `Swrs.c117_file`, `Swrs.c117_file_rest`, `Swrs.c117_library`, `Swrs.c117_library_ok`, `Swrs.c117_space_false`, `Swrs.c117_one_blank_false`, `Swrs.c118_file_read`, `Swrs.c118_resource_read`, `Swrs.c118_file_order`, `Swrs.c118_resource_order`, `Swrs.c118_spread`, `Swrs.c118_spread_resource`, `Swrs.c119_file`, `Swrs.c119_resource`, `Swrs.c119_library`, `Swrs.View.c119_view`, `Swrs.Api.c120_project`, `Swrs.Api.c120_file`, `Swrs.Api.c120_library`, `Swrs.Api.c120_resource`, `Swrs.c121_file`, `Swrs.c121_resource`, `Swrs.c121_library`, `Swrs.Api.c124_blocks`, `Swrs.Api.c124_files`, `Swrs.Api.c124_resources`, `Swrs.Api.c124_screen`, `Swrs.Api.c124_file_lines`, `Swrs.Api.c124_resource_lines`, `Swrs.Api.c124_opened`, `Swrs.Api.c124_first_false`, `Swrs.Api.c124_number_false`, `Swrs.Api.c124_malformed_false`, `Swrs.Api.c124_files_false`, `Swrs.Api.c124_resources_false`, `Swrs.Api.c124_screen_false`, `Swrs.Api.c124_component_false`, `Swrs.Api.c124_header_false`, `Swrs.Api.c124_views_false`, `Swrs.Api.c125_block`, `Swrs.Api.c125_block_more`, `Swrs.Api.c125_activity`, `Swrs.Api.c125_customView`, `Swrs.Api.c125_image`, `Swrs.Api.c125_sound`, `Swrs.Api.c125_font`, `Swrs.Api.c125_event`, `Swrs.Api.c125_component`, `Swrs.Api.c125_block_false`, `Swrs.Api.c125_activity_false`, `Swrs.Api.c125_image_false`, `Swrs.Api.c125_event_false`, `Swrs.Api.c126_screen`, `Swrs.Api.c126_project`, `Swrs.Api.c126_code_false`, `Swrs.Api.c127_layout`, `Swrs.Api.c127_find`, `Swrs.Api.c127_flatten`, `Swrs.Api.c127_screen`, `Swrs.Api.c127_project`, `Swrs.Api.c127_layout_false`, `Swrs.Api.c127_root_false`, `Swrs.Api.c128_read`, `Swrs.Api.c128_written`, `Swrs.Api.c128_read_false`, `Swrs.Api.c128_written_false`, `Swrs.Api.c129_join_false`, `Swrs.Api.c130_move_false`, `Swrs.Api.c131_merge`, `Swrs.Api.c131_merge_false`, `Swrs.Api.c131_merge_resources_false`, `Swrs.Api.c132_fill_false`, `Swrs.Layout.c133_layout_reads`, `Swrs.Layout.c133_layout_error`, `Swrs.Layout.c133_layout_no_panic`, `Swrs.Layout.c133_layout_round_trip`, `Swrs.Api.c135_screen`, `Swrs.Api.c135_project`, `Swrs.Api.c135_one`, `Swrs.Api.c138_edit`, `Swrs.Api.c141_project`, `Swrs.Api.c141_library`
* none: `Swrs.Api.c37_api_round_trip`, `Swrs.Api.c38_api_round_trip`, `Swrs.Api.c40_get`, `Swrs.Api.c42_injective_false`, `Swrs.Api.c51_refused`, `Swrs.Api.c52_libraries`, `Swrs.Api.c59_fab_children`, `Swrs.c65_constants`, `Swrs.Api.c89_says_taken`, `Swrs.c105_crypto`, `Swrs.c105_header`, `Swrs.c105_project`
* propext: `Swrs.c25_moreblock_error`, `Swrs.Api.c35_fields`, `Swrs.Api.c35_entries`, `Swrs.Api.c36_type_id_partial`, `Swrs.Api.c38_file_round_trip_false`, `Swrs.Api.c39_containers_partial`, `Swrs.Api.c39_views`, `Swrs.Api.c39_containers_false`, `Swrs.Api.c40_getters`, `Swrs.Api.c41_unchanged`, `Swrs.Api.c42_underscore`, `Swrs.Api.c42_words`, `Swrs.Api.c48_parse_then_text_false`, `Swrs.Api.c50_panics_false`, `Swrs.Api.c51_round_trip_false`, `Swrs.c68_library_line_false`, `Swrs.Api.c71_menu_false`, `Swrs.Api.c71_menu_error_false`, `Swrs.Api.c73_read_written`, `Swrs.Api.c77_fab`, `Swrs.c88_lines`, `Swrs.c88_split_once`, `Swrs.c89_more_block`, `Swrs.c89_header`, `Swrs.c89_crypto`, `Swrs.c89_project`, `Swrs.Api.c89_block_type`, `Swrs.c94_debug_parts`, `Swrs.c94_resource_tells_partial`, `Swrs.c96_crypto_ends`, `Swrs.c96_crypto`, `Swrs.Api.c98_parsed_exact`, `Swrs.c114_resource`, `Swrs.c114_library`, `Swrs.c117_resource`, `Swrs.c117_resource_rest`
