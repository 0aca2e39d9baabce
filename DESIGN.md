# Design of the verified model of rizzen-yazston/i18n

Everything here is about a Lean 4 model that was written by reading `/repo` as text. Nothing in `/repo` is
built, run or changed.

## Trusted base

* The Lean 4.33.0 kernel. Property theorems may depend on `propext`, `Classical.choice` and `Quot.sound` only
  (`lean/Verif/Axioms.lean` prints them). No own axioms, no `sorry`, no `native_decide`, no `bv_decide`.
* The reading of the Rust sources: each definition of the model cites file and lines; simplifications are stated there.
* Things that are *parameters* of the model (the theorems hold for every value of the parameter unless an explicit
  hypothesis is listed):
  * ICU4X character sets `Pattern_White_Space`, `Pattern_Syntax` and the grapheme segmenter (`Icu` structure).
    Where a theorem needs that the four grammar characters are syntax characters, that is an explicit hypothesis.
  * `IcuLanguage::canonicalize` (function from strings to an error or a string; idempotence is an explicit
    hypothesis where used). `Model/LanguageTag.lean` is a reference model of what `icu_locid` 1.5 documents
    (`LanguageIdentifier`, UTS #35); C63–C67 and the theorems that say so are about it, and it meets the hypotheses of the
    others (`C63_idempotent`).
  * `LocaleExpander::maximize`: any function that adds a script exactly if it knows a likely one (`KnowsLikely`).
  * ISO 15924 and the direction of scripts in Unicode: lists of codes in `Spec/ScriptData.lean`, written from knowledge of
    these standards.
  * ICU4X plural rules, decimal formatter, date-time formatter, calendar conversion: uninterpreted functions
    (`Icu4x` structure of `Model/Value.lean` and `Model/Formatter.lean`), each of which may fail.
  * Registered commands: arbitrary functions from parameters to text, error or panic (`FmtEnv.commands`); for C77 arbitrary
    computations that may make requests to the localiser before (`TalkCommand`). `RefCell`: counters of borrows; a borrow that
    is not permitted ends everything.
  * The localisation provider as the localiser sees it (`Provider` in `Model/Localiser.lean`): functions from component,
    identifier and tag to an error, nothing or a string with its tag, which answer always the same. Where a theorem needs
    that the reported tag gives the same string again, that is the explicit hypothesis `Coherent`.
  * `LanguageTagRegistry::icu_language` as seen from the localiser (`LocEnv.icuLanguage`) and the script of a language
    (`get_script_data`, parameter `scriptOf`, which is modelled in `Model/ScriptData.lean`).
  * `HashMap`: modelled as an association list / function; iteration order is never relied upon (results are stated
    up to permutation or by membership).
  * SQLite: a table is a list of rows in storage order; `LIKE`, `=`, `LIMIT 1`, `COUNT(*)`, `DISTINCT` are modelled by
    list functions. I/O errors of SQLite are an explicit error result where they influence control flow. The queries have no
    `ORDER BY`: rows come in the order of the list, and theorems hold for every order unless they say so. `LIKE` ignores the
    case of ASCII letters and knows `%` and `_`. In `Model/ProviderSqlite.lean` the contents of the
    files do not change during one request; in `Model/ProviderSync.lean` they may, between two queries.
  * The meaning of the query texts: a reader and evaluator for the subset of SQL that they use (`Spec/Sql.lean`: `SELECT` with
    columns or `count( * )`, `DISTINCT`, `WHERE` with `=` and `LIKE` joined by `AND`, `LIMIT`, numbered parameters).
  * The file system: the directory is a list of entries (`Model/ProviderOpen.lean`); SQLite may refuse to open a file.
  * `std::sync::Mutex`/`RwLock`: a critical section is one atomic step of an interleaving semantics. A lock held over several
    steps is a counter of its readers. A panic under a write lock poisons it; a panicking thread ends. In
    `Model/LockSync.lean` to take and to release a lock are steps; whether a reader waits for a waiting writer is a parameter.
  * Errors of other crates (ICU4X, rusqlite, std) inside errors: their `Display` text is an arbitrary text. Errors of unknown
    type (`Custom` variants): arbitrary localisation data and arbitrary text. Paths: the text that `Path::display` gives.
* The contents of the databases that the crates ship are data of the model (`Model/Shipped.lean`): the columns that the
  provider asks for, read from the files with the `sqlite3` module of Python.
  * Cargo: the features of a request and what they imply (`Spec/Features.lean`, `Enabled`); each crate of the workspace is
    compiled once, with the union of the features requested. Whether the crates compile in a build is not claimed.
  * The rules of Rust for `Send` and `Sync` (`Spec/AutoTraits.lean`), for the standard library, payloads of ICU4X 1.5 (shared
    atomically with its feature `sync`) and `rusqlite::Connection`; errors of other crates may be moved and shared.
  * The arithmetic of `f32` for the `ratio` fields: conversion of integers and division round to the nearest number, of two to
    the even one (`Model/Ratio.lean`).
* Not modelled: log output (`logging` feature), `Debug`, memory exhaustion, integer overflow of `usize` counters.

## Conventions

* Rust `String`/`&str` = `List Char`: Rust `char` and Lean `Char` are both Unicode scalar values. Byte lengths are
  sums of `Char.utf8Size`.
* `Result` stays data; a panic path (`unwrap` on `None`, index out of range) is the explicit outcome `panic`.
* `&mut self` methods return the new state.
* Model in `Verif/Model/*.lean`, small independent specifications in `Verif/Spec/*.lean`, helper lemmas in
  `Verif/Lemmas/*.lean`, property theorems in `Verif/Props/*.lean`, one file per group, with a concrete example
  beside each theorem.
* When the code violates a property the negation is proved with a concrete witness (`Cxx_violated…`) and the largest
  true part is kept as `…_partial`.

## Properties: what is modelled and how it is proved

| id | model | proof plan |
|----|-------|-----------|
| C01–C05 | `LexerIterator` as a state machine with the fields of the struct; `next` as recursion over the pending characters | invariant relating the iterator state to the unread suffix; equality with a specification tokenizer; corollaries |
| C06–C08 | `LanguageTagRegistry` with the two maps; identity of `Rc`s = allocation number | invariant by induction over request list |
| C09–C10 | small-step interleaving semantics of `tag` with one step per critical section | invariant over all schedules; witness schedule for lost identity; exact condition, with a schedule built for any two programs that share a new tag |
| C11–C12, C16–C17 | full parser state machine of `Tree::try_new` over the arena of nodes, panics explicit | witness strings for panics; invariant by induction over tokens |
| C47 | as C11 | a grammar over tokens (`Spec/Grammar.lean`: `Sentence`) and a typed syntax (`Doc`); soundness by an invariant that relates the parser state to a partial sentence, completeness by induction over the derivation; the arena is the preorder layout of the syntax |
| C13–C15 | lexer + parser + formatter construction + formatting composed (`Model/Localiser.lean: formatString`) | induction over the tokens of a template; then C48 |
| C48 | `Formatter::try_new`, `format_pattern` (with explicit recursion budget standing for the call stack) | compositional meaning over the syntax (`Spec/Format.lean: Doc.eval`, values shown as in `Spec/Values.lean`); `Rep` relates stored parts to items, `Rep.format_eq` relates a call to the meaning |
| C18–C24 | as C48 | variants of the meaning (`Spec/Documented.lean: Doc.evalP`) compared with `Doc.eval`; witnesses for violations; the strings that never end are those of `Spec/Endless.lean` |
| C25–C26 | `decompose_iso_date`, `decompose_iso_time` on character lists | case analysis and arithmetic; all accepted strings as forms (`Spec/IsoForms.lean`) |
| C27–C28 | `CommandRegistry`, `file_path`, `english_a_or_an` | induction over operation list; witness for panic |
| C29–C32, C34 | localiser cache state machine, provider as parameter | refinement to stateless localiser for the histories where it holds; witnesses where not; exactly (`Spec/Transparent.lean`): an invariant says what entries the cache can hold, and for each such entry a history leads to a cache with that entry alone |
| C33 | all methods with the `sync` feature as programs of atomic steps (`Model/LocaliserSync.lean`), threads and schedules (`Model/Interleave.lean`) | phases of a change of language per thread, invariant over all schedules; no endless run because programs are well-founded |
| C49 | `Localiser.call` | induction over the history |
| C50 | as C33, with poisoned locks | invariant of the shared cache kept by every step (`Act.Ok`: the invariant, what steps of others may change, what the result is); exact panics (`Spec/Contagion.lean: FormatPanics`): the invariant of C97 one way, and a schedule for each way to panic the other way; exact answers (`LiteralAnswer`, `FormatAnswer`): the invariant also says what the entries are (`Kept`), and there is a schedule for each answer |
| C51 | as C33 | each program run without interruption equals the function of `Model/Localiser.lean` |
| C35–C38, C43–C44 | `find_strings`, `string`, `string_exact_match`, `strings`, `identifier_details` over row lists (`Model/Sqlite.lean`, `Model/ProviderSqlite.lean`) | relational meaning of the look-up (`Spec/Provider.lean: Longest`, `Decides`), induction over the truncation loop; `Props/ProviderEvery.lean` builds a wrongly answered store for every tag |
| C39 | `try_new` directory fold and `connection` (`Model/ProviderOpen.lean`) | what the two flags of a component and the connections are after each entry, by membership in the directory; success of one order gives success of all |
| C40, C52, C53 | `build_cache` | sums over folds, invariant of the loop over the components (`Counted`, `Collected`, and `AllTotals` without an assumption on the tags) |
| C41, C54, C56 | all requests with the `sync` feature as programs of atomic steps over the cache of query texts and the once-cells (`Model/ProviderSync.lean`); the store may be changed between steps | every step keeps an invariant of the cells (`Lemmas/ProviderSync.lean`); for C56 also a part of the state that one thread owns (`Lemmas/OneAsker.lean`), with a computation as a run of its program in any surroundings (`Spec/OneComputation.lean`); replies are compared with a provider of its own |
| C55 | `string` | the row that was found first is the first again; exactly: a row found is found under a beginning of its own tag (`FoundUnder`, `FoundAgain`); `asProvider` (`Spec/ProviderLocaliser.lean`) is the provider the localiser sees, and is `Coherent` |
| C42 | `verify_schema`, `columns_check` over a table description (`Model/ProviderSchema.lean`) | exact characterisation of what is accepted against the declarations of schema.sql (`Spec/ProviderOpen.lean: schemaTables`); witness |
| C57, C59 | `localisation_data` and `Display` of all errors (`Model/Errors.lean`), the shipped strings (`Model/Shipped.lean`), `format_error` over `string` of the SQLite provider | the text of a template with values for all values (`Lemmas/Templates.lean`); which strings are such templates is decided by evaluation of the finite table; then one case for each variant |
| C58 | `build_cache` with the shipped databases | C52 for a component without default language; C60 for the others |
| C60 | `build_cache` | a component is `Usable` or has a `Fault` (`Spec/ProviderUsable.lean`, over the tables only); every error of every step is a fault, a usable component has none, and nothing panics |
| C61 | `build_cache`, the hash map of components being a list in any order | what each component adds does not depend on what was there before; sums over permuted lists; the errors over all orders are those of the components alone (`C61_possible_errors`) |
| C62 | `actual_format_localisation_data`, hash maps being lists in any order (`Spec/ValueOrder.lean`) | induction over the reordering, with C34; formatting asks a map only by names; who can spoil it is an inductive relation, shown to give exactly the errors over all orders |
| C63, C64, C66 | `LanguageIdentifier` as a reference model (`Model/LanguageTag.lean`), the registry on top | the parser against the shape of a tag (`Spec/LanguageTag.lean`) in both directions; canonical tags are fixed points; sorted permutations are equal |
| C65 | `IcuLanguage` by `cfg(feature = "extend")`, the features being those of Cargo.toml | no feature has that name; a part of one character is never accepted |
| C67 | `get_script_data`, `DataProvider` | the table as a fold of insertions: the last one counts; tags of the registry parse (C63) |
| C68, C69 | the insertions of `DataProvider::new` as data | evaluation of the finite table by the kernel, lifted to every look-up |
| C70 | `Formatter::try_new` with the orders of all hash maps as a parameter (`Model/FormatterOrder.lean`) | the entries of a map write different slots, so permutations commute; induction over the tree; maps with equal contents give equal texts |
| C71 | the `[features]` tables, the `cfg` attributes of the providers, `IcuDataProvider::try_new`, the six functions of the formatter that ask for data | the resolver agrees with `Enabled`; for each feature the requests that enable it are computed by the kernel; then C48 and the items reached |
| C72 | the aliases `RefCount` of the five crates | as C71 |
| C73 | the fields of all types of the crates (`Model/AutoTraits.lean`) | the rules as equivalences, simplification for both values of `sync` |
| C74 | the texts of the queries (`Model/ProviderSync.lean`) and the list functions for them (`Model/ProviderSqlite.lean`) | a reader for the subset of SQL applied to the texts by the kernel; list lemmas |
| C75 | as C42, and the columns that the texts mention | C42; accepted tables are prefixes of the schema as far as they go |
| C76 | `icu_language` with the `sync` feature as a program of atomic steps (`Model/IcuSync.lean`) | entries refer to objects made of their text, objects stay; invariant over all schedules; what one thread relies on and others guarantee (`Act.RG`), and a schedule for the race (`Lemmas/IcuRace.lean`) |
| C77 | commands as conversations with the localiser; the cells of the localiser with their borrows (`Model/Reentry.lean`) | triples for code with outstanding borrows; induction over the depth of calls; formatters in the cache ask only for what is harmless |
| C78 | options of `decimal` and `date_time` in `partKeyword`, their use in `formatPart` (`Model/Formatter.lean`) | tables of names against comparisons; induction over the options; search and replacement of substrings |
| C79 | values of plural and ordinal patterns in `formatPart` | by cases |
| C80 | errors of `Formatter.format`; causes in `Spec/Blame.lean` | the simulation of C48, followed for errors: induction over items and the chain of named strings; conversely what is blamed fails, and only one error can be blamed |
| C81 | errors of `Formatter.tryNew`, and of `Formatter.tryNewIn` (`Model/FormatterOrder.lean`) for every order of the hash maps | errors of each loop of `ofTree`, with its invariant; conversely, in the order that lists the blamed key first, the assigned error is returned |
| C82 | errors and panics of `verifySchema` and `Sqlite.tryNew` | by cases along the checks; induction over columns and entries |
| C83 | the `ratio` fields of the details, with the arithmetic of `f32` (`Model/Ratio.lean`) | nearest numbers with 24 digits (`Spec/Ratio.lean`, over the rationals of Mathlib); witness |
| C84 | errors of `Tree.ofTokens` (`Model/Tree.lean`) | beginnings of sentences of the grammar (`Spec/SyntaxBlame.lean`); the invariant of the parser, with the place where the tokens read so far end; witness |
| C85 | `Sentence` (`Spec/Grammar.lean`), which C47 proves to be what `Tree` accepts | two derivations of the same tokens are compared from the end of the tokens (`Lemmas/Unambiguous.lean`) |
| C86 | `lex`, `Tree`, `Formatter`; compositions and how they are written in `Spec/Written.lean` | the written string is lexed and read piece by piece (`Lemmas/Written.lean`); what is read is composed, and meaning and acceptance depend on the composition only (`Lemmas/WrittenBack.lean`) |
| C87 | errors of `Localiser.call` (`Model/Localiser.lean`); causes in `Spec/RequestBlame.lean` | invariant of the cache: every formatter was made for a string that was needed before, and its calls ended; induction over nested values; C80, C81 |
| C88 | all of `Sqlite`, `Tag.canonicalize`, `Localiser`, `lex`, `Tree`, `Formatter` together; the meaning of compositions in `Spec/Meaning.lean`, the store in `Spec/EndToEnd.lean` | C39, C36, C63, C66 give the string of the provider; C32/C29 the answer of the localiser; C86, C48, C13 the meaning; C50 the requests of threads |
| C89 | the cache in `Model/Localiser.lean`; `Spec/Caching.lean` | two executions with different providers agree on cached strings; entries persist when strings are found under the requested tag (`Lemmas/Caching.lean`); over histories (`Evicts`, `CanForget`): the entry stays unless a string takes the place of its language, and then a history that makes it so (`Lemmas/Forget.lean`) |
| C90 | `findStrings`, `oneString`, `strings` in `Model/ProviderSqlite.lean`; `Spec/ProviderBlame.lean` | the loop reads the rows at the longest truncation up to one that is refused (`Lemmas/ProviderBlame.lean`); the relation of the spec has one answer |
| C91 | the same and `Model/Localiser.lean`; `Spec/OtherStrings.lean` | two executions: queries see only the rows of the string; requests use the provider only through `fetch` |
| C92 | `Model/LocaliserNew.lean` (`try_new`, `defaults`, `default_language`, `script_data`, with the handle of the tag and the registry); `Spec/LocaliserNew.lean` | invariant of programs: the registry is sound, the handle is the one it gives for the tag set last, the data are those of the handle |
| C93 | `Model/LockSync.lean` (the locks of the localiser, taken and released in steps of their own; threads that wait; the policy of the locks is a parameter); `Spec/LockSync.lean` | every program takes its locks in the order cache, formatter, tag, the rest, so a thread that wants the greatest lock can go on; steps are well-founded, so a fair schedule comes to the end; simulation with the cells of C77 for one thread |
| C94 | `Formatter.format`; `Spec/Shown.lean: Shown` (what one item needs for itself), `Reached` | a text of the whole gives a text of every item that is reached; conversely by induction over the named strings, each of which selects only earlier ones |
| C95 | as C88, with truncation and fallback; the store in `Spec/Fallback.lean: StoredLess, Nowhere, DefaultLanguage` | C90's search gives the row at the longest truncation; C52 the default language; C32 the order; C88 the meaning; C30 the panic |
| C96 | as C48 and C30; `Spec/Crash.lean: Bursts, Crashes, ItemCrash, DocCrash`, `Props/Crash.lean: Fatal` | a panic of the meaning is a command's (as C20's proof, for panics); while reading the first item not accepted decides; acceptance, error and panic exclude each other in the specification, C85 gives one reading; C11, C28 and C30 for the rest |
| C97 | `Model/LocaliserSync.lean` as for C50; `Spec/Contagion.lean: CanEnter, Trap, CanBreak` | an invariant kept by every step: every entry comes from a request that can be made, a poisoned lock has a reason (`Sound`); languages stay in the cache and poison stays (`Stay`); the ways into poison are built from two threads, one of which may pause; C96 says which formatters panic |
| C98 | `Model/LockSync.lean` as for C93; `Spec/Settings.lean` | every program poisons only locks it holds for writing and leaves the settings usable (`Calm`, by the structure of the programs, for all commands); what is done under the write lock of a setting has no way to panic |
| C99 | `Model/Errors.lean`, `Model/ErrorTexts.lean`; `Spec/Messages.lean` | the first words (for the schema of a database, the beginnings) of the messages differ; a text without the character that begins the next part is the part before it; a number at the end is read backwards; the identifiers in errors about pattern strings are tokens, so they have no quotation mark; the errors of C80 and C81 |
| C45 | the `ScriptDirection` tables | exhaustive case analysis over the (finite) type |

No property is considered inexpressible.

`Tests/Repo.lean` runs the tests of the repository (lexer, registry, SQLite provider, localiser) on the model. They prove
nothing about the claims; they check that the code was read correctly.

## How to read seeded/LOG.jsonl

Each line is one edit of a definition of the model, made in a copy, after which everything was built again.

- `failed_lemmas` are the declarations where the build reported an error. Many runs were stopped a few seconds after the
  first error, so the list need not be complete.
- `theorems_failed` are the property theorems whose proofs use one of these declarations. A failed proof says that the
  proof no longer goes through. It does not say that each theorem listed is false for the edited program.
- `survived: true` means that everything still built. The note then says why the edit changes nothing, or what was tightened.
- A build that ends without naming a declaration, for example because memory ran out, shows nothing. Six edits ended so
  (of `contributorsText`, `countText`, `languagesText`, `ReM.write` and twice `patternText`). Five had first been recorded
  as not surviving on that ground alone. For all six the negation of the affected statement was then proved for the edited
  program; the notes of their entries say so.

## Disagreements between the code and the claims or the documentation

Each is proved in the model by a witness named `Cxx_violated` unless said otherwise.

* C10: two threads may get different objects for one tag (lost identity). `C10_interned_exactly_partial`: this can
  happen for a tag exactly when it was not registered before and two threads ask for it.
* C11: `{#c# }`, `{#c##}` and named strings that start with a syntax character or a backtick panic in the parser.
* C15: literal text never ends, so `{`text`}` is always rejected, wherever in a string it is written
  (`C15_rejected_everywhere_partial`).
* C17: an opening brace among the selectors of a keyword is ignored and need not be closed.
  `C17_ignored_exactly_partial`: every other opening brace of an accepted string is escaped or closed
  (`Spec/Braces.lean`).
* C18: the branch of a selector is ignored; the category is the name of the string. The documented example is rejected.
* C19: the value of an option is never read (the key is stored as value), so every option is rejected. The rewriting of
  calendar names is dead code for this reason.
* C20: `{s select _#_}` with `s = "_"` recurses without end, since `_` is the name of the main string.
* C21: a plural category that is not listed is an error, there is no fallback to `other`. Exactly: where the documented text
  exists, the call gives it if and only if every plural or ordinal pattern reached lists its category.
* C22: the numbers of number signs are kept between calls and show up in strings chosen by select; nothing else of a history
  shows.
* C25, C26: other shapes than the documented ones are accepted, `+YYYYY` loses digits, `hh:mm:ss` is rejected, a fraction of
  a second counts nanoseconds, `Z` is rejected or ignored.
* C28: some parameter vectors make the built-in commands panic.
* C29: the cache is visible: a literal request makes a later format request return the pattern unformatted; a format request
  makes a later literal request fail; names with a slash collide (C31, exactly which: `C31_keys_exactly_partial`); a string found by fallback is later given without
  fallback; numbers of earlier calls are kept (C22).
* C30: whether a language has cached entries is found out for the requested tag but used for the tag of the string, so an
  `unwrap` fails for a string found under a shorter tag, or all entries of that tag are dropped.
* C50: whether the language has entries is found out under a read lock and used under a later write lock, so two threads may
  both create the map of a language; the entries of the first are lost and its `unwrap` fails. A failing `unwrap` under the
  write lock (C30) poisons the cache for all threads.
* C35: for a component in both places the place is chosen first, so a shorter tag in the database of all components hides a
  longer one in the own file. `C35_exactly_partial` says with which contents this happens, as `C37_exactly_partial` and
  `C37_both_exactly_partial` do for C37; `C36_exactly_partial` and `C38_exactly_partial` say with which rows C36 and C38 hold
  whatever order the rows have.
* C36: `LIKE 'en%' … LIMIT 1` returns whichever row comes first, perhaps `en-ZA` for `en`. With the index that the shipped
  schema makes (`UNIQUE (component, identifier, languageTag)`), rows come in the order of tags and the exact one is first
  (`C36_sorted_partial`); neither the index nor the order is required by the code.
* C37: the exact look-up truncates the tag as well, so it returns strings of parent languages; and the place is chosen first.
* C38: the pattern `en%` matches `enm`.
* C40: two stored spellings of one tag are counted both times for the one canonical tag.
* C42: a table with fewer columns than declared is accepted if those it has agree.
* C44: an unknown identifier of a component that is only in the database of all components is `ComponentNotFound`; for a
  component in both places the languages in the own file are left out if the other has any.
* C53: the contributors of a language in the repository details are always empty.
* C55: the registry may replace the stored tag (an alias such as `de-DD`, or `en_ZA`) by the tag of another row, which then
  is returned.
* C56: two threads may both find the once-cells empty and compute the details; if the store changes between the two, the
  details of the components may be of the one and those of the repository of the other computation.
  `C56_one_asking_thread_partial`: two asking threads are needed for this. `C56_any_two_contents`: with two, some schedule
  mixes any two contents that have details.
* C57: the errors of the parser and of commands name the component `i18n_pattern`, those of ICU `i18n_icu`, for which there
  are no databases (most of the strings are in that of the localiser); those of the lexer name `i18n_lexer`, see C58. Nine
  errors of the formatter, the wrong version of a database and the missing files have a string with a placeholder for which
  the error gives no value, or a number, which a plain placeholder refuses, or the same placeholder twice, or literal text
  (C15). The strings `error_format_enum` and `error_format_enum_embedded` are in English only.
* C58: the database of the lexer has `i18b_lexer` in all rows, so the component `i18n_lexer` of the file has no default
  language, and details and fallback fail for all components.
* C59: `RegistryError` is told as `IcuError`, `CommandError::Custom` as `Registry`, `IcuError::Syntax` and `WhiteSpace` as
  `Grapheme`; `Display` of `CacheEntry` has a line break and spaces; `Display` of `PatternPart` and `ColumnMismatch` has two
  values exchanged; `InvalidRoot`, `NoIcuProvider` and `PathConversion` are not formatted, so the marks of literal text are
  shown; `MissingTable`, `ColumnProperty`, `ColumnDefault` and `ColumnMismatch` have other words; the error in
  `SchemaInvalid` is in quotes instead of brackets.
* C62: with caching, the order in which a hash map of values is walked decides whether a request gives a text or panics: the
  panic of C30 happens only if the string of the requested language comes before the string of another language.
* C39, not part of the claim: the opening panics for a database whose name is not UTF-8, and for one with another schema
  version whose path is not UTF-8 (`C39_opening_can_panic`).
* Not claimed, seen while reading: the documentation requires `other` for select, the code does not; it restricts plural to
  positive integers, the code accepts floats; named strings may refer only to named strings written earlier.
* C65: the code asks for the feature `extend`; the feature that exists is called `icu_extended` (and `unexpected_cfgs` is
  allowed). So `Locale` is never used, tags with extensions are rejected with all features, and no calendar of `date_time`
  could be accepted even if its options were read (`C19_no_calendar_accepted`).
* C68: `Hikt`, `Gukn` and `Zand` are not codes of scripts (`Hrkt`, `Gukh` and `Zanb` are meant); the last `Yezi` is meant for
  Yi (`Yiii`), which has no data, and overwrites the data of Yezidi; `Shrd` is inserted twice with the same data.
* C69: Armenian, Khojki, Kannada, Kaithi and Todhri are listed as written from right to left; Kannada also as historic.
* C71: the default features of `i18n` and `i18n_localiser` are those of the lexer only, so the default build has a provider
  but every number, date and plural fails with `NoIcuProvider`. The variants for blobs and files ask for features `blob` and
  `fs`; those that exist are called `icu_blob` and `icu_fs`. So with `icu_blob` or `icu_fs` alone there is no provider at all.
* C71, not part of the claim: without segmenter, `IcuDataProvider::try_new` would return `Syntax` instead of `Grapheme`; it is
  never without (`C71_provider_exists`).
* C72: `sync` requested of `i18n_utility`, `i18n_provider`, `i18n_provider_sqlite3` or `i18n_lexer` only.
* C73: `CommandRegistry` has a `RefCell` in every build, `Box<dyn LocalisationProviderTrait>` and the boxed errors have no
  `Send` and `Sync`. So safe programs cannot use one localiser in several threads, as C33, C50 and C51 assume they do; and
  even a provider that is shared by threads cannot hand its results to another thread, since the error type is not `Send`.
* C70, not part of the claim: which of several errors of a pattern string is returned depends on the order of the hash map
  (`C70_error_depends_on_order`).
* C75: as C42; a file whose table `pattern` has no column `string` is accepted, and then every request for a string fails with
  an error of SQLite, since the query cannot be prepared.
* C76: the lock is taken twice, so two threads that ask for the same tag for the first time get two objects with equal
  contents; the second replaces the first in the map.
* C77: `actual_format` keeps the cache borrowed, and the formatter borrowed mutably, while a cached pattern is formatted
  (localiser.rs:956-990, 1105-1130). A delayed command (`{#name# …}`) that calls the localiser and has something cached
  panics with a `BorrowMutError` (with `sync` it would wait for ever); whether it does depends on what was cached before. The
  same happens if it formats the string that it belongs to.
* C78: documented calendars `gregory` and `ethiopic` are rejected, `gregorian` and `ethiopian` are accepted instead
  (formatter.rs:84-92). `InvalidOption` is given the value of the option where its name is meant; for a wrong calendar it says
  `ordinal` for the keyword, and for an unknown option of `date_time` it says `date-time`. The documented default `auto` of
  `sign` is not applied when the option is absent, which makes a difference for a `FixedDecimal` that has an explicit plus sign.
* C79: `plural` takes negative and fractional numbers, `ordinal` takes zero (the comment in the code allows it) and rejects
  `Integer` and `FixedDecimal` values even if they are positive integers.
* C82: `columns_check` matches on `notnull` where `pk` is meant (provider.rs:1990-1999), so the error for a column that must not
  belong to the primary key says that it lacks `PRIMARY KEY`, or the empty property if it may be null. The default of a column
  of numbers is read as a number, but the pragma gives a text, so there is an error of SQLite for it instead of
  `ColumnDefault`. A database of another version whose path is not UTF-8 panics, as does a database whose name is not.
* C83: a default language that has contributors but no strings is accepted; then its ratio, and that of every language without
  strings, is not a number, and that of the others is infinite.
* C84: in `# {a}` the error is about the name `a` (position 4) and not about the brace after it, where white space is missing;
  in `# {a -}` it is about the brace and not about the hyphen (tree.rs, state `NamedString`); `{`a`}` is said to end abruptly.
* C87: the error `CacheEntry` comes from an earlier request: literal requests fail for pattern strings that were formatted with
  caching, and for strings whose key is that of such a string. With threads `NeverReached` (localiser.rs:1113-1114, "This branch
  should never be reached") is reached: another thread that missed the entry too stores the string as it is after the formatter
  was stored and before it is looked up again (`C87_never_violated`; `C87_never_reached_with_threads` for every pattern).
* C89: `add_string_to_cache` (localiser.rs:1262-1304) stores a text under the tag of the text, while `actual_literal` and
  `actual_format` look for it under the requested tag; and when nothing is cached for the requested tag it puts a new map in
  place of the one that the tag of the text may already have, so that other strings are forgotten.
* C91: with fallback the localiser asks for `component_details` (localiser.rs:1008-1016 and 1185-1193), for which the provider
  builds the details of all components (provider.rs:944-1135). A component without default language, or with an unreadable
  table, makes the fallback of every other component fail (`C91_violated`, `C91_exactly_partial`).
* C93: the read lock of the cache and the write lock of the formatter are held while a cached pattern is formatted
  (localiser.rs:956-990, 1105-1130). A delayed command that has something cached waits for its own thread. If the locks
  prefer writers, which the documentation of `RwLock` allows, a delayed command that only reads waits for a writer that waits
  for its own thread (`C93_violated`).
* C99: texts in messages are put between quotation marks but not escaped, so `InvalidKeyword` and others can have the same message
  for different errors (`C99_violated`). Requests for strings that do not exist meet this (`C99_violated_by_requests`), pattern
  strings and values do not (`C99_rejected_patterns`, `C99_failed_formatting`).
* C97: `add_string_to_cache` unwraps while it holds the write lock of the cache, so the panic of C30 poisons that lock, and from
  then on every request of every thread panics; without `sync` the panic leaves nothing behind. A command that panics (such as
  `english_a_or_an` for an empty text, C28) does so under the write lock of its formatter: the same pattern then panics for every
  thread and all values.
