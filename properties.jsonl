{"id": "C01", "title": "Lexer tokens partition the input", "statement": "Iterating a lexer created for a non-empty string and non-empty grammar yields tokens whose strings concatenate to exactly the input string; the first token starts at byte 0, every token starts at the byte where the previous one ended, end_byte = start_byte + length_bytes, length_bytes is the UTF-8 size of the token string, and the last token ends at the byte length of the input.", "quantifier": "every non-empty input string, every non-empty grammar string, every choice of the ICU white-space/syntax character sets", "why_tests_cant": "The set of Unicode strings and of grammars is infinite; tests sample a few ASCII sentences and cannot exclude a lost or shifted byte for some mixture of widths and classes.", "anchors": ["crates/lexer/src/lexer.rs: LexerIterator::try_new, LexerIterator::next, LexerIterator::token, Token"]}
{"id": "C02", "title": "Character and grapheme positions are exact running sums", "statement": "For every token, start_character is the number of characters of the input before it, length_characters the number of characters in it, and start_grapheme is the sum of length_graphemes of the tokens before it, where length_graphemes is the number of grapheme clusters of the token's own string.", "quantifier": "every input string, every grammar, every segmenter", "why_tests_cant": "Off-by-one errors in the final token or after multi-byte characters appear only for particular shapes of the string; no finite set of examples covers all of them.", "anchors": ["crates/lexer/src/lexer.rs: LexerIterator::token, LexerIterator::next, Token.start_character, Token.start_grapheme"]}
{"id": "C03", "title": "Tokens are class-uniform maximal runs", "statement": "Every token is non-empty and all its characters belong to the token's class (white space before syntax before identifier; grammar = syntax character listed in the grammar). A Grammar token is exactly one character. Two adjacent tokens of the same class occur only if both are Grammar. These conditions determine the token sequence uniquely.", "quantifier": "every input string, grammar and character classification", "why_tests_cant": "Maximality and uniqueness relate all tokens of all strings; tests only check the token list of chosen strings.", "anchors": ["crates/lexer/src/lexer.rs: TokenType, LexerIterator::token_type, LexerIterator::next"]}
{"id": "C04", "title": "The lexer terminates and stays finished", "statement": "A lexer yields at least one and at most as many tokens as the input has characters, then returns None, and keeps returning None on every further call. Construction fails exactly for an empty grammar (NoGrammar, checked first) or an empty string (EmptyString).", "quantifier": "every input, every number of next() calls", "why_tests_cant": "Needs a bound on arbitrary call sequences past the end for every input.", "anchors": ["crates/lexer/src/lexer.rs: LexerIterator::try_new, LexerIterator::next"]}
{"id": "C05", "title": "Lexing is prefix-stable and depends only on the grammar as a set", "statement": "All tokens but the last produced for a string s are also the first tokens produced for s followed by any text t; and two grammar strings containing the same characters (in any order, with any duplicates) give identical tokens. A grammar character that is not a Pattern_Syntax character never becomes a Grammar token.", "quantifier": "every pair of strings s,t; every two grammar strings with the same character set", "why_tests_cant": "Quantifies over all continuations and all permutations of the grammar.", "anchors": ["crates/lexer/src/lexer.rs: LexerIterator::next, LexerIterator::token_type"]}
{"id": "C06", "title": "A language tag request returns the canonical tag in every history", "statement": "Whatever requests were made before, tag(q) succeeds exactly when canonicalisation of q succeeds, and the returned tag's text is the canonical form of q; a failing request changes nothing observable in the registry.", "quantifier": "every finite sequence of tag requests, every query, every canonicaliser that is idempotent", "why_tests_cant": "The answer may come from three different lookup paths depending on history; tests cannot cover all histories.", "anchors": ["crates/utility/src/language.rs: LanguageTagRegistry::tag, IcuLanguage::canonicalize"]}
{"id": "C07", "title": "Language tags are interned", "statement": "In a single-threaded history all successful requests having the same canonical form return the very same shared tag object (pointer-equal), and requests with different canonical forms return different objects.", "quantifier": "every finite sequence of requests", "why_tests_cant": "Requires tracking object identity along all histories mixing canonical and deprecated spellings.", "anchors": ["crates/utility/src/language.rs: LanguageTagRegistry::tag"]}
{"id": "C08", "title": "Registry listings report exactly what was requested", "statement": "After any history, list() holds exactly one entry for each canonical form ever successfully requested; list_deprecated() holds one entry per distinct non-canonical spelling successfully requested (the canonical tag it maps to); list_all() is list() followed by list_deprecated().", "quantifier": "every finite sequence of requests", "why_tests_cant": "A set-equality over all histories.", "anchors": ["crates/utility/src/language.rs: LanguageTagRegistry::list, list_deprecated, list_all"]}
{"id": "C09", "title": "Concurrent tag requests are value-correct and never deadlock", "statement": "With the sync feature, for any number of threads and any interleaving of their lock-protected steps, every tag(q) call that completes returns a tag whose text is the canonical form of q, no reachable state is stuck while a call is unfinished, and once all calls are finished list() holds exactly one tag per canonical form requested.", "quantifier": "every number of threads, every list of requests per thread, every schedule", "why_tests_cant": "Schedules cannot be enumerated by tests; a rare interleaving is enough to break it.", "anchors": ["crates/utility/src/language.rs: LanguageTagRegistry::tag (cfg sync: tags.lock, deprecated.lock)"]}
{"id": "C10", "title": "Concurrent tag requests stay interned", "statement": "With the sync feature, two threads asking for the same canonical tag obtain pointer-equal tags, and list_deprecated() holds only tags of non-canonical spellings, as in the single-threaded case.", "quantifier": "every schedule of two or more threads", "why_tests_cant": "The check of the map and the insertion are separate critical sections; only some schedules expose the race.", "anchors": ["crates/utility/src/language.rs: LanguageTagRegistry::tag (lookup 157-205 and insertion 208-231 are separate critical sections)"]}
{"id": "C11", "title": "Parsing a pattern string never panics", "statement": "For every pattern string the parser returns either a tree or a TreeError; it never aborts the process.", "quantifier": "every string", "why_tests_cant": "The parser state space is unbounded; a panic may hide behind an unusual combination of tokens.", "anchors": ["crates/localiser/src/tree.rs: Tree::try_new, Tree::create_node, Tree::end_nested_state, Tree::pattern_start"]}
{"id": "C12", "title": "The parsed tree is well formed", "statement": "When parsing succeeds, the first node is the root, every other node has exactly one parent whose child list contains it exactly once and whose index is smaller, only container nodes have children, only leaf nodes have tokens, every token index is in range, and token indices appear in increasing order in the tree without repetition.", "quantifier": "every string that parses", "why_tests_cant": "A structural invariant of a mutable arena built by all possible token sequences.", "anchors": ["crates/localiser/src/tree.rs: Tree::try_new, Tree::insert, Tree::move_to_container, Tree::add_token, Node"]}
{"id": "C13", "title": "Escaped text round-trips", "statement": "If every grammar character of a text is preceded by a backtick, formatting the resulting pattern string (with any values) yields exactly the original text.", "quantifier": "every text, every set of values, every language", "why_tests_cant": "An encode/decode round trip over all texts through lexer, parser and formatter.", "anchors": ["crates/localiser/docs/pattern strings.asciidoc: literal", "crates/localiser/src/tree.rs: ParserState::String branch", "crates/localiser/src/formatter.rs: part_text, Formatter::format", "crates/localiser/src/localiser.rs: actual_format"]}
{"id": "C14", "title": "Simple placeholders are substituted in place", "statement": "For a pattern consisting of texts and placeholders {id} with pairwise different identifiers, formatting yields the texts with each placeholder replaced by its value, in order, unchanged and unreinterpreted (a value containing grammar characters is not parsed).", "quantifier": "every number of placeholders, every texts, every identifiers, every string values", "why_tests_cant": "Unbounded number of placeholders and arbitrary value contents.", "anchors": ["crates/localiser/src/tree.rs: pattern_start, ParserState::Pattern", "crates/localiser/src/formatter.rs: part_pattern, format_pattern PatternString"]}
{"id": "C15", "title": "Literal text patterns produce their text", "statement": "A pattern {`text`} (grammar: literal_text) is replaced by text when formatted.", "quantifier": "every text without backticks, in every surrounding string", "why_tests_cant": "The end-of-literal test must hold for every token of every text.", "anchors": ["crates/localiser/docs/pattern strings.asciidoc: literal_text", "crates/localiser/src/tree.rs: ParserState::LiteralText 380-402"]}
{"id": "C16", "title": "Repeated placeholder identifiers are always rejected", "statement": "A pattern string in which two placeholders use the same identifier is rejected, and the parser's error names an identifier that really occurs twice; likewise for two named strings with one identifier.", "quantifier": "every string with a repetition at any distance", "why_tests_cant": "All positions and nestings of the repetition.", "anchors": ["crates/localiser/src/tree.rs: pattern_start UniquePattern, NamedString UniqueNamed"]}
{"id": "C17", "title": "Unterminated patterns are always rejected", "statement": "If the parser accepts a string then every opened brace (not escaped, not inside literal text) was closed: the parser never ends inside a pattern, command, literal text or named string.", "quantifier": "every string", "why_tests_cant": "Holds for all truncation points of all strings.", "anchors": ["crates/localiser/src/tree.rs: nested_states, EndedAbruptly 687"]}
{"id": "C18", "title": "Documented named-string branches are honoured", "statement": "A plural/ordinal/select pattern with selector category#branch formats, when the category is chosen, the named string called branch (grammar: branch is an arbitrary identifier, e.g. one#one_dog).", "quantifier": "every selector list and named group", "why_tests_cant": "All identifier pairs; tests happen to use branch names that may equal the category.", "anchors": ["crates/localiser/docs/pattern strings.asciidoc: plural, select, branch", "crates/localiser/src/formatter.rs: pattern_selectors 1330-1361, part_pattern"]}
{"id": "C19", "title": "Documented decimal and date_time options are accepted", "statement": "A decimal pattern with group# or sign# option and a date_time pattern with date#, time# or calendar# option with documented values is accepted and the option takes effect.", "quantifier": "every documented option/value combination in any order and any surrounding string", "why_tests_cant": "Combination of options with arbitrary surrounding text.", "anchors": ["crates/localiser/docs/pattern strings.asciidoc: decimal_keyword, date_time_keyword", "crates/localiser/src/formatter.rs: pattern_selectors, sign_display, decimal_grouping_display, date_length, time_length"]}
{"id": "C20", "title": "Formatting terminates", "statement": "Formatting any accepted pattern string with any values finishes (no unbounded recursion).", "quantifier": "every accepted pattern string, every values", "why_tests_cant": "Recursion through named strings depends on the values supplied at run time.", "anchors": ["crates/localiser/src/formatter.rs: format_pattern, find_number_sign, select"]}
{"id": "C21", "title": "Plural formatting falls back to other", "statement": "When a plural or ordinal pattern is accepted (so `other` is present) formatting succeeds for every number of a supported type, using the chosen category's string if listed and `other` otherwise.", "quantifier": "every number, every plural rule set, every selector list containing other", "why_tests_cant": "Category depends on language data and on the number.", "anchors": ["crates/localiser/src/formatter.rs: find_number_sign 581-637, part_pattern (other required)"]}
{"id": "C22", "title": "Formatting is a pure function of the values", "statement": "Formatting the same prepared pattern with the same values always gives the same result regardless of which values were formatted before.", "quantifier": "every history of format calls on one formatter", "why_tests_cant": "State carried from call to call shows only for particular sequences.", "anchors": ["crates/localiser/src/formatter.rs: Formatter.numbers, format_pattern NumberSign, find_number_sign"]}
{"id": "C23", "title": "Number sign shows the selecting number", "statement": "In a named string selected by a plural pattern, each # is replaced by the decimal formatting of the number that selected the string.", "quantifier": "every number, every accepted pattern, every earlier history", "why_tests_cant": "All combinations of several plural patterns sharing named strings and of earlier calls.", "anchors": ["crates/localiser/src/formatter.rs: find_number_sign, PatternPart::NumberSign"]}
{"id": "C24", "title": "Formatting uses only the placeholders it mentions", "statement": "The result of formatting depends only on the values of placeholder identifiers occurring in the pattern; extra values are ignored; a missing value for a placeholder that is reached is an error, never silently empty text.", "quantifier": "every pair of value maps agreeing on the mentioned identifiers", "why_tests_cant": "Quantifies over all value maps.", "anchors": ["crates/localiser/src/formatter.rs: format_pattern"]}
{"id": "C25", "title": "ISO date decomposition is exact", "statement": "Decomposing a date string YYYY-MM-DD or YYYYMMDD (optionally signed year) gives exactly that year, month and day; strings of any other shape are rejected.", "quantifier": "every string", "why_tests_cant": "All strings, including over-long, short and signed forms.", "anchors": ["crates/localiser/src/formatter.rs: decompose_iso_date 892-947"]}
{"id": "C26", "title": "ISO time decomposition is exact", "statement": "Decomposing hh, hh:mm, hh:mm:ss, hh:mm:ss.f (or the compact forms), optionally with a trailing Z, gives exactly that time; strings of any other shape are rejected.", "quantifier": "every string", "why_tests_cant": "All strings and all numeric ranges.", "anchors": ["crates/localiser/src/formatter.rs: decompose_iso_time 969-1017"]}
{"id": "C27", "title": "Command registration is write-once", "statement": "After any sequence of insert calls, looking up a command returns the function of the first insert with that name, later inserts with that name fail with AlreadyExists and change nothing, and lookup of a never inserted name fails with NotFound; list() holds each inserted name once.", "quantifier": "every sequence of inserts", "why_tests_cant": "All histories.", "anchors": ["crates/localiser/src/command.rs: CommandRegistry::insert, command, list"]}
{"id": "C28", "title": "Built-in commands never panic", "statement": "The shipped commands file_path and english_a_or_an return a result or a CommandError for every parameter vector.", "quantifier": "every parameter vector", "why_tests_cant": "Infinite parameter space including empty vectors and empty strings.", "anchors": ["crates/localiser/src/command.rs: file_path, english_a_or_an"]}
{"id": "C29", "title": "The cache is transparent", "statement": "With a fixed data store, a localiser with caching returns for every request what it would return without caching.", "quantifier": "every history of format, literal and format_localisation_data calls with any options", "why_tests_cant": "The cached entry found depends on the entire history.", "anchors": ["crates/localiser/src/localiser.rs: actual_format, actual_literal, add_string_to_cache"]}
{"id": "C30", "title": "The localiser never panics because of its cache", "statement": "No history of localisation requests makes the localiser panic.", "quantifier": "every history, every data store", "why_tests_cant": "The failing unwrap needs a special relation between requested and returned language in an earlier call.", "anchors": ["crates/localiser/src/localiser.rs: add_string_to_cache 1262-1304"]}
{"id": "C31", "title": "Cache entries of different strings never collide", "statement": "Two requests for different (component, identifier) pairs under one language are never answered from the same cache entry.", "quantifier": "every pair of component and identifier names", "why_tests_cant": "All pairs of names.", "anchors": ["crates/localiser/src/localiser.rs: actual_format key construction, actual_literal"]}
{"id": "C32", "title": "Fallback follows the documented order", "statement": "Without cached entry: a request is answered with the provider's string for the requested language (and the tag the provider reports) if there is one; otherwise, when fallback is on, with the provider's string for the component's default language; otherwise the request fails with StringNotFound telling whether fallback was used. With fallback off the default language is never consulted.", "quantifier": "every provider, every request", "why_tests_cant": "All providers.", "anchors": ["crates/localiser/src/localiser.rs: actual_format 941-1130, actual_literal 1133-1213"]}
{"id": "C33", "title": "Changing defaults concurrently keeps script data consistent", "statement": "With the sync feature, when all calls to defaults() of any number of threads have finished, the stored script data is that of the stored default language.", "quantifier": "every number of threads, every schedule, every languages", "why_tests_cant": "Schedules cannot be enumerated by tests.", "anchors": ["crates/localiser/src/localiser.rs: Localiser::defaults 495-540"]}
{"id": "C34", "title": "Nested localisation data resolves recursively", "statement": "Formatting nested localisation data gives the outer pattern formatted with each nested item replaced by its own formatted text; the nesting depth is unlimited, and the error of any nested item is reported instead of partial output.", "quantifier": "every finite nesting of localisation data", "why_tests_cant": "Unbounded nesting depth and breadth.", "anchors": ["crates/localiser/src/localiser.rs: actual_format_localisation_data 1215-1260", "crates/utility/src/types.rs: LocalisationData, PlaceholderValue"]}
{"id": "C35", "title": "String lookup tries ever shorter language tags", "statement": "A string request returns a stored string of the requested component and identifier whose tag matches the longest subtag-truncation of the requested tag that matches anything; it returns nothing only if no truncation matches.", "quantifier": "every store contents, every tag with any number of subtags", "why_tests_cant": "All stores and tags; termination of the truncation loop.", "anchors": ["crates/provider/sqlite3/src/provider.rs: find_strings 327-460", "crates/provider/core/src/provider.rs: string doc"]}
{"id": "C36", "title": "An exact match is preferred", "statement": "If the store holds a string for exactly the requested language tag, a string request returns that string.", "quantifier": "every store contents and row order", "why_tests_cant": "Row order and additional rows are arbitrary.", "anchors": ["crates/provider/sqlite3/src/provider.rs: find_strings (LIKE, LIMIT 1)", "crates/provider/core/src/provider.rs: string doc"]}
{"id": "C37", "title": "Exact-match lookup returns only exact matches", "statement": "string_exact_match returns a string only if its language tag equals the requested tag, and returns it whenever it exists.", "quantifier": "every store contents, every tag", "why_tests_cant": "All stores; the wrong answer needs a store with a parent-language string only.", "anchors": ["crates/provider/sqlite3/src/provider.rs: string_exact_match 1261-1303, find_strings exact flag"]}
{"id": "C38", "title": "Lookup never crosses languages", "statement": "A string returned for a requested tag belongs to a language whose subtags extend a truncation of the requested tag (never a different primary language such as enm for en).", "quantifier": "every store contents, every tag", "why_tests_cant": "All pairs of tags where one is a textual prefix of the other.", "anchors": ["crates/provider/sqlite3/src/provider.rs: find_strings LIKE pattern"]}
{"id": "C39", "title": "Opening a directory is independent of file order and connections are always available", "statement": "The set of components served does not depend on the order in which the directory lists its files, and afterwards every component lookup finds its database connection (no unwrap failure).", "quantifier": "every directory content, every permutation", "why_tests_cant": "All permutations of all directory contents.", "anchors": ["crates/provider/sqlite3/src/provider.rs: try_new 114-246, connection 251-272"]}
{"id": "C40", "title": "Details totals are consistent", "statement": "In the reported details a component's total is the sum of its per-language counts, the repository's total is the sum of the components' totals, and the repository's count of each language is the sum of that language's counts over the components.", "quantifier": "every store contents", "why_tests_cant": "All stores.", "anchors": ["crates/provider/sqlite3/src/provider.rs: build_cache 944-1135", "crates/provider/core/src/provider.rs: ComponentDetails, RepositoryDetails"]}
{"id": "C41", "title": "Details are computed once and then fixed", "statement": "Once a details request succeeded, all later details requests of any thread return the same details even if the store changes; the details request never panics; a failed computation leaves the provider able to retry.", "quantifier": "every interleaving of detail requests and store changes", "why_tests_cant": "Schedules and crash points.", "anchors": ["crates/provider/sqlite3/src/provider.rs: component_details 1480-1498, repository_details 1531-1542, build_cache OnceCell"]}
{"id": "C42", "title": "Schema verification rejects incomplete databases", "statement": "A database missing a required table or a required column, or with a column of a different type, is rejected when opened.", "quantifier": "every schema", "why_tests_cant": "All possible schemas.", "anchors": ["crates/provider/sqlite3/src/provider.rs: verify_schema 1546-1916, columns_check 1947-2152"]}
{"id": "C43", "title": "Combined lookup prefers the all-in-one database", "statement": "When a component is in both the all-in-one database and its own file, string requests are answered from the all-in-one database if it has any match and otherwise from the own file, so a string present in either is always found.", "quantifier": "every contents of both databases", "why_tests_cant": "All contents.", "anchors": ["crates/provider/sqlite3/src/provider.rs: string 1178-1220, strings 1344-1383"]}
{"id": "C44", "title": "Identifier details are available for every served component", "statement": "identifier_details for a component that is served succeeds for every identifier and lists exactly the languages in which some string of that identifier is stored.", "quantifier": "every store and identifier", "why_tests_cant": "All stores, including components kept in only one of the two places and unknown identifiers.", "anchors": ["crates/provider/sqlite3/src/provider.rs: identifier_details 1416-1447, identifier_languages"]}
{"id": "C45", "title": "Script directions are coherent", "statement": "directions() is exactly the pair of line() and grapheme(); the two are always perpendicular; different script directions give different pairs, and every perpendicular pair is some script direction.", "quantifier": "every script direction and every pair of directions", "why_tests_cant": "A law over the whole finite table rather than sampled entries.", "anchors": ["crates/utility/src/script.rs: ScriptDirection::directions, line, grapheme"]}
{"id": "C46", "title": "ICU language identifiers are cached faithfully", "statement": "icu_language(tag) returns the language identifier parsed from the text of the tag in every history of requests, the same object for equal tag texts and different objects for different texts, and panics only if the text of the tag does not parse.", "quantifier": "every history of requests", "why_tests_cant": "Histories cannot be enumerated.", "anchors": ["crates/utility/src/language.rs: LanguageTagRegistry::icu_language 260-286"]}
{"id": "C47", "title": "The parser accepts exactly its grammar", "statement": "A pattern string is accepted if and only if its tokens are a sentence of the pattern grammar (text, escapes, placeholders with optional keyword and selectors, commands, a group of named strings) in which placeholder identifiers are unique and named string identifiers are unique; the nodes are the preorder layout of that sentence and the recorded lengths are the totals over all tokens.", "quantifier": "every string, every tree", "why_tests_cant": "An equivalence between an imperative parser and a grammar over all strings.", "anchors": ["crates/localiser/src/tree.rs: Tree::try_new 130-740"]}
{"id": "C48", "title": "Formatting follows the meaning of the pattern", "statement": "A pattern string is accepted by the formatter if and only if it is read as a syntax whose named strings have new names and refer only to earlier ones, whose plural patterns list `other` and only plural categories, whose decimal and date_time patterns have no options and whose immediate commands succeed; every call of format on it then gives, after any history of calls, exactly the text (or failure) that a compositional meaning over the syntax assigns, and panics only if a registered command panics or if the meaning has no result.", "quantifier": "every pattern string, every language, every history of calls, every values", "why_tests_cant": "An equivalence between a compiled form with numbered slots and a denotation, over all strings and histories.", "anchors": ["crates/localiser/src/formatter.rs: Formatter::try_new 56-187, format 190-197, format_pattern 210-578, part_* helpers"]}
{"id": "C49", "title": "Defaults are those set last", "statement": "After any history of calls the default language, the default of fallback and the default of caching are those given by the last call of defaults() that gave them, or the initial ones; the stored script data is that of the default language; requests change none of them.", "quantifier": "every history of calls", "why_tests_cant": "Histories cannot be enumerated.", "anchors": ["crates/localiser/src/localiser.rs: Localiser::defaults 495-540"]}
{"id": "C50", "title": "Threads that share a localiser are answered as without cache", "statement": "With the sync feature, whatever the schedule, every request of every thread gets the answer it would get without cache, and none panics because of another thread.", "quantifier": "every number of threads, every sequences of calls, every schedule, every state of the cache that calls can produce", "why_tests_cant": "Schedules cannot be enumerated by tests.", "anchors": ["crates/localiser/src/localiser.rs: actual_format 941-1130, actual_literal 1133-1213, add_string_to_cache 1262-1312"]}
{"id": "C51", "title": "One thread sees no locks", "statement": "A localiser with the sync feature that is used by one thread only gives the same answers and ends in the same state as one without, for every sequence of calls none of which panics.", "quantifier": "every sequence of calls, every state of the localiser", "why_tests_cant": "An equivalence of two programs over all histories.", "anchors": ["crates/localiser/src/localiser.rs: the sync and not(sync) variants of all methods"]}
{"id": "C52", "title": "Component details report the store", "statement": "The details of a component name exactly the languages with a contributor row of the component in one of its places, each with the number of pattern rows of that tag in both places and with exactly the contributors of that tag in both places; its default language is among them and is that of the component table of the first place that has the component.", "quantifier": "every store contents, every component", "why_tests_cant": "All stores, in all arrangements of components over the two places.", "anchors": ["crates/provider/sqlite3/src/provider.rs: build_cache 944-1135, languages 463-554, contributors 656-751, count 754-848, default_language 851-941"]}
{"id": "C53", "title": "Repository details unite the components", "statement": "The repository details list exactly the components, the union of their languages and the union of their contributors, and for each language the contributors of that language over all components.", "quantifier": "every store contents", "why_tests_cant": "All stores.", "anchors": ["crates/provider/sqlite3/src/provider.rs: build_cache 944-1135"]}
{"id": "C54", "title": "A shared provider answers as an unshared one", "statement": "However many threads use one provider (sync feature), in whatever schedule, every reply of every thread is the reply a provider that nobody else uses gives for the same store; the shared cache of query texts and the once-cells are not visible.", "quantifier": "every number of threads, every sequence of calls, every schedule, every store", "why_tests_cant": "Schedules cannot be enumerated by tests.", "anchors": ["crates/provider/sqlite3/src/provider.rs: connection_sync 275-324, find_strings 327-460, build_cache 944-1135, query_* 2159-2220"]}
{"id": "C55", "title": "The reported language retrieves the same string", "statement": "If string() returns a string with a language tag, string() with that tag returns the same string and the same tag.", "quantifier": "every store, every component, identifier and tag", "why_tests_cant": "All stores; the localiser relies on it for its cache.", "anchors": ["crates/provider/sqlite3/src/provider.rs: find_strings 327-460, string 1178-1220"]}
{"id": "C56", "title": "Component and repository details agree", "statement": "The details of the components and of the repository that a provider reports come from one and the same computation over the store, however many threads ask and however the store changes meanwhile.", "quantifier": "every number of threads, every schedule, every change of the store", "why_tests_cant": "Schedules cannot be enumerated by tests.", "anchors": ["crates/provider/sqlite3/src/provider.rs: identifier_details 1416-1447, component_details 1480-1498, repository_details 1531-1542"]}
{"id": "C57", "title": "Every error has a text", "statement": "A localiser whose provider has the databases that the crates ship gives a text, in the requested language or by fallback, for the localisation data of every error of every crate, whatever the values in the error and whatever errors it wraps.", "quantifier": "every error with every values, every language tag, every other contents of the provider", "why_tests_cant": "The strings are data, the values are arbitrary; a string with a wrong placeholder is noticed only when that very error is shown.", "anchors": ["crates/localiser/src/error.rs: localisation_data 284-423, 483-633, 808-1729", "crates/localiser/src/localiser.rs: format_error 813-837", "crates/provider/core/src/error.rs: 50-202", "crates/provider/sqlite3/src/error.rs: 51-213, 298-458", "crates/utility/src/error.rs: 32-77", "crates/localiser/l10n/i18n_localiser.sqlite3, crates/provider/core/l10n/i18n_provider.sqlite3, crates/provider/sqlite3/l10n/i18n_provider_sqlite3.sqlite3, crates/lexer/l10n/i18n_lexer.sqlite3"]}
{"id": "C58", "title": "The shipped databases can be used together", "statement": "A provider that has the databases that the crates ship, each under the name of its file, can give the details and the default language of every component.", "quantifier": "every provider that has them, every other contents", "why_tests_cant": "The file of one component decides over all components.", "anchors": ["crates/provider/sqlite3/src/provider.rs: build_cache 944-1135", "crates/localiser/l10n/i18n_localiser.sqlite3, crates/provider/core/l10n/i18n_provider.sqlite3, crates/provider/sqlite3/l10n/i18n_provider_sqlite3.sqlite3, crates/lexer/l10n/i18n_lexer.sqlite3"]}
{"id": "C59", "title": "Localised errors agree with Display", "statement": "For the language in which Display writes, the localised text of every error has the same type, variant and message as the text of Display.", "quantifier": "every error with every values", "why_tests_cant": "Two texts for each error, kept in different files, over all values.", "anchors": ["crates/localiser/src/error.rs: localisation_data and Display of all errors", "crates/provider/core/src/error.rs: 50-235", "crates/provider/sqlite3/src/error.rs: 51-250, 298-513", "crates/utility/src/error.rs: 32-93", "crates/localiser/l10n/i18n_localiser.sqlite3, crates/provider/core/l10n/i18n_provider.sqlite3, crates/provider/sqlite3/l10n/i18n_provider_sqlite3.sqlite3, crates/lexer/l10n/i18n_lexer.sqlite3"]}
{"id": "C60", "title": "Details exactly for usable components", "statement": "The provider gives details exactly if every component is usable: its databases can be read, the registry accepts the tags of its contributors and of its default language, and someone contributed to the default language. Otherwise it returns an error that tells of a fault that some component really has; it does not panic.", "quantifier": "every provider, every contents of the databases, every registry", "why_tests_cant": "All combinations of faults in all tables of any number of databases.", "anchors": ["crates/provider/sqlite3/src/provider.rs: build_cache 944-1135, languages 463-554, default_language 851-941"]}
{"id": "C61", "title": "The order of the components does not matter", "statement": "The components are kept in a hash map, walked in an arbitrary order. Whether there are details, the details of every component, and the languages, counts, default language, contributors and total of the repository do not depend on that order.", "quantifier": "every provider, every contents, every two orders", "why_tests_cant": "The order differs from run to run; a test sees one.", "anchors": ["crates/provider/sqlite3/src/provider.rs: build_cache 944-1135"]}
{"id": "C62", "title": "The order of values does not matter", "statement": "The values of localisation data are hash maps, at every depth of nesting. The result of formatting does not depend on the order in which they are walked.", "quantifier": "every localisation data, every reordering at every depth, every provider and cache", "why_tests_cant": "The order differs from run to run; a test sees one.", "anchors": ["crates/localiser/src/localiser.rs: actual_format_localisation_data 1215-1260"]}
{"id": "C63", "title": "Language tags are accepted exactly when well formed", "statement": "The registry accepts a text exactly if it is a Unicode language identifier (UTS #35), and gives the canonical spelling: hyphens, lower case language, title case script, upper case region, variants in lower case and in order. Canonical tags are kept as they are.", "quantifier": "every text", "why_tests_cant": "All texts; a few malformed tags in a test do not show which are accepted.", "anchors": ["crates/utility/src/language.rs: tag 157-232, LanguageTag 53-72"]}
{"id": "C64", "title": "All spellings of a tag are one tag", "statement": "Two accepted requests get the same object exactly if they name the same language and the same script, region and variants, in any order of the variants, any letter case and either separator.", "quantifier": "every history of requests, every two texts", "why_tests_cant": "All pairs of spellings in all histories.", "anchors": ["crates/utility/src/language.rs: tag 157-232"]}
{"id": "C65", "title": "The feature icu_extended admits extensions", "statement": "With the feature icu_extended the registry accepts the tags that Locale accepts, among them those with extensions, as the documentation says.", "quantifier": "every set of features, every history, every tag", "why_tests_cant": "Needs all sets of features; the attribute that selects the type names another feature, which the compiler was told not to report.", "anchors": ["crates/utility/src/language.rs: 4-12, 40-44", "crates/utility/Cargo.toml: 24-26", "crates/utility/src/error.rs: 22-28", "crates/localiser/src/formatter.rs: 25-29"]}
{"id": "C66", "title": "Shorter tags are tags", "statement": "Every text that the look-up of a string makes by dropping parts from the end of a tag of the registry is itself a canonical language tag, and has no character that is a wildcard in a query.", "quantifier": "every accepted text, every truncation", "why_tests_cant": "All tags with all their truncations.", "anchors": ["crates/provider/sqlite3/src/provider.rs: one_string 556-690", "crates/utility/src/language.rs: tag 157-232"]}
{"id": "C67", "title": "Script data are those of the script of the language", "statement": "For every tag of the registry the script data are exactly those in the table for the script that the tag names, or, if it names none, for its likely script; the request does not panic. The script data of a localiser are always those of its default language.", "quantifier": "every history of the registry, every tag, every assignment of likely scripts, every calls of the localiser", "why_tests_cant": "All tags, and any knowledge of likely scripts.", "anchors": ["crates/localiser/src/localiser.rs: get_script_data 1314-1352, script_data 918-926, try_new 130-160, defaults 495-540", "crates/localiser/src/script.rs: 11-1592"]}
{"id": "C68", "title": "The table of scripts has registered codes, each once", "statement": "Every code in the table of scripts is registered in ISO 15924 and is inserted once.", "quantifier": "every entry of the table, every code", "why_tests_cant": "A wrong code is noticed only when somebody uses a language with the script that was meant.", "anchors": ["crates/localiser/src/script.rs: 12-1587"]}
{"id": "C69", "title": "Scripts are reported with their directions", "statement": "Every script in the table has directions, none twice; scripts written from right to left are said to be, and no others.", "quantifier": "every entry of the table", "why_tests_cant": "One script at a time would have to be compared with Unicode.", "anchors": ["crates/localiser/src/script.rs: 12-1587", "crates/utility/src/script.rs: 24-64"]}
{"id": "C70", "title": "The order of hash maps does not change what a pattern string means", "statement": "The formatter of a pattern string, and all texts it produces in any sequence of calls, are the same in whatever order the hash maps of selectors and options are visited while it is made.", "quantifier": "every pattern string, every order in which every map is visited, every sequence of calls", "why_tests_cant": "The order changes from run to run, with a seed that tests do not control.", "anchors": ["crates/localiser/src/formatter.rs: part_pattern 1037-1267, pattern_selectors 1330-1361"]}
{"id": "C71", "title": "The documented features give data providers that can be used", "statement": "With the default features, icu_compiled_data, icu_blob or icu_fs there is the data provider documented for the feature, and numbers, dates and plurals can be formatted with it.", "quantifier": "every set of features requested of the crates, every provider, every pattern string with such a pattern, all values", "why_tests_cant": "A test is compiled with one set of features, those of the crate it belongs to.", "anchors": ["crates/i18n/Cargo.toml: 24-55", "crates/localiser/Cargo.toml: 24-53", "crates/lexer/Cargo.toml: 24-48", "crates/lexer/src/icu.rs: 62-172", "crates/localiser/src/formatter.rs: 674-858", "README.asciidoc: 30-53"]}
{"id": "C72", "title": "All crates use the same pointer type", "statement": "In every build all crates agree on the type of shared pointers, so that the types of one crate can be given to another.", "quantifier": "every set of features requested of the crates", "why_tests_cant": "A disagreement is a compile error in a program that depends on the crates, not in the crates.", "anchors": ["crates/*/Cargo.toml: [features]", "crates/utility/src/language.rs: 14-22", "crates/lexer/src/lexer.rs: 33-38", "crates/localiser/src/localiser.rs: 20-28", "crates/provider/core/src/provider.rs: 8-13", "crates/provider/sqlite3/src/provider.rs: 20-28"]}
{"id": "C73", "title": "With the feature sync values can be shared by threads", "statement": "With the feature sync the types of the crates can be moved to and used by other threads (they are Send and Sync); without it they are not claimed to be.", "quantifier": "every build, every type of the crates", "why_tests_cant": "Only a program that moves a value to a thread would show it; none of the tests has threads.", "anchors": ["crates/localiser/src/localiser.rs: 39-52, 1309-1312", "crates/localiser/src/command.rs: 34-36", "crates/provider/core/src/error.rs: 39-46", "crates/localiser/src/error.rs: 274-280", "crates/provider/sqlite3/src/provider.rs: 79-98", "README.asciidoc: 40"]}
{"id": "C74", "title": "The texts of the queries mean what the provider takes them for", "statement": "Executed as SQL on the tables of a component's database, each query text the provider composes gives exactly the rows that the request is documented to use: strings of an identifier whose tag is like or equals the given one (one row if only one is wanted), distinct languages and contributors, languages of an identifier, the number of strings, the default language.", "quantifier": "every database, every value of the parameters, both variants of exactness and of the limit", "why_tests_cant": "Tests use one database; wildcards, duplicates and rows of other components in it decide what is noticed.", "anchors": ["crates/provider/sqlite3/src/provider.rs: 2159-2220"]}
{"id": "C75", "title": "A database that was accepted can be queried", "statement": "If the schema of a file was accepted at opening, SQLite can prepare every query of the provider on it: the tables and columns that the queries mention exist.", "quantifier": "every file, every query", "why_tests_cant": "The test databases have the complete schema; files with fewer columns are not among them.", "anchors": ["crates/provider/sqlite3/src/provider.rs: verify_schema 1546-1930, columns_check 1947-2157, 2159-2220"]}
{"id": "C76", "title": "Threads share the ICU identifiers of language tags", "statement": "The identifier a thread gets for a language tag is the one parsed from the tag, under every schedule; a request panics only if the tag cannot be parsed; no thread waits for ever; tags of different texts have different objects; and all threads get the same object for the same tag.", "quantifier": "every number of threads, all sequences of requests, every schedule, every earlier use of the registry, every parser", "why_tests_cant": "Whether two threads meet between the look-up and the insertion depends on the scheduler.", "anchors": ["crates/utility/src/language.rs: icu_language 260-286"]}
{"id": "C77", "title": "A command may use the localiser that calls it", "statement": "A registered command can call the localiser that is executing it (through a static or thread local variable) for any text: no call meets a cell (RefCell) of the localiser that is already borrowed, and commands that call nothing are treated as if there were no cells.", "quantifier": "every provider, every registered command with any sequence of calls that may depend on earlier answers, every history of requests, every depth of calls within calls", "why_tests_cant": "The shipped commands call nothing; whether a borrow conflicts depends on the syntax of the string, on caching and on what was requested before.", "anchors": ["crates/localiser/src/localiser.rs: format 655-690, actual_format 941-1130, actual_literal 1133-1213, add_string_to_cache 1262-1304", "crates/localiser/src/formatter.rs: 75-187, 230-574, 1269-1328", "crates/localiser/src/command.rs: 34-36, 133-143"]}
{"id": "C78", "title": "Options of patterns have the documented meaning", "statement": "Given the options of a decimal or date_time pattern, the formatter accepts exactly the documented names and values (sign, group; date, time, calendar), an option that is absent has its default, the calendar replaces that of the locale, a rejection names what is wrong, and number, date and time are formatted with the options.", "quantifier": "every set of options, every language, every value, every behaviour of ICU", "why_tests_cant": "There are many combinations; the tests have patterns without options only, since strings with options are rejected (C19).", "anchors": ["crates/localiser/src/formatter.rs: 84-92, 230-404, 1050-1170", "crates/localiser/docs/pattern strings.asciidoc: 20-62"]}
{"id": "C79", "title": "Plural and ordinal patterns take positive integers only", "statement": "A plural or ordinal pattern gives a text for every positive integer, of whichever type of integer value, and an error for any other value, as documented.", "quantifier": "every value, every behaviour of ICU", "why_tests_cant": "Tests format unsigned integers.", "anchors": ["crates/localiser/src/formatter.rs: 405-500", "crates/localiser/docs/pattern strings.asciidoc: 65"]}
{"id": "C80", "title": "An error of formatting tells the cause", "statement": "When format returns an error, it is that of the first item in the order of the text that has no text: a placeholder without value, a value of the wrong type, an ISO date or time that cannot be read, missing data of ICU, a category or text that is not among the selectors, a command that is missing or fails; for an item that selects a named string, the error of that string. Errors about the inner structure (nodes, indices, named patterns) never occur.", "quantifier": "every pattern string, all values, every earlier use of the formatter, every behaviour of ICU and of commands", "why_tests_cant": "Tests see a few errors of short strings; with several wrong items and nested named strings, which error is returned depends on the order of evaluation.", "anchors": ["crates/localiser/src/formatter.rs: 189-574, 860-1017, 1269-1328", "crates/localiser/src/error.rs: 769-806"]}
{"id": "C81", "title": "A rejection of a pattern string tells the cause", "statement": "When a pattern string is rejected, the error is that of the tree (the string is no sentence of the syntax), or that there is no grammar character, or that of the first named string or item that cannot be accepted: a name used twice, an option, an unknown keyword, a selector that is no category or has no named string, the missing selector other, a command that is missing or fails. Errors about the inner structure never occur.", "quantifier": "every string, every language, every behaviour of ICU and of commands", "why_tests_cant": "There are few rejected strings in the tests, each with one mistake.", "anchors": ["crates/localiser/src/formatter.rs: 56-187, 576-672, 1019-1268", "crates/localiser/src/error.rs: 769-806"]}
{"id": "C82", "title": "An error of opening tells the cause", "statement": "When the SQLite provider cannot be created, the error tells what is wrong with the path, with an entry of the directory or with a database in it (a query that fails, a missing table, another version, a column that is missing or lacks the property that is named, or a default value that should not be there), and nothing panics.", "quantifier": "every directory, every content of the files", "why_tests_cant": "Tests open one directory with good files.", "anchors": ["crates/provider/sqlite3/src/provider.rs: try_new 114-246, verify_schema 1546-1930, columns_check 1947-2157", "crates/provider/sqlite3/src/error.rs: 38-46"]}
{"id": "C83", "title": "The ratio of a language is its share of the default language", "statement": "In the details of a component, and of the repository if it has a default language, the ratio of each language is the quotient of its number of strings and that of the default language, rounded to the nearest f32: 1 for the default language, 0 for a language without strings, never lower for a language with more strings. Without default language of the repository all its ratios are 0.", "quantifier": "every content of the databases, all counts", "why_tests_cant": "Tests look at one set of databases; rounding and empty default languages are not among it.", "anchors": ["crates/provider/sqlite3/src/provider.rs: build_cache 944-1135", "crates/provider/core/src/provider.rs: 131-160"]}
{"id": "C84", "title": "A syntax error tells where", "statement": "When the parser rejects a pattern string, the token in the error is the first one which no pattern string can have after the tokens before it, and the state in the error names the part of the syntax where it is; the error about a second number sign gives its position; the error that the string ended abruptly is given exactly for a string which is not complete but is the beginning of a pattern string.", "quantifier": "every string, every behaviour of the segmenter", "why_tests_cant": "Tests have a few strings with one mistake each; that no continuation is possible cannot be tested.", "anchors": ["crates/localiser/src/tree.rs: 131-696", "crates/localiser/src/error.rs: 31-60"]}
{"id": "C85", "title": "A pattern string has one reading", "statement": "The syntax of pattern strings is unambiguous: a string that the parser accepts stands for one sequence of texts, placeholders, patterns, commands, number signs and named strings only.", "quantifier": "every string, every behaviour of the segmenter", "why_tests_cant": "That no second reading exists is about all derivations of a string; tests compare the tree of a few strings with one expected tree.", "anchors": ["crates/localiser/src/tree.rs: 131-696", "crates/localiser/docs/pattern strings.asciidoc"]}
{"id": "C86", "title": "Every pattern can be written, and its spelling does not matter", "statement": "Every composition of texts (of any characters), number signs, placeholders, patterns, commands and named strings can be written as a pattern string that is read as exactly that composition, different ones are written differently, and nothing else is read from any string. Two strings read as the same composition, however they are spaced and whatever is escaped, are accepted alike and format alike.", "quantifier": "all compositions, all strings, all values, every earlier use of the formatter", "why_tests_cant": "Tests read single strings; a round trip for all compositions and all spellings has infinitely many cases.", "anchors": ["crates/localiser/src/tree.rs: 131-696", "crates/localiser/src/formatter.rs: 56-187, 576-1328", "crates/lexer/src/lexer.rs: 115-263", "crates/localiser/docs/pattern strings.asciidoc"]}
{"id": "C87", "title": "An error of a request tells the cause", "statement": "When a request to the localiser fails, then because of a string that it needs, itself or for a nested value: the provider has no such string or fails, the string is no pattern string or is rejected, or the values are wrong, and the error is the one that describes this cause. What was asked before does not make a request fail.", "quantifier": "every provider, every history of requests with any use of caching and defaults, any nesting of values", "why_tests_cant": "Tests look at two or three errors of a fresh localiser.", "anchors": ["crates/localiser/src/localiser.rs: 941-1304", "crates/localiser/src/error.rs: 472-479"]}
{"id": "C88", "title": "What is stored is what is shown", "statement": "A pattern that is stored as written for a component, an identifier and a tag in the first database asked, no earlier row having a tag that continues it, is shown by the localiser on a request with that tag exactly as the pattern means for the values given, together with that tag; the tag may be asked for in any spelling that the registry takes; and if the pattern is not accepted, or means nothing for the values, no text is given. This holds for the first request whatever else is cached, and for later ones after requests for which the cache does not matter, unless the localiser panics.", "quantifier": "every directory that opens, every content of its databases with tags spelt as the registry does but for letter case, all compositions, all values, every earlier history of requests", "why_tests_cant": "It joins opening, look-up, registry, cache, lexer, parser and formatter; tests go this way with a handful of strings.", "anchors": ["crates/provider/sqlite3/src/provider.rs: 114-246, 320-470, 1178-1259", "crates/localiser/src/localiser.rs: 941-1130", "crates/localiser/src/tree.rs: 131-696", "crates/localiser/src/formatter.rs: 56-187, 576-1328", "crates/localiser/docs/pattern strings.asciidoc"]}
{"id": "C89", "title": "What is cached is used again", "statement": "After a request with caching that was answered, and any other requests, a request for the same strings neither fetches nor parses them again: its answer, and what it leaves in the cache, do not depend on the provider any more.", "quantifier": "every provider, and every other provider put in its place afterwards; every history of requests, with any nesting of values", "why_tests_cant": "Tests compare texts only; that the provider is not asked again is a statement about two executions with different providers.", "anchors": ["crates/localiser/src/localiser.rs: 941-1304", "crates/localiser/README.asciidoc: 50", "crates/localiser/src/lib.rs: 57"]}
{"id": "C90", "title": "An error of the provider tells its cause", "statement": "A request for one string, or for all strings, that the SQLite provider does not answer tells the cause, and only then: the component is unknown exactly if it is not served; an error of the database comes exactly if a database that is asked cannot be read, the second being asked only if the first has no row; an error of the registry comes exactly if a row that would be answered has a tag that is not accepted. Nothing is found exactly if all databases can be read and have no row. There is no other error and no panic.", "quantifier": "every directory that opens, every content of its databases, readable or not, every registry, all components, identifiers and tags", "why_tests_cant": "Damaged databases and wrong tags come in too many places; tests have only good databases.", "anchors": ["crates/provider/sqlite3/src/provider.rs: 320-470, 1178-1383", "crates/provider/sqlite3/src/error.rs"]}
{"id": "C91", "title": "Other strings do not matter", "statement": "What a localiser over the SQLite provider answers depends only on the rows for the strings that the requests need and on the default languages of their components: rows that are added, removed or changed for other strings, and other components, change no answer.", "quantifier": "every pair of stores, every history of requests with any nesting of values", "why_tests_cant": "It is a statement about two executions with different databases; a translator who edits one component wants it for all others.", "anchors": ["crates/provider/sqlite3/src/provider.rs: 320-470, 944-1135, 1178-1383", "crates/localiser/src/localiser.rs: 941-1260"]}
{"id": "C92", "title": "A localiser begins and stays as it was asked to be", "statement": "A new localiser has an empty cache, the flags given, the canonical form of the tag given as default language and the script data of its script, or is refused with the error of the registry if the tag is not well formed; it never panics. Later, whatever is done with the localiser and the registry, default_language is the tag accepted last, the same allocation as the registry gives for exactly the spellings of this language, and script_data is what script_data_for_language_tag gives for it.", "quantifier": "every history of the registry, every tag given, every program of registry requests, changes of defaults and requests for texts", "why_tests_cant": "It concerns every sequence of uses of two shared objects; the tests create a localiser and make one request.", "anchors": ["crates/localiser/src/localiser.rs: 130-158, 495-551, 918-933, 1314-1352", "crates/utility/src/language.rs: 157-232"]}
{"id": "C93", "title": "Threads that share a localiser never wait forever", "statement": "With the feature `sync`, threads that share a localiser never wait for each other, or for themselves, forever; each comes to its end if it gets its turn again and again, whether the locks prefer readers or writers.", "quantifier": "every number of threads, every list of requests for each, every schedule, every policy of the locks, all strings, and commands that call the localiser", "why_tests_cant": "A deadlock needs one of very many schedules and depends on the platform's locks; it cannot be excluded by running threads.", "anchors": ["crates/localiser/src/localiser.rs: 495-551, 655-680, 941-1304", "crates/localiser/src/formatter.rs: 190-578"]}
{"id": "C94", "title": "There is a text exactly if everything that is shown can be shown", "statement": "A call of format gives a text exactly if every item that it reaches, in the main string and in the named strings that its values select, can be shown for itself: it has a value of the right type, the data of ICU are there, the category or text is among its selectors, its command succeeds. What was formatted before does not matter, nor do items in strings that are not selected.", "quantifier": "every pattern string, all values, every earlier use of the formatter, every behaviour of ICU and of commands", "why_tests_cant": "It is an equivalence over all trees of selections; tests show that some strings work and some fail.", "anchors": ["crates/localiser/src/formatter.rs: 189-578, 860-1017, 1269-1328"]}
{"id": "C95", "title": "A text is shown in the language documented", "statement": "A request for a string that is stored for the requested language with subtags dropped from its end, and for none with fewer dropped, shows exactly what the stored pattern means there, with the tag of that language. If nothing is stored for any of these and fallback is on, the same holds for the default language of the component, which is the tag in the last row for it in the table component; without fallback, or if nothing is stored for the default language either, the error names the string and the requested tag and tells whether fallback was on, and nothing changes. The localiser panics instead only if it caches and has cached something for the requested language and nothing for the language shown.", "quantifier": "every directory that opens, every content of its databases with tags spelt as the registry does but for letter case, all compositions, all values, every state of the cache that has nothing for the string, all flags", "why_tests_cant": "It joins opening, look-up by truncation, details, registry, cache, lexer, parser and formatter; tests go this way for one language that is missing.", "anchors": ["crates/provider/sqlite3/src/provider.rs: 320-470, 944-1135, 1178-1259", "crates/localiser/src/localiser.rs: 941-1130", "crates/localiser/src/formatter.rs: 56-187", "crates/provider/core/src/provider.rs: 61-66", "crates/localiser/src/localiser.rs: 62-66, 162-164"]}
{"id": "C96", "title": "Exactly when a request panics", "statement": "Preparing a pattern string panics exactly if its tokens make the parser panic (C11), if ICU does not read the language tag of a string that is read, or if the first item that cannot be accepted is a command whose function panics. A call of format panics exactly if, after items that have texts, it comes to a command whose function panics, in the main string or in the named strings that are selected, or if it never ends (C20). A request to the localiser panics exactly for one of these reasons or the one of C30. Of the commands of this repository only english_a_or_an panics, for an empty text as value, never while a string is read.", "quantifier": "every string, every language tag, all values, every earlier use of the formatter, every state of the cache, every behaviour of ICU, of the provider and of commands", "why_tests_cant": "It excludes every other panic, of indexing, unwrapping or recursion, for all inputs; a test that does not panic says nothing of the next input.", "anchors": ["crates/localiser/src/formatter.rs: 56-578, 1021-1361", "crates/localiser/src/localiser.rs: 941-1130", "crates/localiser/src/command.rs: 205-229"]}
{"id": "C97", "title": "A panic in one thread does not make other threads panic", "statement": "With the feature `sync`, if a call of one thread panics, the calls of other threads that share the localiser are answered as if that call had not been made; in particular no lock stays poisoned.", "quantifier": "every number of threads, every list of requests for each, every schedule, all strings, values and commands", "why_tests_cant": "It needs a panic in one thread and then all possible requests of all others; tests that share a localiser have no panics.", "anchors": ["crates/localiser/src/localiser.rs: 941-1304"]}
{"id": "C98", "title": "The settings of a shared localiser can always be read and set", "statement": "With the feature `sync`, the locks of the default language, of its script data and of the defaults for fallback and caching are never poisoned, whatever threads and commands do and however often they panic, and a thread that sets the defaults never panics; a lock becomes poisoned only by a thread that holds it for writing.", "quantifier": "every number of threads, every list of requests for each, every schedule, every policy of the locks, all strings and values, and commands that call the localiser or panic", "why_tests_cant": "It needs panics at every point of every schedule and then the use of every setting; tests that share a localiser have no panics.", "anchors": ["crates/localiser/src/localiser.rs: 495-551, 561-680, 918-933, 941-1304"]}
{"id": "C99", "title": "Different errors have different messages", "statement": "Two different errors of the localiser, of the providers, of the formatter, of its parser or of its commands have different messages (Display), so the message tells the error; the position of a syntax error is told in decimal digits.", "quantifier": "all errors, all texts and numbers in them", "why_tests_cant": "It compares the messages of all pairs of errors with all possible texts in them.", "anchors": ["crates/localiser/src/error.rs: 217-251, 425-455, 635-675, 1731-1856", "crates/localiser/src/tree.rs: 917-931", "crates/provider/core/src/error.rs: 204-235", "crates/provider/sqlite3/src/error.rs: 215-250, 460-513", "crates/utility/src/error.rs: 79-93"]}
