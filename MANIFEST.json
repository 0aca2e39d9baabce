{"claims":[
{"property": "C01", "status": "proved", "theorems": ["Verif.Props.C01_tokens_partition"], "note": ""},
{"property": "C02", "status": "proved", "theorems": ["Verif.Props.C02_positions_exact"], "note": ""},
{"property": "C03", "status": "proved", "theorems": ["Verif.Props.C03_maximal_runs"], "note": ""},
{"property": "C04", "status": "proved", "theorems": ["Verif.Props.C04_terminates_and_fused", "Verif.Props.C04_construction"], "note": ""},
{"property": "C05", "status": "proved", "theorems": ["Verif.Props.C05_prefix_stable", "Verif.Props.C05_grammar_set", "Verif.Props.C05_grammar_tokens_are_syntax"], "note": ""},
{"property": "C06", "status": "proved", "theorems": ["Verif.Props.C06_canonical_in_every_history", "Verif.Props.C06_all_answered", "Verif.Props.C06_failure_changes_nothing"], "note": "canonicalisation is a parameter, assumed idempotent"},
{"property": "C07", "status": "proved", "theorems": ["Verif.Props.C07_interned"], "note": ""},
{"property": "C08", "status": "proved", "theorems": ["Verif.Props.C08_listings"], "note": ""},
{"property": "C09", "status": "proved", "theorems": ["Verif.Props.C09_concurrent_values", "Verif.Props.C09_no_deadlock", "Verif.Props.C09_quiescent_list"], "note": ""},
{"property": "C10", "status": "partial", "theorems": ["Verif.Props.C10_interned_exactly_partial", "Verif.Props.C10_interned_when_registered_before_partial", "Verif.Props.C10_unlisted_partial", "Verif.Props.C10_interning_violated", "Verif.Props.C10_deprecated_listing_violated"], "note": "the code violates the claim: lookup and insertion are separate critical sections, so racing threads create two objects; proved exactly when: a tag is interned under every schedule if and only if it was registered before the threads start or at most one thread asks for it; under the same condition its canonical spelling is never listed as deprecated"},
{"property": "C11", "status": "partial", "theorems": ["Verif.Props.C11_panics_exactly_partial", "Verif.Props.C11_panics_only_on_two_shapes_partial", "Verif.Props.C11_no_number_sign_no_panic_partial", "Verif.Props.C11_violated"], "note": "the code violates the claim: two shapes of pattern string panic; proved exactly which strings do, none without a number sign"},
{"property": "C12", "status": "proved", "theorems": ["Verif.Props.C12_tree_well_formed"], "note": ""},
{"property": "C13", "status": "proved", "theorems": ["Verif.Props.C13_escaped_text_round_trips"], "note": ""},
{"property": "C14", "status": "proved", "theorems": ["Verif.Props.C14_placeholders_are_substituted"], "note": ""},
{"property": "C15", "status": "partial", "theorems": ["Verif.Props.C15_rejected_everywhere_partial", "Verif.Props.C15_every_literal_text_rejected_partial", "Verif.Props.C15_violated"], "note": "the code violates the claim: literal text never ends, so every string with literal text, in the main string, a named string or a command, is rejected; proved in that generality"},
{"property": "C16", "status": "proved", "theorems": ["Verif.Props.C16_repetition_rejected", "Verif.Props.C16_reported_identifier_occurs_twice"], "note": ""},
{"property": "C17", "status": "partial", "theorems": ["Verif.Props.C17_opened_braces_are_closed_partial", "Verif.Props.C17_every_brace_partial", "Verif.Props.C17_ignored_exactly_partial", "Verif.Props.C17_ends_outside_partial", "Verif.Props.C17_violated"], "note": "the code violates the claim: an opening brace among the selectors of a keyword pattern is ignored. Proved: the other opening braces of an accepted string are exactly those which are escaped, or open a placeholder, a command or a named string whose closing brace follows; and an accepted string ends outside of all of these"},
{"property": "C18", "status": "partial", "theorems": ["Verif.Props.C18_branch_named_as_category_partial", "Verif.Props.C18_reached_partial", "Verif.Props.C18_category_must_be_named_partial", "Verif.Props.C18_violated"], "note": "the code violates the claim: the branch is ignored and the category is taken as the name of the string, so the documented example is rejected; proved for branches named as their category (all of them, or only those that the call reaches), and that categories must be names of strings"},
{"property": "C19", "status": "partial", "theorems": ["Verif.Props.C19_without_options_partial", "Verif.Props.C19_every_option_rejected_partial", "Verif.Props.C19_violated", "Verif.Props.C19_no_calendar_accepted"], "note": "the code violates the claim: proved that every pattern string with an option is rejected, that the keywords without options work, and that no calendar would be accepted even if options were read"},
{"property": "C20", "status": "partial", "theorems": ["Verif.Props.C20_ends_partial", "Verif.Props.C20_endless_exactly_partial", "Verif.Props.C20_others_end_partial", "Verif.Props.C20_violated"], "note": "the code violates the claim: select with _ recurses without end; proved exactly which accepted pattern strings never end for which values, and that all other calls end"},
{"property": "C21", "status": "partial", "theorems": ["Verif.Props.C21_listed_categories_partial", "Verif.Props.C21_exactly_partial", "Verif.Props.C21_missing_category_fails_partial", "Verif.Props.C21_violated"], "note": "the code violates the claim: a category that is not listed is an error (proved for all pattern strings); proved for listed categories, and that where the documented text exists it is given exactly if every plural or ordinal pattern reached lists its category"},
{"property": "C22", "status": "partial", "theorems": ["Verif.Props.C22_history_is_irrelevant_partial", "Verif.Props.C22_only_strings_selected_by_text_partial", "Verif.Props.C22_violated"], "note": "the code violates the claim: a string with # selected by select shows the number of an earlier call; proved when no select pattern lists a string with #, and whenever two histories leave the same numbers with the strings with # that a text selects in the call"},
{"property": "C23", "status": "proved", "theorems": ["Verif.Props.C23_number_sign_shows_selecting_number"], "note": ""},
{"property": "C24", "status": "proved", "theorems": ["Verif.Props.C24_only_mentioned_values_matter", "Verif.Props.C24_missing_value_is_an_error"], "note": ""},
{"property": "C25", "status": "partial", "theorems": ["Verif.Props.C25_year_month_day_partial", "Verif.Props.C25_year_month_partial", "Verif.Props.C25_negative_year_partial", "Verif.Props.C25_basic_partial", "Verif.Props.C25_accepted_exactly_partial", "Verif.Props.C25_violated"], "note": "the code violates the claim: strings of other shapes are accepted and +YYYYY loses digits; proved that every documented format other than +YYYYY gives exactly the written date, and exactly which strings are accepted for which dates"},
{"property": "C26", "status": "partial", "theorems": ["Verif.Props.C26_time_partial", "Verif.Props.C26_seconds_rejected_partial", "Verif.Props.C26_accepted_exactly_partial", "Verif.Props.C26_violated"], "note": "the code violates the claim: hh:mm:ss without fraction is always rejected (proved for all such strings), a trailing Z is rejected or ignored, a fraction counts nanoseconds, other shapes are accepted; proved exact for the remaining documented formats, and exactly which strings are accepted for which times"},
{"property": "C27", "status": "proved", "theorems": ["Verif.Props.C27_lookup_gives_first_insertion", "Verif.Props.C27_write_once", "Verif.Props.C27_list_holds_each_name_once"], "note": ""},
{"property": "C28", "status": "partial", "theorems": ["Verif.Props.C28_panics_exactly_partial", "Verif.Props.C28_results_partial", "Verif.Props.C28_errors_partial", "Verif.Props.C28_violated"], "note": "the code violates the claim; proved exactly which parameter vectors panic and what the results are"},
{"property": "C29", "status": "partial", "theorems": ["Verif.Props.C29_answers_as_without_cache_partial", "Verif.Props.C29_never_caching_partial", "Verif.Props.C29_violated", "Verif.Props.C29_entries_iff", "Verif.Props.C29_literal_differs_iff", "Verif.Props.C29_format_differs_iff"], "note": "the code violates the claim in five ways; proved for all histories that avoid them (no slash in component names, fallback used alike for one pattern, no pattern with grammar used both as it is and formatted, no select pattern listing a string with #); exactly what the cache can hold, and which requests for strings and patterns can be answered otherwise than without caching, after all histories without panics"},
{"property": "C30", "status": "partial", "theorems": ["Verif.Props.C30_literal_panics_exactly_partial", "Verif.Props.C30_format_panics_only_partial", "Verif.Props.C30_exact_tag_never_panics_partial", "Verif.Props.C30_violated", "Verif.Props.C30_literal_panics_iff", "Verif.Props.C30_format_panics_iff"], "note": "the code violates the claim; proved for every state of the cache exactly when a request panics, and exactly which requests for strings and patterns can panic after histories without panics"},
{"property": "C31", "status": "partial", "theorems": ["Verif.Props.C31_entry_is_of_its_string_partial", "Verif.Props.C31_keys_differ_partial", "Verif.Props.C31_keys_exactly_partial", "Verif.Props.C31_exactly_partial", "Verif.Props.C31_violated"], "note": "the code violates the claim for component names with a slash; proved for all others and every history; for all names, exactly which strings share an entry and which of two requests is answered wrongly"},
{"property": "C32", "status": "proved", "theorems": ["Verif.Props.C32_fallback_order", "Verif.Props.C32_no_fallback_no_default"], "note": "a caching request may still panic, as C30 describes"},
{"property": "C33", "status": "proved", "theorems": ["Verif.Props.C33_script_data_follows_language", "Verif.Props.C33_threads_end"], "note": ""},
{"property": "C34", "status": "proved", "theorems": ["Verif.Props.C34_nested_data_resolves", "Verif.Props.C34_cases", "Verif.Props.C34_every_depth"], "note": "without caching; what caching changes is C29"},
{"property": "C35", "status": "partial", "theorems": ["Verif.Props.C35_longest_truncation_partial", "Verif.Props.C35_found_unless_none_matches", "Verif.Props.C35_exactly_partial", "Verif.Props.C35_violated", "Verif.Props.C35_violated_for_every_tag", "Verif.Props.C35_like_as_documented"], "note": "the code violates the claim for components in both places: a shorter tag in the database of all components hides a longer one in the own file; proved for components in one place, and that nothing is returned only if nothing matches for all; for components in both places exactly when the claim holds; every tag with a hyphen is affected"},
{"property": "C36", "status": "partial", "theorems": ["Verif.Props.C36_exact_preferred_partial", "Verif.Props.C36_sorted_partial", "Verif.Props.C36_exactly_partial", "Verif.Props.C36_violated", "Verif.Props.C36_violated_for_every_tag"], "note": "the code violates the claim if SQLite returns the row of a longer tag first; proved if the exact row comes before all that its tag is a prefix of, in particular if rows come in the order of the tags; exactly with which rows the claim holds whatever their order; every tag is affected"},
{"property": "C37", "status": "partial", "theorems": ["Verif.Props.C37_only_exact_partial", "Verif.Props.C37_never_longer", "Verif.Props.C37_exactly_partial", "Verif.Props.C37_both_exactly_partial", "Verif.Props.C37_violated", "Verif.Props.C37_violated_missed", "Verif.Props.C37_violated_for_every_tag"], "note": "the code violates the claim: the exact look-up truncates too, and a shorter tag in the database of all components hides the exact row of the own file; proved for tags without hyphen, and that the tag found is a truncation for all; proved exactly when the claim holds, for components in one place and in both; every tag with a hyphen can be answered wrongly"},
{"property": "C38", "status": "partial", "theorems": ["Verif.Props.C38_same_language_partial", "Verif.Props.C38_exactly_partial", "Verif.Props.C38_violated", "Verif.Props.C38_violated_for_every_tag"], "note": "the code violates the claim: enm is returned for en; proved for stores without tags that extend a truncation by something else than a new subtag, and exactly with which rows the claim holds whatever their order; every tag is affected"},
{"property": "C39", "status": "proved", "theorems": ["Verif.Props.C39_components_served", "Verif.Props.C39_any_order", "Verif.Props.C39_connections_available", "Verif.Props.C39_requests_never_panic"], "note": "the opening itself can panic on names that are not UTF-8 (C39_opening_can_panic); no request does afterwards"},
{"property": "C40", "status": "partial", "theorems": ["Verif.Props.C40_totals_consistent_partial", "Verif.Props.C40_exactly_partial", "Verif.Props.C40_violated"], "note": "the code violates the claim if two stored tags have one canonical form; C40_exactly_partial says for every successful build of the cache exactly which totals are too large"},
{"property": "C41", "status": "proved", "theorems": ["Verif.Props.C41_never_panics", "Verif.Props.C41_one_set_of_details", "Verif.Props.C41_fixed_once_reported", "Verif.Props.C41_retry"], "note": ""},
{"property": "C42", "status": "partial", "theorems": ["Verif.Props.C42_accepted_iff", "Verif.Props.C42_missing_table_rejected", "Verif.Props.C42_wrong_column_rejected", "Verif.Props.C42_incomplete_rejected_partial", "Verif.Props.C42_violated"], "note": "the code violates the claim for tables that lack trailing columns; proved exactly what is accepted"},
{"property": "C43", "status": "proved", "theorems": ["Verif.Props.C43_shared_then_own"], "note": ""},
{"property": "C44", "status": "partial", "theorems": ["Verif.Props.C44_lists_stored_languages_partial", "Verif.Props.C44_exactly_partial", "Verif.Props.C44_violated", "Verif.Props.C44_violated_shadowed"], "note": "the code violates the claim for unknown identifiers of components that are only in the database of all components, and for components in both places; C44_exactly_partial says exactly when the claim holds"},
{"property": "C45", "status": "proved", "theorems": ["Verif.Props.C45_directions_coherent"], "note": ""},
{"property": "C46", "status": "proved", "theorems": ["Verif.Props.C46_icu_language_cached", "Verif.Props.C46_never_panics"], "note": ""},
{"property": "C47", "status": "proved", "theorems": ["Verif.Props.C47_accepts_exactly_the_grammar"], "note": ""},
{"property": "C48", "status": "proved", "theorems": ["Verif.Props.C48_accepted_exactly", "Verif.Props.C48_format_gives_the_meaning", "Verif.Props.C48_panics_only_from_parser_and_commands"], "note": ""},
{"property": "C49", "status": "proved", "theorems": ["Verif.Props.C49_defaults_are_those_set_last", "Verif.Props.C49_defaults_never_set"], "note": ""},
{"property": "C50", "status": "partial", "theorems": ["Verif.Props.C50_answers_as_without_cache_partial", "Verif.Props.C50_warm_cache_partial", "Verif.Props.C50_violated", "Verif.Props.C50_literal_panics_iff", "Verif.Props.C50_format_panics_iff", "Verif.Props.C50_literal_never_panics_partial", "Verif.Props.C50_literal_answers_iff", "Verif.Props.C50_format_answers_iff"], "note": "the code violates the claim: two threads that format different patterns of a language without entries race, and one panics; proved for every schedule up to panics under the conditions of C29 for threads that do not change language or fallback, and without panics when the languages already have entries and strings are found under the requested tags; exactly which answers a request of a new localiser can get, and when it can panic, whatever other threads do, is proved for requests for strings and to format patterns with given options"},
{"property": "C51", "status": "proved", "theorems": ["Verif.Props.C51_one_thread_as_without_locks"], "note": ""},
{"property": "C52", "status": "proved", "theorems": ["Verif.Props.C52_component_details_report_store", "Verif.Props.C52_default_language"], "note": ""},
{"property": "C53", "status": "partial", "theorems": ["Verif.Props.C53_repository_unites_components_partial", "Verif.Props.C53_languages_without_contributors", "Verif.Props.C53_violated"], "note": "the code violates the claim: contributors are never stored per language in the repository details; the rest is proved"},
{"property": "C54", "status": "proved", "theorems": ["Verif.Props.C54_replies_as_unshared"], "note": ""},
{"property": "C55", "status": "partial", "theorems": ["Verif.Props.C55_reported_tag_returns_it_partial", "Verif.Props.C55_violated", "Verif.Props.C55_exactly_partial", "Verif.Props.C55_localiser_partial", "Verif.Props.C55_canonical_store_partial", "Verif.Props.C55_violated_by_underscore"], "note": "the code violates the claim when the registry replaces the tag of a stored row by another tag; proved when it changes only the case (so for every store with canonical tags), also for the localiser on top of the provider. C55_exactly_partial: it holds for a string of a store exactly if every row that is found under a beginning of its own tag is found again under the tag that the registry gives for it"},
{"property": "C56", "status": "partial", "theorems": ["Verif.Props.C56_one_computation_partial", "Verif.Props.C56_one_asking_thread_partial", "Verif.Props.C56_each_from_a_computation_partial", "Verif.Props.C56_any_two_contents", "Verif.Props.C56_violated"], "note": "the code violates the claim: the two once-cells are set one after the other, so two threads that compute meanwhile from different contents may each fill one of them. Proved: with a store that does not change; with any changes of the store if only one thread asks for details (others may ask for strings); and with any threads and changes that each of the two is the result of one computation. Conversely, C56_any_two_contents: for any two contents with details some schedule of two asking threads and one change leaves the component details of the first beside the repository details of the second, so the conditions cannot be weakened"},
{"property": "C57", "status": "partial", "theorems": ["Verif.Props.C57_errors_with_a_text_partial", "Verif.Props.C57_violated", "Verif.Props.C57_violated_italian", "Verif.Props.C57_as_localisation_data"], "note": "the code violates the claim: the strings of many errors are missing (component names that no database has) or have placeholders that the error does not give; the theorem says exactly which errors have a text. Without fallback no error has an Italian text"},
{"property": "C58", "status": "partial", "theorems": ["Verif.Props.C58_lexer_database_breaks_details", "Verif.Props.C58_no_fallback", "Verif.Props.C58_no_error_in_italian", "Verif.Props.C58_others_usable", "Verif.Props.C58_others_work"], "note": "the code violates the claim: the database of the lexer has a wrong component name, with it no details and no fallback for any component; the other three can be used together, and with any usable components"},
{"property": "C59", "status": "partial", "theorems": ["Verif.Props.C59_agrees_with_display_partial", "Verif.Props.C59_violated"], "note": "the code violates the claim for 12 kinds of errors; the theorem says exactly which errors agree"},
{"property": "C60", "status": "proved", "theorems": ["Verif.Props.C60_details_iff_usable", "Verif.Props.C60_error_tells_fault", "Verif.Props.C60_error_otherwise"], "note": ""},
{"property": "C61", "status": "proved", "theorems": ["Verif.Props.C61_order_of_components", "Verif.Props.C61_error_depends_on_order", "Verif.Props.C61_possible_errors"], "note": "if there are no details, which of several errors is returned does depend on the order; the claim does not say otherwise. C61_possible_errors: over all orders exactly the errors of the single components can be returned"},
{"property": "C62", "status": "partial", "theorems": ["Verif.Props.C62_text_of_any_order_partial", "Verif.Props.C62_possible_errors", "Verif.Props.C62_with_cache_partial", "Verif.Props.C62_violated", "Verif.Props.C62_error_depends_on_order"], "note": "the code violates the claim: with caching the order decides whether there is a text or a panic; without caching, and with caching under the conditions of C29, the text does not depend on the order. C62_possible_errors: without caching, over all orders at all depths exactly the errors of the strings that can spoil it are returned"},
{"property": "C63", "status": "proved", "theorems": ["Verif.Props.C63_accepted_iff_well_formed", "Verif.Props.C63_canonical", "Verif.Props.C63_canonical_kept", "Verif.Props.C63_idempotent"], "note": "about a reference model of icu_locid::LanguageIdentifier, which is not in the repository"},
{"property": "C64", "status": "proved", "theorems": ["Verif.Props.C64_same_parts", "Verif.Props.C64_same_object", "Verif.Props.C64_case_and_separators"], "note": "about a reference model of icu_locid::LanguageIdentifier, which is not in the repository"},
{"property": "C65", "status": "partial", "theorems": ["Verif.Props.C65_violated", "Verif.Props.C65_features_do_not_matter_partial", "Verif.Props.C65_names", "Verif.Props.C65_every_build", "Verif.Props.C65_script_type"], "note": "the code violates the claim: the type is chosen by a feature named extend, which does not exist, so tags with extensions are always rejected"},
{"property": "C66", "status": "proved", "theorems": ["Verif.Props.C66_shorter_tags_are_tags", "Verif.Props.C66_no_wildcards"], "note": ""},
{"property": "C67", "status": "proved", "theorems": ["Verif.Props.C67_data_of_the_script", "Verif.Props.C67_in_the_localiser"], "note": "the likely scripts are a parameter"},
{"property": "C68", "status": "partial", "theorems": ["Verif.Props.C68_violated", "Verif.Props.C68_codes_partial"], "note": "the code violates the claim: three codes are misspelt, Yezi is inserted twice with different data and Yi is missing; proved for all other codes"},
{"property": "C69", "status": "partial", "theorems": ["Verif.Props.C69_directions_listed", "Verif.Props.C69_right_to_left_partial", "Verif.Props.C69_violated"], "note": "the code violates the claim for five scripts, among them Armenian and Kannada; proved for all others"},
{"property": "C70", "status": "proved", "theorems": ["Verif.Props.C70_same_formatter", "Verif.Props.C70_same_texts", "Verif.Props.C70_any_order", "Verif.Props.C70_error_depends_on_order"], "note": "if the pattern string is rejected, which of several errors is returned does depend on the order; the claim does not say otherwise"},
{"property": "C71", "status": "partial", "theorems": ["Verif.Props.C71_resolver", "Verif.Props.C71_only_declared", "Verif.Props.C71_violated", "Verif.Props.C71_usable_iff_partial", "Verif.Props.C71_provider_exists", "Verif.Props.C71_no_text_partial", "Verif.Props.C71_try_new"], "note": "the code violates the claim: with the default features the formatter has no data, and the variants for blobs and files depend on features that do not exist; the theorem says exactly when a provider can be used"},
{"property": "C72", "status": "partial", "theorems": ["Verif.Props.C72_violated", "Verif.Props.C72_same_pointers_partial"], "note": "the code violates the claim for requests for sync of a single crate; the theorem says exactly when the crates agree"},
{"property": "C73", "status": "partial", "theorems": ["Verif.Props.C73_violated", "Verif.Props.C73_shareable_iff_sync_partial", "Verif.Props.C73_by_crate_partial", "Verif.Props.C73_localiser_fields_partial", "Verif.Props.C73_localiser_fields_by_crate_partial", "Verif.Props.C73_localiser_fields_moved"], "note": "the code violates the claim: a localiser, its registry of commands and the errors can be shared in no build; proved for all other types, and which fields of the localiser are at fault"},
{"property": "C74", "status": "proved", "theorems": ["Verif.Props.C74_like", "Verif.Props.C74_pattern", "Verif.Props.C74_languages", "Verif.Props.C74_identifier_languages", "Verif.Props.C74_contributors", "Verif.Props.C74_count", "Verif.Props.C74_default"], "note": "the meaning of SQL is that of the reader and evaluator in Spec/Sql.lean"},
{"property": "C75", "status": "partial", "theorems": ["Verif.Props.C75_violated", "Verif.Props.C75_accepted_prepares_partial"], "note": "the code violates the claim: tables with too few columns are accepted; the theorem says exactly which accepted files can be queried"},
{"property": "C76", "status": "partial", "theorems": ["Verif.Props.C76_values", "Verif.Props.C76_different_objects", "Verif.Props.C76_never_waits", "Verif.Props.C76_same_object_partial", "Verif.Props.C76_same_object_exactly_partial", "Verif.Props.C76_violated"], "note": "the code violates the last part of the claim: two threads that ask at the same time for the first time get different objects; everything else is proved, and the last part exactly: threads get one object under every schedule if and only if there is an entry when they start or at most one of them asks (for tags that ICU can parse)"},
{"property": "C77", "status": "partial", "theorems": ["Verif.Props.C77_as_without_cells", "Verif.Props.C77_harmless_commands_partial", "Verif.Props.C77_immediate_commands_partial", "Verif.Props.C77_uncached_partial", "Verif.Props.C77_violated"], "note": "the code violates the claim: a delayed command that asks for something to be cached, or for its own string, meets a borrowed cell; proved for immediate commands, without caching, and for commands that ask only for uncached strings as they are"},
{"property": "C78", "status": "partial", "theorems": ["Verif.Props.C78_decimal", "Verif.Props.C78_date_time_partial", "Verif.Props.C78_calendar_locale", "Verif.Props.C78_decimal_errors_partial", "Verif.Props.C78_decimal_used", "Verif.Props.C78_date_time_used", "Verif.Props.C78_violated"], "note": "the code violates the claim: two calendars have other names than documented, and errors tell the value for the name of an option and a wrong keyword; proved for all other options; about what the formatter does with options it was given, since strings with options are rejected (C19)"},
{"property": "C79", "status": "partial", "theorems": ["Verif.Props.C79_violated", "Verif.Props.C79_numbers_partial", "Verif.Props.C79_exactly_partial"], "note": "the code violates the claim: plural takes any number, ordinal takes zero and rejects positive integers that are not of the unsigned type; proved that exactly numbers of all types, and exactly values of the unsigned type, are taken if all categories of the language are listed"},
{"property": "C80", "status": "proved", "theorems": ["Verif.Props.C80_error_tells_the_cause", "Verif.Props.C80_fails_exactly", "Verif.Props.C80_one_error", "Verif.Props.C80_time_is_calendar"], "note": "the index in the error for a missing selector is not determined"},
{"property": "C81", "status": "proved", "theorems": ["Verif.Props.C81_rejection_tells_the_cause", "Verif.Props.C81_causes_exclude", "Verif.Props.C81_possible_errors"], "note": "what the errors of options say is as found in C78; which of several wrong options or selectors of one item is told depends on the order of the hash map (C70): the errors returned in some order are exactly the assigned ones"},
{"property": "C82", "status": "partial", "theorems": ["Verif.Props.C82_opening", "Verif.Props.C82_file", "Verif.Props.C82_file_panics", "Verif.Props.C82_opening_panics", "Verif.Props.C82_property_is_lacking_partial", "Verif.Props.C82_violated"], "note": "the code violates the claim: it panics over names and paths that are not UTF-8, says that a column lacks PRIMARY KEY (or an empty property) when it must not belong to the primary key, and gives an error of SQLite for the default of a column of numbers; the true cause of every error, and exactly when it panics, are proved"},
{"property": "C83", "status": "partial", "theorems": ["Verif.Props.C83_quotient_partial", "Verif.Props.C83_one_value", "Verif.Props.C83_number_iff", "Verif.Props.C83_default_is_one", "Verif.Props.C83_none_is_zero", "Verif.Props.C83_order", "Verif.Props.C83_exponent", "Verif.Props.C83_component", "Verif.Props.C83_repository", "Verif.Props.C83_violated"], "note": "the code violates the claim: with a default language without strings the ratios are not numbers; proved otherwise for counts up to 2^24 exactly, for larger ones 1 for the default language and the order"},
{"property": "C84", "status": "partial", "theorems": ["Verif.Props.C84_places_begin", "Verif.Props.C84_first_wrong_token", "Verif.Props.C84_unexpected_token_partial", "Verif.Props.C84_second_number_sign", "Verif.Props.C84_ended_abruptly_partial", "Verif.Props.C84_literal_text_never_ends", "Verif.Props.C84_beginning_ends_abruptly", "Verif.Props.C84_violated"], "note": "the code violates the claim: a named string without content is blamed on its name, a syntax character or an escape at the start of its content on a later token, and literal text is said to end abruptly though nothing can end it; proved for everything else, and the exceptions exactly"},
{"property": "C85", "status": "proved", "theorems": ["Verif.Props.C85_one_reading", "Verif.Props.C85_string_one_reading"], "note": ""},
{"property": "C86", "status": "proved", "theorems": ["Verif.Props.C86_written_is_read", "Verif.Props.C86_read_is_composed", "Verif.Props.C86_written_injective", "Verif.Props.C86_spelling_does_not_matter", "Verif.Props.C86_normal_form"], "note": "for the grammar characters of the localiser and a segmenter that takes a space for white space and no grammar character for an identifier character"},
{"property": "C87", "status": "partial", "theorems": ["Verif.Props.C87_error_tells_the_cause_partial", "Verif.Props.C87_not_found_partial", "Verif.Props.C87_provider_error_partial", "Verif.Props.C87_never_partial", "Verif.Props.C87_violated", "Verif.Props.C87_literal_fails_iff", "Verif.Props.C87_format_fails_iff", "Verif.Props.C87_never_reached_with_threads", "Verif.Props.C87_never_violated"], "note": "the code violates the claim: a pattern string that was formatted with caching cannot be had as it is any more, nor a string of another component with the same key; proved for component names without slash that this is the only other cause; for all names, exactly with which errors requests for strings and patterns can fail after histories without panics; with threads the error that is said never to be reached is a possible answer to every cached request to format a pattern"},
{"property": "C88", "status": "proved", "theorems": ["Verif.Props.C88_formatter", "Verif.Props.C88_stored_is_shown", "Verif.Props.C88_stored_is_shown_again", "Verif.Props.C88_threads"], "note": "for the grammar characters of the localiser and a segmenter that takes a space for white space and no grammar character for an identifier character; tags are canonicalised by the reference model of icu_locid; later requests under the conditions of C29, requests of threads under those of C50"},
{"property": "C89", "status": "partial", "theorems": ["Verif.Props.C89_cached_needs_no_provider", "Verif.Props.C89_not_fetched_again_partial", "Verif.Props.C89_cached_exactly_partial", "Verif.Props.C89_literal_forgotten_iff", "Verif.Props.C89_format_forgotten_iff", "Verif.Props.C89_violated"], "note": "the code violates the claim: a text found under another tag than the requested one is cached under a tag with which it is not looked up, and storing it can make the localiser forget all that is cached for its language; proved when strings are found under the requested tag, exactly what is cached after one request, and over all histories without panics exactly which strings can be asked for again"},
{"property": "C90", "status": "proved", "theorems": ["Verif.Props.C90_unknown_component", "Verif.Props.C90_database", "Verif.Props.C90_refused_tag", "Verif.Props.C90_nothing", "Verif.Props.C90_answer", "Verif.Props.C90_no_other", "Verif.Props.C90_strings"], "note": "for requests with tags without the wildcards of LIKE, which no registry gives"},
{"property": "C91", "status": "partial", "theorems": ["Verif.Props.C91_only_rows_of_the_string", "Verif.Props.C91_only_needed_strings", "Verif.Props.C91_other_strings_partial", "Verif.Props.C91_exactly_partial", "Verif.Props.C91_violated"], "note": "the code violates the claim: a request with fallback fails if any component, asked for or not, lacks what its details need; proved for requests without fallback, and with it if all components have what details need, which C91_exactly_partial proves to be needed"},
{"property": "C92", "status": "proved", "theorems": ["Verif.Props.C92_creation", "Verif.Props.C92_default_language", "Verif.Props.C92_as_calls"], "note": "for one thread; that the localiser reads canonical tags as the registry does, and that the expander adds the likely script, is assumed of ICU4X"},
{"property": "C93", "status": "partial", "theorems": ["Verif.Props.C93_immediate_commands_partial", "Verif.Props.C93_only_defaults_partial", "Verif.Props.C93_commands_that_call_nothing", "Verif.Props.C93_harmless_commands_partial", "Verif.Props.C93_uncached_partial", "Verif.Props.C93_alone", "Verif.Props.C93_violated"], "note": "the code violates the claim for delayed commands that call the localiser: proved for commands that call nothing (as all of this repository), for immediate commands, for commands that only set the defaults, without caching, and, if readers do not wait for waiting writers, for harmless commands; exact for one thread"},
{"property": "C94", "status": "proved", "theorems": ["Verif.Props.C94_text_exactly", "Verif.Props.C94_history_does_not_matter"], "note": "an immediate command was run when the string was accepted, so it is not asked for again"},
{"property": "C95", "status": "proved", "theorems": ["Verif.Props.C95_less_specific", "Verif.Props.C95_default_language", "Verif.Props.C95_not_found"], "note": "under the conditions of C88 for the grammar characters and the segmenter; no row before the one shown has a tag that begins with the tag shown (else C36 says what happens); the details of all components can be read"},
{"property": "C96", "status": "proved", "theorems": ["Verif.Props.C96_reading", "Verif.Props.C96_three_ways", "Verif.Props.C96_formatting", "Verif.Props.C96_unread_tag", "Verif.Props.C96_string", "Verif.Props.C96_request", "Verif.Props.C96_shipped_bursts", "Verif.Props.C96_shipped_reading"], "note": "a call that never ends counts as a panic (stack overflow); a formatter that is cached has gone through calls that ended"},
{"property": "C97", "status": "partial", "theorems": ["Verif.Props.C97_violated", "Verif.Props.C97_never_again", "Verif.Props.C97_poisoned_iff", "Verif.Props.C97_broken_iff", "Verif.Props.C97_no_lock_poisoned_partial"], "note": "violated: the panic of C30 poisons the lock of the cache, and a panicking command that of its formatter; exactly when either can happen is proved, and that after the former every request of every thread panics; the answers of the other threads are those of C50; a call that never ends counts as a panic (it is a stack overflow, which ends all threads)"},
{"property": "C98", "status": "proved", "theorems": ["Verif.Props.C98_settings_never_poisoned", "Verif.Props.C98_only_its_writer_poisons", "Verif.Props.C98_defaults_never_panic"], "note": "`get_script_data` is a total parameter here (C67 says that it does not panic for tags of the registry); it is evaluated before the lock of the script data is taken, with only a read lock held, which a panic does not poison"},
{"property": "C99", "status": "partial", "theorems": ["Verif.Props.C99_syntax_errors", "Verif.Props.C99_rejected_patterns", "Verif.Props.C99_failed_formatting", "Verif.Props.C99_failed_requests_partial", "Verif.Props.C99_position", "Verif.Props.C99_formatter_errors_partial", "Verif.Props.C99_localiser_errors_partial", "Verif.Props.C99_sqlite_errors_partial", "Verif.Props.C99_violated", "Verif.Props.C99_violated_by_requests"], "note": "proved for all errors of the parser, whatever the tokens, for all errors with which pattern strings are rejected or formatting fails (C99_rejected_patterns, C99_failed_formatting, and for requests whose names have no quotation mark C99_failed_requests_partial: ICU takes the quotation mark for a syntax character and fails with its own errors only); violated for errors of the formatter, the localiser and the providers with quotation marks in texts that are not quoted last, proved for the others; errors of commands and providers of unknown type (`Custom`) are left out, for their message is any text"}
]}
