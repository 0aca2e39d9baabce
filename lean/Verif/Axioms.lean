import Verif.Props.Lexer
import Verif.Props.Registry
import Verif.Props.Tree
import Verif.Props.Command
import Verif.Props.Iso
import Verif.Props.Format
import Verif.Props.Localiser
import Verif.Props.LocaliserSync
import Verif.Props.Provider
import Verif.Props.ProviderDetails
import Verif.Props.ProviderOpen
import Verif.Props.ProviderSync
import Verif.Props.ProviderOne
import Verif.Props.ProviderLocaliser
import Verif.Props.Errors
import Verif.Props.ProviderUsable
import Verif.Props.ValueOrder
import Verif.Props.LanguageTag
import Verif.Props.ScriptData
import Verif.Props.FormatterOrder
import Verif.Props.Features
import Verif.Props.AutoTraits
import Verif.Props.Sql
import Verif.Props.IcuSync
import Verif.Props.Reentry
import Verif.Props.Options
import Verif.Props.Blame
import Verif.Props.OpenBlame
import Verif.Props.Ratio
import Verif.Props.SyntaxBlame
import Verif.Props.Braces
import Verif.Props.Written
import Verif.Props.IsoForms
import Verif.Props.Endless
import Verif.Props.RequestBlame
import Verif.Props.EndToEnd
import Verif.Props.Fallback
import Verif.Props.Crash
import Verif.Props.Contagion
import Verif.Props.ThreadPanics
import Verif.Props.ThreadAnswers
import Verif.Props.Transparent
import Verif.Props.BlameExact
import Verif.Props.BlameOrder
import Verif.Props.Caching
import Verif.Props.Forget
import Verif.Props.ProviderBlame
import Verif.Props.ProviderEvery
import Verif.Props.ProviderExact
import Verif.Props.LocaliserExact
import Verif.Props.OtherStrings
import Verif.Props.LocaliserNew
import Verif.Props.LockSync
import Verif.Props.Messages
import Verif.Props.Settings
import Verif.Props.Shown
import Verif.Props.FormatExact
/-
The axioms every claimed theorem depends on (printed while building).
-/
#print axioms Verif.Props.C01_tokens_partition
#print axioms Verif.Props.C02_positions_exact
#print axioms Verif.Props.C03_maximal_runs
#print axioms Verif.Props.C04_terminates_and_fused
#print axioms Verif.Props.C04_construction
#print axioms Verif.Props.C05_prefix_stable
#print axioms Verif.Props.C05_grammar_set
#print axioms Verif.Props.C05_grammar_tokens_are_syntax
#print axioms Verif.Props.C06_canonical_in_every_history
#print axioms Verif.Props.C06_all_answered
#print axioms Verif.Props.C06_failure_changes_nothing
#print axioms Verif.Props.C07_interned
#print axioms Verif.Props.C08_listings
#print axioms Verif.Props.C09_concurrent_values
#print axioms Verif.Props.C09_no_deadlock
#print axioms Verif.Props.C09_quiescent_list
#print axioms Verif.Props.C10_interned_exactly_partial
#print axioms Verif.Props.C10_interned_when_registered_before_partial
#print axioms Verif.Props.C10_unlisted_partial
#print axioms Verif.Props.C10_interning_violated
#print axioms Verif.Props.C10_deprecated_listing_violated
#print axioms Verif.Props.C11_panics_exactly_partial
#print axioms Verif.Props.C11_panics_only_on_two_shapes_partial
#print axioms Verif.Props.C11_no_number_sign_no_panic_partial
#print axioms Verif.Props.C11_violated
#print axioms Verif.Props.C12_tree_well_formed
#print axioms Verif.Props.C13_escaped_text_round_trips
#print axioms Verif.Props.C14_placeholders_are_substituted
#print axioms Verif.Props.C15_rejected_everywhere_partial
#print axioms Verif.Props.C15_every_literal_text_rejected_partial
#print axioms Verif.Props.C15_violated
#print axioms Verif.Props.C16_repetition_rejected
#print axioms Verif.Props.C16_reported_identifier_occurs_twice
#print axioms Verif.Props.C17_opened_braces_are_closed_partial
#print axioms Verif.Props.C17_every_brace_partial
#print axioms Verif.Props.C17_ignored_exactly_partial
#print axioms Verif.Props.C17_ends_outside_partial
#print axioms Verif.Props.C17_violated
#print axioms Verif.Props.C18_branch_named_as_category_partial
#print axioms Verif.Props.C18_reached_partial
#print axioms Verif.Props.C18_category_must_be_named_partial
#print axioms Verif.Props.C18_violated
#print axioms Verif.Props.C19_without_options_partial
#print axioms Verif.Props.C19_every_option_rejected_partial
#print axioms Verif.Props.C19_violated
#print axioms Verif.Props.C19_no_calendar_accepted
#print axioms Verif.Props.C20_ends_partial
#print axioms Verif.Props.C20_endless_exactly_partial
#print axioms Verif.Props.C20_others_end_partial
#print axioms Verif.Props.C20_violated
#print axioms Verif.Props.C21_listed_categories_partial
#print axioms Verif.Props.C21_exactly_partial
#print axioms Verif.Props.C21_missing_category_fails_partial
#print axioms Verif.Props.C21_violated
#print axioms Verif.Props.C22_history_is_irrelevant_partial
#print axioms Verif.Props.C22_only_strings_selected_by_text_partial
#print axioms Verif.Props.C22_violated
#print axioms Verif.Props.C23_number_sign_shows_selecting_number
#print axioms Verif.Props.C24_only_mentioned_values_matter
#print axioms Verif.Props.C24_missing_value_is_an_error
#print axioms Verif.Props.C25_year_month_day_partial
#print axioms Verif.Props.C25_year_month_partial
#print axioms Verif.Props.C25_negative_year_partial
#print axioms Verif.Props.C25_basic_partial
#print axioms Verif.Props.C25_accepted_exactly_partial
#print axioms Verif.Props.C25_violated
#print axioms Verif.Props.C26_time_partial
#print axioms Verif.Props.C26_seconds_rejected_partial
#print axioms Verif.Props.C26_accepted_exactly_partial
#print axioms Verif.Props.C26_violated
#print axioms Verif.Props.C27_lookup_gives_first_insertion
#print axioms Verif.Props.C27_write_once
#print axioms Verif.Props.C27_list_holds_each_name_once
#print axioms Verif.Props.C28_panics_exactly_partial
#print axioms Verif.Props.C28_results_partial
#print axioms Verif.Props.C28_errors_partial
#print axioms Verif.Props.C28_violated
#print axioms Verif.Props.C29_answers_as_without_cache_partial
#print axioms Verif.Props.C29_never_caching_partial
#print axioms Verif.Props.C29_violated
#print axioms Verif.Props.C29_entries_iff
#print axioms Verif.Props.C29_literal_differs_iff
#print axioms Verif.Props.C29_format_differs_iff
#print axioms Verif.Props.C30_literal_panics_exactly_partial
#print axioms Verif.Props.C30_format_panics_only_partial
#print axioms Verif.Props.C30_exact_tag_never_panics_partial
#print axioms Verif.Props.C30_violated
#print axioms Verif.Props.C30_literal_panics_iff
#print axioms Verif.Props.C30_format_panics_iff
#print axioms Verif.Props.C31_entry_is_of_its_string_partial
#print axioms Verif.Props.C31_keys_differ_partial
#print axioms Verif.Props.C31_keys_exactly_partial
#print axioms Verif.Props.C31_exactly_partial
#print axioms Verif.Props.C31_violated
#print axioms Verif.Props.C32_fallback_order
#print axioms Verif.Props.C32_no_fallback_no_default
#print axioms Verif.Props.C33_script_data_follows_language
#print axioms Verif.Props.C33_threads_end
#print axioms Verif.Props.C34_nested_data_resolves
#print axioms Verif.Props.C34_cases
#print axioms Verif.Props.C34_every_depth
#print axioms Verif.Props.C35_longest_truncation_partial
#print axioms Verif.Props.C35_found_unless_none_matches
#print axioms Verif.Props.C35_exactly_partial
#print axioms Verif.Props.C35_violated
#print axioms Verif.Props.C35_violated_for_every_tag
#print axioms Verif.Props.C35_like_as_documented
#print axioms Verif.Props.C36_exact_preferred_partial
#print axioms Verif.Props.C36_sorted_partial
#print axioms Verif.Props.C36_exactly_partial
#print axioms Verif.Props.C36_violated
#print axioms Verif.Props.C36_violated_for_every_tag
#print axioms Verif.Props.C37_only_exact_partial
#print axioms Verif.Props.C37_never_longer
#print axioms Verif.Props.C37_exactly_partial
#print axioms Verif.Props.C37_both_exactly_partial
#print axioms Verif.Props.C37_violated
#print axioms Verif.Props.C37_violated_missed
#print axioms Verif.Props.C37_violated_for_every_tag
#print axioms Verif.Props.C38_same_language_partial
#print axioms Verif.Props.C38_exactly_partial
#print axioms Verif.Props.C38_violated
#print axioms Verif.Props.C38_violated_for_every_tag
#print axioms Verif.Props.C39_components_served
#print axioms Verif.Props.C39_any_order
#print axioms Verif.Props.C39_connections_available
#print axioms Verif.Props.C39_requests_never_panic
#print axioms Verif.Props.C40_totals_consistent_partial
#print axioms Verif.Props.C40_exactly_partial
#print axioms Verif.Props.C40_violated
#print axioms Verif.Props.C41_never_panics
#print axioms Verif.Props.C41_one_set_of_details
#print axioms Verif.Props.C41_fixed_once_reported
#print axioms Verif.Props.C41_retry
#print axioms Verif.Props.C42_accepted_iff
#print axioms Verif.Props.C42_missing_table_rejected
#print axioms Verif.Props.C42_wrong_column_rejected
#print axioms Verif.Props.C42_incomplete_rejected_partial
#print axioms Verif.Props.C42_violated
#print axioms Verif.Props.C43_shared_then_own
#print axioms Verif.Props.C44_lists_stored_languages_partial
#print axioms Verif.Props.C44_exactly_partial
#print axioms Verif.Props.C44_violated
#print axioms Verif.Props.C44_violated_shadowed
#print axioms Verif.Props.C45_directions_coherent
#print axioms Verif.Props.C46_icu_language_cached
#print axioms Verif.Props.C46_never_panics
#print axioms Verif.Props.C47_accepts_exactly_the_grammar
#print axioms Verif.Props.C48_accepted_exactly
#print axioms Verif.Props.C48_format_gives_the_meaning
#print axioms Verif.Props.C48_panics_only_from_parser_and_commands
#print axioms Verif.Props.C49_defaults_are_those_set_last
#print axioms Verif.Props.C49_defaults_never_set
#print axioms Verif.Props.C50_answers_as_without_cache_partial
#print axioms Verif.Props.C50_warm_cache_partial
#print axioms Verif.Props.C50_violated
#print axioms Verif.Props.C50_literal_panics_iff
#print axioms Verif.Props.C50_format_panics_iff
#print axioms Verif.Props.C50_literal_never_panics_partial
#print axioms Verif.Props.C50_literal_answers_iff
#print axioms Verif.Props.C50_format_answers_iff
#print axioms Verif.Props.C51_one_thread_as_without_locks
#print axioms Verif.Props.C52_component_details_report_store
#print axioms Verif.Props.C52_default_language
#print axioms Verif.Props.C53_repository_unites_components_partial
#print axioms Verif.Props.C53_languages_without_contributors
#print axioms Verif.Props.C53_violated
#print axioms Verif.Props.C54_replies_as_unshared
#print axioms Verif.Props.C55_reported_tag_returns_it_partial
#print axioms Verif.Props.C55_violated
#print axioms Verif.Props.C55_exactly_partial
#print axioms Verif.Props.C55_localiser_partial
#print axioms Verif.Props.C55_canonical_store_partial
#print axioms Verif.Props.C55_violated_by_underscore
#print axioms Verif.Props.C56_one_computation_partial
#print axioms Verif.Props.C56_one_asking_thread_partial
#print axioms Verif.Props.C56_each_from_a_computation_partial
#print axioms Verif.Props.C56_any_two_contents
#print axioms Verif.Props.C56_violated
#print axioms Verif.Props.C57_errors_with_a_text_partial
#print axioms Verif.Props.C57_violated
#print axioms Verif.Props.C57_violated_italian
#print axioms Verif.Props.C57_as_localisation_data
#print axioms Verif.Props.C58_lexer_database_breaks_details
#print axioms Verif.Props.C58_no_fallback
#print axioms Verif.Props.C58_no_error_in_italian
#print axioms Verif.Props.C58_others_usable
#print axioms Verif.Props.C58_others_work
#print axioms Verif.Props.C59_agrees_with_display_partial
#print axioms Verif.Props.C59_violated
#print axioms Verif.Props.C60_details_iff_usable
#print axioms Verif.Props.C60_error_tells_fault
#print axioms Verif.Props.C60_error_otherwise
#print axioms Verif.Props.C61_order_of_components
#print axioms Verif.Props.C61_error_depends_on_order
#print axioms Verif.Props.C61_possible_errors
#print axioms Verif.Props.C62_text_of_any_order_partial
#print axioms Verif.Props.C62_possible_errors
#print axioms Verif.Props.C62_with_cache_partial
#print axioms Verif.Props.C62_violated
#print axioms Verif.Props.C62_error_depends_on_order
#print axioms Verif.Props.C63_accepted_iff_well_formed
#print axioms Verif.Props.C63_canonical
#print axioms Verif.Props.C63_canonical_kept
#print axioms Verif.Props.C63_idempotent
#print axioms Verif.Props.C64_same_parts
#print axioms Verif.Props.C64_same_object
#print axioms Verif.Props.C64_case_and_separators
#print axioms Verif.Props.C65_violated
#print axioms Verif.Props.C65_features_do_not_matter_partial
#print axioms Verif.Props.C65_names
#print axioms Verif.Props.C65_every_build
#print axioms Verif.Props.C65_script_type
#print axioms Verif.Props.C66_shorter_tags_are_tags
#print axioms Verif.Props.C66_no_wildcards
#print axioms Verif.Props.C67_data_of_the_script
#print axioms Verif.Props.C67_in_the_localiser
#print axioms Verif.Props.C68_violated
#print axioms Verif.Props.C68_codes_partial
#print axioms Verif.Props.C69_directions_listed
#print axioms Verif.Props.C69_right_to_left_partial
#print axioms Verif.Props.C69_violated
#print axioms Verif.Props.C70_same_formatter
#print axioms Verif.Props.C70_same_texts
#print axioms Verif.Props.C70_any_order
#print axioms Verif.Props.C70_error_depends_on_order
#print axioms Verif.Props.C71_resolver
#print axioms Verif.Props.C71_only_declared
#print axioms Verif.Props.C71_violated
#print axioms Verif.Props.C71_usable_iff_partial
#print axioms Verif.Props.C71_provider_exists
#print axioms Verif.Props.C71_no_text_partial
#print axioms Verif.Props.C71_try_new
#print axioms Verif.Props.C72_violated
#print axioms Verif.Props.C72_same_pointers_partial
#print axioms Verif.Props.C73_violated
#print axioms Verif.Props.C73_shareable_iff_sync_partial
#print axioms Verif.Props.C73_by_crate_partial
#print axioms Verif.Props.C73_localiser_fields_partial
#print axioms Verif.Props.C73_localiser_fields_by_crate_partial
#print axioms Verif.Props.C73_localiser_fields_moved
#print axioms Verif.Props.C74_like
#print axioms Verif.Props.C74_pattern
#print axioms Verif.Props.C74_languages
#print axioms Verif.Props.C74_identifier_languages
#print axioms Verif.Props.C74_contributors
#print axioms Verif.Props.C74_count
#print axioms Verif.Props.C74_default
#print axioms Verif.Props.C75_violated
#print axioms Verif.Props.C75_accepted_prepares_partial
#print axioms Verif.Props.C76_values
#print axioms Verif.Props.C76_different_objects
#print axioms Verif.Props.C76_never_waits
#print axioms Verif.Props.C76_same_object_partial
#print axioms Verif.Props.C76_same_object_exactly_partial
#print axioms Verif.Props.C76_violated
#print axioms Verif.Props.C77_as_without_cells
#print axioms Verif.Props.C77_harmless_commands_partial
#print axioms Verif.Props.C77_immediate_commands_partial
#print axioms Verif.Props.C77_uncached_partial
#print axioms Verif.Props.C77_violated
#print axioms Verif.Props.C78_decimal
#print axioms Verif.Props.C78_date_time_partial
#print axioms Verif.Props.C78_calendar_locale
#print axioms Verif.Props.C78_decimal_errors_partial
#print axioms Verif.Props.C78_decimal_used
#print axioms Verif.Props.C78_date_time_used
#print axioms Verif.Props.C78_violated
#print axioms Verif.Props.C79_violated
#print axioms Verif.Props.C79_numbers_partial
#print axioms Verif.Props.C79_exactly_partial
#print axioms Verif.Props.C80_error_tells_the_cause
#print axioms Verif.Props.C80_fails_exactly
#print axioms Verif.Props.C80_one_error
#print axioms Verif.Props.C80_time_is_calendar
#print axioms Verif.Props.C81_rejection_tells_the_cause
#print axioms Verif.Props.C81_causes_exclude
#print axioms Verif.Props.C81_possible_errors
#print axioms Verif.Props.C82_opening
#print axioms Verif.Props.C82_file
#print axioms Verif.Props.C82_file_panics
#print axioms Verif.Props.C82_opening_panics
#print axioms Verif.Props.C82_property_is_lacking_partial
#print axioms Verif.Props.C82_violated
#print axioms Verif.Props.C83_quotient_partial
#print axioms Verif.Props.C83_one_value
#print axioms Verif.Props.C83_number_iff
#print axioms Verif.Props.C83_default_is_one
#print axioms Verif.Props.C83_none_is_zero
#print axioms Verif.Props.C83_order
#print axioms Verif.Props.C83_exponent
#print axioms Verif.Props.C83_component
#print axioms Verif.Props.C83_repository
#print axioms Verif.Props.C83_violated
#print axioms Verif.Props.C84_places_begin
#print axioms Verif.Props.C84_first_wrong_token
#print axioms Verif.Props.C84_unexpected_token_partial
#print axioms Verif.Props.C84_second_number_sign
#print axioms Verif.Props.C84_ended_abruptly_partial
#print axioms Verif.Props.C84_literal_text_never_ends
#print axioms Verif.Props.C84_beginning_ends_abruptly
#print axioms Verif.Props.C84_violated
#print axioms Verif.Props.C85_one_reading
#print axioms Verif.Props.C85_string_one_reading
#print axioms Verif.Props.C86_written_is_read
#print axioms Verif.Props.C86_read_is_composed
#print axioms Verif.Props.C86_written_injective
#print axioms Verif.Props.C86_spelling_does_not_matter
#print axioms Verif.Props.C86_normal_form
#print axioms Verif.Props.C87_error_tells_the_cause_partial
#print axioms Verif.Props.C87_not_found_partial
#print axioms Verif.Props.C87_provider_error_partial
#print axioms Verif.Props.C87_never_partial
#print axioms Verif.Props.C87_violated
#print axioms Verif.Props.C87_literal_fails_iff
#print axioms Verif.Props.C87_format_fails_iff
#print axioms Verif.Props.C87_never_reached_with_threads
#print axioms Verif.Props.C87_never_violated
#print axioms Verif.Props.C88_formatter
#print axioms Verif.Props.C88_stored_is_shown
#print axioms Verif.Props.C88_stored_is_shown_again
#print axioms Verif.Props.C88_threads
#print axioms Verif.Props.C89_cached_needs_no_provider
#print axioms Verif.Props.C89_not_fetched_again_partial
#print axioms Verif.Props.C89_cached_exactly_partial
#print axioms Verif.Props.C89_literal_forgotten_iff
#print axioms Verif.Props.C89_format_forgotten_iff
#print axioms Verif.Props.C89_violated
#print axioms Verif.Props.C90_unknown_component
#print axioms Verif.Props.C90_database
#print axioms Verif.Props.C90_refused_tag
#print axioms Verif.Props.C90_nothing
#print axioms Verif.Props.C90_answer
#print axioms Verif.Props.C90_no_other
#print axioms Verif.Props.C90_strings
#print axioms Verif.Props.C91_only_rows_of_the_string
#print axioms Verif.Props.C91_only_needed_strings
#print axioms Verif.Props.C91_other_strings_partial
#print axioms Verif.Props.C91_exactly_partial
#print axioms Verif.Props.C91_violated
#print axioms Verif.Props.C92_creation
#print axioms Verif.Props.C92_default_language
#print axioms Verif.Props.C92_as_calls
#print axioms Verif.Props.C93_immediate_commands_partial
#print axioms Verif.Props.C93_only_defaults_partial
#print axioms Verif.Props.C93_commands_that_call_nothing
#print axioms Verif.Props.C93_harmless_commands_partial
#print axioms Verif.Props.C93_uncached_partial
#print axioms Verif.Props.C93_alone
#print axioms Verif.Props.C93_violated
#print axioms Verif.Props.C94_text_exactly
#print axioms Verif.Props.C94_history_does_not_matter
#print axioms Verif.Props.C95_less_specific
#print axioms Verif.Props.C95_default_language
#print axioms Verif.Props.C95_not_found
#print axioms Verif.Props.C96_reading
#print axioms Verif.Props.C96_three_ways
#print axioms Verif.Props.C96_formatting
#print axioms Verif.Props.C96_unread_tag
#print axioms Verif.Props.C96_string
#print axioms Verif.Props.C96_request
#print axioms Verif.Props.C96_shipped_bursts
#print axioms Verif.Props.C96_shipped_reading
#print axioms Verif.Props.C97_violated
#print axioms Verif.Props.C97_never_again
#print axioms Verif.Props.C97_poisoned_iff
#print axioms Verif.Props.C97_broken_iff
#print axioms Verif.Props.C97_no_lock_poisoned_partial
#print axioms Verif.Props.C98_settings_never_poisoned
#print axioms Verif.Props.C98_only_its_writer_poisons
#print axioms Verif.Props.C98_defaults_never_panic
#print axioms Verif.Props.C99_syntax_errors
#print axioms Verif.Props.C99_rejected_patterns
#print axioms Verif.Props.C99_failed_formatting
#print axioms Verif.Props.C99_failed_requests_partial
#print axioms Verif.Props.C99_position
#print axioms Verif.Props.C99_formatter_errors_partial
#print axioms Verif.Props.C99_localiser_errors_partial
#print axioms Verif.Props.C99_sqlite_errors_partial
#print axioms Verif.Props.C99_violated
#print axioms Verif.Props.C99_violated_by_requests
