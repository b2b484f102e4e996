{
 "claims": [
  {
   "property": "C01",
   "status": "proved",
   "theorems": [
    "ML.C01_allowed_iff",
    "ML.C01_denied_iff",
    "ML.C01_raises_iff",
    "ML.C01_no_user",
    "ML.C01_field_iff",
    "ML.C01_views_exact",
    "ML.C01_fields_exact",
    "ML.C01_dashboards_exact",
    "ML.C01_views_list",
    "ML.C01_fields_hidden"
   ],
   "note": "Both directions, and the raising case, for every grant list and user."
  },
  {
   "property": "C02",
   "status": "proved",
   "theorems": [
    "ML.C02_views",
    "ML.C02_getView",
    "ML.C02_fields",
    "ML.C02_handler",
    "ML.C02_getField",
    "ML.C02_getFieldByName",
    "ML.C02_getFieldByTag",
    "ML.C02_noninterference_fields",
    "ML.C02_noninterference_lookup",
    "ML.C02_noninterference_view",
    "ML.C02_restriction_exists",
    "ML.C02_getDashboard"
   ],
   "note": "Membership and non-interference: removing a denied object changes no answer."
  },
  {
   "property": "C03",
   "status": "partial",
   "theorems": [
    "ML.C03_rows_restricted_partial",
    "ML.C03_no_extra_restriction",
    "ML.C03_literal_or_bypass"
   ],
   "note": "Proved for JSON filters and for texts with no top-level OR. False for other literal texts: C03_literal_or_bypass is the witness."
  },
  {
   "property": "C04",
   "status": "proved",
   "theorems": [
    "ML.C04_clause_meaning",
    "ML.C04_reading_unique",
    "ML.C04_row_kept",
    "ML.C04_rejects",
    "ML.C04_rejects_how"
   ],
   "note": "Text is read back with AND binding tighter than OR, and evaluated in three-valued logic."
  },
  {
   "property": "C05",
   "status": "proved",
   "theorems": [
    "ML.C05_found",
    "ML.C05_ambiguous",
    "ML.C05_missing",
    "ML.C05_complete",
    "ML.C05_case_insensitive",
    "ML.C05_qualified",
    "ML.C05_two_views",
    "ML.C05_equal",
    "ML.C05_by_definition",
    "ML.C05_by_tag",
    "ML.C05_empty_tag",
    "ML.C05_row_count",
    "ML.C05_exists"
   ],
   "note": "Case-insensitivity holds for the field part of a name only; an example shows the view part is case-sensitive."
  },
  {
   "property": "C06",
   "status": "proved",
   "theorems": [
    "ML.C06_join_split",
    "ML.C06_split_two",
    "ML.C06_split_three",
    "ML.C06_split_other",
    "ML.C06_parts_dotFree",
    "ML.C06_validName"
   ],
   "note": ""
  },
  {
   "property": "C07",
   "status": "proved",
   "theorems": [
    "ML.C07_first_occurrences",
    "ML.C07_unique_complete",
    "ML.C07_idempotent"
   ],
   "note": ""
  },
  {
   "property": "C08",
   "status": "proved",
   "theorems": [
    "ML.C08_restored",
    "ML.C08_no_stale_answer",
    "ML.C08_exception_passes",
    "ML.C08_closed",
    "ML.C08_nameless"
   ],
   "note": "For every program of lookups, edits, nested replacements and exceptions run inside the block."
  },
  {
   "property": "C09",
   "status": "partial",
   "theorems": [
    "ML.C09_views_inside",
    "ML.C09_lookup_partial",
    "ML.C09_letter_case_keeps_old_view",
    "ML.C09_models_inside",
    "ML.C09_dashboards_inside"
   ],
   "note": "Proved when replacement names are in lower case. False otherwise: C09_letter_case_keeps_old_view."
  },
  {
   "property": "C10",
   "status": "partial",
   "theorems": [
    "ML.C10_add_effect",
    "ML.C10_remove_effect",
    "ML.C10_unknown_view",
    "ML.C10_add_remove",
    "ML.C10_add_read_remove_partial",
    "ML.C10_lookup_breaks_remove"
   ],
   "note": "Proved for names in lower case when fields are listed in between. False otherwise: C10_lookup_breaks_remove."
  },
  {
   "property": "C11",
   "status": "partial",
   "theorems": [
    "ML.C11_field_lookups_partial",
    "ML.C11_join_graph_partial",
    "ML.C11_set_user_keeps_graph",
    "ML.C11_empty_user_stale",
    "ML.C11_no_refresh_stale",
    "ML.C11_view_object_stale",
    "ML.C11_view_object_same_flag",
    "ML.C11_listing_lowers",
    "ML.C11_listing_one_lowers",
    "ML.C11_view_object_first"
   ],
   "note": "Proved for lookups by a fixed non-empty user with refresh. Witnesses: C11_set_user_keeps_graph, C11_empty_user_stale, C11_no_refresh_stale, C11_view_object_stale."
  },
  {
   "property": "C12",
   "status": "proved",
   "theorems": [
    "ML.C12_fanout_declared"
   ],
   "note": "For every list of views whose build succeeds."
  },
  {
   "property": "C13",
   "status": "partial",
   "theorems": [
    "ML.C13_edge_iff",
    "ML.C13_best_partial",
    "ML.C13_best",
    "ML.C13_ties",
    "ML.C13_last_declaration_wins"
   ],
   "note": "The best candidate is kept when at most one explicit declaration concerns the pair. Among several explicit declarations the last one counts, whatever its rank: C13_last_declaration_wins is the witness against the full statement."
  },
  {
   "property": "C14",
   "status": "proved",
   "theorems": [
    "ML.C14_both_sides",
    "ML.C14_text_origin",
    "ML.C14_raises_iff",
    "ML.C14_raises_query"
   ],
   "note": "Includes an exact condition for the build to succeed."
  },
  {
   "property": "C15",
   "status": "proved",
   "theorems": [
    "ML.C15_invert_twice",
    "ML.C15_derive_inverse",
    "ML.C15_reverse_exists",
    "ML.C15_reverse_iff"
   ],
   "note": ""
  },
  {
   "property": "C16",
   "status": "proved",
   "theorems": [
    "ML.C16_named",
    "ML.C16_same_name_iff",
    "ML.C16_usable_iff",
    "ML.C16_joinable",
    "ML.C16_listed",
    "ML.C16_order_irrelevant",
    "ML.C16_built_graphs"
   ],
   "note": "networkx components enter as any list meeting the IsScc promise; a concrete algorithm is proved to meet it."
  },
  {
   "property": "C17",
   "status": "proved",
   "theorems": [
    "ML.C17_from_clause",
    "ML.C17_project",
    "ML.C17_only_join_error",
    "ML.C17_self_join"
   ],
   "note": "Topological order and shortest paths enter as any functions meeting NxSpec; a concrete pair of algorithms is proved to meet it. A view that declares a join to itself breaks the property: C17_self_join."
  },
  {
   "property": "C18",
   "status": "partial",
   "theorems": [
    "ML.C18_required_root_partial",
    "ML.C18_two_views",
    "ML.C18_search_iff",
    "ML.C18_rejects_far_base",
    "ML.C18_rejects_bridge",
    "ML.C18_rejects_detour"
   ],
   "note": "Proved for two views, for a required root that reaches the rest through required views, and exactly when the topological shortcut does not apply. The full statement is false of the code: C18_rejects_far_base, C18_rejects_bridge, C18_rejects_detour."
  },
  {
   "property": "C19",
   "status": "proved",
   "theorems": [
    "ML.C19_base_part",
    "ML.C19_one_row_per_base_row",
    "ML.C19_aggregates",
    "ML.C19_designed",
    "ML.C19_join_types"
   ],
   "note": "SQL join semantics modelled; conditions relate the two joined views only. The one-row-per-base-row form needs left joins (the default); full joins keep every base row once, inner joins only drop rows."
  },
  {
   "property": "C20",
   "status": "partial",
   "theorems": [
    "ML.C20_unique_partial",
    "ML.C20_otherwise_repeated",
    "ML.C20_star_repeats",
    "ML.C20_chain_repeats"
   ],
   "note": "Exact characterisation: unique when every one-to-many join leads to the reported view and no many-to-one join does; for every other join sequence C20_otherwise_repeated gives data that repeat the key. C20_star_repeats and C20_chain_repeats are concrete witnesses against the full statement."
  },
  {
   "property": "C21",
   "status": "proved",
   "theorems": [
    "ML.C21_sum",
    "ML.C21_sum_exact",
    "ML.C21_sum_error",
    "ML.C21_count",
    "ML.C21_average",
    "ML.C21_max_min_distinct",
    "ML.C21_distinct_hashes_not_enough",
    "ML.C21_joined",
    "ML.C21_text",
    "ML.C21_distinct_text"
   ],
   "note": "Values are rationals with NULL; the symmetric sum floors each value to six decimals, so equality is for values with at most six decimals and C21_sum_error bounds the difference otherwise. The empty sum is 0 and the empty count NULL. C21_distinct_hashes_not_enough: it is not enough that the hash is injective on keys; adding the scaled value must not collide either."
  },
  {
   "property": "C22",
   "status": "partial",
   "theorems": [
    "ML.C22_plain_iff",
    "ML.C22_no_own_key",
    "ML.C22_other_warehouses",
    "ML.C22_value_partial",
    "ML.C22_joined_partial",
    "ML.C22_no_base_key",
    "ML.C22_median",
    "ML.C22_plain_text",
    "ML.C22_other_text",
    "ML.C22_median_value",
    "ML.C22_extreme_values"
   ],
   "note": "Decision table proved in full (C22_plain_iff, C22_no_own_key, C22_other_warehouses), and its value on joined tables for all types but median when the functional key exists and the C20 conditions hold (C22_joined_partial). Against the full statement: C22_no_base_key (base view without a visible primary key: plain, inflated sum) and C22_median."
  },
  {
   "property": "C23",
   "status": "partial",
   "theorems": [
    "ML.C23_null_bool",
    "ML.C23_plain",
    "ML.C23_meaning",
    "ML.C23_negated",
    "ML.C23_list",
    "ML.C23_list_meaning",
    "ML.C23_numeric",
    "ML.C23_day",
    "ML.C23_date_phrase",
    "ML.C23_exactly_one",
    "ML.C23_exceptions",
    "ML.C23_values",
    "ML.C23_list_empty"
   ],
   "note": "Each class of strings is proved to give its comparison, with its meaning on texts: null and boolean words, plain values and patterns, their negation, comma lists (plain, negated, mixed), numeric signs (longest sign first), days, date phrases; without a date phrase never more than one comparison. Against \"every string\": C23_exceptions (\"-\" alone is an error, \"-5 days\" is the same window as \"5 days\"), and a list with an empty element is an IndexError. pd.to_numeric is a parameter."
  },
  {
   "property": "C24",
   "status": "partial",
   "theorems": [
    "ML.C24_today_yesterday",
    "ML.C24_this_last_partial",
    "ML.C24_n_periods_partial",
    "ML.C24_ago_partial",
    "ML.C24_abut_partial",
    "ML.C24_ago_for_partial",
    "ML.C24_to_date",
    "ML.C24_quarter_last_day",
    "ML.C24_words_to_date",
    "ML.C24_week_start",
    "ML.C24_written_date",
    "ML.C24_until",
    "ML.C24_two_dates",
    "ML.C24_unknown_unit"
   ],
   "note": "Windows of every date phrase proved for all moments, week starts and counts, with the calendar proved from first principles (Dates/Civil.lean). C24_today_yesterday and C24_to_date are in full. _partial: the theorems that speak of whole periods give the exact windows; for quarters the end bound is the midnight that begins the last day, so a time on that last day falls outside (C24_quarter_last_day, a witness against the full statement). Not modelled: daylight-saving shifts, years outside 1-9999. \" until \": C24_until for any two sides, C24_two_dates for two written dates (the last day is left out except for its first second), C24_written_date for which texts are dates."
  },
  {
   "property": "C25",
   "status": "partial",
   "theorems": [
    "ML.C25_restored_partial",
    "ML.C25_late_failure_partial",
    "ML.C25_no_influence",
    "ML.C25_history_partial",
    "ML.C25_leak"
   ],
   "note": "Restored after every successful parse and after failures later than the search for a date phrase, over whole histories; earlier parses never change the result of later ones (C25_no_influence). Against the full statement: C25_leak (a date phrase that cannot be read leaves the model's week start behind)."
  },
  {
   "property": "C26",
   "status": "partial",
   "theorems": [
    "ML.C26_filtered_partial",
    "ML.C26_distinct_partial",
    "ML.C26_symmetric_sum_partial",
    "ML.C26_else_zero_sum",
    "ML.C26_else_zero_average",
    "ML.C26_empty_filters",
    "ML.C26_text"
   ],
   "note": "For every list of filters that yields a condition, every rows and every truth assignment with NULLs: plain aggregates of every type, symmetric count, distinct-key sum/count/average (exact), symmetric sum (under the C21 conditions). Against the full statement: C26_empty_filters (all values empty: malformed text) and C26_else_zero_average (non-additive averages use ELSE 0)."
  },
  {
   "property": "C27",
   "status": "proved",
   "theorems": [
    "ML.C27_document_order",
    "ML.C27_mem",
    "ML.C27_flat_identity",
    "ML.C27_append"
   ],
   "note": ""
  },
  {
   "property": "C28",
   "status": "proved",
   "theorems": [
    "ML.C28_not_mixed",
    "ML.C28_accepts",
    "ML.C28_identifiers",
    "ML.C28_raises",
    "ML.C28_identifiers_raises"
   ],
   "note": ""
  },
  {
   "property": "C29",
   "status": "partial",
   "theorems": [
    "ML.C29_duplicate_partial",
    "ML.C29_group_by",
    "ML.C29_rejects",
    "ML.C29_spelling",
    "ML.C29_merged"
   ],
   "note": "For single queries: repeated names refused, GROUP BY dropped exactly when stated, HAVING and ORDER BY then refused. Missing: the code does not refuse one field under two spellings (C29_spelling) nor repeated names in merged queries (C29_merged)."
  },
  {
   "property": "C30",
   "status": "proved",
   "theorems": [
    "ML.C30_algebra",
    "ML.C30_defined",
    "ML.C30_order",
    "ML.C30_cycle",
    "ML.C30_well_defined",
    "ML.C30_silent",
    "ML.C30_no_view"
   ],
   "note": "For every project's sets (entries with optional minus, star and view prefix, plain names): exact membership, each once, first-inclusion order, defined whenever references do not cycle; cyclic sets end in the recursion limit; unknown sets and names containing '-' are the silent cases."
  },
  {
   "property": "C31",
   "status": "proved",
   "theorems": [
    "ML.C31_total",
    "ML.C31_partition",
    "ML.C31_null",
    "ML.C31_label",
    "ML.C31_unsorted",
    "ML.C31_empty",
    "ML.C31_text"
   ],
   "note": "Every ordered list of boundaries, every rational value and NULL. C31_unsorted and C31_empty show what happens to boundaries that are not increasing or absent. C31_text: the whole text, branch by branch; the comparisons written in a branch are true of a number exactly when it lies in the tier."
  },
  {
   "property": "C32",
   "status": "partial",
   "theorems": [
    "ML.C32_monday_warehouses_partial",
    "ML.C32_bigquery",
    "ML.C32_sql_server_partial",
    "ML.C32_unknown_day",
    "ML.C32_default",
    "ML.C32_case"
   ],
   "note": "Every calendar day and week start on the warehouses whose DATE_TRUNC(WEEK) gives Monday. Against the full statement: C32_bigquery (weeks start a day early) and C32_sql_server_partial (last day of the week moved to the next week)."
  },
  {
   "property": "C33",
   "status": "partial",
   "theorems": [
    "ML.C33_rows_partial",
    "ML.C33_exact",
    "ML.C33_two",
    "ML.C33_shown",
    "ML.C33_no_dimensions",
    "ML.C33_three",
    "ML.C33_null",
    "ML.C33_missing_dimension"
   ],
   "note": "Any number of sub-queries, any contents with unique non-NULL keys: exact number of rows for every combination, and the exact condition under which it is one (C33_exact); full statement for two sub-queries and without dimensions. Against the full statement: C33_three (a combination missing from the first sub-query and present in two others is split) and C33_null."
  },
  {
   "property": "C34",
   "status": "partial",
   "theorems": [
    "ML.C34_nested",
    "ML.C34_nested_defined",
    "ML.C34_same_name",
    "ML.C34_mapped_partial",
    "ML.C34_dropped",
    "ML.C34_sources",
    "ML.C34_columns_exist"
   ],
   "note": "The nested expression in full (C34_nested). Columns of several sub-queries in full when unmapped; mapped columns only when the sub-query is the only or last one having it: C34_dropped shows earlier values are lost."
  },
  {
   "property": "C35",
   "status": "partial",
   "theorems": [
    "ML.C35_exact",
    "ML.C35_attached_partial",
    "ML.C35_joined",
    "ML.C35_substring",
    "ML.C35_odd_date",
    "ML.C35_lookup",
    "ML.C35_unjoinable"
   ],
   "note": "Exact matching of names proved for all plain dates; attachment proved both ways for fewer than ten join graphs. With ten or more, mapped fields are compared by substring (C35_substring)."
  },
  {
   "property": "C36",
   "status": "partial",
   "theorems": [
    "ML.C36_partial",
    "ML.C36_shared",
    "ML.C36_dropped",
    "ML.C36_collision",
    "ML.C36_rejects"
   ],
   "note": "Proved for queries whose metrics have at least two canonical dates or that have no dimensions. With one canonical date a dimension can delete the metrics (C36_dropped)."
  },
  {
   "property": "C37",
   "status": "partial",
   "theorems": [
    "ML.C37_applied",
    "ML.C37_mapped_partial",
    "ML.C37_literal",
    "ML.C37_suffix"
   ],
   "note": "Every condition is applied in every sub-query (C37_applied); mapping is used when needed except when one date's name ends with another's (C37_suffix). SQL text raises (C37_literal)."
  },
  {
   "property": "C38",
   "status": "partial",
   "theorems": [
    "ML.C38_steps",
    "ML.C38_events",
    "ML.C38_fewer",
    "ML.C38_persons",
    "ML.C38_converted",
    "ML.C38_dropped",
    "ML.C38_definition",
    "ML.C38_bad_window",
    "ML.C38_once_per_chain",
    "ML.C38_two_metrics",
    "ML.C38_unit",
    "ML.C38_unit_capitals",
    "ML.C38_event_date",
    "ML.C38_event_date_other_view",
    "ML.C38_no_steps",
    "ML.C38_bad_unit",
    "ML.C38_table_partial",
    "ML.C38_totals_partial",
    "ML.C38_order_by",
    "ML.C38_no_key",
    "ML.C38_no_customer",
    "ML.C38_having_twice",
    "ML.C38_answered",
    "ML.C38_key_missing",
    "ML.C38_plain_repeats"
   ],
   "note": "Proved for every event table, number of steps and window: the rows of step n are exactly the chains of n events (once per chain), the persons of each step are those who reach it, numbers of persons never grow, and converted/dropped filters select the right persons; bad definitions are rejected. The whole query is modelled too: on warehouses with symmetric aggregates the answer has, for each step and combination of dimension values, one line with the metrics over exactly the events that end a chain, each event once, kept by the conditions on lines and cut by the limit (C38_table_partial, C38_totals_partial), and it is answered when no filter is on a key and no column is asked for twice (C38_answered). Without symmetric aggregates an event counts once per chain (C38_plain_repeats); medians are excluded for the same reason. Never answered: a condition on a requested metric (C38_having_twice), a filter on the key (C38_key_missing); refused: order_by, no key. The window is measured with the date difference the warehouse gives for the unit, a parameter here: on Postgres the generated difference is not the elapsed time (see C52). Steps and conditions given as text, number metrics and metric filters are not in the table theorem."
  },
  {
   "property": "C39",
   "status": "partial",
   "theorems": [
    "ML.C39_condition_partial",
    "ML.C39_condition_names",
    "ML.C39_condition_columns",
    "ML.C39_condition_unknown",
    "ML.C39_condition_duration",
    "ML.C39_no_condition",
    "ML.C39_number_partial",
    "ML.C39_column",
    "ML.C39_today",
    "ML.C39_condition_or",
    "ML.C39_mixed_number",
    "ML.C39_running",
    "ML.C39_once",
    "ML.C39_independent",
    "ML.C39_filters_hide",
    "ML.C39_joined",
    "ML.C39_metrics",
    "ML.C39_columns",
    "ML.C39_without_date",
    "ML.C39_warehouses",
    "ML.C39_foreign_date",
    "ML.C39_inflated",
    "ML.C39_date_filter_dropped",
    "ML.C39_null_partition",
    "ML.C39_extra_dimension",
    "ML.C39_two_granularities",
    "ML.C39_time_zone",
    "ML.C39_groups_rows",
    "ML.C39_groups",
    "ML.C39_nothing"
   ],
   "note": "Proved for every table, spine, aggregate, condition and dimension list: with the metric's date among the dimensions (day to year) the rows are exactly the running totals, once each, independent of the displayed periods, and date conditions only hide periods; joins keep the values. The unchanged code violates the property without the date among the dimensions (every row counts once per day since its date, date conditions are dropped), for NULL partitions with several metrics, for timestamps, two granularities, foreign default dates and projects with a time zone: proved as witnesses. Texts: the join condition is read by the warehouse as \"dated on or before the day and cumulative_where\" (C39_condition_partial), its columns exist (C39_condition_columns), unknown names and durations are refused; numbers made of cumulative metrics compute their formula on each line (C39_number_partial). False of the code: OR in cumulative_where takes the date comparison apart (C39_condition_or), and a number mixing cumulative and other metrics aggregates in a query without GROUP BY (C39_mixed_number). The SQL of single measures is a parameter."
  },
  {
   "property": "C40",
   "status": "partial",
   "theorems": [
    "ML.C40_single",
    "ML.C40_merged",
    "ML.C40_not_masked",
    "ML.C40_fallback",
    "ML.C40_connected_partial",
    "ML.C40_merges_only_without_joins",
    "ML.C40_falls_back_though_connected"
   ],
   "note": "Single query exactly when the single design succeeds, merged only after a join failure, other errors never masked. Missing: a connected set of views always gives a single query, which the code violates (C40_falls_back_though_connected); proved under the premise that the join planner succeeds."
  },
  {
   "property": "C41",
   "status": "partial",
   "theorems": [
    "ML.C41_renamed_partial",
    "ML.C41_forces",
    "ML.C41_accepted_iff",
    "ML.C41_only_mapping",
    "ML.C41_not_joint",
    "ML.C41_literal",
    "ML.C41_repeated",
    "ML.C41_mappings_only",
    "ML.C41_unshared",
    "ML.C41_lacks_field"
   ],
   "note": "A mapped name in a query is replaced by its target everywhere it is used: with real fields in the query, for one mapping alone, and for several mappings alone (C41_mappings_only: the candidate with the most points decides). Missing: the chosen targets need not fit each other (C41_not_joint), and literals and repeated names are changed wrongly (C41_literal, C41_repeated); the code is wrong there."
  },
  {
   "property": "C42",
   "status": "partial",
   "theorems": [
    "ML.C42_added_partial",
    "ML.C42_no_user_filters",
    "ML.C42_user_kept",
    "ML.C42_repeatable",
    "ML.C42_swallowed",
    "ML.C42_text",
    "ML.C42_reused"
   ],
   "note": "Always filters are added to the WHERE of every query that uses the view, user filters kept. Missing: malformed filters, text filters and reused lists, where the code is wrong (C42_swallowed, C42_text, C42_reused)."
  },
  {
   "property": "C43",
   "status": "partial",
   "theorems": [
    "ML.C43_validation",
    "ML.C43_join_fields",
    "ML.C43_columns",
    "ML.C43_resolves",
    "ML.C43_join_columns",
    "ML.C43_join_kind",
    "ML.C43_accepts_partial",
    "ML.C43_one_query",
    "ML.C43_join_type",
    "ML.C43_lost_column",
    "ML.C43_join_conditions",
    "ML.C43_mapped_names",
    "ML.C43_rejects",
    "ML.C43_join_missing",
    "ML.C43_first_join_fields"
   ],
   "note": "Proved for every list of merged queries: validation accepts exactly the well-formed lists; an accepted merge joins each later query, with the kind it asks for, on columns both sides produce; columns have distinct names and are taken from the first sub-query that produces them; each filter and ordering uses the column of the sub-query that shows it; without mapped names acceptance is characterised exactly. Not true in full: one query alone is accepted (C43_one_query), an unknown join type becomes a left join (C43_join_type), and a dimension an earlier query was joined on is dropped (C43_lost_column). Sub-query construction is a parameter; filter groups are not modelled."
  },
  {
   "property": "C44",
   "status": "partial",
   "theorems": [
    "ML.C44_text_partial",
    "ML.C44_list",
    "ML.C44_default",
    "ML.C44_corrupted",
    "ML.C44_nulls_first"
   ],
   "note": "Proved for every name without asc/desc inside it, any number of clauses, letter case and spacing, and for orderings given as lists. Missing: names containing the keywords, which the code corrupts (C44_corrupted), and nulls first, which it ignores (C44_nulls_first)."
  },
  {
   "property": "C45",
   "status": "partial",
   "theorems": [
    "ML.C45_expanded_partial",
    "ML.C45_no_reference_left",
    "ML.C45_number",
    "ML.C45_join_clause",
    "ML.C45_spaces",
    "ML.C45_number_table",
    "ML.C45_one_space"
   ],
   "note": "Proved for every text whose literal parts contain no '{' and whose references have ordinary names: the raw SQL of a dimension or measure equals the specified expansion at every depth, fails exactly when a reference leads nowhere, and leaves no reference; number measures parenthesise each reference; join identifiers are qualified. Not true in full: runs of spaces inside quotes are collapsed (C45_spaces) and ${TABLE} in a number measure is parenthesised (C45_number_table). Missing: texts with other braces (Jinja templates), case and tier generated SQL."
  },
  {
   "property": "C46",
   "status": "proved",
   "theorems": [
    "ML.C46_result",
    "ML.C46_names",
    "ML.C46_original_keeps",
    "ML.C46_raises_iff",
    "ML.C46_same_name_twice_loses_identifier"
   ],
   "note": "A second identifier asking for the same extra view on the same view is dropped: C46_same_name_twice_loses_identifier."
  },
  {
   "property": "C47",
   "status": "partial",
   "theorems": [
    "ML.C47_exact_partial",
    "ML.C47_nothing_missed",
    "ML.C47_order",
    "ML.C47_early_stop",
    "ML.C47_dashboard_names",
    "ML.C47_crash_iff",
    "ML.C47_stale_references"
   ],
   "note": "Nothing is missed and nothing is repeated whenever validation returns. Exactness needs the references of every view to be collectable: C47_crash_iff and C47_stale_references show what happens otherwise."
  },
  {
   "property": "C48",
   "status": "partial",
   "theorems": [
    "ML.C48_explicit",
    "ML.C48_only",
    "ML.C48_shared",
    "ML.C48_different",
    "ML.C48_sound",
    "ML.C48_mapping_only",
    "ML.C48_wrong_model"
   ],
   "note": "The model run is the explicit one or the one shared by all fields. Missing: mapping-only queries, which always run on the first model (C48_wrong_model)."
  },
  {
   "property": "C49",
   "status": "partial",
   "theorems": [
    "ML.C49_definition_partial",
    "ML.C49_fields_partial",
    "ML.C49_history_partial",
    "ML.C49_as_written",
    "ML.C49_empty_list",
    "ML.C49_removes_field",
    "ML.C49_leaves_field"
   ],
   "note": "Proved over an explicit heap of shared lists for every history of queries: definitions, fields and SQL do not change. Missing: an explicitly empty window_groupings list, a field with the temporary measure's name, and subqueries that raise, where the code violates it (C49_empty_list, C49_removes_field, C49_leaves_field)."
  },
  {
   "property": "C50",
   "status": "partial",
   "theorems": [
    "ML.C50_model",
    "ML.C50_view",
    "ML.C50_field",
    "ML.C50_dumps",
    "ML.C50_field_order",
    "ML.C50_files",
    "ML.C50_round_trip",
    "ML.C50_model_key_order",
    "ML.C50_paths",
    "ML.C50_ref",
    "ML.C50_ref_text",
    "ML.C50_untyped",
    "ML.C50_overwritten",
    "ML.C50_unknown_type",
    "ML.C50_ref_ambiguous",
    "ML.C50_ref_quotes",
    "ML.C50_field_key_order",
    "ML.C50_view_key_order",
    "ML.C50_fields_not_a_list",
    "ML.C50_no_manifest"
   ],
   "note": "Proved for every definition: a dumped model, view and field keeps exactly its public entries and fields (C50_model, C50_view, C50_field), every well-formed view can be dumped, the order of fields and keys, which files are written, that different names or files never collide, and that dumping a loaded project and loading it again gives the same models and views. dbt references resolve to the first node of that name or raise QueryError. Counterexamples show where the unrestricted statement fails: two same-named views without a file overwrite each other, an untyped view is ignored on load, an unknown field type stops the dump, ambiguous node names and double-quoted or two-argument references."
  },
  {
   "property": "C51",
   "status": "partial",
   "theorems": [
    "ML.C51_quoted",
    "ML.C51_comparison",
    "ML.C51_list",
    "ML.C51_backslash",
    "ML.C51_constants",
    "ML.C51_time"
   ],
   "note": "Proved for warehouses in which a doubled quote is the only escape, for every comparison and every list. Against the full statement: C51_backslash (warehouses that also take a backslash as an escape)."
  },
  {
   "property": "C52",
   "status": "partial",
   "theorems": [
    "ML.C52_units",
    "ML.C52_native",
    "ML.C52_bigquery",
    "ML.C52_consistent",
    "ML.C52_monotone",
    "ML.C52_postgres_months",
    "ML.C52_postgres_days_partial",
    "ML.C52_postgres_days_bounded",
    "ML.C52_postgres_minutes_partial",
    "ML.C52_postgres_brackets",
    "ML.C52_postgres_two_months",
    "ML.C52_bigquery_years"
   ],
   "note": "Proved: the eight units and only these are accepted; every warehouse except Postgres and BigQuery asks its own difference function for exactly the named unit from start to end; on BigQuery likewise, but weeks and years are ISO weeks and ISO years; where the difference function counts boundaries (a hypothesis) durations are additive, antisymmetric and not negative. On Postgres months, quarters and years are the complete ones for all moments; days, weeks and hours are right only for moments less than a month apart and are bounded by 30, 4 and 743 otherwise; minutes and seconds are right exactly below a day and an hour because brackets are missing. Years on BigQuery differ from calendar years. These failures are proved."
  },
  {
   "property": "C53",
   "status": "partial",
   "theorems": [
    "ML.C53_translated",
    "ML.C53_cuts_partial",
    "ML.C53_groups_partial",
    "ML.C53_sql_server_seconds",
    "ML.C53_fiscal_partial",
    "ML.C53_numbers_partial",
    "ML.C53_server_numbers",
    "ML.C53_server_no_extract",
    "ML.C53_week",
    "ML.C53_week_partial",
    "ML.C53_week_index_partial",
    "ML.C53_week_index_same_partial",
    "ML.C53_week_index_unknown",
    "ML.C53_bigquery_week_index",
    "ML.C53_week_of_month_partial",
    "ML.C53_week_of_month_inside",
    "ML.C53_week_of_month_negative",
    "ML.C53_week_of_month_bigquery",
    "ML.C53_names_partial",
    "ML.C53_bigquery_names",
    "ML.C53_raw",
    "ML.C53_zone_ignored",
    "ML.C53_date_column_moves",
    "ML.C53_converts"
   ],
   "note": "Proved on every warehouse: exactly the listed timeframes are translated (KeyError otherwise); second to year give the first moment of the unit, equal for two rows exactly when in the same unit; fiscal ones likewise after moving by the offset; week agrees with C32; month, quarter, hour and day numbers; week_index is the ISO week of the shifted date and equal within a week; names are the three-letter ones; the time zone applies on seven warehouses and is ignored on three. Missing, with proved witnesses: SQL Server seconds overflow after January 1968, SQL Server has no EXTRACT, week_of_month is wrong exactly when the ISO years differ (negative numbers in January and December), BigQuery's week numbers and names differ, a DATE column is moved by the time zone, an unknown week start is silently Monday for week_index."
  },
  {
   "property": "C54",
   "status": "proved",
   "theorems": [
    "ML.C54_cheapest",
    "ML.C54_direct",
    "ML.C54_start",
    "ML.C54_direct_not_cheapest"
   ],
   "note": "For every join graph without self-joins and with positive weights, and every implementation of networkx's two functions that keeps its promise: one-directional neighbours are joined by their edge alone; otherwise two views are joined by a walk that is least over both directions, with the stated tie-break among the two candidates; for three or more views outside the topological shortcut the first join serves the query and no serving join is preferred to it. That a direct join is used although a cheaper connection exists is a proved witness, and part of the statement."
  },
  {
   "property": "C55",
   "status": "partial",
   "theorems": [
    "ML.C55_table",
    "ML.C55_total",
    "ML.C55_detail",
    "ML.C55_order_unselected",
    "ML.C55_limit_zero",
    "ML.C55_same_label",
    "ML.C55_answered",
    "ML.C55_comparisons",
    "ML.C55_metrics_partial"
   ],
   "note": "Proved for every project, warehouse, database and answer: the table with dimensions, the single line without, one line per row without grouping, the ordering, the limit, that an answer exists, that every comparison is on a known field, and (composed with C20 and C22) the true value of each metric of any type but median on the five warehouses with symmetric aggregates. Assumed: column names of requested fields differ (fields with equal names are a proved witness: a column is dropped, or the query is never answered), the ordering is not a text and is by requested fields (otherwise never answered, proved), the limit is not zero on SQL Server and Synapse (where it is ignored, proved). SELECT's semantics is the model's; number measures and raw SQL are outside it."
  },
  {
   "property": "C56",
   "status": "partial",
   "theorems": [
    "ML.C56_table",
    "ML.C56_rows",
    "ML.C56_two_rejected",
    "ML.C56_missing_view",
    "ML.C56_unfiltered",
    "ML.C56_answered"
   ],
   "note": "Proved for every project, warehouse, query and database with one such filter, grouped or not, with the existence of an answer. Missing, proved as negations: two such filters are refused with a TypeError, and when the entity's view is not otherwise in the query the statement is never answered."
  },
  {
   "property": "C57",
   "status": "partial",
   "theorems": [
    "ML.C57_table",
    "ML.C57_total",
    "ML.C57_other_view",
    "ML.C57_same_names",
    "ML.C57_latest_elsewhere",
    "ML.C57_count",
    "ML.C57_sum",
    "ML.C57_symmetric_sum_partial",
    "ML.C57_zeros",
    "ML.C57_max_zero",
    "ML.C57_null_grouping",
    "ML.C57_missing_view"
   ],
   "note": "Proved for every project, warehouse, definition, query and database: the table and the single line in which each metric shows its value on exactly the rows at the window's date; counts (also symmetric) and plain sums over exactly these rows; symmetric sums when rows with one key agree on whether they count. Missing, proved as negations: averages, maxima, minima and medians also take a zero for each row that does not count (C57_zeros, C57_max_zero); rows with a NULL grouping never count, even with nulls_are_equal; a date in another view, metrics sharing a name, or a missing view are never answered; the latest date may be one that the query's joins lose. Assumed: date in the metric's view, groupings written view.field, different subquery names. Filters given as text, group_by filters and number measures referring to non-additive ones are outside the model."
  },
  {
   "property": "C58",
   "status": "partial",
   "theorems": [
    "ML.C58_required",
    "ML.C58_cumulative",
    "ML.C58_listed",
    "ML.C58_never_hidden",
    "ML.C58_usable_partial",
    "ML.C58_pair_query",
    "ML.C58_joinable",
    "ML.C58_numeric_missed",
    "ML.C58_nested_missed",
    "ML.C58_joinable_any"
   ],
   "note": "Proved for every project, reference structure and join graph: the listed names are exactly the join graphs serving every view mentioned, no usable graph is hidden, two fields sharing a graph can be joined in one query when their counted views are all they read, and what joinable_fields returns. Missing, proved as negations: a view read only through a numeric dimension, or through nested fields that are not numbers, is not counted, so a listed graph may not serve the field (C58_numeric_missed, C58_nested_missed); joinable_fields asks for a graph shared with any, not all, selected fields (C58_joinable_any). Cumulative metrics: only their own list is modelled. Fields whose SQL is a Jinja template are assumed away (Formed)."
  },
  {
   "property": "C59",
   "status": "partial",
   "theorems": [
    "ML.C59_mappings",
    "ML.C59_no_measures",
    "ML.C59_only_merged",
    "ML.C59_first_model",
    "ML.C59_linked",
    "ML.C59_names",
    "ML.C59_trend",
    "ML.C59_stops",
    "ML.C59_total"
   ],
   "note": "Proved for every project: the exact contents of all merged results, the names a field is listed under, that dated metrics share a merged result per common timeframe, what mappings offer, that no measure enters through a mapping, and when a metric is listed in merged results only. Missing, proved as a negation: with several models the graph of the first model asked is used for all (C59_first_model). C59_stops: the first metric whose date cannot be used stops the merged results with that error; C59_total: nothing else does."
  },
  {
   "property": "C60",
   "status": "partial",
   "theorems": [
    "ML.C60_formula",
    "ML.C60_table",
    "ML.C60_columns",
    "ML.C60_lines_partial",
    "ML.C60_two",
    "ML.C60_no_dimensions",
    "ML.C60_answered",
    "ML.C60_merged_filter",
    "ML.C60_sub",
    "ML.C60_rows_partial",
    "ML.C60_sub_answered",
    "ML.C60_rows_total"
   ],
   "note": "The SELECT, FROM, WHERE and limit of the merged statement on top of C33/C34, and what a warehouse answers to it. C60_formula: formulas of any depth expand to their full text. C60_columns: the columns. C60_lines_partial: one line per combination with the values of that combination, filters and limit, for any number of sub-queries; missing: NULL dimension values (C33_null) and combinations that are in two later sub-queries but not in the first (C33_three). C60_two: two sub-queries without that condition. C60_no_dimensions: no dimensions. C60_answered: when the statement is answered at all; C60_merged_filter is the witness that a filter on a merged metric is refused where WHERE cannot name columns of the SELECT. Dimension columns are shown where the dimensions match place by place (DimensionsMatch). C60_sub, C60_rows_partial and C60_rows_total compose this with C55: when the tables joined are the warehouse's answers to the sub-queries, the combinations are those on the rows that pass the filters of a sub-query and each metric is its aggregate over exactly the rows of its sub-query with that combination; C60_sub_answered: the sub-queries are answered. Not modelled: sub-queries with group filters, merged metrics with ${TABLE}."
  },
  {
   "property": "C61",
   "status": "partial",
   "theorems": [
    "ML.C61_last_partial",
    "ML.C61_earlier",
    "ML.C61_earlier_wrong",
    "ML.C61_unknown",
    "ML.C61_plain",
    "ML.C61_ref",
    "ML.C61_dash",
    "ML.C61_dash_env",
    "ML.C61_unclosed"
   ],
   "note": "resolve_sql_table_name with its regular expressions. C61_last_partial: the table of the last case is read, for any number of cases before it; C61_unknown: other environments are rejected; C61_plain and C61_ref: other table names. Missing because it is false of the code: for every case before the last the word if and the environment stay in front of the table (C61_earlier, C61_earlier_wrong, for all texts), and names with a dash are not found or keep the cases behind them (C61_dash, C61_dash_env). C61_unclosed: a reference without )."
  },
  {
   "property": "C62",
   "status": "partial",
   "theorems": [
    "ML.C62_exact",
    "ML.C62_marks",
    "ML.C62_raises",
    "ML.C62_raises_name",
    "ML.C62_raises_no_tiers",
    "ML.C62_raises_star",
    "ML.C62_time",
    "ML.C62_duration",
    "ML.C62_tier",
    "ML.C62_sql",
    "ML.C62_project",
    "ML.C62_cycle",
    "ML.C62_cumulative_sql"
   ],
   "note": "Field.collect_errors, check by check. C62_exact: when a report is given it lists exactly the problems of the specification (HasProblem, one constructor per rule); C62_marks: which reports are warnings; C62_raises: validation raises exactly for the listed definitions; C62_time, C62_duration, C62_tier: what is safe when nothing is reported; C62_project: in a project without reports the views of a field are found unless references are circular. Missing because it is false of the code: a report for every definition (C62_raises_name, C62_raises_no_tiers, C62_raises_star), circular references (C62_cycle) and the SQL of cumulative metrics (C62_cumulative_sql). Look-ups are parameters that find a field or say it does not exist; the order of the reports and their wording are not modelled."
  },
  {
   "property": "C63",
   "status": "partial",
   "theorems": [
    "ML.C63_made",
    "ML.C63_fields",
    "ML.C63_fields_raise",
    "ML.C63_stops",
    "ML.C63_exact",
    "ML.C63_raises",
    "ML.C63_event_dimension",
    "ML.C63_clean_fields",
    "ML.C63_clean_date",
    "ML.C63_clean_identifiers",
    "ML.C63_clean_uses",
    "ML.C63_warnings"
   ],
   "note": "View.collect_errors, check by check. C63_made: what making a view does to its definition; C63_fields: which fields are validated, with which label prefix; C63_fields_raise: which exception definitions of fields of the wrong kind raise; C63_warnings: which reports are warnings; C63_stops: fields that cannot be made, or a missing model, are the only report; C63_exact: otherwise the report lists exactly the problems of the specification (ViewHas, one constructor per rule); C63_raises: the views for which validation raises; C63_clean_fields, C63_clean_date, C63_clean_identifiers, C63_clean_uses: what holds when only warnings are reported. Missing because it is false of the code: a report for every definition (C63_raises, C63_event_dimension) and a check of an event dimension with a dot (C63_event_dimension). Look-ups are parameters; the order of the reports, their wording and positions are not modelled."
  },
  {
   "property": "C64",
   "status": "partial",
   "theorems": [
    "ML.C64_made",
    "ML.C64_exact",
    "ML.C64_raises",
    "ML.C64_raises_name",
    "ML.C64_grants",
    "ML.C64_mappings",
    "ML.C64_dates_unknown",
    "ML.C64_clean",
    "ML.C64_clean_offers",
    "ML.C64_clean_but_raises"
   ],
   "note": "Model.collect_errors, check by check, and the mappings. C64_made: what making a model asks for; C64_exact: the report lists exactly the problems of the specification (ModelHas, one constructor per rule), whatever the order of the set of reserved names; C64_raises, C64_raises_name: the models for which validation raises; C64_grants: which lists of grants and allowed values are reported; C64_mappings: the mappings of a model and the order of the dates in the reserved ones; C64_dates_unknown: what happens when a date cannot be told; C64_clean: what holds when nothing is reported; C64_clean_offers: then the mappings can be used, if each names fields of one kind that are no dimension groups. Missing because it is false of the code: a report for every definition (C64_raises) and the use of the mappings without that condition (C64_clean_but_raises). Look-ups, time zones and the dates of the fields are parameters; the wording and positions of the reports are not modelled."
  },
  {
   "property": "C65",
   "status": "partial",
   "theorems": [
    "ML.C65_reads_partial",
    "ML.C65_keyword_ignored",
    "ML.C65_funnel_keyword",
    "ML.C65_text_partial",
    "ML.C65_left_alone",
    "ML.C65_no_parentheses",
    "ML.C65_refused",
    "ML.C65_month",
    "ML.C65_order_blanks",
    "ML.C65_funnel_within",
    "ML.C65_literal",
    "ML.C65_nested",
    "ML.C65_raises"
   ],
   "note": "The converter from the tokens sqlparse returns (sqlparse itself is not modelled). C65_reads_partial: a statement written in its parts in the order of the documentation is read as the question it writes, for any number of names, steps and tokens; names that are SQL keywords, keywords other than AND/OR in a step of a funnel and the text 'within' in a step are excluded, because there the claim is false: C65_keyword_ignored (with C65_month, C65_order_blanks), C65_funnel_keyword, C65_funnel_within. C65_text_partial: the SQL around the calls is kept if the text of each call stands nowhere else in the SQL; false otherwise (C65_literal). C65_left_alone, C65_nested: calls below the first level are left unconverted. C65_no_parentheses, C65_refused: what is refused, C65_raises: what is refused, and with which exception."
  },
  {
   "property": "C66",
   "status": "partial",
   "theorems": [
    "ML.C66_secrets",
    "ML.C66_secrets_bigquery",
    "ML.C66_shown",
    "ML.C66_run",
    "ML.C66_not_run",
    "ML.C66_use",
    "ML.C66_profile",
    "ML.C66_url_partial",
    "ML.C66_url_ambiguous",
    "ML.C66_load",
    "ML.C66_refused",
    "ML.C66_handed",
    "ML.C66_bigquery",
    "ML.C66_bigquery_refused",
    "ML.C66_repr",
    "ML.C66_local",
    "ML.C66_profile_refused",
    "ML.C66_user_twice",
    "ML.C66_use_refused",
    "ML.C66_usable",
    "ML.C66_showable",
    "ML.C66_user",
    "ML.C66_lost"
   ],
   "note": "Definitions of connections are arbitrary dictionaries. C66_secrets, C66_secrets_bigquery: what is shown is the same for every value of the secrets. C66_shown: only known keys are shown, once each. C66_load, C66_refused, C66_handed, C66_user: loading. C66_usable, C66_showable, C66_lost: the connections that are accepted and then cannot be handed on or shown, and what is lost, are said exactly; there the claim is false (a Trino connection can never be shown; Druid, SQL Server and Synapse need a user and a password the constructor does not ask for). C66_run, C66_not_run, C66_use: what is executed; six of the ten types cannot be run on, and Postgres with raw_cursor executes nothing. C66_profile, C66_profile_refused: dbt profiles. C66_bigquery, C66_bigquery_refused: which credentials are used and when they are refused. C66_repr, C66_local, C66_user_twice, C66_use_refused: how a connection is printed, which repositories are local, that the user can be read under two names, and that a database that is no text raises. C66_url_partial, C66_url_ambiguous: the address of a Postgres database is only unambiguous if its parts lack certain characters. Not modelled: the drivers, the files of the credentials and of the profiles (parameters)."
  },
  {
   "property": "C67",
   "status": "partial",
   "theorems": [
    "ML.C67_user",
    "ML.C67_connections",
    "ML.C67_project",
    "ML.C67_history",
    "ML.C67_not_loaded",
    "ML.C67_fields",
    "ML.C67_first",
    "ML.C67_refused",
    "ML.C67_no_connection",
    "ML.C67_dimension_partial",
    "ML.C67_metric",
    "ML.C67_dimension_history",
    "ML.C67_runs",
    "ML.C67_never_runs",
    "ML.C67_types",
    "ML.C67_table_name",
    "ML.C67_sql",
    "ML.C67_refused_others",
    "ML.C67_sql_left"
   ],
   "note": "A session is a state machine with nine calls; the project, the resolver and the resolver of merged queries are parameters, so that the theorems hold for every one of them. C67_user, C67_connections, C67_project: what a history leaves behind. C67_history: a call returns what it returns when the queries of the history are left out. C67_not_loaded: before a load. C67_fields, C67_first, C67_refused: what a question is answered with. C67_sql, C67_sql_left: what SQL with MQL in it is answered with and leaves behind; C67_refused_others: options that are refused. C67_runs: what query() executes. C67_types: the types of the connections at a load. C67_metric, C67_dimension_partial: fields by name. False of the code, proved so: the connection of SQL and merged queries is always None and they are never executed (C67_no_connection, C67_never_runs); the table name of a view read outside a query depends on the last query (C67_table_name); get_dimension depends on what was asked for before (C67_dimension_history). Not modelled: reading the repository (a parameter of load), a project that is changed from outside while the session has it."
  },
  {
   "property": "C68",
   "status": "partial",
   "theorems": [
    "ML.C68_field",
    "ML.C68_seed",
    "ML.C68_complete",
    "ML.C68_succeeds",
    "ML.C68_chosen",
    "ML.C68_counts",
    "ML.C68_tables",
    "ML.C68_tables_from",
    "ML.C68_tables_or_columns",
    "ML.C68_unsupported",
    "ML.C68_unmarked",
    "ML.C68_searchable",
    "ML.C68_model",
    "ML.C68_asks",
    "ML.C68_own",
    "ML.C68_mixed",
    "ML.C68_name",
    "ML.C68_name_kept",
    "ML.C68_sql_apart",
    "ML.C68_name_collision"
   ],
   "note": "The warehouse is a parameter: a function from the text of a question to rows. C68_seed: the views, their order, fields, default date, description and table name. C68_complete: every column has its field and every field its column. C68_field, C68_sql_apart: one field. C68_own: whose columns a view has. C68_name, C68_name_kept: names. C68_searchable, C68_unmarked: marks. C68_model: the model. C68_asks, C68_counts, C68_tables, C68_tables_from: what the warehouse is asked. C68_tables_or_columns: tables can be asked for whenever columns can, but not the other way round. C68_succeeds, C68_unsupported: when seeding succeeds and what it raises otherwise. C68_chosen: what the choices are made of. False of the code, proved so: without a schema a view can have the columns of two tables (C68_mixed), and different names become one, or none (C68_name_collision). Not modelled: the files that are written (see C55 for dumping), the folder that is found, answers of the warehouse without the columns asked for, text outside ASCII in lower()."
  },
  {
   "property": "C70",
   "status": "partial",
   "theorems": [
    "ML.C70_found",
    "ML.C70_whole",
    "ML.C70_subfolders",
    "ML.C70_load",
    "ML.C70_load_fails",
    "ML.C70_load_raises",
    "ML.C70_order",
    "ML.C70_complaints",
    "ML.C70_type",
    "ML.C70_started",
    "ML.C70_kinds",
    "ML.C70_metricflow",
    "ML.C70_file_strange",
    "ML.C70_dbt",
    "ML.C70_local",
    "ML.C70_no_project",
    "ML.C70_folders",
    "ML.C70_folders_wrong",
    "ML.C70_venv",
    "ML.C70_twice",
    "ML.C70_reader_lists"
   ],
   "note": "Disks are arbitrary lists of files by place; paths are arbitrary texts, with `.`, `..` and repeated slashes. C70_found: the files read are exactly those `Found` allows; C70_whole: a folder written with a slash at its end is read as a whole. C70_load, C70_load_fails, C70_load_raises, C70_complaints, C70_order: what is loaded of them, when it raises, what is complained about, and that the order of the files does not matter. C70_folders, C70_folders_wrong, C70_file_strange, C70_no_project, C70_type, C70_kinds, C70_metricflow, C70_dbt, C70_local: the project file, the folders, the kind of the repository. Missing because it is false of the code: a folder written without a slash at its end, as in a project just started (C70_started), is not read as a whole, and files of neighbouring folders are (C70_subfolders); paths with `venv` anywhere in them, even in the place of the repository, are never read (C70_venv); a folder named in two ways is read twice (C70_twice); the reader's own lists are always empty (C70_reader_lists). Not modelled: links, folders with `*`, `?` or `[` in their names, directories called like YAML files, the YAML parser and the Metricflow converter (parameters)."
  },
  {
   "property": "C71",
   "status": "partial",
   "theorems": [
    "ML.C71_nothing_left_partial",
    "ML.C71_history_partial",
    "ML.C71_elsewhere",
    "ML.C71_https",
    "ML.C71_unexposed_partial",
    "ML.C71_interrupted",
    "ML.C71_interrupted_op",
    "ML.C71_exposed",
    "ML.C71_text",
    "ML.C71_chmod",
    "ML.C71_chmod_fetch",
    "ML.C71_again",
    "ML.C71_loaded",
    "ML.C71_clone_left",
    "ML.C71_branches_cut",
    "ML.C71_commands",
    "ML.C71_commands_without",
    "ML.C71_commands_first",
    "ML.C71_fetch",
    "ML.C71_before_fetch",
    "ML.C71_needs_key",
    "ML.C71_branches"
   ],
   "note": "Every call into the system is a step; a Fate, about which nothing is assumed unless said, decides of each step whether it is done, fails (perhaps having done a part), is interrupted or is where the process is killed. C71_nothing_left_partial and C71_history_partial: no key is left after calls and histories that ended, if the disk writes and removes what it is told and keys are bytes. C71_unexposed_partial: others can never read anything of a key, at any crash point, if it fits into the buffer of a file, no interrupt arrives and removing works. C71_commands, C71_commands_without, C71_commands_first, C71_fetch, C71_elsewhere, C71_https, C71_loaded, C71_branches without such conditions. Missing because it is false of the code: an interrupt or kill while git works leaves the key (C71_interrupted, C71_interrupted_op), one between write and chmod leaves it readable by all (C71_exposed); text keys and failing writes leave an empty file (C71_text); when chmod fails the operation is carried out without the key and then raises (C71_chmod, C71_chmod_fetch: an UnboundLocalError); a project that cannot be read leaves its clone (C71_clone_left); branches with /heads/ in their names are cut (C71_branches_cut). Not modelled: what git does in the clone and on the remote."
  },
  {
   "property": "C69",
   "status": "partial",
   "theorems": [
    "ML.C69_filters",
    "ML.C69_filters_read",
    "ML.C69_element_filters",
    "ML.C69_element_filters_read",
    "ML.C69_dict",
    "ML.C69_errors",
    "ML.C69_errors_lost",
    "ML.C69_element_raises",
    "ML.C69_raises",
    "ML.C69_values",
    "ML.C69_errors_raise",
    "ML.C69_made",
    "ML.C69_refused",
    "ML.C69_named",
    "ML.C69_capital",
    "ML.C69_label",
    "ML.C69_printed"
   ],
   "note": "C69_filters and C69_filters_read (dashboard), C69_element_filters and C69_element_filters_read (element): which comparisons come out, for which first day of the week, and when; C69_dict: the dictionary. C69_errors: exactly what is reported, if every filter of the dashboard names a field and every element a model. Missing because it is false of the code: otherwise validating raises and reports nothing (C69_errors_lost); a filter with an empty value is not left out but stays without an expression (in C69_filters, the test against {} never succeeds); a dashboard with a capital letter in its name is not found under it (C69_capital); a default label is not printed (C69_printed). What a filter value means is C23 and C24. Looking up a field is a parameter."
  },
  {
   "property": "C73",
   "status": "partial",
   "theorems": [
    "ML.C73_condition",
    "ML.C73_none",
    "ML.C73_errors",
    "ML.C73_clean",
    "ML.C73_foreign_key",
    "ML.C73_made",
    "ML.C73_written",
    "ML.C73_shared",
    "ML.C73_required",
    "ML.C73_odd"
   ],
   "note": "C73_condition (every reference, simultaneous replacement), C73_shared (conditions from identifiers, composed with C45_join_clause), C73_errors and C73_clean (validation), C73_made and C73_written (which joins are accepted), C73_required. For ordinary texts: no other opening braces, and SQL of fields without braces. Missing because it is false of the code: a reference without a view makes the condition the word None, without an error (C73_none; validation reports it); joins with a foreign key are always reported (C73_foreign_key). Looking up views and fields and the SQL of a field are parameters here (C05, C45)."
  },
  {
   "property": "C72",
   "status": "partial",
   "theorems": [
    "ML.C72_init",
    "ML.C72_init_dbt",
    "ML.C72_init_again",
    "ML.C72_init_keeps",
    "ML.C72_profile",
    "ML.C72_started",
    "ML.C72_dbt_unreadable",
    "ML.C72_list",
    "ML.C72_list_unknown",
    "ML.C72_list_split",
    "ML.C72_validate",
    "ML.C72_validate_status",
    "ML.C72_show",
    "ML.C72_no_secret",
    "ML.C72_debug",
    "ML.C72_seed_connection"
   ],
   "note": "C72_init and C72_init_dbt: exactly what is on the disk after init, outside and inside a dbt project. C72_init_again: interrupted after any number of steps and run again, the disk is that of one run; C72_init_keeps: at no point is any other file changed or any folder removed. C72_profile: the profile that the other commands use. C72_started: a project just started is read as an empty one. C72_list, C72_list_unknown, C72_list_split, C72_validate, C72_show, C72_no_secret (from C66's notion of differing in secrets only), C72_debug: what is printed. Missing because it is false of the code: a project started inside a dbt project cannot be read (C72_dbt_unreadable); validate ends with status 0 also when it found errors (C72_validate_status); seed --connection works only for the connection named like the profile and raises AttributeError for any other (C72_seed_connection)."
  },
  {
   "property": "C74",
   "status": "partial",
   "theorems": [
    "ML.C74_compares",
    "ML.C74_field_value",
    "ML.C74_texts_partial",
    "ML.C74_like",
    "ML.C74_lists",
    "ML.C74_refused",
    "ML.C74_unknown",
    "ML.C74_no_value",
    "ML.C74_yesno",
    "ML.C74_yesno_not",
    "ML.C74_yesno_both",
    "ML.C74_numbers",
    "ML.C74_digits",
    "ML.C74_boolean_text",
    "ML.C74_boolean_search",
    "ML.C74_time_text",
    "ML.C74_yesno_list",
    "ML.C74_matches_number",
    "ML.C74_yesno_number",
    "ML.C74_true_values",
    "ML.C74_list_refused",
    "ML.C74_result_refused",
    "ML.C74_matches",
    "ML.C74_matches_window",
    "ML.C74_matches_cast",
    "ML.C74_datetime",
    "ML.C74_literal",
    "ML.C74_both",
    "ML.C74_no_field",
    "ML.C74_boolean",
    "ML.C74_again",
    "ML.C74_stale",
    "ML.C74_result",
    "ML.C74_result_matches",
    "ML.C74_text"
   ],
   "note": "C74_refused says exactly which conditions on a field are refused and with which exception; C74_unknown for unknown expressions. C74_compares, C74_field_value (the value is another field), C74_texts_partial (values without % and _), C74_like, C74_lists, C74_numbers, C74_no_value, C74_matches and C74_matches_window (composed with C23), C74_datetime, C74_literal, C74_result (conditions on results) and C74_text (the text is the one of C51) give the truth of the SQL on every row; C74_again: the dictionary left behind is a fixed point. Missing because it is false of the code: yesno fields ignore the expression (C74_yesno, C74_yesno_not, C74_yesno_both); one text for isin is the list of its characters or an AttributeError (C74_digits); matches fails on BigQuery and Trino for fields without a data type (C74_matches_cast) and on results (C74_result_matches); a literal hides the field (C74_both); a condition accepted without a field fails later (C74_boolean, C74_no_field); the dictionary passed is changed and stale for another warehouse (C74_stale); % and _ in a value are wildcards. Rows, the order of values and the printing of numbers are parameters; looking up fields and the SQL of fields too (C05, C45). C74_boolean_text, C74_boolean_search and C74_time_text give the text of truth values and datetimes; C74_yesno_list, C74_yesno_number, C74_matches_number, C74_true_values, C74_list_refused and C74_result_refused the remaining kinds of values."
  },
  {
   "property": "C75",
   "status": "partial",
   "theorems": [
    "ML.C75_read",
    "ML.C75_same",
    "ML.C75_semicolon",
    "ML.C75_raw",
    "ML.C75_raw_cast",
    "ML.C75_raw_quoted",
    "ML.C75_cross_on",
    "ML.C75_or",
    "ML.C75_two_statements"
   ],
   "note": "C75_read: a reader of SQL (Spec: tokens, clauses, items) finds in the text exactly the parts asked for, for every query whose parts keep to their places (WellWritten: quotes and parentheses closed, and outside them no clause word, semicolon, comma between items, or OR in conditions). C75_same: equal texts ask for the same. C75_semicolon, C75_raw (aliases of raw columns are dropped from the GROUP BY). Missing because it is false of the code: a raw column without alias whose expression has ` as ` in it is cut off (C75_raw_cast) and ` as ` in quotes changes its case (C75_raw_quoted); join_type cross writes CROSS JOIN with ON (C75_cross_on); conditions given as text are not put in parentheses, so OR takes others apart (C75_or) and a semicolon makes two statements (C75_two_statements). pypika's text is modelled from its documented behaviour; comments in SQL are not read; the sub-query of funnel filters is left out."
  },
  {
   "property": "C76",
   "status": "partial",
   "theorems": [
    "ML.C76_metric",
    "ML.C76_nested",
    "ML.C76_dimension_partial",
    "ML.C76_taken_apart",
    "ML.C76_comment",
    "ML.C76_not_taken_apart",
    "ML.C76_circle",
    "ML.C76_circle_error",
    "ML.C76_merged",
    "ML.C76_merged_value"
   ],
   "note": "C76_metric: the SQL of a metric of type number is read (Spec: a lexer and a reader of expressions with strings, parentheses, calls, CASE and operators by precedence) as the expression its author wrote with the expression of each metric named in the place of its name, and it computes the composed value in every interpretation; the SQL of the metrics named may be any text whose strings, parentheses and CASEs are closed. C76_nested: to any depth. C76_dimension_partial: for dimensions and the SQL inside aggregates when the SQL of every field named is one operand (a column, a call, a CASE, something in parentheses). Missing for dimensions because it is false of the code: references are replaced without parentheses, so the SQL of the field named is taken apart by precedence (C76_taken_apart: 7 instead of 12) or begins a comment (C76_comment); C76_not_taken_apart: the same texts as metrics are read right. C76_merged and C76_merged_value: the same for merged metrics over the columns of the sub-queries, so that a warehouse that reads the SQL computes the formula from the metrics of each line of C60. C76_circle, C76_circle_error: metrics that name each other in a circle have no SQL, the exception is that of recursion. The reader has no BETWEEN, NOT IN, IS NOT, quoted identifiers or comments, and reads 1e-5 as a subtraction; texts with them are outside the statement. Time dimensions, whose SQL is wrapped, are left to C45."
  },
  {
   "property": "C77",
   "status": "partial",
   "theorems": [
    "ML.C77_case",
    "ML.C77_refused",
    "ML.C77_tier_partial",
    "ML.C77_yesno",
    "ML.C77_sql_first",
    "ML.C77_no_sql",
    "ML.C77_identifier",
    "ML.C77_quote",
    "ML.C77_no_cases",
    "ML.C77_tier_taken_apart"
   ],
   "note": "C77_case: the SQL of a dimension with cases is read (the reader of C76) as a CASE that gives each row the label of the first case true of it, else the label for all others, else NULL, and it is one operand; for conditions that are expressions to that reader (double quotes read as single ones) and labels without a single quote. C77_tier_partial: the SQL of a tier gives the label of a tier of the list that contains the number, and 'Unknown' for NULL; for an sql that is one operand. C77_yesno: the condition in parentheses, one operand. C77_sql_first, C77_no_sql, C77_refused: what wins and what fails. Missing because it is false of the code: C77_identifier (a quoted column in a condition becomes a string), C77_quote (a single quote in a label or string makes a text no warehouse can read), C77_no_cases (CASE END), C77_tier_taken_apart (the sql of a tier is used without parentheses)."
  },
  {
   "property": "C78",
   "status": "partial",
   "theorems": [
    "ML.C78_places",
    "ML.C78_subqueries",
    "ML.C78_answered",
    "ML.C78_warehouse",
    "ML.C78_funnel",
    "ML.C78_nothing",
    "ML.C78_rows_partial",
    "ML.C78_tables",
    "ML.C78_match",
    "ML.C78_lines_partial",
    "ML.C78_two"
   ],
   "note": "The whole of the resolver of merged queries, from the plan (C35-C37) to the definition the merged statement (C33, C34, C60) is made from. C78_places: one sub-query per canonical date, with the counterpart of each dimension at its place. C78_subqueries: each planned sub-query is in the statement once, asked for exactly its metrics, dimensions and conditions, no limit. C78_answered: a query that can be planned is answered when its sub-queries are. C78_warehouse, C78_funnel. C78_match: the dimensions match place by place and the metrics are apart, which C60 assumed. C78_lines_partial: the lines of the answer; missing as in C60: NULL dimension values (C33_null) and combinations that are in two later sub-queries but not in the first (C33_three). C78_two: two dates, without that condition. C78_rows_partial: the same down to the rows of the warehouse: the sub-queries are written as in C55 from what stands for the dimensions there, the metrics that belong there and the conditions as they read there (C37), and each metric of a line is its aggregate over exactly the rows with these values that pass the conditions of its sub-query; missing: NULL dimension values and more than two dates. C78_tables: such answers of the sub-queries exist on every database. Assumed of the project: plain names of dates, fewer than ten join graphs, mappings that lead to one field and back (TidyQuery, FitsTogether), different columns for different fields (ColumnsApart); zEnv is a project that meets all of these. How the filters of a sub-query are read is a parameter of C78_rows_partial. Not modelled: aliases given by the caller."
  },
  {
   "property": "C79",
   "status": "partial",
   "theorems": [
    "ML.C79_view",
    "ML.C79_exact",
    "ML.C79_columns_partial",
    "ML.C79_labels",
    "ML.C79_shared",
    "ML.C79_groups",
    "ML.C79_timeframes",
    "ML.C79_durations",
    "ML.C79_intervals",
    "ML.C79_fiscal",
    "ML.C79_label",
    "ML.C79_group_labels"
   ],
   "note": "C79_columns_partial: the columns of a query's fields differ; missing: views one of whose names is the other's followed by an underscore and more, where it is false (C79_shared: the dimensions orders.items_id and orders_items.id are written as two columns of one name). C79_exact says when two fields of different views share a column, C79_view that fields of one view do only if they have the same id. C79_groups and C79_timeframes say when two time groups of a view do (C79_fiscal: order/fiscal_month and order_fiscal/month), C79_durations that durations never do. C79_labels gives the condition of C55 on labels. C79_label, C79_group_labels: labels. Simplification: letters are ASCII (names are, by validation). C79_intervals: the intervals of C79_durations are exactly those that have SQL."
  },
  {
   "property": "C80",
   "status": "partial",
   "theorems": [
    "ML.C80_same_answers",
    "ML.C80_hidden_partial",
    "ML.C80_removed_partial",
    "ML.C80_affected",
    "ML.C80_required",
    "ML.C80_bridge",
    "ML.C80_filter_view",
    "ML.C80_null",
    "ML.C80_merged"
   ],
   "note": "C80_hidden_partial: two warehouses that agree on the rows the user may see answer every query alike, when every view of the FROM is of a field of the query and filters are on fields of their own view; C80_removed_partial: the answers are those over the tables without hidden rows. Missing: views in the FROM that are of no field of the query, where it is false (C80_bridge: a view that only connects two others is not filtered; C80_filter_view: nor is a view joined for the access filter of another view), and filters that are true of NULL (C80_null: the user value NULL lets rows without a joined row pass, so a hidden row shows by what it keeps out). C80_same_answers says exactly on which rows the answers of any query depend. C80_affected: is_affected_by_access_filters; C80_required: the views that are joined. The pushing of a condition through left, inner and full joins is joined_push in Secure/Push.lean. C80_merged: the same for merged queries, whose sub-queries each build their own FROM."
  },
  {
   "property": "C81",
   "status": "proved",
   "theorems": [
    "ML.C81_total",
    "ML.C81_drill",
    "ML.C81_distinct",
    "ML.C81_not_all",
    "ML.C81_same_from",
    "ML.C81_looked_up"
   ],
   "note": "C81_total and C81_drill: for metrics that are written without a correction for repeated rows (Spec.AddsUp) and a FROM that only adds columns (Spec.Widens). C81_same_from and C81_looked_up: when a FROM only adds columns: it is the same one, or the other one followed by left joins in which a row finds at most one other, with the same filters and access filters. C81_distinct: the bounds for counts of different values. C81_not_all: a witness that counts of different values, and sums corrected for repeated rows, do not add up although both totals are right. Queries with conditions on metrics, a limit, or a filter with a group_by are outside the statement: their lines are not all the lines."
  },
  {
   "property": "C82",
   "status": "proved",
   "theorems": [
    "ML.C82_where",
    "ML.C82_having"
   ],
   "note": "C82_where and C82_having, up to the order of the lines, for queries without a limit and without filters with a group_by, when the FROM of a query only depends on the set of views (Spec.SetOfViews) and the fields of the filter add no view (they are shown)."
  },
  {
   "property": "C83",
   "status": "proved",
   "theorems": [
    "ML.C83_columns",
    "ML.C83_looked_up",
    "ML.C83_totals"
   ],
   "note": "C83_columns: queries that need the same views; C83_totals: without dimensions; C83_looked_up: further views that only add columns (C81_same_from, C81_looked_up). Outside the statement: further views that repeat rows, where sums are the same only through the correction of C22, with its conditions."
  },
  {
   "property": "C84",
   "status": "proved",
   "theorems": [
    "ML.C84_again",
    "ML.C84_top_values",
    "ML.C84_top",
    "ML.C84_all_dimensions",
    "ML.C84_limit",
    "ML.C84_ties"
   ],
   "note": "C84_limit: the LIMIT is all that a limit changes; C84_again; C84_top_values: with ties; C84_top and C84_all_dimensions: without; C84_ties: two answers to one query with a limit that have no line in common. A limit of 0 on SQL Server and Azure Synapse is not written (C55) and left out, and so are filters with a group_by and orderings given as text."
  },
  {
   "property": "C85",
   "status": "proved",
   "theorems": [
    "ML.C85_line",
    "ML.C85_storage",
    "ML.C85_new_rows",
    "ML.C85_total"
   ],
   "note": "C85_line is the general statement; C85_new_rows, C85_storage and C85_total are about new rows, the order of rows, and totals. Conditions on groups are on metrics. The query shows all lines (no limit); the rows are those of the FROM, whose joins are C17 and C19."
  },
  {
   "property": "C86",
   "status": "proved",
   "theorems": [
    "ML.C86_more",
    "ML.C86_steps",
    "ML.C86_own_events",
    "ML.C86_storage"
   ],
   "note": "For windows that are usable (C38). It is about the rows of the steps, before they are grouped into lines: lines and metrics are C38_table_partial. The window is measured with the date difference of the warehouse, a parameter."
  },
  {
   "property": "C87",
   "status": "proved",
   "theorems": [
    "ML.C87_later",
    "ML.C87_stays",
    "ML.C87_grows",
    "ML.C87_difference"
   ],
   "note": "For queries that ask for the metric's date (without it the totals are wrong: C39_inflated). Aggregates are functions of the rows; each theorem says what it needs of them: not looking at the order (a), not shrinking (c), adding up (d). C87_stays and C87_grows allow a cumulative_where that does not take rows back; C87_difference is for metrics without one."
  },
  {
   "property": "C88",
   "status": "partial",
   "theorems": [
    "ML.C88_sent",
    "ML.C88_while_open",
    "ML.C88_returned_closed",
    "ML.C88_postgres_cursor",
    "ML.C88_failed_left_open",
    "ML.C88_closed_partial",
    "ML.C88_read_after_close",
    "ML.C88_login",
    "ML.C88_timeout"
   ],
   "note": "That the connection is closed is proved for calls that return (but for cursors of Postgres, C88_postgres_cursor) and for calls in which only connecting, or reading rows on another warehouse than Postgres, fails. It is false otherwise: a refused query leaves its connection open on every warehouse (C88_failed_left_open). Everything else of the statement is proved. What the driver does by itself, such as retries or closing what is garbage collected, is not modelled; a time-out for Postgres that is not a number counts as raising."
  },
  {
   "property": "C89",
   "status": "partial",
   "theorems": [
    "ML.C89_lines",
    "ML.C89_total",
    "ML.C89_detail",
    "ML.C89_group_filter",
    "ML.C89_differs"
   ],
   "note": "False in general: one order on two joined rows is 10 on Snowflake and 20 on Databricks (C89_differs), since double counting is not corrected on every warehouse. Proved for two warehouses of the same kind in this respect, and for any two when nothing needs the correction: grouping queries (C89_lines), totals (C89_total), a filter on entities (C89_group_filter, same kind); a row-per-key query agrees on any two (C89_detail). Limits are left out: which lines a limit keeps among equal ones is the warehouse's choice."
  },
  {
   "property": "C90",
   "status": "proved",
   "theorems": [
    "ML.C90_filter",
    "ML.C90_total",
    "ML.C90_split",
    "ML.C90_split_total",
    "ML.C90_null"
   ],
   "note": "C90_filter and C90_total: any filter on the views the query already has; counts whether or not they are corrected for repeated rows. C90_split and C90_split_total: two filters of which exactly one is true of every row read (Spec.Splits), for metrics written without a correction (Spec.AddsUp), as in C81. C90_null: a comparison and its opposite are not such a pair where the field is NULL: such rows are in neither answer. Filters that bring a further view into the FROM are outside the statement (C81_looked_up says when that changes nothing)."
  },
  {
   "property": "C91",
   "status": "proved",
   "theorems": [
    "ML.C91_lines",
    "ML.C91_one_line_each",
    "ML.C91_keeps_first",
    "ML.C91_filters",
    "ML.C91_full_outer",
    "ML.C91_outer_hides",
    "ML.C91_all_kinds",
    "ML.C91_outer_hides_example",
    "ML.C91_repeats",
    "ML.C91_page",
    "ML.C91_sub_lines",
    "ML.C91_from_data",
    "ML.C91_from_data_inner"
   ],
   "note": "C91_all_kinds: the exact lines for any kinds of joins; C91_lines: for left and inner joins, with filters; C91_one_line_each and C91_keeps_first: one line for each line of the first query when each later one is joined on all its dimensions and answers one line for each combination of them; C91_filters: any kinds of joins; C91_full_outer: two queries. C91_sub_lines: the answer of every sub-query of C55 that groups by its dimensions has that one line for each combination. C91_from_data, C91_from_data_inner: so the merge of such queries keeps each line of the first once, with no assumption on the answers of the later ones. C91_repeats: with a further dimension in a later query the lines of the first are repeated, so their metrics no longer add up. C91_outer_hides: after a full outer join the values of the join fields of lines only in the second query are not shown. A cross join written with a condition is read as an inner join. C91_page: the order of the lines and the limit."
  }
 ]
}