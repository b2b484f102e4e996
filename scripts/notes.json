{
 "C01": {
  "status": "proved",
  "note": "Both directions, and the raising case, for every grant list and user."
 },
 "C02": {
  "status": "proved",
  "note": "Membership and non-interference: removing a denied object changes no answer."
 },
 "C03": {
  "status": "partial",
  "note": "Proved for JSON filters and for texts with no top-level OR. False for other literal texts: C03_literal_or_bypass is the witness."
 },
 "C04": {
  "status": "proved",
  "note": "Text is read back with AND binding tighter than OR, and evaluated in three-valued logic."
 },
 "C05": {
  "status": "proved",
  "note": "Case-insensitivity holds for the field part of a name only; an example shows the view part is case-sensitive."
 },
 "C06": {
  "status": "proved",
  "note": ""
 },
 "C07": {
  "status": "proved",
  "note": ""
 },
 "C08": {
  "status": "proved",
  "note": "For every program of lookups, edits, nested replacements and exceptions run inside the block."
 },
 "C09": {
  "status": "partial",
  "note": "Proved when replacement names are in lower case. False otherwise: C09_letter_case_keeps_old_view."
 },
 "C10": {
  "status": "partial",
  "note": "Proved for names in lower case when fields are listed in between. False otherwise: C10_lookup_breaks_remove."
 },
 "C11": {
  "status": "partial",
  "note": "Proved for lookups by a fixed non-empty user with refresh. Witnesses: C11_set_user_keeps_graph, C11_empty_user_stale, C11_no_refresh_stale, C11_view_object_stale."
 },
 "C12": {
  "status": "proved",
  "note": "For every list of views whose build succeeds."
 },
 "C13": {
  "status": "partial",
  "note": "The best candidate is kept when at most one explicit declaration concerns the pair. Among several explicit declarations the last one counts, whatever its rank: C13_last_declaration_wins is the witness against the full statement."
 },
 "C14": {
  "status": "proved",
  "note": "Includes an exact condition for the build to succeed."
 },
 "C15": {
  "status": "proved",
  "note": ""
 },
 "C16": {
  "status": "proved",
  "note": "networkx components enter as any list meeting the IsScc promise; a concrete algorithm is proved to meet it."
 },
 "C17": {
  "status": "proved",
  "note": "Topological order and shortest paths enter as any functions meeting NxSpec; a concrete pair of algorithms is proved to meet it. A view that declares a join to itself breaks the property: C17_self_join."
 },
 "C18": {
  "status": "partial",
  "note": "Proved for two views, for a required root that reaches the rest through required views, and exactly when the topological shortcut does not apply. The full statement is false of the code: C18_rejects_far_base, C18_rejects_bridge, C18_rejects_detour."
 },
 "C19": {
  "status": "proved",
  "note": "SQL join semantics modelled; conditions relate the two joined views only. The one-row-per-base-row form needs left joins (the default); full joins keep every base row once, inner joins only drop rows."
 },
 "C20": {
  "status": "partial",
  "note": "Exact characterisation: unique when every one-to-many join leads to the reported view and no many-to-one join does; for every other join sequence C20_otherwise_repeated gives data that repeat the key. C20_star_repeats and C20_chain_repeats are concrete witnesses against the full statement."
 },
 "C21": {
  "status": "proved",
  "note": "Values are rationals with NULL; the symmetric sum floors each value to six decimals, so equality is for values with at most six decimals and C21_sum_error bounds the difference otherwise. The empty sum is 0 and the empty count NULL. C21_distinct_hashes_not_enough: it is not enough that the hash is injective on keys; adding the scaled value must not collide either."
 },
 "C22": {
  "status": "partial",
  "note": "Decision table proved in full (C22_plain_iff, C22_no_own_key, C22_other_warehouses), and its value on joined tables for all types but median when the functional key exists and the C20 conditions hold (C22_joined_partial). Against the full statement: C22_no_base_key (base view without a visible primary key: plain, inflated sum) and C22_median."
 },
 "C23": {
  "status": "partial",
  "note": "Each class of strings is proved to give its comparison, with its meaning on texts: null and boolean words, plain values and patterns, their negation, comma lists (plain, negated, mixed), numeric signs (longest sign first), days, date phrases; without a date phrase never more than one comparison. Against \"every string\": C23_exceptions (\"-\" alone is an error, \"-5 days\" is the same window as \"5 days\"), and a list with an empty element is an IndexError. pd.to_numeric is a parameter."
 },
 "C24": {
  "status": "partial",
  "note": "Windows of every date phrase proved for all moments, week starts and counts, with the calendar proved from first principles (Dates/Civil.lean). C24_today_yesterday and C24_to_date are in full. _partial: the theorems that speak of whole periods give the exact windows; for quarters the end bound is the midnight that begins the last day, so a time on that last day falls outside (C24_quarter_last_day, a witness against the full statement). Not modelled: daylight-saving shifts, years outside 1-9999. \" until \": C24_until for any two sides, C24_two_dates for two written dates (the last day is left out except for its first second), C24_written_date for which texts are dates."
 },
 "C25": {
  "status": "partial",
  "note": "Restored after every successful parse and after failures later than the search for a date phrase, over whole histories; earlier parses never change the result of later ones (C25_no_influence). Against the full statement: C25_leak (a date phrase that cannot be read leaves the model's week start behind)."
 },
 "C26": {
  "status": "partial",
  "note": "For every list of filters that yields a condition, every rows and every truth assignment with NULLs: plain aggregates of every type, symmetric count, distinct-key sum/count/average (exact), symmetric sum (under the C21 conditions). Against the full statement: C26_empty_filters (all values empty: malformed text) and C26_else_zero_average (non-additive averages use ELSE 0)."
 },
 "C27": {
  "status": "proved",
  "note": ""
 },
 "C28": {
  "status": "proved",
  "note": ""
 },
 "C30": {
  "status": "proved",
  "note": "For every project's sets (entries with optional minus, star and view prefix, plain names): exact membership, each once, first-inclusion order, defined whenever references do not cycle; cyclic sets end in the recursion limit; unknown sets and names containing '-' are the silent cases."
 },
 "C31": {
  "status": "proved",
  "note": "Every ordered list of boundaries, every rational value and NULL. C31_unsorted and C31_empty show what happens to boundaries that are not increasing or absent. C31_text: the whole text, branch by branch; the comparisons written in a branch are true of a number exactly when it lies in the tier."
 },
 "C32": {
  "status": "partial",
  "note": "Every calendar day and week start on the warehouses whose DATE_TRUNC(WEEK) gives Monday. Against the full statement: C32_bigquery (weeks start a day early) and C32_sql_server_partial (last day of the week moved to the next week)."
 },
 "C33": {
  "status": "partial",
  "note": "Any number of sub-queries, any contents with unique non-NULL keys: exact number of rows for every combination, and the exact condition under which it is one (C33_exact); full statement for two sub-queries and without dimensions. Against the full statement: C33_three (a combination missing from the first sub-query and present in two others is split) and C33_null."
 },
 "C34": {
  "status": "partial",
  "note": "The nested expression in full (C34_nested). Columns of several sub-queries in full when unmapped; mapped columns only when the sub-query is the only or last one having it: C34_dropped shows earlier values are lost."
 },
 "C46": {
  "status": "proved",
  "note": "A second identifier asking for the same extra view on the same view is dropped: C46_same_name_twice_loses_identifier."
 },
 "C47": {
  "status": "partial",
  "note": "Nothing is missed and nothing is repeated whenever validation returns. Exactness needs the references of every view to be collectable: C47_crash_iff and C47_stale_references show what happens otherwise."
 },
 "C51": {
  "status": "partial",
  "note": "Proved for warehouses in which a doubled quote is the only escape, for every comparison and every list. Against the full statement: C51_backslash (warehouses that also take a backslash as an escape)."
 },
 "C35": {
  "status": "partial",
  "note": "Exact matching of names proved for all plain dates; attachment proved both ways for fewer than ten join graphs. With ten or more, mapped fields are compared by substring (C35_substring)."
 },
 "C36": {
  "status": "partial",
  "note": "Proved for queries whose metrics have at least two canonical dates or that have no dimensions. With one canonical date a dimension can delete the metrics (C36_dropped)."
 },
 "C37": {
  "status": "partial",
  "note": "Every condition is applied in every sub-query (C37_applied); mapping is used when needed except when one date's name ends with another's (C37_suffix). SQL text raises (C37_literal)."
 },
 "C40": {
  "status": "partial",
  "note": "Single query exactly when the single design succeeds, merged only after a join failure, other errors never masked. Missing: a connected set of views always gives a single query, which the code violates (C40_falls_back_though_connected); proved under the premise that the join planner succeeds."
 },
 "C41": {
  "status": "partial",
  "note": "A mapped name in a query is replaced by its target everywhere it is used: with real fields in the query, for one mapping alone, and for several mappings alone (C41_mappings_only: the candidate with the most points decides). Missing: the chosen targets need not fit each other (C41_not_joint), and literals and repeated names are changed wrongly (C41_literal, C41_repeated); the code is wrong there."
 },
 "C42": {
  "status": "partial",
  "note": "Always filters are added to the WHERE of every query that uses the view, user filters kept. Missing: malformed filters, text filters and reused lists, where the code is wrong (C42_swallowed, C42_text, C42_reused)."
 },
 "C48": {
  "status": "partial",
  "note": "The model run is the explicit one or the one shared by all fields. Missing: mapping-only queries, which always run on the first model (C48_wrong_model)."
 },
 "C29": {
  "status": "partial",
  "note": "For single queries: repeated names refused, GROUP BY dropped exactly when stated, HAVING and ORDER BY then refused. Missing: the code does not refuse one field under two spellings (C29_spelling) nor repeated names in merged queries (C29_merged)."
 },
 "C44": {
  "status": "partial",
  "note": "Proved for every name without asc/desc inside it, any number of clauses, letter case and spacing, and for orderings given as lists. Missing: names containing the keywords, which the code corrupts (C44_corrupted), and nulls first, which it ignores (C44_nulls_first)."
 },
 "C49": {
  "status": "partial",
  "note": "Proved over an explicit heap of shared lists for every history of queries: definitions, fields and SQL do not change. Missing: an explicitly empty window_groupings list, a field with the temporary measure's name, and subqueries that raise, where the code violates it (C49_empty_list, C49_removes_field, C49_leaves_field)."
 },
 "C45": {
  "status": "partial",
  "note": "Proved for every text whose literal parts contain no '{' and whose references have ordinary names: the raw SQL of a dimension or measure equals the specified expansion at every depth, fails exactly when a reference leads nowhere, and leaves no reference; number measures parenthesise each reference; join identifiers are qualified. Not true in full: runs of spaces inside quotes are collapsed (C45_spaces) and ${TABLE} in a number measure is parenthesised (C45_number_table). Missing: texts with other braces (Jinja templates), case and tier generated SQL."
 },
 "C43": {
  "status": "partial",
  "note": "Proved for every list of merged queries: validation accepts exactly the well-formed lists; an accepted merge joins each later query, with the kind it asks for, on columns both sides produce; columns have distinct names and are taken from the first sub-query that produces them; each filter and ordering uses the column of the sub-query that shows it; without mapped names acceptance is characterised exactly. Not true in full: one query alone is accepted (C43_one_query), an unknown join type becomes a left join (C43_join_type), and a dimension an earlier query was joined on is dropped (C43_lost_column). Sub-query construction is a parameter; filter groups are not modelled."
 },
 "C38": {
  "status": "partial",
  "note": "Proved for every event table, number of steps and window: the rows of step n are exactly the chains of n events (once per chain), the persons of each step are those who reach it, numbers of persons never grow, and converted/dropped filters select the right persons; bad definitions are rejected. The whole query is modelled too: on warehouses with symmetric aggregates the answer has, for each step and combination of dimension values, one line with the metrics over exactly the events that end a chain, each event once, kept by the conditions on lines and cut by the limit (C38_table_partial, C38_totals_partial), and it is answered when no filter is on a key and no column is asked for twice (C38_answered). Without symmetric aggregates an event counts once per chain (C38_plain_repeats); medians are excluded for the same reason. Never answered: a condition on a requested metric (C38_having_twice), a filter on the key (C38_key_missing); refused: order_by, no key. The window is measured with the date difference the warehouse gives for the unit, a parameter here: on Postgres the generated difference is not the elapsed time (see C52). Steps and conditions given as text, number metrics and metric filters are not in the table theorem."
 },
 "C39": {
  "status": "partial",
  "note": "Proved for every table, spine, aggregate, condition and dimension list: with the metric's date among the dimensions (day to year) the rows are exactly the running totals, once each, independent of the displayed periods, and date conditions only hide periods; joins keep the values. The unchanged code violates the property without the date among the dimensions (every row counts once per day since its date, date conditions are dropped), for NULL partitions with several metrics, for timestamps, two granularities, foreign default dates and projects with a time zone: proved as witnesses. Texts: the join condition is read by the warehouse as \"dated on or before the day and cumulative_where\" (C39_condition_partial), its columns exist (C39_condition_columns), unknown names and durations are refused; numbers made of cumulative metrics compute their formula on each line (C39_number_partial). False of the code: OR in cumulative_where takes the date comparison apart (C39_condition_or), and a number mixing cumulative and other metrics aggregates in a query without GROUP BY (C39_mixed_number). The SQL of single measures is a parameter."
 },
 "C50": {
  "status": "partial",
  "note": "Proved for every definition: a dumped model, view and field keeps exactly its public entries and fields (C50_model, C50_view, C50_field), every well-formed view can be dumped, the order of fields and keys, which files are written, that different names or files never collide, and that dumping a loaded project and loading it again gives the same models and views. dbt references resolve to the first node of that name or raise QueryError. Counterexamples show where the unrestricted statement fails: two same-named views without a file overwrite each other, an untyped view is ignored on load, an unknown field type stops the dump, ambiguous node names and double-quoted or two-argument references."
 },
 "C52": {
  "status": "partial",
  "note": "Proved: the eight units and only these are accepted; every warehouse except Postgres and BigQuery asks its own difference function for exactly the named unit from start to end; on BigQuery likewise, but weeks and years are ISO weeks and ISO years; where the difference function counts boundaries (a hypothesis) durations are additive, antisymmetric and not negative. On Postgres months, quarters and years are the complete ones for all moments; days, weeks and hours are right only for moments less than a month apart and are bounded by 30, 4 and 743 otherwise; minutes and seconds are right exactly below a day and an hour because brackets are missing. Years on BigQuery differ from calendar years. These failures are proved."
 },
 "C53": {
  "status": "partial",
  "note": "Proved on every warehouse: exactly the listed timeframes are translated (KeyError otherwise); second to year give the first moment of the unit, equal for two rows exactly when in the same unit; fiscal ones likewise after moving by the offset; week agrees with C32; month, quarter, hour and day numbers; week_index is the ISO week of the shifted date and equal within a week; names are the three-letter ones; the time zone applies on seven warehouses and is ignored on three. Missing, with proved witnesses: SQL Server seconds overflow after January 1968, SQL Server has no EXTRACT, week_of_month is wrong exactly when the ISO years differ (negative numbers in January and December), BigQuery's week numbers and names differ, a DATE column is moved by the time zone, an unknown week start is silently Monday for week_index."
 },
 "C54": {
  "status": "proved",
  "note": "For every join graph without self-joins and with positive weights, and every implementation of networkx's two functions that keeps its promise: one-directional neighbours are joined by their edge alone; otherwise two views are joined by a walk that is least over both directions, with the stated tie-break among the two candidates; for three or more views outside the topological shortcut the first join serves the query and no serving join is preferred to it. That a direct join is used although a cheaper connection exists is a proved witness, and part of the statement."
 },
 "C55": {
  "status": "partial",
  "note": "Proved for every project, warehouse, database and answer: the table with dimensions, the single line without, one line per row without grouping, the ordering, the limit, that an answer exists, that every comparison is on a known field, and (composed with C20 and C22) the true value of each metric of any type but median on the five warehouses with symmetric aggregates. Assumed: column names of requested fields differ (fields with equal names are a proved witness: a column is dropped, or the query is never answered), the ordering is not a text and is by requested fields (otherwise never answered, proved), the limit is not zero on SQL Server and Synapse (where it is ignored, proved). SELECT's semantics is the model's; number measures and raw SQL are outside it."
 },
 "C56": {
  "status": "partial",
  "note": "Proved for every project, warehouse, query and database with one such filter, grouped or not, with the existence of an answer. Missing, proved as negations: two such filters are refused with a TypeError, and when the entity's view is not otherwise in the query the statement is never answered."
 },
 "C57": {
  "status": "partial",
  "note": "Proved for every project, warehouse, definition, query and database: the table and the single line in which each metric shows its value on exactly the rows at the window's date; counts (also symmetric) and plain sums over exactly these rows; symmetric sums when rows with one key agree on whether they count. Missing, proved as negations: averages, maxima, minima and medians also take a zero for each row that does not count (C57_zeros, C57_max_zero); rows with a NULL grouping never count, even with nulls_are_equal; a date in another view, metrics sharing a name, or a missing view are never answered; the latest date may be one that the query's joins lose. Assumed: date in the metric's view, groupings written view.field, different subquery names. Filters given as text, group_by filters and number measures referring to non-additive ones are outside the model."
 },
 "C58": {
  "status": "partial",
  "note": "Proved for every project, reference structure and join graph: the listed names are exactly the join graphs serving every view mentioned, no usable graph is hidden, two fields sharing a graph can be joined in one query when their counted views are all they read, and what joinable_fields returns. Missing, proved as negations: a view read only through a numeric dimension, or through nested fields that are not numbers, is not counted, so a listed graph may not serve the field (C58_numeric_missed, C58_nested_missed); joinable_fields asks for a graph shared with any, not all, selected fields (C58_joinable_any). Cumulative metrics: only their own list is modelled. Fields whose SQL is a Jinja template are assumed away (Formed)."
 },
 "C59": {
  "status": "partial",
  "note": "Proved for every project: the exact contents of all merged results, the names a field is listed under, that dated metrics share a merged result per common timeframe, what mappings offer, that no measure enters through a mapping, and when a metric is listed in merged results only. Missing, proved as a negation: with several models the graph of the first model asked is used for all (C59_first_model). C59_stops: the first metric whose date cannot be used stops the merged results with that error; C59_total: nothing else does."
 },
 "C60": {
  "status": "partial",
  "note": "The SELECT, FROM, WHERE and limit of the merged statement on top of C33/C34, and what a warehouse answers to it. C60_formula: formulas of any depth expand to their full text. C60_columns: the columns. C60_lines_partial: one line per combination with the values of that combination, filters and limit, for any number of sub-queries; missing: NULL dimension values (C33_null) and combinations that are in two later sub-queries but not in the first (C33_three). C60_two: two sub-queries without that condition. C60_no_dimensions: no dimensions. C60_answered: when the statement is answered at all; C60_merged_filter is the witness that a filter on a merged metric is refused where WHERE cannot name columns of the SELECT. Dimension columns are shown where the dimensions match place by place (DimensionsMatch). C60_sub, C60_rows_partial and C60_rows_total compose this with C55: when the tables joined are the warehouse's answers to the sub-queries, the combinations are those on the rows that pass the filters of a sub-query and each metric is its aggregate over exactly the rows of its sub-query with that combination; C60_sub_answered: the sub-queries are answered. Not modelled: sub-queries with group filters, merged metrics with ${TABLE}."
 },
 "C61": {
  "status": "partial",
  "note": "resolve_sql_table_name with its regular expressions. C61_last_partial: the table of the last case is read, for any number of cases before it; C61_unknown: other environments are rejected; C61_plain and C61_ref: other table names. Missing because it is false of the code: for every case before the last the word if and the environment stay in front of the table (C61_earlier, C61_earlier_wrong, for all texts), and names with a dash are not found or keep the cases behind them (C61_dash, C61_dash_env). C61_unclosed: a reference without )."
 },
 "C62": {
  "status": "partial",
  "note": "Field.collect_errors, check by check. C62_exact: when a report is given it lists exactly the problems of the specification (HasProblem, one constructor per rule); C62_marks: which reports are warnings; C62_raises: validation raises exactly for the listed definitions; C62_time, C62_duration, C62_tier: what is safe when nothing is reported; C62_project: in a project without reports the views of a field are found unless references are circular. Missing because it is false of the code: a report for every definition (C62_raises_name, C62_raises_no_tiers, C62_raises_star), circular references (C62_cycle) and the SQL of cumulative metrics (C62_cumulative_sql). Look-ups are parameters that find a field or say it does not exist; the order of the reports and their wording are not modelled."
 },
 "C63": {
  "status": "partial",
  "note": "View.collect_errors, check by check. C63_made: what making a view does to its definition; C63_fields: which fields are validated, with which label prefix; C63_fields_raise: which exception definitions of fields of the wrong kind raise; C63_warnings: which reports are warnings; C63_stops: fields that cannot be made, or a missing model, are the only report; C63_exact: otherwise the report lists exactly the problems of the specification (ViewHas, one constructor per rule); C63_raises: the views for which validation raises; C63_clean_fields, C63_clean_date, C63_clean_identifiers, C63_clean_uses: what holds when only warnings are reported. Missing because it is false of the code: a report for every definition (C63_raises, C63_event_dimension) and a check of an event dimension with a dot (C63_event_dimension). Look-ups are parameters; the order of the reports, their wording and positions are not modelled."
 },
 "C64": {
  "status": "partial",
  "note": "Model.collect_errors, check by check, and the mappings. C64_made: what making a model asks for; C64_exact: the report lists exactly the problems of the specification (ModelHas, one constructor per rule), whatever the order of the set of reserved names; C64_raises, C64_raises_name: the models for which validation raises; C64_grants: which lists of grants and allowed values are reported; C64_mappings: the mappings of a model and the order of the dates in the reserved ones; C64_dates_unknown: what happens when a date cannot be told; C64_clean: what holds when nothing is reported; C64_clean_offers: then the mappings can be used, if each names fields of one kind that are no dimension groups. Missing because it is false of the code: a report for every definition (C64_raises) and the use of the mappings without that condition (C64_clean_but_raises). Look-ups, time zones and the dates of the fields are parameters; the wording and positions of the reports are not modelled."
 },
 "C65": {
  "status": "partial",
  "note": "The converter from the tokens sqlparse returns (sqlparse itself is not modelled). C65_reads_partial: a statement written in its parts in the order of the documentation is read as the question it writes, for any number of names, steps and tokens; names that are SQL keywords, keywords other than AND/OR in a step of a funnel and the text 'within' in a step are excluded, because there the claim is false: C65_keyword_ignored (with C65_month, C65_order_blanks), C65_funnel_keyword, C65_funnel_within. C65_text_partial: the SQL around the calls is kept if the text of each call stands nowhere else in the SQL; false otherwise (C65_literal). C65_left_alone, C65_nested: calls below the first level are left unconverted. C65_no_parentheses, C65_refused: what is refused, C65_raises: what is refused, and with which exception."
 },
 "C66": {
  "status": "partial",
  "note": "Definitions of connections are arbitrary dictionaries. C66_secrets, C66_secrets_bigquery: what is shown is the same for every value of the secrets. C66_shown: only known keys are shown, once each. C66_load, C66_refused, C66_handed, C66_user: loading. C66_usable, C66_showable, C66_lost: the connections that are accepted and then cannot be handed on or shown, and what is lost, are said exactly; there the claim is false (a Trino connection can never be shown; Druid, SQL Server and Synapse need a user and a password the constructor does not ask for). C66_run, C66_not_run, C66_use: what is executed; six of the ten types cannot be run on, and Postgres with raw_cursor executes nothing. C66_profile, C66_profile_refused: dbt profiles. C66_bigquery, C66_bigquery_refused: which credentials are used and when they are refused. C66_repr, C66_local, C66_user_twice, C66_use_refused: how a connection is printed, which repositories are local, that the user can be read under two names, and that a database that is no text raises. C66_url_partial, C66_url_ambiguous: the address of a Postgres database is only unambiguous if its parts lack certain characters. Not modelled: the drivers, the files of the credentials and of the profiles (parameters)."
 },
 "C67": {
  "status": "partial",
  "note": "A session is a state machine with nine calls; the project, the resolver and the resolver of merged queries are parameters, so that the theorems hold for every one of them. C67_user, C67_connections, C67_project: what a history leaves behind. C67_history: a call returns what it returns when the queries of the history are left out. C67_not_loaded: before a load. C67_fields, C67_first, C67_refused: what a question is answered with. C67_sql, C67_sql_left: what SQL with MQL in it is answered with and leaves behind; C67_refused_others: options that are refused. C67_runs: what query() executes. C67_types: the types of the connections at a load. C67_metric, C67_dimension_partial: fields by name. False of the code, proved so: the connection of SQL and merged queries is always None and they are never executed (C67_no_connection, C67_never_runs); the table name of a view read outside a query depends on the last query (C67_table_name); get_dimension depends on what was asked for before (C67_dimension_history). Not modelled: reading the repository (a parameter of load), a project that is changed from outside while the session has it."
 },
 "C68": {
  "status": "partial",
  "note": "The warehouse is a parameter: a function from the text of a question to rows. C68_seed: the views, their order, fields, default date, description and table name. C68_complete: every column has its field and every field its column. C68_field, C68_sql_apart: one field. C68_own: whose columns a view has. C68_name, C68_name_kept: names. C68_searchable, C68_unmarked: marks. C68_model: the model. C68_asks, C68_counts, C68_tables, C68_tables_from: what the warehouse is asked. C68_tables_or_columns: tables can be asked for whenever columns can, but not the other way round. C68_succeeds, C68_unsupported: when seeding succeeds and what it raises otherwise. C68_chosen: what the choices are made of. False of the code, proved so: without a schema a view can have the columns of two tables (C68_mixed), and different names become one, or none (C68_name_collision). Not modelled: the files that are written (see C55 for dumping), the folder that is found, answers of the warehouse without the columns asked for, text outside ASCII in lower()."
 },
 "C70": {
  "status": "partial",
  "note": "Disks are arbitrary lists of files by place; paths are arbitrary texts, with `.`, `..` and repeated slashes. C70_found: the files read are exactly those `Found` allows; C70_whole: a folder written with a slash at its end is read as a whole. C70_load, C70_load_fails, C70_load_raises, C70_complaints, C70_order: what is loaded of them, when it raises, what is complained about, and that the order of the files does not matter. C70_folders, C70_folders_wrong, C70_file_strange, C70_no_project, C70_type, C70_kinds, C70_metricflow, C70_dbt, C70_local: the project file, the folders, the kind of the repository. Missing because it is false of the code: a folder written without a slash at its end, as in a project just started (C70_started), is not read as a whole, and files of neighbouring folders are (C70_subfolders); paths with `venv` anywhere in them, even in the place of the repository, are never read (C70_venv); a folder named in two ways is read twice (C70_twice); the reader's own lists are always empty (C70_reader_lists). Not modelled: links, folders with `*`, `?` or `[` in their names, directories called like YAML files, the YAML parser and the Metricflow converter (parameters)."
 },
 "C71": {
  "status": "partial",
  "note": "Every call into the system is a step; a Fate, about which nothing is assumed unless said, decides of each step whether it is done, fails (perhaps having done a part), is interrupted or is where the process is killed. C71_nothing_left_partial and C71_history_partial: no key is left after calls and histories that ended, if the disk writes and removes what it is told and keys are bytes. C71_unexposed_partial: others can never read anything of a key, at any crash point, if it fits into the buffer of a file, no interrupt arrives and removing works. C71_commands, C71_commands_without, C71_commands_first, C71_fetch, C71_elsewhere, C71_https, C71_loaded, C71_branches without such conditions. Missing because it is false of the code: an interrupt or kill while git works leaves the key (C71_interrupted, C71_interrupted_op), one between write and chmod leaves it readable by all (C71_exposed); text keys and failing writes leave an empty file (C71_text); when chmod fails the operation is carried out without the key and then raises (C71_chmod, C71_chmod_fetch: an UnboundLocalError); a project that cannot be read leaves its clone (C71_clone_left); branches with /heads/ in their names are cut (C71_branches_cut). Not modelled: what git does in the clone and on the remote."
 },
 "C69": {
  "status": "partial",
  "note": "C69_filters and C69_filters_read (dashboard), C69_element_filters and C69_element_filters_read (element): which comparisons come out, for which first day of the week, and when; C69_dict: the dictionary. C69_errors: exactly what is reported, if every filter of the dashboard names a field and every element a model. Missing because it is false of the code: otherwise validating raises and reports nothing (C69_errors_lost); a filter with an empty value is not left out but stays without an expression (in C69_filters, the test against {} never succeeds); a dashboard with a capital letter in its name is not found under it (C69_capital); a default label is not printed (C69_printed). What a filter value means is C23 and C24. Looking up a field is a parameter."
 },
 "C73": {
  "status": "partial",
  "note": "C73_condition (every reference, simultaneous replacement), C73_shared (conditions from identifiers, composed with C45_join_clause), C73_errors and C73_clean (validation), C73_made and C73_written (which joins are accepted), C73_required. For ordinary texts: no other opening braces, and SQL of fields without braces. Missing because it is false of the code: a reference without a view makes the condition the word None, without an error (C73_none; validation reports it); joins with a foreign key are always reported (C73_foreign_key). Looking up views and fields and the SQL of a field are parameters here (C05, C45)."
 },
 "C72": {
  "status": "partial",
  "note": "C72_init and C72_init_dbt: exactly what is on the disk after init, outside and inside a dbt project. C72_init_again: interrupted after any number of steps and run again, the disk is that of one run; C72_init_keeps: at no point is any other file changed or any folder removed. C72_profile: the profile that the other commands use. C72_started: a project just started is read as an empty one. C72_list, C72_list_unknown, C72_list_split, C72_validate, C72_show, C72_no_secret (from C66's notion of differing in secrets only), C72_debug: what is printed. Missing because it is false of the code: a project started inside a dbt project cannot be read (C72_dbt_unreadable); validate ends with status 0 also when it found errors (C72_validate_status); seed --connection works only for the connection named like the profile and raises AttributeError for any other (C72_seed_connection)."
 },
 "C74": {
  "status": "partial",
  "note": "C74_refused says exactly which conditions on a field are refused and with which exception; C74_unknown for unknown expressions. C74_compares, C74_field_value (the value is another field), C74_texts_partial (values without % and _), C74_like, C74_lists, C74_numbers, C74_no_value, C74_matches and C74_matches_window (composed with C23), C74_datetime, C74_literal, C74_result (conditions on results) and C74_text (the text is the one of C51) give the truth of the SQL on every row; C74_again: the dictionary left behind is a fixed point. Missing because it is false of the code: yesno fields ignore the expression (C74_yesno, C74_yesno_not, C74_yesno_both); one text for isin is the list of its characters or an AttributeError (C74_digits); matches fails on BigQuery and Trino for fields without a data type (C74_matches_cast) and on results (C74_result_matches); a literal hides the field (C74_both); a condition accepted without a field fails later (C74_boolean, C74_no_field); the dictionary passed is changed and stale for another warehouse (C74_stale); % and _ in a value are wildcards. Rows, the order of values and the printing of numbers are parameters; looking up fields and the SQL of fields too (C05, C45). C74_boolean_text, C74_boolean_search and C74_time_text give the text of truth values and datetimes; C74_yesno_list, C74_yesno_number, C74_matches_number, C74_true_values, C74_list_refused and C74_result_refused the remaining kinds of values."
 },
 "C75": {
  "status": "partial",
  "note": "C75_read: a reader of SQL (Spec: tokens, clauses, items) finds in the text exactly the parts asked for, for every query whose parts keep to their places (WellWritten: quotes and parentheses closed, and outside them no clause word, semicolon, comma between items, or OR in conditions). C75_same: equal texts ask for the same. C75_semicolon, C75_raw (aliases of raw columns are dropped from the GROUP BY). Missing because it is false of the code: a raw column without alias whose expression has ` as ` in it is cut off (C75_raw_cast) and ` as ` in quotes changes its case (C75_raw_quoted); join_type cross writes CROSS JOIN with ON (C75_cross_on); conditions given as text are not put in parentheses, so OR takes others apart (C75_or) and a semicolon makes two statements (C75_two_statements). pypika's text is modelled from its documented behaviour; comments in SQL are not read; the sub-query of funnel filters is left out."
 },
 "C76": {
  "status": "partial",
  "note": "C76_metric: the SQL of a metric of type number is read (Spec: a lexer and a reader of expressions with strings, parentheses, calls, CASE and operators by precedence) as the expression its author wrote with the expression of each metric named in the place of its name, and it computes the composed value in every interpretation; the SQL of the metrics named may be any text whose strings, parentheses and CASEs are closed. C76_nested: to any depth. C76_dimension_partial: for dimensions and the SQL inside aggregates when the SQL of every field named is one operand (a column, a call, a CASE, something in parentheses). Missing for dimensions because it is false of the code: references are replaced without parentheses, so the SQL of the field named is taken apart by precedence (C76_taken_apart: 7 instead of 12) or begins a comment (C76_comment); C76_not_taken_apart: the same texts as metrics are read right. C76_merged and C76_merged_value: the same for merged metrics over the columns of the sub-queries, so that a warehouse that reads the SQL computes the formula from the metrics of each line of C60. C76_circle, C76_circle_error: metrics that name each other in a circle have no SQL, the exception is that of recursion. The reader has no BETWEEN, NOT IN, IS NOT, quoted identifiers or comments, and reads 1e-5 as a subtraction; texts with them are outside the statement. Time dimensions, whose SQL is wrapped, are left to C45."
 },
 "C77": {
  "status": "partial",
  "note": "C77_case: the SQL of a dimension with cases is read (the reader of C76) as a CASE that gives each row the label of the first case true of it, else the label for all others, else NULL, and it is one operand; for conditions that are expressions to that reader (double quotes read as single ones) and labels without a single quote. C77_tier_partial: the SQL of a tier gives the label of a tier of the list that contains the number, and 'Unknown' for NULL; for an sql that is one operand. C77_yesno: the condition in parentheses, one operand. C77_sql_first, C77_no_sql, C77_refused: what wins and what fails. Missing because it is false of the code: C77_identifier (a quoted column in a condition becomes a string), C77_quote (a single quote in a label or string makes a text no warehouse can read), C77_no_cases (CASE END), C77_tier_taken_apart (the sql of a tier is used without parentheses)."
 },
 "C78": {
  "status": "partial",
  "note": "The whole of the resolver of merged queries, from the plan (C35-C37) to the definition the merged statement (C33, C34, C60) is made from. C78_places: one sub-query per canonical date, with the counterpart of each dimension at its place. C78_subqueries: each planned sub-query is in the statement once, asked for exactly its metrics, dimensions and conditions, no limit. C78_answered: a query that can be planned is answered when its sub-queries are. C78_warehouse, C78_funnel. C78_match: the dimensions match place by place and the metrics are apart, which C60 assumed. C78_lines_partial: the lines of the answer; missing as in C60: NULL dimension values (C33_null) and combinations that are in two later sub-queries but not in the first (C33_three). C78_two: two dates, without that condition. C78_rows_partial: the same down to the rows of the warehouse: the sub-queries are written as in C55 from what stands for the dimensions there, the metrics that belong there and the conditions as they read there (C37), and each metric of a line is its aggregate over exactly the rows with these values that pass the conditions of its sub-query; missing: NULL dimension values and more than two dates. C78_tables: such answers of the sub-queries exist on every database. Assumed of the project: plain names of dates, fewer than ten join graphs, mappings that lead to one field and back (TidyQuery, FitsTogether), different columns for different fields (ColumnsApart); zEnv is a project that meets all of these. How the filters of a sub-query are read is a parameter of C78_rows_partial. Not modelled: aliases given by the caller."
 },
 "C79": {
  "status": "partial",
  "note": "C79_columns_partial: the columns of a query's fields differ; missing: views one of whose names is the other's followed by an underscore and more, where it is false (C79_shared: the dimensions orders.items_id and orders_items.id are written as two columns of one name). C79_exact says when two fields of different views share a column, C79_view that fields of one view do only if they have the same id. C79_groups and C79_timeframes say when two time groups of a view do (C79_fiscal: order/fiscal_month and order_fiscal/month), C79_durations that durations never do. C79_labels gives the condition of C55 on labels. C79_label, C79_group_labels: labels. Simplification: letters are ASCII (names are, by validation). C79_intervals: the intervals of C79_durations are exactly those that have SQL."
 },
 "C80": {
  "status": "partial",
  "note": "C80_hidden_partial: two warehouses that agree on the rows the user may see answer every query alike, when every view of the FROM is of a field of the query and filters are on fields of their own view; C80_removed_partial: the answers are those over the tables without hidden rows. Missing: views in the FROM that are of no field of the query, where it is false (C80_bridge: a view that only connects two others is not filtered; C80_filter_view: nor is a view joined for the access filter of another view), and filters that are true of NULL (C80_null: the user value NULL lets rows without a joined row pass, so a hidden row shows by what it keeps out). C80_same_answers says exactly on which rows the answers of any query depend. C80_affected: is_affected_by_access_filters; C80_required: the views that are joined. The pushing of a condition through left, inner and full joins is joined_push in Secure/Push.lean. C80_merged: the same for merged queries, whose sub-queries each build their own FROM."
 },
 "C81": {
  "status": "proved",
  "note": "C81_total and C81_drill: for metrics that are written without a correction for repeated rows (Spec.AddsUp) and a FROM that only adds columns (Spec.Widens). C81_same_from and C81_looked_up: when a FROM only adds columns: it is the same one, or the other one followed by left joins in which a row finds at most one other, with the same filters and access filters. C81_distinct: the bounds for counts of different values. C81_not_all: a witness that counts of different values, and sums corrected for repeated rows, do not add up although both totals are right. Queries with conditions on metrics, a limit, or a filter with a group_by are outside the statement: their lines are not all the lines."
 },
 "C82": {
  "status": "proved",
  "note": "C82_where and C82_having, up to the order of the lines, for queries without a limit and without filters with a group_by, when the FROM of a query only depends on the set of views (Spec.SetOfViews) and the fields of the filter add no view (they are shown)."
 },
 "C83": {
  "status": "proved",
  "note": "C83_columns: queries that need the same views; C83_totals: without dimensions; C83_looked_up: further views that only add columns (C81_same_from, C81_looked_up). Outside the statement: further views that repeat rows, where sums are the same only through the correction of C22, with its conditions."
 },
 "C84": {
  "status": "proved",
  "note": "C84_limit: the LIMIT is all that a limit changes; C84_again; C84_top_values: with ties; C84_top and C84_all_dimensions: without; C84_ties: two answers to one query with a limit that have no line in common. A limit of 0 on SQL Server and Azure Synapse is not written (C55) and left out, and so are filters with a group_by and orderings given as text."
 },
 "C85": {
  "status": "proved",
  "note": "C85_line is the general statement; C85_new_rows, C85_storage and C85_total are about new rows, the order of rows, and totals. Conditions on groups are on metrics. The query shows all lines (no limit); the rows are those of the FROM, whose joins are C17 and C19."
 },
 "C86": {
  "status": "proved",
  "note": "For windows that are usable (C38). It is about the rows of the steps, before they are grouped into lines: lines and metrics are C38_table_partial. The window is measured with the date difference of the warehouse, a parameter."
 },
 "C87": {
  "status": "proved",
  "note": "For queries that ask for the metric's date (without it the totals are wrong: C39_inflated). Aggregates are functions of the rows; each theorem says what it needs of them: not looking at the order (a), not shrinking (c), adding up (d). C87_stays and C87_grows allow a cumulative_where that does not take rows back; C87_difference is for metrics without one."
 },
 "C88": {
  "status": "partial",
  "note": "That the connection is closed is proved for calls that return (but for cursors of Postgres, C88_postgres_cursor) and for calls in which only connecting, or reading rows on another warehouse than Postgres, fails. It is false otherwise: a refused query leaves its connection open on every warehouse (C88_failed_left_open). Everything else of the statement is proved. What the driver does by itself, such as retries or closing what is garbage collected, is not modelled; a time-out for Postgres that is not a number counts as raising."
 },
 "C89": {
  "status": "partial",
  "note": "False in general: one order on two joined rows is 10 on Snowflake and 20 on Databricks (C89_differs), since double counting is not corrected on every warehouse. Proved for two warehouses of the same kind in this respect, and for any two when nothing needs the correction: grouping queries (C89_lines), totals (C89_total), a filter on entities (C89_group_filter, same kind); a row-per-key query agrees on any two (C89_detail). Limits are left out: which lines a limit keeps among equal ones is the warehouse's choice."
 },
 "C90": {
  "status": "proved",
  "note": "C90_filter and C90_total: any filter on the views the query already has; counts whether or not they are corrected for repeated rows. C90_split and C90_split_total: two filters of which exactly one is true of every row read (Spec.Splits), for metrics written without a correction (Spec.AddsUp), as in C81. C90_null: a comparison and its opposite are not such a pair where the field is NULL: such rows are in neither answer. Filters that bring a further view into the FROM are outside the statement (C81_looked_up says when that changes nothing)."
 },
 "C91": {
  "status": "proved",
  "note": "C91_all_kinds: the exact lines for any kinds of joins; C91_lines: for left and inner joins, with filters; C91_one_line_each and C91_keeps_first: one line for each line of the first query when each later one is joined on all its dimensions and answers one line for each combination of them; C91_filters: any kinds of joins; C91_full_outer: two queries. C91_sub_lines: the answer of every sub-query of C55 that groups by its dimensions has that one line for each combination. C91_from_data, C91_from_data_inner: so the merge of such queries keeps each line of the first once, with no assumption on the answers of the later ones. C91_repeats: with a further dimension in a later query the lines of the first are repeated, so their metrics no longer add up. C91_outer_hides: after a full outer join the values of the join fields of lines only in the second query are not shown. A cross join written with a condition is read as an inner join. C91_page: the order of the lines and the limit."
 }
}