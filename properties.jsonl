{"id": "C01", "title": "Access grants decide visibility exactly", "statement": "With no user set every view, field and dashboard is visible. With a user set, an object is visible exactly when, for every access grant it requires, the user either lacks the grant's attribute or has a value in the grant's allowed list; a field additionally needs its view to be visible; an object that requires a grant no model declares makes the lookup raise instead of answering.", "quantifier": "every user attribute map, every list of declared grants, every object and every list of required grants", "why_tests_cant": "The decision is a conjunction over an unbounded list of grants looked up by name among an unbounded list of declarations; tests check a handful of users.", "anchors": ["metrics_layer/core/model/project.py:_can_access_object", "metrics_layer/core/model/project.py:can_access_field", "metrics_layer/core/model/project.py:get_access_grant", "metrics_layer/core/model/project.py:_all_views"]}
{"id": "C02", "title": "Field and view lookups never leak a denied object", "statement": "No list or lookup call (views, fields, get_view, get_field) ever returns a view the user cannot access or a field whose own grants or whose view's grants deny the user, and asking for a denied field by name gives the same answer as asking for one that does not exist.", "quantifier": "every project, every user and every requested name", "why_tests_cant": "Non-interference compares all pairs of projects that differ only in denied objects.", "anchors": ["metrics_layer/core/model/project.py:fields", "metrics_layer/core/model/project.py:get_field", "metrics_layer/core/model/project.py:get_view", "metrics_layer/core/model/view.py:_all_fields"]}
{"id": "C03", "title": "Row-level access filters restrict every row returned", "statement": "When a view used by the requested fields declares an access filter and the user has the attribute, every row kept by the generated WHERE clause satisfies that access filter, whatever filters the user passes.", "quantifier": "every user attribute map, every set of access filters, every structured (JSON) or literal WHERE passed by the user, every row, under SQL three-valued logic", "why_tests_cant": "The clause is text assembled from unbounded nested conditions; whether it restricts rows depends on operator precedence for all texts, not on one golden string.", "anchors": ["metrics_layer/core/sql/query_design.py:get_access_filter", "metrics_layer/core/sql/query_generator.py:_parse_filter_object", "metrics_layer/core/sql/query_filter.py:sql_query", "metrics_layer/core/model/filter.py:LiteralValueCriterion"]}
{"id": "C04", "title": "Nested AND/OR filter groups mean what the JSON says", "statement": "The WHERE/HAVING text generated for arbitrarily nested filter groups, read back with SQL precedence (AND binds tighter than OR), keeps exactly the rows for which the nested JSON condition holds in three-valued logic; a missing logical operator means AND.", "quantifier": "every finite nesting of groups, every operator choice, every truth assignment of the leaf comparisons", "why_tests_cant": "Bracket placement must be right for every nesting depth and every mix of operators.", "anchors": ["metrics_layer/core/sql/query_filter.py:group_sql_query", "metrics_layer/core/model/filter.py:MetricsLayerFilterGroupLogicalOperatorType"]}
{"id": "C05", "title": "Field lookup is unique, case-insensitive and total", "statement": "get_field returns the single accessible field whose (possibly time-framed) name equals the request case-insensitively in the requested view, spelled exactly (or in any view when none is given); it raises an ambiguity error when two or more match, returns the implicit row count for 'view.count' when none match, and otherwise raises not-found. It never returns one of several candidates.", "quantifier": "every list of fields and every requested name/view combination", "why_tests_cant": "Uniqueness and the trichotomy range over all projects and all spellings.", "anchors": ["metrics_layer/core/model/project.py:get_field", "metrics_layer/core/model/project.py:_matching_field_handler", "metrics_layer/core/model/project.py:_parse_field_and_view_name", "metrics_layer/core/model/field.py:equal"]}
{"id": "C06", "title": "Qualified names split and join losslessly", "statement": "Splitting 'view.field' or 'model.view.field' gives back exactly the parts for all dot-free parts, an undotted name is the field name alone, and any other number of dots leaves the whole text as the name.", "quantifier": "every string", "why_tests_cant": "Round trip over all strings.", "anchors": ["metrics_layer/core/model/base.py:field_name_parts", "metrics_layer/core/model/base.py:valid_name"]}
{"id": "C07", "title": "Field de-duplication keeps first occurrences in order", "statement": "De-duplicating a list of fields yields each id once, in order of first occurrence, loses no id, and is idempotent.", "quantifier": "every list of fields", "why_tests_cant": "Unbounded lists.", "anchors": ["metrics_layer/core/model/project.py:deduplicate_fields", "metrics_layer/core/sql/merged_query_resolve.py:deduplicate_fields"]}
{"id": "C08", "title": "Temporary replacement of project objects is always undone", "statement": "After 'with project.replace_objects(...)' ends - normally or because the body raised at any point, with any nesting and any edits made inside - models, views and dashboards have the content they had on entry, and no cached lookup computed inside the block is still served.", "quantifier": "every project content, every list of replacement objects, every sequence of operations inside the block, every crash point in that sequence, every nesting depth", "why_tests_cant": "Crash points and nested histories are unbounded.", "anchors": ["metrics_layer/core/model/project.py:replace_objects", "metrics_layer/core/model/project.py:validate_with_replaced_objects", "metrics_layer/core/model/project.py:refresh_cache"]}
{"id": "C09", "title": "Inside a replacement block the replaced objects win by name", "statement": "Inside the block, looking up a view name that occurs among the replacements yields the replacement; every other view is unchanged; objects of unknown type are ignored.", "quantifier": "every project and every list of replacement objects", "why_tests_cant": "Unbounded lists of objects.", "anchors": ["metrics_layer/core/model/project.py:replace_objects"]}
{"id": "C10", "title": "Adding then removing a field restores the view", "statement": "add_field with a name not yet used (in any letter case) followed by remove_field with the same name leaves every view's fields as before; add_field of an existing name (any case) changes nothing; other views are never touched; an unknown view raises and changes nothing.", "quantifier": "every project, every field and every view name", "why_tests_cant": "State comparison over all projects.", "anchors": ["metrics_layer/core/model/project.py:add_field", "metrics_layer/core/model/project.py:remove_field"]}
{"id": "C11", "title": "Cached lookups are coherent with the project content", "statement": "Over any history of set_user, add_field, remove_field, refresh_cache and lookups, a lookup of fields or of the join graph returns what an uncached computation on the current content and user would return.", "quantifier": "every interleaving of mutating and reading calls", "why_tests_cant": "Histories are unbounded; staleness appears only in particular orders.", "anchors": ["metrics_layer/core/model/project.py:fields", "metrics_layer/core/model/project.py:join_graph", "metrics_layer/core/model/project.py:__hash__", "metrics_layer/core/model/project.py:set_user", "metrics_layer/core/model/view.py:fields"]}
{"id": "C12", "title": "Fan-out joins are never created implicitly", "statement": "Every edge of the join graph whose relationship is one_to_many or many_to_many comes either from an explicit join declaration in that direction or from an identifier that lists the joined view in allowed_fanouts.", "quantifier": "every project (views, identifiers)", "why_tests_cant": "Invariant of a graph built from unbounded views and identifiers.", "anchors": ["metrics_layer/core/model/join_graph.py:build", "metrics_layer/core/model/join_graph.py:_reference_map", "metrics_layer/core/model/join_graph.py:_is_fanout"]}
{"id": "C13", "title": "The join graph keeps the most preferable join per pair", "statement": "For every ordered pair of views the graph has an edge exactly when there is an explicit join or an admissible shared identifier, and the relationship kept is the best-ranked (one_to_one, many_to_one, one_to_many, many_to_many) among all the candidates, the earliest candidate among equals.", "quantifier": "every project, every ordered pair of views", "why_tests_cant": "Minimum over unbounded candidates with a tie rule.", "anchors": ["metrics_layer/core/model/join_graph.py:build", "metrics_layer/core/model/join_graph.py:_derive_relationship", "metrics_layer/core/model/join_graph.py:_edge_weight"]}
{"id": "C14", "title": "only_join is honoured by both sides", "statement": "An identifier-derived edge between two views exists only if each side's only_join list is empty or contains the other view; view names in the graph are unique or the build raises.", "quantifier": "every project", "why_tests_cant": "Unbounded views and identifiers.", "anchors": ["metrics_layer/core/model/join_graph.py:build", "metrics_layer/core/model/join_graph.py:_allowed_join"]}
{"id": "C15", "title": "Relationships are consistent in both directions", "statement": "Inverting a relationship twice is the identity, the derived relationship from A to B is the inverse of that from B to A, and an explicit join is usable in the reverse direction exactly when the reverse does not fan out (with the inverted relationship).", "quantifier": "every pair of identifiers and every explicit join", "why_tests_cant": "Covers all pairs and the interplay of several declarations on the same pair.", "anchors": ["metrics_layer/core/model/join_graph.py:_invert_relationship", "metrics_layer/core/model/join_graph.py:_derive_relationship", "metrics_layer/core/model/join_graph.py:_reference_map"]}
{"id": "C16", "title": "Join-graph names identify mutually joinable views", "statement": "Two views get the same join-graph name exactly when each is reachable from the other in the join graph; every view gets exactly one such name; a view is reported as usable with a join graph exactly when it is reachable from some view of it.", "quantifier": "every join graph and every pair of views", "why_tests_cant": "Reachability over unbounded graphs.", "anchors": ["metrics_layer/core/model/join_graph.py:join_graph_hash", "metrics_layer/core/model/join_graph.py:weak_join_graph_hashes", "metrics_layer/core/model/join_graph.py:get_joinable_view_names"]}
{"id": "C17", "title": "The FROM clause is well-formed", "statement": "When the query designer produces joins, no view is joined twice, the base view is never joined again, each join's left-hand view is already in the FROM clause, every consecutive pair is an edge of the join graph, and every required view is present.", "quantifier": "every join graph with positive weights in which no view declares a join to itself, every set of required views", "why_tests_cant": "Invariant of a greedy search over unbounded graphs.", "anchors": ["metrics_layer/core/sql/query_design.py:determine_join_order", "metrics_layer/core/sql/query_design.py:_clean_view_pairs", "metrics_layer/core/sql/query_design.py:_add_missing_views", "metrics_layer/core/model/join_graph.py:ordered_joins"]}
{"id": "C18", "title": "A joinable set of views is never rejected", "statement": "If some view reaches every required view in the join graph, the query designer finds a join order instead of raising JoinError.", "quantifier": "every join graph and every set of required views", "why_tests_cant": "Completeness of a search over all graphs.", "anchors": ["metrics_layer/core/sql/query_design.py:determine_join_order", "metrics_layer/core/sql/query_design.py:_validate_join_path", "metrics_layer/core/sql/query_design.py:_greedy_build_join"]}
{"id": "C19", "title": "Many-to-one joins never duplicate base rows", "statement": "If every join is many_to_one or one_to_one (each base row has at most one partner), the joined result has exactly one row per base row, so plain aggregates over the base view are unaffected by the joins.", "quantifier": "every table content respecting the declared relationships, every list of joins", "why_tests_cant": "All table contents.", "anchors": ["metrics_layer/core/sql/query_design.py:functional_pk", "metrics_layer/core/sql/query_generator.py:get_join_query_from"]}
{"id": "C20", "title": "The functional primary key is unique in the joined result", "statement": "When the designer reports a view's primary key as the functional primary key, no two rows of the joined result carry the same non-null value of it.", "quantifier": "every join sequence and every table content respecting the declared relationships", "why_tests_cant": "All table contents and all join sequences.", "anchors": ["metrics_layer/core/sql/query_design.py:functional_pk", "metrics_layer/core/sql/query_design.py:_derive_primary_key_view"]}
{"id": "C21", "title": "Symmetric aggregates are immune to fan-out", "statement": "A sum, count or average computed with symmetric aggregation over fanned-out rows equals the same aggregate over the distinct primary keys of the measure's own view (an empty sum being 0 and an empty count NULL), for values with at most six decimals and provided neither the hashes of two keys nor the sums of hash and scaled value collide; for other values the sum is low by at most a millionth per row.", "quantifier": "every multiset of rows, every duplication pattern, every collision-free hash", "why_tests_cant": "Quantifies over all fan-out patterns and values including NULL.", "anchors": ["metrics_layer/core/model/field.py:_sum_symmetric_aggregate", "metrics_layer/core/model/field.py:_count_symmetric_aggregate", "metrics_layer/core/model/field.py:_average_symmetric_aggregate", "metrics_layer/core/model/field.py:_needs_symmetric_aggregate"]}
{"id": "C22", "title": "Symmetric aggregation is used whenever a measure could be inflated", "statement": "A measure is aggregated plainly only when the functional primary key is its own view's primary key (or the warehouse or type does not support symmetric aggregation, in which case an error or plain aggregate is produced as documented).", "quantifier": "every measure type, every functional key, every warehouse", "why_tests_cant": "Decision table crossed with all keys.", "anchors": ["metrics_layer/core/model/field.py:_needs_symmetric_aggregate", "metrics_layer/core/model/field.py:aggregate_sql_query"]}
{"id": "C23", "title": "Filter strings are classified deterministically", "statement": "Every filter value string maps to exactly one comparison: NULL/-NULL, booleans, date phrases, on/before/after, comma lists (isin / isnotin, mixed negation rejected), numeric comparisons, and % patterns; prefixing a plain, pattern or list value with '-' gives exactly the complementary comparison on the same operand.", "quantifier": "every string", "why_tests_cant": "All strings; overlapping prefixes make branch order matter.", "anchors": ["metrics_layer/core/model/filter.py:_filter_dict", "metrics_layer/core/model/filter.py:filter_dict"]}
{"id": "C24", "title": "Relative date windows are the calendar windows they name", "statement": "'this X' is exactly the current period, 'last X' the previous one, 'N Xs' the N periods ending with the current one, 'N Xs ago' exactly the N-th previous period, 'N Xs ago for M Ys' starts where 'N Xs ago' starts and spans M Ys; start never exceeds end for N>=1; consecutive windows abut without gap or overlap.", "quantifier": "every current date, every N, every unit, every week start day, every monotone month calendar", "why_tests_cant": "All dates and all N.", "anchors": ["metrics_layer/core/model/filter.py:_start_date", "metrics_layer/core/model/filter.py:_end_date", "metrics_layer/core/model/filter.py:_parse_n_interval", "metrics_layer/core/model/filter.py:_parse_n_interval_modifier", "metrics_layer/core/model/filter.py:_parse_n_interval_ago_for"]}
{"id": "C25", "title": "The process-wide week start is restored after parsing", "statement": "After a filter value is parsed, the global first day of the week is back to Monday, whatever the model's week start day, also when parsing fails.", "quantifier": "every sequence of parses with any week start days and any failing values", "why_tests_cant": "Histories with failures leak global state into unrelated later queries.", "anchors": ["metrics_layer/core/model/filter.py:_set_week_start_day", "metrics_layer/core/model/filter.py:_reset_week_start_day", "metrics_layer/core/model/filter.py:_filter_dict"]}
{"id": "C26", "title": "A filtered measure aggregates exactly the matching rows", "statement": "A measure with filters computes the aggregate over precisely the rows satisfying all its filters: 'case when f1 and f2 then x end' under sum, count, count distinct, min, max and average equals filtering first.", "quantifier": "every list of filters, every table content including NULLs", "why_tests_cant": "All table contents.", "anchors": ["metrics_layer/core/model/filter.py:translate_looker_filters_to_sql", "metrics_layer/core/model/field.py:get_replaced_sql_query"]}
{"id": "C27", "title": "Filter flattening lists every leaf once, in order", "statement": "Flattening nested conditions returns exactly the leaf conditions, in document order, at any nesting depth, and flattening a flat list is the identity.", "quantifier": "every nesting of lists and condition groups", "why_tests_cant": "Unbounded depth.", "anchors": ["metrics_layer/core/utils.py:flatten_filters", "metrics_layer/core/sql/single_query_resolve.py:parse_identifiers_from_dicts"]}
{"id": "C28", "title": "Measures and dimensions are never mixed in one filter group", "statement": "A WHERE or HAVING filter group is accepted only if its leaves are all measures or all non-measures, at any depth, and every referenced field is resolved before SQL is produced.", "quantifier": "every nested filter", "why_tests_cant": "Unbounded depth.", "anchors": ["metrics_layer/core/sql/single_query_resolve.py:parse_where", "metrics_layer/core/sql/single_query_resolve.py:parse_having"]}
{"id": "C29", "title": "Duplicate query fields are rejected and the group-by rule is exact", "statement": "A query naming the same metric or dimension twice raises; GROUP BY is dropped exactly when a requested dimension is the primary key of the first metric's view and grouping is not forced; then HAVING and ORDER BY are rejected.", "quantifier": "every list of metrics and dimensions", "why_tests_cant": "All combinations of fields.", "anchors": ["metrics_layer/core/sql/single_query_resolve.py:parse_input", "metrics_layer/core/sql/query_generator.py:parse_definition"]}
{"id": "C30", "title": "Field sets follow set algebra", "statement": "A set expands to the included fields and sets minus the excluded fields and sets, without duplicates, in order of first inclusion; an exclusion removes the field wherever it is written.", "quantifier": "every set definition, every nesting of set references that is not self-referential", "why_tests_cant": "Unbounded nesting and length.", "anchors": ["metrics_layer/core/model/set.py:field_names", "metrics_layer/core/model/set.py:_internal_get_fields_from_set"]}
{"id": "C31", "title": "Tiers partition the number line", "statement": "For a strictly increasing list of tier boundaries every number falls into exactly one tier and that tier's bounds contain it; NULL goes to 'Unknown'.", "quantifier": "every increasing boundary list and every number", "why_tests_cant": "All boundary lists and numbers.", "anchors": ["metrics_layer/core/model/field.py:_translate_looker_tier_to_sql"]}
{"id": "C32", "title": "Week truncation respects the configured week start", "statement": "Truncating a date to the week returns the latest configured week-start day not after the date, for every week start day, on every warehouse.", "quantifier": "every date, every week start day, every warehouse's DATE_TRUNC convention", "why_tests_cant": "All dates and offsets.", "anchors": ["metrics_layer/core/model/field.py:_week_dimension_group_time_sql", "metrics_layer/core/model/field.py:_week_sql_date_trunc"]}
{"id": "C33", "title": "Merged results have one row per dimension value", "statement": "When several sub-queries are merged, each combination of dimension values present in any of them appears in exactly one output row, carrying each sub-query's metric for it.", "quantifier": "every number of sub-queries and every content with unique keys per sub-query", "why_tests_cant": "All table contents and any number of sub-queries.", "anchors": ["metrics_layer/core/sql/query_merged_results.py:get_query", "metrics_layer/core/sql/query_merged_results.py:nested_if_null"]}
{"id": "C34", "title": "Merged dimension values take the first non-null source", "statement": "The nested if-null expression for a merged dimension evaluates to the first non-null value among the sub-queries in order and is null only if all are null.", "quantifier": "every non-empty list of sources and all values", "why_tests_cant": "Unbounded nesting.", "anchors": ["metrics_layer/core/sql/query_merged_results.py:nested_if_null"]}
{"id": "C35", "title": "Sub-query names are matched exactly", "statement": "A dimension is attached to a sub-query only if one of its join graphs is among the join graphs the sub-query's name was built from; 'subquery_1' never matches 'subquery_12'.", "quantifier": "every list of join-graph numbers and every canonical date name", "why_tests_cant": "All numbers; substring coincidences are rare in samples.", "anchors": ["metrics_layer/core/sql/merged_query_resolve.py:_join_hash_contains_join_graph", "metrics_layer/core/sql/merged_query_resolve.py:derive_sub_queries", "metrics_layer/core/sql/merged_query_resolve.py:_cte_name_from_parts"]}
{"id": "C36", "title": "Every metric lands in exactly one sub-query", "statement": "Each requested or referenced metric of a merged query is computed in exactly one sub-query, once, and metrics sharing a canonical date and join graphs share a sub-query.", "quantifier": "every list of merged and plain metrics", "why_tests_cant": "Unbounded lists.", "anchors": ["metrics_layer/core/sql/merged_query_resolve.py:derive_sub_queries", "metrics_layer/core/sql/merged_query_resolve.py:_join_hash_key"]}
{"id": "C37", "title": "Filters reach every sub-query of a merged result", "statement": "Every WHERE condition of a merged query is applied in every sub-query, either as is (joinable) or rewritten to the mapped field, preserving the group structure and de-duplicating identical conditions only.", "quantifier": "every nested WHERE and every mapping", "why_tests_cant": "Unbounded nesting.", "anchors": ["metrics_layer/core/sql/merged_query_resolve.py:_parse_where_filter", "metrics_layer/core/sql/merged_query_resolve.py:_resolve_where_mapped_filter"]}
{"id": "C38", "title": "Funnel steps are ordered conversion chains", "statement": "Step n of a funnel contains exactly the events that end a chain of n events of the same person in strictly increasing time, the i-th satisfying step i's conditions, each later event within the allowed window from the first. The query answers, for each step and combination of dimension values, one line with the metrics over exactly those events, each counted once.", "quantifier": "every event table, every number of steps, every window, every set of dimensions, metrics, filters and conditions on lines", "why_tests_cant": "All event histories.", "anchors": ["metrics_layer/core/sql/query_funnel.py:FunnelQuery.get_query", "metrics_layer/core/sql/query_funnel.py:FunnelQuery.get_funnel_base", "metrics_layer/core/sql/query_funnel.py:FunnelQuery._enrich_query_design"]}
{"id": "C39", "title": "Cumulative metrics are running totals", "statement": "The cumulative value shown for a period is the aggregate over all rows dated on or before it (within the partition of the other dimensions); it does not depend on which periods are displayed and filters on the metric's date only hide periods.", "quantifier": "every table content and every date", "why_tests_cant": "All histories.", "anchors": ["metrics_layer/core/sql/query_cumulative_metric.py:aggregate_cumulative_subquery", "metrics_layer/core/sql/query_cumulative_metric.py:cumulative_subquery"]}
{"id": "C40", "title": "Single query first, merge only as a fallback", "statement": "A query is answered as a single joined query unless a metric is itself a merged result, merging is requested or a mapped date forces it; it falls back to merging only when no join path exists and single_query was not requested; any other error is reported, not masked.", "quantifier": "every outcome of the two strategies", "why_tests_cant": "All combinations of outcomes including exceptions.", "anchors": ["metrics_layer/core/sql/resolve.py:get_query", "metrics_layer/core/sql/resolve.py:is_merged_result"]}
{"id": "C41", "title": "Mapped fields resolve to a usable field", "statement": "A mapped name is replaced by the first candidate that is joinable with all other fields of the query, else the first that is mergeable, else the query is rejected; the replacement is applied to metrics, dimensions, filters at any depth and ordering, and leaves everything else alone.", "quantifier": "every candidate list, every query", "why_tests_cant": "Unbounded candidates and nesting.", "anchors": ["metrics_layer/core/sql/resolve.py:determine_field_to_replace_with", "metrics_layer/core/sql/resolve.py:_replace_mapped_field", "metrics_layer/core/sql/resolve.py:_replace_dict_or_literal"]}
{"id": "C42", "title": "Always-filters are applied once", "statement": "Every always_filter of every view used by the requested fields is present in the query's filters exactly once, and user filters are kept.", "quantifier": "every list of fields and always filters", "why_tests_cant": "Unbounded lists; swallowed exceptions.", "anchors": ["metrics_layer/core/sql/resolve.py:_apply_always_filter", "metrics_layer/core/sql/resolve.py:_deduplicate_always_where_filters"]}
{"id": "C43", "title": "Arbitrary merges are validated before SQL is built", "statement": "A set of merged queries is accepted exactly when there are at least two, each has the required keys, later ones have join fields whose field and source field are among the selected ones, and the join type is known; the selected columns have unique names and every filter or ordering column resolves to the sub-query that produces it.", "quantifier": "every list of merged queries", "why_tests_cant": "Unbounded lists.", "anchors": ["metrics_layer/core/sql/arbitrary_merge_resolve.py:validate_arbitrary_merged_queries", "metrics_layer/core/sql/query_arbitrary_merged_queries.py:get_select_columns"]}
{"id": "C44", "title": "ORDER BY text keeps the named field", "statement": "An ordering clause 'f', 'f asc', 'f desc' (optionally with nulls first/last) sorts by the field f in the stated direction, for every field name.", "quantifier": "every field name", "why_tests_cant": "All names; substring deletion corrupts some.", "anchors": ["metrics_layer/core/sql/query_generator.py:_parse_order_by_object"]}
{"id": "C45", "title": "Reference substitution replaces exactly the ${...} references", "statement": "Expanding ${field} references leaves all other text intact, replaces each reference by the referenced field's SQL, and leaves no known reference behind.", "quantifier": "every SQL text and every assignment of SQL to references", "why_tests_cant": "All texts.", "anchors": ["metrics_layer/core/model/base.py:fields_to_replace", "metrics_layer/core/model/field.py:replace_fields", "metrics_layer/core/model/join_graph.py:_identifier_join_clause"]}
{"id": "C46", "title": "join_as creates an independent copy and moves the key", "statement": "Each primary identifier with join_as yields one extra view of that name with the same table, only that identifier and (unless metrics are included) no measures; the original view loses that identifier and nothing else; clashing names on different views raise; the caller's definitions are not modified.", "quantifier": "every list of views", "why_tests_cant": "Unbounded views and identifiers, mutation during iteration.", "anchors": ["metrics_layer/core/model/project.py:_handle_join_as_duplication"]}
{"id": "C47", "title": "Validation reports each distinct problem once", "statement": "validate returns every distinct error message found, once, in discovery order, stops early only for model or join-graph construction errors, and reports each duplicated dashboard name.", "quantifier": "every project", "why_tests_cant": "Unbounded lists.", "anchors": ["metrics_layer/core/model/project.py:validate", "metrics_layer/core/model/project.py:_validate_dashboard_names"]}
{"id": "C48", "title": "Query model selection is unambiguous", "statement": "With an explicit model name that model is used; with one model it is used; otherwise the model is the one shared by all requested fields, and if the fields belong to different models an error is raised.", "quantifier": "every list of models and fields", "why_tests_cant": "Unbounded lists.", "anchors": ["metrics_layer/core/sql/resolve.py:_get_model_for_query", "metrics_layer/core/sql/resolve.py:_derive_model"]}
{"id": "C49", "title": "Non-additive windows do not leak between queries", "statement": "Generating a query for a non-additive metric leaves the metric's definition unchanged, so the same query gives the same SQL however many queries came before.", "quantifier": "every sequence of queries", "why_tests_cant": "Histories of shared mutable state.", "anchors": ["metrics_layer/core/sql/query_generator.py:get_query", "metrics_layer/core/sql/query_generator.py:_non_additive_cte", "metrics_layer/core/model/field.py:non_additive_dimension"]}
{"id": "C50", "title": "Writing project files only reorders keys", "statement": "Dumping a model, view or field keeps every key (other than private ones) with its value and every field of a view, changing only their order; dbt references resolve to the node with that name.", "quantifier": "every definition", "why_tests_cant": "Unbounded definitions.", "anchors": ["metrics_layer/core/parse/project_dumper.py:_sort_view", "metrics_layer/core/parse/project_dumper.py:_sort_fields", "metrics_layer/core/parse/project_dumper.py:_sort_field", "metrics_layer/core/parse/project_reader_base.py:dump_yaml_file", "metrics_layer/core/parse/manifest.py:resolve_name"]}
{"id": "C51", "title": "Text filter values stay inside their SQL literal", "statement": "Whatever text a filter value holds, in the SQL text of the comparison it occurs only inside one string literal (one per element for lists) that the warehouse reads back as exactly that text; the SQL around the literal does not depend on the value.", "quantifier": "every text, every comparison and every list of texts", "why_tests_cant": "All texts, including quotes, comment signs and backslashes, in every position.", "anchors": ["metrics_layer/core/model/filter.py:sql_query", "metrics_layer/core/model/filter.py:_filter_dict"]}
{"id": "C52", "title": "Durations count what their name says", "statement": "A duration dimension gives, for any start and end, the number of the named units between them: zero for the same moment, additive over a moment in between, never negative for a later end; an unknown unit is rejected.", "quantifier": "every warehouse, unit, start and end", "why_tests_cant": "All pairs of moments on every warehouse; tests compare the SQL text only.", "anchors": ["metrics_layer/core/model/field.py:dimension_group_duration_sql", "metrics_layer/core/model/field.py:apply_dimension_group_duration_sql"]}
{"id": "C53", "title": "Timeframes show the calendar unit they name", "statement": "A timeframe of a time dimension gives, for every moment in the column, the first moment of the second, minute, hour, day, week, month, quarter or year the moment is in (in the project's time zone when the field converts), or the named number or name of that unit; fiscal timeframes give those of the moment moved by the configured months; two rows get the same value exactly when they are in the same unit; an unknown timeframe is rejected.", "quantifier": "every warehouse, timeframe, column type, moment, fiscal offset, week start and time zone", "why_tests_cant": "All moments of the calendar on every warehouse; tests compare the SQL text only.", "anchors": ["metrics_layer/core/model/field.py:apply_dimension_group_time_sql", "metrics_layer/core/model/field.py:_apply_timezone_to_sql", "metrics_layer/core/model/field.py:_fiscal_offset_to_timestamp", "metrics_layer/core/model/field.py:_apply_week_start_day_offset_only", "metrics_layer/core/model/field.py:convert_timezone"]}
{"id": "C54", "title": "Which joins are chosen when several would do", "statement": "Two views with a join in exactly one direction are connected by that join and nothing else; two views joined in both directions or only through other views are connected by a path of least total weight over both directions, ties going to the alphabetically first path; three or more views without joins among themselves, or with a cycle of joins, are joined starting from the serving join that is preferred (with a bridge view, then inside the query, then by name). The order in which the query lists its views does not change the first two.", "quantifier": "every join graph, every set of required views, every implementation of shortest paths and topological order that keeps its promise", "why_tests_cant": "the choice is a minimum over all walks of an arbitrary graph and over all candidate starting joins; tests see a handful of projects", "anchors": ["metrics_layer/core/sql/query_design.py: determine_join_order, _shortest_path_between_two, _greedy_build_join, _bridge_views", "metrics_layer/core/model/join_graph.py: _edge_weight"]}
{"id": "C55", "title": "The lines a query answers", "statement": "A query with dimensions answers, on every warehouse, one line for each combination of dimension values that occurs on a row passing the access filters and all filters, with each metric computed over exactly the rows with those values, for the groups that pass HAVING, in the order asked for (NULLs last where the warehouse is told so, else the default order) and cut to the limit. Without dimensions it answers one line over all rows that pass; with the key of the first metric's view among the dimensions, one line per row. On every database there is such an answer. Each metric is its true value over the rows of its own view behind the line, whatever the joins do.", "quantifier": "every project, warehouse, list of metrics and dimensions, filters, HAVING, ordering, limit, database and answer a warehouse may give", "why_tests_cant": "the tests compare SQL text for chosen requests and never run it; the claim is about every database and about the way all clauses work together", "anchors": ["metrics_layer/core/sql/query_generator.py: MetricsLayerQuery.get_query, parse_definition, get_select_columns, _deduplicate_select, get_order_by_from_definition", "metrics_layer/core/sql/query_filter.py: MetricsLayerFilter.sql_query", "metrics_layer/core/sql/single_query_resolve.py: SingleSQLQueryResolver", "metrics_layer/core/sql/query_dialect.py"]}
{"id": "C56", "title": "Filters with a group_by keep the entities that pass", "statement": "A filter with a group_by keeps exactly the rows whose entity is not NULL and passes the comparison, computed over all rows of that entity that the access filters let through, whatever the query's own filters, HAVING, ordering and limit are; the query then answers as it would over the rows kept.", "quantifier": "every project, warehouse, query, entity, comparison and database", "why_tests_cant": "the tests compare the SQL text of a few such filters; which entities pass depends on the data", "anchors": ["metrics_layer/core/sql/query_filter.py: MetricsLayerFilter.cte, isin_sql_query", "metrics_layer/core/sql/query_generator.py: get_query (having_group_by_filters)", "metrics_layer/core/sql/single_query_resolve.py: parse_identifiers_from_dicts"]}
{"id": "C57", "title": "Non-additive metrics count only the rows at the window's date", "statement": "A query with non-additive metrics answers the table asked for, every row of its FROM taken once, where such a metric is computed only from the rows whose date is the latest (for min: the earliest) among the rows that pass the query's filters and have the same values of the window's groupings and of the query's dimensions. Counts count exactly those rows, sums add exactly those rows.", "quantifier": "every project, warehouse, non-additive definition, query with dimensions, filters, HAVING, ordering and limit, database and answer a warehouse may give", "why_tests_cant": "the tests compare the SQL text of a few such metrics; that the joined subquery neither duplicates nor loses rows and picks the right ones depends on the data, on NULLs and on how the column names of subqueries fall together", "anchors": ["metrics_layer/core/model/field.py: sql, non_additive_alias, non_additive_cte_alias", "metrics_layer/core/sql/query_generator.py: parse_definition, get_query, _non_additive_cte", "metrics_layer/core/model/filter.py: translate_looker_filters_to_sql"]}
{"id": "C58", "title": "Fields offered together can be queried together", "statement": "The join graphs listed for a field are exactly those from which every view that its SQL mentions can be joined, plus the merged results it takes part in; a join graph from which all views the field needs can be joined is never missing; two fields that share a listed join graph, and whose SQL reads no further view, are answered together by one query. Joinable fields of a selection are the fields, in project order, that share a join graph with a selected field.", "quantifier": "every project, field, reference structure of any depth, set of joins, and selection of fields", "why_tests_cant": "the tests compare the lists of a few fixture fields; the claim ties the listed names to joins that exist for every nesting of references and every join graph", "anchors": ["metrics_layer/core/model/field.py: join_graphs, get_referenced_sql_query, referenced_fields, required_views", "metrics_layer/core/model/join_graph.py: weak_join_graph_hashes, join_graph_hash", "metrics_layer/core/model/project.py: joinable_fields"]}
{"id": "C59", "title": "Merged results link exactly the metrics, dates, shared views and mapped fields", "statement": "A merged result named by a timeframe contains exactly the metrics whose date offers the timeframe and these dates; one named by two join graphs contains the metrics of the two, their dates, the fields of all views joinable to both, and the fields mapped to each other within the two. Every field is listed under exactly the merged results that contain it, and any two dated metrics share one for a common timeframe. A mapping offers exactly the other accessible fields listed with a field. A metric whose parts are dated in views of different join graphs is listed in merged results only. Each model has its own merged results.", "quantifier": "every project, set of metrics with dates, mappings, timeframes and join graphs", "why_tests_cant": "the tests check the list of a few fields of one fixture; the claim is that nothing is missing and nothing is extra for any project", "anchors": ["metrics_layer/core/model/join_graph.py: merged_results_graph, _build_merged_results_graph, _add_canon_dates_to_merged_result, _add_mappings_to_merged_result", "metrics_layer/core/model/model.py: get_mappings", "metrics_layer/core/model/field.py: join_graphs, loses_join_ability_with_other_views, canon_date"]}
{"id": "C60", "title": "A merged query answers one line per combination, with the metrics of that combination", "statement": "A query whose metrics come from tables that cannot be joined answers exactly one line for each combination of the dimension values that occurs in the result of any of its parts and whose metrics pass the filters. The line shows the combination, each metric's value for it (NULL where its part has none), and each merged metric computed from these values by its formula. Its columns are the metrics, the dimensions and the merged metrics, each once. At most the requested number of lines is given.", "quantifier": "every number of sub-queries, contents, dimensions, mappings, metrics, formulas of any depth, filters and limit, and every warehouse answering the statement", "why_tests_cant": "the tests compare SQL text; no test runs the merged statement, and the claim is about all contents of the sub-queries", "anchors": ["metrics_layer/core/sql/query_merged_results.py: MetricsLayerMergedResultsQuery.get_query, build_cte_from, get_select_columns", "metrics_layer/core/sql/merged_query_resolve.py: get_query", "metrics_layer/core/model/field.py: strict_replaced_query", "metrics_layer/core/sql/query_base.py: get_where_from_having", "metrics_layer/core/sql/query_filter.py: sql_query"]}
{"id": "C61", "title": "A view reads the table written for the project's environment", "statement": "A view's table name may list a table per environment ('-- if dev -- t1 -- if prod -- t2'). The view then reads exactly the table written for the environment of the project (looker_env), without the spaces and line breaks around it, and a query in an environment that is not listed is rejected. A dbt reference stands for the table of that name in the manifest or, without a manifest, in the schema of the connection. Any other table name is used as it is written.", "quantifier": "every text before the cases, number of cases, environment, table name, manifest and schema", "why_tests_cant": "the tests resolve one table name with two cases in the environment of the last one; the claim is about each case of every list", "anchors": ["metrics_layer/core/model/view.py: View.sql_table_name, resolve_sql_table_name, _resolve_conditional_sql_table_name, _resolve_dbt_ref_sql_table_name", "metrics_layer/core/model/project.py: Project.resolve_dbt_ref"]}
{"id": "C62", "title": "Validating a field reports its problems, and a project without reports can be queried", "statement": "Validating a project reports, for every field, exactly the problems its definition has: a name, type, property, list element or date of the wrong kind, a filter, access grant, drill field, window or reference that leads nowhere, a property that does not belong to this kind of field. It always ends with a report, however wrong the definition is. When nothing is reported, every listed timeframe and interval has SQL for every warehouse, every value has a tier, and every reference in the SQL of every field leads to a field, so that working out the views a field needs succeeds.", "quantifier": "every definition (any value for any property, any number of filters, tiers, timeframes, groupings and references), every project the look-ups answer for, every depth of references", "why_tests_cant": "the tests change one property of one field at a time and compare one message; the claim is about all definitions, about nothing being reported besides the problems, and about what is safe to do when nothing is reported", "anchors": ["metrics_layer/core/model/field.py: Field.collect_errors, collect_sql_errors, collect_field_filter_errors, valid_properties, sql, canon_date, non_additive_dimension, is_merged_result, get_referenced_sql_query, required_views", "metrics_layer/core/model/view.py: View.collect_required_access_grant_errors", "metrics_layer/core/model/base.py: MetricsLayerBase.line_col, invalid_property_error, __getattr__", "metrics_layer/core/model/project.py: Project.validate"]}
{"id": "C63", "title": "Validating a view reports its problems, and a view without errors can be used", "statement": "Validating a project reports, for every view, exactly the problems its definition has: a name, label, table, derived table, date, filter, set, access grant, event dimension or identifier that is of the wrong kind or leads nowhere, two identifiers or two fields with the same name, several primary keys, a property a view does not have, and everything wrong with each of its fields that the user may see. It always ends with a report. When only warnings are reported the fields have different names and none of them has an error, the default date is a time dimension group of a view that can be joined, every identifier has a proper name of its own and refers to fields and views that exist, there is a table to read, and the fields named by filters and the required grants exist.", "quantifier": "every definition of a view (any value for any property, any number of sets, filters, identifiers, parts of identifiers, references and fields), every project the look-ups answer for", "why_tests_cant": "the tests change one property of one view at a time and compare one message; the claim is about all definitions, about nothing being reported besides the problems, and about what is safe to do when nothing is reported", "anchors": ["metrics_layer/core/model/view.py: View.__init__, validate, identifiers, default_date, event_dimension, collect_errors, collect_required_access_grant_errors, fields, _valid_fields, valid_properties", "metrics_layer/core/model/set.py: Set.collect_errors", "metrics_layer/core/model/field.py: Field.__init__", "metrics_layer/core/model/base.py: MetricsLayerBase.valid_name", "metrics_layer/core/model/project.py: Project.validate"]}
{"id": "C64", "title": "Validating a model reports its problems, and its mappings can be told", "statement": "Validating a project reports, for every model, exactly the problems its definition has: a name, connection, label, fiscal offset, weekday, time zone, time zone conversion, access grant or mapping that is of the wrong kind, a mapping that names a field that does not exist or a reserved name, and a property a model does not have. It always ends with a report. The mappings of a model are those of its definition, and one for each reserved name (date, week, month, quarter, year, day of year, week of year, month of year) with the dates of the project's fields that have this timeframe, those that are the date of more fields first. When nothing is reported, the week starts on a weekday, every access grant has a proper name, an attribute and some allowed value, every field of every mapping exists, and what the mappings offer can be told.", "quantifier": "every definition of a model (any value for any property, any number of access grants and mappings), every project the look-ups answer for, every list of dates of its fields, every order in which the set of reserved names is gone through", "why_tests_cant": "the tests change one property of one model at a time and compare one message, with the dates of one project; the claim is about all definitions, all projects and all hash orders", "anchors": ["metrics_layer/core/model/model.py: AccessGrant.validate, AccessGrant.collect_errors, Model.validate, Model.mappings, Model.access_grants, Model.collect_errors, Model.get_mappings", "metrics_layer/core/model/project.py: Project.does_field_exist, Project.validate", "metrics_layer/core/model/base.py: MetricsLayerBase.valid_name, invalid_property_error"]}
{"id": "C65", "title": "An MQL statement asks what is written in it, and the SQL around it is kept", "statement": "In SQL with calls of the form MQL(metrics FOR view FUNNEL step THEN step WITHIN n unit BY dimensions WHERE condition HAVING condition ORDER BY order), each call asks exactly the question that is written: these metrics, these dimensions, this funnel with its steps in order, its time and its view, and the three clauses word for word, whatever the case of the keywords. The SQL that is returned is the SQL that was given with each call, and nothing else, replaced by the SQL of its question (in parentheses unless the call is the whole text), and it ends with a semicolon. A call that cannot be answered makes the conversion raise the same error, and MQL without parentheses is refused.", "quantifier": "every statement, any number of metrics, dimensions, steps and tokens in a clause, every SQL text around any number of calls", "why_tests_cant": "the tests convert some twenty texts with fixed names; the claim is about all texts, names and values, and its failures need a name that is a keyword of SQL, a second blank, a value with a certain word in it, or a call at another depth", "anchors": ["metrics_layer/core/convert/convert.py: MQLConverter.get_query, parse_and_resolve_mql, resolve_mql_statement, _resolve_mode, _add_by_mode, _tokens_to_sql, _is_funnel"]}
{"id": "C66", "title": "Connections hand on what they were given, show no secret, and a query runs once, on its connection", "statement": "A list of connections is loaded in order, one connection for each entry; an entry with no type, an unknown type or a missing argument is refused, and with it the list. What a connection hands to its connector is what it was given, under the names the connector takes. What is shown of a connection (printable_attributes() and repr()) does not depend on its password, key, token, passphrase or credentials, whatever their value. A query that is run is run on the connection it was given, once, as the last text, after at most one text that chooses the warehouse, database and schema of that connection. The connection of a dbt profile is the output its target names.", "quantifier": "every list of definitions of connections of every type with any value for any argument, every query, every set of run options, every profiles file", "why_tests_cant": "the tests make one connection per type with fixed values; that a secret is never shown is a statement about all pairs of values, and the failures need a missing user, a missing password or a password with a special character", "anchors": ["metrics_layer/core/parse/connections.py: BaseConnection and its subclasses, connection_class_lookup", "metrics_layer/core/parse/project_loader.py: ProjectLoader.load_connections, ProjectLoader.get_connections_from_profile", "metrics_layer/core/sql/query_runner.py: QueryRunner"]}
{"id": "C67", "title": "A session answers for the user, the project and the connections of the moment, not for the queries before", "statement": "Whatever calls were made on a MetricsLayerConnection before, a question is answered from the project that was loaded last, for the user that was set last, with the connections given to the constructor and added since. A call returns what it would return if no query had been made before. get_sql_query takes SQL before metrics and dimensions and these before merged queries, and refuses a question with none of them; options of the call come before those of the constructor; the connection is the first with the name the model gives, its type and schema are used unless query_type says otherwise; and what query() executes is the SQL get_sql_query returns, on the connection it returns. get_metric and get_dimension return the first field that goes by the name, whatever was asked for before.", "quantifier": "every history of set_user, load (succeeding or failing), add_connections, list_connections, get_connection, get_branch_options, get_sql_query, query, get_dimension and get_metric calls with any arguments, every project, every list of connections, every resolver", "why_tests_cant": "the property is about all histories of calls; the tests build a fresh connection for each call, so that what one call leaves behind for the next is never seen, and the two ways of asking that query() cannot execute are only tested with get_sql_query", "anchors": ["metrics_layer/core/query/query.py: MetricsLayerConnection", "metrics_layer/core/parse/project_loader.py: ProjectLoader", "metrics_layer/core/sql/resolve.py: SQLQueryResolver.__init__, _get_query_type, _get_connection, _get_connection_schema", "metrics_layer/core/model/field.py: Field.equal, Field.get_dimension_group_name", "metrics_layer/core/model/project.py: Project.fields"]}
{"id": "C68", "title": "A project seeded from a database says what the database has", "statement": "Seeding makes one view for each table of the chosen schema and table that the warehouse returns columns for, in the order in which they first come, and in it one field for each column of that table, in order, and nothing else. A field's SQL is that column, quoted where the warehouse needs it, so that different columns have different SQL; its type is that of the column's data type, a string when the type is not known, and a date or a time is a group with nine timeframes. A view's default date is its first group, its description the comment of its table, its table name that of the schema it was found in, and its model the only one there is, the first with the connection, or a new one. With marks asked for, a text is marked as searchable just when it has fewer than a hundred values. What the warehouse is asked names the database, and the schema and table when they were chosen.", "quantifier": "every type of connection, every answer of the warehouse (any number of schemas, tables and columns, in any order, with any names and data types), every choice of database, schema and table, every list of models", "why_tests_cant": "the tests seed one fixed answer with two tables of different names in one schema; the property is about every answer, in which tables of two schemas, names that differ in case, comments that are missing and names that are not valid come together", "anchors": ["metrics_layer/cli/seeding.py: SeedMetricsLayer.__init__, seed, get_model_name, make_models, make_view, make_fields, columns_query, table_query, column_cardinalities_query, clean_name"]}
{"id": "C70", "title": "A project is what is in the YAML files of the folders its project file names", "statement": "Loading a repository reads the YAML files below the folders named as model-, view- and dashboard-paths in zenlytic_project.yml, each file once, whatever the order in which the file system lists them; a file of type model, view or dashboard becomes one model, view or dashboard, with exactly what is in it and its path from the repository. A file that is no dictionary, or a project file without model- or view-paths, raises; without a project file the project is empty. The kind of the repository is the one asked for, else the mode of its one project file.", "quantifier": "every content of the disk, every place and spelling of the repository and of the folders, every project file, every order in which a set of paths is listed", "why_tests_cant": "Tests read one repository at one place with one spelling; which files are found depends on every path below the folders, on hidden and neighbouring folders and on how the folder is written.", "anchors": ["metrics_layer/core/parse/github_repo.py: BaseRepo.get_repo_type, search, get_dbt_path, glob_search, LocalRepo", "metrics_layer/core/parse/project_reader_base.py: ProjectReaderBase", "metrics_layer/core/parse/project_reader_metrics_layer.py: MetricsLayerProjectReader", "metrics_layer/core/parse/project_reader_metricflow.py: MetricflowProjectReader", "metrics_layer/core/parse/project_loader.py: ProjectLoader._load_project"]}
{"id": "C71", "title": "A private key and a clone are on the disk only while they are needed", "statement": "When a call of a GithubRepo (fetch, create_branch, delete_branch, add_commit_and_push, pull, squash_and_merge) has returned or raised, no file with the private key is left, whatever failed in between, and so after any history of calls; at no time, also if the process is killed, can others read anything of the key; over HTTPS no key is written. A call that returned has given git exactly the commands it means, in order, each while the key file was there with the whole key; a call that fails has given the first of them. No call touches anything but its own clone and key file. A loaded project leaves no clone behind. The branch options are the branches of the remote.", "quantifier": "every history of calls, every key, every content of the disk, every combination of steps that fail, are interrupted or at which the process is killed", "why_tests_cant": "Tests run the sequence that works, with git replaced by a mock; the statement is about every crash point and every failing step.", "anchors": ["metrics_layer/core/parse/github_repo.py: GithubRepo.fetch, delete, _ssh_wrapped, _fetch_github_repo_ssh, _fetch_github_repo_https, _write_private_key, _fetch_branch_options, _parse_ls_remote", "metrics_layer/core/parse/project_loader.py: ProjectLoader._load_project"]}
{"id": "C69", "title": "A dashboard's filters mean what they say, and validation names everything that is missing", "statement": "The filters of a dashboard element are read, in the order written and none left out, with weeks that begin on the day its own model says; the filters of the dashboard itself with the day that all its elements' models agree on, and Monday if they do not agree or there are none. Everything else that is written in a filter is kept. Validating a dashboard reports exactly the models that do not exist and the fields that cannot be looked up, in its filters and in the metrics, slices and filters of its elements. A dashboard is found under its name in lower case; its label is the one written or the name in capitalised words.", "quantifier": "every dashboard definition, every project, every time", "why_tests_cant": "Tests have one dashboard of one model whose fields all exist; the statement is about every combination of models, week start days, filters and missing references.", "anchors": ["metrics_layer/core/model/dashboard.py: DashboardElement, Dashboard", "metrics_layer/core/model/project.py: Project.dashboards, get_dashboard, get_model", "metrics_layer/core/model/filter.py: Filter.__init__, filter_dict"]}
{"id": "C73", "title": "The condition of a join is the one written, with fields in place of references", "statement": "What follows ON in a query is the join condition as written, with every reference ${view.field} replaced, wherever it occurs, by the SQL of that field and nothing else changed; for a join by a shared identifier it is that what the identifier stands for in one view equals what it stands for in the other. Validation reports exactly the references that name no view, an unknown view or an unknown field; if it reports nothing, every reference is to a field. A join is accepted exactly when it names both views and says in exactly one way how they are joined.", "quantifier": "every join condition, every pair of identifiers, every project", "why_tests_cant": "Tests compare a few queries with expected texts; the statement is about every condition text, including repeated, nested-looking and bare references.", "anchors": ["metrics_layer/core/model/join.py: Join.__init__, validate, collect_errors, required_views, get_replaced_sql_on", "metrics_layer/core/model/join_graph.py: JoinGraph.get_join, _identifier_join_clause, _identifier_to_join, _verify_identifier_join", "metrics_layer/core/sql/query_generator.py: get_join_query_from"]}
{"id": "C72", "title": "The commands of the command line do what they say and only that", "statement": "`ml init` makes the seven folders that are missing and writes the project file, with the profile of the dbt project if there is one, and changes no other file; interrupted anywhere and run again it ends as if it had not been interrupted. A project just started is read as an empty project, whose profile is the one in its file. `list` prints all names of the type asked for, in order, with their number before them; measures, dimensions and dimension groups share the fields out among them. `validate` prints every error and their number, or that the project passed. `show` prints each attribute of the thing asked for, and nothing that depends on a secret of a connection. `debug` prints how the test of each connection ended. An unknown type is refused.", "quantifier": "every working folder and its contents, every point at which init is interrupted, every project, every list of names, errors and connections", "why_tests_cant": "Tests run each command once in a folder made for it, with printing mocked; the statement is about every folder, crash point and project.", "anchors": ["metrics_layer/cli/cli_commands.py: init, list_, validate, show, debug", "metrics_layer/cli/seeding.py: SeedMetricsLayer._init_directories, _in_dbt_project, get_profile, get_dbt_project_file, _init_profile, _test_profile"]}
{"id": "C74", "title": "A condition of a query is refused, or compares its field with its value as its expression says", "statement": "A condition {field, expression, value} is refused exactly when the expression is not one of those known, a value it needs is missing, or the field is not found. Otherwise its SQL is true of exactly the rows whose field compares with the value as the expression says: the six comparisons, the twelve expressions that look for a text, like, isin and isnotin, the tests for null and for true and false, and matches with a phrase; it is not true where the field is null, except for is_null. The value can be a constant or the name of another field, whose value on the same row is then meant. A datetime is cast to the type of the field where the warehouse needs that. A condition with only a literal is the SQL of the literal. Asking twice gives the same.", "quantifier": "every condition, every expression, value and list, every field and warehouse, every row", "why_tests_cant": "Tests compare the text of the SQL for a few conditions; the statement is about the rows kept, for every value and every combination of expression, field type and warehouse.", "anchors": ["metrics_layer/core/sql/query_filter.py: MetricsLayerFilter.__init__, validate, _handle_query_filter, sql_query, criterion, filter_string, cast functions", "metrics_layer/core/sql/query_dialect.py: PandasTable", "metrics_layer/core/sql/query_merged_results.py: where filters"]}
{"id": "C75", "title": "The text of a query, read as SQL, has the parts of the query each in its clause", "statement": "The text returned for a query is read as one SQL SELECT whose clauses hold exactly the parts of the query: every column with its name (each name once when nothing is grouped), the first table, every join with its word and condition, the conditions on rows joined by AND together with the filters by sub-query, the grouping (by names on BigQuery, raw columns without their aliases), the conditions on groups, the ordering with its direction and NULLS LAST where the warehouse has it, and the limit as LIMIT or TOP. Nothing is lost, added or moved to another clause, so queries with the same text ask for the same. A semicolon ends the text when asked for, except on Druid and Trino.", "quantifier": "every number of columns, joins, conditions, sub-queries and orderings, every text in them whose quotes and parentheses are closed and that has no clause of its own outside them, every warehouse, every limit", "why_tests_cant": "Tests compare the text of some queries with an expected text; the statement is about what a reader of SQL finds in the text for every query, in which keywords, commas and quotes in any part could end a clause early.", "anchors": ["metrics_layer/core/sql/query_generator.py: MetricsLayerQuery.get_query, get_select_columns, _deduplicate_select, get_join_query_from, _table_expression, get_group_by_columns", "metrics_layer/core/sql/query_base.py: sql, strip_alias, pypika_join_type_lookup", "metrics_layer/core/sql/query_dialect.py: QueryBuilderWithOrderByNullsOption._orderby_sql, MSSQLQueryBuilderCorrectLimit.limit, query_lookup", "metrics_layer/core/sql/query_filter.py: isin_sql_query"]}
{"id": "C76", "title": "An expression with references means what its author wrote", "statement": "The SQL made for a metric of type number, whose text names other metrics, is read by the warehouse as the expression the author wrote, with what each named metric computes in the place of its name: operators in the SQL of the one never bind to operands in the SQL of the other, however deep the metrics are nested. The SQL of a dimension that names other fields is read likewise, when the SQL of every field named is a single operand.", "quantifier": "every text of a metric or dimension with any number of references, every SQL of the fields named whose strings, parentheses and CASEs are closed, every depth of nesting, every interpretation of the operators and functions", "why_tests_cant": "Tests compare the SQL of some metrics with an expected text. Whether the text is read as the author meant depends on the precedence of every pair of operators in the two texts, on strings and on parentheses, for every pair of texts.", "anchors": ["metrics_layer/core/model/field.py: Field.sql_query, Field.raw_sql_query, Field.replace_fields", "metrics_layer/core/model/field.py: Field.aggregate_sql_query"]}
{"id": "C77", "title": "A dimension with cases or tiers gives each row the label of its case", "statement": "A dimension defined by a list of cases has, for each row, the label of the first case whose condition is true of the row; if none is, the label for all others, or NULL when there is none. A dimension of type tier has the label of the tier that contains the number of the row, and 'Unknown' when the row has no number. A dimension of type yesno has the value of its condition. In each case the SQL is a single operand, so the value stays the same wherever the dimension is used in a larger expression.", "quantifier": "every list of cases with any conditions and labels, every list of tier boundaries, every row and every warehouse that evaluates CASE and compares numbers as SQL says", "why_tests_cant": "Tests compare the SQL of some dimensions with an expected text. That the text is read as CASE with the conditions and labels of the author, for every text of a condition and every label, and that it is never taken apart inside another expression, is about all texts.", "anchors": ["metrics_layer/core/model/field.py: Field._translate_looker_case_to_sql", "metrics_layer/core/model/field.py: Field._translate_looker_tier_to_sql", "metrics_layer/core/model/field.py: Field.sql"]}
{"id": "C78", "title": "The sub-queries of a merged query fit together", "statement": "A query whose metrics have several canonical dates is answered by one sub-query per date. Each sub-query computes exactly the metrics of its date and, for each dimension of the query, in the order of the query, what that dimension means there: the same period of the sub-query's own date for a canonical date, the dimension itself where it can be joined, and otherwise the field the model maps it to. Each sub-query is in the statement once, under a name of its own, with its own conditions and with no limit; so joining them gives one line for each combination of dimension values, with the metrics of that combination. A query that can be planned and whose sub-queries can be written is answered. Funnels on merged queries are refused.", "quantifier": "every number of metrics, filters, canonical dates, dimensions and mappings, every join graph assignment with fewer than ten graphs, every table of rows of the sub-queries", "why_tests_cant": "Tests compare the SQL of a few merged queries with an expected text; whether the dimension at each place means the same thing in every sub-query depends on all the names, graphs and mappings of the project together.", "anchors": ["metrics_layer/core/sql/merged_query_resolve.py: SQLMergedQueryResolver.get_query, parse_field_names, _join_graph_hash, derive_sub_queries", "metrics_layer/core/sql/query_merged_results.py: MetricsLayerMergedResultsQuery"]}
{"id": "C79", "title": "Columns and labels tell the fields of an answer apart", "statement": "Every field of a query is a column of the answer, named after its view and its name. Two different fields never get the same column name; the timeframes of a date, and the intervals of a duration, have columns and labels of their own; and two fields without labels written for them are labelled alike only if they have the same name.", "quantifier": "every pair of views, names, timeframes, intervals, labels and prefixes; every list of fields of a query", "why_tests_cant": "Names are joined with underscores, which may be in the names themselves; whether two of all possible names meet cannot be settled with a sample of names.", "anchors": ["metrics_layer/core/model/field.py: Field.id, Field.alias, Field.label, VALID_TIMEFRAMES, VALID_INTERVALS", "metrics_layer/core/sql/query_generator.py: MetricsLayerQuery.get_query"]}
{"id": "C80", "title": "Rows a user may not see leave no trace in an answer", "statement": "Access filters say which rows of a view a user may see. What a user is told does not depend on the other rows: if two warehouses have the same rows that the user may see, then every query has the same answers over both; hidden rows can be removed, added or changed without the user noticing, also in totals, in joins, and in filters with a group_by. A view is reported as affected by access filters exactly when the user has a non-empty attribute that one of its filters names.", "quantifier": "every project, user, set of access filters, query (dimensions, metrics, nested JSON filters, a filter with a group_by, HAVING, order, limit), every FROM of left, inner and full joins, every pair of warehouses that agree on the visible rows", "why_tests_cant": "It compares the answers over all pairs of warehouses that differ in hidden rows; a test looks at one SQL text or one table, and rows can show through joins and aggregates in many ways.", "anchors": ["metrics_layer/core/sql/query_design.py: MetricsLayerDesign.get_access_filter, required_views", "metrics_layer/core/model/view.py: View.access_filters, is_affected_by_access_filters", "metrics_layer/core/sql/query_generator.py: MetricsLayerQuery.get_query, get_join_query_from", "metrics_layer/core/sql/query_filter.py: MetricsLayerFilter.cte, isin_sql_query"]}
{"id": "C81", "title": "The lines of a query add up to its totals", "statement": "Drilling down splits numbers, it does not change them. When a dimension is added to a query, every line of the query without it is, for sums, counts, maxima and minima, what the lines with its dimension values come to together, and the two queries show the same values of the first dimensions; without any dimension the single line is what all lines come to. This holds for dimensions of the same FROM and for dimensions that are looked up by many-to-one left joins, as long as no access filter of the added view removes rows. A count of different values does not add up, but no line exceeds the total, and the total does not exceed all lines together.", "quantifier": "every project, warehouse dialect, pair of queries that differ in dimensions, nested JSON filters, every FROM of the shape described, every content of the tables (NULLs and repeated rows included)", "why_tests_cant": "It relates the answers of two different queries over every possible content of the tables; tests compare SQL texts of single queries.", "anchors": ["metrics_layer/core/sql/query_generator.py: MetricsLayerQuery.get_query, get_join_query_from", "metrics_layer/core/model/field.py: Field.aggregate_sql_query, _needs_symmetric_aggregate", "metrics_layer/core/sql/query_design.py: MetricsLayerDesign.functional_pk, joins"]}
{"id": "C82", "title": "A filter on what is shown selects lines", "statement": "When a filter is added to a query and all its comparisons are on dimensions that the query shows, the answer has exactly those lines of the answer without the filter of whose shown values the filter is true, with the same metrics, whatever their kind; nested AND and OR groups are evaluated with three truth values. The same holds for a filter on metrics that the query shows.", "quantifier": "every project, warehouse dialect, query with dimensions, nested JSON filter on shown fields, every content of the tables", "why_tests_cant": "It relates the answers of two queries over every content of the tables and every nested filter; tests compare SQL texts.", "anchors": ["metrics_layer/core/sql/query_generator.py: MetricsLayerQuery.get_query", "metrics_layer/core/sql/query_filter.py: MetricsLayerFilter.sql_query", "metrics_layer/core/sql/query_base.py: MetricsLayerQueryBase.parse_filter_object"]}
{"id": "C83", "title": "What else is asked for changes no number", "statement": "When a query is asked again with the same dimensions in any order and with only some of its metrics, in any order, the answer has the same lines, with the columns asked for. This holds when both queries need the same views, and also when the other metrics are of further views that are looked up by many-to-one left joins, for metrics that are written without a correction for repeated rows.", "quantifier": "every project, warehouse dialect, pair of such queries, nested JSON filters, every content of the tables", "why_tests_cant": "It relates the answers of two queries over every content of the tables; asking for another metric changes the FROM, the functional key and with it how each metric is written.", "anchors": ["metrics_layer/core/sql/query_generator.py: MetricsLayerQuery.get_query", "metrics_layer/core/sql/query_design.py: MetricsLayerDesign.functional_pk, joins", "metrics_layer/core/model/field.py: Field.aggregate_sql_query"]}
{"id": "C84", "title": "A limit shows the first lines of the answer without it", "statement": "A limit decides nothing about whether a query is refused. Run twice without a limit, a query over the same data has the same lines. With a limit of n, the values in the columns of the ordering are, line by line, those of the first n lines of the answer without the limit, and every line is a line of that answer. When no two lines agree in the columns of the ordering, for example because all dimensions are in it, the answer with the limit is exactly the first n lines, and the answer without it is the only one. Lines that agree there may come in any order, so a limit may cut between them anywhere.", "quantifier": "every project, warehouse dialect, query with dimensions, nested JSON filters and any ordering by columns (as JSON or the default), every limit (zero not on SQL Server and Azure Synapse), every content of the tables with NULLs", "why_tests_cant": "It relates all answers a warehouse may give, with ties in any order, to two statements, for every content of the tables.", "anchors": ["metrics_layer/core/sql/query_generator.py: MetricsLayerQuery.get_query, get_order_by", "metrics_layer/core/sql/query_dialect.py: SQL Server and Snowflake builders"]}
{"id": "C85", "title": "A line only depends on the rows behind it", "statement": "When the rows that pass a query's filters and have given values of its dimensions are the same in two states of the data, the line of those values is in both answers or in none, and shows the same numbers. So rows that are new change only the lines they belong to, rows that fail the filters change nothing, and the order in which rows are stored does not matter; the last two hold for totals, too.", "quantifier": "every project, warehouse dialect, query with nested JSON filters, metrics of all aggregate types with and without the correction for repeated rows, every pair of contents of the tables", "why_tests_cant": "It relates the answers to one query over any two contents of the tables, for every aggregate; a test has a few contents.", "anchors": ["metrics_layer/core/sql/query_generator.py: MetricsLayerQuery.get_query", "metrics_layer/core/model/field.py: Field.aggregate_sql_query"]}
{"id": "C86", "title": "Funnels that ask for less keep everyone", "statement": "Who is in a step of a funnel stays in it when the window is made longer, when steps are added at the end, when the conditions of steps are loosened and when further events happen. Steps added at the end leave the rows of the earlier steps as they were. Whether a person is in a step only depends on that person's own events, and the order in which events are stored does not matter.", "quantifier": "every table of events, every pair of lists of steps, every pair of usable windows of one unit, every step", "why_tests_cant": "It relates the answers of any two funnels over any two tables of events; a test has a few funnels over one table.", "anchors": ["metrics_layer/core/sql/query_funnel.py: FunnelQuery.get_query, FunnelQuery._within_where"]}
{"id": "C87", "title": "Running totals of different periods agree with each other", "statement": "The line of a period in a query of a cumulative metric only depends on the rows dated by then that satisfy the query's conditions, so later rows never change it. A partition that is shown at a period is shown at the later periods asked for up to today. Counts and sums of non-negative values never decrease from period to period, and a sum grows between two periods by exactly the sum of the rows dated in between.", "quantifier": "every cumulative metric queried by its date at day, week, month, quarter or year, other dimensions, conditions, every pair of periods, every pair of contents of the table", "why_tests_cant": "It relates any two lines of an answer and the answers over any two contents of the table; a test has a few periods of one table.", "anchors": ["metrics_layer/core/sql/query_cumulative_metric.py: CumulativeMetricsQuery.get_query, CumulativeMetricsQuery.cumulative_subquery, CumulativeMetricsQuery.aggregate_cumulative_subquery"]}
{"id": "C88", "title": "A query is sent once, over one connection, which is closed", "statement": "Running a query logs in with what the connection says and the time-out asked for, sends the texts of the query in their order, each once and while the connection is open, and nothing else; nothing is sent twice and no failure is hidden. When the call has returned or raised no connection is left open, wherever it failed.", "quantifier": "every connection, query, options of the call, and every choice of which calls of the warehouse's driver raise", "why_tests_cant": "It is about every point at which a driver can fail, for four warehouses and all options; tests run against a mocked driver that succeeds.", "anchors": ["metrics_layer/core/sql/query_runner.py: QueryRunner.run_query, QueryRunner._run_snowflake_query, QueryRunner._run_redshift_query, QueryRunner._run_postgres_query, QueryRunner._run_bigquery_query"]}
{"id": "C89", "title": "The same question gets the same answer in every warehouse", "statement": "Two projects that only differ in the warehouse they run on, with the same data, answer a query with the same lines (their order may differ when none is asked for): the warehouse changes the text of the statement, not the numbers.", "quantifier": "every project, query, pair of supported warehouses and contents of the tables for which both statements can be made and answered", "why_tests_cant": "Tests compare the text generated for each warehouse with an expected text; nothing runs the texts of two warehouses on the same data, and agreement has to hold for all data, fan-outs of joins and filters.", "anchors": ["metrics_layer/core/model/field.py: Field.aggregate_sql_query, Field._needs_symmetric_aggregate, Field._sum_symmetric_aggregate", "metrics_layer/core/model/definitions.py: Definitions.symmetric_aggregates_supported_warehouses", "metrics_layer/core/sql/query_generator.py: MetricsLayerQuery.get_query"]}
{"id": "C90", "title": "A further filter only narrows an answer", "statement": "When a filter is added to a query without conditions on metrics and without a limit, every line of the new answer is for dimension values that had a line before, with counts (of rows or of different values) and maxima that are no larger and minima that are no smaller. When of every row exactly one of two filters is true, the answers with the one and with the other come together to the answer without them: sums and counts add up, and the larger maximum and the smaller minimum are the ones without filter.", "quantifier": "every project, query, filter or pair of filters on the views of the query, warehouse and contents of the tables", "why_tests_cant": "It compares the answers of two or three queries over all data and all filters; tests compare the text of one query with an expected text.", "anchors": ["metrics_layer/core/sql/query_generator.py: MetricsLayerQuery.parse_definition, MetricsLayerQuery.get_query", "metrics_layer/core/sql/query_filter.py: MetricsLayerFilter.sql_query", "metrics_layer/core/model/field.py: Field.aggregate_sql_query"]}
{"id": "C91", "title": "A merge of queries answers the lines of the first with what belongs to them", "statement": "A query with merged_queries, joined by left or inner joins, answers exactly the lines of the first query combined with the lines of each later query that have the same values in the join fields; a line of the first without a partner is kept with NULLs under a left join and dropped under an inner join. When every later query is joined on all its dimensions, no line of the first is repeated: with left joins the answer has exactly one line for each line of the first query, in order. A full outer join adds the lines of its query without a partner among the first query's lines that are still there, unless a later inner join drops them. Filters of the merge keep exactly the lines whose shown values pass, the lines are ordered by the values shown in them, and a limit keeps the first ones.", "quantifier": "every accepted list of merged queries, with any number of queries and kinds of joins; every answer of the sub-queries, every condition on the shown columns", "why_tests_cant": "It is about the lines a warehouse answers for all contents of the sub-queries and all merges; tests compare the text of one merge with an expected text.", "anchors": ["metrics_layer/core/sql/query_arbitrary_merged_queries.py: MetricsLayerMergedQueries.get_query, build_cte_from, _build_join_criteria, get_select_columns", "metrics_layer/core/sql/arbitrary_merge_resolve.py: ArbitraryMergedQueryResolver"]}
