# Formal model of metrics_layer: design

The code under /repo is read as text. It is never run. The model is Lean 4, under
`lean/Verif/`. Each area `X` has up to four files:

* `X/Model.lean`: the functions of the code, branch by branch, exceptions as values.
  Every definition cites the file and lines it models and says what it simplifies.
* `X/Spec.lean`: a small specification that does not use the model's helpers.
* `X/Lemmas.lean`: proofs.
* `X/Props.lean`: the property theorems, each with an `example` showing that a concrete,
  non-trivial case meets its hypotheses.

## Trusted base

* Lean 4.33.0's kernel, and Mathlib's definitions of the notions used in statements (lists,
  permutations, rationals, finite sums).
* Axioms: every theorem depends on at most `propext`, `Classical.choice` and `Quot.sound`.
  No axioms of our own, no `sorry`, no `native_decide`, no `bv_decide`. The build prints
  `#print axioms` on demand; `vcheck` does it for every theorem of MANIFEST.json.
* The reading of the Python source: each definition of a `Model.lean` cites its lines and says
  what it simplifies. Nothing in /repo was run.
* Third-party behaviour listed in "Assumed behaviour of libraries and warehouses". It enters as
  a parameter with a stated promise (a hypothesis of the theorem), or as part of the model's
  meaning of SQL. It is never an axiom.

### What is modelled

| area (`lean/Verif/...`) | code |
|---|---|
| Access, Names, Sets | `model/project.py` lookups and access, `model/base.py`, `model/set.py`, `view.py` field lists, `field.py` equality |
| Project, Validate, JoinAs | `model/project.py`: caches, `replace_objects`, `add_field`, `remove_field`, `validate`, `_handle_join_as_duplication` |
| JoinGraph, Design, Joined | `model/join_graph.py`, `sql/query_design.py`, the FROM clause of `sql/query_generator.py` and its meaning on tables |
| SymAgg | `field.py` 517-816: aggregates, their text, their meaning |
| Filters, FilterStr, Dates | `utils.py` flattening, `sql/query_filter.py`, `model/filter.py` |
| ParseQ, Answer, Window, NonAdd | `sql/single_query_resolve.py`, `sql/query_generator.py`, `sql/query_dialect.py` as far as clauses go |
| Merged, MergePlan, Mapped, Choose, Always | `sql/resolve.py`, `sql/merged_query_resolve.py`, `sql/query_merged_results.py` |
| Arb, Funnel, Cumulative | `sql/arbitrary_merge_resolve.py`, `sql/query_arbitrary_merged_queries.py`, `sql/query_funnel.py`, `sql/query_cumulative_metric.py` |
| Usable | `field.py` 408-441, 818-838, 2506-2548, 2749-2791, `join_graph.py` 193-300, `model.py` 367-429, `project.py` 490-498 |
| MergeStmt | `query_merged_results.py` 18-138, `merged_query_resolve.py` 60-112, `field.py` 538-555, `query_base.py` 18-37, `query_filter.py` 154-223 |
| Text, Refs | `${...}` references: `base.py` 88-92, `field.py` 2550-2603 |
| Tiers, Week, Duration, TimeGroup | `field.py`: tiers, week truncation, durations, timeframes |
| TableName | `view.py` 1008-1047 |
| FieldCheck | `field.py` 180-316, 352-478, 1470-2504, 2646-2673, 2700-2741, `view.py` 633-676, `base.py` 14-74 |
| ViewCheck | `view.py` 46-154, 166-173, 197-996, `set.py` 14-71, `field.py` 144-160, 840-850 |
| ModelCheck | `model.py` 18-166, 176-370, 377-425, `week_start_day_types.py` 10 |
| Mql | `convert.py` 71-242, from the tokens sqlparse returns |
| Connect | `connections.py`, `project_loader.py` 72-148, `query_runner.py` (what is executed, not the drivers) |
| Api | `query.py` 16-230 (the session), `project_loader.py` 17-70, `resolve.py` 13-54, 459-470, 518-524, `field.py` 879-905 (`equal`) |
| Seed | `cli/seeding.py` 14-160 (the constructor and the tables of types), 181-240, 264-435, 436-512 as seeding calls it, 514-601, 712-715 |
| Repo | `parse/github_repo.py` 14-72, `parse/project_reader_base.py` 49-105, `parse/project_reader_metrics_layer.py`, `parse/project_reader_metricflow.py`, `parse/project_loader.py` 44-56 |
| Clone | `parse/github_repo.py` 81-250, `parse/project_loader.py` 44-60 |
| Dump | `parse/project_dumper.py`, `parse/manifest.py`, the loader of metrics_layer files |
| Dash | `dashboard.py`, `filter.py` as dashboards call it, `project.py` (`dashboards`, `get_dashboard`, `get_model`) |
| JoinOn | `join.py`, `join_graph.py` (`get_join` and the identifier clauses), ON of `query_generator.py` |
| Cli | `cli/cli_commands.py` (`init`, `list`, `validate`, `show`, `debug`), `cli/seeding.py` 604-697 and the choice of the connection in `seed`, `query.py` 180-250 |
| Cond | `sql/query_filter.py`: a condition from its dictionary to the comparisons of its SQL and their text, with and without a design; the parts of `matches` through the model of C23 |
| SqlText | `sql/query_generator.py` 154-281, 284-374, 423-437: the parts handed to the builder; the text pypika makes of them, clause by clause; `strip_alias`, `_deduplicate_select` |
| Expr | `model/field.py` 496-536, 799-817: the SQL of metrics of type number, reference by reference (with Refs for the replacement itself). The specification is a lexer and a reader of SQL expressions: strings, words, parentheses, calls, CASE, prefix and infix operators by precedence |
| Cases | `model/field.py` 247-251, 301-315, 2632-2644: the SQL of dimensions with `case`, of type tier (branches from Tiers) and of type yesno. Read by the lexer and reader of Expr |
| CumText | `sql/query_cumulative_metric.py` 202-228, 295-334, 373-403, `model/field.py` 471-517: the text of the join condition with `cumulative_where`, the fields it selects, and the columns of the final query, read with the grammar of area Expr. `${TABLE}` in a number over cumulative metrics is left out |
| FunnelTable | `sql/query_funnel.py` 37-102, 126-157, 224-269: a whole funnel query with its base query, steps (area Funnel), grouped union, conditions on lines and limit, and what a warehouse answers. The field tagged `customer` and the keys of views are parameters; conditions given as text, number metrics and metric filters are left out |
| MergeWhole | `sql/merged_query_resolve.py` 12-110: from the plan (area MergePlan) to the sub-queries, their readable names, the renamed mapping and the definition the merged statement (area MergeStmt) is made from. How a sub-query is written is a parameter; `writeSub` instantiates it with the statements of area Answer |
| Column | `model/field.py` 175-179, 329-349, 482-494: the id, the column and the label of a field. Letters are ASCII |
| Secure | `sql/query_design.py` 183-190, 262-288, `model/view.py` 182-191: access filters of the views of a query, the views joined for them, and the rows of the tables they hide, on top of areas Answer and Joined. A field has one view |
| Drill | nothing new: two questions to the model of area Answer, with the FROMs of area Joined, so `sql/query_generator.py` 100-185, 339-360 and `model/field.py` 557-816 |
| Slice | nothing new: pairs of questions to the model of area Answer, as for Drill |
| Top, Local | nothing new: one question to the model of area Answer with and without a limit, and to two states of the data |
| FunnelCompare, CumCompare | nothing new: two funnels to the model of area Funnel, and two periods or two states of the data to the model of area Cumulative |
| Runner | `QueryRunner.run_query` and its four warehouses as sequences of calls of the driver, any of which may raise; the four logins; the time-out |
| Dialects | no new code: the statement of one query for two warehouses (areas SymAgg, Generator, Answer), answered over the same data |
| Narrow | no new code: a query with and without a further filter (areas Answer, Filters, SymAgg), answered over the same data |
| ArbAnswer | what the warehouse answers to the statement of area Arb: the joins, conditions and columns of `query_arbitrary_merged_queries.py`, over any answers of the sub-queries; the order and the limit (`Page`) |

### What is not modelled

YAML parsing and writing, git itself and the file system below the level of steps that may fail (C70, C71), warehouse drivers
and the execution of queries, the parsing of command line arguments and the colours of what is printed, the lexing of MQL (sqlparse; its tokens are the input of C65),
the conversion of dbt and Looker projects, the wording, order and positions of most validation
reports, floating point rounding, overflow of
DECIMAL(38,0), the text of FROM, derived-table SQL, and hash collisions of Python's own `hash` and of SHA-256. Each model file lists what it
leaves out of the functions it does model.

## Plan per property

| id | what is modelled | how it is proved |
|----|------------------|------------------|
| C01 | `_can_access_object`, `can_access_field`, `get_access_grant` as functions on lists with `Except` | induction over the grant list, both directions |
| C02 | `_all_views`, `View._all_fields`, `fields`, `get_view`, `get_field` | membership lemmas; non-interference: deleting denied objects leaves every answer unchanged |
| C03 | `get_access_filter`, `_parse_filter_object`, pypika's `Criterion.all` and its bracket rule, rendering to tokens, SQL precedence reader, three-valued evaluation | render/parse adequacy; full property refuted for literal WHERE with a witness, `_partial` for structured WHERE |
| C04 | `group_sql_query` on arbitrary nesting, same renderer | induction on the filter tree |
| C05 | `_parse_field_and_view_name`, `equal`, `get_field`, `_matching_field_handler` | case analysis on the match list |
| C06 | `field_name_parts`, `valid_name` on `List Char` | induction on the character list |
| C07 | both `deduplicate_fields` | induction on the list |
| C08 | `replace_objects` as a state machine with nested blocks, exceptions and caches | induction on the program run inside the block |
| C09 | the same, lookup inside the block | list lemmas |
| C10 | `add_field`, `remove_field` | list lemmas; the letter-case asymmetry is a witness |
| C11 | caches keyed by content hash and user, `join_graph` cache, `View.fields` cache | invariant over histories; refuted parts by witness (`set_user` keeps the join graph) |
| C12-C15 | `_identifier_map`, `_reference_map`, `build`, relationship tables | invariant of the folds |
| C16 | strongly connected components and reachability as a specification of networkx | partition lemmas, index of first component containing a view |
| C17 | `_clean_view_pairs`, `_validate_join_path`, `_greedy_build_join`, `_add_missing_views`, `ordered_joins` with shortest paths as an oracle with its specification | induction; optimality of paths gives that no path re-enters an anchor |
| C18 | the same | refuted by a witness (disconnected pairs among required views raise immediately) |
| C19-C20 | left joins on finite tables with declared multiplicities | induction on the join list; C20 refuted in general by witness, `_partial` for chains |
| C21 | symmetric sum, count, average on multisets of rows with integer hash | duplicates do not matter; collision witness |
| C22 | `_needs_symmetric_aggregate` and the per-type dispatch | case analysis |
| C23 | `_filter_dict` on `List Char` | case analysis on the prefixes |
| C24 | `_start_date`, `_end_date`, `_add_to_end_date`, the three interval parsers on day numbers with an abstract month calendar | integer arithmetic |
| C25 | global week state and exceptions | induction over histories; failing parse is a witness |
| C26 | `translate_looker_filters_to_sql` semantics | induction over rows |
| C27-C28 | `flatten_filters`, `parse_where`, `parse_having` | structural induction |
| C29 | `parse_input`, `parse_definition` | case analysis |
| C30 | `Set.field_names` with nested references by fuel | list lemmas |
| C31 | tier CASE evaluation | induction over the boundary list |
| C32 | week truncation by warehouse convention | integer arithmetic modulo 7 |
| C33-C34 | full outer join of key/value tables, if-null nesting | induction; three sub-queries refuted by witness |
| C35-C37 | join hash construction and splitting, metric distribution, where mapping | induction |
| C38 | funnel step construction; the whole query | induction on steps against chains; metrics of a group by the symmetric aggregates (C22) over the last events of chains |
| C39 | cumulative sub-query and spine join | induction over rows |
| C40-C42 | strategy selection, mapping replacement, always filters | case analysis, induction |
| C43 | validation of merged queries, select list | decision logic, induction |
| C44-C45 | order-by text, `${...}` substitution | induction on characters; witnesses |
| C46 | `_handle_join_as_duplication` | induction over views |
| C47-C48 | error de-duplication, dashboards, model selection | induction |
| C49 | shared list in the non-additive definition (explicit heap cell) | history induction; witness for an explicitly empty list |
| C50 | key and field ordering of the dumper, dbt reference resolution | permutation lemmas |
| C51 | quoting of text operands in `Filter.sql_query` | reading the literal back is the identity; a witness for backslash escapes |
| C52 | the duration SQL as tokens with operator precedence, Postgres `AGE` on calendar fields | integer arithmetic; bounds and witnesses where the SQL is wrong |
| C53 | the SQL of every timeframe on every warehouse as expressions over moments, with DATE_TRUNC, DATEADD/DATEDIFF from 1900, EXTRACT, ISO weeks and time zones | calendar arithmetic; the first moment of a unit is characterised by minimality; witnesses where the SQL is wrong |
| C54 | the designer of C17 with weights and starting pairs | minimality of the chosen walk over both directions from the promise of shortest_path; insertion sort of the starting pairs is sorted by the stated preference and the first serving one is taken; witness that a direct many-to-many join wins over a cheaper detour |
| C55 | the whole single query: clauses of C29/C44, conditions of C03/C04/C27, aggregates of C21/C22, put together into one statement; a relational semantics of SELECT (WHERE, GROUP BY, HAVING, ORDER BY with ties in any order, LIMIT) over arbitrary rows | from the parts to the specification "one line per combination, exactly the rows behind it"; existence of an answer by insertion sort; composition with C20 and C22 for the metrics' values; witnesses for equal column names, ordering by a field not requested, limit zero on SQL Server |
| C56 | the CTE of a group filter and the IN condition on top of C55 | the CTE's answer is the table of C55 for the one dimension, so membership is "the entity's group passes"; a second filter is refused, an entity of a view outside the FROM is never answered (proved) |
| C57 | the CASE expression of a non-additive metric, its subquery, the LEFT JOIN of that subquery and the main block, on top of C55, C26 and C49 | the subquery's answer is the table of C55 with the latest date per window, so at most one of its lines joins to a row and the joined cells are the window's values; the CASE is then the metric on the rows that count; counts, sums and the effect of ELSE 0 follow. A date in another view, two metrics of one name and a view missing from the FROM are never answered (proved) |
| C58 | `join_graphs`, `referenced_fields`, `required_views`, `joinable_fields` over C17's join graph | the reference loops find exactly the fields the SQL mentions (induction on the depth of references); a name is in the intersection iff some view of that graph reaches all counted views; the pair of fields is handed to C18's theorem |
| C59 | `_build_merged_results_graph`, `get_mappings`, `loses_join_ability_with_other_views` | the edges are shown equal to an inductive description of what belongs together (both inclusions, loop by loop); the dictionary of mappings by an invariant over its entries; caching across models by a witness |
| C60 | the merged statement: `strict_replaced_query`, SELECT, WHERE made of `having`, limit, on top of C33 and C34, and what a warehouse answers | the rows are paired with the combinations (C33), a dimension column shows the combination's value (C34), a metric's column is the row of its sub-query, a formula reads only metric columns; filters by C04. `order_by` is not an argument of the statement. The sub-queries are questions of C55: their tables have one row per combination (`IsTable`), which gives the hypotheses of C33 |
| C61 | `resolve_sql_table_name`, `_resolve_conditional_sql_table_name` and its two regular expressions as searches over the text | a search that skips text without dashes and the blocks of other environments (induction over the cases); the earlier cases are shown to answer a longer text than the table, for all texts |
| C62 | `Field.collect_errors` check by check over YAML values, with the properties it reads (`sql`, `canon_date`, `non_additive_dimension`, `is_merged_result`) and the exceptions they raise | every check is shown equal to its rules of the specification (one constructor per rule); the exceptions likewise; what follows from an empty report is composed with C31, C52, C53 and C58 |
| C63 | `View.__init__`, `View.collect_errors` check by check, with `identifiers`, `fields`, `event_dimension`, `Set.collect_errors` and the reports of C62 for each field | every check is shown equal to its rules of the specification; the loop over the identifiers by induction on those still to come, with the names already seen; the exceptions likewise; the clean cases by contradiction with a rule |
| C64 | `Model.collect_errors` check by check, with `access_grants`, `AccessGrant.collect_errors` and `mappings` (the order of Python's set of reserved names is a parameter), and `get_mappings` on its result | every check is shown equal to its rules of the specification; the loops over mappings and their fields by induction, ending with the first exception; the order of the dates from the stability of the sort; the clean cases by contradiction with a rule |
| C65 | `MQLConverter` over token streams: the loop of `resolve_mql_statement` with its modes, the question it builds, the replacement in `get_query`. sqlparse and the resolver are parameters: the model starts from the tokens (their text and the tests made on them) and ends with the question | the specification writes a statement in parts and says what it asks for without modes; one lemma per part and kind of token, induction over the tokens of a part and over the steps; the replaced text by induction over the tokens of the SQL with what is done so far as the invariant |
| C66 | The ten connection classes with their constructors, `to_dict`, `printable_attributes`, `repr`; loading, dbt profiles, the text executed by the runner | non-interference: two definitions that differ in secrets only give equal printed text, per class; exact conditions for what can be handed on and shown; the executed texts by cases; injectivity of the Postgres address from the separators |
| C67 | A session as a state machine over nine calls, with the resolver as a parameter; `get_metric` and `get_dimension` over fields that remember | induction over histories; a relation between sessions that differ in the remembered schema only; the answer of one question by cases; refuted parts by general witnesses |
| C68 | Seeding as a function of what the warehouse answers: rows of the information schema to models and views | `Forall₂` between rows and fields, tables and views; each type by its table of types; text lemmas for names and marks; refuted parts have a witness |
| C70 | the disk as files by place, paths as texts, Python's `glob` for `folder**/pattern`, the project file, the loop over the files, `relpath` | where a path leads is an inductive relation; the paths `glob` returns are shown to be those of a relational description, the loop is a filter of the files by type; negations as general theorems with an example |
| C71 | the calls of `GithubRepo` as programs over a disk, made of steps of which a `Fate` decides whether they are done, fail, are interrupted or are where the process is killed; the commands git gets, with the key file as it is then | invariants kept by every piece however it ends; inversion of each piece; induction over histories; general theorems for what is false |
| C69 | dashboards and elements as dictionaries; the filters read through the model of `Filter`, with the week start day of the models; the errors as values | inversion of each loop; uniqueness of the common day; membership characterisation of the errors |
| C73 | the loop that replaces references in a join condition, its None exit, the clauses of identifiers, `Join.validate` and `collect_errors` | composition with the simultaneous-replacement lemmas of C45; case analysis on the number of dots |
| C72 | `init` as a list of steps on a disk of files and folders; the printed lines as lists of texts; the reading of the project through the model of C70 | the state after any prefix of the steps, then confluence; case analysis on the types; composition with C66 and C70 |
| C74 | `validate`, the replacement of values that name fields, the cast of datetimes, `criterion` for every expression, as comparisons on one row in three-valued logic; the dictionary left behind is part of the result | case analysis on the expression; LIKE patterns by the lemmas of C51; composition with C23 for `matches` |
| C75 | the parts of a query and the text made of them; the specification is a reader of SQL: tokens with quotes and parentheses, clauses, items | the reader over texts put together (append lemmas for spaces, commas and parentheses), then clause by clause |
| C76 | the replacement of references by the SQL of fields; the specification reads texts as expressions | the lexer over texts put together (fill), the reader over token lists in any context (a stack of open groups), reading commutes with substitution when each reference is one operand; induction on the depth of metrics |
| C77 | the texts made from cases, tiers and yesno; the specification is the reader of C76 and what CASE and comparisons mean to a warehouse | reading of texts put together branch by branch (induction over the branches), substitution of operands into the conditions of tiers, then the tiers of C31 |
| C78 | the resolver of merged queries around the plan of C35-C37; the specification says what a dimension means in a sub-query (its counterpart) | invariant of the loop over the dimensions (place by place), injectivity of the readable names, then the premises of C60 are derived from it and C60 is applied; for the rows of the warehouse, with the sub-queries written as in area Answer |
| C79 | ids, columns and labels as texts | cutting a text at underscores: two cuts are equal or one is after the other; labels are turned back into names |
| C80 | a query over joined tables, with the access filters of its views | a condition on the rows of a view, with NULL failing, can be pushed through left, inner and full joins (induction on the joins); WHERE only keeps rows with all conditions true, so answers only depend on what is left |
| C81 | two queries that differ in dimensions, over any tables | C55 gives the rows behind each line; the rows behind a coarse line are, up to order, those behind the fine lines with its values, one group after the other (induction on the lines); sums, counts, maxima and minima of the whole are those of the parts; left joins that find at most one row map back to the rows before the join |
| C82 | two queries that differ in one filter on shown fields | the rows behind a line are all those with its dimension values, so a condition on these keeps or drops them together (C55); the condition on a metric is evaluated on the value that the line shows |
| C83 | two queries that differ in the order and number of columns | equal dimension values do not depend on the order of the dimensions, so the rows behind the lines are the same; looked-up views as in C81 |
| C84 | a query with and without a limit, any two of their answers | both tables are C55's, so they have the same lines; two arrangements of the same lines in one order show the same in the columns of the ordering (uniqueness of sorted lists, for keys); equal dimension values are on one line only |
| C85 | one query over two states of the data | C55 gives each line from the rows behind it; no aggregate depends on the order of its rows (induction on the aggregate expression, with C22's expressions) |
| C86 | two funnels, over two tables of events | C38 gives the rows of a step as chains of events; chains are monotone in the window, the steps and the events (induction on the chain) |
| C87 | one cumulative metric, any two periods or two states of the data | C39 gives each line as a running total over the rows dated by the period; these rows split at the earlier period |
| C88 | a run as a trace of calls of the driver, with an oracle for which of them raises | every trace is a first part of the calls of the warehouse (induction on the calls); the property is false for refused queries, proved for all of them |
| C89 | `buildStmt` for two warehouses and `Answers` over one database | both answers are described by C55 or C56 for the same views; the aggregates of the two warehouses have equal values by the cases of `aggregateSql`; the lines have no repetition, so the same members are a permutation |
| C90 | `buildStmt` for a query and for the same query with a further filter, `Answers` over one database | the rows behind a filtered line are some of those behind the line without the filter (C55), and each aggregate is compared over a sublist; for two filters the rows are split and the aggregates put together as in C81 |
| C91 | `arbAnswer` over the statement of `arbQuery` (C43): joined rows hold one line or nothing for each sub-query | induction over the joins: each row of the first query is extended on its own; at most one partner when the later query is grouped by its join fields; that sub-queries are grouped so follows from C55 (`C91_sub_lines`, `C91_from_data`) |

## Assumed behaviour of libraries and warehouses

| what | where | form |
|---|---|---|
| networkx: `topological_sort` gives an order or raises, `shortest_path` gives a path of least weight or raises | C17, C18, C40, C54 | any functions meeting `NxSpec`; a concrete pair is proved to meet it |
| networkx: strongly connected components are the classes of mutual reachability, in some order | C16 | any list meeting `IsScc`; a concrete algorithm is proved to meet it |
| pypika 0.48: `Criterion.all`, brackets around AND inside OR and the reverse, ORDER BY, LIMIT/TOP, `groupby`, de-duplication of selected terms | C03, C04, C44, C55-C57 | part of the model, cited there |
| SQL: AND binds tighter than OR, three-valued logic, WHERE keeps true only | C03, C04, C26, C55 | `Filters/Model.lean`, `Answer/Model.lean` |
| SQL: LEFT, INNER, FULL and CROSS JOIN on lists of rows; a row of NULLs satisfies no join condition | C19, C20, C33, C57 | `Joined/Model.lean`, `Merged/Model.lean`, `Window/Model.lean` |
| SQL: GROUP BY makes one group per combination, NULL equal to NULL; ORDER BY is any sorted arrangement; a column of SELECT found under two labels, or under none, makes the statement fail | C55-C57 | `Block.Answers` |
| SQL aggregates ignore NULL; SUM, AVG, MIN, MAX of nothing are NULL, COUNT is 0; numbers are exact | C21, C22, C26, C39, C55, C57 | `Agg.eval`; rounding not modelled |
| the key hash of symmetric aggregates does not collide on the keys and shifted values that occur | C21, C22, C57 | hypothesis `NoCollision`; `C21_distinct_hashes_not_enough` shows why injectivity on keys would not do |
| pendulum 3.0.0: calendar arithmetic, MONDAY = 0, month addition clamps the day | C24, C25 | calendar defined and proved in `Dates/Civil.lean` |
| pandas `to_numeric` on the text after a sign | C23 | parameter `ToNumeric` |
| `DATE_TRUNC`, `DATEADD`, `DATEDIFF` (32 bits on SQL Server), `EXTRACT`, `TO_CHAR`, time zone conversion of each warehouse | C32, C53 | `TimeGroup/Model.lean`, `Week/Model.lean`: meaning of each expression |
| Postgres `AGE` gives years, months < 12, days < 31; `DATE_PART` reads its fields; BigQuery `ISOWEEK`/`ISOYEAR` | C52 | `Duration/Model.lean` |
| a quote inside a text constant is escaped by doubling it | C51 | hypothesis; a backslash dialect is a witness against it |
| ruamel.yaml: writing a dictionary and reading it gives it back | C50 | part of the model |
| sqlparse splits an ORDER BY text into its identifiers | C44 | the text is a list of clauses |
| SHA-256 of join hashes does not collide | C35-C37 | identity in the model |
| Python: lists and dicts are references, dict order is insertion order, `sorted` is stable, `str.lower` on ASCII | all | `Dict.lean`, heaps in `Project` and `NonAdd` |

## Findings

Behaviour of the unchanged code that contradicts a property (or its obvious reading). Each item
with a theorem name is proved about the model; the others were read in the code and are not
proved.

Access and lookup
* A WHERE given as text that contains OR at top level bypasses the access filter: `C03_literal_or_bypass`.
  Access filters of views that are only joined through are not applied, and a missing or empty user
  attribute skips the filter (read).
* The view part of a name is case-sensitive, the field part is not (example at `C05_case_insensitive`).
* `replace_objects` with upper-case names keeps the old view, `remove_field` after a lookup may miss:
  `C09_letter_case_keeps_old_view`, `C10_lookup_breaks_remove`. Caches: `C11_set_user_keeps_graph`,
  `C11_empty_user_stale`, `C11_no_refresh_stale`, `C11_view_object_stale`.

Joins
* The last explicit declaration wins whatever its rank: `C13_last_declaration_wins`. An explicit
  `join_type` survives when an identifier join replaces the declared one; `join_type: cross` writes
  CROSS JOIN with ON (read).
* Joinable sets of views are refused: `C18_rejects_far_base`, `C18_rejects_bridge`, `C18_rejects_detour`,
  and then merged although connected: `C40_falls_back_though_connected`.
* The reported key can repeat: `C20_star_repeats`, `C20_chain_repeats`; a self-join breaks the plan: `C17_self_join`.
* A direct many-to-many join is used although a cheaper path exists: `C54_direct_not_cheapest`.
* Two identifiers asking for one extra view lose one: `C46_same_name_twice_loses_identifier`.

Aggregates
* A base view without a visible key gives plain, inflated sums: `C22_no_base_key`; medians are never
  corrected: `C22_median`. Symmetric counts of nothing are NULL, sums of nothing 0: `C21_sum`, `C21_count`.
* DuckDB is sent Postgres's HASHTEXTEXTENDED (read).
* Measures whose filters all have empty values give malformed SQL: `C26_empty_filters`; non-additive
  averages divide by the wrong number: `C26_else_zero_average`, `C57_zeros`, `C57_max_zero`.

Filters and dates
* "-" is an IndexError, "-5 days" means "5 days": `C23_exceptions`; a list with an empty element is an
  IndexError: `C23_list_empty`; values 1 and 0 are booleans, other numbers and lists are errors: `C23_values`.
* Quarter windows end at the midnight that begins the last day: `C24_quarter_last_day`. "0 days" starts
  after its end, and "ago  to date" with two spaces drops the end bound (read). "D until E" leaves out the day E: `C24_two_dates`; the word
  "unknown" counts as a unit and gives a TypeError: `C24_unknown_unit`.
* A date phrase that cannot be read leaves the week start behind: `C25_leak`.
* Backslashes are not escaped: `C51_backslash`.
* Two filters with a group_by raise a TypeError: `C56_two_rejected`; the entity's view is not added to
  the FROM: `C56_missing_view`. An explicit null logical operator raises ParseError, a text inside a
  group AttributeError, an is_null filter without a value KeyError on BigQuery (read).

Queries
* One field in two spellings and repeated names in merged queries are not refused: `C29_spelling`, `C29_merged`.
* Unknown sets and names with '-' are ignored silently: `C30_silent`. Unsorted or empty tiers: `C31_unsorted`, `C31_empty`.
* Weeks are a day off on BigQuery and on SQL Server: `C32_bigquery`, `C32_sql_server_partial`.
* ORDER BY names containing asc/desc are corrupted, NULLS FIRST is ignored: `C44_corrupted`, `C44_nulls_first`;
  ordering by a field not selected is never answered: `C55_order_unselected`; limit 0 is ignored on SQL
  Server and Synapse: `C55_limit_zero`; equal column names drop a column: `C55_same_label`.
* Double spaces inside text constants collapse, `${TABLE}` in a number measure is bracketed: `C45_spaces`, `C45_number_table`.
* Timeframes: `C53_sql_server_seconds`, `C53_server_no_extract`, `C53_week_of_month_negative`, `C53_bigquery_week_index`,
  `C53_bigquery_names`, `C53_date_column_moves`, `C53_week_index_unknown`, `C53_zone_ignored`.
* Durations: `C52_postgres_days_bounded`, `C52_postgres_two_months`, `C52_postgres_brackets`, `C52_bigquery_years`.

Merged, mapped and cumulative queries
* Three sub-queries split combinations, NULL keys never match: `C33_three`, `C33_null`; values of mapped
  dimensions are dropped: `C34_dropped`. ORDER BY is ignored in merged and cumulative queries (read).
* A table name with one table per environment works for the last environment only: for any other, `result.group()` is the whole
  match, so the view reads `if dev  dev_db.t` instead of `dev_db.t` (`C61_earlier`, `C61_earlier_wrong`). Names with a dash are
  worse: `C61_dash`, `C61_dash_env`. The repository's tests resolve the last environment only.
* Validation ends with an exception instead of a report for a time group without timeframes or SQL, a duration without intervals,
  an empty list of tiers, a filtered `*`, a window without a name or choice, a filter on something that is not a text and others:
  `C62_raises` lists them all, `C62_raises_name`, `C62_raises_no_tiers` and `C62_raises_star` show some. `Project.validate` does not
  catch them. Fields that refer to each other in a circle pass validation and cannot be queried: `C62_cycle`. The SQL of a cumulative
  metric is not looked at: `C62_cumulative_sql`. In personal fields warnings are marked twice: `C62_marks`.
* An `event_dimension` with a view in its name is answered with the view's `default_date`: the field it names is never looked at, and
  without a default date validation raises (`C63_event_dimension`). A set whose name is no text, an identifier whose name is a list, a
  conditional table without a match next to a derived table, and a filter on a name that stands for several fields make validation
  raise as well (`C63_raises`); such a name in an identifier is reported, but the identifiers after it are not looked at. The messages
  for identifiers that are no dictionary or have no name can never be given, because making the list of identifiers fails first.
* A query with a cumulative metric and an AND/OR group of conditions fails with a KeyError: `C39_groups`.
* A filter on a merged metric is a condition on a column of the same SELECT, which many warehouses refuse: `C60_merged_filter`;
  a `matches` filter on a metric of a merged query is an AttributeError (read).
* Substring comparison of join hashes, odd date names: `C35_substring`, `C35_odd_date`; metrics dropped:
  `C36_dropped`, `C36_collision`; filters: `C37_literal`, `C37_suffix`.
* Mapped names are chosen one by one and replaced in texts by substring: `C41_not_joint`, `C41_literal`, `C41_repeated`.
* Always filters: `C42_swallowed`, `C42_text`, `C42_reused`. Merging by hand: `C43_one_query`, `C43_join_type`, `C43_lost_column`,
  `C43_first_join_fields`.
* Lists of usable fields: a view read only through a numeric dimension or through nested fields is overlooked:
  `C58_numeric_missed`, `C58_nested_missed`; fields joinable with one selected field only are offered: `C58_joinable_any`;
  all models share the merged results of the first: `C59_first_model`. A date without timeframes is a TypeError, and
  measures in mappings never reach merged results (`C59_no_measures`).
* A mapping-only query runs on the first model: `C48_wrong_model`.
* Funnels count an event once per chain: `C38_once_per_chain`; two metrics: `C38_two_metrics`. Units in
  capitals, a view whose date is in another view, no steps: `C38_unit_capitals`, `C38_event_date_other_view`, `C38_no_steps`.
* Funnel queries: `order_by` is refused (`C38_order_by`), as is a metric whose view has no primary key, with an AttributeError (`C38_no_key`); a condition on a metric that is
  also requested makes two columns of one name (`C38_having_twice`); a filter on the primary key hides it from the base query, so sums name a missing column (`C38_key_missing`);
  without symmetric aggregates an event counts once per chain (`C38_plain_repeats`).
* Cumulative metrics: `C39_condition_or` (OR in `cumulative_where` counts rows before their date), `C39_mixed_number`, `C39_condition_duration`,
  `C39_inflated`, `C39_date_filter_dropped`, `C39_null_partition`, `C39_extra_dimension`,
  `C39_two_granularities`, `C39_foreign_date`, `C39_time_zone`. The spine covers 2000 to 2040 only (read).

Stored definitions, files, validation
* Non-additive definitions: `C49_empty_list`, `C49_removes_field`, `C49_leaves_field`; queries with them:
  `C57_null_grouping`, `C57_missing_view`, `C57_other_view`, `C57_same_names`, `C57_latest_elsewhere`.
* Files: `C50_untyped`, `C50_overwritten`, `C50_unknown_type`, `C50_ref_ambiguous`, `C50_ref_quotes`. The order of
  loading follows a set, and files whose path contains "venv" are skipped (read).
* Validation: `C47_crash_iff`, `C47_stale_references`.
- **Validating a model** (C64). A model without reports can still make every merged query raise: a mapping that contains a dimension group, or that
  mixes dimensions with measures, is not reported, and `get_mappings` raises on it (`C64_clean_but_raises`; `C64_clean_offers` has the condition
  under which it does not). An empty list of access grants, or of allowed values, is reported, but a list with one element of the right kind among
  others is not (`C64_grants`), because the check is that *all* elements are wrong; the others then raise or are reported as grants without a name.
  A mapping without `fields` makes validation raise a KeyError while the message is made, a field in a mapping that is no text a TypeError, and so do
  a grant's name and the model's name when they are no text (`C64_raises`, `C64_raises_name`). A field name in a mapping that stands for several
  fields ends the loop: later mappings are not looked at. `default_convert_timezone` is read by `field.py` 372 but reported as a property a model
  does not have (example beside `C64_exact`).
- **MQL inside SQL** (C65). A name that sqlparse takes for a keyword is dropped without a word, except `SOURCE` among dimensions: `MQL(revenue BY month)`
  asks for one total (`C65_keyword_ignored`, `C65_month`). `ORDER BY` is only recognised with exactly one blank between the words; otherwise the names of
  the order become dimensions (`C65_order_blanks`). In a step of a funnel a keyword other than `AND` and `OR` (`IN`, `IS`, `BETWEEN`) forgets everything the
  step had (`C65_funnel_keyword`), and a value with the text `within` in it ends the steps (`C65_funnel_within`). The text of a call is replaced wherever it
  stands, also in quotes (`C65_literal`). Only calls among the top tokens of the first statement are converted; a call in a sub-select, in a list of
  tables or in a second statement is sent to the warehouse as it is (`C65_left_alone`, `C65_nested`).
- **Connections** (C66). A Trino connection can never be shown: `printable_attributes()` takes `password` out of a dictionary that has none and raises
  KeyError (`C66_showable`). Druid, SQL Server and Synapse connections are accepted without a user and then raise AttributeError, and without a password
  cannot be shown (`C66_usable`, `C66_showable`). The database and the schema of Trino, SQL Server and Synapse connections are not handed on
  (`C66_lost`), and an Azure Synapse connection says it is SQL Server. Only Snowflake, BigQuery, Redshift and Postgres connections can be run on
  (`C66_not_run`). On Postgres with `raw_cursor` nothing is executed (`C66_run`). The address of a Postgres database is written without escaping, so
  that two databases with different passwords can have the same address (`C66_url_ambiguous`).
- **A session** (C67). The connection is read before the question is resolved for `sql=` and `merged_queries=`, so that `get_sql_query(...,
  return_connection=True)` returns None for it and `query(sql=...)`, `query(merged_queries=...)` always raise AttributeError (`C67_no_connection`,
  `C67_never_runs`); `return_query_kind` with `sql=` raises UnboundLocalError. `load()` with neither a project nor a location raises AttributeError.
  `set_user` before a load raises QueryError and sets the user all the same (`C67_not_loaded`). When two connections have one name, the project takes the
  type of the last (`C67_types`) and a query asks the first (`C67_fields`); a connection added after a load is not known to the project. The table name of a
  view that is read outside a query is told with the schema of the last query's connection (`C67_table_name`). `get_dimension("order_date")` makes a later
  `get_dimension("order_month")` raise StopIteration, because `Field.equal` stores the timeframe in a field that is kept (`C67_dimension_history`); a
  group called `day` asked for as `day_day_of_week` takes the timeframe `of_week`. `get_metric` and `get_dimension` raise StopIteration where ParseError
  was meant (`C67_metric`, `C67_dimension_partial`).
- **Seeding** (C68). Without a chosen schema a table name that two schemas have, or two names that differ in case, give a view with the columns of both under
  the name of the first (`C68_mixed`); in the second case there are two such views of one name. `clean_name` makes one name of two, an empty name of a name
  without letters and digits, and keeps tabs (`C68_name_collision`). Quotes inside a column's name are not escaped, nor are those of the schema and table in
  WHERE. Snowflake returns ten thousand columns at most and the rest are silently left out (`C68_asks`). Data types are looked up with their case, so that
  Redshift's lower-case names all become strings. A table that is missing from the second answer of Snowflake or Databricks, while another is there, raises
  IndexError (`C68_succeeds`). The question for counts says `FROM None.schema.table` when the connection has no database (Druid), and for Trino has no blank before FROM
  (`C68_counts`). The columns of Databricks are refused without a database although the code has a branch for them and the tables are not refused
  (`C68_tables_or_columns`). A project with a single model gets the views whatever its connection (`C68_model`).
- C70: `glob_search` appends `**/*.yml` to the folder as written. Without a slash at the end (`view-paths: ["views"]`, what `init` writes) the
  pattern is `views**/*.yml`, in which `**` is an ordinary `*`: subfolders are not read, and files of every folder whose name begins with `views`
  are. Paths with `venv` anywhere in them are dropped, also when it is in the place of the repository. The same folder in two spellings is read
  twice. Without `zenlytic_project.yml` (for example with `zenlytic_project.yaml`) an empty project is read without a complaint.
  `ProjectReaderBase.models`, `views` and `dashboards` are always empty, for `load` returns its lists and keeps nothing.
- C71: an interrupt (no `Exception`) or a kill during a clone leaves the private key on the disk; between `f.write` and `os.chmod` it leaves it
  readable by all, and so is a key larger than the file's buffer for that time. If `chmod` fails the key is removed but the function goes on: git is
  run without the key, and `os.remove` then raises; in `_fetch_github_repo_ssh` the inner `except … as e` unbinds `e`, so `raise e` is an
  UnboundLocalError which hides the reason. A `str` key, as annotated, raises a TypeError and leaves an empty file. `fetch` twice over SSH raises.
  `_load_project` deletes the clone only when reading it has worked. A branch `a/heads/b` is offered as `b`.
- C69: a dashboard filter without a `field`, or an element without a `model`, makes validating the whole project raise (KeyError, QueryError) instead of being
  reported (`C69_errors_lost`). A filter with an empty value is meant to be skipped, but the dictionary compared with `{}` never is empty (`C69_filters`). Names are
  stored in lower case and looked up as given (`C69_capital`).
- C73: a bare reference `${field}` in the `sql_on` of a join gives the query `... ON None` (`C73_none`). A join identifier with an additional property `sql` or
  `foreign_key` passes the checks of views and then makes every query through it raise (`C73_written`). A join with a foreign key is always reported as broken
  (`C73_foreign_key`: `get_field` is called with an argument it does not have).
- C72: `ml init` overwrites an existing `zenlytic_project.yml` without asking; interrupted between opening and writing it leaves it empty, and then every other command raises
  TypeError until `init` is run again (`C72_init_again`). A project started by `init` in a dbt project can never be loaded: `mode: dbt` is not a known type, and before that
  `model-paths` is a KeyError (`C72_dbt_unreadable`). `ml validate` ends with status 0 also when it found errors (`C72_validate_status`), so a build that calls it never fails.
  `seed --connection` raises AttributeError unless the connection is named like the profile (`C72_seed_connection`). `list profiles` is offered and raises NotImplementedError
  (`C72_list_unknown`); `show` of an unknown connection prints nothing.
- C74: on a `yesno` field the expression is dropped when the value mentions True or False: `not_equal_to False` keeps the false rows (`C74_yesno_not`), `isin [True, False]` only
  the true ones (`C74_yesno_both`). `is_null` without a "value" key is a KeyError on `yesno` fields and on BigQuery and Trino (`C74_refused`). `isin` with one text on a number
  field compares with its characters (`C74_digits`). `matches` is an AttributeError on BigQuery and Trino for fields without a data type, such as text dimensions
  (`C74_matches_cast`), and on results (`C74_result_matches`). A value naming a field is replaced by SQL in the caller's dictionary, so the dictionary used again for another
  warehouse carries the SQL of the first (`C74_stale`). A condition without a field and with a true value is accepted, then fails (`C74_boolean`); with a literal and a field, the
  field is ignored (`C74_both`).
- C75: a raw column without an alias whose expression contains ` as `, such as `CAST(x as date)`, is cut off in the GROUP BY, which makes the text unreadable (`C75_raw_cast`); ` as `
  in a quoted text becomes ` AS ` there, another expression than the one selected (`C75_raw_quoted`). `join_type: cross` with a condition is written `CROSS JOIN … ON`
  (`C75_cross_on`). Conditions given as text are not put in parentheses: an OR in them takes the other conditions apart, access filters among them (`C75_or`, see C03), and a semicolon
  makes two statements (`C75_two_statements`).
- C76: dimensions put the SQL of the fields they name into their own without parentheses: `${more} * 2` with `more` defined as `${TABLE}.price + 1` becomes `orders.price + 1 * 2`
  (`C76_taken_apart`), and `0 -${debt}` with `debt` defined as `-${TABLE}.price` begins a comment (`C76_comment`). Metrics of type number put parentheses around every reference and are
  read right (`C76_metric`, `C76_nested`, `C76_not_taken_apart`).
- C77: in the condition of a case every double quote becomes a single one, also around a name: `"name" = 'a'` compares two strings (`C77_identifier`). A single quote in a label, or in a string
  in double quotes, makes a text no warehouse can read (`C77_quote`); a `case` without cases makes `case end` (`C77_no_cases`); and the `sql` of a tier is put into comparisons
  without parentheses, so `a or b` is compared in its last part only (`C77_tier_taken_apart`).
- C79: a column is named by joining view and field with an underscore, and nothing checks that the names differ: `orders.items_id` and `orders_items.id` in one query are two
  columns called `orders_items_id` (`C79_shared`). Within a view the timeframe `fiscal_month` of `order` and the timeframe `month` of `order_fiscal` are one id (`C79_fiscal`).
- C80: only the views of the query's fields are filtered (query_design.py 263). A view that only connects two others keeps its hidden rows (`C80_bridge`), and so does a view that is joined because another view's access filter is on its field (`C80_filter_view`): both are in the FROM, and their `access_filters` are not read. A user attribute with the value `NULL` is an `IS NULL` filter, which is true for rows that have no joined row at all (`C80_null`).
- C81: a sum that is corrected for repeated rows (symmetric aggregate) is right on every line and in the total, and yet the lines come to more than the total when the added dimension is of a view that repeats the metric's rows (`C81_not_all`); the same for counts of different values. Access filters of the view of an added dimension also remove rows, so the totals of the drilled-down query can be smaller: `SameFilters.access` excludes it.
- C84: the default ordering (first metric, descending) leaves ties open, so "the top n" of a query without an ordering of its own can differ from run to run on the same data (`C84_ties`); ordering by all dimensions, or adding them after the metric, makes the answer unique (`C84_all_dimensions`).
- C88: a query that the warehouse refuses (or a text before it that cannot be made) leaves the connection open, on every warehouse: `C88_failed_left_open`; so does `raw_cursor` on Postgres, which has not sent the query: `C88_postgres_cursor`. On the other warehouses rows are read after the connection was closed: `C88_read_after_close`.
- C89: a sum or count over a join that repeats rows is corrected on five of the ten warehouses only; on the others the same query over the same data gives the double counted number without an error: `C89_differs`.
- C90: a filter and its opposite do not make up the whole: rows on which the field is NULL are in neither answer (SQL's three-valued comparison, nothing in the code adds them): `C90_null`.
- C91: a later query with a dimension it is not joined on repeats lines of the first query, metrics included (`C91_repeats`); after a full outer join the lines that only the second query has show NULL in place of the value they would be joined on, since the join fields of a later query are never shown (`C91_outer_hides`, `C91_outer_hides_example`).
