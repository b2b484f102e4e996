import Verif.SqlText.Model
/-
How a text is read as SQL (C75): into words, quoted texts, parentheses and other characters, and from there into the clauses of a SELECT.
Comments are not read: `--` and `/*` have no meaning here.
-/
set_option autoImplicit false
namespace ML.Spec

/-- What a text consists of at its top: words (names, numbers), quoted texts, texts in parentheses and other characters. -/
inductive SqlTok
  | word (w : List Char)
  | quoted (q : Char) (s : List Char)
  | group (s : List Char)
  | sym (c : Char)
  deriving DecidableEq, Repr

/-- The characters of names and numbers. -/
def wordChar (c : Char) : Bool := c.isAlphanum || c = '_' || c = '.' || c = '$'

/-- The quotes of SQL. -/
def quoteChar (c : Char) : Bool := c = '\'' || c = '"' || c = '`'

/-- Where the reader is: at the top, after the letters of a word; in a quoted text; or inside parentheses, so deep, perhaps in a quoted text. The
letters read so far are kept in reverse. -/
inductive Place
  | top (w : List Char)
  | quote (q : Char) (s : List Char)
  | inside (depth : ℕ) (q : Option Char) (s : List Char)
  deriving DecidableEq

/-- The word that ends here. -/
def endWord (w : List Char) : List SqlTok := if w = [] then [] else [.word w.reverse]

/-- One character; `none` for a parenthesis that closes nothing. -/
def readChar : Place → Char → Option (List SqlTok × Place)
  | .top w, c =>
    if wordChar c then some ([], .top (c :: w))
    else if c = '(' then some (endWord w, .inside 0 none [])
    else if c = ')' then none
    else if quoteChar c then some (endWord w, .quote c [])
    else if isSpace c then some (endWord w, .top [])
    else some (endWord w ++ [.sym c], .top [])
  | .quote q s, c => if c = q then some ([.quoted q s.reverse], .top []) else some ([], .quote q (c :: s))
  | .inside d (some q) s, c => if c = q then some ([], .inside d none (c :: s)) else some ([], .inside d (some q) (c :: s))
  | .inside d none s, c =>
    if c = '(' then some ([], .inside (d + 1) none (c :: s))
    else if c = ')' then
      match d with
      | 0 => some ([.group s.reverse], .top [])
      | d + 1 => some ([], .inside d none (c :: s))
    else if quoteChar c then some ([], .inside d (some c) (c :: s))
    else some ([], .inside d none (c :: s))

/-- A whole text from a place on. -/
def readFrom (p : Place) : List Char → Option (List SqlTok × Place)
  | [] => some ([], p)
  | c :: cs =>
    match readChar p c with
    | none => none
    | some (ts, p') =>
      match readFrom p' cs with
      | none => none
      | some (us, p'') => some (ts ++ us, p'')

/-- The text as tokens; `none` if a quote or parenthesis is left open or closes nothing. -/
def tokens (text : List Char) : Option (List SqlTok) :=
  match readFrom (.top []) text with
  | some (ts, .top w) => some (ts ++ endWord w)
  | _ => none

/-- The words clauses start with. -/
inductive ClauseWord
  | select | from_ | left | inner | full | outer | cross | join | on | where_ | group | by_ | having | order | limit
  deriving DecidableEq, Repr

/-- Which of these a token is, in any case. -/
def clauseWord : SqlTok → Option ClauseWord
  | .word w =>
    let l := w.map Char.toLower
    if l = "select".toList then some .select else if l = "from".toList then some .from_
    else if l = "left".toList then some .left else if l = "inner".toList then some .inner
    else if l = "full".toList then some .full else if l = "outer".toList then some .outer
    else if l = "cross".toList then some .cross else if l = "join".toList then some .join
    else if l = "on".toList then some .on else if l = "where".toList then some .where_
    else if l = "group".toList then some .group else if l = "by".toList then some .by_
    else if l = "having".toList then some .having else if l = "order".toList then some .order
    else if l = "limit".toList then some .limit else none
  | _ => none

/-- The clauses of a SELECT. -/
inductive Clause
  | select | from_ | join (w : JoinWord) | on | where_ | groupBy | having | orderBy | limit
  deriving DecidableEq, Repr

/-- The clause that three words start, if they do, and how many words after the first belong to its start. -/
def clauseOf (a b c : Option ClauseWord) : Option (Clause × ℕ) :=
  match a with
  | some .select => some (.select, 0)
  | some .from_ => some (.from_, 0)
  | some .on => some (.on, 0)
  | some .where_ => some (.where_, 0)
  | some .having => some (.having, 0)
  | some .limit => some (.limit, 0)
  | some .join => some (.join .inner, 0)
  | some .group => if b = some .by_ then some (.groupBy, 1) else none
  | some .order => if b = some .by_ then some (.orderBy, 1) else none
  | some .inner => if b = some .join then some (.join .inner, 1) else none
  | some .cross => if b = some .join then some (.join .cross, 1) else none
  | some .left =>
    if b = some .join then some (.join .left, 1) else if b = some .outer ∧ c = some .join then some (.join .left, 2) else none
  | some .full =>
    if b = some .join then some (.join .full, 1) else if b = some .outer ∧ c = some .join then some (.join .full, 2) else none
  | _ => none

/-- The clause these tokens start with. -/
def startsClause : List SqlTok → Option (Clause × ℕ)
  | [] => none
  | [t] => clauseOf (clauseWord t) none none
  | [t, u] => clauseOf (clauseWord t) (clauseWord u) none
  | t :: u :: v :: _ => clauseOf (clauseWord t) (clauseWord u) (clauseWord v)

/-- The sections of a statement: each clause with what follows its start. -/
abbrev Sections := List (Clause × List SqlTok)

/-- The tokens before the first clause, and the clauses; the number counts the words of a start still to be passed over. -/
def cut : ℕ → List SqlTok → List SqlTok × Sections
  | _, [] => ([], [])
  | n + 1, _ :: ts => cut n ts
  | 0, t :: ts =>
    match startsClause (t :: ts) with
    | some (k, n) => ([], (k, (cut n ts).1) :: (cut n ts).2)
    | none => (t :: (cut 0 ts).1, (cut 0 ts).2)

/-- The parts between separators. -/
def partsBetween (sep : SqlTok → Bool) : List SqlTok → List (List SqlTok)
  | [] => [[]]
  | t :: ts =>
    if sep t then [] :: partsBetween sep ts
    else match partsBetween sep ts with
      | [] => [[t]]
      | p :: ps => (t :: p) :: ps

/-- A comma. -/
def isComma (t : SqlTok) : Bool := t = .sym ','

/-- A semicolon. -/
def isSemicolon (t : SqlTok) : Bool := t = .sym ';'

/-- A certain word, in any case. -/
def isWord (word : List Char) : SqlTok → Bool
  | .word w => w.map Char.toLower = word
  | _ => false

/-- The word AND. -/
def isAnd : SqlTok → Bool := isWord "and".toList

/-- The word OR. -/
def isOr : SqlTok → Bool := isWord "or".toList

/-- The words of an ordering. -/
def isAsc : SqlTok → Bool := isWord "asc".toList

/-- The words of an ordering. -/
def isDesc : SqlTok → Bool := isWord "desc".toList

/-- The words of an ordering. -/
def isNulls : SqlTok → Bool := isWord "nulls".toList

/-- The words of an ordering. -/
def isLast : SqlTok → Bool := isWord "last".toList

/-- The word AS. -/
def isAs : SqlTok → Bool := isWord "as".toList

/-- The word TOP. -/
def isTop : SqlTok → Bool := isWord "top".toList

/-- The word WITH. -/
def isWith : SqlTok → Bool := isWord "with".toList

/-- A SELECT as it is read: the named sub-queries, the number of TOP, columns, first table, joins with their conditions, what must hold of rows
(alternatives, each a list of conditions), what is grouped by, what must hold of groups, the ordering (what by, whether descending, whether
nulls come last), the number of LIMIT. -/
structure Select where
  ctes : List (List SqlTok × List Char)
  top : Option (List Char)
  columns : List (List SqlTok)
  source : List SqlTok
  joins : List (JoinWord × List SqlTok × Option (List SqlTok))
  wheres : List (List (List SqlTok))
  groupBy : List (List SqlTok)
  havings : List (List (List SqlTok))
  orderBy : List (List SqlTok × Bool × Bool)
  limit : Option (List SqlTok)
  deriving DecidableEq, Repr

/-- `name AS (query)`. -/
def readCte (ts : List SqlTok) : Option (List SqlTok × List Char) :=
  match ts.reverse with
  | .group q :: a :: name => if isAs a then some (name.reverse, q) else none
  | _ => none

/-- The named sub-queries before the SELECT. -/
def readWith : List SqlTok → Option (List (List SqlTok × List Char))
  | [] => some []
  | t :: ts => if isWith t then (partsBetween isComma ts).mapM readCte else none

/-- `TOP (n)` before the columns. -/
def readTop (ts : List SqlTok) : Option (List Char) × List SqlTok :=
  match ts with
  | t :: .group n :: r => if isTop t then (some n, r) else (none, ts)
  | _ => (none, ts)

/-- The joins: a cross join has no condition, the others have one. -/
def readJoins : Sections → Option (List (JoinWord × List SqlTok × Option (List SqlTok)) × Sections)
  | (.join w, b) :: r =>
    if w = .cross then (readJoins r).map (fun x => ((w, b, none) :: x.1, x.2))
    else match r with
      | (.on, c) :: r' => (readJoins r').map (fun x => ((w, b, some c) :: x.1, x.2))
      | _ => none
  | r => some ([], r)

/-- A clause that may be left out. -/
def takeClause (k : Clause) : Sections → Option (List SqlTok) × Sections
  | (k', b) :: r => if k' = k then (some b, r) else (none, (k', b) :: r)
  | [] => (none, [])

/-- Items between commas; none if the clause is left out. -/
def readItems : Option (List SqlTok) → List (List SqlTok)
  | none => []
  | some ts => partsBetween isComma ts

/-- Alternatives between ORs, each with its conditions between ANDs; none if the clause is left out. -/
def readConditions : Option (List SqlTok) → List (List (List SqlTok))
  | none => []
  | some ts => (partsBetween isOr ts).map (partsBetween isAnd)

/-- One item of ORDER BY, from its end: `NULLS LAST`, then `DESC` or `ASC`. -/
def readOrder (ts : List SqlTok) : List SqlTok × Bool × Bool :=
  let (r, nulls) := match ts.reverse with
    | l :: n :: r => if isLast l && isNulls n then (r, true) else (ts.reverse, false)
    | r => (r, false)
  match r with
  | d :: e => if isDesc d then (e.reverse, true, nulls) else if isAsc d then (e.reverse, false, nulls)
      else (r.reverse, false, nulls)
  | [] => ([], false, nulls)

/-- The clauses in their order: SELECT, FROM, joins, and WHERE, GROUP BY, HAVING, ORDER BY, LIMIT where they are; nothing else. -/
def readSelect (ts : List SqlTok) : Option Select :=
  match readWith (cut 0 ts).1, (cut 0 ts).2 with
  | some ctes, (.select, cs) :: (.from_, source) :: r =>
    match readJoins r with
    | none => none
    | some (joins, r) =>
      let (w, r) := takeClause .where_ r
      let (g, r) := takeClause .groupBy r
      let (h, r) := takeClause .having r
      let (o, r) := takeClause .orderBy r
      let (l, r) := takeClause .limit r
      if r = [] then
        some ⟨ctes, (readTop cs).1, partsBetween isComma (readTop cs).2, source, joins, readConditions w, readItems g, readConditions h,
          (readItems o).map readOrder, l⟩
      else none
  | _, _ => none

/-- The text as one SELECT, with a semicolon after it or without. -/
def readSql (text : List Char) : Option Select :=
  match tokens text with
  | none => none
  | some ts =>
    match partsBetween isSemicolon ts with
    | [s] => readSelect s
    | [s, []] => readSelect s
    | _ => none

/-- The words a longer start of a clause can begin with, and OUTER. -/
def dangling (t : SqlTok) : Bool :=
  match clauseWord t with
  | some .left | some .inner | some .full | some .outer | some .cross | some .group | some .order => true
  | _ => false

/-- No clause starts in these tokens, whatever follows them. -/
def plain : List SqlTok → Bool
  | [] => true
  | t :: ts => (startsClause (t :: ts)).isNone && (!ts.isEmpty || !dangling t) && !isSemicolon t && plain ts

/-- The tokens of a part, or none if it has none. -/
def toks (text : List Char) : List SqlTok := (tokens text).getD []

/-- A part of a query keeps to its place: its quotes and parentheses are closed, and outside of them no clause starts and no semicolon stands. -/
def Keeps (text : List Char) : Prop := tokens text ≠ none ∧ plain (toks text) = true

/-- There is no comma outside quotes and parentheses. -/
def OneItem (text : List Char) : Prop := Keeps text ∧ (toks text).all (fun t => !isComma t) = true

/-- There is no OR outside quotes and parentheses. -/
def NoOr (text : List Char) : Prop := Keeps text ∧ (toks text).all (fun t => !isOr t) = true

/-- The parts of a query keep to their places. -/
structure WellPlaced (p : SqlParts) : Prop where
  ctes : ∀ c ∈ p.ctes, OneItem c.1 ∧ tokens c.2 ≠ none
  columns : p.select ≠ [] ∧ ∀ c ∈ p.select, OneItem c
  noTop : ∀ c, p.select.head? = some c → readTop (toks c) = (none, toks c)
  source : Keeps p.source
  joins : ∀ j ∈ p.joins, Keeps j.table ∧ (j.word = .cross ↔ j.on = none) ∧ ∀ c, j.on = some c → Keeps c
  wheres : ∀ c ∈ p.wheres, NoOr c
  groups : ∀ c ∈ p.groupBy, OneItem c
  havings : ∀ c ∈ p.havings, NoOr c
  orders : ∀ o ∈ p.orderBy, OneItem o.1

/-- The parts of a query as they are to be read. -/
def asRead (p : SqlParts) : Select where
  ctes := p.ctes.map (fun c => (toks c.1, c.2))
  top := p.top.map natText
  columns := p.select.map toks
  source := toks p.source
  joins := p.joins.map (fun j => (j.word, toks j.table, j.on.map toks))
  wheres := if p.wheres = [] then [] else [p.wheres.flatMap (fun c => partsBetween isAnd (toks c))]
  groupBy := p.groupBy.map toks
  havings := if p.havings = [] then [] else [p.havings.flatMap (fun c => partsBetween isAnd (toks c))]
  orderBy := p.orderBy.map (fun o => (toks o.1, o.2.1, o.2.2))
  limit := p.limit.map (fun n => [.word (natText n)])

/-! ### The query as it was asked -/

/-- The text does not end in ` as`, in any case. -/
def NoAsEnd (e : List Char) : Prop := ¬ [' ', 'a', 's'] <:+ e.map Char.toLower

/-- A raw column and its expression: the column itself if it has no ` as `, or what stands before a last ` as name` if any ` as ` before is written
` AS `. -/
inductive RawColumn : List Char → List Char → Prop
  | bare (e : List Char) (h : ¬ [' ', 'a', 's', ' '] <:+: e.map Char.toLower) : RawColumn e e
  | named (e m a : List Char) (hm : m.map Char.toLower = [' ', 'a', 's', ' ']) (he : NoAsEnd e) (ha : ' ' ∉ a)
      (h : ∀ x, x <:+: e → x.map Char.toLower = [' ', 'a', 's', ' '] → x = [' ', 'A', 'S', ' ']) : RawColumn (e ++ m ++ a) e

/-- The columns, leaving out those whose name has come before. -/
def firsts : List (List Char × List Char) → List (List Char × List Char)
  | [] => []
  | c :: r => c :: (firsts r).filter (fun d => d.2 ≠ c.2)

/-- The tokens of a table: its name and its alias; or its query in parentheses, AS and its alias. -/
def tableToks : TableRef → List SqlTok
  | .table name label => toks name ++ toks label
  | .derived sql name => .group sql :: .word "as".toList :: toks name

/-- The parts of a table keep to their places. -/
def TableKeeps : TableRef → Prop
  | .table name label => Keeps name ∧ Keeps label
  | .derived sql name => tokens sql ≠ none ∧ Keeps name

/-- The parts of a query keep to their places. `exprs` are the raw columns without their aliases. -/
structure WellWritten (q : TextQuery) (exprs : List (List Char)) : Prop where
  asked : (if q.noGroup then q.rawColumns else q.columns) ≠ [] ∨ q.raw ≠ []
  columns : ∀ c, c ∈ q.columns ∨ c ∈ q.rawColumns →
    OneItem c.1 ∧ OneItem c.2 ∧ (readTop (toks c.1)).1 = none ∧ NoAsEnd c.1 ∧ ' ' ∉ c.2
  raw : ∀ c ∈ q.raw, OneItem c ∧ (readTop (toks c)).1 = none
  exprs : List.Forall₂ RawColumn q.raw exprs ∧ ∀ e ∈ exprs, OneItem e
  groups : ∀ c ∈ q.groupSql, OneItem c.1 ∧ OneItem c.2
  base : TableKeeps q.base
  joins : ∀ j ∈ q.joins, TableKeeps j.2.2.1 ∧ (j.2.1 = false → j.1 ≠ some "cross" ∧ Keeps j.2.2.2)
  wheres : ∀ c ∈ q.wheres, NoOr c
  havings : ∀ c ∈ q.havings, NoOr c
  entities : ∀ e ∈ q.entities, tokens e.query ≠ none ∧ NoOr e.field ∧ tokens e.label ≠ none
  dates : ∀ d ∈ q.dates, OneItem d.name ∧ tokens d.query ≠ none ∧ Keeps d.on
  order : ∀ o ∈ q.order, OneItem o.1

/-- The name of a filter's sub-query. -/
def filterName (i : ℕ) : List Char := "filter_subquery_".toList ++ natText i

/-- The join words of the warehouse for the types of joins. -/
def wantedJoin : Option String → JoinWord
  | some "inner" => .inner
  | some "full_outer" => .full
  | _ => .left

/-- Conditions that must all hold. -/
def allOf (cs : List (List SqlTok)) : List (List (List SqlTok)) := if cs = [] then [] else [cs.flatMap (partsBetween isAnd)]

/-- The SELECT a query asks for:
* the sub-queries of filters by entity, numbered, and of non additive metrics, by name;
* the limit as TOP on SQL Server and Azure Synapse (where a limit of 0 is none), as LIMIT elsewhere;
* each column with its name, once if nothing is grouped, and raw columns as they are;
* the tables joined as their joins say, and the sub-queries of non additive metrics;
* the conditions, and for each filter by entity that the entity is one of the sub-query's;
* if rows are grouped: by the dimensions (by their names on BigQuery) and the expressions of raw columns, with the conditions on groups, in the
  order asked for, nulls last where the warehouse can say so. -/
def wanted (q : TextQuery) (exprs : List (List Char)) : Select where
  ctes := q.entities.zipIdx.map (fun e => ([.word (filterName e.2)], e.1.query)) ++ q.dates.map (fun d => (toks d.name, d.query))
  top := match q.warehouse with
    | .sqlServer | .azureSynapse => (q.limit.filter (fun n => n ≠ 0)).map natText
    | _ => none
  columns := (if q.noGroup then firsts q.rawColumns else q.columns).map (fun c => toks c.1 ++ .word "as".toList :: toks c.2) ++ q.raw.map toks
  source := tableToks q.base
  joins := q.joins.map (fun j => if j.2.1 then (.cross, tableToks j.2.2.1, none) else (wantedJoin j.1, tableToks j.2.2.1, some (toks j.2.2.2))) ++
    q.dates.map (fun d => (.left, toks d.name, some (toks d.on)))
  wheres := allOf (q.wheres.map toks ++ q.entities.zipIdx.map (fun e =>
    toks e.1.field ++ [.word "IN".toList, .group ("SELECT DISTINCT ".toList ++ e.1.label ++ " FROM ".toList ++ filterName e.2)]))
  groupBy := if q.noGroup then []
    else (if q.warehouse = .bigquery then q.groupSql.map (fun d => toks d.2) else q.groupSql.map (fun d => toks d.1)) ++ exprs.map toks
  havings := if q.noGroup then [] else allOf (q.havings.map toks)
  orderBy := if q.noGroup then []
    else q.order.map (fun o => (toks o.1, o.2, !(q.warehouse = .druid || q.warehouse = .sqlServer || q.warehouse = .azureSynapse)))
  limit := match q.warehouse with
    | .sqlServer | .azureSynapse => none
    | _ => q.limit.map (fun n => [.word (natText n)])

end ML.Spec
