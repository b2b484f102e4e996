import Verif.Basic

/-!
# MQL inside SQL (`core/convert/convert.py`)

`MQLConverter` reads a SQL text with the library sqlparse, looks for calls of the function `MQL`,
turns the tokens between its parentheses into a question, asks the query resolver for its SQL and puts that
SQL in the place of the call.

sqlparse is not modelled: the model starts from the tokens sqlparse returns. A token is known by its text and
by the tests the converter makes on it (`ttype == Keyword`, `ttype == Whitespace`, `isinstance` of `Identifier`,
`IdentifierList`, `Where`, `Function`).
-/

set_option autoImplicit false

namespace ML

/-- convert.py:8-9, 126-180. One token between the parentheses of `MQL(...)`, as sqlparse returns it:
`space` has `ttype == Whitespace` (a blank; a line end has another `ttype` and is `other`), `keyword` has
`ttype == Keyword`, `name` is an `Identifier`, `names` an `IdentifierList` with its text and the texts of
`get_identifiers()`, `where_` a `Where` with the texts of its tokens (`first` is the keyword), and `other` is
anything else. -/
inductive MqlTok
  | space (s : String)
  | keyword (s : String)
  | name (s : String)
  | names (s : String) (ids : List String)
  | where_ (first : String) (rest : List String)
  | other (s : String)
  deriving DecidableEq, Repr

/-- The texts of tokens one after the other: `str(Statement(tokens))` (convert.py:239) and `"".join(s)`
(convert.py:183). -/
def joinTexts (l : List String) : String := String.ofList (l.flatMap String.toList)

/-- convert.py:132 (`str(token)`). -/
def MqlTok.text : MqlTok → String
  | .space s => s
  | .keyword s => s
  | .name s => s
  | .names s _ => s
  | .where_ first rest => joinTexts (first :: rest)
  | .other s => s

/-- `str.upper()` (convert.py:90, 97, 112, 132, 242). Simplification: only ASCII letters change. -/
def upper (s : String) : String := String.ofList (s.toList.map Char.toUpper)

/-- `str.strip()` of a text (convert.py:127, 132, 148, 157, 183, 239, 242). -/
def stripText (s : String) : String := String.ofList (strip s.toList)

/-- convert.py:123, 209-225. The part of the statement that is being read. -/
inductive MqlMode
  | metrics | dimensions | having | orderBy | for_ | funnel | within
  deriving DecidableEq, Repr

/-- convert.py:183-186. A funnel as it is handed to the resolver: `steps`, `within`, `view_name`. -/
structure MqlFunnel where
  steps : List String
  value : Int
  unit : String
  viewName : Option String
  deriving DecidableEq, Repr

/-- convert.py:195-204. What is asked of the resolver. -/
structure MqlQuery where
  metrics : List String
  dimensions : List String
  funnel : Option MqlFunnel
  where_ : Option String
  having : Option String
  orderBy : Option String
  deriving DecidableEq, Repr

/-- convert.py:121-123. The local variables of `resolve_mql_statement`. `step = none` is the state in which
`funnel_step` is not bound yet, `within = none` is `{}`. -/
structure MqlState where
  mode : MqlMode := .metrics
  metrics : List String := []
  dimensions : List String := []
  where_ : List String := []
  having : List String := []
  orderBy : List String := []
  steps : List (List String) := []
  step : Option (List String) := none
  funnelFor : Option String := none
  within : Option (Int × String) := none
  deriving DecidableEq, Repr

/-- What the converter is given: `int` is Python's `int(text)` (`none`: it raises `ValueError`), and `resolve`
is `SQLQueryResolver(...).get_query(semicolon=False)` (convert.py:195-207). -/
structure MqlEnv where
  int : String → Option Int
  resolve : MqlQuery → Res String

/-- convert.py:209-225 (`_resolve_mode`). -/
def resolveMode (text : String) (mode : MqlMode) : MqlMode :=
  if upper text = "BY" then .dimensions
  else if upper text = "HAVING" then .having
  else if upper text = "ORDER BY" then .orderBy
  else if upper text = "FOR" then .for_
  else if upper text = "FUNNEL" ∨ upper text = "THEN" then .funnel
  else if upper text = "WITHIN" then .within
  else mode

/-- convert.py:241-242 (`_is_funnel`). -/
def isFunnelWord (t : MqlTok) : Bool := stripText (upper t.text) = "FUNNEL"

/-- convert.py:132. -/
def isConjunction (t : MqlTok) : Bool := upper (stripText t.text) = "AND" || upper (stripText t.text) = "OR"

/-- convert.py:133 (`token.ttype == Keyword`). -/
def MqlTok.isKeyword : MqlTok → Bool
  | .keyword _ => true
  | _ => false

/-- convert.py:126 (`token.ttype == Whitespace`). -/
def MqlTok.isBlank : MqlTok → Bool
  | .space _ => true
  | _ => false

/-- convert.py:227-233 (`_add_by_mode`). -/
def addByMode (st : MqlState) (identifier : String) : Res MqlState :=
  match st.mode with
  | .metrics => .ok { st with metrics := st.metrics ++ [identifier] }
  | .dimensions => .ok { st with dimensions := st.dimensions ++ [identifier] }
  | _ => .error .parse

/-- convert.py:174-177. Each identifier of a list in turn. -/
def addAll (st : MqlState) : List String → Res MqlState
  | [] => .ok st
  | i :: is => do
    let st ← addByMode st i
    addAll st is

/-- convert.py:146-148 (`str(token)[: lowered.index("within")].strip()`): the text before the word. `none` when the
word is not there; the caller has tested that it is. -/
def beforeWord (word : List Char) : List Char → Option (List Char)
  | [] => if word.isEmpty then some [] else none
  | c :: cs => if word.isPrefixOf ((c :: cs).map Char.toUpper) then some [] else (beforeWord word cs).map (c :: ·)

/-- convert.py:141-154. A token while a step of a funnel is read. -/
def readStep (st : MqlState) (t : MqlTok) : Res MqlState :=
  match st.step with
  | none => .error .unboundLocal
  | some step =>
    if upper t.text = "THEN" then .ok { st with steps := st.steps ++ [step], step := some [] }
    else
      match beforeWord "WITHIN".toList t.text.toList with
      | some before =>
        .ok { st with
          steps := st.steps ++ [step ++ [String.ofList (strip before)]],
          step := some (step ++ [String.ofList (strip before)]),
          mode := .within }
      | none => .ok { st with step := some (step ++ [t.text]) }

/-- convert.py:156-160. `n, unit = str(token).strip().split(" ")`, `int(n)`, `unit.lower()`. -/
def readWithin (env : MqlEnv) (st : MqlState) (text : String) : Res MqlState :=
  match splitChars ' ' (strip text.toList) with
  | [n, unit] =>
    match env.int (String.ofList n) with
    | some value => .ok { st with within := some (value, lower (String.ofList unit)), mode := .metrics }
    | none => .error .valueError
  | _ => .error .valueError

/-- convert.py:156-180. A token outside the steps of a funnel. -/
def readPlain (env : MqlEnv) (st : MqlState) (t : MqlTok) : Res MqlState :=
  match st.mode, t with
  | .within, .name s => readWithin env st s
  | .having, t => .ok { st with having := st.having ++ [t.text] }
  | .orderBy, t => .ok { st with orderBy := st.orderBy ++ [t.text] }
  | _, .name s => if isFunnelWord (.name s) then .ok st else addByMode st s
  | _, .names _ ids => addAll st ids
  | _, .where_ first rest => .ok { st with where_ := first :: rest }
  | _, _ => .ok st

/-- convert.py:141-180. The rest of the loop body, after the mode is known. -/
def readToken (env : MqlEnv) (st : MqlState) (t : MqlTok) : Res MqlState :=
  if st.mode = .funnel then readStep st t else readPlain env st t

/-- convert.py:126-180. The body of the loop. -/
def mqlStep (env : MqlEnv) (st : MqlState) (t : MqlTok) : Res MqlState :=
  if st.mode = .for_ ∧ t.isBlank = false then
    .ok { st with
      funnelFor := some (stripText (lower (String.ofList ((splitChars ' ' t.text.toList).headD [])))),
      mode := .funnel, step := some [] }
  else if (t.isKeyword || isFunnelWord t) && !isConjunction t then
    let st := { st with mode := resolveMode t.text st.mode }
    if st.mode = .funnel ∧ upper t.text ≠ "THEN" then .ok { st with step := some [] }
    else if st.mode = .dimensions ∧ upper t.text = "SOURCE" then do
      let st ← addByMode st t.text
      readToken env st t
    else readToken env st t
  else readToken env st t

/-- convert.py:125. The loop. -/
def mqlLoop (env : MqlEnv) (st : MqlState) : List MqlTok → Res MqlState
  | [] => .ok st
  | t :: ts => do
    let st ← mqlStep env st t
    mqlLoop env st ts

/-- convert.py:235-239 (`_tokens_to_sql`). -/
def tokensToSql (texts : List String) : Option String :=
  if texts.isEmpty then none else some (stripText (joinTexts texts))

/-- convert.py:182-188. The funnel, if it has a time and steps. -/
def funnelOf (st : MqlState) : Option MqlFunnel :=
  match st.within with
  | some (value, unit) =>
    if st.steps.isEmpty then none
    else some {
      steps := st.steps.map (fun s => stripText (joinTexts s)), value := value, unit := unit,
      viewName := if st.funnelFor = some "" then none else st.funnelFor }
  | none => none

/-- convert.py:190-204. -/
def queryOf (st : MqlState) : MqlQuery where
  metrics := st.metrics
  dimensions := st.dimensions
  funnel := funnelOf st
  where_ := tokensToSql (st.where_.drop 1)
  having := tokensToSql (st.having.drop 1)
  orderBy := tokensToSql (st.orderBy.drop 1)

/-- convert.py:120-204. The question a statement asks. -/
def readMql (env : MqlEnv) (ts : List MqlTok) : Res MqlQuery := do
  let st ← mqlLoop env {} ts
  .ok (queryOf st)

/-- convert.py:120-207 (`resolve_mql_statement`). Not modelled: the connection that is kept when it is asked for. -/
def resolveMql (env : MqlEnv) (ts : List MqlTok) : Res String := do
  let q ← readMql env ts
  env.resolve q

/-- convert.py:83-84, 110-113. A `Function` token: the text of its first token, the tokens between the parentheses, its text. -/
structure MqlCall where
  name : String
  args : List MqlTok
  text : String
  deriving DecidableEq, Repr

/-- convert.py:100. The first token of an `Identifier`: a function, another group of tokens (a sub-select in
parentheses, for instance), or a token that is not a group. -/
inductive MqlHead
  | call (c : MqlCall)
  | group
  | leaf
  deriving DecidableEq, Repr

/-- convert.py:81. A token of the SQL statement. -/
inductive Top
  | call (c : MqlCall)
  | ident (text : String) (head : MqlHead)
  | other (text : String)
  deriving DecidableEq, Repr

/-- convert.py:87, 90 (`str(token)`). -/
def Top.text : Top → String
  | .call c => c.text
  | .ident s _ => s
  | .other s => s

/-- convert.py:110-118 (`parse_and_resolve_mql`) for a function. -/
def parseAndResolve (env : MqlEnv) (sql : String) (c : MqlCall) : Res (Option String) :=
  if upper c.name = "MQL" then do
    let q ← resolveMql env c.args
    .ok (some (if c.text ≠ sql then "(" ++ q ++ ")" else q))
  else .ok none

/-- convert.py:85-87, 102-104. `if mql_as_sql:` then every occurrence of the text of the call is replaced. -/
def putIn (converted : String) (text : String) : Option String → String
  | some q => if q = "" then converted else String.ofList (replaceAll text.toList q.toList converted.toList)
  | none => converted

/-- convert.py:81-104. The body of the loop over the tokens of the statement. -/
def convertTop (env : MqlEnv) (sql : String) (converted : String) : Top → Res String
  | .call c => do
    let q ← parseAndResolve env sql c
    .ok (putIn converted c.text q)
  | .ident s h =>
    if upper s = "MQL" then .error .parse
    else if containsSub "MQL(".toList (upper s).toList then
      match h with
      | .call c => do
        let q ← parseAndResolve env sql c
        .ok (putIn converted c.text q)
      | .group => .ok converted
      | .leaf => .error .typeError
    else .ok converted
  | .other _ => .ok converted

/-- convert.py:81-104. The loop over the tokens of the statement. -/
def convertAll (env : MqlEnv) (sql : String) (converted : String) : List Top → Res String
  | [] => .ok converted
  | t :: ts => do
    let converted ← convertTop env sql converted t
    convertAll env sql converted ts

/-- convert.py:106-108. -/
def withSemicolon (s : String) : Res String :=
  match s.toList.getLast? with
  | none => .error .indexError
  | some c => .ok (if c ≠ ';' then s ++ ";" else s)

/-- convert.py:78-108 (`get_query`). `tops` are the tokens of `sqlparse.parse(sql)[0]`, the first statement of the
text. -/
def convertSql (env : MqlEnv) (sql : String) (tops : List Top) : Res String := do
  let converted ← convertAll env sql sql tops
  withSemicolon converted

end ML
