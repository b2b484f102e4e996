import Verif.Expr.Model
import Verif.Refs.Spec
/-
How a warehouse reads an expression of SQL: words, strings and operators; parentheses and CASE … END; the precedence of operators.
An expression with references in it is read in the same way, each reference standing for one operand.
-/
set_option autoImplicit false
namespace ML.Spec

/-! ### Expressions and what they mean -/

/-- A part of a text. `bad` is what cannot be read: a string without an end, a comment, a reference that touches a word or stands in a string. -/
inductive ETok
  | word (s : List Char)
  | str (s : List Char)
  | op (s : List Char)
  | lp
  | rp
  | comma
  | ref (n : List Char)
  | bad
  deriving DecidableEq, Repr

/-- An expression. `nil` and `cons` make the arguments of a call; `other` is something in parentheses that is no expression of this grammar. -/
inductive SExp
  | atom (s : List Char)
  | str (s : List Char)
  | ref (n : List Char)
  | other (ts : List ETok)
  | call (f : List Char) (args : SExp)
  | tuple (args : SExp)
  | bin (op : List Char) (a b : SExp)
  | un (op : List Char) (a : SExp)
  | nil
  | cons (a b : SExp)
  deriving DecidableEq, Repr

/-- The expression with every reference replaced by an expression. -/
def SExp.subst (σ : List Char → SExp) : SExp → SExp
  | .ref n => σ n
  | .call f a => .call f (a.subst σ)
  | .tuple a => .tuple (a.subst σ)
  | .bin o a b => .bin o (a.subst σ) (b.subst σ)
  | .un o a => .un o (a.subst σ)
  | .cons a b => .cons (a.subst σ) (b.subst σ)
  | e => e

/-- What the words, functions and operators mean to a warehouse, on a row or a group of rows: anything. -/
structure Interp (D : Type) where
  atom : List Char → D
  str : List Char → D
  other : List ETok → D
  call : List Char → D → D
  tuple : D → D
  bin : List Char → D → D → D
  un : List Char → D → D
  nil : D
  cons : D → D → D

/-- The value of an expression, given the values of the references. -/
def SExp.value {D : Type} (I : Interp D) (env : List Char → D) : SExp → D
  | .atom s => I.atom s
  | .str s => I.str s
  | .ref n => env n
  | .other ts => I.other ts
  | .call f a => I.call f (a.value I env)
  | .tuple a => I.tuple (a.value I env)
  | .bin o a b => I.bin o (a.value I env) (b.value I env)
  | .un o a => I.un o (a.value I env)
  | .nil => I.nil
  | .cons a b => I.cons (a.value I env) (b.value I env)

/-- The names an expression refers to. -/
def SExp.refs : SExp → List (List Char)
  | .ref n => [n]
  | .call _ a | .tuple a | .un _ a => a.refs
  | .bin _ a b | .cons a b => a.refs ++ b.refs
  | _ => []

/-! ### Words, strings, operators -/

/-- The characters of names and numbers. -/
def exprChar (c : Char) : Bool := c.isAlphanum || c == '_' || c == '.'

/-- The characters of operators. -/
def symChar (c : Char) : Bool := ['+', '-', '*', '/', '%', '<', '>', '=', '!', '|', ':'].contains c

/-- Two characters that are one operator, or the start of a comment. -/
def opPair (c d : Char) : Bool :=
  [('<', '='), ('>', '='), ('<', '>'), ('!', '='), ('|', '|'), (':', ':'), ('-', '-'), ('/', '*')].contains (c, d)

/-- What has been read so far: nothing, a word, an operator of one character, a string, a string that has just ended, a reference. -/
inductive LexSt
  | idle
  | word (w : List Char)
  | sym (c : Char)
  | str (s : List Char)
  | closed (s : List Char)
  | afterRef
  deriving DecidableEq, Repr

/-- The part that ends here. -/
def LexSt.flush : LexSt → List ETok
  | .idle | .afterRef => []
  | .word w => [.word w]
  | .sym c => [.op [c]]
  | .str _ => [.bad]
  | .closed s => [.str s]

/-- The first character of a part. -/
def lexStart (c : Char) : LexSt × List ETok :=
  if exprChar c then (.word [c], [])
  else if symChar c then (.sym c, [])
  else if c = '\'' then (.str [], [])
  else if c = '(' then (.idle, [.lp])
  else if c = ')' then (.idle, [.rp])
  else if c = ',' then (.idle, [.comma])
  else if isSpace c then (.idle, [])
  else (.idle, [.bad])

/-- The next character. -/
def lexStep (st : LexSt) (c : Char) : LexSt × List ETok :=
  match st with
  | .word w => if exprChar c then (.word (w ++ [c]), []) else ((lexStart c).1, st.flush ++ (lexStart c).2)
  | .sym d =>
    if opPair d c then (.idle, [if d = '-' ∨ d = '/' then .bad else .op [d, c]]) else ((lexStart c).1, st.flush ++ (lexStart c).2)
  | .str s => if c = '\'' then (.closed s, []) else (.str (s ++ [c]), [])
  | .closed s => if c = '\'' then (.str (s ++ [c]), []) else ((lexStart c).1, st.flush ++ (lexStart c).2)
  | .idle => lexStart c
  | .afterRef => if exprChar c ∨ c = '\'' then (.idle, [.bad]) else lexStart c

/-- A text after what has been read. -/
def lexRun : LexSt → List Char → LexSt × List ETok
  | st, [] => (st, [])
  | st, c :: cs => ((lexRun (lexStep st c).1 cs).1, (lexStep st c).2 ++ (lexRun (lexStep st c).1 cs).2)

/-- The parts of a text. -/
def exprTokens (t : List Char) : List ETok := (lexRun .idle t).2 ++ (lexRun .idle t).1.flush

/-- A reference after what has been read: it has to stand apart. -/
def LexSt.atRef (st : LexSt) (n : List Char) : List ETok :=
  match st with
  | .idle | .sym _ => st.flush ++ [.ref n]
  | _ => [.bad]

/-- The parts of a text with references, after what has been read. -/
def pieceTokens : LexSt → List Piece → List ETok
  | st, [] => st.flush
  | st, .lit l :: ps => (lexRun st l).2 ++ pieceTokens (lexRun st l).1 ps
  | st, .ref n :: ps => st.atRef n ++ pieceTokens .afterRef ps

/-! ### Operators -/

/-- An operand or an operator. -/
inductive ESym
  | x (e : SExp)
  | o (op : List Char)
  deriving DecidableEq, Repr

/-- The operands and operators up to the first of these operators, and from each of these operators to the next. -/
def splitAtOps (ops : List (List Char)) : List ESym → List ESym × List (List Char × List ESym)
  | [] => ([], [])
  | .o p :: r =>
    if p ∈ ops then ([], (p, (splitAtOps ops r).1) :: (splitAtOps ops r).2)
    else (.o p :: (splitAtOps ops r).1, (splitAtOps ops r).2)
  | .x e :: r => (.x e :: (splitAtOps ops r).1, (splitAtOps ops r).2)

/-- Operators of one precedence, from left to right. -/
def leftOps (next : List ESym → Option SExp) : SExp → List (List Char × List ESym) → Option SExp
  | e, [] => some e
  | e, (p, r) :: rest => (next r).bind (fun e' => leftOps next (.bin p e e') rest)

/-- A level of precedence: binary operators, then the levels that bind more strongly. -/
def binLevel (ops : List (List Char)) (next : List ESym → Option SExp) (ys : List ESym) : Option SExp :=
  (next (splitAtOps ops ys).1).bind (fun e => leftOps next e (splitAtOps ops ys).2)

/-- A comparison has two sides; it is not repeated. -/
def cmpLevel (ops : List (List Char)) (next : List ESym → Option SExp) (ys : List ESym) : Option SExp :=
  if (splitAtOps ops ys).2.length ≤ 1 then binLevel ops next ys else none

/-- An operator in front. -/
def preLevel (op : List Char) (next : List ESym → Option SExp) : List ESym → Option SExp
  | .o p :: r => if p = op then (preLevel op next r).map (.un op) else next (.o p :: r)
  | ys => next ys

/-- One operand. -/
def oneOperand : List ESym → Option SExp
  | [.x e] => some e
  | _ => none

/-- A minus that follows no operand is a sign. -/
def signs : Bool → List ESym → List ESym
  | _, [] => []
  | _, .x e :: r => .x e :: signs true r
  | after, .o p :: r => .o (if p = ['-'] ∧ after = false then "neg".toList else p) :: signs false r

/-- No operand follows another directly. -/
def noTwo : List ESym → Bool
  | .x _ :: .x _ :: _ => false
  | _ :: r => noTwo r
  | [] => true

def asOps : List (List Char) := ["as".toList]
def orOps : List (List Char) := ["or".toList]
def andOps : List (List Char) := ["and".toList]
def cmpOps : List (List Char) :=
  ["=".toList, "<>".toList, "!=".toList, "<".toList, ">".toList, "<=".toList, ">=".toList, "is".toList, "in".toList, "like".toList]
def addOps : List (List Char) := ["+".toList, "-".toList, "||".toList]
def mulOps : List (List Char) := ["*".toList, "/".toList, "%".toList]
def castOps : List (List Char) := ["::".toList]

/-- The precedence of the operators, the weakest first. -/
def byPrecedence : List ESym → Option SExp :=
  binLevel asOps <| binLevel orOps <| binLevel andOps <| preLevel "not".toList <| cmpLevel cmpOps <| binLevel addOps <| binLevel mulOps <|
    preLevel "neg".toList <| binLevel castOps oneOperand

/-! ### Operands, parentheses, CASE -/

/-- A part of an expression: words, strings, operators and commas as they stand, and what has been read in parentheses and between CASE and END. -/
inductive EItem
  | word (s : List Char)
  | str (s : List Char)
  | op (s : List Char)
  | comma
  | ref (n : List Char)
  | group (es : List SExp)
  | raw (ts : List ETok)
  | done (e : SExp)
  deriving DecidableEq, Repr

/-- The arguments of a call. -/
def SExp.ofList : List SExp → SExp
  | [] => .nil
  | e :: es => .cons e (ofList es)

/-- What stands in parentheses, as an operand. -/
def groupExp : List SExp → SExp
  | [e] => e
  | es => .tuple (SExp.ofList es)

/-- The words that are operators. -/
def wordOps : List (List Char) := ["as".toList, "or".toList, "and".toList, "not".toList, "is".toList, "in".toList, "like".toList]

/-- A word in small letters. -/
def small (w : List Char) : List Char := w.map Char.toLower

/-- A word that no parentheses follow. -/
def plainWord : Option (List Char) → List ESym
  | none => []
  | some w => [.x (.atom w)]

/-- What stands in parentheses, after a word or not. -/
def afterWord (args alone : SExp) : Option (List Char) → ESym
  | some w => .x (.call w args)
  | none => .x alone

/-- Operands and operators: a word before parentheses is a call. The first argument is the word that has just been read. -/
def operands : Option (List Char) → List EItem → List ESym
  | p, [] => plainWord p
  | p, .word w :: r =>
    if small w ∈ wordOps then plainWord p ++ .o (small w) :: operands none r else plainWord p ++ operands (some w) r
  | p, .group es :: r => afterWord (SExp.ofList es) (groupExp es) p :: operands none r
  | p, .raw ts :: r => afterWord (.other ts) (.other ts) p :: operands none r
  | p, .str s :: r => plainWord p ++ .x (.str s) :: operands none r
  | p, .op q :: r => plainWord p ++ .o q :: operands none r
  | p, .comma :: r => plainWord p ++ .o [','] :: operands none r
  | p, .ref n :: r => plainWord p ++ .x (.ref n) :: operands none r
  | p, .done e :: r => plainWord p ++ .x e :: operands none r

/-- An expression without commas. -/
def readOne (is : List EItem) : Option SExp :=
  if noTwo (operands none is) then byPrecedence (signs false (operands none is)) else none

/-- The parts between separators. -/
def splitItems (sep : EItem → Bool) : List EItem → List EItem × List (EItem × List EItem)
  | [] => ([], [])
  | i :: r =>
    if sep i then ([], (i, (splitItems sep r).1) :: (splitItems sep r).2)
    else (i :: (splitItems sep r).1, (splitItems sep r).2)

/-- Each part an expression. -/
def readAll : List (List EItem) → Option (List SExp)
  | [] => some []
  | p :: ps => (readOne p).bind (fun e => (readAll ps).map (e :: ·))

/-- What stands in parentheses: expressions between commas, or nothing. -/
def readGroup (is : List EItem) : Option (List SExp) :=
  if is = [] then some []
  else readAll ((splitItems (· == .comma) is).1 :: (splitItems (· == .comma) is).2.map (·.2))

/-- The words within CASE. -/
def caseWord : EItem → Bool
  | .word w => small w ∈ ["when".toList, "then".toList, "else".toList]
  | _ => false

/-- The word itself. -/
def wordOf : EItem → List Char
  | .word w => small w
  | _ => []

/-- What stands between CASE and END: the words in it say what each part is. -/
def readCase (is : List EItem) : Option SExp :=
  let s := splitItems caseWord is
  if s.1 = [] then (readAll (s.2.map (·.2))).map (fun es => .call ("case".toList ++ (s.2.map (fun p => ' ' :: wordOf p.1)).flatten) (SExp.ofList es))
  else none

/-- A place in the text: whether it is after CASE (not after a parenthesis), the items so far and the parts so far. -/
structure Frame where
  isCase : Bool
  items : List EItem
  parts : List ETok
  deriving DecidableEq, Repr

/-- There is a reference in it. -/
def hasRef (ts : List ETok) : Bool := ts.any (fun t => match t with | .ref _ => true | _ => false)

/-- The end of parentheses. -/
def closeGroup (is : List EItem) (ts : List ETok) : Option EItem :=
  match readGroup is with
  | some es => some (.group es)
  | none => if hasRef ts then none else some (.raw ts)

/-- The end of a CASE. -/
def closeCase (is : List EItem) (ts : List ETok) : Option EItem :=
  match readCase is with
  | some e => some (.done e)
  | none => if hasRef ts then none else some (.done (.other ts))

/-- Reading parts from left to right; `outer` are the parentheses and CASEs that are open, the innermost first. -/
def readParts : List Frame → List EItem → List ETok → List ETok → Option (List EItem)
  | outer, is, _, [] => if outer.isEmpty then some is else none
  | outer, is, seen, .lp :: ts => readParts (⟨false, is, seen⟩ :: outer) [] [] ts
  | outer, is, seen, .rp :: ts =>
    match outer with
    | ⟨false, is', seen'⟩ :: outer' =>
      match closeGroup is seen with
      | some i => readParts outer' (is' ++ [i]) (seen' ++ .lp :: seen ++ [.rp]) ts
      | none => none
    | _ => none
  | outer, is, seen, .word w :: ts =>
    if small w = "case".toList then readParts (⟨true, is, seen⟩ :: outer) [] [.word w] ts
    else if small w = "end".toList then
      match outer with
      | ⟨true, is', seen'⟩ :: outer' =>
        match closeCase is (seen ++ [.word w]) with
        | some i => readParts outer' (is' ++ [i]) (seen' ++ seen ++ [.word w]) ts
        | none => none
      | _ => none
    else readParts outer (is ++ [.word w]) (seen ++ [.word w]) ts
  | outer, is, seen, .str s :: ts => readParts outer (is ++ [.str s]) (seen ++ [.str s]) ts
  | outer, is, seen, .op p :: ts => readParts outer (is ++ [.op p]) (seen ++ [.op p]) ts
  | outer, is, seen, .comma :: ts => readParts outer (is ++ [.comma]) (seen ++ [.comma]) ts
  | outer, is, seen, .ref n :: ts => readParts outer (is ++ [.ref n]) (seen ++ [.ref n]) ts
  | _, _, _, .bad :: _ => none

/-- The expression that these parts are. -/
def readTokens (ts : List ETok) : Option SExp :=
  match readParts [] [] [] ts with
  | some is => if is = [] ∨ .comma ∈ is then none else readOne is
  | none => none

/-- The expression that a text is to the warehouse. -/
def readText (t : List Char) : Option SExp := readTokens (exprTokens t)

/-- The expression that a text with references is to its author. -/
def readPieces (ps : List Piece) : Option SExp := readTokens (pieceTokens .idle ps)

/-- The text is closed: its strings end, and its parentheses and CASEs match. -/
def ClosedText (t : List Char) : Prop := (readParts [] [] [] (exprTokens t)).isSome

/-- What a closed text is when it stands in parentheses: its expression, or something that is no expression of this grammar. -/
def readClosed (t : List Char) : SExp :=
  match (readParts [] [] [] (exprTokens t)).bind readGroup with
  | some es => groupExp es
  | none => .other (exprTokens t)

/-- The text neither begins nor ends with an operator. -/
def noSymEnds (t : List Char) : Bool := (t.head?.map symChar == some false) && (t.getLast?.map symChar == some false)

/-- The expression of a text that is one operand: a name, a number, a string, a call, a CASE, or something in parentheses. -/
def aloneText (t : List Char) : Option SExp :=
  match readParts [] [] [] (exprTokens t) with
  | none => none
  | some is =>
    match operands none is with
    | [.x e] => if noSymEnds t && !(is.any caseWord) then some e else none
    | _ => none

/-- No string among these parts has two spaces in a row (they would become one, `C45_spaces`). -/
def TightStrings (ts : List ETok) : Prop := ∀ s, ETok.str s ∈ ts → ¬ [' ', ' '] <:+: s

/-- The pieces with the name of the view for `${TABLE}`. -/
def withView (view : List Char) (ps : List Piece) : List Piece := ps.map (fun p => if p = .ref "TABLE".toList then .lit view else p)

/-- What a metric is to its author, following references to depth `n`: the expression of its text, with what the metrics named in it are in the place of their
names. -/
def metricMeaning (get : List Char → List Char → Res MetricField) (pieces : MetricField → List Piece) : ℕ → MetricField → Option SExp
  | 0, _ => none
  | n + 1, f =>
    let sub (m : List Char) : Option SExp :=
      match get f.view m with
      | .error _ => none
      | .ok g => metricMeaning get pieces n g
    if f.isNumber then
      match readPieces (pieces f) with
      | none => none
      | some E => if (refNames (pieces f)).all (fun m => (sub m).isSome) then some (E.subst (fun m => (sub m).getD .nil)) else none
    else
      match f.aggregate with
      | .error _ => none
      | .ok t => if (readParts [] [] [] (exprTokens t)).isSome then some (readClosed t) else none

/-- A metric is ordinary: the only opening braces of its text are those of references, which name metrics, and its aggregate has none. -/
structure OrdinaryNumber (pieces : MetricField → List Piece) (f : MetricField) : Prop where
  text : f.isNumber = true → f.sql = render (pieces f) ∧ OrdinaryText (pieces f) ∧ "TABLE".toList ∉ refNames (pieces f)
  view : '{' ∉ f.view
  aggregate : ∀ t, f.aggregate = .ok t → '{' ∉ t

end ML.Spec
