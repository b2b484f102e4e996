import Verif.Mql.Model

/-!
# What an MQL statement says

A statement is written in parts: metrics, then possibly a funnel, `BY` and dimensions, `WHERE` and a condition,
`HAVING` and a condition, `ORDER BY` and an order. This file says how such a statement looks as tokens and what
it asks for, without the modes the converter goes through.
-/

set_option autoImplicit false

namespace ML
namespace Spec

/-- The text is the word, in capitals or not. -/
def IsWord (s : String) (w : String) : Prop := s.toList.map Char.toUpper = w.toList

/-- The text with the blanks at both ends removed. -/
def trimmed (s : String) : String := String.ofList (strip s.toList)

/-- The word, trimmed, in capitals or not. -/
def IsTrimmedWord (s : String) (w : String) : Prop := strip (s.toList.map Char.toUpper) = w.toList

/-- The words that begin a part of a statement or of a funnel. -/
def partWords : List String := ["BY", "HAVING", "ORDER BY", "FOR", "FUNNEL", "THEN", "WITHIN"]

/-- The texts in one piece. -/
def allText (l : List String) : String := String.ofList (l.flatMap String.toList)

/-- Nothing but blanks. -/
def IsBlank (s : String) : Prop := ∀ c ∈ s.toList, isSpace c = true

/-- A list of names: identifiers, lists of identifiers, and blanks or commas between them. The word `SOURCE`, which
sqlparse takes for a keyword, is a name if `source` says so. -/
def NameTok (source : Bool) : MqlTok → Prop
  | .space s => IsBlank s
  | .other s => ¬ IsTrimmedWord s "FUNNEL"
  | .name s => ¬ IsTrimmedWord s "FUNNEL"
  | .names s _ => ¬ IsTrimmedWord s "FUNNEL"
  | .keyword s => source = true ∧ IsWord s "SOURCE"
  | .where_ _ _ => False

/-- The names that are written. -/
def namesIn (ts : List MqlTok) : List String :=
  ts.flatMap fun
    | .name s => [s]
    | .names _ ids => ids
    | .keyword s => [s]
    | _ => []

/-- A token of a condition or an order: anything but a word that begins a part. -/
def ClauseTok (t : MqlTok) : Prop :=
  ¬ IsTrimmedWord t.text "FUNNEL" ∧ ∀ s, t = .keyword s → ∀ w ∈ partWords, ¬ IsWord s w

/-- A token of a step of a funnel: no keyword but `AND` and `OR`, and nowhere the text `within`. -/
def StepTok (t : MqlTok) : Prop :=
  ¬ IsTrimmedWord t.text "FUNNEL" ∧ ¬ IsWord t.text "THEN" ∧
  containsSub "WITHIN".toList (t.text.toList.map Char.toUpper) = false ∧
  ∀ s, t = .keyword s → (strip s.toList).map Char.toUpper = "AND".toList ∨ (strip s.toList).map Char.toUpper = "OR".toList

/-- A funnel: `FOR view FUNNEL step THEN step ... WITHIN n unit`. sqlparse may take the word `FUNNEL` for an alias of the
view (`funnelWord` is `none` then and the word is part of `view`), and the word `WITHIN` for an alias of the end
of the last step: `last` is the token with the word in it, `lastText` what stands before the word. -/
structure WrittenFunnel where
  forWord : String
  gap : List String
  view : MqlTok
  viewName : String
  funnelWord : Option (List MqlTok × MqlTok)
  first : List MqlTok
  more : List (String × List MqlTok)
  last : MqlTok
  lastText : String
  gap' : List String
  time : String
  number : String
  value : Int
  unit : String
  after : List String

/-- What stands between the view and the first step, with the word `FUNNEL` at the end. -/
def openTokens : Option (List MqlTok × MqlTok) → List MqlTok
  | none => []
  | some (lead, w) => lead ++ [w]

/-- The tokens of a funnel. -/
def WrittenFunnel.tokens (f : WrittenFunnel) : List MqlTok :=
  .keyword f.forWord :: f.gap.map .space ++ f.view ::
    (openTokens f.funnelWord ++
    (f.first ++ ((f.more.flatMap fun p => .keyword p.1 :: p.2) ++
    f.last :: (f.gap'.map .space ++ .name f.time :: f.after.map .space))))

/-- The texts of the steps: the first, and one for each `THEN`. What stands before `WITHIN` belongs to the last one. -/
def stepTexts (first : List MqlTok) (more : List (List MqlTok)) (lastText : String) : List String :=
  match more with
  | [] => [trimmed (allText (first.map MqlTok.text ++ [trimmed lastText]))]
  | next :: more => trimmed (allText (first.map MqlTok.text)) :: stepTexts next more lastText

/-- The funnel that is asked for. -/
def WrittenFunnel.meaning (f : WrittenFunnel) : MqlFunnel where
  steps := stepTexts f.first (f.more.map (·.2)) f.lastText
  value := f.value
  unit := lower f.unit
  viewName := some (lower f.viewName)

/-- The funnel is written as the documentation shows it. -/
structure WrittenFunnel.Ok (env : MqlEnv) (f : WrittenFunnel) : Prop where
  forWord : IsWord f.forWord "FOR"
  gaps : (∀ s ∈ f.gap, IsBlank s) ∧ (∀ s ∈ f.gap', IsBlank s) ∧ ∀ s ∈ f.after, IsBlank s
  view : f.view.isBlank = false
  viewText : f.view.text = f.viewName ∨ ∃ alias, f.view.text = f.viewName ++ " " ++ alias
  viewName : f.viewName ≠ "" ∧ ∀ c ∈ f.viewName.toList, isSpace c = false ∧ isSpace c.toLower = false
  funnelWord : ∀ lead w, f.funnelWord = some (lead, w) → (∀ t ∈ lead, StepTok t) ∧ IsWord w.text "FUNNEL"
  first : ∀ t ∈ f.first, StepTok t
  more : ∀ p ∈ f.more, IsWord p.1 "THEN" ∧ ∀ t ∈ p.2, StepTok t
  last : f.last.isKeyword = false
  lastText : ∃ word rest, f.last.text = f.lastText ++ word ++ rest ∧ IsWord word "WITHIN"
  lastOnce : containsSub "WITHIN".toList (f.lastText.toList.map Char.toUpper) = false
  time : strip f.time.toList = f.number.toList ++ ' ' :: f.unit.toList
  words : ' ' ∉ f.number.toList ∧ ' ' ∉ f.unit.toList
  value : env.int f.number = some f.value

/-- A statement in its parts. `where_` has the keyword, the texts after it, and the blanks that follow the group. -/
structure WrittenMql where
  metrics : List MqlTok
  funnel : Option WrittenFunnel
  by_ : Option (String × List MqlTok)
  where_ : Option (String × List String × List String)
  having : Option (String × List MqlTok)
  order : Option (String × List MqlTok)

/-- A part that begins with a word. -/
def partTokens : Option (String × List MqlTok) → List MqlTok
  | none => []
  | some (w, ts) => .keyword w :: ts

/-- The condition of a statement as tokens. -/
def whereTokens : Option (String × List String × List String) → List MqlTok
  | none => []
  | some (w, texts, blanks) => .where_ w texts :: blanks.map .space

/-- The funnel of a statement as tokens. -/
def funnelTokens : Option WrittenFunnel → List MqlTok
  | none => []
  | some f => f.tokens

/-- The tokens of the statement. -/
def WrittenMql.tokens (w : WrittenMql) : List MqlTok :=
  w.metrics ++ (funnelTokens w.funnel ++ (partTokens w.by_ ++ (whereTokens w.where_ ++
    (partTokens w.having ++ partTokens w.order))))

/-- The text of a condition: nothing if nothing follows the word. -/
def clauseText (texts : List String) : Option String := if texts = [] then none else some (trimmed (allText texts))

/-- The question the statement asks. -/
def WrittenMql.meaning (w : WrittenMql) : MqlQuery where
  metrics := namesIn w.metrics
  dimensions := match w.by_ with | none => [] | some (_, ts) => namesIn ts
  funnel := w.funnel.map WrittenFunnel.meaning
  where_ := match w.where_ with | none => none | some (_, texts, _) => clauseText texts
  having := match w.having with | none => none | some (_, ts) => clauseText (ts.map MqlTok.text)
  orderBy := match w.order with | none => none | some (_, ts) => clauseText (ts.map MqlTok.text)

/-- The statement is written as the documentation shows it. -/
structure WrittenMql.Ok (env : MqlEnv) (w : WrittenMql) : Prop where
  metrics : ∀ t ∈ w.metrics, NameTok false t
  funnel : ∀ f, w.funnel = some f → f.Ok env
  by_ : ∀ b ts, w.by_ = some (b, ts) → IsWord b "BY" ∧ ∀ t ∈ ts, NameTok true t
  where_ : ∀ k texts blanks, w.where_ = some (k, texts, blanks) →
    IsWord k "WHERE" ∧ ∀ s ∈ blanks, IsBlank s
  having : ∀ h ts, w.having = some (h, ts) → IsWord h "HAVING" ∧ ∀ t ∈ ts, ClauseTok t
  order : ∀ o ts, w.order = some (o, ts) → IsWord o "ORDER BY" ∧ ∀ t ∈ ts, ClauseTok t

/-- The call of `MQL` a token of the SQL is, alone or with an alias. -/
def callIn : Top → Option MqlCall
  | .call c => if IsMql c then some c else none
  | .ident _ (.call c) => if IsMql c then some c else none
  | _ => none
where
  /-- The function is `MQL`, in capitals or not. -/
  IsMql (c : MqlCall) : Bool := c.name.toList.map Char.toUpper = "MQL".toList

/-- The text of the call is written `MQL(`, in capitals or not, and something. -/
def CallText (c : MqlCall) : Prop := "MQL(".toList <+: c.text.toList.map Char.toUpper

/-- The call stands at this place of the text and nowhere else in it. -/
def OnlyThere (pre text post : List Char) : Prop := ∀ a b, pre ++ (text ++ post) = a ++ (text ++ b) → a = pre

/-- The token of the SQL is left as it is: it is no call of `MQL`, and it is none of the two texts the converter refuses
(the word `MQL` alone, and a name with `MQL(` in it that is not built from tokens). -/
def Stays (t : Top) : Prop :=
  callIn t = none ∧ ∀ s h, t = .ident s h → ¬ IsWord s "MQL" ∧ h ≠ .leaf

/-- The token of the SQL has a call of `MQL` at its beginning, followed by `al` (an alias). -/
def Has (t : Top) (c : MqlCall) (al : String) : Prop :=
  callIn t = some c ∧ CallText c ∧ (t = .call c ∧ al = "" ∨ t = .ident (c.text ++ al) (.call c) ∧ ¬ IsWord (c.text ++ al) "MQL")

/-- What comes in the place of a token: itself, or the SQL of the question, in parentheses unless the call is the whole text. -/
def Becomes (env : MqlEnv) (sql : String) (t : Top) (out : String) : Prop :=
  (Stays t ∧ out = t.text) ∨
  ∃ c al q, Has t c al ∧ resolveMql env c.args = .ok q ∧ q ≠ "" ∧
    out = (if c.text = sql then q else "(" ++ q ++ ")") ++ al

end Spec
end ML
