/-
Shared vocabulary of the model: Python exceptions as values, Python string helpers
on `List Char`, insertion-ordered dictionaries as association lists.
-/
set_option autoImplicit false
namespace ML

/-- The exceptions the modelled code raises. The message text is not modelled.
`/repo/metrics_layer/core/exceptions.py`, `/repo/metrics_layer/core/sql/query_errors.py`
and the Python built-ins that escape from the modelled code. -/
inductive Err where
  | query            -- QueryError
  | join             -- JoinError (a subclass of QueryError)
  | accessDenied     -- AccessDeniedOrDoesNotExistException
  | parse            -- ParseError
  | argument         -- ArgumentError
  | keyError         -- KeyError
  | indexError       -- IndexError
  | valueError       -- ValueError
  | attributeError   -- AttributeError
  | typeError        -- TypeError
  | unboundLocal     -- UnboundLocalError
  | notImplemented   -- NotImplementedError
  | noPath           -- networkx.NetworkXNoPath
  | unfeasible       -- networkx.NetworkXUnfeasible
  | recursion        -- RecursionError
  | other            -- any other exception
  deriving DecidableEq, Repr

abbrev Res (α : Type) := Except Err α

/-- Membership test on an `Except` result, used in statements. -/
def Res.isOk {α} : Res α → Bool
  | .ok _ => true
  | .error _ => false

instance {ε α : Type} [DecidableEq ε] [DecidableEq α] : DecidableEq (Except ε α)
  | .ok a, .ok b => if h : a = b then isTrue (h ▸ rfl) else isFalse (fun e => h (by cases e; rfl))
  | .error a, .error b =>
    if h : a = b then isTrue (h ▸ rfl) else isFalse (fun e => h (by cases e; rfl))
  | .ok _, .error _ => isFalse (fun e => by cases e)
  | .error _, .ok _ => isFalse (fun e => by cases e)

/-! ### Python strings -/

/-- `str.lower()`. Simplification: only ASCII letters change (`Char.toLower`). -/
def lower (s : String) : String := String.ofList (s.toList.map Char.toLower)

/-- `s.split(c)` for a single character separator: always at least one part. -/
def splitChars (c : Char) : List Char → List (List Char)
  | [] => [[]]
  | x :: xs =>
    if x = c then [] :: splitChars c xs
    else
      match splitChars c xs with
      | [] => [[x]]
      | p :: ps => (x :: p) :: ps

/-- Is `p` a prefix of the text? -/
def isPrefix (p s : List Char) : Bool := p.isPrefixOf s

/-- Python's `sub in text` for strings. -/
def containsSub (sub : List Char) : List Char → Bool
  | [] => sub.isEmpty
  | c :: cs => sub.isPrefixOf (c :: cs) || containsSub sub cs

/-- Left-to-right scan used by `replaceAll`; `skip` characters of a match remain to be dropped. -/
def replaceGo (old new : List Char) : Nat → List Char → List Char
  | _, [] => []
  | skip + 1, _ :: cs => replaceGo old new skip cs
  | 0, c :: cs =>
    if old.isPrefixOf (c :: cs) then new ++ replaceGo old new (old.length - 1) cs
    else c :: replaceGo old new 0 cs

/-- Python's `text.replace(old, new)` for a non-empty `old`: non-overlapping occurrences,
left to right. -/
def replaceAll (old new text : List Char) : List Char := replaceGo old new 0 text

/-- Python whitespace as far as the modelled code can meet it. -/
def isSpace (c : Char) : Bool := c = ' ' || c = '\t' || c = '\n' || c = '\r'

/-- Python's `text.strip()`. -/
def strip (s : List Char) : List Char :=
  ((s.dropWhile isSpace).reverse.dropWhile isSpace).reverse

end ML
