import Verif.Refs.Model
import Mathlib.Data.List.Infix
/- A SQL text as its author reads it: literal text and references. -/
set_option autoImplicit false
namespace ML.Spec

/-- A piece of a SQL text. -/
inductive Piece
  | lit (text : List Char)
  | ref (name : List Char)
  deriving DecidableEq, Repr

/-- The text as it is written. -/
def render : List Piece → List Char
  | [] => []
  | .lit l :: ps => l ++ render ps
  | .ref n :: ps => '$' :: '{' :: n ++ '}' :: render ps

/-- The names it refers to, in order. -/
def refNames : List Piece → List (List Char)
  | [] => []
  | .lit _ :: ps => refNames ps
  | .ref n :: ps => n :: refNames ps

/-- The text with every reference replaced by the value of its name and nothing else changed. -/
def fill (value : List Char → List Char) : List Piece → List Char
  | [] => []
  | .lit l :: ps => l ++ fill value ps
  | .ref n :: ps => value n ++ fill value ps

/-- An ordinary text: the only opening braces are those of references, and names have no braces, `$`, `%` or line break. -/
def OrdinaryText (ps : List Piece) : Prop :=
  ∀ p ∈ ps, match p with
    | .lit l => '{' ∉ l
    | .ref n => ∀ c ∈ n, c ∉ ['$', '{', '}', '%', '\n']

/-- The full expansion of a field, following references to depth `n`: every reference is replaced by the expansion of the field it
names and `${TABLE}` by the name of the view; outer white space is dropped, runs of spaces become one, and a time dimension is
wrapped. `none` when a reference does not lead to a field with SQL within that depth. -/
def expansion (get : List Char → List Char → Res RField) (pieces : RField → List Piece) : ℕ → RField → Option (List Char)
  | 0, _ => none
  | n + 1, f =>
    let value (name : List Char) : Option (List Char) :=
      if name = "TABLE".toList then some f.view
      else match get f.view name with
        | .error _ => none
        | .ok g => expansion get pieces n g
    if f.isNumber || f.sql.isNone || (render (pieces f)).isEmpty || (refNames (pieces f)).any (fun m => (value m).isNone) then none
    else some (f.wrap (collapseSpaces false (strip (fill (fun m => (value m).getD []) (pieces f)))))

/-- A field is ordinary: its text is, it has no template tags, and neither its view nor its wrapping of times adds a brace. -/
structure OrdinaryField (pieces : RField → List Piece) (f : RField) : Prop where
  text : ∀ t, f.sql = some t → t = render (pieces f) ∧ OrdinaryText (pieces f)
  view : '{' ∉ f.view
  wrap : ∀ t, '{' ∉ t → '{' ∉ f.wrap t

/-- A name in the SQL of a join identifier: `${TABLE}` stands for the view, a bare name for a field of the view. -/
def qualifyPiece (view : List Char) : Piece → Piece
  | .lit l => .lit l
  | .ref n => if n = "TABLE".toList then .lit view else if '.' ∈ n then .ref n else .ref (view ++ '.' :: n)

end ML.Spec
