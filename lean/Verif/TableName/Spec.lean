import Verif.TableName.Model
/-
What C61 says about the tables of views.
-/
set_option autoImplicit false
namespace ML.Spec

/-- One case of a table name: the condition as written, and the table as written. -/
structure TableCase where
  cond : List Char
  table : List Char

/-- The text of the cases: `-- if <cond>-- <table>`. -/
def casesText (cs : List TableCase) : List Char := cs.flatMap (fun c => "-- if".toList ++ c.cond ++ "--".toList ++ c.table)

/-- Cases without dashes in environments and tables, no table that begins with the word `if`, each environment on one line, and
each environment once. -/
structure PlainCases (pre : List Char) (cs : List TableCase) : Prop where
  pre : '-' ∉ pre
  cond : ∀ c ∈ cs, '-' ∉ c.cond ∧ '\n' ∉ c.cond
  table : ∀ c ∈ cs, '-' ∉ c.table ∧ ¬ " if".toList <+: c.table.filter (fun x => x != '\n')
  once : (cs.map (fun c => strip c.cond)).Nodup

/-- The table of a case, without blanks around it and without line ends. -/
def tableOf (c : TableCase) : List Char := strip (c.table.filter (fun x => x != '\n'))

end ML.Spec
