import Verif.ArbAnswer.Model
import Verif.Answer.Model
/- The columns of a sub-query's answer by name. -/
set_option autoImplicit false
namespace ML

/-- A line of an answer read by the names of its columns, query_arbitrary_merged_queries.py 101-108 and 133 (`cte.alias`). -/
def byName (cols : List String) (line : List Val) : MLine ℚ := fun a => ((cols.zip line).find? (fun p => p.1 == a)).bind (·.2)

end ML
