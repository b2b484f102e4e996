import Verif.MergeWhole.RowsModel
import Verif.MergeWhole.Spec
import Verif.MergeStmt.SubSpec
/-
What the user of a merged query relies on, down to the rows of the warehouse (C78).
-/
set_option autoImplicit false
namespace ML.Spec

/-- `q` is what the sub-query `h` of the merged query must ask for: as dimensions `ds`, what stands for the dimensions of the merged query
there, place by place; as metrics, the needed ones that belong to it, each once; and the conditions `ws`. -/
def SubAsksFor (env : PlanEnv) (metrics having dimensions : List String) (conds : List MWhere → List FObj × List String) (fieldOf : ℕ → String)
    (force : Bool) (fld : PField → AnsField) (ws : List MWhere) (h : String) (q : Question) (ds : List AnsField) : Prop :=
  ∃ xs fs : List PField, List.Forall₂ (fun d x => ∃ f, env.getField d = .ok f ∧ Counterpart env metrics having h f x) dimensions xs ∧
    (∀ f, f ∈ fs ↔ Needed env metrics having f ∧ BelongsTo env f h) ∧ fs.Nodup ∧ ds = xs.map fld ∧
    q = subQuestion (fs.map PField.id) (xs.map PField.id) (conds ws).1 (conds ws).2 fieldOf force

/-- How the fields are read: the ids of dimensions and metrics stand for fields of the project, a dimension is computed row by row and a metric
is an aggregate, their labels are the columns of the merged statement, and the sub-queries group. -/
structure ReadBy (env : PlanEnv) (metrics having dimensions : List String) (dim : PField → MDim) (column : PField → String) (P : AnsProject)
    (force : Bool) (fld : PField → AnsField) : Prop where
  dims : ∀ h x, SubQuery env metrics having h → DimensionOf env metrics having dimensions h x →
    P.get x.id = .ok (fld x) ∧ (fld x).label = (dim x).column ∧ ∃ s, (fld x).sql = .dimension s
  columns : ∀ f, Needed env metrics having f → P.get f.id = .ok (fld f) ∧ (fld f).label = column f ∧ ∃ a, (fld f).sql = .measure a
  grouped : force = true ∨ ∀ h x f, SubQuery env metrics having h → DimensionOf env metrics having dimensions h x →
    Needed env metrics having f → BelongsTo env f h → (fld x).primaryKey = true → (fld x).view ≠ (fld f).view

end ML.Spec
