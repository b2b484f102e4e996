import Verif.Answer.Model
import Verif.Joined.Model
/-
Access filters of the views of a query, and the rows of the warehouse they hide.
`/repo/metrics_layer/core/sql/query_design.py` 183-190, 262-288 and `/repo/metrics_layer/core/model/view.py` 182-191.
-/
set_option autoImplicit false
namespace ML
open Spec

/-- What the design reads of a project for a user: `get_field`, the functional key (area `Answer`), the `access_filters` of each view, the user set on
the project and the comparisons that `Filter.filter_dict` makes of a field and a value of the user; query_design.py 262-288. -/
structure SecProject where
  get : String → Res AnsField
  fpk : List String → FunctionalPk
  filters : String → List AccessFilter
  user : Option User
  cmp : String → String → List Nat

/-- `get_access_filter`, query_design.py 262-288: the comparisons of the access filters of the views of `field_lookup`, view by view. -/
def SecProject.access (S : SecProject) (views : List String) : List Nat :=
  views.flatMap (fun v => accessConditions S.user S.cmp (S.filters v))

/-- The project as area `Answer` reads it, query_design.py 24-31. -/
def SecProject.answers (S : SecProject) : AnsProject := ⟨S.get, S.fpk, S.access⟩

/-- The filter is in force, `self.project._user and self.project._user.get(user_attribute_value)`, query_design.py 272 and view.py 189. A user
without any attributes is falsy, but has no attribute either. -/
def inForce (user : Option User) (af : AccessFilter) : Bool :=
  match user with
  | none => false
  | some u =>
    match u.get af.userAttr with
    | none => false
    | some v => v != ""

/-- `is_affected_by_access_filters`, view.py 182-191. -/
def isAffected (user : Option User) (afs : List AccessFilter) : Bool := afs.any (inForce user)

/-- The views of the fields of filters in force, query_design.py 264-279. -/
def filterFieldViews (get : String → Res AnsField) (user : Option User) : List AccessFilter → Res (List String)
  | [] => .ok []
  | af :: afs =>
    match get af.field with
    | .error e => .error e
    | .ok f =>
      match filterFieldViews get user afs with
      | .error e => .error e
      | .ok vs => .ok (if inForce user af then f.view :: vs else vs)

/-- `required_views`, query_design.py 183-190: the views the FROM is built for, those of `field_lookup` and, if there is a comparison (line 286), those of
the fields of the filters in force. The order of the list is the set's and not modelled. -/
def SecProject.requiredViews (S : SecProject) (views : List String) : Res (List String) :=
  match filterFieldViews S.get S.user (views.flatMap S.filters) with
  | .error e => .error e
  | .ok vs => .ok (if S.access views = [] then views.dedup else (views ++ vs).dedup)

section
variable {ρ : Type}

/-- The warehouse with a table for each view: the rows of a FROM are the joined ones (area `Joined`), query_generator.py 338-372. -/
def joinedDb (db : String → List ρ) (fromOf : List String → String × List (JoinStep ρ)) (E : Engine (JRow ρ)) (test : Nat → Val → TV) : Db (JRow ρ) where
  rows := fun views => joinedRows db (fromOf views).1 (fromOf views).2
  tables := fun views => (fromOf views).1 :: (fromOf views).2.map (·.tgt)
  engine := E
  test := test

end
end ML
