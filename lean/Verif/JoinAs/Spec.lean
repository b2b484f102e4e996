import Verif.JoinAs.Model
/-
Specification vocabulary for C46.
-/
set_option autoImplicit false
namespace ML.Spec

/-- A primary identifier with `join_as`, on the view that declares it. -/
structure Request where
  view : JView
  ident : JIdent
  name : String

/-- The requests of one view, in order. -/
def viewRequests (v : JView) : List Request :=
  v.identifiers.filterMap (fun i =>
    match i.joinAs with
    | some a => if i.typ = "primary" then some ⟨v, i, a⟩ else none
    | none => none)

/-- All requests, in order. -/
def requests (views : List JView) : List Request := views.flatMap viewRequests

/-- The first request for each name, in order. -/
def firstPerName : List Request → List Request
  | [] => []
  | r :: rs => r :: (firstPerName rs).filter (fun q => decide (q.name ≠ r.name))

/-- The original view after the keys named in its own requests have moved away. -/
def stripped (v : JView) : JView :=
  { v with identifiers := v.identifiers.filter (fun j =>
      !((viewRequests v).any (fun r => r.ident.name == j.name))) }

/-- `out` is `cs` with the first letter of every run of letters in upper case and the others in
lower case; `up` tells whether a letter now would be the first of its run. -/
inductive TitledGo : Bool → List Char → List Char → Prop
  | nil {up : Bool} : TitledGo up [] []
  | start {c : Char} {cs out : List Char} : c.isAlpha = true → TitledGo false cs out →
      TitledGo true (c :: cs) (c.toUpper :: out)
  | inside {c : Char} {cs out : List Char} : c.isAlpha = true → TitledGo false cs out →
      TitledGo false (c :: cs) (c.toLower :: out)
  | other {up : Bool} {c : Char} {cs out : List Char} : c.isAlpha = false → TitledGo true cs out →
      TitledGo up (c :: cs) (c :: out)

/-- What the extra view must be. -/
def IsCopy (r : Request) (w : JView) : Prop :=
  w.name = r.name ∧ w.rest = r.view.rest ∧
  w.identifiers = [{ r.ident with joinAs := none }] ∧
  w.fields = r.view.fields.filter (fun f => r.ident.includeMetrics || !f.isMeasure) ∧
  (∀ l, r.ident.joinAsLabel = some l → w.label = some l) ∧
  (r.ident.joinAsLabel = none → w.label = r.view.label) ∧
  (∀ p, r.ident.joinAsPrefix = some p → w.fieldPrefix = some p) ∧
  (r.ident.joinAsPrefix = none → ∀ l, r.ident.joinAsLabel = some l → w.fieldPrefix = some l) ∧
  (r.ident.joinAsPrefix = none → r.ident.joinAsLabel = none → ∃ t, w.fieldPrefix = some t ∧
    TitledGo true (r.name.toList.map (fun c => if c = '_' then ' ' else c)) t.toList)

/-- Two differently named views ask for the same extra view. -/
def Clash (views : List JView) : Prop :=
  ∃ r ∈ requests views, ∃ q ∈ requests views, r.name = q.name ∧ r.view.name ≠ q.view.name

end ML.Spec
