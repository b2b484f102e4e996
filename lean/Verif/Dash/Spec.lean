import Verif.Dash.Model
import Verif.FieldCheck.Spec
/-
Specification vocabulary for C69: what a dashboard's filters mean and what is wrong with it, in terms of what is written.
-/
set_option autoImplicit false
namespace ML.Spec

/-- The dashboard, or the element, has these filters. -/
def FiltersOf (d : FDef) (fs : List FDef) : Prop :=
  ((¬ HasKey d "filters" ∨ Given d "filters" .null) ∧ fs = []) ∨ Given d "filters" (.list (fs.map .dict))

/-- The dashboard has these elements. -/
def ElementsOf (d : FDef) (es : List FDef) : Prop :=
  (¬ HasKey d "elements" ∧ es = []) ∨ Given d "elements" (.list (es.map .dict))

/-- The element names this model: the first of the project's models with the name. -/
def InModel (env : DashEnv) (e : FDef) (m : DModel) : Prop :=
  Given e "model" (.str m.name) ∧ ∃ before after, env.models = before ++ m :: after ∧ ∀ m' ∈ before, m'.name ≠ m.name

/-- The first day of the week that is used where these are asked for: the one they all ask for, and none if there is no such day. -/
def CommonWeek (weeks : List (Option String)) (w : Option String) : Prop :=
  (weeks ≠ [] ∧ ∀ x ∈ weeks, x = w) ∨ (w = none ∧ ¬ ∃ x, weeks ≠ [] ∧ ∀ y ∈ weeks, y = x)

/-- The definition is the one that was written, but for the first day of the week and the timezone. -/
def KeptBut (env : DashEnv) (w : Option String) (written got : FDef) : Prop :=
  Given got "timezone" env.timezone ∧ Given got "week_start_day" (weekYaml w) ∧
  ∀ k, k ≠ "timezone" → k ≠ "week_start_day" → dictGet got k = dictGet written k

/-- What a value means, where weeks begin on this day: the comparisons of C23 and C24. -/
def MeansThere (env : DashEnv) (w : Option String) (v : Yaml) (cs : List Comparison) : Prop :=
  (filterDict env.num env.now w (filterValue v) ⟨0, 6⟩).1 = .ok cs

/-- What a filter written is read as. A filter with an empty value stays, without a meaning. -/
def ReadAs (env : DashEnv) (w : Option String) (f : FDef) (out : List DFilter) : Prop :=
  HasKey f "field" ∧ (∀ o ∈ out, KeptBut env w f o.given) ∧ ∃ v, Given f "value" v ∧
    ((v = .str "" ∧ out.map (·.meaning) = [none]) ∨
     (v ≠ .str "" ∧ ∃ cs, MeansThere env w v cs ∧ out.map (·.meaning) = cs.map some))

/-- The field cannot be looked up. -/
def NotFound (env : DashEnv) (v : Yaml) : Prop := ∃ e, env.getField v = .error e

/-- The values of a list, or the one text. -/
def OneOrMany (v x : Yaml) : Prop := v = x ∧ (∃ s, x = .str s) ∨ ∃ l, v = .list l ∧ x ∈ l

/-- The element shows this metric: `metric` is looked at before `metrics`. -/
def ShowsMetric (e : FDef) (x : Yaml) : Prop :=
  (∃ v, Given e "metric" v ∧ OneOrMany v x) ∨ (¬ HasKey e "metric" ∧ ∃ v, Given e "metrics" v ∧ OneOrMany v x)

/-- What is wrong with a dashboard that has these filters and these elements. -/
inductive DashWrong (env : DashEnv) (fs es : List FDef) : DashProblem → Prop
  | filter (f : FDef) (v : Yaml) (hf : f ∈ fs) (h : Given f "field" v) (hn : NotFound env v) : DashWrong env fs es (.filter v)
  | model (e : FDef) (v : Yaml) (he : e ∈ es) (h : Given e "model" v) (hn : ∀ m ∈ env.models, v ≠ .str m.name) :
      DashWrong env fs es (.model v)
  | metric (e : FDef) (v : Yaml) (he : e ∈ es) (h : ShowsMetric e v) (hn : NotFound env v) : DashWrong env fs es (.metric v)
  | slice (e : FDef) (l : List Yaml) (v : Yaml) (he : e ∈ es) (h : Given e "slice_by" (.list l)) (hv : v ∈ l) (hn : NotFound env v) :
      DashWrong env fs es (.slice v)
  | elementFilter (e : FDef) (gs : List FDef) (f : FDef) (v : Yaml) (he : e ∈ es) (hg : FiltersOf e gs) (hf : f ∈ gs)
      (h : Given f "field" v ∨ (¬ HasKey f "field" ∧ v = .null)) (hn : NotFound env v) : DashWrong env fs es (.elementFilter v)

/-- An element whose metrics are a text or a list, whose slices are a list and whose filters are dictionaries. -/
def Shaped (e : FDef) : Prop :=
  (∀ v, Given e "metric" v → Text v ∨ Listed v) ∧ (∀ v, Given e "metrics" v → Text v ∨ Listed v) ∧
  (∀ v, Given e "slice_by" v → Listed v) ∧ ∃ gs, FiltersOf e gs

end ML.Spec
