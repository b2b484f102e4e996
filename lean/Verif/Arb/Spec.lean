import Verif.Arb.Model
/- What C43 says, apart from the model's functions. -/
set_option autoImplicit false
namespace ML
namespace Spec

/-- What the documentation asks of item number `i` of `merged_queries`: it has lists of metrics and dimensions and no funnel, and
from the second on at least one join field, each with the two names. -/
def WellFormedItem (i : ℕ) (item : MergeItem) : Prop :=
  ∃ a ms ds, item = .dict a ∧ a.metrics = .list ms ∧ a.dimensions = .list ds ∧ a.funnel = false ∧ a.joinFields ≠ .notList ∧
    (0 < i → ∃ js, a.joinFields = .list js ∧ js ≠ [] ∧ ∀ j ∈ js, ∃ f s, j = .dict (.str f) (.str s))

/-- All items are well formed. -/
def WellFormedMerge (items : List MergeItem) : Prop :=
  ∀ i item, items[i]? = some item → WellFormedItem i item

/-- The id under which a resolver knows one of its dimensions. -/
def idIn (r : SubRes) (d : String) : String := (dictGet r.ids d).getD d

/-- `name` stands for a dimension of the sub-query, which is then called `col`: it is a mapped name for one of the dimensions, or
the name of a field that is one of the dimensions. -/
def NamesDimension (env : ArbEnv) (r : SubRes) (name col : String) : Prop :=
  (∃ fields, dictGet r.mappings name = some fields ∧ col ∈ fields ∧ col ∈ r.dimensions) ∨
  (dictGet r.mappings name = none ∧ col = name ∧ ∃ f d, env.get name = .ok f ∧ d ∈ r.dimensions ∧ idIn r d = f.id)

/-- Column `a` is produced by a sub-query: it is the alias of one of its metrics or dimensions. -/
def Produces (env : ArbEnv) (s : SubQ) (a : String) : Prop :=
  ∃ n ∈ s.metrics ++ s.dimensions, ∃ f, env.get n = .ok f ∧ f.aliasName = a

/-- Column `a` is one the sub-query is joined on. -/
def JoinsOn (env : ArbEnv) (s : SubQ) (a : String) : Prop :=
  ∃ k ∈ s.joinFields, ∃ f, env.get k.field = .ok f ∧ f.aliasName = a

/-- Sub-query `i` is the one that shows column `a`: it produces it, none before does, and neither it nor one before is joined on
it. -/
def ShowsAt (env : ArbEnv) (subs : List SubQ) (i : ℕ) (s : SubQ) (a : String) : Prop :=
  subs[i]? = some s ∧ Produces env s a ∧ (∀ j t, j < i → subs[j]? = some t → ¬ Produces env t a) ∧
    ∀ j t, j ≤ i → subs[j]? = some t → ¬ JoinsOn env t a

/-- The project gives a field the same id and alias under every name a sub-query uses for it: the id a sub-query keeps for a
dimension is the id of the field the project finds under that name, and fields of equal id have equal aliases. -/
structure OneNaming (env : ArbEnv) : Prop where
  ids : ∀ q extra r d, env.resolve q extra = .ok r → d ∈ r.dimensions → ∃ f, env.get d = .ok f ∧ f.id = idIn r d
  aliases : ∀ n m f g, env.get n = .ok f → env.get m = .ok g → f.id = g.id → f.aliasName = g.aliasName
  /-- The extra names only matter for mappings: they do not change what the sub-query contains. -/
  extra : ∀ q e e' r r', env.resolve q e = .ok r → env.resolve q e' = .ok r' → r.metrics = r'.metrics ∧ r.dimensions = r'.dimensions

end Spec
end ML
