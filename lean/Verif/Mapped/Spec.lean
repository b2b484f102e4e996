import Verif.Mapped.Model
import Mathlib.Data.List.Forall2
/-
Specification vocabulary for C41.
-/
set_option autoImplicit false
namespace ML.Spec

/-- The field can be joined with all these fields: they share a join graph that is not the result of
a merge. -/
def JoinableWith (fs : List CField) (c : CField) : Prop :=
  ∃ g ∈ c.graphs, ¬ ("merged_result".toList <:+: g.toList) ∧ ∀ f ∈ fs, g ∈ f.graphs

/-- The field can be merged with all these fields: they share some join graph. -/
def MergeableWith (fs : List CField) (c : CField) : Prop := ∃ g ∈ c.graphs, ∀ f ∈ fs, g ∈ f.graphs

/-- `c` is the first field of the list with the property. -/
def FirstWith (P : CField → Prop) (cs : List CField) (c : CField) : Prop :=
  ∃ pre post, cs = pre ++ c :: post ∧ P c ∧ ∀ x ∈ pre, ¬ P x

/-- The choice among the candidates of a mapping: the first that can be joined with the fields of
the query, else the first that can be merged with them. -/
def BestCandidate (fs cs : List CField) (c : CField) : Prop :=
  FirstWith (JoinableWith fs) cs c ∨
    ((∀ x ∈ cs, ¬ JoinableWith fs x) ∧ FirstWith (MergeableWith fs) cs c)

mutual
/-- The entry with every field name changed by `σ`, nothing else. -/
def mapCond (σ : String → String) : MCond → MCond
  | .cond f g r => .cond (f.map σ) g r
  | .group f cs r => .group (f.map σ) (mapConds σ cs) r
/-- The same for a list of entries. -/
def mapConds (σ : String → String) : List MCond → List MCond
  | [] => []
  | c :: cs => mapCond σ c :: mapConds σ cs
end

/-- The clause with every field name changed by `σ`, nothing else. -/
def mapClause (σ : String → String) : MClause → MClause
  | .text s => .text s
  | .none => .none
  | .list cs => .list (mapConds σ cs)

mutual
/-- An ordinary entry: a condition has a field and no "group_by"; a group has conditions only. -/
def PlainCond : MCond → Prop
  | .cond f g _ => f.isSome = true ∧ g = false
  | .group f cs _ => f = none ∧ PlainConds cs
/-- The same for a list of entries. -/
def PlainConds : List MCond → Prop
  | [] => True
  | c :: cs => PlainCond c ∧ PlainConds cs
end

/-- An ordinary clause: absent, or a list of ordinary entries; not text. -/
def PlainClause : MClause → Prop
  | .text _ => False
  | .none => True
  | .list cs => PlainConds cs

mutual
/-- The field name occurs in the entry, at whatever depth. -/
inductive InCond (n : String) : MCond → Prop
  | here (g : Bool) (r : String) : InCond n (.cond (some n) g r)
  | deep (f : Option String) (cs : List MCond) (r : String) : InConds n cs → InCond n (.group f cs r)
/-- The field name occurs in one of the entries. -/
inductive InConds (n : String) : List MCond → Prop
  | head (c : MCond) (cs : List MCond) : InCond n c → InConds n (c :: cs)
  | tail (c : MCond) (cs : List MCond) : InConds n cs → InConds n (c :: cs)
end

/-- The field name occurs in the clause. -/
def InClause (n : String) : MClause → Prop
  | .list cs => InConds n cs
  | _ => False

/-- The name is used by the query: as a metric or a dimension, in a filter or in the ordering. -/
def Uses (q : MQuery) (n : String) : Prop :=
  n ∈ q.metrics ∨ n ∈ q.dimensions ∨ InClause n q.where_ ∨ InClause n q.having ∨ InClause n q.orderBy

/-- The real fields among the names of the query (and among the dimensions named for look-up). -/
def RealFields (env : MapEnv) (q : MQuery) (lookupDims : List String) (fs : List CField) : Prop :=
  ∀ c, c ∈ fs ↔ ∃ n, (Uses q n ∨ n ∈ lookupDims) ∧ env.mapping n = none ∧ env.modelField n = .ok c

/-- The candidates of a mapping, looked up in order. -/
def Candidates (env : MapEnv) (m : MapDef) (cs : List CField) : Prop :=
  m.fields.mapM env.field = .ok cs

/-- `v` is the part of the name before its first dot, or all of it. -/
def ViewPart (s v : String) : Prop := '.' ∉ v.toList ∧ (s = v ∨ ∃ r, s = v ++ "." ++ r)

/-- The number of measures in the view of a date is at least that of another date. -/
def AtLeastAsManyMeasures (env : MapEnv) (d d' : String) : Prop :=
  ∀ v v' n n', ViewPart d v → ViewPart d' v' → env.viewMeasures v = .ok n → env.viewMeasures v' = .ok n' → n' ≤ n

/-- `c` is the replacement of the name `n`, mapped by `m`, in the query `q` with the real fields
`fs`. An ordinary mapping is replaced by its best candidate. A mapped date is the date of the first
metric; without metrics, the date of a field of the query whose view has the most measures, or the
best candidate if no dimension has a date. (A metric without a date is asked for the date "None".) -/
def Replacement (env : MapEnv) (q : MQuery) (fs : List CField) (m : MapDef) (c : CField) : Prop :=
  (m.name ∉ env.special → ∃ cs, Candidates env m cs ∧ BestCandidate fs cs c) ∧
  (m.name ∈ env.special → ∀ first rest, q.metrics = first :: rest →
    ∃ f d, env.modelField first = .ok f ∧ (f.canonDate = some d ∨ f.canonDate = none ∧ d = "None") ∧
      env.field (d ++ "_" ++ m.name) = .ok c) ∧
  (m.name ∈ env.special → q.metrics = [] →
    (∃ f ∈ fs, ∃ d, f.canonDate = some d ∧ env.field (d ++ "_" ++ m.name) = .ok c ∧
      ∀ n ∈ q.dimensions, env.mapping n = none → ∀ f', env.modelField n = .ok f' →
        ∀ d', f'.canonDate = some d' → d' ≠ "" → d' ≠ d → AtLeastAsManyMeasures env d d') ∨
    ((∀ n ∈ q.dimensions, env.mapping n = none → ∀ f', env.modelField n = .ok f' →
        f'.canonDate = none ∨ f'.canonDate = some "") ∧
      ∃ cs, Candidates env m cs ∧ BestCandidate fs cs c))

/-- Two metrics of the query have different dates (the first one and another). -/
def DatesClash (env : MapEnv) (q : MQuery) : Prop :=
  ∃ first rest f, q.metrics = first :: rest ∧ env.modelField first = .ok f ∧
    ∃ n ∈ rest, ∃ f', env.modelField n = .ok f' ∧ f'.canonDate ≠ f.canonDate

/-- Nothing but names is changed, by `σ`. -/
structure Renamed (σ : String → String) (q q' : MQuery) : Prop where
  metrics : q'.metrics = q.metrics.map σ
  dimensions : q'.dimensions = q.dimensions.map σ
  where_ : q'.where_ = mapClause σ q.where_
  having : q'.having = mapClause σ q.having
  orderBy : q'.orderBy = mapClause σ q.orderBy

/-- An ordinary query: no metric or dimension is named twice and the clauses are ordinary. -/
structure PlainMQuery (q : MQuery) : Prop where
  metrics : q.metrics.Nodup
  dimensions : q.dimensions.Nodup
  where_ : PlainClause q.where_
  having : PlainClause q.having
  orderBy : PlainClause q.orderBy

/-! ### Queries of mapped names only -/

/-- The mapped names of the query with their candidates, by name and as fields. -/
structure CandidateTables (env : MapEnv) (q : MQuery) (tables : List (String × List (String × CField))) : Prop where
  names : (tables.map (·.1)).Nodup
  uses : ∀ n, n ∈ tables.map (·.1) ↔ Uses q n
  candidates : ∀ e ∈ tables, ∃ m, env.mapping e.1 = some m ∧ e.2.map (·.1) = m.fields ∧ ∀ p ∈ e.2, env.field p.1 = .ok p.2

/-- Two candidates go together: they are different fields that share a join graph. -/
def GoTogether (p p' : String × CField) : Prop := p.1 ≠ p'.1 ∧ MergeableWith [p'.2] p.2

/-- The first of the candidates that goes with `p`. -/
def IsPartner (cs : List (String × CField)) (p p' : String × CField) : Prop :=
  ∃ pre post, cs = pre ++ p' :: post ∧ GoTogether p p' ∧ ∀ x ∈ pre, ¬ GoTogether p x

open Classical in
/-- The points of the candidate `p` of the mapped name `a`: every other mapped name has a partner for it; a point for each partner in the
same view, and one for each that can be joined with it. -/
def HasPoints (tables : List (String × List (String × CField))) (a : String) (p : String × CField) (k : ℕ) : Prop :=
  ∃ partners : List (String × CField),
    List.Forall₂ (fun e p' => IsPartner e.2 p p') (tables.filter (fun e => e.1 ≠ a)) partners ∧
    k = (partners.filter (fun p' => ∃ v, ViewPart p.1 v ∧ ViewPart p'.1 v)).length +
      (partners.filter (fun p' => JoinableWith [p'.2] p.2)).length

end ML.Spec
