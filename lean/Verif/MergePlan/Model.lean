import Verif.Dict
import Mathlib.Data.List.Sort
import Mathlib.Data.List.Dedup
import Mathlib.Data.String.Basic
/-
How a merged query is divided into sub-queries: sql/merged_query_resolve.py 112-404. The project and the model are
given by what the code asks them: the field of a name, the fields a metric refers to, the mappings.
-/
set_option autoImplicit false
namespace ML

/-- What the code reads of a field, merged_query_resolve.py 112-380: `id()`, `view.name`, `name`, `dimension_group`,
`field_type == "measure"`, `canon_date`, `join_graphs()` and `is_merged_result`. Fields are equal if their ids are,
field.py 167-170. -/
structure PField where
  id : String
  view : String
  name : String
  group : Option String
  measure : Bool
  canon : Option String
  graphs : List String
  merged : Bool
  deriving DecidableEq, Repr

/-- `f"{field.view.name}.{field.name}"`, merged_query_resolve.py 188. -/
def PField.key (f : PField) : String := f.view ++ "." ++ f.name

/-- One reference of a mapping, model.py 415: the mapped field and the join graph of its view. -/
structure MapTo where
  field : String
  toHash : String
  deriving DecidableEq, Repr

/-- One mapping of `get_mappings`, model.py 377-430. -/
structure MapData where
  key : String
  fromHash : String
  refs : List MapTo
  deriving DecidableEq, Repr

/-- What the project and the model answer: `get_field`, `get_field_by_name`, `referenced_fields` (`none` for a reference
that is not found) and `get_mappings(dimensions_only=True)`, merged_query_resolve.py 118-175. -/
structure PlanEnv where
  getField : String → Res PField
  getFieldByName : String → Res PField
  refs : PField → List (Option PField)
  mappings : List MapData

/-- A WHERE condition: a leaf with its field and the text of its other keys, a group, a literal text, or the `None` that
`_parse_where_filter` makes of a literal, merged_query_resolve.py 276-285. -/
inductive MWhere
  | cond (field : String) (rest : String)
  | group (rest : String) (conds : List MWhere)
  | literal (text : String)
  | null
  deriving Repr

/-! ### Texts -/

/-- `text.replace(".", "_")`, merged_query_resolve.py 393. -/
def dotsToUnderscores (s : String) : String := String.ofList (s.toList.map (fun c => if c = '.' then '_' else c))

/-- `"_".join(parts)`, merged_query_resolve.py 379. -/
def underscoreJoin : List String → String
  | [] => ""
  | [a] => a
  | a :: b :: l => a ++ "_" ++ underscoreJoin (b :: l)

/-- `_cte_name_from_parts`, merged_query_resolve.py 391-394. -/
def cteName (date : String) (graphHash : String) : String := dotsToUnderscores date ++ "__" ++ graphHash

/-- The scan of `text.split(sep)` for a separator of several characters; `skip` characters of a separator remain.
Used at merged_query_resolve.py 385. -/
def splitSubGo (sep : List Char) : ℕ → List Char → List (List Char)
  | _, [] => [[]]
  | skip + 1, _ :: cs => splitSubGo sep skip cs
  | 0, c :: cs =>
    if sep.isPrefixOf (c :: cs) then [] :: splitSubGo sep (sep.length - 1) cs
    else
      match splitSubGo sep 0 cs with
      | [] => [[c]]
      | p :: ps => (c :: p) :: ps

/-- `text.split(sep)`, merged_query_resolve.py 300, 304 and 385. -/
def splitSub (sep text : List Char) : List (List Char) := splitSubGo sep 0 text

/-- `text.strip("_")`, merged_query_resolve.py 304 and 386. -/
def stripUnderscores (s : List Char) : List Char :=
  ((s.dropWhile (· = '_')).reverse.dropWhile (· = '_')).reverse

/-- `text.isdigit()`, ASCII digits only, merged_query_resolve.py 387. -/
def allDigits (s : List Char) : Bool := !s.isEmpty && s.all Char.isDigit

/-- `_join_hash_contains_join_graph`, merged_query_resolve.py 381-389. -/
def hashContains (joinHash : String) (graphs : List String) : Bool :=
  let parts := (splitSub "subquery".toList joinHash.toList).map stripUnderscores
  let numbers := parts.filter allDigits
  graphs.any (fun g => numbers.any (fun n => g = String.ofList ("subquery_".toList ++ n)))

/-! ### Dictionaries of lists -/

/-- `d[k].append(v)` for a `defaultdict(list)`, merged_query_resolve.py 151. -/
def dictAppend {V : Type} (d : List (String × List V)) (k : String) (v : V) : List (String × List V) :=
  dictSet d k ((dictGet d k).getD [] ++ [v])

/-- `deduplicate_fields`, merged_query_resolve.py 396-399: of fields with the same id the first is kept. -/
def dedupFields : List PField → List PField → List PField
  | _, [] => []
  | seen, f :: fs => if seen.any (fun g => g.id = f.id) then dedupFields seen fs else f :: dedupFields (seen ++ [f]) fs

/-- `deduplicate_fields` on the whole dictionary, merged_query_resolve.py 396-399. -/
def dedupDict (d : List (String × List PField)) : List (String × List PField) := d.map (fun p => (p.1, dedupFields [] p.2))

/-! ### Metrics -/

/-- `_join_hash_key`, merged_query_resolve.py 368-379. -/
def joinHashKey (env : PlanEnv) (f : PField) : Res String :=
  match f.measure, f.canon with
  | true, some c =>
    match env.getFieldByName c with
    | .error e => .error e
    | .ok g => .ok (underscoreJoin (g.graphs.filter (fun j => !containsSub "merged_result".toList j.toList)))
  | _, _ => .ok (underscoreJoin (f.graphs.filter (fun j => !containsSub "merged_result".toList j.toList)))

/-- The loop over the requested metrics, merged_query_resolve.py 119-124. -/
def splitMetrics (env : PlanEnv) : List String → Res (List PField × List PField)
  | [] => .ok ([], [])
  | m :: ms =>
    match env.getField m with
    | .error e => .error e
    | .ok f =>
      match splitMetrics env ms with
      | .error e => .error e
      | .ok (mg, sec) => .ok (if f.merged then (f :: mg, sec) else (mg, f :: sec))

/-- The loop over the HAVING conditions, merged_query_resolve.py 126-133: the ids are those of the requested metrics. -/
def havingMetrics (env : PlanEnv) (mergedIds secIds : List String) : List String → Res (List PField × List PField)
  | [] => .ok ([], [])
  | h :: hs =>
    match env.getField h with
    | .error e => .error e
    | .ok f =>
      match havingMetrics env mergedIds secIds hs with
      | .error e => .error e
      | .ok (mg, sec) =>
        if f.id ∉ secIds ∧ f.merged = false then .ok (mg, f :: sec)
        else if f.id ∉ mergedIds ∧ f.merged = true then .ok (f :: mg, sec)
        else .ok (mg, sec)

/-- The inner loop over the references of a merged metric, merged_query_resolve.py 139-151. -/
def placeRefs (env : PlanEnv) : List (Option PField) → List (String × List PField) → Res (List (String × List PField))
  | [], q => .ok q
  | none :: _, _ => .error .query
  | some f :: fs, q =>
    match f.canon with
    | none => .error .query
    | some c =>
      match joinHashKey env f with
      | .error e => .error e
      | .ok g => placeRefs env fs (dictAppend q (cteName c g) f)

/-- The loop over the merged metrics, merged_query_resolve.py 138-151. -/
def placeMerged (env : PlanEnv) : List PField → List (String × List PField) → Res (List (String × List PField))
  | [], q => .ok q
  | m :: ms, q =>
    match placeRefs env (env.refs m) q with
    | .error e => .error e
    | .ok q => placeMerged env ms q

/-- The loop over the other metrics, merged_query_resolve.py 153-167. -/
def placeSecondary (env : PlanEnv) : List PField → List (String × List PField) → Res (List (String × List PField))
  | [], q => .ok q
  | f :: fs, q =>
    match joinHashKey env f with
    | .error e => .error e
    | .ok g =>
      match f.canon with
      | none => .error .query
      | some c =>
        let key := cteName c g
        if ((dictGet q key).getD []).any (fun x => f.id = x.id) then placeSecondary env fs q
        else placeSecondary env fs (dictAppend q key f)

/-- The metrics of each sub-query, merged_query_resolve.py 113-169: the merged metrics, the others, and the dictionary. -/
def placeMetrics (env : PlanEnv) (metrics having : List String) :
    Res (List PField × List PField × List (String × List PField)) :=
  match splitMetrics env metrics with
  | .error e => .error e
  | .ok (mg, sec) =>
    match havingMetrics env (mg.map PField.id) (sec.map PField.id) having with
    | .error e => .error e
    | .ok (mg', sec') =>
      match placeMerged env (mg ++ mg') [] with
      | .error e => .error e
      | .ok q =>
        match placeSecondary env (sec ++ sec') q with
        | .error e => .error e
        | .ok q => .ok (mg ++ mg', sec ++ sec', dedupDict q)

/-! ### Canonical dates -/

/-- The references' dates, merged_query_resolve.py 323-325. -/
def refDates (env : PlanEnv) (mg : List PField) : List (Option String) :=
  mg.flatMap (fun m => (env.refs m).map (fun r => r.bind PField.canon))

/-- One turn of the loop of merged_query_resolve.py 328-349: the dates so far and the joinable sets so far. -/
def dateStep (anyMetric : Bool) (acc : List (Option String) × List (List String)) (f : PField) :
    List (Option String) × List (List String) :=
  let graphs := f.graphs.filter (fun j => !containsSub "merged_result".toList j.toList)
  let allJoinable := acc.2.all (fun s => graphs.any (fun j => j ∈ s))
  let anyJoinable := acc.2.any (fun s => graphs.any (fun j => j ∈ s))
  let cannotJoinToAll := !allJoinable || acc.2.isEmpty
  let dateMissing := decide (f.canon ∉ acc.1) && f.measure
  let measureCannot := if anyMetric then cannotJoinToAll && f.measure else cannotJoinToAll
  let dimCannot := !f.measure && !anyJoinable
  if (f.canon.isSome && decide (f.canon ≠ some "")) && (measureCannot || dimCannot || dateMissing) then
    (acc.1 ++ [f.canon], acc.2 ++ [graphs])
  else acc

/-- `canon_dates`, merged_query_resolve.py 321-351. The references of a placed merged metric all have a date. -/
def canonDates (env : PlanEnv) (mg sec dims : List PField) (q : List (String × List PField)) : List String :=
  let fields := q.flatMap (·.2) ++ dims
  let dates := (fields.foldl (dateStep (!(sec ++ mg).isEmpty)) (refDates env mg, [])).1
  ((dates.filterMap id).dedup).insertionSort (· ≤ ·)

/-- An entry of `dimension_mapping`, merged_query_resolve.py 182-184 and 358: the mapped field, the sub-query it is in and,
for model mappings, the join graph of its view. -/
structure DimMap where
  field : String
  fromHash : String
  toHash : Option String
  deriving DecidableEq, Repr

/-- The loop of merged_query_resolve.py 352-360 over the other dates. -/
def dateMapInner (env : PlanEnv) (dst : String) : List String → List (String × List DimMap) × List String →
    Res (List (String × List DimMap) × List String)
  | [], acc => .ok acc
  | fr :: frs, acc =>
    if dst = fr then dateMapInner env dst frs acc
    else
      match env.getFieldByName fr with
      | .error e => .error e
      | .ok f =>
        match joinHashKey env f with
        | .error e => .error e
        | .ok g => dateMapInner env dst frs (dictAppend acc.1 dst ⟨fr, cteName fr g, none⟩, acc.2 ++ [cteName fr g])

/-- The loop of merged_query_resolve.py 352-360. -/
def dateMap (env : PlanEnv) (dates : List String) : List String → List (String × List DimMap) × List String →
    Res (List (String × List DimMap) × List String)
  | [], acc => .ok acc
  | dst :: dsts, acc =>
    match dateMapInner env dst dates acc with
    | .error e => .error e
    | .ok acc => dateMap env dates dsts acc

/-- The sort key of merged_query_resolve.py 362-365: the position as text, or the name itself. -/
def hashSortKey (q : List (String × List PField)) (h : String) : String :=
  let keys := q.map (·.1)
  if h ∈ keys then toString (keys.idxOf h) else h

/-- `_canon_date_mapping`, merged_query_resolve.py 320-366. -/
def canonDateMapping (env : PlanEnv) (mg sec dims : List PField) (q : List (String × List PField)) :
    Res (List (String × List DimMap) × List String × List String) :=
  let dates := canonDates env mg sec dims q
  match dateMap env dates dates ([], []) with
  | .error e => .error e
  | .ok (m, hashes) => .ok (m, dates, hashes.dedup.insertionSort (fun a b => hashSortKey q a ≤ hashSortKey q b))

/-! ### Mappings -/

/-- The inner loop over the used sub-queries, merged_query_resolve.py 177-184; `fr` is the `from_join_hash` the entry has at that
moment. -/
def mapToUsed (key : String) (m : MapTo) : List String → String → List (String × List DimMap) × List (String × List (String × String)) →
    List (String × List DimMap) × List (String × List (String × String))
  | [], _, acc => acc
  | h :: hs, fr, acc =>
    if hashContains h [m.toHash] then
      mapToUsed key m hs h (dictAppend acc.1 key ⟨m.field, h, some m.toHash⟩, dictAppend acc.2 key (m.field, h))
    else mapToUsed key m hs fr (dictAppend acc.1 key ⟨m.field, fr, some m.toHash⟩, acc.2)

/-- The loops of merged_query_resolve.py 174-184. The result: `dimension_mapping` and `mapping_lookup`. -/
def addMappings (used : List String) (data : List MapData) (dm : List (String × List DimMap)) :
    List (String × List DimMap) × List (String × List (String × String)) :=
  data.foldl (fun acc d => d.refs.foldl (fun acc m => mapToUsed d.key m used d.fromHash acc) acc)
    (dm, dm.map (fun p => (p.1, p.2.map (fun x => (x.field, x.fromHash)))))

/-! ### Dimensions -/

/-- The loop of merged_query_resolve.py 196-199 over the mapped dates of a date. -/
def attachDates (env : PlanEnv) (group : Option String) : List DimMap → List (String × List PField) → Res (List (String × List PField))
  | [], qd => .ok qd
  | m :: ms, qd =>
    match env.getField (m.field ++ "_" ++ group.getD "None") with
    | .error e => .error e
    | .ok f => attachDates env group ms (dictAppend qd m.fromHash f)

/-- The loop of merged_query_resolve.py 223-239 over the mappings, for one sub-query that cannot join the dimension. Line 237 asks
whether the name of the mapped field's join graph is a substring of the sub-query's name. -/
def attachMapped (env : PlanEnv) (metricKeys : List String) (h : String) : List DimMap → List (String × List PField) →
    Res (List (String × List PField))
  | [], qd => .ok qd
  | m :: ms, qd =>
    match env.getField m.field with
    | .error e => .error e
    | .ok f =>
      if m.fromHash ∈ metricKeys ∧ m.fromHash = h then attachMapped env metricKeys h ms (dictAppend qd m.fromHash f)
      else
        match f.canon with
        | none => .error .attributeError
        | some _ =>
          match m.toHash with
          | none => .error .keyError
          | some t =>
            if containsSub t.toList h.toList then .ok (dictAppend qd h f)
            else attachMapped env metricKeys h ms qd

/-- The loop of merged_query_resolve.py 202-239 over the sub-queries; the Boolean is `not_in_metrics`. -/
def attachUsed (env : PlanEnv) (metricKeys : List String) (dm : List (String × List DimMap)) (f : PField) :
    List String → Bool → List (String × List PField) → Res (Bool × List (String × List PField))
  | [], b, qd => .ok (b, qd)
  | h :: hs, b, qd =>
    if hashContains h f.graphs then attachUsed env metricKeys dm f hs false (dictAppend qd h f)
    else
      match dictGet dm f.key with
      | none => .error .query
      | some ms =>
        match attachMapped env metricKeys h ms qd with
        | .error e => .error e
        | .ok qd => attachUsed env metricKeys dm f hs b qd

/-- The loop of merged_query_resolve.py 247-251 over the mappings of a dimension that no metric's sub-query can join. -/
def attachOwn (env : PlanEnv) : List DimMap → List (String × List PField) → Res (List (String × List PField))
  | [], qd => .ok qd
  | m :: ms, qd =>
    match env.getField m.field with
    | .error e => .error e
    | .ok f =>
      match f.canon with
      | none => .error .attributeError
      | some c =>
        match m.toHash with
        | none => .error .keyError
        | some t => attachOwn env ms (dictAppend qd (cteName c t) f)

/-- One turn of the loop over the dimensions, merged_query_resolve.py 187-251: the metrics and dimensions of the sub-queries. -/
def attachDimension (env : PlanEnv) (dm : List (String × List DimMap)) (dates used : List String) (name : String)
    (acc : List (String × List PField) × List (String × List PField)) :
    Res (List (String × List PField) × List (String × List PField)) :=
  match env.getField name with
  | .error e => .error e
  | .ok f =>
    match joinHashKey env f with
    | .error e => .error e
    | .ok g =>
      if f.key ∈ dates then
        match attachDates env f.group ((dictGet dm f.key).getD []) (dictAppend acc.2 (cteName f.key g) f) with
        | .error e => .error e
        | .ok qd => .ok (acc.1, qd)
      else
        match attachUsed env (acc.1.map (·.1)) dm f used true acc.2 with
        | .error e => .error e
        | .ok (false, qd) => .ok (acc.1, qd)
        | .ok (true, qd) =>
          match f.canon with
          | none => .error .attributeError
          | some c =>
            match attachOwn env ((dictGet dm f.key).getD []) (dictAppend qd (cteName c g) f) with
            | .error e => .error e
            | .ok qd => .ok (dictSet acc.1 (cteName c g) [], qd)

/-- The loop over the dimensions, merged_query_resolve.py 186-251. -/
def attachDimensions (env : PlanEnv) (dm : List (String × List DimMap)) (dates used : List String) :
    List String → List (String × List PField) × List (String × List PField) →
    Res (List (String × List PField) × List (String × List PField))
  | [], acc => .ok acc
  | d :: ds, acc =>
    match attachDimension env dm dates used d acc with
    | .error e => .error e
    | .ok acc => attachDimensions env dm dates used ds acc

/-! ### WHERE -/

/-- `joinable_subqueries`, merged_query_resolve.py 300-305. -/
def joinableSubqueries (joinHash : String) : List String :=
  let last := ((splitSub "__".toList joinHash.toList).getLast?).getD []
  ((splitSub "subquery".toList last).filter (fun g => g ≠ [])).map (fun g =>
    String.ofList (stripUnderscores ("subquery".toList ++ g)))

/-- The loop of merged_query_resolve.py 311-318: the first mapping into this sub-query. -/
def mapWhere (env : PlanEnv) (group : Option String) (joinHash : String) (field rest : String) : List DimMap → Res MWhere
  | [] => .ok (.cond field rest)
  | m :: ms =>
    if m.fromHash = joinHash then
      match env.getField (match group with | none => m.field | some g => m.field ++ "_" ++ g) with
      | .error e => .error e
      | .ok f => .ok (.cond f.id rest)
    else mapWhere env group joinHash field rest ms

/-- `_resolve_where_mapped_filter`, merged_query_resolve.py 287-318. -/
def resolveWhereLeaf (env : PlanEnv) (qm : List (String × List PField)) (dm : List (String × List DimMap)) (joinHash : String)
    (field rest : String) : Res MWhere :=
  match env.getField field with
  | .error e => .error e
  | .ok f =>
    let isCanonDate := (qm.flatMap (·.2)).any (fun m => m.canon = some f.key)
    match joinHashKey env f with
    | .error e => .error e
    | .ok g =>
      let withDate := f.view ++ "_" ++ f.name ++ "__" ++ g
      if (!isCanonDate && decide (g ∈ joinableSubqueries joinHash)) || (isCanonDate && containsSub withDate.toList joinHash.toList) then
        .ok (.cond field rest)
      else mapWhere env f.group joinHash field rest ((dictGet dm f.key).getD [])

mutual
/-- `_parse_where_filter`, merged_query_resolve.py 276-285. -/
def resolveWhere (env : PlanEnv) (qm : List (String × List PField)) (dm : List (String × List DimMap)) (joinHash : String) :
    MWhere → Res MWhere
  | .cond field rest => resolveWhereLeaf env qm dm joinHash field rest
  | .group rest conds =>
    match resolveWheres env qm dm joinHash conds with
    | .error e => .error e
    | .ok cs => .ok (.group rest cs)
  | .literal _ => .ok .null
  | .null => .ok .null

/-- The list comprehension of merged_query_resolve.py 280. -/
def resolveWheres (env : PlanEnv) (qm : List (String × List PField)) (dm : List (String × List DimMap)) (joinHash : String) :
    List MWhere → Res (List MWhere)
  | [] => .ok []
  | w :: ws =>
    match resolveWhere env qm dm joinHash w with
    | .error e => .error e
    | .ok c =>
      match resolveWheres env qm dm joinHash ws with
      | .error e => .error e
      | .ok cs => .ok (c :: cs)
end

mutual
/-- Equality of conditions as Booleans. The code compares SHA-256 digests of their texts, merged_query_resolve.py 401-404; different
texts are taken to have different digests. -/
def MWhere.same : MWhere → MWhere → Bool
  | .cond f r, .cond f' r' => decide (f = f' ∧ r = r')
  | .group r c, .group r' c' => decide (r = r') && MWhere.sameList c c'
  | .literal t, .literal t' => decide (t = t')
  | .null, .null => true
  | _, _ => false

/-- Equality of lists of conditions, merged_query_resolve.py 401-404. -/
def MWhere.sameList : List MWhere → List MWhere → Bool
  | [], [] => true
  | a :: as, b :: bs => a.same b && MWhere.sameList as bs
  | _, _ => false
end

/-- The loop of merged_query_resolve.py 264-273: each condition once, in the order of the first occurrence; `None` has no items. -/
def cleanWhere : List MWhere → List MWhere → Res (List MWhere)
  | seen, [] => .ok seen
  | seen, w :: ws =>
    match w with
    | .null => .error .attributeError
    | w => if seen.any (fun x => x.same w) then cleanWhere seen ws else cleanWhere (seen ++ [w]) ws

/-- The conditions of one sub-query, merged_query_resolve.py 258-274. -/
def subqueryWhere (env : PlanEnv) (qm : List (String × List PField)) (dm : List (String × List DimMap)) (wheres : List MWhere)
    (joinHash : String) : Res (List MWhere) :=
  match resolveWheres env qm dm joinHash wheres with
  | .error e => .error e
  | .ok ws => cleanWhere [] ws

/-- The plan of a merged query. merged_query_resolve.py 112-404. -/
structure Plan where
  metrics : List (String × List PField)
  dims : List (String × List PField)
  where_ : List (String × List MWhere)
  lookup : List (String × List (String × String))

/-- The conditions of all sub-queries, merged_query_resolve.py 255-274. -/
def allWheres (env : PlanEnv) (qm : List (String × List PField)) (dm : List (String × List DimMap)) (wheres : List MWhere) :
    List String → Res (List (String × List MWhere))
  | [] => .ok []
  | h :: hs =>
    match subqueryWhere env qm dm wheres h with
    | .error e => .error e
    | .ok w =>
      match allWheres env qm dm wheres hs with
      | .error e => .error e
      | .ok l => .ok ((h, w) :: l)

/-- `list(...)` of the fields of the dimensions, merged_query_resolve.py 135-136. -/
def getFields (env : PlanEnv) : List String → Res (List PField)
  | [] => .ok []
  | d :: ds =>
    match env.getField d with
    | .error e => .error e
    | .ok f =>
      match getFields env ds with
      | .error e => .error e
      | .ok fs => .ok (f :: fs)

/-- `derive_sub_queries`, merged_query_resolve.py 112-274. Simplification: the dimensions are looked up after the metrics are placed,
which changes only which of two errors is raised. -/
def derivePlan (env : PlanEnv) (metrics having dimensions : List String) (wheres : List MWhere) : Res Plan :=
  match placeMetrics env metrics having with
  | .error e => .error e
  | .ok (mg, sec, q) =>
    match getFields env dimensions with
    | .error e => .error e
    | .ok dimFields =>
      match canonDateMapping env mg sec dimFields q with
      | .error e => .error e
      | .ok (dm, dates, used) =>
        let (dm, lookup) := addMappings used env.mappings dm
        match attachDimensions env dm dates used dimensions (q, []) with
        | .error e => .error e
        | .ok (qm, qd) =>
          let qd := dedupDict qd
          match allWheres env qm dm wheres ((qm.map (·.1) ++ qd.map (·.1)).reverse.dedup.reverse) with
          | .error e => .error e
          | .ok w => .ok ⟨qm, qd, w, lookup⟩

end ML
