import Verif.Usable.PropsMap
/-
C59: a concrete project with two join graphs, a view usable with both and a mapping; and what goes wrong with two models.
-/
set_option autoImplicit false
namespace ML
open Spec

/-- `orders.total`, dated by the default date of its view. -/
def eTotal : UField :=
  ⟨"orders", "total", .measure, "sum", some ⟨["TABLE"], false⟩, none, none, none, none, some "ordered", none⟩
/-- `visits.count`, dated by its own `canon_date`. -/
def eCount : UField :=
  ⟨"visits", "count", .measure, "count", some ⟨["TABLE"], false⟩, none, none, none, some "${visits.seen}", some "other", none⟩
/-- `visits.undated`, a metric without a date. -/
def eUndated : UField := ⟨"visits", "undated", .measure, "count", some ⟨["TABLE"], false⟩, none, none, none, none, none, none⟩
/-- `orders.rate`, total over visits: the dates of its two metrics are in different join graphs. -/
def eRate : UField :=
  ⟨"orders", "rate", .measure, "number", some ⟨["orders.total", "visits.count"], false⟩, none, none, none, none, some "ordered", none⟩

def eGet : UGet := fun _ n =>
  if n = "orders.total" then .ok eTotal else if n = "visits.count" then .ok eCount else .error .accessDenied

def eWeak (v : String) : List String :=
  if v = "orders" then ["g0"] else if v = "visits" then ["g1"] else if v = "people" then ["g0", "g1", "g2"] else []

/-- The fields that mappings name. -/
def eField : String → Res MField := fun n =>
  if n = "orders.channel" then .ok ⟨.dimension, .ok "g0"⟩
  else if n = "visits.source" then .ok ⟨.dimension, .ok "g1"⟩
  else if n = "orders.ordered" then .ok ⟨.group, .ok "g0"⟩
  else if n = "visits.seen" then .ok ⟨.group, .ok "g1"⟩
  else if n = "orders.total" then .ok ⟨.measure, .ok "g0"⟩
  else if n = "visits.count" then .ok ⟨.measure, .ok "g1"⟩
  else .error .accessDenied

def eMaps : List (Bool × List String) :=
  [(false, ["orders.channel", "visits.source", "hidden.medium"]), (true, ["orders.ordered", "visits.seen"]),
   (false, ["orders.total", "visits.count"])]

def eEntries : List (String × MEntry) :=
  [("orders.channel", ⟨[⟨"visits.source", "g1"⟩], .dimension, "g0", false⟩),
   ("visits.source", ⟨[⟨"orders.channel", "g0"⟩], .dimension, "g1", false⟩),
   ("orders.ordered", ⟨[⟨"visits.seen", "g1"⟩], .group, "g0", true⟩),
   ("visits.seen", ⟨[⟨"orders.ordered", "g0"⟩], .group, "g1", true⟩)]

theorem eEntries_read : getMappings eField true [] eMaps = .ok eEntries := by decide +kernel

-- with measures the third mapping counts too
example : ∃ d, getMappings eField false [] eMaps = .ok d ∧ Offers d "orders.total" "visits.count" "g1" :=
  ⟨eEntries ++ [("orders.total", ⟨[⟨"visits.count", "g1"⟩], .measure, "g0", false⟩),
    ("visits.count", ⟨[⟨"orders.total", "g0"⟩], .measure, "g1", false⟩)], by decide +kernel,
    ⟨⟨[⟨"visits.count", "g1"⟩], .measure, "g0", false⟩, by decide, List.mem_cons_self⟩⟩

-- a date in an ordinary mapping is refused
example : getMappings eField true [] [(false, ["orders.ordered", "visits.seen"])] = .error .query := by decide +kernel
-- and so are fields of different kinds
example : getMappings eField true [] [(false, ["orders.channel", "visits.count"])] = .error .query := by decide +kernel

def eEnv : MEnv where
  measures := [eTotal, eCount, eUndated]
  hash v := if v = "orders" then .ok "g0" else if v = "visits" then .ok "g1" else .error .other
  weak := eWeak
  date c := if c = "orders.ordered" then .ok ⟨"orders", "ordered", some ["date", "month"]⟩
    else if c = "visits.seen" then .ok ⟨"visits", "seen", some ["month"]⟩ else .error .accessDenied
  views := [("orders", ["orders.total", "orders.channel"]), ("people", ["people.name"])]
  mappings := getMappings eField true [] eMaps
  idOf n := .ok n

def eEdges : MEdges :=
  [("canon_date_core_date", "orders.ordered_date"), ("canon_date_core_date", "orders.total"),
   ("canon_date_core_month", "orders.ordered_month"), ("canon_date_core_month", "orders.total"),
   ("canon_date_core_month", "visits.seen_month"), ("canon_date_core_month", "visits.count"),
   ("g0_g1_date", "orders.ordered_date"), ("g0_g1_date", "orders.total"),
   ("g0_g1_month", "orders.ordered_month"), ("g0_g1_month", "orders.total"),
   ("g0_g1_month", "visits.seen_month"), ("g0_g1_month", "visits.count"),
   ("g0_g1_date", "people.name"), ("g0_g1_month", "people.name"),
   ("g0_g1_date", "orders.channel"), ("g0_g1_date", "visits.source"),
   ("g0_g1_month", "orders.channel"), ("g0_g1_month", "visits.source"),
   ("g0_g1_date", "visits.source"), ("g0_g1_date", "orders.channel"),
   ("g0_g1_month", "visits.source"), ("g0_g1_month", "orders.channel")]

theorem eEdges_built : mergedEdges eEnv = .ok eEdges := by decide +kernel

-- the statements (a), (c), (d) and (e) on this project
example : ("g0_g1_month", "people.name") ∈ eEdges ∧ ("canon_date_core_month", "people.name") ∉ eEdges := by decide
example (r i : String) : (r, i) ∈ eEdges ↔ Linked eEnv eEntries r i :=
  C59_linked eEnv eEntries eEntries_read (C59_no_measures eField eMaps eEntries eEntries_read) eEdges eEdges_built r i
theorem eTotal_dated : Dated eEnv eTotal ⟨"orders", "ordered", some ["date", "month"]⟩ "month" :=
  ⟨by decide, by decide, ⟨"orders.ordered", by decide +kernel, rfl⟩, _, rfl, by decide⟩
example : "merged_result_canon_date_core_month" ∈ mergedNames eEdges none eTotal :=
  C59_trend eEnv eEntries eEntries_read (C59_no_measures eField eMaps eEntries eEntries_read) eEdges eEdges_built
    eTotal _ "month" eTotal_dated eTotal (.inl rfl)
example : mergedNames eEdges none eTotal = ["merged_result_canon_date_core_date", "merged_result_canon_date_core_month",
    "merged_result_g0_g1_date", "merged_result_g0_g1_month"] := by decide +kernel
example : Offers eEntries "orders.channel" "visits.source" "g1" ∧ ¬ Offers eEntries "orders.total" "visits.count" "g1" := by
  constructor
  · exact ⟨_, List.mem_cons_self, List.mem_cons_self⟩
  · rintro ⟨e, he, -⟩
    simp [eEntries] at he

-- statement (f): the rate of two metrics of different join graphs is listed in merged results only
theorem eGet_formed : ∀ v n g, eGet v n = .ok g → Formed g := by
  intro v n g h
  unfold eGet at h
  split at h
  · cases h; exact ⟨fun h => absurd h (by decide), fun _ => .inl rfl, fun s hs => by cases hs; rfl⟩
  · split at h
    · cases h; exact ⟨fun h => absurd h (by decide), fun _ => .inl rfl, fun s hs => by cases hs; rfl⟩
    · cases h
example : Formed eRate ∧ isCumulative eGet 5 eRate = .ok false ∧ losesJoins eGet eWeak 5 eRate = .ok true ∧
    joinGraphs eGet eWeak (fun _ => ["merged_result_x"]) 5 eRate = .ok ["merged_result_x"] ∧
    DatedIn eGet eRate "orders" ∧ DatedIn eGet eRate "visits" :=
  ⟨⟨fun h => absurd h (by decide), fun _ => .inl rfl, fun s hs => by cases hs; rfl⟩, by decide +kernel, by decide +kernel,
    by decide +kernel,
    ⟨eTotal, .direct ⟨"orders.total", by decide, by decide, rfl⟩ (by decide), rfl, by decide, "ordered", by decide +kernel, by decide, by decide⟩,
    ⟨eCount, .direct ⟨"visits.count", by decide, by decide, rfl⟩ (by decide), rfl, by decide, "seen", by decide +kernel, by decide, by decide⟩⟩

-- a metric whose date is not seen
example : ∃ es hs, dateEdges eEnv "r" none [eTotal, eUndated] = .ok (es, hs) :=
  C59_total eEnv "r" none [eTotal, eUndated] (by
    intro m hm
    simp only [List.mem_cons, List.not_mem_nil, or_false] at hm
    rcases hm with rfl | rfl
    · exact ⟨⟨"g0", by decide +kernel⟩, fun c hc => .inr ⟨⟨"orders", "ordered", some ["date", "month"]⟩, _, by
        have : c = "orders.ordered" := by
          have e : eTotal.canonDate = some "orders.ordered" := by decide +kernel
          exact (Option.some.inj (e.symm.trans hc)).symm
        rw [this]; rfl, rfl⟩⟩
    · refine ⟨⟨"g1", by decide +kernel⟩, fun c hc => ?_⟩
      cases e : eUndated.canonDate with
      | none => rw [e] at hc; cases hc
      | some x => exact absurd e (by decide +revert +kernel))

/-- The same project's second model: one dated metric. -/
def eEnv2 : MEnv where
  measures := [⟨"stock", "level", .measure, "sum", some ⟨["TABLE"], false⟩, none, none, none, none, some "taken", none⟩]
  hash _ := .ok "g5"
  weak _ := ["g5"]
  date _ := .ok ⟨"stock", "taken", some ["date"]⟩
  views := []
  mappings := .ok []
  idOf n := .ok n

/-- C59 (g): in a project with two models, the merged results of the second model are those of the first when the first was asked before:
the metric of the second model is then in no merged result although its own graph has one. -/
theorem C59_first_model : ∃ (a b : MEnv) (m : UField) (es : MEdges) (cache : Option MEdges) (own seen : MEdges),
    mergedCached none a = .ok (es, cache) ∧ mergedEdges b = .ok own ∧ (∃ c, mergedCached cache b = .ok (seen, c)) ∧
    m ∈ b.measures ∧ mergedNames own none m ≠ [] ∧ mergedNames seen none m = [] :=
  ⟨eEnv, eEnv2, ⟨"stock", "level", .measure, "sum", some ⟨["TABLE"], false⟩, none, none, none, none, some "taken", none⟩,
    eEdges, some eEdges, [("canon_date_core_date", "stock.taken_date"), ("canon_date_core_date", "stock.level")], eEdges,
    by decide +kernel, by decide +kernel, ⟨some eEdges, rfl⟩, by decide, by decide +kernel, by decide +kernel⟩

end ML
