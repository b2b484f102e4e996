import Verif.Secure.Props
import Verif.Answer.PropsEx
/-
C80: who is affected, the views that are joined, the cases where hidden rows show, and concrete cases.
-/
set_option autoImplicit false
namespace ML
open Spec

/-- The filter is in force exactly when the user has its attribute, not empty. -/
theorem inForce_iff (user : Option User) (af : AccessFilter) :
    inForce user af = true ↔ ∃ u value, user = some u ∧ HasAttr u af.userAttr value ∧ value ≠ "" := by
  unfold inForce
  cases user with
  | none => simp
  | some u =>
    simp only [Option.some.injEq]
    cases hg : u.get af.userAttr with
    | none =>
      simp only [Bool.false_eq_true, false_iff]
      rintro ⟨_, v, rfl, hv, -⟩
      rw [← User_get, hg] at hv
      cases hv
    | some v =>
      simp only [bne_iff_ne]
      constructor
      · intro h
        exact ⟨u, v, rfl, (User_get _ _ _).mp hg, h⟩
      · rintro ⟨_, v', rfl, hv', h⟩
        rw [← User_get, hg] at hv'
        cases hv'
        exact h

/-- C80: `is_affected_by_access_filters` says whether the user has a non-empty attribute named by one of the view's filters; if not, the view adds no
comparison, and the user may see all its rows; if so, and a filter writes a comparison, one is added. -/
theorem C80_affected {ρ : Type} (S : SecProject) (E : Engine (JRow ρ)) (test : Nat → Val → TV) (v : String) :
    (isAffected S.user (S.filters v) = true ↔ ∃ af ∈ S.filters v, ∃ u value, S.user = some u ∧ HasAttr u af.userAttr value ∧ value ≠ "") ∧
    (isAffected S.user (S.filters v) = false → S.access [v] = [] ∧ ∀ r, MaySee S E test v r) ∧
    (isAffected S.user (S.filters v) = true → (∀ n value, S.cmp n value ≠ []) → S.access [v] ≠ []) := by
  have h1 : isAffected S.user (S.filters v) = true ↔ ∃ af ∈ S.filters v, ∃ u value, S.user = some u ∧ HasAttr u af.userAttr value ∧ value ≠ "" := by
    unfold isAffected
    simp only [List.any_eq_true, inForce_iff]
  refine ⟨h1, fun h => ⟨?_, ?_⟩, fun h hc => ?_⟩
  · rw [List.eq_nil_iff_forall_not_mem]
    intro i hi
    unfold SecProject.access at hi
    rw [List.flatMap_singleton, mem_accessConditions] at hi
    obtain ⟨af, haf, u, value, h2, h3, h4, -⟩ := hi
    have := h1.mpr ⟨af, haf, u, value, h2, h3, h4⟩
    rw [h] at this
    cases this
  · intro r af haf u value h2 h3 h4
    have := h1.mpr ⟨af, haf, u, value, h2, h3, h4⟩
    rw [h] at this
    cases this
  · obtain ⟨af, haf, u, value, h2, h3, h4⟩ := h1.mp h
    obtain ⟨i, hi⟩ := List.exists_mem_of_ne_nil _ (hc af.field value)
    refine List.ne_nil_of_mem (a := i) ?_
    unfold SecProject.access
    rw [List.flatMap_singleton, mem_accessConditions]
    exact ⟨af, haf, u, value, h2, h3, h4, hi⟩

theorem filterFieldViews_mem {get : String → Res AnsField} {user : Option User} {afs : List AccessFilter} {vs : List String}
    (h : filterFieldViews get user afs = .ok vs) (v : String) :
    v ∈ vs ↔ ∃ af ∈ afs, inForce user af = true ∧ ∃ f, get af.field = .ok f ∧ f.view = v := by
  induction afs generalizing vs with
  | nil => cases h; simp
  | cons af afs ih =>
    rw [filterFieldViews] at h
    cases hf : get af.field with
    | error e => rw [hf] at h; cases h
    | ok f =>
      rw [hf] at h
      cases hr : filterFieldViews get user afs with
      | error e => rw [hr] at h; cases h
      | ok ws =>
        rw [hr] at h
        simp only [Except.ok.injEq] at h
        subst h
        by_cases hi : inForce user af = true
        · rw [if_pos hi, List.mem_cons, ih hr]
          constructor
          · rintro (h | ⟨af', h1, h2⟩)
            · exact ⟨af, by simp, hi, f, hf, h.symm⟩
            · exact ⟨af', by simp [h1], h2⟩
          · rintro ⟨af', h1, h2, f', h3, h4⟩
            rcases List.mem_cons.mp h1 with h1 | h1
            · subst h1
              rw [hf] at h3
              cases h3
              exact .inl h4.symm
            · exact .inr ⟨af', h1, h2, f', h3, h4⟩
        · rw [if_neg hi]
          simp [hi, ih hr]

theorem filterFieldViews_error {get : String → Res AnsField} {user : Option User} (afs : List AccessFilter) :
    (∃ e, filterFieldViews get user afs = .error e) ↔ ∃ af ∈ afs, ∃ e, get af.field = .error e := by
  induction afs with
  | nil => simp [filterFieldViews]
  | cons af afs ih =>
    rw [filterFieldViews]
    cases hf : get af.field with
    | error e => simp [hf]
    | ok f =>
      cases hr : filterFieldViews get user afs with
      | error e =>
        simp only [Except.error.injEq, exists_eq', List.mem_cons, exists_eq_or_imp, hf, reduceCtorEq, exists_false, false_or, true_iff]
        exact ih.mp ⟨e, hr⟩
      | ok ws =>
        simp only [reduceCtorEq, exists_false, List.mem_cons, exists_eq_or_imp, hf, false_or, false_iff]
        intro hc
        obtain ⟨e, he⟩ := ih.mpr hc
        rw [hr] at he
        cases he

/-- C80: the views a query joins are those of its fields and, when some comparison is added, those of the fields of the filters in force; each once. A filter on an
unknown field of any view of the query refuses the query for every user, also without the attribute. -/
theorem C80_required (S : SecProject) (views : List String) :
    (∀ vs, S.requiredViews views = .ok vs → vs.Nodup ∧ ∀ v, v ∈ vs ↔ v ∈ views ∨
      (∃ u ∈ views, ∃ i, Demanded S.user S.cmp (S.filters u) i) ∧ ∃ u ∈ views, ∃ af ∈ S.filters u,
        (∃ us value, S.user = some us ∧ HasAttr us af.userAttr value ∧ value ≠ "") ∧ ∃ f, S.get af.field = .ok f ∧ f.view = v) ∧
    ((∃ e, S.requiredViews views = .error e) ↔ ∃ u ∈ views, ∃ af ∈ S.filters u, ∃ e, S.get af.field = .error e) := by
  have hacc : S.access views = [] ↔ ¬ ∃ u ∈ views, ∃ i, Demanded S.user S.cmp (S.filters u) i := by
    rw [List.eq_nil_iff_forall_not_mem]
    unfold SecProject.access
    simp only [List.mem_flatMap, mem_accessConditions]
    constructor
    · rintro h ⟨u, hu, i, hi⟩
      exact h i ⟨u, hu, hi⟩
    · rintro h i ⟨u, hu, hi⟩
      exact h ⟨u, hu, i, hi⟩
  constructor
  · intro vs h
    unfold SecProject.requiredViews at h
    cases hf : filterFieldViews S.get S.user (views.flatMap S.filters) with
    | error e => rw [hf] at h; cases h
    | ok ws =>
      rw [hf] at h
      simp only [Except.ok.injEq] at h
      have hm := filterFieldViews_mem hf
      by_cases ha : S.access views = []
      · rw [if_pos ha] at h
        subst h
        refine ⟨List.nodup_dedup _, fun v => ?_⟩
        rw [List.mem_dedup]
        have := hacc.mp ha
        constructor
        · exact .inl
        · rintro (h | ⟨h, -⟩)
          · exact h
          · exact absurd h this
      · rw [if_neg ha] at h
        subst h
        refine ⟨List.nodup_dedup _, fun v => ?_⟩
        rw [List.mem_dedup, List.mem_append, hm]
        have := not_not.mp (fun c => ha (hacc.mpr c))
        simp only [List.mem_flatMap, inForce_iff]
        constructor
        · rintro (h | ⟨af, ⟨u, hu, haf⟩, h1, h2⟩)
          · exact .inl h
          · exact .inr ⟨this, u, hu, af, haf, h1, h2⟩
        · rintro (h | ⟨-, u, hu, af, haf, h1, h2⟩)
          · exact .inl h
          · exact .inr ⟨af, ⟨u, hu, haf⟩, h1, h2⟩
  · unfold SecProject.requiredViews
    have he := filterFieldViews_error (get := S.get) (user := S.user) (views.flatMap S.filters)
    cases hf : filterFieldViews S.get S.user (views.flatMap S.filters) with
    | error e =>
      obtain ⟨af, haf, e', h'⟩ := he.mp ⟨e, hf⟩
      obtain ⟨u, hu, haf⟩ := List.mem_flatMap.mp haf
      simp only [Except.error.injEq, exists_eq', true_iff]
      exact ⟨u, hu, af, haf, e', h'⟩
    | ok ws =>
      simp only [reduceCtorEq, exists_false, false_iff]
      rintro ⟨u, hu, af, haf, e, h⟩
      obtain ⟨e', h'⟩ := he.mpr ⟨af, List.mem_flatMap.mpr ⟨u, hu, haf⟩, e, h⟩
      rw [hf] at h'
      cases h'

/-! ### A concrete project -/

/-- Fields of orders, customers and regions (an example; it models no file in /repo). -/
def secTable : List (String × AnsField) :=
  [("revenue", ⟨"orders", "revenue", false,
     .measure { type := .sum, sql := "orders.amount", pk := some ("orders.id", "orders.id"), distinctKey := "orders.id" }⟩),
   ("name", ⟨"regions", "name", false, .dimension "regions.name"⟩),
   ("level", ⟨"customers", "level", false, .dimension "customers.level"⟩),
   ("region", ⟨"customers", "region", false, .dimension "customers.region"⟩)]

/-- The view of each column (an example; it models no file in /repo). -/
def secCols : List (String × String) :=
  [("orders.amount", "orders"), ("regions.name", "regions"), ("customers.level", "customers"), ("customers.region", "customers")]

/-- A row is the value of all its columns (an example; it models no file in /repo). -/
def secE : Engine (JRow ℚ) := ⟨fun row s => (dictGet secCols s).bind (dictGet row), fun _ => 0⟩

/-- Comparison 9 is `level = 1`, 8 and 6 are `IS NOT NULL`, 7 is `IS NULL` (an example; it models no file in /repo). -/
def secTest (i : Nat) (v : Val) : TV :=
  match v with
  | none => if i = 7 then .t else .u
  | some x => if i = 7 then .f else if i = 9 then (if x = 1 then .t else .f) else .t

/-- A project with the given access filters, and a user of level 1, with a region (an example; it models no file in /repo). -/
def secS (filters : String → List AccessFilter) : SecProject where
  get := ansGet secTable
  fpk := fun _ => .key "orders.id"
  filters := filters
  user := some [("level", some "1"), ("region", some "east")]
  cmp := fun n _ => if n = "level" then [9] else [8]

/-- The revenue, with one filter or none (an example; it models no file in /repo). -/
def secQ (wheres : List FObj) (names : List String) : Question where
  metrics := ["revenue"]
  dimensions := []
  wheres := wheres
  havings := []
  whereNames := names
  havingNames := []
  orderNames := []
  groupFilters := []
  order := .absent
  limit := none
  force := false
  fieldOf := fun i => if i = 9 ∨ i = 7 then "level" else if i = 8 then "region" else "name"

/-- Inner joins on nothing (an example; it models no file in /repo). -/
def secJoin (a b : String) : JoinStep ℚ := ⟨a, b, .manyToOne, .inner, fun _ _ => true⟩

def secRevenue : AnsField := ⟨"orders", "revenue", false,
  .measure { type := .sum, sql := "orders.amount", pk := some ("orders.id", "orders.id"), distinctKey := "orders.id" }⟩

theorem secShape1 (k : JoinKind) : FromShape "orders" [{ secJoin "orders" "customers" with kind := k }] := by
  refine ⟨by simp, by simp [secJoin], fun pre j post h => ?_⟩
  cases pre with
  | nil =>
    rw [List.nil_append, List.cons.injEq] at h
    exact .inl (by rw [← h.1]; rfl)
  | cons k pre =>
    have := (List.cons.inj h).2
    cases pre <;> cases this

theorem secShape2 : FromShape "orders" [secJoin "orders" "customers", secJoin "customers" "regions"] := by
  refine ⟨by simp [secJoin], by simp [secJoin], fun pre j post h => ?_⟩
  cases pre with
  | nil =>
    rw [List.nil_append, List.cons.injEq] at h
    exact .inl (by rw [← h.1]; rfl)
  | cons k pre =>
    obtain ⟨rfl, h'⟩ := List.cons.inj h
    clear h
    rename _ = _ => h
    cases pre with
    | nil =>
      have h1 := (List.cons.inj h).1
      exact .inr (by rw [← h1]; simp [secJoin])
    | cons k pre =>
      have := (List.cons.inj h).2
      cases pre <;> cases this

theorem sec_level : ansGet secTable "level" = .ok ⟨"customers", "level", false, .dimension "customers.level"⟩ := by decide +kernel

theorem sec_region : ansGet secTable "region" = .ok ⟨"customers", "region", false, .dimension "customers.region"⟩ := by decide +kernel

theorem secE_own (v l s : String) (hs : dictGet secCols s = some v) : OwnColumn secE ⟨v, l, false, .dimension s⟩ := by
  refine ⟨s, rfl, fun row => ?_⟩
  have h : ∀ row, secE.value row s = dictGet row v := by
    intro row
    show (dictGet secCols s).bind (dictGet row) = _
    rw [hs]
    rfl
  rw [h]
  cases hr : dictGet row v with
  | none => rfl
  | some r =>
    simp only [Option.bind_some]
    rw [h]
    simp [dictGet]

theorem secS_get (filters : String → List AccessFilter) : (secS filters).get = ansGet secTable := rfl

theorem secS_filterable (filters : String → List AccessFilter) (hf : ∀ v, ∀ af ∈ filters v, af.field = "level" ∨ af.field = "region")
    (wheres : List FObj) (names : List String) : Filterable (secS filters) secE secTest (secQ wheres names) := by
  refine ⟨fun v af haf => ?_, fun v af haf value i hi => ?_, fun v af haf value i hi => ⟨?_, by simp [secQ]⟩⟩
  · rcases hf v af haf with h | h
    · exact ⟨⟨"customers", "level", false, .dimension "customers.level"⟩, by rw [h, secS_get]; decide +kernel, secE_own _ _ _ (by decide +kernel)⟩
    · exact ⟨⟨"customers", "region", false, .dimension "customers.region"⟩, by rw [h, secS_get]; decide +kernel, secE_own _ _ _ (by decide +kernel)⟩
  · have : i = 9 ∨ i = 8 := by
      have hi : i ∈ (if af.field = "level" then [9] else [8]) := hi
      split at hi <;> simp at hi <;> simp [hi]
    rcases this with rfl | rfl <;> decide
  · rcases hf v af haf with h | h
    · have hi : i ∈ (if af.field = "level" then [9] else [8]) := hi
      rw [if_pos h, List.mem_singleton] at hi
      subst hi
      rw [h]
      rfl
    · have hi : i ∈ (if af.field = "level" then [9] else [8]) := hi
      rw [if_neg (by rw [h]; decide), List.mem_singleton] at hi
      subst hi
      rw [h]
      rfl

/-- Two totals that differ are told apart by an answer. -/
theorem sec_differ (S : SecProject) (q : Question) (s : Stmt) (hs : buildStmt S.answers .snowflake q = .ok s) (hp : Proper S.answers q [] [secRevenue])
    (hg : q.groupFilters = []) (hl : q.limit = none) (hh : q.havings = []) (ho : OrdersRequested S.answers .snowflake q) (hk : ∀ vs, S.fpk vs = .key "orders.id")
    (D D' : Db (JRow ℚ)) (row : JRow ℚ) (hD : ∀ vs, D.rows vs = [row])
    (hD' : ∀ views, QueryViews S.answers q views → ∀ r ∈ D'.rows views, ¬ PassesWhere D' S.answers .snowflake views q r)
    (hpass : ∀ views, QueryViews S.answers q views → PassesWhere D S.answers .snowflake views q row)
    (hv : valueOf D.engine .snowflake (.key "orders.id") secRevenue [row] ≠ valueOf D'.engine .snowflake (.key "orders.id") secRevenue []) :
    ∃ out, s.Answers D out ∧ ¬ s.Answers D' out := by
  obtain ⟨out, hout⟩ := C55_answered S.answers .snowflake q s hs [] [secRevenue] hp hg (by simp) (fun _ => ho) D
  refine ⟨out, hout, fun hout' => ?_⟩
  obtain ⟨views, p, h1, h2, h3, -⟩ := C55_total S.answers .snowflake q s hs [secRevenue] hp hg (by rw [hl]; simp) D out hout
  obtain ⟨views', p', h1', h2', h3', -⟩ := C55_total S.answers .snowflake q s hs [secRevenue] hp hg (by rw [hl]; simp) D' out hout'
  have hhv : ∀ (D : Db (JRow ℚ)) views G, PassesHaving D S.answers .snowflake views q G := by
    intro D views G v hv
    rw [hh] at hv
    cases hv
  have e1 := h3 (hhv _ _ _)
  have e2 := h3' (hhv _ _ _)
  have hpr : p row = true := (h2 row).mpr (hpass views h1)
  rw [hD, List.filter_cons_of_pos hpr, List.filter_nil] at e1
  rw [List.filter_eq_nil_iff.mpr fun r hr hc => hD' views' h1' r hr ((h2' r).mp hc)] at e2
  rw [e1] at e2
  simp only [List.map_cons, List.map_nil, List.cons.injEq, and_true] at e2
  have k1 : S.answers.fpk views = .key "orders.id" := hk views
  have k2 : S.answers.fpk views' = .key "orders.id" := hk views'
  rw [k1, k2] at e2
  exact hv e2

/-- Tables of one row each; the customer is of the level given, or missing (an example; it models no file in /repo). -/
def secDb (customer : Option ℚ) (v : String) : List ℚ :=
  if v = "orders" then [10] else if v = "customers" then customer.toList else if v = "regions" then [1] else []

theorem secDb_same (S : SecProject) (hidden : ¬ MaySee S secE secTest "customers" 0) (v : String) :
    SameRows (MaySee S secE secTest v) (secDb (some 0) v) (secDb none v) := by
  classical
  refine ⟨fun r => decide (MaySee S secE secTest v r), fun r => decide_eq_true_iff, ?_⟩
  by_cases h : v = "customers"
  · subst h
    have h1 : secDb (some 0) "customers" = [0] := by decide +kernel
    have h2 : secDb none "customers" = [] := by decide +kernel
    rw [h1, h2, List.filter_cons_of_neg (by simpa using hidden)]
  · unfold secDb
    simp [h]

theorem sec_hidden (S : SecProject) (hu : S.user = some [("level", some "1"), ("region", some "east")]) (hg : S.get = ansGet secTable)
    (hc : S.cmp "level" "1" = [9]) (hf : ⟨"level", "level"⟩ ∈ S.filters "customers") : ¬ MaySee S secE secTest "customers" 0 := by
  intro h
  have := h ⟨"level", "level"⟩ hf _ "1" hu ⟨[], [("region", some "east")], rfl, by simp⟩ (by decide)
    ⟨"customers", "level", false, .dimension "customers.level"⟩ "customers.level" (by rw [hg]; decide +kernel) rfl rfl 9 (by rw [hc]; simp)
  revert this
  decide +kernel

/-- C80: a view that only connects others is not filtered. Orders are joined to regions through customers; the user may not see customers of level 0, but
the revenue of orders with a region counts an order of such a customer, and no longer does when that customer's row is removed. -/
theorem C80_bridge : ∃ (S : SecProject) (q : Question) (s : Stmt) (E : Engine (JRow ℚ)) (test : Nat → Val → TV)
    (fromOf : List String → String × List (JoinStep ℚ)) (db db' : String → List ℚ) (out : List (List Val)),
    buildStmt S.answers .snowflake q = .ok s ∧ WellFormedFilters q.wheres ∧ Filterable S E test q ∧
    (∀ v, ∀ af ∈ S.filters v, ∀ f, S.get af.field = .ok f → f.view = v) ∧
    (∀ views, FromShape (fromOf views).1 (fromOf views).2) ∧ (∀ v, SameRows (MaySee S E test v) (db v) (db' v)) ∧
    s.Answers (joinedDb db fromOf E test) out ∧ ¬ s.Answers (joinedDb db' fromOf E test) out := by
  let fl : String → List AccessFilter := fun v => if v = "customers" then [⟨"level", "level"⟩] else []
  have hfl : ∀ v, ∀ af ∈ fl v, v = "customers" ∧ af = ⟨"level", "level"⟩ := by
    intro v af haf
    by_cases h : v = "customers"
    · have : fl v = [⟨"level", "level"⟩] := if_pos h
      rw [this, List.mem_singleton] at haf
      exact ⟨h, haf⟩
    · have : fl v = [] := if_neg h
      rw [this] at haf
      cases haf
  let q := secQ [.leaf { field := some "name", first := 6 }] ["name"]
  obtain ⟨s, hs⟩ := ok_of_isOk (x := buildStmt (secS fl).answers .snowflake q) (by decide +kernel)
  have hp : Proper (secS fl).answers q [] [secRevenue] :=
    ⟨.nil, .cons (by decide +kernel) .nil, by simp, by simp [secRevenue], ⟨trivial, trivial⟩, trivial⟩
  have hacc : ∀ views, QueryViews (secS fl).answers q views → (secS fl).access views = [] := by
    rintro views ⟨fs, hn, -, hv⟩
    rw [List.eq_nil_iff_forall_not_mem]
    intro i hi
    obtain ⟨v, hvm, hi⟩ := List.mem_flatMap.mp hi
    rw [mem_accessConditions] at hi
    obtain ⟨af, haf, -⟩ := hi
    obtain ⟨f, hfm, hfv⟩ := (hv v).mp hvm
    rw [(hfl v af haf).1] at hfv
    have hgs : getAll (secS fl).answers.get (q.metrics ++ q.dimensions ++ q.whereNames ++ q.havingNames ++ q.orderNames) = .ok fs := getAll_names.mpr hn
    have hgs' : getAll (secS fl).answers.get (q.metrics ++ q.dimensions ++ q.whereNames ++ q.havingNames ++ q.orderNames)
      = .ok [secRevenue, ⟨"regions", "name", false, .dimension "regions.name"⟩] := by decide +kernel
    rw [hgs'] at hgs
    cases hgs
    simp only [List.mem_cons, List.not_mem_nil, or_false] at hfm
    rcases hfm with rfl | rfl
    · exact absurd hfv (by decide)
    · exact absurd hfv (by decide)
  let fromOf : List String → String × List (JoinStep ℚ) := fun _ => ("orders", [secJoin "orders" "customers", secJoin "customers" "regions"])
  obtain ⟨out, h1, h2⟩ := sec_differ (secS fl) q s hs hp rfl rfl rfl (by
      refine ⟨by simp [q, secQ], fun o ho => ?_⟩
      have : askedOrder .snowflake q = [("revenue", true)] := by decide +kernel
      rw [this, List.mem_singleton] at ho
      subst ho
      exact ⟨by decide, "revenue", by simp [q, secQ], rfl⟩) (fun _ => rfl)
    (joinedDb (secDb (some 0)) fromOf secE secTest) (joinedDb (secDb none) fromOf secE secTest) [("regions", 1), ("customers", 0), ("orders", 10)]
    (fun vs => by show joinedRows _ "orders" [secJoin "orders" "customers", secJoin "customers" "regions"] = _; decide +kernel)
    (fun vs _ r hr => by
      have h : joinedRows (secDb none) "orders" [secJoin "orders" "customers", secJoin "customers" "regions"] = [] := by decide +kernel
      have hr : r ∈ joinedRows (secDb none) "orders" [secJoin "orders" "customers", secJoin "customers" "regions"] := hr
      rw [h] at hr
      cases hr)
    (fun views hv => ⟨by
      have : (secS fl).answers.access views = [] := hacc views hv
      rw [this]
      simp, by
      intro v hvm
      have hm : meanings (compared (joinedDb (secDb (some 0)) fromOf secE secTest) (secS fl).answers .snowflake (.key "orders.id") q.fieldOf
        [[("regions", 1), ("customers", 0), ("orders", 10)]]) q.wheres = [.t] := by decide +kernel
      rw [show (secS fl).answers.fpk views = .key "orders.id" from rfl, hm, List.mem_singleton] at hvm
      exact hvm⟩) (by decide +kernel)
  refine ⟨secS fl, q, s, secE, secTest, fromOf, secDb (some 0), secDb none, out, hs, ⟨trivial, trivial⟩,
    secS_filterable fl (fun v af haf => by rw [(hfl v af haf).2]; exact .inl rfl) _ _, fun v af haf f hf => ?_, fun _ => secShape2,
    secDb_same _ (sec_hidden _ rfl rfl (by decide +kernel) (by simp [secS, fl])), h1, h2⟩
  obtain ⟨rfl, rfl⟩ := hfl v af haf
  rw [secS_get, sec_level] at hf
  cases hf
  rfl

/-- C80: a view that is joined for the access filter of another view is not filtered either. Orders are filtered on the region of their customer, customers
on their level; the user may not see customers of level 0, but the total revenue counts an order of such a customer, as long as that row is there. -/
theorem C80_filter_view : ∃ (S : SecProject) (q : Question) (s : Stmt) (E : Engine (JRow ℚ)) (test : Nat → Val → TV)
    (fromOf : List String → String × List (JoinStep ℚ)) (db db' : String → List ℚ) (out : List (List Val)),
    buildStmt S.answers .snowflake q = .ok s ∧ WellFormedFilters q.wheres ∧ Filterable S E test q ∧
    (∀ views, QueryViews S.answers q views → views = ["orders"]) ∧ S.requiredViews ["orders"] = .ok ["orders", "customers"] ∧
    (∀ views, FromShape (fromOf views).1 (fromOf views).2 ∧ ∀ v, v ∈ (fromOf views).1 :: (fromOf views).2.map (·.tgt) ↔ v ∈ ["orders", "customers"]) ∧
    (∀ v, SameRows (MaySee S E test v) (db v) (db' v)) ∧
    s.Answers (joinedDb db fromOf E test) out ∧ ¬ s.Answers (joinedDb db' fromOf E test) out := by
  let fl : String → List AccessFilter := fun v => if v = "customers" then [⟨"level", "level"⟩] else if v = "orders" then [⟨"region", "region"⟩] else []
  have hfl : ∀ v, ∀ af ∈ fl v, af.field = "level" ∨ af.field = "region" := by
    intro v af haf
    have haf : af ∈ (if v = "customers" then [⟨"level", "level"⟩] else if v = "orders" then [⟨"region", "region"⟩] else [] : List AccessFilter) := haf
    split at haf
    · rw [List.mem_singleton] at haf
      exact .inl (by rw [haf])
    · split at haf
      · rw [List.mem_singleton] at haf
        exact .inr (by rw [haf])
      · cases haf
  let q := secQ [] []
  obtain ⟨s, hs⟩ := ok_of_isOk (x := buildStmt (secS fl).answers .snowflake q) (by decide +kernel)
  have hp : Proper (secS fl).answers q [] [secRevenue] :=
    ⟨.nil, .cons (by decide +kernel) .nil, by simp, by simp [secRevenue], trivial, trivial⟩
  have hviews : ∀ views, QueryViews (secS fl).answers q views → views = ["orders"] := by
    rintro views ⟨fs, hn, hnd, hv⟩
    have hgs : getAll (secS fl).answers.get (q.metrics ++ q.dimensions ++ q.whereNames ++ q.havingNames ++ q.orderNames) = .ok fs := getAll_names.mpr hn
    have hgs' : getAll (secS fl).answers.get (q.metrics ++ q.dimensions ++ q.whereNames ++ q.havingNames ++ q.orderNames) = .ok [secRevenue] := by
      decide +kernel
    rw [hgs'] at hgs
    cases hgs
    have hall : ∀ v, v ∈ views ↔ v = "orders" := by
      intro v
      rw [hv]
      simp [secRevenue, eq_comm]
    have hperm : views.Perm ["orders"] := (List.perm_ext_iff_of_nodup hnd (by simp)).mpr (by simpa using hall)
    exact List.perm_singleton.mp hperm
  let fromOf : List String → String × List (JoinStep ℚ) := fun _ => ("orders", [secJoin "orders" "customers"])
  obtain ⟨out, h1, h2⟩ := sec_differ (secS fl) q s hs hp rfl rfl rfl (by
      refine ⟨by simp [q, secQ], fun o ho => ?_⟩
      have : askedOrder .snowflake q = [("revenue", true)] := by decide +kernel
      rw [this, List.mem_singleton] at ho
      subst ho
      exact ⟨by decide, "revenue", by simp [q, secQ], rfl⟩) (fun _ => rfl)
    (joinedDb (secDb (some 0)) fromOf secE secTest) (joinedDb (secDb none) fromOf secE secTest) [("customers", 0), ("orders", 10)]
    (fun vs => by show joinedRows _ "orders" [secJoin "orders" "customers"] = _; decide +kernel)
    (fun vs _ r hr => by
      have h : joinedRows (secDb none) "orders" [secJoin "orders" "customers"] = [] := by decide +kernel
      have hr : r ∈ joinedRows (secDb none) "orders" [secJoin "orders" "customers"] := hr
      rw [h] at hr
      cases hr)
    (fun views hv => by
      rw [hviews views hv]
      refine ⟨?_, by simp [q, secQ, meanings]⟩
      decide +kernel) (by decide +kernel)
  refine ⟨secS fl, q, s, secE, secTest, fromOf, secDb (some 0), secDb none, out, hs, trivial,
    secS_filterable fl hfl _ _, hviews, by decide +kernel, fun _ => ⟨secShape1 .inner, fun v => by simp [fromOf, secJoin]⟩,
    secDb_same _ (sec_hidden _ rfl rfl (by decide +kernel) (by simp [secS, fl])), h1, h2⟩

/-- C80: an access filter whose comparison is true of NULL also lets rows pass that have no row of its view. The user may only see customers without a level;
the row of a customer of level 0 keeps their order out of the answer, and without that row the order is counted. -/
theorem C80_null : ∃ (S : SecProject) (q : Question) (s : Stmt) (E : Engine (JRow ℚ)) (test : Nat → Val → TV)
    (fromOf : List String → String × List (JoinStep ℚ)) (db db' : String → List ℚ) (out : List (List Val)),
    buildStmt S.answers .snowflake q = .ok s ∧ WellFormedFilters q.wheres ∧
    (∀ v, ∀ af ∈ S.filters v, ∃ f, S.get af.field = .ok f ∧ OwnColumn E f ∧ f.view = v) ∧
    (∀ v, ∀ af ∈ S.filters v, ∀ value, ∀ i ∈ S.cmp af.field value, q.fieldOf i = af.field) ∧
    (∀ views, FromShape (fromOf views).1 (fromOf views).2 ∧
      (QueryViews S.answers q views → ∀ v ∈ (fromOf views).1 :: (fromOf views).2.map (·.tgt), v ∈ views)) ∧
    (∀ v, SameRows (MaySee S E test v) (db v) (db' v)) ∧
    ¬ s.Answers (joinedDb db fromOf E test) out ∧ s.Answers (joinedDb db' fromOf E test) out := by
  let fl : String → List AccessFilter := fun v => if v = "customers" then [⟨"level", "level"⟩] else []
  have hfl : ∀ v, ∀ af ∈ fl v, v = "customers" ∧ af = ⟨"level", "level"⟩ := by
    intro v af haf
    by_cases h : v = "customers"
    · have : fl v = [⟨"level", "level"⟩] := if_pos h
      rw [this, List.mem_singleton] at haf
      exact ⟨h, haf⟩
    · have : fl v = [] := if_neg h
      rw [this] at haf
      cases haf
  let S : SecProject := ⟨ansGet secTable, fun _ => .key "orders.id", fl, some [("level", some "NULL")], fun _ _ => [7]⟩
  let q := secQ [.leaf { field := some "level", first := 7 }] ["level"]
  obtain ⟨s, hs⟩ := ok_of_isOk (x := buildStmt S.answers .snowflake q) (by decide +kernel)
  have hp : Proper S.answers q [] [secRevenue] :=
    ⟨.nil, .cons (by decide +kernel) .nil, by simp, by simp [secRevenue], ⟨trivial, trivial⟩, trivial⟩
  have hviews : ∀ views, QueryViews S.answers q views → ∀ v, v ∈ views ↔ v = "orders" ∨ v = "customers" := by
    rintro views ⟨fs, hn, hnd, hv⟩ v
    have hgs : getAll S.answers.get (q.metrics ++ q.dimensions ++ q.whereNames ++ q.havingNames ++ q.orderNames) = .ok fs := getAll_names.mpr hn
    have hgs' : getAll S.answers.get (q.metrics ++ q.dimensions ++ q.whereNames ++ q.havingNames ++ q.orderNames)
      = .ok [secRevenue, ⟨"customers", "level", false, .dimension "customers.level"⟩] := by decide +kernel
    rw [hgs'] at hgs
    cases hgs
    rw [hv]
    simp [secRevenue, eq_comm]
  have hacc : ∀ views i, i ∈ S.access views → i = 7 := by
    intro views i hi
    obtain ⟨v, -, hi⟩ := List.mem_flatMap.mp hi
    rw [mem_accessConditions] at hi
    obtain ⟨af, haf, u, value, -, -, -, hi⟩ := hi
    exact List.mem_singleton.mp hi
  let join : JoinStep ℚ := { secJoin "orders" "customers" with kind := .left }
  let fromOf : List String → String × List (JoinStep ℚ) := fun _ => ("orders", [join])
  have hm : meanings (compared (joinedDb (secDb none) fromOf secE secTest) S.answers .snowflake (.key "orders.id") q.fieldOf
        [[("orders", 10)]]) q.wheres = [.t] := by decide +kernel
  have hc : compared (joinedDb (secDb none) fromOf secE secTest) S.answers .snowflake (.key "orders.id") q.fieldOf
        [[("orders", 10)]] 7 = .t := by decide +kernel
  obtain ⟨out, h1, h2⟩ := sec_differ S q s hs hp rfl rfl rfl (by
      refine ⟨by simp [q, secQ], fun o ho => ?_⟩
      have : askedOrder .snowflake q = [("revenue", true)] := by decide +kernel
      rw [this, List.mem_singleton] at ho
      subst ho
      exact ⟨by decide, "revenue", by simp [q, secQ], rfl⟩) (fun _ => rfl)
    (joinedDb (secDb none) fromOf secE secTest) (joinedDb (secDb (some 0)) fromOf secE secTest) [("orders", 10)]
    (fun vs => by show joinedRows _ "orders" [join] = _; decide +kernel)
    (fun vs _ r hr => by
      have h : joinedRows (secDb (some 0)) "orders" [join] = [[("customers", 0), ("orders", 10)]] := by decide +kernel
      have hr : r ∈ joinedRows (secDb (some 0)) "orders" [join] := hr
      rw [h, List.mem_singleton] at hr
      subst hr
      rintro ⟨-, h2⟩
      have hm : meanings (compared (joinedDb (secDb (some 0)) fromOf secE secTest) S.answers .snowflake (.key "orders.id") q.fieldOf
        [[("customers", 0), ("orders", 10)]]) q.wheres = [.f] := by decide +kernel
      rw [show S.answers.fpk vs = .key "orders.id" from rfl, hm] at h2
      have := h2 .f (by simp)
      cases this)
    (fun views hv => by
      refine ⟨fun i hi => ?_, fun v hvm => ?_⟩
      · rw [hacc views i hi]
        exact hc
      · rw [show S.answers.fpk views = .key "orders.id" from rfl, hm, List.mem_singleton] at hvm
        exact hvm) (by decide +kernel)
  refine ⟨S, q, s, secE, secTest, fromOf, secDb (some 0), secDb none, out, hs, ⟨trivial, trivial⟩, fun v af haf => ?_, fun v af haf value i hi => ?_,
    fun views => ⟨secShape1 .left, fun hv v hvm => ?_⟩, secDb_same _ ?_, h2, h1⟩
  · obtain ⟨rfl, rfl⟩ := hfl v af haf
    exact ⟨_, sec_level, secE_own _ _ _ (by decide +kernel), rfl⟩
  · obtain ⟨rfl, rfl⟩ := hfl v af haf
    have : i = 7 := List.mem_singleton.mp hi
    subst this
    rfl
  · rw [hviews views hv]
    simpa [fromOf, join, secJoin] using hvm
  · intro h
    have := h ⟨"level", "level"⟩ (by simp [S, fl]) _ "NULL" rfl ⟨[], [], rfl, by simp⟩ (by decide) _ "customers.level" sec_level rfl rfl 7 (by simp [S])
    revert this
    decide +kernel

/-- The hypotheses of C80 hold of a concrete query: revenue by level, where orders are joined to customers, customers are filtered on their level, and the
tables have customers of levels 1 and 0, the second hidden; a filter with a group_by on the level is added. -/
example : ∃ (fl : String → List AccessFilter) (q : Question) (s : Stmt) (fromOf : List String → String × List (JoinStep ℚ)),
    buildStmt (secS fl).answers .snowflake q = .ok s ∧ WellFormedFilters q.wheres ∧ q.groupFilters ≠ [] ∧ Filterable (secS fl) secE secTest q ∧
    (∀ v, ∀ af ∈ (secS fl).filters v, ∀ f, (secS fl).get af.field = .ok f → f.view = v) ∧
    (∀ views, BuildsFrom (secS fl) q views → FromShape (fromOf views).1 (fromOf views).2) ∧
    (∀ views, BuildsFrom (secS fl) q views → ∀ v ∈ (fromOf views).1 :: (fromOf views).2.map (·.tgt), v ∈ views) ∧
    ¬ MaySee (secS fl) secE secTest "customers" 0 ∧ MaySee (secS fl) secE secTest "customers" 1 := by
  let fl : String → List AccessFilter := fun v => if v = "customers" then [⟨"level", "level"⟩] else []
  have hfl : ∀ v, ∀ af ∈ fl v, v = "customers" ∧ af = ⟨"level", "level"⟩ := by
    intro v af haf
    by_cases h : v = "customers"
    · have : fl v = [⟨"level", "level"⟩] := if_pos h
      rw [this, List.mem_singleton] at haf
      exact ⟨h, haf⟩
    · have : fl v = [] := if_neg h
      rw [this] at haf
      cases haf
  let q : Question := { secQ [.leaf { field := some "level", first := 9 }] ["level"] with dimensions := ["level"], groupFilters := [⟨"revenue", "level", 5⟩] }
  obtain ⟨s, hs⟩ := ok_of_isOk (x := buildStmt (secS fl).answers .snowflake q) (by decide +kernel)
  have hviews : ∀ views, BuildsFrom (secS fl) q views → ∀ v, v ∈ views ↔ v = "orders" ∨ v = "customers" := by
    rintro views (⟨fs, hn, hnd, hv⟩ | ⟨g, hg, d, m, hd, hm, rfl⟩) v
    · have hgs : getAll (secS fl).answers.get (q.metrics ++ q.dimensions ++ q.whereNames ++ q.havingNames ++ q.orderNames) = .ok fs := getAll_names.mpr hn
      have hgs' : getAll (secS fl).answers.get (q.metrics ++ q.dimensions ++ q.whereNames ++ q.havingNames ++ q.orderNames)
        = .ok [secRevenue, ⟨"customers", "level", false, .dimension "customers.level"⟩, ⟨"customers", "level", false, .dimension "customers.level"⟩] := by
        decide +kernel
      rw [hgs'] at hgs
      cases hgs
      rw [hv]
      simp [secRevenue, eq_comm]
    · have hg' : g = ⟨"revenue", "level", 5⟩ := List.mem_singleton.mp hg
      subst hg'
      have h1 : (secS fl).get "level" = .ok ⟨"customers", "level", false, .dimension "customers.level"⟩ := sec_level
      have h2 : (secS fl).get "revenue" = .ok secRevenue := by decide +kernel
      rw [h1] at hd
      rw [h2] at hm
      cases hd
      cases hm
      rw [List.mem_dedup]
      simp [secRevenue, or_comm]
  refine ⟨fl, q, s, fun _ => ("orders", [{ secJoin "orders" "customers" with kind := .left }]), hs, ⟨trivial, trivial⟩, by simp [q], ?_, fun v af haf f hf => ?_,
    fun _ _ => secShape1 .left, fun views hb v hv => ?_, sec_hidden _ rfl rfl (by decide +kernel) (by simp [secS, fl]), ?_⟩
  · obtain ⟨h1, h2, h3⟩ := secS_filterable fl (fun v af haf => by rw [(hfl v af haf).2]; exact .inl rfl) [] []
    refine ⟨h1, h2, fun v af haf value i hi => ⟨(h3 v af haf value i hi).1, fun g hg => ?_⟩⟩
    have hg' : g = ⟨"revenue", "level", 5⟩ := List.mem_singleton.mp hg
    subst hg'
    have hi : i ∈ (if af.field = "level" then [9] else [8]) := hi
    split at hi <;> simp at hi <;> rw [hi] <;> decide
  · obtain ⟨rfl, rfl⟩ := hfl v af haf
    rw [secS_get, sec_level] at hf
    cases hf
    rfl
  · rw [hviews views hb]
    simpa [secJoin] using hv
  · intro af haf u value h1 h2 h3 f sql hf hv hsql i hi
    obtain ⟨-, rfl⟩ := hfl "customers" af haf
    have hf : (secS fl).get "level" = .ok f := hf
    rw [secS_get, sec_level] at hf
    cases hf
    cases hsql
    have : i = 9 := by
      have hi : i ∈ (if "level" = "level" then [9] else [8]) := hi
      simpa using hi
    subst this
    decide +kernel

end ML
