import Verif.ArbAnswer.PropsEx
import Verif.ArbAnswer.SpecSub
import Verif.Answer.PropsEx
/- C91: the sub-queries of a merged query are queries of C55, and their answers have one line for each combination of dimension
values, as `C91_one_line_each` asks. -/
set_option autoImplicit false
namespace ML
open Spec

theorem byName_cons_ne {c a : String} (h : c ≠ a) (cols : List String) (v : Val) (line : List Val) :
    byName (c :: cols) (v :: line) a = byName cols line a := by
  simp [byName, h]

theorem byName_cons_self (c : String) (cols : List String) (v : Val) (line : List Val) : byName (c :: cols) (v :: line) c = v := by
  simp [byName]

/-- Lines that differ in the first columns differ under the name of one of them. -/
theorem byName_differs : ∀ (names rest : List String) (l l' : List Val), names.Nodup → names.length ≤ l.length → names.length ≤ l'.length →
    l.take names.length ≠ l'.take names.length → ∃ a ∈ names, byName (names ++ rest) l a ≠ byName (names ++ rest) l' a
  | [], _, _, _, _, _, _, h => absurd rfl h
  | _ :: _, _, [], _, _, h, _, _ => by simp at h
  | _ :: _, _, _ :: _, [], _, _, h, _ => by simp at h
  | n :: names, rest, v :: l, v' :: l', hn, h1, h2, h => by
    by_cases hv : v = v'
    · subst hv
      obtain ⟨hnot, hn'⟩ := List.nodup_cons.mp hn
      obtain ⟨a, ha, hd⟩ := byName_differs names rest l l' hn' (by simpa using h1) (by simpa using h2) (fun he => h (by simp [he]))
      have hne : n ≠ a := fun e => hnot (e ▸ ha)
      refine ⟨a, List.mem_cons_of_mem _ ha, ?_⟩
      rw [List.cons_append, byName_cons_ne hne, byName_cons_ne hne]
      exact hd
    · refine ⟨n, List.mem_cons_self, ?_⟩
      rw [List.cons_append, byName_cons_self, byName_cons_self]
      exact hv

variable {ρ : Type}

/-- C91: the answer of a sub-query that groups by its dimensions has one line for each combination of their values, whatever the
data, its filters, its order and its limit: the hypothesis of `C91_one_line_each` holds of every such sub-query. -/
theorem C91_sub_lines (P : AnsProject) (w : Warehouse) (q : Question) (s : Stmt) (hs : buildStmt P w q = .ok s) (ds ms : List AnsField)
    (hp : Proper P q ds ms) (hg : GroupsRows q ds ms) (hne : ds ≠ []) (hgf : q.groupFilters = []) (hl : LabelsDiffer P)
    (ht : ∀ t, q.order ≠ .text t) (hn : ∀ o ∈ askedOrder w q, o.1 ≠ "__DEFAULT__")
    (hz : q.limit ≠ some 0 ∨ w ≠ .sqlServer ∧ w ≠ .azureSynapse) (D : Db ρ) (out : List (List Val)) (ha : s.Answers D out)
    (hnd : (ds.map AnsField.label).Nodup) (env : ArbEnv) (sub : SubQ)
    (hsub : ∀ d ∈ ds, ∃ n ∈ sub.dimensions, ∃ f, env.get n = .ok f ∧ f.aliasName = d.label) :
    OneLineEach env sub (out.map (byName (ds.map AnsField.label ++ ms.map AnsField.label))) := by
  obtain ⟨views, lines, -, htab, -, hlim⟩ := C55_table P w q s hs ds ms hp hg hne hgf hl ht hn hz D out ha
  have hpre : out <+: lines := by
    unfold Limited at hlim
    split at hlim
    · rw [hlim]
    · exact hlim.1
  have hlen : ∀ l ∈ out, ds.length ≤ l.length := by
    intro l hl
    obtain ⟨k, G, hk, -, -, -, rfl⟩ := htab.sound l (hpre.subset hl)
    rw [List.length_append, hk]
    exact Nat.le_add_right _ _
  have hpw : out.Pairwise (fun l l' => l.take ds.length ≠ l'.take ds.length) :=
    List.Pairwise.sublist hpre.sublist (List.pairwise_map.mp htab.once)
  unfold OneLineEach
  rw [List.pairwise_map]
  refine hpw.imp_of_mem ?_
  intro l l' h1 h2 hd
  obtain ⟨a, ha, hdiff⟩ := byName_differs (ds.map AnsField.label) (ms.map AnsField.label) l l' hnd (by simpa using hlen l h1) (by simpa using hlen l' h2)
    (by simpa using hd)
  obtain ⟨d, hdm, rfl⟩ := List.mem_map.mp ha
  obtain ⟨n, hnm, f, hf, hfa⟩ := hsub d hdm
  exact ⟨n, hnm, f, hf, by rw [hfa]; exact hdiff⟩

/-- The hypotheses hold of the orders by region, the sub-query a merged query can start with or join. -/
example : ∃ s out, buildStmt ansP .snowflake ansQ = .ok s ∧ s.Answers ansDb out ∧
    OneLineEach arbEnvEx ⟨"merged_query_1", ["orders.total"], ["orders.region"], [], none⟩ (out.map (byName ["orders_region", "orders_revenue"])) := by
  obtain ⟨s, hs⟩ := ok_of_isOk (x := buildStmt ansP .snowflake ansQ) (by decide +kernel)
  have hp : Proper ansP ansQ [regionF] [revenueF] := ansQ_proper ansQ ⟨rfl, rfl, rfl, rfl⟩
  have hgr : GroupsRows ansQ [regionF] [revenueF] := .inr (by
    intro m hm d hd hpk
    rw [List.mem_singleton] at hd
    subst hd
    cases hpk)
  have hask : askedOrder .snowflake ansQ = [("revenue", true)] := by decide +kernel
  obtain ⟨out, ho⟩ := C55_answered ansP .snowflake ansQ s hs [regionF] [revenueF] hp rfl (by decide +kernel) (fun _ => by
    refine ⟨by simp [ansQ], fun o ho => ?_⟩
    rw [hask, List.mem_singleton] at ho
    subst ho
    exact ⟨by decide, "revenue", by simp [ansQ], rfl⟩) ansDb
  refine ⟨s, out, hs, ho, C91_sub_lines ansP .snowflake ansQ s hs [regionF] [revenueF] hp hgr (by simp) rfl ansP_labels
    (by simp [ansQ]) (by rw [hask]; decide) (.inr (by simp)) ansDb out ho (by simp) _ _ ?_⟩
  intro d hd
  rw [List.mem_singleton] at hd
  subst hd
  exact ⟨"orders.region", by simp, ⟨"orders.region", "orders_region", none⟩, by decide +kernel, by decide +kernel⟩

theorem labelled_mem {env : ArbEnv} {ns : List String} {ds : List AnsField} (h : Labelled env ns ds) :
    ∀ d ∈ ds, ∃ n ∈ ns, ∃ f, env.get n = .ok f ∧ f.aliasName = d.label := by
  unfold Labelled at h
  induction h with
  | nil => intro d hd; cases hd
  | cons hx _ ih =>
    intro d hd
    rcases List.mem_cons.mp hd with rfl | hd
    · exact ⟨_, List.mem_cons_self, hx⟩
    · obtain ⟨n, hn, h⟩ := ih d hd
      exact ⟨n, List.mem_cons_of_mem _ hn, h⟩

/-- C91: from the data to the answer of the merge. When each later query groups by dimensions it is joined on and no inner join is
asked for, the merge answers exactly one line for each line of the first query, in order, whatever the data: nothing is assumed of
the answers of the later queries but that they are what the warehouse answers to their statements. -/
theorem C91_from_data (P : AnsProject) (w : Warehouse) (hl : LabelsDiffer P) (D : Db ρ) (env : ArbEnv) (items : List MergeItem) (orders : List String)
    (res : ArbQuery) (h : arbQuery env items [] orders = .ok res)
    (hk : ∀ s ∈ res.subs.tail, s.joinType = none ∨ s.joinType = some "left_outer")
    (cast : ℚ → ℚ) (hcast : env.bigquery = true → ∀ x y, cast x = cast y → x = y) (tables : String → List (MLine ℚ))
    (hsub : ∀ s ∈ res.subs.tail, SubAnswer P w D env s (tables s.cte)) (hall : ∀ s ∈ res.subs.tail, JoinedOnAll env s) :
    List.Forall₂ (fun l line => ∃ ps, List.Forall₂ (Contributes env cast tables l) res.subs.tail ps ∧ line = lineOf res (some l :: ps))
      (tables "merged_query_0") (arbAnswer cast tables [] res) := by
  refine C91_keeps_first env items orders res h hk cast tables hcast (fun s hs => ?_) hall
  obtain ⟨q, st, ds, ms, out, h1, h2, h3, h4, h5, h6, h7, h8, h9, h10, h11, -, h13⟩ := hsub s hs
  rw [h13]
  exact C91_sub_lines P w q st h1 ds ms h3 h4 h5 h6 hl h7 h8 h9 D out h2 h10 env s (labelled_mem h11)

open Classical in
/-- C91: the same with inner joins among the left joins: of the lines of the first query exactly those remain that have a partner in
every later query joined by an inner join, each once and in order. -/
theorem C91_from_data_inner (P : AnsProject) (w : Warehouse) (hl : LabelsDiffer P) (D : Db ρ) (env : ArbEnv) (items : List MergeItem) (orders : List String)
    (res : ArbQuery) (h : arbQuery env items [] orders = .ok res) (hk : LeftOrInner res)
    (cast : ℚ → ℚ) (hcast : env.bigquery = true → ∀ x y, cast x = cast y → x = y) (tables : String → List (MLine ℚ))
    (hsub : ∀ s ∈ res.subs.tail, SubAnswer P w D env s (tables s.cte)) (hall : ∀ s ∈ res.subs.tail, JoinedOnAll env s) :
    List.Forall₂ (fun l line => ∃ ps, List.Forall₂ (Contributes env cast tables l) res.subs.tail ps ∧ line = lineOf res (some l :: ps))
      ((tables "merged_query_0").filter (fun l => decide (∀ s ∈ res.subs.tail, s.joinType = some "inner" →
        ∃ t ∈ tables s.cte, Belongs env cast s l t)))
      (arbAnswer cast tables [] res) := by
  have := C91_one_line_each env items orders res h hk cast tables hcast (fun s hs => by
    obtain ⟨q, st, ds, ms, out, h1, h2, h3, h4, h5, h6, h7, h8, h9, h10, h11, -, h13⟩ := hsub s hs
    rw [h13]
    exact C91_sub_lines P w q st h1 ds ms h3 h4 h5 h6 hl h7 h8 h9 D out h2 h10 env s (labelled_mem h11)) hall
  convert this

/-- A project with the fields of `ansP` under their full names (an example; it models no file in /repo). -/
def subEnvEx : ArbEnv where
  get n := if n = "orders.revenue" then .ok ⟨n, "orders_revenue", none⟩ else arbGetEx n
  resolve q _ := .ok { metrics := q.metrics, dimensions := q.dimensions }
  build _ _ := .ok ()

/-- Visits by area, with the revenue by region joined to them (an example; it models no file in /repo). -/
def subMergeEx : ArbQuery :=
  { subs := [⟨"merged_query_0", ["visits.count"], ["visits.area"], [], none⟩,
             ⟨"merged_query_1", ["orders.revenue"], ["orders.region"], [⟨"orders.region", "visits.area"⟩], some "left_outer"⟩]
    joins := [("merged_query_1", .left, [⟨("merged_query_0", "visits_area"), ("merged_query_1", "orders_region"), false⟩])]
    columns := [("merged_query_0", "visits_count"), ("merged_query_0", "visits_area"), ("merged_query_1", "orders_revenue")]
    filters := [], orders := [] }

/-- The hypotheses of `C91_from_data` and `C91_from_data_inner` hold of this merge, over the rows of `ansDb`. -/
example : arbQuery subEnvEx [.dict { metrics := .list ["visits.count"], dimensions := .list ["visits.area"] },
      .dict { metrics := .list ["orders.revenue"], dimensions := .list ["orders.region"],
              joinFields := .list [.dict (.str "orders.region") (.str "visits.area")], joinType := some "left_outer" }] [] [] = .ok subMergeEx ∧
    (∀ s ∈ subMergeEx.subs.tail, s.joinType = none ∨ s.joinType = some "left_outer") ∧
    (∀ s ∈ subMergeEx.subs.tail, ∃ table, SubAnswer ansP .snowflake ansDb subEnvEx s table) ∧
    (∀ s ∈ subMergeEx.subs.tail, JoinedOnAll subEnvEx s) := by
  refine ⟨by decide +kernel, ?_, ?_, ?_⟩
  · intro s hs
    simp only [subMergeEx, List.tail_cons, List.mem_singleton] at hs
    subst hs; exact .inr rfl
  · intro s hs
    simp only [subMergeEx, List.tail_cons, List.mem_singleton] at hs
    subst hs
    obtain ⟨s, hs⟩ := ok_of_isOk (x := buildStmt ansP .snowflake ansQ) (by decide +kernel)
    have hp : Proper ansP ansQ [regionF] [revenueF] := ansQ_proper ansQ ⟨rfl, rfl, rfl, rfl⟩
    have hask : askedOrder .snowflake ansQ = [("revenue", true)] := by decide +kernel
    obtain ⟨out, ho⟩ := C55_answered ansP .snowflake ansQ s hs [regionF] [revenueF] hp rfl (by decide +kernel) (fun _ => by
      refine ⟨by simp [ansQ], fun o ho => ?_⟩
      rw [hask, List.mem_singleton] at ho
      subst ho
      exact ⟨by decide, "revenue", by simp [ansQ], rfl⟩) ansDb
    refine ⟨_, ansQ, s, [regionF], [revenueF], out, hs, ho, hp, .inr ?_, by simp, rfl, by simp [ansQ], by rw [hask]; decide, .inr (by simp), by simp,
      .cons ⟨⟨"orders.region", "orders_region", none⟩, by decide +kernel, by decide +kernel⟩ .nil,
      .cons ⟨⟨"orders.revenue", "orders_revenue", none⟩, by decide +kernel, by decide +kernel⟩ .nil, rfl⟩
    intro m hm d hd hpk
    rw [List.mem_singleton] at hd
    subst hd
    cases hpk
  · intro s hs
    simp only [subMergeEx, List.tail_cons, List.mem_singleton] at hs
    subst hs
    intro d hd f hf
    simp only [List.mem_singleton] at hd
    subst hd
    exact ⟨_, List.mem_singleton.mpr rfl, f, hf, rfl⟩

end ML
