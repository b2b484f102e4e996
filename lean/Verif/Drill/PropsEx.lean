import Verif.Drill.PropsJoined
import Verif.Answer.PropsEx
/-
C81: metrics that do not add up, and concrete cases.
-/
set_option autoImplicit false
namespace ML
open Spec

section
variable {ρ : Type}

/-- The lines of a table without filters, one by one. -/
theorem unfiltered_mem {rows : List ρ} {dims : ρ → List Val} {metrics : List ρ → List Val} {n : Nat} {lines : List (List Val)}
    (h : IsTable rows (fun _ => True) dims metrics (fun _ => True) n lines) (l : List Val) :
    l ∈ lines ↔ l ∈ rows.map (fun r => dims r ++ metrics (rows.filter (fun x => decide (dims x = dims r)))) := by
  have huniq : ∀ k G, Behind (fun _ => True) dims rows k G → G = rows.filter (fun x => decide (dims x = k)) := by
    rintro k G ⟨p, hp, rfl⟩
    refine List.filter_congr fun r hr => ?_
    rw [Bool.eq_iff_iff, hp r hr, decide_eq_true_iff, true_and]
  rw [List.mem_map]
  constructor
  · intro hl
    obtain ⟨k, G, -, hG, hB, -, rfl⟩ := h.sound l hl
    have hu := huniq k G hB
    obtain ⟨r, hr⟩ := List.exists_mem_of_ne_nil _ hG
    rw [hu] at hr
    obtain ⟨h1, h2⟩ := List.mem_filter.mp hr
    have h2 := of_decide_eq_true h2
    exact ⟨r, h1, by rw [hu, h2]⟩
  · rintro ⟨r, hr, rfl⟩
    obtain ⟨G, hB, hG⟩ := h.complete r hr trivial
    rw [← huniq _ G hB]
    exact hG trivial

end

/-! ### A concrete project -/

/-- Orders with a region; how many buyers, and how much they paid (an example; it models no file in /repo). -/
def drillTable : List (String × AnsField) :=
  [("region", ⟨"orders", "region", false, .dimension "orders.region"⟩),
   ("city", ⟨"customers", "city", false, .dimension "customers.city"⟩),
   ("cities", ⟨"customers", "cities", false,
     .measure { type := .countDistinct, sql := "customers.city", pk := some ("customers.id", "customers.id"), distinctKey := "customers.id" }⟩),
   ("buyers", ⟨"orders", "buyers", false,
     .measure { type := .countDistinct, sql := "orders.customer", pk := some ("orders.id", "orders.id"), distinctKey := "orders.id" }⟩),
   ("revenue", ⟨"orders", "revenue", false,
     .measure { type := .sum, sql := "orders.amount", pk := some ("orders.id", "orders.id"), distinctKey := "orders.id" }⟩)]

def drillRegion : AnsField := ⟨"orders", "region", false, .dimension "orders.region"⟩
def drillCity : AnsField := ⟨"customers", "city", false, .dimension "customers.city"⟩
def drillBuyers : AnsField := ⟨"orders", "buyers", false,
  .measure { type := .countDistinct, sql := "orders.customer", pk := some ("orders.id", "orders.id"), distinctKey := "orders.id" }⟩
def drillRevenue : AnsField := ⟨"orders", "revenue", false,
  .measure { type := .sum, sql := "orders.amount", pk := some ("orders.id", "orders.id"), distinctKey := "orders.id" }⟩

/-- The project, with one key for all FROMs (an example; it models no file in /repo). -/
def drillP (fpk : FunctionalPk) : AnsProject := ⟨ansGet drillTable, fun _ => fpk, fun _ => []⟩

/-- Buyers and revenue by the given dimensions (an example; it models no file in /repo). -/
def drillQ (dims : List String) : Question where
  metrics := ["buyers", "revenue"]
  dimensions := dims
  wheres := []
  havings := []
  whereNames := []
  havingNames := []
  orderNames := []
  groupFilters := []
  order := .absent
  limit := none
  force := false
  fieldOf := fun _ => "region"

/-- The columns of the rows: key, region, customer, amount (an example; it models no file in /repo). -/
def drillCols : List (String × (Nat × Nat × Nat × Nat → Nat)) :=
  [("orders.id", fun r => r.1), ("orders.region", fun r => r.2.1), ("orders.customer", fun r => r.2.2.1), ("orders.amount", fun r => r.2.2.2)]

/-- Any rows; the hash of a key is the key (an example; it models no file in /repo). -/
def drillDb (rows : List (Nat × Nat × Nat × Nat)) : Db (Nat × Nat × Nat × Nat) where
  rows := fun _ => rows
  tables := fun vs => vs
  engine := ⟨fun r s => (dictGet drillCols s).map (fun c => (c r : ℚ)), fun x => x.num⟩
  test := fun _ _ => .t

theorem drillP_known {fpk : FunctionalPk} {n : String} {f : AnsField} (h : (drillP fpk).get n = .ok f) : f ∈ drillTable.map Prod.snd := by
  have h : ansGet drillTable n = .ok f := h
  unfold ansGet at h
  cases hd : dictGet drillTable n with
  | none => rw [hd] at h; cases h
  | some g =>
    rw [hd] at h
    cases h
    exact List.mem_map.mpr ⟨(n, f), dictGet_mem hd, rfl⟩

theorem drillP_labels (fpk : FunctionalPk) : LabelsDiffer (drillP fpk) := by
  intro n m f g hf hg hl
  have h1 := drillP_known hf
  have h2 := drillP_known hg
  revert hl
  have : ∀ f ∈ drillTable.map Prod.snd, ∀ g ∈ drillTable.map Prod.snd, f.label = g.label → f = g := by decide +kernel
  exact this f h1 g h2

theorem drill_get (fpk : FunctionalPk) : (drillP fpk).get "region" = .ok drillRegion ∧ (drillP fpk).get "city" = .ok drillCity ∧
    (drillP fpk).get "buyers" = .ok drillBuyers ∧ (drillP fpk).get "revenue" = .ok drillRevenue := by
  have : ansGet drillTable "region" = .ok drillRegion ∧ ansGet drillTable "city" = .ok drillCity ∧
    ansGet drillTable "buyers" = .ok drillBuyers ∧ ansGet drillTable "revenue" = .ok drillRevenue := by decide +kernel
  exact this

theorem drill_proper (fpk : FunctionalPk) : Proper (drillP fpk) (drillQ []) [] [drillBuyers, drillRevenue] ∧
    Proper (drillP fpk) (drillQ ["region"]) [drillRegion] [drillBuyers, drillRevenue] ∧
    Proper (drillP fpk) (drillQ ["region", "city"]) [drillRegion, drillCity] [drillBuyers, drillRevenue] := by
  obtain ⟨h1, h2, h3, h4⟩ := drill_get fpk
  exact ⟨⟨.nil, .cons h3 (.cons h4 .nil), by simp, by simp [drillBuyers, drillRevenue], trivial, trivial⟩,
    ⟨.cons h1 .nil, .cons h3 (.cons h4 .nil), by simp [drillRegion], by simp [drillBuyers, drillRevenue], trivial, trivial⟩,
    ⟨.cons h1 (.cons h2 .nil), .cons h3 (.cons h4 .nil), by simp [drillRegion, drillCity], by simp [drillBuyers, drillRevenue], trivial, trivial⟩⟩

theorem drill_groups (dims : List String) (ds : List AnsField) (h : ∀ d ∈ ds, d.primaryKey = false) : GroupsRows (drillQ dims) ds [drillBuyers, drillRevenue] :=
  .inr fun m _ d hd hpk => absurd hpk (by rw [h d hd]; simp)

theorem drill_all (dims : List String) : AsksAll .snowflake (drillQ dims) := by
  refine ⟨rfl, rfl, rfl, by simp [drillQ], ?_⟩
  have : askedOrder .snowflake (drillQ dims) = [("buyers", true)] := by
    show defaultAsked .snowflake ["buyers", "revenue"] dims = _
    simp [defaultAsked]
  rw [this]
  decide

theorem drill_orders (fpk : FunctionalPk) (dims : List String) : OrdersRequested (drillP fpk) .snowflake (drillQ dims) := by
  refine ⟨by simp [drillQ], fun o ho => ?_⟩
  have : askedOrder .snowflake (drillQ dims) = [("buyers", true)] := by
    show defaultAsked .snowflake ["buyers", "revenue"] dims = _
    simp [defaultAsked]
  rw [this, List.mem_singleton] at ho
  subst ho
  exact ⟨by decide, "buyers", by simp [drillQ], rfl⟩

theorem drill_filters (fpk : FunctionalPk) (dims dims' : List String) (views views' : List String) (ok : String → Prop) :
    SameFilters (drillP fpk) (drillQ dims) (drillQ dims') views views' ok := by
  refine ⟨rfl, rfl, fun i => Iff.rfl, fun i hi => ?_⟩
  rcases hi with hi | ⟨l, hl, -⟩
  · cases hi
  · cases hl

theorem drill_widens (fpk : FunctionalPk) (dims dims' : List String) (ds ms : List AnsField) (rows : List (Nat × Nat × Nat × Nat)) (views views' : List String) :
    Widens (drillDb rows) (drillP fpk) .snowflake (drillQ dims) (drillQ dims') ds ms views views' :=
  C81_same_from _ _ _ _ _ _ _ _ _ rfl (drill_filters fpk dims dims' views views' _)

/-- The hypotheses of C81 (a) and (e): three orders, of two buyers, in two regions. -/
example : ∃ s s' out out' line, buildStmt (drillP (.key "orders.id")) .snowflake (drillQ ["region"]) = .ok s ∧
    buildStmt (drillP (.key "orders.id")) .snowflake (drillQ []) = .ok s' ∧
    s.Answers (drillDb [(1, 1, 7, 10), (2, 2, 7, 5), (3, 2, 8, 1)]) out ∧ s'.Answers (drillDb [(1, 1, 7, 10), (2, 2, 7, 5), (3, 2, 8, 1)]) out' ∧
    out' = [line] ∧ line[1]? = some (together .sum (columnAt 2 out)) := by
  obtain ⟨s, hs⟩ := ok_of_isOk (x := buildStmt (drillP (.key "orders.id")) .snowflake (drillQ ["region"])) (by decide +kernel)
  obtain ⟨s', hs'⟩ := ok_of_isOk (x := buildStmt (drillP (.key "orders.id")) .snowflake (drillQ [])) (by decide +kernel)
  obtain ⟨hp', hp, -⟩ := drill_proper (.key "orders.id")
  obtain ⟨out, ho⟩ := C55_answered _ _ _ s hs _ _ hp rfl (by decide +kernel) (fun _ => drill_orders _ _) (drillDb [(1, 1, 7, 10), (2, 2, 7, 5), (3, 2, 8, 1)])
  obtain ⟨out', ho'⟩ := C55_answered _ _ _ s' hs' _ _ hp' rfl (by decide +kernel) (fun _ => drill_orders _ _) (drillDb [(1, 1, 7, 10), (2, 2, 7, 5), (3, 2, 8, 1)])
  obtain ⟨line, h1, -, h2⟩ := C81_total _ _ _ _ s s' hs hs' _ _ hp hp' (by simp) (drill_groups _ _ (by simp [drillRegion])) (drill_all _) (drill_all _)
    (drillP_labels _) _ (fun views views' _ _ => drill_widens _ _ _ _ _ _ views views') 1 drillRevenue rfl _ rfl
    (fun _ _ => .inr (.inr ⟨.inl rfl, .inl ⟨_, _, rfl, rfl⟩⟩)) out out' ho ho'
  exact ⟨s, s', out, out', line, hs, hs', ho, ho', h1, h2⟩

/-- The lines of the next theorem. -/
theorem drill_lines : ([(1, 1, 7, 10), (1, 2, 7, 10)] : List (Nat × Nat × Nat × Nat)).map (fun r =>
    ([drillRegion].map (fun d => valueOf (drillDb [(1, 1, 7, 10), (1, 2, 7, 10)]).engine .snowflake .doesNotExist d [r])) ++
    [drillBuyers, drillRevenue].map (fun m => valueOf (drillDb [(1, 1, 7, 10), (1, 2, 7, 10)]).engine .snowflake .doesNotExist m
      (([(1, 1, 7, 10), (1, 2, 7, 10)] : List (Nat × Nat × Nat × Nat)).filter (fun x => decide (
        [drillRegion].map (fun d => valueOf (drillDb [(1, 1, 7, 10), (1, 2, 7, 10)]).engine .snowflake .doesNotExist d [x]) =
        [drillRegion].map (fun d => valueOf (drillDb [(1, 1, 7, 10), (1, 2, 7, 10)]).engine .snowflake .doesNotExist d [r])))))) =
    [[some 1, some 1, some 10], [some 2, some 1, some 10]] := by
  decide +kernel

/-- C81: what does not add up. When the FROM repeats the rows of a metric's view, for example orders once per item, then sums by a dimension of the repeating view count an order
on each of its lines, but once in the total. And counts of different values count a buyer of two regions on both lines. Both totals are right; the lines come to
more. -/
theorem C81_not_all : ∃ (P : AnsProject) (w : Warehouse) (q q' : Question) (s s' : Stmt) (es ms : List AnsField) (D : Db (Nat × Nat × Nat × Nat))
    (out out' : List (List Val)) (line : List Val),
    buildStmt P w q = .ok s ∧ buildStmt P w q' = .ok s' ∧ Proper P q es ms ∧ Proper P q' [] ms ∧ es ≠ [] ∧ GroupsRows q es ms ∧ AsksAll w q ∧ AsksAll w q' ∧
    LabelsDiffer P ∧ (∀ views views', Widens D P w q q' [] ms views views') ∧ s.Answers D out ∧ s'.Answers D out' ∧ out' = [line] ∧
    ms.map (fun f => f.sql) = [.measure { type := .countDistinct, sql := "orders.customer", pk := some ("orders.id", "orders.id"), distinctKey := "orders.id" },
      .measure { type := .sum, sql := "orders.amount", pk := some ("orders.id", "orders.id"), distinctKey := "orders.id" }] ∧
    line = [some 1, some 10] ∧ together .sum (columnAt 1 out) = some 2 ∧ together .sum (columnAt 2 out) = some 20 := by
  obtain ⟨s, hs⟩ := ok_of_isOk (x := buildStmt (drillP .doesNotExist) .snowflake (drillQ ["region"])) (by decide +kernel)
  obtain ⟨s', hs'⟩ := ok_of_isOk (x := buildStmt (drillP .doesNotExist) .snowflake (drillQ [])) (by decide +kernel)
  obtain ⟨hp', hp, -⟩ := drill_proper .doesNotExist
  obtain ⟨out, ho⟩ := C55_answered _ _ _ s hs _ _ hp rfl (by decide +kernel) (fun _ => drill_orders _ _) (drillDb [(1, 1, 7, 10), (1, 2, 7, 10)])
  obtain ⟨out', ho'⟩ := C55_answered _ _ _ s' hs' _ _ hp' rfl (by decide +kernel) (fun _ => drill_orders _ _) (drillDb [(1, 1, 7, 10), (1, 2, 7, 10)])
  have hall := drill_all ["region"]
  obtain ⟨views, lines, hv, ht, -, hlim⟩ := C55_table _ _ _ s hs _ _ hp (drill_groups _ _ (by simp [drillRegion])) (by simp) rfl (drillP_labels _) hall.order.1 hall.order.2
    (.inl (by simp [drillQ])) _ out ho
  have hlim : out = lines := hlim
  subst hlim
  obtain ⟨views', p', hv', hp1, h1, -⟩ := C55_total _ _ _ s' hs' _ hp' rfl (by simp [drillQ]) _ out' ho'
  rw [having_none rfl] at ht
  rw [having_none rfl] at h1
  have h1 := h1 trivial
  have hpass : ∀ views r dims, PassesWhere (drillDb [(1, 1, 7, 10), (1, 2, 7, 10)]) (drillP .doesNotExist) .snowflake views (drillQ dims) r := by
    intro views r dims
    refine ⟨fun i hi => ?_, fun v hv => ?_⟩
    · exact absurd (show i ∈ [] from hi) List.not_mem_nil
    · exact absurd (show v ∈ [] from hv) List.not_mem_nil
  have hpt : p' = fun _ => true := by
    funext r
    exact (hp1 r).mpr (hpass _ _ _)
  have htrue : (PassesWhere (drillDb [(1, 1, 7, 10), (1, 2, 7, 10)]) (drillP .doesNotExist) .snowflake views (drillQ ["region"])) = fun _ => True := by
    funext r
    exact eq_true (hpass _ _ _)
  rw [htrue] at ht
  have hmem := unfiltered_mem ht
  have hperm : out.Perm [[some 1, some 1, some 10], [some 2, some 1, some 10]] := by
    refine (List.perm_ext_iff_of_nodup (ht.once.of_map _) (by decide)).mpr fun l => ?_
    rw [hmem l]
    exact iff_of_eq (congrArg (l ∈ ·) drill_lines)
  refine ⟨drillP .doesNotExist, .snowflake, drillQ ["region"], drillQ [], s, s', [drillRegion], [drillBuyers, drillRevenue], _, out, out', _, hs, hs', hp, hp',
    by simp, drill_groups _ _ (by simp [drillRegion]), drill_all _, drill_all _, drillP_labels _, fun views views' => drill_widens _ _ _ _ _ _ views views', ho, ho', h1, rfl, ?_, ?_, ?_⟩
  · rw [hpt]
    show [drillBuyers, drillRevenue].map (fun m => valueOf (drillDb [(1, 1, 7, 10), (1, 2, 7, 10)]).engine .snowflake .doesNotExist m
      (([(1, 1, 7, 10), (1, 2, 7, 10)] : List (Nat × Nat × Nat × Nat)).filter (fun _ => true))) = _
    decide +kernel
  · have := (hperm.map (fun l => (l[1]?).join)).filterMap id
    show sqlSum ((columnAt 1 out).filterMap id) = _
    unfold columnAt
    rw [drill_sqlSum_perm this]
    decide +kernel
  · have := (hperm.map (fun l => (l[2]?).join)).filterMap id
    show sqlSum ((columnAt 2 out).filterMap id) = _
    unfold columnAt
    rw [drill_sqlSum_perm this]
    decide +kernel

/-! ### A dimension that is looked up -/

/-- The columns of the two views (an example; it models no file in /repo). -/
def lookCols : List (String × String × (Nat × Nat × Nat × Nat → Nat)) :=
  [("orders.id", "orders", fun r => r.1), ("orders.region", "orders", fun r => r.2.1), ("orders.customer", "orders", fun r => r.2.2.1),
   ("orders.amount", "orders", fun r => r.2.2.2), ("customers.city", "customers", fun r => r.2.1)]

/-- A joined row has the columns of its views (an example; it models no file in /repo). -/
def lookE : Engine (JRow (Nat × Nat × Nat × Nat)) :=
  ⟨fun row s => (dictGet lookCols s).bind (fun c => (dictGet row c.1).map (fun r => (c.2 r : ℚ))), fun x => x.num⟩

/-- Three orders; the customer of the third is not known (an example; it models no file in /repo). -/
def lookDb (v : String) : List (Nat × Nat × Nat × Nat) :=
  if v = "orders" then [(1, 1, 7, 10), (2, 2, 7, 5), (3, 2, 8, 1)] else [(7, 70, 0, 0), (9, 90, 0, 0)]

/-- Customers are looked up (an example; it models no file in /repo). -/
def lookJoin : JoinStep (Nat × Nat × Nat × Nat) := ⟨"orders", "customers", .manyToOne, .left, fun o c => o.2.2.1 == c.1⟩

/-- The FROM joins the customers when they are needed (an example; it models no file in /repo). -/
def lookFrom (views : List String) : String × List (JoinStep (Nat × Nat × Nat × Nat)) :=
  if "customers" ∈ views then ("orders", [lookJoin]) else ("orders", [])

theorem lookE_reads (s : String) (c : Nat × Nat × Nat × Nat → Nat) (hs : dictGet lookCols s = some ("orders", c)) (vs : List String) :
    ReadsFrom lookE ("orders" :: vs) s := by
  refine ⟨"orders", by simp, fun row => ?_⟩
  have h : ∀ row, lookE.value row s = (dictGet row "orders").map (fun r => (c r : ℚ)) := by
    intro row
    show (dictGet lookCols s).bind _ = _
    rw [hs]
    rfl
  rw [h]
  cases dictGet row "orders" with
  | none => rfl
  | some r =>
    rw [Option.bind_some, h, dictGet_cons_eq]

theorem look_views (fpk : FunctionalPk) (views : List String) :
    (QueryViews (drillP fpk) (drillQ ["region", "city"]) views → "customers" ∈ views) ∧
    (QueryViews (drillP fpk) (drillQ ["region"]) views → "customers" ∉ views) := by
  obtain ⟨h1, h2, h3, h4⟩ := drill_get fpk
  constructor
  · rintro ⟨fs, hn, -, hv⟩
    obtain ⟨f, hf, he⟩ := forall₂_mem_left hn (show "city" ∈ _ by simp [drillQ])
    rw [h2] at he
    cases he
    exact (hv _).mpr ⟨_, hf, rfl⟩
  · rintro ⟨fs, hn, -, hv⟩ hc
    obtain ⟨f, hf, he⟩ := (hv _).mp hc
    obtain ⟨n, hn1, hn2⟩ := forall₂_mem_right hn hf
    have hn1 : n ∈ ["buyers", "revenue", "region"] := hn1
    simp only [List.mem_cons, List.not_mem_nil, or_false] at hn1
    rcases hn1 with rfl | rfl | rfl
    · rw [h3] at hn2; cases hn2; exact absurd he (by decide)
    · rw [h4] at hn2; cases hn2; exact absurd he (by decide)
    · rw [h1] at hn2; cases hn2; exact absurd he (by decide)

theorem look_up : OnlyLooksUp lookDb ("orders", [lookJoin]) ("orders", []) := by
  refine ⟨rfl, ⟨by simp, by simp [lookJoin], fun pre j post h => ?_⟩, [lookJoin], rfl, fun j hj => ?_⟩
  · cases pre with
    | nil => exact .inl (by rw [← (List.cons.inj h).1]; rfl)
    | cons k pre =>
      have := (List.cons.inj h).2
      cases pre <;> cases this
  · rw [List.mem_singleton] at hj
    subst hj
    refine ⟨rfl, .inl rfl, fun _ => by decide, ?_⟩
    rintro (h | h) <;> cases h

/-- The hypotheses of C81 (b) and (d): revenue by region, and by region and city of the customer. -/
example : ∃ s s' out out', buildStmt (drillP (.key "orders.id")) .snowflake (drillQ ["region", "city"]) = .ok s ∧
    buildStmt (drillP (.key "orders.id")) .snowflake (drillQ ["region"]) = .ok s' ∧
    s.Answers (joinedDb lookDb lookFrom lookE (fun _ _ => .t)) out ∧ s'.Answers (joinedDb lookDb lookFrom lookE (fun _ _ => .t)) out' ∧
    ∀ l' ∈ out', l'[2]? = some (together .sum (columnAt 3 (out.filter (fun l => l.take 1 = l'.take 1)))) := by
  obtain ⟨s, hs⟩ := ok_of_isOk (x := buildStmt (drillP (.key "orders.id")) .snowflake (drillQ ["region", "city"])) (by decide +kernel)
  obtain ⟨s', hs'⟩ := ok_of_isOk (x := buildStmt (drillP (.key "orders.id")) .snowflake (drillQ ["region"])) (by decide +kernel)
  obtain ⟨-, hp', hp⟩ := drill_proper (.key "orders.id")
  obtain ⟨out, ho⟩ := C55_answered _ _ _ s hs _ _ hp rfl (by decide +kernel) (fun _ => drill_orders _ _) (joinedDb lookDb lookFrom lookE (fun _ _ => .t))
  obtain ⟨out', ho'⟩ := C55_answered _ _ _ s' hs' _ _ hp' rfl (by decide +kernel) (fun _ => drill_orders _ _) (joinedDb lookDb lookFrom lookE (fun _ _ => .t))
  obtain ⟨h, -⟩ := C81_drill (es := [drillCity]) _ _ _ _ s s' hs hs' [drillRegion] _ hp hp' (by simp) (drill_groups _ _ (by simp [drillRegion, drillCity]))
    (drill_groups _ _ (by simp [drillRegion])) (drill_all _) (drill_all _) (drillP_labels _) (joinedDb lookDb lookFrom lookE (fun _ _ => .t)) (by
      intro views views' hv hv'
      have e1 : lookFrom views = ("orders", [lookJoin]) := if_pos ((look_views _ _).1 hv)
      have e2 : lookFrom views' = ("orders", []) := if_neg ((look_views _ _).2 hv')
      refine C81_looked_up _ _ _ _ _ _ _ _ _ _ _ _ ?_ (drill_filters _ _ _ _ _ _) ?_ ?_
      · rw [e1, e2]
        exact look_up
      · rw [e2]
        intro d hd c hc
        rw [List.mem_singleton] at hd
        subst hd
        cases hc
        exact lookE_reads _ _ rfl _
      · rw [e2]
        intro m hm a ha
        simp only [List.mem_cons, List.not_mem_nil, or_false] at hm
        rcases hm with rfl | rfl
        · cases ha
          exact lookE_reads _ _ rfl _
        · cases ha
          exact lookE_reads _ _ rfl _) out out' ho ho'
  exact ⟨s, s', out, out', hs, hs', ho, ho', fun l' hl' => h l' hl' 1 drillRevenue _ rfl rfl (fun _ _ => .inr (.inr ⟨.inl rfl, .inl ⟨_, _, rfl, rfl⟩⟩))⟩

end ML
