import Verif.Narrow.Props
import Verif.Drill.PropsEx
/-
C90: a filter and its opposite leave out what is NULL, and concrete cases.
-/
set_option autoImplicit false
namespace ML
open Spec

/-! ### A concrete project -/

def narrowRegion : AnsField := ⟨"orders", "region", false, .dimension "orders.region"⟩
def narrowChannel : AnsField := ⟨"orders", "channel", false, .dimension "orders.channel"⟩
def narrowOrders : AnsField := ⟨"orders", "orders", false,
  .measure { type := .count, sql := "orders.id", pk := some ("orders.id", "orders.id"), distinctKey := "orders.id" }⟩
def narrowRevenue : AnsField := ⟨"orders", "revenue", false,
  .measure { type := .sum, sql := "orders.amount", pk := some ("orders.id", "orders.id"), distinctKey := "orders.id" }⟩

/-- Orders with a region and a channel; how many there are, and what was paid (an example; it models no file in /repo). -/
def narrowTable : List (String × AnsField) :=
  [("region", narrowRegion), ("channel", narrowChannel), ("orders", narrowOrders), ("revenue", narrowRevenue)]

/-- The project (an example; it models no file in /repo). -/
def narrowP : AnsProject := ⟨ansGet narrowTable, fun _ => .key "orders.id", fun _ => []⟩

/-- Orders and revenue by the given dimensions, with the given comparisons of the channel (an example; it models no file in /repo). -/
def narrowQ (dims : List String) (cs : List Nat) : Question where
  metrics := ["orders", "revenue"]
  dimensions := dims
  wheres := cs.map (fun i => .leaf { field := some "channel", first := i })
  havings := []
  whereNames := cs.map (fun _ => "channel")
  havingNames := []
  orderNames := []
  groupFilters := []
  order := .absent
  limit := none
  force := false
  fieldOf := fun _ => "channel"

/-- The columns of the rows: key, region, channel (0 for NULL), amount (an example; it models no file in /repo). -/
def narrowCols : List (String × (Nat × Nat × Nat × Nat → Val)) :=
  [("orders.id", fun r => some r.1), ("orders.region", fun r => some r.2.1), ("orders.channel", fun r => if r.2.2.1 = 0 then none else some r.2.2.1),
   ("orders.amount", fun r => some r.2.2.2)]

/-- Comparison 0 is with the value 1, comparison 1 its opposite; neither is true or false of NULL (an example; it models no file in /repo). -/
def narrowDb (rows : List (Nat × Nat × Nat × Nat)) : Db (Nat × Nat × Nat × Nat) where
  rows := fun _ => rows
  tables := fun vs => vs
  engine := ⟨fun r s => (dictGet narrowCols s).bind (fun c => c r), fun x => x.num⟩
  test := fun i v => if v = none then .u else if (v = some 1) = (i = 0) then .t else .f

theorem narrow_get : narrowP.get "region" = .ok narrowRegion ∧ narrowP.get "channel" = .ok narrowChannel ∧ narrowP.get "orders" = .ok narrowOrders ∧
    narrowP.get "revenue" = .ok narrowRevenue := by
  have : ansGet narrowTable "region" = .ok narrowRegion ∧ ansGet narrowTable "channel" = .ok narrowChannel ∧ ansGet narrowTable "orders" = .ok narrowOrders ∧
    ansGet narrowTable "revenue" = .ok narrowRevenue := by decide +kernel
  exact this

theorem narrow_labels : LabelsDiffer narrowP := by
  have hk : ∀ n f, narrowP.get n = .ok f → f ∈ narrowTable.map Prod.snd := by
    intro n f h
    have h : ansGet narrowTable n = .ok f := h
    unfold ansGet at h
    cases hd : dictGet narrowTable n with
    | none => rw [hd] at h; cases h
    | some g =>
      rw [hd] at h
      cases h
      exact List.mem_map.mpr ⟨(n, f), dictGet_mem hd, rfl⟩
  intro n m f g hf hg hl
  have : ∀ f ∈ narrowTable.map Prod.snd, ∀ g ∈ narrowTable.map Prod.snd, f.label = g.label → f = g := by decide +kernel
  exact this f (hk n f hf) g (hk m g hg) hl

theorem narrow_wheres (cs : List Nat) : WellFormedFilters (cs.map (fun i => FObj.leaf { field := some "channel", first := i })) := by
  induction cs with
  | nil => trivial
  | cons c cs ih => exact ⟨trivial, ih⟩

theorem narrow_proper (cs : List Nat) : Proper narrowP (narrowQ [] cs) [] [narrowOrders, narrowRevenue] ∧
    Proper narrowP (narrowQ ["region"] cs) [narrowRegion] [narrowOrders, narrowRevenue] := by
  obtain ⟨h1, h2, h3, h4⟩ := narrow_get
  exact ⟨⟨.nil, .cons h3 (.cons h4 .nil), by simp, by simp [narrowOrders, narrowRevenue], narrow_wheres cs, trivial⟩,
    ⟨.cons h1 .nil, .cons h3 (.cons h4 .nil), by simp [narrowRegion], by simp [narrowOrders, narrowRevenue], narrow_wheres cs, trivial⟩⟩

theorem narrow_groups (cs : List Nat) : GroupsRows (narrowQ ["region"] cs) [narrowRegion] [narrowOrders, narrowRevenue] := by
  refine .inr fun m _ d hd hpk => ?_
  rw [List.mem_singleton] at hd
  subst hd
  cases hpk

theorem narrow_asked (dims : List String) (cs : List Nat) : askedOrder .snowflake (narrowQ dims cs) = [("orders", true)] := by
  show defaultAsked .snowflake ["orders", "revenue"] dims = _
  simp [defaultAsked]

theorem narrow_all (dims : List String) (cs : List Nat) : AsksAll .snowflake (narrowQ dims cs) := by
  refine ⟨rfl, rfl, rfl, by simp [narrowQ], ?_⟩
  rw [narrow_asked]
  decide

theorem narrow_orders (dims : List String) (cs : List Nat) : OrdersRequested narrowP .snowflake (narrowQ dims cs) := by
  refine ⟨by simp [narrowQ], fun o ho => ?_⟩
  rw [narrow_asked, List.mem_singleton] at ho
  subst ho
  exact ⟨by decide, "orders", by simp [narrowQ], rfl⟩

theorem narrow_set (rows : List (Nat × Nat × Nat × Nat)) : SetOfViews (narrowDb rows) narrowP := fun _ _ _ => ⟨rfl, rfl, fun _ => Iff.rfl⟩

theorem narrow_views (dims : List String) (hd : ∀ d ∈ dims, d = "region") (cs : List Nat) (views : List String) (h : QueryViews narrowP (narrowQ dims cs) views) (v : String) :
    v ∈ views ↔ v = "orders" := by
  obtain ⟨h1, h2, h3, h4⟩ := narrow_get
  obtain ⟨fs, hn, -, hv⟩ := h
  have hq : ∀ n ∈ (narrowQ dims cs).metrics ++ (narrowQ dims cs).dimensions ++ (narrowQ dims cs).whereNames ++ (narrowQ dims cs).havingNames ++ (narrowQ dims cs).orderNames,
      n = "orders" ∨ n = "revenue" ∨ n = "region" ∨ n = "channel" := by
    intro n hn
    simp only [narrowQ, List.append_nil, List.mem_append, List.mem_map, List.mem_cons, List.not_mem_nil, or_false] at hn
    rcases hn with ((rfl | rfl) | hn) | ⟨_, -, rfl⟩
    · exact .inl rfl
    · exact .inr (.inl rfl)
    · exact .inr (.inr (.inl (hd n hn)))
    · exact .inr (.inr (.inr rfl))
  have hall : ∀ f ∈ fs, f.view = "orders" := by
    intro f hf
    obtain ⟨n, hn1, hn2⟩ := forall₂_mem_right hn hf
    rcases hq n hn1 with rfl | rfl | rfl | rfl
    · rw [h3] at hn2; cases hn2; rfl
    · rw [h4] at hn2; cases hn2; rfl
    · rw [h1] at hn2; cases hn2; rfl
    · rw [h2] at hn2; cases hn2; rfl
  rw [hv]
  constructor
  · rintro ⟨f, hf, rfl⟩
    exact hall f hf
  · rintro rfl
    obtain ⟨f, hf, -⟩ := forall₂_mem_left hn (show "revenue" ∈ _ by simp [narrowQ])
    exact ⟨f, hf, hall f hf⟩

theorem narrow_same (dims : List String) (hd : ∀ d ∈ dims, d = "region") (cs cs' : List Nat) : SameViews narrowP (narrowQ dims cs) (narrowQ dims cs') := by
  intro views views' h h' v
  rw [narrow_views dims hd cs views h v, narrow_views dims hd cs' views' h' v]

theorem narrow_adds (dims : List String) (c : Nat) : Adds (narrowQ dims []) (narrowQ dims [c]) (.leaf { field := some "channel", first := c }) := ⟨rfl, rfl, rfl⟩

theorem narrow_holds (rows : List (Nat × Nat × Nat × Nat)) (views : List String) (dims : List String) (c : Nat) (r : Nat × Nat × Nat × Nat) :
    Holds (narrowDb rows) narrowP .snowflake views (narrowQ dims []) (.leaf { field := some "channel", first := c }) r ↔ r.2.2.1 ≠ 0 ∧ (r.2.2.1 = 1 ↔ c = 0) := by
  obtain ⟨-, h2, -, -⟩ := narrow_get
  have hm : meaning (compared (narrowDb rows) narrowP .snowflake (narrowP.fpk views) (narrowQ dims []).fieldOf [r]) (.leaf { field := some "channel", first := c }) =
      (narrowDb rows).test c (if r.2.2.1 = 0 then none else some r.2.2.1) := by
    have hc : ∀ a : TV, TV.conj [a] = a := fun a => by cases a <;> rfl
    show TV.conj [compared (narrowDb rows) narrowP .snowflake (narrowP.fpk views) (narrowQ dims []).fieldOf [r] c] = _
    rw [hc]
    unfold compared
    rw [show (narrowQ dims []).fieldOf c = "channel" from rfl, h2]
    rfl
  unfold Holds
  rw [hm]
  by_cases h0 : r.2.2.1 = 0
  · simp [narrowDb, h0]
  · simp only [narrowDb, h0, if_false, reduceCtorEq, not_false_eq_true, ne_eq, true_and, Option.some.injEq, Nat.cast_eq_one, eq_iff_iff]
    split <;> simp_all

theorem narrow_splits (rows : List (Nat × Nat × Nat × Nat)) (hr : ∀ r ∈ rows, r.2.2.1 ≠ 0) (dims : List String) :
    Splits (narrowDb rows) narrowP .snowflake (narrowQ dims []) (.leaf { field := some "channel", first := 0 }) (.leaf { field := some "channel", first := 1 }) := by
  intro views _ r hm _
  have := hr r hm
  rw [narrow_holds, narrow_holds]
  simp only [this, ne_eq, not_false_eq_true, true_and, one_ne_zero, iff_false, not_not, iff_true]

/-- The three queries, with their answers. -/
theorem narrow_answers (dims : List String) (ds : List AnsField) (cs : List Nat) (hp : Proper narrowP (narrowQ dims cs) ds [narrowOrders, narrowRevenue])
    (hok : (buildStmt narrowP .snowflake (narrowQ dims cs)).isOk = true) (hl : ((ds ++ [narrowOrders, narrowRevenue]).map AnsField.label).Nodup) (rows : List (Nat × Nat × Nat × Nat)) :
    ∃ s out, buildStmt narrowP .snowflake (narrowQ dims cs) = .ok s ∧ s.Answers (narrowDb rows) out := by
  obtain ⟨s, hs⟩ := ok_of_isOk hok
  obtain ⟨out, ho⟩ := C55_answered _ _ _ s hs _ _ hp rfl hl (fun _ => narrow_orders _ _) (narrowDb rows)
  exact ⟨s, out, hs, ho⟩

/-- The hypotheses of C90 (a) and (c): orders of two channels in two regions. -/
example : ∃ out out₁ out₂ : List (List Val), (∀ l' ∈ out₁, ∃ l ∈ out, l.take 1 = l'.take 1) ∧
    ∀ l ∈ out, l[2]? = some (together .sum (columnAt 2 ((out₁ ++ out₂).filter (fun k => k.take 1 = l.take 1)))) := by
  obtain ⟨s, out, hs, ho⟩ := narrow_answers ["region"] [narrowRegion] [] (narrow_proper _).2 (by decide +kernel) (by decide +kernel)
    [(1, 1, 1, 10), (2, 1, 2, 5), (3, 2, 2, 1)]
  obtain ⟨s₁, out₁, hs₁, ho₁⟩ := narrow_answers ["region"] [narrowRegion] [0] (narrow_proper _).2 (by decide +kernel) (by decide +kernel)
    [(1, 1, 1, 10), (2, 1, 2, 5), (3, 2, 2, 1)]
  obtain ⟨s₂, out₂, hs₂, ho₂⟩ := narrow_answers ["region"] [narrowRegion] [1] (narrow_proper _).2 (by decide +kernel) (by decide +kernel)
    [(1, 1, 1, 10), (2, 1, 2, 5), (3, 2, 2, 1)]
  refine ⟨out, out₁, out₂, fun l' hl' => ?_, ?_⟩
  · obtain ⟨l, h1, h2, -⟩ := C90_filter _ _ _ _ s s₁ hs hs₁ _ _ (narrow_proper _).2 (narrow_proper _).2 (by simp) (narrow_groups _) (narrow_groups _) (narrow_all _ _)
      (narrow_all _ _) narrow_labels _ (narrow_set _) (narrow_same _ (by simp) _ _) _ (narrow_adds _ 0) out out₁ ho ho₁ l' hl'
    exact ⟨l, h1, h2⟩
  · exact C90_split _ _ _ _ _ s s₁ s₂ hs hs₁ hs₂ _ _ (narrow_proper _).2 (narrow_proper _).2 (narrow_proper _).2 (by simp) (narrow_groups _) (narrow_groups _) (narrow_groups _)
      (narrow_all _ _) (narrow_all _ _) (narrow_all _ _) narrow_labels _ (narrow_set _) (narrow_same _ (by simp) _ _) (narrow_same _ (by simp) _ _) _ _ (narrow_adds _ 0)
      (narrow_adds _ 1) (narrow_splits _ (by decide) _) 1 narrowRevenue _ rfl rfl (fun _ _ => .inr (.inr ⟨.inl rfl, .inl ⟨_, _, rfl, rfl⟩⟩)) out out₁ out₂ ho ho₁ ho₂

/-- The hypotheses of C90 (b) and (d). -/
example : ∃ out out₁ out₂ : List (List Val), ∃ l, out = [l] ∧ out₁.length = 1 ∧ out₂.length = 1 ∧ l[0]? = some (together .count (columnAt 0 (out₁ ++ out₂))) ∧
    ∃ l₁, out₁ = [l₁] ∧ ∃ a a', l₁[0]? = some a ∧ l[0]? = some a' ∧ FromFewer .count a a' := by
  obtain ⟨s, out, hs, ho⟩ := narrow_answers [] [] [] (narrow_proper _).1 (by decide +kernel) (by decide +kernel) [(1, 1, 1, 10), (2, 1, 2, 5), (3, 2, 2, 1)]
  obtain ⟨s₁, out₁, hs₁, ho₁⟩ := narrow_answers [] [] [0] (narrow_proper _).1 (by decide +kernel) (by decide +kernel) [(1, 1, 1, 10), (2, 1, 2, 5), (3, 2, 2, 1)]
  obtain ⟨s₂, out₂, hs₂, ho₂⟩ := narrow_answers [] [] [1] (narrow_proper _).1 (by decide +kernel) (by decide +kernel) [(1, 1, 1, 10), (2, 1, 2, 5), (3, 2, 2, 1)]
  obtain ⟨l, h1, h2, h3, h4⟩ := C90_split_total _ _ _ _ _ s s₁ s₂ hs hs₁ hs₂ _ (narrow_proper _).1 (narrow_proper _).1 (narrow_proper _).1 (narrow_all _ _) (narrow_all _ _)
    (narrow_all _ _) _ (narrow_set _) (narrow_same _ (by simp) _ _) (narrow_same _ (by simp) _ _) _ _ (narrow_adds _ 0) (narrow_adds _ 1) (narrow_splits _ (by decide) _)
    0 narrowOrders _ rfl rfl (fun _ _ => .inr (.inr ⟨.inr rfl, .inl ⟨_, _, rfl, rfl⟩⟩)) out out₁ out₂ ho ho₁ ho₂
  obtain ⟨k, k', h5, h6, h7⟩ := C90_total _ _ _ _ s s₁ hs hs₁ _ (narrow_proper _).1 (narrow_proper _).1 (narrow_all _ _) (narrow_all _ _) _ (narrow_set _)
    (narrow_same _ (by simp) _ _) _ (narrow_adds _ 0) out out₁ ho ho₁
  obtain ⟨a', a, h8, h9, h10⟩ := h7 0 narrowOrders _ rfl rfl
  rw [h1] at h5
  cases h5
  exact ⟨out, out₁, out₂, l, h1, h2, h3, h4, k', h6, a', a, h8, h9, h10⟩

/-- C90 (e): what is NULL is in neither answer. There are two orders, one of channel 1 and one without a channel; one of them is of channel 1, and none is of another channel. -/
theorem C90_null : ∃ (P : AnsProject) (q q₁ q₂ : Question) (s s₁ s₂ : Stmt) (x y : FObj) (D : Db (Nat × Nat × Nat × Nat)) (out out₁ out₂ : List (List Val)),
    buildStmt P .snowflake q = .ok s ∧ buildStmt P .snowflake q₁ = .ok s₁ ∧ buildStmt P .snowflake q₂ = .ok s₂ ∧ Adds q q₁ x ∧ Adds q q₂ y ∧
    (∀ v : ℚ, D.test 0 (some v) = .t ↔ D.test 1 (some v) = .f) ∧ x = .leaf { field := some "channel", first := 0 } ∧ y = .leaf { field := some "channel", first := 1 } ∧
    s.Answers D out ∧ s₁.Answers D out₁ ∧ s₂.Answers D out₂ ∧
    out = [[some 2, some 15]] ∧ out₁ = [[some 1, some 10]] ∧ out₂ = [[some 0, none]] := by
  obtain ⟨s, out, hs, ho⟩ := narrow_answers [] [] [] (narrow_proper _).1 (by decide +kernel) (by decide +kernel) [(1, 1, 1, 10), (2, 1, 0, 5)]
  obtain ⟨s₁, out₁, hs₁, ho₁⟩ := narrow_answers [] [] [0] (narrow_proper _).1 (by decide +kernel) (by decide +kernel) [(1, 1, 1, 10), (2, 1, 0, 5)]
  obtain ⟨s₂, out₂, hs₂, ho₂⟩ := narrow_answers [] [] [1] (narrow_proper _).1 (by decide +kernel) (by decide +kernel) [(1, 1, 1, 10), (2, 1, 0, 5)]
  have hall : ∀ views r, PassesWhere (narrowDb [(1, 1, 1, 10), (2, 1, 0, 5)]) narrowP .snowflake views (narrowQ [] []) r :=
    fun views r => ⟨fun i hi => absurd (show i ∈ [] from hi) List.not_mem_nil, fun v hv => absurd (show v ∈ [] from hv) List.not_mem_nil⟩
  have hone : ∀ views c r, PassesWhere (narrowDb [(1, 1, 1, 10), (2, 1, 0, 5)]) narrowP .snowflake views (narrowQ [] [c]) r ↔ r.2.2.1 ≠ 0 ∧ (r.2.2.1 = 1 ↔ c = 0) := by
    intro views c r
    rw [adds_pass (narrow_set _) .snowflake (fun _ => Iff.rfl) (narrow_adds [] c), narrow_holds]
    exact and_iff_right (hall views r)
  have key : ∀ cs s out (p : Nat × Nat × Nat × Nat → Bool), buildStmt narrowP .snowflake (narrowQ [] cs) = .ok s → s.Answers (narrowDb [(1, 1, 1, 10), (2, 1, 0, 5)]) out →
      (∀ views r, p r = true ↔ PassesWhere (narrowDb [(1, 1, 1, 10), (2, 1, 0, 5)]) narrowP .snowflake views (narrowQ [] cs) r) →
      out = [[narrowOrders, narrowRevenue].map (fun m => valueOf (narrowDb [(1, 1, 1, 10), (2, 1, 0, 5)]).engine .snowflake (.key "orders.id") m
        (([(1, 1, 1, 10), (2, 1, 0, 5)] : List (Nat × Nat × Nat × Nat)).filter p))] := by
    intro cs s out p hs ho hp
    obtain ⟨views, p', hv, hp1, h1, -⟩ := C55_total _ _ _ s hs _ (narrow_proper cs).1 rfl (by simp [narrowQ]) _ out ho
    rw [having_none rfl] at h1
    have : p' = p := by
      funext r
      rw [Bool.eq_iff_iff, hp1, hp views]
    subst this
    exact h1 trivial
  have k0 := key [] s out (fun _ => true) hs ho (fun views r => iff_of_true rfl (hall views r))
  have k1 := key [0] s₁ out₁ (fun r => r.2.2.1 == 1) hs₁ ho₁ (fun views r => by rw [hone, beq_iff_eq]; simp; intro h; rw [h]; decide)
  have k2 := key [1] s₂ out₂ (fun r => r.2.2.1 != 0 && r.2.2.1 != 1) hs₂ ho₂ (fun views r => by rw [hone]; simp)
  refine ⟨narrowP, _, _, _, s, s₁, s₂, _, _, _, out, out₁, out₂, hs, hs₁, hs₂, narrow_adds [] 0, narrow_adds [] 1, fun v => ?_, rfl, rfl, ho, ho₁, ho₂, ?_, ?_, ?_⟩
  · simp only [narrowDb, reduceCtorEq, if_false, Option.some.injEq, eq_iff_iff, iff_true, one_ne_zero, iff_false]
    by_cases h : v = 1 <;> simp [h]
  · rw [k0]; decide +kernel
  · rw [k1]; decide +kernel
  · rw [k2]; decide +kernel

end ML
