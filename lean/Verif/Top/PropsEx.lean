import Verif.Top.Props
import Verif.Slice.PropsEx
/-
C84: concrete cases, and what it does not say.
-/
set_option autoImplicit false
namespace ML
open Spec

/-- The limit is only in the LIMIT. -/
theorem stmt_limit {P : AnsProject} {w : Warehouse} {q : Question} {l : Option Nat} {s : Stmt} (h : buildStmt P w { q with limit := l } = .ok s) (l' : Option Nat) :
    buildStmt P w { q with limit := l' } = .ok { s with block := { s.block with limit := limitClause w l' } } := by
  have hv : ∀ a, lookupViews P { q with limit := a } = lookupViews P q := fun _ => rfl
  have hi : ∀ a gs, buildInCtes P w { q with limit := a } gs = buildInCtes P w q gs := by
    intro a gs
    induction gs with
    | nil => rfl
    | cons g gs ih =>
      have : buildInCte P w { q with limit := a } g = buildInCte P w q g := rfl
      rw [buildInCtes, buildInCtes, ih, this]
  have hb : ∀ views b, buildBlock P w views { q with limit := l } = .ok b → buildBlock P w views { q with limit := l' } = .ok { b with limit := limitClause w l' } := by
    intro views b hb
    unfold buildBlock at hb ⊢
    have hr : ∀ a, ({ q with limit := a } : Question).toRequest w = q.toRequest w := fun _ => rfl
    rw [hr] at hb ⊢
    simp only at hb ⊢
    split at hb
    · cases hb
    · split at hb
      · cases hb
      · split at hb
        · cases hb
        · split at hb
          · cases hb
          · split at hb
            · cases hb
            · split at hb
              · cases hb
              · rw [Except.ok.injEq] at hb
                subst hb
                simp_all
  unfold buildStmt at h ⊢
  rw [hv] at h ⊢
  cases hview : lookupViews P q with
  | error e => rw [hview] at h; cases h
  | ok views =>
    rw [hview] at h
    simp only [hi] at h ⊢
    cases hblock : buildBlock P w views { q with limit := l } with
    | error e => rw [hblock] at h; cases h
    | ok b =>
      rw [hblock] at h
      rw [hb views b hblock]
      simp only at h ⊢
      split at h
      · cases h
      · rename_i hlen
        rw [if_neg hlen]
        cases hcs : buildInCtes P w q q.groupFilters with
        | error e => rw [hcs] at h; cases h
        | ok cs =>
          rw [hcs, Except.ok.injEq] at h
          subst h
          rfl

/-- C84 (e): a limit decides nothing about whether the query is refused, and is only written as the LIMIT of the statement. -/
theorem C84_limit (P : AnsProject) (w : Warehouse) (q : Question) (n : Nat) :
    ((∃ s, buildStmt P w { q with limit := none } = .ok s) ↔ ∃ s, buildStmt P w { q with limit := some n } = .ok s) ∧
    ∀ s, buildStmt P w { q with limit := none } = .ok s → ∃ l, buildStmt P w { q with limit := some n } = .ok { s with block := { s.block with limit := l } } :=
  ⟨⟨fun ⟨_, hs⟩ => ⟨_, stmt_limit hs (some n)⟩, fun ⟨_, hs⟩ => ⟨_, stmt_limit hs none⟩⟩, fun _ hs => ⟨_, stmt_limit hs (some n)⟩⟩

/-- The orders of two regions (an example; it models no file in /repo). -/
def topRows : List (Nat × Nat × Nat × Nat) := [(1, 1, 7, 10), (2, 2, 7, 5)]

theorem top_lines : topRows.map (fun r =>
    [drillRegion].map (fun d => valueOf (drillDb topRows).engine .snowflake (.key "orders.id") d [r]) ++
      [drillBuyers, drillRevenue].map (fun m => valueOf (drillDb topRows).engine .snowflake (.key "orders.id") m (topRows.filter (fun x => decide (
        [drillRegion].map (fun d => valueOf (drillDb topRows).engine .snowflake (.key "orders.id") d [x]) =
        [drillRegion].map (fun d => valueOf (drillDb topRows).engine .snowflake (.key "orders.id") d [r])))))) =
    [[some 1, some 1, some 10], [some 2, some 1, some 5]] := by
  decide +kernel

theorem top_columns : ((buildStmt (drillP (.key "orders.id")) .snowflake (drillQ ["region"])).toOption.map (fun s => (s.block.orderColumns, s.block.limit))) = some (some [(1, true)], none) := by
  decide +kernel

/-- C84: what a limit does not say. When lines show the same in the columns of the ordering, a limit may cut between them anywhere: the query with the most buyers, one line, has two
answers that have no line in common. -/
theorem C84_ties : ∃ (P : AnsProject) (w : Warehouse) (q : Question) (s : Stmt) (ds ms : List AnsField) (D : Db (Nat × Nat × Nat × Nat)) (out out' : List (List Val)),
    buildStmt P w { q with limit := some 1 } = .ok s ∧ Proper P q ds ms ∧ ds ≠ [] ∧ GroupsRows q ds ms ∧ OrdersByColumns w q ∧ LabelsDiffer P ∧ SetOfViews D P ∧
    s.Answers D out ∧ s.Answers D out' ∧ out = [[some 1, some 1, some 10]] ∧ out' = [[some 2, some 1, some 5]] := by
  obtain ⟨s, hs⟩ := ok_of_isOk (x := buildStmt (drillP (.key "orders.id")) .snowflake (drillQ ["region"])) (by decide +kernel)
  obtain ⟨-, hp, -⟩ := drill_proper (.key "orders.id")
  obtain ⟨out, ho⟩ := C55_answered _ _ _ s hs _ _ hp rfl (by decide +kernel) (fun _ => drill_orders _ _) (drillDb topRows)
  have hall := drill_all ["region"]
  obtain ⟨views, lines, hv, ht, -, hlim⟩ := C55_table _ _ _ s hs _ _ hp (drill_groups _ _ (by simp [drillRegion])) (by simp) rfl (drillP_labels _) hall.order.1 hall.order.2
    (.inl (by simp [drillQ])) _ out ho
  have hlim : out = lines := hlim
  subst hlim
  rw [having_none rfl] at ht
  have htrue : (PassesWhere (drillDb topRows) (drillP (.key "orders.id")) .snowflake views (drillQ ["region"])) = fun _ => True := by
    funext r
    refine eq_true ⟨fun i hi => ?_, fun v hv => ?_⟩
    · exact absurd (show i ∈ [] from hi) List.not_mem_nil
    · exact absurd (show v ∈ [] from hv) List.not_mem_nil
  rw [htrue] at ht
  have hperm : out.Perm [[some 1, some 1, some 10], [some 2, some 1, some 5]] := by
    refine (List.perm_ext_iff_of_nodup (ht.once.of_map _) (by decide)).mpr fun l => ?_
    rw [unfiltered_mem ht l]
    exact iff_of_eq (congrArg (l ∈ ·) top_lines)
  have hcols := top_columns
  rw [hs] at hcols
  have hcols : some (s.block.orderColumns, s.block.limit) = some (some [(1, true)], none) := hcols
  rw [Option.some.injEq, Prod.mk.injEq] at hcols
  have hs1 := stmt_limit (q := drillQ ["region"]) (l := none) hs (some 1)
  have hany : ∀ ls : List (List Val), ls.Perm out → ls.Pairwise (fun x y => lineBefore s.block.nullsOption [(1, true)] y x = false) →
      Stmt.Answers (drillDb topRows) { s with block := { s.block with limit := limitClause .snowflake (some 1) } } (ls.take 1) := by
    intro ls hls hsort
    obtain ⟨rows, hr, kept, groups, sel, lines, cols, h1, h2, h3, h4, h5, h6, h7⟩ := ho
    rw [hcols.2] at h7
    have h7 : out = lines := h7
    subst h7
    exact ⟨rows, hr, kept, groups, sel, ls, [(1, true)], h1, h2, h3, hls.trans h4, hcols.1, hsort, rfl⟩
  have hlb : ∀ n : Bool, lineBefore n [(1, true)] [some 1, some 1, some 10] [some 2, some 1, some 5] = false ∧
      lineBefore n [(1, true)] [some 2, some 1, some 5] [some 1, some 1, some 10] = false := by
    decide +kernel
  refine ⟨drillP (.key "orders.id"), .snowflake, drillQ ["region"], _, [drillRegion], [drillBuyers, drillRevenue], drillDb topRows, _, _, hs1, hp, by simp,
    drill_groups _ _ (by simp [drillRegion]), ⟨rfl, hall.order⟩, drillP_labels _, fun _ _ _ => ⟨rfl, rfl, fun _ => Iff.rfl⟩,
    hany [[some 1, some 1, some 10], [some 2, some 1, some 5]] hperm.symm ?_, hany [[some 2, some 1, some 5], [some 1, some 1, some 10]] ((List.Perm.swap _ _ _).trans hperm.symm) ?_, rfl, rfl⟩
  · simp [(hlb _).2]
  · simp [(hlb _).1]

/-- Buyers and revenue by region, ordered by region (an example; it models no file in /repo). -/
def topQ : Question := { drillQ ["region"] with order := .json [("region", none)], orderNames := ["region"] }

/-- The hypotheses of C84 (a) to (d). -/
example : ∃ s s' out out', buildStmt (drillP (.key "orders.id")) .snowflake { topQ with limit := some 1 } = .ok s ∧
    buildStmt (drillP (.key "orders.id")) .snowflake { topQ with limit := none } = .ok s' ∧ s.Answers (drillDb topRows) out ∧ s'.Answers (drillDb topRows) out' ∧
    out'.length = 2 ∧ out = out'.take 1 := by
  obtain ⟨s, hs⟩ := ok_of_isOk (x := buildStmt (drillP (.key "orders.id")) .snowflake { topQ with limit := some 1 }) (by decide +kernel)
  obtain ⟨s', hs'⟩ := ok_of_isOk (x := buildStmt (drillP (.key "orders.id")) .snowflake { topQ with limit := none }) (by decide +kernel)
  obtain ⟨-, hp0, -⟩ := drill_proper (.key "orders.id")
  have hp : ∀ l, Proper (drillP (.key "orders.id")) { topQ with limit := l } [drillRegion] [drillBuyers, drillRevenue] :=
    fun l => ⟨hp0.dims, hp0.metrics, hp0.dimension, hp0.measure, trivial, trivial⟩
  have hao : ∀ l, askedOrder .snowflake { topQ with limit := l } = [("region", false)] := by
    intro l
    show askedOrder .snowflake topQ = _
    decide +kernel
  have hord : ∀ l, OrdersRequested (drillP (.key "orders.id")) .snowflake { topQ with limit := l } := by
    intro l
    refine ⟨by simp [topQ], fun o ho => ?_⟩
    rw [hao, List.mem_singleton] at ho
    subst ho
    exact ⟨by simp, "region", by simp [topQ, drillQ], rfl⟩
  have hgr : ∀ q : Question, GroupsRows q [drillRegion] [drillBuyers, drillRevenue] := by
    intro q
    refine .inr fun m _ d hd hpk => ?_
    rw [List.mem_singleton] at hd
    subst hd
    cases hpk
  obtain ⟨out, ho⟩ := C55_answered _ _ _ s hs _ _ (hp _) rfl (by decide +kernel) (fun _ => hord _) (drillDb topRows)
  obtain ⟨out', ho'⟩ := C55_answered _ _ _ s' hs' _ _ (hp _) rfl (by decide +kernel) (fun _ => hord _) (drillDb topRows)
  have hor : OrdersByColumns .snowflake topQ := ⟨rfl, (hord none).1, fun o ho => ((hord none).2 o ho).1⟩
  have hset : SetOfViews (drillDb topRows) (drillP (.key "orders.id")) := fun _ _ _ => ⟨rfl, rfl, fun _ => Iff.rfl⟩
  have := C84_all_dimensions _ _ topQ 1 s s' hs hs' _ _ (hp none) (by simp) (hgr _) hor (by simp) (drillP_labels _) ?_ _ hset out out' ho ho'
  · refine ⟨s, s', out, out', hs, hs', ho, ho', ?_, this.1⟩
    obtain ⟨views, lines, hv, ht, -, hlim⟩ := C55_table _ _ _ s' hs' _ _ (hp _) (hgr _) (by simp) rfl (drillP_labels _) hor.order.1 hor.order.2 (.inl (by simp)) _ out' ho'
    have hlim : out' = lines := hlim
    subst hlim
    rw [having_none rfl] at ht
    have htrue : (PassesWhere (drillDb topRows) (drillP (.key "orders.id")) .snowflake views { topQ with limit := none }) = fun _ => True := by
      funext r
      refine eq_true ⟨fun i hi => ?_, fun v hv => ?_⟩
      · exact absurd (show i ∈ [] from hi) List.not_mem_nil
      · exact absurd (show v ∈ [] from hv) List.not_mem_nil
    rw [htrue] at ht
    have hperm : out'.Perm [[some 1, some 1, some 10], [some 2, some 1, some 5]] := by
      refine (List.perm_ext_iff_of_nodup (ht.once.of_map _) (by decide)).mpr fun l => ?_
      rw [unfiltered_mem ht l]
      exact iff_of_eq (congrArg (l ∈ ·) top_lines)
    exact hperm.length_eq
  · intro d hd
    exact ⟨("region", false), by have := hao none; rw [show askedOrder .snowflake topQ = _ from this]; simp, by rw [List.mem_singleton.mp (show d ∈ ["region"] from hd)]⟩

end ML
