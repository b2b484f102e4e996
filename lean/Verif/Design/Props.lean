import Verif.Design.Search
import Verif.JoinGraph.Props
/-
C17 The FROM clause is well-formed.
C18 A joinable set of views is never rejected (partial: false in general).
-/
set_option autoImplicit false
namespace ML
open Spec

/-- The graph of a project has positive weights. -/
theorem built_positive {views : List GView} {g : Graph} (h : buildGraph views = .ok g) :
    PositiveWeights g := by
  intro e he
  have hd : edgeAt g e.1.1 e.1.2 = some e.2 := dictGet_of_mem (buildGraph_wf h).edges he
  obtain ⟨v, hv, -, ⟨d, -, hd⟩ | ⟨w, i, j, r, -, -, hd⟩⟩ := edge_origin h hd
  · rw [hd]; simp only [declInfo]; cases d.1 <;> decide
  · rw [hd]; simp only [identJoin]; cases r <;> decide

/-- The graph of a project has no self-joins unless a view declares one. -/
theorem built_noLoops {views : List GView} {g : Graph} (h : buildGraph views = .ok g)
    (hd : ∀ v ∈ views, ∀ r s t, ¬ DeclaresJoin v v.name r s t) : NoLoops g := by
  intro a he
  have : (dictGet g.edges (a, a)).isSome := dictGet_isSome.mpr he
  obtain ⟨e, he⟩ := Option.isSome_iff_exists.mp this
  obtain ⟨v, hv, rfl, ⟨d, hl, -⟩ | ⟨w, i, j, r, hs, hw, -⟩⟩ := edge_origin h he
  · rcases explicitFor_mem (List.mem_of_getLast? hl) with ⟨u, hu, hun, hdec⟩ | ⟨-, u, hu, hun, hdec⟩
    · exact hd u hu _ _ _ (hun ▸ hdec)
    · exact hd u hu _ _ _ (hun ▸ hdec)
  · exact hs.distinct hw.symm

/-! ### C17 -/

/-- C17 (a): for every join graph with positive weights and no self-joins, and every set of required
views, if the designer returns joins then they form a well-formed FROM clause. -/
theorem C17_from_clause (nx : Nx) (hnx : NxSpec nx) (g : Graph) (hwf : WF g)
    (hw : PositiveWeights g) (hl : NoLoops g) (req bridges : List String)
    (hreq : ∀ v ∈ req, v ∈ g.nodes) (hn : req.Nodup) (joins : List Pair) (base : String)
    (h : designJoins nx g bridges req = .ok joins) (hb : baseView joins req = .ok base) :
    FromOk g req base joins := by
  unfold designJoins at h
  cases ho : joinOrder nx g bridges req with
  | error e => rw [ho] at h; cases e <;> cases h
  | ok ps =>
    rw [ho] at h
    simp only [Except.ok.injEq] at h
    subst h
    by_cases h2 : 2 ≤ req.length
    · obtain ⟨p, rest, rfl, hraw, hprov⟩ := joinOrder_ok hnx hwf hw hl hreq hn h2 ho
      obtain ⟨r, hr⟩ := orderedJoins_head p rest
      have hbase : base = p.1 := by
        rw [hr] at hb
        simp only [baseView, Except.ok.injEq] at hb
        exact hb.symm
      rw [hbase]
      exact fromOk_of_raw hraw hprov
    · cases req with
      | nil =>
        -- no required view: no base view either
        exfalso
        unfold joinOrder at ho
        rw [if_neg (by simp)] at ho
        have hsub : subEdges g [] = [] := by
          unfold subEdges
          rw [List.filter_eq_nil_iff]
          simp
        rw [hsub] at ho
        cases ht : nx.topo [] with
        | none => exact hnx.topoNone _ ht [] ⟨.refl _, .nil, by simp⟩
        | some l =>
          have : l = [] := (hnx.topoSome _ _ ht).1.eq_nil
          subst this
          rw [ht] at ho
          simp only [List.length_nil, gt_iff_lt, Nat.not_lt_zero, if_false, cleanPairs, cleanGo,
            Except.ok.injEq] at ho
          subst ho
          cases hb
      | cons v vs =>
        have : vs = [] := by
          cases vs with
          | nil => rfl
          | cons w ws => simp at h2
        subst this
        unfold joinOrder at ho
        rw [if_pos (by rfl)] at ho
        cases ho
        simp only [orderedJoins, orderedGo, baseView, Except.ok.injEq] at hb
        subst hb
        exact ⟨List.nodup_nil, by simp [orderedJoins, orderedGo], by simp [orderedJoins, orderedGo],
          by simp [orderedJoins, orderedGo], by simp⟩

/-- C17 (b): the same for every project whose graph can be built and in which no view declares a
join to itself; the other conditions hold of themselves. -/
theorem C17_project (nx : Nx) (hnx : NxSpec nx) (views : List GView) (g : Graph)
    (hg : buildGraph views = .ok g) (hself : ∀ v ∈ views, ∀ r s t, ¬ DeclaresJoin v v.name r s t)
    (req bridges : List String) (hreq : ∀ v ∈ req, v ∈ views.map (·.name)) (hn : req.Nodup)
    (joins : List Pair) (base : String) (h : designJoins nx g bridges req = .ok joins)
    (hb : baseView joins req = .ok base) : FromOk g req base joins := by
  refine C17_from_clause nx hnx g (buildGraph_wf hg) (built_positive hg) (built_noLoops hg hself)
    req bridges ?_ hn joins base h hb
  intro v hv
  obtain ⟨w, hw, rfl⟩ := List.mem_map.mp (hreq v hv)
  exact buildGraph_nodes hg w hw

/-- C17 (c): the search always ends, and the only exception that leaves the designer is the
JoinError that names the views. -/
theorem C17_only_join_error (nx : Nx) (hnx : NxSpec nx) (g : Graph) (hwf : WF g)
    (hw : PositiveWeights g) (hl : NoLoops g) (req bridges : List String)
    (hreq : ∀ v ∈ req, v ∈ g.nodes) (hn : req.Nodup) (e : Err)
    (h : designJoins nx g bridges req = .error e) : e = .join := by
  unfold designJoins at h
  cases ho : joinOrder nx g bridges req with
  | ok ps => rw [ho] at h; cases h
  | error e' =>
    have := joinOrder_error hnx hwf hw hl hreq hn ho
    subst this
    rw [ho] at h
    simp only [Except.error.injEq] at h
    exact h.symm

/-- C17 (d): the hypothesis on self-joins is needed. A view that declares a join to itself can be
joined to itself in the FROM clause, under one and the same name. -/
theorem C17_self_join :
    ∃ (views : List GView) (g : Graph) (req joins : List String × List Pair),
      buildGraph views = .ok g ∧ designJoins nxImpl g [] req.1 = .ok joins.2 ∧
      baseView joins.2 req.1 = .ok "a" ∧ "a" ∈ joins.2.map (·.2) := by
  refine ⟨[⟨"a", [⟨"x", .join "a" .oneToOne "s" none, [], [], none⟩,
                  ⟨"y", .join "b" .manyToOne "t" none, [], [], none⟩,
                  ⟨"z", .join "c" .manyToOne "u" none, [], [], none⟩]⟩, ⟨"b", []⟩, ⟨"c", []⟩],
    ⟨["a", "b", "c"], [(("a", "a"), ⟨.oneToOne, "left_outer", "s", 1⟩),
      (("a", "b"), ⟨.manyToOne, "left_outer", "t", 2⟩),
      (("a", "c"), ⟨.manyToOne, "left_outer", "u", 2⟩)]⟩,
    (["a", "b", "c"], []), ([], [("a", "a"), ("a", "b"), ("a", "c")]), ?_, ?_, ?_, ?_⟩ <;> decide

/-! ### C18 -/

/-- C18 (a), partial: a set of required views is joined when one of them reaches all the others
through required views. Missing: bases outside the set, and paths through other views, for which
the full statement is false (C18_rejects_bridge, C18_rejects_far_base, C18_rejects_detour). -/
theorem C18_required_root_partial (nx : Nx) (hnx : NxSpec nx) (g : Graph) (hwf : WF g)
    (hw : PositiveWeights g) (hl : NoLoops g) (req bridges : List String)
    (hreq : ∀ v ∈ req, v ∈ g.nodes) (hn : req.Nodup) (r : String) (hr : r ∈ req)
    (hall : ∀ v ∈ req, ReachIn g req r v) :
    ∃ joins, designJoins nx g bridges req = .ok joins := by
  suffices h : ∃ ps, joinOrder nx g bridges req = .ok ps by
    obtain ⟨ps, h⟩ := h
    exact ⟨_, by unfold designJoins; rw [h]⟩
  unfold joinOrder
  split
  · exact ⟨_, rfl⟩
  · rename_i h1
    have hother : ∃ v ∈ req, v ≠ r := by
      cases req with
      | nil => cases hr
      | cons a as =>
        cases as with
        | nil => exact absurd rfl h1
        | cons b bs =>
          simp only [List.nodup_cons, List.mem_cons, not_or] at hn
          by_cases ha : a = r
          · exact ⟨b, by simp, fun c => hn.1.1 (ha.trans c.symm)⟩
          · exact ⟨a, by simp, ha⟩
    have hfb : ∃ ps, fallback nx g bridges req = .ok ps := by
      obtain ⟨v, hv, hne⟩ := hother
      obtain ⟨c, hc⟩ := reach_out (reachIn_reach (hall v hv)) (fun c => hne c.symm)
      obtain ⟨ps, -, -, h, -⟩ := (fallback_spec hnx hwf hw hl hreq hn bridges).1
        ⟨(r, c), hc, .inl hr, fun w hw => reachIn_reach (hall w hw)⟩
      exact ⟨ps, h⟩
    split
    · exact hfb
    · rename_i l ht
      simp only
      split
      · split
        · rename_i hnone
          exact absurd hnone (topo_not_stuck (hnx.topoSome _ _ ht) hr hall)
        · exact hfb
        · exact ⟨_, rfl⟩
      · exact ⟨_, rfl⟩

/-- C18 (b): two views are joined whenever one of them reaches the other, by whatever path. -/
theorem C18_two_views (nx : Nx) (hnx : NxSpec nx) (g : Graph) (hwf : WF g)
    (hw : PositiveWeights g) (hl : NoLoops g) (a b : String) (bridges : List String)
    (ha : a ∈ g.nodes) (hb : b ∈ g.nodes) (hab : a ≠ b) (hr : Reach g a b ∨ Reach g b a) :
    ∃ joins, designJoins nx g bridges [a, b] = .ok joins := by
  have hreq : ∀ v ∈ [a, b], v ∈ g.nodes := by
    intro v hv
    simp only [List.mem_cons, List.not_mem_nil, or_false] at hv
    rcases hv with rfl | rfl <;> assumption
  have hn : [a, b].Nodup := by simp [hab]
  suffices h : ∃ ps, joinOrder nx g bridges [a, b] = .ok ps by
    obtain ⟨ps, h⟩ := h
    exact ⟨_, by unfold designJoins; rw [h]⟩
  have hanchor : ∃ p, Anchor g [a, b] p := by
    rcases hr with h | h
    · obtain ⟨c, hc⟩ := reach_out h hab
      refine ⟨(a, c), hc, .inl (by simp), ?_⟩
      intro v hv
      simp only [List.mem_cons, List.not_mem_nil, or_false] at hv
      rcases hv with rfl | rfl
      · exact .refl _
      · exact h
    · obtain ⟨c, hc⟩ := reach_out h (fun c => hab c.symm)
      refine ⟨(b, c), hc, .inl (by simp), ?_⟩
      intro v hv
      simp only [List.mem_cons, List.not_mem_nil, or_false] at hv
      rcases hv with rfl | rfl
      · exact h
      · exact .refl _
  obtain ⟨ps, -, -, hfb, -⟩ := (fallback_spec hnx hwf hw hl hreq hn bridges).1 hanchor
  unfold joinOrder
  rw [if_neg (by simp)]
  cases ht : nx.topo (subEdges g [a, b]) with
  | none => exact ⟨ps, hfb⟩
  | some l =>
    simp only [if_pos (show [a, b].length > 1 by simp)]
    cases hv : validatePath (cleanPairs l) [a, b] with
    | some m => cases m with
      | true => exact ⟨ps, hfb⟩
      | false => exact ⟨_, rfl⟩
    | none =>
      exfalso
      -- an order exists, so there is an edge in at most one direction
      obtain ⟨hperm, hpw, hloop⟩ := hnx.topoSome _ _ ht
      have hedge : ∀ p ∈ l, p = (a, b) ∨ p = (b, a) := by
        intro p hp
        have h1 := mem_subEdges.mp (hperm.mem_iff.mp hp)
        simp only [List.mem_cons, List.not_mem_nil, or_false] at h1
        have h2 := hloop p hp
        rcases h1 with ⟨-, h3 | h3, h4 | h4⟩
        · exact absurd (h4.trans h3.symm) h2
        · exact .inl (Prod.ext h3 h4)
        · exact .inr (Prod.ext h3 h4)
        · exact absurd (h4.trans h3.symm) h2
      have hnd : l.Nodup := hperm.nodup_iff.mpr (hwf.edges.filter _)
      cases l with
      | nil => simp [cleanPairs, cleanGo, validatePath] at hv
      | cons x xs =>
        cases xs with
        | nil => simp [cleanPairs, cleanGo, validatePath, validateGo, included] at hv
        | cons y ys =>
          have h1 := hedge x (by simp)
          have h2 := hedge y (by simp)
          have h3 := (List.pairwise_cons.mp hpw).1 y (by simp)
          have h4 : x ≠ y := by
            simp only [List.nodup_cons, List.mem_cons, not_or] at hnd
            exact hnd.1.1
          rcases h1 with rfl | rfl <;> rcases h2 with rfl | rfl
          · exact h4 rfl
          · exact h3 rfl
          · exact h3 rfl
          · exact h4 rfl

/-- C18 (c), the exact condition outside the topological shortcut: when the required views have no
edges among themselves, or their edges contain a cycle, the designer succeeds exactly when there is
an edge that touches a required view and whose source reaches all of them. -/
theorem C18_search_iff (nx : Nx) (hnx : NxSpec nx) (g : Graph) (hwf : WF g)
    (hw : PositiveWeights g) (hl : NoLoops g) (req bridges : List String)
    (hreq : ∀ v ∈ req, v ∈ g.nodes) (hn : req.Nodup) (h2 : 2 ≤ req.length)
    (hcase : (∀ a ∈ req, ∀ b ∈ req, ¬ HasEdge g a b) ∨ ∀ l, ¬ IsTopo (subEdges g req) l) :
    (∃ joins, designJoins nx g bridges req = .ok joins) ↔
      ∃ s t, HasEdge g s t ∧ (s ∈ req ∨ t ∈ req) ∧ ∀ v ∈ req, Reach g s v := by
  have hjo : joinOrder nx g bridges req = fallback nx g bridges req := by
    unfold joinOrder
    rw [if_neg (by omega)]
    cases ht : nx.topo (subEdges g req) with
    | none => rfl
    | some l =>
      have htopo := hnx.topoSome _ _ ht
      rcases hcase with h | h
      · have : l = [] := by
          cases l with
          | nil => rfl
          | cons x xs =>
            have := mem_subEdges.mp (htopo.1.mem_iff.mp (show x ∈ x :: xs by simp))
            exact absurd this.1 (h _ this.2.1 _ this.2.2)
        subst this
        cases req with
        | nil => simp at h2
        | cons v vs =>
          simp only [List.length_cons] at h2
          simp only [List.length_cons, cleanPairs, cleanGo, validatePath, Option.map_some,
            List.any_cons, List.contains_eq_mem, List.not_mem_nil, decide_false, Bool.not_false,
            Bool.true_or]
          rw [if_pos (by omega)]
      · exact absurd htopo (h l)
  have hs := fallback_spec hnx hwf hw hl hreq hn bridges
  have hd : (∃ joins, designJoins nx g bridges req = .ok joins) ↔
      ∃ ps, fallback nx g bridges req = .ok ps := by
    unfold designJoins
    rw [hjo]
    constructor
    · rintro ⟨j, h⟩
      cases hf : fallback nx g bridges req with
      | ok ps => exact ⟨ps, rfl⟩
      | error e => rw [hf] at h; cases e <;> cases h
    · rintro ⟨ps, h⟩
      exact ⟨_, by rw [h]⟩
  rw [hd]
  constructor
  · rintro ⟨ps, h⟩
    by_cases ha : ∃ p, Anchor g req p
    · obtain ⟨⟨s, t⟩, h⟩ := ha
      exact ⟨s, t, h⟩
    · rw [hs.2 ha] at h; cases h
  · rintro ⟨s, t, h⟩
    obtain ⟨ps, -, -, h, -⟩ := hs.1 ⟨(s, t), h⟩
    exact ⟨ps, h⟩

/-- A graph given by its edges, for the witnesses below. -/
def plain (nodes : List String) (edges : List Pair) : Graph :=
  ⟨nodes, edges.map (fun e => (e, ⟨.manyToOne, "left_outer", "", 2⟩))⟩

/-- C18 (d), against the full statement: two views that are both reached from `u`, but only through
other views, are rejected. -/
theorem C18_rejects_far_base :
    ∃ (g : Graph) (req : List String) (u : String), WF g ∧ PositiveWeights g ∧ NoLoops g ∧
      (∀ v ∈ req, v ∈ g.nodes) ∧ (∀ v ∈ req, Reach g u v) ∧
      designJoins nxImpl g [] req = .error .join := by
  refine ⟨plain ["u", "x", "y", "r", "s"] [("u", "x"), ("x", "r"), ("u", "y"), ("y", "s")],
    ["r", "s"], "u", ?_, ?_, ?_, by decide, ?_, by decide⟩
  · refine ⟨?_, ?_, by decide, by decide⟩ <;>
    · intro a b h
      simp only [HasEdge, plain, List.map_cons, List.map_nil, List.mem_cons, Prod.mk.injEq,
        List.not_mem_nil, or_false] at h
      rcases h with ⟨rfl, rfl⟩ | ⟨rfl, rfl⟩ | ⟨rfl, rfl⟩ | ⟨rfl, rfl⟩ <;> decide
  · intro e he
    simp only [plain, List.map_cons, List.map_nil, List.mem_cons, List.not_mem_nil, or_false] at he
    rcases he with rfl | rfl | rfl | rfl <;> decide
  · intro a h
    simp only [HasEdge, plain, List.map_cons, List.map_nil, List.mem_cons, Prod.mk.injEq,
      List.not_mem_nil, or_false] at h
    rcases h with ⟨rfl, h⟩ | ⟨rfl, h⟩ | ⟨rfl, h⟩ | ⟨rfl, h⟩ <;> exact absurd h (by decide)
  · intro v hv
    simp only [List.mem_cons, List.not_mem_nil, or_false] at hv
    rcases hv with rfl | rfl
    · exact ((Reach.refl "u").step (b := "u") (c := "x") (by decide)).step (by decide)
    · exact ((Reach.refl "u").step (b := "u") (c := "y") (by decide)).step (by decide)

/-- C18 (e), against the full statement: four views in two connected pairs are rejected although `u`
is next to all of them; three of the four are accepted. -/
theorem C18_rejects_bridge :
    ∃ (g : Graph) (req : List String) (u : String), WF g ∧ PositiveWeights g ∧ NoLoops g ∧
      (∀ v ∈ req, v ∈ g.nodes) ∧ (∀ v ∈ req, Reach g u v) ∧
      designJoins nxImpl g [] req = .error .join := by
  refine ⟨plain ["u", "a", "b", "c", "d"] [("a", "b"), ("c", "d"), ("u", "a"), ("u", "c")],
    ["a", "b", "c", "d"], "u", ?_, ?_, ?_, by decide, ?_, by decide⟩
  · refine ⟨?_, ?_, by decide, by decide⟩ <;>
    · intro a b h
      simp only [HasEdge, plain, List.map_cons, List.map_nil, List.mem_cons, Prod.mk.injEq,
        List.not_mem_nil, or_false] at h
      rcases h with ⟨rfl, rfl⟩ | ⟨rfl, rfl⟩ | ⟨rfl, rfl⟩ | ⟨rfl, rfl⟩ <;> decide
  · intro e he
    simp only [plain, List.map_cons, List.map_nil, List.mem_cons, List.not_mem_nil, or_false] at he
    rcases he with rfl | rfl | rfl | rfl <;> decide
  · intro a h
    simp only [HasEdge, plain, List.map_cons, List.map_nil, List.mem_cons, Prod.mk.injEq,
      List.not_mem_nil, or_false] at h
    rcases h with ⟨rfl, h⟩ | ⟨rfl, h⟩ | ⟨rfl, h⟩ | ⟨rfl, h⟩ <;> exact absurd h (by decide)
  · have ha : Reach (plain ["u", "a", "b", "c", "d"] [("a", "b"), ("c", "d"), ("u", "a"), ("u", "c")])
        "u" "a" := (Reach.refl "u").step (by decide)
    have hc : Reach (plain ["u", "a", "b", "c", "d"] [("a", "b"), ("c", "d"), ("u", "a"), ("u", "c")])
        "u" "c" := (Reach.refl "u").step (by decide)
    intro v hv
    simp only [List.mem_cons, List.not_mem_nil, or_false] at hv
    rcases hv with rfl | rfl | rfl | rfl
    · exact ha
    · exact ha.step (by decide)
    · exact hc
    · exact hc.step (by decide)

/-- C18 (f), against the full statement: the same happens when one of the required views reaches all
the others, if it needs a view outside the set to do so. -/
theorem C18_rejects_detour :
    ∃ (g : Graph) (req : List String) (u : String), WF g ∧ PositiveWeights g ∧ NoLoops g ∧
      (∀ v ∈ req, v ∈ g.nodes) ∧ u ∈ req ∧ (∀ v ∈ req, Reach g u v) ∧
      designJoins nxImpl g [] req = .error .join := by
  refine ⟨plain ["a", "b", "c", "d", "x"] [("a", "b"), ("c", "d"), ("a", "x"), ("x", "c")],
    ["a", "b", "c", "d"], "a", ?_, ?_, ?_, by decide, by decide, ?_, by decide⟩
  · refine ⟨?_, ?_, by decide, by decide⟩ <;>
    · intro a b h
      simp only [HasEdge, plain, List.map_cons, List.map_nil, List.mem_cons, Prod.mk.injEq,
        List.not_mem_nil, or_false] at h
      rcases h with ⟨rfl, rfl⟩ | ⟨rfl, rfl⟩ | ⟨rfl, rfl⟩ | ⟨rfl, rfl⟩ <;> decide
  · intro e he
    simp only [plain, List.map_cons, List.map_nil, List.mem_cons, List.not_mem_nil, or_false] at he
    rcases he with rfl | rfl | rfl | rfl <;> decide
  · intro a h
    simp only [HasEdge, plain, List.map_cons, List.map_nil, List.mem_cons, Prod.mk.injEq,
      List.not_mem_nil, or_false] at h
    rcases h with ⟨rfl, h⟩ | ⟨rfl, h⟩ | ⟨rfl, h⟩ | ⟨rfl, h⟩ <;> exact absurd h (by decide)
  · have hx : Reach (plain ["a", "b", "c", "d", "x"] [("a", "b"), ("c", "d"), ("a", "x"), ("x", "c")])
        "a" "x" := (Reach.refl "a").step (by decide)
    intro v hv
    simp only [List.mem_cons, List.not_mem_nil, or_false] at hv
    rcases hv with rfl | rfl | rfl | rfl
    · exact .refl _
    · exact (Reach.refl "a").step (by decide)
    · exact hx.step (by decide)
    · exact (hx.step (c := "c") (by decide)).step (by decide)

/-! ### Concrete cases -/

-- the topological stage, the two-view path, and the greedy search with a view outside the set
example : designJoins nxImpl (plain ["a", "b", "c"] [("a", "b"), ("b", "c")]) [] ["c", "a", "b"] =
    .ok [("a", "b"), ("b", "c")] := by decide
example : designJoins nxImpl (plain ["a", "b", "c"] [("a", "b"), ("b", "c")]) [] ["c", "a"] =
    .ok [("a", "b"), ("b", "c")] := by decide
set_option maxRecDepth 20000 in
example : designJoins nxImpl (plain ["u", "a", "b", "c"] [("u", "a"), ("u", "b"), ("a", "u"),
    ("b", "c")]) [] ["b", "a", "c"] = .ok [("a", "u"), ("u", "b"), ("b", "c")] := by decide
-- the search keeps one join per view when two paths share a view
set_option maxRecDepth 20000 in
example : designJoins nxImpl (plain ["r", "m", "s", "t"] [("r", "m"), ("m", "s"), ("m", "t")]) []
    ["r", "s", "t"] = .ok [("r", "m"), ("m", "s"), ("m", "t")] := by decide
-- the hypotheses of C17_project for the shop of JoinGraph/Props
example : ∀ v ∈ shop, ∀ r s t, ¬ DeclaresJoin v v.name r s t := by
  intro v hv r s t h
  simp only [shop, List.mem_cons, List.not_mem_nil, or_false] at hv
  rcases hv with rfl | rfl | rfl | rfl <;>
  · obtain ⟨i, hi, hk⟩ := h
    simp only [orders, customers, items, regions, List.mem_cons, List.not_mem_nil, or_false] at hi hk
    try rcases hi with rfl | rfl
    all_goals simp at hk
example : (designJoins nxImpl shopGraph [] ["regions", "items"]).map (fun j => (baseView j ["regions"], j))
    = .ok (.ok "items", [("items", "orders"), ("orders", "customers"), ("customers", "regions")]) := by
  decide

end ML
