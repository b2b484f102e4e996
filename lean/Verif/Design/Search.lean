import Verif.Design.Impl
import Verif.JoinGraph.Hash
/-
Helper lemmas for C17 and C18: the stages of the search put together.
-/
set_option autoImplicit false
namespace ML
open Spec

theorem mem_insertStart (b : List String) (s : List Pair) (p q : Pair) (l : List Pair) :
    q ∈ insertStart b s p l ↔ q = p ∨ q ∈ l := by
  induction l with
  | nil => simp [insertStart]
  | cons x xs ih =>
    simp only [insertStart]
    split
    · simp
    · simp only [List.mem_cons, ih]
      constructor
      · rintro (h | h | h)
        · exact .inr (.inl h)
        · exact .inl h
        · exact .inr (.inr h)
      · rintro (h | h | h)
        · exact .inr (.inl h)
        · exact .inl h
        · exact .inr (.inr h)

theorem mem_startEdges {g : Graph} {bridges req : List String} {p : Pair} :
    p ∈ startEdges g bridges req ↔ HasEdge g p.1 p.2 ∧ (p.1 ∈ req ∨ p.2 ∈ req) := by
  have key : ∀ l : List Pair,
      p ∈ l.foldr (insertStart bridges (subEdges g req)) [] ↔ p ∈ l := by
    intro l
    induction l with
    | nil => simp
    | cons x xs ih => simp only [List.foldr_cons, mem_insertStart, ih, List.mem_cons]
  rw [startEdges, key, List.mem_filter]
  simp only [HasEdge, List.contains_eq_mem, Bool.or_eq_true, decide_eq_true_eq]

theorem mem_subEdges {g : Graph} {req : List String} {p : Pair} :
    p ∈ subEdges g req ↔ HasEdge g p.1 p.2 ∧ p.1 ∈ req ∧ p.2 ∈ req := by
  simp only [subEdges, List.mem_filter, HasEdge, List.contains_eq_mem, Bool.and_eq_true,
    decide_eq_true_eq]

/-- The views a FROM clause provides. -/
def Provides (base : String) (ps : List Pair) (req : List String) : Prop :=
  ∀ v ∈ req, v = base ∨ v ∈ ps.map (·.2)

/-- There is an edge that touches a required view and whose source reaches all of them. -/
def Anchor (g : Graph) (req : List String) (p : Pair) : Prop :=
  HasEdge g p.1 p.2 ∧ (p.1 ∈ req ∨ p.2 ∈ req) ∧ ∀ v ∈ req, Reach g p.1 v

theorem tryStarts_spec {nx : Nx} (hnx : NxSpec nx) {g : Graph} (hwf : WF g) (hw : PositiveWeights g)
    (hl : NoLoops g) {req : List String} (hreq : ∀ v ∈ req, v ∈ g.nodes) (l : List Pair)
    (he : ∀ p ∈ l, HasEdge g p.1 p.2) :
    ((∃ p ∈ l, ∀ v ∈ req, Reach g p.1 v) → ∃ r p rest, tryStarts nx g req l = .ok r ∧
      r = p :: rest ∧ RawOk g p.1 r ∧ Provides p.1 r req) ∧
    ((∀ p ∈ l, ∃ v ∈ req, ¬ Reach g p.1 v) → tryStarts nx g req l = .error .noPath) := by
  induction l with
  | nil => exact ⟨fun ⟨_, h, _⟩ => (nomatch h), fun _ => rfl⟩
  | cons q qs ih =>
    have hg := greedy_spec hnx hwf hw hl (he q (by simp)) hreq
    have ih := ih (fun p hp => he p (by simp [hp]))
    constructor
    · intro hex
      by_cases hq : ∀ v ∈ req, Reach g q.1 v
      · obtain ⟨r, h1, h2, ⟨rest, h3⟩, h4⟩ := hg.1 hq
        exact ⟨r, q, rest, by simp only [tryStarts, h1], h3, h2, h4⟩
      · have : ∃ v ∈ req, ¬ Reach g q.1 v := by
          simpa using hq
        obtain ⟨p, hp, hpr⟩ := hex
        have hp' : p ∈ qs := by
          rcases List.mem_cons.mp hp with rfl | hp
          · exact absurd hpr hq
          · exact hp
        obtain ⟨r, p', rest, h1, h2⟩ := ih.1 ⟨p, hp', hpr⟩
        exact ⟨r, p', rest, by simp only [tryStarts, hg.2 this, h1], h2⟩
    · intro hall
      simp only [tryStarts, hg.2 (hall q (by simp))]
      exact ih.2 (fun p hp => hall p (by simp [hp]))

/-- A shortest walk between two different views is a well-formed list of pairs. -/
theorem rawOk_path {g : Graph} (hw : PositiveWeights g) {a b : String} {p : List String}
    (hp : Walk g a b p) (hmin : ∀ q, Walk g a b q → pathWeight g p ≤ pathWeight g q) (hab : a ≠ b) :
    RawOk g a (pathPairs p) ∧ ∃ x rest, pathPairs p = (a, x) :: rest := by
  have hhead : ∃ x rest, pathPairs p = (a, x) :: rest := by
    cases hp with
    | single => exact absurd rfl hab
    | cons he h' =>
      obtain ⟨t, rfl⟩ := h'.head
      exact ⟨_, _, rfl⟩
  refine ⟨⟨?_, ?_, fun _ _ _ e => pathPairs_left hp e, pathPairs_edges hp⟩, hhead⟩
  · intro q rest e
    obtain ⟨x, r, e'⟩ := hhead
    rw [e'] at e
    simp only [List.cons.injEq] at e
    rw [← e.1]
  · rw [pathPairs_targets hp]
    intro hb
    obtain ⟨q, hq, hlt⟩ := hp.suffix hw hb
    exact absurd (hmin q hq) (by omega)

theorem fallback_spec {nx : Nx} (hnx : NxSpec nx) {g : Graph} (hwf : WF g) (hw : PositiveWeights g)
    (hl : NoLoops g) {req : List String} (hreq : ∀ v ∈ req, v ∈ g.nodes) (hn : req.Nodup)
    (bridges : List String) :
    ((∃ p, Anchor g req p) → ∃ r p rest, fallback nx g bridges req = .ok r ∧
      r = p :: rest ∧ RawOk g p.1 r ∧ Provides p.1 r req) ∧
    ((¬ ∃ p, Anchor g req p) → fallback nx g bridges req = .error .noPath) := by
  have ht := tryStarts_spec hnx hwf hw hl hreq (startEdges g bridges req)
    (fun p hp => (mem_startEdges.mp hp).1)
  have ht1 : (∃ p, Anchor g req p) → ∃ r p rest,
      tryStarts nx g req (startEdges g bridges req) = .ok r ∧ r = p :: rest ∧ RawOk g p.1 r ∧
        Provides p.1 r req :=
    fun ⟨p, h1, h2, h3⟩ => ht.1 ⟨p, mem_startEdges.mpr ⟨h1, h2⟩, h3⟩
  have ht2 : (¬ ∃ p, Anchor g req p) →
      tryStarts nx g req (startEdges g bridges req) = .error .noPath := by
    intro h
    apply ht.2
    intro p hp
    have := mem_startEdges.mp hp
    have h' : ¬ ∀ v ∈ req, Reach g p.1 v := fun c => h ⟨p, this.1, this.2, c⟩
    simpa using h'
  unfold fallback
  split
  · rename_i a b
    have hab : a ≠ b := by
      simp only [List.nodup_cons, List.mem_singleton] at hn
      exact hn.1
    cases hs : shortestAmong nx g [(a, b), (b, a)] with
    | none => exact ⟨ht1, ht2⟩
    | some p =>
      obtain ⟨⟨e, he, hsp⟩, -⟩ := shortestAmong_some hs
      have key : ∃ x y : String, (x = a ∧ y = b ∨ x = b ∧ y = a) ∧ nx.sp g x y = some p := by
        simp only [List.mem_cons, List.not_mem_nil, or_false] at he
        rcases he with rfl | rfl
        · exact ⟨a, b, .inl ⟨rfl, rfl⟩, hsp⟩
        · exact ⟨b, a, .inr ⟨rfl, rfl⟩, hsp⟩
      obtain ⟨x, y, hxy, hsp'⟩ := key
      have hxn : x ∈ g.nodes := by
        rcases hxy with ⟨rfl, -⟩ | ⟨rfl, -⟩
        · exact hreq _ (by simp)
        · exact hreq _ (by simp)
      have hne : x ≠ y := by
        rcases hxy with ⟨rfl, rfl⟩ | ⟨rfl, rfl⟩
        · exact hab
        · exact fun c => hab c.symm
      obtain ⟨hp, hmin⟩ := hnx.spSome g x y p hwf hxn hsp'
      obtain ⟨hraw, z, rest, hhead⟩ := rawOk_path hw hp hmin hne
      have hprov : Provides x (pathPairs p) [a, b] := by
        intro v hv
        have hv' : v = x ∨ v = y := by
          simp only [List.mem_cons, List.not_mem_nil, or_false] at hv
          rcases hxy with ⟨rfl, rfl⟩ | ⟨rfl, rfl⟩
          · exact hv
          · exact hv.symm
        rcases hv' with h | h
        · exact .inl h
        · right
          rw [pathPairs_targets hp, h]
          exact hp.last.resolve_left (fun c => hne c.symm)
      refine ⟨fun _ => ⟨pathPairs p, (x, z), rest, rfl, hhead, hraw, hprov⟩, fun hno => ?_⟩
      exfalso
      refine hno ⟨(x, z), hraw.edges _ (by rw [hhead]; simp), .inl ?_, ?_⟩
      · rcases hxy with ⟨rfl, -⟩ | ⟨rfl, -⟩ <;> simp
      · intro v hv
        rcases hprov v hv with rfl | h
        · exact .refl _
        · exact hraw.reach v h
  · exact ⟨ht1, ht2⟩

/-- The topological stage, when it does not raise and nothing is missing. -/
theorem topo_rawOk {g : Graph} {req : List String} {l : List Pair}
    (ht : IsTopo (subEdges g req) l) {p : Pair} {rest : List Pair} (hc : cleanPairs l = p :: rest)
    {r : List String} (hv : validateGo [p.1, p.2] rest = some r) : RawOk g p.1 (cleanPairs l) := by
  obtain ⟨hperm, hpw, hloop⟩ := ht
  cases l with
  | nil => simp [cleanPairs, cleanGo] at hc
  | cons x xs =>
    rw [cleanPairs_cons] at hc
    simp only [List.cons.injEq] at hc
    obtain ⟨rfl, hrest⟩ := hc
    refine ⟨?_, cleanPairs_base (hloop x (by simp)), ?_, ?_⟩
    · intro q qs e
      rw [cleanPairs_cons] at e
      simp only [List.cons.injEq] at e
      rw [← e.1]
    · intro pre j post e
      rw [cleanPairs_cons, hrest] at e
      cases pre with
      | nil =>
        simp only [List.nil_append, List.cons.injEq] at e
        exact .inl (by rw [← e.1])
      | cons y ys =>
        simp only [List.cons_append, List.cons.injEq] at e
        have := (validateGo_some.mp hv).2 ys j post e.2
        simp only [List.cons_append, List.nil_append, List.mem_cons] at this
        rcases this with h | h | h
        · exact .inl h
        · exact .inr (by rw [← e.1]; simp [h])
        · exact .inr (by simp [h])
    · intro j hj
      have : j ∈ x :: xs := (cleanGo_mem hj).1
      exact (mem_subEdges.mp (hperm.mem_iff.mp this)).1

/-- What `determine_join_order` returns. -/
theorem joinOrder_ok {nx : Nx} (hnx : NxSpec nx) {g : Graph} (hwf : WF g) (hw : PositiveWeights g)
    (hl : NoLoops g) {req : List String} (hreq : ∀ v ∈ req, v ∈ g.nodes) (hn : req.Nodup)
    (h2 : 2 ≤ req.length) {bridges : List String} {ps : List Pair}
    (h : joinOrder nx g bridges req = .ok ps) :
    ∃ p rest, ps = p :: rest ∧ RawOk g p.1 ps ∧ Provides p.1 ps req := by
  have hfb : fallback nx g bridges req = .ok ps →
      ∃ p rest, ps = p :: rest ∧ RawOk g p.1 ps ∧ Provides p.1 ps req := by
    intro hf
    have hs := fallback_spec hnx hwf hw hl hreq hn bridges
    by_cases ha : ∃ p, Anchor g req p
    · obtain ⟨r, p, rest, h1, h2, h3, h4⟩ := hs.1 ha
      rw [h1] at hf
      cases hf
      exact ⟨p, rest, h2, h3, h4⟩
    · rw [hs.2 ha] at hf; cases hf
  unfold joinOrder at h
  rw [if_neg (by omega)] at h
  cases ht : nx.topo (subEdges g req) with
  | none => rw [ht] at h; exact hfb h
  | some l =>
    rw [ht] at h
    simp only [if_pos (show req.length > 1 by omega)] at h
    cases hv : validatePath (cleanPairs l) req with
    | none => rw [hv] at h; cases h
    | some m =>
      rw [hv] at h
      cases m with
      | true => exact hfb h
      | false =>
        simp only [Except.ok.injEq] at h
        subst h
        simp only [validatePath, Option.map_eq_some_iff] at hv
        obtain ⟨added, hv, hmiss⟩ := hv
        cases hc : cleanPairs l with
        | nil =>
          exfalso
          rw [hc] at hv
          simp only [Option.some.injEq] at hv
          subst hv
          cases req with
          | nil => simp at h2
          | cons v vs => simp at hmiss
        | cons p rest =>
          rw [hc] at hv
          simp only at hv
          have hraw := topo_rawOk (hnx.topoSome _ _ ht) hc hv
          rw [hc] at hraw
          refine ⟨p, rest, rfl, hraw, ?_⟩
          intro v hvr
          rw [(validateGo_some.mp hv).1] at hmiss
          have := List.any_eq_false.mp hmiss v hvr
          simp only [List.contains_eq_mem, Bool.not_eq_true, Bool.not_eq_false',
            decide_eq_true_eq] at this
          simp only [List.cons_append, List.nil_append, List.mem_cons] at this
          rcases this with h | h | h
          · exact .inl h
          · exact .inr (by simp [h])
          · exact .inr (by simp [h])

/-- The only exception that leaves `determine_join_order` is `NetworkXNoPath`. -/
theorem joinOrder_error {nx : Nx} (hnx : NxSpec nx) {g : Graph} (hwf : WF g) (hw : PositiveWeights g)
    (hl : NoLoops g) {req : List String} (hreq : ∀ v ∈ req, v ∈ g.nodes) (hn : req.Nodup)
    {bridges : List String} {e : Err} (h : joinOrder nx g bridges req = .error e) : e = .noPath := by
  have hfb : fallback nx g bridges req = .error e → e = .noPath := by
    intro hf
    have hs := fallback_spec hnx hwf hw hl hreq hn bridges
    by_cases ha : ∃ p, Anchor g req p
    · obtain ⟨r, p, rest, h1, -⟩ := hs.1 ha
      rw [h1] at hf; cases hf
    · rw [hs.2 ha] at hf; cases hf; rfl
  unfold joinOrder at h
  split at h
  · cases h
  · split at h
    · exact hfb h
    · simp only at h
      split at h
      · split at h
        · cases h; rfl
        · exact hfb h
        · cases h
      · cases h

/-! ### Views reachable inside the required set -/

theorem reachIn_mem {g : Graph} {req : List String} {a b : String} (h : ReachIn g req a b)
    (ha : a ∈ req) : b ∈ req := by
  cases h with
  | refl => exact ha
  | step _ _ hc => exact hc

theorem reachIn_reach {g : Graph} {req : List String} {a b : String} (h : ReachIn g req a b) :
    Reach g a b := by
  induction h with
  | refl => exact .refl _
  | step _ he _ ih => exact ih.step he

/-- A required view that reaches the others has an outgoing edge. -/
theorem reach_out {g : Graph} {a b : String} (h : Reach g a b) (hab : a ≠ b) :
    ∃ c, HasEdge g a c := by
  obtain ⟨p, hp⟩ := h.walk
  cases hp with
  | single => exact absurd rfl hab
  | cons he _ => exact ⟨_, he⟩

/-- When one required view reaches all others inside the required set, the topological stage does
not raise. -/
theorem topo_not_stuck {g : Graph} {req : List String} {l : List Pair}
    (ht : IsTopo (subEdges g req) l) {r : String} (hr : r ∈ req)
    (hall : ∀ v ∈ req, ReachIn g req r v) : validatePath (cleanPairs l) req ≠ none := by
  obtain ⟨hperm, hpw, hloop⟩ := ht
  cases l with
  | nil => simp [cleanPairs, cleanGo, validatePath]
  | cons x xs =>
    have hin : ∀ v ∈ req, v ≠ r → ∃ q ∈ x :: xs, q.2 = v := by
      intro v hv hne
      cases hall v hv with
      | refl => exact absurd rfl hne
      | @step b _ hrb he hc =>
        exact ⟨(b, v), hperm.mem_iff.mpr (mem_subEdges.mpr ⟨he, reachIn_mem hrb hr, hv⟩), rfl⟩
    have hxs : x.1 = r := by
      have hx := mem_subEdges.mp (hperm.mem_iff.mp (show x ∈ x :: xs by simp))
      by_cases h : x.1 = r
      · exact h
      · exfalso
        obtain ⟨q, hq, e⟩ := hin x.1 hx.2.1 h
        rcases List.mem_cons.mp hq with rfl | hq
        · exact hloop q (by simp) e
        · exact (List.pairwise_cons.mp hpw).1 q hq e
    rw [cleanPairs_cons]
    intro hnone
    simp only [validatePath, Option.map_eq_none_iff] at hnone
    have : validateGo [x.1, x.2] (cleanGo [x] xs) =
        some ([x.1, x.2] ++ (cleanGo [x] xs).map (·.2)) := by
      rw [validateGo_some]
      refine ⟨rfl, ?_⟩
      intro pre j post e
      obtain ⟨lft, rgt, hsplit, hcov⟩ := cleanGo_order (before := [x]) (ps := xs) hpw e
      have hj := mem_subEdges.mp (hperm.mem_iff.mp (show j ∈ x :: xs by rw [hsplit]; simp))
      by_cases h : j.1 = r
      · simp [h, hxs]
      · obtain ⟨q, hq, e'⟩ := hin j.1 hj.2.1 h
        rcases List.mem_cons.mp hq with rfl | hq
        · simp [e']
        · rw [hsplit] at hq
          rcases List.mem_append.mp hq with hq | hq
          · rcases hcov q.2 (List.mem_map.mpr ⟨q, hq, rfl⟩) with h' | h'
            · simp only [included, List.map_nil, List.append_nil] at h'
              rw [← e']
              exact List.mem_append_left _ h'
            · rw [← e']
              exact List.mem_append_right _ h'
          · exfalso
            rcases List.mem_cons.mp hq with rfl | hq
            · exact hloop q (by rw [hsplit]; simp) e'
            · have : (j :: rgt).Pairwise (fun p q => q.2 ≠ p.1) :=
                (List.pairwise_append.mp (hsplit ▸ (List.pairwise_cons.mp hpw).2)).2.1
              exact (List.pairwise_cons.mp this).1 q hq e'
    rw [this] at hnone
    cases hnone

end ML
