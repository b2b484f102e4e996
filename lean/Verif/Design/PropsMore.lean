import Verif.Design.Props
import Mathlib.Tactic.ByContra
/-
C54: which joins the designer chooses when several would do.
-/
set_option autoImplicit false
namespace ML.Spec

/-- The sum of the weights of the joins. -/
def totalWeight (g : Graph) (joins : List Pair) : Nat :=
  (joins.map fun j => match dictGet g.edges j with | some i => i.weight | none => 0).sum

/-- `x` and `y` are the two views, in some order. -/
def TheTwo (a b x y : String) : Prop := x = a ∧ y = b ∨ x = b ∧ y = a

/-- A starting join may serve the query: it is in the join graph, touches a required view, and its left view reaches all of them. -/
def Serves (g : Graph) (req : List String) (e : Pair) : Prop :=
  HasEdge g e.1 e.2 ∧ (e.1 ∈ req ∨ e.2 ∈ req) ∧ ∀ v ∈ req, Reach g e.1 v

/-- The preference among starting joins: first those with a bridge view, then those between required views, then by name. -/
def NotWorse (bridges req : List String) (e e' : Pair) : Prop :=
  let bridge := fun x : Pair => x.1 ∈ bridges ∨ x.2 ∈ bridges
  let inside := fun x : Pair => x.1 ∈ req ∧ x.2 ∈ req
  bridge e ∧ ¬ bridge e' ∨ (bridge e ↔ bridge e') ∧
    (inside e ∧ ¬ inside e' ∨ (inside e ↔ inside e') ∧ (e.1 < e'.1 ∨ e.1 = e'.1 ∧ e.2 ≤ e'.2))

end ML.Spec

namespace ML
open Spec

theorem totalWeight_path (g : Graph) (p : List String) : totalWeight g (pathPairs p) = pathWeight g p := by
  induction p with
  | nil => rfl
  | cons a rest ih =>
    cases rest with
    | nil => rfl
    | cons b rest =>
      simp only [pathPairs, pathWeight, totalWeight, List.map_cons, List.sum_cons] at ih ⊢
      rw [ih]
      cases dictGet g.edges (a, b) <;> rfl

theorem firstBest_key {l : List (List String × Nat)} {p : List String × Nat} (h : firstBest l = some p) :
    ∀ q ∈ l, p.2 < q.2 ∨ p.2 = q.2 ∧ ¬ String.join q.1 < String.join p.1 := by
  induction l generalizing p with
  | nil => cases h
  | cons x xs ih =>
    simp only [firstBest] at h
    split at h
    · rename_i hn
      rw [firstBest_none] at hn
      subst hn
      cases h
      intro q hq
      simp only [List.mem_cons, List.not_mem_nil, or_false] at hq
      subst hq
      exact .inr ⟨rfl, String.lt_irrefl _⟩
    · rename_i q hq
      have ih := ih hq
      split at h
      · rename_i hk
        cases h
        intro y hy
        rcases List.mem_cons.mp hy with rfl | hy
        · simp only [keyLt, Bool.or_eq_true, decide_eq_true_eq, Bool.and_eq_true] at hk
          rcases hk with hk | ⟨h1, h2⟩
          · exact .inl hk
          · exact .inr ⟨h1, String.lt_asymm h2⟩
        · exact ih y hy
      · rename_i hk
        cases h
        simp only [keyLt, Bool.or_eq_true, decide_eq_true_eq, Bool.and_eq_true, not_or, not_and] at hk
        intro y hy
        rcases List.mem_cons.mp hy with rfl | hy
        · exact .inr ⟨rfl, String.lt_irrefl _⟩
        · rcases ih y hy with h1 | ⟨h1, h2⟩
          · exact .inl (by omega)
          · rcases Nat.lt_or_ge x.2 q.2 with h3 | h3
            · exact .inl (by omega)
            · have h4 : q.2 = x.2 := by omega
              refine .inr ⟨by omega, fun c => ?_⟩
              have h5 := hk.2 h4
              rw [String.not_lt] at h2 h5
              exact absurd c (String.not_lt.2 (String.le_trans h5 h2))

/-- Outside the topological shortcut the designer searches. -/
theorem joinOrder_fallback {nx : Nx} (hnx : NxSpec nx) {g : Graph} {req bridges : List String} (h2 : 2 ≤ req.length)
    (hcase : (∀ a ∈ req, ∀ b ∈ req, ¬ HasEdge g a b) ∨ ∀ l, ¬ IsTopo (subEdges g req) l) :
    joinOrder nx g bridges req = fallback nx g bridges req := by
  unfold joinOrder
  rw [if_neg (by omega)]
  cases ht : nx.topo (subEdges g req) with
  | none => rfl
  | some l =>
    have htopo := hnx.topoSome _ _ ht
    rcases hcase with h | h
    · have : l = [] := by
        cases l with
        | nil => rfl
        | cons x xs =>
          have := mem_subEdges.mp (htopo.1.mem_iff.mp (show x ∈ x :: xs by simp))
          exact absurd this.1 (h _ this.2.1 _ this.2.2)
      subst this
      cases req with
      | nil => simp at h2
      | cons v vs =>
        simp only [List.length_cons] at h2
        simp only [List.length_cons, cleanPairs, cleanGo, validatePath, Option.map_some,
          List.any_cons, List.contains_eq_mem, List.not_mem_nil, decide_false, Bool.not_false,
          Bool.true_or]
        rw [if_pos (by omega)]
    · exact absurd htopo (h l)

theorem orderedGo_id (joined : List String) (ps : List Pair) (h : (joined ++ ps.map (·.2)).Nodup) : orderedGo joined ps = ps := by
  induction ps generalizing joined with
  | nil => rfl
  | cons p ps ih =>
    have hn : p.2 ∉ joined := by
      intro c
      rw [List.nodup_append] at h
      exact h.2.2 _ c _ (by simp) rfl
    simp only [orderedGo, if_neg hn]
    rw [ih]
    simpa using h

/-- Both directions of a pair make the order of the joins between the two views impossible. -/
theorem no_topo_two {g : Graph} {a b : String} (hab : a ≠ b) (h1 : HasEdge g a b) (h2 : HasEdge g b a) :
    ∀ l, ¬ IsTopo (subEdges g [a, b]) l := by
  rintro l ⟨hperm, hpw, -⟩
  have m1 : (a, b) ∈ l := hperm.mem_iff.mpr (mem_subEdges.mpr ⟨h1, by simp, by simp⟩)
  have m2 : (b, a) ∈ l := hperm.mem_iff.mpr (mem_subEdges.mpr ⟨h2, by simp, by simp⟩)
  obtain ⟨pre, post, rfl⟩ := List.append_of_mem m1
  rw [List.pairwise_append] at hpw
  obtain ⟨-, hp2, hp3⟩ := hpw
  rcases List.mem_append.1 m2 with h | h
  · exact hp3 _ h (a, b) (by simp) rfl
  · rcases List.mem_cons.1 h with h | h
    · exact hab (Prod.ext_iff.1 h).2
    · exact (List.pairwise_cons.1 hp2).1 _ h rfl

/-- A walk of least weight visits no view twice. -/
theorem shortest_nodup {g : Graph} (hw : PositiveWeights g) {a b : String} {p : List String} (hp : Walk g a b p)
    (hmin : ∀ q, Walk g a b q → pathWeight g p ≤ pathWeight g q) : p.Nodup := by
  induction hp with
  | single a => simp
  | @cons a b c p he h ih =>
    have hwt : ∀ q, Walk g b c q → pathWeight g (a :: q) =
        (match dictGet g.edges (a, b) with | some i => i.weight | none => 0) + pathWeight g q := by
      intro q hq
      obtain ⟨t, rfl⟩ := hq.head
      rfl
    have ih := ih fun q hq => by
      have := hmin _ (.cons he hq)
      rw [hwt _ h, hwt _ hq] at this
      omega
    refine List.nodup_cons.2 ⟨fun hm => ?_, ih⟩
    obtain ⟨q, hq, hlt⟩ := (Walk.cons he h).suffix hw (by simpa using hm)
    exact absurd (hmin q hq) (by omega)

/-- C54 (a): two views that are joined in both directions or in neither, and of which one reaches the other, are joined along a path between them whose
total weight is least among all paths in either direction. -/
theorem C54_cheapest (nx : Nx) (hnx : NxSpec nx) (g : Graph) (hwf : WF g) (hw : PositiveWeights g) (hl : NoLoops g)
    (a b : String) (bridges : List String) (ha : a ∈ g.nodes) (hb : b ∈ g.nodes) (hab : a ≠ b) (hr : Reach g a b ∨ Reach g b a)
    (hdir : HasEdge g a b ↔ HasEdge g b a) :
    ∃ joins x y p, designJoins nx g bridges [a, b] = .ok joins ∧ TheTwo a b x y ∧ Walk g x y p ∧ joins = pathPairs p ∧
      (∀ x' y' q, TheTwo a b x' y' → Walk g x' y' q → totalWeight g joins ≤ totalWeight g (pathPairs q)) ∧
      (∀ x' y' q, TheTwo a b x' y' → nx.sp g x' y' = some q → totalWeight g joins = totalWeight g (pathPairs q) →
        ¬ String.join q < String.join p) := by
  have hcase : (∀ x ∈ [a, b], ∀ y ∈ [a, b], ¬ HasEdge g x y) ∨ ∀ l, ¬ IsTopo (subEdges g [a, b]) l := by
    by_cases h : HasEdge g a b
    · exact .inr (no_topo_two hab h (hdir.1 h))
    · refine .inl fun x hx y hy c => ?_
      simp only [List.mem_cons, List.not_mem_nil, or_false] at hx hy
      rcases hx with rfl | rfl <;> rcases hy with rfl | rfl
      · exact hl _ c
      · exact h c
      · exact h (hdir.2 c)
      · exact hl _ c
  have hjo := joinOrder_fallback hnx (bridges := bridges) (by simp) hcase
  have hnode : ∀ x y, TheTwo a b x y → x ∈ g.nodes ∧ y ∈ g.nodes ∧ x ≠ y := by
    rintro x y (⟨rfl, rfl⟩ | ⟨rfl, rfl⟩)
    · exact ⟨ha, hb, hab⟩
    · exact ⟨hb, ha, fun c => hab c.symm⟩
  have hmemTwo : ∀ e : Pair, e ∈ [(a, b), (b, a)] ↔ TheTwo a b e.1 e.2 := by
    rintro ⟨x, y⟩
    simp [TheTwo, Prod.ext_iff]
  cases hs : shortestAmong nx g [(a, b), (b, a)] with
  | none =>
    rw [shortestAmong_none] at hs
    rcases hr with h | h
    · exact absurd h (hnx.spNone g a b hwf ha hb (hs (a, b) (by simp)))
    · exact absurd h (hnx.spNone g b a hwf hb ha (hs (b, a) (by simp)))
  | some p =>
    have hkey : ∀ e ∈ [(a, b), (b, a)], ∀ q, nx.sp g e.1 e.2 = some q →
        pathWeight g p < pathWeight g q ∨ pathWeight g p = pathWeight g q ∧ ¬ String.join q < String.join p := by
      have hs' := hs
      simp only [shortestAmong, Option.map_eq_some_iff] at hs'
      obtain ⟨⟨p', w⟩, hf, rfl⟩ := hs'
      have h1 := (firstBest_some hf).1
      have h2 := firstBest_key hf
      simp only [List.mem_filterMap, Option.map_eq_some_iff, Prod.mk.injEq] at h1
      obtain ⟨e, he, q, hq, rfl, rfl⟩ := h1
      intro e' he' q' hq'
      exact h2 (q', pathWeight g q') (List.mem_filterMap.mpr ⟨e', he', by simp [hq']⟩)
    obtain ⟨⟨e, he, hsp⟩, hmin⟩ := shortestAmong_some hs
    have h2 := (hmemTwo e).1 he
    obtain ⟨hx, hy, hxy⟩ := hnode _ _ h2
    obtain ⟨hwalk, hleast⟩ := hnx.spSome g _ _ p hwf hx hsp
    have hnd := shortest_nodup hw hwalk hleast
    have hord : orderedJoins (pathPairs p) = pathPairs p := by
      refine orderedGo_id [] _ ?_
      rw [List.nil_append, pathPairs_targets hwalk]
      exact hnd.sublist (List.tail_sublist p)
    refine ⟨pathPairs p, e.1, e.2, p, ?_, h2, hwalk, rfl, ?_, ?_⟩
    · unfold designJoins
      rw [hjo]
      simp only [fallback, hs, hord]
    · intro x' y' q h3 hq
      obtain ⟨hx', hy', -⟩ := hnode _ _ h3
      rw [totalWeight_path, totalWeight_path]
      cases hsp' : nx.sp g x' y' with
      | none => exact absurd hq.reach (hnx.spNone g x' y' hwf hx' hy' hsp')
      | some q' =>
        have := hmin (x', y') ((hmemTwo _).2 h3) q' hsp'
        exact Nat.le_trans this ((hnx.spSome g x' y' q' hwf hx' hsp').2 q hq)
    · intro x' y' q h3 hq heq
      rw [totalWeight_path, totalWeight_path] at heq
      rcases hkey (x', y') ((hmemTwo _).2 h3) q hq with h | h
      · omega
      · exact h.2

/-- C54 (b): two views that are joined in exactly one direction are joined by that edge alone, whatever it costs. -/
theorem C54_direct (nx : Nx) (hnx : NxSpec nx) (g : Graph) (hwf : WF g) (hl : NoLoops g) (a b : String) (bridges req : List String)
    (hab : a ≠ b) (hreq : req = [a, b] ∨ req = [b, a]) (h : HasEdge g a b) (h' : ¬ HasEdge g b a) :
    designJoins nx g bridges req = .ok [(a, b)] := by
  have hmem : ∀ v, v ∈ req ↔ v = a ∨ v = b := by
    intro v; rcases hreq with rfl | rfl <;> simp [or_comm]
  have hlen : req.length = 2 := by rcases hreq with rfl | rfl <;> rfl
  have hsub : ∀ p, p ∈ subEdges g req ↔ p = (a, b) := by
    rintro ⟨x, y⟩
    rw [mem_subEdges, hmem, hmem]
    dsimp only
    constructor
    · rintro ⟨h1, rfl | rfl, rfl | rfl⟩
      · exact absurd h1 (hl _)
      · rfl
      · exact absurd h1 h'
      · exact absurd h1 (hl _)
    · intro e
      cases e
      exact ⟨h, .inl rfl, .inr rfl⟩
  have hsub' : subEdges g req = [(a, b)] := by
    have hnd : (subEdges g req).Nodup := hwf.edges.filter _
    cases hl : subEdges g req with
    | nil => have := (hsub (a, b)).2 rfl; rw [hl] at this; simp at this
    | cons x xs =>
      have hx := (hsub x).1 (by rw [hl]; simp)
      cases xs with
      | nil => rw [hx]
      | cons y ys =>
        have hy := (hsub y).1 (by rw [hl]; simp)
        rw [hl, hx, hy] at hnd
        simp at hnd
  have htopo : nx.topo (subEdges g req) = some [(a, b)] := by
    rw [hsub']
    cases ht : nx.topo [(a, b)] with
    | none => exact absurd ⟨List.Perm.refl _, by simp, by simpa using hab.symm⟩ (hnx.topoNone _ ht [(a, b)])
    | some l =>
      have := (hnx.topoSome _ _ ht).1
      rw [List.perm_singleton] at this
      rw [this]
  unfold designJoins joinOrder
  rw [if_neg (by omega), htopo]
  have hv : validatePath (cleanPairs [(a, b)]) req = some false := by
    rcases hreq with rfl | rfl <;> simp [cleanPairs, cleanGo, validatePath, validateGo, included]
  simp only [hlen, hv]
  rfl

theorem rank_iff (bp bq sp sq : Bool) (x u y v : String) :
    (if bp != bq then bp else if sp != sq then sp else if x ≠ u then decide (x ≤ u) else decide (y ≤ v)) = true ↔
      (bp = true ∧ ¬ bq = true ∨ (bp = true ↔ bq = true) ∧
        (sp = true ∧ ¬ sq = true ∨ (sp = true ↔ sq = true) ∧ (x < u ∨ x = u ∧ y ≤ v))) := by
  have h1 : x ≠ u → (x ≤ u ↔ x < u) := by
    intro hne
    constructor
    · intro h
      by_contra c
      exact hne (String.le_antisymm h (String.not_lt.1 c))
    · exact fun h => String.not_lt.1 (fun c => String.lt_irrefl _ (String.lt_trans h c))
  have h2 : ¬ x < x := String.lt_irrefl _
  cases bp <;> cases bq <;> cases sp <;> cases sq <;> by_cases e : x = u
  all_goals first
    | (subst e; simp [h2])
    | simp [e, h1 e]

theorem startLe_iff (g : Graph) (bridges req : List String) (p q : Pair) (hp : HasEdge g p.1 p.2) (hq : HasEdge g q.1 q.2) :
    startLe bridges (subEdges g req) p q = true ↔ NotWorse bridges req p q := by
  have hs : ∀ x : Pair, HasEdge g x.1 x.2 → (x ∈ subEdges g req ↔ x.1 ∈ req ∧ x.2 ∈ req) := by
    intro x hx
    rw [mem_subEdges]
    exact ⟨fun h => h.2, fun h => ⟨hx, h⟩⟩
  have h := rank_iff (bridges.contains p.1 || bridges.contains p.2) (bridges.contains q.1 || bridges.contains q.2)
    ((subEdges g req).contains p) ((subEdges g req).contains q) p.1 q.1 p.2 q.2
  simp only [Bool.or_eq_true, List.contains_iff_mem, hs p hp, hs q hq] at h
  exact h

theorem NotWorse.trans {bridges req : List String} {a b c : Pair} (h1 : NotWorse bridges req a b) (h2 : NotWorse bridges req b c) :
    NotWorse bridges req a c := by
  have hlt : ∀ x y z : String, x < y → y < z → x < z := fun _ _ _ => String.lt_trans
  have hle : ∀ x y z : String, x ≤ y → y ≤ z → x ≤ z := fun _ _ _ => String.le_trans
  simp only [NotWorse] at h1 h2 ⊢
  generalize (a.1 ∈ bridges ∨ a.2 ∈ bridges) = b1 at *
  generalize (b.1 ∈ bridges ∨ b.2 ∈ bridges) = b2 at *
  generalize (c.1 ∈ bridges ∨ c.2 ∈ bridges) = b3 at *
  generalize (a.1 ∈ req ∧ a.2 ∈ req) = s1 at *
  generalize (b.1 ∈ req ∧ b.2 ∈ req) = s2 at *
  generalize (c.1 ∈ req ∧ c.2 ∈ req) = s3 at *
  have hn : (a.1 < b.1 ∨ a.1 = b.1 ∧ a.2 ≤ b.2) → (b.1 < c.1 ∨ b.1 = c.1 ∧ b.2 ≤ c.2) → (a.1 < c.1 ∨ a.1 = c.1 ∧ a.2 ≤ c.2) := by
    rintro (h | ⟨h, h'⟩) (k | ⟨k, k'⟩)
    · exact .inl (hlt _ _ _ h k)
    · exact .inl (k ▸ h)
    · exact .inl (h ▸ k)
    · exact .inr ⟨h.trans k, hle _ _ _ h' k'⟩
  generalize (a.1 < b.1 ∨ a.1 = b.1 ∧ a.2 ≤ b.2) = n1 at *
  generalize (b.1 < c.1 ∨ b.1 = c.1 ∧ b.2 ≤ c.2) = n2 at *
  generalize (a.1 < c.1 ∨ a.1 = c.1 ∧ a.2 ≤ c.2) = n3 at *
  clear hlt hle
  grind

theorem NotWorse.total (bridges req : List String) (a b : Pair) : NotWorse bridges req a b ∨ NotWorse bridges req b a := by
  have hn : (a.1 < b.1 ∨ a.1 = b.1 ∧ a.2 ≤ b.2) ∨ (b.1 < a.1 ∨ b.1 = a.1 ∧ b.2 ≤ a.2) := by
    by_cases h : a.1 < b.1
    · exact .inl (.inl h)
    · by_cases k : b.1 < a.1
      · exact .inr (.inl k)
      · have e := String.le_antisymm (String.not_lt.1 k) (String.not_lt.1 h)
        rcases String.le_total a.2 b.2 with h' | h'
        · exact .inl (.inr ⟨e, h'⟩)
        · exact .inr (.inr ⟨e.symm, h'⟩)
  simp only [NotWorse]
  generalize (a.1 < b.1 ∨ a.1 = b.1 ∧ a.2 ≤ b.2) = n1 at *
  generalize (b.1 < a.1 ∨ b.1 = a.1 ∧ b.2 ≤ a.2) = n2 at *
  generalize (a.1 ∈ bridges ∨ a.2 ∈ bridges) = b1 at *
  generalize (b.1 ∈ bridges ∨ b.2 ∈ bridges) = b2 at *
  generalize (a.1 ∈ req ∧ a.2 ∈ req) = s1 at *
  generalize (b.1 ∈ req ∧ b.2 ∈ req) = s2 at *
  grind

theorem startEdges_sorted (g : Graph) (bridges req : List String) :
    (startEdges g bridges req).Pairwise (NotWorse bridges req) := by
  have hin : ∀ (p : Pair) (l : List Pair), HasEdge g p.1 p.2 → (∀ q ∈ l, HasEdge g q.1 q.2) → l.Pairwise (NotWorse bridges req) →
      (insertStart bridges (subEdges g req) p l).Pairwise (NotWorse bridges req) := by
    intro p l hp
    induction l with
    | nil => intro _ _; simp [insertStart]
    | cons q qs ih =>
      intro hq hs
      simp only [insertStart]
      have hle := startLe_iff g bridges req p q hp (hq q (by simp))
      split
      · rename_i h
        have h := hle.1 h
        refine List.pairwise_cons.2 ⟨?_, hs⟩
        intro x hx
        rcases List.mem_cons.1 hx with rfl | hx
        · exact h
        · exact NotWorse.trans h ((List.pairwise_cons.1 hs).1 x hx)
      · rename_i h
        have h : NotWorse bridges req q p := (NotWorse.total bridges req p q).resolve_left fun c => h (hle.2 c)
        refine List.pairwise_cons.2 ⟨?_, ih (fun x hx => hq x (by simp [hx])) (List.pairwise_cons.1 hs).2⟩
        intro x hx
        rcases (mem_insertStart _ _ _ _ _).1 hx with rfl | hx
        · exact h
        · exact (List.pairwise_cons.1 hs).1 x hx
  have key : ∀ l : List Pair, (∀ q ∈ l, HasEdge g q.1 q.2) →
      (l.foldr (insertStart bridges (subEdges g req)) []).Pairwise (NotWorse bridges req) ∧
      ∀ q ∈ l.foldr (insertStart bridges (subEdges g req)) [], HasEdge g q.1 q.2 := by
    intro l
    induction l with
    | nil => intro _; simp
    | cons x xs ih =>
      intro h
      obtain ⟨h1, h2⟩ := ih fun q hq => h q (by simp [hq])
      simp only [List.foldr_cons]
      refine ⟨hin x _ (h x (by simp)) h2 h1, ?_⟩
      intro q hq
      rcases (mem_insertStart _ _ _ _ _).1 hq with rfl | hq
      · exact h _ (by simp)
      · exact h2 q hq
  refine (key _ ?_).1
  intro q hq
  exact (List.mem_filter.1 hq).1

theorem tryStarts_best {nx : Nx} (hnx : NxSpec nx) {g : Graph} (hwf : WF g) (hw : PositiveWeights g) (hl : NoLoops g)
    {bridges req : List String} (hreq : ∀ v ∈ req, v ∈ g.nodes) (l : List Pair) (he : ∀ p ∈ l, HasEdge g p.1 p.2)
    (hs : l.Pairwise (NotWorse bridges req)) {r : List Pair} (h : tryStarts nx g req l = .ok r) :
    ∃ e rest, r = e :: rest ∧ e ∈ l ∧ (∀ v ∈ req, Reach g e.1 v) ∧
      ∀ e' ∈ l, (∀ v ∈ req, Reach g e'.1 v) → NotWorse bridges req e e' := by
  induction l with
  | nil => cases h
  | cons q qs ih =>
    have hg := greedy_spec hnx hwf hw hl (he q (by simp)) hreq
    by_cases hq : ∀ v ∈ req, Reach g q.1 v
    · obtain ⟨r', h1, -, ⟨rest, h3⟩, -⟩ := hg.1 hq
      simp only [tryStarts, h1] at h
      cases h
      refine ⟨q, rest, h3, by simp, hq, ?_⟩
      intro e' he' _
      rcases List.mem_cons.1 he' with rfl | he'
      · rcases NotWorse.total bridges req e' e' with h | h <;> exact h
      · exact (List.pairwise_cons.1 hs).1 e' he'
    · have hno : ∃ v ∈ req, ¬ Reach g q.1 v := by simpa using hq
      simp only [tryStarts, hg.2 hno] at h
      obtain ⟨e, rest, h1, h2, h3, h4⟩ := ih (fun p hp => he p (by simp [hp])) (List.pairwise_cons.1 hs).2 h
      refine ⟨e, rest, h1, by simp [h2], h3, ?_⟩
      intro e' he' hr
      rcases List.mem_cons.1 he' with rfl | he'
      · exact absurd hr hq
      · exact h4 e' he' hr

/-- C54 (c): three or more views that have no joins among themselves, or joins that form a cycle, are joined starting from the
preferred serving join: with a bridge view first, then between two of the views, then by name. -/
theorem C54_start (nx : Nx) (hnx : NxSpec nx) (g : Graph) (hwf : WF g) (hw : PositiveWeights g) (hl : NoLoops g)
    (req bridges : List String) (hreq : ∀ v ∈ req, v ∈ g.nodes) (h3 : 3 ≤ req.length)
    (hcase : (∀ a ∈ req, ∀ b ∈ req, ¬ HasEdge g a b) ∨ ∀ l, ¬ IsTopo (subEdges g req) l) (joins : List Pair)
    (h : designJoins nx g bridges req = .ok joins) :
    ∃ e rest, joins = e :: rest ∧ Serves g req e ∧ ∀ e', Serves g req e' → NotWorse bridges req e e' := by
  have hjo := joinOrder_fallback hnx (bridges := bridges) (by omega : 2 ≤ req.length) hcase
  have hfb : fallback nx g bridges req = tryStarts nx g req (startEdges g bridges req) := by
    unfold fallback
    split
    · simp at h3
    · rfl
  unfold designJoins at h
  rw [hjo, hfb] at h
  cases ht : tryStarts nx g req (startEdges g bridges req) with
  | error e => rw [ht] at h; cases e <;> cases h
  | ok r =>
    rw [ht] at h
    cases h
    obtain ⟨e, rest, rfl, h1, h2, h4⟩ := tryStarts_best hnx hwf hw hl hreq _ (fun p hp => (mem_startEdges.1 hp).1)
      (startEdges_sorted g bridges req) ht
    obtain ⟨rest', hr⟩ := orderedJoins_head e rest
    obtain ⟨h5, h6⟩ := mem_startEdges.1 h1
    refine ⟨e, rest', hr, ⟨h5, h6, h2⟩, ?_⟩
    rintro e' ⟨h7, h8, h9⟩
    exact h4 e' (mem_startEdges.2 ⟨h7, h8⟩) h9

/-- C54 (d): so the cheapest connection is not always used. `a` joined to `b` many-to-many costs 4; through `x`, one-to-one both
times, it would cost 2; the designer uses the many-to-many join, although the cheaper one exists in the same direction. -/
theorem C54_direct_not_cheapest :
    ∃ (views : List GView) (g : Graph) (p : List String), buildGraph views = .ok g ∧
      designJoins nxImpl g [] ["a", "b"] = .ok [("a", "b")] ∧ Walk g "a" "b" p ∧
      totalWeight g (pathPairs p) < totalWeight g [("a", "b")] := by
  refine ⟨[⟨"a", [⟨"p", .join "b" .manyToMany "s" none, [], [], none⟩, ⟨"q", .join "x" .oneToOne "t" none, [], [], none⟩]⟩,
      ⟨"x", [⟨"r", .join "b" .oneToOne "u" none, [], [], none⟩]⟩, ⟨"b", []⟩],
    ⟨["a", "b", "x"], [(("a", "b"), ⟨.manyToMany, "left_outer", "s", 4⟩), (("a", "x"), ⟨.oneToOne, "left_outer", "t", 1⟩),
      (("x", "a"), ⟨.oneToOne, "left_outer", "t", 1⟩), (("x", "b"), ⟨.oneToOne, "left_outer", "u", 1⟩),
      (("b", "x"), ⟨.oneToOne, "left_outer", "u", 1⟩)]⟩, ["a", "x", "b"], by decide, by decide, ?_, by decide⟩
  exact .cons (by decide) (.cons (by decide) (.single _))

/-! ### Concrete cases -/

-- C54_cheapest: two views joined both ways, and two views joined through others; the lighter way is used
example : designJoins nxImpl ⟨["a", "b"], [(("a", "b"), ⟨.oneToMany, "left_outer", "", 3⟩), (("b", "a"), ⟨.manyToOne, "left_outer", "", 2⟩)]⟩ []
    ["a", "b"] = .ok [("b", "a")] := by decide
example : designJoins nxImpl ⟨["a", "b", "x", "y"], [(("a", "x"), ⟨.manyToOne, "left_outer", "", 2⟩), (("x", "b"), ⟨.manyToMany, "left_outer", "", 4⟩),
    (("a", "y"), ⟨.oneToMany, "left_outer", "", 3⟩), (("y", "b"), ⟨.oneToOne, "left_outer", "", 1⟩)]⟩ [] ["a", "b"] =
    .ok [("a", "y"), ("y", "b")] := by decide
-- C54_start: three views in a cycle, without and with a bridge view
set_option maxRecDepth 20000 in
example : designJoins nxImpl (plain ["a", "b", "c"] [("a", "b"), ("b", "c"), ("c", "a")]) [] ["b", "c", "a"] =
    .ok [("a", "b"), ("b", "c")] := by decide
set_option maxRecDepth 20000 in
example : designJoins nxImpl (plain ["a", "b", "c", "z"] [("a", "b"), ("b", "c"), ("c", "a"), ("z", "c"), ("c", "z")]) ["z"] ["b", "c", "a"] =
    .ok [("c", "z"), ("c", "a"), ("a", "b")] := by decide
example : Serves (plain ["a", "b", "c"] [("a", "b"), ("b", "c"), ("c", "a")]) ["b", "c", "a"] ("a", "b") := by
  have h : Reach (plain ["a", "b", "c"] [("a", "b"), ("b", "c"), ("c", "a")]) "a" "b" := (Reach.refl "a").step (by decide)
  refine ⟨by decide, by decide, ?_⟩
  intro v hv
  simp only [List.mem_cons, List.not_mem_nil, or_false] at hv
  rcases hv with rfl | rfl | rfl
  · exact h
  · exact h.step (by decide)
  · exact .refl _

end ML
