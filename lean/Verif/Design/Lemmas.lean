import Verif.Design.Spec
import Verif.JoinGraph.Reach
/-
Helper lemmas for C17 and C18.
-/
set_option autoImplicit false
namespace ML
open Spec

/-- The conditions of `FromOk` on a list of pairs that may still join a view twice. -/
structure RawOk (g : Graph) (base : String) (ps : List Pair) : Prop where
  head : ∀ p rest, ps = p :: rest → p.1 = base
  baseOnce : base ∉ ps.map (·.2)
  left : ∀ pre j post, ps = pre ++ j :: post → j.1 = base ∨ j.1 ∈ pre.map (·.2)
  edges : ∀ j ∈ ps, HasEdge g j.1 j.2

/-! ### `ordered_joins` -/

theorem orderedGo_mem {joined : List String} {ps : List Pair} {p : Pair}
    (h : p ∈ orderedGo joined ps) : p ∈ ps ∧ p.2 ∉ joined := by
  induction ps generalizing joined with
  | nil => cases h
  | cons q qs ih =>
    simp only [orderedGo] at h
    split at h
    · obtain ⟨h1, h2⟩ := ih h
      exact ⟨by simp [h1], fun c => h2 (by simp [c])⟩
    · rename_i hq
      rcases List.mem_cons.mp h with rfl | h
      · exact ⟨by simp, hq⟩
      · obtain ⟨h1, h2⟩ := ih h
        exact ⟨by simp [h1], fun c => h2 (by simp [c])⟩

theorem orderedGo_nodup (joined : List String) (ps : List Pair) :
    ((orderedGo joined ps).map (·.2)).Nodup := by
  induction ps generalizing joined with
  | nil => exact List.nodup_nil
  | cons q qs ih =>
    simp only [orderedGo]
    split
    · exact ih _
    · simp only [List.map_cons, List.nodup_cons]
      refine ⟨?_, ih _⟩
      intro h
      obtain ⟨p, hp, e⟩ := List.mem_map.mp h
      exact (orderedGo_mem hp).2 (by simp [e])

theorem orderedGo_targets {joined : List String} {ps : List Pair} {t : String}
    (h : t ∈ ps.map (·.2)) : t ∈ joined ∨ t ∈ (orderedGo joined ps).map (·.2) := by
  induction ps generalizing joined with
  | nil => cases h
  | cons q qs ih =>
    simp only [List.map_cons, List.mem_cons] at h
    simp only [orderedGo]
    rcases h with rfl | h
    · split
      · rename_i hq; exact .inl hq
      · exact .inr (by simp)
    · rcases ih (joined := joined ++ [q.2]) h with h' | h'
      · simp only [List.mem_append, List.mem_singleton] at h'
        rcases h' with h' | rfl
        · exact .inl h'
        · split
          · rename_i hq; exact .inl hq
          · exact .inr (by simp)
      · split
        · exact .inr h'
        · exact .inr (by simp only [List.map_cons, List.mem_cons]; exact .inr h')

theorem orderedGo_split {joined : List String} {ps : List Pair} {pre' post' : List Pair} {j : Pair}
    (h : orderedGo joined ps = pre' ++ j :: post') :
    ∃ pre post, ps = pre ++ j :: post ∧ ∀ t ∈ pre.map (·.2), t ∈ joined ∨ t ∈ pre'.map (·.2) := by
  induction ps generalizing joined pre' with
  | nil => simp [orderedGo] at h
  | cons q qs ih =>
    simp only [orderedGo] at h
    split at h
    · rename_i hq
      obtain ⟨pre, post, e, ht⟩ := ih h
      refine ⟨q :: pre, post, by rw [e]; rfl, ?_⟩
      intro t htm
      simp only [List.map_cons, List.mem_cons] at htm
      rcases htm with rfl | htm
      · exact .inl hq
      · rcases ht t htm with h' | h'
        · simp only [List.mem_append, List.mem_singleton] at h'
          rcases h' with h' | rfl
          · exact .inl h'
          · exact .inl hq
        · exact .inr h'
    · cases pre' with
      | nil =>
        simp only [List.nil_append, List.cons.injEq] at h
        exact ⟨[], qs, by rw [h.1]; rfl, by simp⟩
      | cons x xs =>
        simp only [List.cons_append, List.cons.injEq] at h
        obtain ⟨pre, post, e, ht⟩ := ih h.2
        refine ⟨q :: pre, post, by rw [e]; rfl, ?_⟩
        intro t htm
        simp only [List.map_cons, List.mem_cons] at htm ⊢
        rcases htm with rfl | htm
        · exact .inr (.inl (by rw [h.1]))
        · rcases ht t htm with h' | h'
          · simp only [List.mem_append, List.mem_singleton] at h'
            rcases h' with h' | rfl
            · exact .inl h'
            · exact .inr (.inl (by rw [h.1]))
          · exact .inr (.inr h')

theorem orderedJoins_head (p : Pair) (ps : List Pair) :
    ∃ rest, orderedJoins (p :: ps) = p :: rest := by
  simp [orderedJoins, orderedGo]

theorem fromOk_of_raw {g : Graph} {req : List String} {base : String} {ps : List Pair}
    (h : RawOk g base ps) (hc : ∀ v ∈ req, v = base ∨ v ∈ ps.map (·.2)) :
    FromOk g req base (orderedJoins ps) := by
  refine ⟨orderedGo_nodup _ _, ?_, ?_, ?_, ?_⟩
  · intro hm
    obtain ⟨p, hp, e⟩ := List.mem_map.mp hm
    exact h.baseOnce (List.mem_map.mpr ⟨p, (orderedGo_mem hp).1, e⟩)
  · intro pre' j post' e
    obtain ⟨pre, post, e', ht⟩ := orderedGo_split e
    rcases h.left pre j post e' with h' | h'
    · exact .inl h'
    · rcases ht _ h' with h'' | h''
      · cases h''
      · exact .inr h''
  · intro j hj
    exact h.edges j (orderedGo_mem hj).1
  · intro v hv
    rcases hc v hv with h' | h'
    · exact .inl h'
    · rcases orderedGo_targets (joined := []) h' with h'' | h''
      · cases h''
      · exact .inr h''

/-! ### `_clean_view_pairs` -/

theorem included_targets {before : List Pair} {q : Pair} (h : q ∈ before) : q.2 ∈ included before := by
  cases before with
  | nil => cases h
  | cons p ps =>
    simp only [included]
    rcases List.mem_cons.mp h with rfl | h
    · simp
    · simp only [List.mem_append, List.mem_map]
      exact .inr ⟨q, h, rfl⟩

theorem mem_included_cons (x : String) (p : Pair) (ps : List Pair) :
    x ∈ included (p :: ps) ↔ x = p.1 ∨ x = p.2 ∨ x ∈ ps.map (·.2) := by
  simp [included]

theorem included_append (before ps : List Pair) (x : String) (h : x ∈ included before) :
    x ∈ included (before ++ ps) := by
  cases before with
  | nil => cases h
  | cons p qs =>
    simp only [mem_included_cons, List.cons_append, List.map_append, List.mem_append] at *
    rcases h with h | h | h
    · exact .inl h
    · exact .inr (.inl h)
    · exact .inr (.inr (.inl h))

theorem cleanGo_mem {before ps : List Pair} {p : Pair} (h : p ∈ cleanGo before ps) :
    p ∈ ps ∧ p.2 ∉ included before := by
  induction ps generalizing before with
  | nil => cases h
  | cons q qs ih =>
    simp only [cleanGo] at h
    split at h
    · rename_i hc
      rcases List.mem_cons.mp h with rfl | h
      · simp only [Bool.and_eq_true, Bool.not_eq_true', List.contains_eq_mem,
          decide_eq_false_iff_not] at hc
        exact ⟨by simp, hc.2⟩
      · obtain ⟨h1, h2⟩ := ih h
        exact ⟨by simp [h1], fun c => h2 (included_append _ _ _ c)⟩
    · obtain ⟨h1, h2⟩ := ih h
      exact ⟨by simp [h1], fun c => h2 (included_append _ _ _ c)⟩

theorem cleanPairs_cons (p : Pair) (ps : List Pair) : cleanPairs (p :: ps) = p :: cleanGo [p] ps := by
  simp [cleanPairs, cleanGo, included]

/-- Cleaned pairs of a list without self-joins do not join the first left-hand view again. -/
theorem cleanPairs_base {p : Pair} {ps : List Pair} (hp : p.2 ≠ p.1) :
    p.1 ∉ (cleanPairs (p :: ps)).map (·.2) := by
  rw [cleanPairs_cons]
  simp only [List.map_cons, List.mem_cons, not_or]
  refine ⟨fun c => hp c.symm, ?_⟩
  intro h
  obtain ⟨q, hq, e⟩ := List.mem_map.mp h
  exact (cleanGo_mem hq).2 (by rw [e]; simp [included])

/-- In a topological order every view that is joined at all is joined once, by its first pair. -/
theorem cleanGo_covers {before ps : List Pair} (ht : (before ++ ps).Pairwise (fun p q => q.2 ≠ p.1))
    {t : String} (h : t ∈ ps.map (·.2)) :
    t ∈ included before ∨ ∃ pre q post, cleanGo before ps = pre ++ q :: post ∧ q.2 = t := by
  induction ps generalizing before with
  | nil => cases h
  | cons q qs ih =>
    by_cases hin : t ∈ included before
    · exact .inl hin
    right
    simp only [List.map_cons, List.mem_cons] at h
    by_cases hq : t = q.2
    · subst hq
      refine ⟨[], q, cleanGo (before ++ [q]) qs, ?_, rfl⟩
      simp only [cleanGo]
      rw [if_pos]
      · rfl
      · simp only [Bool.and_eq_true, Bool.not_eq_true', List.contains_eq_mem,
          decide_eq_false_iff_not, List.any_eq_false, beq_iff_eq, samePair, Bool.or_eq_true, not_or,
          not_and]
        refine ⟨⟨?_, ?_⟩, hin⟩
        · intro x hx e
          exact hin (by rw [e]; exact included_targets hx)
        · intro x hx
          refine ⟨fun _ e => hin (by rw [e]; exact included_targets hx), fun _ e => ?_⟩
          exact (List.pairwise_append.mp ht).2.2 x hx q (by simp) e
    · have h' : t ∈ qs.map (·.2) := h.resolve_left hq
      have ht' : ((before ++ [q]) ++ qs).Pairwise (fun p q => q.2 ≠ p.1) := by
        rw [List.append_assoc]; exact ht
      rcases ih ht' h' with h2 | ⟨pre, x, post, h2, e⟩
      · exfalso
        cases before with
        | nil =>
          -- `t` is the left-hand view of the very first pair
          simp only [List.nil_append, included, List.map_nil, List.append_nil, List.mem_cons,
            List.not_mem_nil, or_false] at h2
          rcases h2 with h2 | h2
          · obtain ⟨y, hy, ey⟩ := List.mem_map.mp h'
            exact (List.pairwise_append.mp ht').2.2 q (by simp) y hy (by rw [ey, h2])
          · exact hq h2
        | cons b bs =>
          simp only [List.cons_append, mem_included_cons, List.map_append, List.map_cons,
            List.map_nil, List.mem_append, List.mem_cons, List.not_mem_nil, or_false] at h2 hin
          rcases h2 with h2 | h2 | h2 | h2
          · exact hin (.inl h2)
          · exact hin (.inr (.inl h2))
          · exact hin (.inr (.inr h2))
          · exact hq h2
      · simp only [cleanGo]
        split
        · exact ⟨q :: pre, x, post, by rw [h2]; rfl, e⟩
        · exact ⟨pre, x, post, h2, e⟩

/-- What comes before a pair in the original list and is joined, is joined before it. -/
theorem cleanGo_order {before ps : List Pair}
    (ht : (before ++ ps).Pairwise (fun p q => q.2 ≠ p.1)) {pre post : List Pair} {j : Pair}
    (h : cleanGo before ps = pre ++ j :: post) :
    ∃ l r, ps = l ++ j :: r ∧ ∀ t ∈ l.map (·.2), t ∈ included before ∨ t ∈ pre.map (·.2) := by
  induction ps generalizing before pre with
  | nil => simp [cleanGo] at h
  | cons q qs ih =>
    have ht' : ((before ++ [q]) ++ qs).Pairwise (fun p q => q.2 ≠ p.1) := by
      rw [List.append_assoc]; exact ht
    have hinc : ∀ t ∈ included (before ++ [q]), t ∈ included before ∨ t = q.2 ∨
        (before = [] ∧ t = q.1) := by
      intro t htm
      cases before with
      | nil =>
        simp only [List.nil_append, included, List.map_nil, List.append_nil, List.mem_cons,
          List.not_mem_nil, or_false] at htm
        rcases htm with h | h
        · exact .inr (.inr ⟨rfl, h⟩)
        · exact .inr (.inl h)
      | cons b bs =>
        simp only [List.cons_append, mem_included_cons, List.map_append, List.map_cons,
          List.map_nil, List.mem_append, List.mem_cons, List.not_mem_nil, or_false] at htm ⊢
        rcases htm with h | h | h | h
        · exact .inl (.inl h)
        · exact .inl (.inr (.inl h))
        · exact .inl (.inr (.inr h))
        · exact .inr (.inl h)
    have hqin : q.2 ∈ included before ∨ ∃ c, cleanGo before (q :: qs) = q :: c := by
      rcases cleanGo_covers (before := before) (ps := [q])
        (ht.sublist (List.Sublist.append (List.Sublist.refl _) (List.cons_sublist_cons.mpr
          (List.nil_sublist _)))) (t := q.2) (by simp) with h' | ⟨a, x, b, h', e⟩
      · exact .inl h'
      · right
        simp only [cleanGo] at h' ⊢
        split at h'
        · rename_i hc
          rw [if_pos hc]
          exact ⟨_, rfl⟩
        · simp at h'
    rcases hqin with hq | ⟨c, hc⟩
    · -- `q` is dropped or joins something already there
      simp only [cleanGo] at h
      rw [if_neg] at h
      · obtain ⟨l, r, e, hl⟩ := ih ht' h
        refine ⟨q :: l, r, by rw [e]; rfl, ?_⟩
        intro t htm
        simp only [List.map_cons, List.mem_cons] at htm
        rcases htm with rfl | htm
        · exact .inl hq
        · rcases hl t htm with h' | h'
          · rcases hinc t h' with h'' | rfl | ⟨rfl, -⟩
            · exact .inl h''
            · exact .inl hq
            · cases hq
          · exact .inr h'
      · simp only [Bool.and_eq_true, Bool.not_eq_true', List.contains_eq_mem,
          decide_eq_false_iff_not, not_and]
        exact fun _ c => c hq
    · have hc' : cleanGo (before ++ [q]) qs = c := by
        simp only [cleanGo] at hc
        split at hc
        · simpa using hc
        · rename_i hn
          exfalso
          have hm : q ∈ cleanGo (before ++ [q]) qs := by rw [hc]; simp
          exact (cleanGo_mem hm).2 (included_targets (by simp))
      rw [hc] at h
      cases pre with
      | nil =>
        simp only [List.nil_append, List.cons.injEq] at h
        exact ⟨[], qs, by rw [h.1]; rfl, by simp⟩
      | cons x xs =>
        simp only [List.cons_append, List.cons.injEq] at h
        obtain ⟨l, r, e, hl⟩ := ih ht' (hc'.trans h.2)
        refine ⟨q :: l, r, by rw [e]; rfl, ?_⟩
        intro t htm
        simp only [List.map_cons, List.mem_cons] at htm ⊢
        rcases htm with rfl | htm
        · exact .inr (.inl (by rw [h.1]))
        · rcases hl t htm with h' | h'
          · rcases hinc t h' with h'' | h'' | ⟨rfl, h''⟩
            · exact .inl h''
            · exact .inr (.inl (by rw [h'', h.1]))
            · exfalso
              obtain ⟨y, hy, ey⟩ := List.mem_map.mp htm
              exact (List.pairwise_append.mp ht').2.2 q (by simp) y (by rw [e]; simp [hy])
                (by rw [ey, h''])
          · exact .inr (.inr h')

/-! ### `_validate_join_path` -/

theorem validateGo_some {added : List String} {ps : List Pair} {r : List String} :
    validateGo added ps = some r ↔ r = added ++ ps.map (·.2) ∧
      ∀ pre j post, ps = pre ++ j :: post → j.1 ∈ added ++ pre.map (·.2) := by
  induction ps generalizing added with
  | nil => simp [validateGo, eq_comm]
  | cons q qs ih =>
    simp only [validateGo]
    split
    · rename_i hq
      rw [ih]
      simp only [List.map_cons, List.append_assoc, List.cons_append, List.nil_append]
      refine and_congr_right (fun _ => ⟨?_, ?_⟩)
      · intro h pre j post e
        cases pre with
        | nil =>
          simp only [List.nil_append, List.cons.injEq] at e
          simp [← e.1, hq]
        | cons x xs =>
          simp only [List.cons_append, List.cons.injEq] at e
          have := h xs j post e.2
          simp only [List.mem_append, List.mem_cons, List.map_cons] at this ⊢
          rw [← e.1]
          exact this
      · intro h pre j post e
        have := h (q :: pre) j post (by rw [e]; rfl)
        simpa using this
    · rename_i hq
      constructor
      · intro h; cases h
      · rintro ⟨-, h⟩
        exact absurd (h [] q qs rfl) (by simpa using hq)

end ML
