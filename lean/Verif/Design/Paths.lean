import Verif.Design.Lemmas
/-
Helper lemmas for C17 and C18: walks, shortest paths and the greedy search.
-/
set_option autoImplicit false
namespace ML
open Spec

/-! ### Walks -/

theorem Spec.Walk.reach {g : Graph} {a b : String} {p : List String} (h : Walk g a b p) :
    Reach g a b := by
  induction h with
  | single a => exact .refl a
  | cons he _ ih => exact ((Reach.refl _).step he).trans ih

theorem Spec.Walk.head {g : Graph} {a b : String} {p : List String} (h : Walk g a b p) :
    ∃ t, p = a :: t := by
  cases h with
  | single => exact ⟨[], rfl⟩
  | cons _ _ => exact ⟨_, rfl⟩

theorem Spec.Walk.snoc {g : Graph} {a b c : String} {p : List String} (h : Walk g a b p)
    (he : HasEdge g b c) : ∃ q, Walk g a c q := by
  induction h with
  | single a => exact ⟨_, .cons he (.single c)⟩
  | cons he' _ ih =>
    obtain ⟨q, hq⟩ := ih he
    exact ⟨_, .cons he' hq⟩

theorem Spec.Reach.walk {g : Graph} {a b : String} (h : Reach g a b) : ∃ p, Walk g a b p := by
  induction h with
  | refl => exact ⟨_, .single _⟩
  | step _ he ih =>
    obtain ⟨p, hp⟩ := ih
    exact hp.snoc he

theorem pathWeight_cons {g : Graph} (hw : PositiveWeights g) {a b c : String} {p : List String}
    (he : HasEdge g a b) (h : Walk g b c p) : pathWeight g p < pathWeight g (a :: p) := by
  obtain ⟨t, rfl⟩ := h.head
  simp only [pathWeight]
  have : (dictGet g.edges (a, b)).isSome := dictGet_isSome.mpr he
  cases hd : dictGet g.edges (a, b) with
  | none => rw [hd] at this; cases this
  | some i =>
    have := hw _ (dictGet_mem hd)
    simp only at this ⊢
    omega

/-- A later view of a walk can be reached by a strictly lighter walk. -/
theorem Spec.Walk.suffix {g : Graph} (hw : PositiveWeights g) {a b : String} {p : List String}
    (h : Walk g a b p) {x : String} (hx : x ∈ p.tail) :
    ∃ q, Walk g x b q ∧ pathWeight g q < pathWeight g p := by
  induction h with
  | single => cases hx
  | @cons a b' c p' he h' ih =>
    simp only [List.tail_cons] at hx
    obtain ⟨t, rfl⟩ := h'.head
    rcases List.mem_cons.mp hx with rfl | hx
    · exact ⟨_, h', pathWeight_cons hw he h'⟩
    · obtain ⟨q, hq, hlt⟩ := ih hx
      exact ⟨q, hq, Nat.lt_trans hlt (pathWeight_cons hw he h')⟩

theorem pathPairs_targets {g : Graph} {a b : String} {p : List String} (h : Walk g a b p) :
    (pathPairs p).map (·.2) = p.tail := by
  induction h with
  | single => rfl
  | cons he h' ih =>
    obtain ⟨t, rfl⟩ := h'.head
    simp only [pathPairs, List.map_cons, List.tail_cons] at *
    rw [ih]

theorem pathPairs_edges {g : Graph} {a b : String} {p : List String} (h : Walk g a b p) :
    ∀ j ∈ pathPairs p, HasEdge g j.1 j.2 := by
  induction h with
  | single => intro j hj; cases hj
  | cons he h' ih =>
    obtain ⟨t, rfl⟩ := h'.head
    intro j hj
    simp only [pathPairs, List.mem_cons] at hj
    rcases hj with rfl | hj
    · exact he
    · exact ih j hj

theorem pathPairs_left {g : Graph} {a b : String} {p : List String} (h : Walk g a b p)
    {pre post : List Pair} {j : Pair} (e : pathPairs p = pre ++ j :: post) :
    j.1 = a ∨ j.1 ∈ pre.map (·.2) := by
  induction h generalizing pre with
  | single => simp [pathPairs] at e
  | cons he h' ih =>
    obtain ⟨t, rfl⟩ := h'.head
    simp only [pathPairs] at e
    cases pre with
    | nil =>
      simp only [List.nil_append, List.cons.injEq] at e
      exact .inl (by rw [← e.1])
    | cons x xs =>
      simp only [List.cons_append, List.cons.injEq] at e
      rcases ih e.2 with h'' | h''
      · exact .inr (by simp [← e.1, h''])
      · exact .inr (by simp [h''])

theorem Spec.Walk.last {g : Graph} {a b : String} {p : List String} (h : Walk g a b p) :
    b = a ∨ b ∈ p.tail := by
  induction h with
  | single => exact .inl rfl
  | cons he h' ih =>
    obtain ⟨t, rfl⟩ := h'.head
    right
    rcases ih with rfl | h''
    · simp
    · simp only [List.tail_cons] at h'' ⊢
      simp [h'']

/-! ### `_shortest_path_between_two` -/

theorem firstBest_none {l : List (List String × Nat)} : firstBest l = none ↔ l = [] := by
  cases l with
  | nil => simp [firstBest]
  | cons p ps =>
    simp only [firstBest]
    constructor
    · intro h
      split at h
      · cases h
      · split at h <;> cases h
    · intro h; cases h

theorem firstBest_some {l : List (List String × Nat)} {p : List String × Nat}
    (h : firstBest l = some p) : p ∈ l ∧ ∀ q ∈ l, p.2 ≤ q.2 := by
  induction l generalizing p with
  | nil => cases h
  | cons x xs ih =>
    simp only [firstBest] at h
    split at h
    · rename_i hn
      rw [firstBest_none] at hn
      subst hn
      cases h
      simp
    · rename_i q hq
      obtain ⟨h1, h2⟩ := ih hq
      split at h
      · rename_i hk
        cases h
        refine ⟨by simp [h1], ?_⟩
        intro y hy
        rcases List.mem_cons.mp hy with rfl | hy
        · simp only [keyLt, Bool.or_eq_true, decide_eq_true_eq, Bool.and_eq_true] at hk
          omega
        · exact h2 y hy
      · rename_i hk
        cases h
        refine ⟨by simp, ?_⟩
        intro y hy
        rcases List.mem_cons.mp hy with rfl | hy
        · exact Nat.le_refl _
        · have := h2 y hy
          simp only [keyLt, Bool.or_eq_true, decide_eq_true_eq, Bool.and_eq_true, not_or] at hk
          omega

theorem shortestAmong_none {nx : Nx} {g : Graph} {pairs : List Pair} :
    shortestAmong nx g pairs = none ↔ ∀ p ∈ pairs, nx.sp g p.1 p.2 = none := by
  simp only [shortestAmong, Option.map_eq_none_iff, firstBest_none, List.filterMap_eq_nil_iff]

theorem shortestAmong_some {nx : Nx} {g : Graph} {pairs : List Pair} {p : List String}
    (h : shortestAmong nx g pairs = some p) :
    (∃ e ∈ pairs, nx.sp g e.1 e.2 = some p) ∧
    ∀ e ∈ pairs, ∀ q, nx.sp g e.1 e.2 = some q → pathWeight g p ≤ pathWeight g q := by
  simp only [shortestAmong, Option.map_eq_some_iff] at h
  obtain ⟨⟨p', w⟩, h, rfl⟩ := h
  obtain ⟨h1, h2⟩ := firstBest_some h
  simp only [List.mem_filterMap, Option.map_eq_some_iff, Prod.mk.injEq] at h1
  obtain ⟨e, he, q, hq, rfl, rfl⟩ := h1
  refine ⟨⟨e, he, hq⟩, ?_⟩
  intro e' he' q' hq'
  exact h2 (q', pathWeight g q') (List.mem_filterMap.mpr ⟨e', he', by simp [hq']⟩)

theorem length_insertStr (x : String) (l : List String) :
    (insertStr x l).length = l.length + 1 := by
  induction l with
  | nil => rfl
  | cons y ys ih =>
    simp only [insertStr]
    split
    · rfl
    · simp [ih]

theorem length_sortStr (l : List String) : (sortStr l).length = l.length := by
  induction l with
  | nil => rfl
  | cons x xs ih =>
    have : sortStr (x :: xs) = insertStr x (sortStr xs) := rfl
    rw [this, length_insertStr, ih]; rfl

/-! ### Adding the missing views -/

theorem RawOk.append_path {g : Graph} (hw : PositiveWeights g) {base : String} {ps : List Pair}
    (h : RawOk g base ps) (hne : ps ≠ []) {a v : String} {p : List String} (hp : Walk g a v p)
    (ha : a = base ∨ a ∈ ps.map (·.2))
    (hmin : ∀ q, Walk g base v q → pathWeight g p ≤ pathWeight g q) :
    RawOk g base (ps ++ pathPairs p) := by
  refine ⟨?_, ?_, ?_, ?_⟩
  · intro x rest e
    cases ps with
    | nil => exact absurd rfl hne
    | cons y ys =>
      simp only [List.cons_append, List.cons.injEq] at e
      rw [← e.1]
      exact h.head y ys rfl
  · rw [List.map_append, List.mem_append, pathPairs_targets hp, not_or]
    refine ⟨h.baseOnce, ?_⟩
    intro hb
    obtain ⟨q, hq, hlt⟩ := hp.suffix hw hb
    exact absurd (hmin q hq) (by omega)
  · intro pre j post e
    rcases List.append_eq_append_iff.mp e with ⟨a', h1, h2⟩ | ⟨c', h1, h2⟩
    · rcases pathPairs_left hp h2 with h' | h'
      · rw [h']
        rcases ha with ha | ha
        · exact .inl ha
        · exact .inr (by rw [h1]; simp only [List.map_append, List.mem_append]; exact .inl ha)
      · exact .inr (by rw [h1]; simp only [List.map_append, List.mem_append]; exact .inr h')
    · cases c' with
      | nil =>
        simp only [List.nil_append, List.append_nil] at h1 h2
        rcases pathPairs_left hp (pre := []) h2.symm with h' | h'
        · rw [h']
          rcases ha with ha | ha
          · exact .inl ha
          · exact .inr (by rw [← h1]; exact ha)
        · cases h'
      | cons y ys =>
        simp only [List.cons_append, List.cons.injEq] at h2
        exact h.left pre j ys (by rw [h1, ← h2.1])
  · intro j hj
    rcases List.mem_append.mp hj with hj | hj
    · exact h.edges j hj
    · exact pathPairs_edges hp j hj

theorem RawOk.nodes {g : Graph} (hwf : WF g) {base : String} {ps : List Pair} (h : RawOk g base ps)
    (hne : ps ≠ []) : ∀ a ∈ anchorsOf ps, a ∈ g.nodes := by
  intro a ha
  cases ps with
  | nil => cases ha
  | cons p rest =>
    simp only [anchorsOf, List.mem_cons] at ha
    rcases ha with rfl | ha
    · exact hwf.src _ _ (h.edges p (by simp))
    · obtain ⟨q, hq, rfl⟩ := List.mem_map.mp ha
      exact hwf.dst _ _ (h.edges q hq)

theorem RawOk.anchors {g : Graph} {base : String} {ps : List Pair} (h : RawOk g base ps)
    (hne : ps ≠ []) : ∀ a, a ∈ anchorsOf ps ↔ a = base ∨ a ∈ ps.map (·.2) := by
  intro a
  cases ps with
  | nil => exact absurd rfl hne
  | cons p rest =>
    simp only [anchorsOf, List.mem_cons]
    rw [h.head p rest rfl]

/-- Every view of a FROM clause is reachable from its base. -/
theorem RawOk.reach {g : Graph} {base : String} {ps : List Pair} (h : RawOk g base ps) :
    ∀ t ∈ ps.map (·.2), Reach g base t := by
  have key : ∀ n, ∀ pre j post, ps = pre ++ j :: post → pre.length = n → Reach g base j.2 := by
    intro n
    induction n using Nat.strongRecOn with
    | ind n ih =>
      intro pre j post e hn
      have he := h.edges j (by rw [e]; simp)
      rcases h.left pre j post e with h' | h'
      · exact (Reach.refl base).step (h' ▸ he)
      · obtain ⟨q, hq, e'⟩ := List.mem_map.mp h'
        obtain ⟨l, r, hlr⟩ := List.append_of_mem hq
        have := ih l.length (by rw [← hn, hlr]; simp) l q (r ++ j :: post)
          (by rw [e, hlr]; simp) rfl
        rw [e'] at this
        exact this.step he
  intro t ht
  obtain ⟨j, hj, rfl⟩ := List.mem_map.mp ht
  obtain ⟨pre, post, e⟩ := List.append_of_mem hj
  exact key _ pre j post e rfl

theorem addMissingLoop_spec {nx : Nx} (hnx : NxSpec nx) {g : Graph} (hwf : WF g)
    (hw : PositiveWeights g) {base : String} (anchors : List String) (hbase : base ∈ anchors)
    (hnodes : ∀ a ∈ anchors, a ∈ g.nodes) (vs : List String) (hvs : ∀ v ∈ vs, v ∈ g.nodes) :
    ∀ (ps : List Pair), RawOk g base ps → ps ≠ [] →
      (∀ a ∈ anchors, a = base ∨ a ∈ ps.map (·.2)) →
      RawOk g base (addMissingLoop nx g anchors vs ps).1 ∧
      (∃ ext, (addMissingLoop nx g anchors vs ps).1 = ps ++ ext) ∧
      (∀ v ∈ vs, v ∉ (addMissingLoop nx g anchors vs ps).2 →
        v = base ∨ v ∈ (addMissingLoop nx g anchors vs ps).1.map (·.2)) ∧
      (addMissingLoop nx g anchors vs ps).2 =
        vs.filter (fun v => decide (∀ a ∈ anchors, nx.sp g a v = none)) := by
  induction vs with
  | nil => intro ps h _ _; exact ⟨h, ⟨[], by simp [addMissingLoop]⟩, by simp, rfl⟩
  | cons v vs ih =>
    intro ps h hne ha
    have ih := ih (fun x hx => hvs x (by simp [hx]))
    simp only [addMissingLoop]
    cases hs : shortestAmong nx g (anchors.map (fun a => (a, v))) with
    | none =>
      simp only
      obtain ⟨h1, ⟨ext, h2⟩, h3, h4⟩ := ih ps h hne ha
      refine ⟨h1, ⟨ext, h2⟩, ?_, ?_⟩
      · intro x hx hn
        simp only [List.mem_cons, not_or] at hn
        exact h3 x ((List.mem_cons.mp hx).resolve_left hn.1) hn.2
      · rw [List.filter_cons_of_pos, h4]
        simp only [decide_eq_true_eq]
        intro a ha'
        exact shortestAmong_none.mp hs (a, v) (List.mem_map.mpr ⟨a, ha', rfl⟩)
    | some p =>
      simp only
      obtain ⟨⟨e, he, hsp⟩, hmin⟩ := shortestAmong_some hs
      obtain ⟨a, haa, rfl⟩ := List.mem_map.mp he
      simp only at hsp
      obtain ⟨hp, -⟩ := hnx.spSome g a v p hwf (hnodes a haa) hsp
      have hbest : ∀ q, Walk g base v q → pathWeight g p ≤ pathWeight g q := by
        intro q hq
        cases hb : nx.sp g base v with
        | none =>
          exact absurd hq.reach (hnx.spNone g base v hwf (hnodes base hbase) (hvs v (by simp)) hb)
        | some q' =>
          exact Nat.le_trans (hmin (base, v) (List.mem_map.mpr ⟨base, hbase, rfl⟩) q' hb)
            ((hnx.spSome g base v q' hwf (hnodes base hbase) hb).2 q hq)
      have hraw := h.append_path hw hne hp (ha a haa) hbest
      have ha' : ∀ x ∈ anchors, x = base ∨ x ∈ (ps ++ pathPairs p).map (·.2) := by
        intro x hx
        rcases ha x hx with h' | h'
        · exact .inl h'
        · exact .inr (by rw [List.map_append, List.mem_append]; exact .inl h')
      obtain ⟨h1, ⟨ext, h2⟩, h3, h4⟩ := ih (ps ++ pathPairs p) hraw
        (by intro c; exact hne (List.append_eq_nil_iff.mp c).1) ha'
      refine ⟨h1, ⟨pathPairs p ++ ext, by rw [h2, List.append_assoc]⟩, ?_, ?_⟩
      · intro x hx hn
        rcases List.mem_cons.mp hx with rfl | hx
        · rcases hp.last with h' | h'
          · rcases ha a haa with h'' | h''
            · exact .inl (h'.trans h'')
            · right
              rw [h2, List.map_append, List.map_append, List.mem_append, List.mem_append]
              exact .inl (.inl (h' ▸ h''))
          · right
            rw [h2, List.map_append, List.map_append, List.mem_append, List.mem_append,
              pathPairs_targets hp]
            exact .inl (.inr h')
        · exact h3 x hx hn
      · rw [List.filter_cons_of_neg, h4]
        simp only [decide_eq_true_eq]
        intro hall
        rw [hall a haa] at hsp
        cases hsp

/-- `_add_missing_views` succeeds exactly when every missing view is reachable from the base, never
runs out of rounds, and then gives a well-formed list of pairs. -/
theorem addMissing_spec {nx : Nx} (hnx : NxSpec nx) {g : Graph} (hwf : WF g)
    (hw : PositiveWeights g) {base : String} :
    ∀ (fuel : Nat) (missing : List String) (ps : List Pair) (n : Nat),
      RawOk g base ps → ps ≠ [] → (∀ v ∈ missing, v ∈ g.nodes) → missing.length ≤ n → missing ≠ [] →
      2 * missing.length + (if missing.length < n then 1 else 0) < fuel →
      ((∀ v ∈ missing, Reach g base v) → ∃ r, addMissing nx g fuel missing ps n = .ok r ∧
        RawOk g base r ∧ (∃ ext, r = ps ++ ext) ∧ ∀ v ∈ missing, v = base ∨ v ∈ r.map (·.2)) ∧
      ((∃ v ∈ missing, ¬ Reach g base v) → addMissing nx g fuel missing ps n = .error .valueError) := by
  intro fuel
  induction fuel with
  | zero => intro missing ps n _ _ _ _ _ h; exact absurd h (by omega)
  | succ fuel ih =>
    intro missing ps n hraw hne hnodes hn hm hfuel
    have hbase : base ∈ anchorsOf ps := (hraw.anchors hne base).mpr (.inl rfl)
    have hsort : ∀ v, v ∈ sortStr missing ↔ v ∈ missing := fun v => mem_sortStr v missing
    obtain ⟨h1, ⟨ext, h2⟩, h3, h4⟩ := addMissingLoop_spec hnx hwf hw (anchorsOf ps) hbase
      (hraw.nodes hwf hne) (sortStr missing) (fun v hv => hnodes v ((hsort v).mp hv)) ps hraw hne
      (fun a ha => (hraw.anchors hne a).mp ha)
    have hstill : ∀ v, v ∈ (addMissingLoop nx g (anchorsOf ps) (sortStr missing) ps).2 ↔
        v ∈ missing ∧ ¬ Reach g base v := by
      intro v
      rw [h4, List.mem_filter, hsort]
      refine and_congr_right (fun hv => ?_)
      rw [decide_eq_true_eq]
      constructor
      · intro hall
        exact hnx.spNone g base v hwf (hraw.nodes hwf hne base hbase) (hnodes v hv) (hall base hbase)
      · intro hno a ha
        cases hs : nx.sp g a v with
        | none => rfl
        | some p =>
          exfalso
          apply hno
          have hr : Reach g base a := by
            rcases (hraw.anchors hne a).mp ha with rfl | h'
            · exact .refl _
            · exact hraw.reach a h'
          exact hr.trans (hnx.spSome g a v p hwf (hraw.nodes hwf hne a ha) hs).1.reach
    have hlen : (sortStr missing).length = missing.length := length_sortStr missing
    have hle : (addMissingLoop nx g (anchorsOf ps) (sortStr missing) ps).2.length ≤ missing.length := by
      rw [h4, ← hlen]
      exact List.length_filter_le _ _
    simp only [addMissing]
    constructor
    · intro hall
      have : (addMissingLoop nx g (anchorsOf ps) (sortStr missing) ps).2 = [] := by
        cases hc : (addMissingLoop nx g (anchorsOf ps) (sortStr missing) ps).2 with
        | nil => rfl
        | cons x xs =>
          have := (hstill x).mp (by rw [hc]; simp)
          exact absurd (hall x this.1) this.2
      rw [this, if_pos (by rfl)]
      refine ⟨_, rfl, h1, ⟨ext, h2⟩, fun v hv => h3 v ((hsort v).mpr hv) (by rw [this]; simp)⟩
    · rintro ⟨v, hv, hno⟩
      have hvs := (hstill v).mpr ⟨hv, hno⟩
      have hpos := List.length_pos_of_mem hvs
      rw [if_neg (by omega)]
      split
      · rfl
      · rename_i hnn
        refine (ih _ _ _ h1 ?_ ?_ hle ?_ ?_).2 ⟨v, hvs, hno⟩
        · rw [h2]; intro c; exact hne (List.append_eq_nil_iff.mp c).1
        · intro x hx; exact hnodes x ((hstill x).mp hx).1
        · intro c; rw [c] at hpos; cases hpos
        · split at hfuel <;> split <;> omega

/-- `_greedy_build_join` succeeds exactly when the source of the starting pair reaches every
required view; otherwise it raises the `ValueError` that the search catches. -/
theorem greedy_spec {nx : Nx} (hnx : NxSpec nx) {g : Graph} (hwf : WF g) (hw : PositiveWeights g)
    (hl : NoLoops g) {start : Pair} (hs : HasEdge g start.1 start.2) {req : List String}
    (hreq : ∀ v ∈ req, v ∈ g.nodes) :
    ((∀ v ∈ req, Reach g start.1 v) → ∃ r, greedy nx g start req = .ok r ∧ RawOk g start.1 r ∧
      (∃ rest, r = start :: rest) ∧ ∀ v ∈ req, v = start.1 ∨ v ∈ r.map (·.2)) ∧
    ((∃ v ∈ req, ¬ Reach g start.1 v) → greedy nx g start req = .error .valueError) := by
  have hclean : cleanPairs [start] = [start] := by rw [cleanPairs_cons]; rfl
  have hraw : RawOk g start.1 [start] := by
    refine ⟨?_, ?_, ?_, ?_⟩
    · intro p rest e
      simp only [List.cons.injEq] at e
      rw [← e.1]
    · simp only [List.map_cons, List.map_nil, List.mem_singleton]
      intro c
      exact hl start.1 (c ▸ hs)
    · intro pre j post e
      cases pre with
      | nil =>
        simp only [List.nil_append, List.cons.injEq] at e
        exact .inl (by rw [← e.1])
      | cons x xs => simp at e
    · intro j hj
      simp only [List.mem_singleton] at hj
      rw [hj]; exact hs
  simp only [greedy, hclean, List.flatMap_cons, List.flatMap_nil, List.append_nil]
  generalize hm : req.filter (fun v => !([start.1, start.2] : List String).contains v) = missing
  have hmem : ∀ v, v ∈ missing ↔ v ∈ req ∧ v ≠ start.1 ∧ v ≠ start.2 := by
    intro v
    rw [← hm]
    simp [List.mem_filter]
  have hback : ∀ v ∈ req, v ∉ missing → v = start.1 ∨ v = start.2 := by
    intro v hv hn
    by_cases h1 : v = start.1
    · exact .inl h1
    · by_cases h2 : v = start.2
      · exact .inr h2
      · exact absurd ((hmem v).mpr ⟨hv, h1, h2⟩) hn
  have hstart : Reach g start.1 start.2 := (Reach.refl _).step hs
  cases missing with
  | nil =>
    simp only [List.length_nil, if_true]
    refine ⟨fun _ => ⟨[start], rfl, hraw, ⟨[], rfl⟩, ?_⟩, ?_⟩
    · intro v hv
      rcases hback v hv (by simp) with h | h
      · exact .inl h
      · exact .inr (by simp [h])
    · rintro ⟨v, hv, hno⟩
      rcases hback v hv (by simp) with rfl | rfl
      · exact absurd (Reach.refl _) hno
      · exact absurd hstart hno
  | cons m ms =>
    rw [if_neg (by simp)]
    have := addMissing_spec hnx hwf hw (2 * (m :: ms).length + 2) (m :: ms) [start]
      (m :: ms).length hraw (by simp) (fun v hv => hreq v ((hmem v).mp hv).1) (Nat.le_refl _)
      (by simp) (by split <;> omega)
    constructor
    · intro hall
      obtain ⟨r, h1, h2, ⟨ext, h3⟩, h4⟩ := this.1 (fun v hv => hall v ((hmem v).mp hv).1)
      refine ⟨r, h1, h2, ⟨ext, h3⟩, ?_⟩
      intro v hv
      by_cases hin : v ∈ m :: ms
      · exact h4 v hin
      · rcases hback v hv hin with h | h
        · exact .inl h
        · exact .inr (by rw [h3]; simp [h])
    · rintro ⟨v, hv, hno⟩
      apply this.2
      refine ⟨v, (hmem v).mpr ⟨hv, ?_, ?_⟩, hno⟩
      · rintro rfl; exact hno (Reach.refl _)
      · rintro rfl; exact hno hstart

end ML
