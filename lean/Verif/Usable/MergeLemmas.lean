import Verif.Usable.Lemmas
/-
Lemmas for C59: the graph of merged results.
-/
set_option autoImplicit false
namespace ML
open Spec

/-- What one measure contributes under a root. -/
theorem measureEdges_mem {env : MEnv} {root : String} {m : UField} {es : MEdges} (h : measureEdges env root m = .ok es) (r i : String) :
    (r, i) ∈ es ↔ ∃ c d ts t, m.canonDate = some c ∧ env.date c = .ok d ∧ d.timeframes = some ts ∧ t ∈ ts ∧
      r = root ++ "_" ++ t ∧ (i = d.view ++ "." ++ d.name ++ "_" ++ t ∨ i = m.id) := by
  unfold measureEdges at h
  cases hc : m.canonDate with
  | none => rw [hc] at h; cases h; simp
  | some c =>
    rw [hc] at h; simp only at h
    cases hd : env.date c with
    | error e =>
      rw [hd] at h
      have : es = [] := by cases e <;> simp at h; exact h
      subst this
      constructor
      · intro h; cases h
      · rintro ⟨c', d, ts, t, hc', hd', -⟩
        cases hc'; rw [hd] at hd'; cases hd'
    | ok d =>
      rw [hd] at h; simp only at h
      cases ht : d.timeframes with
      | none => rw [ht] at h; cases h
      | some ts =>
        rw [ht] at h; simp only at h
        cases h
        simp only [List.mem_flatMap, List.mem_cons, List.not_mem_nil, or_false, Prod.mk.injEq]
        constructor
        · rintro ⟨t, htm, ⟨rfl, rfl⟩ | ⟨rfl, rfl⟩⟩
          · exact ⟨c, d, ts, t, rfl, hd, ht, htm, rfl, .inl rfl⟩
          · exact ⟨c, d, ts, t, rfl, hd, ht, htm, rfl, .inr rfl⟩
        · rintro ⟨c', d', ts', t, hc', hd', ht', htm, rfl, rfl | rfl⟩
          · cases hc'; rw [hd] at hd'; cases hd'; rw [ht] at ht'; cases ht'
            exact ⟨t, htm, .inl ⟨rfl, rfl⟩⟩
          · cases hc'; rw [hd] at hd'; cases hd'; rw [ht] at ht'; cases ht'
            exact ⟨t, htm, .inr ⟨rfl, rfl⟩⟩

/-- A measure whose join graph passes the condition. -/
def Spec.Allowed (only : Option (List String)) (h : String) : Prop := ∀ l, only = some l → h ∈ l

theorem dateEdges_mem {env : MEnv} {root : String} {only : Option (List String)} :
    ∀ {ms : List UField} {es : MEdges} {hs : List String}, dateEdges env root only ms = .ok (es, hs) →
      (∀ h, h ∈ hs ↔ ∃ m ∈ ms, env.hash m.view = .ok h) ∧
      ∀ r i, (r, i) ∈ es ↔ ∃ m ∈ ms, (∃ h, env.hash m.view = .ok h ∧ Allowed only h) ∧
        ∃ c d ts t, m.canonDate = some c ∧ env.date c = .ok d ∧ d.timeframes = some ts ∧ t ∈ ts ∧
          r = root ++ "_" ++ t ∧ (i = d.view ++ "." ++ d.name ++ "_" ++ t ∨ i = m.id)
  | [], es, hs, h => by cases h; simp
  | m :: ms, es, hs, h => by
    unfold dateEdges at h
    cases hh : env.hash m.view with
    | error e => rw [hh] at h; cases h
    | ok x =>
      rw [hh] at h; simp only at h
      cases hl : dateEdges env root only ms with
      | error e =>
        rw [hl] at h
        split at h <;> cases h
      | ok p =>
        obtain ⟨es', hs'⟩ := p
        rw [hl] at h
        obtain ⟨ih1, ih2⟩ := dateEdges_mem hl
        have hal : (only.map (fun l => l.contains x)).getD true = true ↔ Allowed only x := by
          cases only with
          | none => simp [Allowed]
          | some l => simp [Allowed]
        by_cases ha : (only.map (fun l => l.contains x)).getD true = true
        · rw [if_pos ha] at h
          cases hm : measureEdges env root m with
          | error e => rw [hm] at h; cases h
          | ok ys =>
            rw [hm] at h; simp only at h
            cases h
            refine ⟨fun z => ?_, fun r i => ?_⟩
            · rw [List.mem_cons, ih1 z]
              constructor
              · rintro (rfl | ⟨m', hm', hz⟩)
                · exact ⟨m, List.mem_cons_self, hh⟩
                · exact ⟨m', List.mem_cons_of_mem _ hm', hz⟩
              · rintro ⟨m', hm', hz⟩
                rcases List.mem_cons.mp hm' with rfl | hm'
                · rw [hh] at hz; cases hz; exact .inl rfl
                · exact .inr ⟨m', hm', hz⟩
            · rw [List.mem_append, ih2 r i, measureEdges_mem hm r i]
              constructor
              · rintro (hx | ⟨m', hm', hx⟩)
                · exact ⟨m, List.mem_cons_self, ⟨x, hh, hal.mp ha⟩, hx⟩
                · exact ⟨m', List.mem_cons_of_mem _ hm', hx⟩
              · rintro ⟨m', hm', hx, hy⟩
                rcases List.mem_cons.mp hm' with rfl | hm'
                · exact .inl hy
                · exact .inr ⟨m', hm', hx, hy⟩
        · rw [if_neg ha] at h; simp only at h
          cases h
          refine ⟨fun z => ?_, fun r i => ?_⟩
          · rw [List.mem_cons, ih1 z]
            constructor
            · rintro (rfl | ⟨m', hm', hz⟩)
              · exact ⟨m, List.mem_cons_self, hh⟩
              · exact ⟨m', List.mem_cons_of_mem _ hm', hz⟩
            · rintro ⟨m', hm', hz⟩
              rcases List.mem_cons.mp hm' with rfl | hm'
              · rw [hh] at hz; cases hz; exact .inl rfl
              · exact .inr ⟨m', hm', hz⟩
          · rw [List.nil_append, ih2 r i]
            constructor
            · rintro ⟨m', hm', hx⟩
              exact ⟨m', List.mem_cons_of_mem _ hm', hx⟩
            · rintro ⟨m', hm', ⟨y, hy, hya⟩, hz⟩
              rcases List.mem_cons.mp hm' with rfl | hm'
              · rw [hh] at hy; cases hy; exact absurd (hal.mpr hya) ha
              · exact ⟨m', hm', ⟨y, hy, hya⟩, hz⟩

theorem mem_sortedSet (l : List String) (x : String) : x ∈ sortedSet l ↔ x ∈ l := by
  simp only [sortedSet, mem_sortStr, List.mem_eraseDups]

theorem mem_rootsOf (es : MEdges) (r : String) : r ∈ rootsOf es ↔ ∃ i, (r, i) ∈ es := by
  simp [rootsOf, mem_sortedSet]

theorem mapRefEdges_mem {env : MEnv} {gs roots : List String} {f graph : String} :
    ∀ {rs : List MRef} {es : MEdges}, mapRefEdges env gs roots f graph rs = .ok es → ∀ r i, (r, i) ∈ es ↔
      r ∈ roots ∧ ∃ x ∈ rs, graph ∈ gs ∧ x.graph ∈ gs ∧ (env.idOf f = .ok i ∨ env.idOf x.field = .ok i)
  | [], es, h, r, i => by cases h; simp
  | y :: rs, es, h, r, i => by
    unfold mapRefEdges at h
    by_cases hc : (gs.contains graph && gs.contains y.graph) = true
    · rw [if_pos hc] at h
      have hc' : graph ∈ gs ∧ y.graph ∈ gs := by simpa using hc
      cases ha : env.idOf f with
      | error e => rw [ha] at h; cases h
      | ok a =>
        rw [ha] at h; simp only at h
        cases hb : env.idOf y.field with
        | error e => rw [hb] at h; cases h
        | ok b =>
          rw [hb] at h; simp only at h
          cases hl : mapRefEdges env gs roots f graph rs with
          | error e => rw [hl] at h; cases h
          | ok es' =>
            rw [hl] at h; simp only at h
            cases h
            rw [List.mem_append, mapRefEdges_mem hl r i]
            simp only [List.mem_flatMap, List.mem_cons, List.not_mem_nil, or_false, Prod.mk.injEq]
            constructor
            · rintro (⟨n, hn, ⟨rfl, rfl⟩ | ⟨rfl, rfl⟩⟩ | ⟨hr, x, hx, h1⟩)
              · exact ⟨hn, y, .inl rfl, hc'.1, hc'.2, .inl rfl⟩
              · exact ⟨hn, y, .inl rfl, hc'.1, hc'.2, .inr hb⟩
              · exact ⟨hr, x, .inr hx, by rw [ha] at h1; exact h1⟩
            · rintro ⟨hr, x, rfl | hx, h1, h2, h3⟩
              · rcases h3 with h3 | h3
                · rw [← Except.ok.inj h3]
                  exact .inl ⟨r, hr, .inl ⟨rfl, rfl⟩⟩
                · rw [hb] at h3; cases h3
                  exact .inl ⟨r, hr, .inr ⟨rfl, rfl⟩⟩
              · exact .inr ⟨hr, x, hx, h1, h2, by rw [ha]; exact h3⟩
    · rw [if_neg hc] at h
      have hc' : ¬ (graph ∈ gs ∧ y.graph ∈ gs) := by simpa using hc
      rw [mapRefEdges_mem h r i]
      constructor
      · rintro ⟨hr, x, hx, h1⟩; exact ⟨hr, x, List.mem_cons_of_mem _ hx, h1⟩
      · rintro ⟨hr, x, hx, h1, h2, h3⟩
        rcases List.mem_cons.mp hx with rfl | hx
        · exact absurd ⟨h1, h2⟩ hc'
        · exact ⟨hr, x, hx, h1, h2, h3⟩

theorem mapEdges_mem {env : MEnv} {gs roots : List String} {mo : Bool} :
    ∀ {maps : List (String × MEntry)} {es : MEdges}, mapEdges env gs roots mo maps = .ok es → ∀ r i, (r, i) ∈ es ↔
      r ∈ roots ∧ ∃ e ∈ maps, e.2.special = false ∧ (mo = true → e.2.role = .measure) ∧
        ∃ x ∈ e.2.refs, e.2.graph ∈ gs ∧ x.graph ∈ gs ∧ (env.idOf e.1 = .ok i ∨ env.idOf x.field = .ok i)
  | [], es, h, r, i => by cases h; simp
  | (f, m) :: rest, es, h, r, i => by
    unfold mapEdges at h
    by_cases hc : (m.special || (mo && decide (m.role ≠ .measure))) = true
    · rw [if_pos hc] at h
      rw [mapEdges_mem h r i]
      constructor
      · rintro ⟨hr, e, he, h1⟩; exact ⟨hr, e, List.mem_cons_of_mem _ he, h1⟩
      · rintro ⟨hr, e, he, h1, h2, h3⟩
        rcases List.mem_cons.mp he with rfl | he
        · exfalso
          simp only at h1 h2
          rw [h1] at hc
          cases mo with
          | true => simp [h2 rfl] at hc
          | false => simp at hc
        · exact ⟨hr, e, he, h1, h2, h3⟩
    · rw [if_neg hc] at h
      have hs : m.special = false := by
        cases hsp : m.special with
        | true => rw [hsp] at hc; simp at hc
        | false => rfl
      have hmo : mo = true → m.role = .measure := by
        intro e
        rw [e, hs] at hc
        simpa using hc
      cases ha : mapRefEdges env gs roots f m.graph m.refs with
      | error e => rw [ha] at h; cases h
      | ok es1 =>
        rw [ha] at h; simp only at h
        cases hl : mapEdges env gs roots mo rest with
        | error e => rw [hl] at h; cases h
        | ok es2 =>
          rw [hl] at h; simp only at h
          cases h
          rw [List.mem_append, mapRefEdges_mem ha r i, mapEdges_mem hl r i]
          constructor
          · rintro (⟨hr, h1⟩ | ⟨hr, e, he, h1⟩)
            · exact ⟨hr, (f, m), List.mem_cons_self, hs, hmo, h1⟩
            · exact ⟨hr, e, List.mem_cons_of_mem _ he, h1⟩
          · rintro ⟨hr, e, he, h1, h2, h3⟩
            rcases List.mem_cons.mp he with rfl | he
            · exact .inl ⟨hr, h3⟩
            · exact .inr ⟨hr, e, he, h1, h2, h3⟩

theorem mem_sharedEdges {env : MEnv} {p : String × String} {roots : List String} {r i : String} :
    (r, i) ∈ sharedEdges env p roots ↔ r ∈ roots ∧ ∃ v ∈ env.views, i ∈ v.2 ∧ p.1 ∈ env.weak v.1 ∧ p.2 ∈ env.weak v.1 := by
  simp only [sharedEdges, List.mem_flatMap]
  constructor
  · rintro ⟨v, hv, hm⟩
    split at hm
    · rename_i hc
      have hc' : p.1 ∈ env.weak v.1 ∧ p.2 ∈ env.weak v.1 := by simpa using hc
      simp only [List.mem_flatMap, List.mem_map, Prod.mk.injEq] at hm
      obtain ⟨j, hj, n, hn, rfl, rfl⟩ := hm
      exact ⟨hn, v, hv, hj, hc'⟩
    · cases hm
  · rintro ⟨hr, v, hv, hi, h1, h2⟩
    refine ⟨v, hv, ?_⟩
    rw [if_pos (by simp [h1, h2])]
    simp only [List.mem_flatMap, List.mem_map, Prod.mk.injEq]
    exact ⟨i, hi, r, hr, rfl, rfl⟩

theorem allPairEdges_mem {env : MEnv} {ms : List UField} {maps : List (String × MEntry)} :
    ∀ {ps : List (String × String)} {es : MEdges}, allPairEdges env ms maps ps = .ok es → ∀ x, x ∈ es ↔
      ∃ p ∈ ps, ∃ es', pairEdges env ms maps p = .ok es' ∧ x ∈ es'
  | [], es, h, x => by cases h; simp
  | p :: ps, es, h, x => by
    unfold allPairEdges at h
    cases hp : pairEdges env ms maps p with
    | error e => rw [hp] at h; cases h
    | ok es1 =>
      rw [hp] at h; simp only at h
      cases hl : allPairEdges env ms maps ps with
      | error e => rw [hl] at h; cases h
      | ok es2 =>
        rw [hl] at h; simp only at h
        cases h
        rw [List.mem_append, allPairEdges_mem hl x]
        constructor
        · rintro (hx | ⟨q, hq, r⟩)
          · exact ⟨p, List.mem_cons_self, es1, hp, hx⟩
          · exact ⟨q, List.mem_cons_of_mem _ hq, r⟩
        · rintro ⟨q, hq, es', he, hx⟩
          rcases List.mem_cons.mp hq with rfl | hq
          · rw [hp] at he; cases he; exact .inl hx
          · exact .inr ⟨q, hq, es', he, hx⟩

/-- When the loop over the pairs ran through, so did each pair. -/
theorem allPairEdges_ok {env : MEnv} {ms : List UField} {maps : List (String × MEntry)} :
    ∀ {ps : List (String × String)} {es : MEdges}, allPairEdges env ms maps ps = .ok es → ∀ p ∈ ps,
      ∃ es', pairEdges env ms maps p = .ok es'
  | [], es, h, p, hp => by cases hp
  | q :: ps, es, h, p, hp => by
    unfold allPairEdges at h
    cases hq : pairEdges env ms maps q with
    | error e => rw [hq] at h; cases h
    | ok es1 =>
      rw [hq] at h; simp only at h
      cases hl : allPairEdges env ms maps ps with
      | error e => rw [hl] at h; cases h
      | ok es2 =>
        rcases List.mem_cons.mp hp with rfl | hp
        · exact ⟨es1, hq⟩
        · exact allPairEdges_ok hl p hp

theorem mem_pairsOf : ∀ {l : List String}, l.Pairwise (· < ·) → ∀ a b, (a, b) ∈ pairsOf l ↔ a ∈ l ∧ b ∈ l ∧ a < b
  | [], _, a, b => by simp [pairsOf]
  | x :: l, h, a, b => by
    obtain ⟨h1, h2⟩ := List.pairwise_cons.mp h
    rw [pairsOf, List.mem_append, mem_pairsOf h2 a b]
    simp only [List.mem_map, Prod.mk.injEq, List.mem_cons]
    constructor
    · rintro (⟨y, hy, rfl, rfl⟩ | ⟨ha, hb, hab⟩)
      · exact ⟨.inl rfl, .inr hy, h1 _ hy⟩
      · exact ⟨.inr ha, .inr hb, hab⟩
    · rintro ⟨rfl | ha, rfl | hb, hab⟩
      · exact absurd hab (String.lt_irrefl _)
      · exact .inl ⟨b, hb, rfl, rfl⟩
      · exact absurd hab (String.lt_asymm (h1 _ ha))
      · exact .inr ⟨ha, hb, hab⟩

end ML
