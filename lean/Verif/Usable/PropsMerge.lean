import Verif.Usable.MergeLemmas
/-
C59: the groups of fields that can appear together in a merged result, and the mappings they use.
-/
set_option autoImplicit false
namespace ML
open Spec

theorem sortedSet_lt (l : List String) : (sortedSet l).Pairwise (· < ·) := by
  have h1 : (sortedSet l).Pairwise (· ≤ ·) := sorted_sortStr _
  have h2 : (sortedSet l).Nodup := nodup_sortStr (nodup_eraseDups _)
  rw [List.nodup_iff_pairwise_ne] at h2
  refine (h1.and h2).imp ?_
  rintro a b ⟨hle, hne⟩
  exact String.not_le.mp (fun hba => hne (String.le_antisymm hle hba))

theorem mem_datedMeasures {env : MEnv} {m : UField} :
    m ∈ datedMeasures env ↔ m ∈ env.measures ∧ m.role = .measure ∧ m.canonDate ≠ none := by
  simp [datedMeasures, Option.isSome_iff_ne_none]

/-- C59 (a): what the graph of merged results contains: under `canon_date_core_t` the metrics whose date offers the timeframe `t` and
these dates; under the names of two join graphs of metrics, the metrics of either whose date offers `t`, their dates, the fields of all
views that can be joined to both, and the fields mapped to each other within the two. Nothing else. -/
theorem C59_linked (env : MEnv) (maps : List (String × MEntry)) (hmaps : env.mappings = .ok maps)
    (hdim : ∀ e ∈ maps, e.2.role ≠ .measure) (es : MEdges) (h : mergedEdges env = .ok es) (r i : String) :
    (r, i) ∈ es ↔ Linked env maps r i := by
  unfold mergedEdges at h
  rw [hmaps] at h; simp only at h
  cases hd : dateEdges env "canon_date_core" none (datedMeasures env) with
  | error e => rw [hd] at h; cases h
  | ok p =>
    obtain ⟨es1, hs⟩ := p
    rw [hd] at h; simp only at h
    obtain ⟨hhash, hedges⟩ := dateEdges_mem hd
    cases hm : mapEdges env hs (rootsOf es1) true maps with
    | error e => rw [hm] at h; cases h
    | ok es2 =>
      rw [hm] at h; simp only at h
      cases hp : allPairEdges env (datedMeasures env) maps (pairsOf (sortedSet hs)) with
      | error e => rw [hp] at h; cases h
      | ok es3 =>
        rw [hp] at h; simp only at h
        cases h
        have hno : ∀ x, x ∉ es2 := by
          rintro ⟨a, b⟩ hx
          obtain ⟨-, e, he, -, hrole, -⟩ := (mapEdges_mem hm a b).mp hx
          exact hdim e he (hrole rfl)
        have hpair : ∀ a b, (a, b) ∈ pairsOf (sortedSet hs) ↔ GraphPair env a b := by
          intro a b
          rw [mem_pairsOf (sortedSet_lt hs), mem_sortedSet, mem_sortedSet, hhash a, hhash b]
          constructor
          · rintro ⟨⟨m, hm, ha⟩, ⟨m', hm', hb⟩, hab⟩
            obtain ⟨h1, h2, h3⟩ := mem_datedMeasures.mp hm
            obtain ⟨h1', h2', h3'⟩ := mem_datedMeasures.mp hm'
            exact ⟨⟨m, h1, h2, h3, ha⟩, ⟨m', h1', h2', h3', hb⟩, hab⟩
          · rintro ⟨⟨m, h1, h2, h3, ha⟩, ⟨m', h1', h2', h3', hb⟩, hab⟩
            exact ⟨⟨m, mem_datedMeasures.mpr ⟨h1, h2, h3⟩, ha⟩, ⟨m', mem_datedMeasures.mpr ⟨h1', h2', h3'⟩, hb⟩, hab⟩
        -- the edges of one pair
        have hone : ∀ a b es', pairEdges env (datedMeasures env) maps (a, b) = .ok es' →
            ((r, i) ∈ es' ↔ ∃ m d t, PairDated env a b t m d ∧ r = a ++ "_" ++ b ++ "_" ++ t ∧
              (i = m.id ∨ i = d.view ++ "." ++ d.name ++ "_" ++ t ∨
               (∃ v ∈ env.views, i ∈ v.2 ∧ a ∈ env.weak v.1 ∧ b ∈ env.weak v.1) ∨
               ∃ e ∈ maps, e.2.special = false ∧ ∃ x ∈ e.2.refs, (e.2.graph = a ∨ e.2.graph = b) ∧
                 (x.graph = a ∨ x.graph = b) ∧ (env.idOf e.1 = .ok i ∨ env.idOf x.field = .ok i))) := by
          intro a b es' he
          unfold pairEdges at he
          cases hd' : dateEdges env (a ++ "_" ++ b) (some [a, b]) (datedMeasures env) with
          | error e => rw [hd'] at he; cases he
          | ok p =>
            obtain ⟨fs, hs'⟩ := p
            rw [hd'] at he; simp only at he
            cases hm' : mapEdges env [a, b] (rootsOf fs) false maps with
            | error e => rw [hm'] at he; cases he
            | ok ys =>
              rw [hm'] at he; simp only at he
              cases he
              have hdate : ∀ j, (r, j) ∈ fs ↔ ∃ m d t, PairDated env a b t m d ∧ r = a ++ "_" ++ b ++ "_" ++ t ∧
                  (j = d.view ++ "." ++ d.name ++ "_" ++ t ∨ j = m.id) := by
                intro j
                rw [(dateEdges_mem hd').2 r j]
                constructor
                · rintro ⟨m, hm, ⟨x, hx, hal⟩, c, d, ts, t, hc, hdd, hts, ht, hr, hj⟩
                  obtain ⟨h1, h2, -⟩ := mem_datedMeasures.mp hm
                  refine ⟨m, d, t, ⟨⟨h1, h2, ⟨c, hc, hdd⟩, ts, hts, ht⟩, ?_⟩, hr, hj⟩
                  have := hal _ rfl
                  simp only [List.mem_cons, List.not_mem_nil, or_false] at this
                  rcases this with rfl | rfl
                  · exact .inl hx
                  · exact .inr hx
                · rintro ⟨m, d, t, ⟨⟨h1, h2, ⟨c, hc, hdd⟩, ts, hts, ht⟩, hx⟩, hr, hj⟩
                  refine ⟨m, mem_datedMeasures.mpr ⟨h1, h2, by rw [hc]; simp⟩, ?_, c, d, ts, t, hc, hdd, hts, ht, hr, hj⟩
                  rcases hx with hx | hx
                  · exact ⟨a, hx, by intro l hl; cases hl; simp⟩
                  · exact ⟨b, hx, by intro l hl; cases hl; simp⟩
              have hroot : r ∈ rootsOf fs ↔ ∃ m d t, PairDated env a b t m d ∧ r = a ++ "_" ++ b ++ "_" ++ t := by
                rw [mem_rootsOf]
                constructor
                · rintro ⟨j, hj⟩
                  obtain ⟨m, d, t, hpd, hr, -⟩ := (hdate j).mp hj
                  exact ⟨m, d, t, hpd, hr⟩
                · rintro ⟨m, d, t, hpd, hr⟩
                  exact ⟨m.id, (hdate _).mpr ⟨m, d, t, hpd, hr, .inr rfl⟩⟩
              rw [List.mem_append, List.mem_append, hdate i, mem_sharedEdges, mapEdges_mem hm' r i, hroot]
              simp only [List.mem_cons, List.not_mem_nil, or_false]
              constructor
              · rintro ((⟨m, d, t, hpd, hr, rfl | rfl⟩ | ⟨⟨m, d, t, hpd, hr⟩, hv⟩) | ⟨⟨m, d, t, hpd, hr⟩, e, he, hsp, -, x⟩)
                · exact ⟨m, d, t, hpd, hr, .inr (.inl rfl)⟩
                · exact ⟨m, d, t, hpd, hr, .inl rfl⟩
                · exact ⟨m, d, t, hpd, hr, .inr (.inr (.inl hv))⟩
                · exact ⟨m, d, t, hpd, hr, .inr (.inr (.inr ⟨e, he, hsp, x⟩))⟩
              · rintro ⟨m, d, t, hpd, hr, rfl | rfl | hv | ⟨e, he, hsp, x⟩⟩
                · exact .inl (.inl ⟨m, d, t, hpd, hr, .inr rfl⟩)
                · exact .inl (.inl ⟨m, d, t, hpd, hr, .inl rfl⟩)
                · exact .inl (.inr ⟨⟨m, d, t, hpd, hr⟩, hv⟩)
                · exact .inr ⟨⟨m, d, t, hpd, hr⟩, e, he, hsp, fun c => (by cases c), x⟩
        rw [List.mem_append, List.mem_append, hedges r i, allPairEdges_mem hp]
        constructor
        · rintro ((⟨m, hm, -, c, d, ts, t, hc, hdd, hts, ht, rfl, rfl | rfl⟩ | hx) | ⟨⟨a, b⟩, hab, es', he, hx⟩)
          · obtain ⟨h1, h2, -⟩ := mem_datedMeasures.mp hm
            exact .date ⟨h1, h2, ⟨c, hc, hdd⟩, ts, hts, ht⟩
          · obtain ⟨h1, h2, -⟩ := mem_datedMeasures.mp hm
            exact .metric ⟨h1, h2, ⟨c, hc, hdd⟩, ts, hts, ht⟩
          · exact absurd hx (hno _)
          · have hgp := (hpair a b).mp hab
            obtain ⟨m, d, t, hpd, rfl, rfl | rfl | ⟨v, hv, hi, h1, h2⟩ | ⟨e, hem, hsp, x, hxm, h1, h2, h3 | h3⟩⟩ :=
              (hone a b es' he).mp hx
            · exact .pairMetric hgp hpd
            · exact .pairDate hgp hpd
            · exact .pairShared hgp hpd hv hi h1 h2
            · exact .pairFrom hgp hpd hem hsp hxm h1 h2 h3
            · exact .pairTo hgp hpd hem hsp hxm h1 h2 h3
        · have hin : ∀ a b, GraphPair env a b → ∀ m d t, PairDated env a b t m d → r = a ++ "_" ++ b ++ "_" ++ t →
              (i = m.id ∨ i = d.view ++ "." ++ d.name ++ "_" ++ t ∨
               (∃ v ∈ env.views, i ∈ v.2 ∧ a ∈ env.weak v.1 ∧ b ∈ env.weak v.1) ∨
               ∃ e ∈ maps, e.2.special = false ∧ ∃ x ∈ e.2.refs, (e.2.graph = a ∨ e.2.graph = b) ∧
                 (x.graph = a ∨ x.graph = b) ∧ (env.idOf e.1 = .ok i ∨ env.idOf x.field = .ok i)) →
              ∃ p ∈ pairsOf (sortedSet hs), ∃ es', pairEdges env (datedMeasures env) maps p = .ok es' ∧ (r, i) ∈ es' := by
            intro a b hgp m d t hpd hr hi
            have hab := (hpair a b).mpr hgp
            obtain ⟨es', he⟩ := allPairEdges_ok hp _ hab
            exact ⟨(a, b), hab, es', he, (hone a b es' he).mpr ⟨m, d, t, hpd, hr, hi⟩⟩
          have hh : ∀ m ∈ datedMeasures env, ∃ x, env.hash m.view = .ok x := by
            clear hin hone hpair hno hp hm
            intro m hm
            generalize datedMeasures env = ms at hd hm
            clear hhash hedges
            induction ms generalizing es1 hs with
            | nil => cases hm
            | cons y ms ih =>
              unfold dateEdges at hd
              cases hy : env.hash y.view with
              | error e => rw [hy] at hd; cases hd
              | ok x =>
                rcases List.mem_cons.mp hm with rfl | hm
                · exact ⟨x, hy⟩
                · rw [hy] at hd; simp only at hd
                  cases hl : dateEdges env "canon_date_core" none ms with
                  | error e => rw [hl] at hd; split at hd <;> cases hd
                  | ok p => exact ih p.1 p.2 hl hm
          intro hl
          cases hl with
          | metric hda =>
            obtain ⟨h1, h2, ⟨c, hc, hdd⟩, ts, hts, ht⟩ := hda
            rename_i m d t
            have hmm : m ∈ datedMeasures env := mem_datedMeasures.mpr ⟨h1, h2, by rw [hc]; simp⟩
            obtain ⟨x, hx⟩ := hh m hmm
            exact .inl (.inl ⟨m, hmm, ⟨x, hx, fun l c => (by cases c)⟩, c, d, ts, t, hc, hdd, hts, ht, rfl, .inr rfl⟩)
          | date hda =>
            obtain ⟨h1, h2, ⟨c, hc, hdd⟩, ts, hts, ht⟩ := hda
            rename_i m d t
            have hmm : m ∈ datedMeasures env := mem_datedMeasures.mpr ⟨h1, h2, by rw [hc]; simp⟩
            obtain ⟨x, hx⟩ := hh m hmm
            exact .inl (.inl ⟨m, hmm, ⟨x, hx, fun l c => (by cases c)⟩, c, d, ts, t, hc, hdd, hts, ht, rfl, .inl rfl⟩)
          | pairMetric hgp hpd => exact .inr (hin _ _ hgp _ _ _ hpd rfl (.inl rfl))
          | pairDate hgp hpd => exact .inr (hin _ _ hgp _ _ _ hpd rfl (.inr (.inl rfl)))
          | pairShared hgp hpd hv hi h1 h2 => exact .inr (hin _ _ hgp _ _ _ hpd rfl (.inr (.inr (.inl ⟨_, hv, hi, h1, h2⟩))))
          | pairFrom hgp hpd he hsp hx h1 h2 h3 =>
            exact .inr (hin _ _ hgp _ _ _ hpd rfl (.inr (.inr (.inr ⟨_, he, hsp, _, hx, h1, h2, .inl h3⟩))))
          | pairTo hgp hpd he hsp hx h1 h2 h3 =>
            exact .inr (hin _ _ hgp _ _ _ hpd rfl (.inr (.inr (.inr ⟨_, he, hsp, _, hx, h1, h2, .inr h3⟩))))

/-- C59 (b): the merged results a field is listed under are the groups that contain it, each once, with the number of its model in front
when the project has several. -/
theorem C59_names (es : MEdges) (index : Option Nat) (f : UField) :
    (mergedNames es none f).Nodup ∧
    ∀ x, x ∈ mergedNames es index f ↔ ∃ r, (r, f.id) ∈ es ∧
      x = (match index with | none => "" | some i => "m" ++ i.repr ++ "_") ++ "merged_result_" ++ r := by
  constructor
  · refine List.Nodup.map ?_ (List.nodup_dedup _)
    intro a b h
    exact String.append_right_inj _ |>.mp h
  · intro x
    simp only [mergedNames, List.mem_map, List.mem_dedup, List.mem_filter, decide_eq_true_eq]
    cases index with
    | none =>
      constructor
      · rintro ⟨r, ⟨⟨a, b⟩, ⟨he, hb⟩, rfl⟩, rfl⟩
        simp only at hb
        subst hb
        exact ⟨a, he, by simp⟩
      · rintro ⟨r, hr, rfl⟩
        exact ⟨r, ⟨(r, f.id), ⟨hr, rfl⟩, rfl⟩, by simp⟩
    | some i =>
      constructor
      · rintro ⟨r, ⟨⟨a, b⟩, ⟨he, hb⟩, rfl⟩, rfl⟩
        simp only at hb
        subst hb
        exact ⟨a, he, by simp [String.append_assoc]⟩
      · rintro ⟨r, hr, rfl⟩
        exact ⟨r, ⟨(r, f.id), ⟨hr, rfl⟩, rfl⟩, by simp [String.append_assoc]⟩

/-- C59 (c): any two metrics whose dates offer the timeframe `t` share a merged result, and so do these dates at `t`: they can be
trended together by `t`. -/
theorem C59_trend (env : MEnv) (maps : List (String × MEntry)) (hmaps : env.mappings = .ok maps)
    (hdim : ∀ e ∈ maps, e.2.role ≠ .measure) (es : MEdges) (h : mergedEdges env = .ok es) (m : UField) (d : UDate) (t : String)
    (hd : Dated env m d t) (x : UField) (hx : x = m ∨ x.id = d.view ++ "." ++ d.name ++ "_" ++ t) :
    "merged_result_canon_date_core_" ++ t ∈ mergedNames es none x := by
  rw [(C59_names es none x).2]
  refine ⟨"canon_date_core" ++ "_" ++ t, ?_, by simp [← String.append_assoc]⟩
  rw [C59_linked env maps hmaps hdim es h]
  rcases hx with rfl | hx
  · exact .metric hd
  · rw [hx]; exact .date hd

/-- C59: the first metric whose date cannot be used stops the merged results with that error: TypeError for a date without timeframes, and
whatever finding the date raises unless it is that the user does not see it. -/
theorem C59_stops (env : MEnv) (root : String) (only : Option (List String)) (pre post : List UField) (m : UField) (h c : String)
    (r : MEdges × List String) (e : Err) (hpre : dateEdges env root only pre = .ok r) (hh : env.hash m.view = .ok h)
    (ho : ∀ l, only = some l → h ∈ l) (hc : m.canonDate = some c)
    (he : (∃ d, env.date c = .ok d ∧ d.timeframes = none ∧ e = .typeError) ∨ (env.date c = .error e ∧ e ≠ .accessDenied)) :
    dateEdges env root only (pre ++ m :: post) = .error e := by
  induction pre generalizing r with
  | nil =>
    have hm : measureEdges env root m = .error e := by
      unfold measureEdges
      rw [hc]
      rcases he with ⟨d, h1, h2, rfl⟩ | ⟨h1, h2⟩
      · simp only [h1, h2]
      · simp only
        rw [h1]
        cases e <;> first | rfl | exact absurd rfl h2
    have hon : (only.map (fun l => l.contains h)).getD true = true := by
      cases only with
      | none => rfl
      | some l => simpa using ho l rfl
    show dateEdges env root only (m :: post) = _
    unfold dateEdges
    rw [hh]
    simp only [hon, if_true, hm]
  | cons x pre ih =>
    unfold dateEdges at hpre
    cases hx : env.hash x.view with
    | error e' => rw [hx] at hpre; cases hpre
    | ok hv =>
      rw [hx] at hpre
      simp only at hpre
      show dateEdges env root only (x :: (pre ++ m :: post)) = _
      unfold dateEdges
      rw [hx]
      simp only
      cases hq : (if (only.map (fun l => l.contains hv)).getD true = true then measureEdges env root x else .ok []) with
      | error e' => rw [hq] at hpre; cases hpre
      | ok es =>
        rw [hq] at hpre
        simp only at hpre ⊢
        cases hd : dateEdges env root only pre with
        | error e' => rw [hd] at hpre; cases hpre
        | ok r' => rw [ih r' hd]

/-- C59: a metric without a date, or with a date the user does not see, stops nothing: the merged results of the others are made. They are made
whenever every view has its join graph and every date that is found has timeframes. -/
theorem C59_total (env : MEnv) (root : String) (only : Option (List String)) (ms : List UField)
    (h : ∀ m ∈ ms, (∃ x, env.hash m.view = .ok x) ∧
      ∀ c, m.canonDate = some c → env.date c = .error .accessDenied ∨ ∃ d ts, env.date c = .ok d ∧ d.timeframes = some ts) :
    ∃ es hs, dateEdges env root only ms = .ok (es, hs) := by
  have me : ∀ m ∈ ms, ∃ es, measureEdges env root m = .ok es := by
    intro m hm
    unfold measureEdges
    cases hc : m.canonDate with
    | none => exact ⟨_, rfl⟩
    | some c =>
      rcases (h m hm).2 c hc with e | ⟨d, ts, e, et⟩
      · exact ⟨[], by simp only [e]⟩
      · simp only [e, et]; exact ⟨_, rfl⟩
  induction ms with
  | nil => exact ⟨_, _, rfl⟩
  | cons m ms ih =>
    obtain ⟨es, hs, e⟩ := ih (fun x hx => h x (List.mem_cons_of_mem _ hx)) (fun x hx => me x (List.mem_cons_of_mem _ hx))
    obtain ⟨x, hx⟩ := (h m (by simp)).1
    obtain ⟨es', e'⟩ := me m (by simp)
    unfold dateEdges
    rw [hx, e, e']
    simp only
    split <;> rename_i hi
    · split at hi <;> cases hi
    · exact ⟨_, _, rfl⟩

/-- Two metrics of `orders` with a date each, of which the second is a dimension without timeframes. -/
def mgEnv : MEnv where
  measures := []
  hash := fun _ => .ok "g"
  weak := fun _ => []
  date := fun c => if c = "orders.order" then .ok ⟨"orders", "order", some ["date"]⟩ else if c = "orders.day" then .ok ⟨"orders", "day", none⟩
    else .error .accessDenied
  views := []
  mappings := .ok []
  idOf := fun s => .ok s

/-- The metrics of `mgEnv`. -/
def mgMetric (name : String) (date : Option String) : UField :=
  { view := "orders", alias_ := name, role := .measure, type := "sum", sql := none, canonKey := date }

example : dateEdges mgEnv "root" none [mgMetric "revenue" (some "order"), mgMetric "secret" (some "hidden")] =
    .ok ([("root_date", "orders.order_date"), ("root_date", "orders.revenue")], ["g", "g"]) := by decide +kernel

example : dateEdges mgEnv "root" none [mgMetric "revenue" (some "order"), mgMetric "count" (some "day")] = .error .typeError := by
  decide +kernel

end ML
