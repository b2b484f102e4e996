import Verif.Mapped.Lemmas2
/-
C41: the replacement of mapped names.
-/
set_option autoImplicit false
namespace ML
open Spec

/-- C41 (a): when the query has a real field, the query that is run is the query that was asked with
nothing changed but names: each mapped name, at whatever depth of the filters and in the ordering,
has become its replacement, and every other name is as it was. The replacement of an ordinary
mapping is the first candidate that can be joined with all real fields of the query, else the first
that can be merged with them. (`setOrder` is the arbitrary order of Python sets; `hid` says that the
ids of fields are not themselves mapped names.) Missing: clauses given as text (`C41_literal`), names
repeated among the metrics or the dimensions, and that two mappings are chosen independently of each
other (`C41_not_joint`). -/
theorem C41_renamed_partial (env : MapEnv) (idents : String → List String) (lookupDims : List String)
    (hset : ∀ l x, x ∈ env.setOrder l ↔ x ∈ l)
    (hid : ∀ x c, env.field x = .ok c → env.mapping c.id = none)
    (q q' : MQuery) (hq : PlainMQuery q)
    (hreal : ∃ n, (Uses q n ∨ n ∈ lookupDims) ∧ env.mapping n = none)
    (hhead : ∀ n, q.metrics.head? = some n → env.mapping n = none)
    (h : resolveMapped env idents lookupDims q = .ok q') :
    ∃ fs σ, RealFields env q lookupDims fs ∧ Renamed σ q q' ∧
      (∀ n, Uses q n → env.mapping n = none → σ n = n) ∧
      ∀ n m, Uses q n → env.mapping n = some m →
        ∃ c, σ n = c.id ∧ Replacement env q fs m c := by
  obtain ⟨names, ids, hn, hnd, hids, he⟩ := resolveMapped_unfold (env := env) idents lookupDims hq
  rw [he] at h
  cases hc : classify env ids with
  | error e => rw [hc] at h; cases h
  | ok p =>
    obtain ⟨ms, fs⟩ := p
    rw [hc] at h
    have hcl := classify_spec hc
    have hreal' : RealFields env q lookupDims (fs.map (·.2)) := by
      intro c
      rw [List.mem_map]
      constructor
      · rintro ⟨⟨n, c'⟩, h1, rfl⟩
        obtain ⟨h2, h3, h4⟩ := (hcl.fields n c').mp h1
        exact ⟨n, (hids n).mp h2, h3, h4⟩
      · rintro ⟨n, h2, h3, h4⟩
        exact ⟨(n, c), (hcl.fields n c).mpr ⟨(hids n).mpr h2, h3, h4⟩, rfl⟩
    have hfne : fs ≠ [] := by
      obtain ⟨n, h1, h2⟩ := hreal
      obtain ⟨f, hf⟩ := hcl.found n ((hids n).mpr h1) h2
      exact List.ne_nil_of_mem ((hcl.fields n f).mpr ⟨(hids n).mpr h1, h2, hf⟩)
    have hinv0 : LoopInv env q id q :=
      ⟨⟨by simp, by simp, (mapClause_id _).symm, (mapClause_id _).symm, (mapClause_id _).symm⟩,
        fun _ _ => rfl, fun _ => .inl rfl⟩
    cases ms with
    | nil =>
      simp only [Except.ok.injEq] at h
      subst h
      refine ⟨_, id, hreal', hinv0.renamed, fun _ _ _ => rfl, ?_⟩
      intro n m hu hm
      have := (hcl.maps n m).mpr ⟨(hids n).mpr (.inl hu), hm⟩
      cases this
    | cons p ps =>
      cases fs with
      | nil => exact absurd rfl hfne
      | cons f fs' =>
        simp only at h
        cases hs : checkShared ((f :: fs').map (fun p => (p.1, p.2.graphs))) with
        | error e => rw [hs] at h; cases h
        | ok u =>
          rw [hs] at h
          simp only at h
          have hfo : FoundOk env q (f :: fs') := by
            refine ⟨fun n f hf => ((hcl.fields n f).mp hf).2.2, ?_, by simp⟩
            intro n hnd hnone
            have hin := (hids n).mpr (.inl (.inr (.inl hnd)))
            obtain ⟨f, hf⟩ := hcl.found n hin hnone
            exact ⟨f, (hcl.fields n f).mpr ⟨hin, hnone, hf⟩⟩
          obtain ⟨σ, h1, h2, h3, -⟩ := loopMapped_spec hset hid hq hn hfo hhead hinv0
            (hcl.keys.nodup hnd) (fun a m hin => ⟨((hcl.maps a m).mp hin).2, rfl⟩) h
          refine ⟨_, σ, hreal', h1.renamed, fun n _ hnone => h1.real n hnone, ?_⟩
          intro n m hu hm
          exact h3 n m ((hcl.maps n m).mpr ⟨(hids n).mpr (.inl hu), hm⟩) hu

/-- C41 (b): a mapped date makes the query a merge exactly when it is used and the metrics have
different dates. -/
theorem C41_forces (env : MapEnv) (idents : String → List String) (lookupDims : List String)
    (hset : ∀ l x, x ∈ env.setOrder l ↔ x ∈ l)
    (hid : ∀ x c, env.field x = .ok c → env.mapping c.id = none)
    (q q' : MQuery) (hq : PlainMQuery q)
    (hreal : ∀ n ∈ q.metrics, env.mapping n = none) (hne : q.metrics ≠ []) (hf : q.forces = false)
    (h : resolveMapped env idents lookupDims q = .ok q') :
    q'.forces = true ↔
      (∃ n m, Uses q n ∧ env.mapping n = some m ∧ m.name ∈ env.special) ∧ DatesClash env q := by
  obtain ⟨names, ids, hn, hnd, hids, he⟩ := resolveMapped_unfold (env := env) idents lookupDims hq
  rw [he] at h
  have hhead : ∀ n, q.metrics.head? = some n → env.mapping n = none := by
    intro n hh
    exact hreal n (List.mem_of_mem_head? (by rw [hh]; rfl))
  cases hc : classify env ids with
  | error e => rw [hc] at h; cases h
  | ok p =>
    obtain ⟨ms, fs⟩ := p
    rw [hc] at h
    have hcl := classify_spec hc
    have hfne : fs ≠ [] := by
      cases hm : q.metrics with
      | nil => exact absurd hm hne
      | cons n ns =>
        have h1 : n ∈ q.metrics := by rw [hm]; simp
        obtain ⟨f, hf⟩ := hcl.found n ((hids n).mpr (.inl (.inl h1))) (hreal n h1)
        exact List.ne_nil_of_mem
          ((hcl.fields n f).mpr ⟨(hids n).mpr (.inl (.inl h1)), hreal n h1, hf⟩)
    have hinv0 : LoopInv env q id q :=
      ⟨⟨by simp, by simp, (mapClause_id _).symm, (mapClause_id _).symm, (mapClause_id _).symm⟩,
        fun _ _ => rfl, fun _ => .inl rfl⟩
    have conv : (∃ a m, (a, m) ∈ ms ∧ Uses q a ∧ m.name ∈ env.special) ↔
        ∃ n m, Uses q n ∧ env.mapping n = some m ∧ m.name ∈ env.special := by
      constructor
      · rintro ⟨a, m, h1, h2, h3⟩
        exact ⟨a, m, h2, ((hcl.maps a m).mp h1).2, h3⟩
      · rintro ⟨a, m, h1, h2, h3⟩
        exact ⟨a, m, (hcl.maps a m).mpr ⟨(hids a).mpr (.inl h1), h2⟩, h1, h3⟩
    cases ms with
    | nil =>
      simp only [Except.ok.injEq] at h
      subst h
      rw [hf, ← conv]
      simp
    | cons p ps =>
      cases fs with
      | nil => exact absurd rfl hfne
      | cons f fs' =>
        simp only at h
        cases hs : checkShared ((f :: fs').map (fun p => (p.1, p.2.graphs))) with
        | error e => rw [hs] at h; cases h
        | ok u =>
          rw [hs] at h
          simp only at h
          have hfo : FoundOk env q (f :: fs') := by
            refine ⟨fun n f hf => ((hcl.fields n f).mp hf).2.2, ?_, by simp⟩
            intro n hnd hnone
            have hin := (hids n).mpr (.inl (.inr (.inl hnd)))
            obtain ⟨f, hf⟩ := hcl.found n hin hnone
            exact ⟨f, (hcl.fields n f).mpr ⟨hin, hnone, hf⟩⟩
          obtain ⟨σ, -, -, -, h4⟩ := loopMapped_spec hset hid hq hn hfo hhead hinv0
            (hcl.keys.nodup hnd) (fun a m hin => ⟨((hcl.maps a m).mp hin).2, rfl⟩) h
          rw [h4 hreal, hf, conv]
          simp

theorem replaceMapped_total {q qk : MQuery} {names : QNames} (hn : NamesOk q names)
    {a : String} (hu : Uses q a) (c : CField) : ∃ q', replaceMapped names qk a c = .ok q' := by
  unfold replaceMapped
  rw [if_pos ((hn.all a).mpr hu)]
  exact ⟨_, rfl⟩

theorem loop_total {env : MapEnv} {q : MQuery} {names : QNames} (hn : NamesOk q names)
    {found : List (String × CField)} (hfne : found ≠ []) :
    ∀ {ms : List (String × MapDef)} {qk : MQuery},
      (∀ a m, (a, m) ∈ ms → Uses q a → m.name ∉ env.special ∧
        ∃ cs, Candidates env m cs ∧ ∃ c ∈ cs, MergeableWith (found.map (·.2)) c) →
      ∃ q', loopMapped env names found (sharedGraphs (found.map (fun p => p.2.graphs))) qk ms = .ok q'
  | [], qk, _ => ⟨qk, rfl⟩
  | (a, m) :: rest, qk, h => by
    unfold loopMapped
    by_cases hu : a ∈ names.all
    · rw [if_pos hu]
      obtain ⟨h1, cs, h2, h3⟩ := h a m (by simp) ((hn.all a).mp hu)
      have hsh : sharedGraphs (found.map (fun p => p.2.graphs)) =
          sharedGraphs ((found.map (·.2)).map (·.graphs)) := by rw [List.map_map]; rfl
      obtain ⟨c, hc⟩ := determine_total (by simpa using hfne) h2 h3
      obtain ⟨q2, hq2⟩ := replaceMapped_total (qk := qk) hn ((hn.all a).mp hu) c
      have hs : stepMapped env names found (sharedGraphs (found.map (fun p => p.2.graphs))) qk a m =
          .ok q2 := by
        unfold stepMapped
        rw [if_neg h1, hsh, hc]
        exact hq2
      rw [hs]
      exact loop_total hn hfne (fun a' m' hin => h a' m' (by simp [hin]))
    · rw [if_neg hu]
      exact loop_total hn hfne (fun a' m' hin => h a' m' (by simp [hin]))

theorem loop_error {env : MapEnv} {q : MQuery} {names : QNames} (hn : NamesOk q names)
    {found : List (String × CField)} (hfne : found ≠ []) :
    ∀ {ms : List (String × MapDef)} {qk : MQuery},
      (∀ a m, (a, m) ∈ ms → Uses q a → m.name ∉ env.special ∧ ∃ cs, Candidates env m cs) →
      (∃ a m cs, (a, m) ∈ ms ∧ Uses q a ∧ Candidates env m cs ∧
        ∀ c ∈ cs, ¬ MergeableWith (found.map (·.2)) c) →
      loopMapped env names found (sharedGraphs (found.map (fun p => p.2.graphs))) qk ms = .error .query
  | [], qk, _, h => by
    obtain ⟨_, _, _, h, -⟩ := h
    cases h
  | (a, m) :: rest, qk, h, hbad => by
    unfold loopMapped
    have hsh : sharedGraphs (found.map (fun p => p.2.graphs)) =
        sharedGraphs ((found.map (·.2)).map (·.graphs)) := by rw [List.map_map]; rfl
    have hne : found.map (·.2) ≠ [] := by simpa using hfne
    by_cases hu : a ∈ names.all
    · rw [if_pos hu]
      obtain ⟨h1, cs, h2⟩ := h a m (by simp) ((hn.all a).mp hu)
      by_cases hc : ∃ c ∈ cs, MergeableWith (found.map (·.2)) c
      · obtain ⟨c, hc'⟩ := determine_total hne h2 hc
        obtain ⟨q2, hq2⟩ := replaceMapped_total (qk := qk) hn ((hn.all a).mp hu) c
        have hs : stepMapped env names found (sharedGraphs (found.map (fun p => p.2.graphs))) qk a m =
            .ok q2 := by
          unfold stepMapped
          rw [if_neg h1, hsh, hc']
          exact hq2
        rw [hs]
        refine loop_error hn hfne (fun a' m' hin => h a' m' (by simp [hin])) ?_
        obtain ⟨a', m', cs', h3, h4, h5, h6⟩ := hbad
        rcases List.mem_cons.mp h3 with h3 | h3
        · cases h3
          have : cs' = cs := Except.ok.inj (h5.symm.trans h2)
          subst this
          obtain ⟨c, h7, h8⟩ := hc
          exact absurd h8 (h6 c h7)
        · exact ⟨a', m', cs', h3, h4, h5, h6⟩
      · have hs : stepMapped env names found (sharedGraphs (found.map (fun p => p.2.graphs))) qk a m =
            .error .query := by
          unfold stepMapped
          rw [if_neg h1, hsh, determine_error hne h2 (fun c h7 h8 => hc ⟨c, h7, h8⟩)]
        rw [hs]
    · rw [if_neg hu]
      refine loop_error hn hfne (fun a' m' hin => h a' m' (by simp [hin])) ?_
      obtain ⟨a', m', cs', h3, h4, h5⟩ := hbad
      rcases List.mem_cons.mp h3 with h3 | h3
      · cases h3
        exact absurd ((hn.all _).mpr h4) hu
      · exact ⟨a', m', cs', h3, h4, h5⟩

/-- C41 (c): a query of real fields that can be combined, and of ordinary mappings, is accepted
exactly when each mapping has a candidate that can at least be merged with the real fields; otherwise
it is rejected with a query error. -/
theorem C41_accepted_iff (env : MapEnv) (idents : String → List String) (lookupDims : List String)
    (q : MQuery) (hq : PlainMQuery q) (fs : List CField) (hfs : RealFields env q lookupDims fs)
    (hreal : ∃ n, (Uses q n ∨ n ∈ lookupDims) ∧ env.mapping n = none)
    (hfound : ∀ n, Uses q n ∨ n ∈ lookupDims → env.mapping n = none → ∃ f, env.modelField n = .ok f)
    (hshared : ∃ g, ∀ f ∈ fs, g ∈ f.graphs)
    (hmaps : ∀ n m, Uses q n → env.mapping n = some m →
      m.name ∉ env.special ∧ ∃ cs, Candidates env m cs) :
    ((∃ q', resolveMapped env idents lookupDims q = .ok q') ↔
      ∀ n m cs, Uses q n → env.mapping n = some m → Candidates env m cs →
        ∃ c ∈ cs, MergeableWith fs c) ∧
    ((∀ q', resolveMapped env idents lookupDims q ≠ .ok q') →
      resolveMapped env idents lookupDims q = .error .query) := by
  obtain ⟨names, ids, hn, hnd, hids, he⟩ := resolveMapped_unfold (env := env) idents lookupDims hq
  obtain ⟨ms, found, hc⟩ := classify_total (fun n hin hnone => hfound n ((hids n).mp hin) hnone)
    (ids := ids) (env := env)
  have hcl := classify_spec hc
  rw [he, hc]
  have hsame : ∀ c, c ∈ found.map (·.2) ↔ c ∈ fs := by
    intro c
    rw [hfs c, List.mem_map]
    constructor
    · rintro ⟨⟨n, c'⟩, h1, rfl⟩
      obtain ⟨h2, h3, h4⟩ := (hcl.fields n c').mp h1
      exact ⟨n, (hids n).mp h2, h3, h4⟩
    · rintro ⟨n, h2, h3, h4⟩
      exact ⟨(n, c), (hcl.fields n c).mpr ⟨(hids n).mpr h2, h3, h4⟩, rfl⟩
  have hmer : ∀ c, MergeableWith (found.map (·.2)) c ↔ MergeableWith fs c := by
    intro c
    unfold MergeableWith
    simp only [hsame]
  have hfne : found ≠ [] := by
    obtain ⟨n, h1, h2⟩ := hreal
    obtain ⟨f, hf⟩ := hfound n h1 h2
    exact List.ne_nil_of_mem ((hcl.fields n f).mpr ⟨(hids n).mpr h1, h2, hf⟩)
  have hms : ∀ a m, (a, m) ∈ ms → Uses q a → m.name ∉ env.special ∧ ∃ cs, Candidates env m cs :=
    fun a m hin hu => hmaps a m hu ((hcl.maps a m).mp hin).2
  cases ms with
  | nil =>
    refine ⟨⟨fun _ n m cs hu hm _ => ?_, fun _ => ⟨q, rfl⟩⟩, fun h => absurd rfl (h q)⟩
    have := (hcl.maps n m).mpr ⟨(hids n).mpr (.inl hu), hm⟩
    cases this
  | cons p ps =>
    cases found with
    | nil => exact absurd rfl hfne
    | cons f found' =>
      have hcheck : checkShared ((f :: found').map (fun p => (p.1, p.2.graphs))) = .ok () := by
        unfold checkShared
        obtain ⟨g, hg⟩ := hshared
        have hin : g ∈ sharedGraphs
            (((f :: found').map (fun p => (p.1, p.2.graphs))).map (·.2)) := by
          rw [mem_sharedGraphs (by simp)]
          intro l hl
          rw [List.map_map, List.mem_map] at hl
          obtain ⟨x, hx, rfl⟩ := hl
          exact hg x.2 ((hsame x.2).mp (List.mem_map.mpr ⟨x, hx, rfl⟩))
        rw [if_neg]
        rw [List.isEmpty_iff]
        exact List.ne_nil_of_mem hin
      simp only [hcheck]
      by_cases hall : ∀ n m cs, Uses q n → env.mapping n = some m → Candidates env m cs →
          ∃ c ∈ cs, MergeableWith fs c
      · have htot : ∀ a m, (a, m) ∈ p :: ps → Uses q a → m.name ∉ env.special ∧
            ∃ cs, Candidates env m cs ∧ ∃ c ∈ cs, MergeableWith ((f :: found').map (·.2)) c := by
          intro a m hin hu
          obtain ⟨h1, cs, h2⟩ := hms a m hin hu
          obtain ⟨c, h3, h4⟩ := hall a m cs hu ((hcl.maps a m).mp hin).2 h2
          exact ⟨h1, cs, h2, c, h3, (hmer c).mpr h4⟩
        obtain ⟨q', hq'⟩ := loop_total (qk := q) hn hfne htot
        rw [hq']
        exact ⟨⟨fun _ => hall, fun _ => ⟨q', rfl⟩⟩, fun h => absurd rfl (h q')⟩
      · have hbad : ∃ a m cs, (a, m) ∈ p :: ps ∧ Uses q a ∧ Candidates env m cs ∧
            ∀ c ∈ cs, ¬ MergeableWith ((f :: found').map (·.2)) c := by
          push Not at hall
          obtain ⟨n, m, cs, h1, h2, h3, h4⟩ := hall
          exact ⟨n, m, cs, (hcl.maps n m).mpr ⟨(hids n).mpr (.inl h1), h2⟩, h1, h3,
            fun c hc hm => h4 c hc ((hmer c).mp hm)⟩
        rw [loop_error (qk := q) hn hfne hms hbad]
        exact ⟨⟨fun ⟨_, h⟩ => (by cases h), fun h => absurd h hall⟩, fun _ => rfl⟩

/-- C41 (d): a query with a single mapped name and no real field uses the first candidate. -/
theorem C41_only_mapping (env : MapEnv) (idents : String → List String) (name : String) (m : MapDef)
    (hm : env.mapping name = some m) (q : MQuery) (hq : PlainMQuery q)
    (hu : ∀ n, Uses q n ↔ n = name) (n : String) (ns : List String) (hns : m.fields = n :: ns)
    (cs : List CField) (c : CField) (hc : Candidates env m (c :: cs)) :
    ∃ q', resolveMapped env idents [] q = .ok q' ∧
      Renamed (fun x => if x = name then c.id else x) q q' := by
  obtain ⟨names, ids, hn, hnd, hids, he⟩ := resolveMapped_unfold (env := env) idents [] hq
  have hids' : ids = [name] := by
    have h1 : ∀ x, x ∈ ids ↔ x = name := by
      intro x
      rw [hids, hu]
      simp
    cases ids with
    | nil => exact absurd ((h1 name).mpr rfl) (by simp)
    | cons x xs =>
      have hx := (h1 x).mp (by simp)
      subst hx
      cases xs with
      | nil => rfl
      | cons y ys =>
        have hy := (h1 y).mp (by simp)
        subst hy
        simp at hnd
  rw [he, hids']
  have hcl : classify env [name] = .ok ([(name, m)], []) := by
    simp only [classify, hm]
  have hgr : ∀ {xs : List String} {cs : List CField}, xs.mapM env.field = .ok cs →
      ∃ r, candidateGraphs env xs = .ok r := by
    intro xs
    induction xs with
    | nil => intro cs _; exact ⟨[], rfl⟩
    | cons x xs ih =>
      intro cs h
      rw [List.mapM_cons] at h
      unfold candidateGraphs
      cases hf : env.field x with
      | error e => rw [hf] at h; cases h
      | ok c =>
        rw [hf] at h
        cases hr : xs.mapM env.field with
        | error e => rw [hr] at h; cases h
        | ok cs' =>
          obtain ⟨r, hr'⟩ := ih hr
          simp only [hr']
          exact ⟨_, rfl⟩
  obtain ⟨r, hr⟩ := hgr hc
  have htab : ∃ t, checkTable env [(name, m)] = .ok t := by
    simp only [checkTable, hr]
    split <;> exact ⟨_, rfl⟩
  obtain ⟨t, ht⟩ := htab
  have hfield : env.field n = .ok c := by
    unfold Candidates at hc
    rw [hns, List.mapM_cons] at hc
    cases hf : env.field n with
    | error e => rw [hf] at hc; cases hc
    | ok c' =>
      rw [hf] at hc
      cases hr : ns.mapM env.field with
      | error e => rw [hr] at hc; cases hc
      | ok cs' =>
        rw [hr] at hc
        have := Except.ok.inj hc
        simp only [List.cons.injEq] at this
        rw [this.1]
  simp only [hcl]
  unfold mappedOnly
  simp only [ht, hns, hfield]
  obtain ⟨q', hq'⟩ := replaceMapped_total (qk := q) hn ((hu name).mpr rfl) c
  refine ⟨q', hq', ?_⟩
  -- the identity is a renaming that fixes every name
  have keep : ∀ {cl : MClause}, PlainClause cl → ¬ InClause name cl →
      cl = mapClause (fun x => if x = name then c.id else x) cl := by
    intro cl hp hno
    conv_lhs => rw [← mapClause_id cl]
    refine mapClause_congr hp ?_
    intro x hin
    simp only [id]
    rw [if_neg]
    rintro rfl
    exact hno hin
  have repl : ∀ {cl : MClause}, PlainClause cl →
      cl.replace name c.id = mapClause (fun x => if x = name then c.id else x) cl := by
    intro cl hp
    have := replace_mapClause (σ := id) (a := name) (b := c.id) rfl (fun n h => h) hp
    rw [mapClause_id] at this
    exact this
  have lists : ∀ {l : List String}, l.Nodup →
      replaceFirst name c.id l = l.map (fun x => if x = name then c.id else x) := by
    intro l hl
    have := replaceFirst_map (σ := id) (a := name) (b := c.id) rfl (fun n h => h) hl
    rw [List.map_id] at this
    exact this
  unfold replaceMapped at hq'
  simp only at hq'
  rw [if_pos ((hn.all name).mpr ((hu name).mpr rfl))] at hq'
  have := Except.ok.inj hq'
  subst this
  refine ⟨lists hq.metrics, lists hq.dimensions, ?_, ?_, ?_⟩ <;> simp only <;> split
  · exact repl hq.where_
  · rename_i h; exact keep hq.where_ (fun x => h ((hn.whereNames name).mpr x))
  · exact repl hq.having
  · rename_i h; exact keep hq.having (fun x => h ((hn.havingNames name).mpr x))
  · exact repl hq.orderBy
  · rename_i h; exact keep hq.orderBy (fun x => h ((hn.orderNames name).mpr x))

/-! ### A concrete project, and what goes wrong -/

/-- A project given by tables. -/
def mapTable (maps : List (String × List String)) (fields : List (String × CField)) : MapEnv where
  mapping n := (maps.lookup n).map (fun fs => ⟨n, fs⟩)
  modelField n := match fields.lookup n with
    | some f => .ok f
    | none => .error .accessDenied
  field n := match fields.lookup n with
    | some f => .ok f
    | none => .error .accessDenied
  special := ["date"]
  viewMeasures _ := .ok 1
  setOrder l := l

/-- Orders and customers can be joined, sessions can only be merged with them. -/
def exEnv : MapEnv := mapTable
  [("source", ["sessions.utm", "customers.channel", "orders.channel"]),
   ("device", ["sessions.device"]), ("date", ["orders.order_date"])]
  [("orders.total", ⟨"orders.total", ["subquery_0", "merged_result_orders"], some "orders.order"⟩),
   ("orders.region", ⟨"orders.region", ["subquery_0", "merged_result_orders"], some "orders.order"⟩),
   ("orders.channel", ⟨"orders.channel", ["subquery_0", "merged_result_orders"], some "orders.order"⟩),
   ("customers.channel", ⟨"customers.channel", ["subquery_0", "subquery_1"], none⟩),
   ("sessions.utm", ⟨"sessions.utm", ["subquery_3", "merged_result_orders"], none⟩),
   ("sessions.device", ⟨"sessions.device", ["subquery_3", "merged_result_orders"], none⟩),
   ("orders.order_date", ⟨"orders.order_date", ["subquery_0", "merged_result_orders"],
      some "orders.order"⟩)]

/-- A query with mapped names in the dimensions, inside a nested filter and in the ordering. -/
def exQuery : MQuery :=
  ⟨["orders.total"], ["source", "orders.region", "date"],
    .list [.group none [.cond (some "source") false "= ads",
      .group none [.cond (some "orders.region") false "= north", .cond (some "source") false "= mail"]
        "AND"] "OR"], .none, .list [.cond (some "source") false "desc"], false, []⟩

/-- The joinable candidate is taken although an earlier one can be merged, everywhere. -/
example : (match resolveMapped exEnv (fun _ => []) [] exQuery with
    | .ok q' => decide (q'.dimensions = ["customers.channel", "orders.region", "orders.order_date"]) &&
        decide (q'.replaced = [("source", "customers.channel"), ("date", "orders.order_date")]) &&
        (q'.where_ matches .list [.group none [.cond (some "customers.channel") false "= ads",
          .group none [.cond (some "orders.region") false "= north",
            .cond (some "customers.channel") false "= mail"] "AND"] "OR"]) &&
        (q'.orderBy matches .list [.cond (some "customers.channel") false "desc"])
    | .error _ => false) = true := by decide +kernel

theorem exEnv_ids : ∀ x c, exEnv.field x = .ok c → exEnv.mapping c.id = none := by
  intro x c h
  have hmem : ∀ {l : List (String × CField)} {n : String} {f : CField},
      l.lookup n = some f → (n, f) ∈ l := fun h => mem_of_lookup h
  simp only [exEnv, mapTable] at h ⊢
  split at h
  · rename_i f hf
    have := hmem hf
    have h := Except.ok.inj h
    subst h
    simp only [List.mem_cons, List.not_mem_nil, or_false, Prod.mk.injEq] at this
    rcases this with ⟨-, rfl⟩ | ⟨-, rfl⟩ | ⟨-, rfl⟩ | ⟨-, rfl⟩ | ⟨-, rfl⟩ | ⟨-, rfl⟩ | ⟨-, rfl⟩ <;>
      decide
  · cases h

/-- The hypotheses of `C41_renamed_partial` are met by that query. -/
example : PlainMQuery exQuery ∧ (∃ n, (Uses exQuery n ∨ n ∈ ([] : List String)) ∧
      exEnv.mapping n = none) ∧
    (∀ n, exQuery.metrics.head? = some n → exEnv.mapping n = none) ∧
    (∀ l x, x ∈ exEnv.setOrder l ↔ x ∈ l) := by
  refine ⟨⟨by decide, by decide, ?_, trivial, ?_⟩, ⟨"orders.total", .inl (.inl (by decide)), by decide⟩,
    ?_, fun _ _ => Iff.rfl⟩
  · simp [exQuery, PlainClause, PlainConds, PlainCond]
  · simp [exQuery, PlainClause, PlainConds, PlainCond]
  · intro n hn
    cases hn
    decide

/-- C41 (e): two mapped names are chosen independently of each other. Here each chosen candidate can
be joined with the real field but the two cannot be joined or merged with each other, although
other candidates can. -/
theorem C41_not_joint :
    ∃ (env : MapEnv) (q q' : MQuery) (a b : CField),
      PlainMQuery q ∧ resolveMapped env (fun _ => []) [] q = .ok q' ∧
      q'.dimensions = [a.id, b.id] ∧ env.field a.id = .ok a ∧ env.field b.id = .ok b ∧
      (∀ g ∈ a.graphs, g ∉ b.graphs) ∧
      ∃ a' b' : CField, env.mapping "x" = some ⟨"x", [a.id, a'.id]⟩ ∧
        env.mapping "y" = some ⟨"y", [b.id, b'.id]⟩ ∧
        env.field a'.id = .ok a' ∧ env.field b'.id = .ok b' ∧
        ∃ m, env.field "t.m" = .ok m ∧ q.metrics = ["t.m"] ∧ JoinableWith [m, b'] a' := by
  refine ⟨mapTable [("x", ["a.x", "c.x"]), ("y", ["b.y", "c.y"])]
      [("t.m", ⟨"t.m", ["s0", "s1", "s2"], none⟩), ("a.x", ⟨"a.x", ["s0"], none⟩),
       ("b.y", ⟨"b.y", ["s1"], none⟩), ("c.x", ⟨"c.x", ["s2"], none⟩), ("c.y", ⟨"c.y", ["s2"], none⟩)],
    ⟨["t.m"], ["x", "y"], .none, .none, .none, false, []⟩,
    ⟨["t.m"], ["a.x", "b.y"], .none, .none, .none, false, [("x", "a.x"), ("y", "b.y")]⟩,
    ⟨"a.x", ["s0"], none⟩, ⟨"b.y", ["s1"], none⟩,
    ⟨by decide, by decide, trivial, trivial, trivial⟩, rfl, rfl, rfl, rfl, by decide,
    ⟨"c.x", ["s2"], none⟩, ⟨"c.y", ["s2"], none⟩, rfl, rfl, rfl, rfl, _, rfl, rfl, ?_⟩
  refine ⟨"s2", by simp, ?_, by simp⟩
  rw [← containsSub_iff]
  decide

/-- C41 (f): in a filter given as text the name is replaced wherever its letters occur. Here the
mapped name is `date` and the text also uses the field `orders.update_count`. -/
theorem C41_literal :
    ∃ q', resolveMapped
      (mapTable [("date", ["orders.order_date"])]
        [("orders.total", ⟨"orders.total", ["s0"], some "orders.order"⟩),
         ("orders.update_count", ⟨"orders.update_count", ["s0"], some "orders.order"⟩),
         ("orders.order_date", ⟨"orders.order_date", ["s0"], some "orders.order"⟩)])
      (fun _ => ["date", "orders.update_count"]) []
      ⟨["orders.total"], [], .text "date > 5 and orders.update_count > 1", .none, .none, false, []⟩ =
        .ok q' ∧
      q'.where_ = .text "orders.order_date > 5 and orders.uporders.order_date_count > 1" :=
  ⟨_, rfl, rfl⟩

/-- C41 (g): a mapped name given twice in the same list is replaced once. -/
theorem C41_repeated :
    ∃ q', resolveMapped exEnv (fun _ => []) []
      ⟨["orders.total"], ["source", "source"], .none, .none, .none, false, []⟩ = .ok q' ∧
      q'.dimensions = ["customers.channel", "source"] := ⟨_, rfl, by decide +kernel⟩

end ML
