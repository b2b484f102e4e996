import Verif.FunnelTable.Lemmas
/-
C38: the table a funnel query answers.
-/
set_option autoImplicit false
namespace ML
open Spec

section
variable {ρ : Type}

theorem mapM_res_forall₂ {α β : Type} {f : α → Res β} {l : List α} {m : List β} (h : l.mapM f = .ok m) : List.Forall₂ (fun a b => f a = .ok b) l m := by
  induction l generalizing m with
  | nil => simp only [List.mapM_nil] at h; cases h; exact .nil
  | cons a l ih =>
    rw [List.mapM_cons] at h
    cases ha : f a with
    | error e => rw [ha] at h; cases h
    | ok b =>
      cases hl : l.mapM f with
      | error e => rw [ha, hl] at h; cases h
      | ok bs =>
        rw [ha, hl] at h
        cases h
        exact .cons ha (ih hl)

theorem forall₂_get {α β : Type} {R : α → β → Prop} {l : List α} {m : List β} (h : List.Forall₂ R l m) {i : Nat} {a : α} (ha : l[i]? = some a) : ∃ b, m[i]? = some b ∧ R a b := by
  induction h generalizing i with
  | nil => simp at ha
  | @cons x y xs ys hxy _ ih =>
    cases i with
    | zero =>
      simp only [List.getElem?_cons_zero, Option.some.injEq] at ha
      subst ha
      exact ⟨y, by simp, hxy⟩
    | succ i => simpa using ih (by simpa using ha)

theorem forall₂_get' {α β : Type} {R : α → β → Prop} {l : List α} {m : List β} (h : List.Forall₂ R l m) {i : Nat} {b : β} (hb : m[i]? = some b) : ∃ a, l[i]? = some a ∧ R a b := by
  obtain ⟨a, h1, h2⟩ := forall₂_get h.flip hb
  exact ⟨a, h1, h2⟩

/-- The rows of the branches: those of step n are the last events of chains of n events. -/
theorem union_rows {known : String → Bool} {d : FunnelData (List Nat) ρ ℚ ℚ} {w : StepWindow} {unit : String} {value : ℤ} (hw : GoodWindow known w unit value)
    {steps : List (List Nat)} {ss : List (StepSql (List Nat))} {union : List StepSelect} (hsql : funnelSql known w steps = .ok (ss, union))
    {ctes : List (String × List (StepRow ρ ℚ))} (hev : evalSteps d [] ss = .ok ctes) {β : Type} (g : Nat → List ρ → β) {bs : List β}
    (hb : union.mapM (fun u => (dictGet ctes u.cte).map (fun rows => g u.order (rows.map Prod.fst))) = some bs) :
    ∃ parts : List (List ρ), parts.length = steps.length ∧ bs = parts.zipIdx.map (fun t => g (t.2 + 1) t.1) ∧
      ∀ n R, parts[n]? = some R → ∀ e, e ∈ R ↔ EndsChain d unit value steps (n + 1) e := by
  have hs : steps ≠ [] := by
    rintro rfl
    simp [funnelSql, stepSqls] at hsql
  obtain ⟨parts, h1, h2, h3⟩ := C38_steps known d w unit value hw steps hs
  have h1' := h1
  unfold evalFunnel at h1
  rw [hsql] at h1
  dsimp only at h1
  rw [hev] at h1
  dsimp only at h1
  have hf := mapM_res_forall₂ h1
  have hg := mapM_forall₂ hb
  refine ⟨parts.map (fun p => p.2.2.map Prod.fst), by rw [List.length_map, h2], ?_, ?_⟩
  · refine List.ext_getElem? fun i => ?_
    rw [List.getElem?_map, List.getElem?_zipIdx, List.getElem?_map, Option.map_map, Option.map_map]
    cases hp : parts[i]? with
    | none =>
      have : bs.length = parts.length := by rw [← hg.length_eq, hf.length_eq]
      simp only [Option.map_none]
      rw [List.getElem?_eq_none_iff] at hp ⊢
      omega
    | some p =>
      have hi : i < steps.length := by rw [← h2]; exact (List.getElem?_eq_some_iff.mp hp).1
      obtain ⟨rows, hr, -⟩ := h3 i hi
      rw [hp] at hr
      cases hr
      obtain ⟨u, hu, hub⟩ := forall₂_get' hf hp
      obtain ⟨b, hb1, hb2⟩ := forall₂_get hg hu
      rw [hb1]
      cases hd : dictGet ctes u.cte with
      | none => rw [hd] at hub; cases hub
      | some rows' =>
        rw [hd] at hub hb2
        simp only [Except.ok.injEq, Prod.mk.injEq] at hub
        obtain ⟨-, ho, rfl⟩ := hub
        simp only [Option.map_some, Option.some.injEq] at hb2
        rw [← hb2, ho]
        simp
  · intro n R hR e
    rw [List.getElem?_map] at hR
    cases hp : parts[n]? with
    | none => rw [hp] at hR; cases hR
    | some p =>
      rw [hp] at hR
      cases hR
      have := C38_events known d w unit value hw steps parts h1' n p hp e
      unfold EndsChain
      rw [← this, List.mem_map]
      constructor
      · rintro ⟨⟨e', t⟩, hm, rfl⟩
        exact ⟨t, hm⟩
      · rintro ⟨t, ht⟩
        exact ⟨(e, t), ht, rfl⟩

/-- Chains of two readings of the events that agree on persons, dates and the conditions of the steps. -/
theorem chain_congr {d d' : FunnelData (List Nat) ρ ℚ ℚ} (he : d.events = d'.events) (hp : d.person = d'.person) (ht : d.time = d'.time) (hd : d.diff = d'.diff)
    {steps : List (List Nat)} (hh : ∀ s ∈ steps, ∀ r, d.holds s r = d'.holds s r) (unit : String) (value : ℤ) (c : List ρ) (h : FunnelChain d unit value steps c) :
    FunnelChain d' unit value steps c := by
  refine ⟨fun e hm => he ▸ h.events e hm, fun i e hi => ?_, fun i a b ha hb => ?_, fun i a e hi ha hb => ?_⟩
  · obtain ⟨s, hs, hse⟩ := h.holds i e hi
    exact ⟨s, hs, by rw [← hh s (List.mem_of_getElem? hs)]; exact hse⟩
  · have := h.order i a b ha hb
    unfold Follows at this ⊢
    rwa [← hp, ← ht]
  · have := h.window i a e hi ha hb
    unfold WithinStep at this ⊢
    rwa [← ht, ← hd]

/-- The value of a metric in a branch. -/
theorem metric_value {P : FunnelProject} {w : Warehouse} {q : FunnelQuestion} {ds ms fs : List AnsField} (hp : FunnelProper P q ds ms)
    (hfs : ∀ g ∈ fs, ∃ n, P.get n = .ok g) (hw : supportsSymmetric w = true) {E : Engine ρ} {events : List ρ} {f key : AnsField} {m : Measure} (hf : f ∈ ms)
    (hm : f.sql = .measure m) (hk : P.viewKey f.view = some key) (hc : Countable E events key f m) {a : Agg}
    (ha : aggregateSql (aliasMeasure P f m) w .doesNotExist = .ok a) (hcol : ∀ c ∈ a.texts, columnOf (rawSelect fs) c ≠ none) {R G : List ρ}
    (hR : ∀ r ∈ R, r ∈ events) (hG : ∀ r, r ∈ R ↔ r ∈ G) : MetricOver E key f m.type G (a.eval (baseEngine E (rawSelect fs)) R) := by
  obtain ⟨fn, -, hfn⟩ := mem_names hp.metrics hf
  obtain ⟨⟨kn, hkn⟩, ks, hks⟩ := hp.keys _ _ hk
  have hne : key.label ≠ f.label := by
    intro e
    have := hp.labels _ _ _ _ hkn hfn e
    rw [this, hm] at hks
    cases hks
  have hd : P.distinctAlias f = key.label := hp.distinct f hf key hk
  have hmed : m.type ≠ .median := by
    obtain ⟨m', hm', ht⟩ := hp.measure f hf
    rw [hm] at hm'
    cases hm'
    exact ht
  let E2 : Engine ρ := ⟨fun r c => if c = f.label then rawValueOf E f r else if c = key.label then rawValueOf E key r else none, E.hash⟩
  have e1 : ∀ r, E2.value r f.label = rawValueOf E f r := fun r => by simp [E2]
  have e2 : ∀ r, E2.value r key.label = rawValueOf E key r := fun r => by simp [E2, hne]
  have hpk : (aliasMeasure P f m).pk = some (key.fid, key.label) := by simp [aliasMeasure, hk]
  have heval : a.eval (baseEngine E (rawSelect fs)) R = a.eval E2 R := by
    refine agg_congr (baseEngine E (rawSelect fs)) E2 rfl R a fun c hct r _ => ?_
    have hcc := hcol c hct
    have hb : ∀ g : AnsField, (∃ n, P.get n = .ok g) → c = g.label → baseValue E (rawSelect fs) r c = rawValueOf E g r := by
      rintro g ⟨n, hn⟩ rfl
      refine base_value (fun g' hg' e => ?_) hcc r
      obtain ⟨n', hn'⟩ := hfs g' hg'
      exact hp.labels _ _ _ _ hn' hn e
    rcases agg_texts ha hpk hd c hct with h | h
    · have h : c = f.label := h
      subst h
      rw [e1]
      exact hb f ⟨fn, hfn⟩ rfl
    · subst h
      rw [e2]
      exact hb key ⟨kn, hkn⟩ rfl
  obtain ⟨reps, hreps⟩ := onePerKey_exists (rawValueOf E key) R
  refine ⟨reps, onePerKey_same hreps hG, ?_⟩
  rw [heval]
  have hev : ∀ r ∈ reps, r ∈ events := fun r hr => hR r (hreps.sub r hr)
  have f1 : (fun r => E2.value r f.label) = rawValueOf E f := funext e1
  have f2 : (fun r => E2.value r key.label) = rawValueOf E key := funext e2
  have := C22_value_partial E2 (aliasMeasure P f m) w .doesNotExist a R reps key.fid key.label hw hpk hd
    (fun hpc r hr => by
      show E2.value r f.label = _
      rw [e1, e2]
      exact hc.count hpc r (hR r hr)) ha (by simp)
    (by rw [f2]; exact hreps)
    (by
      show OwnValue _ (fun r => E2.value r f.label) R
      rw [f1, f2]
      exact ⟨fun x hx y hy => hc.own.copies x (hR x hx) y (hR y hy), fun x hx => hc.own.null x (hR x hx)⟩)
    (by
      show NoCollision E2.hash _ (fun r => E2.value r f.label) reps
      rw [f1, f2]
      exact fun x hx y hy => hc.apart x (hev x hx) y (hev y hy))
    (by
      show SixDecimals (fun r => E2.value r f.label) reps
      rw [f1]
      exact fun r hr => hc.six r (hev r hr))
    (by intro h; cases h) (fun h => absurd h hmed)
  have hs : (aliasMeasure P f m).sql = f.label := rfl
  rw [hs, f1] at this
  exact this

/-- The conditions of the steps are those asked for, in order. -/
theorem funnelSql_conds {known : String → Bool} {w : StepWindow} {steps : List (List Nat)} {ss' : List (StepSql (List Nat))} {union : List StepSelect}
    (h : funnelSql known w steps = .ok (ss', union)) : ss'.map StepSql.cond = steps := by
  unfold funnelSql at h
  cases hss : stepSqls known w 0 steps with
  | error e => rw [hss] at h; cases h
  | ok ss =>
    rw [hss] at h
    have key : ∀ (l : List (List Nat)) (i : Nat) (ss : List (StepSql (List Nat))), stepSqls known w i l = .ok ss → ss.map StepSql.cond = l := by
      intro l
      induction l with
      | nil => intro i ss h; rw [stepSqls] at h; cases h; rfl
      | cons c l ih =>
        intro i ss h
        rw [stepSqls] at h
        cases hx : stepSql known w i c with
        | error e => rw [hx] at h; cases h
        | ok x =>
          rw [hx] at h
          dsimp only at h
          cases hy : stepSqls known w (i + 1) l with
          | error e => rw [hy] at h; cases h
          | ok ys =>
            rw [hy] at h
            cases h
            rw [List.map_cons, ih _ _ hy]
            rw [stepSql_cond hx]
    have := key _ _ _ hss
    cases ss with
    | nil => cases h
    | cons a ss =>
      simp only [Except.ok.injEq, Prod.mk.injEq] at h
      rw [← h.1]
      exact this

/-- What both theorems need of a built and answered statement. -/
theorem funnel_parts {P : FunnelProject} {w : Warehouse} {known : String → Bool} {q : FunnelQuestion} {s : FunnelStmt} (hs : buildFunnel P w known q = .ok s)
    {ds ms : List AnsField} (hp : FunnelProper P q ds ms) {unit : String} {value : ℤ} (hw : GoodWindow known q.window unit value) (D : Db ρ)
    (diff : String → ℚ → ℚ → Option ℤ) {out : List (Nat × List Val)} (ha : s.Answers D diff out) :
    ∃ (views : List String) (events : List ρ) (date person : AnsField) (fs : List AnsField) (parts : List (List ρ)) (lines : List (Nat × List Val)) (p : ρ → Bool),
      FunnelViews P q date person views ∧
      ((∀ r, p r = true ↔ FunnelPasses D P.toAnsProject w views q r) ∧ events = (D.rows views).filter p) ∧
      (∃ n, eventDate q.viewName (q.metrics.map q.dateOf) = .ok n ∧ P.get n = .ok date) ∧ (∃ n, P.link = .ok n ∧ P.get n = .ok person) ∧
      (∀ f ∈ ms, ∃ key, P.viewKey f.view = some key) ∧ (∀ g ∈ fs, ∃ n, P.get n = .ok g) ∧ s.base.select = rawSelect fs ∧ s.groupBy = ds.map AnsField.label ∧ funnelColumns P w (ms ++ ds) = .ok s.columns ∧
      parts.length = q.steps.length ∧
      (∀ n R, parts[n]? = some R → ∀ e, e ∈ R ↔ EndsChain (funnelEvents D P.get q.fieldOf date person diff events) unit value q.steps (n + 1) e) ∧
      lines.Perm ((stepLines (parts.map (fun R => (s.groups D R).map (fun G => (s.line D 0 G).2)))).filter (s.kept D)) ∧
      out = (match limitClause w q.limit with | none => lines | some n => lines.take n) := by
  obtain ⟨fs, dateField, linkField, metrics, lookup, gs, h1, h2, h3, h4, h5, h6, h7, h8, h9, h10, h11⟩ := buildFunnel_ok hs
  obtain ⟨g1, g2, g3, g4, lk, -, ks, g5⟩ := funnelFields_ok h1
  obtain ⟨-, b2, b3, -, -⟩ := funnelBase_ok h2
  obtain ⟨hn, -, rows, ctes, bs, lines, hk, hev, hmm, hperm, hout⟩ := ha
  rw [b2] at hk
  obtain ⟨p, hpp, hrows⟩ := base_keeps h2 hp.wheres D hk
  have hfs : ∀ g ∈ fs, ∃ n, P.get n = .ok g := by
    intro g hg
    rcases g1 g hg with h | ⟨v, hv⟩
    · exact h
    · exact (hp.keys v g hv).1
  have hgs : gs = ms ++ ds := by
    refine (getAll_names (P := P.toAnsProject).mp h4).unique ?_
    rw [g2]
    exact hp.metrics.append hp.dims
  subst hgs
  have hbv : ∀ (g : AnsField) (n : String), P.get n = .ok g → g.label ∈ s.names → ∀ r, baseValue D.engine s.base.select r g.label = rawValueOf D.engine g r := by
    intro g n hg hm r
    have := hn _ hm
    rw [b3] at this ⊢
    refine base_value (fun g' hg' e => ?_) this r
    obtain ⟨n', hn'⟩ := hfs g' hg'
    exact hp.labels _ _ _ _ hn' hg e
  obtain ⟨dn, -, hdn⟩ := id g3
  obtain ⟨ln, -, hln⟩ := id g4
  obtain ⟨parts, hlen, hbs, hmem⟩ := union_rows hw h3 hev (fun o R => (s.groups D R).map (s.line D o)) hmm
  have hconds := funnelSql_conds h3
  have hholds : ∀ cs ∈ q.steps, ∀ r, (s.data D diff rows).holds cs r = (funnelEvents D P.get q.fieldOf dateField linkField diff rows).holds cs r := by
    intro cs hcs r
    show cs.all _ = cs.all _
    rw [Bool.eq_iff_iff, List.all_eq_true, List.all_eq_true]
    refine forall₂_congr fun i hi => ?_
    unfold FunnelStmt.compared
    rw [h9]
    dsimp only
    cases hg : P.get (q.fieldOf i) with
    | error e => simp [Except.map]
    | ok f =>
      dsimp only [Except.map]
      rw [hbv f _ hg]
      rw [← hconds] at hcs
      obtain ⟨t, ht, rfl⟩ := List.mem_map.mp hcs
      unfold FunnelStmt.names
      refine List.mem_append_left _ (List.mem_append_left _ (List.mem_append_right _ (List.mem_flatMap.mpr ⟨t, ht, List.mem_filterMap.mpr ⟨i, hi, ?_⟩⟩)))
      rw [h9]
      simp only [hg]
      rfl
  have hperson : (s.data D diff rows).person = (funnelEvents D P.get q.fieldOf dateField linkField diff rows).person := by
    funext r
    show baseValue _ _ _ _ = rawValueOf _ _ _
    rw [h8]
    exact hbv linkField ln hln (by unfold FunnelStmt.names; rw [h8]; simp) r
  have htime : (s.data D diff rows).time = (funnelEvents D P.get q.fieldOf dateField linkField diff rows).time := by
    funext r
    show baseValue _ _ _ _ = rawValueOf _ _ _
    rw [h7]
    exact hbv dateField dn hdn (by unfold FunnelStmt.names; rw [h7]; simp) r
  refine ⟨(lookup.map AnsField.view).dedup, rows, dateField, linkField, fs, parts, lines, p, funnel_views hp.ids h1, ⟨hpp, hrows⟩, g3, g4, ?_, hfs, b3, ?_, h5, hlen, ?_, ?_, ?_⟩
  · intro f hf
    obtain ⟨n, hn1, hn2⟩ := mem_names hp.metrics hf
    rw [g2] at g5
    exact enrichMetrics_haskey g5 n hn1 f hn2
  · rw [h10, List.filter_append]
    have e1 : ms.filter (fun f => !f.isMeasure) = [] := by
      rw [List.filter_eq_nil_iff]
      intro f hf
      obtain ⟨m, hm, -⟩ := hp.measure f hf
      simp [AnsField.isMeasure, hm]
    have e2 : ds.filter (fun f => !f.isMeasure) = ds := by
      rw [List.filter_eq_self]
      intro f hf
      obtain ⟨m, hm⟩ := hp.dimension f hf
      simp [AnsField.isMeasure, hm]
    rw [e1, e2, List.nil_append]
  · intro n R hR e
    rw [hmem n R hR e]
    constructor
    · rintro ⟨c, hc, hch, hl⟩
      exact ⟨c, hc, chain_congr (d := s.data D diff rows) (d' := funnelEvents D P.get q.fieldOf dateField linkField diff rows) rfl hperson htime rfl hholds unit value c hch, hl⟩
    · rintro ⟨c, hc, hch, hl⟩
      exact ⟨c, hc, chain_congr (d := funnelEvents D P.get q.fieldOf dateField linkField diff rows) (d' := s.data D diff rows) rfl hperson.symm htime.symm rfl (fun s hs r => (hholds s hs r).symm) unit value c hch, hl⟩
  · refine hperm.trans (List.Perm.of_eq ?_)
    congr 1
    rw [hbs]
    unfold stepLines
    rw [List.zipIdx_map, List.flatMap_map, List.flatMap_def]
    congr 1
    refine List.map_congr_left fun t _ => ?_
    simp only [Prod.map, id, List.map_map]
    rfl
  · rw [← h11]
    exact hout

/-- The conditions on lines, by fields. -/
theorem funnel_kept {P : FunnelProject} {w : Warehouse} {known : String → Bool} {q : FunnelQuestion} {s : FunnelStmt} (hs : buildFunnel P w known q = .ok s)
    {ds ms : List AnsField} (hp : FunnelProper P q ds ms) (hcol : funnelColumns P w (ms ++ ds) = .ok s.columns) (D : Db ρ)
    (hh : ∀ h ∈ s.having, columnOf s.columns h.1 ≠ none) (l : Nat × List Val) : s.kept D l = true ↔ FunnelKept D P.get q.having (ms ++ ds) l := by
  obtain ⟨-, -, -, -, -, -, -, -, -, -, -, h6, -⟩ := buildFunnel_ok hs
  have hc := funnelColumns_ok hcol
  have hv := havingColumns_ok h6
  have hknown : ∀ f ∈ ms ++ ds, ∃ n, P.get n = .ok f := by
    intro f hf
    rcases List.mem_append.mp hf with hf | hf
    · obtain ⟨n, -, hn⟩ := mem_names hp.metrics hf
      exact ⟨n, hn⟩
    · obtain ⟨n, -, hn⟩ := mem_names hp.dims hf
      exact ⟨n, hn⟩
  unfold FunnelStmt.kept FunnelKept
  rw [List.all_eq_true]
  constructor
  · intro h a haq
    obtain ⟨k, hk⟩ := List.mem_iff_getElem?.mp haq
    obtain ⟨c, hc1, f, hf, rfl⟩ := forall₂_get hv hk
    have := h _ (List.mem_of_getElem? hc1)
    dsimp only at this
    cases hco : columnOf s.columns f.label with
    | none => rw [hco] at this; cases this
    | some x =>
      obtain ⟨j, x⟩ := x
      rw [hco] at this
      obtain ⟨g, hg1, hg2, -⟩ := forall₂_get' hc (columnOf_some hco).1
      obtain ⟨n, hn⟩ := hknown g (List.mem_of_getElem? hg1)
      have := hp.labels _ _ _ _ hf hn hg2
      subst this
      exact ⟨j, f, hg1, hf, by simpa using this⟩
  · intro h c hc0
    obtain ⟨k, hk⟩ := List.mem_iff_getElem?.mp hc0
    obtain ⟨a, ha1, f, hf, rfl⟩ := forall₂_get' hv hk
    obtain ⟨j, g, hj, hg, ht⟩ := h a (List.mem_of_getElem? ha1)
    rw [hf] at hg
    cases hg
    dsimp only
    cases hco : columnOf s.columns f.label with
    | none => exact absurd hco (hh _ hc0)
    | some x =>
      obtain ⟨i, x⟩ := x
      obtain ⟨c', hc1, hc2, -⟩ := forall₂_get hc hj
      have := columnOf_place hco hc1 hc2
      subst this
      simpa using ht

theorem limit_funnel (w : Warehouse) (limit : Option Nat) (lines : List (Nat × List Val)) (hz : limit ≠ some 0 ∨ w ≠ .sqlServer ∧ w ≠ .azureSynapse) :
    FunnelLimited limit lines (match limitClause w limit with | none => lines | some n => lines.take n) := by
  have : limitClause w limit = limit := by
    unfold limitClause
    cases w <;> first
      | rfl
      | (rcases hz with hz | hz
         · simp [hz]
         · simp at hz)
  rw [this]
  cases limit with
  | none => rfl
  | some n => exact ⟨List.take_prefix _ _, List.length_take⟩

/-- The values of a line: metrics over the events of the group, then its dimensions. -/
theorem line_value {P : FunnelProject} {w : Warehouse} {q : FunnelQuestion} {ds ms fs : List AnsField} (hp : FunnelProper P q ds ms)
    (hfs : ∀ g ∈ fs, ∃ n, P.get n = .ok g) (hw : supportsSymmetric w = true) {E : Engine ρ} {events : List ρ}
    (hkey : ∀ f ∈ ms, ∃ key, P.viewKey f.view = some key) {cols : List (SqlExpr × String)}
    (hcols : funnelColumns P w (ms ++ ds) = .ok cols) (hn : ∀ c ∈ cols, ∀ t ∈ c.1.texts, columnOf (rawSelect fs) t ≠ none)
    (hc : ∀ f ∈ ms, ∀ m key, f.sql = .measure m → P.viewKey f.view = some key → Countable E events key f m) {R G : List ρ} (hR : ∀ r ∈ R, r ∈ events)
    (hG : ∀ r, r ∈ R ↔ r ∈ G) :
    ∃ vs, vs.length = ms.length ∧ LineMetrics E P ms G vs ∧
      cols.map (fun c => c.1.eval (baseEngine E (rawSelect fs)) R) = vs ++ ds.map (fun d => (R.head?).bind (fun r => rawValueOf E d r)) := by
  obtain ⟨c1, c2, h3, h4, rfl⟩ := forall₂_append_left (funnelColumns_ok hcols)
  refine ⟨c1.map (fun c => c.1.eval (baseEngine E (rawSelect fs)) R), by rw [List.length_map, h3.length_eq], ?_, ?_⟩
  · unfold LineMetrics
    rw [List.forall₂_map_right_iff]
    refine forall₂_imp_both h3 ?_
    rintro f hf c hcm ⟨-, -, h⟩
    obtain ⟨m, hm, -⟩ := hp.measure f hf
    obtain ⟨a, ha, he⟩ := h m hm
    obtain ⟨key, hk⟩ := hkey f hf
    refine ⟨m, key, hm, hk, ?_⟩
    rw [he]
    refine metric_value hp hfs hw hf hm hk (hc f hf m key hm hk) ha (fun t ht => ?_) hR hG
    exact hn c (List.mem_append_left _ hcm) t (by rw [he]; exact ht)
  · rw [List.map_append]
    congr 1
    have h5 : List.Forall₂ (fun d c => c.1.eval (baseEngine E (rawSelect fs)) R = (R.head?).bind (fun r => rawValueOf E d r)) ds c2 := by
      refine forall₂_imp_both h4 ?_
      rintro d hd c hcm ⟨-, h, -⟩
      obtain ⟨t, ht⟩ := hp.dimension d hd
      have he := h t ht
      obtain ⟨dn, -, hdn⟩ := mem_names hp.dims hd
      rw [he]
      show (R.head?).bind _ = _
      refine Option.bind_congr fun r _ => ?_
      refine base_value (fun g hg e => ?_) (hn c (List.mem_append_right _ hcm) d.label (by rw [he]; simp [SqlExpr.texts])) r
      obtain ⟨n', hn'⟩ := hfs g hg
      exact hp.labels _ _ _ _ hn' hdn e
    clear h4 hn hcols hp
    induction h5 with
    | nil => rfl
    | cons h _ ih => rw [List.map_cons, List.map_cons, h, ih]

/-- C38: the answer of a funnel query by dimensions. There is one table for each step: one line for each combination of dimension values that occurs on an event by which a person
reaches the step, with the metrics over exactly those events, each once however many chains end with it. The answer is the lines of all steps that pass the conditions on lines, in
any order, cut by the limit. Partial: the warehouse has symmetric aggregates (`C38_plain_repeats`); medians are excluded. -/
theorem C38_table_partial (P : FunnelProject) (w : Warehouse) (known : String → Bool) (q : FunnelQuestion) (s : FunnelStmt) (hs : buildFunnel P w known q = .ok s)
    (ds ms : List AnsField) (hp : FunnelProper P q ds ms) (hne : ds ≠ []) (unit : String) (value : ℤ) (hw : GoodWindow known q.window unit value)
    (hsym : supportsSymmetric w = true) (hz : q.limit ≠ some 0 ∨ w ≠ .sqlServer ∧ w ≠ .azureSynapse) (D : Db ρ) (diff : String → ℚ → ℚ → Option ℤ)
    (out : List (Nat × List Val)) (ha : s.Answers D diff out) :
    ∃ (views : List String) (events : List ρ) (date person : AnsField), FunnelViews P q date person views ∧
      (∃ n, eventDate q.viewName (q.metrics.map q.dateOf) = .ok n ∧ P.get n = .ok date) ∧ (∃ n, P.link = .ok n ∧ P.get n = .ok person) ∧
      Behind (FunnelPasses D P.toAnsProject w views q) (fun _ => []) (D.rows views) [] events ∧
      ((∀ f ∈ ms, ∀ m key, f.sql = .measure m → P.viewKey f.view = some key → Countable D.engine events key f m) →
        ∃ (tables : List (List (List Val))) (lines : List (Nat × List Val)), tables.length = q.steps.length ∧
          (∀ n t, tables[n]? = some t → IsFunnelTable events (EndsChain (funnelEvents D P.get q.fieldOf date person diff events) unit value q.steps (n + 1))
            (fun r => ds.map (fun d => rawValueOf D.engine d r)) (LineMetrics D.engine P ms) ms.length t) ∧
          KeptLines (FunnelKept D P.get q.having (ms ++ ds)) (stepLines tables) lines ∧ FunnelLimited q.limit lines out) := by
  obtain ⟨views, events, date, person, fs, parts, lines, p, hv, ⟨hp1, hp2⟩, hdate, hpers, hkey, hfs, hsel, hgb, hcols, hlen, hmem, hperm, hout⟩ := funnel_parts hs hp hw D diff ha
  refine ⟨views, events, date, person, hv, hdate, hpers, ⟨p, fun r _ => by rw [hp1]; simp, hp2⟩, fun hc => ?_⟩
  obtain ⟨hn, hh, -⟩ := ha
  refine ⟨_, lines, ?_, ?_, ⟨_, fun l _ => funnel_kept hs hp hcols D hh l, hperm⟩, ?_⟩
  · rw [List.length_map, hlen]
  · intro n t ht
    rw [List.getElem?_map] at ht
    cases hR : parts[n]? with
    | none => rw [hR] at ht; cases ht
    | some R =>
      rw [hR] at ht
      cases ht
      have hm := hmem n R hR
      have hgne : s.groupBy ≠ [] := by rw [hgb]; simpa using hne
      have hdv : ∀ r, s.groupBy.map (baseValue D.engine s.base.select r) = ds.map (fun d => rawValueOf D.engine d r) := by
        intro r
        rw [hgb, List.map_map]
        refine List.map_congr_left fun d hd => ?_
        obtain ⟨dn, -, hdn⟩ := mem_names hp.dims hd
        have := hn d.label (by unfold FunnelStmt.names; rw [hgb]; exact List.mem_append_right _ (List.mem_map.mpr ⟨d, hd, rfl⟩))
        rw [hsel] at this
        show baseValue _ _ _ _ = _
        rw [hsel]
        refine base_value (fun g hg e => ?_) this r
        obtain ⟨n', hn'⟩ := hfs g hg
        exact hp.labels _ _ _ _ hn' hdn e
      have hev : ∀ r ∈ R, r ∈ events := by
        intro r hr
        obtain ⟨c, -, hch, hl⟩ := (hm r).mp hr
        exact hch.events r (List.mem_of_getLast? hl)
      have hnc : ∀ c ∈ s.columns, ∀ t ∈ c.1.texts, columnOf (rawSelect fs) t ≠ none := by
        intro c hcm t ht
        rw [← hsel]
        exact hn t (by unfold FunnelStmt.names; exact List.mem_append_left _ (List.mem_append_right _ (List.mem_flatMap.mpr ⟨c, hcm, ht⟩)))
      unfold FunnelStmt.groups
      dsimp only
      rw [if_neg hgne]
      simp only [hdv]
      classical
      let dims : ρ → List Val := fun r => ds.map (fun d => rawValueOf D.engine d r)
      have hline : ∀ k, k ∈ R.map dims → ∃ vs G, G ≠ [] ∧
          Behind (EndsChain (funnelEvents D P.get q.fieldOf date person diff events) unit value q.steps (n + 1)) dims events k G ∧
          vs.length = ms.length ∧ LineMetrics D.engine P ms G vs ∧ (s.line D 0 (R.filter (fun r => dims r = k))).2 = vs ++ k := by
        intro k hk
        obtain ⟨r, hr, hrk⟩ := List.mem_map.mp hk
        have hGm : ∀ x, x ∈ R.filter (fun r => dims r = k) ↔ x ∈ events.filter (fun x => decide (x ∈ R ∧ dims x = k)) := by
          intro x
          simp only [List.mem_filter, decide_eq_true_eq]
          exact ⟨fun h => ⟨hev x h.1, h⟩, fun h => h.2⟩
        obtain ⟨vs, hl, hmv, he⟩ := line_value hp hfs hsym hkey hcols hnc hc (R := R.filter (fun r => dims r = k)) (fun x hx => hev x (List.mem_filter.mp hx).1) hGm
        refine ⟨vs, events.filter (fun x => decide (x ∈ R ∧ dims x = k)), ?_, ⟨_, fun x _ => ?_, rfl⟩, hl, hmv, ?_⟩
        · refine List.ne_nil_of_mem (a := r) (List.mem_filter.mpr ⟨hev r hr, ?_⟩)
          simp [hr, hrk]
        · simp only [decide_eq_true_eq]
          rw [hm x]
        · show s.columns.map _ = _
          rw [hsel, he]
          congr 1
          cases hf : R.filter (fun r => dims r = k) with
          | nil =>
            have : r ∈ R.filter (fun r => dims r = k) := List.mem_filter.mpr ⟨hr, by simpa using hrk⟩
            rw [hf] at this
            cases this
          | cons y ys =>
            have : y ∈ R.filter (fun r => dims r = k) := by rw [hf]; simp
            have := (List.mem_filter.mp this).2
            simp only [decide_eq_true_eq] at this
            rw [← this]
            rfl
      refine ⟨?_, ?_, ?_⟩
      · intro l hl
        obtain ⟨G', hG', rfl⟩ := List.mem_map.mp hl
        obtain ⟨k, hk, rfl⟩ := List.mem_map.mp hG'
        obtain ⟨vs, G, h1, h2, h3, h4, h5⟩ := hline k (List.mem_dedup.mp hk)
        exact ⟨k, G, vs, h1, h2, h3, h4, h5⟩
      · intro r hr he
        have hrR : r ∈ R := (hm r).mpr he
        have hk : dims r ∈ R.map dims := List.mem_map.mpr ⟨r, hrR, rfl⟩
        obtain ⟨vs, G, h1, h2, h3, h4, h5⟩ := hline (dims r) hk
        refine ⟨vs, h3, ?_⟩
        show vs ++ dims r ∈ _
        rw [← h5]
        exact List.mem_map.mpr ⟨_, List.mem_map.mpr ⟨dims r, List.mem_dedup.mpr hk, rfl⟩, rfl⟩
      · rw [List.map_map, List.map_map]
        have : (R.map dims).dedup.map ((List.drop ms.length ∘ fun G => (s.line D 0 G).2) ∘ fun k => R.filter (fun r => dims r = k)) = (R.map dims).dedup := by
          conv_rhs => rw [← List.map_id (R.map dims).dedup]
          refine List.map_congr_left fun k hk => ?_
          obtain ⟨vs, G, h1, h2, h3, h4, h5⟩ := hline k (List.mem_dedup.mp hk)
          show List.drop ms.length (s.line D 0 (R.filter (fun r => dims r = k))).2 = k
          rw [h5, ← h3, List.drop_left]
        exact Eq.mpr (congrArg List.Nodup this) (List.nodup_dedup _)
  · rw [hout]
    exact limit_funnel w q.limit lines hz

/-- C38: the answer of a funnel query without dimensions: one line for each step, with the metrics over exactly the events by which persons reach it, each once. -/
theorem C38_totals_partial (P : FunnelProject) (w : Warehouse) (known : String → Bool) (q : FunnelQuestion) (s : FunnelStmt) (hs : buildFunnel P w known q = .ok s)
    (ms : List AnsField) (hp : FunnelProper P q [] ms) (hne : ms ≠ []) (unit : String) (value : ℤ) (hw : GoodWindow known q.window unit value)
    (hsym : supportsSymmetric w = true) (hz : q.limit ≠ some 0 ∨ w ≠ .sqlServer ∧ w ≠ .azureSynapse) (D : Db ρ) (diff : String → ℚ → ℚ → Option ℤ)
    (out : List (Nat × List Val)) (ha : s.Answers D diff out) :
    ∃ (views : List String) (events : List ρ) (date person : AnsField), FunnelViews P q date person views ∧
      (∃ n, eventDate q.viewName (q.metrics.map q.dateOf) = .ok n ∧ P.get n = .ok date) ∧ (∃ n, P.link = .ok n ∧ P.get n = .ok person) ∧
      Behind (FunnelPasses D P.toAnsProject w views q) (fun _ => []) (D.rows views) [] events ∧
      ((∀ f ∈ ms, ∀ m key, f.sql = .measure m → P.viewKey f.view = some key → Countable D.engine events key f m) →
        ∃ (totals : List (List Val)) (lines : List (Nat × List Val)), totals.length = q.steps.length ∧
          (∀ n vs, totals[n]? = some vs → ∃ G, Behind (EndsChain (funnelEvents D P.get q.fieldOf date person diff events) unit value q.steps (n + 1)) (fun _ => []) events [] G ∧
            LineMetrics D.engine P ms G vs) ∧
          KeptLines (FunnelKept D P.get q.having ms) (stepLines (totals.map (fun vs => [vs]))) lines ∧ FunnelLimited q.limit lines out) := by
  obtain ⟨views, events, date, person, fs, parts, lines, p, hv, ⟨hp1, hp2⟩, hdate, hpers, hkey, hfs, hsel, hgb, hcols, hlen, hmem, hperm, hout⟩ := funnel_parts hs hp hw D diff ha
  refine ⟨views, events, date, person, hv, hdate, hpers, ⟨p, fun r _ => by rw [hp1]; simp, hp2⟩, fun hc => ?_⟩
  obtain ⟨hn, hh, -⟩ := ha
  have hcn : s.columns ≠ [] := by
    intro e
    have := (funnelColumns_ok hcols).length_eq
    rw [e] at this
    simp at this
    exact hne this
  have hgr : ∀ R, s.groups D R = [R] := by
    intro R
    unfold FunnelStmt.groups
    rw [if_pos (by rw [hgb]; rfl), if_neg hcn]
  refine ⟨parts.map (fun R => (s.line D 0 R).2), lines, by rw [List.length_map, hlen], ?_, ⟨s.kept D, fun l _ => ?_, ?_⟩, ?_⟩
  · intro n vs hvs
    rw [List.getElem?_map] at hvs
    cases hR : parts[n]? with
    | none => rw [hR] at hvs; cases hvs
    | some R =>
      rw [hR] at hvs
      cases hvs
      have hm := hmem n R hR
      have hev : ∀ r ∈ R, r ∈ events := by
        intro r hr
        obtain ⟨c, -, hch, hl⟩ := (hm r).mp hr
        exact hch.events r (List.mem_of_getLast? hl)
      have hnc : ∀ c ∈ s.columns, ∀ t ∈ c.1.texts, columnOf (rawSelect fs) t ≠ none := by
        intro c hcm t ht
        rw [← hsel]
        exact hn t (by unfold FunnelStmt.names; exact List.mem_append_left _ (List.mem_append_right _ (List.mem_flatMap.mpr ⟨c, hcm, ht⟩)))
      classical
      have hGm : ∀ x, x ∈ R ↔ x ∈ events.filter (fun x => decide (x ∈ R)) := by
        intro x
        simp only [List.mem_filter, decide_eq_true_eq]
        exact ⟨fun h => ⟨hev x h, h⟩, fun h => h.2⟩
      obtain ⟨vs, hl, hmv, he⟩ := line_value hp hfs hsym hkey hcols hnc hc hev hGm
      refine ⟨events.filter (fun x => decide (x ∈ R)), ⟨_, fun x _ => ?_, rfl⟩, ?_⟩
      · rw [decide_eq_true_eq, hm x]
        simp
      · have : (s.line D 0 R).2 = vs := by
          show s.columns.map _ = _
          rw [hsel, he]
          simp
        show LineMetrics _ _ _ _ (s.line D 0 R).2
        rw [this]
        exact hmv
  · have := funnel_kept hs hp hcols D hh l
    rw [List.append_nil] at this
    exact this
  · refine hperm.trans (List.Perm.of_eq ?_)
    congr 2
    rw [List.map_map]
    refine List.map_congr_left fun R _ => ?_
    rw [hgr]
    rfl
  · rw [hout]
    exact limit_funnel w q.limit lines hz

/-- C38: a funnel query with `order_by` is always refused. -/
theorem C38_order_by (P : FunnelProject) (w : Warehouse) (known : String → Bool) (q : FunnelQuestion) (h : q.hasOrder = true) (s : FunnelStmt) : buildFunnel P w known q ≠ .ok s := by
  intro hs
  obtain ⟨_, _, _, _, _, _, -, h2, -⟩ := buildFunnel_ok hs
  have := (funnelBase_ok h2).1
  rw [h] at this
  cases this

/-- C38: a funnel query with a metric whose view has no primary key is always refused. -/
theorem C38_no_key (P : FunnelProject) (w : Warehouse) (known : String → Bool) (q : FunnelQuestion) (n : String) (hn : n ∈ q.metrics) (f : AnsField) (hf : P.get n = .ok f)
    (hk : P.viewKey f.view = none) (s : FunnelStmt) : buildFunnel P w known q ≠ .ok s := by
  intro hs
  obtain ⟨_, _, _, _, _, _, h1, -⟩ := buildFunnel_ok hs
  obtain ⟨-, g2, -, -, lk, -, ks, g5⟩ := funnelFields_ok h1
  obtain ⟨k, hk'⟩ := enrichMetrics_haskey g5 n (by rw [g2]; exact List.mem_append_left _ hn) f hf
  rw [hk] at hk'
  cases hk'

/-- C38: when no field tagged as the customer can be joined, the query is refused as a wrong query. -/
theorem C38_no_customer (P : FunnelProject) (w : Warehouse) (known : String → Bool) (q : FunnelQuestion) (date : String)
    (hd : eventDate q.viewName (q.metrics.map q.dateOf) = .ok date) (f : AnsField) (hf : P.get date = .ok f) (e : Err) (hl : P.link = .error e) :
    buildFunnel P w known q = .error .query := by
  unfold buildFunnel funnelFields
  rw [hd]
  dsimp only
  rw [hf]
  dsimp only
  rw [hl]

/-- C38: a condition on a metric that is also requested makes two columns of one name: no warehouse answers the statement. -/
theorem C38_having_twice (P : FunnelProject) (w : Warehouse) (known : String → Bool) (q : FunnelQuestion) (s : FunnelStmt) (hs : buildFunnel P w known q = .ok s) (n : String) (i : Nat)
    (hn : n ∈ q.metrics) (hh : (n, i) ∈ q.having) (D : Db ρ) (diff : String → ℚ → ℚ → Option ℤ) (out : List (Nat × List Val)) : ¬ s.Answers D diff out := by
  rintro ⟨-, ha, -⟩
  obtain ⟨_, _, _, metrics, _, gs, h1, -, -, h4, h5, h6, -⟩ := buildFunnel_ok hs
  obtain ⟨-, g2, -⟩ := funnelFields_ok h1
  obtain ⟨k, hk⟩ := List.mem_iff_getElem?.mp hh
  obtain ⟨c, hc1, f, hf, rfl⟩ := forall₂_get (havingColumns_ok h6) hk
  have hco := ha _ (List.mem_of_getElem? hc1)
  dsimp only at hco
  obtain ⟨⟨j, x⟩, hx⟩ := Option.ne_none_iff_exists'.mp hco
  have hnames := getAll_names (P := P.toAnsProject).mp h4
  have hcol := funnelColumns_ok h5
  have place : ∀ (b : Nat), (metrics ++ q.dimensions)[b]? = some n → b = j := by
    intro b hb
    obtain ⟨g, hg1, hg2⟩ := forall₂_get hnames hb
    rw [hf] at hg2
    cases hg2
    obtain ⟨c, hc2, hc3, -⟩ := forall₂_get hcol hg1
    exact columnOf_place hx hc2 hc3
  obtain ⟨a, ha1⟩ := List.mem_iff_getElem?.mp hn
  obtain ⟨b, hb1⟩ := List.mem_iff_getElem?.mp (show n ∈ setOf (q.having.map Prod.fst) from List.mem_dedup.mpr (List.mem_map.mpr ⟨_, hh, rfl⟩))
  have hal := (List.getElem?_eq_some_iff.mp ha1).1
  have e1 := place a (by rw [g2, List.append_assoc, List.getElem?_append_left hal]; exact ha1)
  have hbl := (List.getElem?_eq_some_iff.mp hb1).1
  have e2 := place (q.metrics.length + b) (by
    rw [g2, List.append_assoc, List.getElem?_append_right (by omega), Nat.add_sub_cancel_left, List.getElem?_append_left hbl]
    exact hb1)
  omega

end
end ML
