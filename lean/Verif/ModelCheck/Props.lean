import Verif.ModelCheck.Exact
import Verif.ViewCheck.Props
/-
C64: what validating a model reports, when it raises, the mappings a model has, and what a model without reports is good for.
-/
set_option autoImplicit false
namespace ML
open Spec

/-! ### Definitions for the examples -/

/-- A project with the dates `orders.created` (of two fields) and `visits.seen` (of one), the dimensions `orders.channel` and `visits.channel`,
and a name, `channel`, that stands for both. -/
def mcEnv : ModelCheckEnv where
  getText := fun n =>
    if n = "orders.channel" ∨ n = "visits.channel" then .ok fcPrice
    else if n ∈ (reserved.map ("orders.created_" ++ ·)) ∨ n = "visits.seen_date" ∨ n = "visits.seen_month" then .ok fcDate
    else if n = "channel" then .error .query else .error .accessDenied
  timezone := fun v => v.oneOf ["UTC", "Europe/Paris"]
  dates := .ok [some "visits.seen", none, some "orders.created", some "orders.created"]
  badField := false
  order := ["month", "date", "day_of_year", "week_of_year", "week", "month_of_year", "quarter", "year"]

theorem mcEnv_looksUp : ModelLooksUp mcEnv where
  getText := by
    intro n e h
    simp only [mcEnv] at h
    split at h
    · cases h
    · split at h
      · cases h
      · split at h <;> cases h
        · exact .inr rfl
        · exact .inl rfl
  dates := by
    refine ⟨_, rfl, ?_⟩
    intro x w hx hw
    have : ∀ w ∈ reserved, ∀ x ∈ ["visits.seen", "orders.created"], mcEnv.getText (x ++ "_" ++ w) ≠ .error .query := by decide +kernel
    refine this w hw x ?_
    simpa using hx
  order := by decide +kernel

/-- A model in order. -/
def mcModel : FDef :=
  [("version", .int 1), ("type", .str "model"), ("name", .str "shop"), ("connection", .str "wh"), ("week_start_day", .str "sunday"),
   ("timezone", .str "Europe/Paris"), ("default_convert_tz", .bool false),
   ("access_grants", .list [.dict [("name", .str "finance"), ("user_attribute", .str "team"), ("allowed_values", .list [.str "money", .int 3])]]),
   ("mappings", .dict [("channel", .dict [("fields", .list [.str "orders.channel", .str "visits.channel"]), ("group_label", .str "Marketing")])])]

/-- A model with much wrong: its name, the weekday, a time zone, a grant without a text among its values, a mapping with an unknown field and a
name that stands for several, after which nothing of the mappings is looked at, and a property that the program reads but validation does not
know. -/
def mcBad : FDef :=
  [("name", .str "my shop"), ("connection", .str "wh"), ("week_start_day", .str "Sunday"), ("timezone", .str "Paris"),
   ("default_convert_timezone", .bool false),
   ("access_grants", .list [.dict [("name", .str "finance"), ("user_attribute", .str "team"), ("allowed_values", .list [])],
     .dict [("name", .str "other")], .str "x"]),
   ("mappings", .dict [("a b", .dict [("fields", .list [.str "orders.cost", .str "channel", .str "orders.price"]), ("colour", .int 1)]),
     ("c d", .str "nothing")])]

/-! ### What is reported -/

/-- C64 (a): a definition without a name or without a connection is rejected when the model is made; nothing else is, and nothing changes. -/
theorem C64_made (d : FDef) :
    ((∃ e, modelInit d = .error e) ↔ ¬ HasKey d "name" ∨ ¬ HasKey d "connection") ∧ ∀ d', modelInit d = .ok d' → d' = d := by
  unfold modelInit
  rw [← isSome_iff_hasKey, ← isSome_iff_hasKey]
  by_cases h : (dictGet d "name").isSome = true ∧ (dictGet d "connection").isSome = true
  · rw [if_pos h]; simp [h.1, h.2]
  · rw [if_neg h]
    refine ⟨?_, by simp⟩
    simp only [Except.error.injEq, exists_eq', true_iff]
    by_cases h1 : (dictGet d "name").isSome = true
    · exact .inr (fun h2 => h ⟨h1, h2⟩)
    · exact .inl h1

example : modelInit [("name", .str "shop")] = .error .query ∧ modelInit mcModel = .ok mcModel := ⟨by rfl, by rfl⟩

/-- C64 (b): when validating a model ends with a report, the report lists exactly the problems of the specification. -/
theorem C64_exact (env : ModelCheckEnv) (hl : ModelLooksUp env) (d : FDef) (name : String) (hn : Given d "name" (.str name)) (ps : List ModelProblem)
    (h : modelErrorsOf env d = .ok ps) (p : ModelProblem) : p ∈ ps ↔ ModelHas env name d p := by
  rw [← model_says hl hn ⟨ps, h⟩, h, says_ok]

/-- The model in order, and the one with much wrong. -/
example : modelErrorsOf mcEnv mcModel = .ok [] ∧
    modelErrorsOf mcEnv mcBad = .ok [.badName, .weekStart, .timezone, .grant .noText, .grant (.missing "user_attribute"),
      .grant (.missing "name"), .mapping "a b" .badName, .mapping "a b" (.unknown "orders.cost"), .mappings,
      .unknownKey "default_convert_timezone"] := ⟨by decide +kernel, by decide +kernel⟩

/-- C64 (c): the models for which validation ends with an exception instead of a report. -/
theorem C64_raises (env : ModelCheckEnv) (hl : ModelLooksUp env) (d : FDef) (name : String) (hn : Given d "name" (.str name)) :
    (∃ e, modelErrorsOf env d = .error e) ↔ ModelRaises env d := model_fails hl hn

/-- C64 (c): so does a model whose name is no text. -/
theorem C64_raises_name (env : ModelCheckEnv) (d : FDef) (h : ¬ GivesText d "name") : ∃ e, modelErrorsOf env d = .error e := by
  unfold modelErrorsOf
  split
  · rename_i n hn; exact absurd ⟨n, hn⟩ h
  · exact ⟨_, rfl⟩

/-- A mapping without fields, a mapping with a number among its fields, a number among the grants, and a name that is a number. -/
example : modelErrorsOf mcEnv [("name", .str "shop"), ("mappings", .dict [("channel", .dict [])])] = .error .keyError ∧
    modelErrorsOf mcEnv [("name", .str "shop"), ("mappings", .dict [("channel", .dict [("fields", .list [.int 1])])])] = .error .typeError ∧
    modelErrorsOf mcEnv [("name", .str "shop"), ("access_grants", .list [.dict [], .int 1])] = .error .typeError ∧
    modelErrorsOf mcEnv [("name", .int 1)] = .error .typeError := ⟨by rfl, by rfl, by rfl, by rfl⟩

/-- C64 (d): grants may be mixed with anything and allowed values with anything, but none at all counts as an error: an empty list of grants, or of
allowed values, is reported, and a list with one value of the right kind is not. -/
theorem C64_grants (env : ModelCheckEnv) (hl : ModelLooksUp env) (d : FDef) (name : String) (hn : Given d "name" (.str name)) (ps : List ModelProblem)
    (h : modelErrorsOf env d = .ok ps) :
    (Given d "access_grants" (.list []) → .noGrant ∈ ps) ∧
    (∀ l g, Given d "access_grants" (.list l) → Yaml.dict g ∈ l → .noGrant ∉ ps ∧
      (HasKey g "name" → HasKey g "user_attribute" → Given g "allowed_values" (.list []) → .grant .noText ∈ ps)) ∧
    ∀ g s l, Given d "access_grants" (.list [.dict g]) → Given g "allowed_values" (.list l) → Yaml.str s ∈ l → .grant .noText ∉ ps := by
  refine ⟨?_, ?_, ?_⟩
  · intro hg
    rw [C64_exact env hl d name hn ps h]
    exact .noGrant hg (by simp)
  · intro l g hg hgl
    rw [C64_exact env hl d name hn ps h, C64_exact env hl d name hn ps h]
    constructor
    · intro hp
      cases hp with
      | noGrant h1 h2 =>
        have := given_unique hg h1
        cases this
        exact h2 _ hgl ⟨g, rfl⟩
    · intro h1 h2 h3
      exact .grant hg hgl (.noText h1 h2 h3 (by simp))
  · intro g s l hg ha hs
    rw [C64_exact env hl d name hn ps h]
    intro hp
    cases hp with
    | grant h1 h2 h3 =>
      have := given_unique hg h1
      cases this
      rw [List.mem_singleton] at h2
      cases h2
      cases h3 with
      | noText _ _ h4 h5 =>
        have := given_unique ha h4
        cases this
        exact h5 _ hs ⟨s, rfl⟩

/-- No grants at all: an error. -/
example : modelErrorsOf mcEnv [("name", .str "shop"), ("access_grants", .list [])] = .ok [.noGrant] := by decide +kernel

/-! ### The mappings of a model -/

/-- C64 (e): the mappings of a model are those of the definition, and for each reserved name the dates of the project's fields that have that
timeframe, the dates of most fields first; a definition that uses a reserved name has no mappings at all. -/
theorem C64_mappings (env : ModelCheckEnv) (hl : ModelLooksUp env) (d ms : FDef) (hw : WrittenMappings d ms) :
    ((∃ e, mappingsOf env d = .error e) ↔ ∃ w ∈ reserved, HasKey ms w) ∧
    ∀ r, mappingsOf env d = .ok r → (∀ k v, k ∉ reserved → (Given r k v ↔ Given ms k v)) ∧
      ∀ w ∈ reserved, ∃ ds q l, env.dates = .ok ds ∧ Given r w (.dict q) ∧ Given q "fields" (.list (l.map .str)) ∧ DatesRanked env ds w l := by
  obtain ⟨f1, f2⟩ := mappingsOf_facts hl hw
  by_cases hr : ∃ w ∈ reserved, HasKey ms w
  · rw [f1 hr]
    refine ⟨⟨fun _ => hr, fun _ => ⟨_, rfl⟩⟩, ?_⟩
    intro r h; cases h
  · have hr' : ∀ w ∈ reserved, ¬ HasKey ms w := by push Not at hr; exact hr
    obtain ⟨ds, hds, hm⟩ := f2 hr'
    rw [hm]
    refine ⟨⟨?_, fun h => absurd h hr⟩, ?_⟩
    · rintro ⟨e, h⟩; cases h
    · intro r h
      cases h
      have happ : ∀ (a b : FDef) (k : String), dictGet (a ++ b) k = if (dictGet a k).isSome then dictGet a k else dictGet b k := by
        intro a b k
        induction a with
        | nil => simp [dictGet]
        | cons x a ih =>
          obtain ⟨y, z⟩ := x
          simp only [List.cons_append, dictGet]
          split
          · simp
          · exact ih
      have hmap : ∀ (ws : List String) (k : String), dictGet (ws.map (fun w => (w, dateMapping env ds w))) k =
          if k ∈ ws then some (dateMapping env ds k) else none := by
        intro ws k
        induction ws with
        | nil => simp [dictGet]
        | cons x ws ih =>
          simp only [List.map_cons, dictGet, List.mem_cons, ih]
          by_cases hx : x = k
          · simp [hx]
          · simp [hx, Ne.symm hx]
      constructor
      · intro k v hk
        unfold Given
        rw [happ, hmap, if_neg (fun h => hk (hl.order.mem_iff.mp h))]
        cases dictGet ms k <;> simp
      · intro w hw'
        refine ⟨ds, [("fields", .list ((datesFor env w (dateRanks ds)).map .str)), ("group_label", .str "Dates"),
          ("description", .str (dateDescription w))], datesFor env w (dateRanks ds), hds, ?_, by simp [Given, dictGet], datesFor_ranked⟩
        unfold Given
        rw [happ, hasKey_none.mp (hr' w hw'), hmap, if_pos (hl.order.mem_iff.mpr hw')]
        rfl

/-- The date of two fields comes before the date of one, although it comes later in the project; the one that has no quarters is left out. -/
example : (do let r ← mappingsOf mcEnv mcModel; .ok ((mappingLists r).map (·.2))) =
    (.ok [["orders.channel", "visits.channel"], ["orders.created_month", "visits.seen_month"], ["orders.created_date", "visits.seen_date"],
      ["orders.created_day_of_year"], ["orders.created_week_of_year"], ["orders.created_week"], ["orders.created_month_of_year"],
      ["orders.created_quarter"], ["orders.created_year"]] : Res (List (List String))) := by decide +kernel

/-- C64 (f): when the date of some field cannot be told, validation says so about the mappings, or raises when a field misses a required key; with
a reserved name among the mappings, or mappings that are no dictionary, it never looks at the dates. -/
theorem C64_dates_unknown (env : ModelCheckEnv) (ho : env.order.Perm reserved) (hd : env.dates = .error .query) (d : FDef) (name : String)
    (hn : Given d "name" (.str name)) :
    (∀ ms, WrittenMappings d ms → (∀ w ∈ reserved, ¬ HasKey ms w) → (env.badField = true → ∃ e, modelErrorsOf env d = .error e) ∧
      (env.badField = false → ∀ ps, modelErrorsOf env d = .ok ps → .mappings ∈ ps ∧ ∀ n p, .mapping n p ∉ ps)) ∧
    (GivenNot d "mappings" Dictionary → ∀ ps, modelErrorsOf env d = .ok ps → .mappings ∈ ps) := by
  have hmem : ∀ ps, modelErrorsOf env d = .ok ps → mappingsChecks env d = .ok [.mappings] → .mappings ∈ ps ∧ ∀ n p, .mapping n p ∉ ps := by
    intro ps hps hm
    rw [modelErrorsOf_named hn] at hps
    have key := (seqChecks_ok hps).2
    constructor
    · rw [key]
      exact ⟨mappingsChecks env d, by simp, _, hm, by simp⟩
    · intro n p
      rw [key]
      rintro ⟨c, hc, qs, rfl, hq⟩
      simp only [List.mem_cons, List.not_mem_nil, or_false, Except.ok.injEq] at hc
      rcases hc with rfl | rfl | hc | hc | rfl
      · split at hq <;> simp at hq
      · simp only [List.mem_append, wants_mem, reduceCtorEq, false_and, or_false] at hq
      · have := (grantsChecks_says ⟨qs, hc.symm⟩).mp (show Says (grantsChecks d) (.mapping n p) from ⟨qs, hc.symm, hq⟩)
        rcases this with ⟨h, -⟩ | ⟨h, -⟩ | ⟨_, _, _, _, _, _, h⟩ | ⟨h, -⟩ <;> cases h
      · rw [hm] at hc; cases hc; simp at hq
      · obtain ⟨k, -, -, h⟩ := unknownKeys_mem.mp hq; cases h
  have hne : ∃ w ws, env.order = w :: ws ∧ w ∈ reserved := by
    cases h : env.order with
    | nil => rw [h] at ho; exact absurd ho (by decide +kernel)
    | cons w ws => exact ⟨w, ws, rfl, ho.mem_iff.mp (by rw [h]; simp)⟩
  obtain ⟨w, ws, hord, hwr⟩ := hne
  constructor
  · intro ms hw hr
    have hno := hasKey_none.mp (hr w hwr)
    have hm : mappingsOf env d = .error .query := by
      rw [mappingsOf_written hw, hord]
      simp only [addDates, hno, hd]
      simp
    have hraised : datesRaised env d = true := by
      unfold datesRaised
      rw [hd, hord]
      cases hw with
      | none h => rw [hasKey_none.mp h]; rfl
      | some h => rw [show dictGet d "mappings" = _ from h]; simp [hno]
    constructor
    · intro hb
      have : mappingsChecks env d = .error .query := by unfold mappingsChecks; rw [hm, hraised, hb]; rfl
      have hf : Fails (modelErrorsOf env d) := by
        rw [modelErrorsOf_named hn, fails_seq]
        exact ⟨mappingsChecks env d, by simp, _, this⟩
      exact hf
    · intro hb ps hps
      exact hmem ps hps (by unfold mappingsChecks; rw [hm, hb]; rfl)
  · intro hk ps hps
    have hdr : datesRaised env d = false := by
      obtain ⟨v, hv, hnd⟩ := hk
      unfold datesRaised
      rw [hd, hord, show dictGet d "mappings" = _ from hv]
      cases v with
      | dict q => exact absurd ⟨q, rfl⟩ hnd
      | _ => rfl
    exact (hmem ps hps (by unfold mappingsChecks; rw [mappingsOf_kind hk, hdr]; simp)).1

/-- A field with a broken date. -/
example : modelErrorsOf { mcEnv with dates := .error .query } mcModel = .ok [.mappings] ∧
    modelErrorsOf { mcEnv with dates := .error .query, badField := true } mcModel = .error .query := ⟨by decide +kernel, by decide +kernel⟩

/-! ### What a model without reports is good for -/

/-- C64 (g): in a model without reports the week starts on a weekday, grants are complete, and every field of every mapping is found. -/
theorem C64_clean (env : ModelCheckEnv) (hl : ModelLooksUp env) (d : FDef) (name : String) (hn : Given d "name" (.str name))
    (h : modelErrorsOf env d = .ok []) :
    (∀ v, Given d "week_start_day" v → Word ["monday", "tuesday", "wednesday", "thursday", "friday", "saturday", "sunday"] v) ∧
    (∀ v, Given d "access_grants" v → ∃ l, v = .list l ∧ ∀ x ∈ l, ∃ g n a vs s, x = .dict g ∧ Given g "name" (.str n) ∧ ProperName n ∧
      Given g "user_attribute" (.str a) ∧ Given g "allowed_values" (.list vs) ∧ Yaml.str s ∈ vs) ∧
    ∃ ms, WrittenMappings d ms ∧ (∀ w ∈ reserved, ¬ HasKey ms w) ∧ ∀ m ∈ ms, ProperName m.1 ∧ ∃ q l, m.2 = .dict q ∧
      Given q "fields" (.list l) ∧ ∀ x ∈ l, ∃ f g, x = .str f ∧ env.getText f = .ok g := by
  have hno : ∀ p, ¬ ModelHas env name d p := by
    intro p hp
    have := (C64_exact env hl d name hn [] h p).mpr hp
    simp at this
  have hnr : ¬ ModelRaises env d := by
    rw [← C64_raises env hl d name hn, h]; rintro ⟨e, he⟩; cases he
  refine ⟨?_, ?_, ?_⟩
  · intro v hv
    by_contra hc
    exact hno _ (.weekStart ⟨v, hv, hc⟩)
  · intro v hv
    by_cases hlist : Listed v
    · obtain ⟨l, rfl⟩ := hlist
      refine ⟨l, rfl, ?_⟩
      have hex : ∃ g, Yaml.dict g ∈ l := by
        by_contra hc
        refine hno _ (.noGrant hv ?_)
        rintro x hx ⟨g, rfl⟩; exact hc ⟨g, hx⟩
      obtain ⟨g0, hg0⟩ := hex
      intro x hx
      by_cases hd : Dictionary x
      · obtain ⟨g, rfl⟩ := hd
        have gno : ∀ p, ¬ GrantHas g p := fun p hp => hno _ (.grant hv hx hp)
        have k1 : HasKey g "name" := by by_contra hc; exact gno _ (.noName hc)
        have k2 : HasKey g "user_attribute" := by by_contra hc; exact gno _ (.noAttribute k1 hc)
        have k3 : HasKey g "allowed_values" := by by_contra hc; exact gno _ (.noValues k1 k2 hc)
        obtain ⟨nv, hnv⟩ := k1
        obtain ⟨uv, huv⟩ := k2
        obtain ⟨av, hav⟩ := k3
        have hnt : Text nv := by
          by_contra hc
          exact hnr (.grantName hv hx ⟨_, huv⟩ ⟨_, hav⟩ ⟨_, hnv, hc⟩)
        have hut : Text uv := by
          by_contra hc
          exact gno _ (.attributeKind ⟨_, hnv⟩ ⟨_, hav⟩ ⟨_, huv, hc⟩)
        have hal : Listed av := by
          by_contra hc
          exact gno _ (.valuesKind ⟨_, hnv⟩ ⟨_, huv⟩ ⟨_, hav, hc⟩)
        obtain ⟨n, rfl⟩ := hnt
        obtain ⟨a, rfl⟩ := hut
        obtain ⟨vs, rfl⟩ := hal
        have hsome : ∃ s, Yaml.str s ∈ vs := by
          by_contra hc
          refine gno _ (.noText ⟨_, hnv⟩ ⟨_, huv⟩ hav ?_)
          rintro y hy ⟨s, rfl⟩; exact hc ⟨s, hy⟩
        obtain ⟨s, hs⟩ := hsome
        refine ⟨g, n, a, vs, s, rfl, hnv, ?_, huv, hav, hs⟩
        by_contra hc
        exact gno _ (.name ⟨_, huv⟩ ⟨_, hav⟩ hnv hc)
      · by_cases hnl : NamelessGrant x
        · exact absurd (.grantItem hv hg0 hx hnl) (hno _)
        · exact absurd (.grantItem hv hg0 hx hd hnl) hnr
    · exact absurd (.grantsKind ⟨v, hv, hlist⟩) (hno _)
  · rcases written_cases d with hk | ⟨ms, hw⟩
    · exact absurd (.mappingsKind hk) (hno _)
    · have hres : ∀ w ∈ reserved, ¬ HasKey ms w := fun w hwr hk => hno _ (.reserved hw hwr hk)
      refine ⟨ms, hw, hres, ?_⟩
      have hamb : ∀ m ∈ ms, ¬ AmbiguousMap env m.2 := fun m hm ha => hno _ (.ambiguous hw hm ha)
      intro m hm
      have hreach : MapReached env ms m.1 m.2 := by
        obtain ⟨a, b, e⟩ := List.append_of_mem hm
        exact ⟨a, b, e, fun x hx => hamb x (by rw [e]; exact List.mem_append_left _ hx)⟩
      have mno : ∀ p, ¬ MapHas env ms m.1 p := fun p hp => hno _ (.mapping hw hres hp)
      refine ⟨by by_contra hc; exact mno _ (.name hreach hc), ?_⟩
      by_cases hd : Dictionary m.2
      · obtain ⟨q, hq⟩ := hd
        rw [hq] at hreach
        have hf : HasKey q "fields" := by by_contra hc; exact hnr (.noFields hw hres hreach hc)
        obtain ⟨v, hv⟩ := hf
        by_cases hlv : Listed v
        · obtain ⟨l, rfl⟩ := hlv
          refine ⟨q, l, hq, hv, ?_⟩
          intro x hx
          obtain ⟨a, b, rfl⟩ := List.append_of_mem hx
          have hna : ∀ f, Yaml.str f ∈ a ++ x :: b → ¬ Ambiguous (env.getText f) := by
            intro f hf hc
            exact hamb m hm ⟨q, _, f, hq, hv, hf, hc⟩
          have hfr : FieldReached env ms m.1 x := ⟨q, a, b, hreach, hv, fun f hf => hna f (List.mem_append_left _ hf)⟩
          have ht : Text x := by by_contra hc; exact hnr (.fieldKind hw hres hfr hc)
          obtain ⟨f, rfl⟩ := ht
          cases hg : env.getText f with
          | ok g => exact ⟨f, g, rfl, hg⟩
          | error e =>
            rcases hl.getText f e hg with rfl | rfl
            · exact absurd (.unknown hfr hg) (mno _)
            · exact absurd hg (hna f hx)
        · exact absurd (.fields hreach ⟨v, hv, hlv⟩) (mno _)
      · exact absurd (.kind hreach hd) (mno _)

/-- The model in order. -/
example : Given mcModel "name" (.str "shop") ∧ modelErrorsOf mcEnv mcModel = .ok [] := ⟨rfl, by decide +kernel⟩

theorem mapRefs_ok {get : String → Res MField} {from_ : String} {role : FRole} : ∀ {ts : List String},
    (∀ t ∈ ts, ∃ g h, get t = .ok g ∧ g.graph = .ok h ∧ g.role = role) → ∃ rs, mapRefs get from_ role ts = .ok rs
  | [], _ => ⟨[], rfl⟩
  | t :: ts, h => by
    obtain ⟨rs, hrs⟩ := mapRefs_ok (from_ := from_) (fun x hx => h x (List.mem_cons_of_mem _ hx))
    obtain ⟨g, k, h1, h2, h3⟩ := h t List.mem_cons_self
    unfold mapRefs
    split
    · exact ⟨rs, hrs⟩
    · rw [h1]; simp only; rw [h2]; simp only; rw [if_neg (by simp [h3]), hrs]; exact ⟨_, rfl⟩

theorem mapFields_ok {get : String → Res MField} {only sp : Bool} {all : List String} {role : FRole}
    (hall : ∀ t ∈ all, ∃ g h, get t = .ok g ∧ g.graph = .ok h ∧ g.role = role) (hgr : role = .group → sp = true) : ∀ {fs : List String}
    {d : List (String × MEntry)}, (∀ f ∈ fs, f ∈ all) → ∃ d', mapFields get only sp all d fs = .ok d'
  | [], d, _ => ⟨d, rfl⟩
  | f :: fs, d, h => by
    obtain ⟨g, k, h1, h2, h3⟩ := hall f (h f List.mem_cons_self)
    have ih : ∀ d, ∃ d', mapFields get only sp all d fs = .ok d' := fun d =>
      mapFields_ok hall hgr (fun x hx => h x (List.mem_cons_of_mem _ hx))
    unfold mapFields
    rw [h1]
    simp only
    split
    · exact ih d
    · rw [h2]
      simp only
      rw [if_neg (by rintro ⟨a, b⟩; rw [h3] at a; rw [hgr a] at b; cases b)]
      obtain ⟨rs, hrs⟩ := mapRefs_ok (from_ := f) (role := g.role) (fun t ht => by rw [h3]; exact hall t ht)
      rw [hrs]
      exact ih _

theorem getMappings_ok {get : String → Res MField} {only : Bool} : ∀ {maps : List (Bool × List String)} {d : List (String × MEntry)},
    (∀ m ∈ maps, ∃ role, (∀ t ∈ m.2, ∃ g h, get t = .ok g ∧ g.graph = .ok h ∧ g.role = role) ∧ (role = .group → m.1 = true)) →
    ∃ d', getMappings get only d maps = .ok d'
  | [], d, _ => ⟨d, rfl⟩
  | (sp, fs) :: maps, d, h => by
    obtain ⟨role, h1, h2⟩ := h _ List.mem_cons_self
    obtain ⟨d', hd'⟩ := mapFields_ok (only := only) (d := d) h1 h2 (fs := fs) (fun f hf => hf)
    unfold getMappings
    rw [hd']
    exact getMappings_ok (fun m hm => h m (List.mem_cons_of_mem _ hm))

/-- C64 (h): in a model without reports whose mappings each name fields of one kind, none of them a dimension group, what the mappings offer can be
told whenever a merged query asks for it. -/
theorem C64_clean_offers (env : ModelCheckEnv) (hl : ModelLooksUp env) (hash : String → Res String) (hhash : ∀ v, ∃ h, hash v = .ok h) (d : FDef)
    (name : String) (hn : Given d "name" (.str name)) (h : modelErrorsOf env d = .ok [])
    (hsame : ∀ ms n q l, WrittenMappings d ms → (n, Yaml.dict q) ∈ ms → Given q "fields" (.list l) →
      ∃ role, role ≠ .group ∧ ∀ f g, Yaml.str f ∈ l → env.getText f = .ok g → g.role = role)
    (hdates : ∀ ds x w g, env.dates = .ok ds → some x ∈ ds → w ∈ reserved → env.getText (x ++ "_" ++ w) = .ok g → g.role = .group) :
    ∃ ms, mappingsOf env d = .ok ms ∧ ∀ only, ∃ es, getMappings (mapFieldOf env hash) only [] (mappingLists ms) = .ok es := by
  obtain ⟨-, -, ms, hw, hres, hms⟩ := C64_clean env hl d name hn h
  obtain ⟨ds, hds, hm⟩ := (mappingsOf_facts hl hw).2 hres
  refine ⟨_, hm, fun only => getMappings_ok ?_⟩
  intro m hmem
  unfold mappingLists at hmem
  obtain ⟨e, he, rfl⟩ := List.mem_map.mp hmem
  have found : ∀ {f : String} {g : UField}, env.getText f = .ok g → ∃ k, mapFieldOf env hash f = .ok ⟨g.role, .ok k⟩ := by
    intro f g hg
    obtain ⟨k, hk⟩ := hhash g.view
    exact ⟨k, by unfold mapFieldOf; rw [hg]; simp only; rw [hk]⟩
  rcases List.mem_append.mp he with he | he
  · obtain ⟨-, q, l, hq, hfl, hall⟩ := hms e he
    obtain ⟨n, v⟩ := e
    simp only at hq
    subst hq
    obtain ⟨role, hr, hrole⟩ := hsame ms n q l hw he hfl
    refine ⟨role, ?_, fun h => absurd h hr⟩
    intro t ht
    simp only [show dictGet q "fields" = _ from hfl, List.mem_filterMap] at ht
    obtain ⟨x, hx, hxt⟩ := ht
    obtain ⟨f, g, rfl, hg⟩ := hall x hx
    have : f = t := by simpa [Yaml.text?] using hxt
    subst this
    obtain ⟨k, hk⟩ := found hg
    exact ⟨_, k, hk, rfl, hrole f g hx hg⟩
  · obtain ⟨w, hwo, rfl⟩ := List.mem_map.mp he
    have hwr := hl.order.mem_iff.mp hwo
    refine ⟨.group, ?_, fun _ => ?_⟩
    · intro t ht
      have ht' : t ∈ ((datesFor env w (dateRanks ds)).map Yaml.str).filterMap Yaml.text? := by
        simpa [dateMapping, dictGet] using ht
      obtain ⟨x, hx, hxt⟩ := List.mem_filterMap.mp ht'
      obtain ⟨s, hs, rfl⟩ := List.mem_map.mp hx
      have : s = t := by simpa [Yaml.text?] using hxt
      subst this
      obtain ⟨y, hy, rfl⟩ := List.mem_map.mp hs
      obtain ⟨hy1, hy2⟩ := List.mem_filter.mp hy
      have hyd : some y ∈ ds := by
        rw [List.mem_filterMap] at hy1
        obtain ⟨o, ho, rfl⟩ := hy1
        exact mem_dateRanks.mp ho
      cases hg : env.getText (y ++ "_" ++ w) with
      | error e => rw [hg] at hy2; cases hy2
      | ok g =>
        obtain ⟨k, hk⟩ := found hg
        exact ⟨_, k, hk, rfl, hdates ds y w g hds hyd hwr hg⟩
    · have : ∀ w ∈ reserved, w ∈ specialMappings := by decide +kernel
      simpa using this w hwr

/-- The model in order satisfies the conditions. -/
example : (do let r ← mappingsOf mcEnv mcModel; getMappings (mapFieldOf mcEnv (fun v => .ok v)) true [] (mappingLists r)).toOption.isSome = true := by
  decide +kernel

/-- C64 (i), a gap: validation accepts a mapping that contains a dimension group, and one that mixes dimensions with measures; asking what the
mappings offer, as every merged query does, then raises. -/
theorem C64_clean_but_raises : ∃ (env : ModelCheckEnv) (d : FDef), ModelLooksUp env ∧ modelErrorsOf env d = .ok [] ∧
    ∃ ms, mappingsOf env d = .ok ms ∧ getMappings (mapFieldOf env (fun v => .ok v)) true [] (mappingLists ms) = .error .query := by
  refine ⟨mcEnv, [("name", .str "shop"), ("connection", .str "wh"), ("mappings", .dict [("day", .dict [("fields", .list [.str "orders.created_date",
    .str "visits.seen_date"])])])], mcEnv_looksUp, by decide +kernel, ?_⟩
  obtain ⟨ds, hds, hm⟩ := (mappingsOf_facts mcEnv_looksUp (d := [("name", .str "shop"), ("connection", .str "wh"), ("mappings", .dict [("day",
    .dict [("fields", .list [.str "orders.created_date", .str "visits.seen_date"])])])]) (.some rfl)).2 (by
      intro w hw hk
      have : ∀ w ∈ reserved, (dictGet [("day", Yaml.dict [("fields", .list [.str "orders.created_date", .str "visits.seen_date"])])] w).isSome = false := by
        decide +kernel
      exact (isSome_false_iff _ _).mp (this w hw) hk)
  refine ⟨_, hm, ?_⟩
  have e : mappingLists ([("day", Yaml.dict [("fields", .list [.str "orders.created_date", .str "visits.seen_date"])])] ++
      mcEnv.order.map (fun w => (w, dateMapping mcEnv ds w))) = (false, ["orders.created_date", "visits.seen_date"]) ::
        mappingLists (mcEnv.order.map (fun w => (w, dateMapping mcEnv ds w))) := by rfl
  rw [e]
  unfold getMappings
  have : mapFields (mapFieldOf mcEnv (fun v => .ok v)) true false ["orders.created_date", "visits.seen_date"] []
      ["orders.created_date", "visits.seen_date"] = .error .query := by rfl
  rw [this]

end ML
