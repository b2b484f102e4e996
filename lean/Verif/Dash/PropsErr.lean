import Verif.Dash.PropsMore

/-!
C69, what the filters of dashboards and elements raise, and what the values that are no texts mean.
-/

set_option autoImplicit false

namespace ML

open Spec

namespace Spec

/-- What is wrong with one filter that is written, and the exception that says so: it is no dictionary; it has no field or no value; its value
means nothing, with the exception of C23. -/
inductive FilterRaises (env : DashEnv) (w : Option String) : Yaml → Err → Prop
  | noDict (y : Yaml) (h : ∀ f, y ≠ .dict f) : FilterRaises env w y .typeError
  | noField (f : FDef) (h : ¬ HasKey f "field") : FilterRaises env w (.dict f) .query
  | noValue (f : FDef) (hf : HasKey f "field") (h : ¬ HasKey f "value") : FilterRaises env w (.dict f) .query
  | noMeaning (f : FDef) (v : Yaml) (e : Err) (hf : HasKey f "field") (hv : Given f "value" v) (hn : v ≠ .str "")
      (h : (filterDict env.num env.now w (filterValue v) ⟨0, 6⟩).1 = .error e) : FilterRaises env w (.dict f) e

/-- The element names no model of the project. -/
def NoModel (env : DashEnv) (e : FDef) : Prop := ∀ m ∈ env.models, ¬ Given e "model" (.str m.name)

end Spec

theorem withInfo_get (env : DashEnv) (w : Option String) (f : FDef) (k : String) (h1 : k ≠ "timezone") (h2 : k ≠ "week_start_day") :
    dictGet (withInfo env w f) k = dictGet f k := by
  unfold withInfo
  rw [dictGet_set, if_neg h1.symm, dictGet_set, if_neg h2.symm]

theorem runRaw_raises {env : DashEnv} {w : Option String} {y : Yaml} {e : Err} (h : FilterRaises env w y e) : runRaw env w y = .error e := by
  cases h with
  | noDict y h => cases y with
    | dict f => exact absurd rfl (h f)
    | _ => rfl
  | noField f h =>
    have : dictGet f "field" = none := by
      cases c : dictGet f "field" with
      | none => rfl
      | some v => exact absurd ⟨v, c⟩ h
    simp only [runRaw, runFilter]
    rw [withInfo_get env w f "field" (by decide) (by decide), this]
  | noValue f hf h =>
    obtain ⟨v, hv⟩ := hf
    have : dictGet f "value" = none := by
      cases c : dictGet f "value" with
      | none => rfl
      | some v => exact absurd ⟨v, c⟩ h
    simp only [runRaw, runFilter]
    rw [withInfo_get env w f "field" (by decide) (by decide), withInfo_get env w f "value" (by decide) (by decide), this,
      show dictGet f "field" = some v from hv]
  | noMeaning f v e hf hv hn h =>
    obtain ⟨u, hu⟩ := hf
    simp only [runRaw, runFilter]
    rw [withInfo_get env w f "field" (by decide) (by decide), withInfo_get env w f "value" (by decide) (by decide),
      show dictGet f "field" = some u from hu, show dictGet f "value" = some v from hv]
    simp only
    have hne : filterValue v ≠ .str [] := by
      intro hc
      cases v with
      | str s =>
        simp only [filterValue, FVal.str.injEq] at hc
        exact hn (by rw [show s = "" from String.toList_injective (by rw [hc]; rfl)])
      | float q => simp only [filterValue] at hc; split at hc <;> [skip; split at hc] <;> cases hc
      | _ => cases hc
    have h' : (filterDict env.num env.now w (filterValue v) defaultWeek).1 = .error e := h
    split
    · rename_i hc; exact absurd hc hne
    · rw [h']

theorem flatDash_raises {α β : Type} (f : α → Res (List β)) (x : α) (e : Err) (after : List α) (hx : f x = .error e) :
    ∀ before : List α, (∀ y ∈ before, ∃ out, f y = .ok out) → flatDash f (before ++ x :: after) = .error e
  | [], _ => by simp only [List.nil_append, flatDash, hx]
  | b :: bs, h => by
    obtain ⟨o, ho⟩ := h b (by simp)
    simp only [List.cons_append, flatDash, ho]
    rw [flatDash_raises f x e after hx bs (fun y hy => h y (by simp [hy]))]

theorem runRaw_reads {env : DashEnv} {w : Option String} {f : FDef} {out : List DFilter} (h : ReadAs env w f out) :
    ∃ o, runRaw env w (.dict f) = .ok o := by
  obtain ⟨o, ho⟩ := runAll_can env w [f] [out] (.cons h .nil)
  simp only [List.map_cons, List.map_nil, flatDash] at ho
  cases c : runRaw env w (.dict f) with
  | error e => rw [c] at ho; cases ho
  | ok o => exact ⟨o, rfl⟩

theorem elementModel_none {env : DashEnv} {e : FDef} (h : NoModel env e) : elementModel env e = .error .accessDenied := by
  unfold elementModel
  cases c : dictGet e "model" with
  | none => rfl
  | some v =>
    cases v with
    | str s =>
      simp only [Option.getD_some, modelNamed]
      have : env.models.find? (fun m => decide (m.name = s)) = none := by
        rw [List.find?_eq_none]
        intro m hm
        simp only [decide_eq_true_eq]
        rintro rfl
        exact h m hm c
      rw [this]
    | _ => rfl

/-- C69 (l): the first filter of an element that cannot be read decides which exception is raised; before that, an element without a model
of the project is an AccessDenied error. -/
theorem C69_element_raises (env : DashEnv) (e : FDef) :
    (NoModel env e → elementFilters env e = .error .accessDenied) ∧
    (∀ m, InModel env e m → ∀ (before : List FDef) (y : Yaml) (after : List Yaml) (er : Err),
      Given e "filters" (.list (before.map .dict ++ y :: after)) → (∀ f ∈ before, ∃ out, ReadAs env m.week f out) →
      FilterRaises env m.week y er → elementFilters env e = .error er) := by
  constructor
  · intro h
    unfold elementFilters
    rw [elementModel_none h]
  · intro m hm before y after er hg hb hy
    have hraw : rawFilters e = .ok (before.map .dict ++ y :: after) := by
      unfold rawFilters
      rw [show dictGet e "filters" = _ from hg]
      rfl
    unfold elementFilters
    rw [(elementModel_ok env e m).mpr hm, hraw]
    refine flatDash_raises _ _ _ _ (runRaw_raises hy) _ ?_
    intro x hx
    obtain ⟨f, hf, rfl⟩ := List.mem_map.mp hx
    obtain ⟨out, ho⟩ := hb f hf
    exact runRaw_reads ho

/-- C69 (l), for the dashboard itself: as for elements, after its elements have been looked at. -/
theorem C69_raises (env : DashEnv) (d : FDef) (es : List FDef) (he : ElementsOf d es) (hm : ∀ e ∈ es, HasKey e "model") :
    ((∃ before e after, es = before ++ e :: after ∧ (∀ x ∈ before, ∃ m, InModel env x m) ∧ NoModel env e) →
      dashFilters env d = .error .accessDenied) ∧
    (∀ ms w, List.Forall₂ (InModel env) es ms → CommonWeek (ms.map (·.week)) w →
      ∀ (before : List FDef) (y : Yaml) (after : List Yaml) (er : Err),
      Given d "filters" (.list (before.map .dict ++ y :: after)) → (∀ f ∈ before, ∃ out, ReadAs env w f out) →
      FilterRaises env w y er → dashFilters env d = .error er) := by
  have h1 : mapDash elementInit (es.map .dict) = .ok es := (mapDash_init es es).mpr ⟨hm, rfl⟩
  constructor
  · rintro ⟨before, e, after, rfl, hb, hn⟩
    have : mapDash (elementModel env) (before ++ e :: after) = .error .accessDenied := by
      clear h1 hm he
      induction before with
      | nil => simp only [List.nil_append, mapDash, elementModel_none hn]
      | cons b bs ih =>
        obtain ⟨m, hm⟩ := hb b (by simp)
        simp only [List.cons_append, mapDash, (elementModel_ok env b m).mpr hm]
        rw [ih (fun x hx => hb x (by simp [hx]))]
    unfold dashFilters
    rw [dashElements_of he, h1]
    simp only [this]
  · intro ms w hms hw before y after er hg hb hy
    have hraw : rawFilters d = .ok (before.map .dict ++ y :: after) := by
      unfold rawFilters
      rw [show dictGet d "filters" = _ from hg]
      rfl
    unfold dashFilters
    rw [dashElements_of he, h1]
    simp only
    rw [(mapDash_ok _ _ _).mpr (hms.imp (fun e m => (elementModel_ok env e m).mpr))]
    simp only [hraw]
    rw [common_unique (sharedWeek_common _) hw]
    refine flatDash_raises _ _ _ _ (runRaw_raises hy) _ ?_
    intro x hx
    obtain ⟨f, hf, rfl⟩ := List.mem_map.mp hx
    obtain ⟨out, ho⟩ := hb f hf
    exact runRaw_reads ho

/-- C69 (m): values that are no texts. True and the number one ask for true, false and zero for false, null for no value; other numbers are an
AttributeError, lists and dictionaries a TypeError. -/
theorem C69_values (env : DashEnv) (w : Option String) :
    (∀ v ∈ [Yaml.bool true, .int 1, .float 1], MeansThere env w v [⟨.equalTo, .bool true⟩]) ∧
    (∀ v ∈ [Yaml.bool false, .int 0, .float 0], MeansThere env w v [⟨.equalTo, .bool false⟩]) ∧
    MeansThere env w .null [⟨.isNull, .none⟩] ∧
    (∀ f, HasKey f "field" → ∀ n : ℤ, n ≠ 0 → n ≠ 1 → Given f "value" (.int n) → FilterRaises env w (.dict f) .attributeError) ∧
    (∀ f, HasKey f "field" → ∀ q : ℚ, q ≠ 0 → q ≠ 1 → Given f "value" (.float q) → FilterRaises env w (.dict f) .attributeError) ∧
    (∀ f, HasKey f "field" → ∀ v, ((∃ l, v = .list l) ∨ ∃ g, v = .dict g) → Given f "value" v → FilterRaises env w (.dict f) .typeError) := by
  refine ⟨?_, ?_, rfl, ?_, ?_, ?_⟩
  · simp only [List.mem_cons, List.not_mem_nil, or_false]
    rintro v (rfl | rfl | rfl)
    · rfl
    · rfl
    · simp only [MeansThere, filterValue]; rw [if_pos trivial]; rfl
  · simp only [List.mem_cons, List.not_mem_nil, or_false]
    rintro v (rfl | rfl | rfl)
    · rfl
    · rfl
    · simp only [MeansThere, filterValue]; rw [if_neg (by norm_num : ¬ (0 : ℚ) = 1), if_pos trivial]; rfl
  · intro f hf n h0 h1 hv
    refine .noMeaning f _ _ hf hv (by simp) ?_
    simp only [filterValue, filterDict, otherComparison]
    rw [if_neg h1, if_neg h0]
  · intro f hf q h0 h1 hv
    refine .noMeaning f _ _ hf hv (by simp) ?_
    simp only [filterValue]
    rw [if_neg h1, if_neg h0]
    rfl
  · rintro f hf v (⟨l, rfl⟩ | ⟨g, rfl⟩) hv
    · exact .noMeaning f _ _ hf hv (by simp) rfl
    · exact .noMeaning f _ _ hf hv (by simp) rfl

/-- C69 (n), what else ends the validation of a dashboard: an element's filter that is no dictionary, an AttributeError; a missing model where the
dashboard's name is no text, a TypeError, because the message is put together from it. -/
theorem C69_errors_raise (env : DashEnv) (d e : FDef) (he : ElementsOf d [e]) (hf : FiltersOf d []) (hm : HasKey e "model") :
    (NoModel env e → ¬ GivesText d "name" → dashErrors env d = .error .typeError) ∧
    (∀ m, InModel env e m → ∀ v, Given e "metric" v → (Text v ∨ Listed v) → (¬ HasKey e "slice_by" ∨ ∃ l, Given e "slice_by" (.list l)) →
      ∀ y, (∀ f, y ≠ .dict f) → Given e "filters" (.list [y]) → dashErrors env d = .error .attributeError) := by
  have h1 : mapDash elementInit [Yaml.dict e] = .ok [e] := (mapDash_init [e] [e]).mpr ⟨by simpa using hm, rfl⟩
  constructor
  · intro hn ht
    have hnamed : isNamed d = false := by
      unfold isNamed
      split
      · rename_i s hs; exact absurd ⟨s, hs⟩ ht
      · rfl
    unfold dashErrors
    rw [rawFilters_of hf]
    simp only [List.map_nil, flatDash]
    rw [dashElements_of he]
    simp only [List.map_cons, List.map_nil, h1, flatDash, elementErrors, checkModel, elementModel_none hn, hnamed]
    rfl
  · intro m hin v hv hsh hsl y hy hg
    have hraw : rawFilters e = .ok [y] := by
      unfold rawFilters
      rw [show dictGet e "filters" = _ from hg]
      rfl
    have hms : ∃ l, iterate (elementMetrics e) = .ok l := by
      unfold elementMetrics
      rw [show dictGet e "metric" = some v from hv]
      rcases hsh with ⟨s, rfl⟩ | ⟨l, rfl⟩
      · exact ⟨_, rfl⟩
      · exact ⟨_, rfl⟩
    have hss : ∃ l, iterate (elementSlices e) = .ok l := by
      unfold elementSlices
      rcases hsl with h | ⟨l, h⟩
      · have : dictGet e "slice_by" = none := by
          cases c : dictGet e "slice_by" with
          | none => rfl
          | some v => exact absurd ⟨v, c⟩ h
        rw [this]; exact ⟨_, rfl⟩
      · rw [show dictGet e "slice_by" = _ from h]; exact ⟨_, rfl⟩
    obtain ⟨ms, hms⟩ := hms
    obtain ⟨ss, hss⟩ := hss
    have hc : checkElementFilter env y = .error .attributeError := by
      cases y with
      | dict f => exact absurd rfl (hy f)
      | _ => rfl
    unfold dashErrors
    rw [rawFilters_of hf]
    simp only [List.map_nil, flatDash]
    rw [dashElements_of he]
    simp only [List.map_cons, List.map_nil, h1, flatDash, elementErrors, checkModel, (elementModel_ok env e m).mpr hin, hms, hss, hraw, hc]

/-- `C69_element_raises`, `C69_raises`: the second filter is a text; the one before it is read. -/
example : elementFilters sampleEnv [("model", .str "sales"), ("filters", .list [.dict [("field", .str "a"), ("value", .str "")], .str "x"])] = .error .typeError :=
  (C69_element_raises sampleEnv
    [("model", .str "sales"), ("filters", .list [.dict [("field", .str "a"), ("value", .str "")], .str "x"])]).2 ⟨"sales", some "sunday"⟩ ⟨rfl, [], _, rfl, by simp⟩ [[("field", .str "a"), ("value", .str "")]] (.str "x") [] .typeError
    rfl (by
      intro f hf
      obtain rfl : f = _ := by simpa using hf
      exact ⟨[⟨withInfo sampleEnv (some "sunday") [("field", .str "a"), ("value", .str "")], none⟩], ⟨_, rfl⟩, by
        intro o ho
        obtain rfl : o = _ := by simpa using ho
        exact ⟨rfl, rfl, fun k h1 h2 => withInfo_get _ _ _ _ h1 h2⟩, _, rfl, Or.inl ⟨rfl, rfl⟩⟩)
    (.noDict _ (by intro f h; cases h))

/-- A dashboard without a name and with an element of an unknown model. -/
example : dashErrors sampleEnv [("name", .null), ("elements", .list [.dict [("model", .str "nowhere")]])] = .error .typeError :=
  (C69_errors_raise sampleEnv [("name", .null), ("elements", .list [.dict [("model", .str "nowhere")]])] [("model", .str "nowhere")] (.inr rfl) (.inl ⟨Or.inl (by rintro ⟨v, h⟩; cases h), rfl⟩) ⟨_, rfl⟩).1
    (by
      intro m hm h
      simp only [Given, dictGet] at h
      have : m.name = "nowhere" := by simpa [eq_comm] using h
      revert hm this
      simp [sampleEnv]
      rintro (rfl | rfl) <;> decide)
    (by rintro ⟨s, h⟩; cases h)

end ML
