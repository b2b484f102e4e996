import Verif.Access.Props
/-
More of C01 and C05: hidden objects, requests with a view of their own, lookups by definition name and by tag, and the existence test.
-/
set_option autoImplicit false
namespace ML
open Spec

/-! ### C01, hidden views and fields -/

/-- **C01** (i): `views(show_hidden)` is the list of the project's views, in order, of which the denied ones and, unless hidden ones are asked
for, the hidden ones are left out. -/
theorem C01_views_list (P : Proj) (h : WellFormed P) (showHidden : Bool) :
    ∃ keep : ViewDef → Bool, (∀ v ∈ P.views, keep v = true ↔ Visible P v.grants ∧ (showHidden = true ∨ v.hidden = false)) ∧
      allViews P showHidden = .ok ((P.views.filter keep).map fun v => { v with name := lower v.name }) := by
  refine ⟨fun v => visB P v.grants && (showHidden || v.hidden == false), ?_, ?_⟩
  · intro v _
    simp only [Bool.and_eq_true, visB_true, canAccess_true_iff, Bool.or_eq_true, beq_iff_eq]
  · unfold allViews
    rw [filterRes_of_ok _ (fun v => visB P v.grants && (showHidden || v.hidden == false))]
    · rw [List.filter_map]; rfl
    · intro v hv
      obtain ⟨v0, h0, rfl⟩ := List.mem_map.mp hv
      have e : v0.init.grants = v0.grants := rfl
      simp [e, canAccess_declared P _ (h.1 v0 h0).1]

theorem viewFields_hidden {P : Proj} {v : ViewDef} {ex : Bool} {fs : List Field} (h : viewFields P v true ex = .ok fs) (sh : Bool) :
    viewFields P v sh ex = .ok (if sh then fs else fs.filter fun f => !f.hidden) := by
  unfold viewFields at h ⊢
  cases hv : viewAllFields P v ex with
  | error e => rw [hv] at h; cases h
  | ok l => rw [hv] at h; simp at h; subst h; rfl

theorem projFields_hidden {P : Proj} {vn : Option String} {ex : Bool} {fs : List Field} (h : projFields P vn true ex = .ok fs) (sh : Bool) :
    projFields P vn sh ex = .ok (if sh then fs else fs.filter fun f => !f.hidden) := by
  unfold projFields at h ⊢
  cases vn with
  | some n =>
    simp only at h ⊢
    cases hg : getView P n with
    | error e => rw [hg] at h; cases h
    | ok v => rw [hg] at h; exact viewFields_hidden h sh
  | none =>
    simp only at h ⊢
    cases ha : allViews P true with
    | error e => rw [ha] at h; cases h
    | ok vs =>
      rw [ha] at h
      simp only at h ⊢
      clear ha
      induction vs generalizing fs with
      | nil => cases h; cases sh <;> rfl
      | cons v vs ih =>
        simp only [concatRes] at h ⊢
        cases hv : viewFields P v true ex with
        | error e => rw [hv] at h; cases h
        | ok ys =>
          rw [hv] at h
          simp only at h
          cases hc : concatRes (fun v => viewFields P v true ex) vs with
          | error e => rw [hc] at h; cases h
          | ok zs =>
            rw [hc] at h
            cases h
            rw [viewFields_hidden hv sh, ih hc]
            cases sh <;> simp

/-- **C01** (j): `fields(show_hidden)` lists exactly the visible fields, without the hidden ones unless they are asked for. -/
theorem C01_fields_hidden (P : Proj) (h : WellFormed P) (showHidden : Bool) :
    ∃ fs, projFields P none showHidden true = .ok fs ∧ ∀ f, f ∈ fs ↔ VisibleField P f ∧ (showHidden = true ∨ f.hidden = false) := by
  obtain ⟨L, hL, hm⟩ := projFields_wf_mem h
  refine ⟨_, projFields_hidden hL showHidden, ?_⟩
  intro f
  cases showHidden
  · simp [hm]
  · simp [hm]

/-! ### C05, requests that name their view twice -/

/-- **C05** (g): a qualified name together with a view: the two views must agree (otherwise a QueryError), and then it is the qualified name
alone. -/
theorem C05_two_views (P : Proj) (v w n : String) (hv : dotFree v) (hn : dotFree n) (hw : w ≠ "") :
    (w ≠ v → getField P (v ++ "." ++ n) (some w) = .error .query) ∧
    (w = v → getField P (v ++ "." ++ n) (some w) = getField P (v ++ "." ++ n) none) := by
  have hdot : '.' ∈ (v ++ "." ++ n).toList := by simp
  have hparts : fieldNameParts (v ++ "." ++ n) = (none, some v, n) := C06_split_two v n hv hn
  constructor
  · intro hne
    unfold getField parseFieldAndViewName
    rw [if_pos hdot, hparts]
    simp only
    rw [if_pos ⟨hw, by simp only [ne_eq, Option.some.injEq]; exact fun hh => hne hh.symm⟩]
  · rintro rfl
    unfold getField parseFieldAndViewName
    simp only [if_pos hdot, hparts]
    rw [if_neg (by simp)]

/-- **C05** (h): a field is the one a request means exactly when it is called so and, if the request names a view, is in that view. -/
theorem C05_equal (f : Field) (v n : String) (hv : dotFree v) (hne : v ≠ "") (hn : dotFree n)
    (hg : f.fieldType = .dimensionGroup → f.dimGroup.isSome) :
    (f.equal n = true ↔ FieldCalled f n) ∧ (f.equal (v ++ "." ++ n) = true ↔ f.viewName = v ∧ FieldCalled f n) := by
  rw [FieldCalled_iff hg]
  have hparts : fieldNameParts (v ++ "." ++ n) = (none, some v, n) := C06_split_two v n hv hn
  have hn' : '.' ∉ n.toList := hn
  constructor
  · rw [equal_dotFree hn']; simp
  · unfold Field.equal
    rw [hparts]
    simp only
    by_cases he : v = f.viewName
    · rw [if_neg (by simp [he])]; simp [he]
    · rw [if_pos ⟨hne, he⟩]
      simp only [Bool.false_eq_true, false_iff, not_and]
      exact fun hh => absurd hh.symm he

/-! ### C05, lookups by definition name and by tag -/

/-- The field object of a definition that is not expanded into time frames. -/
def Spec.unexpanded (v : ViewDef) (d : FieldDef) : Field :=
  { viewName := lower v.name, name := lower d.name, fieldType := d.fieldType, typ := d.typ, dimGroup := none, hidden := d.hidden,
    primaryKey := d.primaryKey, tags := d.tags }

/-- `f` is a definition of the project the user may see. -/
def Spec.VisibleDefinition (P : Proj) (f : Field) : Prop :=
  ∃ v ∈ P.views, Visible P v.grants ∧ ∃ d ∈ v.fields, Visible P d.grants ∧ f = Spec.unexpanded v d

theorem projFields_defs {P : Proj} (h : WellFormed P) :
    ∃ L, projFields P none true false = .ok L ∧ ∀ f, f ∈ L ↔ Spec.VisibleDefinition P f := by
  refine ⟨_, projFields_wf h false, ?_⟩
  intro f
  simp only [List.mem_flatMap, List.mem_filter, visB_true, canAccess_true_iff]
  unfold Spec.VisibleDefinition
  constructor
  · rintro ⟨v, ⟨hv, hvv⟩, d, hd, hm⟩
    split at hm
    · next hvd =>
      refine ⟨v, hv, hvv, d, hd, (canAccess_true_iff _ _).mp ((visB_true _ _).mp hvd), ?_⟩
      simpa [expandField, mkField, Spec.unexpanded, ViewDef.init] using hm
    · cases hm
  · rintro ⟨v, hv, hvv, d, hd, hvd, rfl⟩
    refine ⟨v, ⟨hv, hvv⟩, d, hd, ?_⟩
    rw [if_pos ((visB_true _ _).mpr ((canAccess_true_iff _ _).mpr hvd))]
    simp [expandField, mkField, Spec.unexpanded, ViewDef.init]

/-- What an unqualified lookup answers, for any way of matching. -/
theorem handler_exact (P : Proj) (L : List Field) (p : Field → Bool) (n : String) :
    (∀ f, matchingFieldHandler P (L.filter p) n none = .ok f → f ∈ L ∧ p f = true ∧ ∀ f' ∈ L, p f' = true → f' = f) ∧
    (∀ f f', f ∈ L → p f = true → f' ∈ L → p f' = true → f ≠ f' → matchingFieldHandler P (L.filter p) n none = .error .query) ∧
    (matchingFieldHandler P (L.filter p) n none = .error .accessDenied ↔ ∀ f ∈ L, ¬ p f = true) ∧
    (∀ e, matchingFieldHandler P (L.filter p) n none = .error e → e = .query ∨ e = .accessDenied) := by
  refine ⟨?_, ?_, ?_, ?_⟩
  · intro f hf
    rcases handler_ok_inv hf with hm | ⟨-, -, w, vd, hw, -⟩
    · have hmem : ∀ f', f' ∈ L.filter p ↔ f' = f := by rw [hm]; simp
      have := (hmem f).2 rfl
      rw [List.mem_filter] at this
      refine ⟨this.1, this.2, fun f' h1 h2 => (hmem f').1 (List.mem_filter.2 ⟨h1, h2⟩)⟩
    · cases hw
  · intro f f' h1 h2 h3 h4 hne
    exact handler_two (List.mem_filter.2 ⟨h1, h2⟩) (List.mem_filter.2 ⟨h3, h4⟩) hne
  · rw [← List.filter_eq_nil_iff]
    cases L.filter p with
    | nil => simp [matchingFieldHandler]
    | cons a l => cases l <;> simp [matchingFieldHandler]
  · intro e
    cases L.filter p with
    | nil => simp only [matchingFieldHandler, Except.error.injEq]; rintro rfl; exact .inr rfl
    | cons a l =>
      cases l with
      | nil => simp [matchingFieldHandler]
      | cons b l => simp only [matchingFieldHandler, Except.error.injEq]; rintro rfl; exact .inl rfl

/-- **C05** (i): the lookup by the name of the definition: it answers with the only visible definition of that name, up to letter case; two
different ones make it raise; and without any it is not found. -/
theorem C05_by_definition (P : Proj) (h : WellFormed P) (n : String) (hn : dotFree n) :
    (∀ f, getFieldByName P n none = .ok f →
      Spec.VisibleDefinition P f ∧ f.name = lower n ∧ ∀ f', Spec.VisibleDefinition P f' → f'.name = lower n → f' = f) ∧
    (∀ f f', Spec.VisibleDefinition P f → f.name = lower n → Spec.VisibleDefinition P f' → f'.name = lower n → f ≠ f' →
      getFieldByName P n none = .error .query) ∧
    (getFieldByName P n none = .error .accessDenied ↔ ∀ f, Spec.VisibleDefinition P f → f.name ≠ lower n) := by
  obtain ⟨L, hL, hm⟩ := projFields_defs h
  have hn' : '.' ∉ n.toList := hn
  have e : getFieldByName P n none = matchingFieldHandler P (L.filter fun f => f.name == lower n) (lower n) none := by
    unfold getFieldByName parseFieldAndViewName
    rw [if_neg hn']
    simp only [hL]
  obtain ⟨h1, h2, h3, -⟩ := handler_exact P L (fun f => f.name == lower n) (lower n)
  rw [e]
  simp only [hm, beq_iff_eq] at h1 h2 h3
  refine ⟨h1, fun f f' a b a' b' => h2 f f' a b a' b', h3⟩

/-- The tag asked for and a tag of a field agree up to a plural `s`: with one `s` more, or, if it ends with `s`, with one less. -/
def Spec.SameTag (asked tag : String) : Prop :=
  tag = asked ∨ (tag = asked ++ "s" ∧ ¬ ∃ pre : String, asked = pre ++ "s") ∨ asked = tag ++ "s"

theorem endsWith_s (s : String) : s.toList.getLast? = some 's' ↔ ∃ pre : String, s = pre ++ "s" := by
  constructor
  · intro h
    obtain ⟨l, hl⟩ := List.getLast?_eq_some_iff.1 h
    exact ⟨String.ofList l, String.toList_injective (by rw [hl]; simp)⟩
  · rintro ⟨pre, rfl⟩
    rw [String.toList_append]
    simp

theorem tagOptions_iff {tag : String} (hne : tag ≠ "") : ∃ opts, tagOptions tag = .ok opts ∧ ∀ t, t ∈ opts ↔ Spec.SameTag tag t := by
  unfold tagOptions Spec.SameTag
  cases hl : tag.toList.getLast? with
  | none =>
    rw [List.getLast?_eq_none_iff] at hl
    exact absurd (String.toList_injective (by rw [hl]; rfl)) hne
  | some c =>
    simp only
    by_cases hc : c = 's'
    · subst hc
      rw [if_neg (by simp)]
      refine ⟨_, rfl, ?_⟩
      have he := (endsWith_s tag).1 hl
      intro t
      simp only [List.mem_cons, List.not_mem_nil, or_false, he, not_true, and_false, false_or]
      refine or_congr_right ?_
      obtain ⟨pre, rfl⟩ := he
      rw [String.toList_append]
      simp only [show "s".toList = ['s'] from rfl, List.dropLast_concat, String.ofList_toList]
      constructor
      · rintro rfl; rfl
      · intro h
        have := congrArg String.toList h
        simp only [String.toList_append] at this
        exact String.toList_injective (List.append_cancel_right this).symm
    · rw [if_pos (by simpa using hc)]
      refine ⟨_, rfl, ?_⟩
      have hno : ¬ ∃ pre : String, tag = pre ++ "s" := by
        rw [← endsWith_s, hl]; simpa using hc
      intro t
      simp only [List.mem_cons, List.not_mem_nil, or_false, hno, not_false_eq_true, and_true]
      refine or_congr_right ⟨fun h => .inl h, ?_⟩
      rintro (h | h)
      · exact h
      · exact absurd ⟨t, h⟩ hno

/-- **C05** (j): the lookup by tag: it answers with the only visible field that has such a tag; two different ones make it raise; without any
it is not found. -/
theorem C05_by_tag (P : Proj) (h : WellFormed P) (tag : String) (hne : tag ≠ "") :
    (∀ f, getFieldByTag P tag none = .ok f →
      VisibleField P f ∧ (∃ t ∈ f.tags, Spec.SameTag tag t) ∧ ∀ f', VisibleField P f' → (∃ t ∈ f'.tags, Spec.SameTag tag t) → f' = f) ∧
    (∀ f f', VisibleField P f → (∃ t ∈ f.tags, Spec.SameTag tag t) → VisibleField P f' → (∃ t ∈ f'.tags, Spec.SameTag tag t) → f ≠ f' →
      getFieldByTag P tag none = .error .query) ∧
    (getFieldByTag P tag none = .error .accessDenied ↔ ∀ f, VisibleField P f → ¬ ∃ t ∈ f.tags, Spec.SameTag tag t) := by
  obtain ⟨L, hL, hm⟩ := projFields_wf_mem h
  obtain ⟨opts, ho, hs⟩ := tagOptions_iff hne
  have e : getFieldByTag P tag none = matchingFieldHandler P (L.filter fun f => f.tags.any fun t => opts.contains t) tag none := by
    unfold getFieldByTag
    simp only [ho, hL]
  obtain ⟨h1, h2, h3, -⟩ := handler_exact P L (fun f => f.tags.any fun t => opts.contains t) tag
  rw [e]
  simp only [hm, List.any_eq_true, List.contains_iff_mem, hs] at h1 h2 h3
  exact ⟨h1, fun f f' a b a' b' => h2 f f' a b a' b', h3⟩

/-- **C05** (l): the empty tag is an IndexError. -/
theorem C05_empty_tag (P : Proj) (vn : Option String) : getFieldByTag P "" vn = .error .indexError := rfl

/-! ### C05, the row count -/

/-- **C05** (m): the field found for `view.count` when the view has no field of that name is the view's row count: an ordinary, visible measure
without tags. -/
theorem C05_row_count (P : Proj) (h : WellFormed P) (v : String) (hv : dotFree v) (hne : v ≠ "") (w : ViewDef) (hw : Spec.ViewNamed P v w)
    (hno : ∀ f, Spec.VisibleIn P w f → ¬ FieldCalled f "count") :
    getField P (v ++ "." ++ "count") none = .ok
      { viewName := v, name := "count", fieldType := .measure, typ := "count", dimGroup := none, hidden := false, primaryKey := false, tags := [] } := by
  have hc : dotFree "count" := by unfold dotFree; decide
  have hl : lower "count" = "count" := by decide +kernel
  rw [getField_qualified P v "count" hv hc, getField_dotFree P "count" hc, hl]
  have hgv := getView_named h v w hw
  have hwn : w.init.name = v := by obtain ⟨_, _, _, h1, _⟩ := hw; exact h1
  obtain ⟨L, hL, hmem⟩ := projFields_view h v w hw
  have hnil : L.filter (fun f => f.alias == "count") = [] := by
    rw [List.filter_eq_nil_iff]
    intro f hf hb
    have hin := (hmem f).mp hf
    exact hno f hin ((VisibleIn_called hin _).mpr (by simpa using hb))
  rw [hL]
  simp only [hnil, matchingFieldHandler]
  rw [if_pos ⟨trivial, hne⟩, hgv]
  simp only [countField, hwn]

/-! ### C01 and C02, dashboards -/

/-- **C02** (j): `get_dashboard` answers with the first visible dashboard of exactly that name, and raises AccessDenied when there is none. -/
theorem C02_getDashboard (P : Proj) (h : WellFormed P) (n : String) :
    (∀ d, getDashboard P n = .ok d → ∃ pre post, P.dashboards = pre ++ d :: post ∧ d.name = n ∧ Visible P d.grants ∧
      ∀ d' ∈ pre, d'.name = n → ¬ Visible P d'.grants) ∧
    ((¬ ∃ d ∈ P.dashboards, d.name = n ∧ Visible P d.grants) → getDashboard P n = .error .accessDenied) := by
  have e : allDashboards P = .ok (P.dashboards.filter fun d => visB P d.grants) := by
    unfold allDashboards
    exact filterRes_of_ok _ (fun d => visB P d.grants) _ (fun d hd => canAccess_declared P _ (h.2 d hd))
  unfold getDashboard
  rw [e]
  simp only
  have hvis : ∀ d : DashDef, visB P d.grants = true ↔ Visible P d.grants := fun d => by rw [visB_true, canAccess_true_iff]
  constructor
  · intro d hd
    split at hd
    · next d' hf =>
      cases hd
      rw [List.find?_filter] at hf
      obtain ⟨h1, as, bs, h2, h3⟩ := List.find?_eq_some_iff_append.mp hf
      simp only [decide_eq_true_eq, hvis] at h1 h3
      refine ⟨as, bs, h2, h1.2, h1.1, fun d' hd' hn hv => ?_⟩
      have := h3 d' hd'
      simp [hn, (hvis d').mpr hv] at this
    · cases hd
  · intro hno
    split
    · next d' hf =>
      rw [List.find?_filter] at hf
      have h1 := List.find?_some hf
      simp only [decide_eq_true_eq, hvis] at h1
      exact absurd ⟨d', List.mem_of_find?_eq_some hf, h1.2, h1.1⟩ hno
    · rfl

/-! ### C05, the existence test -/

/-- **C05** (k): a field exists when the lookup finds it; it does not exist exactly when no visible field is called so; and two fields of that
name make the test raise as the lookup does. -/
theorem C05_exists (P : Proj) (h : WellFormed P) (n : String) (hn : dotFree n) :
    (doesFieldExist P n none = .ok true → ∃ f, VisibleField P f ∧ FieldCalled f (lower n)) ∧
    (doesFieldExist P n none = .ok false ↔ ∀ f, VisibleField P f → ¬ FieldCalled f (lower n)) ∧
    (∀ f f', VisibleField P f → FieldCalled f (lower n) → VisibleField P f' → FieldCalled f' (lower n) → f ≠ f' →
      doesFieldExist P n none = .error .query) := by
  refine ⟨?_, ?_, ?_⟩
  · intro hd
    unfold doesFieldExist at hd
    split at hd
    · next f hf =>
      obtain ⟨h1, h2, -⟩ := C05_found P h n hn f hf
      exact ⟨f, h1, h2⟩
    · cases hd
    · cases hd
  · constructor
    · intro hd f hv hc
      unfold doesFieldExist at hd
      split at hd
      · cases hd
      · next hf =>
        rw [getField_dotFree P n hn] at hf
        obtain ⟨L, hL, hm⟩ := projFields_wf_mem h
        rw [hL] at hf
        have := (handler_exact P L (fun f => f.alias == lower n) (lower n)).2.2.1.1 hf f ((hm f).2 hv)
        exact this (by simpa using (VisibleField_called hv _).1 hc)
      · cases hd
    · intro hno
      unfold doesFieldExist
      rw [C05_missing P h n hn hno]
  · intro f f' a b a' b' hne
    unfold doesFieldExist
    rw [C05_ambiguous P h n hn f f' a b a' b' hne]

/-! ### Concrete cases -/

/-- A project with a hidden view, a time dimension with a hidden raw time frame and two tagged fields. -/
def moreExample : Proj :=
  { views := [{ name := "Orders", fields := [{ name := "Total", fieldType := .measure, typ := "sum", tags := ["customers"] },
        { name := "created", fieldType := .dimensionGroup, typ := "time", timeframes := ["raw", "date"] }] },
      { name := "secret", hidden := true, fields := [{ name := "x", fieldType := .dimension, tags := ["session"] }] }] }

example : WellFormed moreExample := by
  refine ⟨?_, by simp [moreExample]⟩
  intro v hv
  simp only [moreExample, List.mem_cons, List.not_mem_nil, or_false] at hv
  rcases hv with rfl | rfl <;> simp [AllDeclared]

example : (match allViews moreExample false with | .ok vs => vs.map (·.name) | .error _ => []) = ["orders"] := by decide +kernel
example : (match projFields moreExample none false true with | .ok fs => fs.map Field.id | .error _ => []) =
    ["orders.total", "orders.created_date", "secret.x"] := by decide +kernel
example : getField moreExample "orders.total" (some "secret") = .error .query := by decide +kernel
example : (match getFieldByTag moreExample "customer" none with | .ok f => some f.id | .error _ => none) = some "orders.total" := by decide +kernel
example : (match getFieldByTag moreExample "sessions" none with | .ok f => some f.id | .error _ => none) = some "secret.x" := by decide +kernel
example : (match getFieldByName moreExample "CREATED" none with | .ok f => some f.name | .error _ => none) = some "created" := by decide +kernel
example : doesFieldExist moreExample "total" none = .ok true ∧ doesFieldExist moreExample "nope" none = .ok false := by decide +kernel

end ML
