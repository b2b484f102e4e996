import Verif.Access.Lemmas
import Verif.Names.Props
/-
C01 Access grants decide visibility exactly.
C02 Field and view lookups never leak a denied object.
C05 Field lookup is unique, case-insensitive and total.
C07 Field de-duplication keeps first occurrences in order.
-/
set_option autoImplicit false
namespace ML
open Spec

/-! ### C01 -/

/-- C01 (a): the access decision is "allowed" exactly when the object is visible. -/
theorem C01_allowed_iff (P : Proj) (req : List String) :
    canAccess P req = .ok true ↔ Visible P req := canAccess_true_iff P req

/-- C01 (b): it is "denied" exactly when all grants are known and one stops the user. -/
theorem C01_denied_iff (P : Proj) (req : List String) :
    canAccess P req = .ok false ↔ Denied P req := canAccess_false_iff P req

/-- C01 (c): it raises (a QueryError) exactly when a user is set and some required grant is not
declared by any model. -/
theorem C01_raises_iff (P : Proj) (req : List String) (e : Err) :
    canAccess P req = .error e ↔
      e = .query ∧ P.user.isSome ∧ ∃ n ∈ req, ¬ ∃ g, Declares P n g := by
  rcases canAccess_cases P req with ⟨h, h'⟩ | ⟨h, h'⟩ | ⟨h, h', h''⟩
  · rw [h]
    simp only [reduceCtorEq, false_iff, not_and]
    rintro - hu ⟨n, hn, hg⟩
    obtain ⟨u, hu⟩ := Option.isSome_iff_exists.mp hu
    obtain ⟨g, hd, -⟩ := h' u hu n hn
    exact hg ⟨g, hd⟩
  · rw [h]
    simp only [reduceCtorEq, false_iff, not_and]
    rintro - - ⟨n, hn, hg⟩
    exact hg (h'.1 n hn)
  · rw [h]
    have hx : ∃ n ∈ req, ¬ ∃ g, Declares P n g := by
      unfold AllDeclared at h''
      simp only [Classical.not_forall] at h''
      obtain ⟨n, hn, hx⟩ := h''
      exact ⟨n, hn, hx⟩
    constructor
    · intro he; cases he; exact ⟨rfl, h', hx⟩
    · rintro ⟨rfl, -⟩; rfl

/-- C01 (d): without a user everything is visible. -/
theorem C01_no_user (P : Proj) (req : List String) (h : P.user = none) :
    canAccess P req = .ok true := by
  rw [C01_allowed_iff]; intro u hu; rw [h] at hu; cases hu

/-- C01 (e): a field is allowed exactly when both its own grants and its view's grants let the
user through. -/
theorem C01_field_iff (P : Proj) (v : ViewDef) (f : FieldDef) :
    canAccessField P v f = .ok true ↔ Visible P v.grants ∧ Visible P f.grants := by
  rw [← C01_allowed_iff, ← C01_allowed_iff]
  constructor
  · exact canAccessField_ok_inv
  · rintro ⟨h1, h2⟩; simp [canAccessField, h1, h2]

/-- C01 (f): on a project whose grant references are all declared, `views()` lists exactly the
visible views. -/
theorem C01_views_exact (P : Proj) (h : WellFormed P) :
    ∃ vs, allViews P true = .ok vs ∧
      ∀ v, v ∈ vs ↔ ∃ v0 ∈ P.views, v = { v0 with name := lower v0.name } ∧ Visible P v0.grants := by
  refine ⟨_, allViews_wf (fun v hv => (h.1 v hv).1), ?_⟩
  intro v
  simp only [List.mem_map, List.mem_filter, visB_true, canAccess_true_iff]
  constructor
  · rintro ⟨v0, ⟨h1, h2⟩, rfl⟩; exact ⟨v0, h1, rfl, h2⟩
  · rintro ⟨v0, h1, rfl, h2⟩; exact ⟨v0, ⟨h1, h2⟩, rfl⟩

/-- C01 (g): and `fields()` lists exactly the visible fields. -/
theorem C01_fields_exact (P : Proj) (h : WellFormed P) :
    ∃ fs, projFields P none true true = .ok fs ∧ ∀ f, f ∈ fs ↔ VisibleField P f :=
  projFields_wf_mem h

/-- C01 (h): `dashboards()` lists exactly the visible dashboards. -/
theorem C01_dashboards_exact (P : Proj) (h : WellFormed P) :
    ∃ ds, allDashboards P = .ok ds ∧
      ∀ d, d ∈ ds ↔ d ∈ P.dashboards ∧ Visible P d.grants := by
  refine ⟨_, filterRes_of_ok _ (fun d => visB P d.grants) _
    (fun d hd => canAccess_declared P _ (h.2 d hd)), ?_⟩
  intro d
  simp only [List.mem_filter, visB_true, canAccess_true_iff]

/-! ### C02 -/

/-- C02 (a): every listed view is visible to the user. -/
theorem C02_views (P : Proj) (sh : Bool) (vs : List ViewDef) (h : allViews P sh = .ok vs) :
    ∀ v ∈ vs, Visible P v.grants := by
  intro v hv
  obtain ⟨v0, -, rfl, h2, -⟩ := (allViews_ok_inv h v).mp hv
  exact (canAccess_true_iff _ _).mp h2

/-- C02 (b): `get_view` only returns visible views, of the requested name. -/
theorem C02_getView (P : Proj) (n : String) (v : ViewDef) (h : getView P n = .ok v) :
    v.name = n ∧ Visible P v.grants := by
  obtain ⟨h1, v0, -, rfl, h2⟩ := getView_ok_inv h
  exact ⟨h1, (canAccess_true_iff _ _).mp h2⟩

/-- C02 (c): every listed field comes from a visible definition in a visible view, whatever the
options of the call. -/
theorem C02_fields (P : Proj) (vn : Option String) (sh ex : Bool) (fs : List Field)
    (h : projFields P vn sh ex = .ok fs) :
    ∀ f ∈ fs, ∃ v ∈ P.views, Visible P v.grants ∧ ∃ d ∈ v.fields, Visible P d.grants ∧
      f.viewName = lower v.name ∧ f.name = lower d.name := by
  intro f hf
  obtain ⟨v, hv, h1, d, hd, h2, h3⟩ := projFields_ok_inv h f hf
  refine ⟨v, hv, h1, d, hd, h2, ?_⟩
  unfold expandField at h3
  split at h3
  · split at h3
    · obtain ⟨t, -, rfl⟩ := List.mem_map.mp h3; exact ⟨rfl, rfl⟩
    · split at h3
      · obtain ⟨t, -, rfl⟩ := List.mem_map.mp h3; exact ⟨rfl, rfl⟩
      · cases h3
  · cases List.mem_singleton.mp h3; exact ⟨rfl, rfl⟩

theorem C02_handler (P : Proj) (vn : Option String) (sh ex : Bool) (fs : List Field)
    (p : Field → Bool) (n : String) (w : Option String) (f : Field)
    (h : projFields P vn sh ex = .ok fs) (h' : matchingFieldHandler P (fs.filter p) n w = .ok f) :
    (∃ v ∈ P.views, Visible P v.grants ∧ ∃ d ∈ v.fields, Visible P d.grants ∧
      f.viewName = lower v.name ∧ f.name = lower d.name) ∨
    (f.name = "count" ∧ f.typ = "count" ∧ ∃ v ∈ P.views, Visible P v.grants ∧
      f.viewName = lower v.name) := by
  rcases handler_ok_inv h' with hm | ⟨-, -, w', vd, -, -, hg, rfl⟩
  · left
    exact C02_fields P vn sh ex fs h f (List.mem_filter.mp (hm ▸ List.mem_singleton.mpr rfl)).1
  · right
    obtain ⟨-, v0, h0, rfl, h2⟩ := getView_ok_inv hg
    exact ⟨rfl, rfl, v0, h0, (canAccess_true_iff _ _).mp h2, rfl⟩

/-- C02 (d): `get_field` returns a visible field, or the row count of a visible view. -/
theorem C02_getField (P : Proj) (n : String) (vn : Option String) (f : Field)
    (h : getField P n vn = .ok f) :
    (∃ v ∈ P.views, Visible P v.grants ∧ ∃ d ∈ v.fields, Visible P d.grants ∧
      f.viewName = lower v.name ∧ f.name = lower d.name) ∨
    (f.name = "count" ∧ f.typ = "count" ∧ ∃ v ∈ P.views, Visible P v.grants ∧
      f.viewName = lower v.name) := by
  unfold getField at h
  split at h
  · cases h
  · split at h
    · cases h
    · rename_i fs hfs
      exact C02_handler P _ _ _ fs _ _ _ f hfs h

/-- C02 (e): the same for lookups by definition name. -/
theorem C02_getFieldByName (P : Proj) (n : String) (vn : Option String) (f : Field)
    (h : getFieldByName P n vn = .ok f) :
    (∃ v ∈ P.views, Visible P v.grants ∧ ∃ d ∈ v.fields, Visible P d.grants ∧
      f.viewName = lower v.name ∧ f.name = lower d.name) ∨
    (f.name = "count" ∧ f.typ = "count" ∧ ∃ v ∈ P.views, Visible P v.grants ∧
      f.viewName = lower v.name) := by
  unfold getFieldByName at h
  split at h
  · cases h
  · split at h
    · cases h
    · rename_i fs hfs
      exact C02_handler P _ _ _ fs _ _ _ f hfs h

/-- C02 (f): the same for lookups by tag. -/
theorem C02_getFieldByTag (P : Proj) (n : String) (vn : Option String) (f : Field)
    (h : getFieldByTag P n vn = .ok f) :
    (∃ v ∈ P.views, Visible P v.grants ∧ ∃ d ∈ v.fields, Visible P d.grants ∧
      f.viewName = lower v.name ∧ f.name = lower d.name) ∨
    (f.name = "count" ∧ f.typ = "count" ∧ ∃ v ∈ P.views, Visible P v.grants ∧
      f.viewName = lower v.name) := by
  unfold getFieldByTag at h
  split at h
  · cases h
  · split at h
    · cases h
    · rename_i fs hfs
      exact C02_handler P _ _ _ fs _ _ _ f hfs h

/-! #### Non-interference: a denied object behaves exactly like a missing one -/

theorem canAccess_restrict {P Q : Proj} (hm : Q.models = P.models) (hu : Q.user = P.user)
    (req : List String) : canAccess Q req = canAccess P req := by
  have hg : ∀ n, getAccessGrant Q n = getAccessGrant P n := by
    intro n; simp [getAccessGrant, accessGrants, hm]
  have hd : ∀ u l, decisions Q u l = decisions P u l := by
    intro u l
    induction l with
    | nil => rfl
    | cons n ns ih => simp only [decisions, hg, ih]
  simp only [canAccess, hu, hd]

/-- The view with the rejected fields deleted. -/
def trimView (k : List String → Bool) (v : ViewDef) : ViewDef :=
  { v with fields := v.fields.filter (fun f => k f.grants) }

theorem allViews_restrict {P Q : Proj} (k : List String → Bool)
    (hk : ∀ r, k r = false ↔ Denied P r) (hm : Q.models = P.models) (hu : Q.user = P.user)
    (hv : Q.views = (P.views.filter (fun v => k v.grants)).map (trimView k)) (sh : Bool) :
    allViews Q sh = match allViews P sh with
      | .error e => .error e
      | .ok vs => .ok (vs.map (trimView k)) := by
  unfold allViews
  rw [hv, List.map_map, filterRes_map, filterRes_map]
  have e : ∀ v : ViewDef, ((ViewDef.init ∘ trimView k) v).grants = v.grants := fun v => rfl
  have e' : ∀ v : ViewDef, ((ViewDef.init ∘ trimView k) v).hidden = v.hidden := fun v => rfl
  have e2 : ∀ v : ViewDef, v.init.grants = v.grants := fun v => rfl
  have e2' : ∀ v : ViewDef, v.init.hidden = v.hidden := fun v => rfl
  simp only [e, e', e2, e2', canAccess_restrict hm hu]
  rw [filterRes_filter]
  · cases filterRes _ P.views with
    | error e => rfl
    | ok ys =>
      simp only [List.map_map, Except.ok.injEq]
      rfl
  · intro v _ hkv
    simp only [(canAccess_false_iff P _).mpr ((hk _).mp hkv), Bool.false_and]

theorem viewFields_restrict {P Q : Proj} (k : List String → Bool)
    (hk : ∀ r, k r = false ↔ Denied P r) (hm : Q.models = P.models) (hu : Q.user = P.user)
    (v : ViewDef) (hvis : canAccess P v.grants = .ok true) (sh ex : Bool) :
    viewFields Q (trimView k v) sh ex = viewFields P v sh ex := by
  have hall : viewAllFields Q (trimView k v) ex = viewAllFields P v ex := by
    unfold viewAllFields
    have e : ∀ f, canAccessField Q (trimView k v) f = canAccessField P v f := by
      intro f
      simp only [canAccessField, canAccess_restrict hm hu]
      rfl
    have e2 : ∀ f, expandField (trimView k v) ex f = expandField v ex f := fun f => rfl
    simp only [e, e2]
    show concatRes _ (v.fields.filter (fun f => k f.grants)) = _
    rw [concatRes_filter]
    intro f _ hkf
    simp only [canAccessField, hvis, (canAccess_false_iff P _).mpr ((hk _).mp hkf), Bool.false_and,
      Bool.false_eq_true, if_false]
  simp only [viewFields, hall]

theorem find_map_trim (k : List String → Bool) (n : String) (vs : List ViewDef) :
    (vs.map (trimView k)).find? (fun v => decide (v.name = n)) =
      (vs.find? (fun v => decide (v.name = n))).map (trimView k) := by
  rw [List.find?_map]; rfl

theorem getView_restrict {P Q : Proj} (k : List String → Bool)
    (hk : ∀ r, k r = false ↔ Denied P r) (hm : Q.models = P.models) (hu : Q.user = P.user)
    (hv : Q.views = (P.views.filter (fun v => k v.grants)).map (trimView k)) (n : String) :
    getView Q n = match getView P n with
      | .error e => .error e
      | .ok v => .ok (trimView k v) := by
  unfold getView
  rw [allViews_restrict k hk hm hu hv]
  cases allViews P true with
  | error e => rfl
  | ok vs =>
    simp only [find_map_trim]
    cases vs.find? (fun v => decide (v.name = n)) <;> rfl

/-- C02 (g): field listings are the same on the project without the denied objects. -/
theorem C02_noninterference_fields (P Q : Proj) (h : Restricts P Q) (vn : Option String)
    (sh ex : Bool) : projFields Q vn sh ex = projFields P vn sh ex := by
  obtain ⟨k, hk, hm, hu, hv, -⟩ := h
  cases vn with
  | none =>
    simp only [projFields, allViews_restrict k hk hm hu hv]
    cases ha : allViews P true with
    | error e => rfl
    | ok vs =>
      simp only [concatRes_map]
      refine concatRes_congr _ _ _ (fun v hv' => viewFields_restrict k hk hm hu v ?_ sh ex)
      obtain ⟨v0, -, rfl, h2, -⟩ := (allViews_ok_inv ha v).mp hv'
      exact h2
  | some n =>
    simp only [projFields, getView_restrict k hk hm hu hv]
    cases hg : getView P n with
    | error e => rfl
    | ok v =>
      obtain ⟨-, v0, -, rfl, h2⟩ := getView_ok_inv hg
      exact viewFields_restrict k hk hm hu v0.init h2 sh ex

theorem handler_restrict (P Q : Proj) (h : Restricts P Q) (m : List Field) (n : String)
    (w : Option String) : matchingFieldHandler Q m n w = matchingFieldHandler P m n w := by
  obtain ⟨k, hk, hm, hu, hv, -⟩ := h
  unfold matchingFieldHandler
  simp only [getView_restrict k hk hm hu hv]
  split <;> try rfl
  split <;> try rfl
  split <;> try rfl
  cases getView P _ <;> rfl

/-- C02 (h): so is every lookup by name, by definition name and by tag, and the existence test:
asking for a denied field gives the answer one gets when it does not exist. -/
theorem C02_noninterference_lookup (P Q : Proj) (h : Restricts P Q) (n : String)
    (vn : Option String) :
    getField Q n vn = getField P n vn ∧ getFieldByName Q n vn = getFieldByName P n vn ∧
    getFieldByTag Q n vn = getFieldByTag P n vn ∧ doesFieldExist Q n vn = doesFieldExist P n vn := by
  have h1 := C02_noninterference_fields P Q h
  have h2 := handler_restrict P Q h
  have hg : getField Q n vn = getField P n vn := by simp only [getField, h1, h2]
  refine ⟨hg, ?_, ?_, ?_⟩
  · simp only [getFieldByName, h1, h2]
  · simp only [getFieldByTag, h1, h2]
  · simp only [doesFieldExist, hg]

/-- C02 (i): `get_view` and `get_dashboard` too (a view is compared by its name and grants and,
through (g), by its listed fields). -/
theorem C02_noninterference_view (P Q : Proj) (h : Restricts P Q) (n : String) :
    (match getView Q n with | .error e => Except.error e | .ok v => .ok (v.name, v.grants)) =
      (match getView P n with | .error e => Except.error e | .ok v => .ok (v.name, v.grants)) ∧
    getDashboard Q n = getDashboard P n := by
  obtain ⟨k, hk, hm, hu, hv, hd⟩ := h
  constructor
  · rw [getView_restrict k hk hm hu hv]
    cases getView P n <;> rfl
  · have : allDashboards Q = allDashboards P := by
      unfold allDashboards
      simp only [canAccess_restrict hm hu, hd]
      exact filterRes_filter _ _ _ (fun d _ hkd => (canAccess_false_iff P _).mpr ((hk _).mp hkd))
    simp only [getDashboard, this]

/-- Every project has such a restriction, so (g)-(i) are not vacuous. -/
theorem C02_restriction_exists (P : Proj) : ∃ Q, Restricts P Q := by
  classical
  let k : List String → Bool := fun r => decide (¬ Denied P r)
  refine ⟨{ models := P.models, user := P.user,
            views := (P.views.filter (fun v => k v.grants)).map
              (fun v => { v with fields := v.fields.filter (fun f => k f.grants) }),
            dashboards := P.dashboards.filter (fun d => k d.grants) }, k, ?_, rfl, rfl, rfl, rfl⟩
  intro r
  simp [k]

/-! ### C05 -/

theorem getField_dotFree (P : Proj) (n : String) (hn : dotFree n) (vn : Option String) :
    getField P n vn = match projFields P vn true true with
      | .error e => .error e
      | .ok fs =>
        matchingFieldHandler P (fs.filter (fun f => f.alias == lower n)) (lower n) vn := by
  unfold getField parseFieldAndViewName
  have hn' : '.' ∉ n.toList := hn
  rw [if_neg hn']
  simp only [equal_dotFree (lower_dotFree hn')]
  cases projFields P vn true true <;> rfl

theorem VisibleField_called {P : Proj} {f : Field} (h : VisibleField P f) (n : String) :
    FieldCalled f n ↔ f.alias = n := by
  obtain ⟨v, -, -, d, -, -, he⟩ := h
  exact FieldCalled_iff (Expansion_dimGroup he) n

/-- C05 (a): a field found by an unqualified name is visible, is called that name up to letter
case, and is the only such field of the whole project. -/
theorem C05_found (P : Proj) (h : WellFormed P) (n : String) (hn : dotFree n) (f : Field)
    (hf : getField P n none = .ok f) :
    VisibleField P f ∧ FieldCalled f (lower n) ∧
      ∀ f', VisibleField P f' → FieldCalled f' (lower n) → f' = f := by
  rw [getField_dotFree P n hn] at hf
  obtain ⟨L, hL, hmem⟩ := projFields_wf_mem h
  rw [hL] at hf
  rcases handler_ok_inv hf with hm | ⟨-, -, w, vd, hw, -⟩
  · have hfm : f ∈ L.filter (fun f => f.alias == lower n) := by rw [hm]; simp
    obtain ⟨h1, h2⟩ := List.mem_filter.mp hfm
    have hv := (hmem f).mp h1
    refine ⟨hv, (VisibleField_called hv _).mpr (by simpa using h2), ?_⟩
    intro f' hv' hc'
    have : f' ∈ L.filter (fun f => f.alias == lower n) :=
      List.mem_filter.mpr ⟨(hmem f').mpr hv', by simpa using (VisibleField_called hv' _).mp hc'⟩
    rw [hm] at this
    exact List.mem_singleton.mp this
  · cases hw

theorem handler_two {P : Proj} {m : List Field} {f f' : Field} {n : String} {w : Option String}
    (h1 : f ∈ m) (h2 : f' ∈ m) (hne : f ≠ f') : matchingFieldHandler P m n w = .error .query := by
  match m, h1, h2 with
  | [g], m1, m2 =>
    exact absurd ((List.mem_singleton.mp m1).trans (List.mem_singleton.mp m2).symm) hne
  | _ :: _ :: _, _, _ => rfl

/-- C05 (b): two different visible fields of that name make the lookup raise. -/
theorem C05_ambiguous (P : Proj) (h : WellFormed P) (n : String) (hn : dotFree n) (f f' : Field)
    (hv : VisibleField P f) (hc : FieldCalled f (lower n))
    (hv' : VisibleField P f') (hc' : FieldCalled f' (lower n)) (hne : f ≠ f') :
    getField P n none = .error .query := by
  rw [getField_dotFree P n hn]
  obtain ⟨L, hL, hmem⟩ := projFields_wf_mem h
  rw [hL]
  have m1 : f ∈ L.filter (fun f => f.alias == lower n) :=
    List.mem_filter.mpr ⟨(hmem f).mpr hv, by simpa using (VisibleField_called hv _).mp hc⟩
  have m2 : f' ∈ L.filter (fun f => f.alias == lower n) :=
    List.mem_filter.mpr ⟨(hmem f').mpr hv', by simpa using (VisibleField_called hv' _).mp hc'⟩
  exact handler_two m1 m2 hne

/-- C05 (c): with no visible field of that name the lookup says not found. -/
theorem C05_missing (P : Proj) (h : WellFormed P) (n : String) (hn : dotFree n)
    (hno : ∀ f, VisibleField P f → ¬ FieldCalled f (lower n)) :
    getField P n none = .error .accessDenied := by
  rw [getField_dotFree P n hn]
  obtain ⟨L, hL, hmem⟩ := projFields_wf_mem h
  rw [hL]
  have : L.filter (fun f => f.alias == lower n) = [] := by
    rw [List.filter_eq_nil_iff]
    intro f hf hc
    have hv := (hmem f).mp hf
    exact hno f hv ((VisibleField_called hv _).mpr (by simpa using hc))
  simp only [this, matchingFieldHandler]

/-- The names one definition can be asked for by, in order. -/
def Spec.namesOf (d : FieldDef) : List String :=
  if d.fieldType = .dimensionGroup then
    let groups := if d.timeframes = [] then d.intervals.map (· ++ "s") else d.timeframes
    groups.map (fun g =>
      if d.typ = "time" then lower d.name ++ "_" ++ g
      else if d.typ = "duration" then g ++ "_" ++ lower d.name
      else lower d.name)
  else [lower d.name]

theorem map_alias_expand (v : ViewDef) (d : FieldDef) :
    (expandField v.init true d).map Field.alias = Spec.namesOf d := by
  unfold expandField Spec.namesOf
  by_cases hg : d.fieldType = .dimensionGroup
  · simp only [hg, beq_self_eq_true, Bool.and_self, if_true]
    by_cases ht : d.timeframes = []
    · simp only [ht, List.isEmpty_nil, Bool.not_true, Bool.false_eq_true, if_false, if_true]
      by_cases hi : d.intervals = []
      · simp [hi]
      · have : (!d.intervals.isEmpty) = true := by simp [hi]
        simp only [this, if_true, List.map_map]
        apply List.map_congr_left
        intro i _
        simp [Field.alias, mkField, hg]
    · have hne : (!d.timeframes.isEmpty) = true := by simp [ht]
      simp only [hne, if_true, ht, if_false, List.map_map]
      apply List.map_congr_left
      intro i _
      simp [Field.alias, mkField, hg]
  · have hb : (d.fieldType == FieldType.dimensionGroup) = false := by simpa using hg
    simp only [hb, Bool.and_false, Bool.false_eq_true, if_false, hg]
    simp only [Field.alias, mkField, List.map_cons, List.map_nil]

theorem filter_of_nodup_map {α : Type} (g : α → String) (L : List α) (hnd : (L.map g).Nodup)
    (x : α) (hx : x ∈ L) : L.filter (fun y => g y == g x) = [x] := by
  induction L with
  | nil => cases hx
  | cons a L ih =>
    simp only [List.map_cons, List.nodup_cons] at hnd
    simp only [List.mem_cons] at hx
    rcases hx with rfl | hx
    · rw [List.filter_cons_of_pos (by simp)]
      congr 1
      rw [List.filter_eq_nil_iff]
      intro y hy hc
      exact hnd.1 (List.mem_map.mpr ⟨y, hy, by simpa using hc⟩)
    · rw [List.filter_cons_of_neg, ih hnd.2 hx]
      intro hc
      exact hnd.1 (List.mem_map.mpr ⟨x, hx, by simpa using (beq_iff_eq.mp hc).symm⟩)

/-- C05 (d): in a project where every name is used once, every visible field is found by its
name, in any letter case. -/
theorem C05_complete (P : Proj) (h : WellFormed P) (n : String) (hn : dotFree n) (f : Field)
    (huniq : (P.views.flatMap (fun v => v.fields.flatMap Spec.namesOf)).Nodup)
    (hv : VisibleField P f) (hc : FieldCalled f (lower n)) :
    getField P n none = .ok f := by
  rw [getField_dotFree P n hn, projFields_wf h]
  have hmem : f ∈ (P.views.filter (fun v => visB P v.grants)).flatMap (fun v =>
      v.fields.flatMap (fun f => if visB P f.grants then expandField v.init true f else [])) := by
    obtain ⟨L, hL, hm⟩ := projFields_wf_mem h
    rw [projFields_wf h] at hL
    cases hL
    exact (hm f).mpr hv
  have hsub : List.Sublist (((P.views.filter (fun v => visB P v.grants)).flatMap (fun v =>
      v.fields.flatMap (fun f => if visB P f.grants then expandField v.init true f else []))).map
        Field.alias) (P.views.flatMap (fun v => v.fields.flatMap Spec.namesOf)) := by
    rw [List.map_flatMap]
    have step : ∀ v : ViewDef, List.Sublist
        ((v.fields.flatMap (fun f => if visB P f.grants then expandField v.init true f else [])).map
          Field.alias) (v.fields.flatMap Spec.namesOf) := by
      intro v
      rw [List.map_flatMap]
      induction v.fields with
      | nil => simp
      | cons d ds ih =>
        simp only [List.flatMap_cons]
        refine List.Sublist.append ?_ ih
        split
        · rw [map_alias_expand]; exact List.Sublist.refl _
        · simp
    induction P.views with
    | nil => simp
    | cons v vs ih =>
      simp only [List.filter_cons, List.flatMap_cons]
      split
      · simp only [List.flatMap_cons]
        exact List.Sublist.append (step v) ih
      · exact List.Sublist.trans ih (List.sublist_append_right _ _)
  have hal : f.alias = lower n := (VisibleField_called hv _).mp hc
  simp only
  rw [← hal, filter_of_nodup_map Field.alias _ (hsub.nodup huniq) f hmem]
  rfl

/-- C05 (e): the letter case of an unqualified name, or of the field part of a qualified one, never
matters. -/
theorem C05_case_insensitive (P : Proj) (n n' : String) (hn : dotFree n) (hn' : dotFree n')
    (hl : lower n = lower n') (vn : Option String) : getField P n vn = getField P n' vn := by
  rw [getField_dotFree P n hn, getField_dotFree P n' hn', hl]

theorem getField_qualified (P : Proj) (v n : String) (hv : dotFree v) (hn : dotFree n) :
    getField P (v ++ "." ++ n) none = getField P n (some v) := by
  have hdot : '.' ∈ (v ++ "." ++ n).toList := by simp
  have hparts : fieldNameParts (v ++ "." ++ n) = (none, some v, n) := C06_split_two v n hv hn
  have hn' : '.' ∉ n.toList := hn
  unfold getField parseFieldAndViewName
  rw [if_pos hdot, if_neg hn', hparts]

/-- `w` is the view the name `v` stands for: the first visible one of that name. -/
def Spec.ViewNamed (P : Proj) (v : String) (w : ViewDef) : Prop :=
  ∃ pre post, P.views = pre ++ w :: post ∧ lower w.name = v ∧ Visible P w.grants ∧
    ∀ x ∈ pre, lower x.name = v → ¬ Visible P x.grants

theorem getView_named {P : Proj} (h : WellFormed P) (v : String) (w : ViewDef)
    (hw : Spec.ViewNamed P v w) : getView P v = .ok w.init := by
  obtain ⟨pre, post, hP, h1, h2, h3⟩ := hw
  unfold getView
  rw [allViews_wf (fun v hv => (h.1 v hv).1), hP]
  have hb : visB P w.grants = true := (visB_true _ _).mpr ((canAccess_true_iff _ _).mpr h2)
  simp only [List.filter_append, List.map_append, List.find?_append]
  have hnone : ((pre.filter (fun v => visB P v.grants)).map ViewDef.init).find?
      (fun x => decide (x.name = v)) = none := by
    rw [List.find?_eq_none]
    intro x hx
    obtain ⟨x0, hx0, rfl⟩ := List.mem_map.mp hx
    obtain ⟨ha, hb⟩ := List.mem_filter.mp hx0
    have hvis := (canAccess_true_iff _ _).mp ((visB_true _ _).mp hb)
    simp only [decide_eq_true_eq]
    intro he
    exact h3 x0 ha he hvis
  rw [hnone]
  have : w.init.name = v := h1
  simp [this, hb]

theorem getView_unnamed {P : Proj} (h : WellFormed P) (v : String)
    (hno : ∀ w ∈ P.views, lower w.name = v → ¬ Visible P w.grants) :
    getView P v = .error .accessDenied := by
  unfold getView
  rw [allViews_wf (fun v hv => (h.1 v hv).1)]
  have hnone : ((P.views.filter (fun v => visB P v.grants)).map ViewDef.init).find?
      (fun x => decide (x.name = v)) = none := by
    rw [List.find?_eq_none]
    intro x hx
    obtain ⟨x0, hx0, rfl⟩ := List.mem_map.mp hx
    obtain ⟨ha, hb⟩ := List.mem_filter.mp hx0
    simp only [decide_eq_true_eq]
    intro he
    exact hno x0 ha he ((canAccess_true_iff _ _).mp ((visB_true _ _).mp hb))
  simp only [hnone]

/-- A visible field of one particular view definition. -/
def Spec.VisibleIn (P : Proj) (w : ViewDef) (f : Field) : Prop :=
  ∃ d ∈ w.fields, Visible P d.grants ∧ Expansion w d f

theorem projFields_view {P : Proj} (h : WellFormed P) (v : String) (w : ViewDef)
    (hw : Spec.ViewNamed P v w) :
    ∃ L, projFields P (some v) true true = .ok L ∧ ∀ f, f ∈ L ↔ Spec.VisibleIn P w f := by
  have hg := getView_named h v w hw
  obtain ⟨pre, post, hP, h1, h2, h3⟩ := hw
  have hmem : w ∈ P.views := by rw [hP]; simp
  have e1 : w.init.grants = w.grants := rfl
  have e2 : w.init.fields = w.fields := rfl
  have hb : visB P w.grants = true := (visB_true _ _).mpr ((canAccess_true_iff _ _).mpr h2)
  have hvf := viewFields_wf (P := P) (v := w.init) (by rw [e1]; exact (h.1 w hmem).1)
    (by rw [e2]; exact (h.1 w hmem).2) true
  refine ⟨_, by simp only [projFields, hg]; exact hvf, ?_⟩
  intro f
  simp only [List.mem_flatMap, e1, e2, hb, Bool.and_true]
  constructor
  · rintro ⟨d, hd, hm⟩
    split at hm
    · rename_i hvd
      exact ⟨d, hd, (canAccess_true_iff _ _).mp ((visB_true _ _).mp hvd),
        (expandField_iff _ _ _).mp hm⟩
    · cases hm
  · rintro ⟨d, hd, hvd, hm⟩
    refine ⟨d, hd, ?_⟩
    rw [if_pos ((visB_true _ _).mpr ((canAccess_true_iff _ _).mpr hvd))]
    exact (expandField_iff _ _ _).mpr hm

theorem VisibleIn_called {P : Proj} {w : ViewDef} {f : Field} (h : Spec.VisibleIn P w f)
    (n : String) : FieldCalled f n ↔ f.alias = n := by
  obtain ⟨d, -, -, he⟩ := h
  exact FieldCalled_iff (Expansion_dimGroup he) n

/-- C05 (f): the answer for `view.field`, complete: if the view is not visible, not found;
otherwise the unique visible field of that view with that name; several raise; none gives the row
count for the name `count` and not found for any other. -/
theorem C05_qualified (P : Proj) (h : WellFormed P) (v n : String) (hv : dotFree v)
    (hn : dotFree n) (hne : v ≠ "") :
    ((∀ w ∈ P.views, lower w.name = v → ¬ Visible P w.grants) →
      getField P (v ++ "." ++ n) none = .error .accessDenied) ∧
    (∀ w, Spec.ViewNamed P v w →
      (∀ f, getField P (v ++ "." ++ n) none = .ok f →
        (Spec.VisibleIn P w f ∧ FieldCalled f (lower n) ∧
          ∀ f', Spec.VisibleIn P w f' → FieldCalled f' (lower n) → f' = f) ∨
        (lower n = "count" ∧ f.name = "count" ∧ f.fieldType = .measure ∧ f.typ = "count" ∧
          f.viewName = v ∧ ∀ f', Spec.VisibleIn P w f' → ¬ FieldCalled f' (lower n))) ∧
      (∀ f f', Spec.VisibleIn P w f → FieldCalled f (lower n) → Spec.VisibleIn P w f' →
        FieldCalled f' (lower n) → f ≠ f' → getField P (v ++ "." ++ n) none = .error .query) ∧
      ((∀ f, Spec.VisibleIn P w f → ¬ FieldCalled f (lower n)) →
        (lower n ≠ "count" → getField P (v ++ "." ++ n) none = .error .accessDenied) ∧
        (lower n = "count" → ∃ f, getField P (v ++ "." ++ n) none = .ok f ∧ f.name = "count" ∧
          f.typ = "count" ∧ f.viewName = v))) := by
  rw [getField_qualified P v n hv hn, getField_dotFree P n hn]
  constructor
  · intro hno
    simp only [projFields, getView_unnamed h v hno]
  · intro w hw
    have hgv := getView_named h v w hw
    have hwn : w.init.name = v := by obtain ⟨_, _, _, h1, _⟩ := hw; exact h1
    obtain ⟨L, hL, hmem⟩ := projFields_view h v w hw
    rw [hL]
    have hin : ∀ f, f ∈ L.filter (fun f => f.alias == lower n) ↔
        Spec.VisibleIn P w f ∧ FieldCalled f (lower n) := by
      intro f
      rw [List.mem_filter, hmem]
      constructor
      · rintro ⟨a, b⟩; exact ⟨a, (VisibleIn_called a _).mpr (by simpa using b)⟩
      · rintro ⟨a, b⟩; exact ⟨a, by simpa using (VisibleIn_called a _).mp b⟩
    refine ⟨?_, ?_, ?_⟩
    · intro f hf
      rcases handler_ok_inv hf with hm | ⟨hm, hcount, w', vd, hw', -, hg, rfl⟩
      · left
        have := (hin f).mp (by rw [hm]; simp)
        refine ⟨this.1, this.2, fun f' a b => ?_⟩
        have := (hin f').mpr ⟨a, b⟩
        rw [hm] at this
        exact List.mem_singleton.mp this
      · right
        cases hw'
        rw [hgv] at hg
        cases hg
        refine ⟨hcount, rfl, rfl, rfl, hwn, ?_⟩
        intro f' a b
        have := (hin f').mpr ⟨a, b⟩
        rw [hm] at this
        cases this
    · intro f f' a b a' b' hff
      have m1 := (hin f).mpr ⟨a, b⟩
      have m2 := (hin f').mpr ⟨a', b'⟩
      exact handler_two m1 m2 hff
    · intro hno
      have hnil : L.filter (fun f => f.alias == lower n) = [] := by
        rw [List.eq_nil_iff_forall_not_mem]
        intro f hf
        exact hno f ((hin f).mp hf).1 ((hin f).mp hf).2
      simp only [hnil, matchingFieldHandler]
      constructor
      · intro hnc; rw [if_neg (by simp [hnc])]
      · intro hc
        rw [if_pos ⟨hc, hne⟩, hgv]
        exact ⟨_, rfl, rfl, rfl, hwn⟩

/-! ### C07 -/

/-- The elements whose key has not occurred earlier in the list, in order: `x` is kept at position
`i` exactly when no earlier position has its id. -/
def Spec.FirstOccurrences (xs ys : List Field) : Prop :=
  ys = (xs.zipIdx.filter (fun p => ∀ q ∈ xs.zipIdx, q.2 < p.2 → q.1.id ≠ p.1.id)).map (·.1)

theorem dedupGo_ids (seen : List String) (fs : List Field) :
    (∀ f ∈ dedupGo seen fs, f ∈ fs ∧ f.id ∉ seen) ∧
    ((dedupGo seen fs).map Field.id).Nodup ∧
    (∀ f ∈ fs, f.id ∈ seen ∨ f.id ∈ (dedupGo seen fs).map Field.id) ∧
    List.Sublist (dedupGo seen fs) fs := by
  induction fs generalizing seen with
  | nil => simp [dedupGo]
  | cons f fs ih =>
    simp only [dedupGo]
    split
    · rename_i hs
      obtain ⟨h1, h2, h3, h4⟩ := ih seen
      refine ⟨fun g hg => ⟨by simp [(h1 g hg).1], (h1 g hg).2⟩, h2, ?_, h4.cons f⟩
      intro g hg
      simp only [List.mem_cons] at hg
      rcases hg with rfl | hg
      · exact .inl hs
      · exact h3 g hg
    · rename_i hs
      obtain ⟨h1, h2, h3, h4⟩ := ih (seen ++ [f.id])
      refine ⟨?_, ?_, ?_, h4.cons_cons f⟩
      · intro g hg
        simp only [List.mem_cons] at hg
        rcases hg with rfl | hg
        · exact ⟨by simp, hs⟩
        · have := h1 g hg
          refine ⟨by simp [this.1], fun hc => this.2 (by simp [hc])⟩
      · simp only [List.map_cons, List.nodup_cons]
        refine ⟨?_, h2⟩
        intro hc
        obtain ⟨g, hg, hgid⟩ := List.mem_map.mp hc
        exact (h1 g hg).2 (by simp [hgid])
      · intro g hg
        simp only [List.mem_cons] at hg
        rcases hg with rfl | hg
        · right; simp
        · rcases h3 g hg with h | h
          · simp only [List.mem_append, List.mem_singleton] at h
            rcases h with h | h
            · exact .inl h
            · right; simp [h]
          · right; simp only [List.map_cons, List.mem_cons]; exact .inr h

theorem dedupGo_eq (seen : List String) (fs : List Field) :
    dedupGo seen fs =
      (fs.zipIdx.filter (fun p => decide (p.1.id ∉ seen ∧
        ∀ q ∈ fs.zipIdx, q.2 < p.2 → q.1.id ≠ p.1.id))).map (·.1) := by
  have key : ∀ (fs : List Field) (seen : List String) (k : Nat), dedupGo seen fs =
      ((fs.zipIdx k).filter (fun p => decide (p.1.id ∉ seen ∧
        ∀ q ∈ fs.zipIdx k, q.2 < p.2 → q.1.id ≠ p.1.id))).map (·.1) := by
    intro fs
    induction fs with
    | nil => intros; simp [dedupGo]
    | cons f fs ih =>
      intro seen k
      simp only [dedupGo, List.zipIdx_cons, List.filter_cons]
      have hlt : ∀ p ∈ fs.zipIdx (k+1), k < p.2 := by
        intro p hp
        have := List.le_snd_of_mem_zipIdx hp
        omega
      by_cases hs : f.id ∈ seen
      · rw [if_pos hs]
        rw [if_neg (by simp [hs])]
        rw [ih seen (k+1)]
        congr 1
        apply List.filter_congr
        intro p hp
        have := hlt p hp
        simp only [decide_eq_decide, List.mem_cons, forall_eq_or_imp]
        constructor
        · rintro ⟨a, b⟩
          exact ⟨a, fun _ he => a (he ▸ hs), b⟩
        · rintro ⟨a, -, b⟩; exact ⟨a, b⟩
      · rw [if_neg hs]
        have hfirst : ∀ q ∈ (f, k) :: fs.zipIdx (k+1), q.2 < k → q.1.id ≠ f.id := by
          intro q hq hlt'
          simp only [List.mem_cons] at hq
          rcases hq with rfl | hq
          · simp at hlt'
          · have := hlt q hq; omega
        split
        case isFalse h => exact absurd (decide_eq_true ⟨hs, hfirst⟩) h
        simp only [List.map_cons]
        congr 1
        rw [ih (seen ++ [f.id]) (k+1)]
        congr 1
        apply List.filter_congr
        intro p hp
        have := hlt p hp
        simp only [decide_eq_decide, List.mem_cons, forall_eq_or_imp, List.mem_append,
          not_or, List.not_mem_nil, not_false_eq_true, and_true]
        constructor
        · rintro ⟨⟨a, a'⟩, b⟩
          exact ⟨a, fun _ he => a' he.symm, b⟩
        · rintro ⟨a, a', b⟩
          exact ⟨⟨a, fun he => a' this he.symm⟩, b⟩
  exact key fs seen 0

/-- C07 (a): de-duplication keeps exactly the first occurrence of each id, in order. -/
theorem C07_first_occurrences (fs : List Field) :
    Spec.FirstOccurrences fs (deduplicateFields fs) := by
  unfold Spec.FirstOccurrences deduplicateFields
  rw [dedupGo_eq]
  simp

/-- C07 (b): each id once, no id lost, order kept. -/
theorem C07_unique_complete (fs : List Field) :
    ((deduplicateFields fs).map Field.id).Nodup ∧
    (∀ i, i ∈ (deduplicateFields fs).map Field.id ↔ i ∈ fs.map Field.id) ∧
    List.Sublist (deduplicateFields fs) fs := by
  obtain ⟨h1, h2, h3, h4⟩ := dedupGo_ids [] fs
  refine ⟨h2, ?_, h4⟩
  intro i
  constructor
  · intro hi
    obtain ⟨f, hf, rfl⟩ := List.mem_map.mp hi
    exact List.mem_map.mpr ⟨f, (h1 f hf).1, rfl⟩
  · intro hi
    obtain ⟨f, hf, rfl⟩ := List.mem_map.mp hi
    rcases h3 f hf with h | h
    · cases h
    · exact h

theorem dedupGo_id (seen : List String) (fs : List Field) (hnd : (fs.map Field.id).Nodup)
    (hd : ∀ f ∈ fs, f.id ∉ seen) : dedupGo seen fs = fs := by
  induction fs generalizing seen with
  | nil => rfl
  | cons f fs ih =>
    simp only [List.map_cons, List.nodup_cons] at hnd
    simp only [dedupGo]
    rw [if_neg (hd f (by simp)), ih _ hnd.2]
    intro g hg hc
    simp only [List.mem_append, List.mem_singleton] at hc
    rcases hc with hc | hc
    · exact hd g (by simp [hg]) hc
    · exact hnd.1 (List.mem_map.mpr ⟨g, hg, hc⟩)

/-- C07 (c): de-duplicating twice changes nothing more. -/
theorem C07_idempotent (fs : List Field) :
    deduplicateFields (deduplicateFields fs) = deduplicateFields fs := by
  apply dedupGo_id
  · exact (C07_unique_complete fs).1
  · simp

/-! ### Concrete cases -/

namespace AccessExample

def grants : List Grant :=
  [{ name := "sales", userAttr := "dept", allowed := ["sales", "exec"] },
   { name := "region", userAttr := "region", allowed := ["eu"] }]

def orders : ViewDef :=
  { name := "Orders", fields :=
      [{ name := "Total", fieldType := .measure, typ := "sum" },
       { name := "created", fieldType := .dimensionGroup, typ := "time",
         timeframes := ["raw", "date"] },
       { name := "margin", fieldType := .measure, typ := "sum", grants := ["sales"] }] }

def secret : ViewDef :=
  { name := "secret", grants := ["region"], fields := [{ name := "x", fieldType := .dimension }] }

def proj : Proj :=
  { models := [{ name := "m", accessGrants := grants }], views := [orders, secret],
    user := some [("dept", some "ops"), ("region", some "eu")] }

/-- A user from the wrong region. -/
def proj2 : Proj := { proj with user := some [("region", some "us")] }

-- the user is allowed, denied, and the lookup raises on an unknown grant
example : canAccess proj ["region"] = .ok true := by decide
example : canAccess proj ["sales", "region"] = .ok false := by decide
example : canAccess proj ["nope"] = .error .query := by decide
-- denied field and missing field give the same answer; so do denied and missing views
example : getField proj "orders.margin" none = .error .accessDenied := by decide
example : getField proj "orders.nothing" none = .error .accessDenied := by decide
example : getField proj2 "secret.x" none = .error .accessDenied := by decide
-- found in any letter case
example : (getField proj "CREATED_Date" none).isOk = true := by decide
example : (getField proj "orders.TOTAL" none).isOk = true := by decide
-- the view part of a qualified name is matched exactly: this is a finding, see DESIGN.md
example : getField proj "Orders.total" none = .error .accessDenied := by decide
-- the implicit count
example : (getField proj "orders.count" none).isOk = true := by decide
example : getField proj "count" none = .error .accessDenied := by decide

theorem declared_of (P : Proj) (req : List String) (h : canAccess P req = .ok true ∨
    canAccess P req = .ok false) (hu : P.user.isSome) : AllDeclared P req := by
  obtain ⟨u, hu⟩ := Option.isSome_iff_exists.mp hu
  rcases h with h | h
  · intro n hn
    obtain ⟨g, hg, -⟩ := (C01_allowed_iff P req).mp h u hu n hn
    exact ⟨g, hg⟩
  · exact ((C01_denied_iff P req).mp h).1

/-- The hypotheses of the C05 theorems are met by the example project. -/
example : WellFormed proj := by
  constructor
  · intro v hv
    have : v = orders ∨ v = secret := by simpa [proj] using hv
    rcases this with rfl | rfl
    · refine ⟨declared_of _ _ (by decide) (by decide), ?_⟩
      intro f hf
      have : f.grants = [] ∨ f.grants = ["sales"] := by
        simp only [orders, List.mem_cons, List.not_mem_nil, or_false] at hf
        rcases hf with rfl | rfl | rfl <;> simp
      rcases this with h | h <;> rw [h] <;> exact declared_of _ _ (by decide) (by decide)
    · refine ⟨declared_of _ _ (by decide) (by decide), ?_⟩
      intro f hf
      simp only [secret, List.mem_cons, List.not_mem_nil, or_false] at hf
      subst hf
      exact declared_of _ _ (by decide) (by decide)
  · intro d hd; cases hd

example : (proj.views.flatMap (fun v => v.fields.flatMap Spec.namesOf)).Nodup := by decide

end AccessExample

end ML
