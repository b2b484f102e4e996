import Verif.Dash.Props
import Verif.Project.Lemmas
/-
C69: names, labels, and cases.
-/
set_option autoImplicit false
namespace ML
open Spec

theorem withLayout_spec (d : FDef) :
    (∀ v, Given d "layout" v → v ≠ .null → Given (withLayout d) "layout" v) ∧
    ((¬ HasKey d "layout" ∨ Given d "layout" .null) → Given (withLayout d) "layout" (.str "grid")) ∧
    ∀ k, k ≠ "layout" → dictGet (withLayout d) k = dictGet d k := by
  unfold withLayout
  have put : Given (dictSet d "layout" (.str "grid")) "layout" (.str "grid") := by rw [Given, dictGet_set, if_pos rfl]
  have rest : ∀ k, k ≠ "layout" → dictGet (dictSet d "layout" (.str "grid")) k = dictGet d k :=
    fun k hk => by rw [dictGet_set, if_neg (Ne.symm hk)]
  cases c : dictGet d "layout" with
  | none => exact ⟨fun v hv => (by rw [Given, c] at hv; cases hv), fun _ => put, rest⟩
  | some w =>
    have other : w ≠ .null → (∀ v, Given d "layout" v → v ≠ .null → Given d "layout" v) ∧
        ((¬ HasKey d "layout" ∨ Given d "layout" .null) → Given d "layout" (.str "grid")) ∧ ∀ k, k ≠ "layout" → dictGet d k = dictGet d k := by
      intro hw
      refine ⟨fun v hv _ => hv, ?_, fun _ _ => rfl⟩
      rintro (h | h)
      · exact absurd ⟨w, c⟩ h
      · rw [Given, c] at h; exact absurd (Option.some.inj h) hw
    cases w with
    | null => exact ⟨fun v hv hn => (by rw [Given, c] at hv; exact absurd (Option.some.inj hv).symm hn), fun _ => put, rest⟩
    | _ => exact other (by simp)

theorem lowerName_spec (d d' : FDef) (h : lowerName d = .ok d') :
    (∀ s, Given d "name" (.str s) → Given d' "name" (.str (lower s))) ∧ (¬ GivesText d "name" → dictGet d' "name" = dictGet d "name") ∧
    ∀ k, k ≠ "name" → dictGet d' k = dictGet d k := by
  unfold lowerName at h
  cases c : dictGet d "name" with
  | none =>
    rw [c] at h; cases h
    exact ⟨fun s hs => (by rw [Given, c] at hs; cases hs), fun _ => c, fun _ _ => rfl⟩
  | some v =>
    rw [c] at h
    cases v with
    | null => cases h; exact ⟨fun s hs => (by rw [Given, c] at hs; cases hs), fun _ => c, fun _ _ => rfl⟩
    | str s =>
      cases h
      refine ⟨fun t ht => ?_, fun hn => absurd ⟨s, c⟩ hn, fun k hk => by rw [dictGet_set, if_neg (Ne.symm hk)]⟩
      rw [Given, c] at ht
      cases ht
      rw [Given, dictGet_set, if_pos rfl]
    | _ => cases h

/-- C69 (g): making a dashboard of a definition writes the name in lower case and the layout "grid" where there is none, and changes nothing
else. -/
theorem C69_made (d d' : FDef) (h : dashInit d = .ok d') :
    (∀ s, Given d "name" (.str s) → Given d' "name" (.str (lower s))) ∧ (Given d "name" .null → Given d' "name" .null) ∧
    (∀ v, Given d "layout" v → v ≠ .null → Given d' "layout" v) ∧
    ((¬ HasKey d "layout" ∨ Given d "layout" .null) → Given d' "layout" (.str "grid")) ∧
    ∀ k, k ≠ "name" → k ≠ "layout" → dictGet d' k = dictGet d k := by
  unfold dashInit at h
  cases c : lowerName d with
  | error e => rw [c] at h; cases h
  | ok d1 =>
    rw [c] at h
    simp only at h
    have hd : d' = withLayout d1 := by
      split at h
      · cases h
      · cases h; rfl
    obtain ⟨n1, n2, n3⟩ := lowerName_spec d d1 c
    obtain ⟨l1, l2, l3⟩ := withLayout_spec d1
    rw [hd]
    have hl : dictGet d1 "layout" = dictGet d "layout" := n3 _ (by decide)
    refine ⟨fun s hs => ?_, fun hs => ?_, fun v hv => l1 v (by rw [Given, hl]; exact hv), ?_, fun k h1 h2 => by rw [l3 k h2, n3 k h1]⟩
    · rw [Given, l3 _ (by decide)]; exact n1 s hs
    · rw [Given, l3 _ (by decide), n2]
      · exact hs
      · rintro ⟨s, ht⟩; rw [Given, show dictGet d "name" = some Yaml.null from hs] at ht; cases ht
    · intro hh
      apply l2
      unfold HasKey Given
      rw [hl]
      exact hh

/-- C69 (g), continued: a definition is refused exactly when the name is missing, or is neither a text nor null. -/
theorem C69_refused (d : FDef) :
    (¬ HasKey d "name" → dashInit d = .error .query) ∧
    (∀ v, Given d "name" v → v ≠ .null → ¬ Text v → dashInit d = .error .attributeError) ∧
    (GivesText d "name" ∨ Given d "name" .null → ∃ d', dashInit d = .ok d') := by
  have keep : ∀ d1 : FDef, dictGet (withLayout d1) "name" = dictGet d1 "name" := fun d1 => (withLayout_spec d1).2.2 _ (by decide)
  refine ⟨fun h => ?_, fun v hv hn ht => ?_, fun h => ?_⟩
  · have c : dictGet d "name" = none := by
      cases c : dictGet d "name" with
      | none => rfl
      | some v => exact absurd ⟨v, c⟩ h
    unfold dashInit lowerName
    rw [c]
    simp only [keep, c]
  · unfold dashInit lowerName
    rw [show dictGet d "name" = some v from hv]
    cases v with
    | null => exact absurd rfl hn
    | str s => exact absurd ⟨s, rfl⟩ ht
    | _ => rfl
  · rcases h with ⟨s, hs⟩ | hs
    · refine ⟨withLayout (dictSet d "name" (.str (lower s))), ?_⟩
      unfold dashInit lowerName
      rw [show dictGet d "name" = some (Yaml.str s) from hs]
      simp only [keep]
      rw [dictGet_set, if_pos rfl]
    · refine ⟨withLayout d, ?_⟩
      unfold dashInit lowerName
      rw [show dictGet d "name" = some Yaml.null from hs]
      simp only [keep]
      rw [show dictGet d "name" = some Yaml.null from hs]

theorem made_name (d d' : FDef) (h : dashInit d = .ok d') (s : String) :
    textAt d' "name" = some s ↔ ∃ t, Given d "name" (.str t) ∧ lower t = s := by
  obtain ⟨h1, h2, -⟩ := C69_made d d' h
  have r := C69_refused d
  unfold textAt
  cases c : dictGet d "name" with
  | none => rw [r.1 (by rintro ⟨v, hv⟩; rw [Given, c] at hv; cases hv)] at h; cases h
  | some v =>
    cases v with
    | null =>
      rw [show dictGet d' "name" = some Yaml.null from h2 c]
      simp [Given, c]
    | str t =>
      rw [show dictGet d' "name" = some (Yaml.str (lower t)) from h1 t c]
      simp [Given, c]
    | _ => rw [r.2.1 _ c (by simp) (by rintro ⟨s, hs⟩; cases hs)] at h; cases h

theorem forall₂_split {α β : Type} {R : α → β → Prop} : ∀ {b a : List β} {l : List α}, List.Forall₂ R l (b ++ a) →
    ∃ b' a', List.Forall₂ R b' b ∧ List.Forall₂ R a' a ∧ l = b' ++ a'
  | [], a, l, h => ⟨[], l, .nil, h, rfl⟩
  | y :: b, a, l, h => by
    obtain ⟨x, l', hx, hl, rfl⟩ := List.forall₂_cons_right_iff.mp h
    obtain ⟨b', a', h1, h2, rfl⟩ := forall₂_split hl
    exact ⟨x :: b', a', .cons hx h1, h2, rfl⟩

/-- C69 (h): asking for a dashboard gives the first one whose name, in lower case, is the text asked for. -/
theorem C69_named (ds : List FDef) (name : String) (d' : FDef) (h : dashNamed ds name = .ok d') :
    ∃ before d after, ds = before ++ d :: after ∧ dashInit d = .ok d' ∧ (∃ t, Given d "name" (.str t) ∧ lower t = name) ∧
      ∀ x ∈ before, ∀ t, Given x "name" (.str t) → lower t ≠ name := by
  unfold dashNamed at h
  cases c : mapDash dashInit ds with
  | error e => rw [c] at h; cases h
  | ok made =>
    rw [c] at h
    simp only at h
    cases cf : made.find? (fun d => decide (textAt d "name" = some name)) with
    | none => rw [cf] at h; cases h
    | some x =>
      rw [cf] at h
      cases h
      obtain ⟨h1, b, a, h2, h3⟩ := find_first _ _ _ cf
      have hall := (mapDash_ok _ _ _).mp c
      rw [h2] at hall
      obtain ⟨b', rest, hb, hr, hds⟩ := forall₂_split hall
      obtain ⟨d, a', hd, ha, rfl⟩ := List.forall₂_cons_right_iff.mp hr
      refine ⟨b', d, a', hds, hd, (made_name d d' hd name).mp (by simpa using h1), ?_⟩
      intro y hy t ht htn
      obtain ⟨y', hy', hyr⟩ := forall₂_each hb y hy
      have := h3 y' hy'
      rw [decide_eq_false_iff_not] at this
      exact this ((made_name y y' hyr name).mpr ⟨t, ht, htn⟩)

/-- C69 (i): no dashboard is found under a name with a capital letter, even if it is written so. -/
theorem C69_capital (ds : List FDef) (name : String) (hc : lower name ≠ name) (d' : FDef) : dashNamed ds name ≠ .ok d' := by
  intro h
  obtain ⟨-, d, -, -, -, ⟨t, -, ht⟩, -⟩ := C69_named ds name d' h
  exact hc (by rw [← ht, lower_lower])

/-- C69 (j): the label is the one written, if it is not empty, and otherwise the name in capitalised words. -/
theorem C69_label (d : FDef) :
    (∀ v, Given d "label" v → ¬ Nothing v → dashLabel d = .ok v) ∧
    (¬ IsSet d "label" → ∀ s, Given d "name" (.str s) → dashLabel d = .ok (.str (defaultPrefix s))) ∧
    (¬ IsSet d "label" → ¬ GivesText d "name" → dashLabel d = .error .attributeError) := by
  have fb : (∀ s, Given d "name" (.str s) → dashLabel.fallback d = .ok (.str (defaultPrefix s))) ∧
      (¬ GivesText d "name" → dashLabel.fallback d = .error .attributeError) := by
    unfold dashLabel.fallback
    refine ⟨fun s hs => by rw [show dictGet d "name" = some (Yaml.str s) from hs], fun h => ?_⟩
    cases c : dictGet d "name" with
    | none => rfl
    | some v =>
      cases v with
      | str s => exact absurd ⟨s, c⟩ h
      | _ => rfl
  have ts : ∀ v : Yaml, v.truthy = true ↔ ¬ Nothing v := by
    intro v
    constructor
    · rintro h hn; cases hn <;> simp [Yaml.truthy] at h
    · intro h
      by_contra hv
      apply h
      cases v with
      | null => exact .null
      | bool b => cases b with | false => exact .no | true => simp [Yaml.truthy] at hv
      | int n => simp [Yaml.truthy] at hv; subst hv; exact .zero
      | float q => simp [Yaml.truthy] at hv; subst hv; exact .zero'
      | str s => simp [Yaml.truthy] at hv; subst hv; exact .text
      | list l => simp [Yaml.truthy] at hv; subst hv; exact .list
      | dict l => simp [Yaml.truthy] at hv; subst hv; exact .dict
  have unset : ¬ IsSet d "label" → dashLabel d = dashLabel.fallback d := by
    intro h
    unfold dashLabel
    cases c : dictGet d "label" with
    | none => rfl
    | some v =>
      simp only
      rw [if_neg]
      intro hv
      exact h ⟨v, c, (ts v).mp hv⟩
  refine ⟨fun v hv hn => ?_, fun h s hs => by rw [unset h, fb.1 s hs], fun h hs => by rw [unset h, fb.2 hs]⟩
  unfold dashLabel
  rw [show dictGet d "label" = some v from hv]
  simp only [(ts v).mpr hn, if_true]

/-- C69 (k): what is printed of a dashboard are the name, the label and the description as they are written: a label that is not written is not
printed, although the dashboard has one. -/
theorem C69_printed (env : DashEnv) (d out : FDef) (h : dashPrintable env d = .ok out) (k : String) (v : Yaml) :
    (k, v) ∈ out ↔ k ∈ ["name", "label", "description"] ∧ Given d k v ∧ v ≠ .null := by
  unfold dashPrintable at h
  cases c : dashDict env d with
  | error e => rw [c] at h; cases h
  | ok dd =>
    rw [c] at h
    simp only [Except.ok.injEq] at h
    subst h
    rw [List.mem_filterMap]
    constructor
    · rintro ⟨k', hk', hv⟩
      cases cv : dictGet d k' with
      | none => rw [cv] at hv; cases hv
      | some w =>
        rw [cv] at hv
        cases w with
        | null => cases hv
        | _ => cases hv; exact ⟨hk', cv, by simp⟩
    · rintro ⟨hk, hv, hn⟩
      refine ⟨k, hk, ?_⟩
      rw [show dictGet d k = some v from hv]
      cases v with
      | null => exact absurd rfl hn
      | _ => rfl

/-! ### Cases -/

/-- Two models, whose weeks begin on Sunday and on Tuesday; only `orders.revenue` and `orders.country` can be looked up. It is Wednesday, 2023-03-15. -/
def Spec.sampleEnv : DashEnv where
  models := [⟨"sales", some "sunday"⟩, ⟨"web", some "tuesday"⟩]
  getField v := match v with
    | .str s => if s = "orders.revenue" ∨ s = "orders.country" then .ok () else .error .accessDenied
    | _ => .error .attributeError
  timezone := .str "America/New_York"
  now := ⟨⟨2023, 3, 15⟩, 36000⟩
  num _ := none

/-- An element of the model `sales`, sliced by country, with a filter on the last week. -/
def Spec.sampleElement (model : String) : FDef :=
  [("title", .str "Revenue"), ("model", .str model), ("metric", .str "orders.revenue"), ("slice_by", .list [.str "orders.country", .str "orders.city"]),
   ("filters", .list [.dict [("field", .str "orders.date"), ("value", .str "last week")]])]

/-- A dashboard with these elements. -/
def Spec.sampleDash (es : List FDef) : FDef :=
  [("name", .str "Weekly_Sales"), ("elements", .list (es.map .dict)),
   ("filters", .list [.dict [("field", .str "orders.date"), ("value", .str "last week")], .dict [("field", .str "orders.country"), ("value", .str "")]])]

/-- The first and the last moment of a window. -/
def Spec.ends (r : Res (List DFilter)) : Option (List (Option Operand)) :=
  match r with
  | .ok l => some (l.map (fun f => f.meaning.map (·.value)))
  | .error _ => none

/-- With one model only, its Sunday begins the week of the dashboard's own filters. The empty filter stays. -/
example : ends (dashFilters sampleEnv (sampleDash [sampleElement "sales"])) =
    some [some (.time ⟨⟨2023, 3, 5⟩, 0⟩), some (.time ⟨⟨2023, 3, 11⟩, 86399⟩), none] := by decide +kernel

/-- With both, Monday does; each element's own filters keep to its own model's day. -/
example : ends (dashFilters sampleEnv (sampleDash [sampleElement "sales", sampleElement "web"])) =
    some [some (.time ⟨⟨2023, 3, 6⟩, 0⟩), some (.time ⟨⟨2023, 3, 12⟩, 86399⟩), none] ∧
    ends (elementFilters sampleEnv (sampleElement "sales")) = some [some (.time ⟨⟨2023, 3, 5⟩, 0⟩), some (.time ⟨⟨2023, 3, 11⟩, 86399⟩)] ∧
    ends (elementFilters sampleEnv (sampleElement "web")) = some [some (.time ⟨⟨2023, 3, 7⟩, 0⟩), some (.time ⟨⟨2023, 3, 13⟩, 86399⟩)] := by
  decide +kernel

/-- The hypotheses of (a) to (f) are met by such a dashboard. -/
example : FiltersOf (sampleDash [sampleElement "sales"])
      [[("field", .str "orders.date"), ("value", .str "last week")], [("field", .str "orders.country"), ("value", .str "")]] ∧
    ElementsOf (sampleDash [sampleElement "sales"]) [sampleElement "sales"] ∧ GivesText (sampleDash [sampleElement "sales"]) "name" ∧
    Shaped (sampleElement "sales") ∧ HasKey (sampleElement "sales") "model" ∧
    InModel sampleEnv (sampleElement "sales") ⟨"sales", some "sunday"⟩ ∧ CommonWeek [some "sunday"] (some "sunday") := by
  refine ⟨.inr rfl, .inr rfl, ⟨_, rfl⟩, ⟨?_, ?_, ?_, ⟨[[("field", .str "orders.date"), ("value", .str "last week")]], .inr rfl⟩⟩, ⟨_, rfl⟩,
    ⟨rfl, [], _, rfl, by simp⟩, .inl ⟨by simp, by simp⟩⟩
  · intro v hv
    rw [Given, show dictGet (sampleElement "sales") "metric" = some (.str "orders.revenue") from rfl] at hv
    exact .inl ⟨_, (Option.some.inj hv).symm⟩
  · intro v hv; cases hv
  · intro v hv
    rw [Given, show dictGet (sampleElement "sales") "slice_by" = some (.list [.str "orders.country", .str "orders.city"]) from rfl] at hv
    exact ⟨_, (Option.some.inj hv).symm⟩

/-- Of such a dashboard, the city and the date are reported: the date once for the dashboard and once for the element. -/
example : dashErrors sampleEnv (sampleDash [sampleElement "sales", sampleElement "Sales"]) = .ok
    [.filter (.str "orders.date"), .slice (.str "orders.city"), .elementFilter (.str "orders.date"),
     .model (.str "Sales"), .slice (.str "orders.city"), .elementFilter (.str "orders.date")] := by rfl

/-- A dashboard is found under its name in lower case, and not under the name it was given. -/
example : (∃ d, dashNamed [sampleDash [], sampleDash [sampleElement "web"]] "weekly_sales" = .ok d) ∧
    dashNamed [sampleDash [], sampleDash [sampleElement "web"]] "Weekly_Sales" = .error .accessDenied := by
  constructor
  · exact ⟨_, rfl⟩
  · rfl

/-- The label of the dashboard, and what is printed of it. -/
example : dashLabel [("name", .str "weekly_sales")] = .ok (.str "Weekly Sales") ∧
    dashPrintable sampleEnv [("name", .str "weekly_sales")] = .ok [("name", .str "weekly_sales")] := ⟨rfl, rfl⟩

end ML
