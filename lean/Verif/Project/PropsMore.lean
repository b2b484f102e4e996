import Verif.Project.Props
/-
More of C08-C11: models and dashboards inside a replacement block, replacements without a name, what listing fields does to the caller's
dictionaries, and view objects held by the caller.
-/
set_option autoImplicit false
namespace ML
open Spec

section
variable {G : Type}

/-! ### C09, models and dashboards -/

/-- The models among the replacement objects, in order. -/
def Spec.replacedModels (s : PState G) (objs : List Nat) : List ModelDef :=
  objs.filterMap (fun r => (getObj s.heap r).bind Obj.asModel)

/-- The dashboards among the replacement objects, in order. -/
def Spec.replacedDashboards (s : PState G) (objs : List Nat) : List DashDef :=
  objs.filterMap (fun r => (getObj s.heap r).bind Obj.asDash)

theorem unchanged_filterMap {α : Type} (h k : List Obj) (is : Obj → Bool) (as : Obj → Option α) (nm : α → String) (objs cur : List Nat)
    (his : ∀ o, is o = (as o).isSome) (hnm : ∀ o a, as o = some a → o.name = some (nm a)) (hc : ∀ r ∈ cur, r < h.length) :
    (unchanged h cur (pick h is objs)).filterMap (fun r => (getObj (h ++ k) r).bind as) =
      (cur.filterMap (fun r => (getObj h r).bind as)).filter
        (fun a => !((objs.filterMap (fun r => (getObj h r).bind as)).any (fun b => nm b == nm a))) := by
  unfold unchanged
  induction cur with
  | nil => rfl
  | cons r rs ih =>
    have ih := ih (fun q hq => hc q (by simp [hq]))
    have hg := getObj_append_left h k r (hc r (by simp))
    rw [List.filter_cons, List.filterMap_cons]
    cases hb : (getObj h r).bind as with
    | none =>
      simp only
      split
      · rw [List.filterMap_cons, hg, hb]; exact ih
      · exact ih
    | some a =>
      obtain ⟨o, ho, hoa⟩ := Option.bind_eq_some_iff.mp hb
      have hany : ((pick h is objs).any (fun q => decide ((getObj h q).bind Obj.name = (getObj h r).bind Obj.name))) =
          (objs.filterMap (fun r => (getObj h r).bind as)).any (fun b => nm b == nm a) := by
        rw [Bool.eq_iff_iff]
        simp only [List.any_eq_true, decide_eq_true_eq, beq_iff_eq, List.mem_filterMap, ho, Option.bind_some, hnm o a hoa]
        constructor
        · rintro ⟨q, hq, he⟩
          obtain ⟨hq1, hq2⟩ := List.mem_filter.mp hq
          cases hoq : getObj h q with
          | none => rw [hoq] at he; cases he
          | some o' =>
            rw [hoq] at he hq2
            simp only [his] at hq2
            obtain ⟨b, hb'⟩ := Option.isSome_iff_exists.mp hq2
            refine ⟨b, ⟨q, hq1, by rw [hoq]; exact hb'⟩, ?_⟩
            simpa [hnm o' b hb'] using he
        · rintro ⟨b, ⟨q, hq1, hw⟩, he⟩
          obtain ⟨o', ho', hb'⟩ := Option.bind_eq_some_iff.mp hw
          refine ⟨q, List.mem_filter.mpr ⟨hq1, ?_⟩, ?_⟩
          · rw [ho']; simp [his, hb']
          · rw [ho', Option.bind_some, hnm o' b hb', he]
      simp only [hany, List.filter_cons]
      split
      · rw [List.filterMap_cons, hg, hb, ih]
      · exact ih

/-- **C09** (c): the same for models: inside the block the old models whose name does not occur among the replacements, then the replacements. -/
theorem C09_models_inside (s : PState G) (hs : Closed s) (objs : List Nat) (hr : ∀ r ∈ objs, r < s.heap.length) :
    (s.enter objs).content.models =
      s.content.models.filter (fun v => !((replacedModels s objs).any (fun w => w.name == v.name))) ++ replacedModels s objs := by
  simp only [PState.content, PState.enter, List.filterMap_append]
  congr 1
  · exact unchanged_filterMap s.heap _ Obj.isModel Obj.asModel ModelDef.name objs s.models (fun o => by cases o <;> rfl)
      (fun o a h => by cases o <;> cases h; rfl) (fun r h => hs r (.inl h))
  · exact filterMap_pick s.heap _ Obj.isModel Obj.asModel objs (fun o h => by cases o <;> first | rfl | cases h) hr

/-- **C09** (d): the same for dashboards. -/
theorem C09_dashboards_inside (s : PState G) (hs : Closed s) (objs : List Nat) (hr : ∀ r ∈ objs, r < s.heap.length) :
    (s.enter objs).content.dashboards =
      s.content.dashboards.filter (fun v => !((replacedDashboards s objs).any (fun w => w.name == v.name))) ++ replacedDashboards s objs := by
  simp only [PState.content, PState.enter, List.filterMap_append]
  congr 1
  · exact unchanged_filterMap s.heap _ Obj.isDash Obj.asDash DashDef.name objs s.dashboards (fun o => by cases o <;> rfl)
      (fun o a h => by cases o <;> cases h; rfl) (fun r h => hs r (.inr (.inr h)))
  · exact filterMap_pick s.heap _ Obj.isDash Obj.asDash objs (fun o h => by cases o <;> first | rfl | cases h) hr

/-! ### C08, replacements without a name -/

/-- **C08** (e): with a view, model or dashboard without a name among the replacements, the block is not entered: KeyError, and the project
is exactly as before. -/
theorem C08_nameless (build : Proj → Res G) (s : PState G) (objs : List Nat) (body : Prog) (r : Nat) (hr : r ∈ objs)
    (h : getObj s.heap r = some .nameless) : s.exec build (.replace objs body) = (s, some .keyError, []) := by
  have : (pick s.heap Obj.isNameless objs).isEmpty = false := by
    cases hp : pick s.heap Obj.isNameless objs with
    | cons a l => rfl
    | nil =>
      have : r ∈ pick s.heap Obj.isNameless objs := List.mem_filter.mpr ⟨hr, by rw [h]; rfl⟩
      rw [hp] at this; cases this
  simp only [PState.exec, this]
  rfl

/-! ### C11, what listing fields does to the definitions -/

theorem touchFields_wf {P : Proj} {v : ViewDef} (hv : AllDeclared P v.grants) :
    ∀ fs : List FieldDef, (∀ f ∈ fs, AllDeclared P f.grants) → touchFields P v fs = (fs.map lowName, true)
  | [], _ => rfl
  | f :: fs, h => by
    simp only [touchFields, canAccessField_wf hv (h f (by simp)), touchFields_wf hv fs (fun g hg => h g (by simp [hg]))]
    rfl

theorem touchViews_wf {P : Proj} : ∀ (rs : List Nat) (h : List Obj), rs.Nodup →
    (∀ r ∈ rs, ∀ v, getObj h r = some (.view v) → AllDeclared P v.grants ∧ ∀ f ∈ v.fields, AllDeclared P f.grants) →
    ∀ r ∈ rs, ∀ v, getObj h r = some (.view v) →
      getObj (touchViews P h rs) r = some (.view (if visB P v.grants then lowView v else v))
  | [], _, _, _, r, hr, _, _ => by cases hr
  | q :: rs, h, hn, hd, r, hr, v, hv => by
    obtain ⟨hq, hn⟩ := List.nodup_cons.mp hn
    by_cases e : r = q
    · subst e
      obtain ⟨d1, d2⟩ := hd r (by simp) v hv
      simp only [touchViews, hv, Option.bind_some, Obj.asView, canAccess_declared P _ d1]
      cases hb : visB P v.grants with
      | true =>
        simp only [touchFields_wf d1 v.fields d2, if_true]
        rw [touchViews_frame _ _ _ _ hq, getObj_set, if_pos ⟨rfl, getObj_lt hv⟩]
        rfl
      | false =>
        simp only
        rw [touchViews_frame _ _ _ _ hq, hv]; rfl
    · have hr' : r ∈ rs := (List.mem_cons.mp hr).resolve_left e
      have hset : ∀ o, ∀ p ∈ rs, getObj (h.set q o) p = getObj h p := by
        intro o p hp
        rw [getObj_set, if_neg (fun (c : q = p ∧ _) => hq (c.1.symm ▸ hp))]
      have ih := touchViews_wf rs h hn (fun p hp => hd p (by simp [hp])) r hr' v hv
      cases hb : (getObj h q).bind Obj.asView with
      | none => simp only [touchViews, hb]; exact ih
      | some w =>
        have hw := getObj_view hb
        obtain ⟨d1, d2⟩ := hd q (by simp) w hw
        simp only [touchViews, hb, canAccess_declared P _ d1]
        cases hb' : visB P w.grants with
        | true =>
          simp only [touchFields_wf d1 w.fields d2, if_true]
          refine touchViews_wf rs _ hn ?_ r hr' v ?_
          · intro p hp v' hv'; rw [hset _ p hp] at hv'; exact hd p (by simp [hp]) v' hv'
          · rw [hset _ r hr']; exact hv
        | false => simp only; exact ih

/-- **C11** (h): listing all fields, when nothing is cached, writes the names of the fields of every view the user may see in lower case into the
caller's dictionaries, and changes no other view. -/
theorem C11_listing_lowers (s : PState G) (hn : s.views.Nodup) (h : WellFormed s.content) (a : FieldsArgs) (ha : a.viewName = none)
    (hf : cacheGet s.fieldsC (userKey s.user, a) = none) (r : Nat) (hr : r ∈ s.views) (v : ViewDef) (hv : getObj s.heap r = some (.view v)) :
    (Visible s.content v.grants → getObj (s.fields a).1.heap r = some (.view (lowView v))) ∧
    (¬ Visible s.content v.grants → getObj (s.fields a).1.heap r = some (.view v)) := by
  have hmem : ∀ q ∈ s.views, ∀ w, getObj s.heap q = some (.view w) → w ∈ s.content.views := by
    intro q hq w hw
    exact List.mem_filterMap.mpr ⟨q, hq, by rw [hw]; rfl⟩
  have htouch : (s.fields a).1.heap = touchViews s.content s.heap s.views := by
    have : (s.fields a).1.heap = (touch s a).heap := by
      unfold PState.fields
      rw [hf]
      simp only
      split <;> rfl
    rw [this]
    unfold touch
    rw [allViews_wf (fun w hw => (h.1 w hw).1), ha]
  have key := touchViews_wf (P := s.content) s.views s.heap hn (fun q hq w hw => h.1 w (hmem q hq w hw)) r hr v hv
  rw [← canAccess_true_iff, ← visB_true, htouch, key]
  constructor
  · intro hb; rw [hb]; rfl
  · intro hb
    rw [Bool.not_eq_true] at hb
    rw [hb]; rfl

/-- **C11** (i): listing the fields of one view does so for the first view of that name the user may see, and for no other object. -/
theorem C11_listing_one_lowers (s : PState G) (h : WellFormed s.content) (a : FieldsArgs) (n : String)
    (ha : a.viewName = some n) (hf : cacheGet s.fieldsC (userKey s.user, a) = none) (l l' : List Nat) (r : Nat)
    (hl : s.views = l ++ r :: l') (v : ViewDef) (hv : getObj s.heap r = some (.view v)) (hn : lower v.name = n) (hvis : Visible s.content v.grants)
    (hfirst : ∀ q ∈ l, ∀ w, getObj s.heap q = some (.view w) → lower w.name = n → ¬ Visible s.content w.grants) :
    getObj (s.fields a).1.heap r = some (.view (lowView v)) ∧ ∀ q, q ≠ r → getObj (s.fields a).1.heap q = getObj s.heap q := by
  have hfind : s.views.find? (fun r => match (getObj s.heap r).bind Obj.asView with
      | some v => decide (lower v.name = n) && decide (canAccess s.content v.grants = .ok true)
      | none => false) = some r := by
    rw [hl, List.find?_append]
    have : l.find? (fun r => match (getObj s.heap r).bind Obj.asView with
        | some v => decide (lower v.name = n) && decide (canAccess s.content v.grants = .ok true)
        | none => false) = none := by
      rw [List.find?_eq_none]
      intro q hq
      split
      · rename_i w hw
        simp only [Bool.and_eq_true, decide_eq_true_eq, not_and]
        intro e hc
        exact hfirst q hq w (getObj_view hw) e ((canAccess_true_iff _ _).mp hc)
      · simp
    rw [this, Option.none_or, List.find?_cons_of_pos]
    simp [hv, Obj.asView, hn, (canAccess_true_iff _ _).mpr hvis]
  have htouch : (s.fields a).1.heap = touchViews s.content s.heap [r] := by
    have : (s.fields a).1.heap = (touch s a).heap := by
      unfold PState.fields
      rw [hf]
      simp only
      split <;> rfl
    rw [this]
    unfold touch
    rw [allViews_wf (fun w hw => (h.1 w hw).1), ha]
    simp only
    split
    · rename_i r' hr'
      cases hr'.symm.trans hfind; rfl
    · rename_i hr'
      cases hr'.symm.trans hfind
  have hm : v ∈ s.content.views := List.mem_filterMap.mpr ⟨r, by rw [hl]; simp, by rw [hv]; rfl⟩
  rw [htouch]
  constructor
  · have key := touchViews_wf (P := s.content) [r] s.heap (by simp) (fun q hq w hw => by
      rw [List.mem_singleton] at hq; subst hq; rw [hv] at hw; cases hw; exact h.1 v hm) r (by simp) v hv
    rw [key, (visB_true _ _).mpr ((canAccess_true_iff _ _).mpr hvis)]; rfl
  · intro q hq
    exact touchViews_frame _ _ _ _ (by simpa using hq)

/-- **C11** (j): the first call of `fields` on a view object gives the view's fields. -/
theorem C11_view_object_first (P : Proj) (v : ViewDef) (sh ex : Bool) : ((⟨v, none⟩ : ViewObj).fields P sh ex).2 = viewFields P v sh ex := by
  cases h : viewAllFields P v ex with
  | error e => simp [ViewObj.fields, viewFields, h]
  | ok fs => simp [ViewObj.fields, viewFields, h]

/-! ### Concrete cases -/

/-- Replacing a model and a dashboard inside a block, next to an object without a name that stops it. -/
example : ((⟨[.model ⟨"m", []⟩, .dash ⟨"d", []⟩, .nameless, .model ⟨"m", [⟨"g", "a", []⟩]⟩], [0], [], [1], none, [], [], none⟩ : PState Unit).enter
    [3]).content.models = [⟨"m", [⟨"g", "a", []⟩]⟩] := by decide

example : (({ heap := [.view { name := "v", fields := [{ name := "Total", fieldType := .measure }] }], views := [0] } : PState Unit).fields ⟨none, true, true⟩).1.heap =
    [.view { name := "v", fields := [{ name := "total", fieldType := .measure }] }] := by decide

end
end ML
