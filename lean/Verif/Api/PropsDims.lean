import Verif.Api.Dims
import Verif.Names.Props
import Verif.Access.Lemmas
import Verif.Mql.Replace

/-!
# C67: metrics and dimensions by name
-/

set_option autoImplicit false

namespace ML
namespace Spec

/-- The names a field goes by: its own, or those of its timeframes and intervals. -/
def CalledBy (d : DimObj) (n : String) : Prop :=
  match d.kind with
  | .measure | .plain => n = d.name
  | .time ts => ∃ t ∈ ts, n = d.name ++ "_" ++ t
  | .duration is => ∃ i ∈ is, n = i ++ "s_" ++ d.name
  | .otherGroup => False

/-- The name with or without a view. -/
def asWritten (v : Option String) (n : String) : String := v.elim n (fun v => v ++ "." ++ n)

/-- The field is the one that is meant. -/
def Meant (v : Option String) (n : String) (d : DimObj) : Prop := (v = none ∨ v = some d.view) ∧ CalledBy d n

end Spec

open Spec

theorem parts_written (v : Option String) (n : String) (hv : ∀ w, v = some w → dotFree w) (hn : dotFree n) :
    fieldNameParts (asWritten v n) = (none, v, n) := by
  cases v with
  | none => exact fieldNameParts_dotFree hn
  | some w => exact C06_split_two w n (hv w rfl) hn

theorem names_iff (d : DimObj) (n : String) (h : d.isGroup = true) : d.groupNames.contains n = true ↔ CalledBy d n := by
  unfold DimObj.groupNames CalledBy
  cases hk : d.kind with
  | measure => simp [DimObj.isGroup, hk] at h
  | plain => simp [DimObj.isGroup, hk] at h
  | otherGroup => simp
  | time ts => simp [eq_comm]
  | duration is => simp [eq_comm]

/-- `equal` of a field that was not asked for before. -/
theorem equal_fresh (d : DimObj) (v : Option String) (n : String) (hv : ∀ w, v = some w → dotFree w ∧ w ≠ "") (hn : dotFree n)
    (hp : d.picked = none) :
    ((d.equal (asWritten v n)).1 = true ↔ Meant v n d) ∧ ((d.equal (asWritten v n)).1 = false → (d.equal (asWritten v n)).2 = d) ∧
    ((d.equal (asWritten v n)).1 = true → (d.equal (asWritten v n)).2 = { d with picked := if d.isGroup then d.groupName n else none }) := by
  have hview : (v.any (fun v => decide (v ≠ "" ∧ v ≠ d.view)) = true) ↔ ¬ (v = none ∨ v = some d.view) := by
    cases v with
    | none => simp
    | some w => simp [(hv w rfl).2]
  unfold DimObj.equal
  rw [parts_written v n (fun w h => (hv w h).1) hn]
  simp only
  unfold Meant
  by_cases h1 : v.any (fun v => decide (v ≠ "" ∧ v ≠ d.view)) = true
  · rw [if_pos h1]
    exact ⟨⟨(fun h => by cases h), fun h => absurd h.1 (hview.mp h1)⟩, fun _ => rfl, fun h => by cases h⟩
  · have hin : v = none ∨ v = some d.view := by
      by_contra hc
      exact h1 (hview.mpr hc)
    rw [if_neg h1]
    by_cases hg : d.isGroup = true
    · rw [if_pos ⟨hg, hp⟩]
      by_cases hc : d.groupNames.contains n = true
      · rw [if_pos hc]
        exact ⟨⟨fun _ => ⟨hin, (names_iff d n hg).mp hc⟩, fun _ => rfl⟩, (fun h => by cases h), fun _ => by rw [if_pos hg]⟩
      · rw [if_neg hc]
        exact ⟨⟨(fun h => by cases h), fun h => absurd ((names_iff d n hg).mpr h.2) hc⟩, fun _ => rfl, fun h => by cases h⟩
    · rw [if_neg (fun h => hg h.1), if_neg hg]
      refine ⟨?_, fun _ => rfl, fun _ => ?_⟩
      · simp only [decide_eq_true_eq]
        constructor
        · intro h
          refine ⟨hin, ?_⟩
          unfold CalledBy
          cases hk : d.kind with
          | measure => exact h.symm
          | plain => exact h.symm
          | time ts => simp [DimObj.isGroup, hk] at hg
          | duration is => simp [DimObj.isGroup, hk] at hg
          | otherGroup => simp [DimObj.isGroup, hk] at hg
        · rintro ⟨_, h⟩
          unfold CalledBy at h
          cases hk : d.kind with
          | measure => rw [hk] at h; exact h.symm
          | plain => rw [hk] at h; exact h.symm
          | time ts => simp [DimObj.isGroup, hk] at hg
          | duration is => simp [DimObj.isGroup, hk] at hg
          | otherGroup => simp [DimObj.isGroup, hk] at hg
      · rw [if_neg hg, ← hp]

theorem nextEqual_split (n : String) (ds : List DimObj) :
    ((∀ d ∈ ds, (d.equal n).1 = false ∧ (d.equal n).2 = d) → nextEqual n ds = (ds, .error .other)) ∧
    (∀ pre d post, ds = pre ++ d :: post → (∀ x ∈ pre, (x.equal n).1 = false ∧ (x.equal n).2 = x) → (d.equal n).1 = true →
      nextEqual n ds = (pre ++ (d.equal n).2 :: post, .ok (d.equal n).2)) := by
  refine ⟨?_, ?_⟩
  · induction ds with
    | nil => intro _; rfl
    | cons d ds ih =>
      intro h
      obtain ⟨h1, h2⟩ := h d (by simp)
      unfold nextEqual
      rw [h1, if_neg (by simp), ih (fun x hx => h x (List.mem_cons_of_mem _ hx)), h2]
  · intro pre
    induction pre generalizing ds with
    | nil =>
      intro d post hds _ hd
      subst hds
      show nextEqual n (d :: post) = _
      unfold nextEqual
      rw [if_pos hd]
      rfl
    | cons a pre ih =>
      intro d post hds hpre hd
      subst hds
      obtain ⟨h1, h2⟩ := hpre a (by simp)
      show nextEqual n (a :: (pre ++ d :: post)) = _
      unfold nextEqual
      rw [h1, if_neg (by simp), ih (pre ++ d :: post) d post rfl (fun x hx => hpre x (List.mem_cons_of_mem _ hx)) hd, h2]
      rfl

/-- C67, in part. A dimension that is asked for by name, when no dimension was asked for before, is the first that goes by the name; when none
does, StopIteration is raised, not the ParseError that was meant. Missing: later calls; see `C67_dimension_history`. -/
theorem C67_dimension_partial (ds : List DimObj) (v : Option String) (n : String) (hfresh : ∀ d ∈ ds, d.picked = none)
    (hv : ∀ w, v = some w → dotFree w ∧ w ≠ "") (hn : dotFree n) :
    ((∀ d ∈ ds, ¬ Meant v n d) → getDimension ds (asWritten v n) = (ds, .error .other)) ∧
    (∀ pre d post, ds = pre ++ d :: post → (∀ x ∈ pre, ¬ Meant v n x) → Meant v n d →
      ∃ p, getDimension ds (asWritten v n) = (pre ++ { d with picked := p } :: post, .ok { d with picked := p }) ∧
        (d.isGroup = false → p = none)) := by
  refine ⟨?_, ?_⟩
  · intro h
    refine (nextEqual_split _ ds).1 (fun d hd => ?_)
    obtain ⟨e1, e2, _⟩ := equal_fresh d v n hv hn (hfresh d hd)
    have : (d.equal (asWritten v n)).1 = false := by
      cases hb : (d.equal (asWritten v n)).1 with
      | false => rfl
      | true => exact absurd (e1.mp hb) (h d hd)
    exact ⟨this, e2 this⟩
  · intro pre d post hds hpre hd
    obtain ⟨e1, _, e3⟩ := equal_fresh d v n hv hn (hfresh d (by rw [hds]; simp))
    have := (nextEqual_split (asWritten v n) ds).2 pre d post hds (fun x hx => by
      obtain ⟨f1, f2, _⟩ := equal_fresh x v n hv hn (hfresh x (by rw [hds]; exact List.mem_append_left _ hx))
      have : (x.equal (asWritten v n)).1 = false := by
        cases hb : (x.equal (asWritten v n)).1 with
        | false => rfl
        | true => exact absurd (f1.mp hb) (hpre x hx)
      exact ⟨this, f2 this⟩) (e1.mpr hd)
    rw [e3 (e1.mpr hd)] at this
    refine ⟨_, this, fun hg => ?_⟩
    rw [hg]
    rfl

/-- C67. A metric that is asked for by name is the first that is not hidden and has the name, whatever was asked for before; StopIteration
otherwise. -/
theorem C67_metric (fs : List DimObj) (v : Option String) (n : String) (hfresh : ∀ d ∈ fs, d.picked = none)
    (hv : ∀ w, v = some w → dotFree w ∧ w ≠ "") (hn : dotFree n) :
    ((∀ d ∈ fs, d.isMeasure = true → ¬ Meant v n d) → getMetric fs (asWritten v n) = .error .other) ∧
    (∀ pre d post, fs = pre ++ d :: post → d.isMeasure = true → (∀ x ∈ pre, x.isMeasure = true → ¬ Meant v n x) → Meant v n d →
      getMetric fs (asWritten v n) = .ok d) ∧
    (nextEqual (asWritten v n) (fs.filter (·.isMeasure))).1 = fs.filter (·.isMeasure) := by
  have hf : ∀ d ∈ fs.filter (·.isMeasure), d.picked = none := fun d hd => hfresh d (List.mem_filter.mp hd).1
  have hg : ∀ d : DimObj, d.isMeasure = true → d.isGroup = false := by
    intro d h
    unfold DimObj.isMeasure at h
    unfold DimObj.isGroup
    cases hk : d.kind <;> rw [hk] at h <;> simp at h ⊢
  have key := C67_dimension_partial (fs.filter (·.isMeasure)) v n hf hv hn
  have keep : ∀ (pre : List DimObj) (d : DimObj) (post : List DimObj), fs.filter (·.isMeasure) = pre ++ d :: post →
      (∀ x ∈ pre, ¬ Meant v n x) → Meant v n d →
      getDimension (fs.filter (·.isMeasure)) (asWritten v n) = (fs.filter (·.isMeasure), .ok d) := by
    intro pre d post hds hpre hd
    obtain ⟨p, h1, h2⟩ := key.2 pre d post hds hpre hd
    have hm : d ∈ fs.filter (·.isMeasure) := by rw [hds]; simp
    have hp := h2 (hg d (List.mem_filter.mp hm).2)
    have hd' : ({ d with picked := p } : DimObj) = d := by
      rw [hp, ← hf d hm]
    rw [hd', ← hds] at h1
    exact h1
  refine ⟨?_, ?_, ?_⟩
  · intro h
    have := key.1 (fun d hd => h d (List.mem_filter.mp hd).1 (List.mem_filter.mp hd).2)
    unfold getMetric
    unfold getDimension at this
    rw [this]
  · intro pre d post hds hm hpre hd
    have := keep (pre.filter (·.isMeasure)) d (post.filter (·.isMeasure)) (by rw [hds, List.filter_append, List.filter_cons_of_pos hm])
      (fun x hx => hpre x (List.mem_filter.mp hx).1 (List.mem_filter.mp hx).2) hd
    unfold getMetric
    unfold getDimension at this
    rw [this]
  · classical
    by_cases hex : ∃ d ∈ fs.filter (·.isMeasure), Meant v n d
    · have : ∃ pre d post, fs.filter (·.isMeasure) = pre ++ d :: post ∧ (∀ x ∈ pre, ¬ Meant v n x) ∧ Meant v n d := by
        generalize fs.filter (·.isMeasure) = l at hex
        induction l with
        | nil => obtain ⟨d, h, _⟩ := hex; cases h
        | cons a l ih =>
          by_cases ha : Meant v n a
          · exact ⟨[], a, l, rfl, (fun x hx => by cases hx), ha⟩
          · obtain ⟨d, hd, hm⟩ := hex
            rcases List.mem_cons.mp hd with rfl | hd
            · exact absurd hm ha
            · obtain ⟨pre, d, post, h1, h2, h3⟩ := ih ⟨d, hd, hm⟩
              refine ⟨a :: pre, d, post, by rw [h1]; rfl, ?_, h3⟩
              intro x hx
              rcases List.mem_cons.mp hx with rfl | hx
              · exact ha
              · exact h2 x hx
      obtain ⟨pre, d, post, h1, h2, h3⟩ := this
      have := keep pre d post h1 h2 h3
      unfold getDimension at this
      rw [this]
    · have := key.1 (fun d hd hm => hex ⟨d, hd, hm⟩)
      unfold getDimension at this
      rw [this]

/-- C67, against the claim: `get_dimension` depends on what was asked for before. A time group that was asked for in one timeframe can no longer
be found in another, although it could before. -/
theorem C67_dimension_history (pre : List DimObj) (d : DimObj) (post : List DimObj) (ts : List String) (t u : String)
    (hfresh : ∀ x ∈ pre ++ d :: post, x.picked = none) (hk : d.kind = .time ts) (ht : t ∈ ts) (hu : u ∈ ts) (hne : t ≠ u)
    (hdot : dotFree (d.name ++ "_" ++ t) ∧ dotFree (d.name ++ "_" ++ u))
    (honly : OnlyThere [] (d.name ++ "_").toList t.toList)
    (hothers : ∀ x ∈ pre ++ post, ¬ CalledBy x (d.name ++ "_" ++ t) ∧ ¬ CalledBy x (d.name ++ "_" ++ u)) :
    let first := getDimension (pre ++ d :: post) (d.name ++ "_" ++ t)
    first.2 = .ok { d with picked := some t } ∧
    (∃ p, (getDimension (pre ++ d :: post) (d.name ++ "_" ++ u)).2 = .ok { d with picked := p }) ∧
    (getDimension first.1 (d.name ++ "_" ++ u)).2 = .error .other ∧
    (getDimension first.1 (d.name ++ "_" ++ t)).2 = .ok { d with picked := some t } := by
  have hg : d.isGroup = true := by unfold DimObj.isGroup; rw [hk]
  have hp : d.picked = none := hfresh d (by simp)
  have hname : d.groupName (d.name ++ "_" ++ t) = some t := by
    unfold DimObj.groupName
    rw [hk]
    simp only
    have := replaceAll_only [] (d.name ++ "_").toList [] t.toList (by simp) honly
    rw [List.nil_append, List.nil_append, List.nil_append] at this
    rw [String.toList_append (s := d.name ++ "_") (t := t), this, String.ofList_toList]
  have hmeant : ∀ w ∈ ts, Meant none (d.name ++ "_" ++ w) d := by
    intro w hw
    refine ⟨Or.inl rfl, ?_⟩
    unfold CalledBy
    rw [hk]
    exact ⟨w, hw, rfl⟩
  have find : ∀ w, dotFree (d.name ++ "_" ++ w) → w ∈ ts → (∀ x ∈ pre ++ post, ¬ CalledBy x (d.name ++ "_" ++ w)) →
      getDimension (pre ++ d :: post) (d.name ++ "_" ++ w) =
        (pre ++ { d with picked := d.groupName (d.name ++ "_" ++ w) } :: post, .ok { d with picked := d.groupName (d.name ++ "_" ++ w) }) := by
    intro w hdw hw ho
    obtain ⟨e1, _, e3⟩ := equal_fresh d none _ (fun _ h => by cases h) hdw hp
    have hm := e1.mpr (hmeant w hw)
    have := (nextEqual_split (d.name ++ "_" ++ w) (pre ++ d :: post)).2 pre d post rfl (fun x hx => by
      obtain ⟨f1, f2, _⟩ := equal_fresh x none (d.name ++ "_" ++ w) (fun _ h => by cases h) hdw (hfresh x (List.mem_append_left _ hx))
      have : (x.equal (d.name ++ "_" ++ w)).1 = false := by
        cases hb : (x.equal (d.name ++ "_" ++ w)).1 with
        | false => rfl
        | true => exact absurd (f1.mp hb).2 (ho x (List.mem_append_left _ hx))
      exact ⟨this, f2 this⟩) hm
    have e3' := e3 hm
    rw [if_pos hg] at e3'
    change (d.equal (d.name ++ "_" ++ w)).2 = _ at e3'
    rw [e3'] at this
    exact this
  have picked : ∀ m, dotFree m → ({ d with picked := some t } : DimObj).equal m =
      (decide (d.name ++ "_" ++ t = m), { d with picked := some t }) := by
    intro m hm
    unfold DimObj.equal
    rw [fieldNameParts_dotFree hm]
    simp only [Option.any_none, Bool.false_eq_true, if_false]
    rw [if_neg (by simp), if_pos (by unfold DimObj.isGroup; simp only; rw [hk])]
    unfold DimObj.alias
    simp only
    rw [hk]
    rfl
  have other : ∀ m, dotFree m → (∀ x ∈ pre ++ post, ¬ CalledBy x m) → ∀ x ∈ pre ++ post, (x.equal m).1 = false ∧ (x.equal m).2 = x := by
    intro m hm ho x hx
    have hxm : x ∈ pre ++ d :: post := by
      rcases List.mem_append.mp hx with h | h
      · exact List.mem_append_left _ h
      · exact List.mem_append_right _ (List.mem_cons_of_mem _ h)
    obtain ⟨f1, f2, _⟩ := equal_fresh x none m (fun _ h => by cases h) hm (hfresh x hxm)
    have : (x.equal m).1 = false := by
      cases hb : (x.equal m).1 with
      | false => rfl
      | true => exact absurd (f1.mp hb).2 (ho x hx)
    exact ⟨this, f2 this⟩
  have h1 := find t hdot.1 ht (fun x hx => (hothers x hx).1)
  rw [hname] at h1
  intro first
  have hf : first = _ := h1
  rw [hf]
  refine ⟨rfl, ⟨_, by rw [find u hdot.2 hu (fun x hx => (hothers x hx).2)]⟩, ?_, ?_⟩
  · unfold getDimension
    rw [(nextEqual_split (d.name ++ "_" ++ u) _).1]
    intro x hx
    have ho := other (d.name ++ "_" ++ u) hdot.2 (fun x hx => (hothers x hx).2)
    rcases List.mem_append.mp hx with h | h
    · exact ho x (List.mem_append_left _ h)
    · rcases List.mem_cons.mp h with rfl | h
      · rw [picked _ hdot.2]
        refine ⟨?_, rfl⟩
        simp only [decide_eq_false_iff_not]
        intro he
        apply hne
        have := congrArg String.toList he
        rw [String.toList_append (s := d.name ++ "_") (t := t), String.toList_append (s := d.name ++ "_") (t := u)] at this
        exact String.ext (List.append_cancel_left this)
      · exact ho x (List.mem_append_right _ h)
  · unfold getDimension
    have hq : (({ d with picked := some t } : DimObj).equal (d.name ++ "_" ++ t)) = (true, { d with picked := some t }) := by
      rw [picked _ hdot.1]; simp
    rw [(nextEqual_split (d.name ++ "_" ++ t) _).2 pre { d with picked := some t } post rfl
      (fun x hx => other (d.name ++ "_" ++ t) hdot.1 (fun x hx => (hothers x hx).1) x (List.mem_append_left _ hx)) (by rw [hq]), hq]

/-- A view with a date in days and months, a duration, a dimension and a metric. -/
def dmFields : List DimObj :=
  [⟨"orders", "order", .time ["date", "month"], none⟩, ⟨"orders", "waiting", .duration ["day"], none⟩, ⟨"orders", "region", .plain, none⟩,
    ⟨"orders", "total", .measure, none⟩]

example : dotFree "order_date" ∧ OnlyThere [] "order_".toList "date".toList ∧ Meant (some "orders") "region" ⟨"orders", "region", .plain, none⟩ := by
  refine ⟨by unfold dotFree; decide, ?_, Or.inr rfl, rfl⟩
  intro a b h
  cases a with
  | nil => rfl
  | cons x a =>
    exfalso
    have hl := congrArg List.length h
    simp at hl
    have h4 : a.length ≤ 3 := by omega
    match a, h4 with
    | [], _ => simp at h
    | [_], _ => simp at h
    | [_, _], _ => simp at h
    | [_, _, _], _ => simp at h

example : (getDimension dmFields "order_date").2 = .ok ⟨"orders", "order", .time ["date", "month"], some "date"⟩ ∧
    (getDimension dmFields "order_month").2 = .ok ⟨"orders", "order", .time ["date", "month"], some "month"⟩ ∧
    (getDimension (getDimension dmFields "order_date").1 "order_month").2 = .error .other ∧
    getMetric dmFields "orders.total" = .ok ⟨"orders", "total", .measure, none⟩ ∧
    (getDimension dmFields "days_waiting").2 = .ok ⟨"orders", "waiting", .duration ["day"], some "days"⟩ := by
  refine ⟨by rfl, by rfl, by rfl, by rfl, by rfl⟩

/-- A timeframe that begins with the name of its group is cut short: the group `day` asked for as `day_day_of_week` takes the timeframe
`of_week`, and is not found under that name again. -/
example : (getDimension [⟨"orders", "day", .time ["day_of_week"], none⟩] "day_day_of_week").2 =
      .ok ⟨"orders", "day", .time ["day_of_week"], some "of_week"⟩ ∧
    (getDimension (getDimension [⟨"orders", "day", .time ["day_of_week"], none⟩] "day_day_of_week").1 "day_day_of_week").2 =
      .error .other := ⟨by rfl, by rfl⟩

end ML
