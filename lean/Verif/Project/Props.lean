import Verif.Project.Coherence
/-
C08 Temporary replacement of project objects is always undone.
C09 Inside a replacement block the replaced objects win by name.
C10 Adding then removing a field restores the view.
C11 Cached lookups are coherent with the project content.
-/
set_option autoImplicit false
namespace ML
open Spec

section
variable {G : Type}

/-! ### C08 -/

/-- C08 (a): whatever the body does (calls, edits of dictionaries the caller holds, nested blocks,
exceptions at any point), afterwards the three lists have the content they had on entry, and every
cache is empty (unless the block was never entered, when nothing changed at all). The user is not
part of the block. -/
theorem C08_restored (build : Proj → Res G) (s : PState G) (hs : Closed s) (objs : List Nat)
    (body : Prog) (hr : ∀ r ∈ objs ++ refs body, r < s.heap.length) :
    ∃ s' res tr, s.exec build (.replace objs body) = (s', res, tr) ∧
      s'.content.models = s.content.models ∧ s'.content.views = s.content.views ∧
      s'.content.dashboards = s.content.dashboards ∧
      (s' = s ∨ (s'.fieldsC = [] ∧ s'.lookupC = [] ∧ s'.graph = none)) := by
  simp only [PState.exec]
  split
  · have h := leave_content build s hs objs body hr
    refine ⟨_, _, _, rfl, ?_⟩
    rw [h]
    exact ⟨rfl, rfl, rfl, .inr ⟨rfl, rfl, rfl⟩⟩
  · exact ⟨s, _, _, rfl, rfl, rfl, rfl, .inl rfl⟩

/-- C08 (b): the first lookup after the block is answered from the restored content, not from
anything cached inside it. -/
theorem C08_no_stale_answer (build : Proj → Res G) (s : PState G) (hs : Closed s)
    (objs : List Nat) (body : Prog) (hr : ∀ r ∈ objs ++ refs body, r < s.heap.length)
    (hin : ∀ r ∈ objs, getObj s.heap r ≠ some .nameless) (a : FieldsArgs) :
    ((s.exec build (.replace objs body)).1.fields a).2 =
      projFields { s.content with user := ((s.enter objs).exec build body).1.user }
        a.viewName a.showHidden a.expand := by
  have hp : (pick s.heap Obj.isNameless objs).isEmpty = true := by
    rw [List.isEmpty_iff]
    unfold pick
    rw [List.filter_eq_nil_iff]
    intro r hr'
    have := hin r hr'
    split
    · rename_i o ho
      cases o <;> simp_all [Obj.isNameless]
    · simp
  simp only [PState.exec, hp, if_true]
  have h := leave_content build s hs objs body hr
  unfold PState.fields
  have : cacheGet (s.leave ((s.enter objs).exec build body).1).fieldsC
      (userKey (s.leave ((s.enter objs).exec build body).1).user, a) = none := rfl
  rw [this, h]
  simp only
  cases projFields { s.content with user := ((s.enter objs).exec build body).1.user }
    a.viewName a.showHidden a.expand <;> rfl

/-- C08 (c): an exception raised in the body still reaches the caller. -/
theorem C08_exception_passes (build : Proj → Res G) (s : PState G) (objs : List Nat) (body : Prog)
    (hin : ∀ r ∈ objs, getObj s.heap r ≠ some .nameless) :
    (s.exec build (.replace objs body)).2 = ((s.enter objs).exec build body).2 := by
  have hp : (pick s.heap Obj.isNameless objs).isEmpty = true := by
    rw [List.isEmpty_iff]
    unfold pick
    rw [List.filter_eq_nil_iff]
    intro r hr'
    have := hin r hr'
    split
    · rename_i o ho
      cases o <;> simp_all [Obj.isNameless]
    · simp
  simp only [PState.exec, hp, if_true]

/-- C08 (d): the precondition "every reference points to an object" is kept by every program, so
(a) applies at every point of every history. -/
theorem C08_closed (build : Proj → Res G) (p : Prog) : ∀ (s : PState G), Closed s →
    (∀ r ∈ refs p, r < s.heap.length) →
    Closed (s.exec build p).1 ∧ s.heap.length ≤ (s.exec build p).1.heap.length := by
  have hheapEdit : ∀ (t : PState G) r f, (t.editFields r f).heap.length = t.heap.length ∧
      (t.editFields r f).models = t.models ∧ (t.editFields r f).views = t.views ∧
      (t.editFields r f).dashboards = t.dashboards := by
    intro t r f
    unfold PState.editFields PState.write
    split
    · exact ⟨by simp, rfl, rfl, rfl⟩
    · exact ⟨rfl, rfl, rfl, rfl⟩
  have hClosed : ∀ (s t : PState G), Closed s → t.heap.length = s.heap.length →
      t.models = s.models → t.views = s.views → t.dashboards = s.dashboards →
      Closed t ∧ s.heap.length ≤ t.heap.length := by
    intro s t hs h1 h2 h3 h4
    refine ⟨?_, by omega⟩
    intro r hr
    rw [h2, h3, h4] at hr
    rw [h1]; exact hs r hr
  have hLow : ∀ (s t : PState G), Closed s → LowOnly s t → Closed t ∧ s.heap.length ≤ t.heap.length := by
    intro s t hs hl
    exact hClosed s t hs (by simpa using congrArg List.length (HeapLow_low hl.1)) hl.2.2.1 hl.2.1
      hl.2.2.2.1
  induction p with
  | skip => intro s hs _; exact ⟨hs, Nat.le_refl _⟩
  | op o =>
    intro s hs _
    cases o with
    | addField fd v r =>
      simp only [PState.exec, PState.step, PState.addField]
      split
      · exact ⟨hs, Nat.le_refl _⟩
      · obtain ⟨h1, h2, h3, h4⟩ := hheapEdit s ‹Nat› (appendField fd)
        split
        · exact hClosed s _ hs h1 h2 h3 h4
        · exact hClosed s _ hs h1 h2 h3 h4
    | removeField n v r =>
      simp only [PState.exec, PState.step, PState.removeField]
      split
      · exact ⟨hs, Nat.le_refl _⟩
      · obtain ⟨h1, h2, h3, h4⟩ := hheapEdit s ‹Nat› (fun fs => fs.filter (fun f => decide (f.name ≠ n)))
        split
        · exact hClosed s _ hs h1 h2 h3 h4
        · exact hClosed s _ hs h1 h2 h3 h4
    | refresh => exact ⟨hs, Nat.le_refl _⟩
    | setUser u => exact hClosed s _ hs rfl rfl rfl rfl
    | fields a => exact hLow s _ hs (exec_lowOnly build (.op (.fields a)) s trivial)
    | lookup k n v => exact hLow s _ hs (exec_lowOnly build (.op (.lookup k n v)) s trivial)
    | graph => exact hLow s _ hs (exec_lowOnly build (.op .graph) s trivial)
    | mutate r o => exact hClosed s _ hs (by simp [PState.exec, PState.step, PState.write]) rfl rfl rfl
    | raise e => exact ⟨hs, Nat.le_refl _⟩
  | seq p q ihp ihq =>
    intro s hs hr
    obtain ⟨h1, h2⟩ := ihp s hs (fun r hm => hr r (by simp [refs, hm]))
    simp only [PState.exec]
    generalize s.exec build p = x at h1 h2
    obtain ⟨s', oe, t⟩ := x
    cases oe with
    | some e => exact ⟨h1, h2⟩
    | none =>
      obtain ⟨h3, h4⟩ := ihq s' h1
        (fun r hm => Nat.lt_of_lt_of_le (hr r (by simp [refs, hm])) h2)
      exact ⟨h3, Nat.le_trans h2 h4⟩
  | replace objs p ih =>
    intro s hs hr
    simp only [PState.exec]
    split
    · have henter : Closed (s.enter objs) := by
        intro r hm
        simp only [PState.enter, List.length_append]
        simp only [PState.enter, List.mem_append] at hm
        have : r < s.heap.length := by
          rcases hm with (hm | hm) | (hm | hm) | (hm | hm)
          · exact hs r (.inl (unchanged_sub _ _ _ _ hm))
          · exact hr r (by simp [refs, pick_sub _ _ _ _ hm])
          · exact hs r (.inr (.inl (unchanged_sub _ _ _ _ hm)))
          · exact hr r (by simp [refs, pick_sub _ _ _ _ hm])
          · exact hs r (.inr (.inr (unchanged_sub _ _ _ _ hm)))
          · exact hr r (by simp [refs, pick_sub _ _ _ _ hm])
        omega
      have hlen : (s.enter objs).heap.length = s.heap.length + ((deepCopy s.heap s.models).length +
          (deepCopy s.heap s.views).length + (deepCopy s.heap s.dashboards).length) := by
        simp only [PState.enter, List.length_append]
      obtain ⟨-, h2⟩ := ih (s.enter objs) henter (fun r hm => by
        have := hr r (by simp [refs, hm]); omega)
      refine ⟨?_, ?_⟩
      · intro r hm
        simp only [PState.leave, List.mem_range'_1] at hm ⊢
        omega
      · simp only [PState.leave]; omega
    · exact ⟨hs, Nat.le_refl _⟩
  | attempt p ih =>
    intro s hs hr
    exact ih s hs hr

/-! ### C09 -/

/-- The views among the replacement objects, in order. -/
def Spec.replacedViews (s : PState G) (objs : List Nat) : List ViewDef :=
  objs.filterMap (fun r => (getObj s.heap r).bind Obj.asView)

theorem filterMap_pick {α : Type} (h k : List Obj) (p : Obj → Bool) (as : Obj → Option α)
    (objs : List Nat) (hp : ∀ o, p o = false → as o = none)
    (hr : ∀ r ∈ objs, r < h.length) :
    (pick h p objs).filterMap (fun r => (getObj (h ++ k) r).bind as) =
      objs.filterMap (fun r => (getObj h r).bind as) := by
  induction objs with
  | nil => rfl
  | cons r rs ih =>
    have ih := ih (fun q hq => hr q (by simp [hq]))
    have hg := getObj_append_left h k r (hr r (by simp))
    unfold pick at ih ⊢
    rw [List.filter_cons]
    cases ho : getObj h r with
    | none =>
      simp only [Bool.false_eq_true, if_false]
      rw [List.filterMap_cons, ho]
      exact ih
    | some o =>
      simp only
      rw [ho] at hg
      by_cases hpo : p o = true
      · rw [if_pos hpo, List.filterMap_cons, List.filterMap_cons, ho, hg, ih]
      · rw [if_neg hpo, List.filterMap_cons, ho, ih]
        simp only [Option.bind_some, hp o (by simpa using hpo)]

theorem isView_false (o : Obj) (h : o.isView = false) : o.asView = none := by
  cases o <;> simp_all [Obj.isView, Obj.asView]

/-- C09 (a): inside the block the views are the old views whose name does not occur among the
replacements, unchanged and in order, followed by the replacement views. Objects of other types
have no effect on the views. -/
theorem C09_views_inside (s : PState G) (hs : Closed s) (objs : List Nat)
    (hr : ∀ r ∈ objs, r < s.heap.length) :
    (s.enter objs).content.views =
      s.content.views.filter (fun v => !((replacedViews s objs).any (fun w => w.name == v.name))) ++
        replacedViews s objs := by
  simp only [PState.content, PState.enter, List.filterMap_append]
  congr 1
  · -- the unchanged views
    have hv : ∀ r ∈ s.views, r < s.heap.length := fun r h => hs r (.inr (.inl h))
    revert hv
    generalize deepCopy s.heap s.models ++ deepCopy s.heap s.views ++
      deepCopy s.heap s.dashboards = copies
    generalize s.views = vs
    intro hv
    unfold unchanged
    induction vs with
    | nil => rfl
    | cons r rs ih =>
      have ih := ih (fun q hq => hv q (by simp [hq]))
      have hg := getObj_append_left s.heap copies r (hv r (by simp))
      rw [List.filter_cons, List.filterMap_cons]
      cases hb : (getObj s.heap r).bind Obj.asView with
      | none =>
        simp only
        split
        · rw [List.filterMap_cons, hg, hb]; exact ih
        · exact ih
      | some v =>
        have hov := getObj_view hb
        have hany : ((pick s.heap Obj.isView objs).any (fun q =>
            decide ((getObj s.heap q).bind Obj.name = (getObj s.heap r).bind Obj.name))) =
            (replacedViews s objs).any (fun w => w.name == v.name) := by
          rw [Bool.eq_iff_iff]
          simp only [List.any_eq_true, decide_eq_true_eq, beq_iff_eq, replacedViews,
            List.mem_filterMap, hov, Option.bind_some, Obj.name]
          constructor
          · rintro ⟨q, hq, he⟩
            obtain ⟨hq1, hq2⟩ := List.mem_filter.mp hq
            cases ho : getObj s.heap q with
            | none => rw [ho] at he; cases he
            | some o =>
              rw [ho] at he hq2
              cases o with
              | view w =>
                refine ⟨w, ⟨q, hq1, by rw [ho]; rfl⟩, ?_⟩
                simpa [Obj.name] using he
              | _ => simp [Obj.isView] at hq2
          · rintro ⟨w, ⟨q, hq1, hw⟩, he⟩
            have hq := getObj_view hw
            refine ⟨q, List.mem_filter.mpr ⟨hq1, by rw [hq]; rfl⟩, ?_⟩
            rw [hq]
            simp [Obj.name, he]
        simp only [hany, List.filter_cons]
        split
        · rw [List.filterMap_cons, hg, hb, ih]
        · exact ih
  · exact filterMap_pick s.heap _ Obj.isView Obj.asView objs isView_false hr

theorem getView_mem_iff {P : Proj} {n : String} {v : ViewDef} (h : getView P n = .ok v) :
    ∃ w ∈ P.views, v = w.init ∧ lower w.name = n := by
  obtain ⟨h1, w, hw, h2, -⟩ := getView_ok_inv h
  exact ⟨w, hw, h2, by rw [← h1, h2]; rfl⟩

/-- C09 (b), for projects and replacements that spell a view name in one letter case: inside the
block, looking up the name of a replacement never yields an old view, and looking up any other
name yields an old view, unchanged. Without the hypothesis this is false, see
`C09_letter_case_keeps_old_view`. -/
theorem C09_lookup_partial (s : PState G) (hs : Closed s) (objs : List Nat)
    (hr : ∀ r ∈ objs, r < s.heap.length)
    (hcase : ∀ v ∈ s.content.views, ∀ w ∈ replacedViews s objs,
      lower v.name = lower w.name → v.name = w.name)
    (n : String) (v : ViewDef) (h : getView (s.enter objs).content n = .ok v) :
    ((∃ w ∈ replacedViews s objs, lower w.name = n) →
      ∃ w ∈ replacedViews s objs, v = w.init ∧ lower w.name = n) ∧
    ((¬ ∃ w ∈ replacedViews s objs, lower w.name = n) →
      ∃ w ∈ s.content.views, v = w.init ∧ lower w.name = n) := by
  obtain ⟨w, hw, e, hn⟩ := getView_mem_iff h
  rw [C09_views_inside s hs objs hr, List.mem_append, List.mem_filter] at hw
  constructor
  · rintro ⟨x, hx, hxn⟩
    rcases hw with ⟨hw, hnot⟩ | hw
    · exfalso
      have := hcase w hw x hx (hn.trans hxn.symm)
      rw [Bool.not_eq_true', List.any_eq_false] at hnot
      exact hnot x hx (by simp [this])
    · exact ⟨w, hw, e, hn⟩
  · intro hno
    rcases hw with ⟨hw, -⟩ | hw
    · exact ⟨w, hw, e, hn⟩
    · exact absurd ⟨w, hw, hn⟩ hno

end

/-- C09 (c): the full property is false. Names are compared before they are lower-cased, so a
replacement called `Orders` does not replace the view `orders`; a lookup still finds the old one. -/
theorem C09_letter_case_keeps_old_view :
    ∃ (s : PState Unit) (objs : List Nat) (w v : ViewDef), Closed s ∧
      replacedViews s objs = [w] ∧ getView (s.enter objs).content (lower w.name) = .ok v ∧
      v ≠ w.init := by
  refine ⟨{ views := [0], heap :=
      [.view { name := "orders", fields := [{ name := "old", fieldType := .measure }] },
       .view { name := "Orders", fields := [{ name := "new", fieldType := .measure }] }] }, [1],
    { name := "Orders", fields := [{ name := "new", fieldType := .measure }] },
    { name := "orders", fields := [{ name := "old", fieldType := .measure }] }, ?_, ?_, ?_, ?_⟩
  · intro r hr; simp at hr; subst hr; decide
  · decide
  · decide
  · decide

/-! ### C10 -/

section
variable {G : Type}

/-- C10 (a): what adding does. The first view of that name gets the field at the end, unless some
spelling of the name is used; nothing else changes. -/
theorem C10_add_effect (s : PState G) (hnd : s.views.Nodup) (fd : FieldDef) (view : String)
    (refresh : Bool) (s' : PState G) (h : s.addField fd view refresh = (s', none)) :
    ∃ pre v post, s.content.views = pre ++ v :: post ∧ v.name = view ∧
      (∀ w ∈ pre, w.name ≠ view) ∧
      ((∃ f ∈ v.fields, lower f.name = lower fd.name) → s'.content = s.content) ∧
      ((∀ f ∈ v.fields, lower f.name ≠ lower fd.name) →
        s'.content =
          { s.content with views := pre ++ { v with fields := v.fields ++ [fd] } :: post }) := by
  unfold PState.addField at h
  split at h
  · cases h
  · rename_i r hr
    obtain ⟨pre, v, post, h1, h2, h3, h4⟩ := edit_content hnd hr (appendField fd)
    have hs' : s'.content = (s.editFields r (appendField fd)).content := by
      simp only [Prod.mk.injEq, and_true] at h
      rw [← h]
      split <;> rfl
    refine ⟨pre, v, post, h1, h2, h3, ?_, ?_⟩
    · rintro ⟨f, hf, he⟩
      have : appendField fd v.fields = v.fields := by
        unfold appendField
        rw [if_pos]
        rw [List.any_eq_true]
        exact ⟨f, hf, by simp [he]⟩
      rw [hs', h4, this, ← h1]
    · intro hno
      have : appendField fd v.fields = v.fields ++ [fd] := by
        unfold appendField
        rw [if_neg]
        rw [List.any_eq_true]
        rintro ⟨f, hf, he⟩
        exact hno f hf (by simpa using he)
      rw [hs', h4, this]

/-- C10 (b): what removing does. The first view of that name loses the fields spelled exactly like
this; nothing else changes. -/
theorem C10_remove_effect (s : PState G) (hnd : s.views.Nodup) (name view : String)
    (refresh : Bool) (s' : PState G) (h : s.removeField name view refresh = (s', none)) :
    ∃ pre v post, s.content.views = pre ++ v :: post ∧ v.name = view ∧
      (∀ w ∈ pre, w.name ≠ view) ∧
      s'.content = { s.content with
        views := pre ++ { v with fields := v.fields.filter (fun f => decide (f.name ≠ name)) } :: post } := by
  unfold PState.removeField at h
  split at h
  · cases h
  · rename_i r hr
    obtain ⟨pre, v, post, h1, h2, h3, h4⟩ :=
      edit_content hnd hr (fun fs => fs.filter (fun f => decide (f.name ≠ name)))
    have hs' : s'.content = (s.editFields r (fun fs => fs.filter (fun f => decide (f.name ≠ name)))).content := by
      simp only [Prod.mk.injEq, and_true] at h
      rw [← h]
      split <;> rfl
    exact ⟨pre, v, post, h1, h2, h3, by rw [hs', h4]⟩

/-- C10 (c): an unknown view raises, and nothing changes. -/
theorem C10_unknown_view (s : PState G) (fd : FieldDef) (name view : String) (refresh : Bool)
    (h : ∀ v ∈ s.content.views, v.name ≠ view) :
    s.addField fd view refresh = (s, some .accessDenied) ∧
    s.removeField name view refresh = (s, some .accessDenied) := by
  have : s.findView view = none := by
    cases hf : s.findView view with
    | none => rfl
    | some r =>
      obtain ⟨v, -, h1, h2⟩ := findView_some hf
      exact absurd h1 (h v h2)
  simp only [PState.addField, PState.removeField, this, and_self]

theorem findView_edit {s : PState G} {n : String} {r : Nat} (h : s.findView n = some r)
    {v : ViewDef} (hv : getObj s.heap r = some (.view v)) (fs : List FieldDef) (t : PState G)
    (ht : t.heap = s.heap.set r (.view { v with fields := fs })) (hvs : t.views = s.views) :
    t.findView n = some r := by
  unfold PState.findView at *
  rw [hvs, ← h]
  congr 1
  funext q
  congr 2
  rw [ht, getObj_set]
  split
  · rename_i hq
    obtain ⟨rfl, -⟩ := hq
    rw [hv]; rfl
  · rfl

/-- C10 (d): adding a field whose name is not used (in any letter case) in views of that name, then
removing it at once, restores every list exactly. -/
theorem C10_add_remove (s : PState G) (fd : FieldDef) (view : String) (r1 r2 : Bool)
    (hnew : ∀ v ∈ s.content.views, v.name = view → ∀ f ∈ v.fields, lower f.name ≠ lower fd.name) :
    ((s.addField fd view r1).1.removeField fd.name view r2).1.content = s.content := by
  cases hf : s.findView view with
  | none =>
    simp only [PState.addField, PState.removeField, hf]
  | some r =>
    obtain ⟨v, hv, hn, hmem⟩ := findView_some hf
    have happ : appendField fd v.fields = v.fields ++ [fd] := by
      unfold appendField
      rw [if_neg]
      rw [List.any_eq_true]
      rintro ⟨f, hff, he⟩
      exact hnew v hmem hn f hff (by simpa using he)
    have hadd : (s.addField fd view r1).1.heap =
        s.heap.set r (.view { v with fields := v.fields ++ [fd] }) ∧
        (s.addField fd view r1).1.views = s.views ∧ (s.addField fd view r1).1.models = s.models ∧
        (s.addField fd view r1).1.dashboards = s.dashboards ∧
        (s.addField fd view r1).1.user = s.user := by
      simp only [PState.addField, hf, editFields_eq hv, happ]
      split <;> exact ⟨rfl, rfl, rfl, rfl, rfl⟩
    generalize (s.addField fd view r1).1 = t at hadd
    obtain ⟨hh, hvs, hm, hd, hu⟩ := hadd
    have hf' := findView_edit hf hv _ t hh hvs
    have hv' : getObj t.heap r = some (.view { v with fields := v.fields ++ [fd] }) := by
      rw [hh, getObj_set, if_pos ⟨rfl, getObj_lt hv⟩]
    have hfil : (v.fields ++ [fd]).filter (fun f => decide (f.name ≠ fd.name)) = v.fields := by
      rw [List.filter_append]
      have h1 : v.fields.filter (fun f => decide (f.name ≠ fd.name)) = v.fields := by
        rw [List.filter_eq_self]
        intro f hff
        have := hnew v hmem hn f hff
        simp only [ne_eq, decide_not, Bool.not_eq_true', decide_eq_false_iff_not]
        intro e; exact this (by rw [e])
      have h2 : [fd].filter (fun f => decide (f.name ≠ fd.name)) = [] := by simp
      rw [h1, h2, List.append_nil]
    have hback : (t.heap.set r (.view v)) = s.heap := by
      rw [hh, List.set_set]
      apply List.ext_getElem?
      intro i
      rw [List.getElem?_set]
      split
      · rename_i e; subst e
        rw [if_pos (getObj_lt hv)]
        exact hv.symm
      · rfl
    have hrem : (t.removeField fd.name view r2).1.content = s.content := by
      simp only [PState.removeField, hf', editFields_eq hv', hfil]
      have hc : ∀ (x : PState G), x.heap = s.heap → x.views = s.views → x.models = s.models →
          x.dashboards = s.dashboards → x.user = s.user → x.content = s.content := by
        intro x a b c d e
        simp only [PState.content, a, b, c, d, e]
      split
      · exact hc _ hback hvs hm hd hu
      · exact hc _ hback hvs hm hd hu
    exact hrem

/-- C10 (e): the same with any lookups in between, up to the letter case of field names, provided
the new name is in lower case. The restriction is needed, see `C10_lookup_breaks_remove`. -/
theorem C10_add_read_remove_partial (build : Proj → Res G) (s : PState G) (fd : FieldDef)
    (view : String) (r1 r2 : Bool) (p : Prog) (hp : ReadOnly p) (hlow : lower fd.name = fd.name)
    (hnew : ∀ v ∈ s.content.views, v.name = view → ∀ f ∈ v.fields, lower f.name ≠ lower fd.name) :
    SameUpToCase
      ((((s.addField fd view r1).1.exec build p).1.removeField fd.name view r2).1.content)
      s.content := by
  cases hf : s.findView view with
  | none =>
    have h1 : (s.addField fd view r1).1 = s := by simp only [PState.addField, hf]
    rw [h1]
    have hl := exec_lowOnly build p s hp
    generalize (s.exec build p).1 = t at hl
    have hf' : t.findView view = none := by
      cases h2 : t.findView view with
      | none => rfl
      | some r =>
        exfalso
        obtain ⟨w, hw, hwn, -⟩ := findView_some h2
        have hr := findView_mem h2
        rw [hl.2.1] at hr
        have hrel := hl.1 r
        have : decide (((getObj s.heap r).bind Obj.asView).map (·.name) = some view) = false := by
          have := List.find?_eq_none.mp hf r hr
          simpa using this
        cases ho : getObj s.heap r with
        | none => rw [ho] at hrel; simp only at hrel; rw [hrel] at hw; cases hw
        | some o =>
          rw [ho] at hrel this
          cases o with
          | view v =>
            simp only at hrel
            obtain ⟨fs, e, -⟩ := hrel
            rw [e] at hw
            cases hw
            simp [Obj.asView] at this
            exact this hwn
          | _ => simp only at hrel; rw [hrel] at hw; cases hw
    simp only [PState.removeField, hf']
    have hc := content_low t.heap s.heap s (HeapLow_low hl.1)
    have e : t.content = ({ s with heap := t.heap } : PState G).content := by
      simp only [PState.content, hl.2.1, hl.2.2.1, hl.2.2.2.1, hl.2.2.2.2]
    rw [e]; exact hc
  | some r =>
    obtain ⟨v, hv, hn, hmem⟩ := findView_some hf
    have happ : appendField fd v.fields = v.fields ++ [fd] := by
      unfold appendField
      rw [if_neg]
      rw [List.any_eq_true]
      rintro ⟨f, hff, he⟩
      exact hnew v hmem hn f hff (by simpa using he)
    have hadd : (s.addField fd view r1).1.heap =
        s.heap.set r (.view { v with fields := v.fields ++ [fd] }) ∧
        (s.addField fd view r1).1.views = s.views ∧ (s.addField fd view r1).1.models = s.models ∧
        (s.addField fd view r1).1.dashboards = s.dashboards ∧
        (s.addField fd view r1).1.user = s.user := by
      simp only [PState.addField, hf, editFields_eq hv, happ]
      split <;> exact ⟨rfl, rfl, rfl, rfl, rfl⟩
    generalize (s.addField fd view r1).1 = t at hadd
    obtain ⟨hh, hvs, hm, hd, hu⟩ := hadd
    have hft := findView_edit hf hv _ t hh hvs
    have hvt : getObj t.heap r = some (.view { v with fields := v.fields ++ [fd] }) := by
      rw [hh, getObj_set, if_pos ⟨rfl, getObj_lt hv⟩]
    have hl := exec_lowOnly build p t hp
    generalize (t.exec build p).1 = u at hl
    -- the view in `u`
    have hru := hl.1 r
    rw [hvt] at hru
    simp only at hru
    obtain ⟨fs, hvu, hfs⟩ := hru
    obtain ⟨x, y, rfl, hx, hy⟩ := AllLow_append hfs
    have hy' : y = [fd] := by
      cases hy with
      | cons hs hn' =>
        cases hn'
        rcases hs with rfl | rfl
        · rfl
        · simp only [lowName, hlow]
    subst hy'
    -- the view is still found
    have hfu : u.findView view = some r := by
      unfold PState.findView at hft ⊢
      rw [hl.2.1, ← hft]
      congr 1
      funext q
      congr 2
      have hq := hl.1 q
      cases ho : getObj t.heap q with
      | none => rw [ho] at hq; simp only at hq; rw [hq]
      | some o =>
        rw [ho] at hq
        cases o with
        | view w =>
          simp only at hq
          obtain ⟨gs, e, -⟩ := hq
          rw [e]; rfl
        | _ => simp only at hq; rw [hq]
    have hfil : (x ++ [fd]).filter (fun f => decide (f.name ≠ fd.name)) = x := by
      rw [List.filter_append, AllLow_filter hx fd.name (fun f hff => hnew v hmem hn f hff)]
      have : [fd].filter (fun f => decide (f.name ≠ fd.name)) = [] := by simp
      rw [this, List.append_nil]
    have hheap : (u.heap.set r (.view { v with fields := x })).map lowObj = s.heap.map lowObj := by
      have h1 := HeapLow_low hl.1
      rw [List.map_set, h1, hh, List.map_set, List.set_set]
      apply List.ext_getElem?
      intro i
      rw [List.getElem?_set]
      split
      · rename_i e; subst e
        rw [if_pos (by simpa using getObj_lt hv), List.getElem?_map]
        unfold getObj at hv
        rw [hv]
        simp only [Option.map_some, lowObj, lowView, AllLow_low hx]
      · rfl
    have hc := content_low _ s.heap s hheap
    have e : (u.removeField fd.name view r2).1.content =
        ({ s with heap := u.heap.set r (.view { v with fields := x }) } : PState G).content := by
      simp only [PState.removeField, hfu, editFields_eq hvu, hfil]
      split <;> simp only [PState.content, PState.refresh, hl.2.1, hl.2.2.1, hl.2.2.2.1, hl.2.2.2.2,
        hvs, hm, hd, hu]
    rw [e]; exact hc

end

/-- C10 (f): the full property is false when a lookup happens in between and the new name has a
capital letter: listing fields lower-cases the stored name, and removal compares exactly. -/
theorem C10_lookup_breaks_remove :
    ∃ (s : PState Unit) (fd : FieldDef) (a : FieldsArgs),
      (∀ v ∈ s.content.views, ∀ f ∈ v.fields, lower f.name ≠ lower fd.name) ∧
      ¬ SameUpToCase
        ((((s.addField fd "orders" true).1.fields a).1.removeField fd.name "orders" true).1.content)
        s.content := by
  refine ⟨{ heap := [.view { name := "orders" }], views := [0] },
    { name := "Total", fieldType := .measure }, ⟨none, true, true⟩, ?_, ?_⟩
  · intro v hv; simp [PState.content, getObj, Obj.asView] at hv; subst hv; simp
  · unfold SameUpToCase; decide

/-! ### C11 -/

section
variable {G : Type}

/-- C11 (a): in every history of user changes, additions, removals, replacement blocks, refreshes,
exceptions and lookups, every lookup of fields answers what the uncached computation on the content
and user of that moment answers. Restrictions: the default `refresh_cache=True`, no edits behind the
project's back, and the user is never the empty dictionary (see `C11_empty_user_stale`). -/
theorem C11_field_lookups_partial (build : Proj → Res G) (s : PState G)
    (h0 : s.fieldsC = [] ∧ s.lookupC = []) (hu : s.user ≠ some []) (p : Prog)
    (hp : Disciplined p) :
    ∀ ev ∈ (s.exec build p).2.2, ∀ out, ev.op ≠ .graph →
      uncached build ev.before ev.op = some out → ev.out = out :=
  (exec_coherent build p s (Coherent_empty hu h0.1 h0.2) hp).2

/-- C11 (b): if moreover the user does not change (or a refresh follows each change, so that the
history splits into such pieces), the join graph is also always the current one. -/
theorem C11_join_graph_partial (build : Proj → Res G)
    (hb : ∀ P Q, SameUpToCase P Q → build P = build Q) (s : PState G)
    (h0 : s.fieldsC = [] ∧ s.lookupC = [] ∧ s.graph = none) (hu : s.user ≠ some []) (p : Prog)
    (hp : Disciplined p) (hk : KeepsUser p) :
    ∀ ev ∈ (s.exec build p).2.2, ∀ out, uncached build ev.before ev.op = some out → ev.out = out :=
  (exec_graph build hb p s (Coherent_empty hu h0.1 h0.2.1)
    (fun g hg => by rw [h0.2.2] at hg; cases hg) hp hk).2

end

/-- Names of the views the user may access: a stand-in for the join graph, which is built from
exactly these views. -/
def visibleViewNames (P : Proj) : Res (List String) :=
  match allViews P true with
  | .ok vs => .ok (vs.map (·.name))
  | .error e => .error e

/-- C11 (c): the full property is false for the join graph. It is not rebuilt when the user
changes: after an unrestricted user, a restricted one still gets a graph with the denied view. -/
theorem C11_set_user_keeps_graph :
    ∃ (s : PState (List String)) (u : User),
      let p : Prog := .seq (.op .graph) (.seq (.op (.setUser (some u))) (.op .graph))
      ∃ ev ∈ (s.exec visibleViewNames p).2.2, ∃ out,
        uncached visibleViewNames ev.before ev.op = some out ∧ ev.out ≠ out := by
  refine ⟨{ models := [0], views := [1, 2], heap :=
      [.model { name := "m", accessGrants := [⟨"hr", "department", ["hr"]⟩] },
       .view { name := "orders" }, .view { name := "salaries", grants := ["hr"] }] }, [("department", some "sales")], ?_⟩
  refine ⟨_, List.mem_cons_of_mem _ (List.mem_cons_of_mem _ (List.mem_cons_self)), .graph ["orders"], ?_, ?_⟩
  · decide
  · decide

/-- C11 (d): the full property is false for the empty user dictionary: it shares its cache entries
with "no user". With a view requiring an undeclared grant, an uncached listing raises for `{}` but
not for `None`. -/
theorem C11_empty_user_stale :
    ∃ (s : PState Unit),
      let p : Prog := .seq (.op (.fields ⟨none, true, true⟩))
        (.seq (.op (.setUser (some []))) (.op (.fields ⟨none, true, true⟩)))
      ∃ ev ∈ (s.exec (fun _ => .ok ()) p).2.2, ∃ out,
        uncached (fun _ => .ok ()) ev.before ev.op = some out ∧ ev.out ≠ out := by
  refine ⟨{ heap := [.view { name := "orders", grants := ["gone"] }], views := [0] }, ?_⟩
  refine ⟨_, List.mem_cons_of_mem _ (List.mem_cons_of_mem _ (List.mem_cons_self)), .err .query, ?_, ?_⟩
  · decide
  · decide

/-- C11 (e): the full property is false with `refresh_cache=False`: the added field is not seen. -/
theorem C11_no_refresh_stale :
    ∃ (s : PState Unit) (fd : FieldDef),
      let p : Prog := .seq (.op (.fields ⟨none, true, true⟩))
        (.seq (.op (.addField fd "orders" false)) (.op (.fields ⟨none, true, true⟩)))
      ∃ ev ∈ (s.exec (fun _ => .ok ()) p).2.2, ∃ out,
        uncached (fun _ => .ok ()) ev.before ev.op = some out ∧ ev.out ≠ out := by
  refine ⟨{ heap := [.view { name := "orders" }], views := [0] },
    { name := "total", fieldType := .measure }, ?_⟩
  refine ⟨_, List.mem_cons_of_mem _ (List.mem_cons_of_mem _ (List.mem_cons_self)), _, rfl, ?_⟩
  decide

/-- C11 (f): the full property is false for a view object the caller keeps: its field list ignores
whether dimension groups are expanded, so the first call decides for all later ones. -/
theorem C11_view_object_stale :
    ∃ (P : Proj) (v : ViewDef),
      (((⟨v, none⟩ : ViewObj).fields P true true).1.fields P true false).2 ≠
        viewFields P v true false := by
  refine ⟨{}, { name := "orders", fields :=
      [{ name := "created", fieldType := .dimensionGroup, typ := "time",
         timeframes := ["date", "month"] }] }, ?_⟩
  decide

/-- C11 (g): for a view object with at least one visible field, a call with the same flag as the
first answers like a fresh object. -/
theorem C11_view_object_same_flag (P : Proj) (v : ViewDef) (sh sh' ex : Bool) :
    (((⟨v, none⟩ : ViewObj).fields P sh ex).1.fields P sh' ex).2 = viewFields P v sh' ex := by
  cases h : viewAllFields P v ex with
  | error e => simp [ViewObj.fields, viewFields, h]
  | ok fs =>
    cases fs with
    | nil => simp [ViewObj.fields, viewFields, h]
    | cons f fs => simp [ViewObj.fields, viewFields, h]

/-! ### Concrete cases -/
namespace ProjectExample

def orders : ViewDef :=
  { name := "orders", fields := [{ name := "Total", fieldType := .measure }] }
def st : PState (List String) :=
  { heap := [.view orders, .view { name := "orders" }, .other,
      .model { name := "m", accessGrants := [] }],
    views := [0], models := [3] }

/-- A body that edits the replaced view, nests another block, and then fails. -/
def body : Prog :=
  .seq (.op (.addField { name := "x", fieldType := .measure } "orders" true))
    (.seq (.replace [0] (.op (.lookup .field "total" none)))
      (.seq (.op (.mutate 0 (.view { name := "gone" }))) (.op (.raise .query))))

/-- The hypotheses of C08 hold for this state and body, and the body really does raise. -/
example : Closed st := by
  intro r hr; simp [st] at hr; rcases hr with rfl | rfl <;> decide
example : ∀ r ∈ [1, 2] ++ refs body, r < st.heap.length := by decide
example : (st.exec visibleViewNames (.replace [1, 2] body)).2.1 = some .query := by decide
example : (st.exec visibleViewNames (.replace [1, 2] body)).1.content = st.content := by decide
/-- Without the copies the content would have changed: inside, the old view was edited. -/
example : ((st.enter [1, 2]).exec visibleViewNames body).1.content ≠ st.content := by decide
example : st.views.Nodup := by decide
/-- The hypotheses of C11 hold for a history with a user change, an addition and lookups. -/
example : Disciplined (.seq (.op (.setUser (some [("a", some "b")])))
    (.seq (.op (.addField { name := "y", fieldType := .dimension } "orders" true))
      (.attempt (.op (.lookup .byName "y" none))))) := by simp [Disciplined]
example : ReadOnly (.seq (.op (.fields ⟨none, true, false⟩)) (.op (.lookup .byTag "customer" none))) := by
  simp [ReadOnly]

end ProjectExample
end ML
