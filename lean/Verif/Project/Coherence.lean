import Verif.Project.Lemmas
/-
Helper lemmas for C10 and C11.
-/
set_option autoImplicit false
namespace ML
open Spec

section
variable {G : Type}

/-! ### C11: the cache invariant -/

/-- Every cached answer is what the current content gives the user it was computed for. -/
def Coherent (s : PState G) : Prop :=
  s.user ≠ some [] ∧
  (∀ e ∈ s.fieldsC, projFields { s.content with user := e.1.1 } e.1.2.viewName e.1.2.showHidden
    e.1.2.expand = .ok e.2) ∧
  ∀ e ∈ s.lookupC, pureLookup { s.content with user := e.1.user } e.1.kind e.1.name e.1.viewName
    = .ok e.2

theorem userKey_id {u : Option User} (h : u ≠ some []) : userKey u = u := by
  unfold userKey
  split
  · exact absurd rfl h
  · rfl

theorem cacheGet_mem {K V : Type} [DecidableEq K] {c : List (K × V)} {k : K} {v : V}
    (h : cacheGet c k = some v) : (k, v) ∈ c := by
  unfold cacheGet at h
  split at h
  · rename_i p hp
    cases h
    have h1 := List.find?_some hp
    have h2 := List.mem_of_find?_eq_some hp
    simp only [decide_eq_true_eq] at h1
    rw [← h1]; exact h2
  · cases h

theorem case_user {P Q : Proj} (h : SameUpToCase P Q) (u : Option User) :
    SameUpToCase { P with user := u } { Q with user := u } := by
  unfold SameUpToCase lowProj at *
  cases P; cases Q
  simp only [Proj.mk.injEq] at h ⊢
  exact ⟨h.1, h.2.1, h.2.2.1, trivial⟩

/-- Changing only the letter case of field names keeps the caches right. -/
theorem Coherent_case {s t : PState G} (h : Coherent s) (hc : SameUpToCase t.content s.content)
    (hu : t.user = s.user) (h1 : t.fieldsC = s.fieldsC) (h2 : t.lookupC = s.lookupC) :
    Coherent t := by
  refine ⟨hu ▸ h.1, ?_, ?_⟩
  · intro e he
    rw [projFields_case (case_user hc _)]
    exact h.2.1 e (h1 ▸ he)
  · intro e he
    rw [pureLookup_case (case_user hc _)]
    exact h.2.2 e (h2 ▸ he)

theorem Coherent_empty {s : PState G} (hu : s.user ≠ some []) (h1 : s.fieldsC = [])
    (h2 : s.lookupC = []) : Coherent s :=
  ⟨hu, fun e he => by (rw [h1] at he; cases he), fun e he => by (rw [h2] at he; cases he)⟩

theorem content_self (s : PState G) : { s.content with user := s.user } = s.content := rfl

theorem fields_coherent {s : PState G} (h : Coherent s) (a : FieldsArgs) :
    (s.fields a).2 = projFields s.content a.viewName a.showHidden a.expand ∧
    Coherent (s.fields a).1 ∧ SameUpToCase (s.fields a).1.content s.content ∧
    (s.fields a).1.user = s.user ∧ (s.fields a).1.graph = s.graph := by
  obtain ⟨hp, e, -, -⟩ := touch_shape s a
  have hcase := touch_case s a
  have hcoh : Coherent (touch s a) :=
    Coherent_case h hcase (by rw [e]) (by rw [e]) (by rw [e])
  unfold PState.fields
  cases hg : cacheGet s.fieldsC (userKey s.user, a) with
  | some fs =>
    have := h.2.1 _ (cacheGet_mem hg)
    simp only [userKey_id h.1, content_self] at this
    exact ⟨this.symm, h, rfl, rfl, rfl⟩
  | none =>
    cases hpf : projFields s.content a.viewName a.showHidden a.expand with
    | error err => exact ⟨rfl, hcoh, hcase, by rw [e], by rw [e]⟩
    | ok fs =>
      refine ⟨rfl, ⟨hcoh.1, ?_, hcoh.2.2⟩, hcase, ?_, ?_⟩
      · intro x hx
        simp only [List.mem_cons] at hx
        rcases hx with rfl | hx
        · simp only [userKey_id h.1]
          have h1 : projFields { (touch s a).content with user := s.user } a.viewName a.showHidden
              a.expand = projFields s.content a.viewName a.showHidden a.expand :=
            projFields_case (case_user hcase s.user) _ _ _
          exact h1.trans hpf
        · exact hcoh.2.1 x hx
      · rw [e]
      · rw [e]

theorem SameUpToCase.trans {P Q R : Proj} (h : SameUpToCase P Q) (h' : SameUpToCase Q R) :
    SameUpToCase P R := Eq.trans h h'

theorem lookup_coherent {s : PState G} (h : Coherent s) (k : LKind) (n : String)
    (v : Option String) :
    (s.lookup k n v).2 = pureLookup s.content k n v ∧ Coherent (s.lookup k n v).1 ∧
    SameUpToCase (s.lookup k n v).1.content s.content ∧ (s.lookup k n v).1.user = s.user ∧
    (s.lookup k n v).1.graph = s.graph := by
  unfold PState.lookup
  cases hg : cacheGet s.lookupC ⟨userKey s.user, k, n, v⟩ with
  | some f =>
    have := h.2.2 _ (cacheGet_mem hg)
    simp only [userKey_id h.1, content_self] at this
    exact ⟨this.symm, h, rfl, rfl, rfl⟩
  | none =>
    have hplan := pureLookup_plan s.content k n v
    cases hp : lookupPlan k n v with
    | error e =>
      rw [hp] at hplan
      exact ⟨hplan.symm, h, rfl, rfl, rfl⟩
    | ok q =>
      obtain ⟨n', v', ex, p⟩ := q
      rw [hp] at hplan
      simp only at hplan ⊢
      obtain ⟨hr, hc, hs, hu, hgr⟩ := fields_coherent h ⟨v', true, ex⟩
      generalize s.fields ⟨v', true, ex⟩ = r at hr hc hs hu hgr
      obtain ⟨s', res⟩ := r
      simp only at hr hc hs hu hgr
      rw [← hr] at hplan
      cases res with
      | error e => exact ⟨hplan.symm, hc, hs, hu, hgr⟩
      | ok fs =>
        simp only at hplan ⊢
        rw [← handler_case hs] at hplan
        cases hm : matchingFieldHandler s'.content (fs.filter p) n' v' with
        | error e =>
          rw [hm] at hplan
          exact ⟨hplan.symm, hc, hs, hu, hgr⟩
        | ok f =>
          rw [hm] at hplan
          refine ⟨hplan.symm, ⟨hc.1, hc.2.1, ?_⟩, hs, hu, hgr⟩
          intro x hx
          simp only [List.mem_cons] at hx
          rcases hx with rfl | hx
          · simp only [userKey_id h.1]
            have h1 : pureLookup { s'.content with user := s.user } k n v = pureLookup s.content k n v :=
              pureLookup_case (case_user hs s.user) k n v
            exact h1.trans hplan
          · exact hc.2.2 x hx

/-- One disciplined call keeps the caches right and answers what is uncached. -/
theorem step_coherent (build : Proj → Res G) {s : PState G} (h : Coherent s) (o : Op)
    (hd : Disciplined (.op o)) :
    Coherent (s.step build o).1 ∧
    ∀ out, o ≠ .graph → uncached build s.content o = some out → (s.step build o).2 = out := by
  cases o with
  | addField fd v r =>
    simp only [Disciplined] at hd
    subst hd
    refine ⟨?_, fun out _ hu => by simp [uncached] at hu⟩
    simp only [PState.step, PState.addField]
    split
    · exact h
    · refine Coherent_empty ?_ rfl rfl
      have : ∀ (t : PState G) (r : Nat) (f : List FieldDef → List FieldDef),
          (t.editFields r f).user = t.user := by
        intro t r f; unfold PState.editFields; split <;> rfl
      simp only [if_true, PState.refresh, this]
      exact h.1
  | removeField n v r =>
    simp only [Disciplined] at hd
    subst hd
    refine ⟨?_, fun out _ hu => by simp [uncached] at hu⟩
    simp only [PState.step, PState.removeField]
    split
    · exact h
    · refine Coherent_empty ?_ rfl rfl
      have : ∀ (t : PState G) (r : Nat) (f : List FieldDef → List FieldDef),
          (t.editFields r f).user = t.user := by
        intro t r f; unfold PState.editFields; split <;> rfl
      simp only [if_true, PState.refresh, this]
      exact h.1
  | refresh =>
    exact ⟨Coherent_empty h.1 rfl rfl, fun out _ hu => by simp [uncached] at hu⟩
  | setUser u =>
    simp only [Disciplined] at hd
    exact ⟨⟨hd, h.2.1, h.2.2⟩, fun out _ hu => by simp [uncached] at hu⟩
  | fields a =>
    obtain ⟨hr, hc, -⟩ := fields_coherent h a
    simp only [PState.step, uncached]
    rw [← hr]
    generalize s.fields a = q at hr hc
    obtain ⟨s', res⟩ := q
    cases res with
    | ok fs => exact ⟨hc, fun out _ hu => by simpa using hu⟩
    | error e => exact ⟨hc, fun out _ hu => by simpa using hu⟩
  | lookup k n v =>
    obtain ⟨hr, hc, -⟩ := lookup_coherent h k n v
    have huc : uncached build s.content (.lookup k n v) =
        (match pureLookup s.content k n v with
         | .ok f => some (.field f)
         | .error e => some (.err e)) := by cases k <;> rfl
    simp only [PState.step]
    rw [huc, ← hr]
    generalize s.lookup k n v = q at hr hc
    obtain ⟨s', res⟩ := q
    cases res with
    | ok fs => exact ⟨hc, fun out _ hu => by simpa using hu⟩
    | error e => exact ⟨hc, fun out _ hu => by simpa using hu⟩
  | graph =>
    refine ⟨?_, fun out hne => absurd rfl hne⟩
    have : Coherent (s.joinGraph build).1 := by
      unfold PState.joinGraph
      split
      · exact h
      · split
        · exact h
        · exact h
    simp only [PState.step]
    split <;> rename_i hs <;> rw [hs] at this <;> exact this
  | mutate r o => exact absurd hd (by simp [Disciplined])
  | raise e => exact ⟨h, fun out _ hu => by simp [uncached] at hu⟩

theorem exec_coherent (build : Proj → Res G) (p : Prog) : ∀ (s : PState G), Coherent s →
    Disciplined p → Coherent (s.exec build p).1 ∧
    ∀ ev ∈ (s.exec build p).2.2, ∀ out, ev.op ≠ .graph →
      uncached build ev.before ev.op = some out → ev.out = out := by
  induction p with
  | skip => intro s h _; exact ⟨h, fun ev he => by simp [PState.exec] at he⟩
  | op o =>
    intro s h hd
    obtain ⟨h1, h2⟩ := step_coherent build h o hd
    refine ⟨h1, ?_⟩
    intro ev he
    simp only [PState.exec, List.mem_singleton] at he
    subst he
    exact h2
  | seq p q ihp ihq =>
    intro s h hd
    obtain ⟨hd1, hd2⟩ := hd
    obtain ⟨h1, h2⟩ := ihp s h hd1
    simp only [PState.exec]
    generalize hr : s.exec build p = r at h1 h2
    obtain ⟨s', oe, t⟩ := r
    cases oe with
    | some e => exact ⟨h1, h2⟩
    | none =>
      obtain ⟨h3, h4⟩ := ihq s' h1 hd2
      refine ⟨h3, ?_⟩
      intro ev he
      simp only [List.mem_append] at he
      rcases he with he | he
      · exact h2 ev he
      · exact h4 ev he
  | replace objs p ih =>
    intro s h hd
    simp only [PState.exec]
    split
    · obtain ⟨h1, h2⟩ := ih (s.enter objs) (Coherent_empty h.1 rfl rfl) hd
      exact ⟨Coherent_empty h1.1 rfl rfl, h2⟩
    · exact ⟨h, fun ev he => by cases he⟩
  | attempt p ih =>
    intro s h hd
    exact ih s h hd

/-! ### C11: the join graph -/

/-- The stored join graph, if any, is the one of the current content and user. -/
def GraphOk (build : Proj → Res G) (s : PState G) : Prop :=
  ∀ g, s.graph = some g → build s.content = .ok g

theorem edit_user (t : PState G) (r : Nat) (f : List FieldDef → List FieldDef) :
    (t.editFields r f).user = t.user := by
  unfold PState.editFields; split <;> rfl

theorem step_graph (build : Proj → Res G)
    (hb : ∀ P Q, SameUpToCase P Q → build P = build Q) {s : PState G} (h : Coherent s)
    (hg : GraphOk build s) (o : Op) (hd : Disciplined (.op o)) (hk : KeepsUser (.op o)) :
    GraphOk build (s.step build o).1 ∧
    ∀ out, uncached build s.content o = some out → (s.step build o).2 = out := by
  have hbase := (step_coherent build h o hd).2
  have hne : ∀ o', o' ≠ Op.graph → o' = o → ∀ out, uncached build s.content o = some out →
      (s.step build o).2 = out := fun o' h1 h2 out hu => hbase out (h2 ▸ h1) hu
  cases o with
  | addField fd v r =>
    simp only [Disciplined] at hd
    subst hd
    refine ⟨?_, hne _ (by intro c; cases c) rfl⟩
    simp only [PState.step, PState.addField]
    split
    · exact hg
    · intro g hgg; cases hgg
  | removeField n v r =>
    simp only [Disciplined] at hd
    subst hd
    refine ⟨?_, hne _ (by intro c; cases c) rfl⟩
    simp only [PState.step, PState.removeField]
    split
    · exact hg
    · intro g hgg; cases hgg
  | refresh => exact ⟨fun g hgg => (nomatch hgg), hne _ (by intro c; cases c) rfl⟩
  | setUser u => exact absurd hk (by simp [KeepsUser])
  | fields a =>
    refine ⟨?_, hne _ (by intro c; cases c) rfl⟩
    obtain ⟨-, -, hs, -, hgr⟩ := fields_coherent h a
    have : GraphOk build (s.fields a).1 := by
      intro g hgg; rw [hb _ _ hs]; exact hg g (hgr ▸ hgg)
    simp only [PState.step]
    split <;> rename_i hs' <;> rw [hs'] at this <;> exact this
  | lookup k n v =>
    refine ⟨?_, hne _ (by intro c; cases c) rfl⟩
    obtain ⟨-, -, hs, -, hgr⟩ := lookup_coherent h k n v
    have : GraphOk build (s.lookup k n v).1 := by
      intro g hgg; rw [hb _ _ hs]; exact hg g (hgr ▸ hgg)
    simp only [PState.step]
    split <;> rename_i hs' <;> rw [hs'] at this <;> exact this
  | graph =>
    simp only [PState.step, uncached, PState.joinGraph]
    cases hgs : s.graph with
    | some g =>
      simp only [hg g hgs]
      exact ⟨hg, fun out hu => by simpa using hu⟩
    | none =>
      simp only
      cases hbs : build s.content with
      | error e => exact ⟨hg, fun out hu => by simpa using hu⟩
      | ok g =>
        refine ⟨?_, fun out hu => by simpa using hu⟩
        intro g' hg'
        cases hg'
        exact hbs
  | mutate r o => exact absurd hd (by simp [Disciplined])
  | raise e => exact ⟨hg, hne _ (by intro c; cases c) rfl⟩

theorem exec_graph (build : Proj → Res G)
    (hb : ∀ P Q, SameUpToCase P Q → build P = build Q) (p : Prog) : ∀ (s : PState G), Coherent s →
    GraphOk build s → Disciplined p → KeepsUser p →
    GraphOk build (s.exec build p).1 ∧
    ∀ ev ∈ (s.exec build p).2.2, ∀ out,
      uncached build ev.before ev.op = some out → ev.out = out := by
  induction p with
  | skip => intro s _ hg _ _; exact ⟨hg, fun ev he => by simp [PState.exec] at he⟩
  | op o =>
    intro s h hg hd hk
    obtain ⟨h1, h2⟩ := step_graph build hb h hg o hd hk
    refine ⟨h1, ?_⟩
    intro ev he
    simp only [PState.exec, List.mem_singleton] at he
    subst he
    exact h2
  | seq p q ihp ihq =>
    intro s h hg hd hk
    obtain ⟨hd1, hd2⟩ := hd
    obtain ⟨hk1, hk2⟩ := hk
    obtain ⟨h1, h2⟩ := ihp s h hg hd1 hk1
    obtain ⟨hc, -⟩ := exec_coherent build p s h hd1
    simp only [PState.exec]
    generalize hr : s.exec build p = r at h1 h2 hc
    obtain ⟨s', oe, t⟩ := r
    cases oe with
    | some e => exact ⟨h1, h2⟩
    | none =>
      obtain ⟨h3, h4⟩ := ihq s' hc h1 hd2 hk2
      refine ⟨h3, ?_⟩
      intro ev he
      simp only [List.mem_append] at he
      rcases he with he | he
      · exact h2 ev he
      · exact h4 ev he
  | replace objs p ih =>
    intro s h hg hd hk
    simp only [PState.exec]
    split
    · obtain ⟨h1, h2⟩ := ih (s.enter objs) (Coherent_empty h.1 rfl rfl)
        (fun g hgg => by cases hgg) hd hk
      exact ⟨fun g hgg => (nomatch hgg), h2⟩
    · exact ⟨hg, fun ev he => by cases he⟩
  | attempt p ih =>
    intro s h hg hd hk
    exact ih s h hg hd hk

/-! ### C10: editing one view -/

theorem getObj_view {h : List Obj} {r : Nat} {v : ViewDef}
    (e : (getObj h r).bind Obj.asView = some v) : getObj h r = some (.view v) := by
  cases ho : getObj h r with
  | none => rw [ho] at e; cases e
  | some o =>
    rw [ho] at e
    cases o with
    | view w => simp [Obj.asView] at e; rw [e]
    | _ => simp [Obj.asView] at e

theorem findView_some {s : PState G} {n : String} {r : Nat} (h : s.findView n = some r) :
    ∃ v, getObj s.heap r = some (.view v) ∧ v.name = n ∧ v ∈ s.content.views := by
  have h1 := List.find?_some h
  simp only [decide_eq_true_eq, Option.map_eq_some_iff] at h1
  obtain ⟨v, hv, hn⟩ := h1
  refine ⟨v, getObj_view hv, hn, ?_⟩
  simp only [PState.content, List.mem_filterMap]
  exact ⟨r, findView_mem h, hv⟩

theorem editFields_eq {s : PState G} {r : Nat} {v : ViewDef} (h : getObj s.heap r = some (.view v))
    (f : List FieldDef → List FieldDef) :
    s.editFields r f = { s with heap := s.heap.set r (.view { v with fields := f v.fields }) } := by
  unfold PState.editFields PState.write
  rw [h]; rfl

/-- The content after editing the fields of the first view with a name. -/
theorem edit_content {s : PState G} (hnd : s.views.Nodup) {n : String} {r : Nat}
    (h : s.findView n = some r) (f : List FieldDef → List FieldDef) :
    ∃ pre v post, s.content.views = pre ++ v :: post ∧ v.name = n ∧ (∀ w ∈ pre, w.name ≠ n) ∧
      (s.editFields r f).content =
        { s.content with views := pre ++ { v with fields := f v.fields } :: post } := by
  obtain ⟨v, hv, hn, -⟩ := findView_some h
  obtain ⟨-, as, bs, hs, hpre⟩ := List.find?_eq_some_iff_append.mp h
  rw [hs] at hnd
  have hra : ∀ q ∈ as, q ≠ r := by
    intro q hq e; subst e
    rw [List.nodup_append] at hnd
    exact hnd.2.2 q hq q (by simp) rfl
  have hrb : ∀ q ∈ bs, q ≠ r := by
    intro q hq e; subst e
    rw [List.nodup_append, List.nodup_cons] at hnd
    exact hnd.2.1.1 hq
  rw [editFields_eq hv]
  have hlt := getObj_lt hv
  have hsame : ∀ (q : Nat), q ≠ r →
      getObj (s.heap.set r (.view { v with fields := f v.fields })) q = getObj s.heap q := by
    intro q hq; rw [getObj_set, if_neg (fun c => hq c.1.symm)]
  have hat : getObj (s.heap.set r (.view { v with fields := f v.fields })) r =
      some (.view { v with fields := f v.fields }) := by
    rw [getObj_set, if_pos ⟨rfl, hlt⟩]
  refine ⟨as.filterMap (fun r => (getObj s.heap r).bind Obj.asView), v,
    bs.filterMap (fun r => (getObj s.heap r).bind Obj.asView), ?_, hn, ?_, ?_⟩
  · simp only [PState.content, hs, List.filterMap_append, List.filterMap_cons, hv]; rfl
  · intro w hw
    simp only [List.mem_filterMap] at hw
    obtain ⟨q, hq, hw⟩ := hw
    have := hpre q hq
    simp only [hw, Option.map_some, Option.some.injEq, Bool.not_eq_true',
      decide_eq_false_iff_not] at this
    exact this
  · simp only [PState.content]
    congr 1
    · apply filterMap_congr'
      intro q _
      by_cases e : q = r
      · subst e; rw [hat, hv]; rfl
      · rw [hsame q e]
    · rw [hs, List.filterMap_append, List.filterMap_cons]
      simp only [hat, Option.bind_some, Obj.asView]
      congr 1
      · exact filterMap_congr' (fun q hq => by rw [hsame q (hra q hq)])
      · congr 1
        exact filterMap_congr' (fun q hq => by rw [hsame q (hrb q hq)])
    · apply filterMap_congr'
      intro q _
      by_cases e : q = r
      · subst e; rw [hat, hv]; rfl
      · rw [hsame q e]

/-! ### C10: lookups between adding and removing -/

/-- `f'` is `f`, possibly with its name lower-cased. -/
def LowStep (f f' : FieldDef) : Prop := f' = f ∨ f' = lowName f

inductive AllLow : List FieldDef → List FieldDef → Prop
  | nil : AllLow [] []
  | cons {f f' : FieldDef} {fs fs' : List FieldDef} : LowStep f f' → AllLow fs fs' →
      AllLow (f :: fs) (f' :: fs')

theorem AllLow.refl (fs : List FieldDef) : AllLow fs fs := by
  induction fs with
  | nil => exact .nil
  | cons f fs ih => exact .cons (.inl rfl) ih

theorem AllLow.trans {a b c : List FieldDef} (h : AllLow a b) (h' : AllLow b c) : AllLow a c := by
  induction h generalizing c with
  | nil => exact h'
  | cons hs _ ih =>
    cases h' with
    | cons hs' h'' =>
      refine .cons ?_ (ih h'')
      rcases hs with rfl | rfl <;> rcases hs' with rfl | rfl
      · exact .inl rfl
      · exact .inr rfl
      · exact .inr rfl
      · exact .inr (lowName_idem _)

theorem touchFields_allLow (P : Proj) (v : ViewDef) (fs : List FieldDef) :
    AllLow fs (touchFields P v fs).1 := by
  induction fs with
  | nil => exact .nil
  | cons f fs ih =>
    simp only [touchFields]
    split
    · exact .cons (.inr rfl) (.refl _)
    · exact .cons (.inr rfl) ih

/-- The heap differs only by lower-casing field names. -/
def HeapLow (h h' : List Obj) : Prop :=
  ∀ r, match getObj h r with
    | some (.view v) => ∃ fs, getObj h' r = some (.view { v with fields := fs }) ∧ AllLow v.fields fs
    | o => getObj h' r = o

theorem HeapLow.refl (h : List Obj) : HeapLow h h := by
  intro r
  split
  · rename_i v hv; exact ⟨v.fields, hv, .refl _⟩
  · rfl

theorem HeapLow.trans {a b c : List Obj} (h : HeapLow a b) (h' : HeapLow b c) : HeapLow a c := by
  intro r
  have h1 := h r
  have h2 := h' r
  cases ha : getObj a r with
  | none => rw [ha] at h1; simp only at h1 ⊢; rw [h1] at h2; exact h2
  | some o =>
    rw [ha] at h1
    cases o with
    | view v =>
      simp only at h1 ⊢
      obtain ⟨fs, e1, l1⟩ := h1
      rw [e1] at h2
      simp only at h2
      obtain ⟨fs', e2, l2⟩ := h2
      exact ⟨fs', e2, l1.trans l2⟩
    | _ => simp only at h1 ⊢; rw [h1] at h2; exact h2

theorem touchViews_heapLow (P : Proj) (rs : List Nat) (h : List Obj) :
    HeapLow h (touchViews P h rs) := by
  induction rs generalizing h with
  | nil => exact .refl h
  | cons r rs ih =>
    simp only [touchViews]
    split
    · exact ih h
    · rename_i v hv
      have hv := getObj_view hv
      split
      · have key : HeapLow h (h.set r (.view { v with fields := (touchFields P v v.fields).1 })) := by
          intro q
          by_cases e : r = q
          · subst e
            rw [hv]
            exact ⟨_, by rw [getObj_set, if_pos ⟨rfl, getObj_lt hv⟩], touchFields_allLow P v _⟩
          · have : getObj (h.set r (.view { v with fields := (touchFields P v v.fields).1 })) q
                = getObj h q := by rw [getObj_set, if_neg (fun c => e c.1)]
            rw [this]
            exact HeapLow.refl h q
        split
        · exact key.trans (ih _)
        · exact key
      · exact ih h

/-- A program that only reads. -/
def ReadOnly : Prog → Prop
  | .skip => True
  | .op (.fields _) => True
  | .op (.lookup _ _ _) => True
  | .op .graph => True
  | .op .refresh => True
  | .op (.raise _) => True
  | .op _ => False
  | .seq p q => ReadOnly p ∧ ReadOnly q
  | .replace _ _ => False
  | .attempt p => ReadOnly p

/-- Same lists of references, heap possibly lower-cased. -/
def LowOnly (s t : PState G) : Prop :=
  HeapLow s.heap t.heap ∧ t.views = s.views ∧ t.models = s.models ∧ t.dashboards = s.dashboards ∧
  t.user = s.user

theorem LowOnly.refl (s : PState G) : LowOnly s s := ⟨.refl _, rfl, rfl, rfl, rfl⟩

theorem LowOnly.trans {s t u : PState G} (h : LowOnly s t) (h' : LowOnly t u) : LowOnly s u :=
  ⟨h.1.trans h'.1, h'.2.1.trans h.2.1, h'.2.2.1.trans h.2.2.1, h'.2.2.2.1.trans h.2.2.2.1,
    h'.2.2.2.2.trans h.2.2.2.2⟩

theorem touch_lowOnly (s : PState G) (a : FieldsArgs) : LowOnly s (touch s a) := by
  unfold touch
  split
  · exact .refl s
  · split
    · exact ⟨touchViews_heapLow _ _ _, rfl, rfl, rfl, rfl⟩
    · split
      · exact ⟨touchViews_heapLow _ _ _, rfl, rfl, rfl, rfl⟩
      · exact .refl s

theorem fields_lowOnly (s : PState G) (a : FieldsArgs) : LowOnly s (s.fields a).1 := by
  unfold PState.fields
  split
  · exact .refl s
  · split
    · exact touch_lowOnly s a
    · exact touch_lowOnly s a

theorem lookup_lowOnly (s : PState G) (k : LKind) (n : String) (v : Option String) :
    LowOnly s (s.lookup k n v).1 := by
  unfold PState.lookup
  split
  · exact .refl s
  · split
    · exact .refl s
    · rename_i n' v' ex p _
      have h := fields_lowOnly s ⟨v', true, ex⟩
      split
      · rename_i hs; rw [hs] at h; exact h
      · rename_i hs
        rw [hs] at h
        split <;> exact h

theorem exec_lowOnly (build : Proj → Res G) (p : Prog) : ∀ (s : PState G), ReadOnly p →
    LowOnly s (s.exec build p).1 := by
  induction p with
  | skip => intro s _; exact .refl s
  | op o =>
    intro s h
    cases o with
    | fields a =>
      have := fields_lowOnly s a
      simp only [PState.exec, PState.step]
      split <;> rename_i hs <;> rw [hs] at this <;> exact this
    | lookup k n v =>
      have := lookup_lowOnly s k n v
      simp only [PState.exec, PState.step]
      split <;> rename_i hs <;> rw [hs] at this <;> exact this
    | graph =>
      have : LowOnly s (s.joinGraph build).1 := by
        unfold PState.joinGraph
        split
        · exact .refl s
        · split
          · exact .refl s
          · exact LowOnly.refl s
      simp only [PState.exec, PState.step]
      split <;> rename_i hs <;> rw [hs] at this <;> exact this
    | refresh => exact LowOnly.refl s
    | raise e => exact .refl s
    | addField _ _ _ => exact absurd h (by simp [ReadOnly])
    | removeField _ _ _ => exact absurd h (by simp [ReadOnly])
    | setUser _ => exact absurd h (by simp [ReadOnly])
    | mutate _ _ => exact absurd h (by simp [ReadOnly])
  | seq p q ihp ihq =>
    intro s h
    have h1 := ihp s h.1
    simp only [PState.exec]
    generalize s.exec build p = r at h1
    obtain ⟨s', oe, t⟩ := r
    cases oe with
    | some e => exact h1
    | none => exact h1.trans (ihq s' h.2)
  | replace objs p ih => intro s h; exact absurd h (by simp [ReadOnly])
  | attempt p ih => intro s h; exact ih s h

theorem AllLow_append {a b c : List FieldDef} (h : AllLow (a ++ b) c) :
    ∃ x y, c = x ++ y ∧ AllLow a x ∧ AllLow b y := by
  induction a generalizing c with
  | nil => exact ⟨[], c, rfl, .nil, h⟩
  | cons f fs ih =>
    cases h with
    | cons hs h' =>
      obtain ⟨x, y, rfl, h1, h2⟩ := ih h'
      exact ⟨_ :: x, y, rfl, .cons hs h1, h2⟩

theorem AllLow_low {a b : List FieldDef} (h : AllLow a b) : b.map lowName = a.map lowName := by
  induction h with
  | nil => rfl
  | cons hs _ ih =>
    rcases hs with rfl | rfl
    · simp only [List.map_cons, ih]
    · simp only [List.map_cons, ih, lowName_idem]

theorem AllLow_filter {a b : List FieldDef} (h : AllLow a b) (n : String)
    (hn : ∀ f ∈ a, lower f.name ≠ lower n) : b.filter (fun f => decide (f.name ≠ n)) = b := by
  induction h with
  | nil => rfl
  | @cons f f' fs fs' hs _ ih =>
    have h1 : f'.name ≠ n := by
      intro e
      apply hn f (by simp)
      rcases hs with rfl | rfl
      · rw [e]
      · rw [← e]; simp only [lowName, lower_lower]
    rw [List.filter_cons, if_pos (by simpa using h1), ih (fun g hg => hn g (by simp [hg]))]

theorem HeapLow_low {h h' : List Obj} (hl : HeapLow h h') : h'.map lowObj = h.map lowObj := by
  apply List.ext_getElem?
  intro r
  have := hl r
  rw [List.getElem?_map, List.getElem?_map]
  unfold getObj at this
  cases ho : h[r]? with
  | none => rw [ho] at this; simp only at this; rw [this]
  | some o =>
    rw [ho] at this
    cases o with
    | view v =>
      simp only at this
      obtain ⟨fs, e, l⟩ := this
      rw [e]
      simp only [Option.map_some, lowObj, lowView, AllLow_low l]
    | _ => simp only at this; rw [this]

end
end ML
