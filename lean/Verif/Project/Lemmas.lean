import Verif.Project.Spec
import Verif.Access.Lemmas
/-
Helper lemmas for `Verif/Project/Props.lean`.
-/
set_option autoImplicit false
namespace ML
open Spec

theorem toLower_idem (c : Char) : c.toLower.toLower = c.toLower := by
  unfold Char.toLower
  split
  · rename_i h
    split
    · rename_i h2
      exfalso
      obtain ⟨a, b⟩ := h
      obtain ⟨a2, b2⟩ := h2
      rw [ge_iff_le, UInt32.le_iff_toNat_le] at a a2
      rw [UInt32.le_iff_toNat_le] at b b2
      simp [UInt32.toNat_add] at a b a2 b2
      omega
    · rfl
  · rfl

theorem lower_lower (s : String) : lower (lower s) = lower s := by
  unfold lower
  rw [String.toList_ofList, List.map_map]
  congr 1
  apply List.map_congr_left
  intro c _
  exact toLower_idem c

theorem lowName_idem (f : FieldDef) : lowName (lowName f) = lowName f := by
  simp only [lowName, lower_lower]

theorem lowView_idem (v : ViewDef) : lowView (lowView v) = lowView v := by
  simp only [lowView, List.map_map]
  congr 1
  apply List.map_congr_left
  intro f _
  exact lowName_idem f

theorem filterMap_congr' {α β : Type} {f g : α → Option β} {l : List α}
    (h : ∀ x ∈ l, f x = g x) : l.filterMap f = l.filterMap g := by
  induction l with
  | nil => rfl
  | cons x xs ih =>
    rw [List.filterMap_cons, List.filterMap_cons, h x (by simp),
      ih (fun y hy => h y (by simp [hy]))]

/-! ### Lookups do not see the letter case of field names -/

theorem getAccessGrant_congr {P Q : Proj} (h : P.models = Q.models) (n : String) :
    getAccessGrant P n = getAccessGrant Q n := by
  unfold getAccessGrant accessGrants; rw [h]

theorem decisions_congr {P Q : Proj} (h : P.models = Q.models) (u : User) (req : List String) :
    decisions P u req = decisions Q u req := by
  induction req with
  | nil => rfl
  | cons n ns ih => simp only [decisions, getAccessGrant_congr h, ih]

theorem canAccess_congr {P Q : Proj} (h : P.models = Q.models) (hu : P.user = Q.user)
    (req : List String) : canAccess P req = canAccess Q req := by
  unfold canAccess
  rw [hu]
  simp only [decisions_congr h]

theorem canAccess_low (P : Proj) (req : List String) :
    canAccess (lowProj P) req = canAccess P req :=
  canAccess_congr (P := lowProj P) (Q := P) rfl rfl req

theorem lowView_init (v : ViewDef) : (lowView v).init = lowView v.init := rfl

theorem allViews_low (P : Proj) (sh : Bool) :
    allViews (lowProj P) sh =
      (match allViews P sh with | .ok vs => .ok (vs.map lowView) | .error e => .error e) := by
  unfold allViews
  have : (lowProj P).views.map ViewDef.init = (P.views.map ViewDef.init).map lowView := by
    simp only [lowProj, List.map_map]; rfl
  rw [this, filterRes_map]
  simp only [canAccess_low, lowView]
  cases filterRes _ (P.views.map ViewDef.init) <;> rfl

theorem mkField_low (v : ViewDef) (f : FieldDef) (dg : Option String) (h : Bool) :
    mkField (lowView v) (lowName f) dg h = mkField v f dg h := by
  simp only [mkField, lowName, lowView, lower_lower]

theorem expandField_low (v : ViewDef) (e : Bool) (f : FieldDef) :
    expandField (lowView v) e (lowName f) = expandField v e f := by
  unfold expandField
  simp only [mkField_low]
  rfl

theorem canAccessField_low (P : Proj) (v : ViewDef) (f : FieldDef) :
    canAccessField (lowProj P) (lowView v) (lowName f) = canAccessField P v f := by
  unfold canAccessField
  simp only [canAccess_low]; rfl

theorem viewAllFields_low (P : Proj) (v : ViewDef) (e : Bool) :
    viewAllFields (lowProj P) (lowView v) e = viewAllFields P v e := by
  unfold viewAllFields
  have : (lowView v).fields = v.fields.map lowName := rfl
  rw [this, concatRes_map]
  apply concatRes_congr
  intro f _
  simp only [canAccessField_low, expandField_low]

theorem viewFields_low (P : Proj) (v : ViewDef) (sh e : Bool) :
    viewFields (lowProj P) (lowView v) sh e = viewFields P v sh e := by
  unfold viewFields; rw [viewAllFields_low]

theorem find_map_name (n : String) (vs : List ViewDef) :
    (vs.map lowView).find? (fun v => decide (v.name = n)) =
      (vs.find? (fun v => decide (v.name = n))).map lowView := by
  rw [List.find?_map]; rfl

theorem getView_low (P : Proj) (n : String) :
    getView (lowProj P) n =
      (match getView P n with | .ok v => .ok (lowView v) | .error e => .error e) := by
  unfold getView
  rw [allViews_low]
  cases allViews P true with
  | error e => rfl
  | ok vs =>
    simp only [find_map_name]
    cases vs.find? (fun v => decide (v.name = n)) <;> rfl

theorem projFields_low (P : Proj) (vn : Option String) (sh e : Bool) :
    projFields (lowProj P) vn sh e = projFields P vn sh e := by
  unfold projFields
  cases vn with
  | none =>
    simp only [allViews_low]
    cases allViews P true with
    | error e => rfl
    | ok vs =>
      simp only [concatRes_map]
      apply concatRes_congr
      intro v _
      exact viewFields_low P v sh e
  | some n =>
    simp only [getView_low]
    cases getView P n with
    | error e => rfl
    | ok v => exact viewFields_low P v sh e

theorem handler_low (P : Proj) (m : List Field) (n : String) (v : Option String) :
    matchingFieldHandler (lowProj P) m n v = matchingFieldHandler P m n v := by
  unfold matchingFieldHandler
  split
  · rfl
  · rfl
  · split
    · split
      · rw [getView_low]
        cases getView P _ <;> rfl
      · rfl
    · rfl

/-- The uncached single-field lookup of any kind. -/
def pureLookup (P : Proj) (k : LKind) (n : String) (v : Option String) : Res Field :=
  match k with
  | .field => getField P n v
  | .byName => getFieldByName P n v
  | .byTag => getFieldByTag P n v

/-- All three lookups follow the plan. -/
theorem pureLookup_plan (P : Proj) (k : LKind) (n : String) (v : Option String) :
    pureLookup P k n v =
      (match lookupPlan k n v with
       | .error e => .error e
       | .ok (n', v', ex, p) =>
         match projFields P v' true ex with
         | .error e => .error e
         | .ok fs => matchingFieldHandler P (fs.filter p) n' v') := by
  cases k with
  | field =>
    simp only [pureLookup, getField, lookupPlan]
    cases parseFieldAndViewName n v <;> rfl
  | byName =>
    simp only [pureLookup, getFieldByName, lookupPlan]
    cases parseFieldAndViewName n v <;> rfl
  | byTag =>
    simp only [pureLookup, getFieldByTag, lookupPlan]
    cases tagOptions n <;> rfl

theorem pureLookup_low (P : Proj) (k : LKind) (n : String) (v : Option String) :
    pureLookup (lowProj P) k n v = pureLookup P k n v := by
  simp only [pureLookup_plan, projFields_low, handler_low]

theorem projFields_case {P Q : Proj} (h : SameUpToCase P Q) (vn : Option String) (sh e : Bool) :
    projFields P vn sh e = projFields Q vn sh e := by
  rw [← projFields_low P, ← projFields_low Q, h]

theorem pureLookup_case {P Q : Proj} (h : SameUpToCase P Q) (k : LKind) (n : String)
    (v : Option String) : pureLookup P k n v = pureLookup Q k n v := by
  rw [← pureLookup_low P, ← pureLookup_low Q, h]

theorem handler_case {P Q : Proj} (h : SameUpToCase P Q) (m : List Field) (n : String)
    (v : Option String) : matchingFieldHandler P m n v = matchingFieldHandler Q m n v := by
  rw [← handler_low P, ← handler_low Q, h]

/-! ### Listing fields only changes letter case -/

def lowObj : Obj → Obj
  | .view v => .view (lowView v)
  | o => o

theorem touchFields_low (P : Proj) (v : ViewDef) (fs : List FieldDef) :
    (touchFields P v fs).1.map lowName = fs.map lowName := by
  induction fs with
  | nil => rfl
  | cons f fs ih =>
    simp only [touchFields]
    split
    · simp only [List.map_cons]
      rw [show lowName { f with name := lower f.name } = lowName f from lowName_idem f]
    · simp only [List.map_cons, ih]
      rw [show lowName { f with name := lower f.name } = lowName f from lowName_idem f]

theorem getObj_set (h : List Obj) (r r' : Nat) (o : Obj) :
    getObj (h.set r o) r' = if r = r' ∧ r < h.length then some o else getObj h r' := by
  unfold getObj
  rw [List.getElem?_set]
  by_cases e : r = r'
  · subst e
    by_cases hl : r < h.length
    · simp [hl]
    · simp [hl]
  · simp [e]

theorem getObj_lt {h : List Obj} {r : Nat} {o : Obj} (e : getObj h r = some o) : r < h.length := by
  unfold getObj at e
  rw [List.getElem?_eq_some_iff] at e
  exact e.1

theorem touchViews_low (P : Proj) (h : List Obj) (rs : List Nat) :
    (touchViews P h rs).map lowObj = h.map lowObj := by
  induction rs generalizing h with
  | nil => rfl
  | cons r rs ih =>
    simp only [touchViews]
    split
    · exact ih h
    · rename_i v hv
      split
      · have key : (h.set r (.view { v with fields := (touchFields P v v.fields).1 })).map lowObj
            = h.map lowObj := by
          have hv' : h[r]? = some (.view v) := by
            unfold getObj at hv
            cases ho : h[r]? with
            | none => rw [ho] at hv; cases hv
            | some o =>
              rw [ho] at hv
              cases o with
              | view w => simp [Obj.asView] at hv; rw [hv]
              | _ => simp [Obj.asView] at hv
          rw [List.map_set]
          have : lowObj (.view { v with fields := (touchFields P v v.fields).1 }) = lowObj (.view v) := by
            simp only [lowObj, lowView, touchFields_low]
          rw [this]
          apply List.ext_getElem?
          intro i
          rw [List.getElem?_set]
          by_cases e : r = i
          · subst e
            simp only [List.length_map, List.getElem?_map, hv', Option.map_some, if_true]
            rw [if_pos (getObj_lt (o := .view v) hv')]
          · simp [e]
        split
        · rw [ih, key]
        · exact key
      · exact ih h

theorem touchViews_frame (P : Proj) (h : List Obj) (rs : List Nat) (r : Nat) (hr : r ∉ rs) :
    getObj (touchViews P h rs) r = getObj h r := by
  induction rs generalizing h with
  | nil => rfl
  | cons r' rs ih =>
    simp only [List.mem_cons, not_or] at hr
    have hset : ∀ o, getObj (h.set r' o) r = getObj h r := by
      intro o
      rw [getObj_set, if_neg (fun c => hr.1 c.1.symm)]
    simp only [touchViews]
    split
    · exact ih h hr.2
    · split
      · split
        · rw [ih _ hr.2, hset]
        · exact hset _
      · exact ih h hr.2

theorem touchViews_length (P : Proj) (h : List Obj) (rs : List Nat) :
    (touchViews P h rs).length = h.length := by
  have := congrArg List.length (touchViews_low P h rs)
  simpa using this

section
variable {G : Type}

theorem content_low (h h' : List Obj) (s : PState G) (hh : h.map lowObj = h'.map lowObj) :
    SameUpToCase ({ s with heap := h }).content ({ s with heap := h' }).content := by
  have hobj : ∀ r, (getObj h r).map lowObj = (getObj h' r).map lowObj := by
    intro r
    unfold getObj
    rw [← List.getElem?_map, ← List.getElem?_map, hh]
  have hM : ∀ o : Obj, (lowObj o).asModel = o.asModel := by intro o; cases o <;> rfl
  have hD : ∀ o : Obj, (lowObj o).asDash = o.asDash := by intro o; cases o <;> rfl
  have hV : ∀ o : Obj, (lowObj o).asView = o.asView.map lowView := by intro o; cases o <;> rfl
  unfold SameUpToCase lowProj PState.content
  simp only [List.map_filterMap]
  congr 1
  · apply filterMap_congr'
    intro r _
    have := hobj r
    cases h1 : getObj h r <;> cases h2 : getObj h' r <;> rw [h1, h2] at this <;>
      simp only [Option.map_some, Option.map_none, Option.some.injEq, reduceCtorEq] at this
    · simp only [Option.bind_some]; rw [← hM, this, hM]
  · apply filterMap_congr'
    intro r _
    have := hobj r
    cases h1 : getObj h r <;> cases h2 : getObj h' r <;> rw [h1, h2] at this <;>
      simp only [Option.map_some, Option.map_none, Option.some.injEq, reduceCtorEq] at this
    · simp only [Option.bind_some]; rw [← hV, this, hV]
  · apply filterMap_congr'
    intro r _
    have := hobj r
    cases h1 : getObj h r <;> cases h2 : getObj h' r <;> rw [h1, h2] at this <;>
      simp only [Option.map_some, Option.map_none, Option.some.injEq, reduceCtorEq] at this
    · simp only [Option.bind_some]; rw [← hD, this, hD]

/-- `touch` replaces the heap and nothing else. -/
theorem touch_shape (s : PState G) (a : FieldsArgs) :
    ∃ h, touch s a = { s with heap := h } ∧ h.map lowObj = s.heap.map lowObj ∧
      (∀ r, r ∉ s.views → getObj h r = getObj s.heap r) := by
  unfold touch
  split
  · exact ⟨s.heap, rfl, rfl, fun _ _ => rfl⟩
  · split
    · exact ⟨_, rfl, touchViews_low _ _ _, fun r hr => touchViews_frame _ _ _ r hr⟩
    · split
      · rename_i r hr
        refine ⟨_, rfl, touchViews_low _ _ _, fun r' hr' => touchViews_frame _ _ _ r' ?_⟩
        simp only [List.mem_singleton]
        rintro rfl
        exact hr' (List.mem_of_find?_eq_some hr)
      · exact ⟨s.heap, rfl, rfl, fun _ _ => rfl⟩

theorem touch_case (s : PState G) (a : FieldsArgs) :
    SameUpToCase (touch s a).content s.content := by
  obtain ⟨h, e, h1, -⟩ := touch_shape s a
  rw [e]
  exact content_low h s.heap s h1

/-! ### Frame: what a program can reach -/

/-- `K` is a set of heap places the project does not refer to. -/
def Apart (s : PState G) (K : Nat → Prop) : Prop :=
  (∀ r, r ∈ s.models ∨ r ∈ s.views ∨ r ∈ s.dashboards → ¬ K r) ∧ ∀ r, K r → r < s.heap.length

/-- The places of `K` hold the same objects in both states, and stay out of the project. -/
def Keeps (s t : PState G) (K : Nat → Prop) : Prop :=
  Apart t K ∧ (∀ r, K r → getObj t.heap r = getObj s.heap r) ∧ s.heap.length ≤ t.heap.length

theorem Keeps.refl {s : PState G} {K : Nat → Prop} (h : Apart s K) : Keeps s s K :=
  ⟨h, fun _ _ => rfl, Nat.le_refl _⟩

theorem Keeps.trans {s t u : PState G} {K : Nat → Prop} (h : Keeps s t K) (h' : Keeps t u K) :
    Keeps s u K :=
  ⟨h'.1, fun r hr => (h'.2.1 r hr).trans (h.2.1 r hr), Nat.le_trans h.2.2 h'.2.2⟩

/-- A change of the heap alone, of the same length, at places outside `K`. -/
theorem Keeps_heap {s : PState G} {K : Nat → Prop} (h : Apart s K) (hp : List Obj)
    (hl : hp.length = s.heap.length) (hk : ∀ r, K r → getObj hp r = getObj s.heap r)
    (t : PState G) (ht : t.heap = hp) (hm : t.models = s.models) (hv : t.views = s.views)
    (hd : t.dashboards = s.dashboards) : Keeps s t K := by
  subst ht
  refine ⟨⟨?_, ?_⟩, hk, by omega⟩
  · intro r hr; rw [hm, hv, hd] at hr; exact h.1 r hr
  · intro r hr; rw [hl]; exact h.2 r hr

theorem Keeps_touch {s : PState G} {K : Nat → Prop} (h : Apart s K) (a : FieldsArgs)
    (t : PState G) (ht : t.heap = (touch s a).heap) (hm : t.models = s.models)
    (hv : t.views = s.views) (hd : t.dashboards = s.dashboards) : Keeps s t K := by
  obtain ⟨hp, e, h1, h2⟩ := touch_shape s a
  refine Keeps_heap h hp ?_ ?_ t (by rw [ht, e]) hm hv hd
  · simpa using congrArg List.length h1
  · intro r hr
    exact h2 r (fun hc => h.1 r (.inr (.inl hc)) hr)

theorem Keeps_fields {s : PState G} {K : Nat → Prop} (h : Apart s K) (a : FieldsArgs) :
    Keeps s (s.fields a).1 K := by
  obtain ⟨hp, e, -, -⟩ := touch_shape s a
  unfold PState.fields
  split
  · exact Keeps.refl h
  · split
    · exact Keeps_touch h a _ rfl (by rw [e]) (by rw [e]) (by rw [e])
    · exact Keeps_touch h a _ rfl (by rw [e]) (by rw [e]) (by rw [e])

theorem Keeps_lookup {s : PState G} {K : Nat → Prop} (h : Apart s K) (k : LKind) (n : String)
    (v : Option String) : Keeps s (s.lookup k n v).1 K := by
  unfold PState.lookup
  split
  · exact Keeps.refl h
  · split
    · exact Keeps.refl h
    · rename_i n' v' ex p hp
      have hk := Keeps_fields h ⟨v', true, ex⟩
      split
      · rename_i s' e' hs; rw [hs] at hk; exact hk
      · rename_i s' fs hs
        rw [hs] at hk
        split
        · exact hk
        · exact ⟨hk.1, hk.2.1, hk.2.2⟩

theorem Keeps_edit {s : PState G} {K : Nat → Prop} (h : Apart s K) (r : Nat) (hr : r ∈ s.views)
    (f : List FieldDef → List FieldDef) : Keeps s (s.editFields r f) K := by
  unfold PState.editFields
  split
  · rename_i v hv
    refine Keeps_heap h (s.heap.set r _) (by simp) ?_ _ rfl rfl rfl rfl
    intro q hq
    rw [getObj_set, if_neg]
    rintro ⟨rfl, -⟩
    exact h.1 r (.inr (.inl hr)) hq
  · exact Keeps.refl h

theorem findView_mem {s : PState G} {n : String} {r : Nat} (h : s.findView n = some r) :
    r ∈ s.views := List.mem_of_find?_eq_some h

theorem Keeps_refresh {s t : PState G} {K : Nat → Prop} (h : Keeps s t K) :
    Keeps s t.refresh K := h

theorem Keeps_step {s : PState G} {K : Nat → Prop} (build : Proj → Res G) (h : Apart s K) (o : Op)
    (hr : ∀ r ∈ refs (.op o), ¬ K r) : Keeps s (s.step build o).1 K := by
  cases o with
  | addField fd v r =>
    simp only [PState.step, PState.addField]
    split
    · exact Keeps.refl h
    · rename_i r' hr'
      have := Keeps_edit h r' (findView_mem hr') (appendField fd)
      split <;> exact this
  | removeField n v r =>
    simp only [PState.step, PState.removeField]
    split
    · exact Keeps.refl h
    · rename_i r' hr'
      have := Keeps_edit h r' (findView_mem hr') (fun fs => fs.filter (fun f => decide (f.name ≠ n)))
      split <;> exact this
  | refresh => exact Keeps.refl h
  | setUser u => exact Keeps.refl (s := s) h
  | fields a =>
    have := Keeps_fields h a
    simp only [PState.step]
    split <;> rename_i hs <;> rw [hs] at this <;> exact this
  | lookup k n v =>
    have := Keeps_lookup h k n v
    simp only [PState.step]
    split <;> rename_i hs <;> rw [hs] at this <;> exact this
  | graph =>
    have : Keeps s (s.joinGraph build).1 K := by
      unfold PState.joinGraph
      split
      · exact Keeps.refl h
      · split
        · exact Keeps.refl h
        · exact Keeps.refl (s := s) h
    simp only [PState.step]
    split <;> rename_i hs <;> rw [hs] at this <;> exact this
  | mutate r o =>
    simp only [PState.step, PState.write]
    refine Keeps_heap h (s.heap.set r o) (by simp) ?_ _ rfl rfl rfl rfl
    intro q hq
    rw [getObj_set, if_neg]
    rintro ⟨rfl, -⟩
    exact hr r (by simp [refs]) hq
  | raise e => exact Keeps.refl h

theorem pick_sub (h : List Obj) (p : Obj → Bool) (objs : List Nat) (r : Nat)
    (hr : r ∈ pick h p objs) : r ∈ objs := (List.mem_filter.mp hr).1

theorem unchanged_sub (h : List Obj) (c q : List Nat) (r : Nat)
    (hr : r ∈ unchanged h c q) : r ∈ c := (List.mem_filter.mp hr).1

theorem getObj_append_left (h k : List Obj) (r : Nat) (hr : r < h.length) :
    getObj (h ++ k) r = getObj h r := by
  unfold getObj; rw [List.getElem?_append_left hr]

theorem Keeps_enter {s : PState G} {K : Nat → Prop} (h : Apart s K) (objs : List Nat)
    (hr : ∀ r ∈ objs, ¬ K r) : Keeps s (s.enter objs) K := by
  refine ⟨⟨?_, ?_⟩, ?_, ?_⟩
  · intro r hm
    simp only [PState.enter, List.mem_append] at hm
    rcases hm with (hm | hm) | (hm | hm) | (hm | hm)
    · exact h.1 r (.inl (unchanged_sub _ _ _ _ hm))
    · exact hr r (pick_sub _ _ _ _ hm)
    · exact h.1 r (.inr (.inl (unchanged_sub _ _ _ _ hm)))
    · exact hr r (pick_sub _ _ _ _ hm)
    · exact h.1 r (.inr (.inr (unchanged_sub _ _ _ _ hm)))
    · exact hr r (pick_sub _ _ _ _ hm)
  · intro r hk
    simp only [PState.enter, List.length_append]
    have := h.2 r hk
    omega
  · intro r hk
    exact getObj_append_left _ _ _ (h.2 r hk)
  · simp only [PState.enter, List.length_append]; omega

theorem Keeps_leave {s t : PState G} {K : Nat → Prop} (h : Apart s K) (h' : Keeps s t K) :
    Keeps s (s.leave t) K := by
  refine ⟨⟨?_, h'.1.2⟩, h'.2.1, h'.2.2⟩
  intro r hm hk
  have := h.2 r hk
  simp only [PState.leave, List.mem_range'_1] at hm
  omega

theorem Keeps_exec (build : Proj → Res G) (p : Prog) :
    ∀ (s : PState G) (K : Nat → Prop), Apart s K → (∀ r ∈ refs p, ¬ K r) →
      Keeps s (s.exec build p).1 K := by
  induction p with
  | skip => intro s K h _; exact Keeps.refl h
  | op o => intro s K h hr; exact Keeps_step build h o hr
  | seq p q ihp ihq =>
    intro s K h hr
    have h1 := ihp s K h (fun r hm => hr r (by simp [refs, hm]))
    simp only [PState.exec]
    split
    · rename_i s' e t hs; rw [hs] at h1; exact h1
    · rename_i s' t hs
      rw [hs] at h1
      have h2 := ihq s' K h1.1 (fun r hm => hr r (by simp [refs, hm]))
      exact h1.trans h2
  | replace objs p ih =>
    intro s K h hr
    simp only [PState.exec]
    split
    · have h1 := Keeps_enter h objs (fun r hm => hr r (by simp [refs, hm]))
      have h2 := ih (s.enter objs) K h1.1 (fun r hm => hr r (by simp [refs, hm]))
      exact Keeps_leave h (h1.trans h2)
    · exact Keeps.refl h
  | attempt p ih =>
    intro s K h hr
    have h1 := ih s K h hr
    simp only [PState.exec]
    exact h1

/-- The content read through the copies made on entry is the content on entry. -/
theorem range_copy {α : Type} (as : Obj → Option α) (h cs pre post : List Obj) (refs : List Nat)
    (hc : cs = refs.filterMap (getObj h)) (hp : List Obj)
    (hk : ∀ r, pre.length ≤ r → r < pre.length + cs.length →
      getObj hp r = getObj (pre ++ cs ++ post) r) :
    (List.range' pre.length cs.length).filterMap (fun r => (getObj hp r).bind as) =
      refs.filterMap (fun r => (getObj h r).bind as) := by
  have h1 : (List.range' pre.length cs.length).filterMap (fun r => (getObj hp r).bind as) =
      cs.filterMap as := by
    have step : (List.range' pre.length cs.length).filterMap (fun r => (getObj hp r).bind as) =
        (List.range' pre.length cs.length).filterMap
          (fun r => (getObj (pre ++ cs ++ post) r).bind as) := by
      apply filterMap_congr'
      intro r hr
      simp only [List.mem_range'_1] at hr
      rw [hk r hr.1 hr.2]
    rw [step]
    clear step hk hc hp
    induction cs generalizing pre with
    | nil => rfl
    | cons c cs ih =>
      have := ih (pre ++ [c])
      simp only [List.length_append, List.length_cons, List.length_nil, Nat.zero_add,
        List.append_assoc, List.cons_append, List.nil_append] at this
      simp only [List.length_cons, List.range'_succ, List.append_assoc, List.cons_append]
      rw [List.filterMap_cons, this]
      have hg : getObj (pre ++ c :: (cs ++ post)) pre.length = some c := by
        unfold getObj
        rw [List.getElem?_append_right (Nat.le_refl _)]
        simp
      rw [hg]
      simp only [Option.bind_some, List.filterMap_cons]
  rw [h1, hc, List.filterMap_filterMap]

theorem leave_content (build : Proj → Res G) (s : PState G) (hwf : Closed s) (objs : List Nat)
    (p : Prog) (hr : ∀ r ∈ refs (.replace objs p), r < s.heap.length) :
    (s.leave ((s.enter objs).exec build p).1).content =
      { s.content with user := ((s.enter objs).exec build p).1.user } := by
  let K : Nat → Prop := fun r => s.heap.length ≤ r ∧ r < (s.enter objs).heap.length
  have hap : Apart (s.enter objs) K := by
    refine ⟨?_, fun r hk => hk.2⟩
    intro r hm hk
    have hlt : r < s.heap.length := by
      simp only [PState.enter, List.mem_append] at hm
      rcases hm with (hm | hm) | (hm | hm) | (hm | hm)
      · exact hwf r (.inl (unchanged_sub _ _ _ _ hm))
      · exact hr r (by simp [refs, pick_sub _ _ _ _ hm])
      · exact hwf r (.inr (.inl (unchanged_sub _ _ _ _ hm)))
      · exact hr r (by simp [refs, pick_sub _ _ _ _ hm])
      · exact hwf r (.inr (.inr (unchanged_sub _ _ _ _ hm)))
      · exact hr r (by simp [refs, pick_sub _ _ _ _ hm])
    have := hk.1
    omega
  have hkeep := Keeps_exec build p (s.enter objs) K hap
    (fun r hm hk => by have := hr r (by simp [refs, hm]); have := hk.1; omega)
  have hget : ∀ r, s.heap.length ≤ r → r < (s.enter objs).heap.length →
      getObj ((s.enter objs).exec build p).1.heap r = getObj (s.enter objs).heap r :=
    fun r h1 h2 => hkeep.2.1 r ⟨h1, h2⟩
  generalize ((s.enter objs).exec build p).1 = t at hget
  have hlen : (s.enter objs).heap.length = s.heap.length + ((deepCopy s.heap s.models).length +
      (deepCopy s.heap s.views).length + (deepCopy s.heap s.dashboards).length) := by
    simp only [PState.enter, List.length_append]
  have hheap : (s.enter objs).heap = s.heap ++ (deepCopy s.heap s.models ++ deepCopy s.heap s.views ++
      deepCopy s.heap s.dashboards) := rfl
  unfold PState.content PState.leave
  simp only
  congr 1
  · refine range_copy Obj.asModel s.heap (deepCopy s.heap s.models) s.heap
      (deepCopy s.heap s.views ++ deepCopy s.heap s.dashboards) s.models rfl t.heap ?_
    intro r h1 h2
    rw [hget r h1 (by omega), hheap]
    simp only [List.append_assoc]
  · have := range_copy Obj.asView s.heap (deepCopy s.heap s.views)
      (s.heap ++ deepCopy s.heap s.models) (deepCopy s.heap s.dashboards) s.views rfl t.heap ?_
    · simpa using this
    · intro r h1 h2
      rw [List.length_append] at h1 h2
      rw [hget r (by omega) (by omega), hheap]
      simp only [List.append_assoc]
  · have := range_copy Obj.asDash s.heap (deepCopy s.heap s.dashboards)
      (s.heap ++ deepCopy s.heap s.models ++ deepCopy s.heap s.views) [] s.dashboards rfl t.heap ?_
    · simpa [Nat.add_assoc] using this
    · intro r h1 h2
      simp only [List.length_append] at h1 h2
      rw [hget r (by omega) (by omega), hheap]
      simp only [List.append_assoc, List.append_nil]

end
end ML
