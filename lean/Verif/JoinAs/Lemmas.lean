import Verif.JoinAs.Spec
/-
Helper lemmas for C46.
-/
set_option autoImplicit false
namespace ML
open Spec


/-- The entries created for a list of requests. -/
def entry (r : Request) : String × JView := (r.name, joinAsView r.view r.ident r.name)

/-- The requests that are new with respect to what is already created. -/
def fresh (created : List (String × JView)) (rs : List Request) : List Request :=
  (firstPerName rs).filter (fun r => decide (∀ p ∈ created, p.1 ≠ r.name))

/-- No request disagrees with an entry already created. -/
def Agree (created : List (String × JView)) (rs : List Request) : Prop :=
  (∀ p ∈ created, ∀ r ∈ rs, p.1 = r.name → p.2.name = r.view.name) ∧
  ∀ r ∈ rs, ∀ q ∈ rs, r.name = q.name → r.view.name = q.view.name

theorem firstPerName_sub (rs : List Request) (r : Request) (h : r ∈ firstPerName rs) : r ∈ rs := by
  induction rs with
  | nil => exact h
  | cons q qs ih =>
    simp only [firstPerName, List.mem_cons, List.mem_filter] at h
    rcases h with rfl | ⟨h, -⟩
    · simp
    · simp [ih h]

theorem firstPerName_names (rs : List Request) (n : String) :
    (∃ r ∈ firstPerName rs, r.name = n) ↔ ∃ r ∈ rs, r.name = n := by
  induction rs with
  | nil => exact Iff.rfl
  | cons q qs ih =>
    simp only [firstPerName, List.mem_cons, List.mem_filter, decide_eq_true_eq,
      or_and_right, exists_or, exists_eq_left]
    by_cases e : q.name = n
    · simp [e]
    · simp only [e, false_or]
      rw [← ih]
      constructor
      · rintro ⟨r, ⟨h1, -⟩, h2⟩; exact ⟨r, h1, h2⟩
      · rintro ⟨r, h1, h2⟩; exact ⟨r, ⟨h1, fun c => e (c ▸ h2)⟩, h2⟩

theorem firstPerName_append (rs qs : List Request) :
    firstPerName (rs ++ qs) = firstPerName rs ++
      (firstPerName qs).filter (fun q => decide (∀ r ∈ rs, r.name ≠ q.name)) := by
  induction rs with
  | nil =>
    simp only [List.nil_append, firstPerName]
    exact (List.filter_eq_self.mpr (fun q _ => by simp)).symm
  | cons r rs ih =>
    simp only [List.cons_append, firstPerName, ih, List.filter_append, List.filter_filter,
      List.cons_append]
    congr 2
    apply List.filter_congr
    intro q _
    rw [Bool.eq_iff_iff]
    simp only [Bool.and_eq_true, decide_eq_true_eq, List.mem_cons, forall_eq_or_imp]
    constructor
    · rintro ⟨a, b⟩; exact ⟨fun c => a c.symm, b⟩
    · rintro ⟨a, b⟩; exact ⟨fun c => a c.symm, b⟩

/-- The requests of a view, with the view replaced by another that agrees on what matters. -/
def loopRequests (v : JView) (is : List JIdent) : List Request :=
  is.filterMap (fun i =>
    match i.joinAs with
    | some a => if i.typ = "primary" then some ⟨v, i, a⟩ else none
    | none => none)

theorem viewRequests_eq (v : JView) : viewRequests v = loopRequests v v.identifiers := rfl

/-- Two views equal except for their identifiers. -/
def SameBut (v w : JView) : Prop := { v with identifiers := [] } = { w with identifiers := [] }

theorem joinAsView_same {v w : JView} (h : SameBut v w) (i : JIdent) (a : String) :
    joinAsView v i a = joinAsView w i a := by
  unfold SameBut at h
  cases v; cases w
  simp only [JView.mk.injEq, true_and] at h
  obtain ⟨h1, h2, h3, h4, h5⟩ := h
  subst h1 h2 h3 h4 h5
  rfl

theorem SameBut.name {v w : JView} (h : SameBut v w) : v.name = w.name := by
  have := congrArg JView.name (show { v with identifiers := [] } = { w with identifiers := [] } from h)
  exact this


theorem removeName_eq (l : List JIdent) (rs : List Request) (r : Request) :
    (l.filter (fun j => decide (j.name ≠ r.ident.name))).filter
        (fun j => !(rs.any (fun q => q.ident.name == j.name))) =
      l.filter (fun j => !((r :: rs).any (fun q => q.ident.name == j.name))) := by
  rw [List.filter_filter]
  apply List.filter_congr
  intro j _
  rw [Bool.eq_iff_iff]
  simp only [Bool.and_eq_true, Bool.not_eq_true', List.any_eq_false, beq_iff_eq, decide_eq_true_eq,
    List.mem_cons, forall_eq_or_imp]
  constructor
  · rintro ⟨a, b⟩; exact ⟨fun c => b c.symm, a⟩
  · rintro ⟨a, b⟩; exact ⟨b, fun c => a c.symm⟩

theorem fresh_mem {created : List (String × JView)} {rs : List Request} (r : Request)
    (h : ∃ p ∈ created, p.1 = r.name) : fresh created (r :: rs) = fresh created rs := by
  obtain ⟨p, hp, he⟩ := h
  unfold fresh
  simp only [firstPerName]
  rw [List.filter_cons, if_neg (by
    simp only [decide_eq_true_eq]
    intro c; exact c p hp he), List.filter_filter]
  apply List.filter_congr
  intro q _
  rw [Bool.eq_iff_iff]
  simp only [Bool.and_eq_true, decide_eq_true_eq]
  constructor
  · exact fun c => c.1
  · exact fun c => ⟨c, fun e => c p hp (by rw [he, e])⟩

theorem fresh_new {created : List (String × JView)} {rs : List Request} (r : Request)
    (h : ∀ p ∈ created, p.1 ≠ r.name) :
    fresh created (r :: rs) = r :: fresh (created ++ [entry r]) rs := by
  unfold fresh
  simp only [firstPerName]
  rw [List.filter_cons, if_pos (by simpa using h), List.filter_filter]
  congr 1
  apply List.filter_congr
  intro q _
  rw [Bool.eq_iff_iff]
  simp only [Bool.and_eq_true, decide_eq_true_eq, List.mem_append, List.mem_singleton]
  constructor
  · rintro ⟨a, b⟩ p (hp | rfl)
    · exact a p hp
    · exact fun c => b c.symm
  · intro c
    exact ⟨fun p hp => c p (.inl hp), fun e => c (entry r) (.inr rfl) e.symm⟩

theorem find_entry {created : List (String × JView)} {a : String} :
    (created.find? (fun p => decide (p.1 = a)) = none → ∀ p ∈ created, p.1 ≠ a) ∧
    ∀ p, created.find? (fun p => decide (p.1 = a)) = some p → p ∈ created ∧ p.1 = a := by
  constructor
  · intro h p hp
    have := List.find?_eq_none.mp h p hp
    simpa using this
  · intro p h
    exact ⟨List.mem_of_find?_eq_some h, by simpa using List.find?_some h⟩

/-- Entries are keyed by unique names. -/
def Keyed (created : List (String × JView)) : Prop := created.Pairwise (fun p q => p.1 ≠ q.1)

theorem keyed_unique {created : List (String × JView)} (h : Keyed created) {p q : String × JView}
    (hp : p ∈ created) (hq : q ∈ created) (e : p.1 = q.1) : p = q := by
  induction created with
  | nil => cases hp
  | cons x xs ih =>
    unfold Keyed at h
    rw [List.pairwise_cons] at h
    simp only [List.mem_cons] at hp hq
    rcases hp with rfl | hp <;> rcases hq with rfl | hq
    · rfl
    · exact absurd e (h.1 q hq)
    · exact absurd e.symm (h.1 p hp)
    · exact ih h.2 hp hq

theorem keyed_append {created : List (String × JView)} (h : Keyed created) (x : String × JView)
    (hx : ∀ p ∈ created, p.1 ≠ x.1) : Keyed (created ++ [x]) := by
  unfold Keyed at *
  rw [List.pairwise_append]
  refine ⟨h, by simp, ?_⟩
  intro p hp q hq
  simp only [List.mem_singleton] at hq
  subst hq
  exact hx p hp

/-- What one view does. `v0` is the view as the caller gave it, `v` its current state. -/
theorem joinAsLoop_spec (v0 : JView) (is : List JIdent) : ∀ (v : JView)
    (created : List (String × JView)), SameBut v v0 → Keyed created →
    (Agree created (loopRequests v0 is) →
      joinAsLoop v created is = .ok
        ({ v with identifiers := v.identifiers.filter (fun j => !((loopRequests v0 is).any (fun q => q.ident.name == j.name))) },
         created ++ (fresh created (loopRequests v0 is)).map entry)) ∧
    (¬ Agree created (loopRequests v0 is) → joinAsLoop v created is = .error .query) := by
  induction is with
  | nil =>
    intro v created _ _
    refine ⟨fun _ => ?_, fun h => absurd ⟨by simp [loopRequests], by simp [loopRequests]⟩ h⟩
    have : loopRequests v0 [] = [] := rfl
    rw [this]
    simp only [joinAsLoop, fresh, firstPerName, List.filter_nil, List.map_nil, List.append_nil,
      List.any_nil, Bool.not_false]
    rw [List.filter_eq_self.mpr (fun _ _ => rfl)]
  | cons i is ih =>
    intro v created hs hk
    cases hj : i.joinAs with
    | none =>
      have hr : loopRequests v0 (i :: is) = loopRequests v0 is := by
        simp [loopRequests, hj]
      rw [hr]
      simp only [joinAsLoop, hj]
      exact ih v created hs hk
    | some a =>
      by_cases hp : i.typ = "primary"
      · have hr : loopRequests v0 (i :: is) = ⟨v0, i, a⟩ :: loopRequests v0 is := by
          simp [loopRequests, hj, hp]
        rw [hr]
        simp only [joinAsLoop, hj, hp, if_true]
        have hs' : SameBut (dropName v i.name) v0 := hs
        have hsame : ∀ r ∈ loopRequests v0 is, r.view = v0 := by
          intro r hr'
          simp only [loopRequests, List.mem_filterMap] at hr'
          obtain ⟨j, -, hj'⟩ := hr'
          cases hja : j.joinAs with
          | none => rw [hja] at hj'; cases hj'
          | some b =>
            rw [hja] at hj'
            simp only at hj'
            split at hj'
            · cases hj'; rfl
            · cases hj'
        cases hf : created.find? (fun p => decide (p.1 = a)) with
        | none =>
          have hnew := find_entry.1 hf
          have hentry : (a, joinAsView (dropName v i.name) i a) =
              entry ⟨v0, i, a⟩ := by
            simp only [entry]; rw [joinAsView_same hs']
          simp only
          rw [hentry]
          have hk' : Keyed (created ++ [entry ⟨v0, i, a⟩]) := keyed_append hk _ hnew
          obtain ⟨ih1, ih2⟩ := ih (dropName v i.name)
            (created ++ [entry ⟨v0, i, a⟩]) hs' hk'
          have hAgree : Agree (created ++ [entry ⟨v0, i, a⟩]) (loopRequests v0 is) ↔
              Agree created (⟨v0, i, a⟩ :: loopRequests v0 is) := by
            constructor
            · rintro ⟨h1, h2⟩
              refine ⟨?_, ?_⟩
              · intro p hp' r hr'
                simp only [List.mem_cons] at hr'
                rcases hr' with rfl | hr'
                · intro e; exact absurd e (hnew p hp')
                · exact h1 p (by simp [hp']) r hr'
              · intro r hr' q hq' _
                have e1 : r.view = v0 := by
                  simp only [List.mem_cons] at hr'
                  rcases hr' with rfl | hr'
                  · rfl
                  · exact hsame r hr'
                have e2 : q.view = v0 := by
                  simp only [List.mem_cons] at hq'
                  rcases hq' with rfl | hq'
                  · rfl
                  · exact hsame q hq'
                rw [e1, e2]
            · rintro ⟨h1, h2⟩
              refine ⟨?_, fun r hr' q hq' e => h2 r (by simp [hr']) q (by simp [hq']) e⟩
              intro p hp' r hr' e
              simp only [List.mem_append, List.mem_singleton] at hp'
              rcases hp' with hp' | rfl
              · exact h1 p hp' r (by simp [hr']) e
              · rw [hsame r hr']; rfl
          rw [← hAgree]
          refine ⟨fun h => ?_, ih2⟩
          rw [ih1 h, fresh_new ⟨v0, i, a⟩ hnew]
          simp only [List.map_cons, List.append_assoc, List.cons_append, List.nil_append]
          congr 2
          congr 1
          exact removeName_eq v.identifiers (loopRequests v0 is) ⟨v0, i, a⟩
        | some p =>
          obtain ⟨hpm, hpa⟩ := find_entry.2 p hf
          simp only
          by_cases hn : p.2.name = v.name
          · rw [if_neg (by simpa using hn)]
            obtain ⟨ih1, ih2⟩ := ih (dropName v i.name) created hs' hk
            have hAgree : Agree created (loopRequests v0 is) ↔
                Agree created (⟨v0, i, a⟩ :: loopRequests v0 is) := by
              constructor
              · rintro ⟨h1, h2⟩
                refine ⟨?_, ?_⟩
                · intro q hq' r hr' e
                  simp only [List.mem_cons] at hr'
                  rcases hr' with rfl | hr'
                  · have : q = p := keyed_unique hk hq' hpm (e.trans hpa.symm)
                    rw [this, hn]; exact hs.name
                  · exact h1 q hq' r hr' e
                · intro r hr' q hq' _
                  have e1 : r.view = v0 := by
                    simp only [List.mem_cons] at hr'
                    rcases hr' with rfl | hr'
                    · rfl
                    · exact hsame r hr'
                  have e2 : q.view = v0 := by
                    simp only [List.mem_cons] at hq'
                    rcases hq' with rfl | hq'
                    · rfl
                    · exact hsame q hq'
                  rw [e1, e2]
              · rintro ⟨h1, h2⟩
                exact ⟨fun q hq' r hr' e => h1 q hq' r (by simp [hr']) e,
                  fun r hr' q hq' e => h2 r (by simp [hr']) q (by simp [hq']) e⟩
            rw [← hAgree]
            refine ⟨fun h => ?_, ih2⟩
            rw [ih1 h, fresh_mem ⟨v0, i, a⟩ ⟨p, hpm, hpa⟩]
            congr 2
            congr 1
            exact removeName_eq v.identifiers (loopRequests v0 is) ⟨v0, i, a⟩
          · rw [if_pos (by simpa using hn)]
            refine ⟨fun h => ?_, fun _ => rfl⟩
            exfalso
            apply hn
            have := h.1 p hpm ⟨v0, i, a⟩ (by simp) hpa
            rw [this]; exact hs.name.symm
      · have hr : loopRequests v0 (i :: is) = loopRequests v0 is := by
          simp [loopRequests, hj, hp]
        rw [hr]
        simp only [joinAsLoop, hj, hp, if_false]
        exact ih v created hs hk

theorem entry_keyed {created : List (String × JView)} (h : Keyed created) (rs : List Request) :
    Keyed (created ++ (fresh created rs).map entry) := by
  have hpw : (firstPerName rs).Pairwise (fun r q => r.name ≠ q.name) := by
    induction rs with
    | nil => exact .nil
    | cons r rs ih =>
      simp only [firstPerName, List.pairwise_cons]
      refine ⟨?_, ih.filter _⟩
      intro q hq
      have := (List.mem_filter.mp hq).2
      simp only [decide_eq_true_eq] at this
      exact fun c => this c.symm
  unfold Keyed at *
  rw [List.pairwise_append]
  refine ⟨h, ?_, ?_⟩
  · rw [List.pairwise_map]
    exact (hpw.filter _)
  · intro p hp q hq
    simp only [List.mem_map] at hq
    obtain ⟨r, hr, rfl⟩ := hq
    have := (List.mem_filter.mp hr).2
    simp only [decide_eq_true_eq] at this
    exact this p hp

theorem fresh_append (created : List (String × JView)) (rs qs : List Request) :
    (fresh created (rs ++ qs)) = fresh created rs ++
      fresh (created ++ (fresh created rs).map entry) qs := by
  unfold fresh
  rw [firstPerName_append, List.filter_append, List.filter_filter]
  congr 1
  apply List.filter_congr
  intro q _
  rw [Bool.eq_iff_iff]
  simp only [Bool.and_eq_true, decide_eq_true_eq, List.mem_append, List.mem_map]
  constructor
  · rintro ⟨h1, h2⟩ p (hp | ⟨r, hr, rfl⟩)
    · exact h1 p hp
    · exact h2 r (firstPerName_sub rs r (List.mem_filter.mp hr).1)
  · intro h
    refine ⟨fun p hp => h p (.inl hp), ?_⟩
    intro r hr e
    obtain ⟨r', hr', e'⟩ := (firstPerName_names rs q.name).mpr ⟨r, hr, e⟩
    by_cases hc : ∃ p ∈ created, p.1 = r'.name
    · obtain ⟨p, hp, hpe⟩ := hc
      exact h p (.inl hp) (hpe.trans e')
    · refine h (entry r') (.inr ⟨r', List.mem_filter.mpr ⟨hr', ?_⟩, rfl⟩) e'
      simp only [decide_eq_true_eq]
      intro p hp c
      exact hc ⟨p, hp, c⟩

theorem agree_append (created : List (String × JView)) (rs qs : List Request) :
    Agree created (rs ++ qs) ↔ Agree created rs ∧
      Agree (created ++ (fresh created rs).map entry) qs := by
  constructor
  · rintro ⟨h1, h2⟩
    refine ⟨⟨fun p hp r hr e => h1 p hp r (by simp [hr]) e,
      fun r hr q hq e => h2 r (by simp [hr]) q (by simp [hq]) e⟩, ?_,
      fun r hr q hq e => h2 r (by simp [hr]) q (by simp [hq]) e⟩
    intro p hp r hr e
    simp only [List.mem_append, List.mem_map] at hp
    rcases hp with hp | ⟨q, hq, rfl⟩
    · exact h1 p hp r (by simp [hr]) e
    · exact h2 q (by simp [firstPerName_sub rs q (List.mem_filter.mp hq).1]) r (by simp [hr]) e
  · rintro ⟨⟨a1, a2⟩, b1, b2⟩
    refine ⟨?_, ?_⟩
    · intro p hp r hr e
      simp only [List.mem_append] at hr
      rcases hr with hr | hr
      · exact a1 p hp r hr e
      · exact b1 p (by simp [hp]) r hr e
    · have cross : ∀ r ∈ rs, ∀ q ∈ qs, r.name = q.name → r.view.name = q.view.name := by
        intro r hr q hq e
        by_cases hc : ∃ p ∈ created, p.1 = r.name
        · obtain ⟨p, hp, hpe⟩ := hc
          rw [← a1 p hp r hr hpe, b1 p (by simp [hp]) q hq (hpe.trans e)]
        · obtain ⟨r', hr', e'⟩ := (firstPerName_names rs r.name).mpr ⟨r, hr, rfl⟩
          have hmem : r' ∈ fresh created rs := by
            refine List.mem_filter.mpr ⟨hr', ?_⟩
            simp only [decide_eq_true_eq]
            intro p hp c
            exact hc ⟨p, hp, c.trans e'⟩
          have hb := b1 (entry r') (by simp only [List.mem_append, List.mem_map]; exact .inr ⟨r', hmem, rfl⟩)
            q hq (e'.trans e)
          rw [← a2 r' (firstPerName_sub rs r' hr') r hr e']
          exact hb
      intro r hr q hq e
      simp only [List.mem_append] at hr hq
      rcases hr with hr | hr <;> rcases hq with hq | hq
      · exact a2 r hr q hq e
      · exact cross r hr q hq e
      · exact (cross q hq r hr e.symm).symm
      · exact b2 r hr q hq e

theorem joinAsViews_spec (vs : List JView) : ∀ (created : List (String × JView)), Keyed created →
    (Agree created (requests vs) → joinAsViews created vs = .ok (vs.map stripped,
        created ++ (fresh created (requests vs)).map entry)) ∧
    (¬ Agree created (requests vs) → joinAsViews created vs = .error .query) := by
  induction vs with
  | nil =>
    intro created _
    refine ⟨fun _ => ?_, fun h => absurd ⟨by simp [requests], by simp [requests]⟩ h⟩
    simp [joinAsViews, requests, fresh, firstPerName]
  | cons v vs ih =>
    intro created hk
    have hr : requests (v :: vs) = viewRequests v ++ requests vs := by
      simp [requests, List.flatMap_cons]
    rw [hr]
    obtain ⟨l1, l2⟩ := joinAsLoop_spec v v.identifiers v created rfl hk
    rw [← viewRequests_eq] at l1 l2
    rw [agree_append]
    simp only [joinAsViews]
    by_cases ha : Agree created (viewRequests v)
    · rw [l1 ha]
      simp only
      obtain ⟨i1, i2⟩ := ih _ (entry_keyed hk (viewRequests v))
      refine ⟨fun h => ?_, fun h => ?_⟩
      · rw [i1 h.2]
        simp only [List.map_cons, fresh_append, List.map_append, List.append_assoc]
        rfl
      · rw [i2 (fun c => h ⟨ha, c⟩)]
    · rw [l2 ha]
      exact ⟨fun h => absurd h.1 ha, fun _ => rfl⟩

theorem agree_nil (rs : List Request) :
    Agree [] rs ↔ ∀ r ∈ rs, ∀ q ∈ rs, r.name = q.name → r.view.name = q.view.name := by
  unfold Agree
  simp

theorem fresh_nil (rs : List Request) : fresh [] rs = firstPerName rs := by
  unfold fresh
  simp

theorem titleGo_spec (cs : List Char) : ∀ up : Bool, TitledGo up cs (titleGo up cs) := by
  induction cs with
  | nil => intro up; exact .nil
  | cons c cs ih =>
    intro up
    simp only [titleGo]
    split
    · rename_i h
      cases up
      · exact .inside h (ih false)
      · exact .start h (ih false)
    · rename_i h
      exact .other (by simpa using h) (ih true)

theorem titled_default (a : String) :
    ∃ t, some (defaultPrefix a) = some t ∧
      TitledGo true (a.toList.map (fun c => if c = '_' then ' ' else c)) t.toList := by
  refine ⟨_, rfl, ?_⟩
  simp only [defaultPrefix, String.toList_ofList]
  exact titleGo_spec _ _

theorem entry_isCopy (r : Request) : IsCopy r { (entry r).2 with name := (entry r).1 } := by
  refine ⟨rfl, rfl, rfl, ?_, ?_, ?_, ?_, ?_, ?_⟩
  · simp only [entry, joinAsView]
    cases h : r.ident.includeMetrics with
    | true =>
      simp only [if_true, Bool.true_or]
      exact (List.filter_eq_self.mpr (fun _ _ => rfl)).symm
    | false => simp
  · intro l hl; simp only [entry, joinAsView, hl]
  · intro hl; simp only [entry, joinAsView, hl]
  · intro p hp; simp only [entry, joinAsView, hp]
  · intro hp l hl; simp only [entry, joinAsView, hp, hl]
  · intro hp hl; simp only [entry, joinAsView, hp, hl]; exact titled_default r.name


end ML
