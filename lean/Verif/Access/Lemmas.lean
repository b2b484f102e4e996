import Verif.Access.Spec
/-
Helper lemmas for `Verif/Access/Props.lean`.
-/
set_option autoImplicit false
namespace ML
open Spec

theorem filterRes_of_ok {α : Type} (p : α → Res Bool) (q : α → Bool) (xs : List α)
    (h : ∀ x ∈ xs, p x = .ok (q x)) : filterRes p xs = .ok (xs.filter q) := by
  induction xs with
  | nil => rfl
  | cons x xs ih =>
    have hx := h x (by simp)
    have ht := ih (fun y hy => h y (by simp [hy]))
    simp only [filterRes, hx, ht, List.filter_cons]

theorem filterRes_ok_inv {α : Type} (p : α → Res Bool) (xs ys : List α)
    (h : filterRes p xs = .ok ys) :
    (∀ x ∈ xs, ∃ b, p x = .ok b) ∧ ∀ y, y ∈ ys ↔ y ∈ xs ∧ p y = .ok true := by
  induction xs generalizing ys with
  | nil => simp only [filterRes, Except.ok.injEq] at h; subst h; simp
  | cons x xs ih =>
    simp only [filterRes] at h
    split at h
    · cases h
    · rename_i b hb
      split at h
      · cases h
      · rename_i zs hz
        obtain ⟨h1, h2⟩ := ih zs hz
        simp only [Except.ok.injEq] at h
        subst h
        refine ⟨by simp only [List.mem_cons, forall_eq_or_imp]; exact ⟨⟨b, hb⟩, h1⟩, ?_⟩
        intro y
        cases b
        · simp only [Bool.false_eq_true, if_false, List.mem_cons, h2]
          constructor
          · rintro ⟨a, b⟩; exact ⟨.inr a, b⟩
          · rintro ⟨rfl | a, b⟩
            · rw [hb] at b; cases b
            · exact ⟨a, b⟩
        · simp only [if_true, List.mem_cons, h2]
          constructor
          · rintro (rfl | ⟨a, b⟩)
            · exact ⟨.inl rfl, hb⟩
            · exact ⟨.inr a, b⟩
          · rintro ⟨rfl | a, b⟩
            · exact .inl rfl
            · exact .inr ⟨a, b⟩

theorem concatRes_of_ok {α β : Type} (f : α → Res (List β)) (g : α → List β) (xs : List α)
    (h : ∀ x ∈ xs, f x = .ok (g x)) : concatRes f xs = .ok (xs.flatMap g) := by
  induction xs with
  | nil => rfl
  | cons x xs ih =>
    have hx := h x (by simp)
    have ht := ih (fun y hy => h y (by simp [hy]))
    simp only [concatRes, hx, ht, List.flatMap_cons]

theorem concatRes_ok_inv {α β : Type} (f : α → Res (List β)) (xs : List α) (ys : List β)
    (h : concatRes f xs = .ok ys) : ∀ y ∈ ys, ∃ x ∈ xs, ∃ l, f x = .ok l ∧ y ∈ l := by
  induction xs generalizing ys with
  | nil => simp only [concatRes, Except.ok.injEq] at h; subst h; simp
  | cons x xs ih =>
    simp only [concatRes] at h
    split at h
    · cases h
    · rename_i l hl
      split at h
      · cases h
      · rename_i zs hz
        simp only [Except.ok.injEq] at h
        subst h
        intro y hy
        simp only [List.mem_append] at hy
        rcases hy with hy | hy
        · exact ⟨x, by simp, l, hl, hy⟩
        · obtain ⟨x', hx', r⟩ := ih zs hz y hy
          exact ⟨x', by simp [hx'], r⟩

/-- Dropping elements that contribute nothing does not change the loop's result. -/
theorem concatRes_filter {α β : Type} (f : α → Res (List β)) (k : α → Bool) (xs : List α)
    (h : ∀ x ∈ xs, k x = false → f x = .ok []) :
    concatRes f (xs.filter k) = concatRes f xs := by
  induction xs with
  | nil => rfl
  | cons x xs ih =>
    have ht := ih (fun y hy => h y (by simp [hy]))
    cases hk : k x
    · rw [List.filter_cons_of_neg (by simp [hk]), ht]
      simp only [concatRes, h x (by simp) hk]
      cases concatRes f xs <;> simp
    · rw [List.filter_cons_of_pos hk]
      simp only [concatRes, ht]

theorem filterRes_filter {α : Type} (p : α → Res Bool) (k : α → Bool) (xs : List α)
    (h : ∀ x ∈ xs, k x = false → p x = .ok false) :
    filterRes p (xs.filter k) = filterRes p xs := by
  induction xs with
  | nil => rfl
  | cons x xs ih =>
    have ht := ih (fun y hy => h y (by simp [hy]))
    cases hk : k x
    · rw [List.filter_cons_of_neg (by simp [hk]), ht]
      simp only [filterRes, h x (by simp) hk]
      cases filterRes p xs <;> simp
    · rw [List.filter_cons_of_pos hk]
      simp only [filterRes, ht]

theorem filterRes_map {α β : Type} (p : β → Res Bool) (g : α → β) (xs : List α) :
    filterRes p (xs.map g) =
      match filterRes (fun x => p (g x)) xs with
      | .error e => .error e
      | .ok ys => .ok (ys.map g) := by
  induction xs with
  | nil => rfl
  | cons x xs ih =>
    simp only [List.map_cons, filterRes]
    cases p (g x) with
    | error e => rfl
    | ok b =>
      simp only [ih]
      cases filterRes (fun x => p (g x)) xs with
      | error e => rfl
      | ok ys => cases b <;> rfl

theorem concatRes_map {α β γ : Type} (f : β → Res (List γ)) (g : α → β) (xs : List α) :
    concatRes f (xs.map g) = concatRes (fun x => f (g x)) xs := by
  induction xs with
  | nil => rfl
  | cons x xs ih => simp only [List.map_cons, concatRes, ih]

theorem concatRes_congr {α β : Type} (f g : α → Res (List β)) (xs : List α)
    (h : ∀ x ∈ xs, f x = g x) : concatRes f xs = concatRes g xs := by
  induction xs with
  | nil => rfl
  | cons x xs ih =>
    simp only [concatRes, h x (by simp), ih (fun y hy => h y (by simp [hy]))]

theorem getAccessGrant_ok (P : Proj) (n : String) (g : Grant) :
    getAccessGrant P n = .ok g ↔ Declares P n g := by
  unfold getAccessGrant Declares accessGrants
  have key := List.find?_eq_some_iff_append (p := fun g : Grant => decide (g.name = n))
    (xs := P.models.flatMap (·.accessGrants)) (b := g)
  constructor
  · intro h
    split at h
    · rename_i g' hg
      cases h
      obtain ⟨h1, as, bs, h2, h3⟩ := key.mp hg
      exact ⟨as, bs, h2, by simpa using h1, fun x hx => by simpa using h3 x hx⟩
    · cases h
  · rintro ⟨as, bs, h1, h2, h3⟩
    rw [key.mpr ⟨by simpa using h2, as, bs, h1, fun x hx => by simpa using h3 x hx⟩]

theorem Declares_unique {P : Proj} {n : String} {g g' : Grant} (h : Declares P n g)
    (h' : Declares P n g') : g = g' := by
  have := (getAccessGrant_ok P n g).mpr h
  rw [(getAccessGrant_ok P n g').mpr h'] at this
  cases this; rfl

theorem getAccessGrant_error (P : Proj) (n : String) (e : Err)
    (h : getAccessGrant P n = .error e) : e = .query ∧ ¬ ∃ g, Declares P n g := by
  constructor
  · unfold getAccessGrant at h
    split at h
    · cases h
    · cases h; rfl
  · rintro ⟨g, hg⟩
    rw [(getAccessGrant_ok P n g).mpr hg] at h
    cases h

theorem User_get (u : User) (a v : String) : u.get a = some v ↔ HasAttr u a v := by
  unfold User.get HasAttr
  have key := fun x => List.find?_eq_some_iff_append
    (p := fun p : String × Option String => decide (p.1 = a)) (xs := u) (b := x)
  constructor
  · intro h
    split at h
    · rename_i b w hg
      obtain ⟨h1, as, bs, h2, h3⟩ := (key _).mp hg
      subst h
      simp only [decide_eq_true_eq] at h1
      subst h1
      exact ⟨as, bs, h2, fun x hx => by simpa using h3 x hx⟩
    · cases h
  · rintro ⟨as, bs, h1, h2⟩
    rw [(key (a, some v)).mpr ⟨by simp, as, bs, h1, fun x hx => by simpa using h2 x hx⟩]

theorem Passes_iff (u : User) (g : Grant) :
    Passes u g ↔ grantDecision u g = true := by
  unfold Passes grantDecision
  cases h : u.get g.userAttr with
  | none =>
    simp only [iff_true]
    intro v hv
    rw [(User_get u g.userAttr v).mpr hv] at h
    cases h
  | some v =>
    have hv := (User_get u g.userAttr v).mp h
    simp only [List.contains_iff_mem]
    constructor
    · intro hh; exact hh v hv
    · intro hh w hw
      rw [(User_get u g.userAttr w).mpr hw] at h
      cases h; exact hh

theorem decisions_spec (P : Proj) (u : User) (req : List String) :
    match decisions P u req with
    | .error e => e = .query ∧ ¬ AllDeclared P req
    | .ok ds => AllDeclared P req ∧
        (ds.all id = true ↔ ∀ n ∈ req, ∃ g, Declares P n g ∧ Passes u g) := by
  induction req with
  | nil => simp [decisions, AllDeclared]
  | cons n ns ih =>
    simp only [decisions]
    cases hg : getAccessGrant P n with
    | error e =>
      obtain ⟨h1, h2⟩ := getAccessGrant_error P n e hg
      exact ⟨h1, fun h => h2 (h n (by simp))⟩
    | ok g =>
      have hd := (getAccessGrant_ok P n g).mp hg
      cases hr : decisions P u ns with
      | error e =>
        rw [hr] at ih
        exact ⟨ih.1, fun h => ih.2 (fun m hm => h m (by simp [hm]))⟩
      | ok ds =>
        rw [hr] at ih
        refine ⟨?_, ?_⟩
        · intro m hm
          simp only [List.mem_cons] at hm
          rcases hm with rfl | hm
          · exact ⟨g, hd⟩
          · exact ih.1 m hm
        · simp only [List.all_cons, id_eq, Bool.and_eq_true, List.mem_cons, forall_eq_or_imp]
          rw [ih.2, ← Passes_iff]
          constructor
          · rintro ⟨a, b⟩; exact ⟨⟨g, hd, a⟩, b⟩
          · rintro ⟨⟨g', hd', a⟩, b⟩
            rw [Declares_unique hd hd']
            exact ⟨a, b⟩

theorem canAccess_cases (P : Proj) (req : List String) :
    (canAccess P req = .ok true ∧ Visible P req) ∨
    (canAccess P req = .ok false ∧ Denied P req) ∨
    (canAccess P req = .error .query ∧ P.user.isSome ∧ ¬ AllDeclared P req) := by
  unfold canAccess
  cases hu : P.user with
  | none => left; simp [Visible, hu]
  | some u =>
    have hs := decisions_spec P u req
    by_cases hreq : req.isEmpty
    · have hr : req = [] := by simpa using hreq
      subst hr
      left; simp [Visible]
    · simp only [hreq, Bool.false_eq_true, if_false]
      cases hd : decisions P u req with
      | error e =>
        rw [hd] at hs
        obtain ⟨rfl, h2⟩ := hs
        right; right
        exact ⟨rfl, by simp, h2⟩
      | ok ds =>
        rw [hd] at hs
        cases ha : ds.all id with
        | true =>
          left
          refine ⟨by simp only [ha], ?_⟩
          intro u' hu'
          rw [hu] at hu'; cases hu'
          exact hs.2.mp ha
        | false =>
          right; left
          refine ⟨by simp only [ha], hs.1, u, hu, ?_⟩
          have hn := mt hs.2.mpr (by simp [ha])
          simp only [Classical.not_forall] at hn
          obtain ⟨n, hn, hx⟩ := hn
          obtain ⟨g, hg⟩ := hs.1 n hn
          exact ⟨n, hn, g, hg, fun hp => hx ⟨g, hg, hp⟩⟩

theorem not_visible_and_denied {P : Proj} {req : List String} (hv : Visible P req)
    (hd : Denied P req) : False := by
  obtain ⟨-, u, hu, n, hn, g, hg, hp⟩ := hd
  obtain ⟨g', hg', hp'⟩ := hv u hu n hn
  exact hp (Declares_unique hg hg' ▸ hp')

/-- The model's decision as a Boolean, for use in lemmas. -/
def visB (P : Proj) (req : List String) : Bool :=
  match canAccess P req with
  | .ok true => true
  | _ => false

theorem visB_true (P : Proj) (req : List String) : visB P req = true ↔ canAccess P req = .ok true := by
  unfold visB; split <;> simp_all

theorem canAccess_true_iff (P : Proj) (req : List String) :
    canAccess P req = .ok true ↔ Visible P req := by
  rcases canAccess_cases P req with ⟨h, h'⟩ | ⟨h, h'⟩ | ⟨h, h', h''⟩
  · simp [h, h']
  · rw [h]; simp only [Except.ok.injEq, Bool.false_eq_true, false_iff]
    exact fun hv => not_visible_and_denied hv h'
  · rw [h]; simp only [reduceCtorEq, false_iff]
    intro hv
    obtain ⟨u, hu⟩ := Option.isSome_iff_exists.mp h'
    exact h'' (fun n hn => let ⟨g, hg, _⟩ := hv u hu n hn; ⟨g, hg⟩)

theorem canAccess_false_iff (P : Proj) (req : List String) :
    canAccess P req = .ok false ↔ Denied P req := by
  rcases canAccess_cases P req with ⟨h, h'⟩ | ⟨h, h'⟩ | ⟨h, h', h''⟩
  · rw [h]; simp only [Except.ok.injEq, Bool.true_eq_false, false_iff]
    exact fun hd => not_visible_and_denied h' hd
  · simp [h, h']
  · rw [h]; simp only [reduceCtorEq, false_iff]
    exact fun hd => h'' hd.1

theorem canAccess_declared (P : Proj) (req : List String) (h : AllDeclared P req) :
    canAccess P req = .ok (visB P req) := by
  rcases canAccess_cases P req with ⟨h1, _⟩ | ⟨h1, _⟩ | ⟨_, _, h'⟩
  · simp [visB, h1]
  · simp [visB, h1]
  · exact absurd h h'

theorem canAccessField_ok_inv {P : Proj} {v : ViewDef} {f : FieldDef}
    (h : canAccessField P v f = .ok true) :
    canAccess P v.grants = .ok true ∧ canAccess P f.grants = .ok true := by
  unfold canAccessField at h
  split at h
  · cases h
  · rename_i cv hv
    split at h
    · cases h
    · rename_i cf hf
      simp only [Except.ok.injEq, Bool.and_eq_true] at h
      rw [hv, hf, h.1, h.2]
      exact ⟨rfl, rfl⟩

theorem allViews_ok_inv {P : Proj} {sh : Bool} {vs : List ViewDef} (h : allViews P sh = .ok vs) :
    ∀ v, v ∈ vs ↔ ∃ v0 ∈ P.views, v = v0.init ∧ canAccess P v0.grants = .ok true ∧
      (sh = true ∨ v0.hidden = false) := by
  intro v
  have := (filterRes_ok_inv _ _ _ h).2 v
  rw [this]
  simp only [List.mem_map]
  constructor
  · rintro ⟨⟨v0, hv0, rfl⟩, h2⟩
    refine ⟨v0, hv0, rfl, ?_⟩
    have e1 : v0.init.grants = v0.grants := rfl
    have e2 : v0.init.hidden = v0.hidden := rfl
    rw [e1, e2] at h2
    split at h2
    · cases h2
    · rename_i a ha
      simp only [Except.ok.injEq, Bool.and_eq_true, Bool.or_eq_true, beq_iff_eq] at h2
      rw [ha, h2.1]
      exact ⟨rfl, h2.2⟩
  · rintro ⟨v0, hv0, rfl, h1, h2⟩
    refine ⟨⟨v0, hv0, rfl⟩, ?_⟩
    have e1 : v0.init.grants = v0.grants := rfl
    have e2 : v0.init.hidden = v0.hidden := rfl
    rw [e1, e2, h1]
    simpa using h2

theorem getView_ok_inv {P : Proj} {n : String} {v : ViewDef} (h : getView P n = .ok v) :
    v.name = n ∧ ∃ v0 ∈ P.views, v = v0.init ∧ canAccess P v0.grants = .ok true := by
  unfold getView at h
  split at h
  · cases h
  · rename_i vs hvs
    split at h
    · rename_i v' hf
      cases h
      obtain ⟨v0, h0, h1, h2, -⟩ := (allViews_ok_inv hvs v).mp (List.mem_of_find?_eq_some hf)
      exact ⟨by simpa using List.find?_some hf, v0, h0, h1, h2⟩
    · cases h

theorem viewFields_ok_inv {P : Proj} {v : ViewDef} {sh ex : Bool} {fs : List Field}
    (h : viewFields P v sh ex = .ok fs) :
    ∀ f ∈ fs, ∃ d ∈ v.fields, canAccess P v.grants = .ok true ∧ canAccess P d.grants = .ok true ∧
      f ∈ expandField v ex d := by
  unfold viewFields at h
  split at h
  · cases h
  · rename_i l hl
    simp only [Except.ok.injEq] at h
    have hmem : ∀ f ∈ l, ∃ d ∈ v.fields, canAccess P v.grants = .ok true ∧
        canAccess P d.grants = .ok true ∧ f ∈ expandField v ex d := by
      intro f hf
      obtain ⟨d, hd, l', h1, h2⟩ := concatRes_ok_inv _ _ _ hl f hf
      split at h1
      · cases h1
      · rename_i b hb
        cases b
        · simp at h1; subst h1; cases h2
        · simp at h1; subst h1
          obtain ⟨a, b⟩ := canAccessField_ok_inv hb
          exact ⟨d, hd, a, b, h2⟩
    intro f hf
    subst h
    split at hf
    · exact hmem f hf
    · exact hmem f (List.mem_filter.mp hf).1

theorem projFields_ok_inv {P : Proj} {vn : Option String} {sh ex : Bool} {fs : List Field}
    (h : projFields P vn sh ex = .ok fs) :
    ∀ f ∈ fs, ∃ v ∈ P.views, Visible P v.grants ∧ ∃ d ∈ v.fields, Visible P d.grants ∧
      f ∈ expandField v.init ex d := by
  intro f hf
  unfold projFields at h
  cases vn with
  | none =>
    simp only at h
    split at h
    · cases h
    · rename_i vs hvs
      obtain ⟨v, hv, l, hl, hfl⟩ := concatRes_ok_inv _ _ _ h f hf
      obtain ⟨v0, h0, rfl, h2, -⟩ := (allViews_ok_inv hvs v).mp hv
      obtain ⟨d, hd, -, h4, h5⟩ := viewFields_ok_inv hl f hfl
      exact ⟨v0, h0, (canAccess_true_iff _ _).mp h2, d, hd, (canAccess_true_iff _ _).mp h4, h5⟩
  | some n =>
    simp only at h
    split at h
    · cases h
    · rename_i v hv
      obtain ⟨-, v0, h0, rfl, h2⟩ := getView_ok_inv hv
      obtain ⟨d, hd, -, h4, h5⟩ := viewFields_ok_inv h f hf
      exact ⟨v0, h0, (canAccess_true_iff _ _).mp h2, d, hd, (canAccess_true_iff _ _).mp h4, h5⟩

theorem expandField_iff (v : ViewDef) (d : FieldDef) (f : Field) :
    f ∈ expandField v.init true d ↔ Expansion v d f := by
  unfold expandField Expansion
  by_cases hg : d.fieldType = .dimensionGroup
  · simp only [hg, beq_self_eq_true, Bool.and_self, if_true, ne_eq, not_true, false_and, false_or,
      true_and]
    by_cases ht : d.timeframes = []
    · simp only [ht, List.isEmpty_nil, Bool.not_true, Bool.false_eq_true, if_false, List.not_mem_nil,
        false_and, exists_false, false_or, true_and]
      by_cases hi : d.intervals = []
      · simp [hi]
      · have : (!d.intervals.isEmpty) = true := by simp [hi]
        simp only [this, if_true, List.mem_map]
        constructor
        · rintro ⟨i, hi, rfl⟩
          exact ⟨rfl, rfl, hg, rfl, rfl, rfl, i, hi, rfl, rfl⟩
        · rintro ⟨h1, h2, h3, h4, h5, h6, i, hi, h7, h8⟩
          refine ⟨i, hi, ?_⟩
          cases f
          simp only [mkField, ViewDef.init] at *
          simp_all
    · have hne : (!d.timeframes.isEmpty) = true := by simp [ht]
      simp only [hne, if_true, List.mem_map, ht, false_and, or_false]
      constructor
      · rintro ⟨t, ht, rfl⟩
        refine ⟨rfl, rfl, hg, rfl, rfl, rfl, t, ht, rfl, ?_⟩
        simp only [mkField]
        by_cases hr : t = "raw" <;> simp [hr]
      · rintro ⟨h1, h2, h3, h4, h5, h6, t, htm, h7, h8⟩
        refine ⟨t, htm, ?_⟩
        cases f
        simp only [mkField, ViewDef.init] at *
        by_cases hr : t = "raw" <;> simp_all
  · have hb : (d.fieldType == FieldType.dimensionGroup) = false := by simpa using hg
    simp only [hb, Bool.and_false, Bool.false_eq_true, if_false, List.mem_singleton, hg, ne_eq,
      not_false_eq_true, true_and, false_and, or_false]
    constructor
    · rintro rfl
      exact ⟨rfl, rfl, rfl, rfl, rfl, rfl, rfl, rfl⟩
    · rintro ⟨h1, h2, h3, h4, h5, h6, h7, h8⟩
      cases f
      simp only [mkField, ViewDef.init] at *
      simp_all

theorem Expansion_dimGroup {v : ViewDef} {d : FieldDef} {f : Field} (h : Expansion v d f) :
    f.fieldType = .dimensionGroup → f.dimGroup.isSome := by
  obtain ⟨-, -, h3, -, -, -, h⟩ := h
  intro hg
  rw [h3] at hg
  rcases h with ⟨h, -⟩ | ⟨-, t, -, h, -⟩ | ⟨-, -, t, -, h, -⟩
  · exact absurd hg h
  · simp [h]
  · simp [h]

theorem FieldCalled_iff {f : Field} (hg : f.fieldType = .dimensionGroup → f.dimGroup.isSome)
    (n : String) : FieldCalled f n ↔ f.alias = n := by
  unfold FieldCalled Field.alias
  by_cases hf : f.fieldType = .dimensionGroup
  · obtain ⟨t, ht⟩ := Option.isSome_iff_exists.mp (hg hf)
    simp only [hf, ht, true_and, not_true, ne_eq, false_or, Option.getD_some]
    by_cases h1 : f.typ = "time"
    · simp only [h1, true_and, if_true, not_true, false_and, or_false]
      constructor
      · rintro (⟨t', h, rfl⟩ | ⟨h, -⟩)
        · cases h; rfl
        · simp at h
      · intro h; exact .inl ⟨t, rfl, h.symm⟩
    · by_cases h2 : f.typ = "duration"
      · simp only [h2, true_and, if_true, not_true, and_false, false_and, or_false]
        rw [if_neg (by simp)]
        constructor
        · rintro (⟨h, -⟩ | ⟨t', h, rfl⟩)
          · simp at h
          · cases h; rfl
        · intro h; exact .inr ⟨t, rfl, h.symm⟩
      · simp [h1, h2, eq_comm]
  · simp only [hf, false_and, false_or, ne_eq, not_false_eq_true, true_or, true_and]
    exact eq_comm

theorem toLower_dot (c : Char) (h : c.toLower = '.') : c = '.' := by
  unfold Char.toLower at h
  split at h
  · rename_i hc
    have h2 := congrArg (fun c => c.val.toNat) h
    obtain ⟨a, b⟩ := hc
    rw [ge_iff_le, UInt32.le_iff_toNat_le] at a
    rw [UInt32.le_iff_toNat_le] at b
    simp [UInt32.toNat_add] at h2 a b
    omega
  · exact h

theorem lower_dotFree {s : String} (h : '.' ∉ s.toList) : '.' ∉ (lower s).toList := by
  unfold lower
  simp only [String.toList_ofList, List.mem_map, not_exists, not_and]
  intro c hc he
  exact h (toLower_dot c he ▸ hc)

theorem fieldNameParts_dotFree {s : String} (h : '.' ∉ s.toList) :
    fieldNameParts s = (none, none, s) := by
  have : s.toList.count '.' = 0 := List.count_eq_zero.mpr h
  unfold fieldNameParts
  rw [if_neg (by omega), if_neg (by omega)]

theorem equal_dotFree {s : String} (h : '.' ∉ s.toList) (f : Field) :
    f.equal s = (f.alias == s) := by
  unfold Field.equal
  rw [fieldNameParts_dotFree h]

theorem canAccessField_wf {P : Proj} {v : ViewDef} {f : FieldDef} (hv : AllDeclared P v.grants)
    (hf : AllDeclared P f.grants) :
    canAccessField P v f = .ok (visB P f.grants && visB P v.grants) := by
  unfold canAccessField
  rw [canAccess_declared P _ hv, canAccess_declared P _ hf]

/-- On a well-formed project a view's fields are a plain list comprehension. -/
theorem viewFields_wf {P : Proj} {v : ViewDef} (hv : AllDeclared P v.grants)
    (hf : ∀ f ∈ v.fields, AllDeclared P f.grants) (ex : Bool) :
    viewFields P v true ex = .ok (v.fields.flatMap
      (fun f => if visB P f.grants && visB P v.grants then expandField v ex f else [])) := by
  unfold viewFields viewAllFields
  rw [concatRes_of_ok _ (fun f => if visB P f.grants && visB P v.grants then expandField v ex f
    else [])]
  · simp
  · intro f hf'
    simp only [canAccessField_wf hv (hf f hf')]

theorem allViews_wf {P : Proj} (h : ∀ v ∈ P.views, AllDeclared P v.grants) :
    allViews P true = .ok ((P.views.filter (fun v => visB P v.grants)).map ViewDef.init) := by
  unfold allViews
  rw [filterRes_of_ok _ (fun v => visB P v.grants)]
  · rw [List.filter_map]; rfl
  · intro v hv
    obtain ⟨v0, h0, rfl⟩ := List.mem_map.mp hv
    have e : v0.init.grants = v0.grants := rfl
    simp [e, canAccess_declared P _ (h v0 h0)]

theorem projFields_wf {P : Proj} (h : WellFormed P) (ex : Bool) :
    projFields P none true ex = .ok ((P.views.filter (fun v => visB P v.grants)).flatMap (fun v =>
      v.fields.flatMap (fun f => if visB P f.grants then expandField v.init ex f else []))) := by
  unfold projFields
  simp only [allViews_wf (fun v hv => (h.1 v hv).1)]
  rw [concatRes_map, concatRes_of_ok _ (fun v =>
      v.fields.flatMap (fun f => if visB P f.grants then expandField v.init ex f else []))]
  intro v hv
  obtain ⟨h1, h2⟩ := List.mem_filter.mp hv
  have e1 : v.init.grants = v.grants := rfl
  have e2 : v.init.fields = v.fields := rfl
  rw [viewFields_wf (by rw [e1]; exact (h.1 v h1).1) (by rw [e2]; exact (h.1 v h1).2), e1, e2, h2]
  simp

theorem projFields_wf_mem {P : Proj} (h : WellFormed P) :
    ∃ L, projFields P none true true = .ok L ∧ ∀ f, f ∈ L ↔ VisibleField P f := by
  refine ⟨_, projFields_wf h true, ?_⟩
  intro f
  simp only [List.mem_flatMap, List.mem_filter, visB_true, canAccess_true_iff]
  unfold VisibleField
  constructor
  · rintro ⟨v, ⟨hv, hvv⟩, d, hd, hm⟩
    split at hm
    · rename_i hvd
      refine ⟨v, hv, hvv, d, hd, ?_, (expandField_iff _ _ _).mp hm⟩
      exact (canAccess_true_iff _ _).mp ((visB_true _ _).mp hvd)
    · cases hm
  · rintro ⟨v, hv, hvv, d, hd, hvd, hm⟩
    refine ⟨v, ⟨hv, hvv⟩, d, hd, ?_⟩
    rw [if_pos ((visB_true _ _).mpr ((canAccess_true_iff _ _).mpr hvd))]
    exact (expandField_iff _ _ _).mpr hm

/-- What the handler answers, as a property of the list of matches. -/
theorem handler_ok_inv {P : Proj} {m : List Field} {n : String} {v : Option String} {f : Field}
    (h : matchingFieldHandler P m n v = .ok f) :
    m = [f] ∨ (m = [] ∧ n = "count" ∧ ∃ w vd, v = some w ∧ w ≠ "" ∧ getView P w = .ok vd ∧
      f = countField vd) := by
  unfold matchingFieldHandler at h
  split at h
  · cases h; exact .inl rfl
  · cases h
  · right
    split at h
    · rename_i w
      split at h
      · rename_i hc
        split at h
        · cases h
        · rename_i vd hvd
          cases h
          exact ⟨rfl, hc.1, w, vd, rfl, hc.2, hvd, rfl⟩
      · cases h
    · cases h

end ML
