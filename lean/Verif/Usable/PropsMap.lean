import Verif.Usable.PropsMerge
import Verif.Usable.Props
import Verif.Names.Lemmas
/-
C59: the alternatives that mappings give to a field, and metrics that can only be shown in merged results.
-/
set_option autoImplicit false
namespace ML
open Spec

/-- The dictionary gives `t`, of the join graph `h`, as an alternative to `f`. -/
def Spec.Offers (d : List (String × MEntry)) (f t h : String) : Prop := ∃ e, (f, e) ∈ d ∧ ⟨t, h⟩ ∈ e.refs

/-- Every entry records the kind and the join graph of its field. -/
def Spec.EntriesTrue (get : String → Res MField) (dimensionsOnly : Bool) (d : List (String × MEntry)) : Prop :=
  ∀ k e, (k, e) ∈ d → ∃ x, get k = .ok x ∧ e.role = x.role ∧ x.graph = .ok e.graph ∧ (dimensionsOnly = true → x.role ≠ .measure)

theorem mapRefs_mem {get : String → Res MField} {f : String} {role : FRole} :
    ∀ {ts : List String} {rs : List MRef}, mapRefs get f role ts = .ok rs → ∀ t h, (⟨t, h⟩ : MRef) ∈ rs ↔
      t ∈ ts ∧ t ≠ f ∧ ∃ y, get t = .ok y ∧ y.graph = .ok h ∧ y.role = role
  | [], rs, hr, t, h => by cases hr; simp
  | a :: ts, rs, hr, t, h => by
    unfold mapRefs at hr
    by_cases ha : a = f
    · rw [if_pos ha] at hr
      rw [mapRefs_mem hr t h, List.mem_cons]
      constructor
      · rintro ⟨h1, h2⟩; exact ⟨.inr h1, h2⟩
      · rintro ⟨rfl | h1, h2, h3⟩
        · exact absurd ha h2
        · exact ⟨h1, h2, h3⟩
    · rw [if_neg ha] at hr
      cases hg : get a with
      | error e =>
        rw [hg] at hr
        have : mapRefs get f role ts = .ok rs := by cases e <;> simp at hr; exact hr
        rw [mapRefs_mem this t h, List.mem_cons]
        constructor
        · rintro ⟨h1, h2⟩; exact ⟨.inr h1, h2⟩
        · rintro ⟨rfl | h1, h2, h3⟩
          · obtain ⟨y, hy, -⟩ := h3; rw [hg] at hy; cases hy
          · exact ⟨h1, h2, h3⟩
      | ok g =>
        rw [hg] at hr; simp only at hr
        cases hgr : g.graph with
        | error e => rw [hgr] at hr; cases hr
        | ok x =>
          rw [hgr] at hr; simp only at hr
          by_cases hro : g.role ≠ role
          · rw [if_pos hro] at hr; cases hr
          · rw [if_neg hro] at hr
            cases hl : mapRefs get f role ts with
            | error e => rw [hl] at hr; cases hr
            | ok us =>
              rw [hl] at hr; simp only at hr
              cases hr
              rw [List.mem_cons, List.mem_cons, mapRefs_mem hl t h]
              constructor
              · rintro (he | ⟨h1, h2⟩)
                · cases he; exact ⟨.inl rfl, ha, g, hg, hgr, not_not.mp hro⟩
                · exact ⟨.inr h1, h2⟩
              · rintro ⟨rfl | h1, h2, y, hy, hyg, hyr⟩
                · rw [hg] at hy; cases hy; rw [hgr] at hyg; cases hyg; exact .inl rfl
                · exact .inr ⟨h1, h2, y, hy, hyg, hyr⟩

/-- After success every accessible other field of the mapping has the same kind and a join graph. -/
theorem mapRefs_all {get : String → Res MField} {f : String} {role : FRole} :
    ∀ {ts : List String} {rs : List MRef}, mapRefs get f role ts = .ok rs → ∀ t ∈ ts, t ≠ f → ∀ y, get t = .ok y →
      y.role = role ∧ ∃ h, y.graph = .ok h
  | [], rs, hr, t, ht => by cases ht
  | a :: ts, rs, hr, t, ht => by
    intro hne y hy
    unfold mapRefs at hr
    by_cases ha : a = f
    · rw [if_pos ha] at hr
      rcases List.mem_cons.mp ht with rfl | ht
      · exact absurd ha hne
      · exact mapRefs_all hr t ht hne y hy
    · rw [if_neg ha] at hr
      cases hg : get a with
      | error e =>
        rw [hg] at hr
        have : mapRefs get f role ts = .ok rs := by cases e <;> simp at hr; exact hr
        rcases List.mem_cons.mp ht with rfl | ht
        · rw [hg] at hy; cases hy
        · exact mapRefs_all this t ht hne y hy
      | ok g =>
        rw [hg] at hr; simp only at hr
        cases hgr : g.graph with
        | error e => rw [hgr] at hr; cases hr
        | ok x =>
          rw [hgr] at hr; simp only at hr
          by_cases hro : g.role ≠ role
          · rw [if_pos hro] at hr; cases hr
          · rw [if_neg hro] at hr
            cases hl : mapRefs get f role ts with
            | error e => rw [hl] at hr; cases hr
            | ok us =>
              rcases List.mem_cons.mp ht with rfl | ht
              · rw [hg] at hy; cases hy; exact ⟨not_not.mp hro, x, hgr⟩
              · exact mapRefs_all hl t ht hne y hy

theorem addEntry_offers (d : List (String × MEntry)) (f : String) (m : MEntry) (a t h : String) :
    Offers (addEntry d f m) a t h ↔ Offers d a t h ∨ (a = f ∧ ⟨t, h⟩ ∈ m.refs) := by
  by_cases hm : m.refs = []
  · have : addEntry d f m = d := by unfold addEntry; rw [if_pos hm]
    rw [this, hm]; simp
  · induction d with
    | nil =>
      have : addEntry [] f m = [(f, m)] := by unfold addEntry; rw [if_neg hm]
      rw [this]
      simp only [Offers, List.mem_singleton, Prod.mk.injEq, List.not_mem_nil, false_and, exists_false, false_or]
      constructor
      · rintro ⟨e, ⟨rfl, rfl⟩, h⟩; exact ⟨rfl, h⟩
      · rintro ⟨rfl, h⟩; exact ⟨m, ⟨rfl, rfl⟩, h⟩
    | cons p d ih =>
      obtain ⟨k, e⟩ := p
      by_cases hk : k = f
      · have : addEntry ((k, e) :: d) f m = (k, { e with refs := e.refs ++ m.refs }) :: d := by
          unfold addEntry; rw [if_neg hm]; simp only; rw [if_pos hk]
        rw [this]
        subst hk
        simp only [Offers, List.mem_cons, Prod.mk.injEq]
        constructor
        · rintro ⟨e', ⟨rfl, rfl⟩ | he', hr⟩
          · rcases List.mem_append.mp hr with hr | hr
            · exact .inl ⟨e, .inl ⟨rfl, rfl⟩, hr⟩
            · exact .inr ⟨rfl, hr⟩
          · exact .inl ⟨e', .inr he', hr⟩
        · rintro (⟨e', ⟨rfl, rfl⟩ | he', hr⟩ | ⟨rfl, hr⟩)
          · exact ⟨_, .inl ⟨rfl, rfl⟩, List.mem_append_left _ hr⟩
          · exact ⟨e', .inr he', hr⟩
          · exact ⟨_, .inl ⟨rfl, rfl⟩, List.mem_append_right _ hr⟩
      · have : addEntry ((k, e) :: d) f m = (k, e) :: addEntry d f m := by
          conv => lhs; unfold addEntry
          rw [if_neg hm]; simp only; rw [if_neg hk]
        rw [this]
        have c : ∀ d', Offers ((k, e) :: d') a t h ↔ (a = k ∧ ⟨t, h⟩ ∈ e.refs) ∨ Offers d' a t h := by
          intro d'
          simp only [Offers, List.mem_cons, Prod.mk.injEq]
          constructor
          · rintro ⟨e', ⟨rfl, rfl⟩ | he', hr⟩
            · exact .inl ⟨rfl, hr⟩
            · exact .inr ⟨e', he', hr⟩
          · rintro (⟨rfl, hr⟩ | ⟨e', he', hr⟩)
            · exact ⟨e, .inl ⟨rfl, rfl⟩, hr⟩
            · exact ⟨e', .inr he', hr⟩
        rw [c, c, ih, or_assoc]

theorem addEntry_true {get : String → Res MField} {o : Bool} {d : List (String × MEntry)} {f : String} {m : MEntry}
    (hd : EntriesTrue get o d) (x : MField) (hx : get f = .ok x) (hr : m.role = x.role) (hg : x.graph = .ok m.graph)
    (ho : o = true → x.role ≠ .measure) : EntriesTrue get o (addEntry d f m) := by
  by_cases hm : m.refs = []
  · have : addEntry d f m = d := by unfold addEntry; rw [if_pos hm]
    rw [this]; exact hd
  · induction d with
    | nil =>
      have : addEntry [] f m = [(f, m)] := by unfold addEntry; rw [if_neg hm]
      rw [this]
      intro k e he
      simp only [List.mem_singleton, Prod.mk.injEq] at he
      obtain ⟨rfl, rfl⟩ := he
      exact ⟨x, hx, hr, hg, ho⟩
    | cons p d ih =>
      obtain ⟨k, e⟩ := p
      have hhead := hd k e List.mem_cons_self
      have htail : EntriesTrue get o d := fun k' e' he' => hd k' e' (List.mem_cons_of_mem _ he')
      by_cases hk : k = f
      · have : addEntry ((k, e) :: d) f m = (k, { e with refs := e.refs ++ m.refs }) :: d := by
          unfold addEntry; rw [if_neg hm]; simp only; rw [if_pos hk]
        rw [this]
        intro k' e' he'
        rcases List.mem_cons.mp he' with he' | he'
        · cases he'; exact hhead
        · exact htail k' e' he'
      · have : addEntry ((k, e) :: d) f m = (k, e) :: addEntry d f m := by
          conv => lhs; unfold addEntry
          rw [if_neg hm]; simp only; rw [if_neg hk]
        rw [this]
        intro k' e' he'
        rcases List.mem_cons.mp he' with he' | he'
        · cases he'; exact hhead
        · exact ih htail k' e' he'

/-- What one mapping adds: alternatives within it, unless the field is a measure that is not wanted. -/
def Spec.Within (get : String → Res MField) (o : Bool) (from_ all : List String) (f t h : String) : Prop :=
  f ∈ from_ ∧ t ∈ all ∧ t ≠ f ∧ ∃ x y, get f = .ok x ∧ (o = true → x.role ≠ .measure) ∧ get t = .ok y ∧ y.graph = .ok h ∧
    y.role = x.role

theorem mapFields_spec {get : String → Res MField} {o s : Bool} {all : List String} :
    ∀ {fs : List String} {d d' : List (String × MEntry)}, mapFields get o s all d fs = .ok d' → EntriesTrue get o d →
      EntriesTrue get o d' ∧ (∀ f t h, Offers d' f t h ↔ Offers d f t h ∨ Within get o fs all f t h) ∧
      (∀ f ∈ fs, ∀ x, get f = .ok x → (o = true → x.role ≠ .measure) →
        (x.role = .group → s = true) ∧ ∀ t ∈ all, t ≠ f → ∀ y, get t = .ok y → y.role = x.role ∧ ∃ h, y.graph = .ok h)
  | [], d, d', h, hd => by cases h; exact ⟨hd, by simp [Within], by simp⟩
  | f :: fs, d, d', h, hd => by
    unfold mapFields at h
    have cons : ∀ a t z, Within get o (f :: fs) all a t z ↔ Within get o [f] all a t z ∨ Within get o fs all a t z := by
      intro a t z
      simp only [Within, List.mem_cons, List.not_mem_nil, or_false]
      constructor
      · rintro ⟨h1 | h1, h2⟩
        · exact .inl ⟨h1, h2⟩
        · exact .inr ⟨h1, h2⟩
      · rintro (⟨h1, h2⟩ | ⟨h1, h2⟩)
        · exact ⟨.inl h1, h2⟩
        · exact ⟨.inr h1, h2⟩
    cases hg : get f with
    | error e =>
      rw [hg] at h
      have : mapFields get o s all d fs = .ok d' := by cases e <;> simp at h; exact h
      obtain ⟨i1, i2, i3⟩ := mapFields_spec this hd
      refine ⟨i1, fun a t z => ?_, ?_⟩
      · rw [i2, cons]
        have : ¬ Within get o [f] all a t z := by
          rintro ⟨h1, -, -, x, y, hx, -⟩
          rw [List.mem_singleton] at h1
          subst h1
          rw [hg] at hx; cases hx
        simp [this]
      · intro a ha x hx
        rcases List.mem_cons.mp ha with rfl | ha
        · rw [hg] at hx; cases hx
        · exact i3 a ha x hx
    | ok g =>
      rw [hg] at h; simp only at h
      by_cases hmo : (o && decide (g.role = .measure)) = true
      · rw [if_pos hmo] at h
        have hmo' : o = true ∧ g.role = .measure := by simpa using hmo
        obtain ⟨i1, i2, i3⟩ := mapFields_spec h hd
        refine ⟨i1, fun a t z => ?_, ?_⟩
        · rw [i2, cons]
          have : ¬ Within get o [f] all a t z := by
            rintro ⟨h1, -, -, x, y, hx, hxm, -⟩
            rw [List.mem_singleton] at h1
            subst h1
            rw [hg] at hx; cases hx
            exact hxm hmo'.1 hmo'.2
          simp [this]
        · intro a ha x hx hxm
          rcases List.mem_cons.mp ha with rfl | ha
          · rw [hg] at hx; cases hx; exact absurd hmo'.2 (hxm hmo'.1)
          · exact i3 a ha x hx hxm
      · rw [if_neg hmo] at h
        have hmo' : o = true → g.role ≠ .measure := by
          intro ho hr
          exact hmo (by simp [ho, hr])
        cases hgr : g.graph with
        | error e => rw [hgr] at h; cases h
        | ok y =>
          rw [hgr] at h; simp only at h
          by_cases hsp : g.role = .group ∧ s = false
          · rw [if_pos hsp] at h; cases h
          · rw [if_neg hsp] at h
            cases hr : mapRefs get f g.role all with
            | error e => rw [hr] at h; cases h
            | ok rs =>
              rw [hr] at h; simp only at h
              obtain ⟨i1, i2, i3⟩ := mapFields_spec h (addEntry_true hd g hg rfl hgr hmo')
              refine ⟨i1, fun a t z => ?_, ?_⟩
              · rw [i2, cons, addEntry_offers, or_assoc]
                refine or_congr_right (or_congr_left ?_)
                simp only [Within, List.mem_singleton]
                constructor
                · rintro ⟨rfl, hm⟩
                  obtain ⟨h1, h2, y', hy, hyg, hyr⟩ := (mapRefs_mem hr t z).mp hm
                  exact ⟨rfl, h1, h2, g, y', hg, hmo', hy, hyg, hyr⟩
                · rintro ⟨rfl, h1, h2, x, y', hx, -, hy, hyg, hyr⟩
                  rw [hg] at hx; cases hx
                  exact ⟨rfl, (mapRefs_mem hr t z).mpr ⟨h1, h2, y', hy, hyg, hyr⟩⟩
              · intro a ha x hx hxm
                rcases List.mem_cons.mp ha with rfl | ha
                · rw [hg] at hx; cases hx
                  refine ⟨fun hgp => ?_, mapRefs_all hr⟩
                  cases s with
                  | true => rfl
                  | false => exact absurd ⟨hgp, rfl⟩ hsp
                · exact i3 a ha x hx hxm

/-- C59 (d): after the mappings are read, the alternatives of a field are exactly the other accessible fields listed with it in some
mapping, each with its join graph; every entry records its field's kind and join graph, and measures are left out when only
dimensions are asked for. -/
theorem C59_mappings (get : String → Res MField) (o : Bool) (maps : List (Bool × List String)) (d : List (String × MEntry))
    (h : getMappings get o [] maps = .ok d) :
    EntriesTrue get o d ∧
    (∀ f t z, Offers d f t z ↔ Alternative get maps f t ∧ (∃ y, get t = .ok y ∧ y.graph = .ok z) ∧
      ∀ x, get f = .ok x → o = true → x.role ≠ .measure) ∧
    -- fields mapped to each other are of one kind, and dimension groups occur in reserved mappings only
    ∀ f t x y, Alternative get maps f t → get f = .ok x → get t = .ok y → (o = true → x.role ≠ .measure) → x.role = y.role ∧
      ∀ m ∈ maps, f ∈ m.2 → x.role = .group → m.1 = true := by
  have gen : ∀ (maps : List (Bool × List String)) (d0 d : List (String × MEntry)), getMappings get o d0 maps = .ok d →
      EntriesTrue get o d0 → EntriesTrue get o d ∧
      (∀ f t z, Offers d f t z ↔ Offers d0 f t z ∨ ∃ m ∈ maps, Within get o m.2 m.2 f t z) ∧
      ∀ m ∈ maps, ∀ f ∈ m.2, ∀ x, get f = .ok x → (o = true → x.role ≠ .measure) →
        (x.role = .group → m.1 = true) ∧ ∀ t ∈ m.2, t ≠ f → ∀ y, get t = .ok y → y.role = x.role ∧ ∃ h, y.graph = .ok h := by
    intro maps
    induction maps with
    | nil => intro d0 d h hd; cases h; exact ⟨hd, by simp, by simp⟩
    | cons p rest ih =>
      intro d0 d h hd
      obtain ⟨s, fs⟩ := p
      unfold getMappings at h
      cases hf : mapFields get o s fs d0 fs with
      | error e => rw [hf] at h; cases h
      | ok d1 =>
        rw [hf] at h; simp only at h
        obtain ⟨a1, a2, a3⟩ := mapFields_spec hf hd
        obtain ⟨b1, b2, b3⟩ := ih d1 d h a1
        refine ⟨b1, fun f t z => ?_, ?_⟩
        · rw [b2, a2, or_assoc]
          refine or_congr_right ?_
          simp only [List.mem_cons, exists_eq_or_imp]
        · intro m hm
          rcases List.mem_cons.mp hm with rfl | hm
          · exact a3
          · exact b3 m hm
  obtain ⟨g1, g2, g3⟩ := gen maps [] d h (by intro k e he; cases he)
  refine ⟨g1, fun f t z => ?_, ?_⟩
  · rw [g2]
    have : ¬ Offers [] f t z := by rintro ⟨e, he, -⟩; cases he
    simp only [this, false_or]
    constructor
    · rintro ⟨m, hm, hf, ht, hne, x, y, hx, hxm, hy, hyg, -⟩
      exact ⟨⟨fun e => hne e.symm, m, hm, hf, ht, ⟨x, hx⟩, y, hy⟩, ⟨y, hy, hyg⟩, fun x' hx' => by
        rw [hx] at hx'; cases hx'; exact hxm⟩
    · rintro ⟨⟨hne, m, hm, hf, ht, ⟨x, hx⟩, y, hy⟩, ⟨y', hy', hyg⟩, hxm⟩
      rw [hy] at hy'; cases hy'
      have := (g3 m hm f hf x hx (hxm x hx)).2 t ht (fun e => hne e.symm) y hy
      exact ⟨m, hm, hf, ht, fun e => hne e.symm, x, y, hx, hxm x hx, hy, hyg, this.1⟩
  · rintro f t x y ⟨hne, m, hm, hf, ht, -, -⟩ hx hy hxm
    refine ⟨((g3 m hm f hf x hx hxm).2 t ht (fun e => hne e.symm) y hy).1.symm, ?_⟩
    intro m' hm' hf' hgp
    exact (g3 m' hm' f hf' x hx hxm).1 hgp

/-- C59 (e): the mappings used for merged results have no measures, so the first condition of the statements above is met. -/
theorem C59_no_measures (get : String → Res MField) (maps : List (Bool × List String)) (d : List (String × MEntry))
    (h : getMappings get true [] maps = .ok d) : ∀ e ∈ d, e.2.role ≠ .measure := by
  rintro ⟨k, e⟩ he
  obtain ⟨x, -, hr, -, hm⟩ := (C59_mappings get true maps d h).1 k e he
  simp only
  rw [hr]
  exact hm rfl

/-- A text of two parts around one dot. -/
theorem split_two {s : String} {v d : List Char} (h : splitChars '.' s.toList = [v, d]) :
    s = String.ofList v ++ "." ++ String.ofList d ∧ '.' ∉ (String.ofList v).toList ∧ '.' ∉ (String.ofList d).toList := by
  have h1 := splitChars_intercalate '.' s.toList
  have h2 := splitChars_parts_noSep '.' s.toList
  rw [h] at h1 h2
  refine ⟨?_, ?_, ?_⟩
  · apply String.toList_inj.mp
    rw [← h1]
    simp [String.toList_append, List.intercalate]
  · rw [String.toList_ofList]; exact h2 v (by simp)
  · rw [String.toList_ofList]; exact h2 d (by simp)

theorem dateGraphs_mem {weak : String → List String} : ∀ {rs : List URef} {l : List (List String)}, dateGraphs weak rs = .ok l →
    ∀ s, s ∈ l ↔ ∃ h v d, URef.field h ∈ rs ∧ h.role = .measure ∧ h.type ≠ "cumulative" ∧
      h.canonDate = some (v ++ "." ++ d) ∧ '.' ∉ v.toList ∧ '.' ∉ d.toList ∧ s = weak v
  | [], l, h, s => by cases h; simp
  | r :: rs, l, h, s => by
    have skip : ∀ (hno : ∀ x v d, URef.field x = r → ¬ (x.role = .measure ∧ x.type ≠ "cumulative" ∧
        x.canonDate = some (v ++ "." ++ d))) (hl : dateGraphs weak rs = .ok l),
        (s ∈ l ↔ ∃ h v d, URef.field h ∈ r :: rs ∧ h.role = .measure ∧ h.type ≠ "cumulative" ∧
          h.canonDate = some (v ++ "." ++ d) ∧ '.' ∉ v.toList ∧ '.' ∉ d.toList ∧ s = weak v) := by
      intro hno hl
      rw [dateGraphs_mem hl s]
      constructor
      · rintro ⟨x, v, d, hx, rest⟩; exact ⟨x, v, d, List.mem_cons_of_mem _ hx, rest⟩
      · rintro ⟨x, v, d, hx, h1, h2, h3, rest⟩
        rcases List.mem_cons.mp hx with hx | hx
        · exact absurd ⟨h1, h2, h3⟩ (hno x v d hx)
        · exact ⟨x, v, d, hx, h1, h2, h3, rest⟩
    cases r with
    | text t => exact skip (fun x v d hx => by cases hx) (by simpa [dateGraphs] using h)
    | nothing => exact skip (fun x v d hx => by cases hx) (by simpa [dateGraphs] using h)
    | field g =>
      unfold dateGraphs at h
      by_cases hg : g.role = .measure ∧ g.type ≠ "cumulative"
      · rw [if_pos hg] at h
        cases hc : g.canonDate with
        | none =>
          rw [hc] at h; simp only at h
          exact skip (fun x v d hx => by cases hx; rw [hc]; simp) h
        | some c =>
          rw [hc] at h; simp only at h
          match hs : splitChars '.' c.toList with
          | [] => rw [hs] at h; cases h
          | [_] => rw [hs] at h; cases h
          | _ :: _ :: _ :: _ => rw [hs] at h; cases h
          | [v, d] =>
            rw [hs] at h; simp only at h
            cases hl : dateGraphs weak rs with
            | error e => rw [hl] at h; cases h
            | ok l' =>
              rw [hl] at h; simp only at h
              cases h
              obtain ⟨hcc, hv, hd⟩ := split_two hs
              rw [List.mem_cons, dateGraphs_mem hl s]
              constructor
              · rintro (rfl | ⟨x, v, d, hx, rest⟩)
                · exact ⟨g, _, _, List.mem_cons_self, hg.1, hg.2, by rw [hc, hcc], hv, hd, rfl⟩
                · exact ⟨x, v, d, List.mem_cons_of_mem _ hx, rest⟩
              · rintro ⟨x, v', d', hx, h1, h2, h3, hv', hd', hsw⟩
                rcases List.mem_cons.mp hx with hx | hx
                · cases hx
                  left
                  rw [hc] at h3
                  have h3 : c = v' ++ "." ++ d' := by simpa using h3
                  have hsp : splitChars '.' c.toList = [v'.toList, d'.toList] := by
                    rw [h3, String.toList_append, String.toList_append, List.append_assoc]
                    have := splitChars_append '.' v'.toList d'.toList hv'
                    rw [splitChars_noSep '.' d'.toList hd'] at this
                    simpa using this
                  rw [hs] at hsp
                  injection hsp with e1 _
                  rw [hsw, e1, String.ofList_toList]
                · exact .inr ⟨x, v', d', hx, h1, h2, h3, hv', hd', hsw⟩
      · rw [if_neg hg] at h
        exact skip (fun x v d hx => by cases hx; rintro ⟨h1, h2, -⟩; exact hg ⟨h1, h2⟩) h

theorem sameSet_iff {s t : List String} : sameSet s t = true ↔ ∀ x, x ∈ s ↔ x ∈ t := by
  simp only [sameSet, Bool.and_eq_true, List.all_eq_true, List.contains_iff_mem]
  exact ⟨fun h x => ⟨h.1 x, h.2 x⟩, fun h => ⟨fun x => (h x).mp, fun x => (h x).mpr⟩⟩

/-- C59 (f): a metric computed from others is shown in merged results only, exactly when it says so or when the dates of two metrics it
mentions lie in views that can be used with different join graphs. -/
theorem C59_only_merged (get : UGet) (hget : ∀ v n g, get v n = .ok g → Formed g) (weak : String → List String)
    (merged : UField → List String) (n : ℕ) (f : UField) (hf : Formed f) (ht : f.type ≠ "cumulative") (gs : List String)
    (hc : isCumulative get n f = .ok false) (h : joinGraphs get weak merged n f = .ok gs) :
    ∃ b, losesJoins get weak n f = .ok b ∧
      (b = true → gs = merged f) ∧
      (b = false → ∃ base, gs = base ++ merged f ∧ ∀ x, x ∈ base ↔ ∀ w, CountedView get f w → x ∈ weak w) ∧
      (b = true ↔ f.mergedKey = some true ∨ (f.mergedKey = none ∧ f.type = "number" ∧ f.role = .measure ∧
        ∃ v w x, DatedIn get f v ∧ DatedIn get f w ∧ x ∈ weak v ∧ x ∉ weak w)) := by
  unfold joinGraphs at h
  cases hr : fieldRefs get n f with
  | error e => rw [hr] at h; cases h
  | ok refs =>
    rw [hr] at h; simp only at h
    rw [hc] at h; simp only at h
    obtain ⟨rs, rfl, hmen⟩ := fieldRefs_mentions hget hf ht hr
    cases hl : losesJoins get weak n f with
    | error e => rw [hl] at h; cases h
    | ok b =>
      rw [hl] at h
      refine ⟨b, rfl, ?_, ?_, ?_⟩
      · rintro rfl; simp only at h; cases h; rfl
      · rintro rfl; simp only at h; cases h
        refine ⟨_, rfl, fun x => ?_⟩
        obtain ⟨vs, hvs⟩ := countedViews_cons f (some rs)
        rw [hvs, mem_baseGraphs, ← hvs]
        constructor
        · intro hx w hw
          refine hx w (mem_countedViews.mpr ?_)
          rcases hw with hw | ⟨y, hy, hyw⟩
          · exact .inl hw
          · exact .inr ⟨y, (hmen y).mpr hy, hyw⟩
        · intro hx w hw
          refine hx w ?_
          rcases mem_countedViews.mp hw with hw | ⟨y, hy, hyw⟩
          · exact .inl hw
          · exact .inr ⟨y, (hmen y).mp hy, hyw⟩
      · unfold losesJoins at hl
        cases hk : f.mergedKey with
        | some k =>
          rw [hk] at hl; simp only at hl; cases hl
          simp
        | none =>
          rw [hk] at hl; simp only at hl
          by_cases hnm : f.type = "number" ∧ f.role = .measure
          · rw [if_pos hnm] at hl
            cases hq : sqlRefs get n f with
            | error e => rw [hq] at hl; cases hl
            | ok qs =>
              rw [hq] at hl; simp only at hl
              -- both ways of reading the references find the same fields
              have hmq : ∀ x, URef.field x ∈ qs ↔ Mentions get f x := by
                have hfr : fieldRefs get (n + 1) f = .ok (some qs) := by
                  unfold fieldRefs
                  have htm : (f.sql.map (·.template)).getD false = false := by
                    cases hs : f.sql with
                    | none => rfl
                    | some s => exact hf.plain s hs
                  rw [if_neg (by rw [htm]; exact Bool.false_ne_true), if_neg ht,
                    if_neg (by rw [hnm.1]; rintro ⟨c, -⟩; exact absurd c (by decide))]
                  have := hq
                  unfold sqlRefs at this
                  rw [this]
                obtain ⟨qs', e, hm⟩ := fieldRefs_mentions hget hf ht hfr
                cases e
                exact hm
              have hset : ∀ ls, dateGraphs weak qs = .ok ls → ∀ s, s ∈ ls ↔ ∃ v, DatedIn get f v ∧ s = weak v := by
                intro ls hls s
                rw [dateGraphs_mem hls s]
                constructor
                · rintro ⟨x, v, d, hx, h1, h2, h3, h4, h5, rfl⟩
                  exact ⟨v, ⟨x, (hmq x).mp hx, h1, h2, d, h3, h4, h5⟩, rfl⟩
                · rintro ⟨v, ⟨x, hx, h1, h2, d, h3, h4, h5⟩, rfl⟩
                  exact ⟨x, v, d, (hmq x).mpr hx, h1, h2, h3, h4, h5, rfl⟩
              have goal : ∀ ls, dateGraphs weak qs = .ok ls → (b = true ↔ ∃ s ∈ ls, ∃ t ∈ ls, ∃ x, x ∈ s ∧ x ∉ t) →
                  (b = true ↔ (none : Option Bool) = some true ∨ ((none : Option Bool) = none ∧ f.type = "number" ∧ f.role = .measure ∧
                    ∃ v w x, DatedIn get f v ∧ DatedIn get f w ∧ x ∈ weak v ∧ x ∉ weak w)) := by
                intro ls hls hb
                rw [hb]
                constructor
                · rintro ⟨s, hs, t, ht, x, h1, h2⟩
                  obtain ⟨v, hv, rfl⟩ := (hset ls hls s).mp hs
                  obtain ⟨w, hw, rfl⟩ := (hset ls hls t).mp ht
                  exact .inr ⟨rfl, hnm.1, hnm.2, v, w, x, hv, hw, h1, h2⟩
                · rintro (c | ⟨-, -, -, v, w, x, hv, hw, h1, h2⟩)
                  · cases c
                  · exact ⟨_, (hset ls hls _).mpr ⟨v, hv, rfl⟩, _, (hset ls hls _).mpr ⟨w, hw, rfl⟩, x, h1, h2⟩
              cases hls : dateGraphs weak qs with
              | error e => rw [hls] at hl; cases hl
              | ok ls =>
                apply goal ls hls
                rw [hls] at hl
                cases ls with
                | nil => simp only at hl; cases hl; simp
                | cons s ss =>
                  simp only at hl
                  injection hl with hl
                  rw [← hl, List.any_eq_true]
                  constructor
                  · rintro ⟨t, htm, hts⟩
                    rw [Bool.not_eq_true', ← Bool.not_eq_true, sameSet_iff] at hts
                    push Not at hts
                    obtain ⟨x, ⟨h1, h2⟩ | ⟨h1, h2⟩⟩ := hts
                    · exact ⟨t, htm, s, List.mem_cons_self, x, h1, h2⟩
                    · exact ⟨s, List.mem_cons_self, t, htm, x, h2, h1⟩
                  · rintro ⟨u, hu, t, htm, x, h1, h2⟩
                    by_cases hx : x ∈ s
                    · refine ⟨t, htm, ?_⟩
                      rw [Bool.not_eq_true', ← Bool.not_eq_true, sameSet_iff]
                      exact fun hall => h2 ((hall x).mpr hx)
                    · refine ⟨u, hu, ?_⟩
                      rw [Bool.not_eq_true', ← Bool.not_eq_true, sameSet_iff]
                      exact fun hall => hx ((hall x).mp h1)
          · rw [if_neg hnm] at hl; cases hl
            simp only [Bool.false_eq_true, reduceCtorEq, false_or, true_and, false_iff]
            rintro ⟨h1, h2, -⟩
            exact hnm ⟨h1, h2⟩

end ML
