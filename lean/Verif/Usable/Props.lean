import Verif.Usable.Lemmas
import Verif.Design.Props
/-
C58: the join graphs of a field, and what they say about queries.
-/
set_option autoImplicit false
namespace ML
open Spec

/-- C58 (a): the views reported for a field are exactly those its SQL reads once every reference is written out, each once. -/
theorem C58_required (get : UGet) (n : ℕ) (f : UField) (ws : List String) (h : requiredViews get n f = .ok ws) :
    ws.Nodup ∧ ∀ w, w ∈ ws ↔ Needs get f w :=
  requiredViews_spec h

/-- The join graphs of an ordinary field. -/
theorem joinGraphs_ordinary {get : UGet} {weak : String → List String} {merged : UField → List String} {n : ℕ} {f : UField}
    {gs : List String} (h : joinGraphs get weak merged n f = .ok gs) (hm : losesJoins get weak n f = .ok false) :
    ∃ refs b, fieldRefs get n f = .ok refs ∧ isCumulative get n f = .ok b ∧
      gs = baseGraphs weak (countedViews f refs) ++ (if b then [] else merged f) := by
  unfold joinGraphs at h
  cases hr : fieldRefs get n f with
  | error e => rw [hr] at h; cases h
  | ok refs =>
    rw [hr] at h; simp only at h
    cases hc : isCumulative get n f with
    | error e => rw [hc] at h; cases h
    | ok b =>
      rw [hc] at h
      cases b with
      | true => simp only at h; cases h; exact ⟨refs, true, rfl, rfl, by simp⟩
      | false => simp only [hm] at h; cases h; exact ⟨refs, false, rfl, rfl, rfl⟩

theorem countedViews_cons (f : UField) (r : Option (List URef)) : ∃ vs, countedViews f r = f.view :: vs := by
  cases r with
  | none => exact ⟨[], rfl⟩
  | some rs => exact ⟨_, rfl⟩

/-- C58: a field with SQL counts as cumulative exactly if it is of that type or its SQL mentions a cumulative metric, directly or through
fields of type number; a field without SQL exactly if it is of that type. -/
theorem C58_cumulative (get : UGet) (hget : ∀ v n g, get v n = .ok g → Formed g) (n : ℕ) (f : UField) (hf : Formed f) (b : Bool)
    (h : isCumulative get n f = .ok b) :
    (f.sql = none → (b = true ↔ f.type = "cumulative")) ∧
    (f.sql ≠ none → (b = true ↔ f.type = "cumulative" ∨ ∃ g, Mentions get f g ∧ g.type = "cumulative")) := by
  unfold isCumulative at h
  cases hs : f.sql with
  | none =>
    rw [hs] at h; simp only at h
    cases h
    exact ⟨fun _ => decide_eq_true_iff, fun c => absurd rfl c⟩
  | some s =>
    rw [hs] at h; simp only at h
    refine ⟨fun c => absurd c (by simp), fun _ => ?_⟩
    cases hr : sqlRefs get n f with
    | error e => rw [hr] at h; cases h
    | ok rs =>
      rw [hr] at h; simp only at h
      cases h
      rw [Bool.or_eq_true, decide_eq_true_iff]
      by_cases hc : f.type = "cumulative"
      · exact ⟨fun _ => .inl hc, fun _ => .inl hc⟩
      · refine or_congr_right ?_
        have hd : ¬ f.type = "duration" := fun e => by rw [hf.duration e] at hs; cases hs
        have e : fieldRefs get (n + 1) f = .ok (some rs) := by
          unfold sqlRefs at hr
          unfold fieldRefs
          rw [if_neg (by rw [hs]; simp [hf.plain s hs]), if_neg hc, if_neg (fun c => hd c.1), hr]
        obtain ⟨rs', e', hmem⟩ := fieldRefs_mentions hget hf hc e
        cases e'
        rw [List.any_eq_true]
        constructor
        · rintro ⟨r, hr, ht⟩
          cases r with
          | field g => exact ⟨g, (hmem g).mp hr, by simpa using ht⟩
          | _ => simp at ht
        · rintro ⟨g, hg, ht⟩
          exact ⟨.field g, (hmem g).mpr hg, by simpa using ht⟩

/-- C58 (b): the names of an ordinary field are those of the join graphs with a view that reaches the field's own view and the views
of all fields its SQL mentions, and those the graph of merged results gives it. -/
theorem C58_listed (get : UGet) (hget : ∀ v n g, get v n = .ok g → Formed g) (g : Graph) (hw : WF g)
    (comps : List (List String)) (hs : IsScc g comps) (merged : UField → List String) (n : ℕ) (f : UField) (hf : Formed f)
    (ht : f.type ≠ "cumulative") (hc : isCumulative get n f = .ok false)
    (hm : losesJoins get (weakHashes g comps) n f = .ok false) (gs : List String)
    (h : joinGraphs get (weakHashes g comps) merged n f = .ok gs) (x : String) :
    x ∈ gs ↔ ServedBy g comps x (CountedView get f) ∨ x ∈ merged f := by
  obtain ⟨refs, b, hr, hb, rfl⟩ := joinGraphs_ordinary h hm
  rw [hc] at hb; cases hb
  obtain ⟨rs, rfl, hmem⟩ := fieldRefs_mentions hget hf ht hr
  obtain ⟨vs, e⟩ := countedViews_cons f (some rs)
  rw [List.mem_append, e, served_iff hw hs, ← e]
  have : (fun w => w ∈ countedViews f (some rs)) = CountedView get f := by
    funext w
    rw [mem_countedViews]
    simp only [CountedView, hmem]
  rw [this]
  simp

/-- C58 (c): a join graph one of whose views reaches everything the field reads is never hidden, also for metrics built on
cumulative ones. -/
theorem C58_never_hidden (get : UGet) (hget : ∀ v n g, get v n = .ok g → Formed g) (g : Graph) (hw : WF g)
    (comps : List (List String)) (hs : IsScc g comps) (merged : UField → List String) (n : ℕ) (f : UField) (hf : Formed f)
    (ht : f.type ≠ "cumulative") (hm : losesJoins get (weakHashes g comps) n f = .ok false) (gs : List String)
    (h : joinGraphs get (weakHashes g comps) merged n f = .ok gs) (x : String)
    (hx : ServedBy g comps x (Needs get f)) : x ∈ gs := by
  obtain ⟨refs, b, hr, hb, rfl⟩ := joinGraphs_ordinary h hm
  obtain ⟨rs, rfl, hmem⟩ := fieldRefs_mentions hget hf ht hr
  obtain ⟨vs, e⟩ := countedViews_cons f (some rs)
  refine List.mem_append_left _ ?_
  rw [e, served_iff hw hs, ← e]
  obtain ⟨u, hu, hall⟩ := hx
  refine ⟨u, hu, fun w hw' => hall w ?_⟩
  rcases mem_countedViews.mp hw' with rfl | ⟨y, hy, rfl⟩
  · exact .own f
  · exact mentions_needs ((hmem y).mp hy)

/-- C58 (d), partial: when everything the field reads is its own view or that of a field it mentions, a listed join graph has a
view that reaches it all. Missing: fields that read a view only through a numeric dimension, or through a field that is itself built on
another view (`C58_numeric_missed`, `C58_nested_missed`). -/
theorem C58_usable_partial (get : UGet) (hget : ∀ v n g, get v n = .ok g → Formed g) (g : Graph) (hw : WF g)
    (comps : List (List String)) (hs : IsScc g comps) (merged : UField → List String) (n : ℕ) (f : UField) (hf : Formed f)
    (ht : f.type ≠ "cumulative") (hm : losesJoins get (weakHashes g comps) n f = .ok false) (gs : List String)
    (h : joinGraphs get (weakHashes g comps) merged n f = .ok gs) (hshallow : ∀ w, Needs get f w → CountedView get f w)
    (x : String) (hx : x ∈ gs) (hnm : x ∉ merged f) : ServedBy g comps x (Needs get f) := by
  obtain ⟨refs, b, hr, hb, rfl⟩ := joinGraphs_ordinary h hm
  obtain ⟨rs, rfl, hmem⟩ := fieldRefs_mentions hget hf ht hr
  obtain ⟨vs, e⟩ := countedViews_cons f (some rs)
  have hx : x ∈ baseGraphs (weakHashes g comps) (countedViews f (some rs)) := by
    rcases List.mem_append.mp hx with hx | hx
    · exact hx
    · cases b
      · exact absurd hx hnm
      · cases hx
  rw [e, served_iff hw hs, ← e] at hx
  obtain ⟨u, hu, hall⟩ := hx
  refine ⟨u, hu, fun w hw' => hall w (mem_countedViews.mpr ?_)⟩
  rcases hshallow w hw' with rfl | ⟨y, hy, rfl⟩
  · exact .inl rfl
  · exact .inr ⟨y, (hmem y).mpr hy, rfl⟩

/-- C58 (e): a metric and a field can be queried together whenever the field lists the join graph of the metric's view: the joins
between the two views are always found. -/
theorem C58_pair_query (nx : Nx) (hnx : NxSpec nx) (get : UGet) (hget : ∀ v n g, get v n = .ok g → Formed g) (g : Graph)
    (hwf : WF g) (hpos : PositiveWeights g) (hl : NoLoops g) (comps : List (List String)) (hs : IsScc g comps)
    (merged : UField → List String) (n : ℕ) (m f : UField) (hf : Formed f) (ht : f.type ≠ "cumulative")
    (hm : losesJoins get (weakHashes g comps) n f = .ok false) (gs : List String)
    (h : joinGraphs get (weakHashes g comps) merged n f = .ok gs) (x : String)
    (hmx : joinGraphHash comps m.view = .ok x) (hx : x ∈ gs) (hnm : x ∉ merged f) (hne : m.view ≠ f.view)
    (bridges : List String) : ∃ joins, designJoins nx g bridges [m.view, f.view] = .ok joins := by
  obtain ⟨refs, b, hr, hb, rfl⟩ := joinGraphs_ordinary h hm
  obtain ⟨rs, rfl, hmem⟩ := fieldRefs_mentions hget hf ht hr
  obtain ⟨vs, e⟩ := countedViews_cons f (some rs)
  have hx : x ∈ baseGraphs (weakHashes g comps) (countedViews f (some rs)) := by
    rcases List.mem_append.mp hx with hx | hx
    · exact hx
    · cases b
      · exact absurd hx hnm
      · cases hx
  rw [e, served_iff hwf hs, ← e] at hx
  obtain ⟨u, hu, hall⟩ := hx
  have hmu := ((C16_same_name_iff g comps hs m.view u x x hmx hu).mp rfl).1
  have hreach : Reach g m.view f.view := hmu.trans (hall f.view (mem_countedViews.mpr (.inl rfl)))
  have hmn : m.view ∈ g.nodes := hash_node hs hmx
  have hfn : f.view ∈ g.nodes := by
    generalize f.view = b at hreach hne
    cases hreach with
    | refl => exact absurd rfl hne
    | step _ he => exact hwf.dst _ _ he
  exact C18_two_views nx hnx g hwf hpos hl m.view f.view bridges hmn hfn hne (.inl hreach)

theorem graphsOfAll_mem {jg : UField → Res (List String)} : ∀ {fs : List UField} {l : List String},
    graphsOfAll jg fs = .ok l → ∀ x, x ∈ l ↔ ∃ f ∈ fs, ∃ a, jg f = .ok a ∧ x ∈ a
  | [], l, h, x => by cases h; simp
  | f :: fs, l, h, x => by
    unfold graphsOfAll at h
    cases hj : jg f with
    | error e => rw [hj] at h; cases h
    | ok a =>
      rw [hj] at h; simp only at h
      cases hg : graphsOfAll jg fs with
      | error e => rw [hg] at h; cases h
      | ok b =>
        rw [hg] at h; simp only at h
        cases h
        rw [List.mem_append, graphsOfAll_mem hg x]
        constructor
        · rintro (hx | ⟨f', hf', r⟩)
          · exact ⟨f, List.mem_cons_self, a, hj, hx⟩
          · exact ⟨f', List.mem_cons_of_mem _ hf', r⟩
        · rintro ⟨f', hf', a', ha', hx⟩
          rcases List.mem_cons.mp hf' with rfl | hf'
          · rw [hj] at ha'; cases ha'; exact .inl hx
          · exact .inr ⟨f', hf', a', ha', hx⟩

theorem keepWith_mem {jg : UField → Res (List String)} {options : List String} : ∀ {fs r : List UField},
    keepWith jg options fs = .ok r → r.Sublist fs ∧
      ∀ f, f ∈ r ↔ f ∈ fs ∧ ∃ a, jg f = .ok a ∧ ∃ x ∈ a, x ∈ options
  | [], r, h => by cases h; simp
  | f :: fs, r, h => by
    unfold keepWith at h
    cases hj : jg f with
    | error e => rw [hj] at h; cases h
    | ok a =>
      rw [hj] at h; simp only at h
      cases hk : keepWith jg options fs with
      | error e => rw [hk] at h; cases h
      | ok t =>
        rw [hk] at h; simp only at h
        obtain ⟨hsub, hmem⟩ := keepWith_mem hk
        have hany : (a.any (options.contains ·) = true) ↔ ∃ x ∈ a, x ∈ options := by
          simp [List.any_eq_true]
        by_cases hc : a.any (options.contains ·) = true
        · rw [if_pos hc] at h
          cases h
          refine ⟨hsub.cons_cons f, fun y => ?_⟩
          rw [List.mem_cons, List.mem_cons, hmem y]
          constructor
          · rintro (rfl | ⟨h1, h2⟩)
            · exact ⟨.inl rfl, a, hj, hany.mp hc⟩
            · exact ⟨.inr h1, h2⟩
          · rintro ⟨rfl | h1, h2⟩
            · exact .inl rfl
            · exact .inr ⟨h1, h2⟩
        · rw [if_neg hc] at h
          cases h
          refine ⟨hsub.cons f, fun y => ?_⟩
          rw [List.mem_cons, hmem y]
          constructor
          · rintro ⟨h1, h2⟩; exact ⟨.inr h1, h2⟩
          · rintro ⟨rfl | h1, a', ha', hx⟩
            · rw [hj] at ha'; cases ha'; exact absurd (hany.mpr hx) hc
            · exact ⟨h1, a', ha', hx⟩

/-- C58 (f): the fields offered next to some fields are, in the order of the project, exactly those that share a join graph with at
least one of them. -/
theorem C58_joinable (jg : UField → Res (List String)) (all asked r : List UField) (h : joinableFields jg all asked = .ok r) :
    r.Sublist all ∧ ∀ f, f ∈ r ↔ f ∈ all ∧ ∃ q ∈ asked, ∃ a b, jg f = .ok a ∧ jg q = .ok b ∧ ∃ x ∈ a, x ∈ b := by
  unfold joinableFields at h
  cases ho : graphsOfAll jg asked with
  | error e => rw [ho] at h; cases h
  | ok options =>
    rw [ho] at h; simp only at h
    obtain ⟨hsub, hmem⟩ := keepWith_mem h
    refine ⟨hsub, fun f => ?_⟩
    rw [hmem f]
    refine and_congr_right (fun _ => ?_)
    constructor
    · rintro ⟨a, ha, x, hx, hxo⟩
      obtain ⟨q, hq, b, hb, hxb⟩ := (graphsOfAll_mem ho x).mp hxo
      exact ⟨q, hq, a, b, ha, hb, x, hx, hxb⟩
    · rintro ⟨q, hq, a, b, ha, hb, x, hx, hxb⟩
      exact ⟨a, ha, x, hx, (graphsOfAll_mem ho x).mpr ⟨q, hq, b, hb, hxb⟩⟩

end ML
