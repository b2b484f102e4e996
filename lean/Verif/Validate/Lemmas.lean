import Verif.Validate.Spec
/-
Helper lemmas for C47.
-/
set_option autoImplicit false
namespace ML
open Spec

theorem modelErrors_ok {ms : List (Except String (List Report))}
    (h : ∀ m ∈ ms, ∃ es, m = .ok es) :
    ∃ out, modelErrors ms = .ok out ∧ ∀ r, r ∈ out ↔ ∃ es, .ok es ∈ ms ∧ r ∈ es := by
  induction ms with
  | nil => exact ⟨[], rfl, by simp⟩
  | cons m ms ih =>
    obtain ⟨es, rfl⟩ := h m (by simp)
    obtain ⟨out, h1, h2⟩ := ih (fun m hm => h m (by simp [hm]))
    refine ⟨es ++ out, by simp [modelErrors, h1], ?_⟩
    intro r
    simp only [List.mem_append, h2, List.mem_cons]
    constructor
    · rintro (hr | ⟨es', h1, h2⟩)
      · exact ⟨es, .inl rfl, hr⟩
      · exact ⟨es', .inr h1, h2⟩
    · rintro ⟨es', (h1 | h1), h2⟩
      · cases h1; exact .inl h2
      · exact .inr ⟨es', h1, h2⟩

theorem modelErrors_first (pre : List (List Report)) (e : String)
    (post : List (Except String (List Report))) :
    modelErrors (pre.map .ok ++ .error e :: post) = .error e := by
  induction pre with
  | nil => rfl
  | cons m pre ih => simp only [List.map_cons, List.cons_append, modelErrors, ih]

theorem modelErrors_err {ms : List (Except String (List Report))} {e : String}
    (h : modelErrors ms = .error e) : .error e ∈ ms := by
  induction ms with
  | nil => cases h
  | cons m ms ih =>
    cases m with
    | error e' => simp only [modelErrors] at h; cases h; simp
    | ok es =>
      simp only [modelErrors] at h
      cases hm : modelErrors ms with
      | error e' => rw [hm] at h; cases h; simp [ih hm]
      | ok out => rw [hm] at h; cases h

theorem mem_insertCommon (x y : String × Nat) (l : List (String × Nat)) :
    y ∈ insertCommon x l ↔ y = x ∨ y ∈ l := by
  induction l with
  | nil => simp [insertCommon]
  | cons z zs ih =>
    simp only [insertCommon]
    split
    · simp
    · simp only [List.mem_cons, ih]
      constructor
      · rintro (h | h | h) <;> simp [h]
      · rintro (h | h | h) <;> simp [h]

theorem mem_mostCommon (y : String × Nat) (l : List (String × Nat)) :
    y ∈ mostCommon l ↔ y ∈ l := by
  induction l with
  | nil => simp [mostCommon]
  | cons x xs ih =>
    have : mostCommon (x :: xs) = insertCommon x (mostCommon xs) := rfl
    rw [this, mem_insertCommon, ih, List.mem_cons]

theorem sorted_insertCommon (x : String × Nat) (l : List (String × Nat))
    (h : l.Pairwise (fun a b => b.2 ≤ a.2)) :
    (insertCommon x l).Pairwise (fun a b => b.2 ≤ a.2) := by
  induction l with
  | nil => simp [insertCommon]
  | cons y ys ih =>
    rw [List.pairwise_cons] at h
    simp only [insertCommon]
    split
    · rename_i hle
      rw [List.pairwise_cons]
      refine ⟨?_, List.pairwise_cons.mpr h⟩
      intro z hz
      simp only [List.mem_cons] at hz
      rcases hz with rfl | hz
      · exact hle
      · exact Nat.le_trans (h.1 z hz) hle
    · rename_i hle
      rw [List.pairwise_cons]
      refine ⟨?_, ih h.2⟩
      intro z hz
      rw [mem_insertCommon] at hz
      rcases hz with rfl | hz
      · omega
      · exact h.1 z hz

theorem sorted_mostCommon (l : List (String × Nat)) :
    (mostCommon l).Pairwise (fun a b => b.2 ≤ a.2) := by
  induction l with
  | nil => exact .nil
  | cons x xs ih => exact sorted_insertCommon x _ ih

theorem mem_takeWhile_sorted (l : List (String × Nat)) (h : l.Pairwise (fun a b => b.2 ≤ a.2))
    (y : String × Nat) :
    y ∈ l.takeWhile (fun p => decide (p.2 > 1)) ↔ y ∈ l ∧ y.2 > 1 := by
  induction l with
  | nil => simp
  | cons x xs ih =>
    rw [List.pairwise_cons] at h
    rw [List.takeWhile_cons]
    split
    · rename_i hx
      simp only [decide_eq_true_eq] at hx
      simp only [List.mem_cons, ih h.2]
      constructor
      · rintro (rfl | ⟨a, b⟩)
        · exact ⟨.inl rfl, hx⟩
        · exact ⟨.inr a, b⟩
      · rintro ⟨rfl | a, b⟩
        · exact .inl rfl
        · exact .inr ⟨a, b⟩
    · rename_i hx
      simp only [decide_eq_true_eq] at hx
      simp only [List.not_mem_nil, List.mem_cons, false_iff, not_and]
      rintro (rfl | a) c
      · exact hx c
      · exact hx (Nat.lt_of_lt_of_le c (h.1 y a))

theorem mem_counter (names : List String) (y : String × Nat) :
    y ∈ counter names ↔ y.1 ∈ names ∧ y.2 = names.count y.1 := by
  induction names with
  | nil => simp [counter]
  | cons n ns ih =>
    simp only [counter, List.mem_cons, List.mem_filter, decide_eq_true_eq, ih]
    by_cases e : y.1 = n
    · constructor
      · rintro (rfl | ⟨-, c⟩)
        · exact ⟨.inl e, rfl⟩
        · exact absurd e c
      · rintro ⟨-, h⟩
        left
        cases y
        simp only at e h ⊢
        subst e
        rw [h]
    · rw [List.count_cons_of_ne (fun c => e c.symm)]
      constructor
      · rintro (rfl | ⟨a, -⟩)
        · exact absurd rfl e
        · exact ⟨.inr a.1, a.2⟩
      · rintro ⟨a | a, b⟩
        · exact absurd a e
        · exact .inr ⟨⟨a, b⟩, e⟩

theorem mem_dashNameErrors (names : List String) (r : Report) :
    r ∈ dashNameErrors names ↔ ∃ n, 2 ≤ names.count n ∧ r = dupMessage (n, names.count n) := by
  simp only [dashNameErrors, List.mem_map, mem_takeWhile_sorted _ (sorted_mostCommon _),
    mem_mostCommon, mem_counter]
  constructor
  · rintro ⟨⟨n, k⟩, ⟨⟨-, h1⟩, h2⟩, rfl⟩
    simp only at h1 h2
    subst h1
    exact ⟨n, h2, rfl⟩
  · rintro ⟨n, h, rfl⟩
    exact ⟨(n, names.count n), ⟨⟨List.count_pos_iff.mp (Nat.lt_of_lt_of_le (by decide) h), rfl⟩, h⟩, rfl⟩

theorem cleanErrors_spec (l : List Report) : ∀ seen : List String,
    (cleanErrors seen l).Sublist l ∧
    ((cleanErrors seen l).map (·.message)).Nodup ∧
    (∀ r ∈ cleanErrors seen l, r.message ∉ seen) ∧
    (∀ pre r post, l = pre ++ r :: post → r.message ∉ seen →
      (∀ q ∈ pre, q.message ≠ r.message) → r ∈ cleanErrors seen l) := by
  induction l with
  | nil =>
    intro seen
    refine ⟨.slnil, by simp [cleanErrors], by simp [cleanErrors], ?_⟩
    intro pre r post h
    exact absurd h (by simp)
  | cons e es ih =>
    intro seen
    by_cases hm : e.message ∈ seen
    · obtain ⟨h1, h2, h3, h4⟩ := ih seen
      simp only [cleanErrors, if_pos hm]
      refine ⟨h1.cons _, h2, h3, ?_⟩
      intro pre r post h hr hp
      cases pre with
      | nil =>
        simp only [List.nil_append, List.cons.injEq] at h
        rw [← h.1] at hr
        exact absurd hm hr
      | cons q pre =>
        simp only [List.cons_append, List.cons.injEq] at h
        exact h4 pre r post h.2 hr (fun q' hq' => hp q' (by simp [hq']))
    · obtain ⟨h1, h2, h3, h4⟩ := ih (e.message :: seen)
      simp only [cleanErrors, if_neg hm]
      refine ⟨h1.cons_cons _, ?_, ?_, ?_⟩
      · simp only [List.map_cons, List.nodup_cons]
        refine ⟨?_, h2⟩
        intro c
        obtain ⟨r, hr, he⟩ := List.mem_map.mp c
        exact h3 r hr (by simp [he])
      · intro r hr
        simp only [List.mem_cons] at hr
        rcases hr with rfl | hr
        · exact hm
        · intro c
          exact h3 r hr (by simp [c])
      · intro pre r post h hr hp
        cases pre with
        | nil =>
          simp only [List.nil_append, List.cons.injEq] at h
          simp [h.1]
        | cons q pre =>
          simp only [List.cons_append, List.cons.injEq] at h
          refine List.mem_cons_of_mem _ (h4 pre r post h.2 ?_ (fun q' hq' => hp q' (by simp [hq'])))
          simp only [List.mem_cons, not_or]
          refine ⟨fun c => hp q (by simp) ?_, hr⟩
          rw [← h.1, ← c]

theorem firstOfEach_messages {l out : List Report} (h : FirstOfEach l out) (m : String) :
    (∃ r ∈ out, r.message = m) ↔ ∃ r ∈ l, r.message = m := by
  constructor
  · rintro ⟨r, hr, e⟩; exact ⟨r, h.1.subset hr, e⟩
  · rintro ⟨r, hr, e⟩
    have key : ∀ k : List Report, (∃ r ∈ k, r.message = m) →
        ∃ pre r post, k = pre ++ r :: post ∧ r.message = m ∧ ∀ q ∈ pre, q.message ≠ m := by
      intro k
      induction k with
      | nil => rintro ⟨r, hr, -⟩; cases hr
      | cons x xs ih =>
        rintro ⟨r, hr, e⟩
        by_cases hx : x.message = m
        · exact ⟨[], x, xs, rfl, hx, by simp⟩
        · have : r ∈ xs := by
            simp only [List.mem_cons] at hr
            rcases hr with rfl | hr
            · exact absurd e hx
            · exact hr
          obtain ⟨pre, r', post, h1, h2, h3⟩ := ih ⟨r, this, e⟩
          refine ⟨x :: pre, r', post, by simp [h1], h2, ?_⟩
          intro q hq
          simp only [List.mem_cons] at hq
          rcases hq with rfl | hq
          · exact hx
          · exact h3 q hq
    obtain ⟨pre, r', post, h1, h2, h3⟩ := key l ⟨r, hr, e⟩
    exact ⟨r', h.2.2 pre r' post h1 (fun q hq => by rw [h2]; exact h3 q hq), h2⟩

theorem mem_accessErrors (req : List String) (v : VView) (m : String) :
    (∃ r ∈ accessErrors req v, r.message = m) ↔
      (∃ a ∈ req, v.accessFilters = [] ∧
        m = "View " ++ v.name ++ " does not have any access filters, but an access filter"
               ++ " with user attribute " ++ a ++ " is required.") ∨
      (∃ a ∈ req, v.accessFilters ≠ [] ∧ a ∉ v.accessFilters ∧
        m = "View " ++ v.name ++ " does not have an access filter with the required user"
               ++ " attribute " ++ a) := by
  simp only [accessErrors, List.mem_filterMap]
  have hall : ∀ a, (v.accessFilters.all (fun f => f != a) = true) ↔ a ∉ v.accessFilters := by
    intro a
    simp only [List.all_eq_true, bne_iff_ne, ne_eq]
    constructor
    · exact fun h c => h a c rfl
    · exact fun h f hf e => h (e ▸ hf)
  by_cases he : v.accessFilters = []
  · constructor
    · rintro ⟨r, ⟨a, ha, h⟩, rfl⟩
      rw [if_pos (by simp [he])] at h
      cases h
      exact .inl ⟨a, ha, he, rfl⟩
    · rintro (⟨a, ha, -, rfl⟩ | ⟨a, -, hn, -⟩)
      · exact ⟨_, ⟨a, ha, by rw [if_pos (by simp [he])]⟩, rfl⟩
      · exact absurd he hn
  · have hne : ¬ (v.accessFilters.isEmpty = true) := by simpa using he
    constructor
    · rintro ⟨r, ⟨a, ha, h⟩, rfl⟩
      rw [if_neg hne] at h
      split at h
      · rename_i hb
        cases h
        exact .inr ⟨a, ha, he, (hall a).mp hb, rfl⟩
      · cases h
    · rintro (⟨a, ha, h, rfl⟩ | ⟨a, ha, -, hn, rfl⟩)
      · exact absurd h he
      · exact ⟨_, ⟨a, ha, by rw [if_neg hne, if_pos ((hall a).mpr hn)]⟩, rfl⟩

/-- Messages of one view, whatever the local variable holds. -/
theorem viewErrors_complete (req : List String) (vs : List VView) :
    ∀ (refs : Option (List BadRef)) (out : List Report), viewErrors req refs vs = .ok out →
    ∀ v ∈ vs, (∀ r ∈ accessErrors req v, r ∈ out) ∧
      (∀ e, v.tableError = some e → inView e v ∈ out) ∧
      (∀ e, v.references = .error e → inView e v ∈ out) ∧
      (∀ bs, v.references = .ok bs → ∀ b ∈ bs, refReport v b ∈ out) ∧
      (∀ r ∈ v.errors, r ∈ out) := by
  induction vs with
  | nil => intro _ _ _ v hv; cases hv
  | cons w ws ih =>
    intro refs out h v hv
    simp only [viewErrors] at h
    cases hr : w.references with
    | error e =>
      rw [hr] at h
      cases refs with
      | none => cases h
      | some old =>
        simp only at h
        cases hrest : viewErrors req (some old) ws with
        | error x => rw [hrest] at h; cases h
        | ok rest =>
          rw [hrest] at h
          simp only [Except.ok.injEq] at h
          subst h
          simp only [List.mem_cons] at hv
          rcases hv with rfl | hv
          · refine ⟨fun r hr' => by simp [hr'], fun e' he' => by simp [he'],
              fun e' he' => ?_, fun bs hbs => ?_, fun r hr' => by simp [hr']⟩
            · rw [hr] at he'; cases he'; simp
            · rw [hr] at hbs; cases hbs
          · obtain ⟨a, b, c, d, f⟩ := ih (some old) rest hrest v hv
            exact ⟨fun r hr' => by simp [a r hr'], fun e' he' => by simp [b e' he'],
              fun e' he' => by simp [c e' he'], fun bs hbs x hx => by simp [d bs hbs x hx],
              fun r hr' => by simp [f r hr']⟩
    | ok new =>
      rw [hr] at h
      simp only at h
      cases hrest : viewErrors req (some new) ws with
      | error x => rw [hrest] at h; cases h
      | ok rest =>
        rw [hrest] at h
        simp only [Except.ok.injEq] at h
        subst h
        simp only [List.mem_cons] at hv
        rcases hv with rfl | hv
        · refine ⟨fun r hr' => by simp [hr'], fun e' he' => by simp [he'],
            fun e' he' => ?_, fun bs hbs b hb => ?_, fun r hr' => by simp [hr']⟩
          · rw [hr] at he'; cases he'
          · rw [hr] at hbs; cases hbs
            have : refReport v b ∈ new.map (refReport v) := List.mem_map.mpr ⟨b, hb, rfl⟩
            simp only [List.mem_append, this, true_or, or_true]
        · obtain ⟨a, b, c, d, f⟩ := ih (some new) rest hrest v hv
          exact ⟨fun r hr' => by simp [a r hr'], fun e' he' => by simp [b e' he'],
            fun e' he' => by simp [c e' he'], fun bs hbs x hx => by simp [d bs hbs x hx],
            fun r hr' => by simp [f r hr']⟩

theorem viewErrors_sound (req : List String) (vs : List VView)
    (hc : ∀ v ∈ vs, ∃ bs, v.references = .ok bs) :
    ∀ (refs : Option (List BadRef)), ∃ out, viewErrors req refs vs = .ok out ∧
    ∀ r ∈ out, ∃ v ∈ vs, r ∈ accessErrors req v ∨ (∃ e, v.tableError = some e ∧ r = inView e v) ∨
      (∃ bs b, v.references = .ok bs ∧ b ∈ bs ∧ r = refReport v b) ∨ r ∈ v.errors := by
  induction vs with
  | nil => intro refs; exact ⟨[], rfl, by simp⟩
  | cons w ws ih =>
    intro refs
    obtain ⟨new, hr⟩ := hc w (by simp)
    obtain ⟨rest, h1, h2⟩ := ih (fun v hv => hc v (by simp [hv])) (some new)
    refine ⟨_, by simp only [viewErrors, hr, h1]; rfl, ?_⟩
    intro r hr'
    simp only [List.mem_append, Option.mem_toList, Option.map_eq_some_iff, List.mem_map] at hr'
    rcases hr' with (((h | ⟨e, he, rfl⟩) | ⟨b, hb, rfl⟩) | h) | h
    · exact ⟨w, by simp, .inl h⟩
    · exact ⟨w, by simp, .inr (.inl ⟨e, he, rfl⟩)⟩
    · exact ⟨w, by simp, .inr (.inr (.inl ⟨new, b, hr, hb, rfl⟩))⟩
    · exact ⟨w, by simp, .inr (.inr (.inr h))⟩
    · obtain ⟨v, hv, h⟩ := h2 r h
      exact ⟨v, by simp [hv], h⟩

theorem viewErrors_bound (req : List String) (vs : List VView) :
    ∀ old, ∃ out, viewErrors req (some old) vs = .ok out := by
  induction vs with
  | nil => intro old; exact ⟨[], rfl⟩
  | cons w ws ih =>
    intro old
    cases hr : w.references with
    | error e => obtain ⟨o, ho⟩ := ih old; exact ⟨_, by simp only [viewErrors, hr, ho]; rfl⟩
    | ok new => obtain ⟨o, ho⟩ := ih new; exact ⟨_, by simp only [viewErrors, hr, ho]; rfl⟩

theorem refReport_message (v : VView) (b : BadRef) :
    (b.personal = false → (refReport v b).message = "Could not locate reference " ++ b.reference
      ++ " in field " ++ b.field ++ " in view " ++ v.name) ∧
    (b.personal = true → (refReport v b).message = "Warning: Could not locate reference "
      ++ b.reference ++ " in field " ++ b.field ++ " in view " ++ v.name) := by
  constructor
  · intro h
    simp only [refReport, h, Bool.false_eq_true, if_false, String.empty_append]
  · intro h
    simp only [refReport, h, if_true]
    have : "Warning: " ++ "Could not locate reference " = "Warning: Could not locate reference " := by
      decide
    rw [this]

end ML
