import Verif.Funnel.Lemmas
import Mathlib.Data.Int.Order.Basic
/- C38: the steps of a funnel. -/
set_option autoImplicit false
namespace ML
open Spec
variable {S E P T : Type} [DecidableEq P] [LinearOrder T]

theorem mapM_ok {A B : Type} (f : A → Res B) (g : A → B) (l : List A) (h : ∀ a ∈ l, f a = .ok (g a)) : l.mapM f = .ok (l.map g) := by
  induction l with
  | nil => rfl
  | cons a l ih =>
    rw [List.mapM_cons, h a (by simp), ih (fun b hb => h b (List.mem_cons_of_mem _ hb))]
    rfl

/-- The window of a funnel is usable: its unit is known to the warehouse (in the plural), its value is a number. -/
structure Spec.GoodWindow (known : String → Bool) (w : StepWindow) (unit : String) (value : ℤ) : Prop where
  plural : ∃ u, w.unit = some u ∧ pluralUnit u = .ok unit
  usable : known unit = true
  number : w.value = some value

/-- C38: with a usable window, a funnel of any number of steps has one labelled part per step, in order, and the rows of part n are
exactly the chains of n events: same person, strictly increasing times, the i-th event satisfying step i's conditions, every later one
within the window from the first. Each chain gives one row, its last event. -/
theorem C38_steps (known : String → Bool) (d : FunnelData S E P T) (w : StepWindow) (unit : String) (value : ℤ) (hw : GoodWindow known w unit value)
    (steps : List S) (hs : steps ≠ []) :
    ∃ parts, evalFunnel known d w steps = .ok parts ∧ parts.length = steps.length ∧
      ∀ n, n < steps.length → ∃ rows, parts[n]? = some ("Step " ++ toString (n + 1), n + 1, rows) ∧
        rows.Perm (chainRows d unit value steps (n + 1)) := by
  obtain ⟨u, hu1, hu2⟩ := hw.plural
  obtain ⟨wu, wv⟩ := w
  obtain rfl : wu = some u := hu1
  obtain rfl : wv = some value := hw.number
  obtain ⟨ss, h1, h2, h3⟩ := evalSteps_rows known d u unit value hu2 hw.usable steps steps 0 rfl
  simp only [List.range_zero, List.map_nil, Nat.zero_add] at h3
  have hsql : funnelSql known ⟨some u, some value⟩ steps = .ok (ss, (List.range steps.length).map fun i => ⟨"Step " ++ toString (i + 1), i + 1, stepName (i + 1)⟩) := by
    unfold funnelSql
    rw [h1]
    cases ss with
    | nil =>
      simp only [List.length_nil] at h2
      exact absurd (List.length_eq_zero_iff.mp h2.symm) hs
    | cons s ss => simp only [h2]
  have hlook : ∀ k n, k < n → dictGet ((List.range n).map fun k => (stepName (k + 1), stepRows d unit value steps k)) (stepName (k + 1)) = some (stepRows d unit value steps k) := by
    intro k n hk
    have hnd : ∀ l : List ℕ, k ∈ l → dictGet (l.map fun k => (stepName (k + 1), stepRows d unit value steps k)) (stepName (k + 1)) = some (stepRows d unit value steps k) := by
      intro l
      induction l with
      | nil => intro h; cases h
      | cons j l ih =>
        intro hm
        simp only [List.map_cons, dictGet]
        by_cases hj : j = k
        · subst hj; simp
        · rw [if_neg (fun he => hj (by have := stepName_inj he; omega))]
          exact ih (by rcases List.mem_cons.mp hm with rfl | h; exacts [absurd rfl hj, h])
    exact hnd _ (List.mem_range.mpr hk)
  refine ⟨(List.range steps.length).map fun i => ("Step " ++ toString (i + 1), i + 1, stepRows d unit value steps i), ?_, by simp, ?_⟩
  · unfold evalFunnel
    rw [hsql]
    simp only [h3]
    rw [mapM_ok _ (fun u => (u.label, u.order, stepRows d unit value steps (u.order - 1)))]
    · rw [List.map_map]
      rfl
    · intro u hu
      obtain ⟨i, hi, rfl⟩ := List.mem_map.mp hu
      rw [List.mem_range] at hi
      simp only [hlook i _ hi, Nat.add_sub_cancel]
  · intro n hn
    refine ⟨stepRows d unit value steps n, by simp [hn], ?_⟩
    rw [stepRows_chains d unit value steps n hn]

/-- C38: step n contains exactly the events that end a chain of n events. -/
theorem C38_events (known : String → Bool) (d : FunnelData S E P T) (w : StepWindow) (unit : String) (value : ℤ) (hw : GoodWindow known w unit value)
    (steps : List S) (parts : List (String × ℕ × List (StepRow E T))) (h : evalFunnel known d w steps = .ok parts) (n : ℕ) (part : String × ℕ × List (StepRow E T))
    (hp : parts[n]? = some part) (e : E) :
    (∃ t, (e, t) ∈ part.2.2) ↔ ∃ c, c.length = n + 1 ∧ FunnelChain d unit value steps c ∧ c.getLast? = some e := by
  have hs : steps ≠ [] := by
    rintro rfl
    simp [evalFunnel, funnelSql, stepSqls] at h
  obtain ⟨parts', h1, h2, h3⟩ := C38_steps known d w unit value hw steps hs
  rw [h] at h1; injection h1 with h1; subst h1
  have hn : n < steps.length := by rw [← h2]; exact (List.getElem?_eq_some_iff.mp hp).1
  obtain ⟨rows, hr, hperm⟩ := h3 n hn
  rw [hp] at hr; injection hr with hr; subst hr
  simp only
  have hmem : ∀ t, (e, t) ∈ rows ↔ (e, t) ∈ chainRows d unit value steps (n + 1) := fun t => hperm.mem_iff
  simp only [hmem, chainRows, List.mem_filterMap, List.mem_filter, decide_eq_true_eq]
  constructor
  · rintro ⟨t, c, ⟨hc, hch⟩, hg⟩
    refine ⟨c, sequences_length _ _ _ hc, hch, ?_⟩
    cases ha : c.head? with
    | none => rw [ha] at hg; cases hg
    | some a =>
      cases hl : c.getLast? with
      | none => rw [ha, hl] at hg; cases hg
      | some l => rw [ha, hl] at hg; injection hg with hg; injection hg with hg _; rw [hg]
  · rintro ⟨c, hlen, hch, hl⟩
    obtain ⟨a, ha⟩ : ∃ a, c.head? = some a := by
      cases c with
      | nil => simp at hlen
      | cons a c => exact ⟨a, rfl⟩
    refine ⟨d.time a, c, ⟨(sequences_mem _ _ _).mpr ⟨hlen, hch.events⟩, hch⟩, ?_⟩
    rw [ha, hl]

omit [DecidableEq P] in
/-- C38: who reaches step n + 1 has reached step n: no step has more persons than the one before. -/
theorem C38_fewer (d : FunnelData S E P T) (unit : String) (value : ℤ) (steps : List S) (n : ℕ) (hn : 0 < n) (p : P)
    (h : ReachesStep d unit value steps (n + 1) p) : ReachesStep d unit value steps n p := by
  obtain ⟨c, e, hlen, hch, hl, hp⟩ := h
  rcases List.eq_nil_or_concat c with rfl | ⟨c', b, rfl⟩
  · simp at hlen
  · simp only [List.concat_eq_append] at *
    simp only [List.length_append, List.length_singleton, Nat.add_right_cancel_iff] at hlen
    obtain ⟨a, ha⟩ : ∃ a, c'.head? = some a := by
      cases c' with
      | nil => simp at hlen; omega
      | cons a c => exact ⟨a, rfl⟩
    obtain ⟨l, hl'⟩ : ∃ l, c'.getLast? = some l := by
      cases h : c'.getLast? with
      | none => rw [List.getLast?_eq_none_iff] at h; subst h; simp at hlen; omega
      | some l => exact ⟨l, rfl⟩
    obtain ⟨h1, _, _, ⟨⟨q, hq1, hq2⟩, _⟩, _⟩ := (chain_snoc d unit value steps c' a l b ha hl').mp hch
    refine ⟨c', l, hlen, h1, hl', ?_⟩
    have : e = b := by simpa using hl.symm
    subst this
    rw [hp] at hq2; injection hq2 with hq2; subst hq2
    exact hq1

/-- C38: the persons of step n are those who reach it (an event without a person can only be in step 1). -/
theorem C38_persons (known : String → Bool) (d : FunnelData S E P T) (w : StepWindow) (unit : String) (value : ℤ) (hw : GoodWindow known w unit value)
    (steps : List S) (parts : List (String × ℕ × List (StepRow E T))) (h : evalFunnel known d w steps = .ok parts) (n : ℕ) (part : String × ℕ × List (StepRow E T))
    (hp : parts[n]? = some part) (p : P) :
    some p ∈ part.2.2.map (fun r => d.person r.1) ↔ ReachesStep d unit value steps (n + 1) p := by
  have hev := C38_events known d w unit value hw steps parts h n part hp
  rw [List.mem_map]
  constructor
  · rintro ⟨⟨e, t⟩, hm, he⟩
    obtain ⟨c, h1, h2, h3⟩ := (hev e).mp ⟨t, hm⟩
    exact ⟨c, e, h1, h2, h3, he⟩
  · rintro ⟨c, e, h1, h2, h3, he⟩
    obtain ⟨t, ht⟩ := (hev e).mpr ⟨c, h1, h2, h3⟩
    exact ⟨(e, t), ht, he⟩

theorem no_null_later (known : String → Bool) (d : FunnelData S E P T) (w : StepWindow) (unit : String) (value : ℤ) (hw : GoodWindow known w unit value)
    (steps : List S) (parts : List (String × ℕ × List (StepRow E T))) (h : evalFunnel known d w steps = .ok parts) (n : ℕ) (hn : 0 < n)
    (part : String × ℕ × List (StepRow E T)) (hp : parts[n]? = some part) : none ∉ part.2.2.map (fun r => d.person r.1) := by
  rw [List.mem_map]
  rintro ⟨⟨e, t⟩, hm, he⟩
  obtain ⟨c, h1, h2, h3⟩ := (C38_events known d w unit value hw steps parts h n part hp e).mp ⟨t, hm⟩
  have hl : c[n]? = some e := by rw [List.getLast?_eq_getElem?, h1] at h3; simpa using h3
  obtain ⟨a, ha⟩ : ∃ a, c[n - 1]? = some a := ⟨_, List.getElem?_eq_getElem (by omega)⟩
  obtain ⟨⟨p, _, hpe⟩, _⟩ := h2.order (n - 1) a e ha (by rw [show n - 1 + 1 = n by omega]; exact hl)
  simp only at he
  rw [he] at hpe
  cases hpe

/-- C38, filters by funnel: `converted` from step i to step j keeps exactly the persons that reach both. -/
theorem C38_converted (known : String → Bool) (d : FunnelData S E P T) (w : StepWindow) (unit : String) (value : ℤ) (hw : GoodWindow known w unit value)
    (steps : List S) (parts : List (String × ℕ × List (StepRow E T))) (h : evalFunnel known d w steps = .ok parts) (i j : ℕ) (pi pj : String × ℕ × List (StepRow E T))
    (hi : parts[i]? = some pi) (hj : parts[j]? = some pj) (x : Option P) :
    x ∈ funnelPersons d pi.2.2 pj.2.2 true ↔
      ∃ p, x = some p ∧ ReachesStep d unit value steps (i + 1) p ∧ ReachesStep d unit value steps (j + 1) p := by
  have hin : ∀ (l : List (Option P)) (y : Option P), (sqlIn y l == some true) = true ↔ ∃ p, y = some p ∧ some p ∈ l := by
    intro l y
    rw [beq_iff_eq]
    cases y with
    | none => simp only [sqlIn]; split <;> simp
    | some p =>
      simp only [sqlIn]
      split
      · rename_i hm; simp [hm]
      · rename_i hm; split <;> simp [hm]
  unfold funnelPersons
  rw [List.mem_eraseDups, List.mem_map]
  simp only [if_true, List.mem_filter, Bool.and_eq_true, hin]
  constructor
  · rintro ⟨e, ⟨_, ⟨p, hp, h1⟩, ⟨q, hq, h2⟩⟩, rfl⟩
    rw [hp] at hq; injection hq with hq; subst hq
    exact ⟨p, hp, (C38_persons known d w unit value hw steps parts h i pi hi p).mp h1, (C38_persons known d w unit value hw steps parts h j pj hj p).mp h2⟩
  · rintro ⟨p, rfl, h1, h2⟩
    obtain ⟨c, e, _, hch, hl, hp⟩ := h1
    refine ⟨e, ⟨hch.events e (List.mem_of_getLast? hl), ⟨p, hp, ?_⟩, ⟨p, hp, ?_⟩⟩, hp⟩
    · exact (C38_persons known d w unit value hw steps parts h i pi hi p).mpr ⟨c, e, by assumption, hch, hl, hp⟩
    · exact (C38_persons known d w unit value hw steps parts h j pj hj p).mpr h2

omit [DecidableEq P] in
theorem reaches_first (d : FunnelData S E P T) (unit : String) (value : ℤ) (steps : List S) (p : P) : ∀ n, ReachesStep d unit value steps (n + 1) p →
    ReachesStep d unit value steps 1 p := by
  intro n
  induction n with
  | zero => exact id
  | succ n ih => exact fun h => ih (C38_fewer d unit value steps (n + 1) (Nat.succ_pos n) p h)

/-- C38, filters by funnel: `dropped` from step i to step j keeps exactly the persons that reach i and not j. -/
theorem C38_dropped (known : String → Bool) (d : FunnelData S E P T) (w : StepWindow) (unit : String) (value : ℤ) (hw : GoodWindow known w unit value)
    (steps : List S) (parts : List (String × ℕ × List (StepRow E T))) (h : evalFunnel known d w steps = .ok parts) (i j : ℕ)
    (pi pj : String × ℕ × List (StepRow E T)) (hi : parts[i]? = some pi) (hj : parts[j]? = some pj) (x : Option P) :
    x ∈ funnelPersons d pi.2.2 pj.2.2 false ↔
      ∃ p, x = some p ∧ ReachesStep d unit value steps (i + 1) p ∧ ¬ ReachesStep d unit value steps (j + 1) p := by
  have hin : ∀ (l : List (Option P)) (y : Option P), (sqlIn y l == some true) = true ↔ ∃ p, y = some p ∧ some p ∈ l := by
    intro l y
    rw [beq_iff_eq]
    cases y with
    | none => simp only [sqlIn]; split <;> simp
    | some p =>
      simp only [sqlIn]
      split
      · rename_i hm; simp [hm]
      · rename_i hm; split <;> simp [hm]
  have hnot : ∀ (p : P), ReachesStep d unit value steps (i + 1) p →
      ((sqlIn (some p) (pj.2.2.map fun r => d.person r.1) == some false) = true ↔ some p ∉ pj.2.2.map fun r => d.person r.1) := by
    intro p hreach
    rcases Nat.eq_zero_or_pos j with rfl | hj0
    · have hin1 := (C38_persons known d w unit value hw steps parts h 0 pj hj p).mpr (reaches_first d unit value steps p i hreach)
      rw [beq_iff_eq]
      simp only [sqlIn, if_pos hin1]
      simp [hin1]
    have hnull := no_null_later known d w unit value hw steps parts h j hj0 pj hj
    rw [beq_iff_eq]
    simp only [sqlIn]
    split
    · rename_i hm; simp [hm]
    · rename_i hm; simp [hm]
  unfold funnelPersons
  rw [List.mem_eraseDups, List.mem_map]
  simp only [Bool.false_eq_true, if_false, List.mem_filter, Bool.and_eq_true, hin]
  constructor
  · rintro ⟨e, ⟨_, ⟨p, hp, h1⟩, h2⟩, rfl⟩
    have hr1 := (C38_persons known d w unit value hw steps parts h i pi hi p).mp h1
    rw [hp, hnot p hr1] at h2
    exact ⟨p, hp, hr1,
      fun hr => h2 ((C38_persons known d w unit value hw steps parts h j pj hj p).mpr hr)⟩
  · rintro ⟨p, rfl, h1, h2⟩
    obtain ⟨c, e, hlen, hch, hl, hp⟩ := h1
    refine ⟨e, ⟨hch.events e (List.mem_of_getLast? hl), ⟨p, hp, ?_⟩, ?_⟩, hp⟩
    · exact (C38_persons known d w unit value hw steps parts h i pi hi p).mpr ⟨c, e, hlen, hch, hl, hp⟩
    · rw [hp, hnot p ⟨c, e, hlen, hch, hl, hp⟩]
      exact fun hm => h2 ((C38_persons known d w unit value hw steps parts h j pj hj p).mp hm)

/-- C38: a funnel definition is used when it has steps and a window, rejected when it has one but not the other, and is no funnel when
empty. -/
theorem C38_definition (keys : List String) :
    (parseFunnel keys = .ok true ↔ "steps" ∈ keys ∧ "within" ∈ keys) ∧ (parseFunnel keys = .ok false ↔ keys = []) := by
  unfold parseFunnel
  by_cases h : keys = []
  · subst h; simp
  · simp only [h, if_false]
    split <;> simp_all

/-- C38: two or more steps with an unknown unit, or without unit or value, are rejected. -/
theorem C38_bad_window (known : String → Bool) (d : FunnelData S E P T) (w : StepWindow) (a b : S) (rest : List S)
    (hw : w.unit = none ∨ w.value = none ∨ ∃ u, w.unit = some u ∧ ∀ u', pluralUnit u = .ok u' → known u' = false) :
    ∃ e, evalFunnel known d w (a :: b :: rest) = .error e := by
  have hwithin : ∀ n, ∃ e, withinSql known w n = .error e := by
    intro n
    unfold withinSql
    cases hu : w.unit with
    | none => exact ⟨_, rfl⟩
    | some u =>
      simp only
      cases hp : pluralUnit u with
      | error e => exact ⟨e, rfl⟩
      | ok u' =>
        simp only
        cases hv : w.value with
        | none => exact ⟨_, rfl⟩
        | some v =>
          simp only
          rcases hw with h | h | ⟨u2, h1, h2⟩
          · rw [hu] at h; cases h
          · rw [hv] at h; cases h
          · rw [hu] at h1; injection h1 with h1; subst h1
            rw [h2 u' hp]
            exact ⟨_, rfl⟩
  obtain ⟨e, he⟩ := hwithin 2
  have h1 : stepSql known w 1 b = .error e := by
    unfold stepSql
    simp only [he]
    rfl
  refine ⟨e, ?_⟩
  unfold evalFunnel funnelSql
  have h0 : stepSql known w 0 a = .ok ⟨stepName 1, none, a, none, none⟩ := rfl
  have hss : stepSqls known w 0 (a :: b :: rest) = .error e := by
    simp only [stepSqls, h0, Nat.zero_add, h1]
  rw [hss]

/-! ### Concrete cases -/

/-- Events of two persons: number, person, hour, kind. -/
def funnelEx : FunnelData String (ℕ × Option String × ℤ × String) String ℤ where
  events := [(1, some "ann", 1, "visit"), (2, some "ann", 2, "visit"), (3, some "ann", 5, "buy"), (4, some "bob", 1, "visit"),
    (5, some "bob", 40, "buy"), (6, none, 3, "visit")]
  person e := e.2.1
  time e := some e.2.2.1
  holds s e := e.2.2.2 == s
  diff _ a b := some (b - a)

/-- The window of the examples is usable. -/
example : GoodWindow (fun u => u == "hours") ⟨some "hour", some 24⟩ "hours" 24 :=
  ⟨⟨"hour", rfl, by decide +kernel⟩, rfl, rfl⟩

/-- Ann's purchase ends two chains, so it is in step 2 twice; Bob's is too late. -/
theorem C38_once_per_chain : (evalFunnel (fun u => u == "hours") funnelEx ⟨some "hour", some 24⟩ ["visit", "buy"]).map
      (fun ps => ps.map fun p => (p.1, p.2.2.map (·.1.1))) = .ok [("Step 1", [1, 2, 4, 6]), ("Step 2", [3, 3])] := by
  decide +kernel

/-- A funnel on two metrics of one view needs an explicit view, although both have the same date. -/
theorem C38_two_metrics : eventDate none [("events", "event")] = .ok "events.event_raw" ∧
    eventDate none [("events", "event"), ("events", "event")] = .error .query := by
  constructor <;> decide +kernel

end ML
