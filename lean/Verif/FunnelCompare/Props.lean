import Verif.FunnelCompare.Spec
import Verif.Funnel.Props
/-
C86: funnels that are compared with each other.
-/
set_option autoImplicit false
namespace ML
open Spec
variable {S E P T : Type} [LinearOrder T]

theorem chain_mono {d : FunnelData S E P T} {events : List E} {unit : String} {value value' : ℤ} {steps steps' : List S} {c : List E}
    (he : ∀ e ∈ c, e ∈ d.events → e ∈ events) (hv : value ≤ value') (hs : AsksMore d steps steps') (h : FunnelChain d unit value steps c) :
    FunnelChain { d with events := events } unit value' steps' c where
  events := fun e hc => he e hc (h.events e hc)
  holds := by
    intro i e hi
    obtain ⟨s, h1, h2⟩ := h.holds i e hi
    obtain ⟨s', h3, h4⟩ := hs i s h1
    exact ⟨s', h3, h4 e h2⟩
  order := fun i a b ha hb => h.order i a b ha hb
  window := by
    intro i a e hi ha hc
    obtain ⟨s, t, n, h1, h2, h3, h4⟩ := h.window i a e hi ha hc
    exact ⟨s, t, n, h1, h2, h3, le_trans h4 hv⟩

/-- All events of a chain are of one person, if the last is of a person. -/
theorem chain_person {d : FunnelData S E P T} {unit : String} {value : ℤ} {steps : List S} {c : List E} (h : FunnelChain d unit value steps c) {e : E} {p : P}
    (hl : c.getLast? = some e) (hp : d.person e = some p) : ∀ x ∈ c, d.person x = some p := by
  have hlen : 0 < c.length := by
    cases c with
    | nil => cases hl
    | cons => simp
  have key : ∀ k, k < c.length → ∀ x, c[c.length - 1 - k]? = some x → d.person x = some p := by
    intro k
    induction k with
    | zero =>
      intro _ x hx
      rw [List.getLast?_eq_getElem?] at hl
      rw [Nat.sub_zero, hl] at hx
      cases hx
      exact hp
    | succ k ih =>
      intro hk x hx
      obtain ⟨y, hy⟩ : ∃ y, c[c.length - 1 - k]? = some y := ⟨_, List.getElem?_eq_getElem (by omega)⟩
      obtain ⟨⟨q, h1, h2⟩, -⟩ := h.order (c.length - 1 - (k + 1)) x y hx (by rw [show c.length - 1 - (k + 1) + 1 = c.length - 1 - k by omega]; exact hy)
      rw [ih (by omega) y hy] at h2
      cases h2
      exact h1
  intro x hx
  obtain ⟨i, hi, rfl⟩ := List.getElem_of_mem hx
  exact key (c.length - 1 - i) (by omega) _ (by rw [show c.length - 1 - (c.length - 1 - i) = i by omega]; exact List.getElem?_eq_getElem hi)

section
variable [DecidableEq P]

/-- C86 (a): who is in a step stays in it when the window is made longer, when steps are added at the end, when the conditions of steps are loosened, and when further events happen: each
event of a step is an event of that step of the second funnel, and so is each person. -/
theorem C86_more (known : String → Bool) (d : FunnelData S E P T) (events : List E) (w w' : StepWindow) (unit : String) (value value' : ℤ)
    (hw : GoodWindow known w unit value) (hw' : GoodWindow known w' unit value') (steps steps' : List S)
    (hv : value ≤ value') (hs : AsksMore d steps steps') (he : ∀ e ∈ d.events, e ∈ events)
    (parts parts' : List (String × ℕ × List (StepRow E T))) (h : evalFunnel known d w steps = .ok parts)
    (h' : evalFunnel known { d with events := events } w' steps' = .ok parts') (n : ℕ) (part part' : String × ℕ × List (StepRow E T)) (hp : parts[n]? = some part)
    (hp' : parts'[n]? = some part') :
    (∀ e t, (e, t) ∈ part.2.2 → ∃ t', (e, t') ∈ part'.2.2) ∧ ∀ p, some p ∈ part.2.2.map (fun r => d.person r.1) → some p ∈ part'.2.2.map (fun r => d.person r.1) := by
  have h1 : ∀ e t, (e, t) ∈ part.2.2 → ∃ t', (e, t') ∈ part'.2.2 := by
    intro e t het
    obtain ⟨c, hc1, hc2, hc3⟩ := (C38_events known d w unit value hw steps parts h n part hp e).mp ⟨t, het⟩
    exact (C38_events known _ w' unit value' hw' steps' parts' h' n part' hp' e).mpr ⟨c, hc1, chain_mono (fun e _ => he e) hv hs hc2, hc3⟩
  refine ⟨h1, fun p hp => ?_⟩
  obtain ⟨⟨e, t⟩, het, hpe⟩ := List.mem_map.mp hp
  obtain ⟨t', ht'⟩ := h1 e t het
  exact List.mem_map.mpr ⟨(e, t'), ht', hpe⟩

/-- C86 (b): further steps at the end change nothing in the steps before: these have the same rows, each as often. -/
theorem C86_steps (known : String → Bool) (d : FunnelData S E P T) (w : StepWindow) (unit : String) (value : ℤ) (hw : GoodWindow known w unit value) (steps more : List S)
    (parts parts' : List (String × ℕ × List (StepRow E T))) (h : evalFunnel known d w steps = .ok parts) (h' : evalFunnel known d w (steps ++ more) = .ok parts')
    (n : ℕ) (part : String × ℕ × List (StepRow E T)) (hp : parts[n]? = some part) :
    ∃ part', parts'[n]? = some part' ∧ part'.1 = part.1 ∧ part'.2.1 = part.2.1 ∧ part'.2.2.Perm part.2.2 := by
  have hs : steps ≠ [] := by
    rintro rfl
    simp [evalFunnel, funnelSql, stepSqls] at h
  obtain ⟨parts1, h1, h2, h3⟩ := C38_steps known d w unit value hw steps hs
  rw [h] at h1; injection h1 with h1; subst h1
  obtain ⟨parts2, h1', h2', h3'⟩ := C38_steps known d w unit value hw (steps ++ more) (by simp [hs])
  rw [h'] at h1'; injection h1' with h1'; subst h1'
  have hn : n < steps.length := by rw [← h2]; exact (List.getElem?_eq_some_iff.mp hp).1
  obtain ⟨rows, hr, hperm⟩ := h3 n hn
  rw [hp] at hr; injection hr with hr; subst hr
  obtain ⟨rows', hr', hperm'⟩ := h3' n (by rw [List.length_append]; omega)
  refine ⟨_, hr', rfl, rfl, hperm'.trans (List.Perm.trans (List.Perm.of_eq ?_) hperm.symm)⟩
  unfold chainRows
  congr 1
  refine List.filter_congr fun c hc => ?_
  have hlen := sequences_length _ _ _ hc
  rw [decide_eq_decide]
  constructor
  · intro hch
    refine ⟨hch.events, fun i e hi => ?_, hch.order, hch.window⟩
    obtain ⟨s, h1, h2⟩ := hch.holds i e hi
    have : i < c.length := (List.getElem?_eq_some_iff.mp hi).1
    rw [List.getElem?_append_left (by omega)] at h1
    exact ⟨s, h1, h2⟩
  · intro hch
    refine ⟨hch.events, fun i e hi => ?_, hch.order, hch.window⟩
    obtain ⟨s, h1, h2⟩ := hch.holds i e hi
    have : i < c.length := (List.getElem?_eq_some_iff.mp hi).1
    exact ⟨s, by rw [List.getElem?_append_left (by omega)]; exact h1, h2⟩

/-- C86 (c): whether a person is in a step only depends on the person's own events. -/
theorem C86_own_events (known : String → Bool) (d : FunnelData S E P T) (events : List E) (w : StepWindow) (unit : String) (value : ℤ) (hw : GoodWindow known w unit value)
    (steps : List S) (p : P) (he : ∀ e, EventOf d p e ↔ EventOf { d with events := events } p e)
    (parts parts' : List (String × ℕ × List (StepRow E T))) (h : evalFunnel known d w steps = .ok parts) (h' : evalFunnel known { d with events := events } w steps = .ok parts')
    (n : ℕ) (part part' : String × ℕ × List (StepRow E T)) (hp : parts[n]? = some part) (hp' : parts'[n]? = some part') :
    some p ∈ part.2.2.map (fun r => d.person r.1) ↔ some p ∈ part'.2.2.map (fun r => d.person r.1) := by
  have h1 := C38_persons known d w unit value hw steps parts h n part hp p
  have h2 := C38_persons known _ w unit value hw steps parts' h' n part' hp' p
  rw [h1]
  refine Iff.trans ?_ h2.symm
  have hrefl : ∀ d' : FunnelData S E P T, AsksMore d' steps steps := fun d' i s hs => ⟨s, hs, fun _ h => h⟩
  constructor
  · rintro ⟨c, e, hc1, hc2, hc3, hc4⟩
    exact ⟨c, e, hc1, chain_mono (fun x hx hxe => ((he x).mp ⟨hxe, chain_person hc2 hc3 hc4 x hx⟩).1) le_rfl (hrefl d) hc2, hc3, hc4⟩
  · rintro ⟨c, e, hc1, hc2, hc3, hc4⟩
    exact ⟨c, e, hc1, chain_mono (d := { d with events := events }) (events := d.events)
      (fun x hx hxe => ((he x).mpr ⟨hxe, chain_person hc2 hc3 hc4 x hx⟩).1) le_rfl (hrefl _) hc2, hc3, hc4⟩

omit [LinearOrder T] [DecidableEq P] in
theorem sequences_perm {a b : List E} (h : a.Perm b) (n : ℕ) : (sequences a n).Perm (sequences b n) := by
  induction n with
  | zero => exact .refl _
  | succ n ih =>
    rw [sequences, sequences]
    refine List.Perm.trans (h.flatMap_right _) ?_
    clear h
    generalize sequences b n = l at ih
    generalize sequences a n = l' at ih
    induction b with
    | nil => exact .refl _
    | cons e b ihb => exact (ih.map _).append ihb

/-- C86 (d): the order in which events are stored does not matter: each step has the same rows, each as often. -/
theorem C86_storage (known : String → Bool) (d : FunnelData S E P T) (events : List E) (w : StepWindow) (unit : String) (value : ℤ) (hw : GoodWindow known w unit value)
    (steps : List S) (he : d.events.Perm events) (parts parts' : List (String × ℕ × List (StepRow E T))) (h : evalFunnel known d w steps = .ok parts)
    (h' : evalFunnel known { d with events := events } w steps = .ok parts') (n : ℕ) (part part' : String × ℕ × List (StepRow E T)) (hp : parts[n]? = some part)
    (hp' : parts'[n]? = some part') : part.2.2.Perm part'.2.2 := by
  have hs : steps ≠ [] := by
    rintro rfl
    simp [evalFunnel, funnelSql, stepSqls] at h
  obtain ⟨parts1, h1, h2, h3⟩ := C38_steps known d w unit value hw steps hs
  rw [h] at h1; injection h1 with h1; subst h1
  obtain ⟨parts2, h1', h2', h3'⟩ := C38_steps known { d with events := events } w unit value hw steps hs
  rw [h'] at h1'; injection h1' with h1'; subst h1'
  have hn : n < steps.length := by rw [← h2]; exact (List.getElem?_eq_some_iff.mp hp).1
  obtain ⟨rows, hr, hperm⟩ := h3 n hn
  rw [hp] at hr; injection hr with hr; subst hr
  obtain ⟨rows', hr', hperm'⟩ := h3' n hn
  rw [hp'] at hr'; injection hr' with hr'; subst hr'
  refine hperm.trans (List.Perm.trans ?_ hperm'.symm)
  unfold chainRows
  have hf : ∀ c, FunnelChain { d with events := events } unit value steps c ↔ FunnelChain d unit value steps c := by
    intro c
    constructor
    · intro hc
      exact ⟨fun e h => he.mem_iff.mpr (hc.events e h), hc.holds, hc.order, hc.window⟩
    · intro hc
      exact ⟨fun e h => he.mem_iff.mp (hc.events e h), hc.holds, hc.order, hc.window⟩
  refine List.Perm.trans (((sequences_perm he (n + 1)).filter _).filterMap _) (List.Perm.of_eq (congrArg _ ?_))
  exact List.filter_congr fun c _ => by rw [decide_eq_decide, hf c]

end

/-- The hypotheses of C86: Ann and Bob, with a window of 24 and of 48 hours, and with one more step. -/
example : ∃ parts parts' parts'', evalFunnel (fun u => u == "hours") funnelEx ⟨some "hour", some 24⟩ ["visit", "buy"] = .ok parts ∧
    evalFunnel (fun u => u == "hours") funnelEx ⟨some "hours", some 48⟩ ["visit", "buy"] = .ok parts' ∧
    evalFunnel (fun u => u == "hours") funnelEx ⟨some "hour", some 24⟩ (["visit", "buy"] ++ ["visit"]) = .ok parts'' ∧
    parts.length = 2 ∧ parts''.length = 3 ∧
    GoodWindow (fun u => u == "hours") ⟨some "hour", some 24⟩ "hours" 24 ∧ GoodWindow (fun u => u == "hours") ⟨some "hours", some 48⟩ "hours" 48 ∧
    AsksMore funnelEx ["visit", "buy"] (["visit", "buy"] ++ ["visit"]) ∧
    ∀ part part', parts[1]? = some part → parts'[1]? = some part' → some "ann" ∈ part'.2.2.map (fun r => funnelEx.person r.1) := by
  have w1 : GoodWindow (fun u => u == "hours") ⟨some "hour", some 24⟩ "hours" 24 := ⟨⟨"hour", rfl, by decide +kernel⟩, by decide, rfl⟩
  have w2 : GoodWindow (fun u => u == "hours") ⟨some "hours", some 48⟩ "hours" 48 := ⟨⟨"hours", rfl, by decide +kernel⟩, by decide, rfl⟩
  obtain ⟨p1, h1, l1, -⟩ := C38_steps _ funnelEx _ _ _ w1 ["visit", "buy"] (by simp)
  obtain ⟨p2, h2, -, -⟩ := C38_steps _ funnelEx _ _ _ w2 ["visit", "buy"] (by simp)
  obtain ⟨p3, h3, l3, -⟩ := C38_steps _ funnelEx _ _ _ w1 (["visit", "buy"] ++ ["visit"]) (by simp)
  refine ⟨p1, p2, p3, h1, h2, h3, l1, l3, w1, w2, fun i s hi => ⟨s, ?_, fun _ h => h⟩, fun part part' hp hp' => ?_⟩
  · rw [List.getElem?_append_left (List.getElem?_eq_some_iff.mp hi).1]
    exact hi
  · refine (C86_more _ funnelEx funnelEx.events _ _ _ _ _ w1 w2 ["visit", "buy"] ["visit", "buy"] (by decide) (fun i s hs => ⟨s, hs, fun _ h => h⟩) (fun _ h => h) p1 p2 h1 h2 1
      part part' hp hp').2 "ann" ?_
    rw [C38_persons _ _ _ _ _ w1 _ _ h1 1 part hp]
    refine ⟨[(1, some "ann", 1, "visit"), (3, some "ann", 5, "buy")], (3, some "ann", 5, "buy"), rfl, ⟨by simp [funnelEx], ?_, ?_, ?_⟩, rfl, rfl⟩
    · intro i e hi
      match i, hi with
      | 0, hi => cases hi; exact ⟨"visit", rfl, by decide⟩
      | 1, hi => cases hi; exact ⟨"buy", rfl, by decide⟩
    · intro i a b ha hb
      match i, ha, hb with
      | 0, ha, hb => cases ha; cases hb; exact ⟨⟨"ann", rfl, rfl⟩, 1, 5, rfl, rfl, by decide⟩
    · intro i a e hi ha he
      match i, he with
      | 1, he => cases ha; cases he; exact ⟨1, 5, 4, rfl, rfl, rfl, by decide⟩

/-- The hypotheses of C86 (c) and (d): Bob's events are other ones, and Ann's are stored the other way round. -/
example : (∀ e, EventOf funnelEx "ann" e ↔ EventOf { funnelEx with events := [(3, some "ann", 5, "buy"), (2, some "ann", 2, "visit"), (1, some "ann", 1, "visit"),
    (7, some "bob", 2, "buy")] } "ann" e) ∧ funnelEx.events.Perm funnelEx.events.reverse := by
  refine ⟨fun e => ?_, (List.reverse_perm _).symm⟩
  unfold EventOf
  constructor
  · rintro ⟨h1, h2⟩
    refine ⟨?_, h2⟩
    simp only [funnelEx, List.mem_cons, List.not_mem_nil, or_false] at h1
    rcases h1 with rfl | rfl | rfl | rfl | rfl | rfl <;> first | (simp; done) | (simp [funnelEx] at h2)
  · rintro ⟨h1, h2⟩
    refine ⟨?_, h2⟩
    simp only [List.mem_cons, List.not_mem_nil, or_false] at h1
    rcases h1 with rfl | rfl | rfl | rfl <;> first | (simp [funnelEx]; done) | (simp [funnelEx] at h2)

end ML
