import Verif.Funnel.Spec
import Std.Data.String.ToNat
import Mathlib.Data.List.Basic
set_option autoImplicit false
namespace ML
open Spec
variable {S E P T : Type} [DecidableEq P] [LinearOrder T]

theorem stepName_inj {i j : ℕ} (h : stepName i = stepName j) : i = j := by
  unfold stepName at h
  have h' := congrArg String.toList h
  simp only [String.toList_append] at h'
  have h2 := List.append_cancel_left h'
  exact Nat.repr_injective (String.toList_inj.mp h2)

theorem personEq_iff (a b : Option P) : personEq a b = true ↔ ∃ p, a = some p ∧ b = some p := by
  cases a <;> cases b <;> simp [personEq, eq_comm]

theorem timeLt_iff (a b : Option T) : timeLt a b = true ↔ ∃ s t, a = some s ∧ b = some t ∧ s < t := by
  cases a <;> cases b <;> simp [timeLt]

omit [DecidableEq P] [LinearOrder T] in
theorem sqlWithin_iff (d : FunnelData S E P T) (w : StepWithin) (a b : Option T) :
    sqlWithin d w a b = true ↔ ∃ s t n, a = some s ∧ b = some t ∧ d.diff w.unit s t = some n ∧ n ≤ w.value := by
  cases a with
  | none => simp [sqlWithin]
  | some x =>
    cases b with
    | none => simp [sqlWithin]
    | some y =>
      cases h : d.diff w.unit x y with
      | none => simp [sqlWithin, h]
      | some n => simp [sqlWithin, h]

/-- The rows of step `n + 1` as computed, for the given steps. -/
def stepRows (d : FunnelData S E P T) (unit : String) (value : ℤ) (steps : List S) : ℕ → List (StepRow E T)
  | 0 =>
    match steps[0]? with
    | none => []
    | some s => (d.events.filter (d.holds s)).map fun e => (e, d.time e)
  | n + 1 =>
    match steps[n + 1]? with
    | none => []
    | some s => d.events.flatMap fun b => ((stepRows d unit value steps n).filter fun p =>
        personEq (d.person b) (d.person p.1) && timeLt (d.time p.1) (d.time b) && d.holds s b &&
          sqlWithin d ⟨stepName (n + 1), unit, value⟩ p.2 (d.time b)).map fun p => (b, p.2)

theorem evalSteps_rows (known : String → Bool) (d : FunnelData S E P T) (u u' : String) (v : ℤ) (hu : pluralUnit u = .ok u') (hk : known u' = true)
    (steps : List S) : ∀ (rest : List S) (i : ℕ), steps.drop i = rest →
    ∃ ss, stepSqls known ⟨some u, some v⟩ i rest = .ok ss ∧ ss.length = rest.length ∧
      evalSteps d ((List.range i).map fun k => (stepName (k + 1), stepRows d u' v steps k)) ss =
        .ok ((List.range (i + rest.length)).map fun k => (stepName (k + 1), stepRows d u' v steps k)) := by
  intro rest
  induction rest with
  | nil => intro i _; exact ⟨[], rfl, rfl, rfl⟩
  | cons c cs ih =>
    intro i hi
    have hget : steps[i]? = some c := by
      have := congrArg (·[0]?) hi
      simpa using this
    have hdrop : steps.drop (i + 1) = cs := by
      have := congrArg (List.drop 1) hi
      simpa using this
    obtain ⟨ss, h1, h2, h3⟩ := ih (i + 1) hdrop
    have hw : withinSql known ⟨some u, some v⟩ (i + 1) = .ok ⟨stepName i, u', v⟩ := by
      simp only [withinSql, hu, hk, if_true, Nat.add_sub_cancel]
    have hlook : ∀ k, k < i → dictGet ((List.range i).map fun k => (stepName (k + 1), stepRows d u' v steps k)) (stepName (k + 1)) = some (stepRows d u' v steps k) := by
      intro k hk
      have : ∀ n, k < n → dictGet ((List.range n).map fun k => (stepName (k + 1), stepRows d u' v steps k)) (stepName (k + 1)) = some (stepRows d u' v steps k) := by
        intro n
        induction n with
        | zero => intro h; omega
        | succ n ihn =>
          intro h
          rw [List.range_succ, List.map_append]
          have happ : ∀ (l1 l2 : List (String × List (StepRow E T))) x, dictGet (l1 ++ l2) x = (dictGet l1 x).or (dictGet l2 x) := by
            intro l1 l2 x
            induction l1 with
            | nil => simp [dictGet]
            | cons p ps ihp =>
              obtain ⟨a, b⟩ := p
              simp only [List.cons_append, dictGet]
              split
              · rfl
              · exact ihp
          rw [happ]
          by_cases hkn : k < n
          · rw [ihn hkn]; rfl
          · obtain rfl : k = n := by omega
            have hnone : dictGet ((List.range k).map fun j => (stepName (j + 1), stepRows d u' v steps j)) (stepName (k + 1)) = none := by
              cases hd : dictGet ((List.range k).map fun j => (stepName (j + 1), stepRows d u' v steps j)) (stepName (k + 1)) with
              | none => rfl
              | some r =>
                have := dictGet_mem hd
                rw [List.mem_map] at this
                obtain ⟨j, hj, he⟩ := this
                injection he with he _
                have := stepName_inj he
                rw [List.mem_range] at hj
                omega
            rw [hnone]
            simp [dictGet]
      exact this i hk
    have hstep : ∃ s, stepSql known ⟨some u, some v⟩ i c = .ok s ∧ s.name = stepName (i + 1) ∧
        evalStep d ((List.range i).map fun k => (stepName (k + 1), stepRows d u' v steps k)) s = .ok (stepRows d u' v steps i) := by
      cases i with
      | zero =>
        refine ⟨⟨stepName 1, none, c, none, none⟩, rfl, rfl, ?_⟩
        simp only [evalStep, stepRows, hget]
      | succ i =>
        refine ⟨⟨stepName (i + 1 + 1), some ⟨stepName (i + 1), .prev, .base⟩, c, some ⟨stepName (i + 1), u', v⟩, some (stepName (i + 1))⟩, ?_, rfl, ?_⟩
        · unfold stepSql
          simp only [hw]
          rw [if_pos (by omega)]
          simp [Except.map]
        · simp only [evalStep, hlook i (Nat.lt_succ_self i), Option.map_some, Option.getD_some, and_self, if_true, stepRows, hget]
    obtain ⟨s, hs1, hs2, hs3⟩ := hstep
    refine ⟨s :: ss, ?_, by simp [h2], ?_⟩
    · simp only [stepSqls, hs1, h1]
    · simp only [evalSteps, hs3, hs2]
      have : (List.range i).map (fun k => (stepName (k + 1), stepRows d u' v steps k)) ++ [(stepName (i + 1), stepRows d u' v steps i)] =
          (List.range (i + 1)).map fun k => (stepName (k + 1), stepRows d u' v steps k) := by
        rw [List.range_succ, List.map_append]; rfl
      rw [this, h3]
      simp only [List.length_cons]
      congr 3
      omega

theorem sequences_length (events : List E) (n : ℕ) : ∀ c ∈ sequences events n, c.length = n := by
  induction n with
  | zero => intro c hc; simp only [sequences, List.mem_singleton] at hc; subst hc; rfl
  | succ n ih =>
    intro c hc
    simp only [sequences, List.mem_flatMap, List.mem_map] at hc
    obtain ⟨e, _, c', hc', rfl⟩ := hc
    simp [ih c' hc']

theorem sequences_mem (events : List E) (n : ℕ) (c : List E) : c ∈ sequences events n ↔ c.length = n ∧ ∀ e ∈ c, e ∈ events := by
  induction n generalizing c with
  | zero =>
    simp only [sequences, List.mem_singleton, List.length_eq_zero_iff]
    constructor
    · rintro rfl; simp
    · exact fun h => h.1
  | succ n ih =>
    simp only [sequences, List.mem_flatMap, List.mem_map]
    constructor
    · rintro ⟨e, he, c', hc', rfl⟩
      rw [ih] at hc'
      refine ⟨by simp [hc'.1], ?_⟩
      intro x hx
      rw [List.mem_append, List.mem_singleton] at hx
      rcases hx with hx | rfl
      · exact hc'.2 x hx
      · exact he
    · rintro ⟨hl, hall⟩
      rcases List.eq_nil_or_concat c with rfl | ⟨c', e, rfl⟩
      · simp at hl
      · simp only [List.concat_eq_append] at hl hall ⊢
        refine ⟨e, hall e (by simp), c', (ih c').mpr ⟨by simpa using hl, fun x hx => hall x (by simp [hx])⟩, rfl⟩

omit [DecidableEq P] in
/-- A chain with one more event. -/
theorem chain_snoc (d : FunnelData S E P T) (u : String) (v : ℤ) (steps : List S) (c : List E) (a l b : E) (ha : c.head? = some a) (hl : c.getLast? = some l) :
    FunnelChain d u v steps (c ++ [b]) ↔ FunnelChain d u v steps c ∧ b ∈ d.events ∧ (∃ s, steps[c.length]? = some s ∧ d.holds s b = true) ∧
      Follows d l b ∧ WithinStep d u v a b := by
  have hne : c ≠ [] := by rintro rfl; cases ha
  have hpos : 0 < c.length := List.length_pos_iff.mpr hne
  have ha' : c[0]? = some a := by rw [← List.head?_eq_getElem?]; exact ha
  have hl' : c[c.length - 1]? = some l := by rw [← List.getLast?_eq_getElem?]; exact hl
  have hlast : (c ++ [b])[c.length]? = some b := by simp
  have hold : ∀ i, i < c.length → (c ++ [b])[i]? = c[i]? := fun i hi => List.getElem?_append_left hi
  constructor
  · intro h
    refine ⟨⟨?_, ?_, ?_, ?_⟩, h.events b (by simp), h.holds _ _ hlast, ?_, ?_⟩
    · intro e he; exact h.events e (by simp [he])
    · intro i e hi
      have hlt := (List.getElem?_eq_some_iff.mp hi).1
      exact h.holds i e (by rw [hold i hlt]; exact hi)
    · intro i x y hx hy
      have h1 := (List.getElem?_eq_some_iff.mp hx).1
      have h2 := (List.getElem?_eq_some_iff.mp hy).1
      exact h.order i x y (by rw [hold i h1]; exact hx) (by rw [hold _ h2]; exact hy)
    · intro i x y hi hx hy
      have h2 := (List.getElem?_eq_some_iff.mp hy).1
      exact h.window i x y hi (by rw [hold 0 hpos]; exact hx) (by rw [hold _ h2]; exact hy)
    · refine h.order (c.length - 1) l b (by rw [hold _ (by omega)]; exact hl') ?_
      rw [show c.length - 1 + 1 = c.length by omega]; exact hlast
    · exact h.window c.length a b hpos (by rw [hold 0 hpos]; exact ha') hlast
  · rintro ⟨h, hb, hs, hf, hw⟩
    have hcase : ∀ i e, (c ++ [b])[i]? = some e → (i < c.length ∧ c[i]? = some e) ∨ (i = c.length ∧ e = b) := by
      intro i e hi
      by_cases hlt : i < c.length
      · left; rw [hold i hlt] at hi; exact ⟨hlt, hi⟩
      · right
        have := (List.getElem?_eq_some_iff.mp hi).1
        simp only [List.length_append, List.length_singleton] at this
        obtain rfl : i = c.length := by omega
        rw [hlast] at hi; injection hi with hi
        exact ⟨rfl, hi.symm⟩
    refine ⟨?_, ?_, ?_, ?_⟩
    · intro e he
      rw [List.mem_append, List.mem_singleton] at he
      rcases he with he | rfl
      · exact h.events e he
      · exact hb
    · intro i e hi
      rcases hcase i e hi with ⟨_, hi⟩ | ⟨rfl, rfl⟩
      · exact h.holds i e hi
      · exact hs
    · intro i x y hx hy
      rcases hcase _ y hy with ⟨hlt, hy⟩ | ⟨he, rfl⟩
      · rw [hold i (by omega)] at hx
        exact h.order i x y hx hy
      · rw [hold i (by omega)] at hx
        rw [show i = c.length - 1 by omega, hl'] at hx
        injection hx with hx; subst hx
        exact hf
    · intro i x y hi hx hy
      rw [hold 0 hpos, ha'] at hx
      injection hx with hx; subst hx
      rcases hcase _ y hy with ⟨hlt, hy⟩ | ⟨he, rfl⟩
      · exact h.window i a y hi ha' hy
      · exact hw

omit [DecidableEq P] in
theorem chain_one (d : FunnelData S E P T) (u : String) (v : ℤ) (steps : List S) (b : E) :
    FunnelChain d u v steps [b] ↔ b ∈ d.events ∧ ∃ s, steps[0]? = some s ∧ d.holds s b = true := by
  constructor
  · intro h
    exact ⟨h.events b (by simp), h.holds 0 b rfl⟩
  · rintro ⟨hb, hs⟩
    refine ⟨?_, ?_, ?_, ?_⟩
    · intro e he; simp only [List.mem_singleton] at he; subst he; exact hb
    · intro i e hi
      cases i with
      | zero => injection hi with hi; subst hi; exact hs
      | succ i => simp at hi
    · intro i x y _ hy; simp at hy
    · intro i x y hi _ hy
      cases i with
      | zero => omega
      | succ i => simp at hy

theorem filterMap_filter_map {A B C : Type} (g : A → Option B) (p : B → Bool) (f : B → C) (l : List A) :
    ((l.filterMap g).filter p).map f = l.filterMap fun c => (g c).bind fun x => if p x then some (f x) else none := by
  induction l with
  | nil => rfl
  | cons c cs ih =>
    cases h : g c with
    | none => simp only [List.filterMap_cons, h, Option.bind_none, ih]
    | some x =>
      simp only [List.filterMap_cons, h, Option.bind_some]
      cases hp : p x with
      | true => simp [hp, ih]
      | false => simp [hp, ih]

theorem funnel_flatMap_congr {A B : Type} (l : List A) (f g : A → List B) (h : ∀ a ∈ l, f a = g a) : l.flatMap f = l.flatMap g := by
  induction l with
  | nil => rfl
  | cons a l ih => simp [h a (by simp), ih (fun b hb => h b (List.mem_cons_of_mem _ hb))]

theorem filterMap_flatMap' {A B C : Type} (g : B → Option C) (f : A → List B) (l : List A) :
    (l.flatMap f).filterMap g = l.flatMap fun a => (f a).filterMap g := by
  induction l with
  | nil => rfl
  | cons a l ih => simp [List.filterMap_append, ih]

theorem funnel_filterMap_congr {A B : Type} (l : List A) (f g : A → Option B) (h : ∀ a ∈ l, f a = g a) : l.filterMap f = l.filterMap g := by
  induction l with
  | nil => rfl
  | cons a l ih => simp only [List.filterMap_cons, h a (by simp), ih (fun b hb => h b (List.mem_cons_of_mem _ hb))]

open Classical in
/-- The computed rows are those of the chains. -/
theorem stepRows_chains (d : FunnelData S E P T) (u : String) (v : ℤ) (steps : List S) (n : ℕ) (hn : n < steps.length) :
    stepRows d u v steps n = chainRows d u v steps (n + 1) := by
  induction n with
  | zero =>
    unfold stepRows
    rw [List.getElem?_eq_getElem hn]
    simp only
    unfold chainRows
    simp only [sequences, List.map_cons, List.map_nil, List.nil_append]
    have hfl : d.events.flatMap (fun e => [[e]]) = d.events.map (fun e => [e]) := by
      generalize d.events = es
      induction es with
      | nil => rfl
      | cons e es ih => simp [ih]
    rw [hfl, List.filterMap_filter, List.filterMap_map]
    have hmap : (d.events.filter (d.holds steps[0])).map (fun e => (e, d.time e)) =
        d.events.filterMap (fun e => if d.holds steps[0] e then some (e, d.time e) else none) := by
      generalize d.events = es
      induction es with
      | nil => rfl
      | cons e es ih => cases h : d.holds steps[0] e <;> simp [h, ih]
    rw [hmap]
    apply funnel_filterMap_congr
    intro e he
    simp only [Function.comp, List.head?_cons, List.getLast?_singleton]
    have hiff : FunnelChain d u v steps [e] ↔ d.holds steps[0] e = true := by
      rw [chain_one]
      constructor
      · rintro ⟨_, s, hs, hh⟩
        rw [List.getElem?_eq_getElem hn] at hs
        injection hs with hs; subst hs; exact hh
      · intro h; exact ⟨he, _, List.getElem?_eq_getElem hn, h⟩
    by_cases h : d.holds steps[0] e = true
    · simp [h, hiff.mpr h]
    · simp [h, mt hiff.mp h]
  | succ n ih =>
    have ih := ih (by omega)
    unfold stepRows
    rw [List.getElem?_eq_getElem hn]
    simp only
    rw [ih]
    unfold chainRows
    rw [show sequences d.events (n + 1 + 1) = d.events.flatMap fun e => (sequences d.events (n + 1)).map (· ++ [e]) from rfl]
    rw [List.filterMap_filter, List.filterMap_filter, filterMap_flatMap']
    apply funnel_flatMap_congr
    intro b hb
    rw [filterMap_filter_map, List.filterMap_map]
    apply funnel_filterMap_congr
    intro c hc
    have hlen := sequences_length _ _ c hc
    obtain ⟨a, ha⟩ : ∃ a, c.head? = some a := by
      cases c with
      | nil => simp at hlen
      | cons a c => exact ⟨a, rfl⟩
    obtain ⟨l, hl⟩ : ∃ l, c.getLast? = some l := by
      cases h : c.getLast? with
      | none => rw [List.getLast?_eq_none_iff] at h; subst h; simp at hlen
      | some l => exact ⟨l, rfl⟩
    have hhead : (c ++ [b]).head? = some a := by
      cases c with
      | nil => simp at ha
      | cons x c => simpa using ha
    have hlast : (c ++ [b]).getLast? = some b := by simp
    have hs := chain_snoc d u v steps c a l b ha hl
    rw [hlen] at hs
    have hcond : (personEq (d.person b) (d.person l) && timeLt (d.time l) (d.time b) && d.holds steps[n + 1] b &&
          sqlWithin d ⟨stepName (n + 1), u, v⟩ (d.time a) (d.time b)) = true ↔
        b ∈ d.events ∧ (∃ s, steps[n + 1]? = some s ∧ d.holds s b = true) ∧ Follows d l b ∧ WithinStep d u v a b := by
      rw [Bool.and_eq_true, Bool.and_eq_true, Bool.and_eq_true, personEq_iff, timeLt_iff, sqlWithin_iff, List.getElem?_eq_getElem hn]
      simp only [Follows, WithinStep, Option.some.injEq, exists_eq_left', hb, true_and]
      constructor
      · rintro ⟨⟨⟨⟨p, h1, h2⟩, h3⟩, h4⟩, h5⟩; exact ⟨h4, ⟨⟨p, h2, h1⟩, h3⟩, h5⟩
      · rintro ⟨h4, ⟨⟨p, h2, h1⟩, h3⟩, h5⟩; exact ⟨⟨⟨⟨p, h1, h2⟩, h3⟩, h4⟩, h5⟩
    simp only [Function.comp, ha, hl, hhead, hlast]
    by_cases hch : FunnelChain d u v steps c
    · by_cases hc2 : b ∈ d.events ∧ (∃ s, steps[n + 1]? = some s ∧ d.holds s b = true) ∧ Follows d l b ∧ WithinStep d u v a b
      · have h1 := hs.mpr ⟨hch, hc2⟩
        rw [if_pos (by simpa using hch), if_pos (by simpa using h1)]
        simp only [Option.bind_some]
        rw [if_pos (hcond.mpr hc2)]
      · have h1 : ¬ FunnelChain d u v steps (c ++ [b]) := fun h => hc2 (hs.mp h).2
        rw [if_pos (by simpa using hch), if_neg (by simpa using h1)]
        simp only [Option.bind_some]
        rw [if_neg (fun h => hc2 (hcond.mp h))]
    · have h1 : ¬ FunnelChain d u v steps (c ++ [b]) := fun h => hch (hs.mp h).1
      rw [if_neg (by simpa using hch), if_neg (by simpa using h1)]
      rfl

end ML
