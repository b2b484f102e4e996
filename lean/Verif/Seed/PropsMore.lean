import Verif.Seed.Props
import Mathlib.Tactic.IntervalCases

/-!
# C68: whose columns a view has, the names, the marks and the texts of the queries
-/

set_option autoImplicit false

namespace ML
open Spec

/-- C68. **Whose columns.** When no two chosen tables have the same name but for case, in one schema or in two, the fields of a view are those of
one table, all of them, and its SQL names that table. -/
theorem C68_own (s : Seeder) (model : String) (rows : List ColRow) (tabs : List TabRow) (t : String) (v : SeedView)
    (h : ViewOf s model rows tabs t v)
    (ht : t ∈ rows.map (·.table))
    (one : ∀ r ∈ rows, ∀ r' ∈ rows, lower r.table = lower r'.table → r.table = r'.table ∧ r.schema = r'.schema) :
    ∃ schema, (∃ r ∈ rows, r.schema = schema ∧ r.table = t) ∧ v.sqlTableName = tableIn s schema t ∧
      List.Forall₂ (SeededAs s.wh) (rows.filter fun r => r.table = t ∧ r.schema = schema) v.fields := by
  obtain ⟨_, _, hf, _, _, r, rest, hr, hs⟩ := h
  have hmem : r ∈ columnsOf rows t := by rw [hr]; simp
  obtain ⟨hrows, hlow⟩ := List.mem_filter.mp hmem
  obtain ⟨r0, hr0, ht0⟩ := List.mem_map.mp ht
  have hlow' : lower r.table = lower t := by simpa using hlow
  obtain ⟨e1, e2⟩ := one r hrows r0 hr0 (by rw [ht0]; exact hlow')
  refine ⟨r.schema, ⟨r, hrows, rfl, by rw [e1, ht0]⟩, hs, ?_⟩
  have : (rows.filter fun r' => r'.table = t ∧ r'.schema = r.schema) = columnsOf rows t := by
    unfold columnsOf
    refine List.filter_congr ?_
    intro x hx
    apply decide_eq_decide.mpr
    constructor
    · rintro ⟨h, _⟩; rw [h]
    · intro hl
      obtain ⟨g1, g2⟩ := one x hx r hrows (by rw [hlow']; exact hl)
      exact ⟨by rw [g1, e1, ht0], g2⟩
  rw [this]
  exact hf

/-- C68, against the claim: when no schema is chosen and two schemas have a table of the name, the view has the columns of both under the name of
the one that comes first. -/
theorem C68_mixed (s : Seeder) (model : String) (a b : ColRow) (tabs : List TabRow) (v : SeedView) (hw : lower a.table = lower b.table)
    (h : ViewOf s model [a, b] tabs a.table v) :
    v.sqlTableName = tableIn s a.schema a.table ∧ ∃ f g, v.fields = [f, g] ∧ f.sql = "${TABLE}." ++ columnIn s.wh a.column ∧
      g.sql = "${TABLE}." ++ columnIn s.wh b.column := by
  have hc : columnsOf [a, b] a.table = [a, b] := by
    unfold columnsOf
    simp [hw]
  obtain ⟨_, _, hf, _, _, r, rest, hr, hs⟩ := h
  rw [hc] at hf hr
  cases hr
  refine ⟨hs, ?_⟩
  generalize v.fields = l at hf
  cases hf with
  | cons h1 h2 =>
    cases h2 with
    | cons h3 h4 => cases h4; exact ⟨_, _, rfl, h1.2.1, h3.2.1⟩

theorem lowerChar_range (c : Char) (h : ('a' ≤ c ∧ c ≤ 'z') ∨ ('A' ≤ c ∧ c ≤ 'Z') ∨ ('0' ≤ c ∧ c ≤ '9') ∨ c = '_') : nameChar c.toLower := by
  have hv : ∀ d : Char, ('A' ≤ d ∧ d ≤ 'Z') ↔ (65 ≤ d.toNat ∧ d.toNat ≤ 90) := by
    intro d; exact ⟨fun h => ⟨h.1, h.2⟩, fun h => ⟨h.1, h.2⟩⟩
  by_cases hu : 'A' ≤ c ∧ c ≤ 'Z'
  · have : ∀ n, 65 ≤ n → n ≤ 90 → nameChar (Char.ofNat n).toLower := by
      intro n h1 h2
      unfold nameChar
      interval_cases n <;> decide
    have hh := this c.toNat ((hv c).mp hu).1 ((hv c).mp hu).2
    rwa [Char.ofNat_toNat] at hh
  · have : c.toLower = c := by
      unfold Char.toLower
      rw [dif_neg]
      intro h'
      exact hu ⟨h'.1, h'.2⟩
    rw [this]
    rcases h with h | h | h | h
    · exact Or.inl h
    · exact absurd h hu
    · exact Or.inr (Or.inl h)
    · exact Or.inr (Or.inr h)

theorem seed_mem_strip {c : Char} {l : List Char} (h : c ∈ strip l) : c ∈ l := by
  unfold strip at h
  have h1 := List.mem_reverse.mp h
  have h2 := (List.dropWhile_sublist _).subset h1
  have h3 := List.mem_reverse.mp h2
  exact (List.dropWhile_sublist _).subset h3

/-- C68. **The names.** A name that is seeded has small letters, digits and underscores only, unless the name it comes from has other white space
than blanks inside. -/
theorem C68_name (s : String) (c : Char) (h : c ∈ (cleanName s).toList) : nameChar c ∨ c = '\t' ∨ c = '\n' ∨ c = '\r' := by
  unfold cleanName at h
  rw [String.toList_ofList] at h
  obtain ⟨d, hd, rfl⟩ := List.mem_map.mp h
  have hd' := seed_mem_strip hd
  obtain ⟨e, he, rfl⟩ := List.mem_map.mp hd'
  have hk := (List.mem_filter.mp he).2
  simp only [Bool.or_eq_true, Bool.and_eq_true, decide_eq_true_eq] at hk
  by_cases hs : isSpace e = true
  · have : e = ' ' ∨ e = '\t' ∨ e = '\n' ∨ e = '\r' := by
      unfold isSpace at hs
      simp only [Bool.or_eq_true, decide_eq_true_eq] at hs
      rcases hs with ((h | h) | h) | h
      · exact Or.inl h
      · exact Or.inr (Or.inl h)
      · exact Or.inr (Or.inr (Or.inl h))
      · exact Or.inr (Or.inr (Or.inr h))
    rcases this with rfl | rfl | rfl | rfl
    · left; right; right; decide
    · right; left; decide
    · right; right; left; decide
    · right; right; right; decide
  · have hn : nameChar e.toLower := by
      refine lowerChar_range e ?_
      rcases hk with (((h | h) | h) | h) | h
      · exact Or.inl h
      · exact Or.inr (Or.inl h)
      · exact Or.inr (Or.inr (Or.inl h))
      · exact absurd h hs
      · exact Or.inr (Or.inr (Or.inr h))
    left
    by_cases hb : e.toLower = ' '
    · rw [hb, if_pos rfl]; right; right; rfl
    · rw [if_neg hb]; exact hn

/-- C68. A name that is valid already is only written in small letters. -/
theorem C68_name_kept (s : String) (h : ∀ c ∈ s.toList, ('a' ≤ c ∧ c ≤ 'z') ∨ ('A' ≤ c ∧ c ≤ 'Z') ∨ ('0' ≤ c ∧ c ≤ '9') ∨ c = '_') :
    cleanName s = lower s := by
  have h1 : (s.toList.filter fun c => ('a' ≤ c && c ≤ 'z') || ('A' ≤ c && c ≤ 'Z') || ('0' ≤ c && c ≤ '9') || isSpace c || c = '_') = s.toList := by
    rw [List.filter_eq_self]
    intro c hc
    simp only [Bool.or_eq_true, Bool.and_eq_true, decide_eq_true_eq]
    rcases h c hc with h | h | h | h
    · exact Or.inl (Or.inl (Or.inl (Or.inl h)))
    · exact Or.inl (Or.inl (Or.inl (Or.inr h)))
    · exact Or.inl (Or.inl (Or.inr h))
    · exact Or.inr h
  have hns : ∀ c, nameChar c → isSpace c = false ∧ c ≠ ' ' := by
    intro c hc
    have : ∀ x : Char, isSpace x = true → ¬ nameChar x := by
      intro x hx hn
      unfold isSpace at hx
      simp only [Bool.or_eq_true, decide_eq_true_eq] at hx
      unfold nameChar at hn
      rcases hx with ((rfl | rfl) | rfl) | rfl <;> revert hn <;> decide
    refine ⟨?_, ?_⟩
    · cases hb : isSpace c with
      | false => rfl
      | true => exact absurd hc (this c hb)
    · rintro rfl; exact this ' ' (by decide) hc
  have hl : ∀ c ∈ s.toList.map Char.toLower, isSpace c = false ∧ c ≠ ' ' := by
    intro c hc
    obtain ⟨d, hd, rfl⟩ := List.mem_map.mp hc
    exact hns _ (lowerChar_range d (h d hd))
  have hdrop : ∀ l : List Char, (∀ c ∈ l, isSpace c = false) → l.dropWhile isSpace = l := by
    intro l hl
    cases l with
    | nil => rfl
    | cons a l => rw [List.dropWhile_cons_of_neg (by rw [hl a (by simp)]; simp)]
  have h2 : strip (s.toList.map Char.toLower) = s.toList.map Char.toLower := by
    unfold strip
    rw [hdrop _ (fun c hc => (hl c hc).1), hdrop _ (fun c hc => (hl c (List.mem_reverse.mp hc)).1), List.reverse_reverse]
  unfold cleanName lower
  simp only
  rw [h1, h2]
  congr 1
  refine (List.map_congr_left ?_).trans (List.map_id _)
  intro c hc
  rw [if_neg (hl c hc).2]
  rfl

/-- C68. Different columns have different SQL. -/
theorem C68_sql_apart (w : Wh) (r r' : ColRow) (f f' : SeedField) (h : SeededAs w r f) (h' : SeededAs w r' f') (he : f.sql = f'.sql) :
    r.column = r'.column := by
  rw [h.2.1, h'.2.1] at he
  have h1 := congrArg String.toList he
  unfold columnIn at h1
  split_ifs at h1
  · rw [String.toList_append, String.toList_append] at h1
    exact String.ext (List.append_cancel_left h1)
  · simp only [String.toList_append] at h1
    exact String.ext (List.append_cancel_left (List.append_cancel_right (List.append_cancel_left h1)))

/-- C68, against the claim: names are not kept apart, and a name can be empty. -/
theorem C68_name_collision : cleanName "Unit Price" = cleanName "unit_price" ∧ cleanName "Prix (€)" = cleanName "prix" ∧ cleanName "数量" = "" := by
  refine ⟨by decide +kernel, by decide +kernel, by decide +kernel⟩

end ML
