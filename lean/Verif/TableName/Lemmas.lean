import Verif.TableName.Spec
import Mathlib.Data.List.TakeWhile
import Mathlib.Data.List.TakeDrop
set_option autoImplicit false
namespace ML
open Spec

theorem upToDashes_some (c rest : List Char) (h : '-' ∉ c) : upToDashes (c ++ '-' :: '-' :: rest) = some (c, rest) := by
  unfold upToDashes
  have h1 : (c ++ '-' :: '-' :: rest).takeWhile (· ≠ '-') = c := by
    rw [List.takeWhile_append_of_pos]
    · simp
    · intro x hx; simpa using fun e : x = '-' => h (e ▸ hx)
  have h2 : (c ++ '-' :: '-' :: rest).dropWhile (· ≠ '-') = '-' :: '-' :: rest := by
    rw [List.dropWhile_append_of_pos]
    · simp
    · intro x hx; simpa using fun e : x = '-' => h (e ▸ hx)
  rw [List.span_eq_takeWhile_dropWhile, h1, h2]
  rfl

theorem upToDashes_none (c : List Char) (h : '-' ∉ c) : upToDashes c = none := by
  unfold upToDashes
  have h2 : c.dropWhile (· ≠ '-') = [] := by
    rw [List.dropWhile_eq_nil_iff]
    intro x hx; simpa using fun e : x = '-' => h (e ▸ hx)
  rw [List.span_eq_takeWhile_dropWhile, h2]

theorem findConds_skip (a b : List Char) : findCondsGo a.length (a ++ b) = findCondsGo 0 b := by
  induction a with
  | nil => rfl
  | cons x a ih => simpa [findCondsGo] using ih

theorem isPrefix_dash (p : List Char) (c : Char) (cs : List Char) (h : c ≠ '-') : isPrefix ('-' :: p) (c :: cs) = false := by
  unfold isPrefix
  simp [List.isPrefixOf, Ne.symm h]

theorem findConds_plain (a b : List Char) (h : '-' ∉ a) : findCondsGo 0 (a ++ b) = findCondsGo 0 b := by
  induction a with
  | nil => rfl
  | cons x a ih =>
    have h1 : x ≠ '-' := fun e => h (e ▸ List.mem_cons_self)
    rw [List.cons_append]
    simp only [findCondsGo]
    rw [show ("-- if".toList : List Char) = '-' :: "- if".toList from rfl, isPrefix_dash _ _ _ h1]
    exact ih (fun hx => h (List.mem_cons_of_mem _ hx))

theorem findConds_block (cond rest : List Char) (h : '-' ∉ cond) :
    findCondsGo 0 ("-- if".toList ++ cond ++ "--".toList ++ rest) = cond :: findCondsGo 0 rest := by
  have e : "-- if".toList ++ cond ++ "--".toList ++ rest = '-' :: ('-' :: ' ' :: 'i' :: 'f' :: (cond ++ '-' :: '-' :: rest)) := by
    simp [show "-- if".toList = ['-', '-', ' ', 'i', 'f'] from rfl, show "--".toList = ['-', '-'] from rfl]
  rw [e]
  simp only [findCondsGo]
  rw [if_pos (by rw [show "-- if".toList = ['-', '-', ' ', 'i', 'f'] from rfl]; simp [isPrefix, List.isPrefixOf])]
  rw [show (('-' :: '-' :: ' ' :: 'i' :: 'f' :: (cond ++ '-' :: '-' :: rest)).drop 5) = cond ++ '-' :: '-' :: rest from rfl, upToDashes_some _ _ h]
  simp only [List.cons.injEq, true_and]
  have e2 : cond ++ '-' :: '-' :: rest = (cond ++ ['-', '-']) ++ rest := by simp
  rw [e2, ← findConds_skip (cond ++ ['-', '-']) rest]
  simp

theorem findConds_cases (pre : List Char) (cs : List TableCase) (h : PlainCases pre cs) :
    findCondsGo 0 (pre ++ casesText cs) = cs.map TableCase.cond := by
  rw [findConds_plain _ _ h.pre]
  have hc := h.cond
  have ht := h.table
  clear h
  induction cs with
  | nil => rfl
  | cons c cs ih =>
    have : casesText (c :: cs) = "-- if".toList ++ c.cond ++ "--".toList ++ (c.table ++ casesText cs) := by
      simp [casesText]
    rw [this, findConds_block _ _ (hc c List.mem_cons_self).1, findConds_plain _ _ (ht c List.mem_cons_self).1, List.map_cons,
      ih (fun x hx => hc x (List.mem_cons_of_mem _ hx)) (fun x hx => ht x (List.mem_cons_of_mem _ hx))]

/-- The cases without line ends. -/
def oneLine (cs : List TableCase) : List TableCase := cs.map (fun c => ⟨c.cond, c.table.filter (fun x => x != '\n')⟩)

theorem filter_cases (cs : List TableCase) (h : ∀ c ∈ cs, '\n' ∉ c.cond) :
    (casesText cs).filter (fun x => x != '\n') = casesText (oneLine cs) := by
  induction cs with
  | nil => rfl
  | cons c cs ih =>
    have hc : c.cond.filter (fun x => x != '\n') = c.cond := by
      rw [List.filter_eq_self]
      intro x hx
      simpa using fun e : x = '\n' => h c List.mem_cons_self (e ▸ hx)
    have e1 : casesText (c :: cs) = "-- if".toList ++ c.cond ++ "--".toList ++ c.table ++ casesText cs := by simp [casesText]
    have e2 : casesText (oneLine (c :: cs)) = "-- if".toList ++ c.cond ++ "--".toList ++ c.table.filter (fun x => x != '\n') ++ casesText (oneLine cs) := by
      simp [casesText, oneLine]
    rw [e1, e2, ← ih (fun x hx => h x (List.mem_cons_of_mem _ hx))]
    simp only [List.filter_append, hc]
    rfl

/-- Two texts without dashes, each followed by dashes: one is a prefix of the other only if they are equal. -/
theorem dashes_prefix (a b rest : List Char) (ha : '-' ∉ a) (hb : '-' ∉ b) (h : a ++ ['-', '-'] <+: b ++ '-' :: '-' :: rest) : a = b := by
  induction a generalizing b with
  | nil =>
    cases b with
    | nil => rfl
    | cons y b =>
      obtain ⟨t, ht⟩ := h
      simp only [List.nil_append, List.cons_append, List.cons.injEq] at ht
      exact absurd (ht.1 ▸ List.mem_cons_self) hb
  | cons x a ih =>
    cases b with
    | nil =>
      obtain ⟨t, ht⟩ := h
      simp only [List.nil_append, List.cons_append, List.cons.injEq] at ht
      exact absurd (ht.1 ▸ List.mem_cons_self) ha
    | cons y b =>
      rw [List.cons_append, List.cons_append, List.cons_prefix_cons] at h
      rw [h.1, ih b (fun hx => ha (List.mem_cons_of_mem _ hx)) (fun hx => hb (List.mem_cons_of_mem _ hx)) h.2]

/-- The phrase of an environment. -/
def condPhrase (a : List Char) : List Char := "-- if".toList ++ a ++ "--".toList

theorem condPhrase_eq (a : List Char) : condPhrase a = '-' :: '-' :: ' ' :: 'i' :: 'f' :: (a ++ ['-', '-']) := by
  simp [condPhrase, show "-- if".toList = ['-', '-', ' ', 'i', 'f'] from rfl, show "--".toList = ['-', '-'] from rfl]

/-- Nothing, or another case. -/
def RestText (rest : List Char) : Prop := rest = [] ∨ ∃ r, rest = '-' :: '-' :: ' ' :: r

theorem casesText_rest (cs : List TableCase) : RestText (casesText cs) := by
  cases cs with
  | nil => exact .inl rfl
  | cons c cs => exact .inr ⟨_, rfl⟩

/-- A search that goes on where the phrase does not begin. -/
structure Search (P : List Char) (f : List Char → Option (List Char)) : Prop where
  next : ∀ c cs, isPrefix P (c :: cs) = false → f (c :: cs) = f cs

theorem search_between (P : List Char) : Search P (searchBetween P) := ⟨fun c cs h => by simp only [searchBetween]; rw [h]; rfl⟩

theorem search_after (P : List Char) : Search P (searchAfter P) := ⟨fun c cs h => by simp only [searchAfter]; rw [h]; rfl⟩

theorem Search.plain {p : List Char} {f : List Char → Option (List Char)} (hf : Search ('-' :: p) f) (a b : List Char) (h : '-' ∉ a) : f (a ++ b) = f b := by
  induction a with
  | nil => rfl
  | cons x a ih =>
    have h1 : x ≠ '-' := fun e => h (e ▸ List.mem_cons_self)
    rw [List.cons_append, hf.next _ _ (isPrefix_dash _ _ _ h1)]
    exact ih (fun hx => h (List.mem_cons_of_mem _ hx))

/-- The dashes after an environment do not begin the phrase. -/
theorem Search.table {a : List Char} {f : List Char → Option (List Char)} (hf : Search (condPhrase a) f) (t rest : List Char) (ht : '-' ∉ t)
    (hif : ¬ " if".toList <+: t) (hr : RestText rest) : f ('-' :: '-' :: (t ++ rest)) = f rest := by
  have h1 : isPrefix (condPhrase a) ('-' :: '-' :: (t ++ rest)) = false := by
    rw [condPhrase_eq]
    unfold isPrefix
    simp only [List.isPrefixOf, beq_self_eq_true, Bool.true_and]
    rw [← Bool.not_eq_true, List.isPrefixOf_iff_prefix]
    intro hp
    apply hif
    have h3 : " if".toList <+: t ++ rest := List.IsPrefix.trans ⟨a ++ ['-', '-'], rfl⟩ hp
    rcases hr with rfl | ⟨r, rfl⟩
    · rwa [List.append_nil] at h3
    · rw [show " if".toList = [' ', 'i', 'f'] from rfl] at h3 ⊢
      match t, h3 with
      | [], h3 => obtain ⟨u, hu⟩ := h3; simp at hu
      | [x], h3 => obtain ⟨u, hu⟩ := h3; simp at hu
      | [x, y], h3 => obtain ⟨u, hu⟩ := h3; simp at hu
      | x :: y :: z :: t, h3 =>
        obtain ⟨u, hu⟩ := h3
        simp only [List.cons_append, List.nil_append, List.cons.injEq] at hu
        obtain ⟨rfl, rfl, rfl, _⟩ := hu
        exact ⟨t, rfl⟩
  have h2 : isPrefix (condPhrase a) ('-' :: (t ++ rest)) = false := by
    rw [condPhrase_eq]
    unfold isPrefix
    cases t with
    | nil =>
      rcases hr with rfl | ⟨r, rfl⟩
      · simp [List.isPrefixOf]
      · simp [List.isPrefixOf]
    | cons x t =>
      have : x ≠ '-' := fun e => ht (e ▸ List.mem_cons_self)
      simp [List.isPrefixOf, Ne.symm this]
  rw [hf.next _ _ h1, hf.next _ _ h2]
  rw [condPhrase_eq] at hf
  exact hf.plain t rest ht

/-- The search passes over a case of another environment. -/
theorem Search.other {a : List Char} {f : List Char → Option (List Char)} (hf : Search (condPhrase a) f) (c : TableCase) (rest : List Char)
    (ha : '-' ∉ a) (hc : '-' ∉ c.cond) (hne : a ≠ c.cond) (ht : '-' ∉ c.table) (hif : ¬ " if".toList <+: c.table) (hr : RestText rest) :
    f ("-- if".toList ++ c.cond ++ "--".toList ++ c.table ++ rest) = f rest := by
  have e : "-- if".toList ++ c.cond ++ "--".toList ++ c.table ++ rest = '-' :: '-' :: ' ' :: 'i' :: 'f' :: (c.cond ++ '-' :: '-' :: (c.table ++ rest)) := by
    simp [show "-- if".toList = ['-', '-', ' ', 'i', 'f'] from rfl, show "--".toList = ['-', '-'] from rfl]
  rw [e]
  have h1 : isPrefix (condPhrase a) ('-' :: '-' :: ' ' :: 'i' :: 'f' :: (c.cond ++ '-' :: '-' :: (c.table ++ rest))) = false := by
    rw [condPhrase_eq]
    unfold isPrefix
    simp only [List.isPrefixOf, beq_self_eq_true, Bool.true_and]
    rw [← Bool.not_eq_true, List.isPrefixOf_iff_prefix]
    intro hp
    exact hne (dashes_prefix a c.cond _ ha hc hp)
  have h2 : isPrefix (condPhrase a) ('-' :: ' ' :: 'i' :: 'f' :: (c.cond ++ '-' :: '-' :: (c.table ++ rest))) = false := by
    rw [condPhrase_eq]
    unfold isPrefix
    simp [List.isPrefixOf]
  rw [hf.next _ _ h1, hf.next _ _ h2]
  have h3 : f (' ' :: 'i' :: 'f' :: (c.cond ++ '-' :: '-' :: (c.table ++ rest))) = f ('-' :: '-' :: (c.table ++ rest)) := by
    have hf' := hf
    rw [condPhrase_eq] at hf'
    have := hf'.plain (' ' :: 'i' :: 'f' :: c.cond) ('-' :: '-' :: (c.table ++ rest)) (by
      simp only [List.mem_cons, not_or]
      exact ⟨by decide, by decide, by decide, hc⟩)
    simpa using this
  rw [h3, hf.table _ _ ht hif hr]

/-- The search passes over the cases of other environments. -/
theorem Search.others {a : List Char} {f : List Char → Option (List Char)} (hf : Search (condPhrase a) f) (cs : List TableCase) (rest : List Char)
    (ha : '-' ∉ a) (hc : ∀ c ∈ cs, '-' ∉ c.cond ∧ a ≠ c.cond ∧ '-' ∉ c.table ∧ ¬ " if".toList <+: c.table) (hr : RestText rest) :
    f (casesText cs ++ rest) = f rest := by
  induction cs with
  | nil => rfl
  | cons c cs ih =>
    obtain ⟨h1, h2, h3, h4⟩ := hc c List.mem_cons_self
    have e : casesText (c :: cs) ++ rest = "-- if".toList ++ c.cond ++ "--".toList ++ c.table ++ (casesText cs ++ rest) := by simp [casesText]
    rw [e, hf.other c _ ha h1 h2 h3 h4, ih (fun x hx => hc x (List.mem_cons_of_mem _ hx))]
    cases cs with
    | nil => exact hr
    | cons x cs => exact .inr ⟨_, rfl⟩

theorem isPrefix_self (a b : List Char) : isPrefix a (a ++ b) = true := by
  unfold isPrefix
  rw [List.isPrefixOf_iff_prefix]
  exact List.prefix_append a b

theorem between_here (a t rest : List Char) (ht : '-' ∉ t) :
    searchBetween (condPhrase a) (condPhrase a ++ t ++ '-' :: '-' :: rest) = some t := by
  have h := isPrefix_self (condPhrase a) (t ++ '-' :: '-' :: rest)
  have hd : (condPhrase a ++ (t ++ '-' :: '-' :: rest)).drop (condPhrase a).length = t ++ '-' :: '-' :: rest := List.drop_left
  rw [List.append_assoc]
  cases e : condPhrase a ++ (t ++ '-' :: '-' :: rest) with
  | nil => rw [condPhrase_eq] at e; cases e
  | cons c cs =>
    rw [e] at h hd
    simp only [searchBetween]
    rw [if_pos h, hd, upToDashes_some _ _ ht]

theorem between_last (a t : List Char) (ha : '-' ∉ a) (ht : '-' ∉ t) (hif : ¬ " if".toList <+: t) : searchBetween (condPhrase a) (condPhrase a ++ t) = none := by
  have h := isPrefix_self (condPhrase a) t
  have hd : (condPhrase a ++ t).drop (condPhrase a).length = t := List.drop_left
  have hs := search_between (condPhrase a)
  have hs' := hs
  rw [condPhrase_eq] at h hd hs'
  rw [condPhrase_eq, List.cons_append]
  simp only [searchBetween]
  rw [List.cons_append] at h hd
  rw [if_pos h, hd, upToDashes_none _ ht]
  simp only
  rw [← condPhrase_eq]
  have e : '-' :: ' ' :: 'i' :: 'f' :: (a ++ ['-', '-']) ++ t = '-' :: (' ' :: 'i' :: 'f' :: a ++ '-' :: '-' :: (t ++ [])) := by simp
  rw [e, hs.next _ _ (by rw [condPhrase_eq]; unfold isPrefix; simp [List.isPrefixOf])]
  rw [condPhrase_eq, hs'.plain (' ' :: 'i' :: 'f' :: a) _ (by
      simp only [List.mem_cons, not_or]
      exact ⟨by decide, by decide, by decide, ha⟩), ← condPhrase_eq, hs.table t [] ht hif (.inl rfl)]
  rfl

theorem after_here (a t : List Char) : searchAfter (condPhrase a) (condPhrase a ++ t) = some t := by
  have h := isPrefix_self (condPhrase a) t
  have hd : (condPhrase a ++ t).drop (condPhrase a).length = t := List.drop_left
  cases e : condPhrase a ++ t with
  | nil => rw [condPhrase_eq] at e; cases e
  | cons c cs =>
    rw [e] at h hd
    simp only [searchAfter]
    rw [if_pos h, hd]

theorem dropDashes_plain (a b : List Char) (h : '-' ∉ a) : replaceAll ['-', '-'] [] (a ++ b) = a ++ replaceAll ['-', '-'] [] b := by
  induction a with
  | nil => rfl
  | cons c a ih =>
    have h1 : c ≠ '-' := fun e => h (e ▸ List.mem_cons_self)
    have h2 := ih (fun hx => h (List.mem_cons_of_mem _ hx))
    unfold replaceAll at h2 ⊢
    rw [List.cons_append]
    simp only [replaceGo]
    rw [if_neg (by simp [List.isPrefixOf, Ne.symm h1]), h2]
    rfl

theorem dropDashes_dashes (b : List Char) : replaceAll ['-', '-'] [] ('-' :: '-' :: b) = replaceAll ['-', '-'] [] b := by
  unfold replaceAll
  simp [replaceGo, List.isPrefixOf]

theorem dropDashes_match (a t : List Char) (ha : '-' ∉ a) (ht : '-' ∉ t) :
    replaceAll "--".toList [] (condPhrase a ++ t ++ "--".toList) = " if".toList ++ a ++ t := by
  have e : condPhrase a ++ t ++ "--".toList = '-' :: '-' :: ((' ' :: 'i' :: 'f' :: a) ++ '-' :: '-' :: (t ++ '-' :: '-' :: [])) := by
    rw [condPhrase_eq]; simp [show "--".toList = ['-', '-'] from rfl]
  rw [e, show "--".toList = ['-', '-'] from rfl, dropDashes_dashes, dropDashes_plain _ _ (by
      simp only [List.mem_cons, not_or]
      exact ⟨by decide, by decide, by decide, ha⟩), dropDashes_dashes, dropDashes_plain _ _ ht, dropDashes_dashes]
  simp [show " if".toList = [' ', 'i', 'f'] from rfl, replaceAll, replaceGo]

end ML
