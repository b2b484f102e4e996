import Verif.Repo.Spec
import Verif.Names.Lemmas
import Verif.MergePlan.Texts
import Mathlib.Data.List.Forall2
/-
Paths: where they lead, how they are cut and joined.
-/
set_option autoImplicit false
namespace ML
open Spec

theorem splitChars_sep (c : Char) (a b : List Char) : splitChars c (a ++ c :: b) = splitChars c a ++ splitChars c b := by
  induction a with
  | nil => simp [splitChars]
  | cons x a ih =>
    simp only [List.cons_append, splitChars]
    by_cases h : x = c
    · rw [if_pos h, if_pos h, ih]; rfl
    · rw [if_neg h, if_neg h, ih]
      cases hs : splitChars c a with
      | nil => exact absurd hs (splitChars_ne_nil c a)
      | cons p ps => rfl

theorem resolvePath_at (t s : PathText) : resolvePath (t ++ '/' :: s) = (splitChars '/' s).foldl resolveStep (resolvePath t) := by
  unfold resolvePath
  rw [splitChars_sep, List.foldl_append]

theorem resolvePath_name (t : PathText) {p : PathName} (h : '/' ∉ p) : resolvePath (t ++ '/' :: p) = resolveStep (resolvePath t) p := by
  rw [resolvePath_at, splitChars_noSep _ _ h]; rfl

theorem resolveStep_name {place : List PathName} {p : PathName} (h : IsName p) : resolveStep place p = place ++ [p] := by
  have h1 := h.some
  have h2 := h.other.1
  have h3 := h.other.2
  unfold resolveStep
  rw [if_neg (by rintro (h | h); exacts [h1 h, h2 h]), if_neg (show ¬ p = ['.', '.'] from fun h => h3 h)]

theorem leads_resolve {t : PathText} {place : List PathName} (h : Leads t place) : resolvePath t = place := by
  induction h with
  | root => rfl
  | name _ hp ih => rw [resolvePath_name _ hp.whole, ih, resolveStep_name hp]
  | @slash t place _ ih =>
    have := resolvePath_name t (p := []) (by simp)
    rw [ih] at this
    exact this
  | @dot t place _ ih =>
    have := resolvePath_name t (p := ['.']) (by decide)
    rw [ih] at this
    exact this
  | @up t place _ ih =>
    have := resolvePath_name t (p := ['.', '.']) (by decide)
    rw [ih] at this
    exact this

theorem leads_unique {t : PathText} {a b : List PathName} (h : Leads t a) (h' : Leads t b) : a = b := by
  rw [← leads_resolve h, leads_resolve h']

theorem leads_names {t : PathText} {place : List PathName} (h : Leads t place) : ∀ p ∈ place, IsName p := by
  induction h with
  | root => simp
  | name _ hp ih =>
    intro p hm
    rw [List.mem_append] at hm
    rcases hm with hm | hm
    · exact ih p hm
    · rw [List.mem_singleton] at hm; subst hm; exact hp
  | slash _ ih => exact ih
  | dot _ ih => exact ih
  | up _ ih => exact fun p hm => ih p (List.mem_of_mem_dropLast hm)

theorem leads_spelled {h : PathText} {place : List PathName} (hl : Leads h place) {l : List PathName} (hn : ∀ p ∈ l, IsName p) :
    Leads (Spelled h l) (place ++ l) := by
  induction l generalizing h place with
  | nil => simpa [Spelled] using hl
  | cons p l ih =>
    have := ih (hl.name (hn p (by simp))) (fun q hq => hn q (by simp [hq]))
    simpa [Spelled] using this

theorem placeBelow_iff (up l rest : List PathName) : placeBelow up l = some rest ↔ l = up ++ rest := by
  induction up generalizing l with
  | nil => simp only [placeBelow, Option.some.injEq, List.nil_append]
  | cons a up ih =>
    cases l with
    | nil => simp [placeBelow]
    | cons b l =>
      unfold placeBelow
      by_cases h : a = b
      · rw [if_pos h, ih, h]; simp
      · rw [if_neg h]
        simp only [List.cons_append, List.cons.injEq, reduceCtorEq, false_iff]
        exact fun hc => h hc.1.symm

theorem hiddenName_iff (p : PathName) : hiddenName p = true ↔ Hidden p := by
  cases p with
  | nil => simp [hiddenName, Hidden]
  | cons c cs => simp [hiddenName, Hidden]

theorem hiddenName_false (p : PathName) : (!hiddenName p) = true ↔ ¬ Hidden p := by
  rw [← hiddenName_iff]; simp

/-! Cutting and joining. -/

theorem dropWhile_all {p : Char → Bool} {l r : List Char} (h : ∀ x ∈ l, p x = true) : (l ++ r).dropWhile p = r.dropWhile p := by
  induction l with
  | nil => rfl
  | cons x l ih =>
    rw [List.cons_append, List.dropWhile_cons_of_pos (h x (by simp))]
    exact ih (fun y hy => h y (by simp [hy]))

theorem takeWhile_all {p : Char → Bool} {l r : List Char} (h : ∀ x ∈ l, p x = true) (hr : ∀ x ∈ r.head?, p x = false) :
    (l ++ r).takeWhile p = l := by
  induction l with
  | nil =>
    cases r with
    | nil => rfl
    | cons y r => rw [List.nil_append, List.takeWhile_cons_of_neg]; simpa using hr y (by simp)
  | cons x l ih =>
    rw [List.cons_append, List.takeWhile_cons_of_pos (h x (by simp)), ih (fun y hy => h y (by simp [hy]))]

theorem getLast_ne_slash {h : PathText} (hc : ∀ h', h ≠ h' ++ "/".toList) : ∀ x ∈ h.reverse.head?, x ≠ '/' := by
  rintro x hx rfl
  rw [List.head?_reverse] at hx
  obtain ⟨a, ha⟩ := List.getLast?_eq_some_iff.1 hx
  exact hc a ha

/-- The text before the last slash, or the slash. -/
def headText (h : PathText) : PathText := if h = [] then ['/'] else h

theorem pathTail_cut {folder h : PathText} {c : PathName} {place : List PathName} (hc : Cut folder h c place) : pathTail folder = c := by
  obtain ⟨n, ht, -⟩ := hc.text
  unfold pathTail
  subst ht
  rw [List.reverse_append, List.reverse_append, List.reverse_replicate]
  rw [takeWhile_all]
  · simp
  · intro x hx
    have : x ≠ '/' := by rintro rfl; exact hc.last (by simpa using hx)
    simpa using this
  · simp [List.replicate_succ]

theorem pathHead_cut {folder h : PathText} {c : PathName} {place : List PathName} (hc : Cut folder h c place) : pathHead folder = headText h := by
  obtain ⟨n, ht, h0⟩ := hc.text
  unfold pathHead
  have e : (folder.reverse.dropWhile (· ≠ '/')).reverse = h ++ List.replicate (n + 1) '/' := by
    subst ht
    rw [List.reverse_append, dropWhile_all, List.reverse_append, List.reverse_replicate]
    · simp [List.replicate_succ]
      rw [← List.replicate_succ, List.replicate_succ']
    · intro x hx
      have : x ≠ '/' := by rintro rfl; exact hc.last (by simpa using hx)
      simpa using this
  simp only [e]
  unfold headText
  by_cases hh : h = []
  · rw [h0 hh, hh]; rfl
  · rw [if_neg hh, if_neg, List.reverse_append, List.reverse_replicate, dropWhile_all]
    · have key := getLast_ne_slash hc.clean
      cases hr : h.reverse with
      | nil => exact absurd (List.reverse_eq_nil_iff.1 hr) hh
      | cons x l =>
        rw [hr] at key
        rw [List.dropWhile_cons_of_neg (by simpa using key x (by simp)), ← hr, List.reverse_reverse]
    · intro x hx
      simpa using (List.mem_replicate.1 hx).2
    · intro hall
      have key := getLast_ne_slash hc.clean
      cases hr : h.reverse with
      | nil => exact hh (List.reverse_eq_nil_iff.1 hr)
      | cons x l =>
        rw [hr] at key
        apply key x (by simp)
        have hx : x ∈ h := by rw [← List.mem_reverse, hr]; simp
        rw [List.all_eq_true] at hall
        simpa using hall x (by simp [hx])

theorem pathJoin_head {h : PathText} (hc : ∀ h', h ≠ h' ++ "/".toList) {p : PathName} (hp : IsName p) : pathJoin (headText h) p = h ++ '/' :: p := by
  have h1 : p.head? ≠ some '/' := by
    intro he
    cases p with
    | nil => cases he
    | cons x p => simp at he; exact hp.whole (by simp [he])
  unfold pathJoin
  rw [if_neg h1]
  unfold headText
  by_cases hh : h = []
  · rw [if_pos hh, hh]; rfl
  · rw [if_neg hh, if_neg]
    rintro (he | he)
    · exact hh he
    · obtain ⟨a, ha⟩ := List.getLast?_eq_some_iff.1 he
      exact hc a ha

theorem name_clean {h : PathText} {p : PathName} (hp : IsName p) : ∀ h', h ++ '/' :: p ≠ h' ++ "/".toList := by
  intro h' he
  have := congrArg List.getLast? he
  have hs := hp.some
  have hw := hp.whole
  rw [List.getLast?_append, List.getLast?_append] at this
  rw [List.getLast?_cons, List.getLast?_eq_some_getLast hs] at this
  simp at this
  exact hw (this ▸ List.getLast_mem hs)

theorem foldl_pathJoin {h : PathText} (hc : ∀ h', h ≠ h' ++ "/".toList) {l : List PathName} (hn : ∀ p ∈ l, IsName p) (h0 : l ≠ []) :
    l.foldl pathJoin (headText h) = Spelled h l := by
  induction l generalizing h with
  | nil => exact absurd rfl h0
  | cons p l ih =>
    rw [List.foldl_cons, pathJoin_head hc (hn p (by simp))]
    by_cases hl : l = []
    · subst hl; simp [Spelled]
    · have hne : h ++ '/' :: p ≠ [] := by simp
      have := ih (name_clean (h := h) (hn p (by simp))) (fun q hq => hn q (by simp [hq])) hl
      rw [headText, if_neg hne] at this
      rw [this]
      simp [Spelled]

theorem leads_slashes {h : PathText} {place : List PathName} (hl : Leads h place) (n : ℕ) : Leads (h ++ List.replicate n '/') place := by
  induction n with
  | zero => simpa using hl
  | succ n ih =>
    rw [List.replicate_succ', ← List.append_assoc]
    exact ih.slash

theorem cut_leads {folder h : PathText} {place : List PathName} (hc : Cut folder h [] place) : Leads folder place := by
  obtain ⟨n, ht, -⟩ := hc.text
  rw [ht, List.append_nil]
  exact leads_slashes hc.leads _

theorem leads_head {h : PathText} {place : List PathName} (hl : Leads h place) : Leads (headText h) place := by
  unfold headText
  by_cases hh : h = []
  · rw [if_pos hh]
    have := hl.slash
    rw [hh] at this
    exact this
  · rw [if_neg hh]; exact hl

theorem cut_slash {folder h : PathText} {c : PathName} {place : List PathName} (hc : Cut folder h c place) :
    folder.getLast? = some '/' ↔ c = [] := by
  obtain ⟨n, ht, -⟩ := hc.text
  subst ht
  constructor
  · intro he
    by_contra hne
    rw [List.getLast?_append, List.getLast?_eq_some_getLast hne] at he
    simp at he
    exact hc.last (he ▸ List.getLast_mem hne)
  · intro he
    subst he
    simp [List.replicate_succ', List.getLast?_append]

end ML
