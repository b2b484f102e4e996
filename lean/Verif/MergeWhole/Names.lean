import Verif.MergeWhole.Spec
import Verif.MergePlan.Lemmas2
import Std.Data.String.ToNat
/-
The names of the sub-queries in the merged statement, and the definition that is built with them (for C78).
-/
set_option autoImplicit false
namespace ML
open Spec

theorem digits_no_underscore (n : ℕ) : ∀ c ∈ (toString n).toList, c ≠ '_' := by
  intro c hc
  have := digits_isDigit n c hc
  rintro rfl
  revert this
  decide

theorem numbered_inj (A B x y : List Char) (hx : ∀ c ∈ x, c ≠ '_') (hy : ∀ c ∈ y, c ≠ '_') (h : A ++ '_' :: x = B ++ '_' :: y) : x = y := by
  have key : ∀ (A x : List Char), (∀ c ∈ x, c ≠ '_') → ((A ++ '_' :: x).reverse.takeWhile (fun c => decide (c ≠ '_'))) = x.reverse := by
    intro A x hx
    rw [List.reverse_append, List.reverse_cons, List.append_assoc]
    rw [List.takeWhile_append_of_pos (by
      intro c hc
      simpa using hx c (List.mem_reverse.mp hc))]
    simp
  have := key A x hx
  rw [h, key B y hy] at this
  simpa using this.symm

theorem readableName_inj (a b : String) (i k : ℕ) (h : readableName a i = readableName b k) : i = k := by
  unfold readableName at h
  have hs : "__cte_subquery_".toList = "__cte_subquery".toList ++ ['_'] := by decide +kernel
  have h1 := congrArg String.toList h
  simp only [String.toList_append, hs] at h1
  generalize "__cte_subquery".toList = m at h1
  simp only [List.append_assoc, List.cons_append, List.nil_append] at h1
  rw [← List.append_assoc, ← List.append_assoc] at h1
  have h2 := numbered_inj _ _ _ _ (digits_no_underscore i) (digits_no_underscore k) h1
  exact Nat.repr_injective (String.toList_inj.mp (by simpa [Nat.toString_eq_repr] using h2))

theorem addNewHashes_mem (ks acc : List String) (k : String) : k ∈ addNewHashes ks acc ↔ k ∈ acc ∨ k ∈ ks := by
  induction ks generalizing acc with
  | nil => simp [addNewHashes]
  | cons a ks ih =>
    unfold addNewHashes
    split
    · next h => rw [ih]; constructor
                · rintro (h | h) <;> simp [h]
                · rintro (h' | h')
                  · exact .inl h'
                  · rcases List.mem_cons.mp h' with rfl | h'
                    · exact .inl h
                    · exact .inr h'
    · rw [ih]; simp only [List.mem_append, List.mem_cons, List.not_mem_nil, or_false, or_assoc]

theorem addNewHashes_nodup (ks acc : List String) (h : acc.Nodup) : (addNewHashes ks acc).Nodup := by
  induction ks generalizing acc with
  | nil => exact h
  | cons a ks ih =>
    unfold addNewHashes
    split
    · exact ih _ h
    · next hn => exact ih _ (by
        rw [List.nodup_append]
        exact ⟨h, by simp, by rintro x hx y hy rfl; exact hn (List.mem_singleton.mp hy ▸ hx)⟩)

theorem zipIdx_keys (l : List String) (n : ℕ) : ((l.zipIdx n).map (fun p => (p.1, readableName p.1 p.2))).map (·.1) = l := by
  induction l generalizing n with
  | nil => rfl
  | cons a l ih => simp only [List.zipIdx_cons, List.map_cons, ih]

theorem readability_keys (hs : List String) : (readabilityLookup hs).map (·.1) = hs.insertionSort (· ≤ ·) := zipIdx_keys _ _

theorem readability_values (hs : List String) (p : String × String) (hp : p ∈ readabilityLookup hs) :
    ∃ i, (hs.insertionSort (· ≤ ·))[i]? = some p.1 ∧ p.2 = readableName p.1 i := by
  unfold readabilityLookup at hp
  obtain ⟨⟨a, i⟩, ha, rfl⟩ := List.mem_map.mp hp
  have := List.mem_zipIdx_iff_getElem?.mp ha
  exact ⟨i, this, rfl⟩

/-- The name of a sub-query of the plan in the statement. (for the proofs; it models no file in /repo) -/
def shown (hs : List String) (k : String) : String := (dictGet (readabilityLookup hs) k).getD ""

theorem readable_iff (hs : List String) (k n : String) (hn : hs.Nodup) :
    readable (readabilityLookup hs) k = .ok n ↔ k ∈ hs ∧ n = shown hs k := by
  unfold readable shown
  have hk : k ∈ hs ↔ ∃ v, dictGet (readabilityLookup hs) k = some v := by
    have h1 : k ∈ hs ↔ k ∈ (readabilityLookup hs).map (·.1) := by rw [readability_keys, List.mem_insertionSort]
    rw [h1]
    constructor
    · intro h
      obtain ⟨p, hp, rfl⟩ := List.mem_map.mp h
      exact ⟨p.2, dictGet_of_mem (by rw [readability_keys]; exact ((List.perm_insertionSort _ _).nodup_iff).mpr hn) hp⟩
    · rintro ⟨v, hv⟩
      exact List.mem_map.mpr ⟨_, dictGet_mem hv, rfl⟩
  rw [hk]
  cases h : dictGet (readabilityLookup hs) k with
  | none => simp
  | some v => simp [eq_comm]

theorem shown_eq (hs : List String) (hn : hs.Nodup) (a : String) (ha : a ∈ hs) :
    ∃ i, (hs.insertionSort (· ≤ ·))[i]? = some a ∧ shown hs a = readableName a i := by
  have : a ∈ (readabilityLookup hs).map (·.1) := by rw [readability_keys, List.mem_insertionSort]; exact ha
  obtain ⟨p, hp, rfl⟩ := List.mem_map.mp this
  have hg := dictGet_of_mem (by rw [readability_keys]; exact ((List.perm_insertionSort _ _).nodup_iff).mpr hn) hp
  obtain ⟨i, h1, h2⟩ := readability_values hs p hp
  exact ⟨i, h1, by unfold shown; rw [hg]; exact h2⟩

theorem shown_date (hs : List String) (hn : hs.Nodup) (date : String) (hd : TidyDate date) (ns : List ℕ)
    (ha : cteName date (underscoreJoin (ns.map graphName)) ∈ hs) :
    ∃ i, i < hs.length ∧ shown hs (cteName date (underscoreJoin (ns.map graphName))) = dotsToUnderscores date ++ "__cte_subquery_" ++ toString i := by
  obtain ⟨i, h1, h2⟩ := shown_eq hs hn _ ha
  refine ⟨i, ?_, ?_⟩
  · obtain ⟨hi, _⟩ := List.getElem?_eq_some_iff.mp h1
    rw [List.length_insertionSort] at hi
    exact hi
  · rw [h2]
    unfold readableName
    have e2 : "__".toList = ['_', '_'] := by decide
    have hdate : containsSub ['_', '_'] (dotsToUnderscores date).toList = false := by
      rw [Bool.eq_false_iff, Ne, containsSub_iff, ← e2]; exact hd.1
    rw [cteName_toList, e2, List.append_assoc]
    rw [show (['_', '_'] : List Char) ++ (underscoreJoin (ns.map graphName)).toList = '_' :: '_' :: (underscoreJoin (ns.map graphName)).toList from rfl,
      split_double _ _ hdate hd.2 (graphs_no_double ns).1]
    simp only [List.head?_cons, Option.getD_some, String.ofList_toList]

theorem shown_inj (hs : List String) (hn : hs.Nodup) (a b : String) (ha : a ∈ hs) (hb : b ∈ hs) (h : shown hs a = shown hs b) : a = b := by
  obtain ⟨i, i1, i2⟩ := shown_eq hs hn a ha
  obtain ⟨k, k1, k2⟩ := shown_eq hs hn b hb
  rw [i2, k2] at h
  have := readableName_inj _ _ _ _ h
  subst this
  rw [i1] at k1
  injection k1

/-! ### Dictionaries with new keys -/

theorem dictSet_fresh_key {V : Type} (d : List (String × V)) (k : String) (v : V) (h : k ∉ d.map (·.1)) : dictSet d k v = d ++ [(k, v)] := by
  induction d with
  | nil => rfl
  | cons p d ih =>
    obtain ⟨a, b⟩ := p
    simp only [List.map_cons, List.mem_cons, not_or] at h
    simp only [dictSet]
    rw [if_neg (fun e => h.1 e.symm), ih h.2]
    rfl

theorem renameKeys_eq {V : Type} (hs : List String) (hn : hs.Nodup) (l acc r : List (String × V)) (hl : (l.map (·.1)).Nodup)
    (hacc : ∀ k ∈ l.map (·.1), k ∈ hs → shown hs k ∉ acc.map (·.1)) (h : renameKeys (readabilityLookup hs) l acc = .ok r) :
    (∀ k ∈ l.map (·.1), k ∈ hs) ∧ r = acc ++ l.map (fun p => (shown hs p.1, p.2)) := by
  induction l generalizing acc with
  | nil => simp only [renameKeys, Except.ok.injEq] at h; subst h; simp
  | cons p l ih =>
    obtain ⟨k, v⟩ := p
    simp only [renameKeys] at h
    cases hr : readable (readabilityLookup hs) k with
    | error e => rw [hr] at h; cases h
    | ok n =>
      rw [hr] at h
      simp only at h
      obtain ⟨h1, rfl⟩ := (readable_iff hs k n hn).mp hr
      rw [List.map_cons, List.nodup_cons] at hl
      have hnew := hacc k (by simp) h1
      rw [dictSet_fresh_key _ _ _ hnew] at h
      obtain ⟨i1, i2⟩ := ih _ hl.2 (by
        intro k' hk' hin
        rw [List.map_append, List.mem_append, not_or]
        refine ⟨hacc k' (by simp [hk']) hin, ?_⟩
        simp only [List.map_cons, List.map_nil, List.mem_singleton]
        intro e
        exact hl.1 (shown_inj hs hn k' k hin h1 e ▸ hk')) h
      refine ⟨?_, by rw [i2]; simp⟩
      intro k' hk'
      simp only [List.map_cons, List.mem_cons] at hk'
      rcases hk' with rfl | hk'
      · exact h1
      · exact i1 k' hk'

theorem renameKeys_ok {V : Type} (hs : List String) (hn : hs.Nodup) (l acc : List (String × V)) (h : ∀ k ∈ l.map (·.1), k ∈ hs) :
    ∃ r, renameKeys (readabilityLookup hs) l acc = .ok r := by
  induction l generalizing acc with
  | nil => exact ⟨_, rfl⟩
  | cons p l ih =>
    obtain ⟨k, v⟩ := p
    simp only [renameKeys]
    rw [(readable_iff hs k _ hn).mpr ⟨h k (by simp), rfl⟩]
    exact ih _ (fun k' hk' => h k' (by simp only [List.map_cons, List.mem_cons]; exact .inr hk'))

theorem renameRefs_iff (hs : List String) (hn : hs.Nodup) (l : List (String × String)) (r : List MapRef) :
    renameRefs (readabilityLookup hs) l = .ok r ↔ (∀ p ∈ l, p.2 ∈ hs) ∧ r = l.map (fun p => ⟨shown hs p.2, p.1⟩) := by
  induction l generalizing r with
  | nil => simp [renameRefs, eq_comm]
  | cons p l ih =>
    obtain ⟨f, k⟩ := p
    simp only [renameRefs]
    cases hr : readable (readabilityLookup hs) k with
    | error e =>
      have : k ∉ hs := fun hk => by rw [(readable_iff hs k _ hn).mpr ⟨hk, rfl⟩] at hr; cases hr
      simp [this]
    | ok n =>
      obtain ⟨h1, rfl⟩ := (readable_iff hs k n hn).mp hr
      cases hl : renameRefs (readabilityLookup hs) l with
      | error e =>
        have : ¬ ∀ p ∈ l, p.2 ∈ hs := fun hall => by rw [(ih _).mpr ⟨hall, rfl⟩] at hl; cases hl
        constructor
        · intro h; cases h
        · rintro ⟨h, _⟩; exact absurd (fun p hp => h p (by simp [hp])) this
      | ok rs =>
        obtain ⟨i1, rfl⟩ := (ih rs).mp hl
        simp only [Except.ok.injEq, List.map_cons]
        constructor
        · rintro rfl
          refine ⟨?_, rfl⟩
          intro p hp
          rcases List.mem_cons.mp hp with rfl | hp
          · exact h1
          · exact i1 p hp
        · rintro ⟨_, rfl⟩; rfl

theorem renameMapping_iff (hs : List String) (hn : hs.Nodup) (l : List (String × List (String × String))) (r : List (String × List MapRef)) :
    renameMapping (readabilityLookup hs) l = .ok r ↔
      (∀ p ∈ l, ∀ x ∈ p.2, x.2 ∈ hs) ∧ r = l.map (fun p => (p.1, p.2.map (fun x => ⟨shown hs x.2, x.1⟩))) := by
  induction l generalizing r with
  | nil => simp [renameMapping, eq_comm]
  | cons p l ih =>
    obtain ⟨k, items⟩ := p
    simp only [renameMapping]
    cases hr : renameRefs (readabilityLookup hs) items with
    | error e =>
      have : ¬ ∀ p ∈ items, p.2 ∈ hs := fun hall => by rw [(renameRefs_iff hs hn _ _).mpr ⟨hall, rfl⟩] at hr; cases hr
      constructor
      · intro h; cases h
      · rintro ⟨h, _⟩; exact absurd (h (k, items) (by simp)) this
    | ok rs =>
      obtain ⟨h1, rfl⟩ := (renameRefs_iff hs hn _ _).mp hr
      cases hl : renameMapping (readabilityLookup hs) l with
      | error e =>
        have : ¬ ∀ p ∈ l, ∀ x ∈ p.2, x.2 ∈ hs := fun hall => by rw [(ih _).mpr ⟨hall, rfl⟩] at hl; cases hl
        constructor
        · intro h; cases h
        · rintro ⟨h, _⟩; exact absurd (fun p hp => h p (by simp [hp])) this
      | ok m =>
        obtain ⟨i1, rfl⟩ := (ih m).mp hl
        simp only [Except.ok.injEq, List.map_cons]
        constructor
        · rintro rfl
          refine ⟨?_, rfl⟩
          intro p hp
          rcases List.mem_cons.mp hp with rfl | hp
          · exact h1
          · exact i1 p hp
        · rintro ⟨_, rfl⟩; rfl

end ML
