import Verif.MergeStmt.Spec
import Verif.Merged.Props
/- Lemmas on merged statements. -/
set_option autoImplicit false
namespace ML
open Spec

section
variable {V : Type} [DecidableEq V]

/-- Every row of the FROM is made of rows of the sub-queries. -/
theorem merged_parts (d : MergeDef) (db : String → List (MRow V)) (n : ℕ) (hg : Grouped d db n) (h₀ : String) (hs : List String)
    (hh : d.hashes = h₀ :: hs) (rows : List (JRow (MRow V))) (hr : mergedRows d db = .ok rows) (row : JRow (MRow V)) (hm : row ∈ rows) :
    (∀ p ∈ row, p.1 ∈ d.hashes ∧ p.2 ∈ db p.1) ∧
    ((∃ r ∈ db h₀, (h₀, r) ∈ row) ∨ ∃ h ∈ hs, ∃ t, row = [(h, t)]) := by
  have hrr := mergedRows_grouped d db n hg h₀ hs hh
  rw [hr] at hrr
  injection hrr with hrr
  rw [hrr] at hm
  rcases List.mem_append.mp hm with hm | hm
  · obtain ⟨r, hrm, rfl⟩ := List.mem_map.mp hm
    have : ∀ (hs' : List String) (row : JRow (MRow V)), (∀ h ∈ hs', h ∈ d.hashes) → (∀ q ∈ row, q.1 ∈ d.hashes ∧ q.2 ∈ db q.1) →
        ∀ q ∈ extendRow d db h₀ r hs' row, q.1 ∈ d.hashes ∧ q.2 ∈ db q.1 := by
      intro hs'
      induction hs' with
      | nil => intro row _ h; exact h
      | cons a hs' ih =>
        intro row ha h
        rw [extendRow]
        refine ih _ (fun x hx => ha x (by simp [hx])) ?_
        cases hf : (db a).find? (fun t => decide (keyOf d h₀ r = keyOf d a t)) with
        | none => exact h
        | some t =>
          intro q hq
          rcases List.mem_cons.mp hq with rfl | hq
          · exact ⟨ha a (by simp), List.mem_of_find?_eq_some hf⟩
          · exact h q hq
    refine ⟨this hs _ (fun h hx => by simp [hh, hx]) (by simp [hh, hrm]), .inl ⟨r, hrm, ?_⟩⟩
    exact (extendRow_keys d db h₀ r hs [(h₀, r)] (by simp)).2 _ (by simp)
  · obtain ⟨h, hm', hx⟩ := List.mem_flatMap.mp hm
    unfold extraRows at hx
    obtain ⟨t, ht, rfl⟩ := List.mem_map.mp hx
    refine ⟨?_, .inr ⟨h, hm', t, rfl⟩⟩
    intro p hp
    rw [List.mem_singleton] at hp
    subst hp
    exact ⟨by simp [hh, hm'], (List.mem_filter.mp ht).1⟩

/-- The rows of the FROM and the combinations: one row for each, which carries every sub-query's row for it. -/
theorem merged_combinations (d : MergeDef) (db : String → List (MRow V)) (n : ℕ) (hg : Grouped d db n) (h₀ : String) (hs : List String)
    (hh : d.hashes = h₀ :: hs)
    (hsh : ∀ k, ¬ PresentIn d db k h₀ → ∀ h ∈ hs, ∀ h' ∈ hs, PresentIn d db k h → PresentIn d db k h' → h = h') :
    ∃ rows ks, mergedRows d db = .ok rows ∧ List.Forall₂ (fun k row => About d k row ∧ Carries d db k row) ks rows ∧ ks.Nodup ∧
      ∀ k, k ∈ ks ↔ ∃ h ∈ d.hashes, PresentIn d db k h := by
  classical
  obtain ⟨rows, h1, h2, h3, h4⟩ := C33_rows_partial d db n hg h₀ hs hh
  obtain ⟨rows', h1', hex⟩ := C33_exact d db n hg h₀ hs hh
  rw [h1] at h1'
  injection h1' with h1'
  subst h1'
  have hone := hex.mpr hsh
  have hnd := hg.nodup
  rw [hh, List.nodup_cons] at hnd
  have inj : ∀ k k' : List V, k.map some = k'.map some → k = k' := fun k k' e =>
    List.map_injective_iff.mpr (Option.some_injective V) e
  have same : ∀ row ∈ rows, ∀ k k', About d k row → About d k' row → k = k' := by
    rintro row hm k k' ⟨p, hp, e⟩ ⟨p', hp', e'⟩
    obtain ⟨k₀, _, hk₀⟩ := h2 row hm
    exact inj _ _ (by rw [← e, ← e', hk₀ p hp, hk₀ p' hp'])
  have key : ∀ row ∈ rows, ∃ k, About d k row ∧ Carries d db k row ∧ ∃ h ∈ d.hashes, PresentIn d db k h := by
    intro row hm
    obtain ⟨k, hk, hkk⟩ := h2 row hm
    obtain ⟨hp, hform⟩ := merged_parts d db n hg h₀ hs hh rows h1 row hm
    refine ⟨k, hk, ?_, ?_⟩
    · by_cases h0 : PresentIn d db k h₀
      · obtain ⟨b, row', a, e, hab, hc, hno⟩ := h3 k h0
        rw [e] at hm
        rcases List.mem_append.mp hm with hm | hm
        · exact absurd hk (hno row (by simp [hm]))
        · rcases List.mem_cons.mp hm with rfl | hm
          · exact hc
          · exact absurd hk (hno row (by simp [hm]))
      · rcases hform with ⟨r, hr, hrm⟩ | ⟨h, hh', t, rfl⟩
        · exact absurd ⟨r, hr, hkk _ hrm⟩ h0
        · have ht := hp (h, t) (by simp)
          have hkt := hkk (h, t) (by simp)
          have hpr : PresentIn d db k h := ⟨t, ht.2, hkt⟩
          intro h' hm' t'
          by_cases e : h' = h
          · subst e
            simp only [dictGet, if_true, Option.some.injEq]
            constructor
            · rintro rfl; exact ⟨ht.2, hkt⟩
            · rintro ⟨c1, c2⟩
              exact List.inj_on_of_nodup_map (hg.unique h' ht.1) ht.2 c1 (by rw [c2]; exact hkt)
          · simp only [dictGet, Ne.symm e, if_false]
            constructor
            · intro c; cases c
            · rintro ⟨c1, c2⟩
              exfalso
              rw [hh] at hm'
              rcases List.mem_cons.mp hm' with rfl | hm'
              · exact h0 ⟨t', c1, c2⟩
              · exact e (hsh k h0 h' hm' h hh' ⟨t', c1, c2⟩ hpr)
    · obtain ⟨p, hpm, e⟩ := hk
      exact ⟨p.1, (hp p hpm).1, p.2, (hp p hpm).2, e⟩
  choose! f hf using key
  refine ⟨rows, rows.map f, h1, ?_, ?_, ?_⟩
  · rw [List.forall₂_map_left_iff, List.forall₂_same]
    exact fun row hm => ⟨(hf row hm).1, (hf row hm).2.1⟩
  · rw [List.nodup_iff_count_le_one]
    intro k
    by_cases hk : ∃ h ∈ d.hashes, PresentIn d db k h
    · have := hone k hk
      rw [List.count, List.countP_map, List.countP_eq_length_filter]
      rw [← this]
      apply le_of_eq
      congr 1
      apply List.filter_congr
      intro row hm
      simp only [Function.comp]
      rw [Bool.eq_iff_iff]
      simp only [beq_iff_eq, decide_eq_true_eq]
      constructor
      · rintro rfl; exact (hf row hm).1
      · exact fun c => same row hm _ _ (hf row hm).1 c
    · rw [List.count_eq_zero_of_not_mem]
      · omega
      · intro c
        obtain ⟨row, hm, rfl⟩ := List.mem_map.mp c
        exact hk (hf row hm).2.2
  · intro k
    constructor
    · intro c
      obtain ⟨row, hm, rfl⟩ := List.mem_map.mp c
      exact (hf row hm).2.2
    · intro hk
      have := hone k hk
      obtain ⟨row, hrow⟩ := List.length_eq_one_iff.mp this
      have hm : row ∈ rows.filter (fun r => decide (About d k r)) := by rw [hrow]; simp
      rw [List.mem_filter, decide_eq_true_eq] at hm
      exact List.mem_map.mpr ⟨row, hm.1, same row hm.1 _ _ (hf row hm.1).1 hm.2⟩

end
end ML
