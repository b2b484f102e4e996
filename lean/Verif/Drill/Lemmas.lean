import Verif.Answer.Spec
import Mathlib.Data.List.Perm.Lattice
import Mathlib.Algebra.BigOperators.Group.List.Basic
/-
Groups of rows that are split into finer groups (for C81).
-/
set_option autoImplicit false
namespace ML
open Spec

/-! ### Aggregates of lists that are put together -/

theorem drill_sqlSum_perm {a b : List ℚ} (h : a.Perm b) : sqlSum a = sqlSum b := by
  unfold sqlSum
  by_cases ha : a = []
  · subst ha
    rw [List.nil_perm.mp h]
  · have hb : b ≠ [] := fun c => ha (by rw [c] at h; exact List.perm_nil.mp h)
    rw [if_neg ha, if_neg hb, h.sum_eq]

theorem sqlSum_flatten (L : List (List ℚ)) : sqlSum L.flatten = sqlSum ((L.map sqlSum).filterMap id) := by
  have key : ∀ L : List (List ℚ), ((L.map sqlSum).filterMap id).sum = L.flatten.sum ∧ (((L.map sqlSum).filterMap id) = [] ↔ L.flatten = []) := by
    intro L
    induction L with
    | nil => simp
    | cons V L ih =>
      by_cases hV : V = []
      · subst hV
        simpa [sqlSum] using ih
      · have h1 : sqlSum V = some V.sum := if_neg hV
        simp only [List.map_cons, h1, List.filterMap_cons, id_eq, List.sum_cons, List.flatten_cons, List.sum_append, List.append_eq_nil_iff, hV,
          false_and, reduceCtorEq]
        exact ⟨congrArg _ ih.1, trivial⟩
  obtain ⟨h1, h2⟩ := key L
  unfold sqlSum
  rw [show (fun vs : List ℚ => if vs = [] then none else some vs.sum) = sqlSum from rfl]
  by_cases h : L.flatten = []
  · rw [if_pos h, if_pos (h2.mpr h)]
  · rw [if_neg h, if_neg (fun c => h (h2.mp c)), h1]

theorem sqlMax_eq_none {vs : List ℚ} : sqlMax vs = none ↔ vs = [] := by
  cases vs <;> simp [sqlMax]

theorem drill_foldl_max_spec (vs : List ℚ) (v : ℚ) : vs.foldl Max.max v ∈ v :: vs ∧ ∀ x ∈ v :: vs, x ≤ vs.foldl Max.max v := by
  induction vs generalizing v with
  | nil => simp
  | cons a vs ih =>
    obtain ⟨h1, h2⟩ := ih (Max.max v a)
    refine ⟨?_, fun x hx => ?_⟩
    · rw [List.foldl_cons]
      rcases List.mem_cons.mp h1 with h | h
      · rw [h]
        rcases max_choice v a with h | h <;> rw [h] <;> simp
      · simp [h]
    · rw [List.foldl_cons]
      have h3 := h2 (Max.max v a) (by simp)
      rcases List.mem_cons.mp hx with h | h
      · subst h
        exact le_trans (le_max_left _ _) h3
      · rcases List.mem_cons.mp h with h | h
        · subst h
          exact le_trans (le_max_right _ _) h3
        · exact h2 x (by simp [h])

theorem drill_foldl_min_spec (vs : List ℚ) (v : ℚ) : vs.foldl Min.min v ∈ v :: vs ∧ ∀ x ∈ v :: vs, vs.foldl Min.min v ≤ x := by
  induction vs generalizing v with
  | nil => simp
  | cons a vs ih =>
    obtain ⟨h1, h2⟩ := ih (Min.min v a)
    refine ⟨?_, fun x hx => ?_⟩
    · rw [List.foldl_cons]
      rcases List.mem_cons.mp h1 with h | h
      · rw [h]
        rcases min_choice v a with h | h <;> rw [h] <;> simp
      · simp [h]
    · rw [List.foldl_cons]
      have h3 := h2 (Min.min v a) (by simp)
      rcases List.mem_cons.mp hx with h | h
      · subst h
        exact le_trans h3 (min_le_left _ _)
      · rcases List.mem_cons.mp h with h | h
        · subst h
          exact le_trans h3 (min_le_right _ _)
        · exact h2 x (by simp [h])

theorem drill_sqlMax_some {vs : List ℚ} {m : ℚ} : sqlMax vs = some m ↔ m ∈ vs ∧ ∀ x ∈ vs, x ≤ m := by
  cases vs with
  | nil => simp [sqlMax]
  | cons v vs =>
    obtain ⟨h1, h2⟩ := drill_foldl_max_spec vs v
    simp only [sqlMax, Option.some.injEq]
    constructor
    · rintro rfl
      exact ⟨h1, h2⟩
    · rintro ⟨h3, h4⟩
      exact le_antisymm (h4 _ h1) (h2 _ h3)

theorem drill_sqlMin_some {vs : List ℚ} {m : ℚ} : sqlMin vs = some m ↔ m ∈ vs ∧ ∀ x ∈ vs, m ≤ x := by
  cases vs with
  | nil => simp [sqlMin]
  | cons v vs =>
    obtain ⟨h1, h2⟩ := drill_foldl_min_spec vs v
    simp only [sqlMin, Option.some.injEq]
    constructor
    · rintro rfl
      exact ⟨h1, h2⟩
    · rintro ⟨h3, h4⟩
      exact le_antisymm (h2 _ h3) (h4 _ h1)

theorem sqlMin_eq_none {vs : List ℚ} : sqlMin vs = none ↔ vs = [] := by
  cases vs <;> simp [sqlMin]

/-- Equal if they are the greatest of the same values. -/
theorem sqlMax_congr {a b : List ℚ} (h1 : ∀ x ∈ a, ∃ y ∈ b, x ≤ y) (h2 : ∀ x ∈ b, x ∈ a) : sqlMax a = sqlMax b := by
  cases hb : sqlMax b with
  | none =>
    rw [sqlMax_eq_none] at hb ⊢
    subst hb
    rw [List.eq_nil_iff_forall_not_mem]
    intro x hx
    obtain ⟨y, hy, -⟩ := h1 x hx
    cases hy
  | some m =>
    rw [drill_sqlMax_some] at hb ⊢
    refine ⟨h2 m hb.1, fun x hx => ?_⟩
    obtain ⟨y, hy, hxy⟩ := h1 x hx
    exact le_trans hxy (hb.2 y hy)

theorem sqlMin_congr {a b : List ℚ} (h1 : ∀ x ∈ a, ∃ y ∈ b, y ≤ x) (h2 : ∀ x ∈ b, x ∈ a) : sqlMin a = sqlMin b := by
  cases hb : sqlMin b with
  | none =>
    rw [sqlMin_eq_none] at hb ⊢
    subst hb
    rw [List.eq_nil_iff_forall_not_mem]
    intro x hx
    obtain ⟨y, hy, -⟩ := h1 x hx
    cases hy
  | some m =>
    rw [drill_sqlMin_some] at hb ⊢
    refine ⟨h2 m hb.1, fun x hx => ?_⟩
    obtain ⟨y, hy, hxy⟩ := h1 x hx
    exact le_trans (hb.2 y hy) hxy

theorem sqlMax_perm {a b : List ℚ} (h : a.Perm b) : sqlMax a = sqlMax b :=
  sqlMax_congr (fun x hx => ⟨x, h.mem_iff.mp hx, le_refl _⟩) (fun x hx => h.mem_iff.mpr hx)

theorem sqlMin_perm {a b : List ℚ} (h : a.Perm b) : sqlMin a = sqlMin b :=
  sqlMin_congr (fun x hx => ⟨x, h.mem_iff.mp hx, le_refl _⟩) (fun x hx => h.mem_iff.mpr hx)

theorem sqlMax_flatten (L : List (List ℚ)) : sqlMax L.flatten = sqlMax ((L.map sqlMax).filterMap id) := by
  refine sqlMax_congr (fun x hx => ?_) (fun x hx => ?_)
  · obtain ⟨V, hV, hx⟩ := List.mem_flatten.mp hx
    cases hm : sqlMax V with
    | none => rw [sqlMax_eq_none] at hm; subst hm; cases hx
    | some m =>
      refine ⟨m, ?_, (drill_sqlMax_some.mp hm).2 x hx⟩
      rw [List.mem_filterMap]
      exact ⟨some m, List.mem_map.mpr ⟨V, hV, hm⟩, rfl⟩
  · rw [List.mem_filterMap] at hx
    obtain ⟨o, ho, hox⟩ := hx
    obtain ⟨V, hV, rfl⟩ := List.mem_map.mp ho
    exact List.mem_flatten.mpr ⟨V, hV, (drill_sqlMax_some.mp hox).1⟩

theorem sqlMin_flatten (L : List (List ℚ)) : sqlMin L.flatten = sqlMin ((L.map sqlMin).filterMap id) := by
  refine sqlMin_congr (fun x hx => ?_) (fun x hx => ?_)
  · obtain ⟨V, hV, hx⟩ := List.mem_flatten.mp hx
    cases hm : sqlMin V with
    | none => rw [sqlMin_eq_none] at hm; subst hm; cases hx
    | some m =>
      refine ⟨m, ?_, (drill_sqlMin_some.mp hm).2 x hx⟩
      rw [List.mem_filterMap]
      exact ⟨some m, List.mem_map.mpr ⟨V, hV, hm⟩, rfl⟩
  · rw [List.mem_filterMap] at hx
    obtain ⟨o, ho, hox⟩ := hx
    obtain ⟨V, hV, rfl⟩ := List.mem_map.mp ho
    exact List.mem_flatten.mpr ⟨V, hV, (drill_sqlMin_some.mp hox).1⟩

/-! ### Groups -/

section
variable {ρ : Type}

/-- The rows of some keys, each key once, are the rows with one of the keys. -/
theorem groups_perm (rows : List ρ) (pass : ρ → Bool) (key : ρ → List Val) (K : List (List Val)) (hK : K.Nodup) :
    (rows.filter (fun r => pass r && decide (key r ∈ K))).Perm (K.map (fun k => rows.filter (fun r => pass r && decide (key r = k)))).flatten := by
  classical
  induction K with
  | nil => simp
  | cons k K ih =>
    obtain ⟨hk, hK⟩ := List.nodup_cons.mp hK
    rw [List.map_cons, List.flatten_cons]
    refine List.Perm.trans ?_ ((ih hK).append_left _)
    clear ih hK
    induction rows with
    | nil => simp
    | cons r rows ih =>
      by_cases hp : pass r = true
      · by_cases h1 : key r = k
        · have h2 : key r ∉ K := by rw [h1]; exact hk
          rw [List.filter_cons_of_pos (by simp [hp, h1]), List.filter_cons_of_pos (by simp [hp, h1]), List.filter_cons_of_neg (by simp [h2])]
          simpa using ih
        · by_cases h2 : key r ∈ K
          · rw [List.filter_cons_of_pos (by simp [hp, h2]), List.filter_cons_of_neg (by simp [h1]), List.filter_cons_of_pos (by simp [hp, h2])]
            exact (ih.cons r).trans List.perm_middle.symm
          · rw [List.filter_cons_of_neg (by simp [h1, h2]), List.filter_cons_of_neg (by simp [h1]), List.filter_cons_of_neg (by simp [h2])]
            exact ih
      · rw [List.filter_cons_of_neg (by simp [hp]), List.filter_cons_of_neg (by simp [hp]), List.filter_cons_of_neg (by simp [hp])]
        exact ih

/-- The rows whose key begins with `k` are the rows behind the lines that begin with `k`. -/
theorem table_split {rows : List ρ} {pass : ρ → Prop} {dims : ρ → List Val} {metrics : List ρ → List Val} {n : Nat} {lines : List (List Val)}
    (h : IsTable rows pass dims metrics (fun _ => True) n lines) (hn : ∀ r, (dims r).length = n) (c : Nat) (hc : c ≤ n) (k : List Val) (p : ρ → Bool)
    (hp : ∀ r ∈ rows, p r = true ↔ pass r ∧ (dims r).take c = k) :
    ∃ Gs : List (List ρ), (rows.filter p).Perm Gs.flatten ∧ (lines.filter (fun l => l.take c = k)).map (List.drop n) = Gs.map metrics := by
  classical
  let L := lines.filter (fun l => l.take c = k)
  let q : List Val → List ρ := fun κ => rows.filter (fun r => decide (pass r) && decide (dims r = κ))
  have htake : ∀ l : List Val, l.take c = (l.take n).take c := by
    intro l
    rw [List.take_take, min_eq_left hc]
  refine ⟨(L.map (List.take n)).map q, ?_, ?_⟩
  · have hnd : (L.map (List.take n)).Nodup := h.once.sublist (List.filter_sublist.map _)
    refine List.Perm.trans (List.Perm.of_eq ?_) (groups_perm rows (fun r => decide (pass r)) dims _ hnd)
    refine List.filter_congr fun r hr => ?_
    rw [Bool.eq_iff_iff, hp r hr, Bool.and_eq_true, decide_eq_true_iff, decide_eq_true_iff]
    refine and_congr_right fun hpass => ?_
    constructor
    · intro hk
      obtain ⟨G, -, hm⟩ := h.complete r hr hpass
      refine List.mem_map.mpr ⟨dims r ++ metrics G, List.mem_filter.mpr ⟨hm trivial, ?_⟩, ?_⟩
      · rw [decide_eq_true_iff, htake, List.take_left' (hn r), hk]
      · rw [List.take_left' (hn r)]
    · intro hm
      obtain ⟨l, hl, he⟩ := List.mem_map.mp hm
      have := of_decide_eq_true (List.mem_filter.mp hl).2
      rw [← he, ← htake, this]
  · rw [List.map_map, List.map_map]
    refine List.map_congr_left fun l hl => ?_
    obtain ⟨κ, G, hlen, -, ⟨p', hp', rfl⟩, -, rfl⟩ := h.sound l (List.mem_filter.mp hl).1
    simp only [Function.comp_apply]
    rw [List.drop_left' hlen, List.take_left' hlen]
    congr 1
    refine List.filter_congr fun r hr => ?_
    rw [Bool.eq_iff_iff, hp' r hr, Bool.and_eq_true, decide_eq_true_iff, decide_eq_true_iff]

end
end ML
