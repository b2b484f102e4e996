import Verif.Drill.Props
import Verif.Joined.Lemmas
import Verif.Secure.Model
import Verif.MergeStmt.Props
/-
C81: when the rows of the finer query are those of the coarser one with more columns.
-/
set_option autoImplicit false
namespace ML
open Spec

section
variable {ρ : Type}

theorem compared_dimension {D : Db ρ} {P : AnsProject} {w : Warehouse} {fpk : FunctionalPk} {fieldOf : Nat → String} {i : Nat} {f : AnsField} {s : String}
    (hf : P.get (fieldOf i) = .ok f) (hs : f.sql = .dimension s) (r : ρ) : compared D P w fpk fieldOf [r] i = D.test i (D.engine.value r s) := by
  unfold compared
  rw [hf]
  simp [hs, valueOf]

/-- Rows with the same columns for the filters pass the same filters. -/
theorem passes_same {D : Db ρ} {P : AnsProject} {w : Warehouse} {q q' : Question} {views views' : List String} {ok : String → Prop}
    (h : SameFilters P q q' views views' ok) {r r' : ρ} (hr : ∀ s, ok s → D.engine.value r s = D.engine.value r' s) :
    PassesWhere D P w views q r ↔ PassesWhere D P w views' q' r' := by
  have hc : ∀ i, (i ∈ P.access views ∨ ∃ l ∈ leavesList q.wheres, i ∈ l.first :: l.rest) →
      compared D P w (P.fpk views) q.fieldOf [r] i = compared D P w (P.fpk views') q'.fieldOf [r'] i := by
    intro i hi
    obtain ⟨f, s, h1, h2, h3⟩ := h.columns i hi
    rw [compared_dimension h1 h2, ← h.fieldOf, compared_dimension h1 h2, hr s h3]
  unfold PassesWhere
  rw [← h.wheres, meanings_congr _ _ q.wheres (fun l hl i hi => hc i (.inr ⟨l, hl, hi⟩))]
  refine and_congr ?_ Iff.rfl
  constructor
  · intro hh i hi
    rw [← hc i (.inl ((h.access i).mpr hi))]
    exact hh i ((h.access i).mpr hi)
  · intro hh i hi
    rw [hc i (.inl hi)]
    exact hh i ((h.access i).mp hi)

/-- C81 (c): further dimensions of the same FROM only add columns. -/
theorem C81_same_from (D : Db ρ) (P : AnsProject) (w : Warehouse) (q q' : Question) (ds ms : List AnsField) (views views' : List String)
    (hr : D.rows views = D.rows views') (hf : SameFilters P q q' views views' (fun _ => True)) : Widens D P w q q' ds ms views views' :=
  ⟨id, by rw [List.map_id, hr], fun r _ => ⟨passes_same hf (fun _ _ => rfl), fun _ _ _ _ => rfl, fun _ _ _ _ => rfl⟩⟩

/-- The rows of the joined result have only the views of the FROM. -/
theorem keys_joined (db : String → List ρ) (base : String) (joins : List (JoinStep ρ)) :
    ∀ row ∈ joinedRows db base joins, ∀ p ∈ row, p.1 ∈ base :: joins.map (·.tgt) := by
  induction joins using List.reverseRecOn with
  | nil =>
    intro row hrow p hp
    simp only [joinedRows, List.foldl_nil, List.mem_map] at hrow
    obtain ⟨r, -, rfl⟩ := hrow
    simp only [List.mem_singleton] at hp
    simp [hp]
  | append_singleton pre j ih =>
    intro row hrow p hp
    rw [joinedRows_snoc] at hrow
    have hsub : ∀ x, x ∈ base :: pre.map (·.tgt) → x ∈ base :: (pre ++ [j]).map (·.tgt) := by
      intro x hx
      simp only [List.map_append, List.mem_cons, List.mem_append] at hx ⊢
      tauto
    rcases mem_stepJoin hrow with h | ⟨row', h, t, -, rfl⟩ | ⟨t, -, rfl⟩
    · exact hsub _ (ih row h p hp)
    · rcases List.mem_cons.mp hp with rfl | hp
      · simp
      · exact hsub _ (ih row' h p hp)
    · simp only [List.mem_singleton] at hp
      simp [hp]

/-- The views of the row that are among the given ones (for the proofs; it models no file in /repo). -/
def onlyViews (vs : List String) (row : JRow ρ) : JRow ρ := row.filter (fun p => decide (p.1 ∈ vs))

theorem onlyViews_get (vs : List String) (row : JRow ρ) (v : String) (hv : v ∈ vs) : dictGet (onlyViews vs row) v = dictGet row v := by
  induction row with
  | nil => rfl
  | cons p row ih =>
    obtain ⟨k, r⟩ := p
    unfold onlyViews
    by_cases hk : k ∈ vs
    · rw [List.filter_cons_of_pos (by simpa using hk)]
      by_cases e : k = v
      · subst e; rw [dictGet_cons_eq, dictGet_cons_eq]
      · rw [dictGet_cons_ne e, dictGet_cons_ne e]; exact ih
    · rw [List.filter_cons_of_neg (by simpa using hk), dictGet_cons_ne (fun c : k = v => hk (by rw [c]; exact hv))]
      exact ih

/-- Left joins in which a row finds at most one other only add columns. -/
theorem joined_lookup (db : String → List ρ) (base : String) (pre post : List (JoinStep ρ)) (hs : FromShape base (pre ++ post))
    (h : ∀ j ∈ post, j.kind = .left ∧ (j.rel = .manyToOne ∨ j.rel = .oneToOne) ∧ Respects db j) :
    (joinedRows db base (pre ++ post)).map (onlyViews (base :: pre.map (·.tgt))) = joinedRows db base pre := by
  induction post using List.reverseRecOn with
  | nil =>
    rw [List.append_nil]
    conv => rhs; rw [← List.map_id (joinedRows db base pre)]
    refine List.map_congr_left fun row hrow => ?_
    unfold onlyViews
    rw [List.filter_eq_self.mpr]
    · rfl
    · intro p hp
      simpa using keys_joined db base pre row hrow p hp
  | append_singleton post j ih =>
    rw [← List.append_assoc] at hs ⊢
    rw [← ih hs.prefix (fun k hk => h k (by simp [hk])), joinedRows_snoc]
    obtain ⟨hk, hrel, hres⟩ := h j (by simp)
    have hone := matching_le_one (rowsOk_joined db base (pre ++ post)) hres hrel
    have hfresh := hs.fresh
    have hnot : j.tgt ∉ base :: pre.map (·.tgt) := by
      intro c
      refine hfresh ?_
      simp only [List.map_append, List.mem_cons, List.mem_append] at c ⊢
      tauto
    unfold stepJoin
    rw [hk]
    simp only
    rw [List.map_flatMap]
    generalize joinedRows db base (pre ++ post) = rows at hone
    rw [← List.flatMap_singleton' (rows.map _), List.flatMap_map]
    refine flatMap_congr' fun row hrow => ?_
    unfold leftRows
    have := hone row hrow
    cases hm : matching j (db j.tgt) row with
    | nil => rfl
    | cons t ts =>
      rw [hm] at this
      have : ts = [] := List.length_eq_zero_iff.mp (by simpa using this)
      subst this
      simp only [List.map_cons, List.map_nil]
      congr 1
      unfold onlyViews
      rw [List.filter_cons_of_neg (by simpa using hnot)]

/-- C81 (d): further dimensions that are looked up only add columns. When the FROM of the finer query is that of the coarser one followed by left joins that are many to one
(or one to one) in the data, and the dimensions, metrics and filters of the coarser query read its own views, the rows of the finer query are those of the coarser
one with more columns. -/
theorem C81_looked_up (db : String → List ρ) (fromOf : List String → String × List (JoinStep ρ)) (E : Engine (JRow ρ)) (test : Nat → Val → TV)
    (P : AnsProject) (w : Warehouse) (q q' : Question) (ds ms : List AnsField) (views views' : List String)
    (hl : OnlyLooksUp db (fromOf views) (fromOf views'))
    (hf : SameFilters P q q' views views' (ReadsFrom E ((fromOf views').1 :: (fromOf views').2.map (·.tgt))))
    (hd : ∀ d ∈ ds, ∀ s, d.sql = .dimension s → ReadsFrom E ((fromOf views').1 :: (fromOf views').2.map (·.tgt)) s)
    (hm : ∀ m ∈ ms, ∀ a, m.sql = .measure a → ReadsFrom E ((fromOf views').1 :: (fromOf views').2.map (·.tgt)) a.sql) :
    Widens (joinedDb db fromOf E test) P w q q' ds ms views views' := by
  obtain ⟨hb, hs, post, hpost, hj⟩ := hl
  have hread : ∀ row s, ReadsFrom E ((fromOf views').1 :: (fromOf views').2.map (·.tgt)) s →
      E.value row s = E.value (onlyViews ((fromOf views').1 :: (fromOf views').2.map (·.tgt)) row) s := by
    rintro row s ⟨v, hv, h⟩
    rw [h row, h (onlyViews _ row), onlyViews_get _ _ _ hv]
  refine ⟨onlyViews ((fromOf views').1 :: (fromOf views').2.map (fun j : JoinStep ρ => j.tgt)), List.Perm.of_eq ?_, fun r _ =>
    ⟨passes_same hf (fun s h => hread r s h), fun d h s e => hread r s (hd d h s e), fun m h a e => hread r a.sql (hm m h a e)⟩⟩
  show (joinedRows db (fromOf views).1 (fromOf views).2).map _ = joinedRows db (fromOf views').1 (fromOf views').2
  rw [hb, hpost] at hs ⊢
  exact joined_lookup db _ _ post hs hj

end
end ML
