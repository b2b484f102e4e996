import Verif.ArbAnswer.Page
import Verif.ArbAnswer.Props
import Verif.Answer.Spec
/- C91: the order of the lines and the limit. -/
set_option autoImplicit false
namespace ML
variable {α : Type} [DecidableEq α]

open Spec

omit [DecidableEq α] in
theorem cellBefore_iff (lt : α → α → Bool) (n d : Bool) (x y : Option α) : cellBefore lt d n x y = true ↔ ComesFirst lt n d x y := by
  cases x <;> cases y <;> simp [cellBefore, ComesFirst]

omit [DecidableEq α] in
theorem rowBefore_of_first (lt : α → α → Bool) (n : Bool) (cols : List (String × String)) (x y : MJRow α) :
    ∀ keys : List ((String × String) × Bool), (∀ k ∈ keys, ∀ r : MJRow α, under (showLine cols r) k.1.2 = cellAt r k.1) →
      LineFirst lt n (keys.map (fun k => (k.1.2, k.2))) (showLine cols x) (showLine cols y) → rowBefore lt n keys x y = true := by
  intro keys
  induction keys with
  | nil =>
    rintro _ ⟨pre, k, post, he, _⟩
    simp at he
  | cons k keys ih =>
    rintro hu ⟨pre, k', post, he, hf, hpre⟩
    have h0 := hu k (List.mem_cons_self ..)
    obtain ⟨c, d⟩ := k
    simp only at h0
    unfold rowBefore
    cases pre with
    | nil =>
      simp only [List.map_cons, List.nil_append, List.cons.injEq] at he
      obtain ⟨rfl, rfl⟩ := he
      simp only [h0] at hf
      rw [if_pos ((cellBefore_iff ..).mpr hf)]
    | cons p pre =>
      simp only [List.map_cons, List.cons_append, List.cons.injEq] at he
      obtain ⟨rfl, he⟩ := he
      have hp := hpre _ (List.mem_cons_self ..)
      simp only [h0] at hp
      rw [if_neg (fun h => hp.1 ((cellBefore_iff ..).mp h)), if_neg (fun h => hp.2 ((cellBefore_iff ..).mp h))]
      exact ih (fun k hk => hu k (List.mem_cons_of_mem _ hk)) ⟨pre, k', post, he, hf, fun k hk => hpre k (List.mem_cons_of_mem _ hk)⟩

omit [DecidableEq α] in
theorem first_of_rowBefore (lt : α → α → Bool) (n : Bool) (cols : List (String × String)) (x y : MJRow α) :
    ∀ keys : List ((String × String) × Bool), (∀ k ∈ keys, ∀ r : MJRow α, under (showLine cols r) k.1.2 = cellAt r k.1) →
      rowBefore lt n keys x y = true → LineFirst lt n (keys.map (fun k => (k.1.2, k.2))) (showLine cols x) (showLine cols y) := by
  intro keys
  induction keys with
  | nil => intro _ h; cases h
  | cons k keys ih =>
    intro hu h
    have h0 := hu k (List.mem_cons_self ..)
    obtain ⟨c, d⟩ := k
    simp only at h0
    unfold rowBefore at h
    split at h
    · rename_i hc
      exact ⟨[], (c.2, d), _, rfl, by simp only [h0]; exact (cellBefore_iff ..).mp hc, by simp⟩
    · rename_i h1
      split at h
      · cases h
      · rename_i h2
        obtain ⟨pre, k', post, he, hf, hpre⟩ := ih (fun k hk => hu k (List.mem_cons_of_mem _ hk)) h
        refine ⟨(c.2, d) :: pre, k', post, by rw [List.map_cons, he]; rfl, hf, ?_⟩
        intro k'' hk
        rcases List.mem_cons.mp hk with rfl | hk
        · simp only [h0]
          exact ⟨fun hh => h1 ((cellBefore_iff ..).mpr hh), fun hh => h2 ((cellBefore_iff ..).mpr hh)⟩
        · exact hpre k'' hk

theorem perm_map_lift {β γ : Type} (f : β → γ) : ∀ {l : List γ} {m : List γ}, l.Perm m → ∀ k : List β, k.map f = m →
    ∃ k' : List β, k'.Perm k ∧ k'.map f = l := by
  intro l m h
  induction h with
  | nil => intro k hk; exact ⟨[], by rw [List.map_eq_nil_iff.mp hk], rfl⟩
  | @cons a l m _ ih =>
    intro k hk
    cases k with
    | nil => simp at hk
    | cons b k =>
      simp only [List.map_cons, List.cons.injEq] at hk
      obtain ⟨k', h1, h2⟩ := ih k hk.2
      exact ⟨b :: k', h1.cons b, by rw [List.map_cons, hk.1, h2]⟩
  | @swap a b l =>
    intro k hk
    cases k with
    | nil => simp at hk
    | cons c k =>
      cases k with
      | nil => simp at hk
      | cons d k =>
        simp only [List.map_cons, List.cons.injEq] at hk
        exact ⟨d :: c :: k, List.Perm.swap .., by simp [hk]⟩
  | trans _ _ ih1 ih2 =>
    intro k hk
    obtain ⟨k1, h1, h2⟩ := ih2 k hk
    obtain ⟨k2, h3, h4⟩ := ih1 k1 h2
    exact ⟨k2, h3.trans h1, h4⟩

/-- C91: the answers to the whole statement are exactly these: the lines of the merge, put in an order asked for by the values shown
in them (lines that tie in any order), and of these the first ones, as many as the limit says. (On SQL Server and Azure Synapse a
limit of zero is none.) -/
theorem C91_page (env : ArbEnv) (items : List MergeItem) (filters orders : List String) (res : ArbQuery)
    (h : arbQuery env items filters orders = .ok res) (w : Warehouse) (lt : α → α → Bool) (cast : α → α)
    (tables : String → List (MLine α)) (tests : List (Option α → Bool)) (descs : List Bool) (limit : Option Nat)
    (hlim : limit ≠ some 0 ∨ w ≠ .sqlServer ∧ w ≠ .azureSynapse) (out : List (List (String × Option α))) :
    ArbPage w lt cast tables tests descs limit res out ↔
    ∃ lines, lines.Perm (arbAnswer cast tables tests res) ∧
      lines.Pairwise (fun x y => ¬ LineFirst lt (writesNullsLast w) ((res.orders.map (·.2)).zip descs) y x) ∧
      out = (match limit with | none => lines | some n => lines.take n) := by
  obtain ⟨_, _, _, _, _, _, _, _, _, _, _, _, _, ho⟩ := arbQuery_ok h
  have hfirst := useColumns_first ho
  have hn : hasNullsOption w = writesNullsLast w := by cases w <;> rfl
  have he : (res.orders.zip descs).map (fun k => (k.1.2, k.2)) = (res.orders.map (·.2)).zip descs := by
    rw [List.zip_map_left]; rfl
  have hu : ∀ k ∈ res.orders.zip descs, ∀ r : MJRow α, under (showLine res.columns r) k.1.2 = cellAt r k.1 :=
    fun k hk r => under_showLine (hfirst k.1 (List.of_mem_zip hk).1)
  have hiff : ∀ x y : MJRow α, rowBefore lt (hasNullsOption w) (res.orders.zip descs) y x = false ↔
      ¬ LineFirst lt (writesNullsLast w) ((res.orders.map (·.2)).zip descs) (showLine res.columns y) (showLine res.columns x) := by
    intro x y
    rw [hn, ← he, ← Bool.not_eq_true]
    exact not_congr ⟨first_of_rowBefore lt _ res.columns y x _ hu, rowBefore_of_first lt _ res.columns y x _ hu⟩
  have hl : limitClause w limit = limit := by
    unfold limitClause
    split
    · rw [if_neg (by rcases hlim with h | h; exact h; exact absurd rfl h.1)]
    · rw [if_neg (by rcases hlim with h | h; exact h; exact absurd rfl h.2)]
    · rfl
  have hcut : ∀ rows : List (MJRow α), (match limitClause w limit with | none => rows | some n => rows.take n).map (showLine res.columns) =
      (match (generalizing := false) limit with | none => rows.map (showLine res.columns) | some n => (rows.map (showLine res.columns)).take n) := by
    intro rows
    rw [hl]
    cases limit with
    | none => rfl
    | some n => simp [List.map_take]
  constructor
  · rintro ⟨rows, hperm, hsort, rfl⟩
    refine ⟨rows.map (showLine res.columns), hperm.map _, ?_, hcut rows⟩
    rw [List.pairwise_map]
    exact List.Pairwise.imp (fun {x y} hxy => (hiff x y).mp hxy) hsort
  · rintro ⟨lines, hperm, hsort, rfl⟩
    obtain ⟨rows, h1, rfl⟩ := perm_map_lift (showLine res.columns) hperm _ rfl
    refine ⟨rows, h1, ?_, (hcut rows).symm⟩
    rw [List.pairwise_map] at hsort
    exact List.Pairwise.imp (fun {x y} hxy => (hiff x y).mpr hxy) hsort

end ML
