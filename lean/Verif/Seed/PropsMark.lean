import Verif.Seed.PropsMore
import Mathlib.Data.List.Nodup

/-!
# C68: the marks of the fields that can be searched, the model, and what the warehouse is asked
-/

set_option autoImplicit false

namespace ML
open Spec

theorem containsSub_short (sep l : List Char) (h : l.length < sep.length) : containsSub sep l = false := by
  induction l with
  | nil =>
    cases sep with
    | nil => simp at h
    | cons _ _ => rfl
  | cons c l ih =>
    unfold containsSub
    rw [ih (by simp at h; omega), Bool.or_false]
    cases hp : sep.isPrefixOf (c :: l) with
    | false => rfl
    | true =>
      have := (List.isPrefixOf_iff_prefix.mp hp).length_le
      omega

theorem containsSub_end (sep l : List Char) : containsSub sep (l ++ sep) = true := by
  induction l with
  | nil =>
    cases sep with
    | nil => rfl
    | cons c cs => simp [containsSub]
  | cons c l ih =>
    show (sep.isPrefixOf _ || containsSub sep (l ++ sep)) = true
    rw [ih, Bool.or_true]

theorem beforeLast_end (sep l : List Char) (hs : sep ≠ []) : beforeLast sep (l ++ sep) = l := by
  induction l with
  | nil =>
    cases sep with
    | nil => exact absurd rfl hs
    | cons c cs =>
      show beforeLast (c :: cs) (c :: cs) = []
      unfold beforeLast
      rw [containsSub_short _ _ (by simp), if_neg (by simp), if_pos (by simp)]
  | cons c l ih =>
    show beforeLast sep (c :: (l ++ sep)) = _
    unfold beforeLast
    rw [containsSub_end, if_pos rfl, ih]

theorem seed_lower_append (a b : String) : lower (a ++ b) = lower a ++ lower b := by
  unfold lower
  rw [String.toList_append, List.map_append, String.ofList_append]

theorem count_name (c : String) (p : String × Nat) (h : CountOf c p) :
    String.ofList (beforeLast "_cardinality".toList (lower p.1).toList) = lower c := by
  unfold CountOf at h
  rw [h, seed_lower_append, String.toList_append, show lower "_cardinality" = "_cardinality" by decide +kernel,
    beforeLast_end _ _ (by decide), String.ofList_toList]

theorem searchKey_plain (w : Wh) (c : String) (h : '"' ∉ c.toList) : searchKey w c = lower c := by
  have hl : '"' ∉ (lower c).toList := by
    unfold lower
    rw [String.toList_ofList]
    intro hm
    obtain ⟨d, hd, he⟩ := List.mem_map.mp hm
    have : d = '"' := by
      unfold Char.toLower at he
      split at he
      · rename_i hr
        exfalso
        have h1 : 65 ≤ d.toNat := hr.1
        have h2 : d.toNat ≤ 90 := hr.2
        have := congrArg Char.toNat he
        have key : ∀ n, 65 ≤ n → n ≤ 90 → (Char.ofNat n).toLower ≠ '"' := by
          intro n a b
          interval_cases n <;> decide
        apply key d.toNat h1 h2
        rw [Char.ofNat_toNat]
        unfold Char.toLower
        rw [dif_pos hr]
        exact he
      · exact he
    rw [this] at hd
    exact h hd
  have hf : (lower c).toList.filter (· ≠ '"') = (lower c).toList := by
    rw [List.filter_eq_self]
    intro x hx
    simp only [ne_eq, decide_not, Bool.not_eq_eq_eq_not, Bool.not_true, decide_eq_false_iff_not]
    rintro rfl
    exact hl hx
  unfold searchKey columnText
  split_ifs
  · rw [seed_lower_append, seed_lower_append, String.toList_append, String.toList_append, List.filter_append, List.filter_append, hf,
      show List.filter (fun x => decide (x ≠ '"')) (lower "\"").toList = [] by decide +kernel, List.append_nil, List.nil_append,
      String.ofList_toList]
  · rw [hf, String.ofList_toList]

theorem isText_iff (w : Wh) (hw : w ≠ .unknown) (r : ColRow) : (layerType w r.dtype).toOption = some "string" ↔ IsText w r := by
  rw [layerType_spec w hw]
  unfold IsText
  cases ht : dictGet (timeTypes w) r.dtype with
  | none => simp [Except.toOption]
  | some t =>
    have := timeType_values w _ t ht
    simp only [Option.getD_some, Except.toOption, Option.some.injEq]
    constructor
    · intro h
      subst h
      exfalso
      revert this
      decide
    · rintro ⟨h, _⟩; cases h

theorem textColumns_spec (w : Wh) (hw : w ≠ .unknown) (rows : List ColRow) : seedCandidates w rows = textColumns w rows := by
  unfold seedCandidates textColumns
  congr 1
  refine List.filter_congr fun r _ => decide_eq_decide.mpr ?_
  exact isText_iff w hw r

/-- C68. **What can be searched.** When the warehouse counts the values of the columns that are texts, each under the name of its column, a text is
marked as one that can be searched just when it has fewer than a hundred values, and nothing else is marked. -/
theorem C68_searchable (s : Seeder) (hw : s.wh ≠ .unknown) (count : String → Res (List (String × Nat))) (schema table : String)
    (rows : List ColRow) (fields : List SeedField) (h : seedFields s count true schema table rows = .ok fields)
    (answers : ∀ q cards, count q = .ok cards → List.Forall₂ CountOf (textColumns s.wh rows) cards)
    (apart : (rows.map fun r => lower r.column).Nodup) (plain : ∀ r ∈ rows, '"' ∉ r.column.toList) :
    ∃ cards : List (String × Nat), List.Forall₂ (fun r f =>
      (IsText s.wh r → ∃ p ∈ cards, CountOf r.column p ∧ f.searchable = some (decide (p.2 < 100))) ∧
      (¬ IsText s.wh r → f.searchable = none)) rows fields := by
  unfold seedFields at h
  rw [textColumns_spec s.wh hw] at h
  cases hm : rows.mapM (seedField s.wh) with
  | error e => rw [hm] at h; cases h
  | ok fs =>
    rw [hm] at h
    have hp : List.Forall₂ (fun r f => r ∈ rows ∧ SeededAs s.wh r f ∧ f.searchable = none) rows fs := by
      have h1 := mapM_pairs hm
      have h2 : ∀ {l : List ColRow} {m : List SeedField}, (∀ r ∈ l, r ∈ rows) → List.Forall₂ (fun r f => seedField s.wh r = .ok f) l m →
          List.Forall₂ (fun r f => r ∈ rows ∧ SeededAs s.wh r f ∧ f.searchable = none) l m := by
        intro l m hl hlm
        induction hlm with
        | nil => exact .nil
        | cons hab _ ih =>
          refine .cons ?_ (ih fun r hr => hl r (List.mem_cons_of_mem _ hr))
          obtain ⟨f', g1, g2, g3⟩ := C68_field s.wh hw _
          rw [g1] at hab
          cases hab
          exact ⟨hl _ (by simp), g2, g3⟩
      exact h2 (fun r hr => hr) h1
    change (if _ then _ else _ : Res (List SeedField)) = _ at h
    by_cases hc : textColumns s.wh rows = []
    · rw [if_neg (by simp [hc])] at h
      cases h
      refine ⟨[], hp.imp ?_⟩
      rintro r f ⟨hr, _, hn⟩
      refine ⟨fun ht => ?_, fun _ => hn⟩
      exfalso
      have : r.column ∈ textColumns s.wh rows := List.mem_map.mpr ⟨r, List.mem_filter.mpr ⟨hr, decide_eq_true ht⟩, rfl⟩
      rw [hc] at this
      cases this
    · rw [if_pos ⟨rfl, hc⟩] at h
      cases hq : cardinalityQuery s (textColumns s.wh rows) schema table with
      | error e => rw [hq] at h; cases h
      | ok q =>
        rw [hq] at h
        change (count q).map _ = _ at h
        cases hcard : count q with
        | error e => rw [hcard] at h; cases h
        | ok cards =>
          rw [hcard] at h
          cases h
          have hal := answers q cards hcard
          have onto : ∀ c ∈ textColumns s.wh rows, ∃ p ∈ cards, CountOf c p := by
            generalize textColumns s.wh rows = l at hal
            clear hcard
            induction hal with
            | nil => intro c hc; cases hc
            | cons hab _ ih =>
              intro c hc
              rcases List.mem_cons.mp hc with rfl | hc
              · exact ⟨_, by simp, hab⟩
              · obtain ⟨p, hp, h⟩ := ih c hc
                exact ⟨p, List.mem_cons_of_mem _ hp, h⟩
          have back : ∀ p ∈ cards, ∃ c ∈ textColumns s.wh rows, CountOf c p := by
            clear onto
            generalize textColumns s.wh rows = l at hal
            clear hcard
            induction hal with
            | nil => intro c hc; cases hc
            | cons hab _ ih =>
              intro p hp
              rcases List.mem_cons.mp hp with rfl | hp
              · exact ⟨_, by simp, hab⟩
              · obtain ⟨c, hc, h⟩ := ih p hp
                exact ⟨c, List.mem_cons_of_mem _ hc, h⟩
          have few : ∀ x, x ∈ fewValues cards → ∃ p ∈ cards, p.2 < 100 ∧ ∃ c ∈ textColumns s.wh rows, CountOf c p ∧ x = lower c := by
            intro x hx
            obtain ⟨p, hp, rfl⟩ := List.mem_map.mp hx
            obtain ⟨hp1, hp2⟩ := List.mem_filter.mp hp
            obtain ⟨c, hc, hcp⟩ := back p hp1
            exact ⟨p, hp1, by simpa using hp2, c, hc, hcp, count_name c p hcp⟩
          refine ⟨cards, forall₂_zip _ hp ?_⟩
          rintro r f ⟨hr, hs, hn⟩
          show (IsText s.wh r → ∃ p ∈ cards, CountOf r.column p ∧ (markField s.wh (fewValues cards) r f).searchable = some (decide (p.2 < 100))) ∧
            (¬ IsText s.wh r → (markField s.wh (fewValues cards) r f).searchable = none)
          have hkey := searchKey_plain s.wh r.column (plain r hr)
          unfold markField
          rw [hkey]
          refine ⟨fun ht => ?_, fun ht => ?_⟩
          · by_cases hin : lower r.column ∈ fewValues cards
            · rw [if_pos hin]
              obtain ⟨p, hp, hlt, c, _, hcp, he⟩ := few _ hin
              refine ⟨p, hp, ?_, by simp [hlt]⟩
              unfold CountOf at hcp ⊢
              rw [hcp, seed_lower_append, seed_lower_append, he]
            · rw [if_neg hin]
              obtain ⟨p, hp, hcp⟩ := onto r.column (List.mem_map.mpr ⟨r, List.mem_filter.mpr ⟨hr, decide_eq_true ht⟩, rfl⟩)
              refine ⟨p, hp, hcp, ?_⟩
              have hsa := hs.2.2.2
              rw [ht.1] at hsa
              rw [if_pos ⟨hsa.1, by rw [hsa.2.1]; exact ht.2⟩]
              have : ¬ p.2 < 100 := by
                intro hlt
                apply hin
                refine List.mem_map.mpr ⟨p, List.mem_filter.mpr ⟨hp, by simpa using hlt⟩, ?_⟩
                exact count_name r.column p hcp
              simp [this]
          · have hnin : lower r.column ∉ fewValues cards := by
              intro hin
              obtain ⟨p, _, _, c, hc, _, he⟩ := few _ hin
              obtain ⟨r', hr', rfl⟩ := List.mem_map.mp hc
              obtain ⟨hr1, hr2⟩ := List.mem_filter.mp hr'
              have : r = r' := List.inj_on_of_nodup_map apart hr hr1 he
              subst this
              exact ht (by unfold IsText; simpa using hr2)
            rw [if_neg hnin, if_neg]
            · exact hn
            · rintro ⟨g1, g2⟩
              apply ht
              have hsa := hs.2.2.2
              cases htt : dictGet (timeTypes s.wh) r.dtype with
              | some t => rw [htt] at hsa; rw [hsa.1] at g1; exact absurd g1 (by decide)
              | none => rw [htt] at hsa; exact ⟨htt, by rw [← hsa.2.1]; exact g2⟩

/-- C68. **The model.** Views go to the only model there is, or to the first with the connection; without models one is made, and with several of which
none has the connection ValueError is raised. -/
theorem C68_model (conn : String) (models : List (String × Option String)) :
    (models = [] → modelNameFor conn models = .ok "base_model") ∧
    (∀ m, models = [m] → modelNameFor conn models = .ok m.1) ∧
    (2 ≤ models.length → (∀ pre m post, models = pre ++ m :: post → m.2 = some conn → (∀ x ∈ pre, x.2 ≠ some conn) →
        modelNameFor conn models = .ok m.1) ∧
      ((∀ m ∈ models, m.2 ≠ some conn) → modelNameFor conn models = .error .valueError)) := by
  refine ⟨?_, ?_, ?_⟩
  · rintro rfl; rfl
  · rintro m rfl; rfl
  · intro hl
    have e : modelNameFor conn models = match models.find? fun m => m.2 = some conn with
        | some m => .ok m.1
        | none => .error .valueError := by
      match models, hl with
      | _ :: _ :: _, _ => rfl
    rw [e]
    refine ⟨?_, ?_⟩
    · intro pre m post hm hc hpre
      have : models.find? (fun m => m.2 = some conn) = some m := by
        rw [List.find?_eq_some_iff_append]
        refine ⟨by simpa using hc, pre, post, hm, ?_⟩
        intro x hx
        simpa using hpre x hx
      rw [this]
    · intro h
      have : models.find? (fun m => m.2 = some conn) = none := by
        rw [List.find?_eq_none]
        intro x hx
        simpa using h x hx
      rw [this]

/-- C68. **What the warehouse is asked** for: the columns of the information schema of the database, of the chosen schema and table. Without a database,
and for BigQuery without a schema, ValueError is raised; Druid and Trino need neither. Snowflake is asked for ten thousand columns at most. -/
theorem C68_asks (s : Seeder) (hw : s.wh ≠ .unknown) :
    (columnsQuery s = .error .valueError ↔
      (s.wh ≠ .druid ∧ s.wh ≠ .trino ∧ (given? s.database = none ∨ (s.wh = .bigquery ∧ given? s.schema = none)))) ∧
    (∀ e, columnsQuery s = .error e → e = .valueError) ∧
    (∀ q, columnsQuery s = .ok q → ∃ base,
      q = base ++ whereText (given? s.schema) (given? s.table) ++
        (if s.wh = .snowflake then " LIMIT 10000;" else if s.wh = .druid ∨ s.wh = .trino then "" else ";") ∧
      (s.wh ≠ .druid → s.wh ≠ .trino → s.wh ≠ .bigquery → ∃ d, given? s.database = some d ∧
        base = "SELECT " ++ askedOf s.wh ++ " FROM " ++ d ++ ".INFORMATION_SCHEMA.COLUMNS") ∧
      (s.wh = .bigquery → ∃ d c, given? s.database = some d ∧ given? s.schema = some c ∧
        base = "SELECT " ++ askedOf s.wh ++ " FROM `" ++ d ++ "." ++ c ++ "`.INFORMATION_SCHEMA.COLUMNS") ∧
      (s.wh = .druid ∨ s.wh = .trino → base = "SELECT " ++ askedOf s.wh ++ " FROM INFORMATION_SCHEMA.COLUMNS")) := by
  have tail : ∀ base, (if s.wh = .snowflake then columnsWhere s base ++ " LIMIT 10000;" else seedSemicolon s.wh (columnsWhere s base)) =
      base ++ whereText (given? s.schema) (given? s.table) ++
        (if s.wh = .snowflake then " LIMIT 10000;" else if s.wh = .druid ∨ s.wh = .trino then "" else ";") := by
    intro base
    unfold whereText seedSemicolon columnsWhere
    cases given? s.schema <;> cases given? s.table <;> (simp only []; split_ifs <;> simp [String.append_assoc])
  have er : ∀ e, columnsQuery s = .error e ↔ columnsFrom s = .error e := by
    intro e
    unfold columnsQuery
    cases columnsFrom s <;> simp [Except.map]
  have good : ∀ q, columnsQuery s = .ok q → ∃ base, columnsFrom s = .ok base ∧ q = base ++ whereText (given? s.schema) (given? s.table) ++
        (if s.wh = .snowflake then " LIMIT 10000;" else if s.wh = .druid ∨ s.wh = .trino then "" else ";") := by
    intro q hq
    unfold columnsQuery at hq
    cases hb : columnsFrom s with
    | error e => rw [hb] at hq; cases hq
    | ok base =>
      rw [hb] at hq
      cases hq
      exact ⟨base, rfl, tail base⟩
  simp only [er]
  refine ⟨?_, ?_, ?_⟩
  · unfold columnsFrom
    cases hwh : s.wh <;> first | exact absurd hwh hw | skip
    all_goals cases hd : given? s.database <;> cases hc : given? s.schema <;> simp [namesDatabase]
  · intro e he
    unfold columnsFrom at he
    cases hd : given? s.database <;> cases hc : given? s.schema <;> rw [hd, hc] at he <;> simp only at he <;> split_ifs at he <;> cases he <;> rfl
  · intro q hq
    obtain ⟨base, hb, rfl⟩ := good q hq
    refine ⟨base, rfl, ?_⟩
    unfold columnsFrom at hb
    generalize s.wh = w at hw hb
    cases w <;> first | exact absurd rfl hw | skip
    all_goals
      cases hd : given? s.database <;> cases hc : given? s.schema <;> rw [hd, hc] at hb <;>
        simp [namesDatabase, hasComments] at hb <;> subst hb <;> simp [askedOf]

end ML
