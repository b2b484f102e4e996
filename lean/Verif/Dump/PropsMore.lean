import Verif.Dump.Props
/-
C50: the keys of dumped views and fields, and references without a manifest.
-/
set_option autoImplicit false
namespace ML
open Spec

/-- **C50**, the order of the keys of a dumped field: the usual keys first, in their order, then the others as they were. -/
theorem C50_field_key_order (f : FieldDict) : (sortField f).map Prod.fst =
    ["name", "field_type", "type", "datatype", "hidden", "primary_key", "label", "view_label", "description",
     "required_access_grants", "value_format_name", "drill_fields", "sql_distinct_key", "tiers", "timeframes", "intervals",
     "sql_start", "sql_end", "sql", "filters", "extra"].filter (fun k => decide (k ∈ f.map Prod.fst)) ++
      (f.map Prod.fst).filter fun k => decide (k ∉ ["name", "field_type", "type", "datatype", "hidden", "primary_key", "label", "view_label", "description",
        "required_access_grants", "value_format_name", "drill_fields", "sql_distinct_key", "tiers", "timeframes", "intervals",
        "sql_start", "sql_end", "sql", "filters", "extra"]) :=
  copied_keys fieldKeyOrder f

theorem sortViewKeys_fst (v : DumpDict) (ks : List String) (w : DumpDict) (h : sortViewKeys v ks = .ok w) :
    w.map Prod.fst = (ks.filterMap fun k => (dictGet v k).map fun x => (k, x)).map Prod.fst := by
  induction ks generalizing w with
  | nil => cases h; rfl
  | cons k ks ih =>
    rw [sortViewKeys] at h
    cases hg : dictGet v k with
    | none =>
      rw [hg] at h
      rw [List.filterMap_cons, hg]
      exact ih w h
    | some x =>
      rw [hg] at h
      simp only at h
      cases hv : viewValue k x with
      | error e => rw [hv] at h; cases h
      | ok y =>
        rw [hv] at h
        simp only at h
        cases hr : sortViewKeys v ks with
        | error e => rw [hr] at h; cases h
        | ok rest =>
          rw [hr] at h
          cases h
          rw [List.filterMap_cons, hg]
          simp only [Option.map_some, List.map_cons]
          rw [ih rest hr]

/-- **C50**, the order of the keys of a dumped view. -/
theorem C50_view_key_order (v w : DumpDict) (h : sortView v = .ok w) : w.map Prod.fst =
    ["version", "type", "name", "label", "description", "model_name", "sql_table_name", "default_date", "row_label", "extends",
     "extension", "required_access_grants", "sets", "identifiers", "fields"].filter (fun k => decide (k ∈ v.map Prod.fst)) ++
      (v.map Prod.fst).filter fun k => decide (k ∉ ["version", "type", "name", "label", "description", "model_name", "sql_table_name", "default_date",
        "row_label", "extends", "extension", "required_access_grants", "sets", "identifiers", "fields"]) := by
  rw [sortViewKeys_fst v _ w h]
  exact copied_keys viewKeyOrder v

theorem sortViewKeys_text (v : DumpDict) (x : String) (hx : dictGet v "fields" = some (.value x)) (ks : List String) (h : "fields" ∈ ks) :
    sortViewKeys v ks = .error .typeError := by
  induction ks with
  | nil => cases h
  | cons k ks ih =>
    rw [sortViewKeys]
    by_cases hk : k = "fields"
    · subst hk
      rw [hx]
      rfl
    · have h' : "fields" ∈ ks := by
        rcases List.mem_cons.mp h with h | h
        · exact absurd h.symm hk
        · exact h
      cases dictGet v k with
      | none => exact ih h'
      | some y =>
        simp only [viewValue, if_neg hk, ih h']

/-- **C50**: a view whose `fields` is not a list of fields is not written; it fails with a TypeError. -/
theorem C50_fields_not_a_list (v : DumpDict) (x : String) (hx : dictGet v "fields" = some (.value x)) : sortView v = .error .typeError := by
  unfold sortView
  exact sortViewKeys_text v x hx _ (List.mem_append_left _ (by decide))

/-- **C50**, references in a project without a manifest: the table of that name in the schema of the connection, or a query error. -/
theorem C50_no_manifest (name : String) : (∀ schema, schema ≠ "" → resolveDbtRef none (some schema) name = .ok (schema ++ "." ++ name)) ∧
    resolveDbtRef none none name = .error .query ∧ resolveDbtRef none (some "") name = .error .query :=
  ⟨fun schema h => by rw [resolveDbtRef]; exact if_neg h, rfl, rfl⟩

example : sortView [("fields", .fields [[("sql", "a"), ("name", "id"), ("field_type", "dimension")]]), ("sql_table_name", .value "t"), ("zeta", .value "1"), ("name", .value "v")] =
    .ok [("name", .value "v"), ("sql_table_name", .value "t"), ("fields", .fields [[("name", "id"), ("field_type", "dimension"), ("sql", "a")]]), ("zeta", .value "1")] ∧
    sortView [("name", .value "v"), ("fields", .value "x")] = .error .typeError := by
  refine ⟨?_, by decide +kernel⟩
  rw [sortView]
  simp [copyOrder, viewKeyOrder, sortViewKeys, dictGet, viewValue, sortFields, fieldRanks, fieldRank, sortField, fieldKeyOrder, Except.map]

end ML
