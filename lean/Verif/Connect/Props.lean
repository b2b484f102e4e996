import Verif.Connect.Lemmas
/-
C66: a connection stands for what was handed in, shows no secret and hands on what it was given.
-/
set_option autoImplicit false
namespace ML
open Spec

/-- C66. **No secret is shown.** Whatever is printed of a connection (`printable_attributes()` and `repr()`), it is the same for
every value of its secrets, and the same if the connection cannot be made at all. BigQuery is in
`C66_secrets_bigquery`. -/
theorem C66_secrets (E : CredEnv) (render : Yaml → String) (a b : Kw) (h : DifferInSecrets a b)
    (hq : ∀ t, dictGet a "type" = some (.str t) → upper t ≠ "BIGQUERY") :
    ((loadOne E (.dict a)).bind Conn.printable) = ((loadOne E (.dict b)).bind Conn.printable) ∧
    ((loadOne E (.dict a)).bind (Conn.repr render)) = ((loadOne E (.dict b)).bind (Conn.repr render)) := by
  have hl := alike_of_differ h
  have ht : dictGet a "type" = dictGet b "type" := (hl "type").1 (by decide)
  unfold loadOne
  simp only
  rw [← ht]
  cases hta : dictGet a "type" with
  | none => exact ⟨rfl, rfl⟩
  | some v =>
    cases v with
    | str t =>
      simp only
      cases hc : classLookup (upper t) with
      | none => exact ⟨rfl, rfl⟩
      | some cls =>
        have hne : cls ≠ .bigquery := by
          intro hcls
          have := List.find?_some hc
          rw [hcls] at this
          exact hq t hta (of_decide_eq_true this).symm
        have hm := mkConn_alike E hl cls hne
        revert hm
        simp only
        cases mkConn E cls a with
        | error e =>
          cases mkConn E cls b with
          | error e' => intro hh; cases hh; exact ⟨rfl, rfl⟩
          | ok c' => intro hh; cases hh
        | ok c =>
          cases mkConn E cls b with
          | error e' => intro hh; cases hh
          | ok c' => intro hh; exact ⟨printable_alike hh.1 hh.2, repr_alike render hh.1 hh.2⟩
    | _ => exact ⟨rfl, rfl⟩

/-- The environment of the examples: no text is JSON, no file is there. -/
def cnEnv : CredEnv := ⟨fun _ => none, fun _ => true, fun a b => a ++ "/" ++ b, fun _ => .error .other⟩

/-- A Databricks connection with two values of its secrets. -/
def cnDatabricks (pw tok sec : String) : Kw :=
  [("type", .str "databricks"), ("name", .str "wh"), ("host", .str "h"), ("http_path", .str "p"),
    ("password", .str pw), ("personal_access_token", .str tok), ("client_secret", .str sec)]

example : DifferInSecrets (cnDatabricks "a" "b" "c") (cnDatabricks "x" "y" "z") := by
  apply differ_of_alike
  unfold cnDatabricks
  repeat first | exact alike_nil | exact alike_cons (fun _ => rfl) rfl alike_nil | refine alike_cons (fun _ => rfl) rfl ?_ |
    refine alike_cons (fun h => absurd (by decide) h) (by decide) ?_

/-- C66. The same for BigQuery when its credentials are a dictionary: of them only the project is shown. -/
theorem C66_secrets_bigquery (E : CredEnv) (render : Yaml → String) (a b : Kw) (d d' : Kw) (t : String) (p : Yaml)
    (ht : dictGet a "type" = some (.str t)) (hq : upper t = "BIGQUERY")
    (h : ∀ k, k ∉ secrets → dictGet a k = dictGet b k)
    (ha : dictGet a "credentials" = some (.dict d)) (hb : dictGet b "credentials" = some (.dict d'))
    (hd : dictGet d "project_id" = some p) (hd' : dictGet d' "project_id" = some p) :
    ((loadOne E (.dict a)).bind Conn.printable) = ((loadOne E (.dict b)).bind Conn.printable) ∧
    ((loadOne E (.dict a)).bind (Conn.repr render)) = ((loadOne E (.dict b)).bind (Conn.repr render)) := by
  have hdt : (Yaml.dict d).truthy = true := by
    cases d with
    | nil => simp [dictGet] at hd
    | cons _ _ => rfl
  have hdt' : (Yaml.dict d').truthy = true := by
    cases d' with
    | nil => simp [dictGet] at hd'
    | cons _ _ => rfl
  have ht' : dictGet b "type" = some (.str t) := by rw [← h "type" (by decide)]; exact ht
  have hn : dictGet a "name" = dictGet b "name" := h "name" (by decide)
  have hs : dictGet a "schema" = dictGet b "schema" := h "schema" (by decide)
  have hcl : classLookup "BIGQUERY" = some .bigquery := by decide
  simp only [loadOne, ht, ht', hq, hcl, mkConn, mkBigQuery, credsToUse, argNone, argOr, ha, hb, Option.getD_some, hdt, hdt',
    if_true, readCreds, needArgs, hn, hs]
  cases hnb : dictGet b "name" with
  | none => exact ⟨rfl, rfl⟩
  | some n =>
    simp only [Option.isSome_some, if_true, Option.getD_some]
    constructor
    · simp only [bind, Except.bind, projectId, hd, hd']
      simp [Conn.printable, Conn.toDict, readAttrs, baseKeys, addTruthy, truthyKeys, Conn.attr, dictGet, popKey, secretKey,
        bind, Except.bind, dictSet, pickKeys, sortOrder]
    · simp only [bind, Except.bind, projectId, hd, hd']
      simp [Conn.repr, Conn.attr, dictGet, bind, Except.bind]

example : upper "bigquery" = "BIGQUERY" ∧
    dictGet [("project_id", Yaml.str "p"), ("private_key", .str "k")] "project_id" = some (.str "p") :=
  ⟨by decide +kernel, by rfl⟩

/-- C66. Only what is public is printed, each thing once, in the order of the list, and nothing that is missing. -/
theorem C66_shown (c : Conn) (p : Kw) (h : c.printable = .ok p) :
    (∀ k v, (k, v) ∈ p → k ∈ shownKeys ∧ k ∉ secrets ∧ v ≠ .null) ∧ (p.map (·.1)).Nodup := by
  unfold Conn.printable at h
  cases hd : c.toDict with
  | error e => rw [hd] at h; cases h
  | ok d =>
    rw [hd] at h
    change (popKey d (secretKey c.cls)).bind _ = _ at h
    cases hp : popKey d (secretKey c.cls) with
    | error e => rw [hp] at h; cases h
    | ok d1 =>
      rw [hp] at h
      change (c.attr "name").bind _ = _ at h
      cases hn : c.attr "name" with
      | error e => rw [hn] at h; cases h
      | ok n =>
        rw [hn] at h
        have h : pickKeys (dictSet d1 "name" n) (sortOrder c.cls) = p := by injection h
        have key : ∀ (ks : List String) (d : Kw), (∀ k v, (k, v) ∈ pickKeys d ks → k ∈ ks ∧ v ≠ .null) ∧
            (ks.Nodup → ((pickKeys d ks).map (·.1)).Nodup) := by
          intro ks d
          induction ks with
          | nil => exact ⟨fun k v hm => by simp [pickKeys] at hm, fun _ => by simp [pickKeys]⟩
          | cons j ks ih =>
            simp only [pickKeys]
            split
            · refine ⟨fun k v hm => ?_, fun hnd => ih.2 (List.nodup_cons.1 hnd).2⟩
              exact ⟨List.mem_cons_of_mem _ (ih.1 k v hm).1, (ih.1 k v hm).2⟩
            · refine ⟨fun k v hm => ?_, fun hnd => ih.2 (List.nodup_cons.1 hnd).2⟩
              exact ⟨List.mem_cons_of_mem _ (ih.1 k v hm).1, (ih.1 k v hm).2⟩
            · rename_i v hv2 hv1
              refine ⟨fun k w hm => ?_, fun hnd => ?_⟩
              · rcases List.mem_cons.1 hm with he | hm
                · simp only [Prod.mk.injEq] at he
                  obtain ⟨rfl, rfl⟩ := he
                  exact ⟨by simp, hv2⟩
                · exact ⟨List.mem_cons_of_mem _ (ih.1 k w hm).1, (ih.1 k w hm).2⟩
              · have := List.nodup_cons.1 hnd
                refine List.nodup_cons.2 ⟨fun hm => ?_, ih.2 this.2⟩
                obtain ⟨⟨k', v'⟩, hm1, rfl⟩ := List.mem_map.1 hm
                exact this.1 (ih.1 k' v' hm1).1
        have k1 := key (sortOrder c.cls) (dictSet d1 "name" n)
        rw [h] at k1
        refine ⟨fun k v hm => ?_, k1.2 (by cases c.cls <;> decide)⟩
        have := k1.1 k v hm
        exact ⟨(sort_public c.cls k this.1).1, (sort_public c.cls k this.1).2, this.2⟩

end ML
