import Verif.JoinOn.Spec
import Verif.Names.Props
import Verif.Refs.Props
/-
C73: the conditions of joins.
-/
set_option autoImplicit false
namespace ML
open Spec

/-! ### References -/

theorem parts_of_refers {ref : List Char} {v f : String} (h : RefNames ref v f) :
    ∃ e, fieldNameParts (String.ofList ref) = (e, some v, f) := by
  obtain ⟨hv, hf, rfl | ⟨e, he, rfl⟩⟩ := h
  · refine ⟨none, ?_⟩
    rw [← C06_split_two v f hv hf]
    congr 1
    apply String.toList_inj.mp
    simp
  · refine ⟨some (String.ofList e), ?_⟩
    rw [← C06_split_three (String.ofList e) v f (by unfold dotFree; rw [String.toList_ofList]; exact he) hv hf]
    congr 1
    apply String.toList_inj.mp
    simp

theorem parts_of_none {ref : List Char} (h : NoView ref) : fieldNameParts (String.ofList ref) = (none, none, String.ofList ref) := by
  apply C06_split_other
  rw [String.toList_ofList]
  rcases h with h | h
  · exact .inl h
  · exact .inr h

theorem ref_cases (ref : List Char) : NoView ref ∨ ∃ v f, RefNames ref v f := by
  by_cases h1 : ref.count '.' = 1
  · right
    have h1' : (String.ofList ref).toList.count '.' = 1 := by rw [String.toList_ofList]; exact h1
    obtain ⟨v, n, hs⟩ := fieldNameParts_two (String.ofList ref) h1'
    rw [String.toList_ofList] at hs
    have hj := splitChars_intercalate '.' ref
    have hp := splitChars_parts_noSep '.' ref
    rw [hs] at hj hp
    refine ⟨String.ofList v, String.ofList n, ?_, ?_, .inl ?_⟩
    · rw [String.toList_ofList]; exact hp v (by simp)
    · rw [String.toList_ofList]; exact hp n (by simp)
    · rw [String.toList_ofList, String.toList_ofList, ← hj]; simp [List.intercalate]
  · by_cases h2 : ref.count '.' = 2
    · right
      have h2' : (String.ofList ref).toList.count '.' = 2 := by rw [String.toList_ofList]; exact h2
      obtain ⟨e, v, n, hs⟩ := fieldNameParts_three (String.ofList ref) h2'
      rw [String.toList_ofList] at hs
      have hj := splitChars_intercalate '.' ref
      have hp := splitChars_parts_noSep '.' ref
      rw [hs] at hj hp
      refine ⟨String.ofList v, String.ofList n, ?_, ?_, .inr ⟨e, hp e (by simp), ?_⟩⟩
      · rw [String.toList_ofList]; exact hp v (by simp)
      · rw [String.toList_ofList]; exact hp n (by simp)
      · rw [String.toList_ofList, String.toList_ofList, ← hj]; simp [List.intercalate]
    · left
      unfold NoView
      omega

theorem refers_unique {ref : List Char} {v f v' f' : String} (h : RefNames ref v f) (h' : RefNames ref v' f') : v = v' ∧ f = f' := by
  obtain ⟨e, h1⟩ := parts_of_refers h
  obtain ⟨e', h2⟩ := parts_of_refers h'
  rw [h1] at h2
  simp only [Prod.mk.injEq, Option.some.injEq] at h2
  exact h2.2

theorem refers_some {ref : List Char} {v f : String} (h : RefNames ref v f) : ¬ NoView ref := by
  intro hn
  obtain ⟨e, h1⟩ := parts_of_refers h
  rw [parts_of_none hn] at h1
  simp at h1

theorem conditionValue_some (env : JoinEnv) (ref sql : List Char) : conditionValue env ref = .ok (some sql) ↔ RefStandsFor env ref sql := by
  unfold conditionValue RefStandsFor
  rcases ref_cases ref with hn | ⟨v, f, hr⟩
  · rw [parts_of_none hn]
    constructor
    · intro h; simp at h
    · rintro ⟨v, f, -, hr, -⟩; exact absurd hn (refers_some hr)
  · obtain ⟨e, hp⟩ := parts_of_refers hr
    rw [hp]
    simp only
    constructor
    · intro h
      cases hv : env.getView v with
      | error er => rw [hv] at h; cases h
      | ok name =>
        rw [hv] at h; simp only at h
        cases hf : env.getField f name with
        | error er => rw [hf] at h; cases h
        | ok u =>
          rw [hf] at h; simp only at h
          cases hs : env.sqlQuery f name with
          | error er => rw [hs] at h; cases h
          | ok s => rw [hs] at h; cases h; exact ⟨v, f, name, hr, hv, hf, hs⟩
    · rintro ⟨v', f', name, hr', hv, hf, hs⟩
      obtain ⟨rfl, rfl⟩ := refers_unique hr hr'
      simp only [hv, hf, hs]

theorem conditionValue_none (env : JoinEnv) (ref : List Char) : conditionValue env ref = .ok none ↔ NoView ref := by
  unfold conditionValue
  rcases ref_cases ref with hn | ⟨v, f, hr⟩
  · rw [parts_of_none hn]; simp [hn]
  · obtain ⟨e, hp⟩ := parts_of_refers hr
    rw [hp]
    simp only
    constructor
    · intro h
      exfalso
      cases hv : env.getView v with
      | error er => rw [hv] at h; cases h
      | ok name =>
        rw [hv] at h; simp only at h
        cases hf : env.getField f name with
        | error er => rw [hf] at h; cases h
        | ok u =>
          rw [hf] at h; simp only at h
          cases hs : env.sqlQuery f name with
          | error er => rw [hs] at h; cases h
          | ok s => rw [hs] at h; cases h
    · intro hn; exact absurd hn (refers_some hr)

/-! ### The condition -/

theorem conditionLoop_some (env : JoinEnv) (v : List Char → List Char) : ∀ (ns : List (List Char)) (text : List Char),
    (∀ n ∈ ns, conditionValue env n = .ok (some (v n))) →
    ∃ t, replaceEach (fun n => .ok (v n)) ns text = .ok t ∧ conditionLoop env ns text = .ok (some t)
  | [], text, _ => ⟨text, rfl, rfl⟩
  | n :: ns, text, h => by
    obtain ⟨t, h1, h2⟩ := conditionLoop_some env v ns (replaceAll (refText n) (v n) text) (fun m hm => h m (by simp [hm]))
    refine ⟨t, ?_, ?_⟩
    · simp only [replaceEach]; exact h1
    · simp only [conditionLoop, h n (by simp)]; exact h2

/-- C73 (a): the condition a join gets in the query is the one written, with every reference replaced, wherever it is, by the SQL of the field it names, and nothing
else changed. -/
theorem C73_condition (env : JoinEnv) (ps : List Piece) (hps : OrdinaryText ps) (v : List Char → List Char)
    (hv : ∀ n ∈ refNames ps, RefStandsFor env n (v n) ∧ '{' ∉ v n) : onText env (render ps) = .ok (fill v ps) := by
  rw [ordinary_iff] at hps
  unfold onText replacedSqlOn
  rw [fieldsToReplace_render _ hps]
  obtain ⟨t, h1, h2⟩ := conditionLoop_some env v (refNames ps) (render ps) (fun n hn => (conditionValue_some env n _).mpr (hv n hn).1)
  rw [replaceEach_ok _ v _ _ hps (fun m hm => ⟨refNames_good _ hps m hm, rfl, (hv m hm).2⟩), fill_app _ _ _ (fun n hn => hn)] at h1
  cases h1
  rw [h2]

theorem conditionLoop_stops (env : JoinEnv) (v : List Char → List Char) : ∀ (before : List (List Char)) (r : List Char) (after : List (List Char)) (text : List Char),
    (∀ n ∈ before, conditionValue env n = .ok (some (v n))) → conditionValue env r = .ok none →
    conditionLoop env (before ++ r :: after) text = .ok none
  | [], r, after, text, _, hr => by simp only [List.nil_append, conditionLoop, hr]
  | n :: ns, r, after, text, h, hr => by
    simp only [List.cons_append, conditionLoop, h n (by simp)]
    exact conditionLoop_stops env v ns r after _ (fun m hm => h m (by simp [hm])) hr

/-- C73 (b), what is false: a reference without a view makes the whole condition the word `None`, without any error, if the references before it are all right. -/
theorem C73_none (env : JoinEnv) (ps : List Piece) (hps : OrdinaryText ps) (v : List Char → List Char) (before after : List (List Char)) (r : List Char)
    (hs : refNames ps = before ++ r :: after) (hb : ∀ n ∈ before, RefStandsFor env n (v n)) (hr : NoView r) :
    onText env (render ps) = .ok "None".toList := by
  rw [ordinary_iff] at hps
  unfold onText replacedSqlOn
  rw [fieldsToReplace_render _ hps, hs,
    conditionLoop_stops env v before r after _ (fun n hn => (conditionValue_some env n _).mpr (hb n hn)) ((conditionValue_none env r).mpr hr)]

/-! ### What validation reports -/

theorem checkRef_mem (env : JoinEnv) (ref : List Char) (p : JoinProblem) : p ∈ checkRef env ref ↔ RefWrong env ref p := by
  unfold checkRef
  rcases ref_cases ref with hn | ⟨v, f, hr⟩
  · rw [parts_of_none hn]
    simp only [List.mem_singleton]
    constructor
    · rintro rfl; exact .noView hn
    · intro h
      cases h with
      | noView h => rfl
      | unknownView v f h => exact absurd hn (refers_some h)
      | unknownField v f name h => exact absurd hn (refers_some h)
  · obtain ⟨e, hp⟩ := parts_of_refers hr
    rw [hp]
    simp only
    cases hv : env.getView v with
    | error er =>
      simp only [List.mem_singleton]
      constructor
      · rintro rfl; exact .unknownView v f hr ⟨er, hv⟩
      · intro h
        cases h with
        | noView h => exact absurd h (refers_some hr)
        | unknownView v' f' h => obtain ⟨rfl, rfl⟩ := refers_unique hr h; rfl
        | unknownField v' f' name h h2 => obtain ⟨rfl, rfl⟩ := refers_unique hr h; rw [hv] at h2; cases h2
    | ok name =>
      simp only
      cases hf : env.getField f name with
      | error er =>
        simp only [List.mem_singleton]
        constructor
        · rintro rfl; exact .unknownField v f name hr hv ⟨er, hf⟩
        · intro h
          cases h with
          | noView h => exact absurd h (refers_some hr)
          | unknownView v' f' h h2 => obtain ⟨rfl, rfl⟩ := refers_unique hr h; obtain ⟨e2, h2⟩ := h2; rw [hv] at h2; cases h2
          | unknownField v' f' name' h h2 => obtain ⟨rfl, rfl⟩ := refers_unique hr h; rfl
      | ok u =>
        simp only [List.not_mem_nil, false_iff]
        intro h
        cases h with
        | noView h => exact refers_some hr h
        | unknownView v' f' h h2 => obtain ⟨rfl, rfl⟩ := refers_unique hr h; obtain ⟨e2, h2⟩ := h2; rw [hv] at h2; cases h2
        | unknownField v' f' name' h h2 h3 =>
          obtain ⟨rfl, rfl⟩ := refers_unique hr h
          obtain ⟨e2, h3⟩ := h3
          rw [hv] at h2; cases h2
          rw [hf] at h3; cases h3

/-- C73 (c): validating a join with a condition reports exactly the references that name no view, name one that cannot be found, or a field that cannot be found in it. -/
theorem C73_errors (env : JoinEnv) (d : FDef) (base joined : String) (ps : List Piece) (hps : OrdinaryText ps)
    (hon : Given d "sql_on" (.str (String.ofList (render ps)))) (hk : ¬ IsSet d "foreign_key") :
    ∃ out, joinErrors env d base joined = .ok out ∧ ∀ p, p ∈ out ↔ ∃ r ∈ refNames ps, RefWrong env r p := by
  have hkey : truthyOpt (dictGet d "foreign_key") = false := by
    cases c : dictGet d "foreign_key" with
    | none => rfl
    | some v =>
      simp only [truthyOpt]
      by_contra hv
      refine hk ⟨v, c, fun hn => hv ?_⟩
      cases hn <;> simp [Yaml.truthy]
  rw [ordinary_iff] at hps
  unfold joinErrors
  rw [hkey, show dictGet d "sql_on" = some (.str (String.ofList (render ps))) from hon]
  simp only [Bool.false_eq_true, if_false]
  by_cases he : String.ofList (render ps) = ""
  · rw [if_pos he]
    refine ⟨[], rfl, fun p => ?_⟩
    have h0 : render ps = [] := by
      have := congrArg String.toList he
      rw [String.toList_ofList] at this
      exact this
    have hr : refNames ps = [] := by
      rw [← fieldsToReplace_render _ hps, h0]; rfl
    simp [hr]
  · rw [if_neg he]
    refine ⟨_, rfl, fun p => ?_⟩
    rw [String.toList_ofList, fieldsToReplace_render _ hps, List.mem_flatMap]
    exact exists_congr (fun r => and_congr_right (fun _ => checkRef_mem env r p))

/-- C73 (d): if validation reports nothing, every reference is to a field, so that the condition can be written as soon as these fields have SQL. -/
theorem C73_clean (env : JoinEnv) (d : FDef) (base joined : String) (ps : List Piece) (hps : OrdinaryText ps)
    (hon : Given d "sql_on" (.str (String.ofList (render ps)))) (hk : ¬ IsSet d "foreign_key") (h : joinErrors env d base joined = .ok []) :
    ∀ r ∈ refNames ps, ∃ v f name, RefNames r v f ∧ env.getView v = .ok name ∧ env.getField f name = .ok () := by
  obtain ⟨out, h1, h2⟩ := C73_errors env d base joined ps hps hon hk
  rw [h] at h1
  cases h1
  intro r hr
  have none : ∀ p, ¬ RefWrong env r p := fun p hp => by simpa using (h2 p).mpr ⟨r, hr, hp⟩
  rcases ref_cases r with hn | ⟨v, f, hrf⟩
  · exact absurd (.noView hn) (none _)
  · cases hv : env.getView v with
    | error e => exact absurd (.unknownView v f hrf ⟨e, hv⟩) (none _)
    | ok name =>
      cases hf : env.getField f name with
      | error e => exact absurd (.unknownField v f name hrf hv ⟨e, hf⟩) (none _)
      | ok u => exact ⟨v, f, name, hrf, hv, hf⟩

/-- C73 (e), what is false: a join with a foreign key is reported for both views, however right it is. -/
theorem C73_foreign_key (env : JoinEnv) (d : FDef) (base joined : String) (v : Yaml) (hv : Given d "foreign_key" v) (hn : ¬ Nothing v) :
    joinErrors env d base joined = .ok [.noKey base, .noKey joined] := by
  unfold joinErrors
  rw [show dictGet d "foreign_key" = some v from hv]
  have : v.truthy = true := by
    by_contra h
    apply hn
    cases v with
    | null => exact .null
    | bool b => cases b with | false => exact .no | true => simp [Yaml.truthy] at h
    | int n => simp [Yaml.truthy] at h; subst h; exact .zero
    | float q => simp [Yaml.truthy] at h; subst h; exact .zero'
    | str s => simp [Yaml.truthy] at h; subst h; exact .text
    | list l => simp [Yaml.truthy] at h; subst h; exact .list
    | dict l => simp [Yaml.truthy] at h; subst h; exact .dict
  simp only [truthyOpt, this, if_true]

end ML
