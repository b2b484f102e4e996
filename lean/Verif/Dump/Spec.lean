import Verif.Dump.Model
import Mathlib.Data.List.Forall2
/-
What writing and reading project files should preserve, and what a dbt reference names.
-/
set_option autoImplicit false
namespace ML.Spec

/-- A dictionary: no key twice. -/
def IsDict {α : Type} (d : List (String × α)) : Prop := (d.map Prod.fst).Nodup

instance {α : Type} (d : List (String × α)) : Decidable (IsDict d) := inferInstanceAs (Decidable (d.map Prod.fst).Nodup)

/-- A private key: it starts with an underscore. -/
def Private (k : String) : Prop := ∃ cs, k.toList = '_' :: cs

instance (k : String) : Decidable (Private k) :=
  match h : k.toList with
  | [] => isFalse (by rintro ⟨cs, hc⟩; rw [h] at hc; cases hc)
  | c :: cs => if hc : c = '_' then isTrue ⟨cs, by rw [h, hc]⟩ else isFalse (by rintro ⟨cs', h'⟩; rw [h] at h'; cases h'; exact hc rfl)

/-- The same value, up to the order of fields and of the keys of a field. -/
inductive SameEntry : DumpVal → DumpVal → Prop
  | value (s : String) : SameEntry (.value s) (.value s)
  | fields {fs fs' gs : List FieldDict} : fs'.Perm fs → List.Forall₂ List.Perm fs' gs → SameEntry (.fields fs) (.fields gs)

/-- The same dictionary, up to the order of keys, of fields and of the keys of fields. -/
def SameDict (d e : DumpDict) : Prop :=
  ∃ d' : DumpDict, d'.Perm d ∧ List.Forall₂ (fun x y => x.1 = y.1 ∧ SameEntry x.2 y.2) d' e

/-- The dictionary without its private keys. -/
def publicPart (d : DumpDict) : DumpDict := d.filter fun kv => !decide (Private kv.1)

/-- The type of a field comes before another: dimensions, then dimension groups, then measures. -/
def TypeBefore (s t : String) : Prop :=
  (s = "dimension" ∧ (t = "dimension_group" ∨ t = "measure")) ∨ (s = "dimension_group" ∧ t = "measure")

/-- A well-formed view or model to write: a dictionary whose fields are dictionaries with a known type and a name. -/
def WellFormedDict (d : DumpDict) : Prop :=
  IsDict d ∧ ∀ v, ("fields", v) ∈ d → ∃ fs, v = .fields fs ∧ ∀ f ∈ fs, IsDict f ∧
    (∃ t ∈ ["dimension", "dimension_group", "measure"], ("field_type", t) ∈ f) ∧ ∃ n, ("name", n) ∈ f

/-- The values are texts or a list of fields under the key `fields`, and the fields are dictionaries. -/
def OnlyFields (d : DumpDict) : Prop := ∀ k fs, (k, DumpVal.fields fs) ∈ d → k = "fields" ∧ ∀ f ∈ fs, IsDict f

/-- A model or view as it was loaded from the file `f` of the project: it knows its file and its type and has no other private key. -/
def LoadedFrom (f type : String) (d : DumpDict) : Prop :=
  IsDict d ∧ ("_file_path", DumpVal.value f) ∈ d ∧ ("type", DumpVal.value type) ∈ d ∧
  (∀ kv ∈ d, Private kv.1 → kv.1 = "_file_path") ∧ f ≠ "" ∧ ¬ ∃ cs, f.toList = '/' :: cs

/-- The key of a node ends with the name: `name` or `….name`. -/
def NodeNamed (key name : String) : Prop := '.' ∉ name.toList ∧ (key = name ∨ ∃ pre : String, key = pre ++ "." ++ name)

end ML.Spec
