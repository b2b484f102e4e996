import Verif.Connect.Spec
import Mathlib.Data.List.Basic
/-
Lemmas about connections.
-/
set_option autoImplicit false
namespace ML
open Spec

/-- As `DifferInSecrets`, key by key. -/
def Alike (d d' : Kw) : Prop :=
  ∀ k, (k ∉ secrets → dictGet d k = dictGet d' k) ∧ (dictGet d k).isSome = (dictGet d' k).isSome ∧
    truthyOpt (dictGet d k) = truthyOpt (dictGet d' k)

theorem alike_of_differ {a b : Kw} (h : DifferInSecrets a b) : Alike a b := by
  intro k
  by_cases hk : k ∈ secrets
  · exact ⟨fun h' => absurd hk h', h.2 k hk⟩
  · have := h.1 k hk
    exact ⟨fun _ => this, by rw [this], by rw [this]⟩

theorem differ_of_alike {a b : Kw} (h : Alike a b) : DifferInSecrets a b :=
  ⟨fun k hk => (h k).1 hk, fun k _ => (h k).2⟩

theorem alike_nil : Alike [] [] := fun _ => ⟨fun _ => rfl, rfl, rfl⟩

theorem alike_cons {d d' : Kw} {k : String} {v v' : Yaml} (hv : k ∉ secrets → v = v') (ht : v.truthy = v'.truthy)
    (h : Alike d d') : Alike ((k, v) :: d) ((k, v') :: d') := by
  intro j
  by_cases hj : k = j
  · subst hj
    simp only [dictGet, if_true]
    exact ⟨fun hn => by rw [hv hn], rfl, ht⟩
  · simp only [dictGet, if_neg hj]
    exact h j

theorem alike_set {d d' : Kw} {k : String} {v v' : Yaml} (hv : k ∉ secrets → v = v') (ht : v.truthy = v'.truthy)
    (h : Alike d d') : Alike (dictSet d k v) (dictSet d' k v') := by
  intro j
  rw [dictGet_set, dictGet_set]
  by_cases hj : k = j
  · subst hj
    simp only [if_true]
    exact ⟨fun hn => by rw [hv hn], rfl, ht⟩
  · simp only [if_neg hj]
    exact h j

theorem dictGet_filter_ne (d : Kw) (k j : String) :
    dictGet (d.filter (fun p => p.1 ≠ k)) j = if j = k then none else dictGet d j := by
  induction d with
  | nil => simp [dictGet]
  | cons p d ih =>
    obtain ⟨i, v⟩ := p
    by_cases hi : i = k
    · subst hi
      rw [List.filter_cons_of_neg (by simp), ih]
      by_cases hj : j = i
      · simp [hj]
      · rw [if_neg hj, if_neg hj]
        simp only [dictGet]
        rw [if_neg (fun h => hj h.symm)]
    · rw [List.filter_cons_of_pos (by simpa using hi)]
      simp only [dictGet, ih]
      by_cases hij : i = j
      · subst hij
        simp [hi]
      · simp [hij]

theorem alike_pop {d d' : Kw} (k : String) (h : Alike d d') :
    Alike (d.filter (fun p => p.1 ≠ k)) (d'.filter (fun p => p.1 ≠ k)) := by
  intro j
  rw [dictGet_filter_ne, dictGet_filter_ne]
  by_cases hj : j = k
  · simp [hj]
  · simp only [if_neg hj]
    exact h j

/-- Two answers that are alike: the same error, or dictionaries that differ in secrets only. -/
def AlikeRes : Res Kw → Res Kw → Prop
  | .ok d, .ok d' => Alike d d'
  | .error e, .error e' => e = e'
  | _, _ => False

theorem attr_alike {c c' : Conn} (h : Alike c.attrs c'.attrs) (k : String) :
    (∃ v v', c.attr k = .ok v ∧ c'.attr k = .ok v' ∧ (k ∉ secrets → v = v') ∧ v.truthy = v'.truthy) ∨
    (c.attr k = .error .attributeError ∧ c'.attr k = .error .attributeError) := by
  obtain ⟨h1, h2, h3⟩ := h k
  unfold Conn.attr
  cases hd : dictGet c.attrs k with
  | none =>
    cases hd' : dictGet c'.attrs k with
    | none => exact Or.inr ⟨rfl, rfl⟩
    | some v' => rw [hd, hd'] at h2; simp at h2
  | some v =>
    cases hd' : dictGet c'.attrs k with
    | none => rw [hd, hd'] at h2; simp at h2
    | some v' =>
      rw [hd, hd'] at h1 h3
      exact Or.inl ⟨v, v', rfl, rfl, fun hn => by simpa using h1 hn, h3⟩

theorem readAttrs_alike {c c' : Conn} (h : Alike c.attrs c'.attrs) :
    ∀ l : List (String × String), (∀ p ∈ l, p.2 ∈ secrets → p.1 ∈ secrets) →
      AlikeRes (readAttrs c l) (readAttrs c' l) := by
  intro l
  induction l with
  | nil => intro _; exact alike_nil
  | cons p l ih =>
    obtain ⟨k, at_⟩ := p
    intro hl
    have ih' := ih (fun p hp => hl p (List.mem_cons_of_mem _ hp))
    simp only [readAttrs]
    rcases attr_alike h at_ with ⟨v, v', hv, hv', he, ht⟩ | ⟨hv, hv'⟩
    · rw [hv, hv']
      revert ih'
      cases readAttrs c l with
      | error e =>
        cases readAttrs c' l with
        | error e' => intro hh; exact hh
        | ok d' => intro hh; exact hh
      | ok d =>
        cases readAttrs c' l with
        | error e' => intro hh; exact hh
        | ok d' =>
          intro hh
          exact alike_cons (fun hn => he (fun hs => hn (hl (k, at_) (by simp) hs))) ht hh
    · rw [hv, hv']
      exact rfl

theorem addTruthy_alike {c c' : Conn} (h : Alike c.attrs c'.attrs) :
    ∀ (ks : List String) (d d' : Kw), Alike d d' → AlikeRes (addTruthy c d ks) (addTruthy c' d' ks) := by
  intro ks
  induction ks with
  | nil => intro d d' hd; exact hd
  | cons k ks ih =>
    intro d d' hd
    simp only [addTruthy]
    rcases attr_alike h k with ⟨v, v', hv, hv', he, ht⟩ | ⟨hv, hv'⟩
    · rw [hv, hv']
      show AlikeRes (if v.truthy = true then addTruthy c (dictSet d k v) ks else addTruthy c d ks)
        (if v'.truthy = true then addTruthy c' (dictSet d' k v') ks else addTruthy c' d' ks)
      rw [← ht]
      split
      · exact ih _ _ (alike_set he ht hd)
      · exact ih _ _ hd
    · rw [hv, hv']
      exact rfl

theorem pickKeys_congr {d d' : Kw} : ∀ ks : List String, (∀ k ∈ ks, dictGet d k = dictGet d' k) →
    pickKeys d ks = pickKeys d' ks := by
  intro ks
  induction ks with
  | nil => intro _; rfl
  | cons k ks ih =>
    intro h
    simp only [pickKeys]
    rw [h k (by simp), ih (fun j hj => h j (List.mem_cons_of_mem _ hj))]

theorem base_secret (cls : ConnCls) : ∀ p ∈ baseKeys cls, p.2 ∈ secrets → p.1 ∈ secrets := by
  cases cls <;> decide

theorem sort_public (cls : ConnCls) : ∀ k ∈ sortOrder cls, k ∈ Spec.shownKeys ∧ k ∉ secrets := by
  cases cls <;> decide

theorem toDict_alike {c c' : Conn} (hc : c.cls = c'.cls) (h : Alike c.attrs c'.attrs) :
    AlikeRes c.toDict c'.toDict := by
  unfold Conn.toDict
  have h1 := readAttrs_alike h (baseKeys c.cls) (base_secret c.cls)
  rw [← hc]
  revert h1
  cases readAttrs c (baseKeys c.cls) with
  | error e =>
    cases readAttrs c' (baseKeys c.cls) with
    | error e' => intro hh; exact hh
    | ok d' => intro hh; exact hh.elim
  | ok d =>
    cases readAttrs c' (baseKeys c.cls) with
    | error e' => intro hh; exact hh.elim
    | ok d' =>
      intro hh
      exact addTruthy_alike h (truthyKeys c.cls) d d' hh

theorem printable_alike {c c' : Conn} (hc : c.cls = c'.cls) (h : Alike c.attrs c'.attrs) :
    c.printable = c'.printable := by
  unfold Conn.printable
  have h1 := toDict_alike hc h
  rw [← hc]
  revert h1
  cases c.toDict with
  | error e =>
    cases c'.toDict with
    | error e' => intro hh; cases hh; rfl
    | ok d' => intro hh; cases hh
  | ok d =>
    cases c'.toDict with
    | error e' => intro hh; cases hh
    | ok d' =>
      intro hh
      have hh : Alike d d' := hh
      show (popKey d (secretKey c.cls)).bind _ = (popKey d' (secretKey c.cls)).bind _
      unfold popKey
      rw [(hh (secretKey c.cls)).2.1]
      by_cases hs : (dictGet d' (secretKey c.cls)).isSome = true
      · rw [if_pos hs, if_pos hs]
        rcases attr_alike h "name" with ⟨v, v', hv, hv', he, -⟩ | ⟨hv, hv'⟩
        · have he : v = v' := he (by decide)
          subst he
          show ((c.attr "name").bind fun n => _) = ((c'.attr "name").bind fun n => _)
          rw [hv, hv']
          show Except.ok _ = Except.ok _
          congr 1
          refine pickKeys_congr _ (fun k hk => ?_)
          have := alike_set (k := "name") (v := v) (v' := v) (fun _ => rfl) rfl (alike_pop (secretKey c.cls) hh)
          exact (this k).1 (sort_public c.cls k hk).2
        · show ((c.attr "name").bind fun n => _) = ((c'.attr "name").bind fun n => _)
          rw [hv, hv']
          rfl
      · rw [if_neg hs, if_neg hs]
        rfl

theorem repr_alike {c c' : Conn} (render : Yaml → String) (hc : c.cls = c'.cls) (h : Alike c.attrs c'.attrs) :
    c.repr render = c'.repr render := by
  unfold Conn.repr
  rcases attr_alike h "name" with ⟨v, v', hv, hv', he, -⟩ | ⟨hv, hv'⟩
  · have he : v = v' := he (by decide)
    subst he
    rw [hv, hv', hc]
  · rw [hv, hv']
    rfl

theorem needArgs_alike {a b : Kw} (h : Alike a b) : ∀ ks, needArgs a ks = needArgs b ks := by
  intro ks
  induction ks with
  | nil => rfl
  | cons k ks ih => simp only [needArgs, (h k).2.1, ih]

theorem argOr_alike {a b : Kw} (h : Alike a b) (k : String) (d : Yaml) :
    (k ∉ secrets → argOr a k d = argOr b k d) ∧ (argOr a k d).truthy = (argOr b k d).truthy := by
  obtain ⟨h1, h2, h3⟩ := h k
  unfold argOr
  refine ⟨fun hn => by rw [h1 hn], ?_⟩
  revert h2 h3
  cases dictGet a k <;> cases dictGet b k <;> simp [truthyOpt]

theorem pickUser_alike {a b : Kw} (h : Alike a b) : pickUser a = pickUser b := by
  have h1 : argNone a "user" = argNone b "user" := (argOr_alike h "user" .null).1 (by decide)
  have h2 : argNone a "username" = argNone b "username" := (argOr_alike h "username" .null).1 (by decide)
  unfold pickUser
  rw [h1, h2]

/-- Two constructions that are alike. -/
def AlikeConn : Res Conn → Res Conn → Prop
  | .ok c, .ok c' => c.cls = c'.cls ∧ Alike c.attrs c'.attrs
  | .error e, .error e' => e = e'
  | _, _ => False

theorem mkConn_alike (E : CredEnv) {a b : Kw} (h : Alike a b) (cls : ConnCls) (hq : cls ≠ .bigquery) :
    AlikeConn (mkConn E cls a) (mkConn E cls b) := by
  have hn := needArgs_alike h
  have hu := pickUser_alike h
  have ho := argOr_alike h
  have go : ∀ k, (k ∉ secrets → argNone a k = argNone b k) ∧ (argNone a k).truthy = (argNone b k).truthy :=
    fun k => ho k .null
  have gt : ∀ (k : String) (v : Yaml) (d d' : Kw), Alike d d' → Alike ((k, v) :: d) ((k, v) :: d') :=
    fun k v d d' hd => alike_cons (fun _ => rfl) rfl hd
  have gn : ∀ (k : String) (d d' : Kw), Alike d d' → Alike ((k, argNone a k) :: d) ((k, argNone b k) :: d') :=
    fun k d d' hd => alike_cons (go k).1 (go k).2 hd
  have gd : ∀ (k : String) (x : Yaml) (d d' : Kw), Alike d d' → Alike ((k, argOr a k x) :: d) ((k, argOr b k x) :: d') :=
    fun k x d d' hd => alike_cons (ho k x).1 (ho k x).2 hd
  have gx : ∀ (k j : String) (d d' : Kw), j ∉ secrets → Alike d d' →
      Alike ((k, argNone a j) :: d) ((k, argNone b j) :: d') :=
    fun k j d d' hj hd => alike_cons (fun _ => (go j).1 hj) (go j).2 hd
  cases cls with
  | bigquery => exact absurd rfl hq
  | snowflake =>
    simp only [mkConn, mkSnowflake, hn, hu]
    cases needArgs b ["name", "account", "password"] with
    | error e => exact rfl
    | ok _ =>
      cases pickUser b with
      | error e => exact rfl
      | ok o =>
        cases o with
        | none => exact rfl
        | some u =>
          refine ⟨rfl, ?_⟩
          repeat first | exact alike_nil | apply gt | apply gn
  | databricks =>
    simp only [mkConn, mkDatabricks, hn]
    cases needArgs b ["name", "host", "http_path"] with
    | error e => exact rfl
    | ok _ =>
      refine ⟨rfl, ?_⟩
      repeat first | exact alike_nil | apply gt | apply gn
  | redshift =>
    simp only [mkConn, mkRedshift, hn]
    cases needArgs b ["name", "host", "username", "password"] with
    | error e => exact rfl
    | ok _ =>
      refine ⟨rfl, ?_⟩
      repeat first | exact alike_nil | apply gt | apply gn | apply gd
  | postgres =>
    simp only [mkConn, mkPostgres, hn]
    cases needArgs b ["name", "host", "user", "password"] with
    | error e => exact rfl
    | ok _ =>
      refine ⟨rfl, ?_⟩
      repeat first | exact alike_nil | apply gt | apply gn | apply gd | (refine gx _ _ _ _ (by decide) ?_)
  | duckDb =>
    simp only [mkConn, mkDuckDb, hn]
    cases needArgs b ["name", "host", "user", "password"] with
    | error e => exact rfl
    | ok _ =>
      refine ⟨rfl, ?_⟩
      repeat first | exact alike_nil | apply gt | apply gn | apply gd | (refine gx _ _ _ _ (by decide) ?_)
  | trino =>
    simp only [mkConn, mkTrino, hn]
    cases needArgs b ["name", "host", "user", "database"] with
    | error e => exact rfl
    | ok _ =>
      refine ⟨rfl, ?_⟩
      repeat first | exact alike_nil | apply gt | apply gn | apply gd
  | druid =>
    simp only [mkConn, mkDruid, hn, hu]
    cases needArgs b ["name", "host"] with
    | error e => exact rfl
    | ok _ =>
      cases pickUser b with
      | error e => exact rfl
      | ok o =>
        cases o with
        | none =>
          refine ⟨rfl, ?_⟩
          repeat first | exact alike_nil | apply gt | apply gn | apply gd
        | some u =>
          refine ⟨rfl, ?_⟩
          repeat first | exact alike_nil | apply gt | apply gn | apply gd
  | sqlServer =>
    simp only [mkConn, mkSqlServer, hn, hu]
    cases needArgs b ["name", "host"] with
    | error e => exact rfl
    | ok _ =>
      cases pickUser b with
      | error e => exact rfl
      | ok o =>
        cases o with
        | none =>
          refine ⟨rfl, ?_⟩
          repeat first | exact alike_nil | apply gt | apply gn | apply gd
        | some u =>
          refine ⟨rfl, ?_⟩
          repeat first | exact alike_nil | apply gt | apply gn | apply gd
  | azureSynapse =>
    simp only [mkConn, mkSqlServer, hn, hu]
    cases needArgs b ["name", "host"] with
    | error e => exact rfl
    | ok _ =>
      cases pickUser b with
      | error e => exact rfl
      | ok o =>
        cases o with
        | none =>
          refine ⟨rfl, ?_⟩
          repeat first | exact alike_nil | apply gt | apply gn | apply gd
        | some u =>
          refine ⟨rfl, ?_⟩
          repeat first | exact alike_nil | apply gt | apply gn | apply gd

end ML
