import Verif.Usable.Props
/-
C58: concrete fields, and fields whose join graphs are wrong.

The views are those of `shop` (orders, customers, items, regions) and `rates`, which nothing joins to.
-/
set_option autoImplicit false
namespace ML
open Spec

def rates : GView := ⟨"rates", []⟩
def bigShop : List GView := shop ++ [rates]
def bigShopGraph : Graph := ⟨shopGraph.nodes ++ ["rates"], shopGraph.edges⟩

theorem bigShop_built : buildGraph bigShop = .ok bigShopGraph := by decide

/-- `orders.total`, a sum of a column. -/
def uTotal : UField := ⟨"orders", "total", .measure, "sum", some ⟨["TABLE"], false⟩, none, none, none, none, none, none⟩
/-- `regions.zone`, a text column. -/
def uZone : UField := ⟨"regions", "zone", .dimension, "string", some ⟨["TABLE"], false⟩, none, none, none, none, none, none⟩
/-- `customers.place`, built on `${regions.zone}`. -/
def uPlace : UField :=
  ⟨"customers", "place", .dimension, "string", some ⟨["regions.zone"], false⟩, none, none, none, none, none, none⟩
/-- `rates.rate`, a numeric column. -/
def uRate : UField := ⟨"rates", "rate", .dimension, "number", some ⟨["TABLE"], false⟩, none, none, none, none, none, none⟩
/-- `rates.code`, a text column. -/
def uCode : UField := ⟨"rates", "code", .dimension, "string", some ⟨["TABLE"], false⟩, none, none, none, none, none, none⟩
/-- `orders.converted`, a sum over `${TABLE}.amount * ${rates.rate}`. -/
def uConverted : UField :=
  ⟨"orders", "converted", .measure, "sum", some ⟨["TABLE", "rates.rate"], false⟩, none, none, none, none, none, none⟩
/-- `customers.code`, built on `${rates.code}`. -/
def uCustCode : UField :=
  ⟨"customers", "code", .dimension, "string", some ⟨["rates.code"], false⟩, none, none, none, none, none, none⟩
/-- `orders.code`, built on `${customers.code}`. -/
def uOrderCode : UField :=
  ⟨"orders", "code", .dimension, "string", some ⟨["customers.code"], false⟩, none, none, none, none, none, none⟩

/-- Looking names up in this project. -/
def uGet : UGet := fun _ n =>
  if n = "regions.zone" then .ok uZone
  else if n = "rates.rate" then .ok uRate
  else if n = "rates.code" then .ok uCode
  else if n = "customers.code" then .ok uCustCode
  else .error .accessDenied

theorem formed_text (v a : String) (r : FRole) (t : String) (ht : t ≠ "duration") (ns : List String) :
    Formed ⟨v, a, r, t, some ⟨ns, false⟩, none, none, none, none, none, none⟩ :=
  ⟨fun h => absurd h ht, fun _ => .inl rfl, fun s hs => by cases hs; rfl⟩

theorem uGet_formed : ∀ v n g, uGet v n = .ok g → Formed g := by
  intro v n g h
  unfold uGet at h
  split at h
  · cases h; exact formed_text _ _ _ _ (by decide) _
  · split at h
    · cases h; exact formed_text _ _ _ _ (by decide) _
    · split at h
      · cases h; exact formed_text _ _ _ _ (by decide) _
      · split at h
        · cases h; exact formed_text _ _ _ _ (by decide) _
        · cases h

/-- Join graphs in this project, without merged results. -/
def uGraphs (f : UField) : Res (List String) :=
  joinGraphs uGet (weakHashes bigShopGraph (scc bigShopGraph)) (fun _ => []) 5 f

-- orders, customers and items reach each other, so they make one join graph; regions is reached from it
example : uGraphs uTotal = .ok ["subquery_0"] := by decide +kernel
example : uGraphs uZone = .ok ["subquery_0", "subquery_1"] := by decide +kernel
example : uGraphs uPlace = .ok ["subquery_0"] := by decide +kernel
example : requiredViews uGet 5 uPlace = .ok ["customers", "regions"] := by decide +kernel
example : requiredViews uGet 5 uOrderCode = .ok ["orders", "customers", "rates"] := by decide +kernel

-- the hypotheses of C58 (b) to (e) hold for `customers.place`
example : Formed uPlace ∧ uPlace.type ≠ "cumulative" ∧ isCumulative uGet 5 uPlace = .ok false ∧
    losesJoins uGet (weakHashes bigShopGraph (scc bigShopGraph)) 5 uPlace = .ok false ∧
    WF bigShopGraph ∧ IsScc bigShopGraph (scc bigShopGraph) :=
  ⟨formed_text _ _ _ _ (by decide) _, by decide, by decide +kernel, by decide +kernel,
    C16_built_graphs bigShop bigShopGraph bigShop_built⟩

-- `customers.place` reads only views it counts
example : ∀ w, Needs uGet uPlace w → CountedView uGet uPlace w := by
  intro w h
  have hz : RefersTo uGet uPlace uZone := ⟨"regions.zone", by decide, by decide, by decide⟩
  rcases needs_iff.mp h with rfl | ⟨g, ⟨n, hn, -, hg⟩, hw⟩
  · exact .inl rfl
  · simp only [sqlNamesOf, uPlace, List.mem_singleton] at hn
    subst hn
    have : g = uZone := by
      have e : uGet uPlace.view "regions.zone" = .ok uZone := by decide
      change uGet uPlace.view "regions.zone" = .ok g at hg
      rw [e] at hg
      exact (Except.ok.inj hg).symm
    subst this
    rcases needs_iff.mp hw with rfl | ⟨g', ⟨n', hn', hne, -⟩, -⟩
    · exact .inr ⟨uZone, .direct hz (by decide), rfl⟩
    · simp only [sqlNamesOf, uZone, List.mem_singleton] at hn'
      exact absurd hn' hne

-- the hypotheses of C58 (e) for the metric `orders.total` and the field `regions.zone`
example : joinGraphHash (scc bigShopGraph) uTotal.view = .ok "subquery_0" ∧ uTotal.view ≠ uZone.view ∧
    designJoins nxImpl bigShopGraph [] ["orders", "regions"] ≠ .error .join := by decide +kernel

theorem rates_unreached : ∀ u, Reach bigShopGraph u "rates" → u = "rates" := by
  intro u h
  cases h with
  | refl => rfl
  | step _ he =>
    exfalso
    revert he
    rename_i b _
    intro he
    simp only [HasEdge, bigShopGraph, shopGraph, List.map_cons, List.map_nil, List.mem_cons, Prod.mk.injEq,
      List.not_mem_nil, or_false] at he
    rcases he with ⟨-, h⟩ | ⟨-, h⟩ | ⟨-, h⟩ | ⟨-, h⟩ | ⟨-, h⟩ <;> revert h <;> decide

theorem rates_not_served (p : String → Prop) (hp : p "rates") :
    ¬ ServedBy bigShopGraph (scc bigShopGraph) "subquery_0" p := by
  rintro ⟨u, hu, hall⟩
  have := rates_unreached u (hall _ hp)
  subst this
  revert hu
  decide +kernel

/-- C58, against the full statement: a metric whose SQL multiplies by a numeric dimension of another view is listed under the join graph
of its own view although no view there can be joined to that other view, and a query for it alone is refused. -/
theorem C58_numeric_missed : ∃ (get : UGet) (g : Graph) (comps : List (List String)) (f : UField) (x : String) (gs ws : List String),
    (∀ v n h, get v n = .ok h → Formed h) ∧ Formed f ∧ WF g ∧ IsScc g comps ∧
    joinGraphs get (weakHashes g comps) (fun _ => []) 5 f = .ok gs ∧ x ∈ gs ∧ ¬ ServedBy g comps x (Needs get f) ∧
    requiredViews get 5 f = .ok ws ∧ designJoins nxImpl g [] ws = .error .join := by
  have hb := C16_built_graphs bigShop bigShopGraph bigShop_built
  refine ⟨uGet, bigShopGraph, scc bigShopGraph, uConverted, "subquery_0", ["subquery_0"], ["orders", "rates"], uGet_formed,
    formed_text _ _ _ _ (by decide) _, hb.1, hb.2, by decide +kernel, by decide, rates_not_served _ ?_, by decide +kernel,
    by decide +kernel⟩
  exact .ref ⟨"rates.rate", by decide, by decide, by decide⟩ (Needs.own uRate)

/-- C58, against the full statement: so is a dimension built on a dimension that is itself built on a view that cannot be joined. -/
theorem C58_nested_missed : ∃ (get : UGet) (g : Graph) (comps : List (List String)) (f : UField) (x : String) (gs ws : List String),
    (∀ v n h, get v n = .ok h → Formed h) ∧ Formed f ∧ WF g ∧ IsScc g comps ∧
    joinGraphs get (weakHashes g comps) (fun _ => []) 5 f = .ok gs ∧ x ∈ gs ∧ ¬ ServedBy g comps x (Needs get f) ∧
    requiredViews get 5 f = .ok ws ∧ designJoins nxImpl g [] ws = .error .join := by
  have hb := C16_built_graphs bigShop bigShopGraph bigShop_built
  refine ⟨uGet, bigShopGraph, scc bigShopGraph, uOrderCode, "subquery_0", ["subquery_0"], ["orders", "customers", "rates"],
    uGet_formed, formed_text _ _ _ _ (by decide) _, hb.1, hb.2, by decide +kernel, by decide, rates_not_served _ ?_,
    by decide +kernel, by decide +kernel⟩
  exact .ref (g := uCustCode) ⟨"customers.code", by decide, by decide, by decide⟩
    (.ref (g := uCode) ⟨"rates.code", by decide, by decide, by decide⟩ (Needs.own uCode))

-- C58 (f) on these fields: everything that shares a graph with `orders.total`
example : joinableFields uGraphs [uTotal, uZone, uRate, uPlace] [uTotal] = .ok [uTotal, uZone, uPlace] := by decide +kernel

/-- C58: a field offered next to several fields need not go with all of them: `rates.rate` is offered next to `orders.total` and
`rates.code`, and shares no join graph with `orders.total`. -/
theorem C58_joinable_any : ∃ (all asked r : List UField) (f q : UField), joinableFields uGraphs all asked = .ok r ∧ f ∈ r ∧
    q ∈ asked ∧ ∀ a b, uGraphs f = .ok a → uGraphs q = .ok b → ∀ x ∈ a, x ∉ b := by
  refine ⟨[uTotal, uRate], [uTotal, uCode], [uTotal, uRate], uRate, uTotal, by decide +kernel, by decide, by decide, ?_⟩
  intro a b ha hb
  have h1 : uGraphs uRate = .ok ["subquery_2"] := by decide +kernel
  have h2 : uGraphs uTotal = .ok ["subquery_0"] := by decide +kernel
  rw [h1] at ha; rw [h2] at hb
  cases ha; cases hb
  decide

end ML
