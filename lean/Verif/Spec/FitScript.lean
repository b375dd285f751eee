import Verif.Model.FitScript
import Verif.Spec.Limits
/-!
# Specification vocabulary for the report of a fit (C79)
-/
namespace Verif.Spec
variable {n P : Nat}

/-- The optimiser does its job in the fit of all the POIs: whenever some POI is free it reports the smallest value of the
objective in its box, taken at a point of the box, and this point is the last one it looks at. -/
def GoodFit (opt : Optim ℝ) (env : FitEnv ℝ) (m : ParModel ℝ) (pois : List (PoiRange ℝ)) (ref : Pars ℝ) : Prop :=
  ∀ p b fr method, setPois m pois ref none none false = .ok (p, b) → freeBounds b = .ok fr → fr ≠ [] →
    Optimal env p fr (opt env method p fr) ∧ (opt env method p fr).evals.getLast? = some (opt env method p fr).x

/-- The same for the fit of all the POIs that starts at the values of a hypothesis. -/
def GoodTest (opt : Optim ℝ) (env : FitEnv ℝ) (m : ParModel ℝ) (pois : List (PoiRange ℝ)) (ref : Pars ℝ) (hypo : Dict ℝ) : Prop :=
  ∀ p b fr method, setPois m pois ref none (some hypo) false = .ok (p, b) → freeBounds b = .ok fr → fr ≠ [] →
    Optimal env p fr (opt env method p fr)

/-- The dataset has the counts and the auxiliary observables read from a file. -/
def HasContents {P : Nat} (d : Mdl.DataV P) (s : DData.DS) : Prop :=
  (∀ i : Fin s.counts.length, d.counts i = s.counts[i]) ∧
    ∀ (p : Fin P) (v : ℝ), s.aux_obs[p.val]? = some v → d.aux_obs p = v

/-- The fits are those of the model: its parameters, a range for each of its POIs (lower end not above the upper end),
NPs starting at their nominal values. -/
structure FitsOf (m : Mdl n P) (c : CalcSetup) : Prop where
  model : c.m = m.parModel
  ranges : c.pois.map (·.par) = List.ofFn m.pois
  ordered : ∀ r ∈ c.pois, ∀ lo hi, r.min = some lo → r.max = some hi → lo ≤ hi
  start : ∃ w : Fin n → ℝ, c.ref = ⟨List.ofFn w, List.replicate P 0⟩

/-- The values of the POIs are within their ranges. -/
def WithinRanges (m : Mdl n P) (pois : List (PoiRange ℝ)) (x : Fin n → ℝ) : Prop :=
  ∀ r ∈ pois, ∀ i, r.par = m.pois i → (∀ lo, r.min = some lo → lo ≤ x i) ∧ ∀ hi, r.max = some hi → x i ≤ hi

/-- The names of the parameters differ from each other, and the names of the POIs from those of the other entries of the
report. -/
structure PlainNames (m : Mdl n P) : Prop where
  distinct : (List.ofFn m.pois ++ List.ofFn fun p => (m.nps p).name).Nodup
  free : ∀ i, m.pois i ∉ ["min_nll", "min_pars", "correlation_matrix"]

/-- The report states that the smallest NLL is `v`, reached at the values `x` of the POIs and `θ` of the NPs (in units of
their variations, counted from the nominal values), and has no entries besides those of the NLL, the parameters, the POIs
and the correlation matrix. -/
structure Reports (m : Mdl n P) (rep : Dict RepVal) (v : ℝ) (x : Fin n → ℝ) (θ : Fin P → ℝ) : Prop where
  minNll : rep.get? "min_nll" = some (.num v)
  minPars : ∃ D : Dict ℝ, rep.get? "min_pars" = some (.pars D) ∧
    D.keys = List.ofFn m.pois ++ (List.ofFn fun p => (m.nps p).name) ∧
    (∀ i, D.get? (m.pois i) = some (x i)) ∧
    ∀ p, D.get? (m.nps p).name = some ((m.nps p).nominal_value + θ p * (m.nps p).variation)
  best : ∀ i, ∃ u, rep.get? (m.pois i) = some (.poi (x i) u)
  entries : rep.keys = ["min_nll", "min_pars"] ++ List.ofFn m.pois ++ ["correlation_matrix"]

/-- The uncertainty the report gives for a POI. -/
def ReportedError (rep : Dict RepVal) (name : String) (u : Option Flt) : Prop :=
  ∃ b, rep.get? name = some (.poi b u)

/-- The model with other covariances of its Gaussian channels and other constraints of its NPs. -/
def withErrors (m : Mdl n P) (cov : Channel → Nat → Nat → ℝ) (cons : Fin P → Option ℝ) : Mdl n P :=
  { m with
    channels := m.channels.map fun ch => { ch with hessian := cov ch }
    nps := fun p => { m.nps p with constraint := cons p } }

/-- The model `o'` is `o` with another cutoff, if one is given, and maybe with other ranges of its POIs. -/
structure Adjusted (o o' : Markup.Obj) (cutoff : Option ℝ) : Prop where
  pois : o'.doc.pois.map (fun p => (p.name, p.unit, p.description, p.initial_value)) =
    o.doc.pois.map (fun p => (p.name, p.unit, p.description, p.initial_value))
  rest : { o'.doc with pois := [] } = { o.doc with pois := [] }
  flags : o'.flags = { o.flags with cutoff := cutoff.getD o.flags.cutoff }

end Verif.Spec
