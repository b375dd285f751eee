import Verif.Model.Calc
import Mathlib.Data.Sign.Basic
/-!
# Specification vocabulary for repeated fits and the calculators (C57-C60)
-/
namespace Verif.Spec
open Verif

section
variable {K : Type} [Field K] [LinearOrder K]

/-- A call of `tmu`: the dataset (as a fit environment), the start point and the hypothesis. -/
abbrev TmuCall (K : Type) := FitEnv K × Pars K × Dict K

/-- The minimiser after a sequence of successful `tmu` calls. -/
def afterCalls (opt : Optim K) (m : ParModel K) (pois : List (PoiRange K)) :
    List (TmuCall K) → OptiMin K → Except PyErr (OptiMin K)
  | [], s => .ok s
  | (env, init, hypo) :: cs, s => do
    let (s', _) ← s.tmu opt m pois env init hypo
    afterCalls opt m pois cs s'

/-- What a call of `tmu` gives to the user (the state of the minimiser left out). -/
def outcome {α β : Type} (x : Except PyErr (α × β)) : Except PyErr β := x.map Prod.snd

end
end Verif.Spec

namespace Verif.Spec
open Verif

/-- The conditions of C57 for a calculator and its minimiser: the optimiser looks at one point at least,
there is no alternate method and no rebound, some POI is free in the free fit, and the method is not
`scalar` unless exactly one is. -/
structure CleanUse (c : CalcSetup) (s0 : OptiMin ℝ) : Prop where
  evaluates : ∀ env method p fr, (c.opt env method p fr).evals ≠ []
  noAlt : s0.altMethod = none
  noRebound : s0.rebound = 0
  free : ∃ fr, freeBounds (argBounds c.pois (s0.bounds.map Dict.values)) = .ok fr ∧ fr ≠ [] ∧
    (s0.method = "scalar" → fr.length = 1)

open Classical in
/-- `q_mu` from the PLR statistic `t`, the best-fit value and the tested value. -/
noncomputable def qmuOf (t best test : ℝ) : ℝ := if best < test then t else -t

open Classical in
/-- `q~mu` as the calculator computes it, with `tmu` in place of the statistic at 0. -/
noncomputable def qmutOf (t best test : ℝ) : ℝ := if best < 0 then t else if best < test then t else -t

/-- Signed square root. -/
noncomputable def ssqrt (x : ℝ) : ℝ := SignType.sign x * Real.sqrt |x|

/-- Asymptotic p-value of a `q_mu` value when the mean of its square root is `√A`. -/
noncomputable def qPv (q A : ℝ) : ℝ := normSf (ssqrt q - Real.sqrt A)

open Classical in
/-- Asymptotic p-value of a `q~mu` value with Asimov statistic `T` when the mean of its square root
is `√A`. -/
noncomputable def qtPv (q T A : ℝ) : ℝ :=
  if q < T then normSf (ssqrt q - Real.sqrt A)
  else normSf ((q + T) / (2 * Real.sqrt T) - Real.sqrt A)

end Verif.Spec
