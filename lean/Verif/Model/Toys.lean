import Verif.Model.Core
import Mathlib.Probability.Distributions.Gaussian.Multivariate
import Mathlib.Probability.Distributions.Poisson.Basic
/-!
# Model of the generation of pseudo-datasets: `Model.generate_data` (`/repo/src/fastprof/core.py:1116-1134`) and
`ModelNP.generate_aux` (`/repo/src/fastprof/base.py:516-528`)

The random number generator of numpy is an ideal one: what is modelled is the probability distribution of the dataset, the
calls being independent draws from the documented distributions (`numpy.random.poisson`, `normal`,
`multivariate_normal(mean, cov)`).
-/
namespace Verif
open MeasureTheory ProbabilityTheory
open scoped NNReal

/-- Distribution of `generate_aux(value)` (base.py:516-528); `np.random.normal` raises `ValueError` for a negative width. -/
noncomputable def NP.auxLaw (p : NP ℝ) (value : ℝ) : Except PyErr (Measure ℝ) :=
  match p.constraint with
  | none => .ok (Measure.dirac 0)
  | some c => if c < 0 then .error .valueError else .ok (gaussianReal value (c ^ 2).toNNReal)

namespace Mdl
variable {n P : Nat}

/-- The random part of a dataset: counts of the Poisson bins, observations of the Gaussian bins, aux. obs. -/
abbrev Toy (m : Mdl n P) := (Fin m.nbinsPoisson → ℕ) × (Fin m.nbinsGaussian → ℝ) × (Fin P → ℝ)

/-- `Data(self, yields, aux)` (core.py:1131-1134) for a draw: there is one value per bin and one per NP, so they are
stored as they are (property C12). -/
noncomputable def toyData (m : Mdl n P) (t : m.Toy) : DataV P where
  counts := fun b =>
    if h : b < m.nbinsPoisson then (t.1 ⟨b, h⟩ : ℝ)
    else if h : b - m.nbinsPoisson < m.nbinsGaussian then t.2.1 ⟨b - m.nbinsPoisson, h⟩ else 0
  aux_obs := t.2.2

/-- Distribution of the Gaussian bins: `np.random.multivariate_normal(ntot[nbins_poisson:], self.poi_hessian)`
(core.py:1133).  For a matrix that is not positive semi-definite numpy prints a warning and goes on; theorems about this
part assume it is. -/
noncomputable def gaussLaw (m : Mdl n P) (N : Nat → ℝ) : Measure (Fin m.nbinsGaussian → ℝ) :=
  (multivariateGaussian (WithLp.toLp 2 fun i : Fin m.nbinsGaussian => N (m.nbinsPoisson + i))
    (Matrix.of fun i j : Fin m.nbinsGaussian => m.poiHessian i j)).map WithLp.ofLp

open Classical in
/-- Distribution of `generate_data(pars)` (core.py:1116-1134).  `np.random.poisson` raises `ValueError` for a negative
mean.  The value given to `generate_aux` is `pars[par.name]`, the scaled NP. -/
noncomputable def toyLaw (m : Mdl n P) (A : Arrays) (x : Fin n → ℝ) (θ : Fin P → ℝ) :
    Except PyErr (Measure m.Toy) := do
  let N ← m.totBinExp A x θ
  if ∃ b < m.nbinsPoisson, N b < 0 then throw .valueError
  let auxs ← (List.finRange P).mapM fun p => (m.nps p).auxLaw (θ p)
  return (Measure.pi fun b : Fin m.nbinsPoisson => poissonMeasure (N b).toNNReal).prod
    ((m.gaussLaw N).prod (Measure.pi fun p : Fin P => auxs.getD p 0))

end Mdl
end Verif
