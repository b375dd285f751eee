import Mathlib.Probability.Distributions.Gaussian.Real
import Mathlib.Probability.Distributions.Gamma
/-!
# The scipy distributions used by the code, as Mathlib measures

`scipy.stats.norm` and `scipy.stats.chi2` are not part of the repository: their mathematical
definitions stand for them.
-/
namespace Verif
open MeasureTheory ProbabilityTheory

/-- `scipy.stats.norm.pdf`: the density of the standard normal distribution. -/
noncomputable def normPdf (x : ℝ) : ℝ := gaussianPDFReal 0 1 x

/-- `scipy.stats.norm.sf`: probability that a standard normal variable exceeds `x`. -/
noncomputable def normSf (x : ℝ) : ℝ := (gaussianReal 0 1).real (Set.Ioi x)

open Classical in
/-- `scipy.stats.norm.isf`: the point where `sf` takes the value `p` (scipy gives `±inf` for
`p ∈ {0, 1}` and `nan` outside `[0, 1]`; here 0, and the theorems assume `0 < p < 1`). -/
noncomputable def normIsf (p : ℝ) : ℝ := if h : ∃ x, normSf x = p then h.choose else 0

/-- `scipy.stats.chi2.sf(x, k)`: probability that a chi-square variable with `k` degrees of freedom
(a gamma variable with shape `k/2` and rate `1/2`) exceeds `x`. -/
noncomputable def chi2Sf (x : ℝ) (k : Nat) : ℝ := (gammaMeasure (k / 2) (1 / 2)).real (Set.Ioi x)

end Verif
