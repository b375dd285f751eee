import Mathlib.Probability.Distributions.Gaussian.Real
/-!
# A Gaussian measurement

The reference case of asymptotic formulas: the best-fit value `x` of the POI is a measurement with a
normal distribution around the true value `mu` with known standard deviation `σ`, and
`-2 log L(mu)/L(x) = ((mu - x)/σ)^2`.
-/
namespace Verif.Spec
open MeasureTheory ProbabilityTheory

/-- The distribution of the best-fit value when the POI is `mu`. -/
noncomputable def meas (mu σ : ℝ) : Measure ℝ := gaussianReal mu (Real.toNNReal (σ ^ 2))

/-- Probability, when the POI is `mu`, of a best-fit value at or below `x`. -/
noncomputable def probBelow (mu σ x : ℝ) : ℝ := (meas mu σ).real (Set.Iic x)

/-- Probability, when the POI is `mu`, of a best-fit value at least as far from `mu` as `x`. -/
noncomputable def probFar (mu σ x : ℝ) : ℝ := (meas mu σ).real {y | |x - mu| ≤ |y - mu|}

/-- The profile likelihood ratio of the hypothesis `mu` for a best-fit value `x`. -/
noncomputable def plr (mu σ x : ℝ) : ℝ := ((mu - x) / σ) ^ 2

end Verif.Spec
