import Verif.Spec.Dist
import Mathlib.Data.Real.Basic
/-!
# Specification of sampling p-values

Written without reference to the model: ranks in a finite collection of numbers, and the normal
cumulative distribution.
-/
namespace Verif.Spec
open Classical MeasureTheory ProbabilityTheory

/-- How many of the samples are strictly below `x`. -/
noncomputable def nBelow (l : List ℝ) (x : ℝ) : ℕ := l.countP (fun y => decide (y < x))

/-- How many of the samples are at or below `x`. -/
noncomputable def nAtOrBelow (l : List ℝ) (x : ℝ) : ℕ := l.countP (fun y => decide (y ≤ x))

/-- The mid-p-value: the fraction of samples below `x`, those equal to `x` counting for one half. -/
noncomputable def midP (l : List ℝ) (x : ℝ) : ℝ := ((nBelow l x : ℝ) + nAtOrBelow l x) / (2 * l.length)

/-- `scipy.stats.norm.cdf`. -/
noncomputable def normCdf (x : ℝ) : ℝ := (gaussianReal 0 1).real (Set.Iic x)

end Verif.Spec
