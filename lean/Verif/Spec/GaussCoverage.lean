import Verif.Spec.Limits
import Mathlib.Probability.Distributions.Gaussian.Multivariate
import Mathlib.Probability.Independence.Basic
import Mathlib.Probability.HasLaw
/-!
# Specification vocabulary for repeated measurements with a Gaussian model (C89)
-/
namespace Verif.Spec
open MeasureTheory ProbabilityTheory
variable {P : Nat} {Ω : Type} [MeasurableSpace Ω]

/-- The inverse covariance of the Gaussian bins that the likelihood uses. -/
noncomputable def invCov (m : Mdl 1 P) : Matrix (Fin m.nbinsGaussian) (Fin m.nbinsGaussian) ℝ :=
  Matrix.of fun i j => m.poiHessian i j

/-- Random datasets `D` as the likelihood of a Gaussian model describes them when the POI is `x` and the
nuisance parameters are `θ`: the bins are jointly normal around the expected yields, with the covariance of
the model; the auxiliary observables are normal around the values of their parameters, with the widths of
the constraints; the bins and the auxiliary observables are independent. -/
structure Follows (m : Mdl 1 P) (A : Mdl.Arrays) (x : ℝ) (θ : Fin P → ℝ) (Pr : Measure Ω)
    (D : Ω → Mdl.DataV P) : Prop where
  bins : ∃ N, m.totBinExp A (fun _ => x) θ = .ok N ∧
    HasLaw (fun ω => WithLp.toLp 2 fun i : Fin m.nbinsGaussian => (D ω).counts i)
      (multivariateGaussian (WithLp.toLp 2 fun i : Fin m.nbinsGaussian => N i) (invCov m)⁻¹) Pr
  aux : ∀ p, ∃ k, (m.nps p).scaledConstraint = .ok k ∧
    HasLaw (fun ω => (D ω).aux_obs p) (gaussianReal (θ p) (k ^ 2).toNNReal) Pr
  indepAux : iIndepFun (fun p ω => (D ω).aux_obs p) Pr
  indepBins : IndepFun (fun ω => WithLp.toLp 2 fun i : Fin m.nbinsGaussian => (D ω).counts i)
    (fun ω => (D ω).aux_obs) Pr

end Verif.Spec
