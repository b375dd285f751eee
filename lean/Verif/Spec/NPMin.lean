import Verif.Model.Core
/-! Specification of the approximation used when profiling NPs. -/
namespace Verif
namespace Mdl
variable {n P : Nat}

/-- Symmetry of the inverse covariance of the Gaussian bins. -/
def HSymm (m : Mdl n P) : Prop :=
  ∀ i < m.nbinsGaussian, ∀ j < m.nbinsGaussian, m.poiHessian i j = m.poiHessian j i

/-- The inverse covariance of the Gaussian bins is positive semi-definite. -/
def HPsd (m : Mdl n P) : Prop :=
  ∀ u : Nat → ℝ, 0 ≤ ∑ i ∈ Finset.range m.nbinsGaussian,
    ∑ j ∈ Finset.range m.nbinsGaussian, u i * m.poiHessian i j * u j

/-- Yields linearised around `θ0` (relative impacts `I`). -/
noncomputable def linY (m : Mdl n P) (ne : Nat → Nat → ℝ) (I : Nat → Nat → Nat → ℝ) (θ0 : Fin P → ℝ)
    (b : Nat) (θ : Fin P → ℝ) : ℝ :=
  ∑ s ∈ Finset.range m.maxSamples, ne s b * (1 + ∑ a : Fin P, I s b a * (θ a - θ0 a))

/-- Exponentiated version. -/
noncomputable def expY (m : Mdl n P) (ne : Nat → Nat → ℝ) (I : Nat → Nat → Nat → ℝ) (θ0 : Fin P → ℝ)
    (b : Nat) (θ : Fin P → ℝ) : ℝ :=
  ∑ s ∈ Finset.range m.maxSamples, ne s b * Real.exp (∑ a : Fin P, I s b a * (θ a - θ0 a))

/-- The quadratic function with gradient `q` and Hessian `p` at `θ0`. -/
noncomputable def quadApprox (p : Matrix (Fin P) (Fin P) ℝ) (q θ0 θ : Fin P → ℝ) : ℝ :=
  q ⬝ᵥ (θ - θ0) + (1 / 2) * ((θ - θ0) ⬝ᵥ p.mulVec (θ - θ0))

end Mdl
end Verif
