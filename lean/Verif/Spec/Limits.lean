import Verif.Spec.Compose
import Verif.Spec.Wald
import Verif.Spec.NPMin
/-!
# Specification vocabulary for limits computed from a model and a dataset (C73)
-/
namespace Verif.Spec
variable {P : Nat}

/-- All the measurements are Gaussian, with a symmetric positive semi-definite inverse covariance; the
nuisance parameters have linear symmetric impacts and Gaussian constraints at most as wide as their
variations; the reference yields can be computed. -/
structure GaussianModel (m : Mdl 1 P) (A : Mdl.Arrays) : Prop where
  sym : m.use_asym_impacts = false
  lin : m.use_linear_nps = true
  cut : m.cutoff = 0
  noLog : m.use_lognormal_terms = false
  hsym : m.HSymm
  hpsd : m.HPsd
  noPoisson : m.nbinsPoisson = 0
  constrained : ∀ p, ∃ c, (m.nps p).scaledConstraint = .ok c ∧ c ≠ 0 ∧ |c| ≤ 1
  ref : ∃ N0, m.refTot A = .ok N0

/-- The expected yields are `a b + s b * x + ∑ p, c b p * θ p` in each bin `b`, for the value `x` of the
POI and `θ` of the nuisance parameters. -/
def YieldsAre (m : Mdl 1 P) (A : Mdl.Arrays) (a s : Nat → ℝ) (c : Nat → Fin P → ℝ) : Prop :=
  ∀ x θ, ∃ N, m.totBinExp A (fun _ => x) θ = .ok N ∧ ∀ b, N b = a b + s b * x + ∑ p, c b p * θ p

/-- The yields are affine functions of the POI and the nuisance parameters, and the POI changes them (by
more than 0 standard deviations). -/
def AffineYields (m : Mdl 1 P) (A : Mdl.Arrays) : Prop :=
  ∃ a s c, YieldsAre m A a s c ∧
    0 < ∑ i ∈ Finset.range m.nbinsGaussian, ∑ j ∈ Finset.range m.nbinsGaussian, s i * m.poiHessian i j * s j

/-- The NLL of the data, minimised over the nuisance parameters, is the one of a Gaussian measurement of
the POI with best-fit value `best` and uncertainty `σ`: `const + ((x - best)/σ)^2 / 2`. -/
def Parabola (m : Mdl 1 P) (A : Mdl.Arrays) (d : Mdl.DataV P) (best σ const : ℝ) : Prop :=
  ∀ x, IsLeast (nllsWhere m A d (fun y => y 0 = x)) (const + ((x - best) / σ) ^ 2 / 2)

/-- The optimiser does its job in the free fits of a model with one POI, bounded by `b`: from any start
value and with any method, it reports the smallest value of the profiled NLL in the range, taken at a
point of the range. -/
def FindsMinima (P : Nat) (opt : Optim ℝ) (env : FitEnv ℝ) (b : ParBound ℝ) : Prop :=
  ∀ method x, Optimal env ⟨[x], List.replicate P 0⟩ [(0, b)]
    (opt env method ⟨[x], List.replicate P 0⟩ [(0, b)])

/-- The methods of the minimiser. -/
def KnownMethod (s : String) : Prop := s ∈ ["scalar", "CG", "L-BFGS-B"]

/-- The optimiser looks at points of the right dimension, the last one being the one it reports. -/
def EndsAtResult (opt : Optim ℝ) : Prop :=
  ∀ env method p fr, (∀ x ∈ (opt env method p fr).evals, x.length = fr.length) ∧
    (opt env method p fr).evals.getLast? = some (opt env method p fr).x

/-- A calculator for the model, with the POI in the range from `lo` to `hi`, starting its fits at the
nominal values of the NPs. -/
structure CalculatorOf (m : Mdl 1 P) (lo hi : ℝ) (c : CalcSetup) : Prop where
  model : c.m = m.parModel
  range : c.pois = [⟨m.pois 0, some lo, some hi⟩]
  start : ∃ w, c.ref = ⟨[w], List.replicate P 0⟩

/-- The conditions of C73 on a computation: the calculator is one of the model, the range of its POI
contains the best-fit value and 0, its optimiser finds the minima of the objectives it is given (with the
data and with the Asimov data), and its minimiser is new. -/
structure GoodUse (m : Mdl 1 P) (A : Mdl.Arrays) (d : Mdl.DataV P) (floor : Option ℝ) (best lo hi : ℝ)
    (c : CalcSetup) (s0 : OptiMin ℝ) : Prop where
  calculator : CalculatorOf m lo hi c
  range : lo < hi ∧ lo ≤ best ∧ best ≤ hi ∧ lo ≤ 0 ∧ 0 ≤ hi
  evaluates : ∀ env method p fr, (c.opt env method p fr).evals ≠ []
  data : FindsMinima P c.opt (m.fitEnv A d 1 floor) ⟨m.pois 0, some lo, some hi⟩
  asimov : ∀ a, m.asimovData A d = .ok a →
    FindsMinima P c.opt (m.fitEnv A a 1 floor) ⟨m.pois 0, some lo, some hi⟩
  noAlt : s0.altMethod = none
  noRebound : s0.rebound = 0
  fresh : s0.bounds = none

/-- CLs of a Gaussian measurement: the probability of a best-fit value at or below the observed one when
the POI is `mu`, over the same when it is 0. -/
noncomputable def exactCls (σ best mu : ℝ) : ℝ := probBelow mu σ best / probBelow 0 σ best

end Verif.Spec
