import Verif.Model.Core
import Mathlib.LinearAlgebra.Matrix.NonsingularInverse
/-!
# Model of `NPMinimizer` (`/repo/src/fastprof/minimizers.py:46-240`) and `Model.linear_impacts`

`ne s b` is the expected yield of sample `s` in bin `b` at the hypothesis, `I s b a` the linear
impact of NP `a` on it.
-/
namespace Verif
namespace Mdl
variable {n P : Nat}

open Classical in
/-- `linear_impacts` (core.py:918-951).  When the shortcut does not apply, the loop (941-945) reads
`pos_der`, which is never assigned: `UnboundLocalError`, a subclass of `NameError`. -/
noncomputable def linearImpacts (m : Mdl n P) (A : Arrays) (θ : Fin P → ℝ) :
    Except PyErr (Nat → Nat → Nat → ℝ) :=
  if m.use_simple_sym_impacts then .ok A.sym
  else if θ = 0 then .ok A.sym
  else .error .nameError

/-- The pair `(P, Q)`. -/
@[ext] structure PQ (P : Nat) where
  p : Matrix (Fin P) (Fin P) ℝ
  q : Fin P → ℝ

/-- `pq_einsum_poisson` (minimizers.py:115-148) for `t_nom ≠ 0`; the first `nbins_poisson` bins. -/
noncomputable def pqPoisson (m : Mdl n P) (ne : Nat → Nat → ℝ) (obs : Nat → ℝ)
    (I : Nat → Nat → Nat → ℝ) : PQ P :=
  let t := fun i => ∑ k ∈ Finset.range m.maxSamples, ne k i
  let δ := fun i => t i - obs i
  let ratio := fun k i => ne k i / t i
  let R := fun i (a : Fin P) => ∑ k ∈ Finset.range m.maxSamples, ratio k i * I k i a
  { q := fun a => ∑ i ∈ Finset.range m.nbinsPoisson, δ i * R i a
    p := fun a b => (∑ i ∈ Finset.range m.nbinsPoisson, obs i * R i a * R i b) +
      if m.use_lognormal_terms then
        ∑ k ∈ Finset.range m.maxSamples, ∑ i ∈ Finset.range m.nbinsPoisson,
          ratio k i * δ i * I k i a * I k i b
      else 0 }

/-- `pq_einsum_gaussian` (minimizers.py:150-179): the last `nbins_gaussian` bins. -/
noncomputable def pqGaussian (m : Mdl n P) (ne : Nat → Nat → ℝ) (obs : Nat → ℝ)
    (I : Nat → Nat → Nat → ℝ) : PQ P :=
  let nP := m.nbinsPoisson
  let G := Finset.range m.nbinsGaussian
  let δ := fun i => (∑ k ∈ Finset.range m.maxSamples, ne k (nP + i)) - obs (nP + i)
  let M := fun i (a : Fin P) => ∑ k ∈ Finset.range m.maxSamples, ne k (nP + i) * I k (nP + i) a
  { q := fun a => ∑ i ∈ G, ∑ j ∈ G, M i a * m.poiHessian i j * δ j
    p := fun a b => (∑ i ∈ G, ∑ j ∈ G, M i a * m.poiHessian i j * M j b) +
      if m.use_lognormal_terms then
        2 * ∑ k ∈ Finset.range m.maxSamples, ∑ i ∈ G, ∑ j ∈ G,
          ne k (nP + i) * m.poiHessian i j * δ j * I k (nP + i) a * I k (nP + i) b
      else 0 }

open Classical in
/-- `pq_einsum` (minimizers.py:76-113).  A zero total yield in a Poisson bin makes `P` and `Q` contain
`nan` or infinities, on which the later `scipy.linalg.solve` raises `ValueError` (`check_finite`);
modelled here as that error.  The branches for no Poisson or no Gaussian bins add zero matrices, as
the empty sums do. -/
noncomputable def pq (m : Mdl n P) (A : Arrays) (x : Fin n → ℝ) (θ : Fin P → ℝ) (d : DataV P) :
    Except PyErr (PQ P) := do
  let ne ← m.nExp A x θ
  let I ← m.linearImpacts A θ
  if 0 < P ∧ ∃ i < m.nbinsPoisson, ∑ k ∈ Finset.range m.maxSamples, ne k i = 0 then throw .valueError
  let po := m.pqPoisson ne d.counts I
  let ga := m.pqGaussian ne d.counts I
  return { p := po.p + ga.p + m.constraintHessian
           q := po.q + ga.q + m.constraintHessian.mulVec (fun a => θ a - d.aux_obs a) }

/-- The matrix seen by `scipy.linalg.solve(..., assume_a='sym')`: only the upper triangle is read. -/
def symUpper (p : Matrix (Fin P) (Fin P) ℝ) : Matrix (Fin P) (Fin P) ℝ :=
  fun a b => if a ≤ b then p a b else p b a

open Classical in
/-- `profile` (minimizers.py:181-225) on a `Parameters` hypothesis: the profiled NPs (the POIs are
kept).  Exact arithmetic; `solve` raises `LinAlgError` on a singular matrix. -/
noncomputable def profile (m : Mdl n P) (A : Arrays) (x : Fin n → ℝ) (θ : Fin P → ℝ) (d : DataV P) :
    Except PyErr (Fin P → ℝ) := do
  let s ← m.pq A x θ d
  if |s.p.det| < (1 / 1000) ^ P then return θ
  else if (symUpper s.p).det = 0 then throw .linAlgError
  else return fun a => θ a - (symUpper s.p)⁻¹.mulVec s.q a

/-- `profile_nll` (minimizers.py:227-243). -/
noncomputable def profileNll (m : Mdl n P) (A : Arrays) (x : Fin n → ℝ) (θ : Fin P → ℝ) (d : DataV P)
    (floor : Option ℝ := none) : Except PyErr Flt := do
  let θ' ← m.profile A x θ d
  m.nll A x θ' d true floor

/-- The loop of `POIMinimizer.profile_nps` (minimizers.py:392-396). -/
noncomputable def profileNps (m : Mdl n P) (A : Arrays) (x : Fin n → ℝ) (d : DataV P) :
    Nat → (Fin P → ℝ) → Except PyErr (Fin P → ℝ)
  | 0, θ => .ok θ
  | k + 1, θ => do
    let θ' ← m.profile A x θ d
    m.profileNps A x d k θ'

end Mdl
end Verif
