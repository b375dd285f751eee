import Verif.Lemmas.Toys
import Verif.Lemmas.Demo
import Verif.Lemmas.DemoNP
/-!
# C64: pseudo-datasets follow the likelihood
-/
namespace Verif.Props
open Verif Verif.Toys MeasureTheory ProbabilityTheory
open scoped ENNReal NNReal
variable {n P : Nat}

/-- The value of the NLL of a pseudo-dataset in terms of its parts. -/
theorem Toys.nll_toy (m : Mdl n P) (N : Nat → ℝ) (θ : Fin P → ℝ) (t : m.Toy) :
    m.nllVal N θ (m.toyData t) false =
      (∑ b : Fin m.nbinsPoisson, (N b - t.1 b * Real.log (N b))) +
      (1 / 2) * (∑ i : Fin m.nbinsGaussian, ∑ j : Fin m.nbinsGaussian,
        (N (m.nbinsPoisson + i) - t.2.1 i) * m.poiHessian i j * (N (m.nbinsPoisson + j) - t.2.1 j)) +
      (1 / 2) * ∑ p, (m.nps p).constraintWeight * ((θ p - t.2.2 p) * (θ p - t.2.2 p)) := by
  have hc : ∀ b : Fin m.nbinsPoisson, (m.toyData t).counts b = t.1 b := fun b => by simp [Mdl.toyData]
  have hg : ∀ i : Fin m.nbinsGaussian, (m.toyData t).counts (m.nbinsPoisson + i) = t.2.1 i := fun i => by
    simp [Mdl.toyData]
  simp only [Mdl.nllVal, Bool.false_eq_true, if_false, Mdl.constraintTerm_eq, Mdl.quad]
  rw [Finset.sum_range, Finset.sum_range]
  congr 2
  · exact Finset.sum_congr rfl (fun b _ => by rw [hc])
  · congr 1
    refine Finset.sum_congr rfl (fun i _ => ?_)
    rw [Finset.sum_range]
    exact Finset.sum_congr rfl (fun j _ => by rw [hg, hg])

theorem Toys.aux_density (p : NP ℝ) (a b : ℝ)
    (h : ∀ c, p.constraint = some c → 0 < c ∧ |p.variation| = 1) :
    auxM p b = (auxM p a).withDensity
      (fun t => ENNReal.ofReal (Real.exp (p.constraintWeight / 2 * ((a - t) * (a - t) - (b - t) * (b - t))))) := by
  unfold auxM NP.constraintWeight NP.scaledConstraint
  cases hc : p.constraint with
  | none => simp
  | some c =>
    obtain ⟨h0, h1⟩ := h c hc
    have hv : (c ^ 2).toNNReal ≠ 0 := by simp [h0.ne']
    have hw : p.variation ^ 2 = 1 := by rw [← sq_abs, h1, one_pow]
    simp only [gaussian_density a b _ hv]
    congr 1
    funext t
    congr 2
    rw [Real.coe_toNNReal _ (sq_nonneg c), div_pow, hw]
    field_simp
    ring

/-- C64: likelihood ratios are density ratios.  On a model without Gaussian channels, whose constrained NPs have positive
constraints and unit variations, the pseudo-datasets generated at one parameter point have, relative to those generated at
any other one, the density given by the ratio of the likelihoods `exp(-NLL)`. -/
theorem c64_likelihood_ratio (m : Mdl n P) (A : Mdl.Arrays) (x x' : Fin n → ℝ) (θ θ' : Fin P → ℝ) (N N' : Nat → ℝ)
    (hG : m.nbinsGaussian = 0)
    (hN : m.totBinExp A x θ = .ok N) (hp : ∀ b < m.nbinsPoisson, 0 < N b)
    (hN' : m.totBinExp A x' θ' = .ok N') (hp' : ∀ b < m.nbinsPoisson, 0 < N' b)
    (hc : ∀ p c, (m.nps p).constraint = some c → 0 < c ∧ |(m.nps p).variation| = 1) :
    ∃ (μ μ' : Measure m.Toy) (l l' : m.Toy → ℝ), m.toyLaw A x θ = .ok μ ∧ m.toyLaw A x' θ' = .ok μ' ∧
      IsProbabilityMeasure μ ∧ IsProbabilityMeasure μ' ∧
      (∀ t, m.nll A x θ (m.toyData t) false = .ok (.fin (l t))) ∧
      (∀ t, m.nll A x' θ' (m.toyData t) false = .ok (.fin (l' t))) ∧
      μ' = μ.withDensity (fun t => ENNReal.ofReal (Real.exp (-l' t) / Real.exp (-l t))) := by
  refine ⟨lawM m N θ, lawM m N' θ', fun t => m.nllVal N θ (m.toyData t) false,
    fun t => m.nllVal N' θ' (m.toyData t) false,
    toyLaw_ok m A x θ N hN (fun b hb => (hp b hb).le) (fun p c h => (hc p c h).1.le),
    toyLaw_ok m A x' θ' N' hN' (fun b hb => (hp' b hb).le) (fun p c h => (hc p c h).1.le), inferInstance, inferInstance,
    fun t => Mdl.nll_ok hN hp, fun t => Mdl.nll_ok hN' hp', ?_⟩
  have hg : m.gaussLaw N' = m.gaussLaw N := by
    have : (fun i : Fin m.nbinsGaussian => N' (m.nbinsPoisson + i)) =
        fun i : Fin m.nbinsGaussian => N (m.nbinsPoisson + i) := by
      funext i; exact absurd i.2 (by omega)
    simp only [Mdl.gaussLaw, this]
  have hr : ∀ b : Fin m.nbinsPoisson, 0 < (N b).toNNReal := fun b => Real.toNNReal_pos.2 (hp b b.2)
  have h1 := pi_density (μ := fun b : Fin m.nbinsPoisson => poissonMeasure (N b).toNNReal)
    (ν := fun b => poissonMeasure (N' b).toNNReal) (fun b => by fun_prop) (fun b => poisson_density _ _ (hr b))
  have h2 := pi_density (μ := fun p : Fin P => auxM (m.nps p) (θ p))
    (ν := fun p => auxM (m.nps p) (θ' p)) (fun b => by fun_prop)
    (fun p => Toys.aux_density (m.nps p) (θ p) (θ' p) (hc p))
  unfold lawM
  rw [hg, h1, h2, prod_withDensity_right (by fun_prop), prod_withDensity (by fun_prop) (by fun_prop)]
  congr 1
  funext t
  rw [← ENNReal.ofReal_prod_of_nonneg (fun b _ => by positivity),
    ← ENNReal.ofReal_prod_of_nonneg (fun b _ => by positivity), ← ENNReal.ofReal_mul (by
      exact Finset.prod_nonneg (fun b _ => by positivity))]
  congr 1
  have e0 : ∀ M : Nat → ℝ, (∑ i : Fin m.nbinsGaussian, ∑ j : Fin m.nbinsGaussian,
        (M (m.nbinsPoisson + i) - t.2.1 i) * m.poiHessian i j * (M (m.nbinsPoisson + j) - t.2.1 j)) = 0 := fun M => by
    refine Finset.sum_eq_zero (fun i _ => absurd i.2 (by omega))
  dsimp only
  rw [← Real.exp_sub, ← Real.exp_sum, Toys.nll_toy, Toys.nll_toy, e0, e0]
  have e1 : ∀ b : Fin m.nbinsPoisson, Real.exp ((N b).toNNReal - (N' b).toNNReal : ℝ) *
      (((N' b).toNNReal : ℝ) / (N b).toNNReal) ^ t.1 b =
      Real.exp ((N b - t.1 b * Real.log (N b)) - (N' b - t.1 b * Real.log (N' b))) := fun b => by
    have a1 := hp b b.2
    have a2 := hp' b b.2
    rw [Real.coe_toNNReal _ a1.le, Real.coe_toNNReal _ a2.le, ← Real.rpow_natCast,
      Real.rpow_def_of_pos (div_pos a2 a1), ← Real.exp_add, Real.log_div a2.ne' a1.ne']
    congr 1; ring
  rw [Finset.prod_congr rfl (fun b _ => e1 b), ← Real.exp_sum, ← Real.exp_add, Finset.sum_sub_distrib]
  congr 1
  have e2 : ∑ p, (m.nps p).constraintWeight / 2 * ((θ p - t.2.2 p) * (θ p - t.2.2 p) -
        (θ' p - t.2.2 p) * (θ' p - t.2.2 p)) =
      (1 / 2) * (∑ p, (m.nps p).constraintWeight * ((θ p - t.2.2 p) * (θ p - t.2.2 p))) -
      (1 / 2) * ∑ p, (m.nps p).constraintWeight * ((θ' p - t.2.2 p) * (θ' p - t.2.2 p)) := by
    rw [Finset.mul_sum, Finset.mul_sum, ← Finset.sum_sub_distrib]
    exact Finset.sum_congr rfl (fun p _ => by ring)
  rw [e2]
  ring

/-- C64 finding F66: widths of the aux. obs.  The NLL constrains the scaled NP with the width `constraint / variation`
(base.py:503-514), and the generated aux. obs. has that width exactly when the variation has modulus 1. -/
theorem c64_aux_width (p : NP ℝ) (c v : ℝ) (hc : p.constraint = some c) (h0 : 0 < c) (hv : p.variation ≠ 0) :
    ∃ μ, p.auxLaw v = .ok μ ∧ IsProbabilityMeasure μ ∧ p.scaledConstraint = .ok (c / p.variation) ∧
      (μ = gaussianReal v ((c / p.variation) ^ 2).toNNReal ↔ |p.variation| = 1) := by
  refine ⟨auxM p v, auxLaw_ok p v (fun d hd => ?_), inferInstance, ?_, ?_⟩
  · rw [hc] at hd; cases hd; exact h0.le
  · simp [NP.scaledConstraint, hc]
  · have e : auxM p v = gaussianReal v (c ^ 2).toNNReal := by simp [auxM, hc]
    rw [e, gaussianReal_ext_iff]
    have hv2 : 0 < p.variation ^ 2 := by positivity
    have hc2 : 0 < c ^ 2 := by positivity
    constructor
    · rintro ⟨-, h⟩
      have h' : c ^ 2 = (c / p.variation) ^ 2 := by
        have := congrArg (fun t : ℝ≥0 => (t : ℝ)) h
        simpa [Real.coe_toNNReal _ (sq_nonneg _)] using this
      rw [div_pow, eq_div_iff hv2.ne'] at h'
      have h1 : p.variation ^ 2 = 1 := by nlinarith [mul_left_cancel₀ hc2.ne' (h'.trans (mul_one _).symm)]
      rw [← sq_abs] at h1
      nlinarith [abs_nonneg p.variation]
    · intro h
      have h1 : p.variation ^ 2 = 1 := by rw [← sq_abs, h, one_pow]
      refine ⟨rfl, ?_⟩
      rw [div_pow, h1, div_one]

/-- C64: moments of a pseudo-dataset.  Each bin has the expected yield as mean, the count of each Poisson bin being `k` with the
Poisson probability, and the aux. obs. of each constrained NP has the value of the NP as mean. -/
theorem c64_mean (m : Mdl n P) (A : Mdl.Arrays) (x : Fin n → ℝ) (θ : Fin P → ℝ) (N : Nat → ℝ)
    (hN : m.totBinExp A x θ = .ok N) (hp : ∀ b < m.nbinsPoisson, 0 ≤ N b)
    (hS : (Matrix.of fun i j : Fin m.nbinsGaussian => m.poiHessian i j).PosSemidef)
    (hc : ∀ p c, (m.nps p).constraint = some c → 0 ≤ c) :
    ∃ μ, m.toyLaw A x θ = .ok μ ∧ IsProbabilityMeasure μ ∧
      (∀ b < m.nbinsPoisson + m.nbinsGaussian, ∫ t, (m.toyData t).counts b ∂μ = N b) ∧
      (∀ b < m.nbinsPoisson, ∀ k : ℕ,
        μ {t | (m.toyData t).counts b = k} = ENNReal.ofReal (Real.exp (-N b) * N b ^ k / k.factorial)) ∧
      (∀ p c, (m.nps p).constraint = some c → ∫ t, (m.toyData t).aux_obs p ∂μ = θ p) ∧
      (∀ p, (m.nps p).constraint = none → ∀ᵐ t ∂μ, (m.toyData t).aux_obs p = 0) := by
  refine ⟨lawM m N θ, toyLaw_ok m A x θ N hN hp hc, inferInstance, ?_, ?_, ?_, ?_⟩
  · intro b hb
    by_cases h : b < m.nbinsPoisson
    · have e : ∀ t : m.Toy, (m.toyData t).counts b = (t.1 ⟨b, h⟩ : ℝ) := fun t => by simp [Mdl.toyData, h]
      simp only [e]
      have hm := marginal_poisson m N θ ⟨b, h⟩
      have := integral_map (μ := lawM m N θ) (φ := fun t : m.Toy => t.1 ⟨b, h⟩) (f := fun k : ℕ => (k : ℝ))
        hm.measurable.aemeasurable (by fun_prop)
      rw [hm.map_eq, poisson_mean, Real.coe_toNNReal _ (hp b h)] at this
      exact this.symm
    · have h2 : b - m.nbinsPoisson < m.nbinsGaussian := by omega
      have e : ∀ t : m.Toy, (m.toyData t).counts b = t.2.1 ⟨b - m.nbinsPoisson, h2⟩ := fun t => by
        simp [Mdl.toyData, h, h2]
      simp only [e]
      have hm := marginal_gaussians m N θ
      have := integral_map (μ := lawM m N θ) (φ := fun t : m.Toy => t.2.1)
        (f := fun g : Fin m.nbinsGaussian → ℝ => g ⟨b - m.nbinsPoisson, h2⟩)
        hm.measurable.aemeasurable (measurable_pi_apply _).aestronglyMeasurable
      rw [hm.map_eq, gaussLaw_mean m N hS] at this
      rw [← this]
      congr 1
      simp; omega
  · intro b h k
    have e : {t : m.Toy | (m.toyData t).counts b = (k : ℝ)} = (fun t : m.Toy => t.1 ⟨b, h⟩) ⁻¹' {k} := by
      ext t; simp [Mdl.toyData, h]
    rw [e, (marginal_poisson m N θ ⟨b, h⟩).measure_preimage (measurableSet_singleton k).nullMeasurableSet,
      poissonMeasure_singleton, Real.coe_toNNReal _ (hp b h)]
  · intro p c hpc
    have hm := marginal_aux m N θ p
    have := integral_map (μ := lawM m N θ) (φ := fun t : m.Toy => t.2.2 p) (f := fun k : ℝ => k)
      hm.measurable.aemeasurable (by fun_prop)
    rw [hm.map_eq] at this
    have e : auxM (m.nps p) (θ p) = gaussianReal (θ p) (c ^ 2).toNNReal := by simp [auxM, hpc]
    rw [e, integral_id_gaussianReal] at this
    exact this.symm
  · intro p hpc
    have hm := marginal_aux m N θ p
    have e : auxM (m.nps p) (θ p) = Measure.dirac 0 := by simp [auxM, hpc]
    rw [e] at hm
    exact hm.quasiMeasurePreserving.ae (p := fun t => t = 0) (by simp)

/-- C64 finding F67: covariance of the Gaussian bins.  The covariance matrix of the observations generated for the bins of
the Gaussian channels is the matrix that the NLL (core.py:785) uses as the inverse of their covariance. -/
theorem c64_gaussian_covariance (m : Mdl n P) (A : Mdl.Arrays) (x : Fin n → ℝ) (θ : Fin P → ℝ) (N : Nat → ℝ)
    (hN : m.totBinExp A x θ = .ok N) (hp : ∀ b < m.nbinsPoisson, 0 ≤ N b)
    (hS : (Matrix.of fun i j : Fin m.nbinsGaussian => m.poiHessian i j).PosSemidef)
    (hc : ∀ p c, (m.nps p).constraint = some c → 0 ≤ c) :
    ∃ μ, m.toyLaw A x θ = .ok μ ∧ ∀ i j, i < m.nbinsGaussian → j < m.nbinsGaussian →
      cov[fun t => (m.toyData t).counts (m.nbinsPoisson + i),
        fun t => (m.toyData t).counts (m.nbinsPoisson + j); μ] = m.poiHessian i j := by
  refine ⟨lawM m N θ, toyLaw_ok m A x θ N hN hp hc, fun i j hi hj => ?_⟩
  have e : ∀ k (hk : k < m.nbinsGaussian), (fun t : m.Toy => (m.toyData t).counts (m.nbinsPoisson + k)) =
      (fun g : Fin m.nbinsGaussian → ℝ => g ⟨k, hk⟩) ∘ fun t : m.Toy => t.2.1 := fun k hk => by
    funext t; simp [Mdl.toyData, hk]
  rw [e i hi, e j hj]
  have hm := marginal_gaussians m N θ
  have := covariance_map (μ := lawM m N θ) (Z := fun t : m.Toy => t.2.1)
    (X := fun g : Fin m.nbinsGaussian → ℝ => g ⟨i, hi⟩) (Y := fun g : Fin m.nbinsGaussian → ℝ => g ⟨j, hj⟩)
    (measurable_pi_apply _).aestronglyMeasurable (measurable_pi_apply _).aestronglyMeasurable
    hm.measurable.aemeasurable
  rw [hm.map_eq, gaussLaw_cov m N hS] at this
  exact this.symm

theorem Toys.mapM_error {α β : Type} (f : α → Except PyErr β) (e : PyErr) (l : List α)
    (h : ∀ a ∈ l, (∃ b, f a = .ok b) ∨ f a = .error e) (hx : ∃ a ∈ l, f a = .error e) : l.mapM f = .error e := by
  induction l with
  | nil => obtain ⟨a, ha, -⟩ := hx; simp at ha
  | cons a l ih =>
    rw [List.mapM_cons]
    rcases h a (by simp) with ⟨b, hb⟩ | hb
    · rw [hb, bind_ok, ih (fun c hc => h c (by simp [hc])), bind_error]
      obtain ⟨c, hc, hce⟩ := hx
      rcases List.mem_cons.1 hc with rfl | hc
      · rw [hb] at hce; cases hce
      · exact ⟨c, hc, hce⟩
    · rw [hb, bind_error]

theorem Toys.auxLaw_cases (p : NP ℝ) (v : ℝ) : (∃ μ, p.auxLaw v = .ok μ) ∨ p.auxLaw v = .error .valueError := by
  unfold NP.auxLaw
  cases p.constraint with
  | none => exact .inl ⟨_, rfl⟩
  | some c => by_cases h : c < 0 <;> simp [h]

/-- C64: what is refused.  Where the expected yields can be computed, generation fails exactly when a Poisson bin has a
negative expected yield or an NP has a negative constraint, and it fails with `ValueError`. -/
theorem c64_refused (m : Mdl n P) (A : Mdl.Arrays) (x : Fin n → ℝ) (θ : Fin P → ℝ) (N : Nat → ℝ)
    (hN : m.totBinExp A x θ = .ok N) :
    ((∃ μ, m.toyLaw A x θ = .ok μ) ↔
      (∀ b < m.nbinsPoisson, 0 ≤ N b) ∧ ∀ p c, (m.nps p).constraint = some c → 0 ≤ c) ∧
    (m.toyLaw A x θ = .error .valueError ↔
      (∃ b < m.nbinsPoisson, N b < 0) ∨ ∃ p c, (m.nps p).constraint = some c ∧ c < 0) := by
  by_cases h1 : ∃ b < m.nbinsPoisson, N b < 0
  · have e : m.toyLaw A x θ = .error .valueError := by
      simp only [Mdl.toyLaw, hN, bind_ok, if_pos h1, throw_error, bind_error]
    refine ⟨⟨fun ⟨μ, h⟩ => (by rw [e] at h; cases h), fun h => ?_⟩, fun _ => .inl h1, fun _ => e⟩
    obtain ⟨b, hb, hn⟩ := h1
    exact absurd (h.1 b hb) (not_le.2 hn)
  · have h1' : ∀ b < m.nbinsPoisson, 0 ≤ N b := by push Not at h1; exact h1
    by_cases h2 : ∃ p c, (m.nps p).constraint = some c ∧ c < 0
    · have e : m.toyLaw A x θ = .error .valueError := by
        have hm : (List.finRange P).mapM (fun p => (m.nps p).auxLaw (θ p)) = .error .valueError := by
          refine Toys.mapM_error _ _ _ (fun p _ => Toys.auxLaw_cases _ _) ?_
          obtain ⟨p, c, hc, h0⟩ := h2
          exact ⟨p, List.mem_finRange p, by simp [NP.auxLaw, hc, h0]⟩
        simp only [Mdl.toyLaw, hN, bind_ok, if_neg h1, pure_ok, hm, bind_error]
      refine ⟨⟨fun ⟨μ, h⟩ => (by rw [e] at h; cases h), fun h => ?_⟩, fun _ => .inr h2, fun _ => e⟩
      obtain ⟨p, c, hc, h0⟩ := h2
      exact absurd (h.2 p c hc) (not_le.2 h0)
    · have h2' : ∀ p c, (m.nps p).constraint = some c → 0 ≤ c := by push Not at h2; exact h2
      have e := toyLaw_ok m A x θ N hN h1' h2'
      refine ⟨⟨fun _ => ⟨h1', h2'⟩, fun _ => ⟨_, e⟩⟩, fun h => ?_, fun h => ?_⟩
      · rw [e] at h; cases h
      · rcases h with h | h
        · exact absurd h h1
        · exact absurd h h2

/-- C64: expected NLL.  For pseudo-datasets generated at `(x, θ)`, the mean of the NLL at any other parameter point
`(x', θ')` is the NLL at that point of the Asimov dataset of `(x, θ)`, up to a constant that does not depend on
`(x', θ')`. -/
theorem c64_expected_nll (m : Mdl n P) (A : Mdl.Arrays) (x : Fin n → ℝ) (θ : Fin P → ℝ) (N : Nat → ℝ)
    (hN : m.totBinExp A x θ = .ok N) (hp : ∀ b < m.nbinsPoisson, 0 ≤ N b)
    (hS : (Matrix.of fun i j : Fin m.nbinsGaussian => m.poiHessian i j).PosSemidef)
    (hc : ∀ p c, (m.nps p).constraint = some c → 0 ≤ c) :
    ∃ (μ : Measure m.Toy) (K : ℝ), m.toyLaw A x θ = .ok μ ∧ IsProbabilityMeasure μ ∧
      ∀ (x' : Fin n → ℝ) (θ' : Fin P → ℝ) (N' : Nat → ℝ), m.totBinExp A x' θ' = .ok N' →
        (∀ b < m.nbinsPoisson, 0 < N' b) →
        ∃ (l : m.Toy → ℝ) (a : ℝ), (∀ t, m.nll A x' θ' (m.toyData t) false = .ok (.fin (l t))) ∧
          m.nll A x' θ' ⟨N, θ⟩ false = .ok (.fin a) ∧ Integrable l μ ∧ ∫ t, l t ∂μ = a + K := by
  refine ⟨lawM m N θ, (1 / 2) * (∑ i : Fin m.nbinsGaussian, ∑ j : Fin m.nbinsGaussian,
      m.poiHessian i j * m.poiHessian i j) +
      (1 / 2) * ∑ p, (m.nps p).constraintWeight * (match (m.nps p).constraint with | none => 0 | some c => c ^ 2),
    toyLaw_ok m A x θ N hN hp hc, inferInstance, fun x' θ' N' hN' hp' => ?_⟩
  refine ⟨fun t => m.nllVal N' θ' (m.toyData t) false, m.nllVal N' θ' ⟨N, θ⟩ false,
    fun t => Mdl.nll_ok hN' hp', Mdl.nll_ok hN' hp', ?_⟩
  have hP : ∀ b : Fin m.nbinsPoisson,
      Integrable (fun t : m.Toy => N' b - t.1 b * Real.log (N' b)) (lawM m N θ) ∧
      ∫ t : m.Toy, (N' b - t.1 b * Real.log (N' b)) ∂lawM m N θ = N' b - N b * Real.log (N' b) := fun b => by
    have hm := marginal_poisson m N θ b
    have hi : Integrable (fun k : ℕ => N' b - k * Real.log (N' b)) (poissonMeasure (N b).toNNReal) :=
      (integrable_const _).sub ((poisson_integrable _).mul_const _)
    refine ⟨hm.integrable_comp_of_integrable hi, ?_⟩
    have := integral_map (μ := lawM m N θ) (φ := fun t : m.Toy => t.1 b)
      (f := fun k : ℕ => N' b - k * Real.log (N' b)) hm.measurable.aemeasurable (by fun_prop)
    rw [hm.map_eq, integral_sub (integrable_const _) ((poisson_integrable _).mul_const _), integral_mul_const,
      poisson_mean, Real.coe_toNNReal _ (hp b b.2)] at this
    rw [← this]; simp
  have hQ : ∀ i j : Fin m.nbinsGaussian,
      Integrable (fun t : m.Toy => (N' (m.nbinsPoisson + i) - t.2.1 i) * m.poiHessian i j *
        (N' (m.nbinsPoisson + j) - t.2.1 j)) (lawM m N θ) ∧
      ∫ t : m.Toy, (N' (m.nbinsPoisson + i) - t.2.1 i) * m.poiHessian i j *
        (N' (m.nbinsPoisson + j) - t.2.1 j) ∂lawM m N θ =
      (N' (m.nbinsPoisson + i) - N (m.nbinsPoisson + i)) * m.poiHessian i j *
        (N' (m.nbinsPoisson + j) - N (m.nbinsPoisson + j)) + m.poiHessian i j * m.poiHessian i j := fun i j => by
    have hm := marginal_gaussians m N θ
    obtain ⟨hi, hv⟩ := gaussLaw_prod m N hS i j (N' (m.nbinsPoisson + i)) (N' (m.nbinsPoisson + j))
    have e : (fun t : m.Toy => (N' (m.nbinsPoisson + i) - t.2.1 i) * m.poiHessian i j *
        (N' (m.nbinsPoisson + j) - t.2.1 j)) = (fun t : m.Toy => m.poiHessian i j *
        ((N' (m.nbinsPoisson + i) - t.2.1 i) * (N' (m.nbinsPoisson + j) - t.2.1 j))) := by funext t; ring
    have hI : Integrable (fun t : m.Toy => (N' (m.nbinsPoisson + i) - t.2.1 i) *
        (N' (m.nbinsPoisson + j) - t.2.1 j)) (lawM m N θ) := hm.integrable_comp_of_integrable hi
    rw [e]
    refine ⟨hI.const_mul _, ?_⟩
    have := integral_map (μ := lawM m N θ) (φ := fun t : m.Toy => t.2.1)
      (f := fun g : Fin m.nbinsGaussian → ℝ => (N' (m.nbinsPoisson + i) - g i) * (N' (m.nbinsPoisson + j) - g j))
      hm.measurable.aemeasurable (by rw [hm.map_eq]; exact hi.aestronglyMeasurable)
    rw [hm.map_eq, hv] at this
    rw [integral_const_mul, ← this]
    ring
  have hA : ∀ p : Fin P,
      Integrable (fun t : m.Toy => (m.nps p).constraintWeight * ((θ' p - t.2.2 p) * (θ' p - t.2.2 p))) (lawM m N θ) ∧
      ∫ t : m.Toy, (m.nps p).constraintWeight * ((θ' p - t.2.2 p) * (θ' p - t.2.2 p)) ∂lawM m N θ =
      (m.nps p).constraintWeight * ((θ' p - θ p) * (θ' p - θ p)) +
      (m.nps p).constraintWeight * (match (m.nps p).constraint with | none => 0 | some c => c ^ 2) := fun p => by
    cases hpc : (m.nps p).constraint with
    | none =>
      have : (m.nps p).constraintWeight = 0 := by simp [NP.constraintWeight, NP.scaledConstraint, hpc]
      simp [this]
    | some c =>
      have hm := marginal_aux m N θ p
      have e : auxM (m.nps p) (θ p) = gaussianReal (θ p) (c ^ 2).toNNReal := by simp [auxM, hpc]
      rw [e] at hm
      have hI : Integrable (fun t : m.Toy => (θ' p - t.2.2 p) * (θ' p - t.2.2 p)) (lawM m N θ) :=
        hm.integrable_comp_of_integrable (gauss_sq_integrable _ _ _)
      refine ⟨hI.const_mul _, ?_⟩
      have := integral_map (μ := lawM m N θ) (φ := fun t : m.Toy => t.2.2 p)
        (f := fun s : ℝ => (θ' p - s) * (θ' p - s)) hm.measurable.aemeasurable (by fun_prop)
      rw [hm.map_eq, gauss_sq, Real.coe_toNNReal _ (sq_nonneg c)] at this
      rw [integral_const_mul, ← this]
      ring
  have i1 : Integrable (fun t : m.Toy => ∑ b : Fin m.nbinsPoisson, (N' b - t.1 b * Real.log (N' b))) (lawM m N θ) :=
    integrable_finset_sum _ (fun b _ => (hP b).1)
  have i2 : Integrable (fun t : m.Toy => ∑ i : Fin m.nbinsGaussian, ∑ j : Fin m.nbinsGaussian,
        (N' (m.nbinsPoisson + i) - t.2.1 i) * m.poiHessian i j * (N' (m.nbinsPoisson + j) - t.2.1 j)) (lawM m N θ) :=
    integrable_finset_sum _ (fun i _ => integrable_finset_sum _ (fun j _ => (hQ i j).1))
  have i3 : Integrable (fun t : m.Toy => ∑ p, (m.nps p).constraintWeight *
      ((θ' p - t.2.2 p) * (θ' p - t.2.2 p))) (lawM m N θ) := integrable_finset_sum _ (fun p _ => (hA p).1)
  have i12 := i1.add (i2.const_mul (1 / 2))
  have i123 := i12.add (i3.const_mul (1 / 2))
  have eN : (fun t : m.Toy => m.nllVal N' θ' (m.toyData t) false) = _ := funext (Toys.nll_toy m N' θ')
  rw [eN]
  refine ⟨i123, ?_⟩
  have a1 : ∫ t : m.Toy, (∑ b : Fin m.nbinsPoisson, (N' b - t.1 b * Real.log (N' b))) ∂lawM m N θ =
      ∑ b : Fin m.nbinsPoisson, (N' b - N b * Real.log (N' b)) := by
    rw [integral_finset_sum _ (fun b _ => (hP b).1)]
    exact Finset.sum_congr rfl (fun b _ => (hP b).2)
  have a2 : ∫ t : m.Toy, (∑ i : Fin m.nbinsGaussian, ∑ j : Fin m.nbinsGaussian,
        (N' (m.nbinsPoisson + i) - t.2.1 i) * m.poiHessian i j * (N' (m.nbinsPoisson + j) - t.2.1 j)) ∂lawM m N θ =
      (∑ i : Fin m.nbinsGaussian, ∑ j : Fin m.nbinsGaussian,
        (N' (m.nbinsPoisson + i) - N (m.nbinsPoisson + i)) * m.poiHessian i j *
          (N' (m.nbinsPoisson + j) - N (m.nbinsPoisson + j))) +
      ∑ i : Fin m.nbinsGaussian, ∑ j : Fin m.nbinsGaussian, m.poiHessian i j * m.poiHessian i j := by
    rw [integral_finset_sum _ (fun i _ => integrable_finset_sum _ (fun j _ => (hQ i j).1)), ← Finset.sum_add_distrib]
    refine Finset.sum_congr rfl (fun i _ => ?_)
    rw [integral_finset_sum _ (fun j _ => (hQ i j).1), ← Finset.sum_add_distrib]
    exact Finset.sum_congr rfl (fun j _ => (hQ i j).2)
  have a3 : ∫ t : m.Toy, (∑ p, (m.nps p).constraintWeight *
      ((θ' p - t.2.2 p) * (θ' p - t.2.2 p))) ∂lawM m N θ =
      (∑ p, (m.nps p).constraintWeight * ((θ' p - θ p) * (θ' p - θ p))) +
      ∑ p, (m.nps p).constraintWeight * (match (m.nps p).constraint with | none => 0 | some c => c ^ 2) := by
    rw [integral_finset_sum _ (fun p _ => (hA p).1), ← Finset.sum_add_distrib]
    exact Finset.sum_congr rfl (fun p _ => (hA p).2)
  have eA : m.nllVal N' θ' ⟨N, θ⟩ false = (∑ b : Fin m.nbinsPoisson, (N' b - N b * Real.log (N' b))) +
      (1 / 2) * (∑ i : Fin m.nbinsGaussian, ∑ j : Fin m.nbinsGaussian,
        (N' (m.nbinsPoisson + i) - N (m.nbinsPoisson + i)) * m.poiHessian i j *
          (N' (m.nbinsPoisson + j) - N (m.nbinsPoisson + j))) +
      (1 / 2) * ∑ p, (m.nps p).constraintWeight * ((θ' p - θ p) * (θ' p - θ p)) := by
    simp only [Mdl.nllVal, Bool.false_eq_true, if_false, Mdl.constraintTerm_eq, Mdl.quad]
    rw [Finset.sum_range, Finset.sum_range]
    congr 3
    exact Finset.sum_congr rfl (fun i _ => Finset.sum_range _)
  have s1 := integral_add i12 (i3.const_mul (1 / 2))
  have s2 := integral_add i1 (i2.const_mul (1 / 2))
  rw [integral_const_mul, a3] at s1
  rw [integral_const_mul, a1, a2] at s2
  rw [eA]
  refine (Eq.trans ?_ (s1.trans (congrArg (· + _) s2))).trans ?_
  · rfl
  · ring

/-- C64 finding F67: the pseudo-datasets of a Gaussian channel do not follow its likelihood.  On a model with one Gaussian
bin of inverse variance `h ≠ 1` and no Poisson bins, the pseudo-datasets of two parameter points with the same NPs and
different expected yields never have the likelihood ratio as density ratio. -/
theorem c64_gaussian_fails (m : Mdl n P) (A : Mdl.Arrays) (x x' : Fin n → ℝ) (θ : Fin P → ℝ) (N N' : Nat → ℝ)
    (hP : m.nbinsPoisson = 0) (hG : m.nbinsGaussian = 1)
    (hN : m.totBinExp A x θ = .ok N) (hN' : m.totBinExp A x' θ = .ok N') (hd : N 0 ≠ N' 0)
    (h0 : 0 < m.poiHessian 0 0) (h1 : m.poiHessian 0 0 ≠ 1)
    (hc : ∀ p c, (m.nps p).constraint = some c → 0 ≤ c) :
    ∃ (μ μ' : Measure m.Toy) (l l' : m.Toy → ℝ), m.toyLaw A x θ = .ok μ ∧ m.toyLaw A x' θ = .ok μ' ∧
      (∀ t, m.nll A x θ (m.toyData t) false = .ok (.fin (l t))) ∧
      (∀ t, m.nll A x' θ (m.toyData t) false = .ok (.fin (l' t))) ∧
      μ' ≠ μ.withDensity (fun t => ENNReal.ofReal (Real.exp (-l' t) / Real.exp (-l t))) := by
  have hp : ∀ M : Nat → ℝ, ∀ b < m.nbinsPoisson, 0 < M b := fun M b hb => by omega
  refine ⟨lawM m N θ, lawM m N' θ, fun t => m.nllVal N θ (m.toyData t) false,
    fun t => m.nllVal N' θ (m.toyData t) false,
    toyLaw_ok m A x θ N hN (fun b hb => (hp N b hb).le) hc, toyLaw_ok m A x' θ N' hN' (fun b hb => (hp N' b hb).le) hc,
    fun t => Mdl.nll_ok hN (hp N), fun t => Mdl.nll_ok hN' (hp N'), fun he => ?_⟩
  have hm := congrArg (fun μ : Measure m.Toy => μ Set.univ) he
  have hz : ∀ i : Fin m.nbinsGaussian, (i : ℕ) = 0 := fun i => by omega
  have hS : (covG m).PosSemidef := by
    have : covG m = Matrix.diagonal (fun _ => m.poiHessian 0 0) := by
      ext i j
      have : i = j := Fin.ext (by rw [hz i, hz j])
      subst this
      simp [covG, hz i]
    rw [this]
    exact Matrix.PosSemidef.diagonal (fun _ => h0.le)
  have hg := (gaussLaw_eval m N hS ⟨0, by omega⟩).comp (marginal_gaussians m N θ)
  have key : ∀ t : m.Toy, Real.exp (-m.nllVal N' θ (m.toyData t) false) / Real.exp (-m.nllVal N θ (m.toyData t) false) =
      (fun s : ℝ => Real.exp (m.poiHessian 0 0 / 2 * (N 0 ^ 2 - N' 0 ^ 2)) *
        Real.exp (m.poiHessian 0 0 * (N' 0 - N 0) * s)) (t.2.1 ⟨0, by omega⟩) := fun t => by
    have hcn : (m.toyData t).counts 0 = t.2.1 ⟨0, by omega⟩ := by simp [Mdl.toyData, hP, hG]
    rw [← Real.exp_sub]
    simp only [← Real.exp_add, Mdl.nllVal, Bool.false_eq_true, if_false, Mdl.quad, hP, hG, Finset.range_zero,
      Finset.sum_empty, Finset.range_one, Finset.sum_singleton, add_zero, hcn]
    congr 1
    ring
  simp only [measure_univ, withDensity_apply _ MeasurableSet.univ, Measure.restrict_univ, key] at hm
  have e1 := hg.lintegral_comp (f := fun s : ℝ => ENNReal.ofReal (Real.exp (m.poiHessian 0 0 / 2 * (N 0 ^ 2 - N' 0 ^ 2)) *
        Real.exp (m.poiHessian 0 0 * (N' 0 - N 0) * s))) (by fun_prop)
  have hI : Integrable (fun s : ℝ => Real.exp (m.poiHessian 0 0 / 2 * (N 0 ^ 2 - N' 0 ^ 2)) *
        Real.exp (m.poiHessian 0 0 * (N' 0 - N 0) * s))
      (gaussianReal (N (m.nbinsPoisson + 0)) (m.poiHessian 0 0).toNNReal) :=
    (integrable_exp_mul_gaussianReal _).const_mul _
  have e2 := ofReal_integral_eq_lintegral_ofReal hI (Filter.Eventually.of_forall (fun s => by positivity))
  have e3 := congrFun (mgf_id_gaussianReal (μ := N (m.nbinsPoisson + 0)) (v := (m.poiHessian 0 0).toNNReal))
    (m.poiHessian 0 0 * (N' 0 - N 0))
  simp only [mgf, id] at e3
  rw [integral_const_mul, e3, Real.coe_toNNReal _ h0.le, ← Real.exp_add] at e2
  have e4 := (hm.trans e1).trans e2.symm
  rw [hP] at e4
  have e5 := congrArg ENNReal.toReal e4
  rw [ENNReal.toReal_ofReal (Real.exp_pos _).le, ENNReal.toReal_one] at e5
  have e6 := (Real.exp_eq_one_iff _).1 e5.symm
  have e7 : m.poiHessian 0 0 / 2 * ((N' 0 - N 0) ^ 2 * ((m.poiHessian 0 0 - 1) * (m.poiHessian 0 0 + 1))) = 0 := by
    rw [← e6]; simp only [add_zero]; ring
  have d : N' 0 - N 0 ≠ 0 := sub_ne_zero.2 (Ne.symm hd)
  have d1 : m.poiHessian 0 0 - 1 ≠ 0 := sub_ne_zero.2 h1
  have d2 : m.poiHessian 0 0 + 1 ≠ 0 := by positivity
  simp [d, d1, d2, h0.ne'] at e7

/-! ### Concrete cases -/

/-- A model with one Gaussian bin of inverse variance `h`, whose expected value is the POI. -/
noncomputable def Toys.gaussH (h : ℝ) : Mdl 1 0 where
  pois := ![ "mu" ]
  poiInit := ![1]
  nps := ![]
  exprs := []
  channels := [⟨"g", true, 1, fun _ _ => h, [⟨"s", .expr "mu", 1, [1], []⟩]⟩]
  use_asym_impacts := false
  use_linear_nps := true
  use_simple_sym_impacts := true
  use_lognormal_terms := false
  cutoff := 0
  variations := none

theorem Toys.gaussH_shapes (h : ℝ) : (Toys.gaussH h).nbins = 1 ∧ (Toys.gaussH h).nbinsPoisson = 0 ∧
    (Toys.gaussH h).nbinsGaussian = 1 ∧ (Toys.gaussH h).maxSamples = 1 ∧ (Toys.gaussH h).poiHessian 0 0 = h := by
  simp [Mdl.nbins, Mdl.nbinsPoisson, Mdl.nbinsGaussian, Mdl.maxSamples, Mdl.poiHessian, Mdl.chanState, Toys.gaussH,
    chanStep]

theorem Toys.gaussH_tot (h : ℝ) (A : Mdl.Arrays) (x : Fin 1 → ℝ) :
    ∃ N, (Toys.gaussH h).totBinExp A x ![] = .ok N ∧ N 0 = x 0 := by
  obtain ⟨h1, h2, h3, h4, -⟩ := Toys.gaussH_shapes h
  have hv : (Toys.gaussH h).ctx.realVals x = .ok [("mu", x 0)] := by
    simp [ExprCtx.realVals, ExprCtx.evalLoop, ExprCtx.base, Mdl.ctx, Toys.gaussH]
  have hc : (Toys.gaussH h).Computable [("mu", x 0)] := by
    refine ⟨?_, ?_, ?_⟩
    · intro s hs
      rw [h4] at hs
      rw [h1]
      interval_cases s; simp [Mdl.cells, Channel.cells, Toys.gaussH]
    · intro ch hc smp hm
      simp only [Toys.gaussH, List.mem_singleton] at hc
      subst hc
      simp only [List.mem_singleton] at hm
      subst hm; simp
    · intro ch hc smp hm
      simp only [Toys.gaussH, List.mem_singleton] at hc
      subst hc
      simp only [List.mem_singleton] at hm
      subst hm; simp [Norm.value, Dict.getItem, Dict.get?]
  refine ⟨_, Mdl.tot_ok A ![] hv hc, ?_⟩
  simp only [Mdl.totAt, h4, Mdl.yieldAt, Mdl.cutKExp, Mdl.kExp]
  simp [Finset.sum_range_succ, Mdl.cells, Channel.cells, Toys.gaussH, Mdl.cellVal, Mdl.cellYield,
      Mdl.normVal, Expr.look, Dict.get?]

/-- The hypotheses of `c64_likelihood_ratio`, `c64_mean` and `c64_expected_nll` hold for the demo model, which has two
Poisson bins, at the signal strengths 1 and 3. -/
example (A : Mdl.Arrays) : ∃ (N N' : Nat → ℝ) (μ μ' : Measure (Demo.mdl false true).Toy),
    (Demo.mdl false true).toyLaw A ![1] 0 = .ok μ ∧ (Demo.mdl false true).toyLaw A ![3] 0 = .ok μ' ∧
    ∫ t, ((Demo.mdl false true).toyData t).counts 0 ∂μ = 6 ∧ ∫ t, ((Demo.mdl false true).toyData t).counts 0 ∂μ' = 8 ∧
    (Demo.mdl false true).totBinExp A ![1] 0 = .ok N ∧ (Demo.mdl false true).totBinExp A ![3] 0 = .ok N' ∧
    μ ≠ μ' := by
  obtain ⟨N, hN, h0, h1⟩ := Demo.tot true A ![1]
  obtain ⟨N', hN', h0', h1'⟩ := Demo.tot true A ![3]
  obtain ⟨s1, s2, s3, -⟩ := Demo.shapes false true
  have hp : ∀ b < (Demo.mdl false true).nbinsPoisson, 0 < N b := by
    intro b hb
    rw [s2] at hb
    interval_cases b
    · rw [h0]; norm_num
    · rw [h1]; norm_num
  have hp' : ∀ b < (Demo.mdl false true).nbinsPoisson, 0 < N' b := by
    intro b hb
    rw [s2] at hb
    interval_cases b
    · rw [h0']; norm_num
    · rw [h1']; norm_num
  have hc : ∀ p c, ((Demo.mdl false true).nps p).constraint = some c →
      0 < c ∧ |((Demo.mdl false true).nps p).variation| = 1 := by
    intro p c h
    have : p = 0 := Subsingleton.elim _ _
    subst this
    simp only [Demo.mdl, Matrix.cons_val_zero, Option.some.injEq] at h ⊢
    subst h; norm_num
  obtain ⟨μ, μ', -, -, e, e', -⟩ := c64_likelihood_ratio _ A _ _ _ _ _ _ s3 hN hp hN' hp' hc
  have hS : (Matrix.of fun i j : Fin (Demo.mdl false true).nbinsGaussian =>
      (Demo.mdl false true).poiHessian i j).PosSemidef := by
    have : (Matrix.of fun i j : Fin (Demo.mdl false true).nbinsGaussian =>
      (Demo.mdl false true).poiHessian i j) = 0 := by
      ext i j; exact absurd i.2 (by omega)
    rw [this]; exact Matrix.PosSemidef.zero
  obtain ⟨ν, f, -, g, -⟩ := c64_mean _ A _ _ _ hN (fun b hb => (hp b hb).le) hS (fun p c h => (hc p c h).1.le)
  obtain ⟨ν', f', -, g', -⟩ := c64_mean _ A _ _ _ hN' (fun b hb => (hp' b hb).le) hS (fun p c h => (hc p c h).1.le)
  have q := g 0 (by rw [s2]; omega)
  have q' := g' 0 (by rw [s2]; omega)
  have eν : ν = μ := by rw [e] at f; exact (Except.ok.inj f).symm
  have eν' : ν' = μ' := by rw [e'] at f'; exact (Except.ok.inj f').symm
  subst eν eν'
  have r : ∫ t, ((Demo.mdl false true).toyData t).counts 0 ∂ν = 6 := by rw [q, h0]; norm_num
  have r' : ∫ t, ((Demo.mdl false true).toyData t).counts 0 ∂ν' = 8 := by rw [q', h0']; norm_num
  refine ⟨N, N', ν, ν', e, e', r, r', hN, hN', fun h => ?_⟩
  rw [h, r'] at r
  norm_num at r

/-- The hypotheses of `c64_gaussian_fails` and `c64_gaussian_covariance` hold for an observation of inverse variance 4:
the generated observations have variance 4 instead of 1/4. -/
example (A : Mdl.Arrays) : ∃ μ, (Toys.gaussH 4).toyLaw A ![1] ![] = .ok μ ∧
    cov[fun t => ((Toys.gaussH 4).toyData t).counts 0, fun t => ((Toys.gaussH 4).toyData t).counts 0; μ] = 4 := by
  obtain ⟨N, hN, h0⟩ := Toys.gaussH_tot 4 A ![1]
  obtain ⟨N', hN', h0'⟩ := Toys.gaussH_tot 4 A ![2]
  obtain ⟨s1, s2, s3, s4, s5⟩ := Toys.gaussH_shapes 4
  have _used := c64_gaussian_fails (Toys.gaussH 4) A _ _ _ _ _ s2 s3 hN hN' (by rw [h0, h0']; norm_num)
    (by rw [s5]; norm_num) (by rw [s5]; norm_num) (fun p => p.elim0)
  have hz : ∀ i : Fin (Toys.gaussH 4).nbinsGaussian, (i : ℕ) = 0 := fun i => by omega
  have hS : (Matrix.of fun i j : Fin (Toys.gaussH 4).nbinsGaussian => (Toys.gaussH 4).poiHessian i j).PosSemidef := by
    have : (Matrix.of fun i j : Fin (Toys.gaussH 4).nbinsGaussian => (Toys.gaussH 4).poiHessian i j) =
        Matrix.diagonal (fun _ => 4) := by
      ext i j
      have : i = j := Fin.ext (by rw [hz i, hz j])
      subst this
      simp [hz i, s5]
    rw [this]
    exact Matrix.PosSemidef.diagonal (fun _ => by norm_num)
  obtain ⟨μ, h, hcov⟩ := c64_gaussian_covariance (Toys.gaussH 4) A _ _ _ hN (fun b hb => by omega) hS (fun p => p.elim0)
  refine ⟨μ, h, ?_⟩
  have := hcov 0 0 (by omega) (by omega)
  rw [s5] at this
  have e : (Toys.gaussH 4).nbinsPoisson + 0 = 0 := by omega
  simpa only [e] using this

/-- An NP of constraint 1 and variation 2 has scaled constraint 1/2, and its aux. obs. are not generated with it. -/
example : ∃ μ, (⟨"np", 0, 2, some 1, some "aux"⟩ : NP ℝ).auxLaw 3 = .ok μ ∧
    μ ≠ gaussianReal 3 ((1 / 2 : ℝ) ^ 2).toNNReal := by
  obtain ⟨μ, h, -, -, hi⟩ := c64_aux_width ⟨"np", 0, 2, some 1, some "aux"⟩ 1 3 rfl (by norm_num) (by norm_num)
  refine ⟨μ, h, fun he => ?_⟩
  have := hi.1 he
  norm_num at this

/-- An NP with a negative constraint is refused. -/
example : (⟨"np", 0, 2, some (-1), some "aux"⟩ : NP ℝ).auxLaw 3 = .error .valueError := by simp [NP.auxLaw]

end Verif.Props
