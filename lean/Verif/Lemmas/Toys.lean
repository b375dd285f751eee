import Verif.Model.Toys
import Verif.Lemmas.NPMin
import Mathlib.MeasureTheory.Integral.Pi
/-! Lemmas on the distribution of pseudo-datasets. -/
namespace Verif
open MeasureTheory ProbabilityTheory
open scoped ENNReal NNReal
namespace Toys

theorem lintegral_pi_prod {n : ℕ} {E : Fin n → Type*}
    {mE : ∀ i, MeasurableSpace (E i)} {μ : (i : Fin n) → Measure (E i)} [∀ i, SigmaFinite (μ i)]
    {f : (i : Fin n) → E i → ℝ≥0∞} (hf : ∀ i, Measurable (f i)) :
    ∫⁻ x : (i : Fin n) → E i, ∏ i, f i (x i) ∂(Measure.pi μ) = ∏ i, ∫⁻ x, f i x ∂(μ i) := by
  induction n with
  | zero => simp
  | succ n n_ih =>
    rw [← ((measurePreserving_piFinSuccAbove μ 0).symm).lintegral_comp_emb (MeasurableEquiv.measurableEmbedding _)]
    simp_rw [MeasurableEquiv.piFinSuccAbove_symm_apply, Fin.insertNthEquiv,
            Fin.prod_univ_succ, Fin.insertNth_zero, Equiv.coe_fn_mk, Fin.cons_succ,
            Fin.zero_succAbove, Fin.cons_zero]
    rw [← n_ih (fun i => hf _), ← lintegral_prod_mul]
    · rfl
    · exact (hf 0).aemeasurable
    · exact (Finset.measurable_prod _ (fun i _ => (hf _).comp (measurable_pi_apply i))).aemeasurable

theorem poisson_density (r r0 : ℝ≥0) (h0 : 0 < r0) :
    poissonMeasure r = (poissonMeasure r0).withDensity
      (fun k => ENNReal.ofReal (Real.exp ((r0 : ℝ) - r) * ((r : ℝ) / r0) ^ k)) := by
  refine Measure.ext_iff_singleton.2 (fun k => ?_)
  rw [withDensity_apply _ (measurableSet_singleton k), lintegral_singleton, poissonMeasure_singleton,
    poissonMeasure_singleton, ← ENNReal.ofReal_mul (by positivity)]
  congr 1
  have : (r0 : ℝ) ≠ 0 := by exact_mod_cast h0.ne'
  rw [div_pow, Real.exp_sub, Real.exp_neg, Real.exp_neg]
  field_simp

theorem gaussian_density (a b : ℝ) (v : ℝ≥0) (hv : v ≠ 0) :
    gaussianReal b v = (gaussianReal a v).withDensity
      (fun t => ENNReal.ofReal (Real.exp (((t - a) ^ 2 - (t - b) ^ 2) / (2 * v)))) := by
  rw [gaussianReal_of_var_ne_zero _ hv, gaussianReal_of_var_ne_zero _ hv,
    ← withDensity_mul _ (measurable_gaussianPDF a v) (by fun_prop)]
  congr 1
  funext t
  simp only [gaussianPDF, Pi.mul_apply]
  rw [← ENNReal.ofReal_mul (gaussianPDFReal_nonneg _ _ _)]
  congr 1
  simp only [gaussianPDFReal, mul_assoc]
  rw [← Real.exp_add]
  congr 2
  have : (v : ℝ) ≠ 0 := by exact_mod_cast hv
  field_simp
  ring_nf

theorem pi_withDensity {n : ℕ} {E : Fin n → Type*}
    {mE : ∀ i, MeasurableSpace (E i)} {μ : (i : Fin n) → Measure (E i)} [∀ i, SigmaFinite (μ i)]
    {f : (i : Fin n) → E i → ℝ≥0∞} (hf : ∀ i, Measurable (f i)) [∀ i, SigmaFinite ((μ i).withDensity (f i))] :
    Measure.pi (fun i => (μ i).withDensity (f i)) = (Measure.pi μ).withDensity (fun x => ∏ i, f i (x i)) := by
  refine Measure.pi_eq (fun s hs => ?_)
  rw [withDensity_apply _ (MeasurableSet.univ_pi hs), Measure.restrict_pi_pi, lintegral_pi_prod hf]
  exact Finset.prod_congr rfl (fun i _ => (withDensity_apply _ (hs i)).symm)

theorem pi_density {n : ℕ} {E : Fin n → Type*} {mE : ∀ i, MeasurableSpace (E i)}
    {μ ν : (i : Fin n) → Measure (E i)} [∀ i, IsProbabilityMeasure (μ i)] [∀ i, IsProbabilityMeasure (ν i)]
    {f : (i : Fin n) → E i → ℝ≥0∞} (hf : ∀ i, Measurable (f i)) (h : ∀ i, ν i = (μ i).withDensity (f i)) :
    Measure.pi ν = (Measure.pi μ).withDensity (fun x => ∏ i, f i (x i)) := by
  haveI : ∀ i, SigmaFinite ((μ i).withDensity (f i)) := fun i => by rw [← h i]; infer_instance
  rw [← pi_withDensity hf]
  congr 1
  funext i
  exact h i

/-! ### Moments -/

theorem hasSum_poisson_mean (r : ℝ≥0) :
    HasSum (fun n : ℕ => Real.exp (-r) * (r : ℝ) ^ n / (n.factorial) * n) r := by
  rw [← hasSum_nat_add_iff' 1]
  simp only [Finset.range_one, Finset.sum_singleton, pow_zero, Nat.cast_zero, mul_zero, sub_zero]
  have h := (hasSum_one_poissonMeasure r).mul_left (r : ℝ)
  rw [mul_one] at h
  refine h.congr_fun ?_ 
  intro n
  rw [Nat.factorial_succ]
  push_cast
  have h1 : (n.factorial : ℝ) ≠ 0 := by exact_mod_cast n.factorial_ne_zero
  have h2 : (n : ℝ) + 1 ≠ 0 := by positivity
  field_simp
  ring

theorem poisson_integrable (r : ℝ≥0) : Integrable (fun k : ℕ => (k : ℝ)) (poissonMeasure r) := by
  rw [integrable_poissonMeasure_iff]
  simpa using (hasSum_poisson_mean r).summable

theorem poisson_mean (r : ℝ≥0) : ∫ k, (k : ℝ) ∂poissonMeasure r = r := by
  rw [integral_poissonMeasure]
  simpa using (hasSum_poisson_mean r).tsum_eq

theorem gauss_sq_integrable (a b : ℝ) (v : ℝ≥0) : Integrable (fun t => (b - t) * (b - t)) (gaussianReal a v) := by
  have h : MemLp (fun t : ℝ => b - t) 2 (gaussianReal a v) :=
    (memLp_const b).sub (memLp_id_gaussianReal 2)
  exact h.integrable_mul h

theorem gauss_sq (a b : ℝ) (v : ℝ≥0) :
    ∫ t, (b - t) * (b - t) ∂gaussianReal a v = (b - a) * (b - a) + v := by
  have h : MemLp (id : ℝ → ℝ) 2 (gaussianReal a v) := memLp_id_gaussianReal 2
  have hi : Integrable (fun t : ℝ => t) (gaussianReal a v) := h.integrable (by norm_num)
  have hsq : Integrable (fun t : ℝ => t * t) (gaussianReal a v) := h.integrable_mul h
  have hv := variance_id_gaussianReal (μ := a) (v := v)
  rw [variance_eq_sub h] at hv
  have e1 : ∫ t, t ∂gaussianReal a v = a := integral_id_gaussianReal
  have e2 : ∫ t, t * t ∂gaussianReal a v = v + a ^ 2 := by
    have : ∫ t, (id ^ 2 : ℝ → ℝ) t ∂gaussianReal a v = ∫ t, t * t ∂gaussianReal a v := by
      congr 1; funext t; simp [sq]
    rw [← this]
    have e3 : ∫ t, (id t : ℝ) ∂gaussianReal a v = a := e1
    rw [e3] at hv
    linarith
  have e4 : (fun t : ℝ => (b - t) * (b - t)) = fun t => b * b - 2 * b * t + t * t := by funext t; ring
  have hA : Integrable (fun t : ℝ => b * b - 2 * b * t) (gaussianReal a v) :=
    (integrable_const _).sub (hi.const_mul _)
  rw [e4, integral_add hA hsq, integral_sub (integrable_const _) (hi.const_mul _),
    integral_const, integral_const_mul (2 * b), e1, e2]
  simp
  ring

/-! ### The distribution of a pseudo-dataset -/

/-- The distribution of an aux. obs. when it exists. -/
noncomputable def auxM (p : NP ℝ) (v : ℝ) : Measure ℝ :=
  match p.constraint with
  | none => Measure.dirac 0
  | some c => gaussianReal v (c ^ 2).toNNReal

instance (p : NP ℝ) (v : ℝ) : IsProbabilityMeasure (auxM p v) := by
  unfold auxM
  cases p.constraint <;> infer_instance

theorem auxLaw_ok (p : NP ℝ) (v : ℝ) (h : ∀ c, p.constraint = some c → 0 ≤ c) : p.auxLaw v = .ok (auxM p v) := by
  unfold NP.auxLaw auxM
  cases hc : p.constraint with
  | none => rfl
  | some c => simp [not_lt.2 (h c hc)]

variable {n P : Nat}

instance (m : Mdl n P) (N : Nat → ℝ) : IsProbabilityMeasure (m.gaussLaw N) :=
  Measure.isProbabilityMeasure_map (by fun_prop)

/-- The distribution of a pseudo-dataset with expected yields `N`. -/
noncomputable def lawM (m : Mdl n P) (N : Nat → ℝ) (θ : Fin P → ℝ) : Measure m.Toy :=
  (Measure.pi fun b : Fin m.nbinsPoisson => poissonMeasure (N b).toNNReal).prod
    ((m.gaussLaw N).prod (Measure.pi fun p : Fin P => auxM (m.nps p) (θ p)))

instance (m : Mdl n P) (N : Nat → ℝ) (θ : Fin P → ℝ) : IsProbabilityMeasure (lawM m N θ) := by
  unfold lawM; infer_instance

theorem toyLaw_ok (m : Mdl n P) (A : Mdl.Arrays) (x : Fin n → ℝ) (θ : Fin P → ℝ) (N : Nat → ℝ)
    (hN : m.totBinExp A x θ = .ok N) (hp : ∀ b < m.nbinsPoisson, 0 ≤ N b)
    (hc : ∀ p c, (m.nps p).constraint = some c → 0 ≤ c) : m.toyLaw A x θ = .ok (lawM m N θ) := by
  have h1 : ¬ ∃ b < m.nbinsPoisson, N b < 0 := by
    rintro ⟨b, hb, h⟩; exact absurd (hp b hb) (not_le.2 h)
  have h2 : (List.finRange P).mapM (fun p => (m.nps p).auxLaw (θ p)) =
      .ok ((List.finRange P).map fun p => auxM (m.nps p) (θ p)) :=
    mapM_map_ok (fun p _ => auxLaw_ok _ _ (hc p))
  simp only [Mdl.toyLaw, hN, bind_ok, if_neg h1, h2, pure_ok]
  congr 3
  simp

/-! ### Marginal distributions -/

theorem marginal_poisson (m : Mdl n P) (N : Nat → ℝ) (θ : Fin P → ℝ) (b : Fin m.nbinsPoisson) :
    MeasurePreserving (fun t : m.Toy => t.1 b) (lawM m N θ) (poissonMeasure (N b).toNNReal) :=
  (measurePreserving_eval (fun b : Fin m.nbinsPoisson => poissonMeasure (N b).toNNReal) b).comp measurePreserving_fst

theorem marginal_aux (m : Mdl n P) (N : Nat → ℝ) (θ : Fin P → ℝ) (p : Fin P) :
    MeasurePreserving (fun t : m.Toy => t.2.2 p) (lawM m N θ) (auxM (m.nps p) (θ p)) :=
  (measurePreserving_eval (fun p : Fin P => auxM (m.nps p) (θ p)) p).comp
    (measurePreserving_snd.comp measurePreserving_snd)

theorem marginal_gaussians (m : Mdl n P) (N : Nat → ℝ) (θ : Fin P → ℝ) :
    MeasurePreserving (fun t : m.Toy => t.2.1) (lawM m N θ) (m.gaussLaw N) :=
  measurePreserving_fst.comp measurePreserving_snd

/-- The matrix used as the covariance of the Gaussian bins. -/
def covG (m : Mdl n P) : Matrix (Fin m.nbinsGaussian) (Fin m.nbinsGaussian) ℝ := Matrix.of fun i j => m.poiHessian i j

theorem gaussLaw_eval (m : Mdl n P) (N : Nat → ℝ) (hS : (covG m).PosSemidef) (i : Fin m.nbinsGaussian) :
    MeasurePreserving (fun g : Fin m.nbinsGaussian → ℝ => g i) (m.gaussLaw N)
      (gaussianReal (N (m.nbinsPoisson + i)) (m.poiHessian i i).toNNReal) := by
  have h := measurePreserving_eval_multivariateGaussian
    (μ := WithLp.toLp 2 fun i : Fin m.nbinsGaussian => N (m.nbinsPoisson + i)) hS (i := i)
  refine ⟨by fun_prop, ?_⟩
  rw [Mdl.gaussLaw, Measure.map_map (by fun_prop) (by fun_prop)]
  exact h.map_eq

theorem gaussLaw_cov (m : Mdl n P) (N : Nat → ℝ) (hS : (covG m).PosSemidef) (i j : Fin m.nbinsGaussian) :
    cov[fun g => g i, fun g => g j; m.gaussLaw N] = m.poiHessian i j := by
  have h := covariance_eval_multivariateGaussian
    (μ := WithLp.toLp 2 fun i : Fin m.nbinsGaussian => N (m.nbinsPoisson + i)) hS i j
  rw [Mdl.gaussLaw, covariance_map (measurable_pi_apply i).aestronglyMeasurable
    (measurable_pi_apply j).aestronglyMeasurable (by fun_prop)]
  exact h

theorem gaussLaw_memLp (m : Mdl n P) (N : Nat → ℝ) (hS : (covG m).PosSemidef) (i : Fin m.nbinsGaussian) :
    MemLp (fun g : Fin m.nbinsGaussian → ℝ => g i) 2 (m.gaussLaw N) :=
  (memLp_id_gaussianReal (μ := N (m.nbinsPoisson + i)) (v := (m.poiHessian i i).toNNReal) 2).comp_measurePreserving
    (gaussLaw_eval m N hS i)

theorem gaussLaw_mean (m : Mdl n P) (N : Nat → ℝ) (hS : (covG m).PosSemidef) (i : Fin m.nbinsGaussian) :
    ∫ g, g i ∂m.gaussLaw N = N (m.nbinsPoisson + i) := by
  have h := gaussLaw_eval m N hS i
  have e := integral_map (μ := m.gaussLaw N) (φ := fun g : Fin m.nbinsGaussian → ℝ => g i)
    (f := fun y : ℝ => y) (measurable_pi_apply i).aemeasurable (by fun_prop)
  rw [h.map_eq, integral_id_gaussianReal] at e
  exact e.symm

theorem gaussLaw_prod (m : Mdl n P) (N : Nat → ℝ) (hS : (covG m).PosSemidef) (i j : Fin m.nbinsGaussian) (a b : ℝ) :
    Integrable (fun g : Fin m.nbinsGaussian → ℝ => (a - g i) * (b - g j)) (m.gaussLaw N) ∧
    ∫ g, (a - g i) * (b - g j) ∂m.gaussLaw N =
      (a - N (m.nbinsPoisson + i)) * (b - N (m.nbinsPoisson + j)) + m.poiHessian i j := by
  have hi := gaussLaw_memLp m N hS i
  have hj := gaussLaw_memLp m N hS j
  have hai : MemLp (fun g : Fin m.nbinsGaussian → ℝ => a - g i) 2 (m.gaussLaw N) := (memLp_const a).sub hi
  have hbj : MemLp (fun g : Fin m.nbinsGaussian → ℝ => b - g j) 2 (m.gaussLaw N) := (memLp_const b).sub hj
  refine ⟨hai.integrable_mul hbj, ?_⟩
  have ii := hi.integrable (by norm_num)
  have ij := hj.integrable (by norm_num)
  have e1 : ∫ g, (a - g i) ∂m.gaussLaw N = a - N (m.nbinsPoisson + i) := by
    rw [integral_sub (integrable_const _) ii, gaussLaw_mean m N hS i]; simp
  have e2 : ∫ g, (b - g j) ∂m.gaussLaw N = b - N (m.nbinsPoisson + j) := by
    rw [integral_sub (integrable_const _) ij, gaussLaw_mean m N hS j]; simp
  have hc := covariance_eq_sub hai hbj
  rw [covariance_const_sub_left ii, covariance_const_sub_right ij, neg_neg, gaussLaw_cov m N hS i j] at hc
  have e3 : ∫ g, ((fun g : Fin m.nbinsGaussian → ℝ => a - g i) * fun g : Fin m.nbinsGaussian → ℝ => b - g j) g ∂m.gaussLaw N =
      ∫ g, (a - g i) * (b - g j) ∂m.gaussLaw N := rfl
  rw [e3, e1, e2] at hc
  linarith

end Toys
end Verif
