import Verif.Spec.GaussCoverage
import Verif.Lemmas.Parabola
import Mathlib.Probability.Distributions.Gaussian.HasGaussianLaw.Independence
/-! Helper lemmas: the distribution of the best-fit value of a Gaussian model (C89). -/
namespace Verif.Lim
open Verif.Spec MeasureTheory ProbabilityTheory
open scoped RealInnerProductSpace

theorem gauss_functional {ι : Type} [Fintype ι] [DecidableEq ι] (μ : EuclideanSpace ℝ ι)
    (S : Matrix ι ι ℝ) (hS : S.PosSemidef) (v : EuclideanSpace ℝ ι) :
    (multivariateGaussian μ S).map (fun z => ⟪v, z⟫) =
      gaussianReal ⟪v, μ⟫ (v.ofLp ⬝ᵥ S.mulVec v.ofLp).toNNReal := by
  have h : HasGaussianLaw (fun z : EuclideanSpace ℝ ι => ⟪v, z⟫) (multivariateGaussian μ S) :=
    IsGaussian.hasGaussianLaw_id.map_fun (innerSL ℝ v)
  rw [h.map_eq_gaussianReal]
  congr 1
  · have := (innerSL ℝ v).integral_comp_comm (μ := multivariateGaussian μ S) (φ := fun z => z)
      IsGaussian.integrable_id
    simpa using this
  · congr 1
    rw [← covariance_self (by fun_prop), ← covarianceBilin_apply_eq_cov (IsGaussian.memLp_two_id)]
    rw [covarianceBilin_multivariateGaussian hS]

variable {Ω : Type} [MeasurableSpace Ω] {Pr : Measure Ω}

theorem centred_scaled {X : Ω → ℝ} {a v : ℝ} (hv : 0 ≤ v) (h : HasLaw X (gaussianReal a v.toNNReal) Pr) (r : ℝ) :
    HasLaw (fun ω => r * (X ω - a)) (gaussianReal 0 (r ^ 2 * v).toNNReal) Pr := by
  have h1 := gaussianReal_const_mul (gaussianReal_sub_const h a) r
  rw [sub_self, mul_zero] at h1
  have e : (NNReal.mk (r ^ 2) (sq_nonneg r)) * v.toNNReal = (r ^ 2 * v).toNNReal := by
    rw [Real.toNNReal_mul (sq_nonneg r), Real.toNNReal_of_nonneg (sq_nonneg r)]
  rwa [e] at h1

theorem sum_law {ι : Type} [Fintype ι] (hP : IsProbabilityMeasure Pr) {X : ι → Ω → ℝ} {v : ι → ℝ} (hv : ∀ i, 0 ≤ v i)
    (hX : ∀ i, HasLaw (X i) (gaussianReal 0 (v i).toNNReal) Pr) (hi : iIndepFun X Pr) (s : Finset ι) :
    HasLaw (fun ω => ∑ i ∈ s, X i ω) (gaussianReal 0 (∑ i ∈ s, v i).toNNReal) Pr := by
  classical
  have hm : ∀ i, AEMeasurable (X i) Pr := fun i => (hX i).aemeasurable
  induction s using Finset.induction_on with
  | empty =>
    constructor
    · simp
    · simp
  | insert j s hj ih =>
    have hind := (hi.indepFun_finsetSum_of_notMem₀ hm hj).symm
    have e : (fun ω => ∑ i ∈ s, X i ω) = ∑ i ∈ s, X i := by funext ω; simp
    rw [e] at ih
    have h := gaussianReal_add_gaussianReal_of_indepFun hind (hX j).map_eq ih.map_eq
    have e2 : (fun ω => ∑ i ∈ insert j s, X i ω) = X j + ∑ i ∈ s, X i := by
      funext ω; simp [Finset.sum_insert hj]
    rw [e2]
    refine ⟨(hm j).add ih.aemeasurable, ?_⟩
    rw [h, Finset.sum_insert hj, add_zero, Real.toNNReal_add (hv j) (Finset.sum_nonneg fun i _ => hv i)]

variable {P : Nat}

theorem bil_eq (m : Mdl 1 P) (u z : Nat → ℝ) :
    m.bil u z = (fun j : Fin m.nbinsGaussian => ((invCov m).transpose.mulVec fun i => u i) j) ⬝ᵥ fun j => z j := by
  simp only [Mdl.bil, dotProduct, Matrix.mulVec, invCov, Matrix.transpose_apply, Matrix.of_apply]
  rw [Finset.sum_comm, Finset.sum_range]
  refine Finset.sum_congr rfl fun j _ => ?_
  rw [Finset.sum_range, Finset.sum_mul]
  exact Finset.sum_congr rfl fun i _ => by ring

/-- The cross term of the quadratic form vanishes at the minimum. -/
theorem qF_split {m : Mdl 1 P} (hS : m.HSymm) (hH : m.HPsd) {s : Nat → ℝ} {c : Nat → Fin P → ℝ} {δ : Fin P → ℝ}
    (hδ : ∀ θ, qF m s c 1 δ ≤ qF m s c 1 θ) (t : ℝ) (η : Fin P → ℝ) :
    qF m s c t (t • δ + η) = qF m s c 1 δ * t ^ 2 + qF m s c 0 η := by
  -- expansion around `δ` of the form itself
  have hexp : ∀ t η, qF m s c (1 + t) (δ + η) =
      qF m s c 1 δ + lF m (fun _ => 0) s c (baseData fun _ => 0) 1 δ t η + qF m s c t η := by
    intro t η
    have := gF_exp m hS (fun _ => 0) s c (baseData fun _ => 0) 1 t δ η
    rw [gF_base, gF_base] at this
    exact this
  set L := lF m (fun _ => 0) s c (baseData fun _ => 0) 1 δ with hL
  have hL0 : ∀ η, L 0 η = 0 := by
    intro η
    have key : ∀ ε : ℝ, 0 ≤ ε * L 0 η + ε ^ 2 * qF m s c 0 η := by
      intro ε
      have h1 := hδ (δ + ε • η)
      have h2 := hexp 0 (ε • η)
      rw [add_zero] at h2
      rw [h2] at h1
      have h3 : L 0 (ε • η) = ε * L 0 η := by
        have := lF_smul m (fun _ => 0) s c (baseData fun _ => 0) 1 ε 0 δ η
        rwa [mul_zero] at this
      have h4 := qF_smul m s c ε 0 η
      rw [mul_zero] at h4
      rw [h3, h4] at h1
      linarith
    by_contra hne
    have hb := qF_nonneg m hH s c 0 η
    have h3 := key (-(L 0 η) / (2 * (qF m s c 0 η + 1)))
    have h4 : -(L 0 η) / (2 * (qF m s c 0 η + 1)) * L 0 η + (-(L 0 η) / (2 * (qF m s c 0 η + 1))) ^ 2 * qF m s c 0 η =
        -(L 0 η) ^ 2 * (qF m s c 0 η + 2) / (4 * (qF m s c 0 η + 1) ^ 2) := by field_simp; ring
    rw [h4] at h3
    have h5 : 0 < (L 0 η) ^ 2 * (qF m s c 0 η + 2) / (4 * (qF m s c 0 η + 1) ^ 2) := by positivity
    rw [neg_mul, neg_div] at h3
    linarith
  have h1 : ∀ η, qF m s c 1 (δ + η) = qF m s c 1 δ + qF m s c 0 η := by
    intro η
    have := hexp 0 η
    rw [add_zero, hL0, add_zero] at this
    exact this
  by_cases ht : t = 0
  · subst ht; simp
  · have h2 := qF_smul m s c t 1 (δ + (1 / t) • η)
    rw [mul_one, smul_add, smul_smul, mul_one_div_cancel ht, one_smul] at h2
    rw [h2, h1]
    have h3 := qF_smul m s c (1 / t) 0 η
    rw [mul_zero] at h3
    rw [h3]
    field_simp

/-- The NLL at another value of the POI. -/
theorem gF_shift {m : Mdl 1 P} (hS : m.HSymm) (hH : m.HPsd) {a s : Nat → ℝ} {c : Nat → Fin P → ℝ} {δ : Fin P → ℝ}
    (hδ : ∀ θ, qF m s c 1 δ ≤ qF m s c 1 θ) (d : Mdl.DataV P) (x0 : ℝ) (θ0 : Fin P → ℝ) (t : ℝ) (θ : Fin P → ℝ) :
    gF m a s c d (x0 + t) θ = gF m a s c d x0 (θ - t • δ) + lF m a s c d x0 θ0 1 δ * t + qF m s c 1 δ * t ^ 2 := by
  have e1 : θ = θ0 + (t • δ + (θ - θ0 - t • δ)) := by abel
  have e2 : θ - t • δ = θ0 + (θ - θ0 - t • δ) := by abel
  have h1 := gF_exp m hS a s c d x0 t θ0 (t • δ + (θ - θ0 - t • δ))
  have h2 := gF_exp m hS a s c d x0 0 θ0 (θ - θ0 - t • δ)
  rw [← e1] at h1
  rw [← e2, add_zero] at h2
  rw [h1, h2, qF_split hS hH hδ]
  have h3 : lF m a s c d x0 θ0 t (t • δ + (θ - θ0 - t • δ)) =
      t * lF m a s c d x0 θ0 1 δ + lF m a s c d x0 θ0 0 (θ - θ0 - t • δ) := by
    rw [← lF_smul m a s c d x0 t 1 θ0 δ, mul_one]
    unfold lF
    have : dY s c t (t • δ + (θ - θ0 - t • δ)) = fun b => dY s c t (t • δ) b + dY s c 0 (θ - θ0 - t • δ) b := by
      funext b
      have := dY_add s c t 0 (t • δ) (θ - θ0 - t • δ) b
      rwa [add_zero] at this
    rw [this, bil_add_left]
    simp only [Pi.add_apply, mul_add, Finset.sum_add_distrib]
    ring
  rw [h3]; ring

/-- The best-fit value is an affine function of the data. -/
theorem best_eq {m : Mdl 1 P} {A : Mdl.Arrays} (hg : GaussianModel m A) {a s : Nat → ℝ}
    {c : Nat → Fin P → ℝ} (hy : YieldsAre m A a s c) {δ : Fin P → ℝ} (hδ : ∀ θ, qF m s c 1 δ ≤ qF m s c 1 θ)
    (hK0 : 0 < qF m s c 1 δ) (d : Mdl.DataV P) (x0 : ℝ) (θ0 : Fin P → ℝ) :
    ∃ const, Parabola m A d (x0 - lF m a s c d x0 θ0 1 δ / (2 * qF m s c 1 δ))
      (1 / Real.sqrt (2 * qF m s c 1 δ)) const := by
  obtain ⟨N0, h0⟩ := hg.ref
  obtain ⟨θ1, h1⟩ := gF_min hg hy d x0
  refine ⟨_, parabola_of_profile hg hy h0 hK0 d x0 (gF m a s c d x0 θ1) (lF m a s c d x0 θ0 1 δ) fun t => ?_⟩
  constructor
  · refine ⟨θ1 + t • δ, ?_⟩
    rw [gF_shift hg.hsym hg.hpsd hδ d x0 θ0]
    congr 3
    abel
  · rintro _ ⟨θ, rfl⟩
    rw [gF_shift hg.hsym hg.hpsd hδ d x0 θ0]
    have := h1 (θ - t • δ)
    linarith

/-- The distribution of the slope of the NLL at the true values. -/
theorem slope_law {m : Mdl 1 P} {A : Mdl.Arrays} (hP : IsProbabilityMeasure Pr) {a s : Nat → ℝ} {c : Nat → Fin P → ℝ}
    (hy : YieldsAre m A a s c) (hpd : (invCov m).PosDef)
    (hc : ∀ p, ∃ k, (m.nps p).scaledConstraint = .ok k ∧ k ≠ 0)
    {x : ℝ} {θ : Fin P → ℝ} {D : Ω → Mdl.DataV P} (hD : Follows m A x θ Pr D) (δ : Fin P → ℝ) :
    HasLaw (fun ω => -lF m a s c (D ω) x θ 1 δ) (gaussianReal 0 (2 * qF m s c 1 δ).toNNReal) Pr := by
  obtain ⟨N, hN, hbins⟩ := hD.bins
  obtain ⟨N', hN', hNv⟩ := hy x θ
  obtain rfl := Except.ok.inj (ε := PyErr) (hN.symm.trans hN')
  choose k hk hk0 using hc
  have haux : ∀ p, HasLaw (fun ω => (D ω).aux_obs p) (gaussianReal (θ p) (k p ^ 2).toNNReal) Pr := by
    intro p
    obtain ⟨k', h1, h2⟩ := hD.aux p
    obtain rfl := Except.ok.inj (ε := PyErr) ((hk p).symm.trans h1)
    exact h2
  have hw : ∀ p, (m.nps p).constraintWeight = 1 / k p ^ 2 := by
    intro p; simp only [NP.constraintWeight, hk p]
  set u := dY s c 1 δ with hu
  set v : EuclideanSpace ℝ (Fin m.nbinsGaussian) := WithLp.toLp 2 ((invCov m).transpose.mulVec fun i => u i) with hvdef
  set X := fun ω => WithLp.toLp 2 fun i : Fin m.nbinsGaussian => (D ω).counts i with hX
  have hdet : IsUnit (invCov m).det := hpd.det_pos.ne'.isUnit
  have hsymm : (invCov m).transpose = invCov m := by
    have := hpd.isHermitian
    rwa [Matrix.IsHermitian, Matrix.conjTranspose_eq_transpose_of_trivial] at this
  -- the bins
  have hB : HasLaw (fun ω => ⟪v, X ω⟫ - ⟪v, WithLp.toLp 2 fun i : Fin m.nbinsGaussian => N i⟫)
      (gaussianReal 0 (m.bil u u).toNNReal) Pr := by
    have h1 : HasLaw (fun ω => ⟪v, X ω⟫) (gaussianReal ⟪v, WithLp.toLp 2 fun i : Fin m.nbinsGaussian => N i⟫
        (v.ofLp ⬝ᵥ (invCov m)⁻¹.mulVec v.ofLp).toNNReal) Pr :=
      HasLaw.comp ⟨by fun_prop, gauss_functional _ _ hpd.inv.posSemidef v⟩ hbins
    have h2 := gaussianReal_sub_const h1 ⟪v, WithLp.toLp 2 fun i : Fin m.nbinsGaussian => N i⟫
    rw [sub_self] at h2
    have e : v.ofLp ⬝ᵥ (invCov m)⁻¹.mulVec v.ofLp = m.bil u u := by
      rw [bil_eq]
      simp only [hvdef, hsymm, Matrix.mulVec_mulVec, Matrix.nonsing_inv_mul _ hdet, Matrix.one_mulVec]
    rwa [e] at h2
  -- the aux. obs.
  have hA : HasLaw (fun ω => ∑ p, (1 / k p ^ 2 * δ p) * ((D ω).aux_obs p - θ p))
      (gaussianReal 0 (∑ p, (m.nps p).constraintWeight * (δ p * δ p)).toNNReal) Pr := by
    have h1 := sum_law hP (X := fun p ω => (1 / k p ^ 2 * δ p) * ((D ω).aux_obs p - θ p))
      (v := fun p => (1 / k p ^ 2 * δ p) ^ 2 * k p ^ 2) (fun p => by positivity)
      (fun p => centred_scaled (sq_nonneg _) (haux p) _)
      (hD.indepAux.comp (fun p y => (1 / k p ^ 2 * δ p) * (y - θ p)) (fun p => by fun_prop)) Finset.univ
    have e : ∑ p, (1 / k p ^ 2 * δ p) ^ 2 * k p ^ 2 = ∑ p, (m.nps p).constraintWeight * (δ p * δ p) := by
      refine Finset.sum_congr rfl fun p _ => ?_
      rw [hw]
      have := hk0 p
      field_simp
    rwa [e] at h1
  have hind : IndepFun (fun ω => ⟪v, X ω⟫ - ⟪v, WithLp.toLp 2 fun i : Fin m.nbinsGaussian => N i⟫)
      (fun ω => ∑ p, (1 / k p ^ 2 * δ p) * ((D ω).aux_obs p - θ p)) Pr :=
    hD.indepBins.comp (φ := fun z => ⟪v, z⟫ - ⟪v, WithLp.toLp 2 fun i : Fin m.nbinsGaussian => N i⟫)
      (ψ := fun y : Fin P → ℝ => ∑ p, (1 / k p ^ 2 * δ p) * (y p - θ p)) (by fun_prop) (by fun_prop)
  have hsum := gaussianReal_add_gaussianReal_of_indepFun hind hB.map_eq hA.map_eq
  have hpos : 0 ≤ m.bil u u := by
    have h := hpd.posSemidef.re_dotProduct_nonneg (fun i : Fin m.nbinsGaussian => u i)
    rw [bil_eq, hsymm, dotProduct_comm]
    simpa using h
  have hpos2 : 0 ≤ ∑ p, (m.nps p).constraintWeight * (δ p * δ p) :=
    Finset.sum_nonneg (fun p _ => mul_nonneg (weight_nonneg _) (mul_self_nonneg _))
  have e : (fun ω => -lF m a s c (D ω) x θ 1 δ) =
      (fun ω => ⟪v, X ω⟫ - ⟪v, WithLp.toLp 2 fun i : Fin m.nbinsGaussian => N i⟫) +
      (fun ω => ∑ p, (1 / k p ^ 2 * δ p) * ((D ω).aux_obs p - θ p)) := by
    funext ω
    have h1 : (fun b => a b + dY s c x θ b - (D ω).counts b) = fun b => N b - (D ω).counts b := by
      funext b; rw [hNv, dY]; ring
    simp only [lF, h1, Pi.add_apply]
    have h2 : ⟪v, X ω⟫ - ⟪v, WithLp.toLp 2 fun i : Fin m.nbinsGaussian => N i⟫ =
        -m.bil u (fun b => N b - (D ω).counts b) := by
      rw [bil_eq, ← inner_sub_right]
      simp only [hvdef, hX, PiLp.inner_apply, dotProduct, ← Finset.sum_neg_distrib]
      refine Finset.sum_congr rfl fun i _ => ?_
      simp
      ring
    rw [h2, neg_add]
    congr 1
    rw [← Finset.sum_neg_distrib]
    refine Finset.sum_congr rfl fun p _ => ?_
    rw [hw]; ring
  rw [e]
  refine ⟨hB.aemeasurable.add hA.aemeasurable, ?_⟩
  rw [hsum, add_zero, ← Real.toNNReal_add hpos hpos2]
  congr 2
  unfold qF
  ring

/-- The best-fit value is normal around the true value, with the uncertainty of the model. -/
theorem best_law {m : Mdl 1 P} {A : Mdl.Arrays} (hP : IsProbabilityMeasure Pr) (hg : GaussianModel m A)
    (ha : AffineYields m A) (hpd : (invCov m).PosDef) {x : ℝ} {θ : Fin P → ℝ} {D : Ω → Mdl.DataV P}
    (hD : Follows m A x θ Pr D) {σ : ℝ} (hσ : 0 < σ) {best const : Ω → ℝ}
    (hb : ∀ ω, Parabola m A (D ω) (best ω) σ (const ω)) : HasLaw best (meas x σ) Pr := by
  obtain ⟨a, s, c, hy, hs⟩ := ha
  obtain ⟨K, hK0, ⟨δ, rfl⟩, hδ⟩ := qF_least hg hy hs
  have hδ' : ∀ θ, qF m s c 1 δ ≤ qF m s c 1 θ := fun θ => hδ ⟨θ, rfl⟩
  have hl := slope_law hP hy hpd (fun p => by
    obtain ⟨k, h1, h2, _⟩ := hg.constrained p
    exact ⟨k, h1, h2⟩) hD δ
  set K := qF m s c 1 δ with hK
  have e : ∀ ω, best ω = x + (1 / (2 * K)) * (-lF m a s c (D ω) x θ 1 δ) ∧ σ = 1 / Real.sqrt (2 * K) := by
    intro ω
    obtain ⟨k', h⟩ := best_eq hg hy hδ' hK0 (D ω) x θ
    obtain ⟨h1, h2, _⟩ := Parabola.unique hσ (by positivity) (hb ω) h
    exact ⟨by rw [h1]; ring, h2⟩
  have hne : Nonempty Ω := by
    by_contra hn
    rw [not_nonempty_iff] at hn
    have := hP.measure_univ
    rw [Set.univ_eq_empty_iff.2 hn] at this
    simp at this
  have eσ := (e hne.some).2
  have h1 := gaussianReal_const_mul hl (1 / (2 * K))
  have h2 := gaussianReal_const_add h1 x
  have e1 : best = fun ω => x + (1 / (2 * K)) * (-lF m a s c (D ω) x θ 1 δ) := funext fun ω => (e ω).1
  rw [e1]
  have e2 : (NNReal.mk ((1 / (2 * K)) ^ 2) (sq_nonneg _)) * (2 * K).toNNReal = Real.toNNReal (σ ^ 2) := by
    rw [eσ, ← Real.toNNReal_of_nonneg (sq_nonneg (1 / (2 * K))), ← Real.toNNReal_mul (sq_nonneg _),
      div_pow 1 (Real.sqrt (2 * K)), Real.sq_sqrt (by linarith)]
    congr 1
    field_simp
  rw [e2, mul_zero, zero_add] at h2
  exact h2

end Verif.Lim
