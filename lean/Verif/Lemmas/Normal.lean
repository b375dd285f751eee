import Mathlib.Probability.Distributions.Gaussian.Real
import Mathlib.Probability.Distributions.Gamma
import Mathlib.Probability.CDF
import Mathlib.MeasureTheory.Integral.IntervalIntegral.FundThmCalculus
import Mathlib.Analysis.Calculus.Deriv.MeanValue
import Mathlib.Topology.Order.IntermediateValue
import Verif.Spec.Dist
/-! Facts about the standard normal and chi-square survival functions. -/
namespace Verif
open MeasureTheory ProbabilityTheory Set Filter Topology

theorem normPdf_pos (x : ℝ) : 0 < normPdf x := gaussianPDFReal_pos 0 1 x one_ne_zero

theorem normPdf_continuous : Continuous normPdf := by
  unfold normPdf
  simp only [gaussianPDFReal_def]
  fun_prop

theorem normPdf_integrable : Integrable normPdf := integrable_gaussianPDFReal 0 1

theorem normSf_eq_integral (x : ℝ) : normSf x = ∫ u in Ioi x, normPdf u := by
  unfold normSf
  rw [Measure.real, gaussianReal_apply_eq_integral 0 one_ne_zero, ENNReal.toReal_ofReal]
  · rfl
  · exact setIntegral_nonneg measurableSet_Ioi fun u _ => gaussianPDFReal_nonneg 0 1 u

theorem normSf_sub (a b : ℝ) : normSf b = normSf a - ∫ u in a..b, normPdf u := by
  rw [normSf_eq_integral, normSf_eq_integral]
  have := intervalIntegral.integral_Ioi_sub_Ioi' (μ := volume) (f := normPdf) (a := a) (b := b)
    normPdf_integrable.integrableOn normPdf_integrable.integrableOn
  linarith

theorem normSf_hasDerivAt (x : ℝ) : HasDerivAt normSf (-normPdf x) x := by
  have h : HasDerivAt (fun b => ∫ u in (0 : ℝ)..b, normPdf u) (normPdf x) x :=
    intervalIntegral.integral_hasDerivAt_right (normPdf_continuous.intervalIntegrable _ _)
      (normPdf_continuous.stronglyMeasurableAtFilter _ _) normPdf_continuous.continuousAt
  have h2 : normSf = fun b => normSf 0 - ∫ u in (0 : ℝ)..b, normPdf u :=
    funext fun b => normSf_sub 0 b
  rw [h2]
  simpa using h.const_sub (normSf 0)

theorem normSf_continuous : Continuous normSf :=
  continuous_iff_continuousAt.2 fun x => (normSf_hasDerivAt x).continuousAt

theorem normSf_strictAnti : StrictAnti normSf := by
  apply strictAnti_of_deriv_neg
  intro x
  rw [(normSf_hasDerivAt x).deriv]
  linarith [normPdf_pos x]

theorem normSf_eq_cdf (x : ℝ) : normSf x = 1 - cdf (gaussianReal 0 1) x := by
  rw [cdf_eq_real, normSf, ← compl_Iic, probReal_compl_eq_one_sub measurableSet_Iic]

theorem normSf_atTop : Tendsto normSf atTop (𝓝 0) := by
  have h := (tendsto_cdf_atTop (gaussianReal 0 1)).const_sub 1
  rw [sub_self] at h
  exact h.congr fun x => (normSf_eq_cdf x).symm

theorem normSf_atBot : Tendsto normSf atBot (𝓝 1) := by
  have h := (tendsto_cdf_atBot (gaussianReal 0 1)).const_sub 1
  rw [sub_zero] at h
  exact h.congr fun x => (normSf_eq_cdf x).symm

theorem normSf_pos (x : ℝ) : 0 < normSf x := by
  have h1 := normSf_strictAnti (show x < x + 1 by linarith)
  have h2 : 0 ≤ normSf (x + 1) := measureReal_nonneg
  linarith

theorem normSf_lt_one (x : ℝ) : normSf x < 1 := by
  have h1 := normSf_strictAnti (show x - 1 < x by linarith)
  have h2 : normSf (x - 1) ≤ 1 := measureReal_le_one
  linarith

theorem normSf_surj (p : ℝ) (h0 : 0 < p) (h1 : p < 1) : ∃ x, normSf x = p := by
  obtain ⟨a, ha⟩ := (normSf_atBot.eventually (lt_mem_nhds h1)).exists
  obtain ⟨b, hb⟩ := (normSf_atTop.eventually (gt_mem_nhds h0)).exists
  exact mem_range_of_exists_le_of_exists_ge normSf_continuous ⟨b, hb.le⟩ ⟨a, ha.le⟩

theorem normSf_inj {x y : ℝ} : normSf x = normSf y ↔ x = y := normSf_strictAnti.injective.eq_iff

theorem normSf_isf (p : ℝ) (h0 : 0 < p) (h1 : p < 1) : normSf (normIsf p) = p := by
  unfold normIsf
  rw [dif_pos (normSf_surj p h0 h1)]
  exact (normSf_surj p h0 h1).choose_spec

theorem normIsf_sf (x : ℝ) : normIsf (normSf x) = x :=
  normSf_inj.1 (normSf_isf _ (normSf_pos x) (normSf_lt_one x))

/-- The normal density ratio used for the monotone likelihood ratio. -/
theorem normPdf_shift (d u : ℝ) :
    normPdf u = Real.exp (d ^ 2 / 2 - u * d) * normPdf (u - d) := by
  unfold normPdf gaussianPDFReal
  simp only [sub_zero, NNReal.coe_one, mul_one]
  rw [mul_left_comm, ← Real.exp_add]
  congr 2
  ring

theorem normSf_shift (d y : ℝ) : normSf (y - d) = ∫ u in Ioi y, normPdf (u - d) := by
  rw [normSf_eq_integral, ← integral_indicator measurableSet_Ioi,
    ← integral_indicator measurableSet_Ioi,
    ← integral_sub_right_eq_self (μ := volume) (fun u => (Ioi (y - d)).indicator normPdf u) d]
  congr 1
  ext u
  by_cases h : y < u
  · rw [indicator_of_mem (show u - d ∈ Ioi (y - d) by simpa using h),
      indicator_of_mem (show u ∈ Ioi y from h)]
  · rw [indicator_of_notMem (show u - d ∉ Ioi (y - d) by simpa using h),
      indicator_of_notMem (show u ∉ Ioi y from h)]

theorem normPdf_shift_integrable (d : ℝ) : Integrable fun u => normPdf (u - d) :=
  normPdf_integrable.comp_sub_right d

/-- Monotone likelihood ratio of shifted normal tails. -/
theorem normSf_ratio (d x y : ℝ) (hd : 0 < d) (hxy : x < y) :
    normSf y * normSf (x - d) < normSf x * normSf (y - d) := by
  set r := Real.exp (d ^ 2 / 2 - y * d) with hr
  have hrpos : 0 < r := Real.exp_pos _
  -- tail beyond y
  have h1 : normSf y ≤ r * normSf (y - d) := by
    rw [normSf_eq_integral, normSf_shift, ← integral_const_mul]
    refine setIntegral_mono_on normPdf_integrable.integrableOn
      ((normPdf_shift_integrable d).integrableOn.const_mul r) measurableSet_Ioi fun u hu => ?_
    rw [normPdf_shift d u]
    refine mul_le_mul_of_nonneg_right (Real.exp_le_exp.2 ?_) (normPdf_pos _).le
    have : y * d ≤ u * d := mul_le_mul_of_nonneg_right (le_of_lt hu) hd.le
    linarith
  -- between x and y
  have hA : normSf x - normSf y = ∫ u in x..y, normPdf u := by rw [normSf_sub x y]; ring
  have hB : normSf (x - d) - normSf (y - d) = ∫ u in x..y, normPdf (u - d) := by
    rw [normSf_sub (x - d) (y - d), intervalIntegral.integral_comp_sub_right]; ring
  have hcont : Continuous fun u => normPdf (u - d) :=
    normPdf_continuous.comp (continuous_id.sub continuous_const)
  have h2 : r * (normSf (x - d) - normSf (y - d)) < normSf x - normSf y := by
    rw [hA, hB, ← intervalIntegral.integral_const_mul]
    refine intervalIntegral.integral_lt_integral_of_continuousOn_of_le_of_exists_lt hxy
      (hcont.const_mul r).continuousOn normPdf_continuous.continuousOn ?_ ?_
    · intro u hu
      rw [normPdf_shift d u]
      refine mul_le_mul_of_nonneg_right (Real.exp_le_exp.2 ?_) (normPdf_pos _).le
      have : u * d ≤ y * d := mul_le_mul_of_nonneg_right hu.2 hd.le
      linarith
    · refine ⟨x, ⟨le_refl _, hxy.le⟩, ?_⟩
      rw [normPdf_shift d x]
      refine mul_lt_mul_of_pos_right (Real.exp_lt_exp.2 ?_) (normPdf_pos _)
      have : x * d < y * d := mul_lt_mul_of_pos_right hxy hd
      linarith
  have hy := normSf_pos (y - d)
  have hB0 : 0 < normSf (x - d) - normSf (y - d) := by
    have := normSf_strictAnti (show x - d < y - d by linarith)
    linarith
  nlinarith [mul_le_mul_of_nonneg_right h1 hB0.le, mul_lt_mul_of_pos_right h2 hy]

/-! ### chi-square -/

theorem chi2_prob (k : Nat) (hk : 0 < k) :
    IsProbabilityMeasure (gammaMeasure ((k : ℝ) / 2) (1 / 2)) :=
  isProbabilityMeasure_gammaMeasure (by positivity) (by norm_num)

theorem chi2Sf_nonneg (x : ℝ) (k : Nat) : 0 ≤ chi2Sf x k := measureReal_nonneg

theorem chi2Sf_le_one (x : ℝ) (k : Nat) (hk : 0 < k) : chi2Sf x k ≤ 1 := by
  haveI := chi2_prob k hk
  exact measureReal_le_one

theorem chi2Sf_anti (k : Nat) (hk : 0 < k) {a b : ℝ} (h : a ≤ b) : chi2Sf b k ≤ chi2Sf a k := by
  haveI := chi2_prob k hk
  exact measureReal_mono (Ioi_subset_Ioi h)

theorem chi2Sf_of_nonpos (k : Nat) (hk : 0 < k) {a : ℝ} (h : a ≤ 0) : chi2Sf a k = 1 := by
  haveI := chi2_prob k hk
  unfold chi2Sf
  rw [← compl_Iic, probReal_compl_eq_one_sub measurableSet_Iic]
  have : (gammaMeasure ((k : ℝ) / 2) (1 / 2)) (Iic a) = 0 := by
    unfold gammaMeasure
    rw [withDensity_apply _ measurableSet_Iic]
    have h1 : (Iic a : Set ℝ) =ᵐ[volume] Iio a := Iio_ae_eq_Iic.symm
    rw [setLIntegral_congr h1]
    exact lintegral_gammaPDF_of_nonpos h
  rw [Measure.real, this]; simp

theorem chi2Sf_strictAnti (k : Nat) (hk : 0 < k) {a b : ℝ} (ha : 0 ≤ a) (h : a < b) :
    chi2Sf b k < chi2Sf a k := by
  haveI := chi2_prob k hk
  have hpos : 0 < (gammaMeasure ((k : ℝ) / 2) (1 / 2)) (Ioc a b) := by
    have hm : Measurable (gammaPDF ((k : ℝ) / 2) (1 / 2)) :=
      (measurable_gammaPDFReal _ _).ennreal_ofReal
    unfold gammaMeasure
    rw [withDensity_apply _ measurableSet_Ioc, setLIntegral_pos_iff hm]
    refine lt_of_lt_of_le ?_ (measure_mono (s := Ioc a b) ?_)
    · simp [h]
    · intro u hu
      refine ⟨?_, hu⟩
      have hu0 : 0 < u := lt_of_le_of_lt ha hu.1
      simp only [Function.mem_support, gammaPDF, ne_eq, ENNReal.ofReal_eq_zero, not_le]
      exact gammaPDFReal_pos (by positivity) (by norm_num) hu0
  have hdis : Disjoint (Ioc a b) (Ioi b) := by
    rw [Set.disjoint_left]
    intro u hu hv
    exact absurd hu.2 (not_le.2 hv)
  unfold chi2Sf
  rw [← Ioc_union_Ioi_eq_Ioi h.le, measureReal_union hdis measurableSet_Ioi]
  have : 0 < (gammaMeasure ((k : ℝ) / 2) (1 / 2)).real (Ioc a b) :=
    ENNReal.toReal_pos hpos.ne' (measure_ne_top _ _)
  linarith

theorem chi2Sf_pos (k : Nat) (hk : 0 < k) (x : ℝ) : 0 < chi2Sf x k := by
  rcases le_or_gt 0 x with h | h
  · exact lt_of_le_of_lt (chi2Sf_nonneg (x + 1) k) (chi2Sf_strictAnti k hk h (by linarith))
  · rw [chi2Sf_of_nonpos k hk h.le]; norm_num

theorem chi2Sf_lt_one (k : Nat) (hk : 0 < k) (x : ℝ) (hx : 0 < x) : chi2Sf x k < 1 := by
  rw [← chi2Sf_of_nonpos k hk (le_refl (0 : ℝ))]
  exact chi2Sf_strictAnti k hk (le_refl 0) hx

theorem chi2Sf_atTop (k : Nat) (hk : 0 < k) : Tendsto (fun x => chi2Sf x k) atTop (𝓝 0) := by
  haveI := chi2_prob k hk
  have h := (tendsto_cdf_atTop (gammaMeasure ((k : ℝ) / 2) (1 / 2))).const_sub 1
  rw [sub_self] at h
  refine h.congr fun x => ?_
  rw [cdf_eq_real, chi2Sf, ← compl_Iic, probReal_compl_eq_one_sub measurableSet_Iic]

/-- Density of the one-degree-of-freedom chi-square on the positive axis. -/
theorem gammaPDF_half (u : ℝ) (hu : 0 < u) :
    gammaPDFReal (1 / 2) (1 / 2) u = normPdf (Real.sqrt u) / Real.sqrt u := by
  unfold gammaPDFReal normPdf gaussianPDFReal
  rw [if_pos hu.le, Real.Gamma_one_half_eq]
  simp only [sub_zero, NNReal.coe_one, mul_one, Real.sq_sqrt hu.le]
  have e1 : u ^ ((1 : ℝ) / 2 - 1) = (Real.sqrt u)⁻¹ := by
    rw [show ((1 : ℝ) / 2 - 1) = -(1 / 2) by norm_num, Real.rpow_neg hu.le, ← Real.sqrt_eq_rpow]
  have e2 : ((1 : ℝ) / 2) ^ ((1 : ℝ) / 2) = (Real.sqrt 2)⁻¹ := by
    rw [← Real.sqrt_eq_rpow, one_div, Real.sqrt_inv]
  rw [e1, e2, Real.sqrt_mul (by norm_num : (0 : ℝ) ≤ 2), mul_inv]
  rw [show -(1 / 2 * u) = -u / 2 by ring]
  ring

theorem chi2Sf_one_sub (a b : ℝ) (ha : 0 < a) (hab : a ≤ b) :
    chi2Sf b 1 = chi2Sf a 1 - ∫ u in a..b, normPdf (Real.sqrt u) / Real.sqrt u := by
  haveI := chi2_prob 1 (by norm_num)
  have hdis : Disjoint (Ioc a b) (Ioi b) := by
    rw [Set.disjoint_left]
    intro u hu hv
    exact absurd hu.2 (not_le.2 hv)
  have h1 : chi2Sf a 1 = (gammaMeasure (((1 : ℕ) : ℝ) / 2) (1 / 2)).real (Ioc a b) + chi2Sf b 1 := by
    unfold chi2Sf
    rw [← Ioc_union_Ioi_eq_Ioi hab, measureReal_union hdis measurableSet_Ioi]
  have h2 : (gammaMeasure (((1 : ℕ) : ℝ) / 2) (1 / 2)).real (Ioc a b)
      = ∫ u in a..b, normPdf (Real.sqrt u) / Real.sqrt u := by
    rw [intervalIntegral.integral_of_le hab, Measure.real]
    unfold gammaMeasure
    rw [withDensity_apply _ measurableSet_Ioc]
    unfold gammaPDF
    rw [integral_eq_lintegral_of_nonneg_ae]
    · congr 1
      refine setLIntegral_congr_fun measurableSet_Ioc fun u hu => ?_
      have hu0 : 0 < u := lt_trans ha hu.1
      simp only [Nat.cast_one]
      rw [gammaPDF_half u hu0]
    · refine (ae_restrict_iff' measurableSet_Ioc).2 (Filter.Eventually.of_forall fun u hu => ?_)
      exact div_nonneg (normPdf_pos _).le (Real.sqrt_nonneg _)
    · refine (ContinuousOn.aestronglyMeasurable ?_ measurableSet_Ioc)
      refine ContinuousOn.div (normPdf_continuous.comp Real.continuous_sqrt).continuousOn
        Real.continuous_sqrt.continuousOn fun u hu => ?_
      exact (Real.sqrt_pos.2 (lt_trans ha hu.1)).ne'
  linarith

/-- A chi-square variable with one degree of freedom is the square of a standard normal one. -/
theorem chi2Sf_one (x : ℝ) (hx : 0 ≤ x) : chi2Sf x 1 = 2 * normSf (Real.sqrt x) := by
  -- for positive x by comparing derivatives and limits at infinity
  have hd : ∀ a b, 0 < a → a ≤ b → 2 * normSf (Real.sqrt b) = 2 * normSf (Real.sqrt a) -
      ∫ u in a..b, normPdf (Real.sqrt u) / Real.sqrt u := by
    intro a b ha hab
    have hder : ∀ u ∈ uIcc a b, HasDerivAt (fun u => -(2 * normSf (Real.sqrt u)))
        (normPdf (Real.sqrt u) / Real.sqrt u) u := by
      intro u hu
      rw [uIcc_of_le hab] at hu
      have hu0 : 0 < u := lt_of_lt_of_le ha hu.1
      have hs := (Real.hasDerivAt_sqrt hu0.ne')
      have := (((normSf_hasDerivAt (Real.sqrt u)).comp u hs).const_mul 2).neg
      refine this.congr_deriv ?_
      have := (Real.sqrt_pos.2 hu0).ne'
      field_simp
    have hint : IntervalIntegrable (fun u => normPdf (Real.sqrt u) / Real.sqrt u) volume a b := by
      refine ContinuousOn.intervalIntegrable ?_
      rw [uIcc_of_le hab]
      refine ContinuousOn.div (normPdf_continuous.comp Real.continuous_sqrt).continuousOn
        Real.continuous_sqrt.continuousOn fun u hu => ?_
      exact (Real.sqrt_pos.2 (lt_of_lt_of_le ha hu.1)).ne'
    have := intervalIntegral.integral_eq_sub_of_hasDerivAt hder hint
    linarith
  have hpos : ∀ a, 0 < a → chi2Sf a 1 = 2 * normSf (Real.sqrt a) := by
    intro a ha
    have hc : ∀ b, a ≤ b → chi2Sf b 1 - 2 * normSf (Real.sqrt b)
        = chi2Sf a 1 - 2 * normSf (Real.sqrt a) := by
      intro b hab
      rw [chi2Sf_one_sub a b ha hab, hd a b ha hab]; ring
    have h1 : Tendsto (fun b => chi2Sf b 1 - 2 * normSf (Real.sqrt b)) atTop (𝓝 (0 - 2 * 0)) :=
      (chi2Sf_atTop 1 (by norm_num)).sub
        ((normSf_atTop.comp Real.tendsto_sqrt_atTop).const_mul 2)
    have h2 : Tendsto (fun b => chi2Sf b 1 - 2 * normSf (Real.sqrt b)) atTop
        (𝓝 (chi2Sf a 1 - 2 * normSf (Real.sqrt a))) := by
      refine tendsto_const_nhds.congr' ?_
      filter_upwards [eventually_ge_atTop a] with b hb
      exact (hc b hb).symm
    have := tendsto_nhds_unique h1 h2
    linarith
  rcases hx.eq_or_lt with h | h
  · subst h
    rw [chi2Sf_of_nonpos 1 (by norm_num) (le_refl 0), Real.sqrt_zero]
    have hsym : normSf 0 = 1 / 2 := by
      have h1 : (gaussianReal 0 1).real (Ioi 0) = (gaussianReal 0 1).real (Iio 0) := by
        have := gaussianReal_map_neg (μ := 0) (v := 1)
        rw [neg_zero] at this
        conv_lhs => rw [← this]
        rw [map_measureReal_apply measurable_neg measurableSet_Ioi]
        congr 1
        ext u
        simp
      haveI := nullSingletonClass_gaussianReal (μ := 0) (v := 1) one_ne_zero
      have h2 : (gaussianReal 0 1).real (Iio (0 : ℝ)) = (gaussianReal 0 1).real (Iic 0) := by
        simp only [Measure.real]
        rw [measure_congr Iio_ae_eq_Iic]
      have h3 : (gaussianReal 0 1).real (Ioi (0 : ℝ)) = 1 - (gaussianReal 0 1).real (Iic 0) := by
        rw [← compl_Iic, probReal_compl_eq_one_sub measurableSet_Iic]
      unfold normSf
      linarith
    rw [hsym]; norm_num
  · exact hpos x h

theorem normSf_zero : normSf 0 = 1 / 2 := by
  have h := chi2Sf_one 0 (le_refl 0)
  rw [chi2Sf_of_nonpos 1 (by norm_num) (le_refl 0), Real.sqrt_zero] at h
  linarith

end Verif
