import Verif.Lemmas.TestStat
import Verif.Spec.Wald
/-!
# C56: for a Gaussian measurement the asymptotic p-values are exact
-/
namespace Verif.Props
open Verif Verif.Spec MeasureTheory ProbabilityTheory

theorem meas_eq_map (mu σ : ℝ) : meas mu σ = (gaussianReal 0 1).map (fun z => mu - σ * z) := by
  have h1 : (gaussianReal 0 1).map (σ * ·) = gaussianReal (σ * 0) (⟨σ ^ 2, sq_nonneg σ⟩ * 1) :=
    gaussianReal_map_const_mul σ
  have h2 := gaussianReal_map_const_sub (μ := σ * 0) (v := ⟨σ ^ 2, sq_nonneg σ⟩ * 1) mu
  rw [← h1, Measure.map_map (by fun_prop) (by fun_prop)] at h2
  simp only [mul_zero, sub_zero] at h2
  unfold meas
  have e : (⟨σ ^ 2, sq_nonneg σ⟩ : NNReal) * 1 = Real.toNNReal (σ ^ 2) := by
    rw [mul_one]; exact (Real.toNNReal_of_nonneg (sq_nonneg σ)).symm
  rw [← e]
  exact h2.symm

theorem probBelow_eq (mu σ x : ℝ) (hσ : 0 < σ) : probBelow mu σ x = normSf ((mu - x) / σ) := by
  unfold probBelow normSf
  rw [meas_eq_map, measureReal_def, Measure.map_apply (by fun_prop) measurableSet_Iic]
  have : (fun z => mu - σ * z) ⁻¹' Set.Iic x = Set.Ici ((mu - x) / σ) := by
    ext z
    simp only [Set.mem_preimage, Set.mem_Iic, Set.mem_Ici, div_le_iff₀ hσ]
    constructor <;> intro h <;> linarith
  rw [this, measureReal_def]
  have : NullSingletonClass (gaussianReal 0 1) := nullSingletonClass_gaussianReal one_ne_zero
  rw [measure_congr Ioi_ae_eq_Ici]

theorem normSf_neg (x : ℝ) : normSf (-x) = (gaussianReal 0 1).real (Set.Iio x) := by
  unfold normSf
  have h := gaussianReal_map_neg (μ := 0) (v := 1)
  rw [neg_zero] at h
  conv_lhs => rw [← h]
  rw [measureReal_def, Measure.map_apply (by fun_prop) measurableSet_Ioi]
  have : (fun z : ℝ => -z) ⁻¹' Set.Ioi (-x) = Set.Iio x := by
    ext z; simp
  rw [this, measureReal_def]

theorem normSf_symm (x : ℝ) : normSf (-x) = 1 - normSf x := by
  rw [normSf_neg]
  have : NullSingletonClass (gaussianReal 0 1) := nullSingletonClass_gaussianReal one_ne_zero
  have h := probReal_compl_eq_one_sub (μ := gaussianReal 0 1) (measurableSet_Ioi (a := x))
  unfold normSf
  rw [← h, Set.compl_Ioi, measureReal_def, measureReal_def, measure_congr Iio_ae_eq_Iic]

theorem probFar_eq (mu σ x : ℝ) (hσ : 0 < σ) : probFar mu σ x = 2 * normSf (|x - mu| / σ) := by
  set d := |x - mu| / σ with hd
  have hd0 : 0 ≤ d := by positivity
  unfold probFar
  rw [meas_eq_map, measureReal_def, Measure.map_apply (by fun_prop)
    (measurableSet_le measurable_const (by fun_prop))]
  have : (fun z => mu - σ * z) ⁻¹' {y | |x - mu| ≤ |y - mu|} = Set.Iic (-d) ∪ Set.Ici d := by
    ext z
    simp only [Set.mem_preimage, Set.mem_setOf_eq, Set.mem_union, Set.mem_Iic, Set.mem_Ici]
    have e : |mu - σ * z - mu| = σ * |z| := by
      rw [show mu - σ * z - mu = -(σ * z) by ring, abs_neg, abs_mul, abs_of_pos hσ]
    rw [e]
    have e2 : |x - mu| = σ * d := by rw [hd]; field_simp
    rw [e2, mul_le_mul_iff_right₀ hσ, le_abs]
    constructor <;> rintro (h | h)
    · right; exact h
    · left; linarith
    · right; linarith
    · left; exact h
  rw [this]
  have hna : NullSingletonClass (gaussianReal 0 1) := nullSingletonClass_gaussianReal one_ne_zero
  have hlow : (gaussianReal 0 1).real (Set.Iic (-d)) = normSf d := by
    have := normSf_neg (-d)
    rw [neg_neg] at this
    rw [this, measureReal_def, measureReal_def, measure_congr Iio_ae_eq_Iic]
  have hup : (gaussianReal 0 1).real (Set.Ici d) = normSf d := by
    unfold normSf
    rw [measureReal_def, measureReal_def, measure_congr Ioi_ae_eq_Ici]
  rw [← measureReal_def]
  rcases hd0.eq_or_lt with h0 | h0
  · rw [← h0, neg_zero, Set.Iic_union_Ici, probReal_univ, normSf_zero]; norm_num
  · rw [measureReal_union (Set.disjoint_left.2 (by
      intro z h1 h2
      simp only [Set.mem_Iic, Set.mem_Ici] at h1 h2
      linarith)) measurableSet_Ici, hlow, hup]
    ring

/-- C56, `t_mu` with one POI: the p-value is the probability of a best-fit value at least as far from
the tested one as the one observed. -/
theorem c56_tmu_exact (mu σ x : ℝ) (hσ : 0 < σ) :
    (TMu.mk [mu] (plr mu σ x)).asymptoticPv = probFar mu σ x := by
  rw [probFar_eq mu σ x hσ]
  simp only [TMu.asymptoticPv, Option.getD_none, List.length_singleton]
  rw [chi2Sf_one _ (by unfold plr; positivity)]
  unfold plr
  rw [Real.sqrt_sq_eq_abs, abs_div, abs_of_pos hσ, abs_sub_comm]

theorem signedSqrt_plr (mu σ x : ℝ) (hσ : 0 < σ) :
    signedSqrt (if x < mu then plr mu σ x else -plr mu σ x) = (mu - x) / σ := by
  by_cases h : x < mu
  · rw [if_pos h]
    have h0 : 0 ≤ (mu - x) / σ := div_nonneg (by linarith) hσ.le
    rw [signedSqrt_of_nonneg (by unfold plr; positivity)]
    exact Real.sqrt_sq h0
  · rw [if_neg h]
    have h0 : 0 ≤ -((mu - x) / σ) := by
      rw [← neg_div]; exact div_nonneg (by linarith) hσ.le
    have := signedSqrt_mul_abs ((mu - x) / σ)
    rw [abs_of_nonpos (by linarith)] at this
    rw [← this]
    congr 1
    unfold plr; ring

/-- C56, `q_mu`: the p-value is the probability, when the tested hypothesis is true, of a best-fit
value at or below the one observed. -/
theorem c56_qmu_exact (mu σ x : ℝ) (a s : Option ℝ) (hσ : 0 < σ) :
    (QMu.init mu (plr mu σ x) x none a s).asymptoticPv = .ok (probBelow mu σ x) := by
  rw [probBelow_eq mu σ x hσ]
  have hn : (QMu.init mu (plr mu σ x) x none a s).ncp = .ok 0 := by simp [QMu.ncp, QMu.init]
  have hv : (QMu.init mu (plr mu σ x) x none a s).value = if x < mu then plr mu σ x else -plr mu σ x := rfl
  have h : (QMu.init mu (plr mu σ x) x none a s).asymptoticPv = _ := QMu.pv_eq _ _ _ hn
  rw [h, hv, signedSqrt_plr mu σ x hσ]
  simp

/-- C56, `q_mu` for a positive hypothesis, with the value of the profile likelihood ratio on the
background-only Asimov dataset, or with the uncertainty: CLb is the probability, when the POI is 0, of a
best-fit value at or below the one observed, and CLs is the ratio of the two probabilities. -/
theorem c56_qmu_cls_exact (mu σ x : ℝ) (hσ : 0 < σ) (hmu : 0 < mu) (a s : Option ℝ)
    (has : a = some (plr mu σ 0) ∨ (a = none ∧ s = some σ)) :
    (QMu.init mu (plr mu σ x) x none a s).asymptoticClb = .ok (probBelow 0 σ x) ∧
    (QMu.init mu (plr mu σ x) x none a s).asymptoticCls = .ok (probBelow mu σ x / probBelow 0 σ x) := by
  have hb : (QMu.init mu (plr mu σ x) x none a s).asymptoticClb = .ok (probBelow 0 σ x) := by
    have hl : (QMu.init 0 (plr mu σ x) x (some mu) a s).ncp = .ok (plr mu σ 0) := by
      have hpl : ¬ plr mu σ 0 < 0 := not_lt.2 (by unfold plr; positivity)
      rcases has with h | ⟨h1, h2⟩
      · simp [QMu.ncp, QMu.init, hmu.ne', h, hpl]
      · simp [QMu.ncp, QMu.init, hmu.ne', h1, h2, hσ.ne', plr]
    show (QMu.init 0 (plr mu σ x) x (some mu) a s).asymptoticPv = _
    rw [probBelow_eq 0 σ x hσ]
    simp only [QMu.asymptoticPv, hl, bind_ok, pure_ok, Option.getD_none]
    have hv : (QMu.init 0 (plr mu σ x) x (some mu) a s).value = if x < mu then plr mu σ x else -plr mu σ x := rfl
    rw [hv, signedSqrt_plr mu σ x hσ]
    have : Real.sqrt (plr mu σ 0) = mu / σ := by
      unfold plr; rw [sub_zero, Real.sqrt_sq (by positivity)]
    rw [this]
    congr 2
    field_simp
    ring
  refine ⟨hb, ?_⟩
  unfold QMu.asymptoticCls
  rw [hb, c56_qmu_exact mu σ x a s hσ]
  have hpos : 0 < probBelow 0 σ x := by rw [probBelow_eq 0 σ x hσ]; exact normSf_pos _
  simp [clsOf, hpos]

theorem tildeArg_plr (mu σ x : ℝ) (hσ : 0 < σ) (hmu : 0 < mu) (t : ℝ)
    (ht : t = if x < 0 then plr mu σ x - plr 0 σ x else if x < mu then plr mu σ x else -plr mu σ x) :
    tildeArg (plr mu σ 0) t = (mu - x) / σ := by
  have hs : Real.sqrt (plr mu σ 0) = mu / σ := by
    unfold plr; rw [sub_zero, Real.sqrt_sq (by positivity)]
  unfold tildeArg
  by_cases h0 : x < 0
  · rw [if_pos h0] at ht
    have e : t = (mu / σ) ^ 2 - 2 * mu * x / σ ^ 2 := by
      rw [ht]; unfold plr; field_simp; ring
    have hge : ¬ t < plr mu σ 0 := by
      rw [not_lt, e]; unfold plr
      have : mu * x < 0 := mul_neg_of_pos_of_neg hmu h0
      have h2 : 2 * mu * x / σ ^ 2 ≤ 0 := div_nonpos_of_nonpos_of_nonneg (by linarith) (by positivity)
      simp only [sub_zero]; linarith
    rw [if_neg hge, hs, e]
    unfold plr
    field_simp
    ring
  · rw [if_neg h0] at ht
    by_cases hlt : t < plr mu σ 0
    · rw [if_pos hlt, ht, signedSqrt_plr mu σ x hσ]
    · have hxm : x < mu := by
        by_contra h
        rw [if_neg h] at ht
        have : 0 < plr mu σ 0 := by unfold plr; rw [sub_zero]; positivity
        have : 0 ≤ plr mu σ x := by unfold plr; positivity
        linarith
      rw [if_pos hxm] at ht
      have hx0 : x = 0 := by
        have h1 : plr mu σ 0 ≤ plr mu σ x := by linarith
        unfold plr at h1
        rw [div_pow, div_pow, div_le_div_iff_of_pos_right (by positivity)] at h1
        nlinarith
      subst hx0
      rw [if_neg hlt, ht, tildeArg_at _ (by unfold plr; rw [sub_zero]; positivity), hs, sub_zero]

/-- C56, `q~_mu` for a positive hypothesis, with the profile likelihood ratio with respect to POI = 0
given: the p-value is the probability, when the tested hypothesis is true, of a best-fit value at or
below the one observed, including negative ones. -/
theorem c56_qmutilda_exact (mu σ x : ℝ) (a : Option ℝ) (hσ : 0 < σ) (hmu : 0 < mu) :
    (QMuTilda.init mu (plr mu σ x) x (some (plr mu σ x - plr 0 σ x)) none a
      (some (plr mu σ 0))).asymptoticPv = .ok (probBelow mu σ x) := by
  set s := QMuTilda.init mu (plr mu σ x) x (some (plr mu σ x - plr 0 σ x)) none a (some (plr mu σ 0)) with hsdef
  have hn : s.ncp = .ok 0 := by simp [hsdef, QMuTilda.init, QMu.init, QMu.ncp]
  have hp : 0 < plr mu σ 0 := by unfold plr; rw [sub_zero]; positivity
  have hT : s.threshold = .ok (plr mu σ 0) := by
    simp [hsdef, QMuTilda.init, QMuTilda.threshold, not_lt.2 hp.le]
  have h := QMuTilda.pv_eq s 0 _ s.value hn hT hp
  have h : s.asymptoticPv = _ := h
  rw [h, tildeArg_plr mu σ x hσ hmu s.value (by rfl), probBelow_eq mu σ x hσ]
  simp

/-- C56, `q~_mu` as the calculators use it, without the ratio with respect to POI = 0: the p-value and
CLb are the exact probabilities when the best-fit value is not negative... -/
theorem c56_qmutilda_default_exact (mu σ x : ℝ) (hσ : 0 < σ) (hmu : 0 < mu) (hx : 0 ≤ x) :
    let s := QMuTilda.init mu (plr mu σ x) x none none (some (plr mu σ 0)) (some (plr mu σ 0))
    s.asymptoticPv = .ok (probBelow mu σ x) ∧ s.asymptoticClb = .ok (probBelow 0 σ x) ∧
    s.asymptoticCls = .ok (probBelow mu σ x / probBelow 0 σ x) := by
  intro s
  have hp : 0 < plr mu σ 0 := by unfold plr; rw [sub_zero]; positivity
  have hT : s.threshold = .ok (plr mu σ 0) := by
    simp [s, QMuTilda.init, QMuTilda.threshold, not_lt.2 hp.le]
  have hn : s.ncp = .ok 0 := by simp [s, QMuTilda.init, QMu.init, QMu.ncp]
  have hval : s.value = if x < 0 then plr mu σ x - plr 0 σ x else if x < mu then plr mu σ x else -plr mu σ x := by
    simp [s, QMuTilda.value, QMuTilda.init, QMu.init, not_lt.2 hx]
  have ha : s.asymptoticPv = .ok (probBelow mu σ x) := by
    have h : s.asymptoticPv = _ := QMuTilda.pv_eq s 0 _ s.value hn hT hp
    rw [h, tildeArg_plr mu σ x hσ hmu s.value hval, probBelow_eq mu σ x hσ]
    simp
  set s' := QMuTilda.init 0 (plr mu σ x) x none (some mu) (some (plr mu σ 0)) (some (plr mu σ 0)) with hs'
  have hT' : s'.threshold = .ok (plr mu σ 0) := hT
  have hn' : s'.ncp = .ok (plr mu σ 0) := by
    simp [hs', QMuTilda.init, QMu.init, QMu.ncp, hmu.ne', not_lt.2 hp.le]
  have hval' : s'.value = s.value := rfl
  have hs : Real.sqrt (plr mu σ 0) = mu / σ := by
    unfold plr; rw [sub_zero, Real.sqrt_sq (by positivity)]
  have hb : s.asymptoticClb = .ok (probBelow 0 σ x) := by
    have h : s'.asymptoticPv = _ := QMuTilda.pv_eq s' _ _ s'.value hn' hT' hp
    show s'.asymptoticPv = _
    rw [h, hval', tildeArg_plr mu σ x hσ hmu s.value hval, probBelow_eq 0 σ x hσ, hs]
    congr 2
    field_simp
    ring
  refine ⟨ha, hb, ?_⟩
  unfold QMuTilda.asymptoticCls
  rw [ha, hb]
  have hpos : 0 < probBelow 0 σ x := by rw [probBelow_eq 0 σ x hσ]; exact normSf_pos _
  simp [clsOf, hpos]

/-- ... and what they give when it is negative: the p-value is smaller than the exact probability, so
that hypotheses are excluded too easily. -/
theorem c56_qmutilda_default_negative (mu σ x : ℝ) (hσ : 0 < σ) (hmu : 0 < mu) (hx : x < 0) :
    ∃ p, (QMuTilda.init mu (plr mu σ x) x none none (some (plr mu σ 0)) (some (plr mu σ 0))).asymptoticPv
      = .ok p ∧ p < probBelow mu σ x := by
  set s := QMuTilda.init mu (plr mu σ x) x none none (some (plr mu σ 0)) (some (plr mu σ 0)) with hsdef
  have hp : 0 < plr mu σ 0 := by unfold plr; rw [sub_zero]; positivity
  have hT : s.threshold = .ok (plr mu σ 0) := by
    simp [hsdef, QMuTilda.init, QMuTilda.threshold, not_lt.2 hp.le]
  have hn : s.ncp = .ok 0 := by simp [hsdef, QMuTilda.init, QMu.init, QMu.ncp]
  have h : s.asymptoticPv = _ := QMuTilda.pv_eq s 0 _ s.value hn hT hp
  refine ⟨_, h, ?_⟩
  have hval : s.value = plr mu σ x := by
    simp [hsdef, QMuTilda.value, QMuTilda.init, QMu.init, hx]
  have hmono := tildeArg_strictMono (plr mu σ 0) hp (a := plr mu σ x - plr 0 σ x) (b := plr mu σ x) (by
    have : 0 < plr 0 σ x := by
      unfold plr
      have : (0 - x) / σ ≠ 0 := div_ne_zero (by linarith) hσ.ne'
      positivity
    linarith)
  rw [tildeArg_plr mu σ x hσ hmu (plr mu σ x - plr 0 σ x) (by rw [if_pos hx])] at hmono
  rw [hval, Real.sqrt_zero, sub_zero, probBelow_eq mu σ x hσ]
  exact normSf_strictAnti hmono

/-- The hypotheses are met, with different signs of the best-fit value. -/
example : (QMu.init 2 (plr 2 1 1) 1 none (some (plr 2 1 0)) none).asymptoticCls =
    .ok (probBelow 2 1 1 / probBelow 0 1 1) :=
  (c56_qmu_cls_exact 2 1 1 one_pos two_pos _ _ (Or.inl rfl)).2

example : plr 2 1 1 = 1 ∧ plr 2 1 (-1) - plr 0 1 (-1) = 8 := by
  unfold plr; norm_num

end Verif.Props
