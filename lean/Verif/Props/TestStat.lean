import Verif.Lemmas.TestStat
/-!
# C23-C26, C45, C46: asymptotic p-values, their inverses, CLs
-/
namespace Verif.Props
open Verif Filter Topology

/-! ## C23 -/

/-- C23, `t_mu` with at least one POI: the p-value is positive, at most 1 (below 1 for a positive
statistic), never increases with the statistic, and decreases strictly on non-negative values. -/
theorem c23_tmu (s : TMu) (hk : s.testPois ≠ []) :
    (∀ t, 0 < s.asymptoticPv (some t) ∧ s.asymptoticPv (some t) ≤ 1) ∧
    (∀ t, 0 < t → s.asymptoticPv (some t) < 1) ∧
    (∀ t t', t ≤ t' → s.asymptoticPv (some t') ≤ s.asymptoticPv (some t)) ∧
    (∀ t t', 0 ≤ t → t < t' → s.asymptoticPv (some t') < s.asymptoticPv (some t)) := by
  have h : 0 < s.testPois.length := List.length_pos_of_ne_nil hk
  exact ⟨fun t => ⟨chi2Sf_pos _ h _, chi2Sf_le_one _ _ h⟩, fun t ht => chi2Sf_lt_one _ h t ht,
    fun t t' => chi2Sf_anti _ h, fun t t' => chi2Sf_strictAnti _ h⟩

/-- C23: with one POI, the `t_mu` p-value is the two-sided normal one. -/
theorem c23_tmu_one_poi (s : TMu) (x : ℝ) (hk : s.testPois = [x]) (t : ℝ) (ht : 0 ≤ t) :
    s.asymptoticPv (some t) = 2 * normSf (Real.sqrt t) := by
  simp only [TMu.asymptoticPv, Option.getD_some, hk, List.length_singleton]
  exact chi2Sf_one t ht

/-- C23, `q_mu`: when the non-centrality is available the p-value is defined for every statistic,
lies strictly between 0 and 1, is continuous and strictly decreasing. -/
theorem c23_qmu (s : QMu) (l : ℝ) (h : s.ncp = .ok l) :
    ∃ f : ℝ → ℝ, (∀ t, s.asymptoticPv (some t) = .ok (f t)) ∧ (∀ t, 0 < f t ∧ f t < 1) ∧
      StrictAnti f ∧ Continuous f := by
  refine ⟨fun t => normSf (signedSqrt t - Real.sqrt l), fun t => QMu.pv_eq s l t h,
    fun t => ⟨normSf_pos _, normSf_lt_one _⟩, ?_, ?_⟩
  · intro a b hab
    refine normSf_strictAnti ?_
    have := signedSqrt_strictMono hab
    linarith
  · exact normSf_continuous.comp (signedSqrt_continuous.sub continuous_const)

/-- C23: the non-centrality is available whenever the tested value is the one the statistic was
computed for, or the Asimov value, or a non-zero uncertainty was given; it is never negative. -/
theorem c23_ncp_available (s : QMu)
    (h : s.compPoi = s.testPoi ∨ s.tmuAmu ≠ none ∨ ∃ σ, s.sigma = some σ ∧ σ ≠ 0) :
    ∃ l, s.ncp = .ok l ∧ 0 ≤ l := by
  unfold QMu.ncp
  by_cases h0 : s.compPoi = s.testPoi
  · exact ⟨0, by rw [if_pos h0], le_refl _⟩
  · rw [if_neg h0]
    cases ha : s.tmuAmu with
    | some a =>
      refine ⟨_, rfl, ?_⟩
      split <;> linarith
    | none =>
      rcases h with h | h | ⟨σ, hσ, hne⟩
      · exact absurd h h0
      · exact absurd ha h
      · rw [hσ]
        simp only [if_neg hne]
        exact ⟨_, rfl, by positivity⟩

/-- C23 and C24, `q~_mu` with a positive threshold: the p-value is defined everywhere, lies strictly
between 0 and 1, is strictly decreasing and continuous, also across the threshold. -/
theorem c23_qmutilda (s : QMuTilda) (l T : ℝ) (h : s.ncp = .ok l) (hT : s.threshold = .ok T)
    (hpos : 0 < T) :
    ∃ f : ℝ → ℝ, (∀ t, s.asymptoticPv (some t) = .ok (f t)) ∧ (∀ t, 0 < f t ∧ f t < 1) ∧
      StrictAnti f ∧ Continuous f := by
  refine ⟨fun t => normSf (tildeArg T t - Real.sqrt l), fun t => QMuTilda.pv_eq s l T t h hT hpos,
    fun t => ⟨normSf_pos _, normSf_lt_one _⟩, ?_, ?_⟩
  · intro a b hab
    refine normSf_strictAnti ?_
    have := tildeArg_strictMono T hpos hab
    linarith
  · exact normSf_continuous.comp ((tildeArg_continuous T hpos).sub continuous_const)

/-- C23 fails for `q~_mu` at a zero threshold (a non-positive Asimov value, e.g. when testing
POI = 0): no p-value is computed for any non-negative statistic. -/
theorem c23_zero_threshold_fails (s : QMuTilda) (hT : s.threshold = .ok 0) (t : ℝ) (ht : 0 ≤ t) :
    s.asymptoticPv (some t) = .error .zeroDivision := by
  simp [QMuTilda.asymptoticPv, hT, not_lt.2 ht]

/-! ## C24 -/

/-- C24: below the threshold the `q~_mu` p-value is the `q_mu` one. -/
theorem c24_below (s : QMuTilda) (T t : ℝ) (hT : s.threshold = .ok T) (ht : t < T) :
    s.asymptoticPv (some t) = s.toQMu.asymptoticPv (some t) := by
  simp [QMuTilda.asymptoticPv, hT, ht]

/-- C24: at the threshold the two formulas agree. -/
theorem c24_at_threshold (s : QMuTilda) (l T : ℝ) (h : s.ncp = .ok l) (hT : s.threshold = .ok T)
    (hpos : 0 < T) : s.asymptoticPv (some T) = s.toQMu.asymptoticPv (some T) := by
  rw [QMuTilda.pv_eq s l T T h hT hpos, QMu.pv_eq _ l T h]
  unfold tildeArg
  rw [if_neg (lt_irrefl T), tildeArg_at T hpos, signedSqrt_of_nonneg hpos.le]

/-- C24: above the threshold the `q~_mu` p-value is strictly smaller than the `q_mu` one. -/
theorem c24_above (s : QMuTilda) (l T t : ℝ) (h : s.ncp = .ok l) (hT : s.threshold = .ok T)
    (hpos : 0 < T) (ht : T < t) :
    ∃ a b, s.asymptoticPv (some t) = .ok a ∧ s.toQMu.asymptoticPv (some t) = .ok b ∧ a < b := by
  refine ⟨_, _, QMuTilda.pv_eq s l T t h hT hpos, QMu.pv_eq _ l t h, normSf_strictAnti ?_⟩
  unfold tildeArg
  rw [if_neg (by linarith), signedSqrt_of_nonneg (by linarith)]
  have hs := Real.sqrt_pos.2 hpos
  have ht' := Real.sqrt_pos.2 (show 0 < t by linarith)
  have hne : Real.sqrt T < Real.sqrt t := Real.sqrt_lt_sqrt hpos.le ht
  have : Real.sqrt t < (t + T) / (2 * Real.sqrt T) := by
    rw [lt_div_iff₀ (by positivity)]
    nlinarith [Real.mul_self_sqrt hpos.le, Real.mul_self_sqrt (show 0 ≤ t by linarith),
      mul_pos (sub_pos.2 hne) (sub_pos.2 hne)]
  linarith

/-! ## C25 -/

/-- C25, `q_mu`: for every p-value strictly between 0 and 1, the statistic computed from it has
that p-value; for every statistic, the statistic computed from its p-value is itself. -/
theorem c25_qmu_inverse (s : QMu) (l : ℝ) (h : s.ncp = .ok l) :
    (∀ p, 0 < p → p < 1 → ∃ t, s.asymptoticTs p = .ok t ∧ s.asymptoticPv (some t) = .ok p) ∧
    (∀ t, ∃ p, s.asymptoticPv (some t) = .ok p ∧ s.asymptoticTs p = .ok t) := by
  constructor
  · intro p h0 h1
    refine ⟨_, by simp [QMu.asymptoticTs, h]; rfl, ?_⟩
    rw [QMu.pv_eq s l _ h, signedSqrt_mul_abs, add_sub_cancel_right, normSf_isf p h0 h1]
  · intro t
    refine ⟨_, QMu.pv_eq s l t h, ?_⟩
    simp only [QMu.asymptoticTs, h, bind_ok, normIsf_sf, sub_add_cancel, mul_abs_signedSqrt]
    rfl

/-- C25, `q~_mu`, the exact extent of the claim: with `q1` the normal quantile of the p-value shifted
by the square root of the non-centrality, the code's statistic has the requested p-value exactly
when `q1` does not lie strictly between the square root of the threshold and the threshold
(in either order, the threshold itself counting as between when it is the smaller). -/
theorem c25_qmutilda_inverse_iff (s : QMuTilda) (l T p : ℝ) (h : s.ncp = .ok l)
    (hT : s.threshold = .ok T) (hpos : 0 < T) (h0 : 0 < p) (h1 : p < 1) :
    (∃ t, s.asymptoticTs p = .ok t ∧ s.asymptoticPv (some t) = .ok p) ↔
      ¬ ((Real.sqrt T < normIsf p + Real.sqrt l ∧ normIsf p + Real.sqrt l < T) ∨
         (T ≤ normIsf p + Real.sqrt l ∧ normIsf p + Real.sqrt l < Real.sqrt T)) := by
  set q := normIsf p + Real.sqrt l with hq
  have hp : p = normSf (q - Real.sqrt l) := by
    rw [hq, add_sub_cancel_right, normSf_isf p h0 h1]
  have hs := Real.sqrt_pos.2 hpos
  have hss := Real.mul_self_sqrt hpos.le
  set t := if q < T then q * |q| else q * 2 * Real.sqrt T - T with ht
  have hts : s.asymptoticTs p = .ok t := by
    simp [QMuTilda.asymptoticTs, h, hT, ← hq, ht]
  have hiff : (∃ t, s.asymptoticTs p = .ok t ∧ s.asymptoticPv (some t) = .ok p) ↔
      tildeArg T t = q := by
    constructor
    · rintro ⟨t', e1, e2⟩
      have : t = t' := Except.ok.inj (hts.symm.trans e1)
      rw [← this, QMuTilda.pv_eq s l T t h hT hpos, hp] at e2
      have := normSf_inj.1 (Except.ok.inj e2)
      linarith
    · intro e
      exact ⟨t, hts, by rw [QMuTilda.pv_eq s l T t h hT hpos, e, ← hp]⟩
  rw [hiff]
  have hqq : ∀ q : ℝ, 0 ≤ q → (q * q < T ↔ q < Real.sqrt T) := by
    intro q hq0
    rw [Real.lt_sqrt hq0, sq]
  by_cases hqT : q < T
  · have et : t = q * |q| := by rw [ht, if_pos hqT]
    rcases lt_trichotomy q (Real.sqrt T) with h2 | h2 | h2
    · -- below both: correct
      have hlt : q * |q| < T := by
        rcases le_or_gt 0 q with h3 | h3
        · rw [abs_of_nonneg h3]; exact (hqq q h3).2 h2
        · rw [abs_of_neg h3]; nlinarith
      have e : tildeArg T t = q := by
        rw [et]; unfold tildeArg; rw [if_pos hlt, signedSqrt_mul_abs]
      simp only [e, true_iff]
      rintro (⟨a, _⟩ | ⟨a, _⟩) <;> linarith
    · have e : tildeArg T t = q := by
        rw [et, h2, abs_of_pos hs, hss]; unfold tildeArg
        rw [if_neg (lt_irrefl T), tildeArg_at T hpos]
      simp only [e, true_iff]
      rintro (⟨a, _⟩ | ⟨a, _⟩) <;> linarith
    · have hq0 : 0 < q := lt_trans hs h2
      have hge : ¬ q * |q| < T := by
        rw [abs_of_pos hq0, hqq q hq0.le]; linarith
      have e : tildeArg T t ≠ q := by
        rw [et]; unfold tildeArg; rw [if_neg hge, abs_of_pos hq0]
        intro hc
        rw [div_eq_iff (by positivity)] at hc
        nlinarith [mul_pos (sub_pos.2 h2) (sub_pos.2 h2)]
      simp only [e, false_iff, not_not]
      exact Or.inl ⟨h2, hqT⟩
  · have et : t = q * 2 * Real.sqrt T - T := by rw [ht, if_neg hqT]
    have hTq := not_lt.1 hqT
    rcases lt_or_ge q (Real.sqrt T) with h2 | h2
    · have hlt : t < T := by rw [et]; nlinarith
      have e : tildeArg T t ≠ q := by
        unfold tildeArg; rw [if_pos hlt]
        intro hc
        have h3 := mul_abs_signedSqrt t
        rw [hc, abs_of_nonneg (by linarith), et] at h3
        nlinarith [mul_pos (sub_pos.2 h2) (sub_pos.2 h2)]
      simp only [e, false_iff, not_not]
      exact Or.inr ⟨hTq, h2⟩
    · have hge : ¬ t < T := by rw [et]; nlinarith
      have e : tildeArg T t = q := by
        unfold tildeArg; rw [if_neg hge, et]
        field_simp
        ring
      simp only [e, true_iff]
      rintro (⟨a, b⟩ | ⟨a, b⟩) <;> linarith

/-- C25 fails for `q~_mu`: with threshold 4 and no shift, the statistic computed for the p-value of
`q1 = 3` is 9 instead of 8, and has a different p-value. -/
theorem c25_qmutilda_inverse_fails :
    ∃ (s : QMuTilda) (p t p' : ℝ), 0 < p ∧ p < 1 ∧ s.asymptoticTs p = .ok t ∧
      s.asymptoticPv (some t) = .ok p' ∧ p' < p := by
  refine ⟨QMuTilda.init 1 0 0 none none none (some 4), normSf 3, 9, normSf (13 / 4),
    normSf_pos _, normSf_lt_one _, ?_, ?_, normSf_strictAnti (by norm_num)⟩
  · have : Real.sqrt 4 = 2 := by rw [show (4 : ℝ) = 2 ^ 2 by norm_num]; exact Real.sqrt_sq (by norm_num)
    simp [QMuTilda.asymptoticTs, QMuTilda.init, QMu.init, QMu.ncp, QMuTilda.threshold, normIsf_sf]
    norm_num
  · have : Real.sqrt 4 = 2 := by rw [show (4 : ℝ) = 2 ^ 2 by norm_num]; exact Real.sqrt_sq (by norm_num)
    simp [QMuTilda.asymptoticPv, QMuTilda.init, QMu.init, QMu.ncp, QMuTilda.threshold]
    norm_num
    rw [this]; norm_num

/-- C25 fails for `t_mu`: the code inverts a one-sided normal tail instead of the chi-square one. The
p-value of the statistic returned for 1/2 is 1. -/
theorem c25_tmu_inverse_fails (s : TMu) (hk : s.testPois ≠ []) :
    s.asymptoticPv (some (s.asymptoticTs (1 / 2))) = 1 := by
  have : normIsf (1 / 2) = 0 := by rw [← normSf_zero, normIsf_sf]
  rw [TMu.asymptoticTs, this]
  exact chi2Sf_of_nonpos _ (List.length_pos_of_ne_nil hk) (le_refl 0)

/-! ## C26 -/

/-- C26, from the two p-values: the ratio if the background one is positive, else 1; never below
the signal one, and at most 1 if that does not exceed the background one. -/
theorem c26_ratio (a b : ℝ) (ha : 0 ≤ a) (hb : 0 ≤ b) (ha1 : a ≤ 1) (hb1 : b ≤ 1) :
    ∃ v, clsOf (.ok a) (.ok b) = .ok v ∧ (0 < b → v = a / b) ∧ (b = 0 → v = 1) ∧ a ≤ v ∧
      (a ≤ b → v ≤ 1) := by
  refine ⟨if b > 0 then a / b else 1, rfl, fun h => if_pos h, fun h => if_neg (by simp [h]), ?_, ?_⟩
  · by_cases h : b > 0
    · rw [if_pos h, le_div_iff₀ h]; nlinarith
    · rw [if_neg h]; exact ha1
  · intro hab
    by_cases h : b > 0
    · rw [if_pos h, div_le_one h]; exact hab
    · rw [if_neg h]

/-- C26, `q_mu` tested at the value it was computed for: CLs lies between the p-value and 1. -/
theorem c26_qmu (s : QMu) (hc : s.compPoi = s.testPoi) (v : ℝ) (h : s.asymptoticCls = .ok v) :
    ∃ a b, s.asymptoticPv = .ok a ∧ s.asymptoticClb = .ok b ∧ v = a / b ∧ a ≤ v ∧ v ≤ 1 := by
  have h0 : s.ncp = .ok 0 := by simp [QMu.ncp, hc]
  have ha : s.asymptoticPv = .ok (normSf (signedSqrt s.value)) := by
    simp [QMu.asymptoticPv, h0]
  unfold QMu.asymptoticCls at h
  cases hb : s.asymptoticClb with
  | error e => rw [ha, hb] at h; simp [clsOf] at h
  | ok b =>
    unfold QMu.asymptoticClb QMu.asymptoticPv at hb
    obtain ⟨l, hl, hb'⟩ := bind_eq_ok.1 hb
    have hb' := Except.ok.inj hb'
    have hval : (QMu.init 0 s.tmu s.bestPoi (some s.compPoi) s.tmuAmu s.sigma).value = s.value := rfl
    simp only [Option.getD_none, hval] at hb'
    have hle : normSf (signedSqrt s.value) ≤ b := by
      rw [← hb']
      exact normSf_strictAnti.antitone (by linarith [Real.sqrt_nonneg l])
    have hb0 : 0 < b := by rw [← hb']; exact normSf_pos _
    have hb1 : b ≤ 1 := by rw [← hb']; exact (normSf_lt_one _).le
    have hbb : s.asymptoticClb = .ok b := hb
    obtain ⟨v', e, e1, _, e2, e3⟩ := c26_ratio _ b (normSf_pos (signedSqrt s.value)).le hb0.le
      (normSf_lt_one _).le hb1
    rw [ha, hbb] at h
    have : v' = v := Except.ok.inj (e.symm.trans h)
    subst this
    exact ⟨_, b, ha, rfl, e1 hb0, e2, e3 hle⟩

/-- C26, `q~_mu` tested at the value it was computed for, when the best-fit POI is not negative or
the two profile likelihood ratios coincide: CLs lies between the p-value and 1. -/
theorem c26_qmutilda (s : QMuTilda) (hc : s.compPoi = s.testPoi) (T : ℝ)
    (hT : s.threshold = .ok T) (hpos : 0 < T) (h0 : s.bestPoi < 0 → s.tmu0 = s.tmu) :
    ∃ a b v, s.asymptoticPv = .ok a ∧ s.asymptoticClb = .ok b ∧ s.asymptoticCls = .ok v ∧
      v = a / b ∧ a ≤ v ∧ v ≤ 1 := by
  have hn : s.ncp = .ok 0 := by simp [QMu.ncp, hc]
  have hdef : ∀ s : QMuTilda, s.asymptoticPv = s.asymptoticPv (some s.value) := fun _ => rfl
  have ha := QMuTilda.pv_eq s 0 T s.value hn hT hpos
  rw [← hdef, Real.sqrt_zero, sub_zero] at ha
  set s' := QMuTilda.init 0 s.tmu s.bestPoi none (some s.compPoi) s.tmuA0 s.tmuA0 with hs'
  have hT' : s'.threshold = .ok T := hT
  have hncp : ∃ l, s'.ncp = .ok l := by
    obtain ⟨l, h, _⟩ := c23_ncp_available s'.toQMu (by
      right; left
      simp only [hs', QMuTilda.init, QMu.init]
      intro hc
      unfold QMuTilda.threshold at hT
      rw [hc] at hT
      cases hT)
    exact ⟨l, h⟩
  obtain ⟨l, hl⟩ := hncp
  have hval : s'.value = s.value := by
    simp only [QMuTilda.value, hs', QMuTilda.init, QMu.init, Option.getD_none, Option.getD_some]
    by_cases hb : s.bestPoi < 0
    · rw [if_pos hb, if_pos hb, h0 hb]
    · rw [if_neg hb, if_neg hb]
  have hb := QMuTilda.pv_eq s' l T s'.value hl hT' hpos
  rw [← hdef, hval] at hb
  have hb : s.asymptoticClb = .ok (normSf (tildeArg T s.value - Real.sqrt l)) := hb
  obtain ⟨v, e, e1, _, e2, e3⟩ := c26_ratio _ _ (normSf_pos (tildeArg T s.value)).le
    (normSf_pos (tildeArg T s.value - Real.sqrt l)).le (normSf_lt_one _).le (normSf_lt_one _).le
  refine ⟨_, _, v, ha, hb, ?_, e1 (normSf_pos _), e2, e3 ?_⟩
  · unfold QMuTilda.asymptoticCls; rw [ha, hb]; exact e
  · exact normSf_strictAnti.antitone (by linarith [Real.sqrt_nonneg l])

/-- C26 fails for `q~_mu` with a negative best-fit POI: the background p-value is computed from
`tmu` although the signal one is computed from `tmu_0`, and CLs exceeds 1. Here the tested POI is 1,
the threshold 1, `tmu_0 = 1` and `tmu = 5`: the signal p-value is `sf(1)`, the background one `sf(2)`. -/
theorem c26_qmutilda_exceeds_one :
    ∃ (s : QMuTilda) (v : ℝ), s.compPoi = s.testPoi ∧ s.threshold = .ok 1 ∧ s.bestPoi < 0 ∧
      0 ≤ s.tmu0 ∧ s.tmu0 ≤ s.tmu ∧ s.asymptoticCls = .ok v ∧ 1 < v := by
  refine ⟨QMuTilda.init 1 5 (-1) (some 1) none none (some 1), normSf 1 / normSf 2, ?_, ?_, ?_, ?_, ?_,
    ?_, ?_⟩
  · simp [QMuTilda.init, QMu.init]
  · simp [QMuTilda.init, QMuTilda.threshold]
  · simp [QMuTilda.init, QMu.init]
  · simp [QMuTilda.init]
  · simp [QMuTilda.init, QMu.init]
  · have h1 : (QMuTilda.init 1 5 (-1) (some 1) none none (some 1)).asymptoticPv = .ok (normSf 1) := by
      simp [QMuTilda.asymptoticPv, QMuTilda.init, QMu.init, QMu.ncp, QMuTilda.threshold,
        QMuTilda.value]
      norm_num
    have h2 : (QMuTilda.init 1 5 (-1) (some 1) none none (some 1)).asymptoticClb
        = .ok (normSf 2) := by
      simp [QMuTilda.asymptoticClb, QMuTilda.asymptoticPv, QMuTilda.init, QMu.init, QMu.ncp,
        QMuTilda.threshold, QMuTilda.value]
      norm_num
    simp [QMuTilda.asymptoticCls, h1, h2, clsOf, normSf_pos]
  · rw [one_lt_div (normSf_pos 2)]
    exact normSf_strictAnti (by norm_num)

/-! ## C45: CLs orders hypotheses like the statistic -/

/-- C45, `q_mu`: for two observations tested at the same non-zero value with the same positive Asimov
value, a larger statistic gives a strictly smaller CLs. -/
theorem c45_qmu_cls_decreasing (s s' : QMu) (Λ : ℝ) (hΛ : 0 < Λ)
    (h1 : s.compPoi = s.testPoi) (h2 : s'.compPoi = s'.testPoi) (h3 : s.testPoi ≠ 0)
    (h4 : s'.testPoi ≠ 0) (h5 : s.tmuAmu = some Λ) (h6 : s'.tmuAmu = some Λ)
    (hlt : s.value < s'.value) :
    ∃ v v', s.asymptoticCls = .ok v ∧ s'.asymptoticCls = .ok v' ∧ v' < v := by
  have key : ∀ s : QMu, s.compPoi = s.testPoi → s.testPoi ≠ 0 → s.tmuAmu = some Λ →
      s.asymptoticCls = .ok (normSf (signedSqrt s.value) /
        normSf (signedSqrt s.value - Real.sqrt Λ)) := by
    intro s h1 h3 h5
    have ha : s.asymptoticPv = .ok (normSf (signedSqrt s.value)) := by
      simp [QMu.asymptoticPv, QMu.ncp, h1]
    have hb : s.asymptoticClb = .ok (normSf (signedSqrt s.value - Real.sqrt Λ)) := by
      have hval : (QMu.init 0 s.tmu s.bestPoi (some s.compPoi) s.tmuAmu s.sigma).value = s.value :=
        rfl
      have hn : (QMu.init 0 s.tmu s.bestPoi (some s.compPoi) s.tmuAmu s.sigma).ncp = .ok Λ := by
        simp [QMu.ncp, QMu.init, h1, h3, h5, not_lt.2 hΛ.le]
      simp [QMu.asymptoticClb, QMu.asymptoticPv, hn, hval]
    unfold QMu.asymptoticCls
    rw [ha, hb]
    simp [clsOf, normSf_pos]
  refine ⟨_, _, key s h1 h3 h5, key s' h2 h4 h6, ?_⟩
  rw [div_lt_div_iff₀ (normSf_pos _) (normSf_pos _)]
  exact normSf_ratio _ _ _ (Real.sqrt_pos.2 hΛ) (signedSqrt_strictMono hlt)

/-- C45, `q~_mu`: the same, for best-fit POIs that are not negative (or equal likelihood ratios),
with the threshold as the background non-centrality. -/
theorem c45_qmutilda_cls_decreasing (s s' : QMuTilda) (T : ℝ) (hT : 0 < T)
    (h1 : s.compPoi = s.testPoi) (h2 : s'.compPoi = s'.testPoi) (h3 : s.testPoi ≠ 0)
    (h4 : s'.testPoi ≠ 0) (h5 : s.tmuA0 = some T) (h6 : s'.tmuA0 = some T)
    (h7 : s.bestPoi < 0 → s.tmu0 = s.tmu) (h8 : s'.bestPoi < 0 → s'.tmu0 = s'.tmu)
    (hlt : s.value < s'.value) :
    ∃ v v', s.asymptoticCls = .ok v ∧ s'.asymptoticCls = .ok v' ∧ v' < v := by
  have key : ∀ s : QMuTilda, s.compPoi = s.testPoi → s.testPoi ≠ 0 → s.tmuA0 = some T →
      (s.bestPoi < 0 → s.tmu0 = s.tmu) →
      s.asymptoticCls = .ok (normSf (tildeArg T s.value) /
        normSf (tildeArg T s.value - Real.sqrt T)) := by
    intro s h1 h3 h5 h7
    have hth : s.threshold = .ok T := by simp [QMuTilda.threshold, h5, not_lt.2 hT.le]
    have ha := QMuTilda.pv_eq s 0 T s.value (by simp [QMu.ncp, h1]) hth hT
    rw [Real.sqrt_zero, sub_zero] at ha
    set s' := QMuTilda.init 0 s.tmu s.bestPoi none (some s.compPoi) s.tmuA0 s.tmuA0 with hs'
    have hval : s'.value = s.value := by
      simp only [QMuTilda.value, hs', QMuTilda.init, QMu.init, Option.getD_none, Option.getD_some]
      by_cases hb : s.bestPoi < 0
      · rw [if_pos hb, if_pos hb, h7 hb]
      · rw [if_neg hb, if_neg hb]
    have hn : s'.ncp = .ok T := by
      simp [QMu.ncp, hs', QMuTilda.init, QMu.init, h1, h3, h5, not_lt.2 hT.le]
    have hb := QMuTilda.pv_eq s' T T s'.value hn hth hT
    rw [hval] at hb
    have ha' : s.asymptoticPv = .ok (normSf (tildeArg T s.value)) := ha
    have hb' : s.asymptoticClb = .ok (normSf (tildeArg T s.value - Real.sqrt T)) := by
      unfold QMuTilda.asymptoticClb
      rw [← hs', ← hb, ← hval]; rfl
    unfold QMuTilda.asymptoticCls
    rw [ha', hb']
    simp [clsOf, normSf_pos]
  refine ⟨_, _, key s h1 h3 h5 h7, key s' h2 h4 h6 h8, ?_⟩
  rw [div_lt_div_iff₀ (normSf_pos _) (normSf_pos _)]
  exact normSf_ratio _ _ _ (Real.sqrt_pos.2 hT) (tildeArg_strictMono T hT hlt)

/-! ## C46: the density is the derivative of the p-value -/

/-- C46, `q_mu`: at every non-zero statistic, the asymptotic density is minus the derivative of the
p-value. -/
theorem c46_qmu_pdf (s : QMu) (l : ℝ) (h : s.ncp = .ok l) (f : ℝ → ℝ)
    (hf : ∀ t, s.asymptoticPv (some t) = .ok (f t)) (t : ℝ) (ht : t ≠ 0) :
    ∃ d, s.asymptoticPdf (some t) = .ok d ∧ HasDerivAt f (-d) t := by
  have hfe : f = fun t => normSf (signedSqrt t - Real.sqrt l) := by
    funext u
    exact Except.ok.inj ((hf u).symm.trans (QMu.pv_eq s l u h))
  refine ⟨normPdf (signedSqrt t - Real.sqrt l) / 2 / Real.sqrt |t|, ?_, ?_⟩
  · simp [QMu.asymptoticPdf, h, ht]
  · rw [hfe]
    have h1 := (sqrt_hasDeriv_signed t ht).sub_const (Real.sqrt l)
    have h2 := (normSf_hasDerivAt (signedSqrt t - Real.sqrt l)).comp t h1
    refine h2.congr_deriv ?_
    ring

/-- C46, `q~_mu` with a positive threshold: the same at every non-zero statistic, including the
threshold. -/
theorem c46_qmutilda_pdf (s : QMuTilda) (l T : ℝ) (h : s.ncp = .ok l) (hT : s.threshold = .ok T)
    (hpos : 0 < T) (f : ℝ → ℝ)
    (hf : ∀ t, s.asymptoticPv (some t) = .ok (f t)) (t : ℝ) (ht : t ≠ 0) :
    ∃ d, s.asymptoticPdf (some t) = .ok d ∧ HasDerivAt f (-d) t := by
  have hfe : f = fun t => normSf (tildeArg T t - Real.sqrt l) := by
    funext u
    exact Except.ok.inj ((hf u).symm.trans (QMuTilda.pv_eq s l T u h hT hpos))
  have h1 := (tildeArg_hasDerivAt T t hpos ht).sub_const (Real.sqrt l)
  have h2 := (normSf_hasDerivAt (tildeArg T t - Real.sqrt l)).comp t h1
  rw [hfe]
  by_cases hlt : t < T
  · refine ⟨normPdf (signedSqrt t - Real.sqrt l) / 2 / Real.sqrt |t|, ?_, ?_⟩
    · simp [QMuTilda.asymptoticPdf, hT, hlt, QMu.asymptoticPdf, h, ht]
    · refine h2.congr_deriv ?_
      rw [if_pos hlt]
      have : tildeArg T t = signedSqrt t := by unfold tildeArg; rw [if_pos hlt]
      rw [this]; ring
  · refine ⟨normPdf ((t + T) / (2 * Real.sqrt T) - Real.sqrt l) / (2 * Real.sqrt T), ?_, ?_⟩
    · simp [QMuTilda.asymptoticPdf, hT, hlt, h, hpos.ne']
    · refine h2.congr_deriv ?_
      rw [if_neg hlt]
      have : tildeArg T t = (t + T) / (2 * Real.sqrt T) := by unfold tildeArg; rw [if_neg hlt]
      rw [this]; ring

/-! Non-vacuity: objects meeting the hypotheses. -/
example : (QMu.init 1 2 0 none (some 3) none).ncp = .ok 0 ∧
    (QMu.init 0 2 0 (some 1) (some 3) none).ncp = .ok 3 ∧
    (QMuTilda.init 1 2 0 none none (some 3) (some 3)).threshold = .ok 3 ∧
    (QMuTilda.init 1 2 (1/2) none none (some 3) (some 3)).value = 2 := by
  refine ⟨by simp [QMu.init, QMu.ncp], ?_, ?_, ?_⟩
  · simp [QMu.init, QMu.ncp]
  · simp [QMuTilda.init, QMuTilda.threshold]
  · simp [QMuTilda.init, QMuTilda.value, QMu.init]; intro h; norm_num at h

end Verif.Props
