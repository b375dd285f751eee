import Verif.Lemmas.Normal
import Verif.Lemmas.Except
import Verif.Model.TestStat
/-! Helper lemmas about the test statistics. -/
namespace Verif
open Filter Topology

theorem signedSqrt_eq (x : ℝ) : signedSqrt x = Real.sqrt x - Real.sqrt (-x) := by
  unfold signedSqrt
  by_cases h : x ≥ 0
  · rw [if_pos h, Real.sqrt_eq_zero_of_nonpos (show -x ≤ 0 by linarith), sub_zero]
  · rw [if_neg h, Real.sqrt_eq_zero_of_nonpos (show x ≤ 0 by linarith), zero_sub]

theorem signedSqrt_continuous : Continuous signedSqrt := by
  have : signedSqrt = fun x => Real.sqrt x - Real.sqrt (-x) := funext signedSqrt_eq
  rw [this]
  fun_prop

theorem signedSqrt_of_nonneg {x : ℝ} (h : 0 ≤ x) : signedSqrt x = Real.sqrt x := by
  unfold signedSqrt; rw [if_pos h]

theorem signedSqrt_mul_abs (q : ℝ) : signedSqrt (q * |q|) = q := by
  unfold signedSqrt
  rcases le_or_gt 0 q with h | h
  · rw [abs_of_nonneg h, if_pos (mul_nonneg h h), Real.sqrt_mul_self h]
  · rw [abs_of_neg h, if_neg (by nlinarith), show -(q * -q) = (-q) * (-q) by ring,
      Real.sqrt_mul_self (by linarith)]
    ring

theorem mul_abs_signedSqrt (x : ℝ) : signedSqrt x * |signedSqrt x| = x := by
  unfold signedSqrt
  by_cases h : x ≥ 0
  · rw [if_pos h, abs_of_nonneg (Real.sqrt_nonneg x), Real.mul_self_sqrt h]
  · rw [if_neg h, abs_neg, abs_of_nonneg (Real.sqrt_nonneg _), neg_mul,
      Real.mul_self_sqrt (by linarith)]
    ring

theorem signedSqrt_strictMono : StrictMono signedSqrt := by
  intro a b hab
  by_contra hc
  have hc := not_lt.1 hc
  have h1 := mul_abs_signedSqrt a
  have h2 := mul_abs_signedSqrt b
  -- q ↦ q*|q| is monotone
  have hm : ∀ u v : ℝ, u ≤ v → u * |u| ≤ v * |v| := by
    intro u v h
    rcases le_or_gt 0 u with hu | hu
    · rw [abs_of_nonneg hu, abs_of_nonneg (le_trans hu h)]; nlinarith
    · rcases le_or_gt 0 v with hv | hv
      · rw [abs_of_neg hu, abs_of_nonneg hv]; nlinarith
      · rw [abs_of_neg hu, abs_of_neg hv]; nlinarith
  have := hm _ _ hc
  linarith

/-- The argument of the normal tail for `q~mu` at a positive threshold. -/
noncomputable def tildeArg (T t : ℝ) : ℝ :=
  if t < T then signedSqrt t else (t + T) / (2 * Real.sqrt T)

theorem tildeArg_at (T : ℝ) (hT : 0 < T) : (T + T) / (2 * Real.sqrt T) = Real.sqrt T := by
  have h := Real.sqrt_pos.2 hT
  rw [div_eq_iff (by positivity)]
  nlinarith [Real.mul_self_sqrt hT.le]

theorem tildeArg_continuous (T : ℝ) (hT : 0 < T) : Continuous (tildeArg T) := by
  unfold tildeArg
  refine Continuous.if ?_ signedSqrt_continuous (by fun_prop)
  intro a ha
  have : a = T := by
    have h1 : frontier {x : ℝ | x < T} = {T} := frontier_Iio
    rw [h1] at ha; exact ha
  subst this
  rw [tildeArg_at a hT, signedSqrt_of_nonneg hT.le]

theorem tildeArg_strictMono (T : ℝ) (hT : 0 < T) : StrictMono (tildeArg T) := by
  intro a b hab
  unfold tildeArg
  have hs := Real.sqrt_pos.2 hT
  by_cases ha : a < T
  · rw [if_pos ha]
    by_cases hb : b < T
    · rw [if_pos hb]; exact signedSqrt_strictMono hab
    · rw [if_neg hb]
      have h1 := signedSqrt_strictMono ha
      rw [signedSqrt_of_nonneg hT.le] at h1
      refine lt_of_lt_of_le h1 ((tildeArg_at T hT).symm.le.trans ?_)
      have : T ≤ b := not_lt.1 hb
      gcongr
  · rw [if_neg ha, if_neg (by linarith)]
    gcongr

theorem QMu.pv_eq (s : QMu) (l t : ℝ) (h : s.ncp = .ok l) :
    s.asymptoticPv (some t) = .ok (normSf (signedSqrt t - Real.sqrt l)) := by
  simp [QMu.asymptoticPv, h]

theorem QMuTilda.pv_eq (s : QMuTilda) (l T t : ℝ) (h : s.ncp = .ok l) (hT : s.threshold = .ok T)
    (hpos : 0 < T) : s.asymptoticPv (some t) = .ok (normSf (tildeArg T t - Real.sqrt l)) := by
  unfold QMuTilda.asymptoticPv tildeArg
  rw [hT, bind_ok]
  simp only [Option.getD_some]
  by_cases ht : t < T
  · rw [if_pos ht, if_pos ht, QMu.pv_eq _ l t h]
  · rw [if_neg ht, if_neg ht, if_neg hpos.ne', h]
    rfl

theorem sqrt_hasDeriv_signed (t : ℝ) (ht : t ≠ 0) :
    HasDerivAt signedSqrt (1 / (2 * Real.sqrt |t|)) t := by
  rcases lt_or_gt_of_ne ht with h | h
  · have h1 : HasDerivAt (fun x => -Real.sqrt (-x)) (-(1 / (2 * Real.sqrt (-t)) * -1)) t :=
      ((Real.hasDerivAt_sqrt (show -t ≠ 0 by linarith [neg_pos.2 h] )).comp t
        (hasDerivAt_neg t)).neg
    refine (h1.congr_of_eventuallyEq ?_).congr_deriv ?_
    · filter_upwards [gt_mem_nhds h] with x hx
      unfold signedSqrt
      rw [if_neg (by linarith)]
    · rw [abs_of_neg h]; ring
  · have h1 := Real.hasDerivAt_sqrt h.ne'
    refine (h1.congr_of_eventuallyEq ?_).congr_deriv ?_
    · filter_upwards [lt_mem_nhds h] with x hx
      exact signedSqrt_of_nonneg hx.le
    · rw [abs_of_pos h]

theorem tildeArg_hasDerivAt (T t : ℝ) (hT : 0 < T) (ht : t ≠ 0) :
    HasDerivAt (tildeArg T)
      (if t < T then 1 / (2 * Real.sqrt |t|) else 1 / (2 * Real.sqrt T)) t := by
  have hlin : ∀ u, HasDerivAt (fun t => (t + T) / (2 * Real.sqrt T)) (1 / (2 * Real.sqrt T)) u :=
    fun u => ((hasDerivAt_id u).add_const T).div_const _
  rcases lt_trichotomy t T with h | h | h
  · rw [if_pos h]
    refine (sqrt_hasDeriv_signed t ht).congr_of_eventuallyEq ?_
    filter_upwards [gt_mem_nhds h] with x hx
    unfold tildeArg
    rw [if_pos hx]
  · subst h
    rw [if_neg (lt_irrefl t)]
    have e1 : HasDerivWithinAt (tildeArg t) (1 / (2 * Real.sqrt t)) (Set.Iic t) t := by
      have h0 := (sqrt_hasDeriv_signed t ht).hasDerivWithinAt (s := Set.Iic t)
      rw [abs_of_pos hT] at h0
      refine h0.congr ?_ ?_
      · intro x hx
        unfold tildeArg
        rcases (lt_or_eq_of_le (show x ≤ t from hx)) with h | h
        · rw [if_pos h]
        · rw [h, if_neg (lt_irrefl t), tildeArg_at t hT, signedSqrt_of_nonneg hT.le]
      · unfold tildeArg
        rw [if_neg (lt_irrefl t), tildeArg_at t hT, signedSqrt_of_nonneg hT.le]
    have e2 : HasDerivWithinAt (tildeArg t) (1 / (2 * Real.sqrt t)) (Set.Ici t) t := by
      refine ((hlin t).hasDerivWithinAt (s := Set.Ici t)).congr ?_ ?_
      · intro x hx
        unfold tildeArg
        rw [if_neg (not_lt.2 hx)]
      · unfold tildeArg
        rw [if_neg (lt_irrefl t)]
    have := e1.union e2
    rw [Set.Iic_union_Ici] at this
    exact hasDerivWithinAt_univ.1 this
  · rw [if_neg (by linarith)]
    refine (hlin t).congr_of_eventuallyEq ?_
    filter_upwards [lt_mem_nhds h] with x hx
    unfold tildeArg
    rw [if_neg (by linarith)]

end Verif
