import Verif.Lemmas.NPMin
import Verif.Lemmas.Demo
/-! Small concrete models for NP profiling. -/
namespace Verif
namespace Demo

/-- One bin filled by a sample of norm `mu`, one NP with symmetric impact 1/2; the bin is Gaussian (unit
variance) or Poisson. -/
noncomputable def np1 (gauss lg : Bool) : Mdl 1 1 where
  pois := ![ "mu" ]
  poiInit := ![1]
  nps := ![⟨"np", 0, 1, some 1, some "aux"⟩]
  exprs := []
  channels := [⟨"g", gauss, 1, fun _ _ => 1, [⟨"s", .expr "mu", 1, [1], [("np", .float (1/2))]⟩]⟩]
  use_asym_impacts := false
  use_linear_nps := true
  use_simple_sym_impacts := true
  use_lognormal_terms := lg
  cutoff := 0
  variations := none

variable (g lg : Bool)

theorem np1_shapes : (np1 g lg).nbins = 1 ∧ (np1 g lg).maxSamples = 1 ∧
    (np1 g lg).nbinsPoisson = (if g then 0 else 1) ∧ (np1 g lg).nbinsGaussian = (if g then 1 else 0) := by
  cases g <;>
  simp [Mdl.nbins, Mdl.nbinsPoisson, Mdl.nbinsGaussian, Mdl.maxSamples, Mdl.chanState, np1, chanStep]

theorem np1_hessian : (np1 true lg).poiHessian 0 0 = 1 := by
  simp [Mdl.poiHessian, Mdl.chanState, np1, chanStep, Mdl.nbinsPoisson]

theorem np1_symm : (np1 g lg).HSymm := by
  intro i hi j hj
  rw [(np1_shapes g lg).2.2.2] at hi hj
  cases g
  · simp at hi
  · simp at hi hj; subst hi; subst hj; rfl

theorem np1_psd : (np1 g lg).HPsd := by
  intro u
  rw [(np1_shapes g lg).2.2.2]
  cases g
  · simp
  · simp [np1_hessian, mul_self_nonneg]

theorem np1_vals (x : Fin 1 → ℝ) : (np1 g lg).ctx.realVals x = .ok [("mu", x 0), ("np", 0)] := by
  simp [ExprCtx.realVals, ExprCtx.evalLoop, ExprCtx.base, Mdl.ctx, np1]

theorem np1_computable (x : Fin 1 → ℝ) : (np1 g lg).Computable [("mu", x 0), ("np", 0)] := by
  refine ⟨?_, ?_, ?_⟩
  · intro s hs
    rw [(np1_shapes g lg).2.1] at hs
    rw [(np1_shapes g lg).1]
    interval_cases s; simp [Mdl.cells, Channel.cells, np1]
  · intro ch hc smp hm
    simp only [np1, List.mem_singleton] at hc
    subst hc
    simp only [List.mem_singleton] at hm
    subst hm; simp
  · intro ch hc smp hm
    simp only [np1, List.mem_singleton] at hc
    subst hc
    simp only [List.mem_singleton] at hm
    subst hm; simp [Norm.value, Dict.getItem, Dict.get?]

theorem np1_internal : ∃ A, (np1 g lg).setInternal = .ok A ∧ A.sym 0 0 0 = 1 / 2 := by
  have h : (np1 g lg).stackRows (fun s => s.symImpact ((np1 g lg).nps 0).name) = .ok [[1/2]] := by
    simp only [Mdl.stackRows, (np1_shapes g lg).1, (np1_shapes g lg).2.1]
    simp [Channel.part, np1, Sample.symImpact, Sample.impact, Dict.get?, List.range_succ]
    norm_num
  simp only [Mdl.setInternal]
  rw [if_neg (by cases g <;> simp [np1]), if_neg (by simp [np1])]
  have : (List.finRange 1).mapM (fun p => (np1 g lg).stackRows (fun s => s.symImpact ((np1 g lg).nps p).name))
      = .ok [[[1/2]]] := by simp [List.finRange_succ, h]
  simp only [pure_ok, bind_ok, this]
  exact ⟨_, rfl, by simp⟩

/-- Yields of the model. -/
theorem np1_ne {A : Mdl.Arrays} (hA : A.sym 0 0 0 = 1 / 2) (x : Fin 1 → ℝ) (θ : Fin 1 → ℝ) :
    ∃ ne, (np1 g lg).nExp A x θ = .ok ne ∧ ne 0 0 = x 0 * (1 + θ 0 / 2) := by
  obtain ⟨ne, h1, h2⟩ := Mdl.nExp_ok A θ (np1_vals g lg x) (np1_computable g lg x)
  refine ⟨ne, h1, ?_⟩
  rw [h2 0 (by rw [(np1_shapes g lg).2.1]; norm_num)]
  simp [Mdl.yieldAt, Mdl.cutKExp, Mdl.kExp, Mdl.cells, Channel.cells, np1,
      Mdl.cellVal, Mdl.cellYield, Mdl.normVal, Expr.look, Dict.get?, hA]
  left; ring

theorem np1_weight (p : Fin 1) : ((np1 g lg).nps p).constraintWeight = 1 := by
  have : p = 0 := Subsingleton.elim _ _
  subst this
  simp [np1, NP.constraintWeight, NP.scaledConstraint]

/-- `P` and `Q` for the Gaussian model. -/
theorem np1_pq {A : Mdl.Arrays} (hA : A.sym 0 0 0 = 1 / 2) (x θ : Fin 1 → ℝ) (d : Mdl.DataV 1) :
    ∃ s, (np1 true lg).pq A x θ d = .ok s ∧
      s.p 0 0 = (x 0 * (1 + θ 0 / 2) / 2) ^ 2 + (if lg then
        2 * (x 0 * (1 + θ 0 / 2) * (x 0 * (1 + θ 0 / 2) - d.counts 0) / 4) else 0) + 1 ∧
      s.q 0 = x 0 * (1 + θ 0 / 2) / 2 * (x 0 * (1 + θ 0 / 2) - d.counts 0) + (θ 0 - d.aux_obs 0) := by
  obtain ⟨ne, h1, h2⟩ := np1_ne true lg hA x θ
  obtain ⟨s, hs⟩ := Mdl.pq_ok d h1 (Or.inl rfl) (fun i hi => by
    rw [(np1_shapes true lg).2.2.1] at hi; simp at hi)
  obtain ⟨ne', h1', _, _, hp, hq⟩ := Mdl.pq_inv hs
  have : ne = ne' := Except.ok.inj (h1.symm.trans h1')
  subst this
  refine ⟨s, hs, ?_, ?_⟩
  · rw [hp, Matrix.add_apply, Matrix.add_apply]
    simp only [Mdl.pqPoisson, Mdl.pqGaussian, (np1_shapes true lg).2.2.1, (np1_shapes true lg).2.2.2,
      (np1_shapes true lg).2.1, if_true, Finset.range_zero, Finset.sum_empty, Finset.sum_range_one,
      Finset.sum_const_zero, Mdl.constraintHessian, Matrix.diagonal_apply_eq, np1_weight, zero_add,
      np1_hessian, h2, Fin.val_zero, hA, ite_self]
    have : (np1 true lg).use_lognormal_terms = lg := rfl
    rw [this]
    cases lg <;> simp <;> ring
  · rw [hq, Pi.add_apply, Pi.add_apply]
    simp only [Mdl.pqPoisson, Mdl.pqGaussian, (np1_shapes true lg).2.2.1, (np1_shapes true lg).2.2.2,
      (np1_shapes true lg).2.1, if_true, Finset.range_zero, Finset.sum_empty, Finset.sum_range_one,
      Mdl.constraintHessian, Matrix.mulVec_diagonal, np1_weight, zero_add,
      np1_hessian, h2, Fin.val_zero, hA]
    ring

/-- `profile` for one NP. -/
theorem profile1 {n : Nat} {m : Mdl n 1} {A x} {θ : Fin 1 → ℝ} {d} {s : Mdl.PQ 1} (hs : m.pq A x θ d = .ok s)
    (h : 1 / 1000 ≤ |s.p 0 0|) : m.profile A x θ d = .ok (fun _ => θ 0 - s.q 0 / s.p 0 0) := by
  have hd : s.p.det = s.p 0 0 := by simp
  have h0 : s.p 0 0 ≠ 0 := by
    intro h'; rw [h', abs_zero] at h; norm_num at h
  have hu : Mdl.symUpper s.p = s.p := by
    funext a b
    have : a = b := Subsingleton.elim _ _
    subst this; simp [Mdl.symUpper]
  simp only [Mdl.profile, hs, bind_ok, pow_one]
  rw [if_neg (by rw [hd]; exact not_lt.2 h), hu, if_neg (by rw [hd]; exact h0)]
  simp only [pure_ok]
  congr 1
  funext a
  have : a = 0 := Subsingleton.elim _ _
  subst this
  have hi : s.p⁻¹ 0 0 = (s.p 0 0)⁻¹ := by
    have := congrFun (congrFun (Matrix.mul_nonsing_inv s.p (Ne.isUnit (hd ▸ h0))) 0) 0
    rw [Matrix.mul_apply, Fin.sum_univ_one, Matrix.one_apply_eq] at this
    exact eq_inv_of_mul_eq_one_right this
  simp [Matrix.mulVec, dotProduct, hi]
  ring

theorem np1_nll {A : Mdl.Arrays} (hA : A.sym 0 0 0 = 1 / 2) (x θ : Fin 1 → ℝ) (d : Mdl.DataV 1) :
    (np1 true lg).nll A x θ d false = .ok (.fin (1 / 2 * (x 0 * (1 + θ 0 / 2) - d.counts 0) ^ 2 +
      1 / 2 * (θ 0 - d.aux_obs 0) ^ 2)) := by
  obtain ⟨ne, h1, h2⟩ := np1_ne true lg hA x θ
  have ht : (np1 true lg).totBinExp A x θ = .ok (fun b => ∑ s ∈ Finset.range (np1 true lg).maxSamples, ne s b) := by
    simp only [Mdl.totBinExp, h1, bind_ok]; rfl
  rw [Mdl.nll_ok ht (fun b hb => by rw [(np1_shapes true lg).2.2.1] at hb; simp at hb)]
  simp only [Mdl.nllVal, Mdl.quad, (np1_shapes true lg).2.2.1, (np1_shapes true lg).2.2.2, if_true,
    Finset.range_zero, Finset.sum_empty, Finset.sum_range_one, (np1_shapes true lg).2.1, h2, np1_hessian,
    Mdl.constraintTerm_eq, np1_weight, Bool.false_eq_true, if_false, zero_add]
  simp
  ring

end Demo
end Verif
