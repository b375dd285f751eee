import Verif.Lemmas.LimitsTotal
import Verif.Lemmas.DemoNP
/-! A concrete Gaussian model with affine yields: a signal of norm `mu` over a background with an uncertainty. -/
namespace Verif
namespace Demo
open Verif.Spec

/-- One Gaussian bin with unit variance: signal `2 mu` and a background of 10 with a 50% uncertainty. -/
noncomputable def sb : Mdl 1 1 where
  pois := ![ "mu" ]
  poiInit := ![1]
  nps := ![⟨"np", 0, 1, some 1, some "aux"⟩]
  exprs := []
  channels := [⟨"g", true, 1, fun _ _ => 1,
    [⟨"s", .expr "mu", 1, [2], []⟩, ⟨"b", .number 1, 1, [10], [("np", .float (1/2))]⟩]⟩]
  use_asym_impacts := false
  use_linear_nps := true
  use_simple_sym_impacts := true
  use_lognormal_terms := false
  cutoff := 0
  variations := none

theorem sb_shapes : sb.nbins = 1 ∧ sb.maxSamples = 2 ∧ sb.nbinsPoisson = 0 ∧ sb.nbinsGaussian = 1 := by
  simp [Mdl.nbins, Mdl.nbinsPoisson, Mdl.nbinsGaussian, Mdl.maxSamples, Mdl.chanState, sb, chanStep]

theorem sb_hessian : sb.poiHessian 0 0 = 1 := by
  simp [Mdl.poiHessian, Mdl.chanState, sb, chanStep, Mdl.nbinsPoisson]

theorem sb_symm : sb.HSymm := by
  intro i hi j hj
  rw [sb_shapes.2.2.2] at hi hj
  simp at hi hj; subst hi; subst hj; rfl

theorem sb_psd : sb.HPsd := by
  intro u
  rw [sb_shapes.2.2.2]
  simp [sb_hessian, mul_self_nonneg]

theorem sb_vals (x : Fin 1 → ℝ) : sb.ctx.realVals x = .ok [("mu", x 0), ("np", 0)] := by
  simp [ExprCtx.realVals, ExprCtx.evalLoop, ExprCtx.base, Mdl.ctx, sb]

theorem sb_computable (x : Fin 1 → ℝ) : sb.Computable [("mu", x 0), ("np", 0)] := by
  refine ⟨?_, ?_, ?_⟩
  · intro s hs
    rw [sb_shapes.2.1] at hs
    rw [sb_shapes.1]
    interval_cases s <;> simp [Mdl.cells, Channel.cells, sb]
  · intro ch hc smp hm
    simp only [sb, List.mem_singleton] at hc
    subst hc
    simp only [List.mem_cons, List.not_mem_nil, or_false] at hm
    rcases hm with rfl | rfl <;> simp
  · intro ch hc smp hm
    simp only [sb, List.mem_singleton] at hc
    subst hc
    simp only [List.mem_cons, List.not_mem_nil, or_false] at hm
    rcases hm with rfl | rfl <;> simp [Norm.value, Dict.getItem, Dict.get?]

theorem sb_internal : ∃ A, sb.setInternal = .ok A ∧ A.sym 0 0 0 = 0 ∧ A.sym 1 0 0 = 1 / 2 := by
  have h : sb.stackRows (fun s => s.symImpact (sb.nps 0).name) = .ok [[0], [1/2]] := by
    simp only [Mdl.stackRows, sb_shapes.1, sb_shapes.2.1]
    simp [Channel.part, sb, Sample.symImpact, Sample.impact, Dict.get?, List.range_succ]
    norm_num
  simp only [Mdl.setInternal]
  rw [if_neg (by simp [sb]), if_neg (by simp [sb])]
  have : (List.finRange 1).mapM (fun p => sb.stackRows (fun s => s.symImpact (sb.nps p).name))
      = .ok [[[0], [1/2]]] := by simp [List.finRange_succ, h]
  simp only [pure_ok, bind_ok, this]
  exact ⟨_, rfl, by simp, by simp⟩

theorem sb_yields {A : Mdl.Arrays} (h0 : A.sym 0 0 0 = 0) (h1 : A.sym 1 0 0 = 1 / 2) (x : Fin 1 → ℝ)
    (θ : Fin 1 → ℝ) : ∃ N, sb.totBinExp A x θ = .ok N ∧ N 0 = 10 + 2 * x 0 + 5 * θ 0 ∧
      ∀ b, b ≠ 0 → N b = 0 := by
  refine ⟨_, Mdl.tot_ok A θ (sb_vals x) (sb_computable x), ?_, ?_⟩
  rotate_left
  · intro b hb
    unfold Mdl.totAt
    rw [sb_shapes.2.1, Finset.sum_range_succ, Finset.sum_range_one]
    obtain ⟨b, rfl⟩ := Nat.exists_eq_succ_of_ne_zero hb
    simp [Mdl.yieldAt, Mdl.cells, Channel.cells, sb, Mdl.cellVal]
  unfold Mdl.totAt
  rw [sb_shapes.2.1, Finset.sum_range_succ, Finset.sum_range_one]
  simp [Mdl.yieldAt, Mdl.cutKExp, Mdl.kExp, Mdl.cells, Channel.cells, sb,
      Mdl.cellVal, Mdl.cellYield, Mdl.normVal, Expr.look, Dict.get?, h0, h1]
  ring

theorem sb_gaussian {A : Mdl.Arrays} (h0 : A.sym 0 0 0 = 0) (h1 : A.sym 1 0 0 = 1 / 2) : GaussianModel sb A where
  sym := rfl
  lin := rfl
  cut := rfl
  noLog := rfl
  hsym := sb_symm
  hpsd := sb_psd
  noPoisson := sb_shapes.2.2.1
  constrained := by
    intro p
    have : p = 0 := Subsingleton.elim _ _
    subst this
    exact ⟨1, by simp [sb, NP.scaledConstraint], by norm_num, by norm_num⟩
  ref := by
    obtain ⟨N, hN, _⟩ := sb_yields h0 h1 sb.poiInit 0
    exact ⟨N, hN⟩

theorem sb_affine {A : Mdl.Arrays} (h0 : A.sym 0 0 0 = 0) (h1 : A.sym 1 0 0 = 1 / 2) : AffineYields sb A := by
  refine ⟨fun b => if b = 0 then 10 else 0, fun b => if b = 0 then 2 else 0, fun b _ => if b = 0 then 5 else 0, ?_, ?_⟩
  · intro x θ
    obtain ⟨N, hN, e0, e1⟩ := sb_yields h0 h1 (fun _ => x) θ
    refine ⟨N, hN, fun b => ?_⟩
    by_cases hb : b = 0
    · subst hb; simp [e0]
    · simp [hb, e1 b hb]
  · rw [sb_shapes.2.2.2]
    simp [sb_hessian]

end Demo
end Verif
