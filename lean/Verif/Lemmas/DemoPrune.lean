import Verif.Lemmas.RemoveNps
import Mathlib.Tactic.FinCases
/-! A small model with two NPs, used for the removal of one of them. -/
namespace Verif
open Mdl
namespace DemoPrune
/-- One sample, impacts 50% and 10%. -/
noncomputable def smp : Sample := ⟨"s", .expr "mu", 1, [10], [("a", .float (1/2)), ("b", .float (1/10))]⟩
/-- One channel with one bin; the nominal value of `a` is 2. -/
noncomputable def mdl (lin : Bool) (x0 : ℝ) : Mdl 1 2 where
  pois := ![ "mu" ]
  poiInit := ![x0]
  nps := ![⟨"a", 2, 1, some 1, some "aux_a"⟩, ⟨"b", 0, 1, some 1, some "aux_b"⟩]
  exprs := []
  channels := [⟨"c", false, 1, fun _ _ => 0, [smp]⟩]
  use_asym_impacts := false
  use_linear_nps := lin
  use_simple_sym_impacts := true
  use_lognormal_terms := false
  cutoff := 0
  variations := none

/-- The arrays computed by `set_internal_vars`. -/
noncomputable def arr : Arrays := ⟨⟨1, fun _ => 0, fun _ => 0⟩, fun s b p => ((([[[1/2]],[[1/10]]] : List (List (List ℝ))).getD p []).getD s []).getD b 0⟩

theorem shapes (lin : Bool) (x0 : ℝ) : (mdl lin x0).nbins = 1 ∧ (mdl lin x0).maxSamples = 1 := by
  simp [Mdl.nbins, Mdl.maxSamples, Mdl.chanState, mdl, chanStep]

theorem setup (lin : Bool) (x0 : ℝ) : (mdl lin x0).setInternal = .ok arr := by
  have h1 : smp.symImpact "a" = .ok [1/2] := by
    norm_num [Sample.symImpact, Sample.impact, smp, Dict.get?, show ("a" = "b") = False by simp]
  have h2 : smp.symImpact "b" = .ok [1/10] := by
    norm_num [Sample.symImpact, Sample.impact, smp, Dict.get?, show ("a" = "b") = False by simp]
  have hr : List.range 1 = [0] := rfl
  simp only [setInternal, stackRows, (shapes lin x0).1, (shapes lin x0).2, hr]
  simp [mdl, List.finRange, Channel.part, h1, h2, arr]

/-- Exact matching. -/
def rx : String → String → Bool := fun a b => a == b

/-- The model with NP `a` removed. -/
noncomputable def pruned (lin : Bool) (x0 k : ℝ) : Mdl 1 1 where
  pois := ![ "mu" ]
  poiInit := ![x0]
  nps := fun _ => ⟨"b", 0, 1, some 1, some "aux_b"⟩
  exprs := []
  channels := [⟨"c", false, 1, fun _ _ => 0, [⟨"s", .expr "mu", x0, [x0 * (10 * k)], [("b", .float (1/10))]⟩]⟩]
  use_asym_impacts := false
  use_linear_nps := lin
  use_simple_sym_impacts := true
  use_lognormal_terms := false
  cutoff := 0
  variations := none

/-- Correction factor due to `a`. -/
noncomputable def kOf (lin : Bool) (t : ℝ) : ℝ := combine lin (if lin then (1/2) * t else Real.log (1 + 1/2) * t)


theorem removal (lin : Bool) (x0 : ℝ) (v : Option ℝ) :
    (mdl lin x0).removeNps arr rx [("a", v)] = .ok ⟨1, pruned lin x0 (kOf lin (v.getD 2))⟩ := by
  have hd : dropFromSample "a" smp = ⟨"s", .expr "mu", 1, [10], [("b", .float (1/10))]⟩ := by
    simp [dropFromSample, smp, Norm.isExpr]
  have hr : removedAt [("a", v)] ⟨"a", 2, 1, some 1, some "aux_a"⟩ = v.getD 2 := by
    cases v <;> simp [removedAt, Dict.get?]
  have hsel : (mdl lin x0).selectNps rx "a" = .ok [0] := by
    simp [selectNps, mdl, List.finRange]
  have hst : [(0 : Fin 2)].foldl ((mdl lin x0).dropNp [("a", v)]) (fun _ => 0, (mdl lin x0).channels) =
      (Function.update (fun _ => 0) 0 (v.getD 2), [⟨"c", false, 1, fun _ _ => 0,
        [⟨"s", .expr "mu", 1, [10], [("b", .float (1/10))]⟩]⟩]) := by
    simp [dropNp, mdl, hd, hr]
  have hne : ∃ ne, Mdl.nExp { mdl lin x0 with channels := [⟨"c", false, 1, fun _ _ => 0,
        [⟨"s", .expr "mu", 1, [10], [("b", .float (1/10))]⟩]⟩] } arr ![x0] (Function.update (fun _ => 0) 0 (v.getD 2)) = .ok ne ∧
        ne 0 0 = x0 * (10 * kOf lin (v.getD 2)) := by
    have h1 : (Mdl.ctx { mdl lin x0 with channels := [⟨"c", false, 1, fun _ _ => 0,
        [⟨"s", .expr "mu", 1, [10], [("b", .float (1/10))]⟩]⟩] }).realVals ![x0] = .ok [("mu", x0), ("a", 2), ("b", 0)] := by
      simp [ExprCtx.realVals, ctx, mdl, ExprCtx.evalLoop, ExprCtx.base]
    have h2 : Mdl.stackRows { mdl lin x0 with channels := [⟨"c", false, 1, fun _ _ => 0,
        [⟨"s", .expr "mu", 1, [10], [("b", .float (1/10))]⟩]⟩] } (fun s => s.yields [("mu", x0), ("a", 2), ("b", 0)]) = .ok [[x0 * 10]] := by
      simp [mdl, stackRows, maxSamples, Mdl.nbins, chanState, chanStep, List.range, List.range.loop, Channel.part, Sample.yields, Sample.normalization, Norm.value, Dict.getItem, Dict.get?]
    refine ⟨_, by simp only [nExp]; rw [h1]; simp only [bind_ok]; rw [h2]; rfl, ?_⟩
    cases lin <;>
    simp [cutKExp, kExp, mdl, kOf, combine, arr, mul_assoc]
  obtain ⟨ne, hne, hne0⟩ := hne
  refine (removeNps_ok (mdl lin x0) arr rx [("a", v)] (sels := [[0]]) (ne := ne) (by simp [Dict.keys, hsel]) hst hne
    (vals := [("mu", x0), ("a", 2), ("b", 0)]) ?_ (by simp) (vals' := [("mu", x0), ("b", 0)]) ?_
    (chans := [⟨"c", false, 1, fun _ _ => 0, [⟨"s", .expr "mu", x0, [x0 * (10 * kOf lin (v.getD 2))], [("b", .float (1/10))]⟩]⟩]) ?_).trans ?_
  · simp [ExprCtx.realVals, ctx, mdl, ExprCtx.evalLoop, ExprCtx.base]
  · rfl
  · have h : setUpSample (P' := 1) { mdl lin x0 with nps := fun _ => ⟨"b", 0, 1, some 1, some "aux_b"⟩, channels := [⟨"c", false, 1, fun _ _ => 0,
        [⟨"s", .expr "mu", 1, [10], [("b", .float (1/10))]⟩]⟩] } [("mu", x0), ("b", 0)] ⟨"s", .expr "mu", some x0, some [x0 * (10 * kOf lin (v.getD 2))], [("b", .float (1/10))]⟩ =
       .ok ⟨"s", .expr "mu", x0, [x0 * (10 * kOf lin (v.getD 2))], [("b", .float (1/10))]⟩ := by
       exact setNpData_same rfl rfl (by simp [Dict.get?])
    have h' : refitSample ne [("mu", x0), ("a", 2), ("b", 0)] 1 0 0 ⟨"s", .expr "mu", 1, [10], [("b", .float (1/10))]⟩ = .ok ⟨"s", .expr "mu", some x0, some [x0 * (10 * kOf lin (v.getD 2))], [("b", .float (1/10))]⟩ := by
      simp [refitSample, Norm.value, Dict.getItem, Dict.get?, List.range, List.range.loop, hne0]
    have ho : Dict.getItem (Mdl.offsets { mdl lin x0 with channels := [⟨"c", false, 1, fun _ _ => 0,
        [⟨"s", .expr "mu", 1, [10], [("b", .float (1/10))]⟩]⟩] }) "c" = .ok 0 := by
      simp [offsets, chanState, chanStep, Dict.set, Dict.getItem, Dict.get?]
    simp only [List.mapM_cons, List.mapM_nil, refitChannel]
    rw [ho]
    simp only [bind_ok, List.zipIdx_cons, List.zipIdx_nil, List.mapM_cons, List.mapM_nil]
    rw [h']
    simp only [bind_ok]
    erw [h]
    rfl
  · congr 1
    refine Sigma.ext rfl (heq_of_eq ?_)
    have : (fun i : Fin 1 => (mdl lin x0).nps ((List.filter (fun p => decide (p ∉ [[(0 : Fin 2)]].flatten)) (List.finRange 2)).get i)) = (pruned lin x0 (kOf lin (v.getD 2))).nps := by
      funext i; fin_cases i; rfl
    simp only [pruned] at this ⊢
    congr 1

theorem mdl_vals (lin : Bool) (x0 : ℝ) (x : Fin 1 → ℝ) :
    (mdl lin x0).ctx.realVals x = .ok [("mu", x 0), ("a", 2), ("b", 0)] := by
  simp [ExprCtx.realVals, ctx, mdl, ExprCtx.evalLoop, ExprCtx.base]

theorem mdl_nExp (lin : Bool) (x0 : ℝ) (x : Fin 1 → ℝ) (θ : Fin 2 → ℝ) :
    ∃ ne, (mdl lin x0).nExp arr x θ = .ok ne ∧ ne 0 0 = x 0 * 10 * (mdl lin x0).kExp arr θ 0 0 := by
  have h2 : (mdl lin x0).stackRows (fun s => s.yields [("mu", x 0), ("a", 2), ("b", 0)]) = .ok [[x 0 * 10]] := by
    simp [smp, mdl, stackRows, maxSamples, Mdl.nbins, chanState, chanStep, List.range, List.range.loop, Channel.part, Sample.yields, Sample.normalization, Norm.value, Dict.getItem, Dict.get?]
  refine ⟨_, by simp only [nExp]; rw [mdl_vals]; simp only [bind_ok]; rw [h2]; rfl, ?_⟩
  simp [cutKExp, show (mdl lin x0).cutoff = 0 from rfl]

/-- The arrays of the pruned model. -/
noncomputable def arr' : Arrays := ⟨⟨1, fun _ => 0, fun _ => 0⟩, fun s b p => ((([[[1/10]]] : List (List (List ℝ))).getD p []).getD s []).getD b 0⟩

theorem setup' (lin : Bool) (x0 : ℝ) (k : ℝ) : (pruned lin x0 k).setInternal = .ok arr' := by
  have h2 : Sample.symImpact ⟨"s", .expr "mu", x0, [x0 * (10 * k)], [("b", .float (1/10))]⟩ "b" = .ok [1/10] := by
    norm_num [Sample.symImpact, Sample.impact, Dict.get?]
  have hs : (pruned lin x0 k).nbins = 1 ∧ (pruned lin x0 k).maxSamples = 1 := by
    simp [Mdl.nbins, Mdl.maxSamples, Mdl.chanState, pruned, chanStep]
  have hr : List.range 1 = [0] := rfl
  simp only [setInternal, stackRows, hs.1, hs.2, hr]
  simp only [pruned, List.finRange, Channel.part]
  simp [-one_div, h2, arr']

theorem pruned_nExp (lin : Bool) (k : ℝ) (x : Fin 1 → ℝ) (θ : Fin 1 → ℝ) :
    ∃ ne, (pruned lin 1 k).nExp arr' x θ = .ok ne ∧ ne 0 0 = x 0 * (10 * k) * (pruned lin 1 k).kExp arr' θ 0 0 := by
  have h1 : (pruned lin 1 k).ctx.realVals x = .ok [("mu", x 0), ("b", 0)] := by
    simp [ExprCtx.realVals, ctx, pruned, ExprCtx.evalLoop, ExprCtx.base]
  have h2 : (pruned lin 1 k).stackRows (fun s => s.yields [("mu", x 0), ("b", 0)]) = .ok [[x 0 * (10 * k)]] := by
    simp [pruned, stackRows, maxSamples, Mdl.nbins, chanState, chanStep, List.range, List.range.loop, Channel.part, Sample.yields, Sample.normalization, Norm.value, Dict.getItem, Dict.get?]
  refine ⟨_, by simp only [nExp]; rw [h1]; simp only [bind_ok]; rw [h2]; rfl, ?_⟩
  simp [cutKExp, show (pruned lin 1 k).cutoff = 0 from rfl]

theorem distinct (lin : Bool) (x0 : ℝ) : (mdl lin x0).ctx.Distinct := by
  simp [ExprCtx.Distinct, ctx, mdl, Dict.keys]

theorem uniform (lin : Bool) (x0 : ℝ) : (mdl lin x0).Uniform 1 := by
  intro ch hc s hs
  simp only [mdl, List.mem_singleton] at hc
  subst hc
  simp only [List.mem_singleton] at hs
  subst hs
  refine ⟨⟨rfl, ?_⟩, ?_⟩
  · intro par l hl
    simp only [smp, Dict.get?_cons, Dict.get?_nil] at hl
    split_ifs at hl <;> simp at hl
  · intro p
    fin_cases p <;> simp [mdl, Sample.posVars, Sample.negVars, Sample.availableVariations, smp, Dict.get?]

theorem npDataSet (lin : Bool) (x0 : ℝ) : (mdl lin x0).NpDataSet := by
  intro ch hc s hs e he p
  simp only [mdl, List.mem_singleton] at hc
  subst hc
  simp only [List.mem_singleton] at hs
  subst hs
  fin_cases p <;> simp [mdl, smp, Dict.get?]

end DemoPrune
end Verif
