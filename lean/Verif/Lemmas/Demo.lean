import Verif.Lemmas.NLLVal
import Verif.Lemmas.Impact
import Mathlib.Tactic.IntervalCases
import Mathlib.Tactic.NormNum
/-! A small concrete model used to show that hypotheses of theorems can be met, and small models on
which some expected properties fail. -/
namespace Verif
namespace Demo

/-- signal: norm = POI `mu`, two bins, one NP with asymmetric impacts -/
noncomputable def sig : Sample :=
  ⟨"sig", .expr "mu", 1, [1, 2], [("np", .common [(.num 1, 1/2), (.num (-1), -1/4)])]⟩
/-- background: fixed norm, per-bin impacts -/
noncomputable def bkg : Sample :=
  ⟨"bkg", .number 2, 2, [5, 6], [("np", .perBin [[(.num 1, 1/10), (.num (-1), -1/10)],
    [(.num 1, 1/5), (.num (-1), -1/10)]])]⟩

/-- One Poisson channel, two bins, two samples, one POI, one NP; `asym`, `lin` are the options. -/
noncomputable def mdl (asym lin : Bool) : Mdl 1 1 where
  pois := ![ "mu" ]
  poiInit := ![1]
  nps := ![⟨"np", 0, 1, some 1, some "aux"⟩]
  exprs := []
  channels := [⟨"c", false, 2, fun _ _ => 0, [sig, bkg]⟩]
  use_asym_impacts := asym
  use_linear_nps := lin
  use_simple_sym_impacts := true
  use_lognormal_terms := false
  cutoff := 0
  variations := none

theorem distinct (a l : Bool) : (mdl a l).ctx.Distinct := by
  simp [ExprCtx.Distinct, Mdl.ctx, mdl, Dict.keys]

theorem noEmpty (a l : Bool) : (mdl a l).NoEmptyNorm := by
  intro ch hc smp hm
  simp only [mdl, List.mem_singleton] at hc
  subst hc
  simp only [List.mem_cons, List.not_mem_nil, or_false] at hm
  rcases hm with rfl | rfl <;> simp [sig, bkg]

theorem shapes (a l : Bool) : (mdl a l).nbins = 2 ∧ (mdl a l).nbinsPoisson = 2 ∧
    (mdl a l).nbinsGaussian = 0 ∧ (mdl a l).maxSamples = 2 := by
  simp [Mdl.nbins, Mdl.nbinsPoisson, Mdl.nbinsGaussian, Mdl.maxSamples, Mdl.chanState, mdl, chanStep]

theorem vals (a l : Bool) (x : Fin 1 → ℝ) :
    (mdl a l).ctx.realVals x = .ok [("mu", x 0), ("np", 0)] := by
  simp [ExprCtx.realVals, ExprCtx.evalLoop, ExprCtx.base, Mdl.ctx, mdl]

theorem computable (a l : Bool) (x : Fin 1 → ℝ) : (mdl a l).Computable [("mu", x 0), ("np", 0)] := by
  refine ⟨?_, ?_, ?_⟩
  · intro s hs
    rw [(shapes a l).2.2.2] at hs
    rw [(shapes a l).1]
    interval_cases s <;> simp [Mdl.cells, Channel.cells, mdl, sig, bkg]
  · intro ch hc smp hm
    simp only [mdl, List.mem_singleton] at hc
    subst hc
    simp only [List.mem_cons, List.not_mem_nil, or_false] at hm
    rcases hm with rfl | rfl <;> simp [sig, bkg]
  · intro ch hc smp hm
    simp only [mdl, List.mem_singleton] at hc
    subst hc
    simp only [List.mem_cons, List.not_mem_nil, or_false] at hm
    rcases hm with rfl | rfl <;> simp [sig, bkg, Norm.value, Dict.getItem, Dict.get?]

/-- The yields of the demo model in symmetric linear mode. -/
theorem tot (l : Bool) (A : Mdl.Arrays) (x : Fin 1 → ℝ) :
    ∃ N, (mdl false l).totBinExp A x 0 = .ok N ∧ N 0 = x 0 + 5 ∧ N 1 = x 0 * 2 + 6 := by
  refine ⟨_, Mdl.tot_ok A 0 (vals false l x) (computable false l x), ?_, ?_⟩ <;>
  · simp only [Mdl.totAt, (shapes false l).2.2.2, Mdl.yieldAt, Mdl.cutKExp, Mdl.kExp]
    simp [Finset.sum_range_succ, Mdl.cells, Channel.cells, mdl, Mdl.cellVal, Mdl.cellYield, sig, bkg,
      Mdl.normVal, Expr.look, Dict.get?]

/-- The internal arrays of the demo model can be computed. -/
theorem internal : ∃ A, (mdl false true).setInternal = .ok A := by
  have h : ∀ p : Fin 1, ∃ r, (mdl false true).stackRows (fun s => s.symImpact ((mdl false true).nps p).name) = .ok r := by
    intro p
    have : p = 0 := Subsingleton.elim _ _
    subst this
    simp only [Mdl.stackRows, (shapes false true).2.2.2, (shapes false true).1]
    simp [Channel.part, mdl, sig, bkg, Sample.symImpact, Sample.impact, Dict.get?, lookupVar,
      List.range_succ]
    norm_num [lookupVar]
  simp only [Mdl.setInternal]
  rw [if_neg (by simp [mdl])]
  obtain ⟨r, hr⟩ := h 0
  have : (List.finRange 1).mapM (fun p => (mdl false true).stackRows (fun s => s.symImpact ((mdl false true).nps p).name)) = .ok [r] := by
    simp [List.finRange_succ, hr]
  exact ⟨⟨⟨1, fun _ => 0, fun _ => 0⟩, fun s b p => (([r].getD p []).getD s []).getD b 0⟩, by
    rw [if_neg (by simp [mdl])]; simp only [pure_ok, bind_ok, this]⟩

theorem vars_one_neg : (([1, -1] : List ℝ).filter (fun v => decide (0 < v))).insertionSort (· ≤ ·) = [1] ∧
    (([1, -1] : List ℝ).filter (fun v => decide (v < 0))).insertionSort (· ≤ ·) = [-1] := by
  constructor
  · rw [List.filter_cons_of_pos (by norm_num), List.filter_cons_of_neg (by norm_num)]; rfl
  · rw [List.filter_cons_of_neg (by norm_num), List.filter_cons_of_pos (by norm_num)]; rfl

theorem avail_sig : sig.availableVariations "np" = [1, -1] := by
  simp [sig, Sample.availableVariations, Dict.get?, VarKey.toReal]
theorem avail_bkg : bkg.availableVariations "np" = [1, -1] := by
  simp [bkg, Sample.availableVariations, Dict.get?, VarKey.toReal]

theorem uniform (l : Bool) : (mdl true l).Uniform 1 := by
  intro ch hc smp hm
  simp only [mdl, List.mem_singleton] at hc
  subst hc
  simp only [List.mem_cons, List.not_mem_nil, or_false] at hm
  have hp : ∀ p, ((mdl true l).nps p).name = "np" := fun p => by
    have : p = 0 := Subsingleton.elim _ _
    subst this; rfl
  refine ⟨?_, fun p => ?_⟩
  · rcases hm with rfl | rfl
    · refine ⟨rfl, fun par l h => ?_⟩
      simp only [sig, Dict.get?] at h
      split_ifs at h
      all_goals simp at h
    · refine ⟨rfl, fun par l h => ?_⟩
      simp only [bkg, Dict.get?] at h
      split_ifs at h
      all_goals simp at h
      rw [← h]; rfl
  · rw [hp]
    have hv : (mdl true l).variations = none := rfl
    rcases hm with rfl | rfl
    · simp only [Sample.posVars, Sample.negVars, hv, avail_sig, vars_one_neg.1, vars_one_neg.2]; simp
    · simp only [Sample.posVars, Sample.negVars, hv, avail_bkg, vars_one_neg.1, vars_one_neg.2]; simp

theorem coeffs_sig (lg : Bool) : ∃ p q, sig.impactCoefficients "np" none lg = .ok ⟨1, p, 1, q⟩ ∧
    p.length = 2 ∧ q.length = 2 := by
  refine ⟨Sample.shortRows lg 1 [1/2, 1/2], Sample.shortRows lg (-1) [-1/4, -1/4], ?_, rfl, rfl⟩
  have h1 : sig.impact "np" 1 = .ok [1/2, 1/2] := by
    simp [sig, Sample.impact, Dict.get?, lookupVar]
  have h2 : sig.impact "np" (-1) = .ok [-1/4, -1/4] := by
    norm_num [sig, Sample.impact, Dict.get?, lookupVar, List.replicate_succ]
  simp only [Sample.impactCoefficients, Sample.posVars, Sample.negVars, avail_sig, vars_one_neg.1,
    vars_one_neg.2, List.mapM_cons, List.mapM_nil, h1, h2, pure_ok, bind_ok]

theorem coeffs_bkg (lg : Bool) : ∃ p q, bkg.impactCoefficients "np" none lg = .ok ⟨1, p, 1, q⟩ ∧
    p.length = 2 ∧ q.length = 2 := by
  refine ⟨Sample.shortRows lg 1 [1/10, 1/5], Sample.shortRows lg (-1) [-1/10, -1/10], ?_, rfl, rfl⟩
  have h1 : bkg.impact "np" 1 = .ok [1/10, 1/5] := by
    simp [bkg, Sample.impact, Dict.get?, lookupVar]
  have h2 : bkg.impact "np" (-1) = .ok [-1/10, -1/10] := by
    norm_num [bkg, Sample.impact, Dict.get?, lookupVar]
  simp only [Sample.impactCoefficients, Sample.posVars, Sample.negVars, avail_bkg, vars_one_neg.1,
    vars_one_neg.2, List.mapM_cons, List.mapM_nil, h1, h2, pure_ok, bind_ok]

theorem symRows (a l : Bool) : ∃ r, (List.finRange 1).mapM (fun p => (mdl a l).stackRows
    (fun s => s.symImpact ((mdl a l).nps p).name)) = .ok r := by
  have h : ∃ r, (mdl a l).stackRows (fun s => s.symImpact ((mdl a l).nps 0).name) = .ok r := by
    simp only [Mdl.stackRows, (shapes a l).2.2.2, (shapes a l).1]
    simp [Channel.part, mdl, sig, bkg, Sample.symImpact, Sample.impact, Dict.get?, lookupVar,
      List.range_succ]
    norm_num [lookupVar]
  obtain ⟨r, hr⟩ := h
  exact ⟨[r], by simp [List.finRange_succ, hr]⟩

/-- The internal arrays of the demo model with asymmetric impacts can be computed. -/
theorem internalAsym (l : Bool) : ∃ A, (mdl true l).setInternal = .ok A := by
  obtain ⟨r, hr⟩ := symRows true l
  simp only [Mdl.setInternal]
  rw [if_neg (by simp [mdl])]
  rw [if_pos (by simp [mdl])]
  have hstore : ∀ (buf : Buf) (s : Nat), s < 2 → ∃ buf', storeCoeffs (mdl true l).channels (mdl true l).nbins 1
      (mdl true l).variations (!(mdl true l).use_linear_nps) buf 0 ((mdl true l).nps 0).name s = .ok buf' := by
    intro buf s hs
    rw [(shapes true l).1]
    have hnm : ((mdl true l).nps 0).name = "np" := rfl
    have hch : (mdl true l).channels = [⟨"c", false, 2, fun _ _ => 0, [sig, bkg]⟩] := rfl
    have hv : (mdl true l).variations = none := rfl
    obtain ⟨p, q, h1, h2, h3⟩ : ∃ p q, Channel.coeffs ⟨"c", false, 2, fun _ _ => 0, [sig, bkg]⟩ s "np" none
        (!(mdl true l).use_linear_nps) = .ok ⟨1, p, 1, q⟩ ∧ p.length = 2 ∧ q.length = 2 := by
      interval_cases s
      · exact coeffs_sig _
      · exact coeffs_bkg _
    simp only [storeCoeffs, hnm, hch, hv, List.mapM_cons, List.mapM_nil, h1, pure_ok, bind_ok]
    simp [h2, h3]
  have hfold : ∀ (pairs : List (Fin 1 × Nat)), (∀ q ∈ pairs, q.2 < 2) → ∀ buf : Buf, ∃ buf',
      pairs.foldlM (fun buf ps => storeCoeffs (mdl true l).channels (mdl true l).nbins 1
        (mdl true l).variations (!(mdl true l).use_linear_nps) buf ps.1.1 ((mdl true l).nps ps.1).name ps.2)
        buf = .ok buf' := by
    intro pairs
    induction pairs with
    | nil => intro _ buf; exact ⟨buf, rfl⟩
    | cons q pairs ih =>
      intro hq buf
      obtain ⟨b1, h1⟩ := hstore buf q.2 (hq q (by simp))
      obtain ⟨b2, h2⟩ := ih (fun r hr => hq r (by simp [hr])) b1
      refine ⟨b2, ?_⟩
      have : q.1 = 0 := Subsingleton.elim _ _
      rw [List.foldlM_cons, this]
      simp only [Fin.val_zero, h1, bind_ok]
      exact h2
  obtain ⟨b, hb⟩ := hfold ((List.finRange 1).flatMap fun p => (List.range (mdl true l).maxSamples).map
    fun s => (p, s)) (by
      intro q hq
      obtain ⟨p', _, hq⟩ := List.mem_flatMap.1 hq
      obtain ⟨s', hs', rfl⟩ := List.mem_map.1 hq
      rw [(shapes true l).2.2.2] at hs'
      exact List.mem_range.1 hs') ⟨1, fun _ => 0, fun _ => 0⟩
  simp only [hb, hr, bind_ok, pure_ok]
  exact ⟨_, rfl⟩

/-- A sample with one variation for NPs `a`, `b` and two for NP `c`. -/
noncomputable def mixedSmp : Sample :=
  ⟨"s", .number 1, 1, [1], [("a", .float (1/10)), ("b", .float (1/5)),
    ("c", .common [(.num 1, 0), (.num 2, 0), (.num (-1), 0), (.num (-2), 0)])]⟩

/-- One bin, one sample, three NPs. -/
noncomputable def mixed : Mdl 0 3 where
  pois := ![]
  poiInit := ![]
  nps := ![⟨"a", 0, 1, some 1, none⟩, ⟨"b", 0, 1, some 1, none⟩, ⟨"c", 0, 1, some 1, none⟩]
  exprs := []
  channels := [⟨"ch", false, 1, fun _ _ => 0, [mixedSmp]⟩]
  use_asym_impacts := true
  use_linear_nps := true
  use_simple_sym_impacts := true
  use_lognormal_terms := false
  cutoff := 0
  variations := none

theorem interp_zero {pos : List ℝ} (hn : pos.Nodup) (h0 : (0 : ℝ) ∉ pos) :
    Sample.interpolateImpact pos (List.replicate pos.length 0) = .ok (List.replicate pos.length 0) := by
  obtain ⟨c, hc⟩ := Sample.interp_ok (imps := List.replicate pos.length 0) (by simp) hn h0
  unfold Sample.interpolateImpact at hc ⊢
  rw [if_neg (by simp)] at hc ⊢
  simp only at hc ⊢
  split_ifs at hc ⊢ with h
  congr 1
  have : (fun i : Fin pos.length => (List.replicate pos.length (0:ℝ)).getD i 0) = 0 := by
    funext i; simp
  rw [this, Matrix.mulVec_zero]
  apply List.ext_getElem <;> simp

theorem mixed_coeffs : (mixedSmp.impactCoefficients "a" none false = .ok ⟨1, [[1/10]], 1, [[1/10]]⟩) ∧
    (mixedSmp.impactCoefficients "b" none false = .ok ⟨1, [[1/5]], 1, [[1/5]]⟩) ∧
    (mixedSmp.impactCoefficients "c" none false = .ok ⟨2, [[0, 0]], 2, [[0, 0]]⟩) := by
  refine ⟨?_, ?_, ?_⟩
  · have ha : mixedSmp.availableVariations "a" = [1, -1] := by
      simp [mixedSmp, Sample.availableVariations, Dict.get?]
    have h1 : ∀ v, mixedSmp.impact "a" v = .ok [1/10 * v] := fun v => by
      simp [mixedSmp, Sample.impact, Dict.get?]
    simp only [Sample.impactCoefficients, Sample.posVars, Sample.negVars, ha, vars_one_neg.1,
      vars_one_neg.2, List.mapM_cons, List.mapM_nil, h1, pure_ok, bind_ok]
    norm_num [Sample.shortRows, Sample.impactVal]
  · have ha : mixedSmp.availableVariations "b" = [1, -1] := by
      simp [mixedSmp, Sample.availableVariations, Dict.get?]
    have h1 : ∀ v, mixedSmp.impact "b" v = .ok [1/5 * v] := fun v => by
      simp [mixedSmp, Sample.impact, Dict.get?]
    simp only [Sample.impactCoefficients, Sample.posVars, Sample.negVars, ha, vars_one_neg.1,
      vars_one_neg.2, List.mapM_cons, List.mapM_nil, h1, pure_ok, bind_ok]
    norm_num [Sample.shortRows, Sample.impactVal]
  · have ha : mixedSmp.availableVariations "c" = [1, 2, -1, -2] := by
      simp [mixedSmp, Sample.availableVariations, Dict.get?, VarKey.toReal]
    have hp : (([1, 2, -1, -2] : List ℝ).filter (fun v => decide (0 < v))).insertionSort (· ≤ ·) = [1, 2] := by
      rw [List.filter_cons_of_pos (by norm_num), List.filter_cons_of_pos (by norm_num),
        List.filter_cons_of_neg (by norm_num), List.filter_cons_of_neg (by norm_num)]
      norm_num [List.insertionSort, List.orderedInsert]
    have hn : (([1, 2, -1, -2] : List ℝ).filter (fun v => decide (v < 0))).insertionSort (· ≤ ·) = [-2, -1] := by
      rw [List.filter_cons_of_neg (by norm_num), List.filter_cons_of_neg (by norm_num),
        List.filter_cons_of_pos (by norm_num), List.filter_cons_of_pos (by norm_num)]
      norm_num [List.insertionSort, List.orderedInsert]
    have g : mixedSmp.impacts.get? "c" = some (.common [(.num 1, 0), (.num 2, 0), (.num (-1), 0), (.num (-2), 0)]) := by
      simp [mixedSmp, Dict.get?]
    have i1 : mixedSmp.impact "c" 1 = .ok [0] := by
      simp only [Sample.impact, g]
      norm_num [lookupVar, mixedSmp, List.replicate_succ]
    have i2 : mixedSmp.impact "c" 2 = .ok [0] := by
      simp only [Sample.impact, g]
      norm_num [lookupVar, mixedSmp, List.replicate_succ]
    have i3 : mixedSmp.impact "c" (-1) = .ok [0] := by
      simp only [Sample.impact, g]
      norm_num [lookupVar, mixedSmp, List.replicate_succ]
    have i4 : mixedSmp.impact "c" (-2) = .ok [0] := by
      simp only [Sample.impact, g]
      norm_num [lookupVar, mixedSmp, List.replicate_succ]
    have z1 := interp_zero (pos := [1, 2]) (by norm_num) (by norm_num)
    have z2 := interp_zero (pos := [-2, -1]) (by norm_num) (by norm_num)
    simp only [List.length_cons, List.length_nil, List.replicate_succ, List.replicate_zero] at z1 z2
    simp only [Sample.impactCoefficients, Sample.posVars, Sample.negVars, ha, hp, hn,
      List.mapM_cons, List.mapM_nil, i1, i2, i3, i4, pure_ok, bind_ok, Sample.coeffRows]
    simp [List.range_succ, Sample.impactVal, z1, z2]

/-- The arrays of that model: the coefficient of `b` ends up as the second coefficient of `a`. -/
theorem mixedInternal : ∃ A, mixed.setInternal = .ok A ∧ A.buf.pos 0 = 1 / 10 ∧ A.buf.pos 1 = 1 / 5 ∧
    A.buf.nvar = 2 := by
  have hsh : mixed.nbins = 1 ∧ mixed.maxSamples = 1 := by
    simp [Mdl.nbins, Mdl.maxSamples, Mdl.chanState, mixed, chanStep]
  have hsym : ∃ r, (List.finRange 3).mapM (fun p => mixed.stackRows
      (fun s => s.symImpact (mixed.nps p).name)) = .ok r := by
    simp only [Mdl.stackRows, hsh.1, hsh.2]
    have g : mixedSmp.impacts.get? "c" = some (.common [(.num 1, 0), (.num 2, 0), (.num (-1), 0), (.num (-2), 0)]) := by
      simp [mixedSmp, Dict.get?]
    have ga : mixedSmp.impacts.get? "a" = some (.float (1/10)) := by simp [mixedSmp, Dict.get?]
    have gb : mixedSmp.impacts.get? "b" = some (.float (1/5)) := by simp [mixedSmp, Dict.get?]
    have hy : mixedSmp.nominal_yields.length = 1 := rfl
    have s1 : mixedSmp.symImpact "a" = .ok [1/10] := by
      simp only [Sample.symImpact, Sample.impact, ga, hy]; norm_num
    have s2 : mixedSmp.symImpact "b" = .ok [1/5] := by
      simp only [Sample.symImpact, Sample.impact, gb, hy]; norm_num
    have s3 : mixedSmp.symImpact "c" = .ok [0] := by
      simp only [Sample.symImpact, Sample.impact, g, hy]; norm_num [lookupVar]
    simp [Channel.part, mixed, s1, s2, s3, List.range_succ, List.finRange_succ]
  obtain ⟨r, hr⟩ := hsym
  simp only [Mdl.setInternal]
  rw [if_neg (by simp [mixed]), if_pos (by simp [mixed])]
  have hpairs : ((List.finRange 3).flatMap fun p => (List.range mixed.maxSamples).map fun s => (p, s))
      = [(0, 0), (1, 0), (2, 0)] := by
    rw [hsh.2]; simp [List.finRange_succ, List.range_succ]
  have hch : mixed.channels = [⟨"ch", false, 1, fun _ _ => 0, [mixedSmp]⟩] := rfl
  have hv : mixed.variations = none := rfl
  have hl : mixed.use_linear_nps = true := rfl
  have n0 : (mixed.nps 0).name = "a" := rfl
  have n1 : (mixed.nps 1).name = "b" := rfl
  have n2 : (mixed.nps 2).name = "c" := rfl
  obtain ⟨ca, cb, cc⟩ := mixed_coeffs
  rw [hpairs, hsh.1]
  simp only [List.foldlM_cons, List.foldlM_nil, storeCoeffs, hch, hv, hl, n0, n1, n2, Bool.not_true,
    List.mapM_cons, List.mapM_nil, Channel.coeffs, List.getElem?_cons_zero, ca, cb, cc, pure_ok, bind_ok]
  simp only [List.foldl_cons, List.foldl_nil, List.headD_cons, List.map_cons, List.map_nil,
    List.flatten_cons, List.flatten_nil, List.append_nil, List.length_cons, List.length_nil]
  simp [hr, assignSlice]

/-- A Gaussian channel with one bin: expected value `mu`, unit inverse variance. -/
noncomputable def gauss : Mdl 1 0 where
  pois := ![ "mu" ]
  poiInit := ![1]
  nps := ![]
  exprs := []
  channels := [⟨"g", true, 1, fun _ _ => 1, [⟨"s", .expr "mu", 1, [1], []⟩]⟩]
  use_asym_impacts := false
  use_linear_nps := true
  use_simple_sym_impacts := true
  use_lognormal_terms := false
  cutoff := 0
  variations := none

/-- A Poisson channel with one bin, filled by a sample of the given norm; no NPs. -/
noncomputable def one (nm : Norm) (init : ℝ) : Mdl 1 0 where
  pois := ![ "mu" ]
  poiInit := ![init]
  nps := ![]
  exprs := []
  channels := [⟨"c", false, 1, fun _ _ => 0, [⟨"s", nm, 1, [1], []⟩]⟩]
  use_asym_impacts := false
  use_linear_nps := true
  use_simple_sym_impacts := true
  use_lognormal_terms := false
  cutoff := 0
  variations := none

/-- Two channels (Poisson with two bins, Gaussian with one), each with one sample. -/
noncomputable def two : Mdl 1 0 where
  pois := ![ "mu" ]
  poiInit := ![1]
  nps := ![]
  exprs := []
  channels := [⟨"p", false, 2, fun _ _ => 0, [⟨"s", .expr "mu", 1, [1, 2], []⟩]⟩,
    ⟨"g", true, 1, fun _ _ => 1, [⟨"s", .expr "mu", 1, [1], []⟩]⟩]
  use_asym_impacts := false
  use_linear_nps := true
  use_simple_sym_impacts := true
  use_lognormal_terms := false
  cutoff := 0
  variations := none

/-- A sample normalised by the NP `n` of nominal value 2, with its implicit impact. -/
noncomputable def npNormSmp : Sample :=
  ⟨"s", .expr "n", 2, [3], [("n", .common [(.num 1, 1/2), (.num (-1), -(1/2))])]⟩

/-- One bin, that sample. -/
noncomputable def npNorm : Mdl 0 1 where
  pois := ![]
  poiInit := ![]
  nps := ![⟨"n", 2, 1, some 1, none⟩]
  exprs := []
  channels := [⟨"ch", false, 1, fun _ _ => 0, [npNormSmp]⟩]
  use_asym_impacts := true
  use_linear_nps := true
  use_simple_sym_impacts := true
  use_lognormal_terms := false
  cutoff := 0
  variations := none

theorem npNorm_name (p : Fin 1) : (npNorm.nps p).name = "n" := by
  have : p = 0 := Subsingleton.elim _ _
  subst this; rfl

theorem npNorm_avail : npNormSmp.availableVariations "n" = [1, -1] := by
  simp [npNormSmp, Sample.availableVariations, Dict.get?, VarKey.toReal]

theorem npNorm_uniform : npNorm.Uniform 1 := by
  intro ch hc smp hm
  simp only [npNorm, List.mem_singleton] at hc
  subst hc
  simp only [List.mem_singleton] at hm
  subst hm
  refine ⟨⟨rfl, fun par l h => ?_⟩, fun p => ?_⟩
  · simp only [npNormSmp, Dict.get?] at h
    split_ifs at h
    all_goals simp at h
  · have hv : npNorm.variations = none := rfl
    rw [npNorm_name]
    simp only [Sample.posVars, Sample.negVars, hv, npNorm_avail, vars_one_neg.1, vars_one_neg.2]
    simp

theorem npNorm_internal : ∃ A, npNorm.setInternal = .ok A := by
  refine Mdl.setInternal_ok npNorm npNorm_uniform (by simp [npNorm]) rfl ?_
  intro ch hc smp hm p v hv
  simp only [npNorm, List.mem_singleton] at hc
  subst hc
  simp only [List.mem_singleton] at hm
  subst hm
  rw [npNorm_name] at hv ⊢
  rw [npNorm_avail] at hv
  have : v = 1 ∨ v = -1 := by simpa using hv
  have h : (1 : ℝ) ≠ -1 := by norm_num
  rcases this with rfl | rfl
  · simp [npNormSmp, Sample.impact, Dict.get?, lookupVar]
  · simp [npNormSmp, Sample.impact, Dict.get?, lookupVar, h]

theorem npNorm_computable : npNorm.Computable [("n", 2)] := by
  have hsh : npNorm.nbins = 1 ∧ npNorm.maxSamples = 1 := by
    simp [Mdl.nbins, Mdl.maxSamples, Mdl.chanState, npNorm, chanStep]
  refine ⟨?_, ?_, ?_⟩
  · intro s hs
    rw [hsh.2] at hs
    rw [hsh.1]
    interval_cases s; simp [Mdl.cells, Channel.cells, npNorm, npNormSmp]
  · intro ch hc smp hm
    simp only [npNorm, List.mem_singleton] at hc
    subst hc
    simp only [List.mem_singleton] at hm
    subst hm; simp [npNormSmp]
  · intro ch hc smp hm
    simp only [npNorm, List.mem_singleton] at hc
    subst hc
    simp only [List.mem_singleton] at hm
    subst hm; simp [npNormSmp, Norm.value, Dict.getItem, Dict.get?]

theorem npNorm_set : RawSample.setNpData ⟨"s", .expr "n", some 2, some [3], []⟩ (List.ofFn npNorm.nps)
    npNorm.ctx.reals [] npNorm.fuel = .ok npNormSmp := by
  simp [RawSample.setNpData, npNorm, Dict.get?, Norm.implicitImpact, Mdl.fuel, Mdl.ctx, ExprCtx.reals,
    Expr.gradient, Dict.getItem, Expr.gradStep, npNormSmp, Dict.set]

end Demo
end Verif
