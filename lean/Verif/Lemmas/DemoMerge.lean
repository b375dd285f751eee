import Verif.Lemmas.MergeData
import Mathlib.Tactic.NormNum
import Mathlib.Tactic.FinCases
/-! A small model for the merging of channels. -/
namespace Verif
open Mdl Merge
namespace DemoMerge
/-- ±10%. -/
noncomputable def imp : List (VarKey × ℝ) := [(.num 1, 1/10), (.num (-1), -(1/10))]
/-- A single-bin channel. -/
noncomputable def chA : Channel := ⟨"A", false, 1, fun _ _ => 0, [⟨"bkg", .expr "mu", 1, [10], [("np", .common imp)]⟩]⟩
/-- Another one, with one more sample and another nominal normalisation. -/
noncomputable def chB : Channel := ⟨"B", false, 1, fun _ _ => 0, [⟨"bkg", .expr "mu", 2, [30], [("np", .common imp)]⟩,
  ⟨"sig", .number 1, 1, [3], []⟩]⟩
/-- A multi-bin channel. -/
noncomputable def chZ : Channel := ⟨"Z", false, 2, fun _ _ => 0, [⟨"bkg", .expr "mu", 1, [5, 6], [("np", .perBin [imp, imp])]⟩]⟩

/-- Their classes. -/
def kind : String → ChKind := fun s => if s = "Z" then .multi ["z1", "z2"] else .single

/-- The model. -/
noncomputable def mdl : Mdl 1 1 where
  pois := ![ "mu" ]
  poiInit := ![1]
  nps := ![⟨"np", 0, 1, some 1, some "aux_np"⟩]
  exprs := []
  channels := [chA, chZ, chB]
  use_asym_impacts := true
  use_linear_nps := false
  use_simple_sym_impacts := true
  use_lognormal_terms := false
  cutoff := 0
  variations := none

theorem std_imp : StdDict imp := List.Perm.refl _

theorem stdA : ∀ s ∈ chA.samples, s.Std chA.nbins := by
  intro s hs
  simp only [chA, List.mem_singleton] at hs
  subst hs
  refine ⟨rfl, fun par i hi => ?_⟩
  simp only [Dict.get?_cons] at hi
  split_ifs at hi
  · obtain rfl := Option.some.inj hi; exact std_imp
  · cases hi
theorem stdB : ∀ s ∈ chB.samples, s.Std chB.nbins := by
  intro s hs
  simp only [chB, List.mem_cons, List.not_mem_nil, or_false] at hs
  rcases hs with rfl | rfl
  · refine ⟨rfl, fun par i hi => ?_⟩
    simp only [Dict.get?_cons] at hi
    split_ifs at hi
    · obtain rfl := Option.some.inj hi; exact std_imp
    · cases hi
  · exact ⟨rfl, fun par i hi => (by cases hi)⟩
theorem stdZ : ∀ s ∈ chZ.samples, s.Std chZ.nbins := by
  intro s hs
  simp only [chZ, List.mem_singleton] at hs
  subst hs
  refine ⟨rfl, fun par i hi => ?_⟩
  simp only [Dict.get?_cons] at hi
  split_ifs at hi
  · obtain rfl := Option.some.inj hi
    exact ⟨rfl, fun d hd => by simp only [List.mem_cons, List.not_mem_nil, or_false, or_self] at hd; rw [hd]; exact std_imp⟩
  · cases hi

theorem std : ∀ ch ∈ mdl.channels, 0 < ch.nbins ∧ ∀ s ∈ ch.samples, s.Std ch.nbins := by
  intro ch hc
  simp only [mdl, List.mem_cons, List.not_mem_nil, or_false] at hc
  rcases hc with rfl | rfl | rfl
  · exact ⟨by simp [chA], stdA⟩
  · exact ⟨by simp [chZ], stdZ⟩
  · exact ⟨by simp [chB], stdB⟩

theorem npDataSet : mdl.NpDataSet := by
  intro ch hc s hs e he p
  have hp : p = 0 := Subsingleton.elim _ _
  subst hp
  simp only [mdl, List.mem_cons, List.not_mem_nil, or_false] at hc
  rcases hc with rfl | rfl | rfl
  · simp only [chA, List.mem_singleton] at hs
    subst hs
    exact ⟨.common imp, by simp [mdl, Dict.get?]⟩
  · simp only [chZ, List.mem_singleton] at hs
    subst hs
    exact ⟨.perBin [imp, imp], by simp [mdl, Dict.get?]⟩
  · simp only [chB, List.mem_cons, List.not_mem_nil, or_false] at hs
    rcases hs with rfl | rfl
    · exact ⟨.common imp, by simp [mdl, Dict.get?]⟩
    · cases he

theorem mergeable : Mergeable mdl kind ["B", "A"] "AB" none [chB, chA] where
  nonempty := by simp
  nodup := by simp
  selected := .cons ⟨by simp [mdl], rfl⟩ (.cons ⟨by simp [mdl], rfl⟩ .nil)
  channels := by simp [mdl, chA, chB, chZ]
  fresh := by simp [mdl, chA, chB, chZ]
  kinds := by
    intro ch hc
    simp only [List.mem_cons, List.not_mem_nil, or_false] at hc
    rcases hc with rfl | rfl
    · exact ⟨rfl, .inl ⟨by simp [kind, chB], rfl⟩⟩
    · exact ⟨rfl, .inl ⟨by simp [kind, chA], rfl⟩⟩
  bins := by intro l hl; cases hl
  aligned := by
    refine ⟨by simp [chA, chB], by simp [chA, chB], ?_, ?_, ?_⟩
    · intro ch hc s hs
      simp only [List.mem_cons, List.not_mem_nil, or_false] at hc
      rcases hc with rfl | rfl
      · refine ⟨stdB s hs, ?_⟩
        simp only [chB, List.mem_cons, List.not_mem_nil, or_false] at hs
        rcases hs with rfl | rfl <;> simp
      · refine ⟨stdA s hs, ?_⟩
        simp only [chA, List.mem_singleton] at hs
        subst hs; simp
    · intro ch hc s hs ch' hc' s' hs'
      simp only [List.mem_cons, List.not_mem_nil, or_false] at hc hc'
      rcases hc with rfl | rfl <;> rcases hc' with rfl | rfl <;>
      simp only [chA, chB, List.mem_cons, List.not_mem_nil, or_false] at hs hs' <;>
      (first | (rcases hs with rfl | rfl) | subst hs) <;> (first | (rcases hs' with rfl | rfl) | subst hs') <;> simp
    · intro ch hc
      simp only [List.mem_cons, List.not_mem_nil, or_false] at hc
      rcases hc with rfl | rfl <;> exact .inl rfl

theorem vals (x : Fin 1 → ℝ) : mdl.ctx.realVals x = .ok [("mu", x 0), ("np", 0)] := by
  simp [ExprCtx.realVals, ctx, mdl, ExprCtx.evalLoop, ExprCtx.base]

theorem setup : ∃ A N0, mdl.setInternal = .ok A ∧ mdl.refTot A = .ok N0 := by
  obtain ⟨A, hA⟩ := setInternal_of_std (m := mdl) rfl std (by simp [PoissonFirst, mdl, chA, chB, chZ])
  refine ⟨A, _, hA, tot_ok A 0 (vals _) ⟨shapeOk_of_yieldsShaped fun ch hch s hs => ((std ch hch).2 s hs).1, ?_, ?_⟩⟩
  · intro ch hc s hs
    simp only [mdl, List.mem_cons, List.not_mem_nil, or_false] at hc
    rcases hc with rfl | rfl | rfl <;> simp only [chA, chB, chZ, List.mem_cons, List.not_mem_nil, or_false] at hs <;>
    (first | (rcases hs with rfl | rfl) | subst hs) <;> simp
  · intro ch hc s hs
    simp only [mdl, List.mem_cons, List.not_mem_nil, or_false] at hc
    rcases hc with rfl | rfl | rfl <;> simp only [chA, chB, chZ, List.mem_cons, List.not_mem_nil, or_false] at hs <;>
    (first | (rcases hs with rfl | rfl) | subst hs) <;> simp [Norm.value, Dict.getItem, Dict.get?]

theorem merge_steps {n P : Nat} {m : Mdl n P} {kind : String → ChKind} {names : List String} {mergedName : String}
    {ms : List Channel} {entries : Dict Entry} {samples : List Sample} {vals : Dict ℝ}
    (h1 : Merge.check kind m.channels names = .ok (some (ms, entries)))
    (h2 : entries.values.mapM (mergeSample ms) = .ok samples)
    (h3 : m.ctx.realVals m.poiInit = .ok vals)
    (h4 : ∀ s ∈ samples, (∀ p, ∃ i, s.impacts.get? (m.nps p).name = some i) ∨ ∃ v, s.norm = .number v) {chs chs' : List Channel}
    (h6 : mutated m.channels (entries.values.zip samples) = chs)
    (h7 : (newChannels m.channels names
          ⟨mergedName, false, mergedBins kind none ms, fun _ _ => 0, samples⟩).1.values = chs') :
    m.mergeChannels kind names mergedName none = .ok
      ({ m with channels := chs }, some { m with cutoff := 0, channels := chs' }) := by
  subst h6 h7
  unfold mergeChannels
  rw [h1, bind_ok]
  simp only
  rw [h2, bind_ok, if_neg (by simp)]
  have h3' : (Mdl.ctx { m with cutoff := 0 }).realVals m.poiInit = .ok vals := h3
  simp only [pure_ok, bind_ok]
  have h5 : samples.mapM (fun s => Mdl.setUpSample { m with cutoff := 0 } vals
      ⟨s.name, s.norm, some s.nominal_norm, some s.nominal_yields, s.impacts⟩) = .ok samples := by
    refine mapM_ok_iff.2 (List.forall₂_same.2 fun s hs => ?_)
    unfold Mdl.setUpSample
    refine Mdl.setNpData_same (nn := s.nominal_norm) (ys := s.nominal_yields) rfl rfl fun par hp => ?_
    obtain ⟨p, rfl⟩ := List.mem_ofFn.1 hp
    rcases h4 s hs with h | h
    · exact .inl (h p)
    · exact .inr h
  rw [h3', bind_ok, h5, bind_ok]

/-- The same model with symmetric impacts. -/
noncomputable def sym : Mdl 1 1 := { mdl with use_asym_impacts := false }

theorem sym_imp : lookupVar imp 1 = .ok (1/10) ∧ lookupVar imp (-1) = .ok (-(1/10)) := by
  constructor <;> norm_num [imp, lookupVar]

/-- The model after the merge. -/
noncomputable def symAfter : Mdl 1 1 := { sym with channels := [chA, chZ, ⟨"B", false, 1, fun _ _ => 0,
  [⟨"bkg", .expr "mu", 2, [30], [("np", .perBin [imp, imp])]⟩, ⟨"sig", .number 1, 1, [3], []⟩]⟩] }

theorem merge : ∃ m', sym.mergeChannels kind ["B", "A"] "AB" none = .ok (symAfter, some m') := by
  have hc : Merge.check kind sym.channels ["B", "A"] = .ok (some ([chB, chA],
      [("bkg", ⟨⟨"bkg", .expr "mu", 2, [30], [("np", .common imp)]⟩, "B"⟩), ("sig", ⟨⟨"sig", .number 1, 1, [3], []⟩, "B"⟩)])) := by
    simp [Merge.check, sym, mdl, getChannel, chA, chB, chZ, kind, ChKind.isRange, longest, collect, collectSample, withSource, Dict.set, Dict.get?, addKeys, Dict.keys]
  have h1 : mergeSample [chB, chA] ⟨⟨"bkg", .expr "mu", 2, [30], [("np", .common imp)]⟩, "B"⟩ =
      .ok ⟨"bkg", .expr "mu", 2, [30, 20], [("np", .perBin [imp, imp])]⟩ := by
    simp [mergeSample, mergedYield, mergedEntry, mergedPart, getSample, chA, chB, Dict.get?]
    norm_num
  have h2 : mergeSample [chB, chA] ⟨⟨"sig", .number 1, 1, [3], []⟩, "B"⟩ = .ok ⟨"sig", .number 1, 1, [3, 0], []⟩ := by
    simp [mergeSample, mergedYield, getSample, chA, chB]
  refine ⟨_, merge_steps hc (samples := [⟨"bkg", .expr "mu", 2, [30, 20], [("np", .perBin [imp, imp])]⟩,
    ⟨"sig", .number 1, 1, [3, 0], []⟩]) (by simp [Dict.values, h1, h2]) (vals _) ?_ ?_ rfl⟩
  · intro s hs
    simp only [List.mem_cons, List.not_mem_nil, or_false] at hs
    rcases hs with rfl | rfl
    · exact .inl fun p => ⟨.perBin [imp, imp], by fin_cases p; simp [sym, mdl, Dict.get?]⟩
    · exact .inr ⟨1, rfl⟩
  · simp [sym, mdl, mutated, mutatedSample, Dict.values, chA, chB, chZ]

theorem sym_shapes : symAfter.nbins = 4 ∧ symAfter.maxSamples = 2 := by
  simp [Mdl.nbins, Mdl.maxSamples, Mdl.chanState, symAfter, chanStep, chA, chZ]

theorem after_refused : symAfter.setInternal = .error .valueError := by
  have hr : List.range 2 = [0, 1] := rfl
  have e1 : Sample.symImpact ⟨"bkg", .expr "mu", 1, [10], [("np", .common imp)]⟩ "np" = .ok [1/10] := by
    norm_num [Sample.symImpact, Sample.impact, Dict.get?, sym_imp.1, sym_imp.2]
  have e2 : Sample.symImpact ⟨"bkg", .expr "mu", 1, [5, 6], [("np", .perBin [imp, imp])]⟩ "np" = .ok [1/10, 1/10] := by
    norm_num [Sample.symImpact, Sample.impact, Dict.get?, sym_imp.1, sym_imp.2]
  have e3 : Sample.symImpact ⟨"bkg", .expr "mu", 2, [30], [("np", .perBin [imp, imp])]⟩ "np" = .ok [1/10, 1/10] := by
    norm_num [Sample.symImpact, Sample.impact, Dict.get?, sym_imp.1, sym_imp.2]
  simp only [setInternal, stackRows, sym_shapes.1, sym_shapes.2, hr]
  simp [symAfter, sym, mdl, List.finRange, Channel.part, chA, chZ, e1, e2, e3]

/-- A multi-bin channel with an impact common to its bins. -/
noncomputable def chC : Channel := ⟨"Z", false, 2, fun _ _ => 0, [⟨"bkg", .expr "mu", 1, [5, 6], [("np", .common imp)]⟩]⟩

/-- A model with this channel. -/
noncomputable def common : Mdl 1 1 := { sym with channels := [chA, chC] }

/-- The result of the merge. -/
noncomputable def commonMerged : Mdl 1 1 := { sym with channels := [⟨"AZ", false, 3, fun _ _ => 0,
  [⟨"bkg", .expr "mu", 1, [5, 6, 10], [("np", .perBin [imp, imp])]⟩]⟩] }

theorem common_shapes : common.nbins = 3 ∧ common.maxSamples = 1 ∧ commonMerged.nbins = 3 ∧ commonMerged.maxSamples = 1 := by
  simp [Mdl.nbins, Mdl.maxSamples, Mdl.chanState, common, commonMerged, chanStep, chA, chC]

theorem common_setup : ∃ A, common.setInternal = .ok A := by
  have hr : List.range 1 = [0] := rfl
  have e1 : Sample.symImpact ⟨"bkg", .expr "mu", 1, [10], [("np", .common imp)]⟩ "np" = .ok [1/10] := by
    norm_num [Sample.symImpact, Sample.impact, Dict.get?, sym_imp.1, sym_imp.2]
  have e2 : Sample.symImpact ⟨"bkg", .expr "mu", 1, [5, 6], [("np", .common imp)]⟩ "np" = .ok [1/10, 1/10] := by
    norm_num [Sample.symImpact, Sample.impact, Dict.get?, sym_imp.1, sym_imp.2, List.replicate]
  simp only [setInternal, stackRows, common_shapes.1, common_shapes.2.1, hr]
  simp [common, sym, mdl, List.finRange, Channel.part, chA, chC, e1, e2]

theorem common_merge : ∃ orig, common.mergeChannels kind ["Z", "A"] "AZ" none = .ok (orig, some commonMerged) := by
  have hc : Merge.check kind common.channels ["Z", "A"] = .ok (some ([chC, chA],
      [("bkg", ⟨⟨"bkg", .expr "mu", 1, [5, 6], [("np", .common imp)]⟩, "Z"⟩)])) := by
    simp [Merge.check, common, getChannel, chA, chC, kind, ChKind.isRange, longest, collect, collectSample, withSource, Dict.set, Dict.get?, addKeys, Dict.keys]
  have h1 : mergeSample [chC, chA] ⟨⟨"bkg", .expr "mu", 1, [5, 6], [("np", .common imp)]⟩, "Z"⟩ =
      .ok ⟨"bkg", .expr "mu", 1, [5, 6, 10], [("np", .perBin [imp, imp])]⟩ := by
    simp [mergeSample, mergedYield, mergedEntry, mergedPart, getSample, chA, chC, Dict.get?]
  refine ⟨_, merge_steps hc (samples := [⟨"bkg", .expr "mu", 1, [5, 6, 10], [("np", .perBin [imp, imp])]⟩])
    (by simp [Dict.values, h1]) (vals _) ?_ rfl ?_⟩
  · intro s hs
    simp only [List.mem_cons, List.not_mem_nil, or_false] at hs
    subst hs
    exact .inl fun p => ⟨.perBin [imp, imp], by fin_cases p; simp [common, sym, mdl, Dict.get?]⟩
  · simp [common, commonMerged, sym, mdl, newChannels, Dict.values, chA, chC, kind, mergedBins, binCount, Dict.set]

theorem common_refused : commonMerged.setInternal = .error .valueError := by
  have hr : List.range 1 = [0] := rfl
  have e1 : Sample.symImpact ⟨"bkg", .expr "mu", 1, [5, 6, 10], [("np", .perBin [imp, imp])]⟩ "np" = .ok [1/10, 1/10] := by
    norm_num [Sample.symImpact, Sample.impact, Dict.get?, sym_imp.1, sym_imp.2]
  simp only [setInternal, stackRows, common_shapes.2.2.1, common_shapes.2.2.2, hr]
  simp [commonMerged, sym, mdl, List.finRange, Channel.part, e1]

/-- A model without NPs, with a sample normalised in two ways. -/
noncomputable def norms : Mdl 2 0 where
  pois := ![ "mu", "nu" ]
  poiInit := ![1, 1]
  nps := Fin.elim0
  exprs := []
  channels := [⟨"A", false, 1, fun _ _ => 0, [⟨"bkg", .expr "mu", 1, [10], []⟩]⟩,
    ⟨"B", false, 1, fun _ _ => 0, [⟨"bkg", .expr "nu", 1, [20], []⟩]⟩]
  use_asym_impacts := false
  use_linear_nps := false
  use_simple_sym_impacts := true
  use_lognormal_terms := false
  cutoff := 0
  variations := none

/-- The result of the merge. -/
noncomputable def normsMerged : Mdl 2 0 := { norms with channels :=
  [⟨"AB", false, 2, fun _ _ => 0, [⟨"bkg", .expr "mu", 1, [10, 20], []⟩]⟩] }

theorem norms_shapes : norms.nbins = 2 ∧ norms.maxSamples = 1 ∧ normsMerged.nbins = 2 ∧ normsMerged.maxSamples = 1 := by
  simp [Mdl.nbins, Mdl.maxSamples, Mdl.chanState, norms, normsMerged, chanStep]

theorem norms_vals (x : Fin 2 → ℝ) : norms.ctx.realVals x = .ok [("mu", x 0), ("nu", x 1)] := by
  simp [ExprCtx.realVals, ctx, norms, ExprCtx.evalLoop, ExprCtx.base]

theorem norms_merge : ∃ orig, norms.mergeChannels kind ["A", "B"] "AB" none = .ok (orig, some normsMerged) := by
  have hc : Merge.check kind norms.channels ["A", "B"] = .ok (some (norms.channels,
      [("bkg", ⟨⟨"bkg", .expr "mu", 1, [10], []⟩, "A"⟩)])) := by
    simp [Merge.check, norms, getChannel, kind, ChKind.isRange, longest, collect, collectSample, withSource, Dict.set, Dict.get?, addKeys, Dict.keys]
  have h1 : mergeSample norms.channels ⟨⟨"bkg", .expr "mu", 1, [10], []⟩, "A"⟩ =
      .ok ⟨"bkg", .expr "mu", 1, [10, 20], []⟩ := by
    simp [norms, mergeSample, mergedYield, getSample]
  refine ⟨_, merge_steps hc (samples := [⟨"bkg", .expr "mu", 1, [10, 20], []⟩])
    (by simp [Dict.values, h1]) (norms_vals _) ?_ rfl ?_⟩
  · intro s hs
    exact .inl fun p => p.elim0
  · simp [normsMerged, norms, newChannels, Dict.values, kind, mergedBins, binCount, Dict.set]

/-- The arrays of a model without NPs. -/
noncomputable def noArr : Arrays := ⟨⟨1, fun _ => 0, fun _ => 0⟩, fun s b p => ((([] : List (List (List ℝ))).getD p []).getD s []).getD b 0⟩

theorem norms_setup : norms.setInternal = .ok noArr ∧ normsMerged.setInternal = .ok noArr := by
  constructor <;> simp [setInternal, norms, normsMerged, List.finRange, noArr]

theorem norms_tot (x : Fin 2 → ℝ) : ∃ N, norms.totBinExp noArr x 0 = .ok N ∧ N 1 = x 1 * 20 := by
  have h2 : norms.stackRows (fun s => s.yields [("mu", x 0), ("nu", x 1)]) = .ok [[x 0 * 10, x 1 * 20]] := by
    simp [norms, stackRows, maxSamples, Mdl.nbins, chanState, chanStep, List.range, List.range.loop, Channel.part, Sample.yields, Sample.normalization, Norm.value, Dict.getItem, Dict.get?]
  refine ⟨_, by simp only [totBinExp, nExp]; rw [norms_vals]; simp only [bind_ok]; rw [h2]; rfl, ?_⟩
  simp only [norms_shapes.2.1]
  simp [cutKExp, kExp, norms]

theorem normsMerged_tot (x : Fin 2 → ℝ) : ∃ N, normsMerged.totBinExp noArr x 0 = .ok N ∧ N 1 = x 0 * 20 := by
  have hv : normsMerged.ctx.realVals x = .ok [("mu", x 0), ("nu", x 1)] := norms_vals x
  have h2 : normsMerged.stackRows (fun s => s.yields [("mu", x 0), ("nu", x 1)]) = .ok [[x 0 * 10, x 0 * 20]] := by
    simp [normsMerged, norms, stackRows, maxSamples, Mdl.nbins, chanState, chanStep, List.range, List.range.loop, Channel.part, Sample.yields, Sample.normalization, Norm.value, Dict.getItem, Dict.get?]
  refine ⟨_, by simp only [totBinExp, nExp]; rw [hv]; simp only [bind_ok]; rw [h2]; rfl, ?_⟩
  simp only [norms_shapes.2.2.2]
  simp [cutKExp, kExp, normsMerged, norms]

end DemoMerge
end Verif
