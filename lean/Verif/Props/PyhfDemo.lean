import Verif.Props.Pyhf
import Verif.Props.Markup
/-! # C65: workspaces that meet the hypotheses, and workspaces that are imported wrongly -/
namespace Verif.Props
open Verif Pyhf Markup Mdl

namespace PyhfDemo

/-- A luminosity parameter of uncertainty `σ`. -/
noncomputable def lumi (σ : ℝ) : Par := ⟨"lumi", some σ, some 1, none⟩

/-- The measurement. -/
noncomputable def mea : Measurement := ⟨"mu", [lumi (1 / 50)]⟩

/-- A signal. -/
noncomputable def sig : PSample := ⟨"sig", [5, 10], [.normfactor "mu", .lumi "lumi"]⟩

/-- A background. -/
noncomputable def bkg : PSample := ⟨"bkg", [50, 20], [.normsys "norm" (11 / 10) (4 / 5), .histosys "shape" [60, 19] [45, 22],
  .staterror "stat" [5, 4]]⟩

/-- A background in the control region. -/
noncomputable def crb : PSample := ⟨"bkg", [100], [.normsys "norm" (11 / 10) (4 / 5), .shapesys "cr" [3]]⟩

/-- The signal region. -/
noncomputable def sr : PChannel := ⟨"SR", [sig, bkg]⟩

/-- The control region. -/
noncomputable def cr : PChannel := ⟨"CR", [crb]⟩

/-- Two channels, all types of modifiers, observations in another order. -/
noncomputable def w : Workspace := ⟨[mea], [sr, cr], some [("CR", [97]), ("SR", [58, 31])]⟩

theorem stat0 : sr.stat "stat" 0 = 1 / 10 := by
  have : (sr.samples.flatMap (PSample.stats "stat" 0)) = [(5, 50)] := by
    simp [sr, sig, bkg, PSample.stats]
  unfold PChannel.stat
  rw [this]
  simp only [List.map_cons, List.map_nil, List.sum_cons, List.sum_nil, add_zero]
  rw [Real.sqrt_sq (by norm_num)]
  norm_num

theorem stat1 : sr.stat "stat" 1 = 1 / 5 := by
  have : (sr.samples.flatMap (PSample.stats "stat" 1)) = [(4, 20)] := by
    simp [sr, sig, bkg, PSample.stats]
  unfold PChannel.stat
  rw [this]
  simp only [List.map_cons, List.map_nil, List.sum_cons, List.sum_nil, add_zero]
  rw [Real.sqrt_sq (by norm_num)]
  norm_num

theorem par : parOf [lumi (1 / 50)] "lumi" = some (lumi (1 / 50)) := by
  simp [parOf, lumi]

theorem good_sr : GoodChannel w.firstPars mea.parameters mea.poi sr := by
  refine ⟨by simp [PChannel.nbins, sr, sig], by simp [sr, sig, bkg], ?_⟩
  intro s hs
  simp only [sr, List.mem_cons, List.not_mem_nil, or_false] at hs
  rcases hs with rfl | rfl
  · refine ⟨rfl, Or.inr rfl, ?_, ?_, ?_, ?_⟩
    · intro mod hm
      simp only [sig, List.mem_cons, List.not_mem_nil, or_false] at hm
      rcases hm with rfl | rfl
      · trivial
      · exact ⟨_, _, _, par, rfl, rfl, par, rfl⟩
    · intro mod hm hn
      simp only [sig, List.mem_cons, List.not_mem_nil, or_false] at hm
      rcases hm with rfl | rfl
      · exact absurd rfl (hn _)
      · simp [Modifier.name, mea]
    · simp [sig, Modifier.params]
    · simp [sig, Modifier.params, mea]
  · refine ⟨rfl, Or.inl rfl, ?_, ?_, ?_, ?_⟩
    · intro mod hm
      simp only [bkg, List.mem_cons, List.not_mem_nil, or_false] at hm
      rcases hm with rfl | rfl | rfl
      · simp only [GoodModifier]; norm_num
      · refine ⟨rfl, rfl, ?_⟩
        intro b hb
        have hb : b < 2 := hb
        interval_cases b <;> simp [bkg] <;> norm_num
      · refine ⟨rfl, ?_⟩
        intro b hb
        have hb : b < 2 := hb
        interval_cases b
        · dsimp only; rw [stat0]; simp [bkg]; norm_num
        · dsimp only; rw [stat1]; simp [bkg]; norm_num
    · intro mod hm hn
      simp only [bkg, List.mem_cons, List.not_mem_nil, or_false] at hm
      rcases hm with rfl | rfl | rfl <;> simp [Modifier.name, mea]
    · have : sr.nbins = 2 := rfl
      rw [this]
      decide
    · have : sr.nbins = 2 := rfl
      rw [this]
      decide

theorem good_cr : GoodChannel w.firstPars mea.parameters mea.poi cr := by
  refine ⟨by simp [PChannel.nbins, cr, crb], by simp [cr], ?_⟩
  intro s hs
  simp only [cr, List.mem_cons, List.not_mem_nil, or_false] at hs
  subst hs
  refine ⟨rfl, Or.inl rfl, ?_, ?_, ?_, ?_⟩
  · intro mod hm
    simp only [crb, List.mem_cons, List.not_mem_nil, or_false] at hm
    rcases hm with rfl | rfl
    · simp only [GoodModifier]; norm_num
    · refine ⟨rfl, ?_⟩
      intro b hb
      have hb : b < 1 := hb
      interval_cases b
      simp [crb]
  · intro mod hm hn
    simp only [crb, List.mem_cons, List.not_mem_nil, or_false] at hm
    rcases hm with rfl | rfl <;> simp [Modifier.name, mea]
  · have : cr.nbins = 1 := rfl
    rw [this]
    decide
  · have : cr.nbins = 1 := rfl
    rw [this]
    decide

theorem good : GoodWorkspace 0 mea w := by
  refine ⟨rfl, ?_, by simp [w, sr, cr]⟩
  intro c hc
  simp only [w, List.mem_cons, List.not_mem_nil, or_false] at hc
  rcases hc with rfl | rfl
  · exact good_sr
  · exact good_cr

theorem reads : Reads MarkupDemo.texts mea.poi := by
  refine ⟨?_, ?_, ?_, ?_⟩ <;> simp [MarkupDemo.texts, MarkupDemo.rd, mea]

/-- Everything at +1σ except `norm`, which is at -1σ. -/
noncomputable def α (k : String) : ℝ := if k = "norm" then -1 else 1

theorem settings : Settings α := by
  intro k
  unfold α
  split_ifs <;> simp

theorem a0 : α (binName "stat" 0) = 1 := if_neg (by decide)

theorem a1 : α (binName "stat" 1) = 1 := if_neg (by decide)

end PyhfDemo
open PyhfDemo

/-- The hypotheses of `c65_predictions`, `c65_totals`, `c65_shapes_multiply`, `c65_parameters` and `c65_data` are met by a
workspace with two channels and all types of modifiers. -/
example : GoodWorkspace 0 PyhfDemo.mea PyhfDemo.w ∧ Reads MarkupDemo.texts PyhfDemo.mea.poi ∧ Settings PyhfDemo.α ∧
    (∀ s ∈ sr.samples, ∀ b < 2, Moderate ⟨PyhfDemo.mea.parameters, sr.stat⟩ PyhfDemo.α b s) ∧
    bkg.rate ⟨PyhfDemo.mea.parameters, sr.stat⟩ 3 PyhfDemo.α 0 = 264 / 5 := by
  refine ⟨good, reads, settings, ?_, ?_⟩
  · intro s hs b hb
    simp only [sr, List.mem_cons, List.not_mem_nil, or_false] at hs
    refine ⟨?_, ?_⟩
    · intro mod hm
      rcases hs with rfl | rfl
      · simp only [sig, List.mem_cons, List.not_mem_nil, or_false] at hm
        rcases hm with rfl | rfl
        · simp [Modifier.ratio, Modifier.factor, Modifier.shift]; norm_num
        · have : parOf PyhfDemo.mea.parameters "lumi" = some (lumi (1 / 50)) := par
          simp only [Modifier.ratio, Modifier.factor, Modifier.shift, this]
          simp [central, lumi, PyhfDemo.α]; norm_num
      · simp only [bkg, List.mem_cons, List.not_mem_nil, or_false] at hm
        rcases hm with rfl | rfl | rfl
        · simp [Modifier.ratio, Modifier.factor, Modifier.shift, setting, PyhfDemo.α]; norm_num
        · interval_cases b <;> simp [Modifier.ratio, Modifier.factor, Modifier.shift, setting, PyhfDemo.α, bkg] <;> norm_num
        · interval_cases b
          · simp only [Modifier.ratio, Modifier.factor, Modifier.shift, stat0, a0]
            norm_num
          · simp only [Modifier.ratio, Modifier.factor, Modifier.shift, stat1, a1]
            norm_num
    · rcases hs with rfl | rfl <;> simp [sig, bkg, Modifier.shift]
  · simp only [PSample.rate, bkg, List.map_cons, List.map_nil, Modifier.shift, Modifier.factor, stat0, a0]
    simp [setting, PyhfDemo.α]; norm_num

example : ∃ (obs : List (String × List ℝ)) (f : String → List ℝ), PyhfDemo.w.observations = some obs ∧ (obs.map (·.1)).Nodup ∧
    (∀ c ∈ PyhfDemo.w.channels, (c.name, f c.name) ∈ obs ∧ (f c.name).length = c.nbins) ∧
    ∀ p ∈ PyhfDemo.mea.parameters, p.sigma ≠ some 0 := by
  refine ⟨[("CR", [97]), ("SR", [58, 31])], fun n => if n = "CR" then [97] else [58, 31], rfl, by simp, ?_, ?_⟩
  · intro c hc
    simp only [w, List.mem_cons, List.not_mem_nil, or_false] at hc
    rcases hc with rfl | rfl <;> simp [sr, cr, PChannel.nbins, sig, crb]
  · simp [PyhfDemo.mea, lumi]

/-! ## What is imported wrongly -/

/-- A workspace with one channel and one measurement. -/
noncomputable def oneChannel (pars : List Par) (samples : List PSample) : Workspace :=
  ⟨[⟨"mu", pars⟩], [⟨"SR", samples⟩], none⟩

/-- F68: the uncertainty of the luminosity is always that of the first measurement: with an uncertainty `σ` in the selected
one and `σ'` in the first one, the nuisance parameter has the constraint `σ`, but its impact is `σ'`. -/
theorem c65_lumi_first (keep : Bool) (σ σ' y : ℝ) :
    convert keep 1 ⟨[⟨"mu", [lumi σ']⟩, ⟨"mu", [lumi σ]⟩], [⟨"SR", [⟨"bkg", [y], [.lumi "lumi"]⟩]⟩], none⟩ =
      .ok (markup ⟨"mu", [("lumi", ⟨"lumi", 1, some σ, some σ⟩)],
        [⟨"SR", none, [⟨"bkg", [y], none, [("lumi", .common (σ', -σ'))]⟩]⟩], none⟩) := by
  have hs : fixSigns keep [(σ', -σ')] = [(σ', -σ')] := fixSigns_id (by
    intro i hi
    simp only [List.mem_cons, List.not_mem_nil, or_false] at hi
    subst hi
    dsimp only
    nlinarith [sq_nonneg σ'])
  simp [convert, collect, addPar, lumi, addChannels, addChannel, addSamples, addSample, normfactors, addModifier,
    Modifier.name, lumiSigma, Workspace.firstPars, addImpact, declare, Dict.set, Dict.get?, hs, collapse]

/-- F70: `staterror` uncertainties of the samples of a channel are added linearly: of two equal samples of rate `y` and
uncertainty `u`, each gets the impact `u / y` of the same nuisance parameter, whereas the uncertainty of the sum is smaller
by a factor √2. -/
theorem c65_staterror_linear (keep : Bool) {u y : ℝ} (hy : 0 < y) (hu : 0 < u) :
    ∃ nps, convert keep 0 (oneChannel [] [⟨"a", [y], [.staterror "st" [u]]⟩, ⟨"b", [y], [.staterror "st" [u]]⟩]) =
      .ok (markup ⟨"mu", nps, [⟨"SR", none, [⟨"a", [y], none, [("st_bin0", .common (u / y, -(u / y)))]⟩,
        ⟨"b", [y], none, [("st_bin0", .common (u / y, -(u / y)))]⟩]⟩], none⟩) ∧
      PChannel.stat ⟨"SR", [⟨"a", [y], [.staterror "st" [u]]⟩, ⟨"b", [y], [.staterror "st" [u]]⟩]⟩ "st" 0 =
        u / y / Real.sqrt 2 := by
  have hn : binName "st" 0 = "st_bin0" := by decide
  have hs : fixSigns keep [(u / y, -(u / y))] = [(u / y, -(u / y))] := fixSigns_id (by
    intro i hi
    simp only [List.mem_cons, List.not_mem_nil, or_false] at hi
    subst hi
    dsimp only
    nlinarith [sq_nonneg (u / y)])
  refine ⟨[("st_bin0", autoNP "st_bin0")], ?_, ?_⟩
  · simp [oneChannel, convert, collect, addChannels, addChannel, addSamples, addSample, normfactors, addModifier,
      Modifier.name, shapeLoop, binImpact, addImpact, declare, Dict.set, Dict.get?, hs, collapse, hy.ne', hn]
  · have : (([⟨"a", [y], [.staterror "st" [u]]⟩, ⟨"b", [y], [.staterror "st" [u]]⟩] : List PSample).flatMap
        (PSample.stats "st" 0)) = [(u, y), (u, y)] := by
      simp [PSample.stats]
    unfold PChannel.stat
    rw [this]
    simp only [List.map_cons, List.map_nil, List.sum_cons, List.sum_nil, add_zero]
    have h2 : u ^ 2 + u ^ 2 = 2 * u ^ 2 := by ring
    have h3 : (0 : ℝ) < Real.sqrt 2 := Real.sqrt_pos.2 (by norm_num)
    have h4 : Real.sqrt 2 * Real.sqrt 2 = 2 := Real.mul_self_sqrt (by norm_num)
    rw [h2, Real.sqrt_mul (by norm_num), Real.sqrt_sq hu.le]
    field_simp
    nlinarith

/-- F71: a `histosys` followed by a `normsys` of the same name (one nuisance parameter with a shape and a normalisation part)
keeps two bins only, whatever the number of bins of the channel, and the two parts are summed instead of multiplied. -/
theorem c65_shape_then_norm (keep : Bool) {y1 y2 y3 t1 t2 t3 d1 d2 d3 hi lo : ℝ} (h1 : y1 ≠ 0) (h2 : y2 ≠ 0) (h3 : y3 ≠ 0)
    (s1 : (t1 / y1 - 1) * (d1 / y1 - 1) ≤ 0) (s2 : (t2 / y2 - 1) * (d2 / y2 - 1) ≤ 0)
    (s3 : (t3 / y3 - 1) * (d3 / y3 - 1) ≤ 0) (s : (hi - 1) * (lo - 1) ≤ 0) :
    convert keep 0 (oneChannel [] [⟨"a", [y1, y2, y3], [.histosys "e" [t1, t2, t3] [d1, d2, d3], .normsys "e" hi lo]⟩]) =
      .ok (markup ⟨"mu", [("e", autoNP "e")], [⟨"SR", some ["bin0", "bin1", "bin2"], [⟨"a", [y1, y2, y3], none,
        [("e", .perBin [(t1 / y1 - 1 + (hi - 1), d1 / y1 - 1 + (lo - 1)), (t2 / y2 - 1 + (hi - 1), d2 / y2 - 1 + (lo - 1))])]⟩]⟩],
        none⟩) := by
  have hb : binNames 3 = ["bin0", "bin1", "bin2"] := by decide
  have hs : fixSigns keep [(hi - 1, lo - 1)] = [(hi - 1, lo - 1)] := fixSigns_id (by simpa using s)
  have hs' : fixSigns keep [(t1 / y1 - 1, d1 / y1 - 1), (t2 / y2 - 1, d2 / y2 - 1), (t3 / y3 - 1, d3 / y3 - 1)] =
      [(t1 / y1 - 1, d1 / y1 - 1), (t2 / y2 - 1, d2 / y2 - 1), (t3 / y3 - 1, d3 / y3 - 1)] :=
    fixSigns_id (by simpa using ⟨s1, s2, s3⟩)
  simp [oneChannel, convert, collect, addChannels, addChannel, addSamples, addSample, normfactors, addModifier,
    Modifier.name, histoImpact, addImpact, declare, Dict.set, Dict.get?, hs, hs', collapse, h1, h2, h3, hb, Pyhf.combine, addUD]

/-- F72: a `histosys` whose up and down variations go in the same direction in one bin has no effect in any bin (the default,
without `--keep-same-sign`). -/
theorem c65_same_sign_dropped {y1 y2 t1 t2 d1 d2 : ℝ} (h1 : y1 ≠ 0) (h2 : y2 ≠ 0)
    (s1 : 0 < (t1 / y1 - 1) * (d1 / y1 - 1)) :
    convert false 0 (oneChannel [] [⟨"a", [y1, y2], [.histosys "e" [t1, t2] [d1, d2]]⟩]) =
      .ok (markup ⟨"mu", [("e", autoNP "e")], [⟨"SR", some ["bin0", "bin1"], [⟨"a", [y1, y2], none,
        [("e", .common (0, 0))]⟩]⟩], none⟩) := by
  have hb : binNames 2 = ["bin0", "bin1"] := by decide
  have hs' : fixSigns false [(t1 / y1 - 1, d1 / y1 - 1), (t2 / y2 - 1, d2 / y2 - 1)] = [(0, 0)] := by
    unfold fixSigns
    rw [if_pos ⟨(t1 / y1 - 1, d1 / y1 - 1), by simp, s1⟩, if_neg (by simp)]
  simp [oneChannel, convert, collect, addChannels, addChannel, addSamples, addSample, normfactors, addModifier,
    Modifier.name, histoImpact, addImpact, declare, Dict.set, Dict.get?, hs', collapse, h1, h2, hb]

/-- F73: with `--keep-same-sign`, a bin with variations of the same sign makes the script change the sign of a variation in
all bins: bins that had variations of opposite signs get variations of the same sign. -/
theorem c65_same_sign_flipped {y1 y2 t1 t2 d1 d2 : ℝ} (h1 : y1 ≠ 0) (h2 : y2 ≠ 0)
    (s1 : 0 < (t1 / y1 - 1) * (d1 / y1 - 1)) (s2 : (t2 / y2 - 1) * (d2 / y2 - 1) < 0) :
    ∃ u1 v1 u2 v2 : ℝ, convert true 0 (oneChannel [] [⟨"a", [y1, y2], [.histosys "e" [t1, t2] [d1, d2]]⟩]) =
      .ok (markup ⟨"mu", [("e", autoNP "e")], [⟨"SR", some ["bin0", "bin1"], [⟨"a", [y1, y2], none,
        [("e", .perBin [(u1, v1), (u2, v2)])]⟩]⟩], none⟩) ∧ u1 * v1 < 0 ∧ 0 < u2 * v2 := by
  have hb : binNames 2 = ["bin0", "bin1"] := by decide
  have flip : ∀ a b : ℝ, ∃ u v : ℝ, (if |a| > |b| then (a, -b) else (-a, b)) = (u, v) ∧ u * v = -(a * b) := by
    intro a b
    by_cases h : |a| > |b|
    · exact ⟨a, -b, if_pos h, by ring⟩
    · exact ⟨-a, b, if_neg h, by ring⟩
  obtain ⟨u1, v1, e1, p1⟩ := flip (t1 / y1 - 1) (d1 / y1 - 1)
  obtain ⟨u2, v2, e2, p2⟩ := flip (t2 / y2 - 1) (d2 / y2 - 1)
  have hs' : fixSigns true [(t1 / y1 - 1, d1 / y1 - 1), (t2 / y2 - 1, d2 / y2 - 1)] = [(u1, v1), (u2, v2)] := by
    unfold fixSigns
    rw [if_pos ⟨(t1 / y1 - 1, d1 / y1 - 1), by simp, s1⟩, if_pos rfl]
    simp only [List.map_cons, List.map_nil, e1, e2]
  refine ⟨u1, v1, u2, v2, ?_, by rw [p1]; linarith, by rw [p2]; linarith⟩
  simp [oneChannel, convert, collect, addChannels, addChannel, addSamples, addSample, normfactors, addModifier,
    Modifier.name, histoImpact, addImpact, declare, Dict.set, Dict.get?, hs', collapse, h1, h2, hb]

/-- F74: a bin with nominal rate 0 in a sample with a shape uncertainty makes the import fail. -/
theorem c65_empty_bin (keep : Bool) (y u1 u2 : ℝ) :
    convert keep 0 (oneChannel [] [⟨"a", [0, y], [.shapesys "e" [u1, u2]]⟩]) = .error .keyError ∧
    convert keep 0 (oneChannel [] [⟨"a", [0, y], [.staterror "e" [u1, u2]]⟩]) = .error .keyError ∧
    convert keep 0 (oneChannel [] [⟨"a", [0, y], [.histosys "e" [u1, y] [u2, y]]⟩]) = .error .keyError := by
  refine ⟨?_, ?_, ?_⟩ <;>
  simp [oneChannel, convert, collect, addChannels, addChannel, addSamples, addSample, normfactors, addModifier,
    Modifier.name, histoImpact, shapeLoop]

/-- F75: the central value of a luminosity parameter is not applied to the rates: pyhf predicts `L·y` at the central settings,
the imported model has the nominal yield `y`. -/
theorem c65_lumi_central (keep : Bool) (σ L y : ℝ) :
    convert keep 0 (oneChannel [⟨"lumi", some σ, some L, none⟩] [⟨"bkg", [y], [.lumi "lumi"]⟩]) =
      .ok (markup ⟨"mu", [("lumi", ⟨"lumi", L, some σ, some σ⟩)],
        [⟨"SR", none, [⟨"bkg", [y], none, [("lumi", .common (σ, -σ))]⟩]⟩], none⟩) ∧
    ∀ st μ, (⟨"bkg", [y], [.lumi "lumi"]⟩ : PSample).rate ⟨[⟨"lumi", some σ, some L, none⟩], st⟩ μ (fun _ => 0) 0 = y * L := by
  have hs : fixSigns keep [(σ, -σ)] = [(σ, -σ)] := fixSigns_id (by
    intro i hi
    simp only [List.mem_cons, List.not_mem_nil, or_false] at hi
    subst hi
    dsimp only
    nlinarith [sq_nonneg σ])
  refine ⟨?_, ?_⟩
  · simp [oneChannel, convert, collect, addPar, addChannels, addChannel, addSamples, addSample, normfactors, addModifier,
      Modifier.name, lumiSigma, Workspace.firstPars, addImpact, declare, Dict.set, Dict.get?, hs, collapse]
  · intro st μ
    simp [PSample.rate, Modifier.shift, Modifier.factor, parOf, central]

end Verif.Props
