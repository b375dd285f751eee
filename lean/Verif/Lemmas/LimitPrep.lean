import Verif.Lemmas.LimitScript
import Verif.Props.CalcTmu
/-!
# A run of the limit script for the examples of C80: one POI `a`, NLL `(a - 1)^2`, one point of the scan
-/
namespace Verif
namespace LimDemo
open LimScr Props

/-- A fit as stored in a file. -/
def fitOut (v n : ℝ) : MVal ℝ := .dict [("fit_pars", .dict [("a", .dict [("name", .str "a"), ("value", .num v)])]), ("nll", .num n)]

/-- The point 2 as stored in a file. -/
def pointOut : Dict (MVal ℝ) := [("hypo", .dict [("a", .num 2)]), ("free_fit", fitOut 1 0), ("hypo_fit", fitOut 2 1)]

/-- The fit read back: the attributes that are missing in the file become 0. -/
noncomputable def theFit (v n : ℝ) : FitResult :=
  ⟨[("a", ⟨{ name := some "a", min_value := some 0, max_value := some 0, initial_value := some 0 }, some v, none⟩)], some n⟩

noncomputable def h0 : List String → ℕ := fun _ => 0

noncomputable def thePoint : PLRData := ⟨[("a", 2)], some (theFit 1 0), some (theFit 2 1), [("tmu", 2)], [], none⟩

theorem load_point : PLRData.loadDict oneSetup.m pointOut = .ok thePoint := by
  have hh : PLRData.hypoIn (.dict [("a", .num (2:ℝ))]) = .ok [("a", 2)] := rfl
  have hf : ∀ (r : FitResult) (v n : ℝ) (d : MVal ℝ), (r.fitpars = [] ∨ ∃ p, r.fitpars = [("a", p)]) → d = fitOut v n →
      (do r.loadDict (← PLRData.asDict d)) = .ok (theFit v n) := by
    rintro ⟨fp, nl⟩ v n d hr rfl
    simp only at hr
    rcases hr with rfl | ⟨p, rfl⟩ <;>
    simp [fitOut, PLRData.asDict, FitResult.loadDict, Dict.getItem, Dict.get?, FitResult.loadPars, FitPar.loadDict,
      ModelPOI.loadDict, loadNum, loadField, FitPar.new, FitPar.name, theFit, Dict.set, MVal.toNum?, loadStr, MVal.ofNum, MVal.ofStr, MVal.isInstance, MVal.toStr?]
  have g1 := hf ⟨[], none⟩ 1 0 _ (Or.inl rfl) rfl
  have g2 := hf ⟨[("a", .new "a" (some 2))], none⟩ 2 1 _ (Or.inr ⟨_, rfl⟩) rfl
  have i1 : FitResult.init oneSetup.m none none none = .ok ⟨[], none⟩ := rfl
  have i2 : FitResult.init oneSetup.m none none (some [("a", 2)]) = .ok ⟨[("a", .new "a" (some 2))], none⟩ := rfl
  unfold PLRData.loadDict
  have k1 : Dict.getItem pointOut "hypo" = .ok (.dict [("a", .num 2)]) := rfl
  have k2 : Dict.get? pointOut "full_hypo" = none := rfl
  have k3 : Dict.getItem pointOut "free_fit" = .ok (fitOut 1 0) := rfl
  have k4 : Dict.getItem pointOut "hypo_fit" = .ok (fitOut 2 1) := rfl
  have k5 : Dict.get? pointOut "test_statistics" = none := rfl
  have k6 : Dict.get? pointOut "pvs" = none := rfl
  obtain ⟨d1, e1, g1⟩ := bind_eq_ok.1 g1
  obtain ⟨d2, e2, g2⟩ := bind_eq_ok.1 g2
  simp only [k1, k2, k3, k4, k5, k6, bind_ok, hh, i1, i2, e1, e2, g1, g2]
  simp only [PLRData.update, Dict.keys, List.map_cons, List.map_nil, List.mem_singleton, forall_eq]
  rw [if_pos (by simp [oneSetup]), if_pos (by simp)]
  simp [PLRData.computeTmu, theFit, thePoint, Dict.set]

noncomputable def loaded : Raster := [([("a", 2)], ⟨thePoint, some (theFit 1 0)⟩)]

theorem stage_point (x : Option FitResult) (d : PLRData) (hd : d.hypoFit = some (theFit 2 1)) (hd' : d.freeFit = some (theFit 1 0))
    (ht : Dict.get? d.testStats "tmu" = some 2) :
    Raster.bestFitStage h0 true [([("a", 2)], ⟨d, x⟩)] = .ok [([("a", 2)], ⟨d, some (theFit 1 0)⟩)] ∧
    Raster.tmuStage true [([("a", 2)], ⟨d, x⟩)] = .ok [([("a", 2)], ⟨d, x⟩)] ∧
    Raster.setPois oneSetup.m [([("a", 2)], ⟨d, x⟩)] = .ok [([("a", 2)], ⟨d, x⟩)] := by
  refine ⟨?_, ?_, ?_⟩
  · have hf : Raster.freeNll ([("a", 2)], ⟨d, x⟩) = .ok ([("a", 2)], 0) := by
      unfold Raster.freeNll
      simp only [hd']
      rfl
    unfold Raster.bestFitStage Raster.setGlobalBestFit
    rw [if_pos rfl]
    simp only [List.mapM_cons, List.mapM_nil, hf, bind_ok, pure_ok, Raster.argMin]
    have hg : HDict.getItem h0 ([([("a", 2)], ⟨d, x⟩)] : Raster) [("a", 2)] = .ok ⟨d, x⟩ := by
      rw [HDict.getItem_ok]
      simp only [HDict.get?]
      rw [if_pos (Hypo.matches_refl _ (by simp [Hypo.WF, Dict.keys]))]
    rw [hg, bind_ok]
    simp [hd']
  · have : d.computeTmu = .ok d := by
      obtain ⟨a, b, c, dd, e, f⟩ := d
      simp only at hd hd' ht
      subst hd hd'
      have h2 : (2 : ℝ) * (1 - 0) = 2 := by norm_num
      simp only [PLRData.computeTmu, theFit]
      rw [h2, Dict.set_same _ _ _ ht]
    unfold Raster.tmuStage Raster.computeTmu
    rw [if_pos rfl]
    simp [Raster.tmuEntry, this]
  · unfold Raster.setPois
    rw [if_pos (by simp [Raster.haveCompatiblePois])]

theorem load_raster : Raster.loadDict h0 oneSetup.m [pointOut] = .ok loaded := by
  unfold Raster.loadDict Raster.loadEntries
  rw [load_point, bind_ok, Raster.loadEntries, bind_ok]
  have hset : HDict.set h0 ([] : Raster) thePoint.hypo ⟨thePoint, none⟩ = [([("a", 2)], ⟨thePoint, none⟩)] := rfl
  rw [hset]
  have s1 := stage_point none thePoint rfl rfl rfl
  have s2 := stage_point (some (theFit 1 0)) thePoint rfl rfl rfl
  rw [s1.2.2, bind_ok, s1.1, bind_ok, s2.2.1]
  rfl

noncomputable def withA : PLRData := { thePoint with testStats := [("tmu", 2), ("tmu_A0", 2)] }

theorem load_all : Raster.loadWithAsimov h0 oneSetup.m ⟨some [pointOut], some [pointOut]⟩ =
    .ok [([("a", 2)], ⟨withA, some (theFit 1 0)⟩)] := by
  unfold Raster.loadWithAsimov
  simp only [FitsFile.part, bind_ok, load_raster]
  have hA : Raster.setAsimov loaded loaded = .ok [([("a", 2)], ⟨withA, some (theFit 1 0)⟩)] := by
    simp [Raster.setAsimov, loaded, Raster.asimovEntry, PLRData.setAsimov, thePoint, withA, Dict.getItem, Dict.get?, Dict.set]
  rw [hA, bind_ok]
  unfold Raster.init
  have s2 := stage_point (some (theFit 1 0)) withA rfl rfl rfl
  rw [s2.1, bind_ok, s2.2.1, bind_ok, s2.2.2]

/-- The run of the examples; `n` toys are requested. -/
noncomputable def theRun (n : ℕ) : Run :=
  { c := oneSetup, data := ⟨oneEnv, .ok oneEnv⟩, fits := ⟨some [pointOut], some [pointOut]⟩, ntoys := n }

theorem pv_point : ∃ d, fillPv .qmutilda withA = .ok d := by
  simp [withA, thePoint, fillPv, makeQMuTilda, calcPoi, bestOf, Dict.keys, Dict.getItem, Dict.get?, theFit,
    QMuTilda.asymptoticPv, QMuTilda.asymptoticCls, QMuTilda.asymptoticClb, clsOf, QMu.ncp, QMuTilda.init, QMu.init,
    QMuTilda.threshold, QMuTilda.value, show ¬ ((2:ℝ) < 1) by norm_num, show ¬ ((2:ℝ) < 0) by norm_num, show (1:ℝ) < 2 by norm_num]

theorem calc_min : ∃ s, calcMin oneSetup = .ok s ∧ OneSt s := by
  refine ⟨{ method := "scalar", bounds := some [("a", ⟨"a", some 0, some 10⟩)], tmuDebug := 0 }, ?_, rfl, rfl, rfl, Or.inr rfl⟩
  have e2 : buildBounds oneSetup.pois none none false = .ok [("a", ⟨"a", some 0, some 10⟩)] := rfl
  have e3 : Pars.get oneSetup.m (⟨[0], []⟩ : Pars ℝ) "a" = .ok 0 := rfl
  have : setPois oneSetup.m oneSetup.pois oneSetup.ref none none false =
      .ok (⟨[0], []⟩, [("a", ⟨"a", some 0, some 10⟩)]) := by
    have e1 : setHypo oneSetup.m [] ⟨[0], []⟩ = .ok ⟨[0], []⟩ := rfl
    unfold setPois
    simp only [Option.getD_none, show oneSetup.ref = ⟨[0], []⟩ from rfl]
    rw [e1, bind_ok, e2, bind_ok]
    simp only [Dict.values, List.map_cons, List.map_nil, clampInit, e3, bind_ok]
    rw [if_pos (by simp [ParBound.testValue])]
    rfl
  unfold calcMin
  rw [this]
  rfl

theorem prepared (L : Cmd.Lib) (n : ℕ) : ∃ plan, prepare h0 L (theRun n) = .ok plan ∧ plan.samplers ≠ [] := by
  obtain ⟨d, hd⟩ := pv_point
  obtain ⟨f1, f2, f3, f4, f5⟩ := fillPv_fixed hd
  obtain ⟨s, hs, hs1⟩ := calc_min
  obtain ⟨s1, dd, hss, hq, hn⟩ := one_q .qmutilda s hs1 2 (by norm_num) (by norm_num) none 0 rfl
  -- the recomputed raster
  have hdd : ∃ A, Dict.get? dd.testStats "tmu_A0" = some A := by
    obtain ⟨s2, e2, ae, a, d3, k1, k2, k3, k4, k5⟩ := (fastQ_inv _ _ _ _ _ _ _ _).1 hq
    obtain ⟨_, _, _, _, g5⟩ := fillPv_fixed k5
    rw [g5 "tmu_A0" (by decide) (by decide)]
    unfold PLRData.setAsimov at k4
    obtain ⟨t, ht, k4⟩ := bind_eq_ok.1 k4
    have := Except.ok.inj (ε := PyErr) k4
    subst this
    exact ⟨t, by simp [Dict.get?_set]⟩
  have hloop : fastLoop h0 oneSetup .qmutilda ⟨oneEnv, .ok oneEnv⟩ [] [[("a", 2)]] s [] =
      .ok (s1, [([("a", 2)], ⟨dd, none⟩)]) := by
    simp only [fastLoop, HDict.get?, hq, bind_ok]
    rfl
  obtain ⟨a, b, k1, k2, _, k4⟩ := fastQ_facts _ _ _ _ _ _ _ _ hs1.2.1 hs1.2.2.1 hq
  obtain ⟨r1, h1⟩ := init_succeeds h0 oneSetup.m [([("a", 2)], ⟨dd, none⟩)]
    (by simp only [List.mem_singleton, forall_eq]; exact ⟨_, _, hn⟩)
    (by simp [Hypo.WF, Dict.keys]) (by simp [Dict.keys, oneSetup])
  have hi := Raster.init_spec h1
  cases hi with
  | @cons _ x _ tl k0 ktl =>
    cases ktl
    obtain ⟨k5, a', b', k6, k7⟩ := k0
    obtain ⟨rfl, rfl⟩ := PLRData.HasNlls.unique k1 k6
    obtain ⟨rfl, rfl⟩ := PLRData.HasNlls.unique k1 hn
    have hmax : max 0 (2 * ((2 - 1) * (2 - 1) - 0)) = 2 * (((2:ℝ) - 1) * (2 - 1) - 0) := max_eq_right (by norm_num)
    rw [hmax] at k2
    have hxd : x.2.data = dd := by
      rw [Dict.set_same _ _ _ k2] at k7
      exact k7
    obtain ⟨A, hA⟩ := hdd
    have hx1 : x.1 = [("a", 2)] := k5
    obtain ⟨r2, h2⟩ := fillAll_succeeds .qmutilda [x] (by
      simp only [List.mem_singleton, forall_eq]
      exact ⟨_, by rw [hxd]; exact k4⟩)
    have h2' := fillAllPv_spec h2
    cases h2' with
    | @cons _ y _ tl2 k8 ktl2 =>
      cases ktl2
      obtain ⟨k9, k10⟩ := k8
      have hyA : Dict.get? y.2.data.testStats "tmu_A0" = some A := by
        rw [(fillPv_fixed k10).2.2.2.2 "tmu_A0" (by decide) (by decide), hxd, hA]
      have hr : fillAllPv .qmutilda ([([("a", 2)], ⟨withA, some (theFit 1 0)⟩)] : Raster) =
          .ok [([("a", 2)], ⟨d, some (theFit 1 0)⟩)] := by
        simp [fillAllPv, fillEntry, hd]
      have hfull : fullHypos h0 ([([("a", 2)], ⟨d, some (theFit 1 0)⟩)] : Raster) = [] := by
        have : d.fullHypo = none := f4
        simp [fullHypos, this]
      have hrec : recomputeRaster h0 oneSetup .qmutilda ⟨oneEnv, .ok oneEnv⟩
          ([([("a", 2)], ⟨d, some (theFit 1 0)⟩)] : Raster) s = .ok (s1, [y]) := by
        unfold recomputeRaster fastResults
        rw [hfull]
        simp only [List.map_cons, List.map_nil, hloop, bind_ok, h1, h2]
        rfl
      have hpars : (theFit 2 1).pars oneSetup.m = .ok ⟨[2], []⟩ := rfl
      have hgens : genHypos L oneSetup.m [] ([([("a", 2)], ⟨withA, some (theFit 1 0)⟩)] : Raster) = .ok [⟨[2], []⟩] := by
        have : genPars oneSetup.m (([("a", 2)], ⟨withA, some (theFit 1 0)⟩) : Hypo × REntry) = .ok ⟨[2], []⟩ := hpars
        unfold genHypos
        simp [this]
      have hras : rasters h0 L (theRun n) = .ok ([([("a", 2)], ⟨d, some (theFit 1 0)⟩)], [y], [⟨[2], []⟩]) := by
        unfold rasters
        show (do
          let r ← Raster.loadWithAsimov h0 oneSetup.m ⟨some [pointOut], some [pointOut]⟩
          let gens ← genHypos L oneSetup.m [] r
          let k ← calcKind "q~mu" (Raster.haveCompatiblePois (r.map Prod.fst))
          let s ← calcMin oneSetup
          let r ← fillAllPv k r
          let (_, fast) ← recomputeRaster h0 oneSetup k ⟨oneEnv, .ok oneEnv⟩ r s
          return (r, fast, gens)) = _
        have hk : calcKind "q~mu" (Raster.haveCompatiblePois
            (([([("a", 2)], ⟨withA, some (theFit 1 0)⟩)] : Raster).map Prod.fst)) = .ok .qmutilda := by
          simp [calcKind, Raster.haveCompatiblePois]
        rw [load_all, bind_ok, hgens, bind_ok, hk, bind_ok, hs, bind_ok, hr, bind_ok, hrec]
        rfl
      have hsm : ∃ sm, samplersAt (theRun n) ([("a", 2)], ⟨d, some (theFit 1 0)⟩) y ⟨[2], []⟩ = .ok sm := by
        unfold samplersAt
        have g1 : Dict.getItem y.2.data.testStats "tmu_A0" = .ok A := Dict.getItem_ok.2 hyA
        have g2 : poi0 (theRun n).c.m = .ok "a" := rfl
        have g3 : (⟨[2], []⟩ : Pars ℝ).set (theRun n).c.m "a" 0 false = .ok ⟨[0], []⟩ := rfl
        have g4 : OptiSampler.setPoiValuesAndRanges (theRun n).c.m (theFit 1 0) =
            .ok (⟨[1], []⟩, [("a", .pair (some 0) (some 0))]) := rfl
        rw [g1, bind_ok, g2, bind_ok, g3, bind_ok]
        have : d.freeFit = some (theFit 1 0) := f2
        simp only [this, g4, bind_ok]
        exact ⟨_, rfl⟩
      obtain ⟨sm, hsm⟩ := hsm
      refine ⟨⟨[([("a", 2)], ⟨d, some (theFit 1 0)⟩)], [y], [sm]⟩, ?_, by simp⟩
      unfold prepare
      rw [hras]
      simp only [bind_ok, List.zip_cons_cons, List.zip_nil_right, List.mapM_cons, List.mapM_nil, hsm, pure_ok]

end LimDemo
end Verif
