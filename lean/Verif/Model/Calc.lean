import Verif.Model.POIMin
import Verif.Model.FitData
import Verif.Model.NPMin
import Verif.Model.TestStat
/-!
# Model of repeated use of a minimiser and of the calculators
`OptiMinimizer.tmu` (`/repo/src/fastprof/minimizers.py:674-710`) on a minimiser that keeps its state
from call to call, and `/repo/src/fastprof/calculators.py:24-430`.

scipy optimisers are deterministic functions of the objective (here: of the fit environment), the
method, the start point and the bounds of the free parameters (`Optim`).
-/
namespace Verif

/-- The scipy optimisers: the run for a given objective, method, start point and free bounds. -/
abbrev Optim (K : Type) := FitEnv K → String → Pars K → List (Nat × ParBound K) → OptRun K

section
variable {K : Type} [Field K] [LinearOrder K]

/-- The attributes of an `OptiMinimizer` that a call of `tmu` reads or changes
(minimizers.py:274-300, 543-571).  `bounds` is `None` before the first use unless the user set it;
`rebound` is a number of attempts. -/
structure OptiMin (K : Type) where
  method : String
  altMethod : Option String := none
  rebound : Nat := 0
  bounds : Option (Dict (ParBound K)) := none
  tmuDebug : K
  minNll : Option K := none
  minPars : Option (Pars K) := none

/-- The run of the optimiser in a `minimize` call on the given state (minimizers.py:597-646): the method
is the one after the switch from `scalar` when several parameters are free. -/
def optRun (opt : Optim K) (env : FitEnv K) (st : MinSt K) : Except PyErr (OptRun K) := do
  let free ← freeBounds st.bounds
  return opt env (if free.length > 1 ∧ st.method = "scalar" then "L-BFGS-B" else st.method)
    st.initPois free

/-- `minimize` with the run of the optimiser filled in. -/
def minimizeD (opt : Optim K) (env : FitEnv K) (m : ParModel K) (st : MinSt K) :
    Except PyErr (MinSt K × MinRet K) := do
  let run ← optRun opt env st
  minimize env m st run

/-- `POIMinimizer.tmu` (minimizers.py:399-448) on a minimiser in any state.  The hypothesis fit uses a
clone (549-555), which has the method of the original but none of its fit state. -/
def OptiMin.attempt (opt : Optim K) (m : ParModel K) (pois : List (PoiRange K)) (env : FitEnv K)
    (init : Pars K) (hypo : Dict K) (s : OptiMin K) : Except PyErr (OptiMin K × TmuOut K) := do
  let (pf, bf) ← setPois m pois init (s.bounds.map Dict.values) (some hypo) false
  let (ph, bh) ← setPois m pois init (some bf.values) (some hypo) true
  let (sh, _) ← minimizeD opt env m { method := s.method, initPois := ph, bounds := bh }
  let (sf, _) ← minimizeD opt env m { method := s.method, initPois := pf, bounds := bf,
                                      minNll := s.minNll, minPars := s.minPars }
  match sh.minNll, sf.minNll, sh.minPars, sf.minPars with
  | some h, some f, some hp, some fp =>
    let t := 2 * (h - f)
    return ({ s with method := sf.method, bounds := some bf, minNll := some f, minPars := some fp,
                     tmuDebug := if t < -(1 / 10 ^ 10) then t else s.tmuDebug },
            ⟨tmuValue h f, h, f, hp, fp⟩)
  | _, _, _, _ => throw .typeError

/-- `OptiMinimizer.tmu` (minimizers.py:674-710).  The `rebound` branch iterates over the *names* in
`self.bounds` as if they were pairs of numbers: adding a number and a character raises `TypeError`
(`IndexError` for an empty name or a one-letter name after the first step; one error is used here).
The alternate method is used once, since `alt_method` is then reset. -/
def OptiMin.tmu (opt : Optim K) (m : ParModel K) (pois : List (PoiRange K)) (env : FitEnv K)
    (init : Pars K) (hypo : Dict K) (s : OptiMin K) : Except PyErr (OptiMin K × TmuOut K) := do
  let (s1, o1) ← s.attempt opt m pois env init hypo
  if o1.tmu = 0 ∧ s1.tmuDebug < 0 then
    if s1.method = "scalar" ∧ s1.rebound > 0 then throw .typeError
    match s1.altMethod with
    | none => return (s1, o1)
    | some alt =>
      -- self.tmu again, now with no alternate method
      let (s2, o2) ← OptiMin.attempt opt m pois env init hypo
        { s1 with method := alt, altMethod := none }
      if o2.tmu = 0 ∧ s2.tmuDebug < 0 ∧ s2.method = "scalar" ∧ s2.rebound > 0 then throw .typeError
      return (s2, o2)
  else return (s1, o1)

end

/-! ### The fit environment of a statistical model -/

/-- The model as seen by `Parameters`. -/
def Mdl.parModel {n P : Nat} (m : Mdl n P) : ParModel ℝ := ⟨List.ofFn m.pois, List.ofFn m.nps⟩

/-- What `OptiMinimizer` calls for a model and a dataset: `profile_nps` (minimizers.py:373-397) with
`niter` iterations, and `nll(..., floor=self.floor)`.  Arrays of the wrong length do not multiply
(`ValueError`); an infinite NLL is not followed further. -/
noncomputable def Mdl.fitEnv {n P : Nat} (m : Mdl n P) (A : Mdl.Arrays) (d : Mdl.DataV P) (niter : Nat)
    (floor : Option ℝ) : FitEnv ℝ where
  profile := fun p =>
    if p.pois.length = n ∧ p.nps.length = P then do
      let θ ← m.profileNps A (fun i => p.pois.getD i 0) d niter (fun a => p.nps.getD a 0)
      return ⟨p.pois, List.ofFn θ⟩
    else .error .valueError
  nll := fun p =>
    if p.pois.length = n ∧ p.nps.length = P then do
      match ← m.nll A (fun i => p.pois.getD i 0) (fun a => p.nps.getD a 0) d true floor with
      | .fin v => return v
      | _ => throw .unmodelled
    else .error .valueError

/-- A dataset as the calculators use it: the fits to it, and the fits to the Asimov dataset generated
from it (calculators.py:149). -/
structure DataEnv where
  fit : FitEnv ℝ
  asimov : Except PyErr (FitEnv ℝ)

/-- `data.model.generate_expected(0, NPMinimizer(data))` (calculators.py:149, core.py:1092-1114,
1153-1166): all POIs at 0, the NPs profiled on the data starting from 0. -/
noncomputable def Mdl.asimovData {n P : Nat} (m : Mdl n P) (A : Mdl.Arrays) (d : Mdl.DataV P) :
    Except PyErr (Mdl.DataV P) := do
  let θ ← m.profile A 0 0 d
  m.generateAsimov A 0 θ

/-- A dataset of a model. -/
noncomputable def Mdl.dataEnv {n P : Nat} (m : Mdl n P) (A : Mdl.Arrays) (niter : Nat)
    (floor : Option ℝ) (d : Mdl.DataV P) : DataEnv where
  fit := m.fitEnv A d niter floor
  asimov := do
    let a ← m.asimovData A d
    return m.fitEnv A a niter floor

/-! ### Calculators -/

/-- The fixed inputs of a calculator: optimiser, model, its POI ranges and reference point
(`model.ref_pars`, core.py:473). -/
structure CalcSetup where
  opt : Optim ℝ
  m : ParModel ℝ
  pois : List (PoiRange ℝ)
  ref : Pars ℝ

/-- The three calculators (calculators.py:214, 320, 377). -/
inductive CalcKind where
  | tmu | qmu | qmutilda
deriving DecidableEq

/-- `cls.poi(plr_data)` (calculators.py:76-94): the first POI of the hypothesis. -/
def calcPoi (d : PLRData) : Except PyErr String :=
  match Dict.keys d.hypo with
  | [] => .error .keyError
  | n :: _ => .ok n

/-- `plr_data.free_fit.fitpars[poi].value`. -/
def bestOf (d : PLRData) (poi : String) : Except PyErr ℝ :=
  match d.freeFit with
  | none => .error .attributeError
  | some f => do
    match (← Dict.getItem f.fitpars poi).value with
    | some v => return v
    | none => throw .typeError

/-- `QMuCalculator.make_q` (calculators.py:338-349).  Arguments are evaluated in the order of the code. -/
noncomputable def makeQMu (d : PLRData) : Except PyErr QMu := do
  let poi ← calcPoi d
  let test ← d.hypo.getItem poi
  let t ← d.testStats.getItem "tmu"
  let best ← bestOf d poi
  let a ← d.testStats.getItem "tmu_A0"
  return QMu.init test t best none (some a) none

/-- `QMuTildaCalculator.make_q` (calculators.py:396-408): no `tmu_0` argument. -/
noncomputable def makeQMuTilda (d : PLRData) : Except PyErr QMuTilda := do
  let poi ← calcPoi d
  let test ← d.hypo.getItem poi
  let t ← d.testStats.getItem "tmu"
  let best ← bestOf d poi
  let a ← d.testStats.getItem "tmu_A0"
  return QMuTilda.init test t best none none (some a) (some a)

/-- `TMuCalculator.make_q` (calculators.py:231-241). -/
noncomputable def makeTMu (d : PLRData) : Except PyErr TMu := do
  let t ← d.testStats.getItem "tmu"
  return ⟨d.hypo.values, t⟩

/-- `fill_pv` of the three calculators (calculators.py:243-260, 351-373, 410-430). -/
noncomputable def fillPv (k : CalcKind) (d : PLRData) : Except PyErr PLRData :=
  match k with
  | .tmu => do
    let q ← makeTMu d
    return { d with pvs := d.pvs.set "pv" q.asymptoticPv }
  | .qmu => do
    let q ← makeQMu d
    let pv ← q.asymptoticPv
    let cls ← q.asymptoticCls
    let clb ← q.asymptoticClb
    return { d with testStats := d.testStats.set "q_mu" q.value
                    pvs := ((d.pvs.set "pv" pv).set "cls" cls).set "clb" clb }
  | .qmutilda => do
    let q ← makeQMuTilda d
    let pv ← q.asymptoticPv
    let cls ← q.asymptoticCls
    let clb ← q.asymptoticClb
    return { d with testStats := d.testStats.set "q~mu" q.value
                    pvs := ((d.pvs.set "pv" pv).set "cls" cls).set "clb" clb }

/-- `compute_fast_plr` (calculators.py:106-130): the new state of the minimiser and the PLR data.  `full`
is `full_hypo`; the fits start there, or at the reference point of the model if it is `None`. -/
noncomputable def fastPlr (c : CalcSetup) (env : FitEnv ℝ) (hypo : Hypo) (full : Option (Pars ℝ))
    (s : OptiMin ℝ) : Except PyErr (OptiMin ℝ × PLRData) := do
  let d ← PLRData.update c.m ⟨hypo, none, none, [], [], full⟩
  let (s', o) ← s.tmu c.opt c.m c.pois env (full.getD c.ref) hypo
  let ff ← FitResult.init c.m (some o.freePars) (some o.freeNll) none
  let hf ← FitResult.init c.m (some o.hypoPars) (some o.hypoNll) none
  let d ← PLRData.update c.m { d with testStats := d.testStats.set "tmu" o.tmu
                                      freeFit := some ff, hypoFit := some hf }
  return (s', d)

/-- `compute_fast_q` (calculators.py:132-155). -/
noncomputable def fastQ (c : CalcSetup) (k : CalcKind) (data : DataEnv) (hypo : Hypo)
    (full : Option (Pars ℝ)) (s : OptiMin ℝ) : Except PyErr (OptiMin ℝ × PLRData) := do
  let (s1, d) ← fastPlr c data.fit hypo full s
  let ae ← data.asimov
  let (s2, a) ← fastPlr c ae hypo full s1
  let d ← d.setAsimov a
  let d ← fillPv k d
  return (s2, d)

/-- The loop of `compute_fast_results` (calculators.py:186-190). -/
noncomputable def fastLoop (h : List String → ℕ) (c : CalcSetup) (k : CalcKind) (data : DataEnv)
    (full : HDict (Pars ℝ)) : List Hypo → OptiMin ℝ → Raster → Except PyErr (OptiMin ℝ × Raster)
  | [], s, r => .ok (s, r)
  | hy :: hs, s, r => do
    let (s', d) ← fastQ c k data hy (full.get? h hy) s
    fastLoop h c k data full hs s' (r.set h hy ⟨d, none⟩)

/-- `self.fill_pv` on one entry. -/
noncomputable def fillEntry (k : CalcKind) (e : Hypo × REntry) : Except PyErr (Hypo × REntry) := do
  let d ← fillPv k e.2.data
  return (e.1, ⟨d, e.2.keyFreeFit⟩)

/-- `fill_all_pv` (calculators.py:157-168). -/
noncomputable def fillAllPv (k : CalcKind) (r : Raster) : Except PyErr Raster := r.mapM (fillEntry k)

/-- `compute_fast_results` (calculators.py:170-193). -/
noncomputable def fastResults (h : List String → ℕ) (c : CalcSetup) (k : CalcKind) (data : DataEnv)
    (hypos : List Hypo) (full : HDict (Pars ℝ)) (s : OptiMin ℝ) :
    Except PyErr (OptiMin ℝ × Raster) := do
  let (s', r) ← fastLoop h c k data full hypos s []
  let r ← Raster.init h c.m r
  let r ← fillAllPv k r
  return (s', r)

/-- The entries `{ hypo : plr_data.full_hypo ... if plr_data.full_hypo is not None }` (calculators.py:211). -/
noncomputable def fullHypos (h : List String → ℕ) (r : Raster) : HDict (Pars ℝ) :=
  r.foldl (fun d e => match e.2.data.fullHypo with
    | some p => d.set h e.1 p
    | none => d) []

/-- `recompute_raster` (calculators.py:195-211). -/
noncomputable def recomputeRaster (h : List String → ℕ) (c : CalcSetup) (k : CalcKind) (data : DataEnv)
    (r : Raster) (s : OptiMin ℝ) : Except PyErr (OptiMin ℝ × Raster) :=
  fastResults h c k data (r.map Prod.fst) (fullHypos h r) s

/-! ### `TMuCalculator.compute_fast_results` -/

/-- The `free_fit` argument (calculators.py:279). -/
inductive FreeFit where
  | all | single | bestFixed
deriving DecidableEq

/-- The check of the `free_fit` argument (calculators.py:279-280). -/
def FreeFit.ofString (s : String) : Except PyErr FreeFit :=
  if s = "all" then .ok .all
  else if s = "single" then .ok .single
  else if s = "best_fixed_fit" then .ok .bestFixed
  else .error .valueError

/-- State of the loop of `TMuCalculator.compute_fast_results`: the minimiser, and for each hypothesis its
PLR data and the point of its fixed fit. -/
abbrev TmuAcc := HDict (PLRData × Pars ℝ)

/-- The minimum stored by a fit as numbers; it is `None` only when the optimiser failed before any
evaluation, in which case the later arithmetic raises `TypeError`. -/
def MinSt.result (st : MinSt ℝ) : Except PyErr (ℝ × Pars ℝ) :=
  match st.minNll, st.minPars with
  | some v, some p => .ok (v, p)
  | _, _ => .error .typeError

/-- One iteration of that loop (calculators.py:284-301).  `set_pois` is called without bounds, so the
minimiser's own bounds are replaced by the ranges of the model. -/
noncomputable def tmuStep (h : List String → ℕ) (c : CalcSetup) (mode : FreeFit) (env : FitEnv ℝ)
    (full : HDict (Pars ℝ)) (hy : Hypo) (s : OptiMin ℝ) (r : TmuAcc) :
    Except PyErr (OptiMin ℝ × TmuAcc) := do
  let fh := full.get? h hy
  let d ← PLRData.update c.m ⟨hy, none, none, [], [], fh⟩
  let init := fh.getD c.ref
  let (pf, bf) ← setPois c.m c.pois init none (some hy) false
  let (ph, bh) ← setPois c.m c.pois init (some bf.values) (some hy) true
  let (sh, _) ← minimizeD c.opt env c.m { method := s.method, initPois := ph, bounds := bh }
  let (vh, qh) ← sh.result
  let hf ← FitResult.init c.m (some qh) (some vh) none
  match mode with
  | .all =>
    let (sf, _) ← minimizeD c.opt env c.m { method := s.method, initPois := pf, bounds := bf,
                                            minNll := s.minNll, minPars := s.minPars }
    let (vf, qf) ← sf.result
    let ff ← FitResult.init c.m (some qf) (some vf) none
    return ({ s with method := sf.method, bounds := some bf, minNll := some vf, minPars := some qf },
      r.set h hy ({ d with hypoFit := some hf, freeFit := some ff }, qh))
  | _ => return ({ s with bounds := some bf }, r.set h hy ({ d with hypoFit := some hf }, qh))

/-- The loop. -/
noncomputable def tmuLoop (h : List String → ℕ) (c : CalcSetup) (mode : FreeFit) (env : FitEnv ℝ)
    (full : HDict (Pars ℝ)) : List Hypo → OptiMin ℝ → TmuAcc → Except PyErr (OptiMin ℝ × TmuAcc)
  | [], s, r => .ok (s, r)
  | hy :: hs, s, r => do
    let (s', r') ← tmuStep h c mode env full hy s r
    tmuLoop h c mode env full hs s' r'

/-- `plr_data[1].hypo_fit.nll` of an entry as a number. -/
noncomputable def hypoNllOf (e : Hypo × (PLRData × Pars ℝ)) :
    Except PyErr ((Hypo × (PLRData × Pars ℝ)) × ℝ) :=
  match e.2.1.hypoFit with
  | none => .error .attributeError
  | some f => match f.nll with
    | none => .error .typeError
    | some x => .ok (e, x)

open Classical in
/-- `min(items, key=...)`: the first of the smallest. -/
noncomputable def argMinBy {α : Type} : α × ℝ → List (α × ℝ) → α × ℝ
  | b, [] => b
  | b, x :: l => argMinBy (if x.2 < b.2 then x else b) l

/-- The common free fit (calculators.py:304-314); `min` of nothing raises `ValueError`.  In the `single`
mode `set_pois` receives the `POIHypo` object as `hypo`. -/
noncomputable def commonFit (c : CalcSetup) (mode : FreeFit) (env : FitEnv ℝ) (r : TmuAcc)
    (s : OptiMin ℝ) : Except PyErr (OptiMin ℝ × FitResult) := do
  match ← r.mapM hypoNllOf with
  | [] => throw .valueError
  | x :: l =>
    let best := argMinBy x l
    match mode with
    | .bestFixed =>
      let f ← FitResult.init c.m (some best.1.2.2) (some best.2) none
      return (s, f)
    | _ =>
      let (pf, bf) ← setPois c.m c.pois c.ref (s.bounds.map Dict.values) (some best.1.1) false
      let (sf, _) ← minimizeD c.opt env c.m { method := s.method, initPois := pf, bounds := bf,
                                              minNll := s.minNll, minPars := s.minPars }
      let (v, q) ← sf.result
      let f ← FitResult.init c.m (some q) (some v) none
      return ({ s with method := sf.method, bounds := some bf, minNll := some v, minPars := some q }, f)

/-- The data given to `update`: with the common free fit if there is one (calculators.py:313-314). -/
def withFree (f : Option FitResult) (d : PLRData) : PLRData :=
  match f with
  | some f => { d with freeFit := some f }
  | none => d

/-- `fast_plr_data[hypo].free_fit = common_free_fit` then `update` for each hypothesis of the list
(calculators.py:313-316), on the entry stored under that hypothesis. -/
noncomputable def tmuFinish (h : List String → ℕ) (c : CalcSetup) (f : Option FitResult) :
    List Hypo → TmuAcc → Except PyErr TmuAcc
  | [], r => .ok r
  | hy :: hs, r => do
    let e ← HDict.getItem h r hy
    let d ← PLRData.update c.m (withFree f e.1)
    tmuFinish h c f hs (r.set h hy (d, e.2))

/-- The free fit shared by all hypotheses, if any (calculators.py:303-312). -/
noncomputable def freeStage (c : CalcSetup) (mode : FreeFit) (env : FitEnv ℝ) (r : TmuAcc)
    (s : OptiMin ℝ) : Except PyErr (OptiMin ℝ × Option FitResult) :=
  match mode with
  | .all => .ok (s, none)
  | _ => do
    let (s, f) ← commonFit c mode env r s
    return (s, some f)

/-- `TMuCalculator.compute_fast_results` (calculators.py:262-317) on a list of `POIHypo` objects. -/
noncomputable def tmuResults (h : List String → ℕ) (c : CalcSetup) (env : FitEnv ℝ) (hypos : List Hypo)
    (full : HDict (Pars ℝ)) (freeFit : String) (s : OptiMin ℝ) :
    Except PyErr (OptiMin ℝ × Raster) := do
  let mode ← FreeFit.ofString freeFit
  let (s, r) ← tmuLoop h c mode env full hypos s []
  let (s, f) ← freeStage c mode env r s
  let r ← tmuFinish h c f hypos r
  let r ← Raster.init h c.m (r.map fun e => (e.1, ⟨e.2.1, none⟩))
  let r ← fillAllPv .tmu r
  return (s, r)

end Verif
