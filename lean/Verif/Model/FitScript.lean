import Verif.Model.Expected
import Verif.Model.Cov
import Verif.Model.PruneScript
/-!
# Model of the script `fit_model.py` (`/repo/src/fastprof_utils/fit_model.py`)

The plots, the timing and the texts printed are not modelled, except for the values printed about the tested
hypothesis (`HypoTest`).  scipy is the parameter `opt` (see `Verif.Model.Calc`).
-/
namespace Verif

/-! ## The fit and the report for a model and a dataset -/

/-- Entries of the dictionary written to the output file. -/
inductive RepVal where
  /-- a number -/
  | num (x : ℝ)
  /-- the dictionary `min_pars.dict()` -/
  | pars (d : Dict ℝ)
  /-- the entries `best_fit_value` and `uncertainty` of a POI (`None` without covariance matrix) -/
  | poi (best : ℝ) (uncertainty : Option Flt)
  /-- the correlation matrix (`None` without covariance matrix) -/
  | matrix (rows : Option (List (List Flt)))

/-- `opti = OptiMinimizer(method=...)`, `min_nll = opti.minimize(data)`, `min_pars = opti.min_pars`
(fit_model.py:91-97, minimizers.py:593-594): the NLL, the point and the minimiser afterwards.  After a failed fit
`min_nll` is a pair, which line 97 cannot format as a number (`TypeError`); the same error stands for a minimiser
which never called the objective. -/
noncomputable def bestFit (opt : Optim ℝ) (env : FitEnv ℝ) (m : ParModel ℝ) (pois : List (PoiRange ℝ)) (ref : Pars ℝ)
    (method : String) : Except PyErr (ℝ × Pars ℝ × OptiMin ℝ) := do
  let (p, b) ← setPois m pois ref none none false
  let (st, r) ← minimizeD opt env m { method := method, initPois := p, bounds := b }
  match r, st.minPars with
  | .nll v, some q => return (v, q, { method := st.method, bounds := some b, tmuDebug := 0,
                                      minNll := st.minNll, minPars := st.minPars })
  | _, _ => throw .typeError

namespace Mdl
variable {n P : Nat}

/-- `errors[par] if errors is not None else None` (fit_model.py:114). -/
def uncertaintyOf (errors : Option (Dict Flt)) (par : String) : Except PyErr (Option Flt) :=
  match errors with
  | none => .ok none
  | some E => do return some (← E.getItem par)

/-- The loop over the POIs (fit_model.py:109-114). -/
noncomputable def reportPois (m : Mdl n P) (q : Pars ℝ) (errors : Option (Dict Flt)) (rep : Dict RepVal) :
    Except PyErr (Dict RepVal) :=
  (List.ofFn m.pois).foldlM (fun d par => do
    let v ← q.get m.parModel par
    let u ← uncertaintyOf errors par
    return d.set par (.poi v u)) rep

/-- `errors` and `correlation` (fit_model.py:106-107): both come from the given covariance matrix. -/
noncomputable def errorsAndCorr (m : Mdl n P) (A : Arrays) (x : Fin n → ℝ) (θ : Fin P → ℝ) (d : DataV P) :
    Option (Matrix (Fin n) (Fin n) ℝ) → Except PyErr (Option (Dict Flt) × Option (List (List Flt)))
  | none => .ok (none, none)
  | some C => do
    let E ← m.parabolicErrors A x θ d (some C)
    let R ← m.correlationMatrix A x θ d (some C)
    return (some E, some (List.ofFn fun i => List.ofFn fun j => R i j))

/-- The dictionary `output_data` (fit_model.py:101-121). -/
noncomputable def fitReport (m : Mdl n P) (A : Arrays) (d : DataV P) (v : ℝ) (q : Pars ℝ) : Except PyErr (Dict RepVal) := do
  let rep : Dict RepVal := [("min_nll", .num v), ("min_pars", .pars (q.dict m.parModel))]
  let x : Fin n → ℝ := fun i => q.pois.getD i 0
  let θ : Fin P → ℝ := fun a => q.nps.getD a 0
  let (errors, corr) ← m.errorsAndCorr A x θ d (m.covarianceMatrix A x θ d)
  let rep ← m.reportPois q errors rep
  return rep.set "correlation_matrix" (.matrix corr)

/-- What is printed about the tested hypothesis (fit_model.py:129-144). -/
structure HypoTest where
  tmu : ℝ
  pars : Pars ℝ
  /-- best-fit value, `tmu`, `q~mu`, `pv` and `cls`, for models with one POI -/
  qtilda : Option (ℝ × ℝ × ℝ × ℝ × ℝ)

/-- Lines 133-144: the best-fit value printed is `opti.free_pars.pois[0]`, that of the last free fit. -/
noncomputable def testQTilda (m : Mdl n P) (A : Arrays) (d : DataV P) (c : CalcSetup) (hypo : Dict ℝ) (s : OptiMin ℝ) :
    Except PyErr (ℝ × ℝ × ℝ × ℝ × ℝ) := do
  let _ ← m.asimovData A d
  let (s', r) ← fastQ c .qmutilda (m.dataEnv A 1 (some (1 / 10 ^ 7)) d) hypo none s
  match s'.minPars with
  | none => throw .attributeError
  | some p =>
    match p.pois with
    | [] => throw .indexError
    | best :: _ =>
      let t ← r.testStats.getItem "tmu"
      let q ← r.testStats.getItem "q~mu"
      let pv ← r.pvs.getItem "pv"
      let cls ← r.pvs.getItem "cls"
      return (best, t, q, pv, cls)

/-- Lines 133-144, for models with one POI only. -/
noncomputable def testOne (m : Mdl n P) (A : Arrays) (d : DataV P) (c : CalcSetup) (hypo : Dict ℝ) (s : OptiMin ℝ) :
    Except PyErr (Option (ℝ × ℝ × ℝ × ℝ × ℝ)) :=
  if n = 1 then do return some (← m.testQTilda A d c hypo s) else .ok none

/-- Lines 129-144. -/
noncomputable def testHypo (m : Mdl n P) (A : Arrays) (d : DataV P) (c : CalcSetup) (hypo : Dict ℝ) (s : OptiMin ℝ) :
    Except PyErr HypoTest := do
  let (s1, o) ← s.tmu c.opt c.m c.pois (m.fitEnv A d 1 (some (1 / 10 ^ 7))) c.ref hypo
  return ⟨o.tmu, o.hypoPars, ← m.testOne A d c hypo s1⟩

/-- `if options.hypo is not None` (line 129). -/
noncomputable def testHypoOpt (m : Mdl n P) (A : Arrays) (d : DataV P) (c : CalcSetup) (s : OptiMin ℝ) :
    Option (Dict ℝ) → Except PyErr (Option HypoTest)
  | none => .ok none
  | some hypo => do return some (← m.testHypo A d c hypo s)

/-- Lines 91-153 of fit_model.py for a model and a dataset: the dictionary of the output file, and what is printed
about the hypothesis.  The file is written at the end, after the test of the hypothesis. -/
noncomputable def fitModel (m : Mdl n P) (A : Arrays) (d : DataV P) (c : CalcSetup) (method : String)
    (hypo : Option (Dict ℝ)) : Except PyErr (Dict RepVal × Option HypoTest) := do
  let (v, q, s) ← bestFit c.opt (m.fitEnv A d 1 (some (1 / 10 ^ 7))) c.m c.pois c.ref method
  let rep ← m.fitReport A d v q
  return (rep, ← m.testHypoOpt A d c s hypo)

end Mdl

/-! ## The script -/
namespace Markup

/-- The options of `fit_model.py` (lines 33-48) other than the files, the plots and the printing.  `iterations` is
read and not used. -/
structure FitOpts where
  hypo : Option Cmd.Str := none
  asimov : Option Cmd.Str := none
  setrange : Option Cmd.Str := none
  method : String := "scalar"
  linear_nps : Bool := false
  iterations : Int := 1
  regularize : Option ℝ := none
  cutoff : Option ℝ := none

/-- `Model.create(file, use_linear_nps=...)` (core.py:1169-1185). -/
noncomputable def createModel (T : Texts) (linear : Bool) (modelFile : Dict V) : Except PyErr Obj := do
  initModel (← loadDoc T [] modelFile) { use_linear_nps := linear }

/-- `model.cutoff = options.cutoff` (line 66). -/
noncomputable def withCutoff (o : Obj) : Option ℝ → Obj
  | none => o
  | some c => { o with flags := { o.flags with cutoff := c } }

/-- `process_setranges(options.setrange, model)` (line 67). -/
noncomputable def withRanges (L : Cmd.Lib) (o : Obj) : Option Cmd.Str → Except PyErr Obj
  | none => .ok o
  | some spec =>
    match Cmd.processSetranges L spec (o.doc.pois.map fun p => (p.name.getD "", p)) with
    | (_, some e) => .error e
    | (d, none) => .ok { o with doc := { o.doc with pois := d.values } }

/-- `process_setvals(text, model)` (lines 75, 84), with numbers for values. -/
noncomputable def parseVals (L : Cmd.Lib) (o : Obj) (text : Cmd.Str) : Except PyErr (Dict ℝ) :=
  match Cmd.processSetvals L (parNames o) {} text with
  | .error _ => .error .valueError
  | .ok d => d.mapM fun kv => match kv.2 with
    | .num v => .ok (kv.1, v)
    | .text _ => .error .unmodelled

/-- The dataset as the likelihood sees it. -/
noncomputable def toDataV (P : Nat) (s : DData.DS) : Mdl.DataV P :=
  ⟨fun b => s.counts.getD b 0, fun p => s.aux_obs.getD p 0⟩

/-- Lines 69-81: the dataset that is fitted. -/
noncomputable def fitData (L : Cmd.Lib) (o : Obj) (A : Mdl.Arrays) (asimov : Option Cmd.Str) (modelFile : Dict V)
    (dataFile : Option (Dict V)) : Except PyErr (Mdl.DataV o.doc.nps.length) :=
  match dataFile, asimov with
  | some F, _ => do return toDataV _ (← DData.loadDict (dataModel o) F)
  | none, some spec => do
    let sets ← parseVals L o spec
    o.mdl.generateExpected A (.pois (.dict sets)) none
  | none, none => do return toDataV _ (← DData.loadDict (dataModel o) modelFile)

/-- Lines 83-88. -/
noncomputable def fitHypo (L : Cmd.Lib) (o : Obj) : Option Cmd.Str → Except PyErr (Option (Dict ℝ))
  | none => .ok none
  | some spec => do return some (← parseVals L o spec)

/-- The ranges of the POIs (`poi.name`, `poi.min_value`, `poi.max_value`). -/
noncomputable def poiRanges (o : Obj) : List (PoiRange ℝ) :=
  o.doc.pois.map fun p => ⟨p.name.getD "", p.min_value, p.max_value⟩

/-- The optimiser, model, ranges and reference point used by the fits. -/
noncomputable def fitSetup (opt : Optim ℝ) (o : Obj) : CalcSetup where
  opt := opt
  m := o.mdl.parModel
  pois := poiRanges o
  ref := ⟨List.ofFn o.mdl.poiInit, List.replicate o.doc.nps.length 0⟩

/-- Lines 61-67: the model that is fitted.  `set_gamma_regularization` does not exist (`AttributeError`). -/
noncomputable def fitInput (T : Texts) (L : Cmd.Lib) (opts : FitOpts) (modelFile : Dict V) : Except PyErr Obj := do
  let o ← createModel T opts.linear_nps modelFile
  if opts.regularize.isSome then throw .attributeError
  withRanges L (withCutoff o opts.cutoff) opts.setrange

/-- `fit_model.run` (fit_model.py:52-160): the dictionary of the output file, and what is printed about the
hypothesis. -/
noncomputable def fitScript (T : Texts) (L : Cmd.Lib) (opt : Optim ℝ) (opts : FitOpts) (modelFile : Dict V)
    (dataFile : Option (Dict V)) : Except PyErr (Dict RepVal × Option Mdl.HypoTest) := do
  let o ← fitInput T L opts modelFile
  let A ← o.mdl.setInternal
  let d ← fitData L o A opts.asimov modelFile dataFile
  let hypo ← fitHypo L o opts.hypo
  o.mdl.fitModel A d (fitSetup opt o) opts.method hypo

end Markup
end Verif
