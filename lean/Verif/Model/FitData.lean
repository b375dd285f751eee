import Verif.Model.Hypo
import Verif.Model.Params
/-!
# Model of fit results and rasters (`/repo/src/fastprof/fit_data.py`)

Markup values are `MVal ℝ`.  The pointer to the statistical model is passed to each method (`m`; the
`model is None` branches are not modelled).  String formatting is not modelled.
-/
namespace Verif

/-- `FitParameter` (fit_data.py:102-134): a `ModelPOI` with a value and an error. -/
@[ext] structure FitPar where
  poi : ModelPOI ℝ
  value : Option ℝ
  error : Option ℝ

namespace FitPar

/-- `FitParameter(name, value=..)` (fit_data.py:115-134); `unit` is not passed on to the base class. -/
def new (name : String) (value : Option ℝ) : FitPar := ⟨{ name := some name }, value, none⟩

/-- `FitParameter.load_dict` (fit_data.py:150-162). -/
noncomputable def loadDict (self : FitPar) (d : Dict (MVal ℝ)) : Except PyErr FitPar := do
  let poi ← self.poi.loadDict d
  let value ← loadNum "value" d none
  let error ← loadNum "error" d none
  return ⟨poi, value, error⟩

/-- `FitParameter.fill_dict` (fit_data.py:164-172). -/
noncomputable def fillDict (p : FitPar) (d : Dict (MVal ℝ)) : Dict (MVal ℝ) :=
  let d := p.poi.fillDict d
  let d := d.setOpt "value" p.value .num
  d.setOpt "error" p.error .num

/-- `par.name`, a string in all uses (a name `None` is not modelled). -/
def name (p : FitPar) : String := p.poi.name.getD ""

end FitPar

/-- `FitResult` (fit_data.py:175-206). -/
structure FitResult where
  fitpars : Dict FitPar
  nll : Option ℝ

namespace FitResult

/-- The loop over POIs in `FitResult.__init__` (fit_data.py:200). -/
noncomputable def fillPois (m : ParModel ℝ) (p : Pars ℝ) :
    List String → Dict FitPar → Except PyErr (Dict FitPar)
  | [], d => .ok d
  | n :: ns, d => do
    let v ← p.get m n
    fillPois m p ns (d.set n (.new n (some v)))

/-- The loop over NPs in `FitResult.__init__` (fit_data.py:201): unscaled values. -/
noncomputable def fillNps (m : ParModel ℝ) (p : Pars ℝ) :
    List (NP ℝ) → Dict FitPar → Except PyErr (Dict FitPar)
  | [], d => .ok d
  | np :: nps, d => do
    let v ← p.get m np.name
    fillNps m p nps (d.set np.name (.new np.name (some (np.unscaledValue v))))

/-- The hypothesis values in `FitResult.__init__` (fit_data.py:202-203). -/
def fillHypo (hypo : Hypo) (d : Dict FitPar) : Dict FitPar :=
  d.setAll (hypo.map (fun kv => (kv.1, .new kv.1 (some kv.2))))

/-- `FitResult.__init__` (fit_data.py:185-206). -/
noncomputable def init (m : ParModel ℝ) (fitpars : Option (Pars ℝ)) (nll : Option ℝ)
    (hypo : Option Hypo) : Except PyErr FitResult := do
  let d ← match fitpars with
    | some p => do
      let d ← fillPois m p m.pois []
      fillNps m p m.nps d
    | none => .ok []
  let d := match hypo with
    | some h => fillHypo h d
    | none => d
  return ⟨d, nll⟩

/-- `{ par.name : par.value for par in self.fitpars.values() }` (fit_data.py:214). -/
def parDict (r : FitResult) : Dict (Option ℝ) :=
  Dict.setAll [] ((Dict.values r.fitpars).map (fun p => (p.name, p.value)))

/-- The same with all values set; a value `None` makes the arithmetic of `Parameters` fail. -/
def numDict : Dict (Option ℝ) → Except PyErr (Dict ℝ)
  | [] => .ok []
  | (k, some v) :: d => do return (k, v) :: (← numDict d)
  | (_, none) :: _ => .error .typeError

/-- `FitResult.pars` (fit_data.py:208-215). -/
noncomputable def pars (m : ParModel ℝ) (r : FitResult) : Except PyErr (Pars ℝ) := do
  let d ← numDict r.parDict
  let p ← Pars.init m (.dict d) none
  p.setFromDict m d true

/-- The loop in `FitResult.load_dict` (fit_data.py:241-243). -/
noncomputable def loadPars : List (String × MVal ℝ) → Dict FitPar → Except PyErr (Dict FitPar)
  | [], d => .ok d
  | (k, .dict pd) :: l, d => do
    let fp ← (FitPar.new k none).loadDict pd
    loadPars l (d.set fp.name fp)
  | (_, _) :: _, _ => .error .typeError

/-- `FitResult.load_dict` (fit_data.py:233-245). -/
noncomputable def loadDict (self : FitResult) (sd : Dict (MVal ℝ)) : Except PyErr FitResult := do
  match ← sd.getItem "fit_pars" with
  | .dict l =>
    let fp ← loadPars l self.fitpars
    let nll ← (← sd.getItem "nll").toNum?
    return ⟨fp, nll⟩
  | _ => .error .attributeError

/-- `FitResult.fill_dict` (fit_data.py:247-254). -/
noncomputable def fillDict (r : FitResult) (sd : Dict (MVal ℝ)) : Dict (MVal ℝ) :=
  let sd := sd.set "fit_pars"
    (.dict (Dict.setAll [] ((Dict.values r.fitpars).map (fun p => (p.name, .dict (p.fillDict []))))))
  sd.set "nll" (.ofNum r.nll)

end FitResult

/-- `PLRData` (fit_data.py:265-311).  The `asimov` pointer only records where `tmu_A0` came from and is not
kept; p-values given as (value, error) pairs are not modelled. -/
structure PLRData where
  hypo : Hypo
  freeFit : Option FitResult
  hypoFit : Option FitResult
  testStats : Dict ℝ
  pvs : Dict ℝ
  fullHypo : Option (Pars ℝ)

namespace PLRData

/-- `PLRData.compute_tmu` (fit_data.py:323-330); a missing fit or NLL raises. -/
noncomputable def computeTmu (d : PLRData) : Except PyErr PLRData :=
  match d.hypoFit, d.freeFit with
  | some hf, some ff =>
    match hf.nll, ff.nll with
    | some a, some b => .ok { d with testStats := d.testStats.set "tmu" (2 * (a - b)) }
    | _, _ => .error .typeError
  | _, _ => .error .attributeError

/-- `PLRData.update` (fit_data.py:312-321): a hypothesis on something which is not a POI of the model
raises `KeyError`; `tmu` is computed when both fits are there and it is not. -/
noncomputable def update (m : ParModel ℝ) (d : PLRData) : Except PyErr PLRData :=
  if ∀ n ∈ Dict.keys d.hypo, n ∈ m.pois then
    if d.freeFit.isSome ∧ d.hypoFit.isSome ∧ "tmu" ∉ Dict.keys d.testStats then d.computeTmu
    else .ok d
  else .error .keyError

/-- `PLRData.set_asimov` (fit_data.py:332-345). -/
def setAsimov (d a : PLRData) (key : String := "tmu_A0") : Except PyErr PLRData := do
  return { d with testStats := d.testStats.set key (← a.testStats.getItem "tmu") }

/-- A dict of numbers as markup and back (`sdict['test_statistics'] = self.test_statistics`). -/
def numsOut (d : Dict ℝ) : MVal ℝ := .dict (d.map (fun kv => (kv.1, .num kv.2)))

/-- An entry of such a dict; `e` is what happens with a value which is not a number. -/
def numEntry (e : PyErr) (kv : String × MVal ℝ) : Except PyErr (String × ℝ) :=
  match kv.2 with
  | .num x => .ok (kv.1, x)
  | _ => .error e

/-- The dict of numbers read back. -/
def numsIn : MVal ℝ → Except PyErr (Dict ℝ)
  | .dict l => l.mapM (numEntry .unmodelled)
  | _ => .error .unmodelled

/-- `POIHypo.load_dict` (fit_data.py:74-83): `float(..)` of each value, assigned in turn. -/
noncomputable def hypoIn : MVal ℝ → Except PyErr Hypo
  | .dict l => do
    let vs ← l.mapM (numEntry .typeError)
    return Dict.setAll [] vs
  | _ => .error .attributeError

/-- `PLRData.fill_dict` (fit_data.py:364-377). -/
noncomputable def fillDict (m : ParModel ℝ) (d : PLRData) : Except PyErr (Dict (MVal ℝ)) := do
  let sd : Dict (MVal ℝ) := Dict.set [] "hypo" (numsOut (Dict.setAll [] d.hypo))
  let sd := sd.setOpt "full_hypo" d.fullHypo (fun p => numsOut (p.dict m))
  match d.freeFit, d.hypoFit with
  | some ff, some hf =>
    let sd := sd.set "free_fit" (.dict (ff.fillDict []))
    let sd := sd.set "hypo_fit" (.dict (hf.fillDict []))
    let sd := sd.set "test_statistics" (numsOut d.testStats)
    return sd.set "pvs" (numsOut d.pvs)
  | _, _ => .error .attributeError

/-- `sdict[key]` passed to a `load_dict`. -/
def asDict : MVal ℝ → Except PyErr (Dict (MVal ℝ))
  | .dict l => .ok l
  | _ => .error .typeError

/-- `PLRData.load_dict` (fit_data.py:347-362), into a fresh object.  `full_hypo` is rebuilt from the POI
values only, with all NPs at their nominal values. -/
noncomputable def loadDict (m : ParModel ℝ) (sd : Dict (MVal ℝ)) : Except PyErr PLRData := do
  let hypo ← hypoIn (← sd.getItem "hypo")
  let fullHypo ← match sd.get? "full_hypo" with
    | some v => do
      let d ← numsIn v
      let p ← Pars.init m (.dict d) none
      .ok (some p)
    | none => .ok none
  let ff0 ← FitResult.init m none none none
  let ff ← ff0.loadDict (← asDict (← sd.getItem "free_fit"))
  let hf0 ← FitResult.init m none none (some hypo)
  let hf ← hf0.loadDict (← asDict (← sd.getItem "hypo_fit"))
  let ts ← match sd.get? "test_statistics" with
    | some v => numsIn v
    | none => .ok []
  let pvs ← match sd.get? "pvs" with
    | some v => numsIn v
    | none => .ok []
  update m ⟨hypo, some ff, some hf, ts, pvs, fullHypo⟩

end PLRData

/-- An entry of `Raster.plr_data`: the PLR data, and the attribute `free_fit` that
`set_global_best_fit` gives to the *key* object. -/
structure REntry where
  data : PLRData
  keyFreeFit : Option FitResult := none

/-- `Raster` (fit_data.py:391-439): the dict `plr_data` from hypotheses to PLR data. -/
abbrev Raster := HDict REntry

namespace Raster

/-- `min(nlls, key=nlls.get)` (fit_data.py:529): the first of the smallest. -/
noncomputable def argMin : Hypo × ℝ → List (Hypo × ℝ) → Hypo × ℝ
  | b, [] => b
  | b, x :: l => argMin (if x.2 < b.2 then x else b) l

/-- `plr_data.free_fit.nll` as a number. -/
noncomputable def freeNll (e : Hypo × REntry) : Except PyErr (Hypo × ℝ) :=
  match e.2.data.freeFit with
  | none => .error .attributeError
  | some f => match f.nll with
    | none => .error .typeError
    | some x => .ok (e.1, x)

/-- `Raster.set_global_best_fit` (fit_data.py:515-530).  The final loop runs over the *keys* of the
dict: it sets an attribute of the hypothesis objects. -/
noncomputable def setGlobalBestFit (h : List String → ℕ) (r : Raster) : Except PyErr Raster := do
  match ← r.mapM freeNll with
  | [] => return r
  | x :: l =>
    let best ← HDict.getItem h r (argMin x l).1
    return r.map (fun e => (e.1, { e.2 with keyFreeFit := best.data.freeFit }))

/-- `plr_data.compute_tmu()` on one entry. -/
noncomputable def tmuEntry (e : Hypo × REntry) : Except PyErr (Hypo × REntry) := do
  let d ← e.2.data.computeTmu
  return (e.1, ⟨d, e.2.keyFreeFit⟩)

/-- `Raster.compute_tmu` (fit_data.py:550-558). -/
noncomputable def computeTmu (r : Raster) : Except PyErr Raster := r.mapM tmuEntry

/-- `Raster.have_compatible_pois` (fit_data.py:442-460): fewer than two hypotheses count as none. -/
def haveCompatiblePois : List Hypo → List String
  | [] => []
  | [_] => []
  | a :: l => if l.any (fun b => Dict.keys b ≠ Dict.keys a) then [] else Dict.keys a

/-- `if self.use_global_best_fit : self.set_global_best_fit()` (fit_data.py:437, 572). -/
noncomputable def bestFitStage (h : List String → ℕ) (g : Bool) (r : Raster) : Except PyErr Raster :=
  if g then setGlobalBestFit h r else .ok r

/-- `if self.fill_missing : self.compute_tmu()` (fit_data.py:438, 573). -/
noncomputable def tmuStage (f : Bool) (r : Raster) : Except PyErr Raster :=
  if f then computeTmu r else .ok r

/-- `Raster.set_pois` (fit_data.py:503-513): a name which is not a POI of the model raises. -/
noncomputable def setPois (m : ParModel ℝ) (r : Raster) : Except PyErr Raster :=
  if ∀ n ∈ haveCompatiblePois (r.map Prod.fst), n ∈ m.pois then .ok r else .error .keyError

/-- `Raster.__init__` (fit_data.py:408-439) with `plr_data` given and no file. -/
noncomputable def init (h : List String → ℕ) (m : ParModel ℝ) (r : Raster)
    (useGlobalBestFit fillMissing : Bool := true) : Except PyErr Raster := do
  let r ← bestFitStage h useGlobalBestFit r
  let r ← tmuStage fillMissing r
  setPois m r

/-- `plr_data.set_asimov(asimov_data, local_key)` on one pair of entries. -/
def asimovEntry (key : String) (e : (Hypo × REntry) × (Hypo × REntry)) :
    Except PyErr (Hypo × REntry) := do
  let d ← e.1.2.data.setAsimov e.2.2.data key
  return (e.1.1, ⟨d, e.1.2.keyFreeFit⟩)

/-- `Raster.set_asimov` (fit_data.py:532-548): entries are paired by position. -/
def setAsimov (r a : Raster) (key : String := "tmu_A0") : Except PyErr Raster :=
  if r.length ≠ a.length then .error .keyError
  else (r.zip a).mapM (asimovEntry key)

/-- `Raster.is_filled` (fit_data.py:487-501). -/
def isFilled (r : Raster) (key : String) (only_pv only_ts : Bool := false) : Bool :=
  !(r.any (fun e =>
    (decide (key ∉ Dict.keys e.2.data.pvs) && !only_ts) &&
    (decide (key ∉ Dict.keys e.2.data.testStats) && !only_pv)))

/-- `Raster.fill_dict` (fit_data.py:576-584): the list stored under the raster's name. -/
noncomputable def fillDict (m : ParModel ℝ) (r : Raster) : Except PyErr (List (Dict (MVal ℝ))) :=
  r.mapM (fun e => e.2.data.fillDict m)

/-- The loop of `Raster.load_dict` (fit_data.py:568-570). -/
noncomputable def loadEntries (h : List String → ℕ) (m : ParModel ℝ) :
    List (Dict (MVal ℝ)) → Raster → Except PyErr Raster
  | [], r => .ok r
  | d :: l, r => do
    let p ← PLRData.loadDict m d
    loadEntries h m l (r.set h p.hypo ⟨p, none⟩)

/-- `Raster.load_dict` (fit_data.py:560-574) into an empty raster, given the list stored under its
name. -/
noncomputable def loadDict (h : List String → ℕ) (m : ParModel ℝ) (l : List (Dict (MVal ℝ)))
    (useGlobalBestFit fillMissing : Bool := true) : Except PyErr Raster := do
  let r ← loadEntries h m l []
  let r ← setPois m r
  let r ← bestFitStage h useGlobalBestFit r
  tmuStage fillMissing r

/-- `Raster.key_value` (fit_data.py:462-485).  `pois` is the attribute set by `set_pois`. -/
noncomputable def keyValue (h : List String → ℕ) (pois : List String) (r : Raster) (key : String)
    (hypo : Hypo) : Except PyErr (Option ℝ) := do
  match HDict.get? h r hypo with
  | none => throw .keyError
  | some e =>
    match pois.find? (fun poi => (key = poi && (Dict.keys hypo).contains poi) || key = "best_" ++ poi) with
    | some poi =>
      if key = poi ∧ poi ∈ Dict.keys hypo then return Dict.get? hypo poi
      else match e.data.freeFit with
        | none => throw .attributeError
        | some f => return (← Dict.getItem f.fitpars poi).value
    | none =>
      match Dict.get? e.data.pvs key with
      | some v => return some v
      | none => match Dict.get? e.data.testStats key with
        | some v => return some v
        | none => throw .keyError

end Raster
end Verif
