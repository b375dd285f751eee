import Verif.Model.LockProto
import Verif.Model.OptiSampler
import Verif.Model.Scans
import Verif.Model.CmdLine
import Verif.Spec.Sampling
/-!
# Model of the script `compute_limits.py` (`/repo/src/fastprof_utils/compute_limits.py`)

The plots and the printout are not modelled; `--debug` is off.  A run without toys (`ntoys` 0) ends after the
printout (line 170).  The option `--asimov` gives `generate_expected` a list of lists of texts, which `np.array`
turns into a two-dimensional array or refuses: always `ValueError` (lines 119-126, core.py:91-92); for the other ways
to select a dataset, the dataset is an input of the model.
-/
namespace Verif

/-! ### Reading the fits (fit_data.py:408-439, 586-598) -/

/-- The lists stored under `data` and `asimov` in the file given with `--fits-file`. -/
structure FitsFile where
  data : Option (List (Dict (MVal ℝ)))
  asimov : Option (List (Dict (MVal ℝ)))

/-- `sdict[self.name]` (fit_data.py:568). -/
def FitsFile.part : Option (List (Dict (MVal ℝ))) → Except PyErr (List (Dict (MVal ℝ)))
  | some l => .ok l
  | none => .error .keyError

/-- `Raster('data', model=model, filename=...)` (fit_data.py:436-439, 586-598): both rasters are loaded, the Asimov
values are attached by position, and the stages of the constructor are applied again. -/
noncomputable def Raster.loadWithAsimov (h : List String → ℕ) (m : ParModel ℝ) (f : FitsFile) :
    Except PyErr Raster := do
  let l ← FitsFile.part f.data
  let r ← Raster.loadDict h m l
  let la ← FitsFile.part f.asimov
  let a ← Raster.loadDict h m la
  let r ← Raster.setAsimov r a
  Raster.init h m r

namespace LimScr

/-! ### Options and preparation -/

/-- What a run of the script reads: model and optimiser, data, fits, and the options. -/
structure Run where
  c : CalcSetup
  data : DataEnv
  fits : FitsFile
  sethypo : Cmd.Str := []
  genBounds : List (ParBound ℝ) := []
  testStat : String := "q~mu"
  ntoys : ℕ
  cl : ℝ := 95 / 100
  bands : Option ℕ := none
  truncate : Option ℝ := none
  breakLocks : Bool := false

/-- One assignment of `--sethypo` for one point (compute_limits.py:107-110).  The message printed after the
assignment calls `plr_data.hypo.dict`, which `POIHypo` does not have. -/
noncomputable def setHypoOne (L : Cmd.Lib) (m : ParModel ℝ) (hypo : Hypo) (p : Pars ℝ) (field : List Cmd.Str) :
    Except PyErr (Pars ℝ) := do
  let (var, val) ← Cmd.unpack2 field
  if String.ofList var ∉ Dict.keys hypo then throw .valueError
  match L.float val with
  | none => throw .valueError
  | some v => do
    let _ ← p.set m (String.ofList var) v false
    throw .attributeError

/-- `plr_data.hypo_fit.pars()` (compute_limits.py:101). -/
noncomputable def genPars (m : ParModel ℝ) (e : Hypo × REntry) : Except PyErr (Pars ℝ) :=
  match e.2.data.hypoFit with
  | none => .error .attributeError
  | some f => f.pars m

/-- The loop over the points for `--sethypo` (compute_limits.py:104-110). -/
noncomputable def setHypoLoop (L : Cmd.Lib) (m : ParModel ℝ) (text : Cmd.Str) (r : Raster) (gens : List (Pars ℝ)) :
    Except PyErr (List (Pars ℝ)) :=
  (r.zip gens).mapM fun x => (Cmd.fields text).foldlM (setHypoOne L m x.1.2.data.hypo) x.2

/-- The generation parameters (compute_limits.py:100-113): all exceptions of the `try` block become
`ValueError`. -/
noncomputable def genHypos (L : Cmd.Lib) (m : ParModel ℝ) (text : Cmd.Str) (r : Raster) :
    Except PyErr (List (Pars ℝ)) := do
  let gens ← r.mapM (genPars m)
  if text = [] then return gens
  match setHypoLoop L m text r gens with
  | .ok l => return l
  | .error _ => throw .valueError

/-- The calculator (compute_limits.py:149-157). -/
def calcKind (testStat : String) (pois : List String) : Except PyErr CalcKind :=
  if testStat = "q~mu" then (if pois.length > 1 then .error .valueError else .ok .qmutilda)
  else if testStat = "q_mu" then (if pois.length > 1 then .error .valueError else .ok .qmu)
  else .error .valueError

/-- The minimiser of the calculator, `OptiMinimizer().set_pois(model)` (compute_limits.py:151, minimizers.py:312-342,
541-563). -/
noncomputable def calcMin (c : CalcSetup) : Except PyErr (OptiMin ℝ) := do
  let (_, b) ← setPois c.m c.pois c.ref none none false
  return { method := "scalar", bounds := some b, tmuDebug := 0 }

/-- A sampler: its settings, and the `bounds` of its minimiser. -/
structure Smp where
  cfg : OptiSampler.Cfg
  bounds : Dict OptiSampler.BoundVal

/-- `model.poi(0).name` (core.py:532-541): `None.name` without POIs. -/
def poi0 (m : ParModel ℝ) : Except PyErr String :=
  match m.pois with
  | [] => .error .attributeError
  | n :: _ => .ok n

/-- The two samplers of a point (compute_limits.py:179-189): the Asimov value is the one of the fast raster, the same
for both arguments; the second one is generated with the first POI *of the model* set to 0. -/
noncomputable def samplersAt (run : Run) (e : Hypo × REntry) (fast : Hypo × REntry) (gen : Pars ℝ) :
    Except PyErr (Smp × Smp) := do
  let a ← fast.2.data.testStats.getItem "tmu_A0"
  let n0 ← poi0 run.c.m
  let gen0 ← gen.set run.c.m n0 0 false
  match e.2.data.freeFit with
  | none => throw .attributeError
  | some f => do
    let (_, b) ← OptiSampler.setPoiValuesAndRanges run.c.m f
    return (⟨⟨e.2.data.hypo, gen, run.genBounds, some a, some a⟩, b⟩,
            ⟨⟨e.2.data.hypo, gen0, run.genBounds, some a, some a⟩, b⟩)

/-- What is known before the toys are generated: the raster of the file with its p-values, the recomputed one, and
the samplers. -/
structure Plan where
  raster : Raster
  faster : Raster
  samplers : List (Smp × Smp)

/-- The two rasters (compute_limits.py:99, 149-168). -/
noncomputable def rasters (h : List String → ℕ) (L : Cmd.Lib) (run : Run) :
    Except PyErr (Raster × Raster × List (Pars ℝ)) := do
  let r ← Raster.loadWithAsimov h run.c.m run.fits
  let gens ← genHypos L run.c.m run.sethypo r
  let k ← calcKind run.testStat (Raster.haveCompatiblePois (r.map Prod.fst))
  let s ← calcMin run.c
  let r ← fillAllPv k r
  let (_, fast) ← recomputeRaster h run.c k run.data r s
  return (r, fast, gens)

/-- The preparation (compute_limits.py:99-191). -/
noncomputable def prepare (h : List String → ℕ) (L : Cmd.Lib) (run : Run) : Except PyErr Plan := do
  let (r, fast, gens) ← rasters h L run
  let s ← ((r.zip fast).zip gens).mapM fun x => samplersAt run x.1.1 x.1.2 x.2
  return ⟨r, fast, s⟩

/-! ### The samples on disk -/

/-- The directory: results and lock files by name, without their extension. -/
structure Dir where
  files : String → Option Lock.Content
  locks : String → Bool

/-- `Samples.file_name` (sampling.py:262-275); `g` is `'%g' % val`. -/
def fileName (g : ℝ → String) (root : String) (a : Hypo) : String :=
  "_".intercalate (root :: (Dict.values a).map g)

/-- The body of the loop of `Samples.generate_and_save` (sampling.py:298-313) when no other job interferes: `out` is
what the sampler returns if it is asked.  An exception leaves the lock file behind. -/
noncomputable def oneHypo (f : String) (ntoys : ℕ) (brk : Bool) (out : Except PyErr (List ℝ)) (d : Dir) :
    Dir × Except PyErr (Option (List ℝ)) :=
  match d.files f with
  | some c =>
    match SampDist.load (SampDist.init ntoys none) c.read with
    | .ok s => (d, .ok (some s))
    | .error e => (d, .error e)
  | none =>
    if d.locks f && !brk then (d, .ok none)
    else
      match out with
      | .error e => ({ d with locks := Function.update d.locks f true }, .error e)
      | .ok s =>
        (⟨Function.update d.files f (some (.complete (SampDist.save s))), Function.update d.locks f false⟩,
          .ok (some (SampDist.save s)))

/-- `Samples.generate_and_save` (sampling.py:277-314) on the hypotheses with the outcomes of their samplers. -/
noncomputable def genSave (h : List String → ℕ) (fname : Hypo → String) (ntoys : ℕ) (brk : Bool) :
    List (Hypo × Except PyErr (List ℝ)) → Dir → HDict (List ℝ) → Dir × Except PyErr (HDict (List ℝ))
  | [], d, acc => (d, .ok acc)
  | (a, out) :: l, d, acc =>
    match oneHypo (fname a) ntoys brk out d with
    | (d', .error e) => (d', .error e)
    | (d', .ok none) => genSave h fname ntoys brk l d' acc
    | (d', .ok (some s)) => genSave h fname ntoys brk l d' (acc.set h a s)

/-- `sampler.generate(ntoys)` may have this outcome: it is the one for some sequence of pseudo-datasets (with the
minimiser as `set_poi_values_and_ranges` left it). -/
def Outcome (c : CalcSetup) (ntoys : ℕ) (s : Smp) (out : Except PyErr (List ℝ)) : Prop :=
  ∃ (dat : ℕ → SampEnv) (st : ℕ → OptiSampler.St) (fuel : ℕ),
    Sampler.generate (fun i => do
      let (_, v) ← OptiSampler.computeAny c s.cfg s.bounds (dat i) (st i)
      return v) 20 ntoys fuel = some out

/-! ### The results -/

/-- `SamplingDistribution.cut(None, v)` for all hypotheses (sampling.py:412-425). -/
noncomputable def cutAll (h : List String → ℕ) (v : ℝ) (hypos : List Hypo) (d : HDict (List ℝ)) :
    Except PyErr (HDict (List ℝ)) :=
  hypos.foldlM (fun d a => do
    let l ← d.getItem h a
    return d.set h a (SampDist.cut l none (some v))) d

/-- `if options.truncate_dist : opti_samples.cut(None, options.truncate_dist)` (compute_limits.py:198,
sampling.py:575-588). -/
noncomputable def cutStage (h : List String → ℕ) (v : Option ℝ) (s : CLsSamples) : Except PyErr CLsSamples :=
  match SampDist.truthy v with
  | none => .ok s
  | some v => do
    let a ← cutAll h v s.clsb.hypos s.clsb.dists
    let b ← cutAll h v s.cl_b.hypos s.cl_b.dists
    return ⟨⟨s.clsb.hypos, a⟩, ⟨s.cl_b.hypos, b⟩⟩

/-- The p-values stored at a point (compute_limits.py:202-205). -/
noncomputable def samplingPoint (h : List String → ℕ) (s : CLsSamples) (e : Hypo × REntry) :
    Except PyErr (Hypo × SPoint) := do
  let pv ← e.2.data.pvs.getItem "pv"
  let sb ← s.clsb.pvErr h e.2.data.hypo pv
  let b ← s.cl_b.pvErr h e.2.data.hypo pv
  let cls ← s.pvErr h e.2.data.hypo pv
  let pvs : Dict SVal := e.2.data.pvs.map (fun kv => (kv.1, SVal.num kv.2))
  let pvs := Dict.set pvs "sampling_pv" (.pair sb.1 sb.2)
  let pvs := Dict.set pvs "sampling_clb" (.pair b.1 b.2)
  let pvs := Dict.set pvs "sampling_cls" (.pair cls.1 cls.2)
  return (e.1, ⟨pvs, e.2.data.testStats.map (fun kv => (kv.1, SVal.num kv.2))⟩)

/-- `'sampling_cls_%+d' % band` (compute_limits.py:210). -/
def bandKey (i : ℤ) : String := "sampling_cls_" ++ (if i < 0 then "-" else "+") ++ toString i.natAbs

/-- `np.linspace(-bands, bands, 2*bands + 1)` (compute_limits.py:209). -/
def bandOrders (b : ℕ) : List ℤ := (List.range (2 * b + 1)).map fun k : ℕ => (k : ℤ) - b

/-- One round of the loop over the bands (compute_limits.py:210). -/
def addBand (r : SRaster) (i : ℤ) (vals : List ℝ) : SRaster :=
  r.zipWith (fun e v => (e.1, { e.2 with pvs := e.2.pvs.set (bandKey i) (.num v) })) vals ++ r.drop vals.length

/-- `if options.bands : ...` (compute_limits.py:207-210). -/
noncomputable def bandStage (h : List String → ℕ) (s : CLsSamples) (bands : Option ℕ) (r : SRaster) :
    Except PyErr SRaster :=
  match bands with
  | none => .ok r
  | some 0 => .ok r
  | some b => do
    let bds ← (bandOrders b).mapM fun i => do return (i, ← s.band Spec.normCdf h i)
    return bds.foldl (fun r x => addBand r x.1 x.2) r

/-- `UpperLimitScan(...)` and `limit()` (scans.py:394-435). -/
noncomputable def upper (L : SplineLib) (pois : List String) (r : SRaster) (key : String) (cl : ℝ) :
    Except PyErr (Option ℝ) := do
  Scan.init r key
  let poi ← Scan.findPoi pois none
  Scan.limit L key poi r cl

/-- The same with errors. -/
noncomputable def upperErr (L : SplineLib) (pois : List String) (r : SRaster) (key : String) (cl : ℝ) :
    Except PyErr (Option (ℝ × ℝ × ℝ)) := do
  Scan.init r key
  let poi ← Scan.findPoi pois none
  Scan.limitErr L key poi r cl

/-- The limits for the bands (compute_limits.py:227-232); without the option there are none. -/
noncomputable def bandLimits (L : SplineLib) (pois : List String) (r : SRaster) (bands : Option ℕ) :
    Except PyErr (List (ℤ × Option ℝ)) :=
  match bands with
  | none => .ok []
  | some 0 => .ok []
  | some b => (bandOrders b).mapM fun i => do return (i, ← upper L pois r (bandKey i) (95 / 100))

/-- The content of the results file (compute_limits.py:249-267); `None` values, and the triplet of them returned
without crossing, are `none`. -/
structure Report where
  cl : ℝ
  poiName : String
  samplingCls : Option (ℝ × ℝ × ℝ)
  asyCls : Option ℝ
  asyClsFast : Option ℝ
  samplingClsb : Option (ℝ × ℝ × ℝ)
  asyClsb : Option ℝ
  asyClsbFast : Option ℝ
  bands : List (ℤ × Option ℝ)

/-- `poi = raster.pois[list(raster.pois)[0]]` (compute_limits.py:200). -/
def firstPoi (pois : List String) : Except PyErr String :=
  match pois with
  | [] => .error .indexError
  | n :: _ => .ok n

/-- From the samples to the results (compute_limits.py:198-267). -/
noncomputable def finish (L : SplineLib) (h : List String → ℕ) (run : Run) (plan : Plan) (s : CLsSamples) :
    Except PyErr Report := do
  let s ← cutStage h run.truncate s
  let pois := Raster.haveCompatiblePois (plan.raster.map Prod.fst)
  let _ ← firstPoi pois
  let r ← plan.raster.mapM (samplingPoint h s)
  let r ← bandStage h s run.bands r
  let fpois := Raster.haveCompatiblePois (plan.faster.map Prod.fst)
  let a1 ← upper L pois r "pv" run.cl
  let a2 ← upper L fpois (SRaster.ofRaster plan.faster) "pv" run.cl
  let a3 ← upperErr L pois r "sampling_pv" run.cl
  let a4 ← upper L pois r "cls" run.cl
  let a5 ← upper L fpois (SRaster.ofRaster plan.faster) "cls" run.cl
  let a6 ← upperErr L pois r "sampling_cls" run.cl
  let b ← bandLimits L pois r run.bands
  let n0 ← poi0 run.c.m
  return ⟨run.cl, n0, a6, a4, a5, a3, a1, a2, b⟩

/-- The hypotheses of the samplers (sampling.py:249). -/
def Plan.hypos (p : Plan) : List Hypo := p.samplers.map fun s => s.1.cfg.testHypo

/-- The directory and the results file. -/
structure Disk where
  dir : Dir
  results : Option Report

/-- The library functions used, the name of the output, and `'%g' % x`. -/
structure Libs where
  cmd : Cmd.Lib
  spl : SplineLib
  g : ℝ → String
  root : String

/-- From the plan to the results (compute_limits.py:193-267); `out` are the outcomes of the samplers, in the order of
the points.  `Samples([])` raises `ValueError` (sampling.py:246-247). -/
noncomputable def sampleAndFinish (B : Libs) (h : List String → ℕ) (run : Run) (plan : Plan)
    (out : List (Except PyErr (List ℝ) × Except PyErr (List ℝ))) (d : Dir) : Dir × Except PyErr Report :=
  if plan.hypos = [] then (d, .error .valueError)
  else
    match genSave h (fileName B.g B.root) run.ntoys run.breakLocks (plan.hypos.zip (out.map Prod.fst)) d [] with
    | (d, .error e) => (d, .error e)
    | (d, .ok sb) =>
      match genSave h (fileName B.g (B.root ++ "_clb")) run.ntoys run.breakLocks
          (plan.hypos.zip (out.map Prod.snd)) d [] with
      | (d, .error e) => (d, .error e)
      | (d, .ok b) => (d, finish B.spl h run plan ⟨⟨plan.hypos, sb⟩, ⟨plan.hypos, b⟩⟩)

/-- `run` (compute_limits.py:87-267): what it leaves on disk, and whether it ended with an exception.  The results are
written at the very end. -/
noncomputable def exec (B : Libs) (h : List String → ℕ) (run : Run)
    (out : List (Except PyErr (List ℝ) × Except PyErr (List ℝ))) (d : Disk) : Disk × Except PyErr Unit :=
  match rasters h B.cmd run with
  | .error e => (d, .error e)
  | .ok _ =>
    if run.ntoys = 0 then (d, .ok ())
    else
      match prepare h B.cmd run with
      | .error e => (d, .error e)
      | .ok plan =>
        match sampleAndFinish B h run plan out d.dir with
        | (d', .error e) => (⟨d', d.results⟩, .error e)
        | (d', .ok rep) => (⟨d', some rep⟩, .ok ())

end LimScr
end Verif
