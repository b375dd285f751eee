import Verif.Model.Calc
/-!
# Model of the raster files kept by the scripts `compute_fast_limits.py` and `poi_scan.py`
(`/repo/src/fastprof_utils/compute_fast_limits.py:98-196`, `/repo/src/fastprof_utils/poi_scan.py:67-140`)

Both scripts keep the raster they compute in a file and use it again in later runs.  A run is given by
what it reads besides that file (model, dataset, hypotheses, options); printing, plots and timing are not
modelled.
-/
namespace Verif

/-- The raster file: not there, not readable (the beginning of a JSON document, left by a process which was
stopped while writing it), or the list stored under the name of the raster, `fast`. -/
inductive RFile where
  | missing
  | broken
  | stored (l : List (Dict (MVal ℝ)))

/-- `Raster('fast', model=model).load(raster_file)` (base.py:35-52, fit_data.py:560-574): `none` when the
file is missing (`FileNotFoundError`, caught by both scripts); `JSONDecodeError` is a `ValueError`, which is
not caught. -/
noncomputable def RFile.load (h : List String → ℕ) (m : ParModel ℝ) : RFile → Except PyErr (Option Raster)
  | .missing => .ok none
  | .broken => .error .valueError
  | .stored l => do
    let r ← Raster.loadDict h m l
    return some r

/-- `{ hypo : model.expected_pars(hypo.pars) for hypo in hypos }` (compute_fast_limits.py:189,
core.py:1092-1114 without minimiser). -/
noncomputable def expectedHypos (h : List String → ℕ) (m : ParModel ℝ) :
    List Hypo → HDict (Pars ℝ) → Except PyErr (HDict (Pars ℝ))
  | [], d => .ok d
  | hy :: hs, d => do
    let p ← Pars.init m (.dict hy) none
    expectedHypos h m hs (d.set h hy p)

/-- A run of `compute_fast_limits.py`: the model and optimiser, the test statistic, the data, the
hypotheses, the new minimiser with its bounds, and the option `--overwrite`. -/
structure FastRun where
  c : CalcSetup
  k : CalcKind
  data : DataEnv
  hypos : List Hypo
  s : OptiMin ℝ
  overwrite : Bool

namespace FastRun

/-- The computation (compute_fast_limits.py:189-191): the raster, and what `save` writes. -/
noncomputable def compute (h : List String → ℕ) (run : FastRun) :
    Except PyErr (List (Dict (MVal ℝ)) × Raster) := do
  let full ← expectedHypos h run.c.m run.hypos []
  let (_, r) ← fastResults h run.c run.k run.data run.hypos full run.s
  let l ← Raster.fillDict run.c.m r
  return (l, r)

/-- The raster a run uses and the file it leaves (compute_fast_limits.py:172-191).  The file is written
only after everything was computed (base.py:66-67). -/
noncomputable def run (h : List String → ℕ) (run : FastRun) (file : RFile) : RFile × Except PyErr Raster :=
  match file.load h run.c.m with
  | .error e => (file, .error e)
  | .ok loaded =>
    match loaded, run.overwrite with
    | some r, false => (file, .ok r)
    | _, _ =>
      match run.compute h with
      | .error e => (file, .error e)
      | .ok (l, r) => (.stored l, .ok r)

/-- The file left by a run which is stopped while it writes the file (base.py:67-69), if it comes to
that. -/
noncomputable def crash (h : List String → ℕ) (run : FastRun) (file : RFile) : RFile :=
  match file.load h run.c.m with
  | .error _ => file
  | .ok loaded =>
    match loaded, run.overwrite with
    | some _, false => file
    | _, _ =>
      match run.compute h with
      | .error _ => file
      | .ok _ => .broken

end FastRun

/-- A run of `poi_scan.py`: the hypotheses if given, and the options `--best-fit-mode`,
`--force-computation` and `--overwrite`. -/
structure ScanRun where
  c : CalcSetup
  env : FitEnv ℝ
  hypos : Option (List Hypo)
  s : OptiMin ℝ
  freeFit : String
  force : Bool
  overwrite : Bool

namespace ScanRun

open Classical in
/-- The check of a loaded raster (poi_scan.py:104-116): does it have to be computed again? -/
noncomputable def check (hs : List Hypo) (overwrite : Bool) (r : Raster) : Except PyErr Bool := do
  let dc ← if r.length ≠ hs.length then (if overwrite then pure true else throw .keyError)
    else pure false
  if hs.all (fun hy => r.any (fun e => decide (e.1.eqv hy))) then return dc
  else if overwrite then return true
  else throw .keyError

/-- The raster loaded at the start, if any (poi_scan.py:91-96). -/
noncomputable def loaded (h : List String → ℕ) (run : ScanRun) (file : RFile) :
    Except PyErr (Option Raster) :=
  if run.force then .ok none else file.load h run.c.m

/-- The hypotheses, and the raster to use without computation (poi_scan.py:91-118). -/
noncomputable def plan (h : List String → ℕ) (run : ScanRun) (file : RFile) :
    Except PyErr (List Hypo × Option Raster) := do
  let loaded ← run.loaded h file
  match run.hypos, loaded with
  | some hs, none => return (hs, none)
  | some hs, some r => do
    let dc ← check hs run.overwrite r
    return (hs, if dc then none else some r)
  | none, none => return ([], none)
  | none, some r => return (r.map Prod.fst, some r)

/-- The computation (poi_scan.py:128-139).  (With the default verbosity an empty list of hypotheses raises
`ZeroDivisionError` in the printout of the time per point, calculators.py:299.) -/
noncomputable def compute (h : List String → ℕ) (run : ScanRun) (hs : List Hypo) :
    Except PyErr (List (Dict (MVal ℝ)) × Raster) := do
  if (Raster.haveCompatiblePois hs).length > 2 then throw .valueError
  let (_, r) ← tmuResults h run.c run.env hs [] run.freeFit run.s
  let l ← Raster.fillDict run.c.m r
  return (l, r)

/-- The scan itself needs the name of a POI (poi_scan.py:158-189): `pois[0]` raises `IndexError` when
`have_compatible_pois` gave nothing. -/
def finish (hs : List Hypo) (r : Raster) : Except PyErr Raster :=
  if Raster.haveCompatiblePois hs = [] then .error .indexError else .ok r

/-- The raster a run scans and the file it leaves (poi_scan.py:88-189). -/
noncomputable def run (h : List String → ℕ) (run : ScanRun) (file : RFile) : RFile × Except PyErr Raster :=
  match run.plan h file with
  | .error e => (file, .error e)
  | .ok (hs, some r) => (file, finish hs r)
  | .ok (hs, none) =>
    match run.compute h hs with
    | .error e => (file, .error e)
    | .ok (l, r) => (.stored l, finish hs r)

end ScanRun
end Verif
