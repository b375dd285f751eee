import Verif.Model.Markup
import Verif.Model.Tools
import Verif.Model.CmdLine
import Verif.Model.Data
/-!
# Model of the script `prune_model.py` (`/repo/src/fastprof_utils/prune_model.py`), with the pruning tools of
`/repo/src/fastprof/model_tools.py` acting on the Python objects
-/
namespace Verif
namespace Markup

/-! ## The pruning tools on objects -/

/-- The channels of `SamplePruner.prune` (model_tools.py:621-634). -/
noncomputable def pruneChan (minSignif : ℝ) (c : ChanDoc Sample) : ChanDoc Sample :=
  { c with samples := (Verif.pruneSamples minSignif (toChannel c)).samples }

/-- `SamplePruner.prune` (model_tools.py:610-638): `set_internal_vars` is called only if a sample was removed. -/
noncomputable def pruneSamples (minSignif : ℝ) (o : Obj) : Except PyErr Obj :=
  let chans := o.doc.channels.map (pruneChan minSignif)
  if chans.map (·.samples.length) = o.doc.channels.map (·.samples.length) then .ok o
  else initModel (rawDoc { o.doc with channels := chans }) o.flags

/-- `if par.aux_obs : model.aux_obs.pop(par.aux_obs)` (model_tools.py:575). -/
def popAux (aux : List (ModelAux ℝ)) (par : ModelNP ℝ) : Except PyErr (List (ModelAux ℝ)) :=
  match par.aux_obs with
  | none => .ok aux
  | some a =>
    if a = "" then .ok aux
    else if some a ∈ aux.map (·.name) then .ok (aux.filter fun q => decide (q.name ≠ some a))
    else .error .keyError

/-- New nominal yields and normalisations of the samples of a channel (model_tools.py:568-573); `ch` has the samples
without the removed NPs. -/
noncomputable def refitDoc (ne : Nat → Nat → ℝ) (vals : Dict ℝ) (offsets : Dict Nat) (c : ChanDoc Sample × Channel) :
    Except PyErr (ChanDoc RawSample) := do
  let off ← offsets.getItem c.2.name
  let samples ← c.2.samples.zipIdx.mapM fun si => Mdl.refitSample ne vals c.2.nbins off si.2 si.1
  return { name := c.1.name, cls := c.1.cls, samples := samples }

/-- `NPPruner.remove_nps` (model_tools.py:507-584) on the Python object, with internal arrays `A`; see
`Mdl.removeNps`. -/
noncomputable def removeNps (A : Mdl.Arrays) (rx : String → String → Bool) (parValues : Dict (Option ℝ)) (o : Obj) :
    Except PyErr Obj := do
  let sels ← parValues.keys.mapM (o.mdl.selectNps rx)
  let removed := sels.flatten
  let st := removed.foldl (o.mdl.dropNp parValues) (fun _ => 0, o.mdl.channels)
  let m1 : Mdl o.doc.pois.length o.doc.nps.length := { o.mdl with channels := st.2 }
  let ne ← m1.nExp A o.mdl.poiInit st.1
  let vals ← m1.ctx.realVals o.mdl.poiInit
  let chans ← (o.doc.channels.zip st.2).mapM (refitDoc ne vals m1.offsets)
  let aux ← (removed.map fun p => o.doc.nps[p]).foldlM popAux o.doc.aux
  if ¬ removed.Nodup then throw .keyError
  let kept := (List.finRange o.doc.nps.length).filter (fun p => decide (p ∉ removed))
  initModel { rawDoc o.doc with aux := aux, nps := kept.map (fun p => o.doc.nps[p]), channels := chans } o.flags

/-- A channel without the impacts of the pruned NPs (model_tools.py:501-503). -/
def popChan (names : List String) (c : ChanDoc Sample) : Except PyErr (ChanDoc Sample) := do
  return { c with samples := ← c.samples.mapM fun s => Mdl.popAll s names }

/-- `NPPruner.prune` (model_tools.py:486-504); the arrays `A` are not recomputed before `remove_nps`. -/
noncomputable def pruneNps (A : Mdl.Arrays) (rx : String → String → Bool) (minImpact : ℝ) (o : Obj) : Except PyErr Obj := do
  let names := (o.mdl.smallNps A minImpact).map fun p => (o.mdl.nps p).name
  let chans ← o.doc.channels.mapM (popChan names)
  removeNps A rx (names.map fun k => (k, none)) { o with doc := { o.doc with channels := chans } }

/-! ## Datasets of an object -/

/-- The name of a bin of a `MultiBinChannel` in markup. -/
def nameOfBin : V → String
  | .str s => s
  | _ => ""

/-- The edges of a bin of a `BinnedRangeChannel` in markup. -/
noncomputable def edgesOfBin : V → ℝ × ℝ
  | .dict d => match Dict.get? d "lo_edge", Dict.get? d "hi_edge" with
    | some (.num a), some (.num b) => (a, b)
    | _, _ => (0, 0)
  | _ => (0, 0)

/-- The channel as datasets see it (channels.py:219-231, 338-353, 488-500, 661-674). -/
noncomputable def kindOf : ChClass → ChKind
  | .single => .single
  | .range b _ _ => .range (b.map edgesOfBin)
  | .multi b => .multi (b.map nameOfBin)
  | .gauss b _ => .gauss (b.map nameOfBin)

/-- The object as datasets see it. -/
noncomputable def dataModel (o : Obj) : DModel where
  channels := o.doc.channels.map fun c => ⟨c.name, kindOf c.cls⟩
  nps := List.ofFn o.mdl.nps
  nauxs := o.doc.aux.length

/-! ## The script -/

/-- The options of `prune_model.py` (lines 23-33) that matter here. -/
structure PruneOpts where
  nps : Option Cmd.Str := none
  min_np_impact : Option ℝ := none
  min_sample_signif : Option ℝ := none

/-- `model.nps[name].scaled_value(v)`. -/
noncomputable def scaledNp (o : Obj) (name : String) (v : ℝ) : ℝ :=
  match (List.finRange o.doc.nps.length).find? (fun p => decide ((o.mdl.nps p).name = name)) with
  | some p => (o.mdl.nps p).scaledValue v
  | none => v

/-- What `process_setvals` uses of the model. -/
noncomputable def parNames (o : Obj) : Cmd.Names where
  pois := List.ofFn o.mdl.pois
  nps := List.ofFn fun p => (o.mdl.nps p).name
  scaled := scaledNp o

/-- The values returned by `process_setvals` with `check_val=True` are numbers. -/
def asPull (kv : String × Cmd.Val) : Except PyErr (String × Option ℝ) :=
  match kv.2 with
  | .num v => .ok (kv.1, some v)
  | .text _ => .error .unmodelled

/-- `re.match(spec + '$', name)` in model_tools.py:538. -/
def reOf (L : Cmd.Lib) (spec name : String) : Bool := L.reMatch spec.toList name

/-- Lines 49-50. -/
noncomputable def stepSamples (opts : PruneOpts) (o : Obj) : Except PyErr Obj :=
  match opts.min_sample_signif with
  | none => .ok o
  | some z => pruneSamples z o

/-- Lines 52-54. -/
noncomputable def stepNps (L : Cmd.Lib) (opts : PruneOpts) (o : Obj) : Except PyErr Obj :=
  match opts.nps with
  | none => .ok o
  | some spec => do
    let d ← Cmd.processSetvals L (parNames o) { scale_nps := true } spec
    let pv ← d.mapM asPull
    let A ← o.mdl.setInternal
    removeNps A (reOf L) pv o

/-- Lines 56-57. -/
noncomputable def stepImpacts (L : Cmd.Lib) (opts : PruneOpts) (o : Obj) : Except PyErr Obj :=
  match opts.min_np_impact with
  | none => .ok o
  | some ε => do
    let A ← o.mdl.setInternal
    pruneNps A (reOf L) ε o

/-- Lines 44-57: the pruned model. -/
noncomputable def prunedModel (T : Texts) (L : Cmd.Lib) (opts : PruneOpts) (modelFile : Dict V) : Except PyErr Obj := do
  let o ← load T modelFile
  let o ← stepSamples opts o
  let o ← stepNps L opts o
  stepImpacts L opts o

/-- `prune_model.run` (prune_model.py:35-70): the decoded content of the output file.  `Data.load` always returns the
object, so that lines 69-70 (`model.save`) are never reached: a dataset is needed, in the data file or in the model
file.  `save_with_model` is core.py:1516-1529.  The file system and the texts of the files are not modelled. -/
noncomputable def pruneScript (T : Texts) (L : Cmd.Lib) (opts : PruneOpts) (modelFile : Dict V)
    (dataFile : Option (Dict V)) : Except PyErr (Dict V) := do
  let o ← prunedModel T L opts modelFile
  let ds ← DData.loadDict (dataModel o) (dataFile.getD modelFile)
  let out ← save T o
  return Dict.setAll out (← DData.fillDict (dataModel o) ds)

end Markup
end Verif
