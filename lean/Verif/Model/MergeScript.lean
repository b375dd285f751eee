import Verif.Model.Markup
import Verif.Model.Merge
import Verif.Model.CmdLine
import Verif.Model.PruneScript
/-!
# Model of the script `merge_channels.py` (`/repo/src/fastprof_utils/merge_channels.py`), with `ChannelMerger`
(`/repo/src/fastprof/model_tools.py:133-315`) acting on the Python objects
-/
namespace Verif
namespace Markup

/-! ## The option `--channels` -/

/-- An entry of `merge_specs` (merge_channels.py:68). -/
structure MergeSpec where
  name : String
  channels : List String
  ranges : Option (List (ℝ × ℝ))

/-- Lines 58-63: one channel, with its range if one is given. -/
def parseChannel (L : Cmd.Lib) (channel : Cmd.Str) : Except PyErr (String × Option (ℝ × ℝ)) :=
  match channel.splitOn ':' with
  | [c] => .ok (String.ofList c, none)
  | [c, lo, hi] =>
    match L.float lo, L.float hi with
    | some a, some b => .ok (String.ofList c, some (a, b))
    | _, _ => .error .valueError
  | _ => .error .valueError

/-- Lines 64-67. -/
def checkRanges (n : Nat) (ranges : List (ℝ × ℝ)) : Except PyErr (Option (List (ℝ × ℝ))) :=
  if ranges.length = 0 then .ok none
  else if ranges.length ≠ n then .error .valueError
  else .ok (some ranges)

/-- Lines 52-68: one merge; what follows a second `=` is not looked at. -/
def parseMerge (L : Cmd.Lib) (merge : Cmd.Str) : Except PyErr MergeSpec :=
  match merge.splitOn '=' with
  | name :: rest :: _ => do
    let cs ← (rest.splitOn ',').mapM (parseChannel L)
    let ranges ← checkRanges cs.length (cs.filterMap (·.2))
    return { name := String.ofList name, channels := cs.map (·.1), ranges := ranges }
  | _ => .error .indexError

/-- Lines 48-71: every exception becomes `ValueError`. -/
def parseMerges (L : Cmd.Lib) (spec : Cmd.Str) : Except PyErr (List MergeSpec) :=
  match ((((spec.filter (· ≠ ' ')).filter (· ≠ '\n')).splitOn '~').mapM (parseMerge L)) with
  | .ok l => .ok l
  | .error _ => .error .valueError

/-! ## `ChannelMerger` on objects -/

/-- The class of the channel of that name, as datasets see it. -/
noncomputable def kindNamed (o : Obj) (nm : String) : ChKind :=
  match o.doc.channels.find? (fun c => c.name == nm) with
  | some c => kindOf c.cls
  | none => .single

/-- Lines 262-268 of model_tools.py: the bins contributed by a channel. -/
def binsOf (c : ChanDoc Sample) : List V :=
  match c.cls with
  | .single => [.str c.name]
  | .multi b => b
  | .range _ _ _ => []
  | .gauss _ _ => []

/-- Lines 261-273 and 280-283: the class of the merged channel; `docs` are the channels that are merged. -/
noncomputable def mergedClass (obsName obsUnit : Option String) (ranges : Option (List (ℝ × ℝ)))
    (docs : List (ChanDoc Sample)) : ChClass :=
  match ranges with
  | none => .multi (docs.flatMap binsOf)
  | some l => .range (l.map fun r => .dict [("lo_edge", .num r.1), ("hi_edge", .num r.2)]) obsName obsUnit

/-- The loop over channels of lines 274-285. -/
def newDocs (chans : List (ChanDoc Sample)) (names : List String) (merged : ChanDoc Sample) :
    Dict (ChanDoc Sample) × Bool :=
  chans.foldl (fun st ch =>
    if ch.name ∉ names then (st.1.set ch.name ch, st.2)
    else if st.2 then st
    else (st.1.set merged.name merged, true)) ([], false)

/-- `self.model.channels[channel]` on the object. -/
def getDoc (chans : List (ChanDoc Sample)) (nm : String) : Except PyErr (ChanDoc Sample) :=
  match chans.find? (fun c => c.name == nm) with
  | some c => .ok c
  | none => .error .keyError

/-- `ChannelMerger.merge` (model_tools.py:229-288) on the object; `none` stands for `None`.  The constructor is called
with the verbosity in place of the description (line 288): the description of the result is an `int`, which the type
of `ModelDoc.description` does not have; it is `none` here, and what is written for it is set in `saveMerged`. -/
noncomputable def mergeObj (obsName obsUnit : Option String) (s : MergeSpec) (o : Obj) : Except PyErr (Option Obj) := do
  match ← Merge.check (kindNamed o) o.mdl.channels s.channels with
  | none => return none
  | some (ms, entries) =>
    let samples ← entries.values.mapM (Merge.mergeSample ms)
    if s.ranges.isSome ∧ (s.ranges.getD []).length ≠ s.channels.length then return none
    let docs ← s.channels.mapM (getDoc o.doc.channels)
    let merged : ChanDoc Sample :=
      { name := s.name, cls := mergedClass obsName obsUnit s.ranges docs, samples := samples }
    let chans := (newDocs o.doc.channels s.channels merged).1.values
    return some (← initModel (rawDoc { o.doc with description := none, channels := chans }) { o.flags with cutoff := 0 })

/-- `ChannelMerger.merge_data` (model_tools.py:290-315).  The call comes after `merge`, which has changed the impacts of
the samples of the original: this has no effect here (`Mdl.mergeData_mutated` in Lemmas/MergeData.lean).  The
constructor is `Data.__init__` (core.py:1362-1382). -/
noncomputable def mergeDataObj (s : MergeSpec) (o o' : Obj) (ds : DData.DS) : Except PyErr (Option DData.DS) := do
  match ← Merge.check (kindNamed o) o.mdl.channels s.channels with
  | none => return none
  | some _ =>
    let c ← o.mdl.mergedCounts s.channels ds.counts o.mdl.channels false
    let counts ← DData.setCounts (dataModel o') c
    let aux ← DData.setAuxObs (dataModel o') ds.aux_obs
    return some ⟨counts, aux⟩

/-! ## The script -/

/-- The options of `merge_channels.py` (lines 23-31), without the files. -/
structure MergeOpts where
  channels : Cmd.Str
  verbosity : Int := 0
  obs_name : Option String := none
  obs_unit : Option String := none

/-- `if current_data is not None : current_data = merger.merge_data(current_data, new_model)` (line 78). -/
noncomputable def mergeStepData (s : MergeSpec) (o o' : Obj) : Option DData.DS → Except PyErr (Option DData.DS)
  | none => .ok none
  | some ds => mergeDataObj s o o' ds

/-- The loop of lines 75-79.  A merge that returns `None` (then so does `merge_data`, by the same check) leaves `None`
as the current model: the next merge, or `current_model.save` in line 81, raises `AttributeError`. -/
noncomputable def mergeLoop (opts : MergeOpts) : List MergeSpec → Obj → Option DData.DS →
    Except PyErr (Obj × Option DData.DS)
  | [], o, ds => .ok (o, ds)
  | s :: rest, o, ds => do
    match ← mergeObj opts.obs_name opts.obs_unit s o with
    | none => throw .attributeError
    | some o' => mergeLoop opts rest o' (← mergeStepData s o o' ds)

/-- `Data(model).load(options.data_file)` if there is such a file (lines 43-46). -/
noncomputable def mergeInput (o : Obj) : Option (Dict V) → Except PyErr (Option DData.DS)
  | none => .ok none
  | some F => do return some (← DData.loadDict (dataModel o) F)

/-- Lines 39-79: the merged model and dataset. -/
noncomputable def mergedModel (T : Texts) (L : Cmd.Lib) (opts : MergeOpts) (modelFile : Dict V)
    (dataFile : Option (Dict V)) : Except PyErr (Obj × Option DData.DS) := do
  let o ← load T modelFile
  let ds ← mergeInput o dataFile
  let specs ← parseMerges L opts.channels
  mergeLoop opts specs o ds

/-- The verbosity of the model that the last merge acts on: that of the options for the model read from the file, 0
(the default) for the result of a merge. -/
noncomputable def lastVerbosity (L : Cmd.Lib) (opts : MergeOpts) : ℝ :=
  match parseMerges L opts.channels with
  | .ok [_] => (opts.verbosity : ℝ)
  | _ => 0

/-- The decoded content of the model file: the description is the number `v` (core.py:1280, see `mergeObj`); the
position of the entry in the dictionary is not kept. -/
noncomputable def saveMerged (T : Texts) (v : ℝ) (o : Obj) : Except PyErr (Dict V) := do
  let out ← save T o
  let m ← asDict (← out.getItem "model")
  return out.set "model" (.dict (m.set "description" (.num v)))

/-- `if current_data is not None : current_data.save(...)` (line 82). -/
noncomputable def saveData (o : Obj) : Option DData.DS → Except PyErr (Option (Dict V))
  | none => .ok none
  | some ds => do return some (← DData.fillDict (dataModel o) ds)

/-- `merge_channels.run` (merge_channels.py:33-82): the decoded contents of the two output files. -/
noncomputable def mergeScript (T : Texts) (L : Cmd.Lib) (opts : MergeOpts) (modelFile : Dict V)
    (dataFile : Option (Dict V)) : Except PyErr (Dict V × Option (Dict V)) := do
  let (o, ds) ← mergedModel T L opts modelFile dataFile
  let out ← saveMerged T (lastVerbosity L opts) o
  return (out, ← saveData o ds)

end Markup
end Verif
