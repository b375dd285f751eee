import Verif.Model.Tools
import Verif.Model.Data
/-!
# Model of `ChannelMerger` (`/repo/src/fastprof/model_tools.py:133-315`)

The class of a channel is given by `kind`, a function of its name.
-/
namespace Verif

/-- A `BinnedRangeChannel`. -/
def ChKind.isRange : ChKind → Bool
  | .range _ => true
  | _ => false

namespace Merge

/-- `{"+1" : 0, "-1" : 0}` (model_tools.py:226, 251). -/
def zeroVar : List (VarKey × ℝ) := [(.num 1, 0), (.num (-1), 0)]

/-- `self.model.channels[channel]`. -/
def getChannel (chans : List Channel) (nm : String) : Except PyErr Channel :=
  match chans.find? (fun c => c.name == nm) with
  | some c => .ok c
  | none => .error .keyError

/-- `chan.samples[name]`, if there is one. -/
def getSample (ch : Channel) (nm : String) : Option Sample := ch.samples.find? (fun s => s.name == nm)

/-- A sample of the merged channel (`add_sample`, model_tools.py:182-192).  Its dictionary of impacts is
the same object as the one of the sample of channel `source`. -/
structure Entry where
  sample : Sample
  source : String

/-- Lines 210-217: the first of the channels with most samples. -/
def longest (chans : List Channel) : Option Channel :=
  chans.foldl (fun l ch => match l with
    | none => some ch
    | some c => if ch.samples.length > c.samples.length then some ch else some c) none

/-- Lines 225-226. -/
noncomputable def addKeys (imps : Dict Impact) (keys : List String) : Dict Impact :=
  keys.foldl (fun d k => if (d.get? k).isSome then d else d.set k (.common zeroVar)) imps

/-- The loop body of lines 221-226. -/
noncomputable def collectSample (d : Dict Entry) (q : String × Sample) : Dict Entry :=
  match d.get? q.2.name with
  | none => d.set q.2.name ⟨q.2, q.1⟩
  | some e => d.set q.2.name ⟨{ e.sample with impacts := addKeys e.sample.impacts q.2.impacts.keys }, e.source⟩

/-- The samples of a channel, each with the name of the channel. -/
def withSource (ch : Channel) : List (String × Sample) := ch.samples.map fun s => (ch.name, s)

/-- Lines 218-226: the samples of the merged channel. -/
noncomputable def collect (chans : List Channel) (first : Channel) : Dict Entry :=
  (chans.flatMap withSource).foldl collectSample
    ((withSource first).foldl (fun d q => d.set q.2.name ⟨q.2, q.1⟩) [])

/-- `check` (model_tools.py:194-227): `none` stands for `False`.  The first of the names is not
checked, so that it raises `KeyError` if unknown. -/
noncomputable def check (kind : String → ChKind) (chans : List Channel) (names : List String) :
    Except PyErr (Option (List Channel × Dict Entry)) :=
  if names = [] then .ok none
  else if names.tail.any (fun nm => !(chans.any (·.name == nm))) then .ok none
  else do
    let ms ← names.mapM (getChannel chans)
    if ms.any (fun c => (kind c.name).isRange) then return none
    match longest ms with
    | none => return none
    | some first => return some (ms, collect ms first)

/-- The part of the merged yields that comes from one channel (lines 242-248). -/
noncomputable def mergedYield (smp : Sample) (ch : Channel) : Except PyErr (List ℝ) := by
  classical exact match getSample ch smp.name with
  | some s => if s.nominal_norm = 0 then .error .nan
      else .ok (s.nominal_yields.map fun y => y / s.nominal_norm * smp.nominal_norm)
  | none => .ok (List.replicate ch.nbins 0)

/-- The part of the merged impacts that comes from one channel (lines 252-259). -/
noncomputable def mergedPart (par nm : String) (ch : Channel) : Except PyErr (List (List (VarKey × ℝ))) :=
  match getSample ch nm with
  | none => .ok [zeroVar]
  | some s =>
    match s.impacts.get? par with
    | none => .ok [zeroVar]
    | some (.perBin l) => .ok l
    | some (.common d) => .ok [d]
    | some (.float _) => .error .typeError

/-- One entry of the merged dictionary of impacts (lines 250-260). -/
noncomputable def mergedEntry (ms : List Channel) (nm : String) (kv : String × Impact) :
    Except PyErr (String × Impact) := do
  let l ← ms.mapM (mergedPart kv.1 nm)
  return (kv.1, .perBin l.flatten)

/-- Lines 240-260. -/
noncomputable def mergeSample (ms : List Channel) (e : Entry) : Except PyErr Sample := do
  let ys ← ms.mapM (mergedYield e.sample)
  let imps ← e.sample.impacts.mapM (mergedEntry ms e.sample.name)
  return ⟨e.sample.name, e.sample.norm, e.sample.nominal_norm, ys.flatten, imps⟩

/-- Number of bins contributed to `merged_bins` (lines 262-268); a `GaussianChannel` is neither a
`SingleBinChannel` nor a `MultiBinChannel` and contributes none. -/
def binCount (k : ChKind) : Nat :=
  match k with
  | .single => 1
  | .multi b => b.length
  | .range _ => 0
  | .gauss _ => 0

/-- Number of bins of the merged channel (lines 261-273). -/
def mergedBins (kind : String → ChKind) (obs : Option (List (ℝ × ℝ))) (ms : List Channel) : Nat :=
  match obs with
  | none => (ms.map fun c => binCount (kind c.name)).sum
  | some l => l.length

/-- The loop over channels of lines 274-285. -/
def newChannels (chans : List Channel) (names : List String) (merged : Channel) : Dict Channel × Bool :=
  chans.foldl (fun st ch =>
    if ch.name ∉ names then (st.1.set ch.name ch, st.2)
    else if st.2 then st
    else (st.1.set merged.name merged, true)) ([], false)

/-- A source sample after the merge: its dictionary of impacts has become that of the merged sample
(`merged_sample.impacts[par] = ...`, line 260). -/
def mutatedSample (done : List (Entry × Sample)) (src : String) (s : Sample) : Sample :=
  match done.find? (fun d => d.1.source == src && d.1.sample.name == s.name) with
  | some d => ⟨s.name, s.norm, s.nominal_norm, s.nominal_yields, d.2.impacts⟩
  | none => s

/-- The channels of the original model after the merge. -/
def mutated (chans : List Channel) (done : List (Entry × Sample)) : List Channel :=
  chans.map fun ch => { ch with samples := ch.samples.map (mutatedSample done ch.name) }

end Merge

open Merge in
/-- `ChannelMerger.merge` (model_tools.py:229-288): the original model after the call, and the merged
model unless the call returns `None`.  `obs` are the `obs_bins`.  The constructor of `Model` runs
`set_np_data` on the samples (here on those of the merged channel; the others have been set up) and sets
`cutoff` to 0; the internal arrays are computed by `setInternal`. -/
noncomputable def Mdl.mergeChannels {n P : Nat} (m : Mdl n P) (kind : String → ChKind) (names : List String)
    (mergedName : String) (obs : Option (List (ℝ × ℝ))) : Except PyErr (Mdl n P × Option (Mdl n P)) := do
  match ← Merge.check kind m.channels names with
  | none => return (m, none)
  | some (ms, entries) =>
    let samples ← entries.values.mapM (mergeSample ms)
    let orig : Mdl n P := { m with channels := mutated m.channels (entries.values.zip samples) }
    if obs.isSome ∧ (obs.getD []).length ≠ names.length then return (orig, none)
    let nb := mergedBins kind obs ms
    let m1 : Mdl n P := { m with cutoff := 0 }
    let vals ← m1.ctx.realVals m.poiInit
    let set ← samples.mapM fun s =>
      setUpSample m1 vals ⟨s.name, s.norm, some s.nominal_norm, some s.nominal_yields, s.impacts⟩
    let merged : Channel := ⟨mergedName, false, nb, fun _ _ => 0, set⟩
    return (orig, some { m1 with channels := (newChannels m.channels names merged).1.values })

open Merge in
/-- The list of counts built by `merge_data` (model_tools.py:305-314). -/
noncomputable def Mdl.mergedCounts {n P : Nat} (m : Mdl n P) (names : List String) (counts : List ℝ) :
    List Channel → Bool → Except PyErr (List ℝ)
  | [], _ => .ok []
  | ch :: chans, added =>
    if ch.name ∉ names then do
      let a ← m.channelSlice counts ch.name
      let r ← mergedCounts m names counts chans added
      return a ++ r
    else if added then mergedCounts m names counts chans added
    else do
      let a ← names.mapM (m.channelSlice counts)
      let r ← mergedCounts m names counts chans true
      return a.flatten ++ r

open Merge in
/-- `ChannelMerger.merge_data` (model_tools.py:290-315): the counts of the merged dataset (`none` for
`None`); with another number of bins than that of the merged model, `Data.set_counts` raises `NameError`
(core.py:1417).  The aux. obs. are those of the original. -/
noncomputable def Mdl.mergeData {n P : Nat} (m : Mdl n P) (kind : String → ChKind) (names : List String)
    (m' : Mdl n P) (counts : List ℝ) : Except PyErr (Option (List ℝ)) := do
  match ← Merge.check kind m.channels names with
  | none => return none
  | some _ =>
    let c ← m.mergedCounts names counts m.channels false
    if c.length ≠ m'.nbins then throw .nameError
    return some c

end Verif
