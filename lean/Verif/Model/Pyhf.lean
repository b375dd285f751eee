import Verif.Model.Markup
import Verif.Model.Data
/-!
# Model of the import of pyhf models (`/repo/src/fastprof_import/convert_pyhf_json.py`)

The input is the decoded JSON document; entries that the script does not read are left out, and documents in which an
entry that it reads is missing or of a wrong type are outside the model (the script raises `KeyError` or `TypeError`).
The output is the markup that the script writes.  Numbers are reals; `%d` is `toString`.
-/
namespace Verif
namespace Pyhf
open Markup

/-! ## The input -/

/-- An entry of `config['parameters']`; for lists the script reads the first element only (lines 75-89). -/
structure Par where
  name : String
  sigma : Option ℝ
  aux_data : Option ℝ
  init : Option ℝ

/-- An entry of `measurements`. -/
structure Measurement where
  poi : String
  parameters : List Par

/-- An entry of `modifiers`. -/
inductive Modifier where
  | normfactor (name : String)
  | lumi (name : String)
  | normsys (name : String) (hi lo : ℝ)
  | histosys (name : String) (hi lo : List ℝ)
  | shapesys (name : String) (data : List ℝ)
  | staterror (name : String) (data : List ℝ)
  /-- another type, e.g. `shapefactor` -/
  | other (name : String)

/-- `modifier['name']`. -/
def Modifier.name : Modifier → String
  | .normfactor n | .lumi n | .normsys n _ _ | .histosys n _ _ | .shapesys n _ | .staterror n _ | .other n => n

/-- An entry of `samples`. -/
structure PSample where
  name : String
  data : List ℝ
  modifiers : List Modifier

/-- An entry of `channels`. -/
structure PChannel where
  name : String
  samples : List PSample

/-- The document. -/
structure Workspace where
  measurements : List Measurement
  channels : List PChannel
  observations : Option (List (String × List ℝ))

/-! ## What the script collects -/

/-- A value of `fastprof_model['NPs']`: the auto-added ones (line 101) have a constraint and no variation. -/
structure NPSpec where
  name : String
  nominal_value : ℝ
  variation : Option ℝ
  constraint : Option ℝ

/-- A relative impact of one bin, `{ "+1" : up, "-1" : down }`. -/
abbrev UpDown := ℝ × ℝ

/-- A value of `sample['impacts']`. -/
inductive PImp where
  | common (d : UpDown)
  | perBin (l : List UpDown)

/-- `sample`. -/
structure CSample where
  name : String
  data : List ℝ
  norm : Option String
  impacts : Dict PImp

/-- `channel`; `bins` is `none` for the type 'bin'. -/
structure CChannel where
  name : String
  bins : Option (List String)
  samples : List CSample

/-- `fastprof_model` and `fastprof_data`. -/
structure CModel where
  poi : String
  nps : Dict NPSpec
  channels : List CChannel
  observations : Option (List (String × List ℝ))

/-- Lines 75-89: one entry of the measurement. -/
noncomputable def addPar (poi : String) (nps : Dict NPSpec) (p : Par) : Dict NPSpec :=
  if p.name = poi then nps else
  let nominal := match p.aux_data with
    | some v => v
    | none => match p.init with
      | some v => v
      | none => 0
  nps.set p.name { name := p.name, nominal_value := nominal, variation := p.sigma, constraint := p.sigma }

/-- Line 101. -/
noncomputable def autoNP (name : String) : NPSpec :=
  { name := name, nominal_value := 0, variation := none, constraint := some 1 }

/-- Lines 100-101. -/
noncomputable def declare (poi : String) (nps : Dict NPSpec) (name : String) : Dict NPSpec :=
  if (nps.get? name).isNone ∧ name ≠ poi then nps.set name (autoNP name) else nps

open Classical in
/-- Lines 102-107: impacts of the same sign. -/
noncomputable def fixSigns (keep : Bool) (impact : List UpDown) : List UpDown :=
  if ∃ i ∈ impact, i.1 * i.2 > 0 then
    if keep then impact.map fun i => if |i.1| > |i.2| then (i.1, -i.2) else (-i.1, i.2)
    else [(0, 0)]
  else impact

/-- Line 108. -/
def collapse : List UpDown → PImp
  | [i] => .common i
  | l => .perBin l

/-- The sum of two impacts. -/
noncomputable def addUD (a b : UpDown) : UpDown := (a.1 + b.1, a.2 + b.2)

/-- Lines 109-116: an impact of the same name is there already.  On line 112 `len(impact)` is the number of keys of a
dictionary, which is 2. -/
noncomputable def combine : PImp → PImp → PImp
  | .common p, .common c => .common (addUD p c)
  | .common p, .perBin l => .perBin (List.zipWith addUD (List.replicate l.length p) l)
  | .perBin l, .common c => .perBin (List.zipWith addUD l (List.replicate 2 c))
  | .perBin l, .perBin l' => .perBin (List.zipWith addUD l l')

/-- The state of the loop over the modifiers of a sample: the NPs and the impacts of the sample. -/
abbrev St := Dict NPSpec × Dict PImp

/-- `add_impact` (lines 99-117). -/
noncomputable def addImpact (keep : Bool) (poi : String) (st : St) (name : String) (impact : List UpDown) : St :=
  let cur := collapse (fixSigns keep impact)
  (declare poi st.1 name,
   st.2.set name (match st.2.get? name with
     | none => cur
     | some prev => combine prev cur))

open Classical in
/-- Relative impacts of a `histosys` (line 158). -/
noncomputable def histoImpact (data hi lo : List ℝ) : Except PyErr (List UpDown) :=
  (data.zip (hi.zip lo)).mapM fun t =>
    if t.1 = 0 then .error .zeroDivision else .ok (t.2.1 / t.1 - 1, t.2.2 / t.1 - 1)

/-- `'%s_bin%d' % (name, b)` (line 168). -/
def binName (name : String) (b : Nat) : String := name ++ "_bin" ++ toString b

/-- Relative impacts of bin `b` of a `shapesys` or `staterror` (line 165). -/
noncomputable def binImpact (n b : Nat) (r : ℝ) : List UpDown :=
  (List.range n).map fun b2 => if b = b2 then (r, -r) else (0, 0)

open Classical in
/-- Lines 163-168. -/
noncomputable def shapeLoop (keep : Bool) (poi name : String) (n : Nat) (st : St) (l : List ((ℝ × ℝ) × Nat)) :
    Except PyErr St :=
  l.foldlM (fun st t =>
    if t.1.1 = 0 then .error .zeroDivision
    else .ok (addImpact keep poi st (binName name t.2) (binImpact n t.2 (t.1.2 / t.1.1)))) st

/-- `pyhf_meas[name]['sigmas'][0]` (lines 97, 148): always the first measurement, the last entry of that name. -/
def lumiSigma (first : List Par) (name : String) : Except PyErr ℝ :=
  match first.reverse.find? (fun p => p.name = name) with
  | some p => match p.sigma with
    | some s => .ok s
    | none => .error .keyError
  | none => .error .keyError

/-- Lines 145-171: one modifier. -/
noncomputable def addModifier (keep : Bool) (poi : String) (first : List Par) (data : List ℝ) (normfactors : List String)
    (st : St) (mod : Modifier) : Except PyErr St :=
  if mod.name ∈ normfactors then .ok st else
  match mod with
  | .lumi n => do
    let s ← lumiSigma first n
    return addImpact keep poi st n [(s, -s)]
  | .normsys n hi lo => .ok (addImpact keep poi st n [(hi - 1, lo - 1)])
  | .histosys n hi lo => do return addImpact keep poi st n (← histoImpact data hi lo)
  | .shapesys n s => shapeLoop keep poi n data.length st (data.zip s).zipIdx
  | .staterror n s => shapeLoop keep poi n data.length st (data.zip s).zipIdx
  | .normfactor _ => .ok st
  | .other _ => .error .valueError

/-- `normfactors` (line 138). -/
def normfactors (s : PSample) : List String :=
  s.modifiers.filterMap fun mod => match mod with
    | .normfactor n => some n
    | _ => none

/-- Lines 131-172: one sample.  `raise("...")` on line 139 raises `TypeError`. -/
noncomputable def addSample (keep : Bool) (poi : String) (first : List Par) (nps : Dict NPSpec) (s : PSample) :
    Except PyErr (Dict NPSpec × CSample) := do
  let nf := normfactors s
  if nf.length > 1 then throw .typeError
  let st ← s.modifiers.foldlM (addModifier keep poi first s.data nf) (nps, [])
  return (st.1, { name := s.name, data := s.data, norm := nf.head?, impacts := st.2 })

/-- The loop over samples (131-172). -/
noncomputable def addSamples (keep : Bool) (poi : String) (first : List Par) :
    List PSample → Dict NPSpec → Except PyErr (Dict NPSpec × List CSample)
  | [], nps => .ok (nps, [])
  | s :: ss, nps => do
    let (nps, c) ← addSample keep poi first nps s
    let (nps, cs) ← addSamples keep poi first ss nps
    return (nps, c :: cs)

/-- `[ 'bin%d' % b for b in range(0, n) ]` (line 135). -/
def binNames (n : Nat) : List String := (List.range n).map fun b => "bin" ++ toString b

/-- Lines 121-176: one channel.  Every error is turned into `KeyError` (line 175).  The bins are named after the first
sample that has any (line 135). -/
noncomputable def addChannel (keep : Bool) (poi : String) (first : List Par) (nps : Dict NPSpec) (c : PChannel) :
    Except PyErr (Dict NPSpec × CChannel) :=
  match c.samples with
  | [] => .error .keyError
  | s0 :: _ =>
    match addSamples keep poi first c.samples nps with
    | .error _ => .error .keyError
    | .ok (nps, ss) =>
      .ok (nps, {
        name := c.name
        bins := if s0.data.length = 1 then none
          else some (binNames (((c.samples.map (·.data.length)).find? (fun n => n != 0)).getD 0))
        samples := ss })

/-- The loop over channels (120-176). -/
noncomputable def addChannels (keep : Bool) (poi : String) (first : List Par) :
    List PChannel → Dict NPSpec → Except PyErr (Dict NPSpec × List CChannel)
  | [], nps => .ok (nps, [])
  | c :: cs, nps => do
    let (nps, d) ← addChannel keep poi first nps c
    let (nps, ds) ← addChannels keep poi first cs nps
    return (nps, d :: ds)

/-- `pyhf_model['measurements'][0]['config']['parameters']` (line 97). -/
def Workspace.firstPars (w : Workspace) : List Par := match w.measurements with
  | [] => []
  | m0 :: _ => m0.parameters

/-- Lines 52-176.  `raise("...")` on line 68 raises `TypeError`.  (A measurement index counted from the end is not
modelled.) -/
noncomputable def collect (keep : Bool) (index : Nat) (w : Workspace) : Except PyErr CModel :=
  match w.measurements[index]? with
  | none => .error .typeError
  | some mea => do
    let nps := mea.parameters.foldl (addPar mea.poi) []
    let (nps, chans) ← addChannels keep mea.poi w.firstPars w.channels nps
    return { poi := mea.poi, nps := nps, channels := chans, observations := w.observations }

/-! ## The markup that is written -/

/-- `{ "+1" : up, "-1" : down }`. -/
def udVal (d : UpDown) : V := .dict [("+1", .num d.1), ("-1", .num d.2)]

/-- A value of `sample['impacts']`. -/
def pimpVal : PImp → V
  | .common d => udVal d
  | .perBin l => .list (l.map udVal)

/-- A sample (lines 132-144, 172). -/
def sampleVal (s : CSample) : V :=
  .dict ([("name", .str s.name), ("nominal_yields", .list (s.data.map .num))] ++
    (match s.norm with
      | some n => [("nominal_norm", .num 1), ("norm", .str n)]
      | none => []) ++
    [("impacts", .dict (s.impacts.map fun kv => (kv.1, pimpVal kv.2)))])

/-- A channel (lines 121-130). -/
def channelVal (c : CChannel) : V :=
  .dict ([("name", .str c.name)] ++
    (match c.bins with
      | none => [("type", .str "bin")]
      | some l => [("type", .str "multi_bin"), ("bins", .list (l.map .str))]) ++
    [("samples", .list (c.samples.map sampleVal))])

/-- An NP (lines 84-89, 101). -/
def npVal (p : NPSpec) : V :=
  .dict ([("name", .str p.name), ("nominal_value", .num p.nominal_value)] ++
    (match p.variation with
      | some v => [("variation", .num v)]
      | none => []) ++
    (match p.constraint with
      | some c => [("constraint", .num c), ("aux_obs", .str ("aux_" ++ p.name))]
      | none => []))

/-- The POI (line 70). -/
def poiVal (name : String) : V := .dict [("name", .str name), ("min_value", .num 0), ("max_value", .num 1)]

/-- The `model` section. -/
def modelVal (c : CModel) : Dict V :=
  [("POIs", .list [poiVal c.poi]), ("NPs", .list (c.nps.values.map npVal)), ("channels", .list (c.channels.map channelVal))]

/-- The observations of a channel (lines 182-187). -/
def obsVal (o : String × List ℝ) : V :=
  match o.2 with
  | [x] => .dict [("name", .str o.1), ("counts", .num x)]
  | l => .dict [("name", .str o.1),
      ("bins", .list ((binNames l.length).zipWith (fun n x => .dict [("name", .str n), ("counts", .num x)]) l))]

/-- An aux. obs. (lines 192-193). -/
def auxVal (p : NPSpec) : Option V :=
  match p.constraint with
  | some _ => some (.dict [("name", .str ("aux_" ++ p.name)), ("value", .num p.nominal_value)])
  | none => none

/-- The `data` section (lines 178-193). -/
def dataVal (c : CModel) (obs : List (String × List ℝ)) : V :=
  .dict [("channels", .list (obs.map obsVal)), ("aux_obs", .list (c.nps.values.filterMap auxVal))]

/-- Lines 195-201. -/
def markup (c : CModel) : Dict V :=
  ("model", .dict (modelVal c)) :: (match c.observations with
    | some obs => [("data", dataVal c obs)]
    | none => [])

/-- The script (lines 34-204): the content of the output file. -/
noncomputable def convert (keep : Bool) (index : Nat) (w : Workspace) : Except PyErr (Dict V) := do
  return markup (← collect keep index w)

end Pyhf
end Verif
