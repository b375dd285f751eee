import Verif.Model.Core
import Verif.Model.Reparam
/-!
# Model of `ModelReparam` (model_tools.py:319-471) on a `Model`, and of the steps of `reparam_model.py`

`rx spec name` is `re.match(spec + '$', name)`.  The changes are made in place on one object; as values, the
result is the changed model.  The number of POIs changes, hence the dependent pair.  The internal arrays of the object
(`set_internal_vars`) are not recomputed by this code.
-/
namespace Verif
namespace Mdl
variable {n P : Nat}

/-- `model.pois` with the initial values. -/
def poiList (m : Mdl n P) : List (String × ℝ) := List.ofFn fun i => (m.pois i, m.poiInit i)

/-- The model with other POIs (`model.pois = ...`). -/
def withPois (m : Mdl n P) (l : List (String × ℝ)) : Mdl l.length P where
  pois i := (l.get i).1
  poiInit i := (l.get i).2
  nps := m.nps
  exprs := m.exprs
  channels := m.channels
  use_asym_impacts := m.use_asym_impacts
  use_linear_nps := m.use_linear_nps
  use_simple_sym_impacts := m.use_simple_sym_impacts
  use_lognormal_terms := m.use_lognormal_terms
  cutoff := m.cutoff
  variations := m.variations

/-- `add_pois` (model_tools.py:341-351). -/
def addPois (l : List (String × ℝ)) (new : List (String × ℝ)) : Except PyErr (List (String × ℝ)) :=
  new.foldlM (fun l p => if p.1 ∈ l.map (·.1) then .error .keyError else .ok (l ++ [p])) l

/-- `add_expressions` (353-363). -/
def addExprs (d : Dict Expr) (new : List (String × Expr)) : Except PyErr (Dict Expr) :=
  new.foldlM (fun d e => if e.1 ∈ d.keys then .error .keyError else .ok (d ++ [e])) d

/-- A new normalisation, with the specifications of the channels and samples that get it. -/
structure NewNorm where
  channel : String
  sample : String
  norm : Norm

/-- `matching_norms` (377-383). -/
def matching (rx : String → String → Bool) (new : List NewNorm) (channel sample : String) : List NewNorm :=
  new.filter fun e => rx e.channel channel && rx e.sample sample

/-- Lines 377-388 for one sample. -/
def updateSample (rx : String → String → Bool) (new : List NewNorm) (channel : String) (s : Sample) :
    Except PyErr Sample :=
  match matching rx new channel s.name with
  | [] => .ok s
  | [e] => .ok { s with norm := e.norm }
  | _ => .error .keyError

/-- `update_norms` (365-388). -/
def updateNorms (rx : String → String → Bool) (new : List NewNorm) (channels : List Channel) :
    Except PyErr (List Channel) :=
  channels.mapM fun c => do
    let ss ← c.samples.mapM (updateSample rx new c.name)
    return { c with samples := ss }

/-- The names of the `ExpressionNorm`s. -/
def normNames (channels : List Channel) : List String :=
  channels.flatMap fun c => c.samples.filterMap fun s => match s.norm with
    | .expr e => some e
    | .number _ => none

/-- What `remove_pois` sees of the model. -/
def poiModel (m : Mdl n P) : PoiModel where
  pois := List.ofFn m.pois
  nps := List.ofFn fun p => ((m.nps p).name, (m.nps p).nominal_value)
  exprs := m.exprs
  norms := normNames m.channels

/-- `remove_pois` (389-425).  When it succeeds it leaves the normalisations as they are (see `PoiModel.removeFromNorms`). -/
noncomputable def removePois (fuel : Nat) (m : Mdl n P) (names : List String) (values : Dict ℝ) :
    Except PyErr (Σ n', Mdl n' P) := do
  let r ← m.poiModel.removePois fuel names values
  return ⟨_, { m.withPois (m.poiList.filter fun p => p.1 ∈ r.pois) with exprs := r.exprs }⟩

/-- The changes of POI attributes, `model.pois[poi.name] = poi` for POIs that are in the model (reparam_model.py:182-185); of
the attributes only the initial value is modelled. -/
def changePois (l change : List (String × ℝ)) : List (String × ℝ) :=
  l.map fun p => (p.1, (Dict.get? change p.1).getD p.2)

/-- The default replacement values (reparam_model.py:187-190): the initial values of the POIs. -/
def fillValues (l : List (String × ℝ)) (remove : List String) (values : Dict ℝ) : Except PyErr (Dict ℝ) :=
  remove.foldlM (fun d k => if k ∈ d.keys then .ok d else do
    let v ← Dict.getItem l k
    return d.set k v) values

/-- The changes that `reparam_model.py` makes (lines 176-191), in this order: add POIs, add expressions, replace normalisations,
change POIs, remove POIs. -/
noncomputable def reparam (fuel : Nat) (rx : String → String → Bool) (m : Mdl n P) (newPois : List (String × ℝ))
    (newExprs : List (String × Expr)) (newNorms : List NewNorm) (change : List (String × ℝ)) (remove : List String)
    (values : Dict ℝ) : Except PyErr (Σ n', Mdl n' P) := do
  let pois ← addPois m.poiList newPois
  let exprs ← addExprs m.exprs newExprs
  let channels ← updateNorms rx newNorms m.channels
  let pois' := changePois pois change
  let values' ← fillValues pois' remove values
  removePois fuel { m.withPois pois' with exprs := exprs, channels := channels } remove values'

/-- `model.pois = {name : model.pois[name] for name in new_pois}` (reparam_model.py:194). -/
def reorder (m : Mdl n P) (names : List String) : Except PyErr (Σ n', Mdl n' P) := do
  let l ← names.mapM fun k => do
    let v ← Dict.getItem m.poiList k
    return (k, v)
  return ⟨_, m.withPois l⟩

/-- `reparam_model.py` with the full list of POIs given in a file (lines 146-164, then 176-194): the listed POIs that are not in
the model are added, the others changed, and the POIs that are not listed are removed.  (For an empty list the code does not
reorder: all POIs are removed then, and `reorder` changes nothing.) -/
noncomputable def reparamListed (fuel : Nat) (rx : String → String → Bool) (m : Mdl n P) (listed : List (String × ℝ))
    (newExprs : List (String × Expr)) (newNorms : List NewNorm) (values : Dict ℝ) : Except PyErr (Σ n', Mdl n' P) := do
  let r ← m.reparam fuel rx (listed.filter fun p => p.1 ∉ List.ofFn m.pois) newExprs newNorms
    (listed.filter fun p => p.1 ∈ List.ofFn m.pois) ((List.ofFn m.pois).filter fun k => k ∉ listed.map (·.1)) values
  r.2.reorder (listed.map (·.1))

end Mdl
end Verif
