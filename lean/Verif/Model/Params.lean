import Verif.Model.Base
/-!
# Model of `Parameters` (`/repo/src/fastprof/core.py:38-302`)

A parameter point is a pair of arrays; names come from the model it points to.
-/
namespace Verif

/-- The part of a `Model` that `Parameters` uses: the POI names in order (`model.pois`) and the
NPs in order (`model.nps`), core.py:396-404.  Both are dicts keyed by name. -/
structure ParModel (K : Type) where
  pois : List String
  nps : List (NP K)

/-- `list(model.nps)`. -/
def ParModel.npNames {K : Type} (m : ParModel K) : List String := m.nps.map (·.name)

/-- `Parameters` (core.py:38-105): POI and (scaled) NP values.  `model` is passed to each method;
the `model is None` branches, which raise `ValueError`, are not modelled. -/
@[ext] structure Pars (K : Type) where
  pois : List K
  nps : List K
deriving DecidableEq

section
variable {K : Type} [Field K]

/-- The three accepted forms of the `pois` argument of `Parameters.__init__` (core.py:80-97). -/
inductive PoiArg (K : Type) where
  | dict (d : Dict K)
  | number (x : K)
  | array (l : List K)

/-- `Parameters.__init__` with a model (core.py:80-105).  NaN values (which the code also rejects
in the dict case) are not modelled. `nps = none` is the default argument. -/
def Pars.init (m : ParModel K) (pois : PoiArg K) (nps : Option (List K)) : Except PyErr (Pars K) := do
  let p ← match pois with
    | .dict d =>
      match m.pois.mapM (fun n => d.get? n) with
      | some l => .ok l
      | none => .error .valueError
    | .number x => .ok (List.replicate m.pois.length x)
    | .array l => .ok l
  if p.length ≠ m.pois.length then throw .valueError
  let nps := nps.getD []
  let nps := if nps.length = 0 then List.replicate m.nps.length 0 else nps
  if nps.length ≠ m.nps.length then throw .valueError
  return ⟨p, nps⟩

/-- `Parameters.__getitem__` (core.py:145-159): POIs first, then NPs (scaled). -/
def Pars.get (m : ParModel K) (p : Pars K) (par : String) : Except PyErr K :=
  if par ∈ m.pois then
    match p.pois[m.pois.idxOf par]? with
    | some v => .ok v
    | none => .error .indexError
  else if par ∈ m.npNames then
    match p.nps[m.npNames.idxOf par]? with
    | some v => .ok v
    | none => .error .indexError
  else .error .keyError

/-- `model.nps[par]`. -/
def ParModel.np? (m : ParModel K) (par : String) : Option (NP K) := m.nps.find? (·.name = par)

/-- `Parameters.set` (core.py:186-204). -/
def Pars.set (m : ParModel K) (p : Pars K) (par : String) (val : K) (unscaled : Bool) :
    Except PyErr (Pars K) :=
  if par ∈ m.pois then
    if m.pois.idxOf par < p.pois.length then
      .ok { p with pois := p.pois.set (m.pois.idxOf par) val }
    else .error .indexError
  else
    match m.np? par with
    | some np =>
      let v := if unscaled then np.scaledValue val else val
      if m.npNames.idxOf par < p.nps.length then
        .ok { p with nps := p.nps.set (m.npNames.idxOf par) v }
      else .error .indexError
    | none => .error .keyError

/-- `Parameters.unscaled_nps` (core.py:220-227): `np_nominal_values + nps*np_variations`
(arrays built at core.py:460-461, elementwise product). -/
def Pars.unscaledNps (m : ParModel K) (p : Pars K) : List K :=
  List.zipWith (fun np s => np.unscaledValue s) m.nps p.nps

/-- `Parameters.unscaled` (core.py:229-240). -/
def Pars.unscaled (m : ParModel K) (p : Pars K) (par : String) : Except PyErr K :=
  match m.np? par with
  | some np => do return np.unscaledValue (← p.get m par)
  | none => .error .keyError

/-- Assign the entries of a list of pairs in turn: `for k, v in zip(..) : dic[k] = v`. -/
def Dict.setAll {V : Type} (d : Dict V) (l : List (String × V)) : Dict V :=
  l.foldl (fun d kv => d.set kv.1 kv.2) d

/-- `Parameters.dict` (core.py:242-260).  With `nominal_nps` the recursive call drops
`pois_only`, as in the code. -/
def Pars.dict (m : ParModel K) (p : Pars K) (nominal_nps : Bool := false)
    (unscaled_nps : Bool := true) (pois_only : Bool := false) : Dict K :=
  let full (q : Pars K) (pois_only : Bool) : Dict K :=
    let d := Dict.setAll [] (m.pois.zip q.pois)
    if pois_only then d
    else d.setAll (m.npNames.zip (if unscaled_nps then q.unscaledNps m else q.nps))
  if nominal_nps then full ⟨p.pois, List.replicate m.nps.length 0⟩ false
  else full p pois_only

/-- `for par in names : self.set(par, dic[par], unscaled)`. -/
def Pars.setFrom (m : ParModel K) (dic : Dict K) (unscaled : Bool) :
    List String → Pars K → Except PyErr (Pars K)
  | [], p => .ok p
  | par :: names, p => do
    let v ← dic.getItem par
    let p ← p.set m par v unscaled
    Pars.setFrom m dic unscaled names p

/-- `Parameters.set_from_dict` (core.py:274-289). -/
def Pars.setFromDict (m : ParModel K) (p : Pars K) (dic : Dict K) (unscaled_nps : Bool := false) :
    Except PyErr (Pars K) := do
  let p ← Pars.setFrom m dic unscaled_nps m.pois p
  Pars.setFrom m dic unscaled_nps m.npNames p

/-- `Parameters.set_pois` (core.py:162-172). -/
def Pars.setPois (p : Pars K) (l : List K) : Except PyErr (Pars K) :=
  if l.length ≠ p.pois.length then .error .valueError else .ok { p with pois := l }

/-- `Parameters.set_nps` (core.py:174-184). -/
def Pars.setNps (p : Pars K) (l : List K) : Except PyErr (Pars K) :=
  if l.length ≠ p.nps.length then .error .valueError else .ok { p with nps := l }

end
end Verif
