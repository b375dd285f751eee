import Verif.Model.Dict
import Mathlib.Algebra.Field.Defs
/-!
# Model of `/repo/src/fastprof/base.py`

Markup values, `Serializable.load_field`, and the POI / aux / NP specification classes.
Numbers range over an arbitrary field `K` (ints and floats, and their numpy variants, are
merged: `load_field` accepts both wherever it accepts one).
-/
namespace Verif

/-- A decoded JSON/YAML value (`json.load` / `yaml.safe_load` results, base.py:63-101).
`int`, `float`, `bool` (a subclass of `int`) are merged into `num`. -/
inductive MVal (K : Type) where
  | none
  | num (x : K)
  | str (s : String)
  | list (l : List (MVal K))
  | dict (d : List (String × MVal K))

/-- The Python types passed in the `types` argument of `load_field`. -/
inductive Ty where
  | str | num | list | dict
deriving DecidableEq

/-- `isinstance(val, t)` (base.py:148). -/
def MVal.isInstance {K : Type} : MVal K → Ty → Bool
  | .num _, .num => true
  | .str _, .str => true
  | .list _, .list => true
  | .dict _, .dict => true
  | _, _ => false

/-- `Serializable.load_field` (base.py:128-152): absent key gives the default, `None` gives
`None`, a value of a type that is not listed raises `TypeError` (the docstring says it returns
the default).  The conversion of lists to arrays is the identity here. -/
def loadField {K : Type} (key : String) (dic : Dict (MVal K)) (default : MVal K)
    (types : List Ty) : Except PyErr (MVal K) :=
  match dic.get? key with
  | Option.none => .ok default
  | some .none => .ok .none
  | some v =>
    if types ≠ [] ∧ ¬ (types.any v.isInstance) then .error .typeError else .ok v

/-- Attribute holding a string or `None`. -/
def MVal.toStr? {K : Type} : MVal K → Except PyErr (Option String)
  | .none => .ok Option.none
  | .str s => .ok (some s)
  | _ => .error .unmodelled

/-- Attribute holding a number or `None`.  A non-number is outside the model (only reachable
for `ModelNP.constraint`, which base.py:574 loads without a type check). -/
def MVal.toNum? {K : Type} : MVal K → Except PyErr (Option K)
  | .none => .ok Option.none
  | .num x => .ok (some x)
  | _ => .error .unmodelled

def MVal.ofStr {K : Type} (o : Option String) : MVal K := match o with | some s => .str s | Option.none => .none
def MVal.ofNum {K : Type} (o : Option K) : MVal K := match o with | some x => .num x | Option.none => .none

/-- `load_field(key, sdict, default, str)` stored in a string attribute. -/
def loadStr {K : Type} (key : String) (d : Dict (MVal K)) (default : Option String) :
    Except PyErr (Option String) := do
  (← loadField key d (.ofStr default) [.str]).toStr?

/-- `load_field(key, sdict, default, [int, float])` stored in a numeric attribute. -/
def loadNum {K : Type} (key : String) (d : Dict (MVal K)) (default : Option K) :
    Except PyErr (Option K) := do
  (← loadField key d (.ofNum default) [.num]).toNum?

/-- `ModelPOI` attributes (base.py:229-252). -/
@[ext] structure ModelPOI (K : Type) where
  name : Option String := some ""
  min_value : Option K := none
  max_value : Option K := none
  initial_value : Option K := none
  unit : Option String := none
  description : Option String := none

/-- `ModelAux` attributes (base.py:335-353). -/
@[ext] structure ModelAux (K : Type) where
  name : Option String := some ""
  min_value : Option K := none
  max_value : Option K := none
  unit : Option String := none
  description : Option String := none

/-- `ModelNP` attributes (base.py:447-473). -/
@[ext] structure ModelNP (K : Type) where
  name : Option String := some ""
  nominal_value : Option K
  variation : Option K
  constraint : Option K := none
  aux_obs : Option String := none
  unit : Option String := none
  description : Option String := none

section
variable {K : Type} [Field K]

/-- `ModelPOI.load_dict` (base.py:284-299). -/
def ModelPOI.loadDict (self : ModelPOI K) (d : Dict (MVal K)) : Except PyErr (ModelPOI K) := do
  let name ← loadStr "name" d self.name
  let description ← loadStr "description" d none
  let min_value ← loadNum "min_value" d (some 0)
  let max_value ← loadNum "max_value" d (some 0)
  let initial_value ← loadNum "initial_value" d (some 0)
  let unit ← loadStr "unit" d none
  return { name, description, min_value, max_value, initial_value, unit }

/-- `ModelPOI.fill_dict` (base.py:301-312). -/
def ModelPOI.fillDict (p : ModelPOI K) (d : Dict (MVal K)) : Dict (MVal K) :=
  let d := d.set "name" (.ofStr p.name)
  let d := d.setOpt "description" p.description .str
  let d := d.setOpt "min_value" p.min_value .num
  let d := d.setOpt "max_value" p.max_value .num
  let d := d.setOpt "initial_value" p.initial_value .num
  d.setOpt "unit" p.unit .str

/-- `ModelAux.load_dict` (base.py:383-397). -/
def ModelAux.loadDict (self : ModelAux K) (d : Dict (MVal K)) : Except PyErr (ModelAux K) := do
  let name ← loadStr "name" d self.name
  let description ← loadStr "description" d none
  let unit ← loadStr "unit" d none
  let min_value ← loadNum "min_value" d none
  let max_value ← loadNum "max_value" d none
  return { name, description, unit, min_value, max_value }

/-- `ModelAux.fill_dict` (base.py:399-409). -/
def ModelAux.fillDict (p : ModelAux K) (d : Dict (MVal K)) : Dict (MVal K) :=
  let d := d.set "name" (.ofStr p.name)
  let d := d.setOpt "description" p.description .str
  let d := d.setOpt "unit" p.unit .str
  let d := d.set "min_value" (.ofNum p.min_value)
  d.set "max_value" (.ofNum p.max_value)

/-- `ModelNP.load_dict` (base.py:563-584).  `constraint` is loaded without type check in the
code; non-numeric constraints are outside the model (`PyErr.unmodelled`). -/
def ModelNP.loadDict (self : ModelNP K) (d : Dict (MVal K)) : Except PyErr (ModelNP K) := do
  let name ← loadStr "name" d self.name
  let description ← loadStr "description" d none
  let unit ← loadStr "unit" d none
  let nominal_value ← loadNum "nominal_value" d (some 0)
  let variation ← loadNum "variation" d none
  let constraint ← (← loadField "constraint" d .none []).toNum?
  let variation := match variation with
    | some v => some v
    | none => match constraint with
      | some c => some c
      | none => some 1
  let aux_obs ← match constraint with
    | some _ => loadStr "aux_obs" d none
    | none => .ok none
  return { name, description, unit, nominal_value, variation, constraint, aux_obs }

/-- `ModelNP.fill_dict` (base.py:586-598). -/
def ModelNP.fillDict (p : ModelNP K) (d : Dict (MVal K)) : Dict (MVal K) :=
  let d := d.set "name" (.ofStr p.name)
  let d := d.setOpt "description" p.description .str
  let d := d.setOpt "unit" p.unit .str
  let d := d.set "nominal_value" (.ofNum p.nominal_value)
  let d := d.set "variation" (.ofNum p.variation)
  let d := d.setOpt "constraint" p.constraint .num
  d.setOpt "aux_obs" p.aux_obs .str

/-- The numeric content of a `ModelNP` whose nominal value and variation are numbers, used
by all the computations below (a `None` there raises `TypeError` in Python arithmetic). -/
structure NP (K : Type) where
  name : String
  nominal_value : K
  variation : K
  constraint : Option K := none
  aux_obs : Option String := none

/-- Reading the numeric content; fails where Python arithmetic on `None` would. -/
def ModelNP.numeric (p : ModelNP K) : Except PyErr (NP K) :=
  match p.name, p.nominal_value, p.variation with
  | some n, some a, some b => .ok ⟨n, a, b, p.constraint, p.aux_obs⟩
  | _, _, _ => .error .typeError

/-- `ModelNP.is_free` (base.py:474-480). -/
def NP.isFree (p : NP K) : Bool := p.constraint.isNone

/-- `ModelNP.unscaled_value` (base.py:482-492). -/
def NP.unscaledValue (p : NP K) (s : K) : K := p.nominal_value + s * p.variation

/-- `ModelNP.scaled_value` (base.py:494-504).  Division by a zero variation
(`ZeroDivisionError`/`inf` in Python) is excluded by hypothesis in the theorems. -/
def NP.scaledValue (p : NP K) (u : K) : K := (u - p.nominal_value) / p.variation

/-- `ModelNP.scaled_constraint` (base.py:506-514); `TypeError` for a free NP (`None/x`). -/
def NP.scaledConstraint (p : NP K) : Except PyErr K :=
  match p.constraint with
  | some c => .ok (c / p.variation)
  | none => .error .typeError
end
end Verif
