import Verif.Model.Base
import Mathlib.Data.Real.Basic
/-!
# Model of the file layer of `Serializable` (`/repo/src/fastprof/base.py:35-125, 154-187`)

The Python objects that may appear in a payload, what `json` and `yaml` (`yaml.dump`, `yaml.safe_load`) make of them, and
the files.  The text itself is not modelled: a file that was written completely holds the tree of its content.  Keys of
dicts are strings, as everywhere in the code.  Numbers are written and read exactly (`repr` of a float).
-/
namespace Verif.Files
open Verif

/-- A Python object.  `npOther` are the numpy scalars other than `np.int64` and `np.float64` (`np.int32`, `np.float32`,
`np.bool_`), `array` an `np.ndarray` with its elements as they come out of iteration. -/
inductive PyVal where
  | none
  | bool (b : Bool)
  | int (n : ℤ)
  | float (x : ℝ)
  | str (s : String)
  | npInt64 (n : ℤ)
  | npFloat64 (x : ℝ)
  | npOther (x : ℝ)
  | list (l : List PyVal)
  | tuple (l : List PyVal)
  | array (l : List PyVal)
  | dict (d : List (String × PyVal))

/-- `Serializable.unnumpy` (base.py:154-175); the elements of tuples are not looked at. -/
def unnumpy : PyVal → PyVal
  | .npInt64 n => .int n
  | .npFloat64 x => .float x
  | .array l => .list (l.attach.map fun x => unnumpy x.1)
  | .list l => .list (l.attach.map fun x => unnumpy x.1)
  | .dict d => .dict (d.attach.map fun kv => (kv.1.1, unnumpy kv.1.2))
  | v => v
termination_by v => sizeOf v
decreasing_by
  all_goals simp_wf
  · have := List.sizeOf_lt_of_mem x.2; omega
  · have := List.sizeOf_lt_of_mem x.2; omega
  · have := List.sizeOf_lt_of_mem kv.2; obtain ⟨⟨a, b⟩, hk⟩ := kv; simp at *; omega

/-- What `json.load` reads after `json.dump` wrote the object; `none` when `json.dump` raises `TypeError` (base.py:68).
`np.float64` is a `float`, tuples are written as lists; arrays and other numpy scalars cannot be written. -/
noncomputable def json : PyVal → Option (MVal ℝ)
  | .none => some .none
  | .bool b => some (.num (if b then 1 else 0))
  | .int n => some (.num n)
  | .float x => some (.num x)
  | .npFloat64 x => some (.num x)
  | .str s => some (.str s)
  | .list l => (l.attach.mapM fun x => json x.1).map .list
  | .tuple l => (l.attach.mapM fun x => json x.1).map .list
  | .dict d => (d.attach.mapM fun kv => (json kv.1.2).map fun w => (kv.1.1, w)).map .dict
  | .npInt64 _ => none
  | .npOther _ => none
  | .array _ => none
termination_by v => sizeOf v
decreasing_by
  all_goals simp_wf
  · have := List.sizeOf_lt_of_mem x.2; omega
  · have := List.sizeOf_lt_of_mem x.2; omega
  · have := List.sizeOf_lt_of_mem kv.2; obtain ⟨⟨a, b⟩, hk⟩ := kv; simp at *; omega

/-- What `yaml.safe_load` reads after `yaml.dump` wrote the object; `none` when it raises `ConstructorError`, because
the object was written with a Python tag (`!!python/tuple`, `!!python/object/apply:...`), which is what `yaml.dump` does with
tuples and all numpy objects (base.py:45, 69). -/
noncomputable def yaml : PyVal → Option (MVal ℝ)
  | .none => some .none
  | .bool b => some (.num (if b then 1 else 0))
  | .int n => some (.num n)
  | .float x => some (.num x)
  | .str s => some (.str s)
  | .list l => (l.attach.mapM fun x => yaml x.1).map .list
  | .dict d => (d.attach.mapM fun kv => (yaml kv.1.2).map fun w => (kv.1.1, w)).map .dict
  | .npFloat64 _ => none
  | .npInt64 _ => none
  | .npOther _ => none
  | .tuple _ => none
  | .array _ => none
termination_by v => sizeOf v
decreasing_by
  all_goals simp_wf
  · have := List.sizeOf_lt_of_mem x.2; omega
  · have := List.sizeOf_lt_of_mem kv.2; obtain ⟨⟨a, b⟩, hk⟩ := kv; simp at *; omega

/-- The content of a file: nothing, the beginning of a JSON document that is a list or a dict, a JSON document, or a YAML document, which may
contain tags that `safe_load` refuses (`none`). -/
inductive Content where
  | empty
  | broken
  | jsonDoc (v : MVal ℝ)
  | yamlDoc (v : Option (MVal ℝ))

/-- The files, by name. -/
abbrev Disk := String → Option Content

/-- `Serializable.guess_flavor` (base.py:71-83). -/
def guessFlavor (filename default : String) : String :=
  if "json".toList <:+ filename.toList then "json"
  else if "yaml".toList <:+ filename.toList then "yaml"
  else default

/-- `Serializable.save` (base.py:53-69): the files afterwards and whether it raised.  The file is opened for writing, and
so emptied, before the flavour is looked at and before the object is written. -/
noncomputable def save (fs : Disk) (filename : String) (flavor : Option String) (payload : PyVal) : Disk × Except PyErr Unit :=
  let fl := flavor.getD (guessFlavor filename "json")
  if fl = "json" then
    match json payload with
    | some w => (Function.update fs filename (some (.jsonDoc w)), .ok ())
    | none => (Function.update fs filename (some .broken), .error .typeError)
  else if fl = "yaml" then (Function.update fs filename (some (.yamlDoc (yaml payload))), .ok ())
  else (Function.update fs filename (some .empty), .error .keyError)

/-- The file left by `save` in the flavour JSON when the process is stopped after the file is opened and before it is
complete (base.py:67-69); the payload is a list or a dict. -/
def saveCrash (fs : Disk) (filename : String) : Disk := Function.update fs filename (some .broken)

/-- The value that `Serializable.load` (base.py:35-52) passes to `load_dict`.  Reading a file in the other flavour than
the one it was written in is not modelled; `yaml.safe_load` of an empty file is `None`. -/
def load (fs : Disk) (filename : String) (flavor : Option String) : Except PyErr (MVal ℝ) :=
  let fl := flavor.getD (guessFlavor filename "json")
  match fs filename with
  | none => .error .ioError
  | some c =>
    if fl = "json" then
      match c with
      | .jsonDoc v => .ok v
      | .empty => .error .valueError
      | .broken => .error .valueError
      | .yamlDoc _ => .error .unmodelled
    else if fl = "yaml" then
      match c with
      | .yamlDoc (some v) => .ok v
      | .yamlDoc none => .error .valueError
      | .empty => .ok .none
      | .broken => .error .valueError
      | .jsonDoc _ => .error .unmodelled
    else .error .keyError

/-- `Serializable.dump_markup` (base.py:103-115): the local variable `sdict` is used before it is set. -/
def dumpMarkup (_payload : PyVal) (_flavor : String) : Except PyErr (MVal ℝ) := .error .nameError

/-- The payload of `Data.fill_dict` (core.py:1497-1515), for the entries of the channels, which hold Python numbers, and the
names and values of the auxiliary observables; these are computed from an element of an array (core.py:1514) and are
`np.float64`. -/
def dataPayload (channels : List PyVal) (aux : List (String × ℝ)) : PyVal :=
  .dict [("data", .dict [("channels", .list channels),
    ("aux_obs", .list (aux.map fun a => .dict [("name", .str a.1), ("value", .npFloat64 a.2)]))])]

/-- An entry of the payload of a raster, `PLRData.fill_dict` (fit_data.py:363-377), for a hypothesis without `full_hypo`;
the p-values are those computed by the calculators (calculators.py:256, 367-369, 424-426), as returned by `scipy.stats`, which are
`np.float64`. -/
def plrPayload (hypo freeFit hypoFit : PyVal) (testStats : List (String × ℝ)) (pvs : List (String × ℝ)) : PyVal :=
  .dict [("hypo", hypo), ("free_fit", freeFit), ("hypo_fit", hypoFit),
    ("test_statistics", .dict (testStats.map fun t => (t.1, .npFloat64 t.2))), ("pvs", .dict (pvs.map fun t => (t.1, .npFloat64 t.2)))]

/-- The payload of `GaussianChannel.fill_dict` (channels.py:676-687); the covariance is an array of arrays. -/
def gaussianPayload (name : String) (bins : PyVal) (cov : List (List ℝ)) (samples : List PyVal) : PyVal :=
  .dict [("name", .str name), ("type", .str "multi_bin"), ("bins", bins),
    ("covariance", .array (cov.map fun row => .array (row.map .npFloat64))), ("samples", .list samples)]

/-- A model with these channels: `Model.fill_dict` (core.py:1270-1291), `other` are the other entries. -/
def modelPayload (other : List (String × PyVal)) (channels : List PyVal) : PyVal :=
  .dict [("model", .dict (other ++ [("channels", .list channels)]))]

end Verif.Files
