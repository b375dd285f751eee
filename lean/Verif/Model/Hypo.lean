import Verif.Model.Dict
import Mathlib.Data.Real.Basic
/-!
# Model of `POIHypo` and of Python dicts keyed by `POIHypo`
(`/repo/src/fastprof/fit_data.py:26-99`)
-/
namespace Verif
open Classical

/-- `POIHypo` (fit_data.py:26-42): only attribute `pars`, a dict of values.  The values are real
numbers (NaN is not modelled). -/
abbrev Hypo := Dict ℝ

/-- `POIHypo.__eq__` (fit_data.py:64-65): equality of Python dicts, which ignores the order of the
keys: same number of entries, and every entry of the first is an entry of the second. -/
def Hypo.eqv (a b : Hypo) : Prop := a.length = b.length ∧ ∀ kv ∈ a, Dict.get? b kv.1 = some kv.2

/-- `POIHypo.__hash__` (fit_data.py:67-68): `hash(tuple(self.pars))`, the hash of the tuple of the
*keys* in insertion order.  `h` is the interpreter's hash function on tuples of strings (it is
seeded at random in each process, so it is an arbitrary parameter of the model). -/
def Hypo.hash (h : List String → ℕ) (a : Hypo) : ℕ := h a.keys

/-- A Python dict whose keys are `POIHypo` objects, e.g. `Samples.dists` (sampling.py:252) and
`Raster.plr_data` (fit_data.py:434), in insertion order. -/
abbrev HDict (V : Type) := List (Hypo × V)

/-- Does CPython take the stored key `a` for the requested key `b`?  Both hash and equality must
agree (a key identical to the stored one agrees on both). -/
def Hypo.matches (h : List String → ℕ) (a b : Hypo) : Prop := a.hash h = b.hash h ∧ a.eqv b

namespace HDict
variable {V : Type}

/-- `d.get(k)` (Python built-in). -/
noncomputable def get? (h : List String → ℕ) : HDict V → Hypo → Option V
  | [], _ => none
  | (k', v) :: d, k => if k'.matches h k then some v else get? h d k

/-- `d[k] = v` (Python built-in): the stored key object is kept when one matches. -/
noncomputable def set (h : List String → ℕ) : HDict V → Hypo → V → HDict V
  | [], k, v => [(k, v)]
  | (k', v') :: d, k, v => if k'.matches h k then (k', v) :: d else (k', v') :: set h d k v

/-- `d[k]` (Python built-in): `KeyError` when absent. -/
noncomputable def getItem (h : List String → ℕ) (d : HDict V) (k : Hypo) : Except PyErr V :=
  match d.get? h k with
  | some v => .ok v
  | none => .error .keyError

end HDict
end Verif
