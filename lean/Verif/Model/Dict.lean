/-!
# Python run-time pieces used by all models

Python exceptions as values, and insertion-ordered dictionaries.
-/
namespace Verif

/-- The Python exceptions raised (explicitly or by the interpreter) in the modelled code.
The message text is not modelled. -/
inductive PyErr where
  | keyError | valueError | typeError | indexError | nameError | attributeError
  | zeroDivision | linAlgError | ioError
  /-- not an exception: numpy goes on with `nan` or `inf` from here -/
  | nan
  /-- the code path leaves the modelled fragment (said where used) -/
  | unmodelled
deriving DecidableEq, Repr

/-- A Python `dict` with string keys: insertion-ordered key/value pairs.
(CPython 3.7+ semantics; used everywhere in `/repo/src/fastprof`.) -/
abbrev Dict (V : Type _) := List (String × V)

namespace Dict
variable {V : Type _}

/-- `d.get(k)` / `k in d` (Python built-in). -/
def get? : Dict V → String → Option V
  | [], _ => none
  | (k', v) :: d, k => if k' = k then some v else get? d k

/-- `d[k] = v` (Python built-in): overwrite in place, or append. -/
def set : Dict V → String → V → Dict V
  | [], k, v => [(k, v)]
  | (k', v') :: d, k, v => if k' = k then (k', v) :: d else (k', v') :: set d k v

/-- `d[k]` (Python built-in): `KeyError` when absent. -/
def getItem (d : Dict V) (k : String) : Except PyErr V :=
  match d.get? k with
  | some v => .ok v
  | none => .error .keyError

/-- `list(d)` / `d.keys()`. -/
def keys (d : Dict V) : List String := d.map Prod.fst

/-- `d.values()`. -/
def values (d : Dict V) : List V := d.map Prod.snd

/-- Conditional assignment `if x is not None : d[k] = f(x)`. -/
def setOpt {α : Type _} (d : Dict V) (k : String) (x : Option α) (f : α → V) : Dict V :=
  match x with
  | some a => d.set k (f a)
  | none => d

end Dict
end Verif
