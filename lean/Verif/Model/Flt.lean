import Mathlib.Analysis.SpecialFunctions.Log.Basic
/-!
# Numbers with infinities and `nan`

numpy results that are not finite.  Rounding, overflow and the sign of zero are not modelled.
-/
namespace Verif

/-- A numpy float: a real number, an infinity, or `nan`. -/
inductive Flt where
  | fin (r : ℝ) | pinf | ninf | nan

namespace Flt

/-- `a + b`. -/
noncomputable def add : Flt → Flt → Flt
  | fin a, fin b => fin (a + b)
  | nan, _ => nan
  | _, nan => nan
  | pinf, ninf => nan
  | ninf, pinf => nan
  | pinf, _ => pinf
  | _, pinf => pinf
  | ninf, _ => ninf
  | _, ninf => ninf

/-- `-a`. -/
noncomputable def neg : Flt → Flt
  | fin a => fin (-a)
  | pinf => ninf
  | ninf => pinf
  | nan => nan

open Classical in
/-- `c * a` for a finite `c`. -/
noncomputable def smul (c : ℝ) : Flt → Flt
  | fin a => fin (c * a)
  | pinf => if c = 0 then nan else if 0 < c then pinf else ninf
  | ninf => if c = 0 then nan else if 0 < c then ninf else pinf
  | nan => nan

open Classical in
/-- `a / b` for finite `a`, `b` (zero taken as `+0`). -/
noncomputable def div (a b : ℝ) : Flt :=
  if b = 0 then (if a = 0 then nan else if 0 < a then pinf else ninf) else fin (a / b)

open Classical in
/-- `np.log`. -/
noncomputable def log : Flt → Flt
  | fin a => if 0 < a then fin (Real.log a) else if a = 0 then ninf else nan
  | pinf => pinf
  | ninf => nan
  | nan => nan

/-- `np.sum` of an array. -/
noncomputable def sum (l : List Flt) : Flt := l.foldr add (fin 0)

/-- `if math.isnan(result) : result = np.Infinity` (core.py:780). -/
def nanToInf : Flt → Flt
  | nan => pinf
  | x => x

end Flt
end Verif
