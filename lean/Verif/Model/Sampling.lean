import Verif.Model.Hypo
import Verif.Model.TestStat
import Mathlib.Algebra.Order.Floor.Ring
import Mathlib.Data.List.Sort
import Mathlib.Analysis.SpecialFunctions.Pow.Real
/-!
# Model of the sampling distributions (`/repo/src/fastprof/sampling.py`)

A `SamplingDistribution` is its array `samples`, a list of reals (NaN is not modelled; `filename`
is bookkeeping only).
-/
namespace Verif
open Classical

/-- The loop of `np.searchsorted` (numpy `npy_binsearch`): bisection on the half-open index
interval `[lo, hi)`; `below x` is `x < key` for `side='left'` and `x <= key` for `side='right'`. -/
noncomputable def bisect (l : List ℝ) (below : ℝ → Prop) (lo hi : ℕ) : ℕ :=
  if lo < hi then
    if below (l.getD ((lo + hi) / 2) 0) then bisect l below ((lo + hi) / 2 + 1) hi
    else bisect l below lo ((lo + hi) / 2)
  else lo
termination_by hi - lo
decreasing_by all_goals omega

/-- `np.searchsorted(samples, x, 'left')` (sampling.py:119). -/
noncomputable def searchLeft (l : List ℝ) (x : ℝ) : ℕ := bisect l (· < x) 0 l.length

/-- `np.searchsorted(samples, x, 'right')` (sampling.py:120). -/
noncomputable def searchRight (l : List ℝ) (x : ℝ) : ℕ := bisect l (· ≤ x) 0 l.length

namespace SampDist

/-- `SamplingDistribution.sort` (sampling.py:51-57), `np.sort`. -/
noncomputable def sort (l : List ℝ) : List ℝ := l.mergeSort (fun a b => decide (a ≤ b))

/-- `SamplingDistribution.__init__` (sampling.py:38-49): given samples are sorted, otherwise
`nentries` zeros. -/
noncomputable def init (nentries : ℕ) (samples : Option (List ℝ)) : List ℝ :=
  match samples with
  | some s => sort s
  | none => List.replicate nentries 0

/-- `SamplingDistribution.load` (sampling.py:59-81): `file` is the content of the file, `none`
if it cannot be read.  The file's samples replace the current ones, whose number only serves as
the number required (0: no requirement).  The samples are not sorted here. -/
def load (self : List ℝ) (file : Option (List ℝ)) : Except PyErr (List ℝ) :=
  match file with
  | none => .error .ioError
  | some s =>
    if 0 < self.length ∧ s.length < self.length then .error .ioError
    else if 0 < self.length ∧ self.length < s.length then .ok (s.take self.length)
    else .ok s

/-- `SamplingDistribution.save` (sampling.py:83-96): the new samples of the object, which are
also what is written to the file. -/
noncomputable def save (self : List ℝ) (sort_before_saving : Bool := true) : List ℝ :=
  if sort_before_saving then sort self else self

/-- `SamplingDistribution.pv` (sampling.py:98-124), without the error.  Dividing by an empty
distribution's length raises (`np.float64/0` gives nan with a warning: `nan` here). -/
noncomputable def pv (l : List ℝ) (apv : ℝ) : Except PyErr ℝ :=
  let nbelow : ℝ := ((searchLeft l apv : ℝ) + (searchRight l apv : ℝ)) / 2
  if l.length = 0 then .error .nan else .ok (nbelow / l.length)

/-- `SamplingDistribution.pv(.., with_error=True)` (sampling.py:98-124). -/
noncomputable def pvErr (l : List ℝ) (apv : ℝ) : Except PyErr (ℝ × ℝ) :=
  let nbelow : ℝ := ((searchLeft l apv : ℝ) + (searchRight l apv : ℝ)) / 2
  let ntot : ℝ := l.length
  if l.length = 0 then .error .nan
  else .ok (nbelow / ntot, Real.sqrt ((nbelow + 1) * (ntot - nbelow + 1) / ntot) / ntot)

/-- `SamplingDistribution.quantile` (sampling.py:126-147).  `fraction` wins over `nsigmas`;
`int(x)` of a non-negative number is its floor; an index equal to the length is an `IndexError`.
`cdf` is `scipy.stats.norm.cdf`. -/
noncomputable def quantile (cdf : ℝ → ℝ) (l : List ℝ) (fraction nsigmas : Option ℝ) :
    Except PyErr ℝ := do
  let f ← match fraction, nsigmas with
    | some f, _ => .ok f
    | none, some ns => .ok (cdf ns)
    | none, none => .error .valueError
  if f < 0 ∨ f > 1 then throw .valueError
  match l[⌊l.length * f⌋₊]? with
  | some x => return x
  | none => throw .indexError

/-- `if v` for `v : float = None` (sampling.py:161-162): neither `None` nor zero. -/
noncomputable def truthy (v : Option ℝ) : Option ℝ := v.filter (· ≠ 0)

/-- `SamplingDistribution.cut` (sampling.py:149-163). -/
noncomputable def cut (l : List ℝ) (min_val max_val : Option ℝ) : List ℝ :=
  let l := match truthy min_val with
    | some m => l.filter (fun x => m ≤ x)
    | none => l
  match truthy max_val with
  | some m => l.filter (fun x => x ≤ m)
  | none => l

end SampDist

/-- `Samples` (sampling.py:203-252), the attributes used by the lookups: the hypotheses and the
dict of distributions. -/
structure Samples where
  hypos : List Hypo
  dists : HDict (List ℝ)

namespace Samples

/-- `Samples.pv` (sampling.py:352-378); `KeyError` if there are no samples for the hypothesis. -/
noncomputable def pv (h : List String → ℕ) (s : Samples) (hypo : Hypo) (apv : ℝ) : Except PyErr ℝ := do
  SampDist.pv (← s.dists.getItem h hypo) apv

/-- `Samples.pv(.., with_error=True)`. -/
noncomputable def pvErr (h : List String → ℕ) (s : Samples) (hypo : Hypo) (apv : ℝ) :
    Except PyErr (ℝ × ℝ) := do
  SampDist.pvErr (← s.dists.getItem h hypo) apv

/-- `Samples.quantile` (sampling.py:380-397). -/
noncomputable def quantile (cdf : ℝ → ℝ) (h : List String → ℕ) (s : Samples) (hypo : Hypo)
    (fraction nsigmas : Option ℝ) : Except PyErr ℝ := do
  SampDist.quantile cdf (← s.dists.getItem h hypo) fraction nsigmas

/-- One entry of `Samples.bands` (sampling.py:399-411): `bds[i]`, the band of order `i`, one value
per hypothesis. -/
noncomputable def band (cdf : ℝ → ℝ) (h : List String → ℕ) (s : Samples) (i : ℤ) :
    Except PyErr (List ℝ) :=
  s.hypos.mapM (fun hypo => s.quantile cdf h hypo none (some i))

/-- `Samples.bands` (sampling.py:399-411): orders `-max_sigma .. max_sigma`. -/
noncomputable def bands (cdf : ℝ → ℝ) (h : List String → ℕ) (s : Samples) (max_sigma : ℕ) :
    Except PyErr (List (ℤ × List ℝ)) :=
  ((List.range (2 * max_sigma + 1)).map (fun k : ℕ => (k : ℤ) - max_sigma)).mapM
    (fun i => do return (i, ← s.band cdf h i))

end Samples

/-- `CLsSamples` (sampling.py:431-459). -/
structure CLsSamples where
  clsb : Samples
  cl_b : Samples

namespace CLsSamples

/-- `CLsSamples.pv` (sampling.py:509-532) without error. -/
noncomputable def pv (h : List String → ℕ) (s : CLsSamples) (hypo : Hypo) (apv : ℝ) :
    Except PyErr ℝ := do
  let clsb ← s.clsb.pv h hypo apv
  let cl_b ← s.cl_b.pv h hypo apv
  return if cl_b > 0 then clsb / cl_b else 1

/-- `CLsSamples.pv(.., with_error=True)` (sampling.py:509-532). -/
noncomputable def pvErr (h : List String → ℕ) (s : CLsSamples) (hypo : Hypo) (apv : ℝ) :
    Except PyErr (ℝ × ℝ) := do
  let clsb ← s.clsb.pvErr h hypo apv
  let cl_b ← s.cl_b.pvErr h hypo apv
  if cl_b.1 ≤ 0 then return (1, 1)
  if clsb.1 ≤ 0 then return (0, clsb.2 / cl_b.1)
  return (clsb.1 / cl_b.1,
    clsb.1 / cl_b.1 * Real.sqrt ((clsb.2 / clsb.1) ^ 2 + (cl_b.2 / cl_b.1) ^ 2))

/-- `CLsSamples.quantile` (sampling.py:534-553). -/
noncomputable def quantile (cdf : ℝ → ℝ) (h : List String → ℕ) (s : CLsSamples) (hypo : Hypo)
    (fraction nsigmas : Option ℝ) (cl_b : ℝ := 1 / 2) : Except PyErr ℝ := do
  if cl_b = 0 then throw .zeroDivision
  return (← s.clsb.quantile cdf h hypo fraction nsigmas) / cl_b

/-- The loop of `CLsSamples.bands` (sampling.py:567-572): a `Samples` object holding, at each
hypothesis of `clsb`, the sorted CLs values of all the `cl_b` samples. -/
noncomputable def clsDists (h : List String → ℕ) (s : CLsSamples) :
    List Hypo → HDict (List ℝ) → Except PyErr (HDict (List ℝ))
  | [], acc => .ok acc
  | hypo :: hypos, acc => do
    let l ← s.cl_b.dists.getItem h hypo
    let sd ← l.mapM (fun apv => s.pv h hypo apv)
    clsDists h s hypos (acc.set h hypo (SampDist.sort sd))

/-- `CLsSamples.bands` (sampling.py:555-573), one order.  `Samples(hypos=..)` with an empty list
raises `ValueError` (sampling.py:246-247). -/
noncomputable def band (cdf : ℝ → ℝ) (h : List String → ℕ) (s : CLsSamples) (i : ℤ) :
    Except PyErr (List ℝ) := do
  if s.clsb.hypos = [] then throw .valueError
  let d ← s.clsDists h s.clsb.hypos []
  (Samples.mk s.clsb.hypos d).band cdf h i

end CLsSamples
end Verif
