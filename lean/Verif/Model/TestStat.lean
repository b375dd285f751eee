import Verif.Model.Dict
import Verif.Spec.Dist
/-!
# Model of `/repo/src/fastprof/test_statistics.py`

Exact real arithmetic; `scipy.stats.norm`/`chi2` are the mathematical distributions
(`Verif.Spec.Dist`).
-/
namespace Verif
open Classical

/-- `TMu` (test_statistics.py:121-137). -/
structure TMu where
  testPois : List ℝ
  tmu : ℝ

/-- `TMu.asymptotic_pv` (test_statistics.py:148-161) with `npois` (65-66). -/
noncomputable def TMu.asymptoticPv (s : TMu) (ts : Option ℝ := none) : ℝ :=
  chi2Sf (ts.getD s.tmu) s.testPois.length

/-- `TMu.asymptotic_ts` (test_statistics.py:178-188). -/
noncomputable def TMu.asymptoticTs (_s : TMu) (pv : ℝ) : ℝ := normIsf pv

/-- `QMu` (test_statistics.py:191-228).  `compPoi` is resolved by `QMu.init`. -/
structure QMu where
  testPoi : ℝ
  tmu : ℝ
  bestPoi : ℝ
  compPoi : ℝ
  tmuAmu : Option ℝ
  sigma : Option ℝ

/-- `QMu.__init__` (test_statistics.py:208-228). -/
def QMu.init (testPoi tmu bestPoi : ℝ) (compPoi tmuAmu sigma : Option ℝ) : QMu :=
  ⟨testPoi, tmu, bestPoi, compPoi.getD testPoi, tmuAmu, sigma⟩

/-- `QMu.value` (test_statistics.py:241-250). -/
noncomputable def QMu.value (s : QMu) : ℝ := if s.bestPoi < s.compPoi then s.tmu else -s.tmu

/-- `QMu.signed_sqrt` (test_statistics.py:252-262). -/
noncomputable def signedSqrt (x : ℝ) : ℝ := if x ≥ 0 then Real.sqrt x else -Real.sqrt (-x)

/-- `QMu.non_centrality_parameter` (test_statistics.py:264-290). -/
noncomputable def QMu.ncp (s : QMu) : Except PyErr ℝ :=
  if s.compPoi = s.testPoi then .ok 0
  else match s.tmuAmu with
    | some a => .ok (if a < 0 then 0 else a)
    | none => match s.sigma with
      | some σ => if σ = 0 then .error .zeroDivision else .ok (((s.compPoi - s.testPoi) / σ) ^ 2)
      | none => .error .valueError

/-- `QMu.asymptotic_pv` (test_statistics.py:292-305). -/
noncomputable def QMu.asymptoticPv (s : QMu) (ts : Option ℝ := none) : Except PyErr ℝ := do
  let l ← s.ncp
  return normSf (signedSqrt (ts.getD s.value) - Real.sqrt l)

/-- `QMu.asymptotic_pdf` (test_statistics.py:307-321). -/
noncomputable def QMu.asymptoticPdf (s : QMu) (ts : Option ℝ := none) : Except PyErr ℝ := do
  let l ← s.ncp
  let t := ts.getD s.value
  return if t ≠ 0 then normPdf (signedSqrt t - Real.sqrt l) / 2 / Real.sqrt |t| else 0

/-- `QMu.asymptotic_ts` (test_statistics.py:323-334). -/
noncomputable def QMu.asymptoticTs (s : QMu) (pv : ℝ) : Except PyErr ℝ := do
  let l ← s.ncp
  let q1 := normIsf pv + Real.sqrt l
  return q1 * |q1|

/-- `QMu.asymptotic_clb` (test_statistics.py:336-343): same object with `test_poi = 0`. -/
noncomputable def QMu.asymptoticClb (s : QMu) : Except PyErr ℝ :=
  (QMu.init 0 s.tmu s.bestPoi (some s.compPoi) s.tmuAmu s.sigma).asymptoticPv

/-- `asymptotic_cls` (test_statistics.py:345-355) from `asymptotic_pv()` and
`asymptotic_clb()`. -/
noncomputable def clsOf (clsb clb : Except PyErr ℝ) : Except PyErr ℝ := do
  let a ← clsb
  let b ← clb
  return if b > 0 then a / b else 1

/-- `QMu.asymptotic_cls` (test_statistics.py:345-355). -/
noncomputable def QMu.asymptoticCls (s : QMu) : Except PyErr ℝ := clsOf s.asymptoticPv s.asymptoticClb

/-- `QMuTilda` (test_statistics.py:358-401). -/
structure QMuTilda extends QMu where
  tmu0 : ℝ
  tmuA0 : Option ℝ

/-- `QMuTilda.__init__` (test_statistics.py:375-401). -/
def QMuTilda.init (testPoi tmu bestPoi : ℝ) (tmu0 compPoi tmuAmu tmuA0 : Option ℝ) : QMuTilda :=
  { QMu.init testPoi tmu bestPoi compPoi tmuAmu none with tmu0 := tmu0.getD tmu, tmuA0 := tmuA0 }

/-- `QMuTilda.value` (test_statistics.py:403-414). -/
noncomputable def QMuTilda.value (s : QMuTilda) : ℝ :=
  if s.bestPoi < 0 then s.tmu0 else if s.bestPoi < s.compPoi then s.tmu else -s.tmu

/-- `QMuTilda.threshold` (test_statistics.py:416-438); comparing `None` raises `TypeError`. -/
noncomputable def QMuTilda.threshold (s : QMuTilda) : Except PyErr ℝ :=
  match s.tmuA0 with
  | some a => .ok (if a < 0 then 0 else a)
  | none => .error .typeError

/-- `QMuTilda.asymptotic_pv` (test_statistics.py:440-456).  The operands are evaluated in the
order threshold, division, non-centrality.  A zero threshold divides by 0: `ZeroDivisionError` for
Python floats (a numpy float would give `inf` and the p-value 0). -/
noncomputable def QMuTilda.asymptoticPv (s : QMuTilda) (ts : Option ℝ := none) : Except PyErr ℝ := do
  let t := ts.getD s.value
  let T ← s.threshold
  if t < T then s.toQMu.asymptoticPv (some t)
  else if T = 0 then throw .zeroDivision
  else
    let l ← s.ncp
    return normSf ((t + T) / (2 * Real.sqrt T) - Real.sqrt l)

/-- `QMuTilda.asymptotic_pdf` (test_statistics.py:458-475). -/
noncomputable def QMuTilda.asymptoticPdf (s : QMuTilda) (ts : Option ℝ := none) : Except PyErr ℝ := do
  let t := ts.getD s.value
  let T ← s.threshold
  if t < T then s.toQMu.asymptoticPdf (some t)
  else if T = 0 then throw .zeroDivision
  else
    let l ← s.ncp
    return normPdf ((t + T) / (2 * Real.sqrt T) - Real.sqrt l) / (2 * Real.sqrt T)

/-- `QMuTilda.asymptotic_ts` (test_statistics.py:477-491): `q1` is compared with the threshold. -/
noncomputable def QMuTilda.asymptoticTs (s : QMuTilda) (pv : ℝ) : Except PyErr ℝ := do
  let l ← s.ncp
  let q1 := normIsf pv + Real.sqrt l
  let T ← s.threshold
  return if q1 < T then q1 * |q1| else q1 * 2 * Real.sqrt T - T

/-- `QMuTilda.asymptotic_clb` (test_statistics.py:493-500): a new object with `test_poi = 0` and
without the `tmu_0` argument, hence with `tmu_0 = tmu`. -/
noncomputable def QMuTilda.asymptoticClb (s : QMuTilda) : Except PyErr ℝ :=
  (QMuTilda.init 0 s.tmu s.bestPoi none (some s.compPoi) s.tmuA0 s.tmuA0).asymptoticPv

/-- `QMuTilda.asymptotic_cls`: inherited (test_statistics.py:345-355). -/
noncomputable def QMuTilda.asymptoticCls (s : QMuTilda) : Except PyErr ℝ :=
  clsOf s.asymptoticPv s.asymptoticClb

end Verif
