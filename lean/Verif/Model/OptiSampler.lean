import Verif.Model.Calc
import Verif.Model.Sampler
/-!
# Model of `OptiSampler` (`/repo/src/fastprof/samplers.py:197-307`)

`debug` is off.  The minimiser of the sampler is kept from toy to toy.  It is created with no alternate
method and no rebound (samplers.py:240), for which `OptiMinimizer.tmu` (minimizers.py:674-710) is
`POIMinimizer.tmu` (399-448).
-/
namespace Verif

/-- A dataset as `OptiSampler.compute` uses it: the fits to it, and the `min_deltas` that `profile_nps`
leaves in `np_min` when called at a point (`None` if there are no iterations). -/
structure SampEnv where
  fit : FitEnv ℝ
  deltas : Pars ℝ → Except PyErr (Option (Pars ℝ))

/-- `min_deltas` after `profile_nps` (minimizers.py:392-395): that of the last call of `profile`, where
`nps = hypo.nps - deltas` (minimizers.py:217-219). -/
noncomputable def Mdl.lastDeltas {n P : Nat} (m : Mdl n P) (A : Mdl.Arrays) (x : Fin n → ℝ) (d : Mdl.DataV P) :
    Nat → (Fin P → ℝ) → Except PyErr (Option (Fin P → ℝ))
  | 0, _ => .ok none
  | 1, θ => do
    let θ' ← m.profile A x θ d
    return some fun a => θ a - θ' a
  | k + 2, θ => do
    let θ' ← m.profile A x θ d
    m.lastDeltas A x d (k + 1) θ'

/-- The dataset `d` of a model (minimizers.py:391-397). -/
noncomputable def Mdl.sampEnv {n P : Nat} (m : Mdl n P) (A : Mdl.Arrays) (niter : Nat) (floor : Option ℝ)
    (d : Mdl.DataV P) : SampEnv where
  fit := m.fitEnv A d niter floor
  deltas := fun p =>
    if p.pois.length = n ∧ p.nps.length = P then do
      let δ ← m.lastDeltas A (fun i => p.pois.getD i 0) d niter (fun a => p.nps.getD a 0)
      return δ.map fun δ => ⟨p.pois, List.ofFn δ⟩
    else .error .valueError

namespace OptiSampler

/-- The settings of an `OptiSampler` (samplers.py:197-242): `testHypo` is `test_hypo.pars`. -/
structure Cfg where
  testHypo : Dict ℝ
  genHypo : Pars ℝ
  bounds : List (ParBound ℝ) := []
  tmuAmu : Option ℝ := none
  tmuA0 : Option ℝ := none

/-- The minimiser of the sampler; `minPois` is the attribute `min_pois`, which does not exist before the
first successful fit (minimizers.py:606, 661). -/
structure St where
  min : OptiMin ℝ
  minPois : Option (List ℝ) := none

/-- `OptiMinimizer(self.method, niter=.., floor=..)` (samplers.py:240). -/
def St.fresh (method : String) : St := ⟨{ method := method, tmuDebug := 0 }, none⟩

/-- The point at which a fit called `profile_nps` for the last time (minimizers.py:602-629).  An optimiser
that never evaluates the objective is not followed further. -/
noncomputable def lastPoint (opt : Optim ℝ) (env : FitEnv ℝ) (st : MinSt ℝ) : Except PyErr (Pars ℝ) := do
  let free ← freeBounds st.bounds
  if free.length = 0 ∧ st.method ≠ "" then return st.initPois
  let run ← optRun opt env st
  match run.evals.getLast? with
  | some x => updateHypo ((free.map Prod.fst).zip x) st.initPois
  | none => throw .unmodelled

/-- What `compute` reads from the minimiser after `tmu`. -/
structure Fits where
  tmu : ℝ
  hypoDeltas : Option (Pars ℝ)
  freeDeltas : Option (Pars ℝ)
  minPois : Option (List ℝ)

/-- `min_pois` after the free fit: the result of the optimiser if it succeeded (minimizers.py:661), and else
the one of an earlier fit (651-659). -/
def newMinPois (r : MinRet ℝ) (sf : MinSt ℝ) (old : Option (List ℝ)) : Option (List ℝ) :=
  match r with
  | .nll _ => some sf.minPois
  | .nonePair => old

/-- `self.minimizer.tmu(self.test_hypo.pars, data, self.gen_hypo)` (samplers.py:264, minimizers.py:399-448). -/
noncomputable def tmu (c : CalcSetup) (cfg : Cfg) (env : SampEnv) (s : St) : Except PyErr (St × Fits) := do
  let (pf, bf) ← setPois c.m c.pois cfg.genHypo (s.min.bounds.map Dict.values) (some cfg.testHypo) false
  let (ph, bh) ← setPois c.m c.pois cfg.genHypo (some bf.values) (some cfg.testHypo) true
  let h0 : MinSt ℝ := { method := s.min.method, initPois := ph, bounds := bh }
  let f0 : MinSt ℝ := { method := s.min.method, initPois := pf, bounds := bf,
                        minNll := s.min.minNll, minPars := s.min.minPars }
  let (sh, _) ← minimizeD c.opt env.fit c.m h0
  let hd ← env.deltas (← lastPoint c.opt env.fit h0)
  let (sf, rf) ← minimizeD c.opt env.fit c.m f0
  let fd ← env.deltas (← lastPoint c.opt env.fit f0)
  match sh.minNll, sf.minNll, sh.minPars, sf.minPars with
  | some h, some f, some _, some fp =>
    let t := 2 * (h - f)
    let mp := newMinPois rf sf s.minPois
    return (⟨{ s.min with method := sf.method, bounds := some bf, minNll := some f, minPars := some fp,
                          tmuDebug := if t < -(1 / 10 ^ 10) then t else s.min.tmuDebug }, mp⟩,
            ⟨tmuValue h f, hd, fd, mp⟩)
  | _, _, _, _ => throw .typeError

/-- `bound.test(deltas)` (model_tools.py:714-725); `None[..]` raises `TypeError`. -/
noncomputable def boundTest (m : ParModel ℝ) (b : ParBound ℝ) : Option (Pars ℝ) → Except PyErr Bool
  | some p => b.test m p
  | none => .error .typeError

/-- The loop over `self.bounds` (samplers.py:271-279): whether all are verified. -/
noncomputable def passes (m : ParModel ℝ) (f : Fits) : List (ParBound ℝ) → Except PyErr Bool
  | [] => .ok true
  | b :: bs => do
    if ← boundTest m b f.freeDeltas then
      if ← boundTest m b f.hypoDeltas then passes m f bs
      else return false
    else return false

/-- `self.minimizer.min_pois[0]`. -/
def best (f : Fits) : Except PyErr ℝ :=
  match f.minPois with
  | none => .error .attributeError
  | some [] => .error .indexError
  | some (x :: _) => .ok x

/-- The p-value of the test statistic (samplers.py:284-289, 307). -/
noncomputable def pvOf (cfg : Cfg) (f : Fits) : Except PyErr ℝ := do
  match cfg.testHypo with
  | [] => throw .indexError
  | (_, poi) :: _ =>
    let b ← best f
    match cfg.tmuAmu, cfg.tmuA0 with
    | some a, some a0 => (QMuTilda.init poi f.tmu b none none (some a) (some a0)).asymptoticPv
    | _, _ => (QMu.init poi f.tmu b none none none).asymptoticPv

open Classical in
/-- `OptiSampler.compute` (samplers.py:243-307). -/
noncomputable def compute (c : CalcSetup) (cfg : Cfg) (env : SampEnv) (s : St) :
    Except PyErr (St × Option ℝ) := do
  let (s', f) ← tmu c cfg env s
  if f.tmu < 0 then return (s', none)
  if ← passes c.m f cfg.bounds then
    let pv ← pvOf cfg f
    return (s', some pv)
  else return (s', none)

/-- The minimiser after the calls of `compute` on the first `i` datasets. -/
noncomputable def stateAt (c : CalcSetup) (cfg : Cfg) (dat : ℕ → SampEnv) (s0 : St) : ℕ → Except PyErr St
  | 0 => .ok s0
  | i + 1 => do
    let s ← stateAt c cfg dat s0 i
    let (s', _) ← compute c cfg (dat i) s
    return s'

/-- The outcome of the `i`-th call of `compute` by `generate` (samplers.py:122-126): every attempt is made on the
next pseudo-dataset, with the minimiser as the previous calls left it. -/
noncomputable def call (c : CalcSetup) (cfg : Cfg) (dat : ℕ → SampEnv) (s0 : St) (i : ℕ) :
    Except PyErr (Option ℝ) := do
  let s ← stateAt c cfg dat s0 i
  let (_, v) ← compute c cfg (dat i) s
  return v

/-- `OptiSampler.generate` (samplers.py:93-138, 231): `max_tries` is not passed on to the base class, which uses 20. -/
noncomputable def generate (c : CalcSetup) (cfg : Cfg) (dat : ℕ → SampEnv) (s0 : St) (ntoys fuel : ℕ) :
    Option (Except PyErr (List ℝ)) :=
  Sampler.generate (call c cfg dat s0) 20 ntoys fuel

/-! ### `FitResult.set_poi_values_and_ranges` -/

/-- A value in the dict `minimizer.bounds`: a `ParBound` object, or a pair of numbers as left by
`FitResult.set_poi_values_and_ranges`. -/
inductive BoundVal where
  | bound (b : ParBound ℝ)
  | pair (lo hi : Option ℝ)

/-- `bound.par` and the other attributes read by `set_pois` (minimizers.py:341): a tuple has none of them. -/
def BoundVal.get : BoundVal → Except PyErr (ParBound ℝ)
  | .bound b => .ok b
  | .pair _ _ => .error .attributeError

/-- `FitResult.set_poi_values_and_ranges` (fit_data.py:217-231) on a minimiser that was not used: the new
`(init_pois, bounds)`. -/
noncomputable def setPoiValuesAndRanges (m : ParModel ℝ) (r : FitResult) :
    Except PyErr (Pars ℝ × Dict BoundVal) := do
  let p ← r.pars m
  let bs ← m.pois.mapM fun n => do
    let fp ← r.fitpars.getItem n
    return (n, BoundVal.pair fp.poi.min_value fp.poi.max_value)
  return (p, Dict.setAll [] bs)

/-- `compute` on a minimiser with the given `bounds` attribute (samplers.py:264, minimizers.py:421, 336-341): the loop over
the bounds comes after the hypothesis values are set. -/
noncomputable def computeAny (c : CalcSetup) (cfg : Cfg) (bounds : Dict BoundVal) (env : SampEnv) (s : St) :
    Except PyErr (St × Option ℝ) := do
  let _ ← setHypo c.m cfg.testHypo cfg.genHypo
  let bs ← bounds.mapM fun e => do return (e.1, ← e.2.get)
  compute c cfg env { s with min := { s.min with bounds := some bs } }

end OptiSampler
end Verif
