import Verif.Model.Params
import Mathlib.Order.Defs.LinearOrder
/-!
# Model of the POI minimisation
`ParBound` (`/repo/src/fastprof/model_tools.py:667-747`), `POIMinimizer`
(`/repo/src/fastprof/minimizers.py:255-448`) and `OptiMinimizer.minimize` (573-672).

Numbers range over a linearly ordered field.  The scipy optimiser is not modelled: what it did is
an argument (`OptRun`).  The profiling of the NPs and the NLL are arguments too (`FitEnv`); they
are modelled in `Verif.Model.NPMin` and `Verif.Model.Core`.
-/
namespace Verif

/-- `ParBound` (model_tools.py:683-698). -/
@[ext] structure ParBound (K : Type) where
  par : String
  min : Option K := none
  max : Option K := none
deriving DecidableEq

section
variable {K : Type} [Field K] [LinearOrder K]

/-- `ParBound.is_fixed` (model_tools.py:703): `None == None` is true in Python. -/
def ParBound.isFixed (b : ParBound K) : Bool := decide (b.min = b.max)

/-- `ParBound.is_free` (model_tools.py:706): `<` with `None` raises `TypeError`. -/
def ParBound.isFree (b : ParBound K) : Except PyErr Bool :=
  match b.min, b.max with
  | some lo, some hi => .ok (decide (lo < hi))
  | _, _ => .error .typeError

/-- `ParBound.__and__` (model_tools.py:709-713). -/
def ParBound.and (a b : ParBound K) : Option (ParBound K) :=
  if a.par ≠ b.par then none
  else
    let lo := match b.min with
      | none => a.min
      | some y => match a.min with
        | none => some y
        | some x => some (Max.max x y)
    let hi := match b.max with
      | none => a.max
      | some y => match a.max with
        | none => some y
        | some x => some (Min.min x y)
    some ⟨a.par, lo, hi⟩

/-- `ParBound.test_value` (model_tools.py:715). -/
def ParBound.testValue (b : ParBound K) (v : K) : Bool :=
  (match b.min with | some lo => decide (lo ≤ v) | none => true) &&
  (match b.max with | some hi => decide (v ≤ hi) | none => true)

/-- `ParBound.test` (model_tools.py:718-729): a parameter unknown to the model passes. -/
def ParBound.test (b : ParBound K) (m : ParModel K) (p : Pars K) : Except PyErr Bool :=
  match p.get m b.par with
  | .ok v => .ok (b.testValue v)
  | .error .keyError => .ok true
  | .error e => .error e

/-- Midpoint to which an out-of-range start value is reset (minimizers.py:345-348);
`TypeError` if an end is `None`. -/
def ParBound.mid (b : ParBound K) : Except PyErr K :=
  match b.min, b.max with
  | some lo, some hi => .ok ((lo + hi) / 2)
  | _, _ => .error .typeError

/-- Name and range of a model POI (`ModelPOI.name/min_value/max_value`, base.py:229-252). -/
abbrev PoiRange (K : Type) := ParBound K

/-- `for par, val in hypo.items() : self.init_pois[par] = val` (minimizers.py:336); item
assignment is `Parameters.set(par, val)` with scaled NPs (core.py:206-218). -/
def setHypo (m : ParModel K) : Dict K → Pars K → Except PyErr (Pars K)
  | [], p => .ok p
  | (par, val) :: h, p => do setHypo m h (← p.set m par val false)

/-- Bounds of the model POIs overridden by the `bounds` argument (minimizers.py:338-341). -/
def argBounds (pois : List (PoiRange K)) (bounds : Option (List (ParBound K))) :
    Dict (ParBound K) :=
  let d := Dict.setAll [] (pois.map fun b => (b.par, b))
  match bounds with
  | none => d
  | some bs => Dict.setAll d (bs.map fun b => (b.par, b))

/-- The bound dictionary built by `POIMinimizer.set_pois` (minimizers.py:338-343). -/
def buildBounds (pois : List (PoiRange K)) (bounds : Option (List (ParBound K)))
    (hypo : Option (Dict K)) (fix : Bool) : Except PyErr (Dict (ParBound K)) := do
  let d := argBounds pois bounds
  if fix then
    match hypo with
    | none => throw .typeError
    | some h => return Dict.setAll d (h.map fun kv => (kv.1, ⟨kv.1, some kv.2, some kv.2⟩))
  else return d

/-- The last loop of `set_pois` (minimizers.py:344-348). -/
def clampInit (m : ParModel K) : List (ParBound K) → Pars K → Except PyErr (Pars K)
  | [], p => .ok p
  | b :: bs, p => do
    let v ← p.get m b.par
    if b.testValue v then clampInit m bs p
    else
      let c ← b.mid
      let p ← p.set m b.par c false
      clampInit m bs p

/-- `POIMinimizer.set_pois` (minimizers.py:318-350): the new `(init_pois, bounds)`.
`init` is `init_pars` or, when that is `None`, `model.ref_pars`. -/
def setPois (m : ParModel K) (pois : List (PoiRange K)) (init : Pars K)
    (bounds : Option (List (ParBound K))) (hypo : Option (Dict K)) (fix : Bool) :
    Except PyErr (Pars K × Dict (ParBound K)) := do
  let p ← setHypo m (hypo.getD []) init
  let d ← buildBounds pois bounds hypo fix
  let p ← clampInit m d.values p
  return (p, d)

/-- `POIMinimizer.set_constant` (minimizers.py:352-361). -/
def setConstant (d : Dict (ParBound K)) (parvals : Dict K) : Dict (ParBound K) :=
  Dict.setAll d (parvals.map fun kv => (kv.1, ⟨kv.1, some kv.2, some kv.2⟩))

/-- `POIMinimizer.free_pois` (minimizers.py:363-370). -/
def freePois (m : ParModel K) (d : Dict (ParBound K)) : List String :=
  m.pois.filter fun n => match d.get? n with
    | none => true
    | some b => !b.isFixed

/-! ### `OptiMinimizer.minimize` -/

/-- What the minimiser calls: `profile_nps` (minimizers.py:373-397) as the profiled point and the
NLL of a point (with the floor). -/
structure FitEnv (K : Type) where
  profile : Pars K → Except PyErr (Pars K)
  nll : Pars K → Except PyErr K

/-- A run of a scipy optimiser: the points at which the objective or the Jacobian was called, in
order, and the fields `x`, `fun`, `success` of the result. -/
structure OptRun (K : Type) where
  evals : List (List K)
  x : List K
  fn : K
  success : Bool

/-- The mutable attributes of an `OptiMinimizer` used below. -/
structure MinSt (K : Type) where
  method : String
  initPois : Pars K
  bounds : Dict (ParBound K)
  minNll : Option K := none
  minPars : Option (Pars K) := none
  minPois : List K := []

/-- Value returned by `minimize`: a number, or the pair `(None, None)` on failure. -/
inductive MinRet (K : Type) where
  | nll (v : K)
  | nonePair

/-- `update_current_hypo` (minimizers.py:613-614): `zip(free_indices, pois)`; numpy raises
`IndexError` for an index beyond the POI array. -/
def updateHypo : List (Nat × K) → Pars K → Except PyErr (Pars K)
  | [], p => .ok p
  | (i, v) :: l, p =>
    if i < p.pois.length then updateHypo l { p with pois := p.pois.set i v }
    else .error .indexError

/-- `profile_nps` (minimizers.py:391-397): the new `min_nll` and `min_pars`. -/
def profileAt (env : FitEnv K) (p : Pars K) : Except PyErr (K × Pars K) := do
  let q ← env.profile p
  let v ← env.nll q
  return (v, q)

/-- Positions (in `bounds.values()`) and bounds of the free parameters (minimizers.py:597-599). -/
def freeBounds (d : Dict (ParBound K)) : Except PyErr (List (Nat × ParBound K)) := do
  let fl ← d.values.mapM fun b => do return (b, ← b.isFree)
  return (fl.zipIdx.filter fun e => e.1.2).map fun e => (e.2, e.1.1)

/-- The objective handed to scipy (minimizers.py:615-624), with its side effect on
`min_pars`.  `current_hypo` is never modified by the profiling, so the result depends only on the
free values. -/
def evalAt (env : FitEnv K) (p0 : Pars K) (free : List (Nat × ParBound K)) (x : List K) :
    Except PyErr (K × Pars K) := do
  let p ← updateHypo ((free.map Prod.fst).zip x) p0
  profileAt env p

/-- `OptiMinimizer.minimize` (minimizers.py:591-672) with `init_pars = None` and `init_pois`,
`bounds` set.  The computations of covariance matrices, printing and the choice of the Jacobian
are left out. -/
def minimize (env : FitEnv K) (m : ParModel K) (st : MinSt K) (run : OptRun K) :
    Except PyErr (MinSt K × MinRet K) := do
  let free ← freeBounds st.bounds
  let _x0 ← free.mapM fun b => st.initPois.get m b.2.par
  if free.length = 0 ∧ st.method ≠ "" then
    let (v, q) ← profileAt env st.initPois
    return ({ st with method := "", minNll := some v, minPars := some q, minPois := [] }, .nll v)
  let method := if free.length > 1 ∧ st.method = "scalar" then "L-BFGS-B" else st.method
  if method ∈ ["scalar", "CG", "L-BFGS-B"] then
    let es ← run.evals.mapM (evalAt env st.initPois free)
    let st := { st with
      method := method
      minNll := (es.getLast?.map Prod.fst).or st.minNll
      minPars := (es.getLast?.map Prod.snd).or st.minPars }
    if run.success then
      return ({ st with minNll := some run.fn, minPois := run.x }, .nll run.fn)
    else return (st, .nonePair)
  else throw .valueError

/-- `2*(hypo_nll - free_nll)` clipped at 0 (minimizers.py:435-447). -/
def tmuValue (hypoNll freeNll : K) : K :=
  let t := 2 * (hypoNll - freeNll)
  if t < 0 then 0 else t

/-- What `tmu` stores and returns. -/
structure TmuOut (K : Type) where
  tmu : K
  hypoNll : K
  freeNll : K
  hypoPars : Pars K
  freePars : Pars K

/-- `POIMinimizer.tmu` (minimizers.py:399-448) run by an `OptiMinimizer` with no bounds set
before (`self.bounds` is `None`): `runH`, `runF` are the scipy runs of the hypothesis and free
fits.  `minimize` never returns `None` (a failure is the pair `(None, None)`), so the two early
returns are dead code. -/
def tmu (env : FitEnv K) (m : ParModel K) (pois : List (PoiRange K)) (method : String)
    (bounds : Option (List (ParBound K))) (init : Pars K) (hypo : Dict K) (runH runF : OptRun K) :
    Except PyErr (TmuOut K) := do
  let (pf, bf) ← setPois m pois init bounds (some hypo) false
  let (ph, bh) ← setPois m pois init (some bf.values) (some hypo) true
  let (sh, _) ← minimize env m { method := method, initPois := ph, bounds := bh } runH
  let (sf, _) ← minimize env m { method := method, initPois := pf, bounds := bf } runF
  match sh.minNll, sf.minNll, sh.minPars, sf.minPars with
  | some h, some f, some hp, some fp => return ⟨tmuValue h f, h, f, hp, fp⟩
  | _, _, _, _ => throw .typeError

end
end Verif
