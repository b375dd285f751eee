import Verif.Model.Calc
/-!
# Model of `channel_n_exp`, `expected_pars` and `generate_expected` (`/repo/src/fastprof/core.py:694-723, 1092-1166`)
-/
namespace Verif
namespace Mdl
variable {n P : Nat}

/-- An array of yields: one number per bin, or one row per sample. -/
inductive Arr where
  | vec (l : List ℝ)
  | mat (l : List (List ℝ))

/-- `a[o : o + k]` of numpy. -/
def slice (o k : Nat) (l : List ℝ) : List ℝ := (l.drop o).take k

/-- The array returned by `n_exp` (core.py:674-692): `max_nsamples` rows of `nbins` numbers. -/
def nExpArr (m : Mdl n P) (ne : Nat → Nat → ℝ) : Arr :=
  .mat ((List.range m.maxSamples).map fun s => (List.range m.nbins).map (ne s))

/-- The array returned by `tot_bin_exp` (core.py:726-740). -/
def totArr (m : Mdl n P) (N : Nat → ℝ) : Arr := .vec ((List.range m.nbins).map N)

/-- `self.channels[channel]`; the argument is `None` by default, which is no key. -/
def channelItem (m : Mdl n P) : Option String → Except PyErr Channel
  | none => .error .keyError
  | some nm =>
    match m.channels.find? (fun c => c.name == nm) with
    | some c => .ok c
    | none => .error .keyError

/-- `self.channel_offsets[channel]`. -/
def offsetItem (m : Mdl n P) : Option String → Except PyErr Nat
  | none => .error .keyError
  | some nm => m.offsets.getItem nm

/-- The selection of the row of a sample (core.py:718-719): `list(samples.keys()).index(sample)`, then the entry of
that number.  The entry of a 1D array is a number, which the slice of line 723 then refuses (`IndexError`, as for an
entry out of range). -/
def pickSample (ch : Channel) (sample : String) (a : Arr) : Except PyErr Arr :=
  if sample ∈ ch.samples.map (·.name) then
    match a with
    | .vec _ => .error .indexError
    | .mat rows =>
      match rows[(ch.samples.map (·.name)).idxOf sample]? with
      | some r => .ok (.vec r)
      | none => .error .indexError
  else .error .valueError

/-- Lines 718-719 of core.py. -/
def pickSampleOpt (m : Mdl n P) (channel sample : Option String) (a : Arr) : Except PyErr Arr :=
  match sample with
  | none => .ok a
  | some s => do pickSample (← m.channelItem channel) s a

/-- Lines 720-723 of core.py. -/
def cutArr (o k : Nat) : Arr → Arr
  | .vec l => .vec (slice o k l)
  | .mat rows => .mat (rows.map (slice o k))

/-- `channel_n_exp(pars, nexp, channel, sample)` (core.py:694-723); `pars` as POIs and NPs. -/
noncomputable def channelNExp (m : Mdl n P) (A : Arrays) (pars : Option ((Fin n → ℝ) × (Fin P → ℝ))) (nexp : Option Arr)
    (channel sample : Option String) : Except PyErr Arr := do
  let a ← match nexp, pars with
    | some a, _ => .ok a
    | none, some (x, θ) => (m.nExp A x θ).map m.nExpArr
    | none, none => .error .valueError
  let a ← m.pickSampleOpt channel sample a
  let o ← m.offsetItem channel
  let ch ← m.channelItem channel
  return cutArr o ch.nbins a

/-- The argument `pois` of `expected_pars`: a `Parameters` object, or anything else that `Parameters` accepts. -/
inductive ExpArg (n P : Nat) where
  | pars (x : Fin n → ℝ) (θ : Fin P → ℝ)
  | pois (a : PoiArg ℝ)

/-- `expected_pars(pois, minimizer)` (core.py:1092-1114); the minimizer is given by its dataset
(`NPMinimizer(data)`).  A `Parameters` object is used as it is. -/
noncomputable def expectedPars (m : Mdl n P) (A : Arrays) (arg : ExpArg n P) (min : Option (DataV P)) :
    Except PyErr ((Fin n → ℝ) × (Fin P → ℝ)) := do
  let p ← match arg with
    | .pars x θ => .ok (x, θ)
    | .pois a => (Pars.init m.parModel a none).map fun p =>
        ((fun i => p.pois.getD i 0 : Fin n → ℝ), (fun i => p.nps.getD i 0 : Fin P → ℝ))
  match min with
  | none => .ok p
  | some d => (m.profile A p.1 p.2 d).map fun θ => (p.1, θ)

/-- `generate_expected(pois, minimizer)` (core.py:1153-1166). -/
noncomputable def generateExpected (m : Mdl n P) (A : Arrays) (arg : ExpArg n P) (min : Option (DataV P)) :
    Except PyErr (DataV P) := do
  let p ← m.expectedPars A arg min
  m.generateAsimov A p.1 p.2

end Mdl
end Verif
