import Verif.Model.Expected
import Verif.Model.DumpSamples
/-!
# `plot_valid.py`: linearity checks

The curves and points that are drawn for one bin, one NP, one channel and one sample.  The drawing itself, the titles,
the files and the plots of the inverse are not modelled.
-/
namespace Verif.Valid
open Verif Verif.Cmd Verif.Dump
open Classical

/-- Numbers for the samples, the bins and the points. -/
abbrev Cube := List (List (List ℝ))

/-- A decoded validation file (convert_ws.py:516-534): numbers under the names of the POIs, the points, and for each
channel a dictionary by NP. -/
structure File where
  pois : Dict ℝ
  points : Option (List ℝ)
  chans : Dict (Dict Cube)

/-- `ValidationData` (plot_valid.py:42-63). -/
structure Data where
  poi : ℝ
  points : List ℝ
  variations : Dict (Dict Cube)

/-- The NPs of a channel (plot_valid.py:53-57): those that are in the file; `jdict[chan]` is looked up for each NP. -/
def loadNps (f : File) (chan : String) : List String → Dict Cube → Except PyErr (Dict Cube)
  | [], acc => .ok acc
  | par :: rest, acc => do
    let d ← f.chans.getItem chan
    match d.get? par with
    | some c => loadNps f chan rest (acc.set par c)
    | none => loadNps f chan rest acc

/-- `ValidationData.load_dict` (plot_valid.py:48-60); `pois` are the POIs of the model. -/
def load (f : File) (pois chans nps : List String) : Except PyErr Data := do
  match pois with
  | [] => .error .indexError
  | poi :: _ =>
    let v ← f.pois.getItem poi
    match f.points with
    | none => .error .keyError
    | some pts => do
      let vars ← chans.foldlM (fun (acc : Dict (Dict Cube)) chan => do
        return acc.set chan (← loadNps f chan nps [])) []
      return ⟨v, pts, vars⟩

variable {n P : Nat}

/-- `pars.set(par, x)` on the nominal point with the POIs `x0` (core.py:186-204): a POI, an NP, or `KeyError`. -/
noncomputable def setPar (m : Mdl n P) (x0 : Fin n → ℝ) (par : String) (x : ℝ) :
    Except PyErr ((Fin n → ℝ) × (Fin P → ℝ)) :=
  match (List.finRange n).find? (fun i => m.pois i == par) with
  | some i => .ok (Function.update x0 i x, 0)
  | none =>
    match (List.finRange P).find? (fun p => (m.nps p).name == par) with
    | some p => .ok (x0, Function.update 0 p x)
    | none => .error .keyError

/-- `channel_n_exp(pars, channel, sample)[b]`. -/
noncomputable def yieldAt (m : Mdl n P) (A : Mdl.Arrays) (q : (Fin n → ℝ) × (Fin P → ℝ)) (ch smp : String) (b : Int) :
    Except PyErr ℝ := do
  match ← m.channelNExp A (some q) none (some ch) (some smp) with
  | .vec r => pyIndex r b
  | .mat _ => .error .unmodelled

/-- `nexp_var(pars, par, x)[b]/nexp0[b] - 1` (plot_valid.py:165, 168). -/
noncomputable def relative (m : Mdl n P) (A : Mdl.Arrays) (x0 : Fin n → ℝ) (ch smp : String) (b : Int) (par : String)
    (nexp0 x : ℝ) : Except PyErr ℝ := do
  let q ← setPar m x0 par x
  let y ← yieldAt m A q ch smp b
  if nexp0 = 0 then .error .nan else .ok (y / nexp0 - 1)

/-- The values of a curve at the points `xs`. -/
noncomputable def curve (f : ℝ → Except PyErr ℝ) (xs : List ℝ) : Except PyErr (List (ℝ × ℝ)) :=
  xs.mapM fun x => do return (x, ← f x)

/-- The red points of one sign (plot_valid.py:174-175): `sample.pos_vars[par]`, `sample.pos_imps[par][:,b]`. -/
noncomputable def redPoints (smp : Sample) (par : String) (b : Int) (vars : List ℝ) : Except PyErr (List (ℝ × ℝ)) :=
  vars.mapM fun v => do return (v, ← pyIndex (← smp.impact par v) b)

/-- The black points (plot_valid.py:172): `data.points` against `data.variations[channel][par][sample_index, b, :] - 1`. -/
noncomputable def blackPoints (d : Data) (ch par : String) (k : Nat) (b : Int) : Except PyErr (List (ℝ × ℝ)) := do
  let c ← (← d.variations.getItem ch).getItem par
  match c[k]? with
  | none => .error .indexError
  | some rows => do
    let r ← pyIndex rows b
    if r.length = d.points.length then .ok (d.points.zip (r.map fun y => y - 1)) else .error .valueError

/-- One panel. -/
structure Panel where
  black : List (ℝ × ℝ)
  red : List (ℝ × ℝ)
  lin : List (ℝ × ℝ)
  nli : List (ℝ × ℝ)

/-- The options that change the model after it is loaded (plot_valid.py:107-108). -/
def adjust (m : Mdl n P) (cutoff : Option ℝ) (symmetric : Bool) : Mdl n P :=
  { m with cutoff := cutoff.getD m.cutoff, use_asym_impacts := if symmetric then false else m.use_asym_impacts }

/-- `np.linspace(data.points[0], data.points[-1], 100)` (plot_valid.py:142). -/
noncomputable def contX (pts : List ℝ) : Except PyErr (List ℝ) :=
  match pts.head?, pts.getLast? with
  | some a, some b => linspace a b 100 true
  | _, _ => .error .indexError

/-- The panel for the bin `b` and the NP `par` (plot_valid.py:142-176).  `m` is the model after `adjust`, `A` are the
arrays made when the file was loaded: switching `use_linear_nps` does not change them. -/
noncomputable def panel (m : Mdl n P) (A : Mdl.Arrays) (d : Data) (ch : Channel) (smp : Sample) (b : Int) (par : String) :
    Except PyErr Panel := do
  let xs ← contX d.points
  let nexp0 ← yieldAt m A ((fun _ => d.poi), 0) ch.name smp.name b
  let k := (ch.samples.map (·.name)).idxOf smp.name
  let lin ← curve (relative { m with use_linear_nps := true } A (fun _ => d.poi) ch.name smp.name b par nexp0) xs
  let nli ← curve (relative { m with use_linear_nps := false } A (fun _ => d.poi) ch.name smp.name b par nexp0) xs
  let black ← blackPoints d ch.name par k b
  let pos ← redPoints smp par b (smp.posVars par m.variations)
  let neg ← redPoints smp par b (smp.negVars par m.variations)
  return ⟨black, pos ++ neg, lin, nli⟩

/-- The channel and the sample (plot_valid.py:110-122): the named ones, or the first. -/
def select {α : Type} (name : α → String) (opt : Option String) (l : List α) : Except PyErr α :=
  match opt with
  | some s => match l.find? (fun a => name a == s) with
    | some a => .ok a
    | none => .error .keyError
  | none => match l with
    | [] => .error .indexError
    | a :: _ => .ok a

/-- The options. -/
structure Opts where
  channel : Option String
  sample : Option String
  bins : Option Str
  nps : Option Str
  cutoff : Option ℝ
  symmetric : Bool

/-- `[ int(b) for b in options.bins.split(',') ]`, or the first bin (plot_valid.py:93-97). -/
def bins (L : Lib) (o : Opts) : Except PyErr (List Int) :=
  match o.bins with
  | none => .ok [0]
  | some s => match (s.splitOn ',').mapM (toInt L) with
    | .ok l => .ok l
    | .error _ => .error .valueError

/-- The NPs (plot_valid.py:133-136). -/
def npNames (m : Mdl n P) (o : Opts) : List String :=
  match o.nps with
  | none => (List.finRange P).map fun p => (m.nps p).name
  | some s => (s.splitOn ',').map String.ofList

/-- `run` (plot_valid.py:86-203): the panels by bin and NP.  Without NPs: `nplots/nc` with `nc = 0` (140). -/
noncomputable def run (L : Lib) (o : Opts) (m0 : Mdl n P) (f : File) : Except PyErr (List (List Panel)) := do
  let bs ← bins L o
  let A ← m0.setInternal
  let m := adjust m0 o.cutoff o.symmetric
  let ch ← select (·.name) o.channel m.channels
  let smp ← select (·.name) o.sample ch.samples
  let d ← load f ((List.finRange n).map m.pois) (m.channels.map (·.name)) ((List.finRange P).map fun p => (m.nps p).name)
  if npNames m o = [] then .error .zeroDivision
  else bs.mapM fun b => (npNames m o).mapM fun par => panel m A d ch smp b par

end Verif.Valid
