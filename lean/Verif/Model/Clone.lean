import Verif.Model.PruneScript
import Mathlib.Logic.Function.Basic
import Mathlib.Data.Set.Basic
/-!
# Model of cloning, with object identities

Python objects are cells of a heap, so that sharing between a model and its clone can be told.  Cells are those that the
code of `/repo/src/fastprof` writes to: models, channels, samples, their arrays of nominal yields and their dictionaries of
impacts, POIs, NPs and aux. observables.  Normalisation, expression and bin objects are never written to after their
construction, and are values here.  The samples are as `set_internal_vars` leaves them (it runs in the constructor of every
model).
-/
namespace Verif
namespace Alias
open Markup

/-- A `Sample` object (sample.py:60-80): `yields` and `impacts` are the array and the dictionary. -/
structure SObj where
  name : String
  norm : Norm
  nominal_norm : ℝ
  yields : ℕ
  impacts : ℕ

/-- A channel object (channels.py:178-200, 285-316, 443-468, 600-626). -/
structure CObj where
  name : String
  cls : ChClass
  samples : List ℕ

/-- A `Model` object (core.py:411-428). -/
structure MObj where
  name : Option String
  description : Option String
  pois : List ℕ
  aux : List ℕ
  nps : List ℕ
  exprs : Dict Expr
  chans : List ℕ
  flags : Flags

/-- The objects; those at `next` and above are not yet allocated. -/
structure Heap where
  arrs : ℕ → List ℝ
  imps : ℕ → Dict Impact
  smps : ℕ → SObj
  chns : ℕ → CObj
  mdls : ℕ → MObj
  pois : ℕ → ModelPOI ℝ
  auxs : ℕ → ModelAux ℝ
  nps : ℕ → ModelNP ℝ
  next : ℕ

/-! ## What an object says -/

def readSample (h : Heap) (a : ℕ) : Sample :=
  ⟨(h.smps a).name, (h.smps a).norm, (h.smps a).nominal_norm, h.arrs (h.smps a).yields, h.imps (h.smps a).impacts⟩

def readChan (h : Heap) (c : ℕ) : ChanDoc Sample :=
  ⟨(h.chns c).name, (h.chns c).cls, (h.chns c).samples.map (readSample h)⟩

/-- All that a `Model` object says, with its options: the object of `Model/Markup.lean`. -/
def obj (h : Heap) (m : ℕ) : Obj :=
  ⟨{ name := (h.mdls m).name, description := (h.mdls m).description, pois := (h.mdls m).pois.map h.pois,
     aux := (h.mdls m).aux.map h.auxs, nps := (h.mdls m).nps.map h.nps, exprs := (h.mdls m).exprs,
     channels := (h.mdls m).chans.map (readChan h) }, (h.mdls m).flags⟩

/-! ## Setting up -/

/-- The samples of a model, each with its new content: those of the channels of `D`, in order. -/
def pairs (h : Heap) (m : ℕ) (D : List (ChanDoc Sample)) : List (ℕ × Sample) :=
  ((h.mdls m).chans.zip D).flatMap fun cd => (h.chns cd.1).samples.zip cd.2.samples

/-- `self.impacts[par.name] = ..` (sample.py:137), in place, for all NPs. -/
def putImpacts (h : Heap) (e : ℕ × Sample) : Heap :=
  { h with imps := Function.update h.imps (h.smps e.1).impacts e.2.impacts }

/-- `set_internal_vars` (core.py:451-530) on an object: `set_np_data` (sample.py:93-137) adds impacts; its other updates are
for samples without normalisation or yields. -/
noncomputable def setInternalVars (h : Heap) (m : ℕ) : Except PyErr Heap := do
  let o ← initModel (rawDoc (obj h m).doc) (obj h m).flags
  return (pairs h m o.doc.channels).foldl putImpacts h

/-! ## Clones -/

/-- `Sample.clone` (sample.py:82-91): new array and new dictionary, the normalisation is shared. -/
def cloneSample (h : Heap) (a : ℕ) : Heap × ℕ :=
  ({ h with
      arrs := Function.update h.arrs h.next (h.arrs (h.smps a).yields)
      imps := Function.update h.imps (h.next + 1) (h.imps (h.smps a).impacts)
      smps := Function.update h.smps (h.next + 2) { h.smps a with yields := h.next, impacts := h.next + 1 }
      next := h.next + 3 }, h.next + 2)

def cloneSamples : Heap → List ℕ → Heap × List ℕ
  | h, [] => (h, [])
  | h, a :: l =>
    let r := cloneSample h a
    let q := cloneSamples r.1 l
    (q.1, r.2 :: q.2)

/-- `clone` of the channels (channels.py:200-209, 317-327, 469-478, 627-637).  That of `GaussianChannel` goes over the names
of its samples instead of the samples: `AttributeError` (636). -/
def cloneChan (h : Heap) (c : ℕ) : Except PyErr (Heap × ℕ) :=
  if (h.chns c).cls.isGauss = true ∧ (h.chns c).samples ≠ [] then .error .attributeError
  else
    let r := cloneSamples h (h.chns c).samples
    .ok ({ r.1 with
      chns := Function.update r.1.chns r.1.next { h.chns c with samples := r.2 }
      next := r.1.next + 1 }, r.1.next)

def cloneChans : Heap → List ℕ → Except PyErr (Heap × List ℕ)
  | h, [] => .ok (h, [])
  | h, c :: l => do
    let r ← cloneChan h c
    let q ← cloneChans r.1 l
    return (q.1, r.2 :: q.2)

/-- The check of the constructor on NPs (core.py:414-418). -/
def auxDeclared (d : ModelDoc Sample) : Bool :=
  d.nps.all fun p => match p.aux_obs with
    | none => true
    | some a => decide (some a ∈ d.aux.map (·.name))

/-- The object that the constructor makes from those of the model and the cloned channels: POIs, NPs and aux. observables are
shared, the options are copied, except `cutoff`, which the constructor sets to 0 (core.py:388-428, 443-447). -/
def newModel (h : Heap) (m : ℕ) (name : Option String) (cs : List ℕ) : Heap × ℕ :=
  ({ h with
      mdls := Function.update h.mdls h.next
        { h.mdls m with name := name.orElse fun _ => (h.mdls m).name, chans := cs, flags := { (h.mdls m).flags with cutoff := 0 } }
      next := h.next + 1 }, h.next)

/-- `if set_internal_vars : clone.set_internal_vars()` (core.py:448). -/
noncomputable def setAgain (b : Bool) (h : Heap) (m : ℕ) : Except PyErr Heap := if b then setInternalVars h m else .ok h

/-- `Model.clone` (core.py:430-449). -/
noncomputable def clone (h : Heap) (m : ℕ) (name : Option String := none) (set_internal_vars : Bool := true) :
    Except PyErr (Heap × ℕ) := do
  let r ← cloneChans h (h.mdls m).chans
  if auxDeclared (obj h m).doc = false then throw .valueError
  let q := newModel r.1 m name r.2
  let h1 ← setInternalVars q.1 q.2
  let h2 ← setAgain set_internal_vars h1 q.2
  return (h2, q.2)

/-! ## Removing NPs -/

/-- What `remove_nps` does to a sample (model_tools.py:561-573): another normalisation, fewer impacts (in place), a new array
of nominal yields, a new nominal normalisation. -/
def putSample (h : Heap) (e : ℕ × Sample) : Heap :=
  { h with
    arrs := Function.update h.arrs h.next e.2.nominal_yields
    imps := Function.update h.imps (h.smps e.1).impacts e.2.impacts
    smps := Function.update h.smps e.1 { h.smps e.1 with norm := e.2.norm, nominal_norm := e.2.nominal_norm, yields := h.next }
    next := h.next + 1 }

/-- What `remove_nps` does to the model: the samples, then `model.aux_obs.pop`, `model.nps.pop` (model_tools.py:574-577); `o`
is the result.  The writes to a sample, of `remove_nps` and of the `set_internal_vars` that follows, are one step. -/
noncomputable def putRemoved (h : Heap) (m : ℕ) (o : Obj) : Heap :=
  let h1 := (pairs h m o.doc.channels).foldl putSample h
  { h1 with mdls := Function.update h1.mdls m { h1.mdls m with
      nps := (h1.mdls m).nps.filter (fun a => decide ((h1.nps a).name ∈ o.doc.nps.map (·.name)))
      aux := (h1.mdls m).aux.filter (fun a => decide ((h1.auxs a).name ∈ o.doc.aux.map (·.name))) } }

/-- `self.model.name + '_pruned'` (model_tools.py:538). -/
def prunedName : Option String → Except PyErr String
  | some s => .ok (s ++ "_pruned")
  | none => .error .typeError

/-- The object that is pruned (model_tools.py:538). -/
noncomputable def target (clone_model : Bool) (h : Heap) (m : ℕ) : Except PyErr (Heap × ℕ) :=
  if clone_model then do
    let n ← prunedName (h.mdls m).name
    clone h m (some n) false
  else .ok (h, m)

/-- `NPPruner.remove_nps` (model_tools.py:507-584) with its `clone_model` option, for an object whose internal arrays are
those of its samples.  Returns the heap and the pruned object. -/
noncomputable def removeNps (rx : String → String → Bool) (parValues : Dict (Option ℝ)) (clone_model : Bool) (h : Heap) (m : ℕ) :
    Except PyErr (Heap × ℕ) := do
  let r ← target clone_model h m
  let A ← (obj r.1 r.2).mdl.setInternal
  let o ← Markup.removeNps A rx parValues (obj r.1 r.2)
  return (putRemoved r.1 r.2 o, r.2)

/-! ## Writes by the user -/

/-- `sample.nominal_yields[i] = v`, in place. -/
def pokeYield (h : Heap) (a i : ℕ) (v : ℝ) : Heap :=
  { h with arrs := Function.update h.arrs (h.smps a).yields ((h.arrs (h.smps a).yields).set i v) }

/-- `poi.initial_value = ..` and the like, on a POI object (fit_data.py:217-231 does so on the POIs of a model). -/
def pokePoi (h : Heap) (a : ℕ) (p : ModelPOI ℝ) : Heap := { h with pois := Function.update h.pois a p }

/-! ## Impact plots -/

/-- `OptiMinimizer.clone` takes no argument (minimizers.py:565-571): `self.minimizer.clone(pars)` (plot_tools.py:322). -/
def cloneMinimizer (nargs : ℕ) : Except PyErr Unit := if nargs = 0 then .ok () else .error .typeError

/-- `PlotImpacts.impacts` (plot_tools.py:294-342), for a fit with best-fit NP values `fit`: the loop over the NPs, up to the
first fit; `remove name value` stands for `NPPruner.remove_nps` with `clone_model`, `fits` for the rest. -/
def impactsLoop (fit : Dict ℝ) (remove : String → ℝ → Except PyErr Unit) (fits : String → Except PyErr (ℝ × ℝ)) :
    List String → Except PyErr (List (String × ℝ × ℝ))
  | [] => .ok []
  | p :: l => do
    let v ← fit.getItem p
    remove p (v + 1)
    cloneMinimizer 1
    let r ← fits p
    return (p, r) :: (← impactsLoop fit remove fits l)

end Alias
end Verif
