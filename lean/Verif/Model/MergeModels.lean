import Verif.Model.Markup
/-!
# Model of `ModelMerger` (`/repo/src/fastprof/model_tools.py:33-129`) and of the script
`merge_models.py` (`/repo/src/fastprof_utils/merge_models.py`)

Not modelled: the search for input files (`glob`, sorting), `--min-sample-signif`, printing.
-/
namespace Verif
namespace MergeM
open Markup

/-- A numpy array whose first two axes are samples and bins: sizes of these axes, sizes of the others, content. -/
structure NArr where
  ns : Nat
  nb : Nat
  tail : List Nat
  val : Nat → Nat → List Nat → ℝ

/-- `np.pad(a, ((0, k), (0, 0), ...))`. -/
def NArr.pad (k : Nat) (a : NArr) : NArr where
  ns := a.ns + k
  nb := a.nb
  tail := a.tail
  val s b t := if s < a.ns then a.val s b t else 0

/-- `np.concatenate((a, b), axis=1)`: the other axes must agree. -/
def NArr.concat (a b : NArr) : Except PyErr NArr :=
  if a.ns = b.ns ∧ a.tail = b.tail then
    .ok ⟨a.ns, a.nb + b.nb, a.tail, fun s i t => if i < a.nb then a.val s i t else b.val s (i - a.nb) t⟩
  else .error .valueError

/-- `np.concatenate` of a tuple. -/
def concatAll : List NArr → Except PyErr NArr
  | [] => .error .valueError
  | [a] => .ok a
  | a :: b :: l => do
    let r ← concatAll (b :: l)
    a.concat r

/-- A `Model` with the secondary attributes used by the merge (core.py:451-530).  `sampleKeys` are the keys of
`samples`; an array is `none` if the attribute was never set. -/
structure Live where
  obj : Obj
  nbins : Nat
  maxSamples : Nat
  offsets : Dict Nat
  sampleKeys : List (String × Nat)
  sym : Option NArr
  pos : Option NArr
  neg : Option NArr
  nominal : Option NArr

/-- The keys of `samples` (core.py:504). -/
def keysOf (l : List (ChanDoc Sample)) : List (String × Nat) :=
  l.flatMap fun c => (List.range c.samples.length).map fun s => (c.name, s)

/-- `set_internal_vars` (core.py:451-530) on an object whose samples are set up.  Without channels the arrays are
not set (line 482).  A model in which no channel has samples is refused by `np.stack` (`ValueError`); here its
arrays have no rows. -/
noncomputable def live (o : Obj) : Except PyErr Live := do
  let A ← o.mdl.setInternal
  let m := o.mdl
  let noms ← m.stackRows (fun s => .ok s.nominal_yields)
  let P := o.doc.nps.length
  let some? : NArr → Option NArr := fun a => if o.doc.channels = [] then none else some a
  return {
    obj := o
    nbins := m.nbins
    maxSamples := m.maxSamples
    offsets := m.offsets
    sampleKeys := keysOf o.doc.channels
    sym := some? ⟨m.maxSamples, m.nbins, [P], fun s b t => A.sym s b (t.getD 0 0)⟩
    pos := if o.flags.use_asym_impacts then some? ⟨m.maxSamples, m.nbins, [P, A.buf.nvar],
      fun s b t => A.posAt m.nbins P s b (t.getD 0 0) (t.getD 1 0)⟩ else none
    neg := if o.flags.use_asym_impacts then some? ⟨m.maxSamples, m.nbins, [P, A.buf.nvar],
      fun s b t => A.negAt m.nbins P s b (t.getD 0 0) (t.getD 1 0)⟩ else none
    nominal := some? ⟨m.maxSamples, m.nbins, [], fun s b _ => (noms.getD s []).getD b 0⟩ }

/-- `self.target.channels[channel] = ...` on a dictionary keyed by the names. -/
def putChannel (l : List (ChanDoc Sample)) (c : ChanDoc Sample) : List (ChanDoc Sample) :=
  if l.any (fun a => a.name == c.name) then l.map fun a => if a.name == c.name then c else a else l ++ [c]

/-- The same object with other channels. -/
def Live.setChannels (t : Live) (l : List (ChanDoc Sample)) : Live :=
  { t with obj := { t.obj with doc := { t.obj.doc with channels := l } } }

/-- One iteration of the loop over channels of a model (model_tools.py:110-113). -/
def addChannel (md : Live) (t : Live) (c : ChanDoc Sample) : Except PyErr Live := do
  let o ← md.offsets.getItem c.name
  let t1 := t.setChannels (putChannel t.obj.doc.channels c)
  return { t1 with offsets := t1.offsets.set c.name (o + t.nbins), nbins := t.nbins + md.nbins }

/-- The loop over channels of a model. -/
def addModel (t md : Live) : Except PyErr Live := md.obj.doc.channels.foldlM (addChannel md) t

/-- An attribute that may not exist. -/
def attr {α : Type} : Option α → Except PyErr α
  | some a => .ok a
  | none => .error .attributeError

/-- One of the concatenations of lines 117-127. -/
def joined (ms : Nat) (f : Live → Option NArr) (all : List Live) : Except PyErr NArr := do
  let l ← all.mapM fun md => do return (← attr (f md)).pad (ms - md.maxSamples)
  concatAll l

/-- `ModelMerger(models).merge()` (model_tools.py:53-129): the target (the first model) after the call.  The
arrays `log_sym_impact_coeffs`, ... used when `use_lognormal_terms` is set are set nowhere. -/
def merge : List Live → Except PyErr Live
  | [] => .error .valueError
  | t :: others => do
    let t1 ← others.foldlM addModel t
    let all := t1 :: others
    let ms := (all.map (·.maxSamples)).foldl max 0
    let sym ← joined ms (·.sym) all
    let pos ← joined ms (·.pos) all
    let neg ← joined ms (·.neg) all
    if t1.obj.flags.use_lognormal_terms then throw .attributeError
    let nom ← joined ms (·.nominal) all
    return { t1 with sym := some sym, pos := some pos, neg := some neg, nominal := some nom }

/-- `check` (model_tools.py:65-98): the comparison of `ncons` (line 83) raises `AttributeError`, no model has
this attribute. -/
def check (t : Live) : List Live → Except PyErr Bool
  | [] => .ok true
  | md :: _ =>
    if md.obj.doc.pois.length ≠ t.obj.doc.pois.length then .ok false
    else if md.obj.doc.nps.length ≠ t.obj.doc.nps.length then .ok false
    else .error .attributeError

/-- The nominal yields of sample number `s` of a channel in `n_exp`: `self.samples[(channel_name, s)]` is looked up
if `s < len(channel.samples)` (core.py:689). -/
noncomputable def Live.cell (t : Live) (vals : Dict ℝ) (s : Nat) (c : ChanDoc Sample) : Except PyErr (List ℝ) :=
  match c.samples[s]? with
  | none => .ok (List.replicate c.cls.nbins 0)
  | some smp => if (c.name, s) ∈ t.sampleKeys then smp.yields vals else .error .keyError

/-- The yields without NPs computed first by `n_exp` (core.py:688-690), for the values `vals` of the parameters
and expressions. -/
noncomputable def Live.yieldRows (t : Live) (vals : Dict ℝ) : Except PyErr (List (List ℝ)) :=
  (List.range t.maxSamples).mapM fun s => do
    let parts ← t.obj.doc.channels.mapM (t.cell vals s)
    return parts.flatten

/-- `merge_models.py`, lines 56-71: load the files, merge, save. -/
noncomputable def mergeFiles (T : Texts) (files : List (Dict V)) : Except PyErr (Dict V) := do
  let models ← files.mapM fun D => do live (← load T D)
  let big ← merge models
  save T big.obj

end MergeM
end Verif
