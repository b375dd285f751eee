import Verif.Model.Core
/-!
# Model of the pruning tools of `/repo/src/fastprof/model_tools.py`: `NPPruner` (474-584),
`SamplePruner` (588-664)
-/
namespace Verif

namespace Mdl
variable {n P : Nat}

/-- A model with its number of NPs. -/
abbrev Pruned (n : Nat) := (P' : Nat) × Mdl n P'

/-- The NPs selected by one key of `par_values` (model_tools.py:535-540): the NP of that name, or
else all those matched by the key as a regular expression; `KeyError` if there is none.
`rx spec name` stands for `re.match(spec + '$', name)`. -/
def selectNps (m : Mdl n P) (rx : String → String → Bool) (spec : String) : Except PyErr (List (Fin P)) :=
  match (List.finRange P).find? (fun p => decide ((m.nps p).name = spec)) with
  | some p => .ok [p]
  | none =>
    match (List.finRange P).filter (fun p => rx spec (m.nps p).name) with
    | [] => .error .keyError
    | l => .ok l

/-- The value at which a selected NP is fixed (model_tools.py:543).  It is looked up under the name
of the NP, not under the key that selected it. -/
def removedAt (parValues : Dict (Option ℝ)) (par : NP ℝ) : ℝ :=
  match parValues.get? par.name with
  | some (some v) => v
  | _ => par.nominal_value

/-- `isinstance(norm, ExpressionNorm) and norm.expr_name == name` (model_tools.py:549). -/
def _root_.Verif.Norm.isExpr (name : String) : Norm → Bool
  | .expr e => e == name
  | .number _ => false

/-- What the removal of NP `par` does to a sample (model_tools.py:549-561). -/
def dropFromSample (par : String) (s : Sample) : Sample :=
  if s.norm.isExpr par then { s with norm := .number s.nominal_norm }
  else { s with impacts := s.impacts.filter (fun e => e.1 ≠ par) }

/-- The loop body of `remove_nps` for one selected NP (model_tools.py:541-561): `pars` is a scaled
value (`Parameters.__setitem__`, core.py:206-218). -/
def dropNp (m : Mdl n P) (parValues : Dict (Option ℝ)) (st : (Fin P → ℝ) × List Channel) (p : Fin P) :
    (Fin P → ℝ) × List Channel :=
  (Function.update st.1 p (removedAt parValues (m.nps p)),
   st.2.map fun ch => { ch with samples := ch.samples.map (dropFromSample (m.nps p).name) })

/-- New nominal yields and normalisation of sample number `s` of a channel with bin offset `off`
(model_tools.py:568-573).  `ne` is the array of expected yields. -/
def refitSample (ne : Nat → Nat → ℝ) (vals : Dict ℝ) (nb off s : Nat) (smp : Sample) :
    Except PyErr RawSample := do
  let nn ← smp.norm.value vals
  return ⟨smp.name, smp.norm, some nn, some ((List.range nb).map fun b => ne s (off + b)), smp.impacts⟩

/-- `set_internal_vars` on a sample (core.py:503) in the model without the removed NPs. -/
noncomputable def setUpSample {P' : Nat} (m' : Mdl n P') (vals : Dict ℝ) (raw : RawSample) :
    Except PyErr Sample :=
  raw.setNpData (List.ofFn m'.nps) m'.ctx.reals vals m'.fuel

/-- The samples of a channel in the pruned model. -/
noncomputable def refitChannel {P' : Nat} (m' : Mdl n P') (vals' : Dict ℝ) (ne : Nat → Nat → ℝ)
    (vals : Dict ℝ) (offsets : Dict Nat) (ch : Channel) : Except PyErr Channel := do
  let off ← offsets.getItem ch.name
  let samples ← ch.samples.zipIdx.mapM fun si => do
    let raw ← refitSample ne vals ch.nbins off si.2 si.1
    setUpSample m' vals' raw
  return { ch with samples := samples }

/-- `NPPruner.remove_nps` (model_tools.py:507-584) for a model with internal arrays `A`.
The NPs that are removed are the ones selected by the keys of `par_values`, in order.  An NP selected
twice raises `KeyError` (`model.nps.pop`, line 577).  Not modelled: the dictionary of aux. obs. (575;
each NP is taken to have its own), `clone_model`. -/
noncomputable def removeNps (m : Mdl n P) (A : Arrays) (rx : String → String → Bool)
    (parValues : Dict (Option ℝ)) : Except PyErr (Pruned n) := do
  let sels ← parValues.keys.mapM (m.selectNps rx)
  let removed := sels.flatten
  let st := removed.foldl (m.dropNp parValues) (fun _ => 0, m.channels)
  let m1 : Mdl n P := { m with channels := st.2 }
  let ne ← m1.nExp A m.poiInit st.1
  let vals ← m1.ctx.realVals m.poiInit
  if ¬ removed.Nodup then throw .keyError
  let kept := (List.finRange P).filter (fun p => decide (p ∉ removed))
  let m2 : Mdl n kept.length := { m with nps := fun i => m.nps (kept.get i), channels := st.2 }
  let vals' ← m2.ctx.realVals m.poiInit
  let chans ← st.2.mapM (refitChannel m2 vals' ne vals m1.offsets)
  return ⟨kept.length, { m2 with channels := chans }⟩

open Classical in
/-- The NPs pruned by `NPPruner.prune` (model_tools.py:495-500): those whose symmetrised impacts are
all strictly within `±min_impact`.  (`np.amax` of an empty array raises `ValueError`.) -/
noncomputable def smallNps (m : Mdl n P) (A : Arrays) (minImpact : ℝ) : List (Fin P) :=
  (List.finRange P).filter fun p => decide (∀ s < m.maxSamples, ∀ b < m.nbins,
    A.sym s b p < minImpact ∧ -minImpact < A.sym s b p)

/-- `sample.impacts.pop(pruned_np)` for all pruned NPs (model_tools.py:501-503): `KeyError` when the
sample has no impact for one of them. -/
def popAll (s : Sample) (names : List String) : Except PyErr Sample :=
  if names.all (fun k => (s.impacts.get? k).isSome) then
    .ok { s with impacts := s.impacts.filter (fun e => decide (e.1 ∉ names)) }
  else .error .keyError

/-- `NPPruner.prune` (model_tools.py:486-504). -/
noncomputable def pruneNps (m : Mdl n P) (A : Arrays) (rx : String → String → Bool) (minImpact : ℝ) :
    Except PyErr (Pruned n) := do
  let names := (m.smallNps A minImpact).map fun p => (m.nps p).name
  let chans ← m.channels.mapM fun ch => do
    let samples ← ch.samples.mapM fun s => popAll s names
    return { ch with samples := samples }
  removeNps { m with channels := chans } A rx (names.map fun k => (k, none))

end Mdl

/-! ### `SamplePruner` -/

/-- The sum over bins of `total_significance` (model_tools.py:661). -/
noncomputable def signifSum (nSample nTotal : List ℝ) : ℝ :=
  (List.zipWith (fun s t => 2 * (t * Real.log (t / (t - s)) - s)) nSample nTotal).sum

open Classical in
/-- `SamplePruner.total_significance` (model_tools.py:640-664); `none` is `np.Infinity`.
`math.sqrt` of a negative number raises `ValueError`, which is turned into `np.Infinity`.  The
logarithm of a negative number is `nan` in numpy; the theorems assume positive totals. -/
noncomputable def totalSignificance (nSample nTotal : List ℝ) : Option ℝ :=
  if ∃ st ∈ nSample.zip nTotal, st.2 - st.1 ≤ 0 then none
  else if signifSum nSample nTotal < 0 then none
  else some (Real.sqrt (signifSum nSample nTotal))

/-- `total_nominal_yields` (model_tools.py:622-623). -/
def totalYields (nb : Nat) (samples : List Sample) : List ℝ :=
  samples.foldl (fun acc s => List.zipWith (· + ·) acc s.nominal_yields) (List.replicate nb 0)

open Classical in
/-- The test `z < min_signif` (model_tools.py:627). -/
noncomputable def insignificant (minSignif : ℝ) (tot : List ℝ) (s : Sample) : Bool :=
  match totalSignificance s.nominal_yields tot with
  | none => false
  | some z => decide (z < minSignif)

/-- The loop over channels of `SamplePruner.prune` (model_tools.py:621-634). -/
noncomputable def pruneSamples (minSignif : ℝ) (ch : Channel) : Channel :=
  { ch with samples := ch.samples.filter fun s => !insignificant minSignif (totalYields ch.nbins ch.samples) s }

/-- `SamplePruner.prune` (model_tools.py:610-636); the internal arrays are recomputed by
`set_internal_vars`. -/
noncomputable def Mdl.pruneSamples {n P : Nat} (m : Mdl n P) (minSignif : ℝ) : Mdl n P :=
  { m with channels := m.channels.map (Verif.pruneSamples minSignif) }

end Verif
