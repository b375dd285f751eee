import Verif.Model.Sample
import Verif.Model.Flt
import Mathlib.Analysis.Complex.Trigonometric
import Mathlib.LinearAlgebra.Matrix.DotProduct
import Mathlib.Algebra.BigOperators.Fin
/-!
# Model of `Model` (`/repo/src/fastprof/core.py:304-1160`): internal arrays, yields, likelihood

`n` is the number of POIs and `P` the number of NPs.  Parameter points are pairs
`x : Fin n → ℝ` (POIs), `θ : Fin P → ℝ` (scaled NPs).  Numpy arrays over samples and bins become
functions of natural numbers (only indices within the shape matter).
-/
namespace Verif

/-- `Channel` (channels.py:18-175) with its samples; `gaussian` is `pdf_type() == 'gaussian'`,
`hessian` the inverse covariance of a `GaussianChannel` (channels.py:582-640). -/
structure Channel where
  name : String
  gaussian : Bool
  nbins : Nat
  hessian : Nat → Nat → ℝ
  samples : List Sample

/-- `f(channel.samples[s]) if s < len(channel.samples) else np.zeros(channel.nbins())`, the pattern of
core.py:506, 516, 689, 809, 846. -/
def Channel.part {α : Type} [Zero α] (ch : Channel) (s : Nat) (f : Sample → Except PyErr (List α)) :
    Except PyErr (List α) :=
  match ch.samples[s]? with
  | some smp => f smp
  | none => .ok (List.replicate ch.nbins 0)

/-- Primary attributes of a `Model` (core.py:388-428) after `set_np_data` has been run on the
samples.  `cutoff` is 0 unless set by the user. -/
structure Mdl (n P : Nat) where
  pois : Fin n → String
  poiInit : Fin n → ℝ
  nps : Fin P → NP ℝ
  exprs : Dict Expr
  channels : List Channel
  use_asym_impacts : Bool
  use_linear_nps : Bool
  use_simple_sym_impacts : Bool
  use_lognormal_terms : Bool
  cutoff : ℝ
  variations : Option (List ℝ)

/-- State of the loop over channels of `set_internal_vars` (core.py:490-502). -/
structure ChanState where
  maxSamples : Nat
  nbins : Nat
  offsets : Dict Nat
  poiHessian : Nat → Nat → ℝ

/-- One iteration of that loop (core.py:491-499). `nP` is `nbins_poisson`. -/
def chanStep (nP : Nat) (st : ChanState) (ch : Channel) : ChanState where
  maxSamples := if ch.samples.length > st.maxSamples then ch.samples.length else st.maxSamples
  offsets := st.offsets.set ch.name st.nbins
  poiHessian := if ch.gaussian then
      let o := st.nbins - nP
      fun i j => if o ≤ i ∧ i < o + ch.nbins ∧ o ≤ j ∧ j < o + ch.nbins
        then ch.hessian (i - o) (j - o) else st.poiHessian i j
    else st.poiHessian
  nbins := st.nbins + ch.nbins

/-- Impact-coefficient arrays `pos_impact_coeffs`, `neg_impact_coeffs` as flat buffers: entry
`[s,b,p,v]` of the 4-D array is at flat index `((s*nbins + b)*nnps + p)*nvar + v`. -/
structure Buf where
  nvar : Nat
  pos : Nat → ℝ
  neg : Nat → ℝ

/-- Flat index of `[s,b,p,v]`. -/
def flatIdx (B P nvar s b p v : Nat) : Nat := ((s * B + b) * P + p) * nvar + v

/-- `arr[s, :, p, :w] = rows` (core.py:526-527) on a flat buffer; `rows` has shape `(B, w)`, or
`(B, 1)`, which numpy broadcasts. -/
def assignSlice (B P nvar s p w : Nat) (rows : List (List ℝ)) (rw : Nat) (buf : Nat → ℝ) :
    Nat → ℝ := fun idx =>
  let v := idx % nvar
  let p' := idx / nvar % P
  let b := idx / nvar / P % B
  let s' := idx / nvar / P / B
  if s' = s ∧ p' = p ∧ v < w then (rows.getD b []).getD (if rw = 1 then 0 else v) 0 else buf idx

/-- The coefficients of sample `s` of a channel, or the default ones (core.py:514, 517). -/
noncomputable def Channel.coeffs (ch : Channel) (s : Nat) (par : String)
    (variations : Option (List ℝ)) (isLog : Bool) : Except PyErr Sample.Coeffs :=
  match ch.samples[s]? with
  | some smp => smp.impactCoefficients par variations isLog
  | none =>
    let w := match variations with
      | some vs => vs.length
      | none => 1
    let z := List.replicate ch.nbins (List.replicate w (0 : ℝ))
    .ok ⟨w, z, w, z⟩

/-- The body of the loop over `(par, sample index)` of `set_internal_vars` (core.py:509-528), for
`use_asym_impacts`.  `ndarray.resize` (523-524) keeps the flat buffer and pads it with zeros. -/
noncomputable def storeCoeffs (channels : List Channel) (B P : Nat) (variations : Option (List ℝ))
    (isLog : Bool) (buf : Buf) (p : Nat) (par : String) (s : Nat) : Except PyErr Buf := do
  let cs ← channels.mapM fun ch => ch.coeffs s par variations isLog
  let nvar := cs.foldl (fun nv c => if c.npos > nv ∨ c.nneg > nv then max c.npos c.nneg else nv)
    buf.nvar
  -- np.concatenate: all widths must agree
  let wp := (cs.headD ⟨0, [], 0, []⟩).npos
  let wn := (cs.headD ⟨0, [], 0, []⟩).nneg
  if cs.any (fun c => c.npos != wp || c.nneg != wn) then throw .valueError
  let pos := (cs.map (·.pos)).flatten
  let neg := (cs.map (·.neg)).flatten
  if pos.length ≠ B ∨ neg.length ≠ B then throw .valueError
  if wn ≠ wp ∧ wn ≠ 1 then throw .valueError
  return ⟨nvar, assignSlice B P nvar s p wp pos wp buf.pos, assignSlice B P nvar s p wp neg wn buf.neg⟩

/-- `1/par.scaled_constraint()**2 if par.constraint is not None else 0` (core.py:468-470). -/
noncomputable def NP.constraintWeight (p : NP ℝ) : ℝ :=
  match p.scaledConstraint with
  | .ok c => 1 / c ^ 2
  | .error _ => 0

namespace Mdl
variable {n P : Nat}

/-- What expressions see of the model. -/
def ctx (m : Mdl n P) : ExprCtx n where
  pois := m.pois
  nps := List.ofFn fun p => ((m.nps p).name, (m.nps p).nominal_value)
  exprs := m.exprs

/-- `nbins_poisson` (core.py:484). -/
def nbinsPoisson (m : Mdl n P) : Nat :=
  ((m.channels.filter (fun c => !c.gaussian)).map (·.nbins)).sum

/-- `nbins_gaussian` (core.py:485). -/
def nbinsGaussian (m : Mdl n P) : Nat :=
  ((m.channels.filter (fun c => c.gaussian)).map (·.nbins)).sum

/-- The loop over channels (core.py:490-502). -/
def chanState (m : Mdl n P) : ChanState :=
  m.channels.foldl (chanStep m.nbinsPoisson) ⟨0, 0, [], fun _ _ => 0⟩

/-- `nbins`. -/
def nbins (m : Mdl n P) : Nat := m.chanState.nbins
/-- `max_nsamples`. -/
def maxSamples (m : Mdl n P) : Nat := m.chanState.maxSamples
/-- `channel_offsets`. -/
def offsets (m : Mdl n P) : Dict Nat := m.chanState.offsets
/-- `poi_hessian`. -/
def poiHessian (m : Mdl n P) : Nat → Nat → ℝ := m.chanState.poiHessian

/-- `constraint_hessian` (core.py:463, 468-470): diagonal, `1/scaled_constraint()**2` for the
constrained NPs, 0 for the free ones. -/
noncomputable def constraintHessian (m : Mdl n P) : Matrix (Fin P) (Fin P) ℝ :=
  Matrix.diagonal fun p => (m.nps p).constraintWeight

/-- Concatenate over channels, stack over samples: the pattern
`np.stack([np.concatenate([ f(sample) if s < len(channel.samples) else zeros for channel ]) for s ])`
of core.py:506, 513-516, 689, 809, 846.  Rows of a length other than `nbins` do not fit the other
arrays (`ValueError`). -/
def stackRows {α : Type} [Zero α] (m : Mdl n P) (f : Sample → Except PyErr (List α)) :
    Except PyErr (List (List α)) :=
  (List.range m.maxSamples).mapM fun s => do
    let parts ← m.channels.mapM (fun ch => ch.part s f)
    if parts.flatten.length ≠ m.nbins then throw .valueError
    return parts.flatten

/-- Internal arrays computed by `set_internal_vars`. -/
structure Arrays where
  buf : Buf
  sym : Nat → Nat → Nat → ℝ

/-- `set_internal_vars` (core.py:451-530) for what concerns impacts.  Unless the Poisson channels
come first the code raises `AttributeError` (`self.verbose`, line 488).  A model without channels
(early return, line 482) gives an unusable object; here the arrays are empty. -/
noncomputable def setInternal (m : Mdl n P) : Except PyErr Arrays := do
  let reordered := m.channels.filter (fun c => !c.gaussian) ++ m.channels.filter (fun c => c.gaussian)
  if reordered.map (·.name) ≠ m.channels.map (·.name) then throw .attributeError
  let pairs := (List.finRange P).flatMap fun p => (List.range m.maxSamples).map fun s => (p, s)
  let buf ← if m.use_asym_impacts then
      pairs.foldlM (fun buf ps => storeCoeffs m.channels m.nbins P m.variations
        (!m.use_linear_nps) buf ps.1.1 (m.nps ps.1).name ps.2) ⟨1, fun _ => 0, fun _ => 0⟩
    else pure ⟨1, fun _ => 0, fun _ => 0⟩
  let syms ← (List.finRange P).mapM fun p => m.stackRows (fun s => s.symImpact (m.nps p).name)
  return ⟨buf, fun s b p => ((syms.getD p []).getD s []).getD b 0⟩

/-- Entry `[s,b,p,v]` of `pos_impact_coeffs` / `neg_impact_coeffs`. -/
def Arrays.posAt (A : Arrays) (B P s b p v : Nat) : ℝ := A.buf.pos (flatIdx B P A.buf.nvar s b p v)
/-- see `posAt` -/
def Arrays.negAt (A : Arrays) (B P s b p v : Nat) : ℝ := A.buf.neg (flatIdx B P A.buf.nvar s b p v)

/-- The `delta` of `k_exp` with asymmetric impacts (core.py:619-627).  The branch for a single
variation (627) is the same formula with one power. -/
noncomputable def delta (m : Mdl n P) (A : Arrays) (θ : Fin P → ℝ) (s b : Nat) : ℝ :=
  (∑ p : Fin P, ∑ v ∈ Finset.range A.buf.nvar,
    A.posAt m.nbins P s b p v * (max (θ p) 0) ^ (v + 1)) +
  ∑ p : Fin P, ∑ v ∈ Finset.range A.buf.nvar,
    A.negAt m.nbins P s b p v * (min (θ p) 0) ^ (v + 1)

/-- `k_exp` (core.py:603-649).  `np.log(1 + sym)` with `sym ≤ -1` gives `nan`/`inf` in numpy; in
this model `Real.log` is used there, so theorems about that mode assume `sym > -1`. -/
noncomputable def kExp (m : Mdl n P) (A : Arrays) (θ : Fin P → ℝ) (s b : Nat) : ℝ :=
  if m.use_asym_impacts then
    if m.use_linear_nps then 1 + m.delta A θ s b else Real.exp (m.delta A θ s b)
  else
    if m.use_linear_nps then 1 + ∑ p : Fin P, A.sym s b p * θ p
    else Real.exp (∑ p : Fin P, Real.log (1 + A.sym s b p) * θ p)

open Classical in
/-- `cut_k_exp` (core.py:651-653). -/
noncomputable def cutKExp (m : Mdl n P) (A : Arrays) (θ : Fin P → ℝ) (s b : Nat) : ℝ :=
  if m.cutoff = 0 then m.kExp A θ s b
  else 1 + m.cutoff * Real.tanh ((m.kExp A θ s b - 1) / m.cutoff)

/-- `n_exp` (core.py:674-692), indexed by sample and bin. -/
noncomputable def nExp (m : Mdl n P) (A : Arrays) (x : Fin n → ℝ) (θ : Fin P → ℝ) :
    Except PyErr (Nat → Nat → ℝ) := do
  let vals ← m.ctx.realVals x
  let rows ← m.stackRows (fun s => s.yields vals)
  return fun s b => (rows.getD s []).getD b 0 * m.cutKExp A θ s b

/-- `tot_bin_exp` (core.py:726-740). -/
noncomputable def totBinExp (m : Mdl n P) (A : Arrays) (x : Fin n → ℝ) (θ : Fin P → ℝ)
    (floor : Option ℝ := none) : Except PyErr (Nat → ℝ) := do
  let ne ← m.nExp A x θ
  let tot := fun b => ∑ s ∈ Finset.range m.maxSamples, ne s b
  return match floor with
    | none => tot
    | some f => fun b => if b < m.nbinsPoisson then max (tot b) f else tot b

/-- `ref_yields.sum(axis=0)` (core.py:530, 771): yields at the initial POIs and zero NPs. -/
noncomputable def refTot (m : Mdl n P) (A : Arrays) : Except PyErr (Nat → ℝ) :=
  m.totBinExp A m.poiInit 0

/-- The numeric content of a `Data` (core.py:1347-1402): counts per bin and aux. obs. per NP. -/
structure DataV (P : Nat) where
  counts : Nat → ℝ
  aux_obs : Fin P → ℝ

/-- `0.5*np.linalg.multi_dot((u, H, v))` over the Gaussian bins. -/
noncomputable def quad (m : Mdl n P) (u v : Nat → ℝ) : ℝ :=
  (1 / 2) * ∑ i ∈ Finset.range m.nbinsGaussian, ∑ j ∈ Finset.range m.nbinsGaussian,
    u i * m.poiHessian i j * v j

/-- The constraint term `0.5*np.linalg.multi_dot((delta_nps, C, delta_nps))` (core.py:779). -/
noncomputable def constraintTerm (m : Mdl n P) (θ : Fin P → ℝ) (d : DataV P) : ℝ :=
  (1 / 2) * ((fun p => d.aux_obs p - θ p) ⬝ᵥ m.constraintHessian.mulVec (fun p => d.aux_obs p - θ p))

/-- Poisson terms without offset (core.py:764). -/
noncomputable def poissonTerm (N c : ℝ) : Flt := (Flt.fin N).add (Flt.neg (Flt.smul c (Flt.log (.fin N))))

/-- Poisson terms with offset (core.py:771-772). -/
noncomputable def poissonTermOff (N N0 c : ℝ) : Flt :=
  (Flt.fin (N - N0)).add (Flt.neg (Flt.smul c (Flt.log (Flt.div N N0))))

/-- `nll` (core.py:742-787).  Exceptions inside the `try` (which give `+Inf`) do not occur on
arrays of the right shapes. -/
noncomputable def nll (m : Mdl n P) (A : Arrays) (x : Fin n → ℝ) (θ : Fin P → ℝ) (d : DataV P)
    (offset : Bool := true) (floor : Option ℝ := none) (noConstraints : Bool := false) :
    Except PyErr Flt := do
  let N ← m.totBinExp A x θ floor
  let nP := m.nbinsPoisson
  let main ← if !offset then
      pure ((Flt.sum ((List.range nP).map fun b => poissonTerm (N b) (d.counts b))).add
        (.fin (m.quad (fun i => N (nP + i) - d.counts (nP + i))
          (fun i => N (nP + i) - d.counts (nP + i)))))
    else do
      let N0 ← m.refTot A
      pure ((Flt.sum ((List.range nP).map fun b => poissonTermOff (N b) (N0 b) (d.counts b))).add
        (.fin (m.quad (fun i => N (nP + i) - d.counts (nP + i) + N0 (nP + i))
          (fun i => N (nP + i) - d.counts (nP + i) - N0 (nP + i)))))
  let res := if noConstraints then main else main.add (.fin (m.constraintTerm θ d))
  return res.nanToInf

/-- `channel_n_exp(nexp=..., channel=...)` for a 1-D array (core.py:694-723): the slice of the
bins of a channel. -/
def channelSlice (m : Mdl n P) (arr : List ℝ) (ch : String) : Except PyErr (List ℝ) := do
  let o ← m.offsets.getItem ch
  match m.channels.find? (fun c => c.name == ch) with
  | some c => return (arr.drop o).take c.nbins
  | none => throw .keyError

/-- Recursion depth allowed in expressions. -/
def fuel (m : Mdl n P) : Nat := m.exprs.length + 1

/-- `np.divide(a, N, out=zeros, where=N!=0)`. -/
noncomputable def divOr0 (a N : ℝ) : ℝ := by classical exact if N ≠ 0 then a / N else 0

/-- The computation inside `gradient` (core.py:800-815). -/
noncomputable def gradientCore (m : Mdl n P) (A : Arrays) (x : Fin n → ℝ) (θ : Fin P → ℝ)
    (d : DataV P) : Except PyErr (Fin n → ℝ) := do
  let vals ← m.ctx.realVals x
  let ne ← m.nExp A x θ
  let rows ← m.stackRows (fun s => s.gradient m.pois m.ctx.reals vals m.fuel)
  let N := fun b => ∑ s ∈ Finset.range m.maxSamples, ne s b
  let G := fun b i => ∑ s ∈ Finset.range m.maxSamples,
    (rows.getD s []).getD b 0 i * m.cutKExp A θ s b
  return fun i => ∑ b ∈ Finset.range m.nbins, (G b i - divOr0 (G b i) (N b) * d.counts b)

/-- `gradient` (core.py:789-822): `None` if an exception occurs. -/
noncomputable def gradient (m : Mdl n P) (A : Arrays) (x : Fin n → ℝ) (θ : Fin P → ℝ)
    (d : DataV P) : Option (Fin n → ℝ) := (m.gradientCore A x θ d).toOption

/-- The computation inside `hessian` (core.py:834-859). -/
noncomputable def hessianCore (m : Mdl n P) (A : Arrays) (x : Fin n → ℝ) (θ : Fin P → ℝ)
    (d : DataV P) : Except PyErr (Fin n → Fin n → ℝ) := do
  let vals ← m.ctx.realVals x
  let ne ← m.nExp A x θ
  let rows ← m.stackRows (fun s => s.gradient m.pois m.ctx.reals vals m.fuel)
  let hrows ← m.stackRows (fun s => s.hessian m.pois m.ctx.reals vals m.fuel)
  let N := fun b => ∑ s ∈ Finset.range m.maxSamples, ne s b
  let G := fun b i => ∑ s ∈ Finset.range m.maxSamples,
    (rows.getD s []).getD b 0 i * m.cutKExp A θ s b
  let H := fun b i j => ∑ s ∈ Finset.range m.maxSamples,
    (hrows.getD s []).getD b 0 i j * m.cutKExp A θ s b
  return fun i j => ∑ b ∈ Finset.range m.nbins,
    (H b i j - (divOr0 (H b i j) (N b) - divOr0 (G b i) (N b) * divOr0 (G b j) (N b)) * d.counts b)

/-- `hessian` (core.py:824-866). -/
noncomputable def hessian (m : Mdl n P) (A : Arrays) (x : Fin n → ℝ) (θ : Fin P → ℝ)
    (d : DataV P) : Option (Fin n → Fin n → ℝ) := (m.hessianCore A x θ d).toOption

/-- `generate_asimov` (core.py:1136-1151): counts are the expected yields, aux. obs. the NPs. -/
noncomputable def generateAsimov (m : Mdl n P) (A : Arrays) (x : Fin n → ℝ) (θ : Fin P → ℝ) :
    Except PyErr (DataV P) := do
  return ⟨← m.totBinExp A x θ, θ⟩

end Mdl
end Verif
