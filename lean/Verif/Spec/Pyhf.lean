import Verif.Model.Pyhf
/-!
# What a pyhf model predicts

The expected rate of a sample in a bin, for systematic uncertainties at their central or ±1σ settings, following the
HistFactory definition used by pyhf (`(y + Σ shifts) · ∏ factors`).  At these settings all interpolation codes of pyhf agree.
This refers to the input format only, not to the conversion.
-/
namespace Verif
namespace Pyhf

/-- A quantity given at the settings +1, -1 and 0. -/
noncomputable def setting (t up down nominal : ℝ) : ℝ := if t = 1 then up else if t = -1 then down else nominal

/-- The central value and the uncertainty of a parameter of a measurement (the last entry of that name). -/
def parOf (l : List Par) (name : String) : Option Par := l.reverse.find? (fun p => p.name = name)

/-- Central value of a luminosity parameter. -/
def central (p : Par) : ℝ := (p.aux_data.or p.init).getD 0

/-- The statistical uncertainty and the nominal rate of a sample in bin `b`, if it has the modifier `staterror` called
`n`. -/
def PSample.stats (n : String) (b : Nat) (s : PSample) : List (ℝ × ℝ) :=
  s.modifiers.filterMap fun mod => match mod with
    | .staterror n' u => if n' = n then some (u.getD b 0, s.data.getD b 0) else none
    | _ => none

/-- The relative statistical uncertainty of the modifier `staterror` called `n` in bin `b`: the uncertainties of the samples
that have it are added in quadrature, their rates are added. -/
noncomputable def PChannel.stat (c : PChannel) (n : String) (b : Nat) : ℝ :=
  Real.sqrt (((c.samples.flatMap (PSample.stats n b)).map fun t => t.1 ^ 2).sum) /
    ((c.samples.flatMap (PSample.stats n b)).map fun t => t.2).sum

/-- What the rate of a sample depends on besides the sample: the parameters of the measurement and the relative
statistical uncertainties of its channel. -/
structure Ctx where
  pars : List Par
  stat : String → Nat → ℝ

/-- The factor by which a modifier multiplies the rate in bin `b`, whose nominal rate is `y`: `μ` is the value of the
POI, `α` gives the settings of the nuisance parameters in units of their uncertainties. -/
noncomputable def Modifier.factor (pars : Ctx) (μ : ℝ) (α : String → ℝ) (b : Nat) (y : ℝ) : Modifier → ℝ
  | .normfactor _ => μ
  | .lumi n => match parOf pars.pars n with
    | some p => central p + p.sigma.getD 0 * α n
    | none => 1
  | .normsys n hi lo => setting (α n) hi lo 1
  | .shapesys n s => 1 + s.getD b 0 / y * α (binName n b)
  | .histosys _ _ _ => 1
  | .staterror n _ => 1 + pars.stat n b * α (binName n b)
  | .other _ => 1

/-- The amount that a modifier adds to the rate. -/
noncomputable def Modifier.shift (α : String → ℝ) (b : Nat) (y : ℝ) : Modifier → ℝ
  | .histosys n hi lo => setting (α n) (hi.getD b 0 - y) (lo.getD b 0 - y) 0
  | _ => 0

/-- The expected rate of a sample in bin `b`. -/
noncomputable def PSample.rate (pars : Ctx) (μ : ℝ) (α : String → ℝ) (s : PSample) (b : Nat) : ℝ :=
  (s.data.getD b 0 + (s.modifiers.map (Modifier.shift α b (s.data.getD b 0))).sum) *
    (s.modifiers.map (Modifier.factor pars μ α b (s.data.getD b 0))).prod

/-- The relative change of the rate in bin `b` due to one modifier (for the POI at 1). -/
noncomputable def Modifier.ratio (pars : Ctx) (α : String → ℝ) (b : Nat) (y : ℝ) (mod : Modifier) : ℝ :=
  (1 + mod.shift α b y / y) * mod.factor pars 1 α b y

/-! ### What can be imported faithfully -/

/-- Conditions on a modifier of a sample with rates `data`: the directions of the up and down variations are not the
same, nominal rates that are divided by are not 0, the samples that share a `staterror` have the relative uncertainty of their
sum, and a luminosity parameter has central value 1 and an uncertainty
(the same in the first measurement, which is the one that is read). -/
def GoodModifier (first : List Par) (pars : Ctx) (data : List ℝ) : Modifier → Prop
  | .normfactor _ => True
  | .lumi n => ∃ p p0 σ, parOf pars.pars n = some p ∧ p.sigma = some σ ∧ central p = 1 ∧ parOf first n = some p0 ∧ p0.sigma = some σ
  | .normsys _ hi lo => (hi - 1) * (lo - 1) ≤ 0
  | .histosys _ hi lo => hi.length = data.length ∧ lo.length = data.length ∧ ∀ b < data.length,
      data.getD b 0 ≠ 0 ∧ (hi.getD b 0 - data.getD b 0) * (lo.getD b 0 - data.getD b 0) ≤ 0
  | .shapesys _ s => s.length = data.length ∧ ∀ b < data.length, data.getD b 0 ≠ 0
  | .staterror n s => s.length = data.length ∧ ∀ b < data.length, data.getD b 0 ≠ 0 ∧ s.getD b 0 / data.getD b 0 = pars.stat n b
  | .other _ => False

/-- The nuisance parameters of a modifier. -/
def Modifier.params (nb : Nat) : Modifier → List String
  | .normfactor _ => []
  | .shapesys n _ => (List.range nb).map (binName n)
  | .staterror n _ => (List.range nb).map (binName n)
  | .lumi n | .normsys n _ _ | .histosys n _ _ | .other n => [n]

/-- Conditions on a sample with `nb` bins: at most one normalisation factor, which is the POI, good modifiers, and each
nuisance parameter occurs once and is not the POI. -/
structure GoodSample (first : List Par) (pars : Ctx) (poi : String) (nb : Nat) (s : PSample) : Prop where
  size : s.data.length = nb
  norm : normfactors s = [] ∨ normfactors s = [poi]
  good : ∀ mod ∈ s.modifiers, GoodModifier first pars s.data mod
  other : ∀ mod ∈ s.modifiers, (∀ n, mod ≠ .normfactor n) → mod.name ≠ poi
  params : (s.modifiers.flatMap (Modifier.params nb)).Nodup
  poi : poi ∉ s.modifiers.flatMap (Modifier.params nb)

/-- The number of bins of a channel. -/
def PChannel.nbins (c : PChannel) : Nat := match c.samples with
  | [] => 0
  | s :: _ => s.data.length

/-- Conditions on a channel. -/
structure GoodChannel (first pars : List Par) (poi : String) (c : PChannel) : Prop where
  bins : 0 < c.nbins
  distinct : (c.samples.map (·.name)).Nodup
  samples : ∀ s ∈ c.samples, GoodSample first ⟨pars, c.stat⟩ poi c.nbins s

/-- A workspace that can be imported faithfully, for the measurement number `index`, which is `mea`. -/
structure GoodWorkspace (index : Nat) (mea : Measurement) (w : Workspace) : Prop where
  selected : w.measurements[index]? = some mea
  channels : ∀ c ∈ w.channels, GoodChannel w.firstPars mea.parameters mea.poi c
  distinct : (w.channels.map (·.name)).Nodup

end Pyhf
end Verif
