import Verif.Model.Core
import Verif.Model.Base
/-!
# Model of the markup of models: `Model.load_dict` / `fill_dict` (`/repo/src/fastprof/core.py:1202-1291`) and
the `load_dict` / `fill_dict` of channels, samples, norms and expressions

The dictionaries are those exchanged with `json` / `yaml` (`dump_dict` and `load_dict`); the text of the
file is not modelled.  A value whose Python type cannot be represented in the attribute that receives it
(a sample called `None`, ...) is outside the model (`PyErr.unmodelled`): Python stores it and fails later.
-/
namespace Verif
namespace Markup

/-- Decoded markup. -/
abbrev V := MVal ℝ

/-- The texts that occur in markup: `isFloat s` says that `float(s)` succeeds (norms.py:110); `read` gives the
variation that a key of a dictionary of impacts denotes, `write` the text of such a key. -/
structure Texts where
  isFloat : String → Bool
  write : VarKey → String
  read : String → Option VarKey

/-- `for x in v`. -/
def asList : V → Except PyErr (List V)
  | .list l => .ok l
  | .none => .error .typeError
  | .num _ => .error .typeError
  | _ => .error .unmodelled

/-- `v[key]`, `key in v` need a dictionary. -/
def asDict : V → Except PyErr (Dict V)
  | .dict d => .ok d
  | .str _ => .error .unmodelled
  | _ => .error .typeError

/-- A value stored in an attribute that the rest of the model takes to be a string. -/
def asStr : V → Except PyErr String
  | .str s => .ok s
  | _ => .error .unmodelled

/-- A value stored in an attribute that the rest of the model takes to be a number. -/
def asNum : V → Except PyErr ℝ
  | .num x => .ok x
  | _ => .error .unmodelled

/-! ## Norms and samples -/

/-- `Norm.instantiate` (norms.py:94-121) with `NumberNorm.load_dict` (204-217) and
`ExpressionNorm.load_dict` (324-334). -/
def loadNorm (T : Texts) (d : Dict V) : Except PyErr Norm := do
  match ← loadField "norm" d .none [.num, .str] with
  | .num v => return .number v
  | .str s => if T.isFloat s then throw .valueError else return .expr s
  | .none => if (d.get? "norm").isSome then throw .unmodelled else return .number 1
  | _ => throw .unmodelled

/-- `NumberNorm.fill_dict` (norms.py:219-225), `ExpressionNorm.fill_dict` (336-342). -/
def normVal : Norm → V
  | .number v => .num v
  | .expr s => .str s

/-- A dictionary of variations. -/
def varsVal (T : Texts) (l : List (VarKey × ℝ)) : V := .dict (l.map fun kv => (T.write kv.1, .num kv.2))

/-- A value of `Sample.impacts` in markup. -/
def impactVal (T : Texts) : Impact → V
  | .perBin l => .list (l.map (varsVal T))
  | .common d => varsVal T d
  | .float v => .num v

/-- Reading one variation. -/
def readVar (T : Texts) (kv : String × V) : Except PyErr (VarKey × ℝ) := do
  match T.read kv.1 with
  | none => throw .unmodelled
  | some k => return (k, ← asNum kv.2)

/-- Reading a dictionary of variations. -/
def readVars (T : Texts) : V → Except PyErr (List (VarKey × ℝ))
  | .dict d => d.mapM (readVar T)
  | _ => .error .unmodelled

/-- Reading a value of `Sample.impacts`. -/
def readImpact (T : Texts) : V → Except PyErr Impact
  | .num v => .ok (.float v)
  | .dict d => do return .common (← readVars T (.dict d))
  | .list l => do return .perBin (← l.mapM (readVars T))
  | _ => .error .unmodelled

/-- Reading one entry of `impacts`. -/
def readEntry (T : Texts) (kv : String × V) : Except PyErr (String × Impact) := do
  return (kv.1, ← readImpact T kv.2)

/-- `load_field('nominal_yields', sdict, None, np.ndarray)`. -/
def loadYields (d : Dict V) : Except PyErr (Option (List ℝ)) := do
  match ← loadField "nominal_yields" d .none [.list] with
  | .list l => return some (← l.mapM asNum)
  | .none => return none
  | _ => throw .unmodelled

/-- `load_field('impacts', sdict, {}, dict)`. -/
def loadImpacts (T : Texts) (d : Dict V) : Except PyErr (Dict Impact) := do
  match ← loadField "impacts" d (.dict []) [.dict] with
  | .dict l => l.mapM (readEntry T)
  | _ => throw .unmodelled

/-- `Sample.load_dict` (sample.py:348-361). -/
def loadSample (T : Texts) (d : Dict V) : Except PyErr RawSample := do
  let name ← asStr (← loadField "name" d (.str "") [.str])
  let norm ← loadNorm T d
  let nominal_norm ← loadNum "nominal_norm" d none
  let nominal_yields ← loadYields d
  let impacts ← loadImpacts T d
  return { name, norm, nominal_norm, nominal_yields, impacts }

/-- A list of numbers, or `None`. -/
def yieldsVal : Option (List ℝ) → V
  | some l => .list (l.map .num)
  | none => .none

/-- `Sample.fill_dict` (sample.py:363-374). -/
def fillSample (T : Texts) (s : RawSample) : Dict V :=
  [("name", .str s.name), ("norm", normVal s.norm), ("nominal_norm", .ofNum s.nominal_norm),
   ("nominal_yields", yieldsVal s.nominal_yields),
   ("impacts", .dict (s.impacts.map fun kv => (kv.1, impactVal T kv.2)))]

/-! ## Channels -/

/-- What distinguishes the channel classes (channels.py:178-300, 443-470, 582-630): the bins are kept as
found in the markup. -/
inductive ChClass where
  | single
  | range (bins : List V) (obs_name obs_unit : Option String)
  | multi (bins : List V)
  | gauss (bins : List V) (hessian : List (List ℝ))

/-- `pdf_type() == 'gaussian'`. -/
def ChClass.isGauss : ChClass → Bool
  | .gauss _ _ => true
  | _ => false

/-- `nbins()`. -/
def ChClass.nbins : ChClass → Nat
  | .single => 1
  | .range b _ _ => b.length
  | .multi b => b.length
  | .gauss b _ => b.length

/-- A channel with samples of type `S` (`RawSample` before `set_np_data`, `Sample` after). -/
structure ChanDoc (S : Type) where
  name : String
  cls : ChClass
  samples : List S

open Classical in
/-- `np.linalg.inv`. -/
noncomputable def invRows (l : List (List ℝ)) : Except PyErr (List (List ℝ)) :=
  let M : Matrix (Fin l.length) (Fin l.length) ℝ := Matrix.of fun i j => (l.getD i []).getD j 0
  if ∃ r ∈ l, r.length ≠ l.length then .error .linAlgError
  else if M.det = 0 then .error .linAlgError
  else .ok (List.ofFn fun i => List.ofFn fun j => M⁻¹ i j)

/-- `sdict[key]`, used as a list. -/
def getList (d : Dict V) (key : String) : Except PyErr (List V) := do asList (← d.getItem key)

/-- Reading a matrix. -/
def readRow : V → Except PyErr (List ℝ)
  | .list l => l.mapM asNum
  | _ => .error .unmodelled

/-- The loop over samples of `Channel.load_dict` (channels.py:129-132): the samples are stored by name, a
second sample of the same name replaces the first. -/
def loadSamples (T : Texts) : List V → Dict RawSample → Except PyErr (Dict RawSample)
  | [], acc => .ok acc
  | v :: vs, acc => do
    let s ← loadSample T (← asDict v)
    loadSamples T vs (acc.set s.name s)

/-- The class-specific part of `load_dict` (channels.py:219-231, 338-353, 488-500, 661-674) with the choice
of the class (core.py:1244-1253). -/
noncomputable def loadClass (d : Dict V) : Except PyErr ChClass :=
  match d.get? "type" with
  | none => .ok .single
  | some (.str "bin") => .ok .single
  | some (.str "binned_range") => do
    let bins ← getList d "bins"
    let on ← loadStr "obs_name" d (some "")
    let ou ← loadStr "obs_unit" d (some "")
    return .range bins on ou
  | some (.str "multi_bin") => do return .multi (← getList d "bins")
  | some (.str "gaussian") => do
    let bins ← getList d "bins"
    let rows ← (← getList d "covariance").mapM readRow
    return .gauss bins (← invRows rows)
  | some _ => .error .valueError

/-- The types known to `Model.load_dict` (core.py:1244-1253): an unknown one raises before anything else. -/
def knownType : Option V → Bool
  | none => true
  | some (.str s) => s == "bin" || s == "binned_range" || s == "multi_bin" || s == "gaussian"
  | some _ => false

/-- Loading a channel (core.py:1244-1254, `Channel.load_dict` channels.py:119-132). -/
noncomputable def loadChannel (T : Texts) (v : V) : Except PyErr (ChanDoc RawSample) := do
  let d ← asDict v
  if !knownType (d.get? "type") then throw .valueError
  let name ← asStr (← d.getItem "name")
  let samples ← loadSamples T (← getList d "samples") []
  let cls ← loadClass d
  return { name, cls, samples := samples.values }

/-- The class-specific part of `fill_dict` (channels.py:233-241, 355-366, 502-512, 676-687).  A Gaussian
channel is saved with the type of a `MultiBinChannel`; its covariance is an array, which `json.dump` refuses
with `TypeError` (here: the dictionary before it is written). -/
noncomputable def fillClass : ChClass → Except PyErr (Dict V)
  | .single => .ok [("type", .str "bin")]
  | .range bins on ou => .ok [("type", .str "binned_range"), ("obs_name", .ofStr on), ("obs_unit", .ofStr ou),
      ("bins", .list bins)]
  | .multi bins => .ok [("type", .str "multi_bin"), ("bins", .list bins)]
  | .gauss bins h => do
    let cov ← invRows h
    return [("type", .str "multi_bin"), ("bins", .list bins),
      ("covariance", .list (cov.map fun r => .list (r.map .num)))]

/-- `Channel.fill_dict` (channels.py:134-143), the samples moved to the end. -/
noncomputable def fillChannel (T : Texts) (c : ChanDoc RawSample) : Except PyErr V := do
  let cl ← fillClass c.cls
  return .dict ([("name", .str c.name)] ++ cl ++ [("samples", .list (c.samples.map fun s => .dict (fillSample T s)))])

/-! ## Expressions -/

/-- Reading one coefficient of a `LinearCombination`. -/
def readCoeff (kv : String × V) : Except PyErr (String × ℝ) := do return (kv.1, ← asNum kv.2)

/-- `load_field(key, sdict, default, [int, float])` stored in an attribute taken to be a number. -/
def needNum (key : String) (d : Dict V) (default : ℝ) : Except PyErr ℝ := do
  asNum (← loadField key d (.num default) [.num])

/-- `load_field(key, sdict, [], list)` for a list of names. -/
def needNames (key : String) (d : Dict V) : Except PyErr (List String) := do
  match ← loadField key d (.list []) [.list] with
  | .list l => l.mapM asStr
  | _ => throw .unmodelled

/-- `load_field(key, sdict, {}, dict)` for the coefficients. -/
def needCoeffs (key : String) (d : Dict V) : Except PyErr (Dict ℝ) := do
  match ← loadField key d (.dict []) [.dict] with
  | .dict l => l.mapM readCoeff
  | _ => throw .unmodelled

/-- `Expression.instantiate` (expressions.py:141-168) and the `load_dict` of the classes (120-129, 255-268,
376-388, 521-535, 706-721, 846-859, 921-935).  `Formula.load_dict` refers to a class `FormulaFunction` that
does not exist: `NameError` (or `KeyError` when there is no type). -/
def loadExpr (v : V) : Except PyErr (String × Expr) := do
  let d ← asDict v
  match d.get? "type" with
  | none => do
    let _ ← d.getItem "name"
    throw .keyError
  | some (.str "formula") => do
    let _ ← d.getItem "name"
    throw .nameError
  | some (.str "number") => do
    let name ← asStr (← d.getItem "name")
    return (name, .number (← needNum "value" d 0))
  | some (.str "single_parameter") => do
    let name ← asStr (← d.getItem "name")
    return (name, .single)
  | some (.str "linear_combination") => do
    let name ← asStr (← d.getItem "name")
    let nv ← needNum "nominal_value" d 0
    return (name, .linear nv (← needCoeffs "coeffs" d))
  | some (.str "product_ratio") => do
    let name ← asStr (← d.getItem "name")
    let pf ← needNum "prefactor" d 1
    let num ← needNames "numerator" d
    return (name, .prodRatio pf num (← needNames "denominator" d))
  | some (.str "exp") => do
    let name ← asStr (← d.getItem "name")
    return (name, .exponential (← asStr (← loadField "exponent" d (.str "") [.str])))
  | some _ => throw .valueError

/-- `fill_dict` of the expression classes (expressions.py:131-137, 270-278, 390-397, 537-546, 723-733,
861-869). -/
def fillExpr (ne : String × Expr) : V :=
  match ne.2 with
  | .number v => .dict [("name", .str ne.1), ("type", .str "number"), ("value", .num v)]
  | .single => .dict [("name", .str ne.1), ("type", .str "single_parameter")]
  | .linear nv cs => .dict [("name", .str ne.1), ("type", .str "linear_combination"), ("nominal_value", .num nv),
      ("coeffs", .dict (cs.map fun kv => (kv.1, .num kv.2)))]
  | .prodRatio pf num den => .dict [("name", .str ne.1), ("type", .str "product_ratio"), ("prefactor", .num pf),
      ("numerator", .list (num.map .str)), ("denominator", .list (den.map .str))]
  | .exponential e => .dict [("name", .str ne.1), ("type", .str "exp"), ("exponent", .str e)]

/-! ## Models -/

/-- The primary attributes of a `Model` that are saved (core.py:396-412).  The Python dictionaries are keyed by
the names of the objects; here they are lists. -/
structure ModelDoc (S : Type) where
  name : Option String
  description : Option String
  pois : List (ModelPOI ℝ)
  aux : List (ModelAux ℝ)
  nps : List (ModelNP ℝ)
  exprs : Dict Expr
  channels : List (ChanDoc S)

/-- The loops of core.py:1218-1223, 1226-1231, 1240-1244, 1246-1266: objects are loaded one by one and a
name that is already there raises `ValueError`. -/
def loadDistinct {α β : Type} [DecidableEq β] (load : V → Except PyErr α) (nm : α → β) :
    List V → List α → Except PyErr (List α)
  | [], acc => .ok acc
  | v :: vs, acc => do
    let a ← load v
    if nm a ∈ acc.map nm then throw .valueError
    loadDistinct load nm vs (acc ++ [a])

/-- `ModelPOI().load_dict(v)`. -/
noncomputable def loadPOI (v : V) : Except PyErr (ModelPOI ℝ) := do (({} : ModelPOI ℝ).loadDict (← asDict v))
/-- `ModelAux().load_dict(v)`. -/
noncomputable def loadAux (v : V) : Except PyErr (ModelAux ℝ) := do (({} : ModelAux ℝ).loadDict (← asDict v))
/-- `ModelNP().load_dict(v)`. -/
noncomputable def loadNP (v : V) : Except PyErr (ModelNP ℝ) := do
  (({ nominal_value := some 0, variation := some 1 } : ModelNP ℝ).loadDict (← asDict v))

/-- Lines 1236-1237: an auxiliary observable that is not declared is added. -/
def addAux (aux : List (ModelAux ℝ)) (p : ModelNP ℝ) : List (ModelAux ℝ) :=
  match p.aux_obs with
  | none => aux
  | some a => if some a ∈ aux.map (·.name) then aux else aux ++ [{ name := some a, unit := p.unit }]

/-- The loop over NPs (core.py:1233-1240). -/
noncomputable def loadNPs : List V → List (ModelAux ℝ) → List (ModelNP ℝ) →
    Except PyErr (List (ModelAux ℝ) × List (ModelNP ℝ))
  | [], aux, nps => .ok (aux, nps)
  | v :: vs, aux, nps => do
    let p ← loadNP v
    if p.name ∈ nps.map (·.name) then throw .valueError
    loadNPs vs (addAux aux p) (nps ++ [p])

/-- `sdict['model'][key]` if present (core.py:1225, 1232, 1241). -/
def optList (m : Dict V) (key : String) : Except PyErr (List V) :=
  match m.get? key with
  | none => .ok []
  | some v => asList v

/-- Lines 1257-1262. -/
def sizesOk (c : ChanDoc RawSample) : Bool :=
  c.samples.all fun s => match s.nominal_yields with
    | none => true
    | some l => l.length == c.cls.nbins

/-- Lines 1244-1266, one channel. -/
noncomputable def loadCheckedChannel (T : Texts) (v : V) : Except PyErr (ChanDoc RawSample) := do
  let c ← loadChannel T v
  if !sizesOk c then throw .valueError
  return c

/-- `Model.load_dict` (core.py:1202-1267), up to `set_internal_vars`.  `exprs0` are the expressions that the
object already has: they are not reset.  (A channel with both a repeated name and wrong sizes raises
`ValueError` either way.) -/
noncomputable def loadDoc (T : Texts) (exprs0 : Dict Expr) (sdict : Dict V) :
    Except PyErr (ModelDoc RawSample) := do
  let m ← asDict (← sdict.getItem "model")
  if (m.get? "POIs").isNone then throw .keyError
  if (m.get? "channels").isNone then throw .keyError
  let name ← loadStr "name" m (some "")
  let description ← loadStr "description" m none
  let pois ← loadDistinct loadPOI (·.name) (← getList m "POIs") []
  let aux ← loadDistinct loadAux (·.name) (← optList m "aux_obs") []
  let (aux, nps) ← loadNPs (← optList m "NPs") aux []
  let exprs ← loadDistinct loadExpr (·.1) (← optList m "expressions") exprs0
  let channels ← loadDistinct (loadCheckedChannel T) (·.name) (← getList m "channels") []
  return { name, description, pois, aux, nps, exprs, channels }

/-- `Model.fill_dict` (core.py:1273-1291). -/
noncomputable def fillDoc (T : Texts) (d : ModelDoc RawSample) : Except PyErr (Dict V) := do
  let chans ← d.channels.mapM (fillChannel T)
  let m : Dict V := [("name", .ofStr d.name)]
  let m := m.setOpt "description" d.description .str
  let m := m.set "POIs" (.list (d.pois.map fun p => .dict (p.fillDict [])))
  let m := m.set "NPs" (.list (d.nps.map fun p => .dict (p.fillDict [])))
  let m := m.set "expressions" (.list (d.exprs.map fillExpr))
  let m := m.set "aux_obs" (.list (d.aux.map fun p => .dict (p.fillDict [])))
  let m := m.set "channels" (.list chans)
  return [("model", .dict m)]

/-! ## From the markup to the model used for computations -/

/-- The attributes of a `Model` that are not saved (core.py:413-419). -/
structure Flags where
  use_asym_impacts : Bool := true
  use_linear_nps : Bool := false
  use_simple_sym_impacts : Bool := true
  use_lognormal_terms : Bool := false
  cutoff : ℝ := 0
  variations : Option (List ℝ) := none

/-- The Python object: saved attributes (with the samples as left by `set_np_data`) and options. -/
structure Obj where
  doc : ModelDoc Sample
  flags : Flags

/-- A name that the rest of the model takes to be a string. -/
def needName : Option String → Except PyErr String
  | some s => .ok s
  | none => .error .unmodelled

/-- Numbers of the POIs; `np.array([None], dtype=float)` is `nan` (core.py:464). -/
def numericPOI (p : ModelPOI ℝ) : Except PyErr (String × ℝ) := do
  let s ← needName p.name
  match p.initial_value with
  | some v => return (s, v)
  | none => throw .nan

/-- `self.real_vals(self.ref_pars)` (core.py:503): the POIs at their initial values, the NPs at their nominal
values, then the expressions. -/
noncomputable def refVals (pois : List (String × ℝ)) (nps : List (NP ℝ)) (exprs : Dict Expr) :
    Except PyErr (Dict ℝ) :=
  ExprCtx.evalLoop exprs (pois ++ nps.map fun p => (p.name, p.nominal_value))

/-- `self.reals()` (core.py:575-585). -/
def refReals (pois : List (String × ℝ)) (nps : List (NP ℝ)) (exprs : Dict Expr) : Dict Expr :=
  pois.map (fun p => (p.1, Expr.single)) ++ nps.map (fun p => (p.name, Expr.single)) ++ exprs

/-- `set_np_data` for the samples of a channel (core.py:502-504). -/
noncomputable def setUpChannel (nps : List (NP ℝ)) (reals : Dict Expr) (vals : Dict ℝ) (fuel : Nat)
    (c : ChanDoc RawSample) : Except PyErr (ChanDoc Sample) := do
  let ss ← c.samples.mapM fun s => s.setNpData nps reals vals fuel
  return { name := c.name, cls := c.cls, samples := ss }

/-- The part of `set_internal_vars` (core.py:451-504) that changes the samples. -/
noncomputable def setUp (d : ModelDoc RawSample) : Except PyErr (ModelDoc Sample) := do
  let pois ← d.pois.mapM numericPOI
  let nps ← d.nps.mapM ModelNP.numeric
  let vals ← refVals pois nps d.exprs
  let chans ← d.channels.mapM (setUpChannel nps (refReals pois nps d.exprs) vals (d.exprs.length + 1))
  return { name := d.name, description := d.description, pois := d.pois, aux := d.aux, nps := d.nps,
           exprs := d.exprs, channels := chans }

/-- A sample as `fill_dict` sees it after `set_np_data`. -/
def toRaw (s : Sample) : RawSample :=
  { name := s.name, norm := s.norm, nominal_norm := some s.nominal_norm,
    nominal_yields := some s.nominal_yields, impacts := s.impacts }

/-- The same for a channel. -/
def rawChannel (c : ChanDoc Sample) : ChanDoc RawSample :=
  { name := c.name, cls := c.cls, samples := c.samples.map toRaw }

/-- The same for a model. -/
def rawDoc (d : ModelDoc Sample) : ModelDoc RawSample :=
  { name := d.name, description := d.description, pois := d.pois, aux := d.aux, nps := d.nps,
    exprs := d.exprs, channels := d.channels.map rawChannel }

/-- A channel as `Model/Core.lean` sees it. -/
def toChannel (c : ChanDoc Sample) : Channel where
  name := c.name
  gaussian := c.cls.isGauss
  nbins := c.cls.nbins
  hessian := match c.cls with
    | .gauss _ h => fun i j => (h.getD i []).getD j 0
    | _ => fun _ _ => 0
  samples := c.samples

/-- The model used for computations (`Model/Core.lean`).  The default values are not used for objects that
went through `setUp`. -/
def Obj.mdl (o : Obj) : Mdl o.doc.pois.length o.doc.nps.length where
  pois i := (o.doc.pois[i].name).getD ""
  poiInit i := (o.doc.pois[i].initial_value).getD 0
  nps i := match o.doc.nps[i].numeric with
    | .ok p => p
    | .error _ => ⟨"", 0, 1, none, none⟩
  exprs := o.doc.exprs
  channels := o.doc.channels.map toChannel
  use_asym_impacts := o.flags.use_asym_impacts
  use_linear_nps := o.flags.use_linear_nps
  use_simple_sym_impacts := o.flags.use_simple_sym_impacts
  use_lognormal_terms := o.flags.use_lognormal_terms
  cutoff := o.flags.cutoff
  variations := o.flags.variations

/-- `set_internal_vars` on an object with the given options: the samples, the arrays, and the reference yields
(core.py:451-530). -/
noncomputable def initModel (d : ModelDoc RawSample) (f : Flags) : Except PyErr Obj := do
  let doc ← setUp d
  let o : Obj := ⟨doc, f⟩
  let A ← o.mdl.setInternal
  let _ ← o.mdl.nExp A o.mdl.poiInit 0
  return o

/-- `Model.create(file)`: `Model().load_dict(sdict)` (core.py:1185-1200). -/
noncomputable def load (T : Texts) (sdict : Dict V) : Except PyErr Obj := do
  initModel (← loadDoc T [] sdict) {}

/-- `model.dump_dict()`. -/
noncomputable def save (T : Texts) (o : Obj) : Except PyErr (Dict V) := fillDoc T (rawDoc o.doc)

/-- `model.load_dict(sdict)` on an existing object: its options and expressions stay. -/
noncomputable def reload (T : Texts) (o : Obj) (sdict : Dict V) : Except PyErr Obj := do
  initModel (← loadDoc T o.doc.exprs sdict) o.flags

end Markup
end Verif
