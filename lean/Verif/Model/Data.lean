import Verif.Model.Params
import Mathlib.Algebra.Order.Floor.Ring
import Mathlib.Data.Real.Archimedean
/-!
# Model of `Data` (`/repo/src/fastprof/core.py:1347-1529`) and of the dataset markup of the channel
classes (`/repo/src/fastprof/channels.py`)

Arrays are lists of reals.  Markup is the decoded JSON/YAML value (`MVal`).
-/
namespace Verif

/-- The channel classes: `SingleBinChannel` (channels.py:178), `BinnedRangeChannel` (279) with the
`lo_edge`, `hi_edge` of its bins, `MultiBinChannel` (443) and `GaussianChannel` (582) with the names
of their bins. -/
inductive ChKind where
  | single
  | range (edges : List (ℝ × ℝ))
  | multi (bins : List String)
  | gauss (bins : List String)

/-- A channel, as seen by datasets. -/
structure DChannel where
  name : String
  kind : ChKind

/-- `nbins()` (channels.py:212, 331, 487, 641). -/
def DChannel.nbins (c : DChannel) : Nat :=
  match c.kind with
  | .single => 1
  | .range e => e.length
  | .multi b => b.length
  | .gauss b => b.length

/-- The parts of a `Model` that datasets use: channels in order, NPs in order, and the number
`nauxs` of auxiliary observables (core.py:461-462). -/
structure DModel where
  channels : List DChannel
  nps : List (NP ℝ)
  nauxs : Nat

namespace DModel
/-- `nbins` (core.py:498-500). -/
def nbins (m : DModel) : Nat := (m.channels.map DChannel.nbins).sum

/-- `np_nominal_values` (core.py:467): *unscaled* nominal values. -/
def npNominal (m : DModel) : List ℝ := m.nps.map (·.nominal_value)

/-- `channel_offsets` (core.py:490-500). -/
def offsets (m : DModel) : Dict Nat :=
  (m.channels.foldl (fun (st : Nat × Dict Nat) c => (st.1 + c.nbins, st.2.set c.name st.1)) (0, [])).2
end DModel

namespace DData

/-- `Data.set_counts` (core.py:1403-1421) for a list (or 1-D array).  With a wrong length, the
`ValueError` message refers to the undefined variable `model` (1417): `NameError`. -/
def setCounts (m : DModel) (counts : List ℝ) : Except PyErr (List ℝ) :=
  if counts.length > 0 then
    if counts.length ≠ m.nbins then .error .nameError else .ok counts
  else .ok (List.replicate m.nbins 0)

/-- The loop over the NPs that fills the constrained ones in order (1441-1445); `IndexError` when
values are missing. -/
def fillConstrained : List (NP ℝ) → List ℝ → Except PyErr (List ℝ)
  | [], _ => .ok []
  | par :: nps, aux =>
    if par.isFree then do
      return par.nominal_value :: (← fillConstrained nps aux)
    else
      match aux with
      | [] => .error .indexError
      | a :: aux => do return a :: (← fillConstrained nps aux)

/-- `Data.set_aux_obs` (core.py:1423-1448). -/
def setAuxObs (m : DModel) (aux : List ℝ) : Except PyErr (List ℝ) :=
  if aux.length = 0 then .ok m.npNominal
  else if aux.length = m.nps.length then .ok aux
  else if aux.length = m.nauxs then fillConstrained m.nps aux
  else .error .valueError

/-- Python's `int(x)` of a float: truncation towards 0. -/
noncomputable def trunc (x : ℝ) : ℤ := if 0 ≤ x then ⌊x⌋ else ⌈x⌉

/-- `v[key]` on a markup value. -/
def item (v : MVal ℝ) (key : String) : Except PyErr (MVal ℝ) :=
  match v with
  | .dict d => Dict.getItem d key
  | _ => .error .typeError

/-- A number stored in a float array (`counts[b] = ...`); other values are not modelled. -/
def toFloat : MVal ℝ → Except PyErr ℝ
  | .num x => .ok x
  | _ => .error .unmodelled

/-- `int(counts[b])` as a markup number. -/
noncomputable def countVal (x : ℝ) : MVal ℝ := .num (trunc x : ℝ)

/-- An entry of the `bins` list written for a `BinnedRangeChannel` (channels.py:409-413). -/
noncomputable def rangeBin (e : ℝ × ℝ) (x : ℝ) : MVal ℝ :=
  .dict [("lo_edge", .num e.1), ("hi_edge", .num e.2), ("counts", countVal x)]

/-- An entry of the `bins` list written for a `MultiBinChannel` or `GaussianChannel` (551-555,
726-730). -/
noncomputable def namedBin (b : String) (x : ℝ) : MVal ℝ :=
  .dict [("name", .str b), ("counts", countVal x)]

/-- `save_dataset_dict` (channels.py:165-175, 260-275, 392-413, 536-555, 711-730).  The fields
`obs_name`, `obs_unit` of a `BinnedRangeChannel`, not read back, are left out. -/
noncomputable def saveChannel (c : DChannel) (counts : List ℝ) : Except PyErr (MVal ℝ) :=
  if counts.length ≠ c.nbins then .error .valueError
  else match c.kind with
    | .single => .ok (.dict [("name", .str c.name), ("type", .str "bin"),
        ("counts", countVal (counts.getD 0 0))])
    | .range e => .ok (.dict [("name", .str c.name), ("type", .str "binned_range"),
        ("bins", .list (List.zipWith rangeBin e counts))])
    | .multi b => .ok (.dict [("name", .str c.name), ("type", .str "multi_bin"),
        ("bins", .list (List.zipWith namedBin b counts))])
    | .gauss b => .ok (.dict [("name", .str c.name), ("type", .str "multi_bin"),
        ("bins", .list (List.zipWith namedBin b counts))])

/-- `sdict['name'] != self.name`, with `KeyError` if there is no name. -/
def checkName (c : DChannel) (v : MVal ℝ) : Except PyErr Unit := do
  match ← item v "name" with
  | .str s => if s = c.name then .ok () else .error .valueError
  | _ => .error .valueError

/-- One bin of a `BinnedRangeChannel` (channels.py:386-390). -/
noncomputable def loadRangeBin (e : ℝ × ℝ) (v : MVal ℝ) : Except PyErr ℝ := do
  let lo ← item v "lo_edge"
  let hi ← item v "hi_edge"
  match lo, hi with
  | .num lo, .num hi =>
    if lo = e.1 ∧ hi = e.2 then toFloat (← item v "counts") else .error .valueError
  | _, _ => .error .valueError

/-- One bin of a `MultiBinChannel` (`key` = `counts`, channels.py:531-534) or of a
`GaussianChannel` (`key` = `obs`, 706-709). -/
def loadNamedBin (key : String) (b : String) (v : MVal ℝ) : Except PyErr ℝ := do
  match ← item v "name" with
  | .str s => if s = b then toFloat (← item v key) else .error .valueError
  | _ => .error .valueError

/-- The `bins` list (`KeyError` if absent); something else than a list is not modelled. -/
def binList (v : MVal ℝ) : Except PyErr (List (MVal ℝ)) := do
  match ← item v "bins" with
  | .list l => .ok l
  | _ => .error .unmodelled

/-- `load_dataset_dict` (channels.py:148-163, 241-258, 366-390, 511-534, 687-709): the values
written to the channel's slice of the array of counts.  With a wrong number of bins, the
`ValueError` message of `MultiBinChannel` refers to the undefined variable `channel` (530):
`NameError`. -/
noncomputable def loadChannel (c : DChannel) (v : MVal ℝ) : Except PyErr (List ℝ) := do
  checkName c v
  match c.kind with
  | .single =>
    match item v "type" with
    | .ok (.str "bin") | .error _ => return [← toFloat (← item v "counts")]
    | _ => throw .valueError
  | .range e => do
    let l ← binList v
    if l.length ≠ e.length then throw .valueError
    (e.zip l).mapM (fun p => loadRangeBin p.1 p.2)
  | .multi b => do
    let l ← binList v
    if l.length ≠ b.length then throw .nameError
    (b.zip l).mapM (fun p => loadNamedBin "counts" p.1 p.2)
  | .gauss b => do
    let l ← binList v
    if l.length ≠ b.length then throw .valueError
    (b.zip l).mapM (fun p => loadNamedBin "obs" p.1 p.2)

/-- `next(dict_channel for dict_channel in sdict['data']['channels'] if dict_channel['name'] == name)`
inside its `try` (core.py:1478-1481): any failure is a `ValueError`. -/
def findChannel (name : String) : List (MVal ℝ) → Except PyErr (MVal ℝ)
  | [] => .error .valueError
  | v :: rest =>
    match item v "name" with
    | .ok (.str s) => if s = name then .ok v else findChannel name rest
    | .ok _ => findChannel name rest
    | .error _ => .error .valueError

/-- Body of the loop over the model channels (1476-1483). -/
noncomputable def loadOne (l : List (MVal ℝ)) (c : DChannel) : Except PyErr (List ℝ) := do
  loadChannel c (← findChannel c.name l)

/-- An item of the dict comprehension over `sdict['data']['aux_obs']` (1485). -/
def auxItem (v : MVal ℝ) : Except PyErr (String × ℝ) := do
  let n ← item v "name"
  let x ← item v "value"
  match n, x with
  | .str s, .num x => .ok (s, x)
  | _, _ => .error .unmodelled

/-- The aux. obs. value of an NP (1489-1494). -/
noncomputable def auxValue (aux : Dict ℝ) (par : NP ℝ) : Except PyErr ℝ :=
  match par.aux_obs with
  | none => .ok 0
  | some a =>
    match aux.get? a with
    | none => .error .valueError
    | some x => .ok (par.scaledValue x)

/-- The auxiliary observables of the `data` section (1484-1487); later entries with the same name
replace earlier ones. -/
def auxDict (d : Dict (MVal ℝ)) : Except PyErr (Dict ℝ) := do
  match d.get? "aux_obs" with
  | none => return []
  | some (.list l) => return Dict.setAll [] (← l.mapM auxItem)
  | some _ => throw .unmodelled

/-- The numeric content of a dataset. -/
@[ext] structure DS where
  counts : List ℝ
  aux_obs : List ℝ

/-- `Data.load_dict` (core.py:1463-1496); the argument is the whole markup dictionary. -/
noncomputable def loadDict (m : DModel) (sdict : Dict (MVal ℝ)) : Except PyErr DS := do
  match ← sdict.getItem "data" with
  | .dict d =>
    match ← Dict.getItem d "channels" with
    | .list l => do
      let parts ← m.channels.mapM (loadOne l)
      let aux ← auxDict d
      let vals ← m.nps.mapM (auxValue aux)
      return ⟨parts.flatten, ← setAuxObs m vals⟩
    | _ => throw .unmodelled
  | _ => throw .typeError

/-- `channel_n_exp(nexp=self.counts, channel=channel_name)` (core.py:715-722) and
`channel.save_dataset_dict` (1507-1509). -/
noncomputable def saveOne (m : DModel) (counts : List ℝ) (c : DChannel) : Except PyErr (MVal ℝ) := do
  let o ← (m.offsets).getItem c.name
  saveChannel c ((counts.drop o).take c.nbins)

/-- The `aux_obs` entries (1511-1515). -/
noncomputable def auxEntry (p : NP ℝ × ℝ) : Option (MVal ℝ) :=
  match p.1.aux_obs with
  | none => none
  | some a => some (.dict [("name", .str a), ("value", .num (p.1.unscaledValue p.2))])

/-- `Data.fill_dict` (core.py:1498-1515). -/
noncomputable def fillDict (m : DModel) (s : DS) : Except PyErr (Dict (MVal ℝ)) := do
  let chans ← m.channels.mapM (saveOne m s.counts)
  return [("data", .dict [("channels", .list chans),
    ("aux_obs", .list ((m.nps.zip s.aux_obs).filterMap auxEntry))])]

end DData
end Verif
