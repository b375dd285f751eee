import Verif.Model.Params
import Verif.Lemmas.Params
import Mathlib.Data.Rat.Defs
import Mathlib.Algebra.Field.Rat
import Mathlib.Tactic.NormNum
/-!
# C03, C04: parameter points behave like maps
-/
namespace Verif.Props
open Verif
variable {K : Type} [Field K]

/-- A parameter point has the model's shape (what `Parameters.__init__` checks). -/
def Shaped (m : ParModel K) (p : Pars K) : Prop :=
  p.pois.length = m.pois.length ∧ p.nps.length = m.nps.length

/-- `name` is a parameter of the model. -/
def Known (m : ParModel K) (name : String) : Prop := name ∈ m.pois ∨ ∃ q ∈ m.nps, q.name = name

/-- One user assignment `pars.set(name, val, unscaled)`. -/
structure Assign (K : Type) where
  name : String
  val : K
  unscaled : Bool

/-- The history of assignments run on the model of the code. -/
def runAssigns (m : ParModel K) : List (Assign K) → Pars K → Except PyErr (Pars K)
  | [], p => .ok p
  | a :: as, p => do runAssigns m as (← p.set m a.name a.val a.unscaled)

/-- Specification: the value an assignment stores, i.e. the given one, except for an unscaled
assignment to an NP (that is not a POI), which stores its pull. -/
def stored (m : ParModel K) (a : Assign K) : K :=
  if a.unscaled ∧ a.name ∉ m.pois then
    match m.nps.find? (·.name = a.name) with
    | some q => (a.val - q.nominal_value) / q.variation
    | none => a.val
  else a.val

/-- Specification: the last assignment to `name` in the history, if any. -/
def lastAssign (h : List (Assign K)) (name : String) : Option (Assign K) :=
  (h.filter (·.name = name)).getLast?

/-- C03, one step: assignment to a known name succeeds, keeps the shape, sets that name and
leaves every other name alone. -/
theorem c03_set (m : ParModel K) (p : Pars K) (a : Assign K)
    (hp : Shaped m p) (ha : Known m a.name) :
    ∃ q, p.set m a.name a.val a.unscaled = .ok q ∧ Shaped m q ∧
      q.get m a.name = .ok (stored m a) ∧
      ∀ n, n ≠ a.name → q.get m n = p.get m n :=
  Pars.set_spec m p a.name a.val a.unscaled hp.1 hp.2 ha

/-- C03, any history: after any finite sequence of assignments to known names, every known name
reads as the last value assigned to it, or as its initial value if it was never assigned; the
shape never changes. -/
theorem c03_history (m : ParModel K) (h : List (Assign K)) (p : Pars K)
    (hp : Shaped m p) (hk : ∀ a ∈ h, Known m a.name) :
    ∃ q, runAssigns m h p = .ok q ∧ Shaped m q ∧
      ∀ n, q.get m n = match lastAssign h n with
        | some a => .ok (stored m a)
        | none => p.get m n := by
  induction h generalizing p with
  | nil => exact ⟨p, rfl, hp, fun n => by simp [lastAssign]⟩
  | cons a h ih =>
    obtain ⟨p1, e1, s1, g1, o1⟩ := c03_set m p a hp (hk a (by simp))
    obtain ⟨q, e2, s2, g2⟩ := ih p1 s1 (fun b hb => hk b (by simp [hb]))
    refine ⟨q, by simp [runAssigns, e1, e2, bind, Except.bind], s2, fun n => ?_⟩
    rw [g2 n]
    by_cases hn : a.name = n
    · subst hn
      cases hl : lastAssign h a.name with
      | none =>
        have : h.filter (·.name = a.name) = [] := by simpa [lastAssign] using hl
        simp [lastAssign, this, g1]
      | some b =>
        have : (h.filter (·.name = a.name)).getLast? = some b := hl
        simp [lastAssign, List.getLast?_cons, this]
    · have : lastAssign (a :: h) n = lastAssign h n := by simp [lastAssign, hn]
      rw [this, o1 n (fun e => hn e.symm)]

/-- C03: every known name can be read, and reading or writing an unknown name raises `KeyError`
(the point is not modified: no new point is returned). -/
theorem c03_known_or_keyError (m : ParModel K) (p : Pars K) (hp : Shaped m p) (n : String) :
    (Known m n → ∃ v, p.get m n = .ok v) ∧
    (¬ Known m n → p.get m n = .error .keyError ∧
      ∀ v u, p.set m n v u = .error .keyError) :=
  ⟨Pars.get_known m p n hp.1 hp.2, fun h => Pars.unknown_error m p n h⟩

/-- C03: reading an NP's unscaled value after an unscaled assignment returns what was assigned. -/
theorem c03_unscaled_roundtrip (m : ParModel K) (p : Pars K) (np : NP K) (v : K)
    (hp : Shaped m p) (hn : np ∈ m.nps) (hd : m.npNames.Nodup) (hpoi : np.name ∉ m.pois)
    (hv : np.variation ≠ 0) :
    ∃ q, p.set m np.name v true = .ok q ∧ q.unscaled m np.name = .ok v := by
  obtain ⟨q, e, _, g, _⟩ := c03_set m p ⟨np.name, v, true⟩ hp (Or.inr ⟨np, hn, rfl⟩)
  refine ⟨q, e, ?_⟩
  have hf : m.np? np.name = some np := ParModel.np?_eq m np hn hd
  have hf' : m.nps.find? (fun x => decide (x.name = np.name)) = some np := hf
  have hs : stored m ⟨np.name, v, true⟩ = np.scaledValue v := by
    simp [stored, hpoi, hf', NP.scaledValue]
  simp only [hs] at g
  simp only [Pars.unscaled, hf, g, bind, Except.bind, pure, Except.pure]
  rw [NP.unscaledValue, NP.scaledValue, div_mul_cancel₀ _ hv]; simp

/-! Non-vacuity: a model with one POI and two NPs, a real history. -/
def exModel : ParModel ℚ :=
  ⟨["mu"], [{ name := "np1", nominal_value := 5, variation := 2 },
            { name := "np2", nominal_value := 0, variation := 3, constraint := some 3 }]⟩

example : Shaped exModel ⟨[1], [0, 0]⟩ ∧ Known exModel "mu" ∧ Known exModel "np2" ∧
    ¬ Known exModel "xyz" ∧
    (runAssigns exModel [⟨"np1", 9, true⟩, ⟨"mu", 3, false⟩, ⟨"np1", 7, true⟩] ⟨[1], [0, 0]⟩).toOption
      = some ⟨[3], [1, 0]⟩ := by
  refine ⟨⟨rfl, rfl⟩, ?_, ?_, ?_, ?_⟩
  · simp [Known, exModel]
  · simp [Known, exModel]
  · simp [Known, exModel]
  · simp [runAssigns, Pars.set, exModel, ParModel.np?, ParModel.npNames, List.find?, NP.scaledValue,
      bind, Except.bind, Except.toOption, List.idxOf, List.findIdx, List.findIdx.go]
    norm_num

/-! ## C04 -/

/-- Well-formed model: names are distinct within and between POIs and NPs
(what `Model.load_dict`, core.py:1202-1271, enforces within each group). -/
def NamesDistinct (m : ParModel K) : Prop := (m.pois ++ m.nps.map (·.name)).Nodup

/-- C04: a point exported with either convention and re-imported with the same convention into
any point of the same model is reproduced exactly. -/
theorem c04_dict_roundtrip (m : ParModel K) (p q : Pars K) (unscaled : Bool)
    (hp : Shaped m p) (hq : Shaped m q) (hd : NamesDistinct m)
    (hv : unscaled = true → ∀ np ∈ m.nps, np.variation ≠ 0) :
    q.setFromDict m (p.dict m false unscaled) unscaled = .ok p :=
  Pars.dict_roundtrip m p q unscaled hp.1 hp.2 hq.1 hq.2 hd hv

/-- C04: the dictionary has an entry for exactly the known names, and its entry for a POI or
(scaled) NP is what reading that parameter gives. -/
theorem c04_dict_entries (m : ParModel K) (p : Pars K) (hp : Shaped m p) (hd : NamesDistinct m)
    (n : String) :
    (Known m n → ∃ v, (p.dict m false false).get? n = some v ∧ p.get m n = .ok v) ∧
    (¬ Known m n → (p.dict m false false).get? n = none) :=
  Pars.dict_entries m p hp.1 hp.2 hd n

/-- C04: a dictionary lacking one of the model's parameters raises `KeyError`. -/
theorem c04_missing_key (m : ParModel K) (p : Pars K) (hp : Shaped m p) (dic : Dict K) (u : Bool)
    (n : String) (hn : Known m n) (hm : dic.get? n = none) :
    p.setFromDict m dic u = .error .keyError :=
  Pars.setFromDict_missing m p dic u hp.1 hp.2 n hn hm

/-- Finding F02: with the *default* arguments of the two methods (`dict` exports unscaled NPs,
`set_from_dict` reads them as scaled) the round trip is not the identity. -/
theorem c04_default_roundtrip_fails :
    ∃ (m : ParModel ℚ) (p : Pars ℚ), Shaped m p ∧ NamesDistinct m ∧
      (∀ np ∈ m.nps, np.variation ≠ 0) ∧
      p.setFromDict m (p.dict m) ≠ .ok p := by
  refine ⟨⟨["mu"], [{ name := "np", nominal_value := 5, variation := 2 }]⟩, ⟨[1], [0]⟩,
    ⟨rfl, rfl⟩, by simp [NamesDistinct], by simp, ?_⟩
  simp [Pars.setFromDict, Pars.setFrom, Pars.dict, Pars.set, Dict.setAll, Dict.set, Dict.getItem,
    Dict.get?, Pars.unscaledNps, NP.unscaledValue, ParModel.npNames, ParModel.np?, bind, Except.bind]

/-- C04: constructing a point from a POI dictionary uses exactly the named values, whatever the
order and whatever additional entries are present; a missing POI raises `ValueError`; NPs
default to pull 0. -/
theorem c04_init_from_dict (m : ParModel K) (d : Dict K) :
    (∀ n ∈ m.pois, d.get? n ≠ none) →
      ∃ p, Pars.init m (.dict d) none = .ok p ∧ Shaped m p ∧
        (∀ i (hi : i < m.pois.length), p.pois[i]? = d.get? m.pois[i]) ∧
        p.nps = List.replicate m.nps.length 0 :=
  Pars.init_dict m d

theorem c04_init_missing_poi (m : ParModel K) (d : Dict K) (nps : Option (List K))
    (n : String) (hn : n ∈ m.pois) (hd : d.get? n = none) :
    Pars.init m (.dict d) nps = .error .valueError :=
  Pars.init_dict_missing m d nps n hn hd

/-- C04: construction never yields a point of the wrong shape. -/
theorem c04_init_shaped (m : ParModel K) (a : PoiArg K) (nps : Option (List K)) (p : Pars K)
    (h : Pars.init m a nps = .ok p) : Shaped m p :=
  Pars.init_shaped m a nps p h

example : NamesDistinct exModel ∧ (∀ np ∈ exModel.nps, np.variation ≠ 0) ∧
    Shaped exModel ⟨[1], [2, 3]⟩ ∧ Shaped exModel ⟨[7], [0, 0]⟩ := by
  refine ⟨by simp [NamesDistinct, exModel], ?_, ⟨rfl, rfl⟩, ⟨rfl, rfl⟩⟩
  simp [exModel]

/-- A dictionary naming every POI of the example model, with an extra entry. -/
example : ∀ n ∈ exModel.pois, Dict.get? ([("x", 1), ("mu", 2)] : Dict ℚ) n ≠ none := by
  simp [exModel, Dict.get?]

end Verif.Props
