import Verif.Model.Base
import Verif.Lemmas.Base
import Mathlib.Tactic.FieldSimp
import Mathlib.Tactic.Ring
import Mathlib.Data.Rat.Defs
import Mathlib.Algebra.Field.Rat
import Mathlib.Tactic.NormNum
/-!
# C01, C02: NP scaling and markup round trips
-/
namespace Verif.Props
open Verif
variable {K : Type} [Field K]

/-! ## C01 -/

/-- C01: pull → physical → pull. -/
theorem c01_scaled_unscaled (p : NP K) (hv : p.variation ≠ 0) (s : K) :
    p.scaledValue (p.unscaledValue s) = s := by
  unfold NP.scaledValue NP.unscaledValue; field_simp; ring

/-- C01: physical → pull → physical. -/
theorem c01_unscaled_scaled (p : NP K) (hv : p.variation ≠ 0) (u : K) :
    p.unscaledValue (p.scaledValue u) = u := by
  unfold NP.scaledValue NP.unscaledValue; field_simp; ring

/-- C01: nominal is pull 0, one variation up is pull 1. -/
theorem c01_nominal_and_one_sigma (p : NP K) (hv : p.variation ≠ 0) :
    p.scaledValue p.nominal_value = 0 ∧
    p.scaledValue (p.nominal_value + p.variation) = 1 := by
  unfold NP.scaledValue; constructor
  · simp
  · field_simp; ring

/-- C01: the pull-space constraint is the width `c` measured in pulls: a physical displacement
by `c` is a pull displacement by the scaled constraint; a free NP has none. -/
theorem c01_scaled_constraint (p : NP K) (hv : p.variation ≠ 0) :
    (∀ c, p.constraint = some c → ∃ k, p.scaledConstraint = .ok k ∧
      ∀ u, p.scaledValue (u + c) = p.scaledValue u + k) ∧
    (p.isFree = true → p.scaledConstraint = .error .typeError) := by
  constructor
  · intro c hc
    refine ⟨c / p.variation, by simp [NP.scaledConstraint, hc], fun u => ?_⟩
    unfold NP.scaledValue; field_simp; ring
  · intro h
    have : p.constraint = none := by simpa [NP.isFree] using h
    simp [NP.scaledConstraint, this]

/-- The hypotheses are met by an ordinary NP, with non-trivial scaling. -/
example : ∃ p : NP ℚ, p.variation ≠ 0 ∧ p.scaledValue 13 = 3/2 :=
  ⟨{ name := "np", nominal_value := 10, variation := 2, constraint := some 4 }, by norm_num,
    by norm_num [NP.scaledValue]⟩

/-! ## C02 -/

/-- C02 (aux. obs.): every auxiliary observable survives saving (to a fresh dictionary) and
loading into any object. -/
theorem c02_aux_roundtrip (self p : ModelAux K) : self.loadDict (p.fillDict []) = .ok p := by
  have h1 : loadStr "name" (p.fillDict []) self.name = .ok p.name :=
    loadStr_eq _ _ _ _ (Or.inl (by simp [ModelAux.fillDict, Dict.get?_set, Dict.get?_setOpt]))
  have h2 : loadStr "description" (p.fillDict []) none = .ok p.description :=
    loadStr_eq _ _ _ _ (by cases h : p.description <;> simp [ModelAux.fillDict, Dict.get?_set, Dict.get?_setOpt, h, MVal.ofStr])
  have h3 : loadStr "unit" (p.fillDict []) none = .ok p.unit :=
    loadStr_eq _ _ _ _ (by cases h : p.unit <;> simp [ModelAux.fillDict, Dict.get?_set, Dict.get?_setOpt, h, MVal.ofStr])
  have h4 : loadNum "min_value" (p.fillDict []) none = .ok p.min_value :=
    loadNum_eq _ _ _ _ (by simp [ModelAux.fillDict, Dict.get?_set, Dict.get?_setOpt])
  have h5 : loadNum "max_value" (p.fillDict []) none = .ok p.max_value :=
    loadNum_eq _ _ _ _ (by simp [ModelAux.fillDict, Dict.get?_set, Dict.get?_setOpt])
  simp only [ModelAux.loadDict, h1, h2, h3, h4, h5, bind, Except.bind, pure, Except.pure]

/-- C02 (POI): saving and loading a POI keeps every attribute, except that an unset (`None`)
bound or initial value comes back as `0`. -/
theorem c02_poi_save_load (self p : ModelPOI K) :
    self.loadDict (p.fillDict []) = .ok { p with
      min_value := some (p.min_value.getD 0)
      max_value := some (p.max_value.getD 0)
      initial_value := some (p.initial_value.getD 0) } := by
  have h1 : loadStr "name" (p.fillDict []) self.name = .ok p.name :=
    loadStr_eq _ _ _ _ (Or.inl (by simp [ModelPOI.fillDict, Dict.get?_set, Dict.get?_setOpt]))
  have h2 : loadStr "description" (p.fillDict []) none = .ok p.description :=
    loadStr_eq _ _ _ _ (by cases h : p.description <;> simp [ModelPOI.fillDict, Dict.get?_set, Dict.get?_setOpt, h, MVal.ofStr])
  have h3 : loadStr "unit" (p.fillDict []) none = .ok p.unit :=
    loadStr_eq _ _ _ _ (by cases h : p.unit <;> simp [ModelPOI.fillDict, Dict.get?_set, Dict.get?_setOpt, h, MVal.ofStr])
  have h4 : loadNum "min_value" (p.fillDict []) (some 0) = .ok (some (p.min_value.getD 0)) :=
    loadNum_eq _ _ _ _ (by cases h : p.min_value <;> simp [ModelPOI.fillDict, Dict.get?_set, Dict.get?_setOpt, h, MVal.ofNum])
  have h5 : loadNum "max_value" (p.fillDict []) (some 0) = .ok (some (p.max_value.getD 0)) :=
    loadNum_eq _ _ _ _ (by cases h : p.max_value <;> simp [ModelPOI.fillDict, Dict.get?_set, Dict.get?_setOpt, h, MVal.ofNum])
  have h6 : loadNum "initial_value" (p.fillDict []) (some 0) = .ok (some (p.initial_value.getD 0)) :=
    loadNum_eq _ _ _ _ (by cases h : p.initial_value <;> simp [ModelPOI.fillDict, Dict.get?_set, Dict.get?_setOpt, h, MVal.ofNum])
  simp only [ModelPOI.loadDict, h1, h2, h3, h4, h5, h6, bind, Except.bind, pure, Except.pure]

/-- C02 (POI): the round trip is exact precisely for POIs whose three numbers are set. -/
theorem c02_poi_roundtrip_iff (self p : ModelPOI K) :
    self.loadDict (p.fillDict []) = .ok p ↔
      p.min_value ≠ none ∧ p.max_value ≠ none ∧ p.initial_value ≠ none := by
  rw [c02_poi_save_load, Except.ok.injEq, ModelPOI.ext_iff]
  cases h1 : p.min_value <;> cases h2 : p.max_value <;> cases h3 : p.initial_value <;> simp

/-- Finding F01: the property as a user would state it is false for the default-constructed
POI `ModelPOI('mu')`, whose `None` bounds come back as `0`. -/
theorem c02_poi_roundtrip_fails :
    ¬ ∀ (self p : ModelPOI ℚ), self.loadDict (p.fillDict []) = .ok p := by
  intro h
  have := (c02_poi_roundtrip_iff {} { name := some "mu" }).1 (h _ _)
  simp at this

/-- C02 (NP): exact round trip precisely for NPs that have a variation and whose aux. obs. is
set only if they are constrained. -/
theorem c02_np_roundtrip_iff (self p : ModelNP K) :
    self.loadDict (p.fillDict []) = .ok p ↔
      p.variation ≠ none ∧ (p.constraint = none → p.aux_obs = none) := by
  have h1 : loadStr "name" (p.fillDict []) self.name = .ok p.name :=
    loadStr_eq _ _ _ _ (Or.inl (by simp [ModelNP.fillDict, Dict.get?_set, Dict.get?_setOpt]))
  have h2 : loadStr "description" (p.fillDict []) none = .ok p.description :=
    loadStr_eq _ _ _ _ (by cases h : p.description <;> simp [ModelNP.fillDict, Dict.get?_set, Dict.get?_setOpt, h, MVal.ofStr])
  have h3 : loadStr "unit" (p.fillDict []) none = .ok p.unit :=
    loadStr_eq _ _ _ _ (by cases h : p.unit <;> simp [ModelNP.fillDict, Dict.get?_set, Dict.get?_setOpt, h, MVal.ofStr])
  have h4 : loadNum "nominal_value" (p.fillDict []) (some 0) = .ok p.nominal_value :=
    loadNum_eq _ _ _ _ (by simp [ModelNP.fillDict, Dict.get?_set, Dict.get?_setOpt])
  have h5 : loadNum "variation" (p.fillDict []) none = .ok p.variation :=
    loadNum_eq _ _ _ _ (by simp [ModelNP.fillDict, Dict.get?_set, Dict.get?_setOpt])
  have h6 : loadField "constraint" (p.fillDict []) .none [] = .ok (.ofNum p.constraint) := by
    cases h : p.constraint <;>
      simp [ModelNP.fillDict, Dict.get?_set, Dict.get?_setOpt, h, MVal.ofNum, loadField]
  have h7 : (MVal.ofNum p.constraint).toNum? = .ok p.constraint := by
    cases h : p.constraint <;> simp [MVal.ofNum, MVal.toNum?]
  have h8 : loadStr "aux_obs" (p.fillDict []) none = .ok p.aux_obs :=
    loadStr_eq _ _ _ _ (by cases h : p.aux_obs <;> simp [ModelNP.fillDict, Dict.get?_set, Dict.get?_setOpt, h, MVal.ofStr])
  simp only [ModelNP.loadDict, h1, h2, h3, h4, h5, h6, h7, bind, Except.bind, pure, Except.pure]
  cases h9 : p.constraint with
  | some c =>
    simp only [h8, Except.ok.injEq, ModelNP.ext_iff, h9]
    cases h10 : p.variation <;> simp
  | none =>
    simp only [Except.ok.injEq, ModelNP.ext_iff, h9]
    cases h10 : p.variation <;> cases h11 : p.aux_obs <;> simp

/-- C02 (NP): anything that can be loaded is stable: re-saving and re-loading it is exact. -/
theorem c02_np_loaded_roundtrip (self self' p : ModelNP K) (d : Dict (MVal K))
    (h : self.loadDict d = .ok p) : self'.loadDict (p.fillDict []) = .ok p := by
  rw [c02_np_roundtrip_iff]
  simp only [ModelNP.loadDict, bind, Except.bind, pure, Except.pure] at h
  repeat' split at h
  all_goals cases h
  all_goals simp

/-- A wrongly-typed field raises `TypeError` (the docstring of `load_field` promises the
default value instead). -/
theorem c02_wrong_type_raises (key : String) (d : Dict (MVal K)) (df v : MVal K)
    (types : List Ty) (hv : d.get? key = some v) (hn : v ≠ .none) (ht : types ≠ [])
    (hb : ∀ t ∈ types, v.isInstance t = false) :
    loadField key d df types = .error .typeError := by
  have : types.any v.isInstance = false := by simpa using hb
  cases v <;> simp_all [loadField]

/-- Concrete objects meeting the conditions: a constrained NP and a fully specified POI. -/
example : ∃ p : ModelNP ℚ, p.constraint = some 2 ∧ p.variation ≠ none ∧
    (p.constraint = none → p.aux_obs = none) :=
  ⟨{ name := some "np", nominal_value := some 3, variation := some 2, constraint := some 2,
     aux_obs := some "aux" }, by simp⟩
example : ∃ p : ModelPOI ℚ, p.min_value ≠ none ∧ p.max_value ≠ none ∧ p.initial_value ≠ none :=
  ⟨{ name := some "mu", min_value := some (-10), max_value := some 10, initial_value := some 1 },
    by simp⟩
/-- A dictionary that loads (hypothesis of `c02_np_loaded_roundtrip`). -/
example : ∃ (d : Dict (MVal ℚ)) (p : ModelNP ℚ),
    (ModelNP.mk (some "") (some 0) (some 1) none none none none).loadDict d = .ok p ∧
    p.variation = some 2 :=
  ⟨[("name", .str "np"), ("constraint", .num 2), ("aux_obs", .str "a")],
   ⟨some "np", some 0, some 2, some 2, some "a", none, none⟩, by
    simp [ModelNP.loadDict, loadStr, loadNum, loadField, Dict.get?, MVal.toStr?, MVal.toNum?,
      MVal.ofStr, MVal.ofNum, MVal.isInstance, bind, Except.bind, pure, Except.pure]⟩
end Verif.Props
