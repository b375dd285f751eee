import Verif.Model.Params
import Verif.Lemmas.Dict
import Mathlib.Tactic.FieldSimp
import Mathlib.Tactic.Ring
import Mathlib.Data.List.Nodup
/-! Helper lemmas about `Parameters`. -/
namespace Verif
variable {K : Type} [Field K]

theorem ParModel.np?_isSome_iff (m : ParModel K) (n : String) :
    (∃ q, m.np? n = some q) ↔ ∃ q ∈ m.nps, q.name = n := by
  constructor
  · rintro ⟨q, hq⟩
    exact ⟨q, List.mem_of_find?_eq_some hq, by simpa using List.find?_some hq⟩
  · rintro ⟨q, hq, hn⟩
    have : (m.nps.find? (·.name = n)).isSome := by
      rw [List.find?_isSome]; exact ⟨q, hq, by simpa using hn⟩
    exact Option.isSome_iff_exists.1 this

theorem ParModel.mem_npNames (m : ParModel K) (n : String) :
    n ∈ m.npNames ↔ ∃ q ∈ m.nps, q.name = n := by
  simp [ParModel.npNames]

theorem ParModel.length_npNames (m : ParModel K) : m.npNames.length = m.nps.length := by
  simp [ParModel.npNames]

theorem ParModel.np?_eq (m : ParModel K) (np : NP K) (hn : np ∈ m.nps) (hd : m.npNames.Nodup) :
    m.np? np.name = some np := by
  unfold ParModel.np? ParModel.npNames at *
  revert hn hd
  induction m.nps with
  | nil => simp
  | cons a l ih =>
    intro hn hd
    rw [List.map_cons, List.nodup_cons] at hd
    rcases List.mem_cons.1 hn with rfl | hn
    · simp [List.find?]
    · have : a.name ≠ np.name := fun e => hd.1 (e ▸ List.mem_map.2 ⟨np, hn, rfl⟩)
      simp only [List.find?, this, decide_false]
      exact ih hn hd.2

theorem Pars.get_known (m : ParModel K) (p : Pars K) (n : String)
    (h1 : p.pois.length = m.pois.length) (h2 : p.nps.length = m.nps.length)
    (h : n ∈ m.pois ∨ ∃ q ∈ m.nps, q.name = n) : ∃ v, p.get m n = .ok v := by
  unfold Pars.get
  by_cases hp : n ∈ m.pois
  · have : m.pois.idxOf n < p.pois.length := by rw [h1]; exact List.idxOf_lt_length_of_mem hp
    simp [hp, List.getElem?_eq_getElem this]
  · have hn : n ∈ m.npNames := by rw [m.mem_npNames]; exact h.resolve_left hp
    have : m.npNames.idxOf n < p.nps.length := by
      rw [h2, ← m.length_npNames]; exact List.idxOf_lt_length_of_mem hn
    simp [hp, hn, List.getElem?_eq_getElem this]

theorem Pars.unknown_error (m : ParModel K) (p : Pars K) (n : String)
    (h : ¬ (n ∈ m.pois ∨ ∃ q ∈ m.nps, q.name = n)) :
    p.get m n = .error .keyError ∧ ∀ v u, p.set m n v u = .error .keyError := by
  have h1 : n ∉ m.pois := fun e => h (Or.inl e)
  have h2 : n ∉ m.npNames := fun e => h (Or.inr ((m.mem_npNames n).1 e))
  have h3 : m.np? n = none := by
    cases hq : m.np? n with
    | none => rfl
    | some q => exact absurd (Or.inr ((m.np?_isSome_iff n).1 ⟨q, hq⟩)) h
  exact ⟨by simp [Pars.get, h1, h2], fun v u => by simp [Pars.set, h1, h3]⟩

theorem Pars.set_spec (m : ParModel K) (p : Pars K) (n : String) (v : K) (u : Bool)
    (h1 : p.pois.length = m.pois.length) (h2 : p.nps.length = m.nps.length)
    (h : n ∈ m.pois ∨ ∃ q ∈ m.nps, q.name = n) :
    ∃ q, p.set m n v u = .ok q ∧
      (q.pois.length = m.pois.length ∧ q.nps.length = m.nps.length) ∧
      q.get m n = .ok (if u ∧ n ∉ m.pois then
        match m.nps.find? (·.name = n) with
        | some q => (v - q.nominal_value) / q.variation
        | none => v
        else v) ∧
      ∀ k, k ≠ n → q.get m k = p.get m k := by
  by_cases hp : n ∈ m.pois
  · have hlt : m.pois.idxOf n < p.pois.length := by rw [h1]; exact List.idxOf_lt_length_of_mem hp
    refine ⟨{ p with pois := p.pois.set (m.pois.idxOf n) v }, by simp [Pars.set, hp, hlt],
      ⟨by simp [h1], h2⟩, ?_, fun k hk => ?_⟩
    · simp [Pars.get, hp, hlt]
    · unfold Pars.get
      by_cases hkp : k ∈ m.pois
      · have : m.pois.idxOf n ≠ m.pois.idxOf k := fun e => hk ((List.idxOf_inj hp).1 e).symm
        simp [hkp, List.getElem?_set_ne this]
      · simp [hkp]
  · have hn := h.resolve_left hp
    obtain ⟨np, hnp⟩ := (m.np?_isSome_iff n).2 hn
    have hmem : n ∈ m.npNames := (m.mem_npNames n).2 hn
    have hlt : m.npNames.idxOf n < p.nps.length := by
      rw [h2, ← m.length_npNames]; exact List.idxOf_lt_length_of_mem hmem
    have hnp' : m.nps.find? (fun x => decide (x.name = n)) = some np := hnp
    refine ⟨⟨p.pois, p.nps.set (m.npNames.idxOf n) (if u then np.scaledValue v else v)⟩, by simp [Pars.set, hp, hnp, hlt],
      ⟨h1, by simp [h2]⟩, ?_, fun k hk => ?_⟩
    · cases u <;> simp [Pars.get, hp, hmem, hlt, hnp', NP.scaledValue]
    · unfold Pars.get
      by_cases hkp : k ∈ m.pois
      · simp [hkp]
      · by_cases hkn : k ∈ m.npNames
        · have : m.npNames.idxOf n ≠ m.npNames.idxOf k := fun e => hk ((List.idxOf_inj hmem).1 e).symm
          simp [hkp, hkn, List.getElem?_set_ne this]
        · simp [hkp, hkn]

/-! ### dictionaries -/

theorem Dict.get?_setAll {V : Type} (l : List (String × V)) (d : Dict V) (k : String) 
    (hn : (l.map Prod.fst).Nodup) :
    (Dict.setAll d l).get? k = (Dict.get? l k).or (d.get? k) := by
  induction l generalizing d with
  | nil => simp [Dict.setAll]
  | cons a l ih =>
    obtain ⟨k', v⟩ := a
    rw [List.map_cons, List.nodup_cons] at hn
    have : Dict.setAll d ((k', v) :: l) = Dict.setAll (d.set k' v) l := rfl
    rw [this, ih _ hn.2, Dict.get?_set, Dict.get?_cons]
    by_cases h : k' = k
    · subst h
      have : Dict.get? l k' = none := (Dict.get?_eq_none_iff l k').2 hn.1
      simp [this]
    · simp [h]

theorem Dict.get?_zip {V : Type} (ks : List String) (vs : List V) (h : ks.length = vs.length)
    (k : String) :
    Dict.get? (ks.zip vs) k = if k ∈ ks then vs[ks.idxOf k]? else none := by
  induction ks generalizing vs with
  | nil => simp
  | cons a ks ih =>
    cases vs with
    | nil => simp at h
    | cons v vs =>
      simp only [List.zip_cons_cons, Dict.get?_cons]
      by_cases hk : a = k
      · subst hk; simp
      · have hk' : ¬ k = a := fun e => hk e.symm
        rw [ih vs (by simpa using h)]
        simp [hk, hk', List.idxOf_cons_ne _ hk]

theorem map_fst_zip' {V : Type} (ks : List String) (vs : List V) (h : ks.length = vs.length) :
    (ks.zip vs).map Prod.fst = ks := List.map_fst_zip (by omega)

theorem Pars.dict_get? (m : ParModel K) (p : Pars K) (u : Bool)
    (h1 : p.pois.length = m.pois.length) (h2 : p.nps.length = m.nps.length)
    (hd : (m.pois ++ m.npNames).Nodup) (k : String) :
    (p.dict m false u).get? k =
      if k ∈ m.pois then p.pois[m.pois.idxOf k]?
      else if k ∈ m.npNames then
        (if u then p.unscaledNps m else p.nps)[m.npNames.idxOf k]?
      else none := by
  have hl : m.npNames.length = (if u then p.unscaledNps m else p.nps).length := by
    cases u <;> simp [Pars.unscaledNps, m.length_npNames, h2]
  have hd' := List.nodup_append.1 hd
  have hdisj : k ∈ m.pois → k ∉ m.npNames := fun a b => hd'.2.2 k a k b rfl
  simp only [Pars.dict, Bool.false_eq_true, if_false]
  rw [Dict.get?_setAll _ _ _ (by rw [map_fst_zip' _ _ hl]; exact hd'.2.1),
    Dict.get?_setAll _ _ _ (by rw [map_fst_zip' _ _ h1.symm]; exact hd'.1),
    Dict.get?_zip _ _ hl, Dict.get?_zip _ _ h1.symm]
  by_cases hp : k ∈ m.pois
  · simp [hp, hdisj hp]
  · by_cases hn : k ∈ m.npNames <;> simp [hp, hn]

theorem Pars.dict_entries (m : ParModel K) (p : Pars K) 
    (h1 : p.pois.length = m.pois.length) (h2 : p.nps.length = m.nps.length)
    (hd : (m.pois ++ m.nps.map (·.name)).Nodup) (n : String) :
    ((n ∈ m.pois ∨ ∃ q ∈ m.nps, q.name = n) → ∃ v, (p.dict m false false).get? n = some v ∧
      p.get m n = .ok v) ∧
    (¬ (n ∈ m.pois ∨ ∃ q ∈ m.nps, q.name = n) → (p.dict m false false).get? n = none) := by
  rw [Pars.dict_get? m p false h1 h2 hd]
  constructor
  · intro hk
    obtain ⟨v, hv⟩ := Pars.get_known m p n h1 h2 hk
    refine ⟨v, ?_, hv⟩
    unfold Pars.get at hv
    by_cases hp : n ∈ m.pois
    · simp only [hp, if_true] at hv ⊢
      cases hx : p.pois[m.pois.idxOf n]? <;> simp_all
    · have hn : n ∈ m.npNames := (m.mem_npNames n).2 (hk.resolve_left hp)
      simp only [hp, hn, if_true, if_false] at hv ⊢
      cases hx : p.nps[m.npNames.idxOf n]? <;> simp_all
  · intro h
    have a : n ∉ m.pois := fun e => h (Or.inl e)
    have b : n ∉ m.npNames := fun e => h (Or.inr ((m.mem_npNames n).1 e))
    simp [a, b]

theorem Pars.setFrom_spec (m : ParModel K) (dic : Dict K) (u : Bool) (names : List String)
    (hn : names.Nodup) (p : Pars K)
    (h1 : p.pois.length = m.pois.length) (h2 : p.nps.length = m.nps.length)
    (hk : ∀ n ∈ names, n ∈ m.pois ∨ ∃ q ∈ m.nps, q.name = n)
    (val : String → K) (hval : ∀ n ∈ names, dic.get? n = some (val n)) :
    ∃ q, Pars.setFrom m dic u names p = .ok q ∧
      (q.pois.length = m.pois.length ∧ q.nps.length = m.nps.length) ∧
      (∀ n ∈ names, q.get m n = .ok (if u ∧ n ∉ m.pois then
        match m.nps.find? (·.name = n) with
        | some q => (val n - q.nominal_value) / q.variation
        | none => val n
        else val n)) ∧
      ∀ n, n ∉ names → q.get m n = p.get m n := by
  induction names generalizing p with
  | nil => exact ⟨p, rfl, ⟨h1, h2⟩, by simp, by simp⟩
  | cons a names ih =>
    rw [List.nodup_cons] at hn
    obtain ⟨p1, e1, s1, g1, o1⟩ := Pars.set_spec m p a (val a) u h1 h2 (hk a (by simp))
    obtain ⟨q, e2, s2, g2, o2⟩ := ih hn.2 p1 s1.1 s1.2 (fun n h => hk n (by simp [h]))
      (fun n h => hval n (by simp [h]))
    refine ⟨q, ?_, s2, ?_, ?_⟩
    · simp [Pars.setFrom, Dict.getItem, hval a (by simp), e1, e2, bind, Except.bind]
    · intro n hm
      rcases List.mem_cons.1 hm with rfl | hm
      · rw [o2 n hn.1, g1]
      · exact g2 n hm
    · intro n hm
      simp only [List.mem_cons, not_or] at hm
      rw [o2 n hm.2, o1 n hm.1]

theorem Pars.ext_get (m : ParModel K) (p q : Pars K)
    (h1 : p.pois.length = m.pois.length) (h2 : p.nps.length = m.nps.length)
    (h3 : q.pois.length = m.pois.length) (h4 : q.nps.length = m.nps.length)
    (hd : (m.pois ++ m.npNames).Nodup)
    (h : ∀ n, (n ∈ m.pois ∨ n ∈ m.npNames) → p.get m n = q.get m n) : p = q := by
  have hd' := List.nodup_append.1 hd
  ext1
  · apply List.ext_getElem (by omega)
    intro i hi hj
    have hm : m.pois[i]'(by omega) ∈ m.pois := List.getElem_mem _
    have := h _ (Or.inl hm)
    have hx : m.pois.idxOf (m.pois[i]'(by omega)) = i := hd'.1.idxOf_getElem i (by omega)
    simpa [Pars.get, hm, hx, List.getElem?_eq_getElem hi, List.getElem?_eq_getElem hj] using this
  · apply List.ext_getElem (by omega)
    intro i hi hj
    have hi' : i < m.npNames.length := by rw [m.length_npNames]; omega
    have hm : m.npNames[i] ∈ m.npNames := List.getElem_mem _
    have hnp : m.npNames[i] ∉ m.pois := fun e => hd'.2.2 _ e _ hm rfl
    have := h _ (Or.inr hm)
    have hx : m.npNames.idxOf m.npNames[i] = i := hd'.2.1.idxOf_getElem i hi'
    simpa [Pars.get, hnp, hm, hx, List.getElem?_eq_getElem hi, List.getElem?_eq_getElem hj] using this

theorem Pars.dict_roundtrip (m : ParModel K) (p q : Pars K) (u : Bool)
    (h1 : p.pois.length = m.pois.length) (h2 : p.nps.length = m.nps.length)
    (h3 : q.pois.length = m.pois.length) (h4 : q.nps.length = m.nps.length)
    (hd : (m.pois ++ m.nps.map (·.name)).Nodup)
    (hv : u = true → ∀ np ∈ m.nps, np.variation ≠ 0) :
    q.setFromDict m (p.dict m false u) u = .ok p := by
  have hd0 : (m.pois ++ m.npNames).Nodup := hd
  have hd' := List.nodup_append.1 hd0
  have hg := Pars.dict_get? m p u h1 h2 hd0
  -- values in the dictionary
  let val : String → K := fun n => ((p.dict m false u).get? n).getD 0
  have hval : ∀ n, (n ∈ m.pois ∨ n ∈ m.npNames) → (p.dict m false u).get? n = some (val n) := by
    intro n hn
    have : ((p.dict m false u).get? n).isSome := by
      rw [hg]
      by_cases hp : n ∈ m.pois
      · have := List.idxOf_lt_length_of_mem hp
        simp [hp, ← h1] at this ⊢
        omega
      · have hn' := hn.resolve_left hp
        have := List.idxOf_lt_length_of_mem hn'
        rw [m.length_npNames] at this
        cases u <;> simp [hp, hn', Pars.unscaledNps] <;> omega
    obtain ⟨v, hv⟩ := Option.isSome_iff_exists.1 this
    simp [val, hv]
  obtain ⟨q1, e1, s1, g1, o1⟩ := Pars.setFrom_spec m (p.dict m false u) u m.pois hd'.1 q h3 h4
    (fun n h => Or.inl h) val (fun n h => hval n (Or.inl h))
  obtain ⟨q2, e2, s2, g2, o2⟩ := Pars.setFrom_spec m (p.dict m false u) u m.npNames hd'.2.1 q1
    s1.1 s1.2 (fun n h => Or.inr ((m.mem_npNames n).1 h)) val (fun n h => hval n (Or.inr h))
  have : q2 = p := by
    apply Pars.ext_get m q2 p s2.1 s2.2 h1 h2 hd0
    intro n hn
    by_cases hp : n ∈ m.pois
    · have hnn : n ∉ m.npNames := fun e => hd'.2.2 _ hp _ e rfl
      rw [o2 n hnn, g1 n hp]
      have hvn := hval n hn
      rw [hg] at hvn
      simp only [hp, if_true] at hvn
      simp [Pars.get, hp, hvn]
    · have hnn := hn.resolve_left hp
      rw [g2 n hnn]
      have hvn := hval n hn
      rw [hg] at hvn
      simp only [hp, hnn, if_true, if_false] at hvn
      cases u with
      | false => simp only [Bool.false_eq_true, if_false] at hvn; simp [Pars.get, hp, hnn, hvn]
      | true =>
        have hi : m.npNames.idxOf n < m.nps.length := by
          rw [← m.length_npNames]; exact List.idxOf_lt_length_of_mem hnn
        have hname : (m.nps[m.npNames.idxOf n]).name = n := by
          have : m.npNames[m.npNames.idxOf n]'(by rw [m.length_npNames]; exact hi) = n := List.getElem_idxOf _
          have h2 : m.npNames[m.npNames.idxOf n]'(by rw [m.length_npNames]; exact hi) =
              (m.nps[m.npNames.idxOf n]).name := List.getElem_map _
          exact h2.symm.trans this
        have hfind : m.nps.find? (fun x => decide (x.name = n)) = some (m.nps[m.npNames.idxOf n]) := by
          have := ParModel.np?_eq m (m.nps[m.npNames.idxOf n]) (List.getElem_mem _) hd'.2.1
          rw [hname] at this; exact this
        have hi2 : m.npNames.idxOf n < p.nps.length := by omega
        simp only [Pars.unscaledNps, if_true, List.getElem?_zipWith,
          List.getElem?_eq_getElem hi, List.getElem?_eq_getElem hi2, Option.some.injEq] at hvn
        have hvar := hv rfl _ (List.getElem_mem hi)
        simp only [hp, not_false_eq_true, and_self, if_true, hfind, ← hvn]
        simp only [Pars.get, hp, hnn, if_true, if_false, List.getElem?_eq_getElem hi2]
        congr 1
        rw [NP.unscaledValue]; field_simp; ring
  rw [Pars.setFromDict, e1]; simp only [bind, Except.bind]; rw [e2, this]

theorem Pars.setFrom_missing (m : ParModel K) (dic : Dict K) (u : Bool) (names : List String)
    (p : Pars K)
    (h1 : p.pois.length = m.pois.length) (h2 : p.nps.length = m.nps.length)
    (hk : ∀ n ∈ names, n ∈ m.pois ∨ ∃ q ∈ m.nps, q.name = n)
    (n : String) (hn : n ∈ names) (hm : dic.get? n = none) :
    Pars.setFrom m dic u names p = .error .keyError := by
  induction names generalizing p with
  | nil => simp at hn
  | cons a names ih =>
    cases ha : dic.get? a with
    | none => simp [Pars.setFrom, Dict.getItem, ha, bind, Except.bind]
    | some v =>
      obtain ⟨p1, e1, s1, _, _⟩ := Pars.set_spec m p a v u h1 h2 (hk a (by simp))
      have hne : n ≠ a := fun e => by rw [e, ha] at hm; cases hm
      have := ih p1 s1.1 s1.2 (fun n h => hk n (by simp [h]))
        ((List.mem_cons.1 hn).resolve_left hne)
      simp [Pars.setFrom, Dict.getItem, ha, e1, this, bind, Except.bind]

theorem Pars.setFromDict_missing (m : ParModel K) (p : Pars K) (dic : Dict K) (u : Bool)
    (h1 : p.pois.length = m.pois.length) (h2 : p.nps.length = m.nps.length)
    (n : String) (hn : n ∈ m.pois ∨ ∃ q ∈ m.nps, q.name = n) (hm : dic.get? n = none) :
    p.setFromDict m dic u = .error .keyError := by
  have hkn : ∀ k ∈ m.npNames, k ∈ m.pois ∨ ∃ q ∈ m.nps, q.name = k :=
    fun k h => Or.inr ((m.mem_npNames k).1 h)
  by_cases hx : ∃ k ∈ m.pois, dic.get? k = none
  · obtain ⟨k, hk, hkm⟩ := hx
    rw [Pars.setFromDict, Pars.setFrom_missing m dic u m.pois p h1 h2 (fun _ h => Or.inl h) k hk hkm]
    rfl
  · have hx' : ∀ k ∈ m.pois, ∃ v, dic.get? k = some v := by
      intro k hk
      cases hd : dic.get? k with
      | none => exact absurd ⟨k, hk, hd⟩ hx
      | some v => exact ⟨v, rfl⟩
    have hnp : n ∉ m.pois := fun e => by obtain ⟨v, hv⟩ := hx' n e; rw [hv] at hm; cases hm
    have hn' : n ∈ m.npNames := (m.mem_npNames n).2 (hn.resolve_left hnp)
    -- the POI loop succeeds
    have key : ∀ (names : List String) (p : Pars K), p.pois.length = m.pois.length →
        p.nps.length = m.nps.length → (∀ k ∈ names, k ∈ m.pois) →
        ∃ q, Pars.setFrom m dic u names p = .ok q ∧ q.pois.length = m.pois.length ∧
          q.nps.length = m.nps.length := by
      intro names
      induction names with
      | nil => exact fun p a b _ => ⟨p, rfl, a, b⟩
      | cons a names ih =>
        intro p a1 b1 hs
        obtain ⟨v, hv⟩ := hx' a (hs a (by simp))
        obtain ⟨p1, e1, s1, _, _⟩ := Pars.set_spec m p a v u a1 b1 (Or.inl (hs a (by simp)))
        obtain ⟨q, e2, s2⟩ := ih p1 s1.1 s1.2 (fun k h => hs k (by simp [h]))
        exact ⟨q, by simp [Pars.setFrom, Dict.getItem, hv, e1, e2, bind, Except.bind], s2⟩
    obtain ⟨q, e, s⟩ := key m.pois p h1 h2 (fun _ h => h)
    rw [Pars.setFromDict, e]
    exact Pars.setFrom_missing m dic u m.npNames q s.1 s.2 hkn n hn' hm

theorem mapM_option_some {α β : Type} (f : α → Option β) (l : List α)
    (h : ∀ a ∈ l, f a ≠ none) :
    ∃ r, l.mapM f = some r ∧ r.length = l.length ∧ ∀ i (hi : i < l.length), r[i]? = f l[i] := by
  induction l with
  | nil => exact ⟨[], by simp⟩
  | cons a l ih =>
    obtain ⟨r, e, hl, hr⟩ := ih (fun b hb => h b (by simp [hb]))
    cases ha : f a with
    | none => exact absurd ha (h a (by simp))
    | some b =>
      refine ⟨b :: r, by simp [ha, e], by simp [hl], ?_⟩
      intro i hi
      cases i with
      | zero => simp [ha]
      | succ i => simpa using hr i (by simpa using hi)

theorem mapM_option_none {α β : Type} (f : α → Option β) (l : List α)
    (a : α) (ha : a ∈ l) (h : f a = none) : l.mapM f = none := by
  induction l with
  | nil => simp at ha
  | cons b l ih =>
    rcases List.mem_cons.1 ha with rfl | ha
    · simp [h]
    · cases hb : f b <;> simp [hb, ih ha]

theorem Pars.init_dict (m : ParModel K) (d : Dict K) (h : ∀ n ∈ m.pois, d.get? n ≠ none) :
    ∃ p, Pars.init m (.dict d) none = .ok p ∧
      (p.pois.length = m.pois.length ∧ p.nps.length = m.nps.length) ∧
      (∀ i (hi : i < m.pois.length), p.pois[i]? = d.get? m.pois[i]) ∧
      p.nps = List.replicate m.nps.length 0 := by
  obtain ⟨r, e, hl, hr⟩ := mapM_option_some (fun n => d.get? n) m.pois h
  refine ⟨⟨r, List.replicate m.nps.length 0⟩, ?_, ⟨hl, by simp⟩, hr, rfl⟩
  simp [Pars.init, e, hl, bind, Except.bind, pure, Except.pure]

theorem Pars.init_dict_missing (m : ParModel K) (d : Dict K) (nps : Option (List K))
    (n : String) (hn : n ∈ m.pois) (hd : d.get? n = none) :
    Pars.init m (.dict d) nps = .error .valueError := by
  have := mapM_option_none (fun n => d.get? n) m.pois n hn hd
  simp [Pars.init, this, bind, Except.bind]

theorem Pars.init_shaped (m : ParModel K) (a : PoiArg K) (nps : Option (List K)) (p : Pars K)
    (h : Pars.init m a nps = .ok p) :
    p.pois.length = m.pois.length ∧ p.nps.length = m.nps.length := by
  have key : ∀ l : List K, (if l.length ≠ m.pois.length then Except.error PyErr.valueError
      else if (if (nps.getD []).length = 0 then List.replicate m.nps.length 0 else nps.getD []).length ≠ m.nps.length then
        Except.error PyErr.valueError
      else Except.ok (⟨l, if (nps.getD []).length = 0 then List.replicate m.nps.length 0 else nps.getD []⟩ : Pars K)) = .ok p →
      p.pois.length = m.pois.length ∧ p.nps.length = m.nps.length := by
    intro l h
    generalize hr : (if (nps.getD []).length = 0 then List.replicate m.nps.length 0 else nps.getD []) = r at h
    by_cases h1 : l.length = m.pois.length
    · by_cases h2 : r.length = m.nps.length
      · simp only [h1, h2, ne_eq, not_true_eq_false, if_false, Except.ok.injEq] at h
        subst h; exact ⟨h1, h2⟩
      · simp [h1, h2] at h
    · simp [h1] at h
  cases a with
  | dict d =>
    simp only [Pars.init, bind, Except.bind, pure, Except.pure, throw, throwThe,
      MonadExceptOf.throw] at h
    cases hm : m.pois.mapM (fun n => d.get? n) with
    | none => simp [hm] at h
    | some l => simp only [hm] at h; exact key _ h
  | number x => exact key _ h
  | array l => exact key _ h
end Verif
