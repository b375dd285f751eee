import Verif.Model.FitData
import Verif.Lemmas.Hypo
import Verif.Lemmas.Base
import Verif.Lemmas.Params
import Verif.Lemmas.POIMin
/-! Helper lemmas on fit results and rasters. -/
namespace Verif

theorem Dict.setAll_eq_append {V : Type} (l : List (String × V)) (d : Dict V)
    (h : (Dict.keys d ++ l.map Prod.fst).Nodup) : Dict.setAll d l = d ++ l := by
  induction l generalizing d with
  | nil => simp [Dict.setAll]
  | cons kv l ih =>
    obtain ⟨k, v⟩ := kv
    have hk : k ∉ Dict.keys d := by
      intro hk
      have := (List.nodup_append.1 h).2.2 k hk k (by simp)
      exact this rfl
    have hs : Dict.set d k v = d ++ [(k, v)] := by
      clear h ih
      induction d with
      | nil => rfl
      | cons x d ih =>
        obtain ⟨k', v'⟩ := x
        simp only [Dict.keys, List.map_cons, List.mem_cons, not_or] at hk
        have : ¬ k' = k := fun e => hk.1 e.symm
        simp [Dict.set, this, ih hk.2]
    have : Dict.setAll d ((k, v) :: l) = Dict.setAll (Dict.set d k v) l := rfl
    rw [this, ih, hs]
    · simp
    · rw [hs]; simpa [Dict.keys] using h

theorem Dict.setAll_nil_eq {V : Type} (l : List (String × V)) (h : (l.map Prod.fst).Nodup) :
    Dict.setAll [] l = l := by
  rw [Dict.setAll_eq_append]; · simp
  · simpa [Dict.keys] using h

theorem Dict.get?_map {V W : Type} (f : String → V → W) (d : Dict V) (k : String) :
    Dict.get? (d.map (fun kv => (kv.1, f kv.1 kv.2))) k = (Dict.get? d k).map (f k) := by
  induction d with
  | nil => rfl
  | cons kv d ih =>
    obtain ⟨k', v⟩ := kv
    simp only [List.map_cons, Dict.get?]
    by_cases h : k' = k
    · subst h; simp
    · simp [h, ih]

theorem Dict.keys_map {V W : Type} (f : String → V → W) (d : Dict V) :
    Dict.keys (d.map (fun kv => (kv.1, f kv.1 kv.2))) = Dict.keys d := by
  simp [Dict.keys, Function.comp_def]

namespace FitResult

/-- The dictionary and each parameter agree on the names, and no name occurs twice. -/
def WF (d : Dict FitPar) : Prop := (Dict.keys d).Nodup ∧ ∀ kv ∈ d, kv.2.poi.name = some kv.1

/-- The value stored under a name. -/
def val? (d : Dict FitPar) (k : String) : Option (Option ℝ) := (Dict.get? d k).map (·.value)

theorem WF.set {d : Dict FitPar} (h : WF d) (k : String) (fp : FitPar) (hf : fp.poi.name = some k) :
    WF (Dict.set d k fp) := by
  refine ⟨Dict.nodup_keys_set d k fp h.1, ?_⟩
  intro kv hkv
  obtain ⟨k', v⟩ := kv
  have hg := (Dict.get?_eq_some_iff _ (Dict.nodup_keys_set d k fp h.1) k' v).2 hkv
  rw [Dict.get?_set] at hg
  by_cases e : k = k'
  · subst e; simp at hg; subst hg; exact hf
  · simp [e] at hg
    exact h.2 _ ((Dict.get?_eq_some_iff _ h.1 k' v).1 hg)

theorem WF.nil : WF [] := ⟨by simp [Dict.keys], by simp⟩

theorem val?_set (d : Dict FitPar) (k : String) (fp : FitPar) (j : String) :
    val? (Dict.set d k fp) j = if k = j then some fp.value else val? d j := by
  unfold val?; rw [Dict.get?_set]; split <;> simp_all

theorem parDict_get? (d : Dict FitPar) (nll : Option ℝ) (h : WF d) (k : String) :
    Dict.get? (parDict ⟨d, nll⟩) k = val? d k ∧ (Dict.keys (parDict ⟨d, nll⟩)).Nodup := by
  have e : (Dict.values d).map (fun p => (p.name, p.value)) = d.map (fun kv => (kv.1, kv.2.value)) := by
    simp only [Dict.values, List.map_map]
    apply List.map_congr_left
    intro kv hkv
    simp [FitPar.name, h.2 kv hkv]
  have hn : ((d.map (fun kv => (kv.1, kv.2.value))).map Prod.fst).Nodup := by
    have := h.1; simpa [Dict.keys, Function.comp_def] using this
  have : parDict ⟨d, nll⟩ = d.map (fun kv => (kv.1, kv.2.value)) := by
    rw [parDict, e, Dict.setAll_nil_eq _ hn]
  rw [this]
  exact ⟨Dict.get?_map (fun _ (fp : FitPar) => fp.value) d k, hn⟩

theorem numDict_ok (d : Dict (Option ℝ)) (h : ∀ kv ∈ d, kv.2 ≠ none) :
    ∃ e, numDict d = .ok e ∧ ∀ k, (Dict.get? e k).map some = Dict.get? d k := by
  induction d with
  | nil => exact ⟨[], rfl, by simp⟩
  | cons kv d ih =>
    obtain ⟨k', v⟩ := kv
    cases v with
    | none => exact absurd rfl (h (k', none) (by simp))
    | some v =>
      obtain ⟨e, he, hg⟩ := ih (fun kv hkv => h kv (by simp [hkv]))
      refine ⟨(k', v) :: e, by simp [numDict, he], ?_⟩
      intro k
      simp only [Dict.get?]
      split <;> simp [hg]

end FitResult

theorem Pars.init_congr (m : ParModel ℝ) (d e : Dict ℝ) (h : ∀ n ∈ m.pois, d.get? n = e.get? n) :
    Pars.init m (.dict d) none = Pars.init m (.dict e) none := by
  have : m.pois.mapM (fun n => d.get? n) = m.pois.mapM (fun n => e.get? n) := by
    generalize m.pois = l at h
    induction l with
    | nil => rfl
    | cons a l ih =>
      simp only [List.mapM_cons, h a (by simp), ih (fun n hn => h n (by simp [hn]))]
  simp only [Pars.init, this]

theorem Pars.setFrom_congr (m : ParModel ℝ) (d e : Dict ℝ) (u : Bool) (l : List String)
    (h : ∀ n ∈ l, d.get? n = e.get? n) (p : Pars ℝ) :
    Pars.setFrom m d u l p = Pars.setFrom m e u l p := by
  induction l generalizing p with
  | nil => rfl
  | cons a l ih =>
    simp only [Pars.setFrom, Dict.getItem, h a (by simp)]
    have := fun p => ih (fun n hn => h n (by simp [hn])) p
    simp only [this]

namespace FitResult

/-- `pars` depends only on the values stored under the model's names. -/
theorem pars_congr (m : ParModel ℝ) (d : Dict FitPar) (e : Dict ℝ) (nll : Option ℝ) (h : WF d)
    (hs : ∀ kv ∈ d, kv.2.value ≠ none)
    (hv : ∀ n, n ∈ m.pois ∨ n ∈ m.npNames → val? d n = (Dict.get? e n).map some) :
    pars m ⟨d, nll⟩ = (do
      let p ← Pars.init m (.dict e) none
      p.setFromDict m e true) := by
  obtain ⟨hg, hnd⟩ : (∀ k, Dict.get? (parDict ⟨d, nll⟩) k = val? d k) ∧ _ :=
    ⟨fun k => (parDict_get? d nll h k).1, (parDict_get? d nll h "").2⟩
  have hall : ∀ kv ∈ parDict ⟨d, nll⟩, kv.2 ≠ none := by
    intro kv hkv
    have := (Dict.get?_eq_some_iff _ hnd kv.1 kv.2).2 hkv
    rw [hg] at this
    unfold val? at this
    cases hx : Dict.get? d kv.1 with
    | none => rw [hx] at this; simp at this
    | some fp =>
      rw [hx] at this
      simp at this
      rw [← this]
      exact hs _ ((Dict.get?_eq_some_iff _ h.1 _ _).1 hx)
  obtain ⟨d', hd', hg'⟩ := numDict_ok _ hall
  have heq : ∀ n, n ∈ m.pois ∨ n ∈ m.npNames → Dict.get? d' n = Dict.get? e n := by
    intro n hn
    have h1 := hg' n
    rw [hg, hv n hn] at h1
    exact Option.map_injective (Option.some_injective _) h1
  unfold pars
  rw [hd', bind_ok, Pars.init_congr m d' e (fun n hn => heq n (.inl hn))]
  congr 1
  funext p
  unfold Pars.setFromDict
  rw [Pars.setFrom_congr m d' e true m.pois (fun n hn => heq n (.inl hn))]
  congr 1
  funext p
  exact Pars.setFrom_congr m d' e true _ (fun n hn => heq n (.inr hn)) p

/-- What the constructor stores from a parameter point. -/
theorem fillPois_spec (m : ParModel ℝ) (p : Pars ℝ) (l : List String) (v : String → ℝ)
    (hv : ∀ n ∈ l, p.get m n = .ok (v n)) (d : Dict FitPar) (hd : WF d)
    (hs : ∀ kv ∈ d, kv.2.value ≠ none) :
    ∃ d', fillPois m p l d = .ok d' ∧ WF d' ∧ (∀ kv ∈ d', kv.2.value ≠ none) ∧
      ∀ k, val? d' k = if k ∈ l then some (some (v k)) else val? d k := by
  induction l generalizing d with
  | nil => exact ⟨d, rfl, hd, hs, by simp⟩
  | cons n l ih =>
    have hw := hd.set n (.new n (some (v n))) rfl
    have hs' : ∀ kv ∈ Dict.set d n (.new n (some (v n))), kv.2.value ≠ none := by
      intro kv hkv
      have hg := (Dict.get?_eq_some_iff _ hw.1 kv.1 kv.2).2 hkv
      rw [Dict.get?_set] at hg
      split at hg
      · simp at hg; rw [← hg]; simp [FitPar.new]
      · exact hs _ ((Dict.get?_eq_some_iff _ hd.1 _ _).1 hg)
    obtain ⟨d', h1, h2, h3, h4⟩ := ih (fun k hk => hv k (by simp [hk])) _ hw hs'
    refine ⟨d', ?_, h2, h3, ?_⟩
    · simp [fillPois, hv n (by simp), h1]
    · intro k
      rw [h4, val?_set]
      by_cases hk : k ∈ l
      · simp [hk]
      · by_cases e : n = k
        · subst e; simp [FitPar.new]
        · have : ¬ k = n := fun x => e x.symm
          simp [hk, e, this]

theorem fillNps_spec (m : ParModel ℝ) (p : Pars ℝ) (l : List (NP ℝ)) (v : String → ℝ)
    (hv : ∀ np ∈ l, ∃ x, p.get m np.name = .ok x ∧ v np.name = np.unscaledValue x)
    (d : Dict FitPar) (hd : WF d)
    (hs : ∀ kv ∈ d, kv.2.value ≠ none) :
    ∃ d', fillNps m p l d = .ok d' ∧ WF d' ∧ (∀ kv ∈ d', kv.2.value ≠ none) ∧
      ∀ k, val? d' k = if k ∈ l.map (·.name) then some (some (v k)) else val? d k := by
  induction l generalizing d with
  | nil => exact ⟨d, rfl, hd, hs, by simp⟩
  | cons np l ih =>
    have hw := hd.set np.name (.new np.name (some (v np.name))) rfl
    have hs' : ∀ kv ∈ Dict.set d np.name (.new np.name (some (v np.name))), kv.2.value ≠ none := by
      intro kv hkv
      have hg := (Dict.get?_eq_some_iff _ hw.1 kv.1 kv.2).2 hkv
      rw [Dict.get?_set] at hg
      split at hg
      · simp at hg; rw [← hg]; simp [FitPar.new]
      · exact hs _ ((Dict.get?_eq_some_iff _ hd.1 _ _).1 hg)
    obtain ⟨d', h1, h2, h3, h4⟩ := ih (fun k hk => hv k (by simp [hk])) _ hw hs'
    obtain ⟨x, hx, hvx⟩ := hv np (by simp)
    refine ⟨d', ?_, h2, h3, ?_⟩
    · simp [fillNps, hx, ← hvx, h1]
    · intro k
      rw [h4, val?_set]
      by_cases hk : k ∈ l.map (·.name)
      · have : k ∈ (np :: l).map (·.name) := by rw [List.map_cons]; exact List.mem_cons_of_mem _ hk
        rw [if_pos hk, if_pos this]
      · by_cases e : np.name = k
        · subst e; simp [FitPar.new, hk]
        · have : ¬ k ∈ (np :: l).map (·.name) := by
            rw [List.map_cons, List.mem_cons, not_or]; exact ⟨fun x => e x.symm, hk⟩
          rw [if_neg hk, if_neg e, if_neg this]

theorem fillHypo_spec (hypo : Hypo) (d : Dict FitPar) (hd : WF d)
    (hs : ∀ kv ∈ d, kv.2.value ≠ none) (hh : hypo.WF) :
    WF (fillHypo hypo d) ∧ (∀ kv ∈ fillHypo hypo d, kv.2.value ≠ none) ∧
      ∀ k, val? (fillHypo hypo d) k = ((Dict.get? hypo k).map some).or (val? d k) := by
  have key : ∀ l : Hypo, ∀ d : Dict FitPar, WF d → (∀ kv ∈ d, kv.2.value ≠ none) →
      WF (fillHypo l d) ∧ (∀ kv ∈ fillHypo l d, kv.2.value ≠ none) := by
    intro l
    induction l with
    | nil => intro d h1 h2; exact ⟨h1, h2⟩
    | cons kv l ih =>
      intro d h1 h2
      refine ih (Dict.set d kv.1 (.new kv.1 (some kv.2))) (h1.set _ _ rfl) ?_
      intro x hx
      have hg := (Dict.get?_eq_some_iff _ (h1.set kv.1 (.new kv.1 (some kv.2)) rfl).1 x.1 x.2).2 hx
      rw [Dict.get?_set] at hg
      split at hg
      · simp at hg; rw [← hg]; simp [FitPar.new]
      · exact h2 _ ((Dict.get?_eq_some_iff _ h1.1 _ _).1 hg)
  refine ⟨(key hypo d hd hs).1, (key hypo d hd hs).2, ?_⟩
  intro k
  have hn : ((hypo.map (fun kv => (kv.1, FitPar.new kv.1 (some kv.2)))).map Prod.fst).Nodup := by
    have := hh; simpa [Hypo.WF, Dict.keys, Function.comp_def] using this
  unfold val? fillHypo
  rw [Dict.get?_setAll _ _ _ hn, Dict.get?_map (fun k v => FitPar.new k (some v))]
  cases Dict.get? hypo k <;> simp [FitPar.new]

/-- The constructor with a parameter point and a hypothesis: the values stored. -/
theorem init_spec (m : ParModel ℝ) (p : Pars ℝ) (nll : Option ℝ) (hypo : Hypo)
    (h1 : p.pois.length = m.pois.length) (h2 : p.nps.length = m.nps.length)
    (hd : (m.pois ++ m.nps.map (·.name)).Nodup) (hh : hypo.WF) (o : Option Hypo)
    (ho : o.getD [] = hypo) :
    ∃ d, init m (some p) nll o = .ok ⟨d, nll⟩ ∧ WF d ∧ (∀ kv ∈ d, kv.2.value ≠ none) ∧
      ∀ k, val? d k = ((Dict.get? hypo k).or ((p.dict m false true).get? k)).map some := by
  have hd' : (m.pois ++ m.npNames).Nodup := hd
  have hda := List.nodup_append.1 hd'
  have hg := Pars.dict_get? m p true h1 h2 hd'
  have hlen : (p.unscaledNps m).length = m.npNames.length := by
    simp [Pars.unscaledNps, m.length_npNames, h2]
  set D := p.dict m false true with hD
  let v : String → ℝ := fun k => (D.get? k).getD 0
  have hp : ∀ n ∈ m.pois, p.get m n = .ok (v n) ∧ D.get? n = some (v n) := by
    intro n hn
    have hi : m.pois.idxOf n < p.pois.length := by rw [h1]; exact List.idxOf_lt_length_iff.2 hn
    have e : D.get? n = some p.pois[m.pois.idxOf n] := by rw [hg, if_pos hn, List.getElem?_eq_getElem hi]
    simp [v, e, Pars.get, hn, List.getElem?_eq_getElem hi]
  have hnp : ∀ np ∈ m.nps, ∃ x, p.get m np.name = .ok x ∧ v np.name = np.unscaledValue x ∧
      D.get? np.name = some (v np.name) := by
    intro np hnp
    have hm : np.name ∈ m.npNames := List.mem_map.2 ⟨np, hnp, rfl⟩
    have hn : np.name ∉ m.pois := fun h => hda.2.2 _ h _ hm rfl
    obtain ⟨i, hi, rfl⟩ := List.getElem_of_mem hnp
    have hidx : m.npNames.idxOf (m.nps[i].name) = i := by
      have := hda.2.1.idxOf_getElem i (by rw [m.length_npNames]; exact hi)
      simpa [ParModel.npNames] using this
    have hip : i < p.nps.length := by omega
    have hiu : i < (p.unscaledNps m).length := by rw [hlen, m.length_npNames]; exact hi
    refine ⟨p.nps[i], ?_, ?_⟩
    · simp [Pars.get, hn, hm, hidx, List.getElem?_eq_getElem hip]
    · have e : D.get? m.nps[i].name = some (p.unscaledNps m)[i] := by
        rw [hg, if_neg hn, if_pos hm, hidx]
        simp [List.getElem?_eq_getElem hiu]
      constructor
      · simp [v, e, Pars.unscaledNps]
      · simp [v, e]
  obtain ⟨d1, e1, w1, s1, g1⟩ := fillPois_spec m p m.pois v (fun n hn => (hp n hn).1) [] WF.nil (by simp)
  obtain ⟨d2, e2, w2, s2, g2⟩ := fillNps_spec m p m.nps v
    (fun np hnp' => by obtain ⟨x, a, b, _⟩ := hnp np hnp'; exact ⟨x, a, b⟩) d1 w1 s1
  have g2' : ∀ k, val? d2 k = (D.get? k).map some := by
    intro k
    rw [g2, g1]
    by_cases hk : k ∈ m.nps.map (·.name)
    · obtain ⟨np, a, rfl⟩ := List.mem_map.1 hk
      obtain ⟨_, _, _, c⟩ := hnp np a
      rw [if_pos hk, c]; rfl
    · by_cases hk' : k ∈ m.pois
      · rw [if_neg hk, if_pos hk', (hp k hk').2]; rfl
      · have : D.get? k = none := by
          rw [hg, if_neg hk']; exact if_neg hk
        rw [if_neg hk, if_neg hk', this]; rfl
  cases o with
  | none =>
    simp at ho; subst ho
    refine ⟨d2, by simp [init, e1, e2], w2, s2, ?_⟩
    intro k; rw [g2']; simp
  | some hy =>
    simp at ho; subst ho
    obtain ⟨w3, s3, g3⟩ := fillHypo_spec hy d2 w2 s2 hh
    refine ⟨fillHypo hy d2, by simp [init, e1, e2], w3, s3, ?_⟩
    intro k; rw [g3, g2']
    cases Dict.get? hy k <;> simp

/-! ### saving and loading -/

theorem fitPar_load (fp : FitPar) (k : String) (hk : fp.poi.name = some k) (k' : String) :
    ∃ fp', (FitPar.new k' none).loadDict (fp.fillDict []) = .ok fp' ∧ fp'.poi.name = some k ∧
      fp'.value = fp.value ∧ fp'.error = fp.error ∧
      fp'.poi.min_value = fp.poi.min_value.or (some 0) ∧
      fp'.poi.max_value = fp.poi.max_value.or (some 0) := by
  obtain ⟨⟨name, mn, mx, ini, unit, desc⟩, value, error⟩ := fp
  simp only at hk; subst hk
  have getSO : ∀ {α : Type} (d : Dict (MVal ℝ)) (key : String) (x : Option α) (f : α → MVal ℝ) (j : String),
      (Dict.setOpt d key x f).get? j = if key = j then (x.map f).or (d.get? j) else d.get? j := by
    intro α d key x f j
    rw [Dict.get?_setOpt]
  have L : ∀ key : String, ∀ o : Option ℝ, ∀ df : Option ℝ, ∀ D : Dict (MVal ℝ),
      D.get? key = o.map MVal.num → loadNum key D df = .ok (o.or df) := by
    intro key o df D h
    cases o with
    | none => exact loadNum_eq key D df _ (Or.inr ⟨by simpa using h, by simp⟩)
    | some x => exact loadNum_eq key D df _ (Or.inl (by simpa [MVal.ofNum] using h))
  have LS : ∀ key : String, ∀ o : Option String, ∀ df : Option String, ∀ D : Dict (MVal ℝ),
      D.get? key = o.map MVal.str → loadStr key D df = .ok (o.or df) := by
    intro key o df D h
    cases o with
    | none => exact loadStr_eq key D df _ (Or.inr ⟨by simpa using h, by simp⟩)
    | some x => exact loadStr_eq key D df _ (Or.inl (by simpa [MVal.ofStr] using h))
  set D := FitPar.fillDict ⟨⟨some k, mn, mx, ini, unit, desc⟩, value, error⟩ [] with hD
  have hg : ∀ j, D.get? j =
      if j = "error" then error.map .num else if j = "value" then value.map .num
      else if j = "unit" then unit.map .str else if j = "initial_value" then ini.map .num
      else if j = "max_value" then mx.map .num else if j = "min_value" then mn.map .num
      else if j = "description" then desc.map .str else if j = "name" then some (.str k) else none := by
    intro j
    simp only [hD, FitPar.fillDict, ModelPOI.fillDict, getSO, Dict.get?_set, MVal.ofStr, Dict.get?_nil]
    by_cases a1 : j = "error"
    · subst a1; simp
    by_cases a2 : j = "value"
    · subst a2; simp
    by_cases a3 : j = "unit"
    · subst a3; simp
    by_cases a4 : j = "initial_value"
    · subst a4; simp
    by_cases a5 : j = "max_value"
    · subst a5; simp
    by_cases a6 : j = "min_value"
    · subst a6; simp
    by_cases a7 : j = "description"
    · subst a7; simp
    by_cases a8 : j = "name"
    · subst a8; simp
    simp [a1, a2, a3, a4, a5, a6, a7, a8, eq_comm (b := j)]
  have e1 := LS "name" (some k) (some k') D (by rw [hg]; simp)
  have e2 := LS "description" desc none D (by rw [hg]; simp)
  have e3 := L "min_value" mn (some 0) D (by rw [hg]; simp)
  have e4 := L "max_value" mx (some 0) D (by rw [hg]; simp)
  have e5 := L "initial_value" ini (some 0) D (by rw [hg]; simp)
  have e6 := LS "unit" unit none D (by rw [hg]; simp)
  have e7 := L "value" value none D (by rw [hg]; simp)
  have e8 := L "error" error none D (by rw [hg]; simp)
  refine ⟨⟨⟨some k, mn.or (some 0), mx.or (some 0), ini.or (some 0), unit.or none, desc.or none⟩,
    value.or none, error.or none⟩, ?_, rfl, by simp, by simp, rfl, rfl⟩
  simp only [FitPar.loadDict, ModelPOI.loadDict, FitPar.new, e1, e2, e3, e4, e5, e6, e7, e8, bind_ok,
    pure_ok]
  rfl

theorem loadPars_spec (l : Dict FitPar) (hl : WF l) (d : Dict FitPar) (hd : WF d)
    (hs : ∀ kv ∈ d, kv.2.value ≠ none) (hls : ∀ kv ∈ l, kv.2.value ≠ none) :
    ∃ d', loadPars (l.map (fun kv => (kv.1, .dict (kv.2.fillDict [])))) d = .ok d' ∧ WF d' ∧
      (∀ kv ∈ d', kv.2.value ≠ none) ∧ ∀ k, val? d' k = (val? l k).or (val? d k) := by
  induction l generalizing d with
  | nil => exact ⟨d, rfl, hd, hs, by simp [val?]⟩
  | cons kv l ih =>
    obtain ⟨k0, fp⟩ := kv
    have hk0 : k0 ∉ Dict.keys l := (List.nodup_cons.1 hl.1).1
    have hl' : WF l := ⟨(List.nodup_cons.1 hl.1).2, fun x hx => hl.2 x (by simp [hx])⟩
    obtain ⟨fp', a, b, c, _⟩ := fitPar_load fp k0 (hl.2 (k0, fp) (by simp)) k0
    have hw := hd.set k0 fp' b
    have hs' : ∀ kv ∈ Dict.set d k0 fp', kv.2.value ≠ none := by
      intro kv hkv
      have hg := (Dict.get?_eq_some_iff _ hw.1 kv.1 kv.2).2 hkv
      rw [Dict.get?_set] at hg
      split at hg
      · simp at hg; rw [← hg, c]; exact hls (k0, fp) (by simp)
      · exact hs _ ((Dict.get?_eq_some_iff _ hd.1 _ _).1 hg)
    obtain ⟨d', e1, e2, e3, e4⟩ := ih hl' _ hw hs' (fun x hx => hls x (by simp [hx]))
    refine ⟨d', ?_, e2, e3, ?_⟩
    · have hnm : fp'.name = k0 := by simp [FitPar.name, b]
      simp only [List.map_cons, loadPars, a, bind_ok, hnm, e1]
    · intro k
      rw [e4, val?_set]
      by_cases e : k0 = k
      · subst e
        have : val? l k0 = none := by
          unfold val?; rw [(Dict.get?_eq_none_iff l k0).2 hk0]; rfl
        rw [this]
        simp [val?, Dict.get?, c]
      · have : val? ((k0, fp) :: l) k = val? l k := by simp [val?, Dict.get?, e]
        rw [this, if_neg e]

theorem fillDict_pars (r : FitResult) (h : WF r.fitpars) :
    Dict.setAll [] ((Dict.values r.fitpars).map (fun p => (p.name, (.dict (p.fillDict []) : MVal ℝ)))) =
      r.fitpars.map (fun kv => (kv.1, .dict (kv.2.fillDict []))) := by
  have e : (Dict.values r.fitpars).map (fun p => (p.name, (.dict (p.fillDict []) : MVal ℝ))) =
      r.fitpars.map (fun kv => (kv.1, .dict (kv.2.fillDict []))) := by
    simp only [Dict.values, List.map_map]
    apply List.map_congr_left
    intro kv hkv
    simp [FitPar.name, h.2 kv hkv]
  rw [e, Dict.setAll_nil_eq]
  have := h.1; simpa [Dict.keys, Function.comp_def] using this

/-- Loading what was saved, into a result which already has some entries. -/
theorem load_fill (r : FitResult) (h : WF r.fitpars) (hs : ∀ kv ∈ r.fitpars, kv.2.value ≠ none)
    (s : FitResult) (h' : WF s.fitpars) (hs' : ∀ kv ∈ s.fitpars, kv.2.value ≠ none) :
    ∃ r', s.loadDict (r.fillDict []) = .ok r' ∧ WF r'.fitpars ∧ r'.nll = r.nll ∧
      (∀ kv ∈ r'.fitpars, kv.2.value ≠ none) ∧
      ∀ k, val? r'.fitpars k = (val? r.fitpars k).or (val? s.fitpars k) := by
  obtain ⟨d', e1, e2, e3, e4⟩ := loadPars_spec r.fitpars h s.fitpars h' hs' hs
  refine ⟨⟨d', r.nll⟩, ?_, e2, rfl, e3, e4⟩
  have g1 : Dict.getItem (r.fillDict []) "fit_pars" =
      .ok (.dict (r.fitpars.map (fun kv => (kv.1, .dict (kv.2.fillDict []))))) := by
    simp only [fillDict, fillDict_pars r h, Dict.getItem, Dict.get?_set]
    simp
  have g2 : Dict.getItem (r.fillDict []) "nll" = .ok (.ofNum r.nll) := by
    simp only [fillDict, Dict.getItem, Dict.get?_set]
    simp
  have g3 : (MVal.ofNum r.nll).toNum? = .ok r.nll := by cases r.nll <;> rfl
  simp only [loadDict, g1, g2, g3, bind_ok, e1, pure_ok]

end FitResult
end Verif
