import Verif.Lemmas.PyhfAll
import Verif.Props.Data
import Verif.Model.PruneScript
/-! # The dataset of an imported pyhf model, and its nuisance parameters -/
namespace Verif
namespace Pyhf
open Markup

section
variable {mea : Measurement} {w : Workspace} {aux : List (ModelAux ℝ)}

/-- The channel of a converted model as datasets see it. -/
def dchan (w : Workspace) (c : PChannel) : DChannel :=
  ⟨c.name, if c.nbins = 1 then .single else .multi (binNames c.nbins)⟩

theorem view_channels : (dataModel (finalObj (imported mea w) aux)).channels = w.channels.map (dchan w) := by
  simp only [dataModel, finalObj, imported, List.map_map]
  refine List.map_congr_left fun c _ => ?_
  simp only [Function.comp, finalChan, convC, dchan]
  by_cases e : c.nbins = 1
  · simp [e, rawClass, kindOf]
  · simp [e, rawClass, kindOf, Function.comp_def, nameOfBin]

theorem view_nps : (dataModel (finalObj (imported mea w) aux)).nps = (imported mea w).nps.values.map numNP := by
  apply List.ext_getElem
  · simp [dataModel, finalObj]
  · intro i h1 h2
    simp only [dataModel, List.getElem_ofFn, List.getElem_map]
    exact mdl_np (mea := mea) (w := w) (aux := aux) ⟨i, by simpa [finalObj] using h2⟩

theorem obs_named (o : String × List ℝ) : DData.Named o.1 (obsVal o) := by
  obtain ⟨n, l⟩ := o
  unfold obsVal DData.Named
  rcases l with _ | ⟨a, _ | ⟨b, l⟩⟩ <;> simp [DData.item, Dict.getItem, Dict.get?]

theorem named_bins (names : List String) (l : List ℝ) (h : l.length = names.length) :
    (names.zip (names.zipWith (fun n x => (MVal.dict [("name", .str n), ("counts", .num x)] : V)) l)).mapM
      (fun p => DData.loadNamedBin "counts" p.1 p.2) = .ok l := by
  induction names generalizing l with
  | nil => cases l with
    | nil => rfl
    | cons a l => simp at h
  | cons n names ih =>
    cases l with
    | nil => simp at h
    | cons a l =>
      rw [List.zipWith_cons_cons, List.zip_cons_cons, List.mapM_cons, ih l (by simpa using h)]
      simp [DData.loadNamedBin, DData.item, Dict.getItem, Dict.get?, DData.toFloat]

theorem obs_load (c : PChannel) (o : String × List ℝ) (hn : o.1 = c.name) (hl : o.2.length = c.nbins) :
    DData.loadChannel (dchan w c) (obsVal o) = .ok o.2 := by
  have hname : DData.checkName (dchan w c) (obsVal o) = .ok () := DData.checkName_ok.2 (by rw [dchan, ← hn]; exact obs_named o)
  unfold DData.loadChannel
  rw [hname, bind_ok]
  obtain ⟨n, l⟩ := o
  simp only at hl
  by_cases e : c.nbins = 1
  · simp only [dchan, if_pos e]
    rw [e] at hl
    obtain ⟨x, rfl⟩ := List.length_eq_one_iff.1 hl
    simp [obsVal, DData.item, Dict.getItem, Dict.get?, DData.toFloat]
  · simp only [dchan, if_neg e]
    have h2 : obsVal (n, l) = .dict [("name", .str n),
        ("bins", .list ((binNames l.length).zipWith (fun n x => .dict [("name", .str n), ("counts", .num x)]) l))] := by
      rcases l with _ | ⟨a, _ | ⟨b, l⟩⟩
      · rfl
      · simp at hl; omega
      · rfl
    have h3 : DData.binList (obsVal (n, l)) =
        .ok ((binNames l.length).zipWith (fun n x => .dict [("name", .str n), ("counts", .num x)]) l) := by
      rw [h2]
      simp [DData.binList, DData.item, Dict.getItem, Dict.get?]
    have hlen : (binNames l.length).length = l.length := by simp [binNames]
    rw [h3, bind_ok, if_neg (by simp [binNames, hl]), ← hl]
    have := named_bins (binNames l.length) l hlen.symm
    simpa using this

theorem find_obs {obs : List (String × List ℝ)} (hd : (obs.map (·.1)).Nodup) {o : String × List ℝ} (ho : o ∈ obs) :
    DData.findChannel o.1 (obs.map obsVal) = .ok (obsVal o) := by
  refine DData.findChannel_of _ (obs.map (·.1)) ?_ hd _ (List.mem_map.2 ⟨o, ho, rfl⟩) (obs_named o)
  rw [List.forall₂_map_left_iff, List.forall₂_map_right_iff, List.forall₂_same]
  exact fun o _ => obs_named o

theorem aux_vals (l : List NPSpec) : l.filterMap auxVal =
    ((l.map numNP).zip (List.replicate l.length 0)).filterMap DData.auxEntry := by
  induction l with
  | nil => rfl
  | cons p l ih =>
    rw [List.map_cons, List.length_cons, List.replicate_succ, List.zip_cons_cons, List.filterMap_cons,
      List.filterMap_cons, ih]
    obtain ⟨n, v, va, c⟩ := p
    cases c <;> simp [auxVal, DData.auxEntry, numNP, NP.unscaledValue]

theorem import_data {index : Nat} {obs : List (String × List ℝ)} (h : GoodWorkspace index mea w)
    (hobs : w.observations = some obs) (hd : (obs.map (·.1)).Nodup) (f : String → List ℝ)
    (hf : ∀ c ∈ w.channels, (c.name, f c.name) ∈ obs ∧ (f c.name).length = c.nbins)
    (hv : ∀ p ∈ (imported mea w).nps.values, (numNP p).variation ≠ 0) :
    DData.loadDict (dataModel (finalObj (imported mea w) aux)) (markup (imported mea w)) =
      .ok ⟨(w.channels.map fun c => f c.name).flatten, List.replicate (imported mea w).nps.length 0⟩ := by
  have h1 : Dict.getItem (markup (imported mea w)) "data" = .ok (dataVal (imported mea w) obs) := by
    simp [markup, imported, hobs, Dict.getItem, Dict.get?]
  have h2 : (dataModel (finalObj (imported mea w) aux)).channels.mapM (DData.loadOne (obs.map obsVal)) =
      .ok (w.channels.map fun c => f c.name) := by
    rw [view_channels, List.mapM_map]
    refine mapM_map_ok ?_
    intro c hc
    obtain ⟨hm, hl⟩ := hf c hc
    have := find_obs hd hm
    simp only [Function.comp, DData.loadOne]
    have hn : (dchan w c).name = (c.name, f c.name).1 := rfl
    rw [hn, this, bind_ok]
    exact obs_load c _ rfl hl
  have hnd : (((imported mea w).nps.values.map numNP).filterMap (·.aux_obs)).Nodup := by
    have hk := (importable h).nps.distinct
    rw [← values_names (importable h).nps] at hk
    generalize (imported mea w).nps.values = l at hk
    induction l with
    | nil => simp
    | cons p l ih =>
      rw [List.map_cons, List.nodup_cons] at hk
      rw [List.map_cons, List.filterMap_cons]
      cases hp : (numNP p).aux_obs with
      | none => exact ih hk.2
      | some a =>
        simp only
        rw [List.nodup_cons]
        refine ⟨?_, ih hk.2⟩
        intro hm
        obtain ⟨q, hq, hqa⟩ := List.mem_filterMap.1 hm
        obtain ⟨r, hr, rfl⟩ := List.mem_map.1 hq
        simp only [numNP, Option.map_eq_some_iff] at hp hqa
        obtain ⟨_, _, e1⟩ := hp
        obtain ⟨_, _, e2⟩ := hqa
        rw [← e1] at e2
        have := congrArg String.toList e2
        rw [String.toList_append, String.toList_append] at this
        have := List.append_cancel_left this
        exact hk.1 (List.mem_map.2 ⟨r, hr, String.toList_inj.1 this⟩)
  have hlen : (imported mea w).nps.values.length = (imported mea w).nps.length := by simp [Dict.values]
  have h4 := DData.aux_reload ((imported mea w).nps.values.map numNP) (List.replicate (imported mea w).nps.values.length 0)
    (by simp) hnd (by
      intro p hp
      obtain ⟨q, hq, rfl⟩ := List.mem_map.1 hp
      exact hv q hq)
  have h5 : List.zipWith (fun (p : NP ℝ) (a : ℝ) => if p.aux_obs = none then 0 else a)
      ((imported mea w).nps.values.map numNP) (List.replicate (imported mea w).nps.values.length 0) =
      List.replicate (imported mea w).nps.length 0 := by
    rw [← hlen]
    apply List.ext_getElem
    · simp
    · intro i h1 h2
      simp
  rw [h5] at h4
  have h6 : DData.auxDict [("channels", .list (obs.map obsVal)),
      ("aux_obs", .list ((imported mea w).nps.values.filterMap auxVal))] =
      .ok (Dict.setAll [] ((((imported mea w).nps.values.map numNP).zip
        (List.replicate (imported mea w).nps.values.length 0)).filterMap DData.auxPair)) := by
    unfold DData.auxDict
    have : Dict.get? [("channels", (MVal.list (obs.map obsVal) : V)),
      ("aux_obs", .list ((imported mea w).nps.values.filterMap auxVal))] "aux_obs" =
      some (.list ((imported mea w).nps.values.filterMap auxVal)) := by simp [Dict.get?]
    rw [this]
    simp only [aux_vals, DData.auxItems, bind_ok, pure_ok]
  have h7 : Dict.getItem [("channels", (MVal.list (obs.map obsVal) : V)),
      ("aux_obs", .list ((imported mea w).nps.values.filterMap auxVal))] "channels" = .ok (.list (obs.map obsVal)) := by
    simp [Dict.getItem, Dict.get?]
  unfold DData.loadDict
  rw [h1, bind_ok]
  simp only [dataVal, h7, bind_ok, h2, h6, view_nps, h4]
  rw [DData.setAuxObs_full _ _ (by rw [view_nps]; simp [Dict.values])]
  rfl

/-! ### Nuisance parameters -/

theorem get?_pars (poi : String) (l : List Par) (nps : Dict NPSpec) (k : String) (hk : k ≠ poi) :
    (l.foldl (addPar poi) nps).get? k = ((parOf l k).map fun p =>
      { name := k, nominal_value := central p, variation := p.sigma, constraint := p.sigma }).or (nps.get? k) := by
  induction l generalizing nps with
  | nil => simp [parOf]
  | cons p l ih =>
    rw [List.foldl_cons, ih]
    have hpar : parOf (p :: l) k = (parOf l k).or (if p.name = k then some p else none) := by
      unfold parOf
      rw [List.reverse_cons, List.find?_append]
      congr 1
      by_cases e : p.name = k <;> simp [e]
    rw [hpar]
    cases hl : parOf l k with
    | some q => simp
    | none =>
      simp only [Option.map_none, Option.none_or]
      unfold addPar
      by_cases e : p.name = k
      · have hp : p.name ≠ poi := by rw [e]; exact hk
        subst e
        simp only [if_neg hp, Dict.get?_set_self, if_true, Option.map_some, Option.some_or]
        congr 2
        cases h1 : p.aux_data <;> cases h2 : p.init <;> simp [central, h1, h2]
      · by_cases hp : p.name = poi
        · rw [if_pos hp]; simp [e]
        · rw [if_neg hp]
          simp only [Dict.get?_set, if_neg e, Option.map_none, Option.none_or]

theorem nps_get (k : String) (hk : k ≠ mea.poi) : (imported mea w).nps.get? k =
    ((parOf mea.parameters k).map fun p =>
      { name := k, nominal_value := central p, variation := p.sigma, constraint := p.sigma }).or
      (if k ∈ w.channels.flatMap PChannel.params then some (autoNP k) else none) := by
  simp only [imported, get?_declareAll, get?_pars _ _ _ _ hk]
  simp only [ne_eq, hk, not_false_eq_true, and_true, Dict.get?, Option.or_none]

theorem mdl_np_get {index : Nat} (h : GoodWorkspace index mea w)
    (p : Fin (finalObj (imported mea w) aux).doc.nps.length) :
    ∃ q, (imported mea w).nps.get? ((finalObj (imported mea w) aux).mdl.nps p).name = some q ∧
      (finalObj (imported mea w) aux).mdl.nps p = numNP q ∧ ((finalObj (imported mea w) aux).mdl.nps p).name ≠ mea.poi := by
  have hp : p.1 < (imported mea w).nps.values.length := by have := p.2; simpa [finalObj] using this
  refine ⟨(imported mea w).nps.values[p.1], ?_, mdl_np p, ?_⟩
  · rw [mdl_np]
    have hm : (imported mea w).nps[p.1]'(by simpa [Dict.values] using hp) ∈ (imported mea w).nps := List.getElem_mem _
    have hn := (importable h).nps.names _ hm
    have e : (imported mea w).nps.values[p.1] = ((imported mea w).nps[p.1]'(by simpa [Dict.values] using hp)).2 := by
      simp [Dict.values]
    have e2 : (numNP (imported mea w).nps.values[p.1]).name =
        ((imported mea w).nps[p.1]'(by simpa [Dict.values] using hp)).1 := by
      rw [← hn, e]; rfl
    rw [e2, e]
    exact (Dict.get?_eq_some_iff _ (importable h).nps.distinct _ _).2 hm
  · intro e
    refine (importable h).nps.poi ?_
    rw [← mdl_names (aux := aux) h, List.mem_ofFn]
    exact ⟨p, e⟩

end
end Pyhf
end Verif
