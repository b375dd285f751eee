import Verif.Lemmas.PyhfData
/-!
# C65: imported pyhf models predict what pyhf predicts

`convert keep index w` is the content of the file written by `convert_pyhf_json.py` for the pyhf workspace `w`, and
`load T D` loads it.  `PSample.rate` (`Spec/Pyhf.lean`) is the rate that pyhf predicts, with systematic uncertainties at
their central or ±1σ settings.
-/
namespace Verif.Props
open Verif Pyhf Markup Mdl

/-- Systematic uncertainties at their central or ±1σ settings. -/
def Settings (α : String → ℝ) : Prop := ∀ k, α k = 0 ∨ α k = 1 ∨ α k = -1

/-- In bin `b`, every modifier changes the rate of the sample by a factor between 1/100 and 100 (larger changes are cut by
fastprof), and at most one `histosys` shifts it. -/
structure Moderate (E : Ctx) (α : String → ℝ) (b : Nat) (s : PSample) : Prop where
  range : ∀ mod ∈ s.modifiers, 1 / 100 ≤ mod.ratio E α b (s.data.getD b 0) ∧ mod.ratio E α b (s.data.getD b 0) ≤ 100
  one_shape : (s.modifiers.map (Modifier.shift α b (s.data.getD b 0))).Pairwise fun x y => x = 0 ∨ y = 0

section
variable {keep : Bool} {index : Nat} {mea : Measurement} {w : Workspace} {T : Texts}

/-- C65: the import succeeds, the file can be loaded, and at all values of the POI and all central or ±1σ settings of the
nuisance parameters the loaded model predicts for every sample and bin the rate that pyhf predicts. -/
theorem c65_predictions (h : GoodWorkspace index mea w) (hT : Reads T mea.poi) :
    ∃ D o A, convert keep index w = .ok D ∧ load T D = .ok o ∧ o.mdl.setInternal = .ok A ∧
      o.doc.pois.map (·.name) = [some mea.poi] ∧
      o.mdl.channels.map (fun c => (c.name, c.gaussian, c.nbins)) = w.channels.map (fun c => (c.name, false, c.nbins)) ∧
      ∀ (μ : ℝ) (α : String → ℝ), Settings α →
        ∃ ne, o.mdl.nExp A (fun _ => μ) (fun p => α (o.mdl.nps p).name) = .ok ne ∧
          ∀ pre c post, w.channels = pre ++ c :: post → ∀ i s, c.samples[i]? = some s → ∀ b < c.nbins,
            Moderate ⟨mea.parameters, c.stat⟩ α b s →
            ne i ((pre.map PChannel.nbins).sum + b) = s.rate ⟨mea.parameters, c.stat⟩ μ α b := by
  obtain ⟨D, aux, A, h1, -, h2, h3⟩ := import_loads (keep := keep) h hT
  refine ⟨D, _, A, h1, h2, h3, rfl, ?_, ?_⟩
  · rw [mdl_channels, List.map_map]
    refine List.map_congr_left fun c hc => ?_
    have hn : (chanOf mea w c).nbins = c.nbins := convC_nbins (h.channels c hc)
    have hg : (chanOf mea w c).gaussian = false := class_poisson _
    simp only [Function.comp, hn, hg]
    rfl
  · intro μ α hα
    obtain ⟨rest, hv⟩ := mdl_vals (mea := mea) (w := w) (aux := aux) (fun _ => μ)
    obtain ⟨ne, hne, -⟩ := nExp_ok A (fun p => α ((finalObj (imported mea w) aux).mdl.nps p).name) hv
      (mdl_computable h hT.nonempty _ _)
    refine ⟨ne, hne, ?_⟩
    intro pre c post hch i s hs b hb hm
    have hg := (h.channels c (by rw [hch]; simp)).samples s (List.mem_of_getElem? hs)
    rw [import_rate h hT.nonempty h3 hα hne hch hs hb hm.range, rate_prod hg hb hm.one_shape]

/-- C65: the same for the expected event count of every bin, summed over the samples. -/
theorem c65_totals (h : GoodWorkspace index mea w) (hT : Reads T mea.poi) :
    ∃ D o A, convert keep index w = .ok D ∧ load T D = .ok o ∧ o.mdl.setInternal = .ok A ∧
      ∀ (μ : ℝ) (α : String → ℝ), Settings α →
        ∃ N, o.mdl.totBinExp A (fun _ => μ) (fun p => α (o.mdl.nps p).name) = .ok N ∧
          ∀ pre c post, w.channels = pre ++ c :: post → ∀ b < c.nbins,
            (∀ s ∈ c.samples, Moderate ⟨mea.parameters, c.stat⟩ α b s) →
            N ((pre.map PChannel.nbins).sum + b) =
              (c.samples.map fun s => s.rate ⟨mea.parameters, c.stat⟩ μ α b).sum := by
  obtain ⟨D, aux, A, h1, -, h2, h3⟩ := import_loads (keep := keep) h hT
  refine ⟨D, _, A, h1, h2, h3, ?_⟩
  intro μ α hα
  obtain ⟨rest, hv⟩ := mdl_vals (mea := mea) (w := w) (aux := aux) (fun _ => μ)
  obtain ⟨ne, hne, -⟩ := nExp_ok A (fun p => α ((finalObj (imported mea w) aux).mdl.nps p).name) hv
    (mdl_computable h hT.nonempty _ _)
  refine ⟨fun b => ∑ s ∈ Finset.range (finalObj (imported mea w) aux).mdl.maxSamples, ne s b,
    by simp only [totBinExp, hne, bind_ok, pure_ok], ?_⟩
  intro pre c post hch b hb hm
  dsimp only
  have hch' : (finalObj (imported mea w) aux).mdl.channels =
      pre.map (chanOf mea w) ++ chanOf mea w c :: post.map (chanOf mea w) := by
    rw [mdl_channels, hch]; simp
  have hi : (finalObj (imported mea w) aux).mdl.channels[pre.length]? = some (chanOf mea w c) := by
    rw [hch', List.getElem?_append_right (by simp)]; simp
  have hnb : ∀ c ∈ w.channels, (chanOf mea w c).nbins = c.nbins := fun c hc => convC_nbins (h.channels c hc)
  have hoff : (finalObj (imported mea w) aux).mdl.chOff pre.length = (pre.map PChannel.nbins).sum := by
    unfold chOff
    rw [hch', List.take_left' (by simp), List.map_map]
    congr 1
    exact List.map_congr_left (fun c hc => hnb c (by rw [hch]; simp [hc]))
  have hlen : (chanOf mea w c).samples.length = c.samples.length := by simp [chanOf, toChannel, finalChan, convC]
  refine sum_range_list c.samples _ _ ?_ ?_ ?_
  · rw [← hlen]
    exact samples_le _ (List.mem_of_getElem? hi)
  · intro i s hs
    have hmem := List.mem_of_getElem? hs
    have hg := (h.channels c (by rw [hch]; simp)).samples s hmem
    rw [import_rate h hT.nonempty h3 hα hne hch hs hb (hm s hmem).range, rate_prod hg hb (hm s hmem).one_shape]
  · intro i hi' hs
    rw [← hoff]
    refine nExp_absent (uniform_shaped (uniform_of_std rfl (mdl_std h))) hne hi hi' ?_
      (by rw [hnb c (by rw [hch]; simp)]; exact hb)
    rw [List.getElem?_eq_none_iff] at hs ⊢
    omega

open Classical in
/-- Two `histosys` that shift the same sample at once multiply in fastprof, where pyhf adds them: in general the loaded
model predicts the product of the relative changes. -/
theorem c65_shapes_multiply (h : GoodWorkspace index mea w) (hT : Reads T mea.poi) :
    ∃ D o A, convert keep index w = .ok D ∧ load T D = .ok o ∧ o.mdl.setInternal = .ok A ∧
      ∀ (μ : ℝ) (α : String → ℝ), Settings α →
        ∃ ne, o.mdl.nExp A (fun _ => μ) (fun p => α (o.mdl.nps p).name) = .ok ne ∧
          ∀ pre c post, w.channels = pre ++ c :: post → ∀ i s, c.samples[i]? = some s → ∀ b < c.nbins,
            (∀ mod ∈ s.modifiers, 1 / 100 ≤ mod.ratio ⟨mea.parameters, c.stat⟩ α b (s.data.getD b 0) ∧
              mod.ratio ⟨mea.parameters, c.stat⟩ α b (s.data.getD b 0) ≤ 100) →
            ne i ((pre.map PChannel.nbins).sum + b) = (if ∃ n, Modifier.normfactor n ∈ s.modifiers then μ else 1) *
              s.data.getD b 0 * (s.modifiers.map fun mod => mod.ratio ⟨mea.parameters, c.stat⟩ α b (s.data.getD b 0)).prod := by
  obtain ⟨D, aux, A, h1, -, h2, h3⟩ := import_loads (keep := keep) h hT
  refine ⟨D, _, A, h1, h2, h3, ?_⟩
  intro μ α hα
  obtain ⟨rest, hv⟩ := mdl_vals (mea := mea) (w := w) (aux := aux) (fun _ => μ)
  obtain ⟨ne, hne, -⟩ := nExp_ok A (fun p => α ((finalObj (imported mea w) aux).mdl.nps p).name) hv
    (mdl_computable h hT.nonempty _ _)
  refine ⟨ne, hne, ?_⟩
  intro pre c post hch i s hs b hb hr
  rw [import_rate h hT.nonempty h3 hα hne hch hs hb hr]
  congr 2
  by_cases e : normfactors s = []
  · rw [if_pos e, if_neg]
    rintro ⟨n, hn⟩
    have := mem_normfactors hn
    rw [e] at this; cases this
  · rw [if_neg e, if_pos]
    obtain ⟨n, hn⟩ := List.exists_mem_of_ne_nil _ e
    obtain ⟨mod, hmod, he⟩ := List.mem_filterMap.1 hn
    cases mod <;> simp at he
    exact ⟨_, hmod⟩

/-- C65: the nuisance parameters of the loaded model are the parameters of the measurement (other than the POI) and those
of the modifiers.  A parameter with an uncertainty in the measurement has it as variation and as constraint, and its
central value; one that is not listed has a unit constraint around 0.  One that is listed without uncertainty is free
(finding F69: also when it belongs to a `normsys` or `histosys`, which pyhf always constrains). -/
theorem c65_parameters (h : GoodWorkspace index mea w) (hT : Reads T mea.poi) :
    ∃ D o, convert keep index w = .ok D ∧ load T D = .ok o ∧
      (List.ofFn fun p => (o.mdl.nps p).name).Nodup ∧
      (∀ k, (∃ p, (o.mdl.nps p).name = k) ↔ k ≠ mea.poi ∧ ((∃ q ∈ mea.parameters, q.name = k) ∨
        ∃ c ∈ w.channels, ∃ s ∈ c.samples, ∃ mod ∈ s.modifiers, k ∈ mod.params c.nbins)) ∧
      ∀ p, match parOf mea.parameters (o.mdl.nps p).name with
        | some q => (o.mdl.nps p).nominal_value = central q ∧ (o.mdl.nps p).constraint = q.sigma ∧
            (o.mdl.nps p).variation = q.sigma.getD 1
        | none => (o.mdl.nps p).nominal_value = 0 ∧ (o.mdl.nps p).constraint = some 1 ∧ (o.mdl.nps p).variation = 1 := by
  obtain ⟨D, aux, A, h1, -, h2, -⟩ := import_loads (keep := keep) h hT
  refine ⟨D, _, h1, h2, ?_, ?_, ?_⟩
  · rw [mdl_names h]
    exact (importable h).nps.distinct
  · intro k
    have e1 : (∃ p, ((finalObj (imported mea w) aux).mdl.nps p).name = k) ↔ k ∈ (imported mea w).nps.keys := by
      rw [← mdl_names (aux := aux) h, List.mem_ofFn]
    have e2 : k ∈ w.channels.flatMap PChannel.params ↔
        ∃ c ∈ w.channels, ∃ s ∈ c.samples, ∃ mod ∈ s.modifiers, k ∈ mod.params c.nbins := by
      simp [PChannel.params]
    rw [e1, ← e2]
    by_cases hk : k = mea.poi
    · subst hk
      have this : mea.poi ∉ (imported mea w).nps.keys := (importable h).nps.poi
      simpa using this
    · rw [Dict.mem_keys_iff, nps_get k hk]
      have e3 : (∃ q ∈ mea.parameters, q.name = k) ↔ (parOf mea.parameters k).isSome := by
        unfold parOf
        rw [List.find?_isSome]
        simp
      rw [e3]
      by_cases hin : k ∈ w.channels.flatMap PChannel.params <;>
        cases parOf mea.parameters k <;> simp [hk, hin]
  · intro p
    obtain ⟨q, hq, hn, hk⟩ := mdl_np_get (aux := aux) h p
    rw [nps_get _ hk] at hq
    cases hpar : parOf mea.parameters ((finalObj (imported mea w) aux).mdl.nps p).name with
    | some r =>
      rw [hpar] at hq
      simp only [Option.map_some, Option.some_or, Option.some.injEq] at hq
      rw [hn, ← hq]
      refine ⟨rfl, rfl, ?_⟩
      cases r.sigma <;> rfl
    | none =>
      rw [hpar] at hq
      simp only [Option.map_none, Option.none_or] at hq
      by_cases hin : ((finalObj (imported mea w) aux).mdl.nps p).name ∈ w.channels.flatMap PChannel.params
      · rw [if_pos hin] at hq
        simp only [Option.some.injEq] at hq
        rw [hn, ← hq]
        exact ⟨rfl, rfl, rfl⟩
      · rw [if_neg hin] at hq; cases hq

/-- C65: the dataset of the file, loaded with the model, has the observed counts of the workspace, in the order of the
channels of the model, and all auxiliary observations at their central values.  `f` gives the observations. -/
theorem c65_data {obs : List (String × List ℝ)} (h : GoodWorkspace index mea w) (hT : Reads T mea.poi)
    (hobs : w.observations = some obs) (hd : (obs.map (·.1)).Nodup) (f : String → List ℝ)
    (hf : ∀ c ∈ w.channels, (c.name, f c.name) ∈ obs ∧ (f c.name).length = c.nbins)
    (hσ : ∀ p ∈ mea.parameters, p.sigma ≠ some 0) :
    ∃ D o, convert keep index w = .ok D ∧ load T D = .ok o ∧ DData.loadDict (dataModel o) D =
      .ok ⟨(w.channels.map fun c => f c.name).flatten, List.replicate o.doc.nps.length 0⟩ := by
  obtain ⟨D, aux, A, h1, rfl, h2, -⟩ := import_loads (keep := keep) h hT
  refine ⟨_, _, h1, h2, ?_⟩
  have hl : (finalObj (imported mea w) aux).doc.nps.length = (imported mea w).nps.length := by
    simp [finalObj, Dict.values]
  rw [hl]
  refine import_data h hobs hd f hf ?_
  intro p hp
  obtain ⟨kv, hkv, rfl⟩ := List.mem_map.1 hp
  have hk : kv.1 ≠ mea.poi := by
    rintro e
    exact (importable h).nps.poi (List.mem_map.2 ⟨kv, hkv, e⟩)
  have hg := (Dict.get?_eq_some_iff _ (importable h).nps.distinct kv.1 kv.2).2 hkv
  rw [nps_get kv.1 hk] at hg
  cases hpar : parOf mea.parameters kv.1 with
  | some r =>
    rw [hpar] at hg
    simp only [Option.map_some, Option.some_or, Option.some.injEq] at hg
    rw [← hg]
    have hr : r ∈ mea.parameters := by
      have := List.mem_of_find?_eq_some hpar
      simpa using this
    have := hσ r hr
    cases hs : r.sigma with
    | none => simp [numNP]
    | some x =>
      rw [hs] at this
      simpa [numNP] using this
  | none =>
    rw [hpar] at hg
    simp only [Option.map_none, Option.none_or] at hg
    by_cases hin : kv.1 ∈ w.channels.flatMap PChannel.params
    · rw [if_pos hin] at hg
      simp only [Option.some.injEq] at hg
      rw [← hg]
      simp [numNP, autoNP]
    · rw [if_neg hin] at hg; cases hg

end
end Verif.Props
