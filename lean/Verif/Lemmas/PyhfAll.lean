import Verif.Lemmas.PyhfRate
/-! # The whole import -/
namespace Verif
namespace Pyhf
open Markup

/-- What is collected. -/
noncomputable def imported (mea : Measurement) (w : Workspace) : CModel where
  poi := mea.poi
  nps := declareAll mea.poi (mea.parameters.foldl (addPar mea.poi) []) (w.channels.flatMap PChannel.params)
  channels := w.channels.map (convC w.firstPars)
  observations := w.observations

theorem collect_ok {keep : Bool} {index : Nat} {mea : Measurement} {w : Workspace} (h : GoodWorkspace index mea w) :
    collect keep index w = .ok (imported mea w) := by
  unfold collect
  rw [h.selected]
  have := addChannels_ok (keep := keep) w.channels (mea.parameters.foldl (addPar mea.poi) []) h.channels
  simp only [this, bind_ok, pure_ok]
  rfl

theorem convC_nbins {first pars : List Par} {poi : String} {c : PChannel} (h : GoodChannel first pars poi c) :
    (rawClass (convC first c).bins).nbins = c.nbins := by
  simp only [convC]
  by_cases e : c.nbins = 1
  · rw [if_pos e]; exact e.symm
  · rw [if_neg e]; simp [rawClass, ChClass.nbins, binNames]

theorem importable {index : Nat} {mea : Measurement} {w : Workspace} (h : GoodWorkspace index mea w) :
    Importable (imported mea w) := by
  refine ⟨?_, ?_, ?_, ?_, ?_⟩
  · exact npsOk_declareAll _ _ _ (npsOk_pars _ _ _ ⟨List.nodup_nil, by simp [Dict.keys], by simp⟩)
  · simpa [imported, Function.comp_def, convC] using h.distinct
  · intro ch hch s hs
    obtain ⟨c, hc, rfl⟩ := List.mem_map.1 hch
    obtain ⟨s0, hs0, rfl⟩ := List.mem_map.1 hs
    have := ((h.channels c hc).samples s0 hs0).norm
    rcases this with e | e <;> simp [conv, e, imported]
  · intro ch hch
    obtain ⟨c, hc, rfl⟩ := List.mem_map.1 hch
    simpa [convC, conv, Function.comp_def] using (h.channels c hc).distinct
  · intro ch hch s hs
    obtain ⟨c, hc, rfl⟩ := List.mem_map.1 hch
    obtain ⟨s0, hs0, rfl⟩ := List.mem_map.1 hs
    rw [convC_nbins (h.channels c hc)]
    exact ((h.channels c hc).samples s0 hs0).size

theorem imported_params {index : Nat} {mea : Measurement} {w : Workspace} (h : GoodWorkspace index mea w) :
    ∀ c ∈ w.channels, ∀ s ∈ c.samples, ∀ k ∈ s.modifiers.flatMap (Modifier.params c.nbins), k ∈ (imported mea w).nps.keys := by
  intro c hc s hs k hk
  rw [Dict.mem_keys_iff]
  simp only [imported, get?_declareAll]
  have hp : k ≠ mea.poi := by
    rintro rfl
    exact ((h.channels c hc).samples s hs).poi hk
  have : k ∈ w.channels.flatMap PChannel.params :=
    List.mem_flatMap.2 ⟨c, hc, List.mem_flatMap.2 ⟨s, hs, hk⟩⟩
  rw [if_pos ⟨this, hp⟩]
  cases Dict.get? (mea.parameters.foldl (addPar mea.poi) []) k <;> simp

/-! ### The loaded model -/

section
variable {mea : Measurement} {w : Workspace} {aux : List (ModelAux ℝ)}

/-- The channel of the loaded model. -/
noncomputable def chanOf (mea : Measurement) (w : Workspace) (c : PChannel) : Channel :=
  toChannel (finalChan (imported mea w).nps.keys (convC w.firstPars c))

theorem mdl_channels : (finalObj (imported mea w) aux).mdl.channels = w.channels.map (chanOf mea w) := by
  simp [Obj.mdl, finalObj, imported, chanOf]

theorem mdl_std {index : Nat} (h : GoodWorkspace index mea w) : ∀ ch ∈ (finalObj (imported mea w) aux).mdl.channels,
    0 < ch.nbins ∧ ∀ s ∈ ch.samples, s.Std ch.nbins := by
  intro ch hch
  rw [mdl_channels] at hch
  obtain ⟨c, hc, rfl⟩ := List.mem_map.1 hch
  have hnb : (chanOf mea w c).nbins = c.nbins := convC_nbins (h.channels c hc)
  rw [hnb]
  refine ⟨(h.channels c hc).bins, ?_⟩
  intro s hs
  simp only [chanOf, toChannel, finalChan, convC, List.map_map] at hs
  obtain ⟨s0, hs0, rfl⟩ := List.mem_map.1 hs
  have hg := (h.channels c hc).samples s0 hs0
  exact final_std hg.size (conv_ok hg)

theorem class_poisson (b : Option (List String)) : (rawClass b).isGauss = false := by cases b <;> rfl

theorem mdl_poisson : PoissonFirst (finalObj (imported mea w) aux).mdl.channels := by
  unfold PoissonFirst
  have : (finalObj (imported mea w) aux).mdl.channels.map (·.gaussian) = w.channels.map fun _ => false := by
    rw [mdl_channels, List.map_map]
    exact List.map_congr_left (fun c _ => class_poisson _)
  rw [this, List.pairwise_map]
  exact List.pairwise_of_forall (fun _ _ h => absurd h (by simp))

theorem mdl_np (p : Fin (finalObj (imported mea w) aux).doc.nps.length) :
    (finalObj (imported mea w) aux).mdl.nps p = numNP ((imported mea w).nps.values[p.1]'(by
      have := p.2; simpa [finalObj] using this)) := by
  have : (finalObj (imported mea w) aux).doc.nps[p] = rawNP ((imported mea w).nps.values[p.1]'(by
      have := p.2; simpa [finalObj] using this)) := by
    rw [Fin.getElem_fin]
    simp only [finalObj, List.getElem_map]
  simp only [Obj.mdl]
  rw [this, numeric_rawNP]

theorem mdl_names {index : Nat} (h : GoodWorkspace index mea w) :
    List.ofFn (fun p => ((finalObj (imported mea w) aux).mdl.nps p).name) = (imported mea w).nps.keys := by
  rw [← values_names (importable h).nps]
  apply List.ext_getElem
  · simp [finalObj]
  · intro i h1 h2
    rw [List.getElem_ofFn]
    rw [mdl_np]
    simp [numNP]

theorem mdl_vals (x : Fin (finalObj (imported mea w) aux).doc.pois.length → ℝ) :
    ∃ rest, (finalObj (imported mea w) aux).mdl.ctx.realVals x = .ok ((mea.poi, x ⟨0, by simp [finalObj]⟩) :: rest) := by
  refine ⟨(finalObj (imported mea w) aux).mdl.ctx.nps, ?_⟩
  have e : (finalObj (imported mea w) aux).mdl.ctx.exprs = [] := rfl
  simp only [ExprCtx.realVals, e, ExprCtx.evalLoop, ExprCtx.base]
  congr 1

theorem norm_value {s : CSample} {poi : String} (h0 : poi ≠ "") (hn : s.norm = none ∨ s.norm = some poi) (μ : ℝ)
    (rest : Dict ℝ) : (rawNorm s.norm).value ((poi, μ) :: rest) = .ok (if s.norm = none then 1 else μ) := by
  rcases hn with e | e <;> simp [e, rawNorm, Norm.value, h0, Dict.getItem, Dict.get?]

theorem mdl_shaped {index : Nat} (h : GoodWorkspace index mea w) : (finalObj (imported mea w) aux).mdl.YieldsShaped :=
  fun ch hch s hs => ((mdl_std h ch hch).2 s hs).1

theorem mdl_computable {index : Nat} (h : GoodWorkspace index mea w) (h0 : mea.poi ≠ "") (μ : ℝ) (rest : Dict ℝ) :
    (finalObj (imported mea w) aux).mdl.Computable ((mea.poi, μ) :: rest) := by
  refine ⟨Mdl.shapeOk_of_yieldsShaped (mdl_shaped h), ?_, ?_⟩
  all_goals
    intro ch hch smp hm
    rw [mdl_channels] at hch
    obtain ⟨c, hc, rfl⟩ := List.mem_map.1 hch
    simp only [chanOf, toChannel, finalChan, convC, List.map_map] at hm
    obtain ⟨s0, hs0, rfl⟩ := List.mem_map.1 hm
  · simp [finalSample]
  · refine ⟨_, norm_value (s := conv w.firstPars s0) h0 ?_ μ rest⟩
    have := ((h.channels c hc).samples s0 hs0).norm
    rcases this with e | e <;> simp [conv, e]

/-- The import succeeds, and the result can be loaded. -/
theorem import_loads {keep : Bool} {index : Nat} {T : Texts} (h : GoodWorkspace index mea w) (hT : Reads T mea.poi) :
    ∃ D aux A, convert keep index w = .ok D ∧ D = markup (imported mea w) ∧
      load T D = .ok (finalObj (imported mea w) aux) ∧ (finalObj (imported mea w) aux).mdl.setInternal = .ok A := by
  obtain ⟨aux, hd⟩ := loadDoc_markup (T := T) (c := imported mea w) hT (importable h)
  obtain ⟨A, hA⟩ := setInternal_of_std (m := (finalObj (imported mea w) aux).mdl) rfl (mdl_std h) mdl_poisson
  refine ⟨markup (imported mea w), aux, A, ?_, rfl, ?_, hA⟩
  · simp only [convert, collect_ok h, bind_ok, pure_ok]
  · unfold load
    rw [hd, bind_ok]
    obtain ⟨rest, hv⟩ := mdl_vals (mea := mea) (w := w) (aux := aux) (finalObj (imported mea w) aux).mdl.poiInit
    obtain ⟨ne, hne, -⟩ := Mdl.nExp_ok A 0 hv (mdl_computable h hT.nonempty _ _)
    exact Props.initModel_intro (setUp_val (importable h) aux) rfl hA hne

/-- The predictions of the loaded model: the product of the relative changes, without the clamp. -/
theorem import_rate {index : Nat} (h : GoodWorkspace index mea w) (h0 : mea.poi ≠ "") {A : Mdl.Arrays}
    (hA : (finalObj (imported mea w) aux).mdl.setInternal = .ok A) {μ : ℝ} {α : String → ℝ}
    (hα : ∀ k, α k = 0 ∨ α k = 1 ∨ α k = -1) {ne}
    (hne : (finalObj (imported mea w) aux).mdl.nExp A (fun _ => μ)
      (fun p => α ((finalObj (imported mea w) aux).mdl.nps p).name) = .ok ne)
    {pre post : List PChannel} {c : PChannel} (hch : w.channels = pre ++ c :: post) {i : Nat} {s : PSample}
    (hs : c.samples[i]? = some s) {b : Nat} (hb : b < c.nbins)
    (hr : ∀ mod ∈ s.modifiers, 1 / 100 ≤ mod.ratio ⟨mea.parameters, c.stat⟩ α b (s.data.getD b 0) ∧
      mod.ratio ⟨mea.parameters, c.stat⟩ α b (s.data.getD b 0) ≤ 100) :
    ne i ((pre.map PChannel.nbins).sum + b) = (if normfactors s = [] then 1 else μ) * s.data.getD b 0 *
      (s.modifiers.map fun mod => mod.ratio ⟨mea.parameters, c.stat⟩ α b (s.data.getD b 0)).prod := by
  have hc : c ∈ w.channels := by rw [hch]; simp
  have hgc := h.channels c hc
  have hgs := hgc.samples s (List.mem_of_getElem? hs)
  have hnb : ∀ c ∈ w.channels, (chanOf mea w c).nbins = c.nbins := fun c hc => convC_nbins (h.channels c hc)
  have hsum : (pre.map PChannel.nbins).sum = ((pre.map (chanOf mea w)).map (·.nbins)).sum := by
    rw [List.map_map]
    congr 1
    exact List.map_congr_left (fun c hc => (hnb c (by rw [hch]; simp [hc])).symm)
  have hch' : (finalObj (imported mea w) aux).mdl.channels =
      pre.map (chanOf mea w) ++ chanOf mea w c :: post.map (chanOf mea w) := by
    rw [mdl_channels, hch]; simp
  have hs' : (chanOf mea w c).samples[i]? = some (finalSample (imported mea w).nps.keys (conv w.firstPars s)) := by
    simp [chanOf, toChannel, finalChan, convC, hs]
  obtain ⟨rest, hv⟩ := mdl_vals (mea := mea) (w := w) (aux := aux) (fun _ => μ)
  have hnorm : (conv w.firstPars s).norm = none ∨ (conv w.firstPars s).norm = some mea.poi := by
    rcases hgs.norm with e | e <;> simp [conv, e]
  rw [hsum, Mdl.nExp_at (mdl_shaped h) hne hv hch' hs' (by rw [hnb c hc]; exact hb)
    (norm_value (s := conv w.firstPars s) h0 hnorm _ _)]
  have hcut : ∀ s b θ, (finalObj (imported mea w) aux).mdl.cutKExp A θ s b =
      (finalObj (imported mea w) aux).mdl.kExp A θ s b := by
    intro s b θ
    unfold Mdl.cutKExp
    exact if_pos rfl
  rw [hcut]
  rw [Props.c08_kexp_reproduces _ 1 (uniform_of_std rfl (mdl_std h)) rfl rfl A hA _ _ _ hch' i _ hs' b
    (by rw [hnb c hc]; exact hb) _ (fun p => setting (α ((finalObj (imported mea w) aux).mdl.nps p).name)
      ((conv w.firstPars s).ud ((finalObj (imported mea w) aux).mdl.nps p).name b).1
      ((conv w.firstPars s).ud ((finalObj (imported mea w) aux).mdl.nps p).name b).2 0)
    (fun p => final_supplied (nb := c.nbins) hgs.size (conv_ok hgs) _ (hα _) hb)]
  have hlin : (finalObj (imported mea w) aux).mdl.use_linear_nps = false := rfl
  rw [hlin]
  have hprod := sample_prod hgs (importable h).nps.distinct (imported_params h c hc s (List.mem_of_getElem? hs)) hα hb hr
  rw [← mdl_names (aux := aux) h, List.map_ofFn, List.prod_ofFn] at hprod
  have e1 : (if (conv w.firstPars s).norm = none then (1 : ℝ) else μ) = if normfactors s = [] then 1 else μ := by
    rcases hgs.norm with e | e <;> simp [conv, e]
  rw [e1, ← hprod]
  simp [finalSample, conv, clamp, Function.comp_def]

end
end Pyhf
end Verif
