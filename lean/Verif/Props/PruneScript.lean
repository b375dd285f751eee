import Verif.Lemmas.PrunePulls
import Verif.Lemmas.RemoveRatio
import Verif.Props.MergeModels
/-!
# C74: the script `prune_model.py`, from file to file

`pruneScript T L opts D F` is the decoded content of the output file, for a model file with content `D` and a data
file with content `F` (or `none`).
-/
namespace Verif.Props
open Verif Markup Mdl

variable {T : Texts}

theorem Prune.nps_aux {o : Obj} {nps : List (NP ℝ)} (h : o.doc.nps.mapM ModelNP.numeric = .ok nps) :
    (List.ofFn o.mdl.nps).filterMap (·.aux_obs) = o.doc.nps.filterMap (·.aux_obs) := by
  rw [← nps_list h]
  have hF := mapM_ok_iff.1 h
  clear h
  generalize o.doc.nps = l at hF
  induction hF with
  | nil => rfl
  | @cons p q l nps hh _ ih =>
    have e : q.aux_obs = p.aux_obs := by
      unfold ModelNP.numeric at hh
      split at hh
      · have := Except.ok.inj (ε := PyErr) hh; rw [← this]
      · cases hh
    rw [List.filterMap_cons, List.filterMap_cons, e, ih]

theorem Prune.np_numeric {o : Obj} {nps : List (NP ℝ)} (h : o.doc.nps.mapM ModelNP.numeric = .ok nps)
    (i : Fin o.doc.nps.length) : o.doc.nps[i].numeric = .ok (o.mdl.nps i) := by
  have hF := mapM_ok_iff.1 h
  have := (List.forall₂_iff_get.1 hF).2 i i.2 (by rw [← hF.length_eq]; exact i.2)
  simp only [List.get_eq_getElem] at this
  simp only [Fin.getElem_fin, Obj.mdl, this]

theorem Prune.np_variation {o : Obj} {nps : List (NP ℝ)} (h : o.doc.nps.mapM ModelNP.numeric = .ok nps)
    (hv : ∀ p ∈ o.doc.nps, p.variation ≠ some 0) (i : Fin o.doc.nps.length) : (o.mdl.nps i).variation ≠ 0 := by
  have := Prune.np_numeric h i
  unfold ModelNP.numeric at this
  split at this
  · rename_i e1 e2 e3
    have := Except.ok.inj (ε := PyErr) this
    rw [← this]
    dsimp only
    rintro rfl
    exact hv _ (List.getElem_mem i.2) (by simpa using e3)
  · cases this

theorem Prune.numeric_all {o : Obj} (h : Ready T o) : ∃ nps, o.doc.nps.mapM ModelNP.numeric = .ok nps := by
  obtain ⟨hs, -, -⟩ := initModel_ok h.init
  obtain ⟨-, -, -, -, -, -, hn, -⟩ := setUp_inv (f := {}) hs
  exact hn

/-- Whole numbers obtained by dropping the fractional part. -/
noncomputable def Prune.whole (x : ℝ) : ℝ := if 0 ≤ x then (⌊x⌋ : ℝ) else (⌈x⌉ : ℝ)

theorem Prune.out_parts (hT : T.Lawful) {o : Obj} {F : Dict V} {ds : DData.DS} {out : Dict V} (h : Ready T o)
    (hv : ∀ p ∈ o.doc.nps, p.variation ≠ some 0)
    (hds : DData.loadDict (dataModel o) F = .ok ds)
    (ho : (do let out ← save T o
              return Dict.setAll out (← DData.fillDict (dataModel o) ds)) = .ok out) :
    load T out = .ok o ∧ DData.loadDict (dataModel o) out = .ok ⟨ds.counts.map Prune.whole, ds.aux_obs⟩ := by
  obtain ⟨D', hD', h1⟩ := bind_eq_ok.1 ho
  obtain ⟨dd, hdd, h2⟩ := bind_eq_ok.1 h1
  have h3 := Except.ok.inj (ε := PyErr) h2
  subst h3
  obtain ⟨D'', s1, s2⟩ := h.saved hT
  rw [hD'] at s1
  have s1 := Except.ok.inj (ε := PyErr) s1
  subst s1
  obtain ⟨m, rfl⟩ := save_shape hD'
  obtain ⟨nps, hnps⟩ := Prune.numeric_all h
  obtain ⟨l1, l2⟩ := data_length hds
  have hdist := h.good.loaded.chan_distinct
  obtain ⟨d, r1, r2⟩ := c13_roundtrip (dataModel o) ds
    (by simpa [dataModel, rawDoc, rawChannel, Function.comp_def] using hdist)
    (by
      intro c hc b e
      obtain ⟨c', hc', rfl⟩ := List.mem_map.1 hc
      have := h.faithful.poisson c' hc'
      cases hk : c'.cls <;> simp [hk, kindOf, ChClass.isGauss] at e this)
    l1 l2 (by
      show ((List.ofFn o.mdl.nps).filterMap (·.aux_obs)).Nodup
      rw [Prune.nps_aux hnps]; exact h.good.aux)
    (by
      intro p hp
      obtain ⟨i, rfl⟩ := List.mem_ofFn.1 hp
      exact Prune.np_variation hnps hv i)
  rw [hdd] at r1
  have r1 := Except.ok.inj (ε := PyErr) r1
  subst r1
  rw [kept_zero hds] at r2
  have hsh : ∃ v, dd = [("data", v)] := by
    unfold DData.fillDict at hdd
    obtain ⟨chans, -, h4⟩ := bind_eq_ok.1 hdd
    exact ⟨_, (Except.ok.inj (ε := PyErr) h4).symm⟩
  obtain ⟨v, rfl⟩ := hsh
  have e : Dict.setAll [("model", m)] [("data", v)] = [("model", m), ("data", v)] := by
    simp [Dict.setAll, Dict.set]
  rw [e]
  refine ⟨?_, ?_⟩
  · rw [← s2]
    exact load_congr (by simp [Dict.get?])
  · rw [data_congr (F := [("data", v)]) (by simp [Dict.get?])]
    exact r2

theorem Prune.out_exists (hT : T.Lawful) {o : Obj} {F : Dict V} {ds : DData.DS} (h : Ready T o)
    (hv : ∀ p ∈ o.doc.nps, p.variation ≠ some 0) (hds : DData.loadDict (dataModel o) F = .ok ds) :
    ∃ out, (do let out ← save T o
               return Dict.setAll out (← DData.fillDict (dataModel o) ds)) = .ok out := by
  obtain ⟨D', s1, -⟩ := h.saved hT
  obtain ⟨nps, hnps⟩ := Prune.numeric_all h
  obtain ⟨l1, l2⟩ := data_length hds
  have hdist := h.good.loaded.chan_distinct
  obtain ⟨d, r1, -⟩ := c13_roundtrip (dataModel o) ds
    (by simpa [dataModel, rawDoc, rawChannel, Function.comp_def] using hdist)
    (by
      intro c hc b e
      obtain ⟨c', hc', rfl⟩ := List.mem_map.1 hc
      have := h.faithful.poisson c' hc'
      cases hk : c'.cls <;> simp [hk, kindOf, ChClass.isGauss] at e this)
    l1 l2 (by
      show ((List.ofFn o.mdl.nps).filterMap (·.aux_obs)).Nodup
      rw [Prune.nps_aux hnps]; exact h.good.aux)
    (by
      intro p hp
      obtain ⟨i, rfl⟩ := List.mem_ofFn.1 hp
      exact Prune.np_variation hnps hv i)
  exact ⟨_, by rw [s1, bind_ok, r1, bind_ok]; rfl⟩

/-- C74: whatever the options, what the script writes can be loaded again: the model in the output file is the
pruned model, with the POIs, expressions, channels and bins of the input and some of its NPs, and the dataset in the
output file is the one that was read, for the remaining NPs, with its counts truncated to whole numbers. -/
theorem c74_reload (hT : T.Lawful) {L : Cmd.Lib} {opts : PruneOpts} {D out : Dict V} {F : Option (Dict V)} {o : Obj}
    (ho : load T D = .ok o) (hf : Faithful o) (ha : (o.doc.nps.filterMap (·.aux_obs)).Nodup)
    (hv : ∀ p ∈ o.doc.nps, p.variation ≠ some 0) (h : pruneScript T L opts D F = .ok out) :
    ∃ o' ds, prunedModel T L opts D = .ok o' ∧ DData.loadDict (dataModel o') (F.getD D) = .ok ds ∧
      load T out = .ok o' ∧
      DData.loadDict (dataModel o') out =
        .ok ⟨ds.counts.map (fun x => if 0 ≤ x then (⌊x⌋ : ℝ) else (⌈x⌉ : ℝ)), ds.aux_obs⟩ ∧
      o'.doc.pois = o.doc.pois ∧ o'.doc.exprs = o.doc.exprs ∧ o'.doc.nps.Sublist o.doc.nps ∧
      o'.doc.channels.map (fun c => (c.name, c.cls)) = o.doc.channels.map fun c => (c.name, c.cls) := by
  unfold pruneScript at h
  obtain ⟨o', ho', h1⟩ := bind_eq_ok.1 h
  obtain ⟨ds, hds, h2⟩ := bind_eq_ok.1 h1
  obtain ⟨r, k⟩ := prunedModel_ready hT ho hf ha ho'
  obtain ⟨p1, p2⟩ := Prune.out_parts hT r (fun p hp => hv p (k.nps.subset hp)) hds h2
  exact ⟨o', ds, ho', hds, p1, p2, k.pois, k.exprs, k.nps, k.chans⟩

/-- C74: the same statement for integer counts: the dataset is kept exactly. -/
theorem c74_reload_exact (hT : T.Lawful) {L : Cmd.Lib} {opts : PruneOpts} {D out : Dict V} {F : Option (Dict V)}
    {o : Obj} (ho : load T D = .ok o) (hf : Faithful o) (ha : (o.doc.nps.filterMap (·.aux_obs)).Nodup)
    (hv : ∀ p ∈ o.doc.nps, p.variation ≠ some 0) (h : pruneScript T L opts D F = .ok out) :
    ∃ o' ds, load T out = .ok o' ∧ DData.loadDict (dataModel o') (F.getD D) = .ok ds ∧
      ((∀ x ∈ ds.counts, ∃ k : ℤ, x = k) → DData.loadDict (dataModel o') out = .ok ds) := by
  obtain ⟨o', ds, -, h2, h3, h4, -⟩ := c74_reload hT ho hf ha hv h
  refine ⟨o', ds, h3, h2, fun hint => h4.trans ?_⟩
  congr 1
  ext1
  · dsimp only
    rw [List.map_congr_left (g := id) (fun x hx => ?_), List.map_id]
    obtain ⟨k, rfl⟩ := hint x hx
    split <;> simp
  · rfl

/-- C74: without options the model of the output file is that of the input file. -/
theorem c74_no_options (hT : T.Lawful) {L : Cmd.Lib} {D out : Dict V} {F : Option (Dict V)} {o : Obj}
    (ho : load T D = .ok o) (hf : Faithful o) (ha : (o.doc.nps.filterMap (·.aux_obs)).Nodup)
    (hv : ∀ p ∈ o.doc.nps, p.variation ≠ some 0) (h : pruneScript T L {} D F = .ok out) : load T out = .ok o := by
  obtain ⟨o', ds, h1, -, h3, -⟩ := c74_reload hT ho hf ha hv h
  have : prunedModel T L {} D = .ok o := by
    unfold prunedModel
    rw [ho, bind_ok]
    rfl
  rw [this] at h1
  have := Except.ok.inj (ε := PyErr) h1
  rw [h3, this]

/-- Finding F86: the script needs a dataset, although the code has a branch for models without one: if neither a data
file is given nor the model file has a `data` section, the script ends with `KeyError`. -/
theorem c74_needs_data {L : Cmd.Lib} {opts : PruneOpts} {D : Dict V} (hd : D.get? "data" = none) :
    (∀ out, pruneScript T L opts D none ≠ .ok out) ∧
    ∀ o', prunedModel T L opts D = .ok o' → pruneScript T L opts D none = .error .keyError := by
  have key : ∀ o', prunedModel T L opts D = .ok o' → pruneScript T L opts D none = .error .keyError := by
    intro o' ho'
    unfold pruneScript
    rw [ho', bind_ok]
    simp only [Option.getD_none]
    unfold DData.loadDict Dict.getItem
    rw [hd]
    rfl
  refine ⟨fun out ho => ?_, key⟩
  have h := ho
  unfold pruneScript at h
  obtain ⟨o', ho', -⟩ := bind_eq_ok.1 h
  rw [key o' ho'] at ho
  cases ho

/-- The dataset as the likelihood sees it. -/
noncomputable def Prune.dataV {P : Nat} (s : DData.DS) : DataV P :=
  ⟨fun b => s.counts.getD b 0, fun p => s.aux_obs.getD p 0⟩

theorem Prune.data_kept {o o' : Obj} {F : Dict V} {ds : DData.DS}
    (hc : o'.doc.channels.map (fun c => (c.name, c.cls)) = o.doc.channels.map fun c => (c.name, c.cls))
    {keep : Fin o'.doc.nps.length → Fin o.doc.nps.length} (hn : ∀ i, o'.mdl.nps i = o.mdl.nps (keep i))
    (h : DData.loadDict (dataModel o) F = .ok ds) :
    ∃ ds', DData.loadDict (dataModel o') F = .ok ds' ∧ ds'.counts = ds.counts ∧
      ∀ i : Fin o'.doc.nps.length, ds'.aux_obs.getD i 0 = ds.aux_obs.getD (keep i) 0 := by
  obtain ⟨d, l, parts, aux, h1, h2, h3, h4, h5, h6⟩ := data_inv h
  have hch : (dataModel o').channels = (dataModel o).channels := by
    have := congrArg (List.map fun c : String × ChClass => (⟨c.1, kindOf c.2⟩ : DChannel)) hc
    simpa [dataModel, Function.comp_def] using this
  have hF := mapM_ok_iff.1 h5
  have hlen : ds.aux_obs.length = o.doc.nps.length := by
    rw [← hF.length_eq]; simp [dataModel]
  have hget : ∀ p : Fin o.doc.nps.length, DData.auxValue aux (o.mdl.nps p) = .ok (ds.aux_obs.getD p 0) := by
    intro p
    have := (List.forall₂_iff_get.1 hF).2 p (by simp [dataModel]) (by rw [hlen]; exact p.2)
    simp only [List.get_eq_getElem, dataModel, List.getElem_ofFn, Fin.eta] at this
    rw [this]
    simp [hlen]
  have h5' : (dataModel o').nps.mapM (DData.auxValue aux) =
      .ok (List.ofFn fun i => ds.aux_obs.getD (keep i) 0) := by
    rw [mapM_ok_iff, List.forall₂_iff_get]
    refine ⟨by simp [dataModel], fun i hi hi' => ?_⟩
    simp only [List.get_eq_getElem, dataModel, List.getElem_ofFn]
    rw [hn]
    exact hget _
  refine ⟨⟨ds.counts, List.ofFn fun i => ds.aux_obs.getD (keep i) 0⟩, ?_, rfl, fun i => by simp⟩
  rw [h6]
  exact data_intro h1 h2 (by rw [hch]; exact h3) h4 h5'

/-- C34: differences of the complete likelihood (constraint terms included, with or without offset) between parameter
values with the removed NPs at the values given are kept by `remove_nps`; `d'` is the dataset without the auxiliary
observables of the removed NPs. -/
theorem c34_likelihood_ratio {n P : Nat} {m : Mdl n P} {w : Nat} {A : Mdl.Arrays} {rx : String → String → Bool}
    {pv : Dict (Option ℝ)} {P' : Nat} {m' : Mdl n P'} {A' : Mdl.Arrays}
    (hD : m.ctx.Distinct) (hne : ∀ p, (m.nps p).name ≠ "") (hcn : (m.channels.map (·.name)).Nodup)
    (hu : m.Uniform w) (hset : m.NpDataSet) (hA : m.setInternal = .ok A)
    (hmode : (m.use_linear_nps = false ∧ m.cutoff = 0) ∨
      ∀ p, m.Selected rx pv p → removedAt pv (m.nps p) = 0)
    (hnn : ∀ ch ∈ m.channels, ∀ smp ∈ ch.samples, ∀ p, m.Selected rx pv p →
      smp.norm = .expr (m.nps p).name → smp.nominal_norm = (m.nps p).nominal_value)
    (hs : ∀ i < m.nbinsGaussian, ∀ j < m.nbinsGaussian, m.poiHessian i j = m.poiHessian j i)
    (h : m.removeNps A rx pv = .ok ⟨P', m'⟩) (hA' : m'.setInternal = .ok A') :
    ∃ keep : Fin P' → Fin P, StrictMono keep ∧ (∀ p, p ∈ Set.range keep ↔ ¬ m.Selected rx pv p) ∧
      (∀ i, m'.nps i = m.nps (keep i)) ∧ m'.nbinsPoisson = m.nbinsPoisson ∧
      ∀ (d : DataV P) (d' : DataV P'), d'.counts = d.counts → (∀ i, d'.aux_obs i = d.aux_obs (keep i)) →
        ∀ (N0 N0' : Nat → ℝ), m.refTot A = .ok N0 → m'.refTot A' = .ok N0' →
        (∀ b < m.nbinsPoisson, 0 < N0 b) → (∀ b < m.nbinsPoisson, 0 < N0' b) →
        ∀ (x₁ x₂ : Fin n → ℝ) (θ₁ θ₂ : Fin P → ℝ), (∀ p, m.Selected rx pv p → θ₁ p = removedAt pv (m.nps p)) →
        (∀ p, m.Selected rx pv p → θ₂ p = removedAt pv (m.nps p)) → ∀ (N1 N2 : Nat → ℝ),
        m'.totBinExp A' x₁ (fun i => θ₁ (keep i)) = .ok N1 → m'.totBinExp A' x₂ (fun i => θ₂ (keep i)) = .ok N2 →
        (∀ b < m.nbinsPoisson, 0 < N1 b) → (∀ b < m.nbinsPoisson, 0 < N2 b) → ∀ offset : Bool,
        ∃ L1 L2 L1' L2' : ℝ, m.nll A x₁ θ₁ d offset = .ok (.fin L1) ∧ m.nll A x₂ θ₂ d offset = .ok (.fin L2) ∧
          m'.nll A' x₁ (fun i => θ₁ (keep i)) d' offset = .ok (.fin L1') ∧
          m'.nll A' x₂ (fun i => θ₂ (keep i)) d' offset = .ok (.fin L2') ∧ L1 - L2 = L1' - L2' := by
  obtain ⟨keep, names, ne0, vals0, u, R⟩ := removeNps_inv hD hcn (uniform_shaped hu) hset h
  refine ⟨keep, R.mono, R.range, R.nps, R.chanState.1, ?_⟩
  intro d d' hc hd N0 N0' h0 h0' hp0 hp0' x₁ x₂ θ₁ θ₂ h1 h2 N1 N2 hN1 hN2 hp1 hp2 offset
  exact R.ratio hD hne hu hA hmode hnn hA' hs hc hd h0 h0' hp0 hp0' h1 h2 hN1 hN2 hp1 hp2 offset

theorem Prune.last_match {α : Type} {f : α → Bool} {l : List α} (h : ∃ a ∈ l, f a = true) :
    ∃ pre a post, l = pre ++ a :: post ∧ f a = true ∧ ∀ b ∈ post, f b = false := by
  induction l with
  | nil => obtain ⟨a, ha, -⟩ := h; cases ha
  | cons x l ih =>
    by_cases hl : ∃ a ∈ l, f a = true
    · obtain ⟨pre, a, post, e, h1, h2⟩ := ih hl
      exact ⟨x :: pre, a, post, by rw [e]; rfl, h1, h2⟩
    · obtain ⟨a, ha, hfa⟩ := h
      rcases List.mem_cons.1 ha with rfl | ha
      · exact ⟨[], a, l, rfl, hfa, fun b hb => by
          by_contra hc
          exact hl ⟨b, hb, by simpa using hc⟩⟩
      · exact absurd ⟨a, ha, hfa⟩ hl

/-- C74: `prune_model --nps par1=v1,par2=v2,...`, from file to file.  Each assignment selects one NP; an NP that is
selected is removed, and held at the value (not the pull) of the last assignment that selects it.  The likelihood
differences computed with the model and dataset of the output file are those computed with the model and dataset
of the input files when the removed NPs have these values; the other NPs are kept, in their order. -/
theorem c74_nps_likelihood (hT : T.Lawful) {L : Cmd.Lib} {as : List (Cmd.Str × Cmd.Str)} {D out : Dict V}
    {F : Option (Dict V)} {o : Obj} {ds : DData.DS} {A : Mdl.Arrays} {w : Nat}
    (ho : load T D = .ok o) (hf : Faithful o) (ha : (o.doc.nps.filterMap (·.aux_obs)).Nodup)
    (hv : ∀ p ∈ o.doc.nps, p.variation ≠ some 0)
    (hds : DData.loadDict (dataModel o) (F.getD D) = .ok ds) (hint : ∀ x ∈ ds.counts, ∃ k : ℤ, x = k)
    (hD : o.mdl.ctx.Distinct) (hne : ∀ p, (o.mdl.nps p).name ≠ "") (hu : o.mdl.Uniform w)
    (hA : o.mdl.setInternal = .ok A)
    (h0 : as ≠ []) (hp : ∀ a ∈ as, Cmd.Plain a.1 ∧ Cmd.Plain a.2)
    (h1 : ∀ a ∈ as, ∃ p, ∀ q, L.reMatch a.1 (o.mdl.nps q).name = true ↔ q = p)
    (h2 : ∀ a ∈ as, ∀ i, L.reMatch a.1 (o.mdl.pois i) = false)
    (hval : ∀ a ∈ as, ∃ v, L.float a.2 = some v)
    (hnn : ∀ ch ∈ o.mdl.channels, ∀ smp ∈ ch.samples, ∀ p, (∃ a ∈ as, L.reMatch a.1 (o.mdl.nps p).name = true) →
      smp.norm = .expr (o.mdl.nps p).name → smp.nominal_norm = (o.mdl.nps p).nominal_value)
    (h : pruneScript T L { nps := some (Cmd.render as) } D F = .ok out) :
    ∃ (o' : Obj) (ds' : DData.DS) (A' : Mdl.Arrays) (hpoi : o'.doc.pois.length = o.doc.pois.length)
      (keep : Fin o'.doc.nps.length → Fin o.doc.nps.length),
      load T out = .ok o' ∧ DData.loadDict (dataModel o') out = .ok ds' ∧ o'.mdl.setInternal = .ok A' ∧
      o'.doc.pois = o.doc.pois ∧ StrictMono keep ∧ (∀ i, o'.doc.nps[i] = o.doc.nps[keep i]) ∧
      (∀ p, p ∈ Set.range keep ↔ ∀ a ∈ as, L.reMatch a.1 (o.mdl.nps p).name = false) ∧
      ∀ (x₁ x₂ : Fin o.doc.pois.length → ℝ) (θ₁ θ₂ : Fin o.doc.nps.length → ℝ),
        (∀ p pre a post v, as = pre ++ a :: post → L.reMatch a.1 (o.mdl.nps p).name = true →
          (∀ b ∈ post, L.reMatch b.1 (o.mdl.nps p).name = false) → L.float a.2 = some v →
          (o.mdl.nps p).nominal_value + θ₁ p * (o.mdl.nps p).variation = v ∧
          (o.mdl.nps p).nominal_value + θ₂ p * (o.mdl.nps p).variation = v) →
        ∀ (N0 N0' N1 N2 : Nat → ℝ), o.mdl.refTot A = .ok N0 → o'.mdl.refTot A' = .ok N0' →
        o'.mdl.totBinExp A' (fun i => x₁ (i.cast hpoi)) (fun i => θ₁ (keep i)) = .ok N1 →
        o'.mdl.totBinExp A' (fun i => x₂ (i.cast hpoi)) (fun i => θ₂ (keep i)) = .ok N2 →
        (∀ b < o.mdl.nbinsPoisson, 0 < N0 b ∧ 0 < N0' b ∧ 0 < N1 b ∧ 0 < N2 b) → ∀ offset : Bool,
        ∃ L1 L2 L1' L2' : ℝ, o.mdl.nll A x₁ θ₁ (Prune.dataV ds) offset = .ok (.fin L1) ∧
          o.mdl.nll A x₂ θ₂ (Prune.dataV ds) offset = .ok (.fin L2) ∧
          o'.mdl.nll A' (fun i => x₁ (i.cast hpoi)) (fun i => θ₁ (keep i)) (Prune.dataV ds') offset =
            .ok (.fin L1') ∧
          o'.mdl.nll A' (fun i => x₂ (i.cast hpoi)) (fun i => θ₂ (keep i)) (Prune.dataV ds') offset =
            .ok (.fin L2') ∧ L1 - L2 = L1' - L2' := by
  obtain ⟨o', ds', e1, e2, e3, e4, -⟩ := c74_reload hT ho hf ha hv h
  have r0 := ready_of_load hT ho hf ha
  obtain ⟨nps, hnps⟩ := Prune.numeric_all r0
  have r1 := (prunedModel_ready hT ho hf ha e1).1
  have hst : stepNps L { nps := some (Cmd.render as) } o = .ok o' := by
    unfold prunedModel at e1
    rw [ho, bind_ok] at e1
    obtain ⟨o1, k1, k2⟩ := bind_eq_ok.1 e1
    obtain ⟨o2, k3, k4⟩ := bind_eq_ok.1 k2
    have k1 := Except.ok.inj (ε := PyErr) k1
    have k4 := Except.ok.inj (ε := PyErr) k4
    subst k1 k4
    exact k3
  unfold stepNps at hst
  obtain ⟨d, hd, k1⟩ := bind_eq_ok.1 hst
  obtain ⟨pv, hpv, k2⟩ := bind_eq_ok.1 k1
  obtain ⟨A1, hA1, k3⟩ := bind_eq_ok.1 k2
  rw [hA] at hA1
  have := Except.ok.inj (ε := PyErr) hA1
  subst this
  have hpull := pulls_of_text hD h0 hp h1 h2 hval hd hpv
  obtain ⟨sels, aux', chans', hsel, he, -, -, hrem, -⟩ := removeNps_mdl k3
  obtain ⟨-, -, A', -, hA', -⟩ := initModel_ok r1.init
  subst he
  have hfl := r0.flags
  obtain ⟨keep, g1, g2, g3, g4, g5⟩ := c34_likelihood_ratio hD hne
    (by simpa [rawDoc, rawChannel, Function.comp_def, Obj.mdl, toChannel] using r0.good.loaded.chan_distinct) hu
    (r0.npDataSet hT) hA (Or.inl (by simp [Obj.mdl, hfl]))
    (fun ch hch smp hsmp p hs => hnn ch hch smp hsmp p ((hpull p).1.1 hs))
    (by
      intro i hi
      have : o.mdl.nbinsGaussian = 0 := by
        unfold Mdl.nbinsGaussian
        rw [List.filter_eq_nil_iff.2 (fun c hc => ?_)]
        · rfl
        · obtain ⟨c', hc', rfl⟩ := List.mem_map.1 hc
          simpa [toChannel] using hf.poisson c' hc'
      omega) hrem hA'
  obtain ⟨ds'', q1, q2, q3⟩ := Prune.data_kept (prunedModel_ready hT ho hf ha e1).2.chans g3 hds
  rw [e2] at q1
  have := Except.ok.inj (ε := PyErr) q1
  subst this
  have hcnt : ds'.counts.map (fun x => if 0 ≤ x then (⌊x⌋ : ℝ) else (⌈x⌉ : ℝ)) = ds'.counts := by
    rw [q2, List.map_congr_left (g := id) (fun x hx => ?_), List.map_id]
    obtain ⟨k, rfl⟩ := hint x hx
    split <;> simp
  rw [hcnt] at e4
  obtain ⟨nps', hnps'⟩ := Prune.numeric_all r1
  refine ⟨⟨_, o.flags⟩, ds', A', by exact rfl, keep, e3, e4, hA', rfl, g1, ?_, ?_, ?_⟩
  · intro i
    have hm := (prunedModel_ready hT ho hf ha e1).2.nps.subset (List.getElem_mem i.2)
    obtain ⟨j, hj, hj'⟩ := List.mem_iff_getElem.1 hm
    have n1 := Prune.np_numeric hnps' i
    have n2 := Prune.np_numeric hnps ⟨j, hj⟩
    have hjk : (⟨j, hj⟩ : Fin o.doc.nps.length) = keep i := by
      apply np_inj hD
      rw [Fin.getElem_fin, ← hj'] at n1
      simp only [Fin.getElem_fin] at n2
      rw [n2] at n1
      have n1 := Except.ok.inj (ε := PyErr) n1
      dsimp only
      rw [n1, g3]
    have hv' : (keep i).val = j := by rw [← hjk]
    simp only [Fin.getElem_fin, hv']
    exact hj'.symm
  · intro p
    rw [g2 p, (hpull p).1]
    push Not
    simp
  · intro x₁ x₂ θ₁ θ₂ hθ N0 N0' N1 N2 hN0 hN0' hN1 hN2 hpos offset
    have hat : ∀ p, o.mdl.Selected (reOf L) pv p →
        θ₁ p = removedAt pv (o.mdl.nps p) ∧ θ₂ p = removedAt pv (o.mdl.nps p) := by
      intro p hs
      obtain ⟨pre, a, post, e, hm, hpost⟩ := Prune.last_match
        (f := fun a : Cmd.Str × Cmd.Str => L.reMatch a.1 (o.mdl.nps p).name) ((hpull p).1.1 hs)
      obtain ⟨v, hv'⟩ := hval a (by rw [e]; simp)
      rw [(hpull p).2 pre a post v e hm hpost hv']
      obtain ⟨t1, t2⟩ := hθ p pre a post v e hm hpost hv'
      have hvar := Prune.np_variation hnps hv p
      unfold NP.scaledValue
      constructor
      · rw [eq_div_iff hvar]; linarith
      · rw [eq_div_iff hvar]; linarith
    exact g5 (Prune.dataV ds) (Prune.dataV ds') (by simp only [Prune.dataV, q2]) (fun i => q3 i) N0 N0' hN0 hN0'
      (fun b hb => (hpos b hb).1) (fun b hb => (hpos b hb).2.1) x₁ x₂ θ₁ θ₂ (fun p hs => (hat p hs).1)
      (fun p hs => (hat p hs).2) N1 N2 hN1 hN2 (fun b hb => (hpos b hb).2.2.1) (fun b hb => (hpos b hb).2.2.2) offset

/-- C74: `prune_model --min-np-impact ε`: the NPs of the output file are those that change by `ε` or more the yield of
some sample in some bin, in their order. -/
theorem c74_small_impacts (hT : T.Lawful) {L : Cmd.Lib} {ε : ℝ} (hε : 0 < ε) {D out : Dict V}
    {F : Option (Dict V)} {o : Obj} (ho : load T D = .ok o) (hf : Faithful o)
    (ha : (o.doc.nps.filterMap (·.aux_obs)).Nodup) (hv : ∀ p ∈ o.doc.nps, p.variation ≠ some 0)
    (hD : o.mdl.ctx.Distinct)
    (hw : ∀ ch ∈ o.mdl.channels, ∀ smp ∈ ch.samples, smp.WellShaped ch.nbins)
    (h : pruneScript T L { min_np_impact := some ε } D F = .ok out) :
    ∃ (o' : Obj) (kept : List (Fin o.doc.nps.length)), load T out = .ok o' ∧ kept.Pairwise (· < ·) ∧
      o'.doc.nps = kept.map (fun p => o.doc.nps[p]) ∧
      ∀ p, p ∈ kept ↔ ∃ ch ∈ o.mdl.channels, ∃ smp ∈ ch.samples, ∃ r, smp.symImpact (o.mdl.nps p).name = .ok r ∧
        ∃ b < ch.nbins, ε ≤ |r.getD b 0| := by
  obtain ⟨o', ds', e1, -, e3, -⟩ := c74_reload hT ho hf ha hv h
  have hst : stepImpacts L { min_np_impact := some ε } o = .ok o' := by
    unfold prunedModel at e1
    rw [ho, bind_ok] at e1
    obtain ⟨o1, k1, k2⟩ := bind_eq_ok.1 e1
    obtain ⟨o2, k3, k4⟩ := bind_eq_ok.1 k2
    have k1 := Except.ok.inj (ε := PyErr) k1
    have k3 := Except.ok.inj (ε := PyErr) k3
    subst k1 k3
    exact k4
  unfold stepImpacts at hst
  obtain ⟨A, hA, k1⟩ := bind_eq_ok.1 hst
  unfold Markup.pruneNps at k1
  dsimp only at k1
  obtain ⟨chans, -, k2⟩ := bind_eq_ok.1 k1
  obtain ⟨sels, aux', chans', hsel, he, -⟩ := removeNps_mdl k2
  have hmem : ∀ p, p ∈ sels.flatten ↔ p ∈ o.mdl.smallNps A ε := by
    intro p
    have hkeys : Dict.keys (((o.mdl.smallNps A ε).map fun p => (o.mdl.nps p).name).map fun k => (k, (none : Option ℝ))) =
        (o.mdl.smallNps A ε).map fun p => (o.mdl.nps p).name := by
      simp [Dict.keys, Function.comp_def]
    rw [hkeys, mapM_ok_iff, List.forall₂_map_left_iff] at hsel
    have hone : List.Forall₂ (fun (q : Fin o.doc.nps.length) l => l = [q]) (o.mdl.smallNps A ε) sels := by
      refine hsel.imp fun q l hl => ?_
      have hh : o.mdl.selectNps (reOf L) (o.mdl.nps q).name = .ok l := hl
      unfold selectNps at hh
      cases hfd : (List.finRange o.doc.nps.length).find? (fun r => decide ((o.mdl.nps r).name = (o.mdl.nps q).name)) with
      | none =>
        rw [List.find?_eq_none] at hfd
        exact absurd (hfd q (List.mem_finRange q)) (by simp)
      | some r =>
        rw [hfd] at hh
        have hr : r = q := np_inj hD (by simpa using List.find?_some hfd)
        rw [← hr]
        exact (Except.ok.inj (ε := PyErr) hh).symm
    have : sels = (o.mdl.smallNps A ε).map fun q => [q] := by
      clear hsel hst k1 k2 he
      generalize o.mdl.smallNps A ε = small at hone
      induction hone with
      | nil => rfl
      | cons hh _ ih => rw [hh, ih]; rfl
    rw [this]
    simp
  refine ⟨o', (List.finRange o.doc.nps.length).filter fun p => decide (p ∉ sels.flatten), e3,
    (List.pairwise_lt_finRange _).filter _, by rw [he], fun p => ?_⟩
  rw [List.mem_filter]
  simp only [List.mem_finRange, true_and, decide_eq_true_eq]
  rw [hmem, c61_pruned_iff hε hw hA]
  constructor
  · intro hn
    push Not at hn
    obtain ⟨ch, hch, smp, hsmp, hn⟩ := hn
    obtain ⟨i, hi, rfl⟩ := List.mem_iff_getElem.1 hch
    obtain ⟨s, hs0, rfl⟩ := List.mem_iff_getElem.1 hsmp
    obtain ⟨r, hr, -⟩ := setInternal_sym hw hA (o.mdl.split_at (List.getElem?_eq_getElem hi))
      (List.getElem?_eq_getElem hs0) p
    obtain ⟨b, hb, hle⟩ := hn r hr
    exact ⟨_, hch, _, hsmp, r, hr, b, hb, hle⟩
  · rintro ⟨ch, hch, smp, hsmp, r, hr, b, hb, hle⟩ hall
    obtain ⟨r', hr', hlt⟩ := hall ch hch smp hsmp
    rw [hr] at hr'
    have := Except.ok.inj (ε := PyErr) hr'
    subst this
    exact absurd (hlt b hb) (not_lt.2 hle)

theorem CmdLine.assignLoop_keys (M : Cmd.Names) (o : Cmd.Opts) (nps : List String) (val : Cmd.Str) (ps : List String)
    (fv : Option ℝ) (d : Dict Cmd.Val) (k : String) (h : k ∈ d.keys ∨ k ∈ ps) :
    k ∈ (Cmd.assignLoop M o nps val ps fv d).keys := by
  induction ps generalizing fv d with
  | nil => simpa [Cmd.assignLoop] using h
  | cons p ps ih =>
    unfold Cmd.assignLoop
    refine ih _ _ ?_
    rcases h with h | h
    · left
      rw [Dict.mem_keys_iff] at h ⊢
      rw [Dict.get?_set]
      split <;> simp_all
    · rcases List.mem_cons.1 h with rfl | h
      · left
        rw [Dict.mem_keys_iff, Dict.get?_set_self]
        simp
      · exact Or.inr h

theorem CmdLine.key_of_selected {L : Cmd.Lib} {M : Cmd.Names} {o : Cmd.Opts} {as : List (Cmd.Str × Cmd.Str)}
    {D : Dict Cmd.Val} (h0 : as ≠ []) (hp : ∀ a ∈ as, Cmd.Plain a.1 ∧ Cmd.Plain a.2)
    (h : Cmd.processSetvals L M o (Cmd.render as) = .ok D) {a : Cmd.Str × Cmd.Str} (ha : a ∈ as) {k : String}
    (hk : Selects L M o a k) : k ∈ D.keys := by
  have key : ∀ (bs : List (Cmd.Str × Cmd.Str)) (d D : Dict Cmd.Val),
      (bs.map fun a => [a.1, a.2]).foldlM (Cmd.assignOne L M o) d = .ok D → (k ∈ d.keys ∨ a ∈ bs) → k ∈ D.keys := by
    intro bs
    induction bs with
    | nil =>
      intro d D hD hh
      have := Except.ok.inj (ε := PyErr) hD
      subst this
      simpa using hh
    | cons b bs ih =>
      intro d D hD hh
      rw [List.map_cons, List.foldlM_cons, bind_eq_ok] at hD
      obtain ⟨d1, hd1, hD1⟩ := hD
      rw [Cmd.assignOne_eq] at hd1
      split at hd1
      · cases hd1
      · have hd1 := Except.ok.inj (ε := PyErr) hd1
        subst hd1
        refine ih _ _ hD1 ?_
        rcases hh with hh | hh
        · exact Or.inl (CmdLine.assignLoop_keys _ _ _ _ _ _ _ _ (Or.inl hh))
        · rcases List.mem_cons.1 hh with rfl | hh
          · exact Or.inl (CmdLine.assignLoop_keys _ _ _ _ _ _ _ _ (Or.inr ((CmdLine.mem_selected L M o a k).2 hk)))
          · exact Or.inr hh
  rw [Cmd.processSetvals, Cmd.fields_render as h0 hp] at h
  exact key as [] D h (Or.inr ha)

/-- C74: an assignment whose pattern also matches a POI makes the script fail, unless the name of that POI, read as
a pattern, matches an NP. -/
theorem c74_poi_selected_fails {L : Cmd.Lib} {as : List (Cmd.Str × Cmd.Str)} {D : Dict V} {F : Option (Dict V)} {o : Obj}
    (ho : load T D = .ok o) (hD : o.mdl.ctx.Distinct) (h0 : as ≠ []) (hp : ∀ a ∈ as, Cmd.Plain a.1 ∧ Cmd.Plain a.2)
    (i : Fin o.doc.pois.length) (hi : ∃ a ∈ as, L.reMatch a.1 (o.mdl.pois i) = true)
    (hno : ∀ q, L.reMatch (o.mdl.pois i).toList (o.mdl.nps q).name = false)
    (out : Dict V) : pruneScript T L { nps := some (Cmd.render as) } D F ≠ .ok out := by
  intro h
  unfold pruneScript at h
  obtain ⟨o', e1, -⟩ := bind_eq_ok.1 h
  unfold prunedModel at e1
  rw [ho, bind_ok] at e1
  obtain ⟨o1, k1, k2⟩ := bind_eq_ok.1 e1
  obtain ⟨o2, hst, -⟩ := bind_eq_ok.1 k2
  have k1 := Except.ok.inj (ε := PyErr) k1
  subst k1
  unfold stepNps at hst
  obtain ⟨d, hd, g1⟩ := bind_eq_ok.1 hst
  obtain ⟨pv, hpv, g2⟩ := bind_eq_ok.1 g1
  obtain ⟨A1, -, g3⟩ := bind_eq_ok.1 g2
  obtain ⟨sels, aux', chans', hsel, -⟩ := removeNps_mdl g3
  obtain ⟨a1, -⟩ := asPull_inv hpv
  have hkey : o.mdl.pois i ∈ d.keys := by
    obtain ⟨a, ha, hm⟩ := hi
    exact CmdLine.key_of_selected h0 hp hd ha ⟨Or.inl ⟨rfl, List.mem_ofFn.2 ⟨i, rfl⟩⟩, hm⟩
  rw [a1] at hsel
  obtain ⟨l, -, hl⟩ := mapM_mem_left hsel _ hkey
  unfold selectNps at hl
  have hnn : (List.finRange o.doc.nps.length).find? (fun r => decide ((o.mdl.nps r).name = o.mdl.pois i)) = none := by
    rw [List.find?_eq_none]
    intro q _ hq
    have h3 : (o.mdl.nps q).name ∈ o.mdl.ctx.nps.keys := by
      simp only [Mdl.ctx, Dict.keys]
      exact List.mem_map.2 ⟨((o.mdl.nps q).name, _), List.mem_ofFn.2 ⟨q, rfl⟩, rfl⟩
    have h4 : o.mdl.pois i ∈ List.ofFn o.mdl.ctx.pois := List.mem_ofFn.2 ⟨i, rfl⟩
    exact (List.nodup_append.1 (List.nodup_append.1 hD).1).2.2 _ h4 _ h3 (by simpa using hq : (o.mdl.nps q).name = _).symm
  have hff : (List.finRange o.doc.nps.length).filter (fun r => reOf L (o.mdl.pois i) (o.mdl.nps r).name) = [] := by
    rw [List.filter_eq_nil_iff]
    intro q _
    simp [reOf, hno q]
  rw [hnn, hff] at hl
  cases hl

/-- C74, finding F63 in the script: with a pattern that matches two NPs, the second one is held at the pull of the
first one, not at the value given. -/
theorem c74_wildcard_values {L : Cmd.Lib} {D : Dict V} {o : Obj} {A : Mdl.Arrays} (ho : load T D = .ok o)
    (hA : o.mdl.setInternal = .ok A) (hD : o.mdl.ctx.Distinct)
    (var val : Cmd.Str) (hp : Cmd.Plain var ∧ Cmd.Plain val) (v : ℝ) (hv : L.float val = some v)
    (p q : Fin o.doc.nps.length) (hpq : p < q)
    (hm : ∀ r, L.reMatch var (o.mdl.nps r).name = true ↔ r = p ∨ r = q)
    (hno : ∀ i, L.reMatch var (o.mdl.pois i) = false) (hvar : (o.mdl.nps q).variation ≠ 0) :
    ∃ tp tq : ℝ, (prunedModel T L { nps := some (Cmd.render [(var, val)]) } D =
        Markup.removeNps A (reOf L) [((o.mdl.nps p).name, some tp), ((o.mdl.nps q).name, some tq)] o) ∧
      tp = (v - (o.mdl.nps p).nominal_value) / (o.mdl.nps p).variation ∧
      (o.mdl.nps q).nominal_value + tq * (o.mdl.nps q).variation = tp := by
  have hfil : (List.finRange o.doc.nps.length).filter (fun r => L.reMatch var (o.mdl.nps r).name) = [p, q] := by
    refine List.Perm.eq_of_pairwise' ((List.pairwise_lt_finRange _).filter _) (by simpa using hpq) ?_
    rw [List.perm_ext_iff_of_nodup ((List.nodup_finRange _).filter _) (by simpa using hpq.ne)]
    intro r
    simp [hm r]
  have hnps : (parNames o).nps.filter (L.reMatch var) = [(o.mdl.nps p).name, (o.mdl.nps q).name] := by
    show (List.ofFn fun p => (o.mdl.nps p).name).filter _ = _
    rw [List.ofFn_eq_map, List.filter_map]
    have := congrArg (List.map fun p => (o.mdl.nps p).name) hfil
    exact this
  have hpois : (parNames o).pois.filter (L.reMatch var) = [] := by
    rw [List.filter_eq_nil_iff]
    intro x hx
    obtain ⟨i, rfl⟩ := List.mem_ofFn.1 hx
    simp [hno i]
  have hne : (o.mdl.nps p).name ≠ (o.mdl.nps q).name := fun e => hpq.ne (np_inj hD e)
  have hproc : Cmd.processSetvals L (parNames o) { scale_nps := true } (Cmd.render [(var, val)]) =
      .ok [((o.mdl.nps p).name, .num (scaledNp o (o.mdl.nps p).name v)),
        ((o.mdl.nps q).name, .num (scaledNp o (o.mdl.nps q).name (scaledNp o (o.mdl.nps p).name v)))] := by
    rw [Cmd.processSetvals, Cmd.fields_render _ (by simp) (by simpa using hp)]
    simp only [List.map_cons, List.map_nil, List.foldlM_cons, List.foldlM_nil]
    have := Cmd.assignOne_eq L (parNames o) { scale_nps := true } [] (var, val)
    have hs : Cmd.selected L (parNames o) { scale_nps := true } var = [(o.mdl.nps p).name, (o.mdl.nps q).name] := by
      simp [Cmd.selected, hpois, hnps]
    rw [this]
    dsimp only
    rw [hs, hnps, hv]
    simp [Cmd.assignLoop, Cmd.rawVal, Dict.set, hne, parNames]
  refine ⟨(o.mdl.nps p).scaledValue v, (o.mdl.nps q).scaledValue ((o.mdl.nps p).scaledValue v), ?_, rfl, ?_⟩
  · unfold prunedModel
    rw [ho, bind_ok]
    simp only [stepSamples, bind_ok, stepNps, hproc, stepImpacts, List.mapM_cons, List.mapM_nil, asPull, pure_ok, hA]
    rw [scaledNp_eq hD, scaledNp_eq hD]
    cases Markup.removeNps A (reOf L) _ o <;> rfl
  · unfold NP.scaledValue
    field_simp
    ring

/-! ### A concrete run -/
namespace PruneDemo
open MarkupDemo
/-- The class of the channel. -/
noncomputable def cls : ChClass := .multi [.str "a", .str "b"]

/-- Patterns are names, and the only number is `1`. -/
noncomputable def lib : Cmd.Lib :=
  ⟨fun v n => decide (v = n.toList), fun t => if t = "1".toList then some 1 else none, fun _ => none⟩

/-- The model without its NP. -/
noncomputable def pruned (y1 y2 : List ℝ) : Obj where
  doc := { (obj cls).doc with
    aux := []
    nps := []
    channels := [{ name := "c", cls := cls, samples := [
      { name := "sig", norm := .expr "k", nominal_norm := 2, nominal_yields := y1, impacts := [] },
      { name := "bkg", norm := .number 2, nominal_norm := 2, nominal_yields := y2, impacts := [] }] }] }
  flags := {}

theorem init_pruned {y1 y2 : List ℝ} (h1 : y1.length = 2) (h2 : y2.length = 2) :
    initModel (rawDoc (pruned y1 y2).doc) {} = .ok (pruned y1 y2) := by
  have hs : setUp (rawDoc (pruned y1 y2).doc) = .ok (pruned y1 y2).doc := by
    simp [setUp, pruned, rawDoc, rawChannel, toRaw, obj, numericPOI, needName, ModelNP.numeric, refVals, ExprCtx.evalLoop,
      Expr.value, Dict.get?, Dict.getItem, Dict.set, setUpChannel, RawSample.setNpData, Norm.value, Norm.implicitImpact,
      Expr.lookups, Dict.keys]
  have hstd : ∀ ch ∈ (pruned y1 y2).mdl.channels, 0 < ch.nbins ∧ ∀ s ∈ ch.samples, s.Std ch.nbins := by
    intro ch hch
    simp only [Obj.mdl, pruned, List.map_cons, List.map_nil, List.mem_singleton] at hch
    subst hch
    refine ⟨by simp [toChannel, cls, ChClass.nbins], ?_⟩
    intro s hs
    simp only [toChannel, List.mem_cons, List.not_mem_nil, or_false] at hs
    rcases hs with rfl | rfl
    · exact ⟨by simpa [cls, ChClass.nbins, toChannel] using h1, fun par i h => by simp [Dict.get?] at h⟩
    · exact ⟨by simpa [cls, ChClass.nbins, toChannel] using h2, fun par i h => by simp [Dict.get?] at h⟩
  obtain ⟨A, hA⟩ := setInternal_of_std (m := (pruned y1 y2).mdl) rfl hstd (by simp [PoissonFirst, Obj.mdl, pruned])
  have hv : (pruned y1 y2).mdl.ctx.realVals (pruned y1 y2).mdl.poiInit = .ok [("mu", 1), ("k", 2)] := by
    simp [ExprCtx.realVals, ExprCtx.evalLoop, ExprCtx.base, Mdl.ctx, Obj.mdl, pruned, obj, Expr.value,
      Dict.get?, Dict.getItem, Dict.set, Dict.keys, Expr.lookups]
  have hcomp : (pruned y1 y2).mdl.Computable [("mu", 1), ("k", 2)] := by
    refine ⟨?_, ?_, ?_⟩
    · intro s hs
      have e1 : (pruned y1 y2).mdl.nbins = 2 := by
        simp [Mdl.nbins, Mdl.chanState, Obj.mdl, pruned, chanStep, toChannel, cls, ChClass.nbins]
      have e2 : (pruned y1 y2).mdl.maxSamples = 2 := by
        simp [Mdl.maxSamples, Mdl.chanState, Obj.mdl, pruned, chanStep, toChannel]
      rw [e2] at hs
      rw [e1]
      interval_cases s <;> simp [Mdl.cells, Channel.cells, Obj.mdl, pruned, toChannel, h1, h2]
    · intro ch hch smp hm
      simp only [Obj.mdl, pruned, List.map_cons, List.map_nil, List.mem_singleton] at hch
      subst hch
      simp only [toChannel, List.mem_cons, List.not_mem_nil, or_false] at hm
      rcases hm with rfl | rfl <;> norm_num
    · intro ch hch smp hm
      simp only [Obj.mdl, pruned, List.map_cons, List.map_nil, List.mem_singleton] at hch
      subst hch
      simp only [toChannel, List.mem_cons, List.not_mem_nil, or_false] at hm
      rcases hm with rfl | rfl <;> simp [Norm.value, Dict.getItem, Dict.get?]
  obtain ⟨ne, hne, -⟩ := Mdl.nExp_ok A 0 hv hcomp
  exact initModel_intro hs rfl hA hne

/-- The model of `MarkupDemo` (`b`), or the same model without impacts. -/
noncomputable def objOf (b : Bool) : Obj where
  doc := { (obj cls).doc with
    channels := if b then (obj cls).doc.channels else [{ name := "c", cls := cls, samples := [
      { name := "sig", norm := .expr "k", nominal_norm := 1, nominal_yields := [1, 2], impacts := [] },
      { name := "bkg", norm := .number 2, nominal_norm := 2, nominal_yields := [5, 6], impacts := [] }] }] }
  flags := {}

theorem removed (A : Mdl.Arrays) (b : Bool) (v : Option ℝ) : ∃ y1 y2, Markup.removeNps A (reOf lib) [("np", v)] (objOf b) = .ok (pruned y1 y2) ∧
    y1.length = 2 ∧ y2.length = 2 := by
  let p0 : Fin (objOf b).doc.nps.length := ⟨0, by simp [objOf, obj]⟩
  have hl : List.finRange (objOf b).doc.nps.length = [p0] := rfl
  have hn : ((objOf b).mdl.nps p0).name = "np" := by simp [Obj.mdl, objOf, obj, p0, ModelNP.numeric]
  have hsel : (Dict.keys [("np", v)]).mapM ((objOf b).mdl.selectNps (reOf lib)) = .ok [[p0]] := by
    have : (objOf b).mdl.selectNps (reOf lib) "np" = .ok [p0] := by
      unfold selectNps
      rw [hl, List.find?_cons_of_pos (by simpa using hn)]
    simp [Dict.keys, this]
  let ch1 : Channel := { toChannel ((obj cls).doc.channels[0]) with samples := [
      { name := "sig", norm := .expr "k", nominal_norm := 1, nominal_yields := [1, 2], impacts := [] },
      { name := "bkg", norm := .number 2, nominal_norm := 2, nominal_yields := [5, 6], impacts := [] }] }
  have hst : (([[p0]] : List (List _)).flatten.foldl ((objOf b).mdl.dropNp [("np", v)])
      (fun _ => 0, (objOf b).mdl.channels)).2 = [ch1] := by
    simp only [List.flatten_cons, List.flatten_nil, List.append_nil, List.foldl_cons, List.foldl_nil, dropNp, hn]
    cases b <;> simp [Obj.mdl, objOf, obj, ch1, toChannel, dropFromSample, Norm.isExpr]
  set st := ([[p0]] : List (List _)).flatten.foldl ((objOf b).mdl.dropNp [("np", v)])
      (fun _ => 0, (objOf b).mdl.channels) with hstd
  let m1 : Mdl (objOf b).doc.pois.length (objOf b).doc.nps.length := { (objOf b).mdl with channels := [ch1] }
  have hvals : m1.ctx.realVals (objOf b).mdl.poiInit = .ok [("mu", 1), ("np", 0), ("k", 2)] := vals cls
  have hcomp : m1.Computable [("mu", 1), ("np", 0), ("k", 2)] := by
    refine ⟨?_, ?_, ?_⟩
    · intro s hs
      have e1 : m1.nbins = 2 := by
        simp [Mdl.nbins, Mdl.chanState, m1, ch1, chanStep, toChannel, cls, ChClass.nbins, obj]
      have e2 : m1.maxSamples = 2 := by
        simp [Mdl.maxSamples, Mdl.chanState, m1, ch1, chanStep]
      rw [e2] at hs
      rw [e1]
      interval_cases s <;> simp [Mdl.cells, Channel.cells, m1, ch1]
    · intro ch hch smp hm
      simp only [m1, ch1, List.mem_singleton] at hch
      subst hch
      simp only [List.mem_cons, List.not_mem_nil, or_false] at hm
      rcases hm with rfl | rfl <;> norm_num
    · intro ch hch smp hm
      simp only [m1, ch1, List.mem_singleton] at hch
      subst hch
      simp only [List.mem_cons, List.not_mem_nil, or_false] at hm
      rcases hm with rfl | rfl <;> simp [Norm.value, Dict.getItem, Dict.get?]
  obtain ⟨ne, hne, -⟩ := Mdl.nExp_ok A st.1 hvals hcomp
  have hoff : m1.offsets = [("c", 0)] := by
    simp [Mdl.offsets, Mdl.chanState, m1, ch1, chanStep, toChannel, obj, Dict.set, cls, ChClass.isGauss]
  refine ⟨(List.range 2).map fun b => ne 0 (0 + b), (List.range 2).map fun b => ne 1 (0 + b), ?_, by simp, by simp⟩
  rw [← init_pruned (by simp) (by simp)]
  unfold Markup.removeNps
  rw [hsel, bind_ok]
  dsimp only
  rw [← hstd, hst]
  rw [show ({ (objOf b).mdl with channels := [ch1] } : Mdl _ _) = m1 from rfl, hne, bind_ok, hvals, bind_ok, hoff]
  have hch : ((objOf b).doc.channels.zip [ch1]).mapM
      (refitDoc ne [("mu", 1), ("np", 0), ("k", 2)] [("c", 0)]) =
      .ok (rawDoc (pruned ((List.range 2).map fun b => ne 0 (0 + b)) ((List.range 2).map fun b => ne 1 (0 + b))).doc).channels := by
    cases b <;> simp [objOf, obj, refitDoc, ch1, toChannel, Dict.getItem, Dict.get?, refitSample, Norm.value, List.zipIdx, rawDoc, pruned,
      rawChannel, toRaw, cls, ChClass.nbins]
  rw [hch, bind_ok]
  have haux : (([[p0]] : List (List _)).flatten.map fun p => (objOf b).doc.nps[p]).foldlM popAux (objOf b).doc.aux = .ok [] := by
    simp [p0, objOf, obj, popAux]
  rw [haux, bind_ok, hl]
  simp [p0]
  rfl

/-- The script runs on this model, with `--nps np=1` and without options, and the hypotheses of `c74_nps_likelihood`
(hence of the other theorems about the script) are met. -/
theorem runs : ∃ (D dataset out out' out'' : Dict V) (ds : DData.DS) (A : Mdl.Arrays), load texts D = .ok (obj cls) ∧ Faithful (obj cls) ∧
    ((obj cls).doc.nps.filterMap (·.aux_obs)).Nodup ∧ (∀ p ∈ (obj cls).doc.nps, p.variation ≠ some 0) ∧
    DData.loadDict (dataModel (obj cls)) dataset = .ok ds ∧ ds = ⟨[6, 8], [0]⟩ ∧ (obj cls).mdl.ctx.Distinct ∧
    (∀ p, ((obj cls).mdl.nps p).name = "np") ∧ (obj cls).mdl.Uniform 1 ∧ (obj cls).mdl.setInternal = .ok A ∧
    Cmd.Plain "np".toList ∧ Cmd.Plain "1".toList ∧
    (∀ q, lib.reMatch "np".toList ((obj cls).mdl.nps q).name = true) ∧
    (∀ i, lib.reMatch "np".toList ((obj cls).mdl.pois i) = false) ∧ lib.float "1".toList = some 1 ∧
    (∀ ch ∈ (obj cls).mdl.channels, ∀ smp ∈ ch.samples, ∀ p, smp.norm ≠ .expr ((obj cls).mdl.nps p).name) ∧
    pruneScript texts lib {} D (some dataset) = .ok out' ∧
    pruneScript texts lib { nps := some (Cmd.render [("np".toList, "1".toList)]) } D (some dataset) = .ok out ∧
    (∀ ch ∈ (obj cls).mdl.channels, ∀ smp ∈ ch.samples, smp.WellShaped ch.nbins) ∧
    pruneScript texts lib { min_np_impact := some 1 } D (some dataset) = .ok out'' := by
  have hs := MarkupDemo.storable cls rfl ⟨_, rfl⟩
  have hi := MarkupDemo.init cls rfl
  have hf := MarkupDemo.faithful cls rfl rfl
  obtain ⟨D, h1, h2⟩ := c32_constructed_roundtrip MarkupDemo.lawful hs hi hf
  have hnd : ((obj cls).doc.nps.filterMap (·.aux_obs)).Nodup := by simp [obj]
  have hvar : ∀ p ∈ (obj cls).doc.nps, p.variation ≠ some 0 := by simp [obj]
  have r0 := ready_of_load MarkupDemo.lawful h2 hf hnd
  have hn : ∀ p, ((obj cls).mdl.nps p).name = "np" := by
    intro p
    have : p = ⟨0, by simp [obj]⟩ := by
      apply Fin.ext
      have h := p.2
      simp only [obj, List.length_cons, List.length_nil] at h
      exact Nat.lt_one_iff.1 h
    rw [this]
    simp [Obj.mdl, obj, ModelNP.numeric]
  have hpoi : ∀ p, (obj cls).mdl.pois p = "mu" := by
    intro p
    have : p = ⟨0, by simp [obj]⟩ := by
      apply Fin.ext
      have h := p.2
      simp only [obj, List.length_cons, List.length_nil] at h
      exact Nat.lt_one_iff.1 h
    rw [this]
    simp [Obj.mdl, obj]
  have haux : ((obj cls).mdl.nps ⟨0, by simp [obj]⟩).aux_obs = some "aux" := by simp [Obj.mdl, obj, ModelNP.numeric]
  have hnps : (dataModel (obj cls)).nps = [(obj cls).mdl.nps ⟨0, by simp [obj]⟩] := rfl
  obtain ⟨nl, hnl⟩ := Prune.numeric_all r0
  obtain ⟨dataset, -, hds⟩ := c13_roundtrip (dataModel (obj cls)) ⟨[6, 8], [0]⟩ (by simp [dataModel, obj])
    (by simp [dataModel, obj, cls, kindOf]) (by simp [dataModel, obj, cls, kindOf, DModel.nbins, DChannel.nbins])
    (by rw [hnps]; rfl) (by rw [hnps]; simp [haux])
    (fun p hp => by obtain ⟨i, rfl⟩ := List.mem_ofFn.1 hp; exact Prune.np_variation hnl hvar i)
  have hds : DData.loadDict (dataModel (obj cls)) dataset = .ok ⟨[6, 8], [0]⟩ := by
    rw [hds, hnps]
    have e6 : ⌊(6 : ℝ)⌋ = 6 := by exact_mod_cast Int.floor_intCast (R := ℝ) 6
    have e8 : ⌊(8 : ℝ)⌋ = 8 := by exact_mod_cast Int.floor_intCast (R := ℝ) 8
    simp [haux, e6, e8]
  have hdist : (obj cls).mdl.ctx.Distinct := by
    show List.Nodup _
    simp [Mdl.ctx, Obj.mdl, obj, Dict.keys, ModelNP.numeric]
  obtain ⟨-, -, A, ne, hA, hne⟩ := initModel_ok hi
  obtain ⟨y1, y2, hrem, l1, l2⟩ := removed A true (some 1)
  rw [show objOf true = obj cls from rfl] at hrem
  have hproc : Cmd.processSetvals lib (parNames (obj cls)) { scale_nps := true }
      (Cmd.render [("np".toList, "1".toList)]) = .ok [("np", .num 1)] := by
    have hp1 : (parNames (obj cls)).pois = ["mu"] := by
      show List.ofFn (obj cls).mdl.pois = _
      exact congrArg (· :: []) (hpoi ⟨0, by simp [obj]⟩)
    have hp2 : (parNames (obj cls)).nps = ["np"] := by
      show (List.ofFn fun p => ((obj cls).mdl.nps p).name) = _
      exact congrArg (· :: []) (hn ⟨0, by simp [obj]⟩)
    have hsc : (parNames (obj cls)).scaled "np" 1 = 1 := by
      have h3 := scaledNp_eq hdist ⟨0, by simp [obj]⟩ 1
      rw [hn] at h3
      refine Eq.trans h3 ?_
      simp [NP.scaledValue, Obj.mdl, obj, ModelNP.numeric]
    rw [Cmd.processSetvals, Cmd.fields_render _ (by simp) (by simp [Cmd.Plain])]
    simp only [List.map_cons, List.map_nil, List.foldlM_cons, List.foldlM_nil]
    have := Cmd.assignOne_eq lib (parNames (obj cls)) { scale_nps := true } [] ("np".toList, "1".toList)
    have hs : Cmd.selected lib (parNames (obj cls)) { scale_nps := true } "np".toList = ["np"] := by
      simp [Cmd.selected, hp1, hp2, lib]
    have hs' : ["np"].filter (lib.reMatch "np".toList) = ["np"] := by simp [lib]
    have hs2 : lib.float "1".toList = some 1 := by simp [lib]
    rw [this]
    dsimp only
    rw [hs, hs2, hp2, hs']
    simp [Cmd.assignLoop, Cmd.rawVal, Dict.set, hsc]
  have hpr : prunedModel texts lib { nps := some (Cmd.render [("np".toList, "1".toList)]) } D = .ok (pruned y1 y2) := by
    unfold prunedModel
    rw [h2, bind_ok]
    simp only [stepSamples, bind_ok, stepNps, hproc, List.mapM_cons, List.mapM_nil, asPull, pure_ok, hA, hrem, stepImpacts]
  have r1 := (prunedModel_ready MarkupDemo.lawful h2 hf hnd hpr).1
  obtain ⟨ds', hds', -, -⟩ := Prune.data_kept (prunedModel_ready MarkupDemo.lawful h2 hf hnd hpr).2.chans
    (keep := fun i => absurd i.2 (by simp [pruned])) (fun i => absurd i.2 (by simp [pruned])) hds
  obtain ⟨out', ho'⟩ := Prune.out_exists MarkupDemo.lawful r0 hvar hds
  obtain ⟨out, ho⟩ := Prune.out_exists MarkupDemo.lawful r1 (by simp [pruned]) hds'
  have hu : (obj cls).mdl.Uniform 1 := uniform_of_std rfl (std cls rfl)
  have hw : ∀ ch ∈ (obj cls).mdl.channels, ∀ smp ∈ ch.samples, smp.WellShaped ch.nbins :=
    fun ch hch smp hsmp => (hu ch hch smp hsmp).1
  have hl : List.finRange (obj cls).doc.nps.length = [⟨0, by simp [obj]⟩] := rfl
  have hsmall : ((obj cls).mdl.smallNps A 1).map (fun p => ((obj cls).mdl.nps p).name) = ["np"] := by
    have e12 : (-1 : ℝ) ≠ 1 := by norm_num
    have hin : ∀ p, p ∈ (obj cls).mdl.smallNps A 1 := by
      intro p
      rw [c61_pruned_iff one_pos hw hA, hn]
      intro ch hch smp hm
      simp only [Obj.mdl, obj, List.map_cons, List.map_nil, List.mem_singleton] at hch
      subst hch
      simp only [toChannel, List.mem_cons, List.not_mem_nil, or_false] at hm
      rcases hm with rfl | rfl
      · refine ⟨[(1 / 2) * (0 - -0), (1 / 2) * (0 - -0)], by
          simp [Sample.symImpact, Sample.impact, Dict.get?, lookupVar, e12, List.replicate], fun b hb => ?_⟩
        have hb : b < 2 := hb
        interval_cases b <;> norm_num
      · refine ⟨[(1 / 2) * (1 / 10 - -1 / 10), (1 / 2) * (1 / 10 - -1 / 10)], by
          simp [Sample.symImpact, Sample.impact, Dict.get?, lookupVar, e12, List.replicate]; try norm_num, fun b hb => ?_⟩
        have hb : b < 2 := hb
        interval_cases b <;> norm_num [abs_lt]
    have : (obj cls).mdl.smallNps A 1 = [⟨0, by simp [obj]⟩] := by
      have hf' : (obj cls).mdl.smallNps A 1 = List.finRange (obj cls).doc.nps.length :=
        List.filter_eq_self.2 (fun p hp => (List.mem_filter.1 (hin p)).2)
      rw [hf', hl]
    rw [this]
    simp [hn]
  obtain ⟨z1, z2, hrem', -, -⟩ := removed A false none
  have hpr' : prunedModel texts lib { min_np_impact := some 1 } D = .ok (pruned z1 z2) := by
    unfold prunedModel
    rw [h2, bind_ok]
    simp only [stepSamples, bind_ok, stepNps, stepImpacts, hA]
    unfold Markup.pruneNps
    dsimp only
    rw [hsmall]
    have hpop : (obj cls).doc.channels.mapM (popChan ["np"]) = .ok (objOf false).doc.channels := by
      simp [obj, popChan, popAll, Dict.get?, objOf]
    rw [hpop, bind_ok]
    exact hrem'
  have r2 := (prunedModel_ready MarkupDemo.lawful h2 hf hnd hpr').1
  obtain ⟨ds'', hds'', -, -⟩ := Prune.data_kept (prunedModel_ready MarkupDemo.lawful h2 hf hnd hpr').2.chans
    (keep := fun i => absurd i.2 (by simp [pruned])) (fun i => absurd i.2 (by simp [pruned])) hds
  obtain ⟨out'', ho''⟩ := Prune.out_exists MarkupDemo.lawful r2 (by simp [pruned]) hds''
  refine ⟨D, dataset, out, out', out'', _, A, h2, hf, hnd, hvar, hds, rfl, hdist, hn, ?_, hA, by simp [Cmd.Plain],
    by simp [Cmd.Plain], fun q => by simp [lib, hn], fun i => by simp [lib, hpoi], by simp [lib], ?_, ?_, ?_, hw, ?_⟩
  · exact hu
  · intro ch hch smp hm p
    rw [hn]
    simp only [Obj.mdl, obj, List.map_cons, List.map_nil, List.mem_singleton] at hch
    subst hch
    simp only [toChannel, List.mem_cons, List.not_mem_nil, or_false] at hm
    rcases hm with rfl | rfl <;> simp
  · unfold pruneScript
    have : prunedModel texts lib {} D = .ok (obj cls) := by
      unfold prunedModel
      rw [h2, bind_ok]
      rfl
    rw [this, bind_ok]
    simp only [Option.getD_some]
    rw [hds, bind_ok]
    exact ho'
  · unfold pruneScript
    rw [hpr, bind_ok]
    simp only [Option.getD_some]
    rw [hds', bind_ok]
    exact ho
  · unfold pruneScript
    rw [hpr', bind_ok]
    simp only [Option.getD_some]
    rw [hds'', bind_ok]
    exact ho''
end PruneDemo

namespace PruneDemo
open MarkupDemo
/-- A pattern that selects the POI: the hypotheses of `c74_poi_selected_fails` are met. -/
example : ∃ D, load texts D = .ok (obj cls) ∧ (obj cls).mdl.ctx.Distinct ∧ Cmd.Plain "mu".toList ∧ Cmd.Plain "1".toList ∧
    (∀ i, lib.reMatch "mu".toList ((obj cls).mdl.pois i) = true) ∧
    ∀ i q, lib.reMatch ((obj cls).mdl.pois i).toList ((obj cls).mdl.nps q).name = false := by
  obtain ⟨D, -, -, -, -, -, -, h1, -, -, -, -, -, h2, h3, -⟩ := runs
  have hpoi : ∀ p, (obj cls).mdl.pois p = "mu" := by
    intro p
    have : p = ⟨0, by simp [obj]⟩ := by
      apply Fin.ext
      have h := p.2
      simp only [obj, List.length_cons, List.length_nil] at h
      exact Nat.lt_one_iff.1 h
    rw [this]
    simp [Obj.mdl, obj]
  exact ⟨D, h1, h2, by simp [Cmd.Plain], by simp [Cmd.Plain], fun i => by simp [lib, hpoi],
    fun i q => by simp [lib, hpoi, h3]⟩

/-- A model with two free NPs. -/
noncomputable def raw2 : ModelDoc RawSample where
  name := none
  description := none
  pois := [{ name := some "mu", min_value := some 0, max_value := some 10, initial_value := some 1 }]
  aux := []
  nps := [{ name := some "a", nominal_value := some 1, variation := some 2, constraint := none, aux_obs := none },
    { name := some "b", nominal_value := some 3, variation := some 1, constraint := none, aux_obs := none }]
  exprs := []
  channels := [{ name := "c", cls := .single, samples := [
    { name := "s", norm := .number 2, nominal_norm := some 2, nominal_yields := some [5], impacts := [] }] }]

/-- The object made from it. -/
noncomputable def obj2 : Obj where
  doc := { raw2 with channels := [{ name := "c", cls := .single, samples := [
    { name := "s", norm := .number 2, nominal_norm := 2, nominal_yields := [5], impacts := [] }] }] }
  flags := {}

theorem init2 : initModel raw2 {} = .ok obj2 := by
  have hs : setUp raw2 = .ok obj2.doc := by
    simp [setUp, raw2, obj2, numericPOI, needName, ModelNP.numeric, refVals, ExprCtx.evalLoop, setUpChannel,
      RawSample.setNpData, Norm.value, Norm.implicitImpact, Dict.get?, Dict.set]
  have hstd : ∀ ch ∈ obj2.mdl.channels, 0 < ch.nbins ∧ ∀ s ∈ ch.samples, s.Std ch.nbins := by
    intro ch hch
    simp only [Obj.mdl, obj2, List.map_cons, List.map_nil, List.mem_singleton] at hch
    subst hch
    refine ⟨by simp [toChannel, ChClass.nbins], ?_⟩
    intro s hs
    simp only [toChannel, List.mem_cons, List.not_mem_nil, or_false] at hs
    subst hs
    exact ⟨by simp [toChannel, ChClass.nbins], fun par i h => by simp [Dict.get?] at h⟩
  obtain ⟨A, hA⟩ := setInternal_of_std (m := obj2.mdl) rfl hstd (by simp [PoissonFirst, Obj.mdl, obj2])
  have hv : obj2.mdl.ctx.realVals obj2.mdl.poiInit = .ok [("mu", 1), ("a", 1), ("b", 3)] := by
    simp [ExprCtx.realVals, ExprCtx.evalLoop, ExprCtx.base, Mdl.ctx, Obj.mdl, obj2, raw2, ModelNP.numeric,
      Dict.get?, Dict.getItem, Dict.set]
  have hcomp : obj2.mdl.Computable [("mu", 1), ("a", 1), ("b", 3)] := by
    refine ⟨?_, ?_, ?_⟩
    · intro s hs
      have e1 : obj2.mdl.nbins = 1 := by
        simp [Mdl.nbins, Mdl.chanState, Obj.mdl, obj2, chanStep, toChannel, ChClass.nbins]
      have e2 : obj2.mdl.maxSamples = 1 := by
        simp [Mdl.maxSamples, Mdl.chanState, Obj.mdl, obj2, chanStep, toChannel]
      rw [e2] at hs
      rw [e1]
      interval_cases s
      simp [Mdl.cells, Channel.cells, Obj.mdl, obj2, toChannel]
    · intro ch hch smp hm
      simp only [Obj.mdl, obj2, List.map_cons, List.map_nil, List.mem_singleton] at hch
      subst hch
      simp only [toChannel, List.mem_cons, List.not_mem_nil, or_false] at hm
      subst hm
      norm_num
    · intro ch hch smp hm
      simp only [Obj.mdl, obj2, List.map_cons, List.map_nil, List.mem_singleton] at hch
      subst hch
      simp only [toChannel, List.mem_cons, List.not_mem_nil, or_false] at hm
      subst hm
      simp [Norm.value]
  obtain ⟨ne, hne, -⟩ := Mdl.nExp_ok A 0 hv hcomp
  exact initModel_intro hs rfl hA hne

/-- The pattern `*` selects both NPs and not the POI: `c74_wildcard_values` applies, and the second NP is held at 4
(= the pull of the first at value 9), not at 9. -/
example : ∃ (D : Dict V) (A : Mdl.Arrays) (L : Cmd.Lib), load texts D = .ok obj2 ∧ obj2.mdl.setInternal = .ok A ∧
    obj2.mdl.ctx.Distinct ∧ Cmd.Plain "*".toList ∧ Cmd.Plain "9".toList ∧ L.float "9".toList = some 9 ∧
    (∀ r : Fin obj2.doc.nps.length, L.reMatch "*".toList (obj2.mdl.nps r).name = true ↔ r = ⟨0, by simp [obj2, raw2]⟩ ∨
      r = ⟨1, by simp [obj2, raw2]⟩) ∧
    (∀ i, L.reMatch "*".toList (obj2.mdl.pois i) = false) ∧
    (∀ q, (obj2.mdl.nps q).variation ≠ 0) ∧
    ((9 : ℝ) - (obj2.mdl.nps ⟨0, by simp [obj2, raw2]⟩).nominal_value) /
      (obj2.mdl.nps ⟨0, by simp [obj2, raw2]⟩).variation = 4 := by
  have hst : Storable texts raw2 := by
    refine ⟨?_, ?_, ?_, ?_, ?_, ?_, ?_, ?_, ?_⟩
    all_goals try simp [raw2]
    refine ⟨⟨_, rfl⟩, by simp, fun s hs => ?_, fun s hs l hl => ?_⟩
    · simp only [List.mem_singleton] at hs
      subst hs
      exact ⟨(fun e he => by cases he), by simp⟩
    · simp only [List.mem_singleton] at hs
      subst hs
      simp only [Option.some.injEq] at hl
      subst hl
      rfl
  have hf : Faithful obj2 := ⟨by simp [obj2, raw2], by simp [obj2, ChClass.isGauss], by simp [obj2, ChClass.nbins]⟩
  obtain ⟨D, -, h2⟩ := c32_constructed_roundtrip MarkupDemo.lawful hst init2 hf
  obtain ⟨-, -, A, ne, hA, -⟩ := initModel_ok init2
  have h0 : obj2.mdl.nps ⟨0, by simp [obj2, raw2]⟩ = ⟨"a", 1, 2, none, none⟩ := by simp [Obj.mdl, obj2, raw2, ModelNP.numeric]
  have h1 : obj2.mdl.nps ⟨1, by simp [obj2, raw2]⟩ = ⟨"b", 3, 1, none, none⟩ := by simp [Obj.mdl, obj2, raw2, ModelNP.numeric]
  have hall : ∀ r : Fin obj2.doc.nps.length, r = ⟨0, by simp [obj2, raw2]⟩ ∨ r = ⟨1, by simp [obj2, raw2]⟩ := by
    intro r
    have h := r.2
    have hl : obj2.doc.nps.length = 2 := by simp [obj2, raw2]
    have h : r.1 < 2 := lt_of_lt_of_eq h hl
    rcases Nat.lt_or_ge r.1 1 with h' | h'
    · left; apply Fin.ext; show r.1 = 0; omega
    · right; apply Fin.ext; show r.1 = 1; omega
  refine ⟨D, A, ⟨fun v n => decide (v = "*".toList ∧ n ≠ "mu"), fun _ => some 9, fun _ => none⟩, h2, hA, ?_,
    by simp [Cmd.Plain], by simp [Cmd.Plain], rfl, ?_, ?_, ?_, ?_⟩
  · show List.Nodup _
    simp [Mdl.ctx, Obj.mdl, obj2, raw2, Dict.keys, ModelNP.numeric]
  · intro r
    rcases hall r with rfl | rfl
    · simp [h0]
    · simp [h1]
  · intro i
    have : obj2.mdl.pois i = "mu" := by
      have h := i.2
      have hl : obj2.doc.pois.length = 1 := by simp [obj2, raw2]
      have : i = ⟨0, by simp [obj2, raw2]⟩ := by apply Fin.ext; show i.1 = 0; omega
      rw [this]
      simp [Obj.mdl, obj2, raw2]
    simp [this]
  · intro q
    rcases hall q with rfl | rfl
    · rw [h0]; norm_num
    · rw [h1]; norm_num
  · rw [h0]; norm_num

end PruneDemo

end Verif.Props
