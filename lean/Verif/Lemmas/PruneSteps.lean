import Verif.Lemmas.PruneScript
import Verif.Props.Tools
/-! The steps of `prune_model.py`: what is preserved, what is saved, what is loaded again. -/
namespace Verif
namespace Markup
open Mdl
variable {T : Texts}

/-- An object that is saved faithfully. -/
structure Ready (T : Texts) (o : Obj) : Prop where
  good : DocGood T (rawDoc o.doc)
  init : initModel (rawDoc o.doc) {} = .ok o

theorem Ready.flags {o : Obj} (h : Ready T o) : o.flags = {} := (Props.initModel_ok h.init).2.1

theorem Ready.faithful {o : Obj} (h : Ready T o) : Props.Faithful o := h.good.faithful h.init

theorem ready_of_load (hT : T.Lawful) {D : Dict V} {o : Obj} (ho : load T D = .ok o) (hf : Props.Faithful o)
    (ha : (o.doc.nps.filterMap (·.aux_obs)).Nodup) : Ready T o := by
  unfold load at ho
  rw [bind_eq_ok] at ho
  obtain ⟨d, hd, h1⟩ := ho
  obtain ⟨hs, hfl, A, ne, hA, hne⟩ := Props.initModel_ok h1
  obtain ⟨k1, k2⟩ := setUp_raw hT hs (loadDoc_ok hT (by simp) hd)
  refine ⟨⟨Props.loaded_of_storable (k2 hf.poi (fun c hc => Props.fillClass_ok (fun b hh e => ?_)) hf.yields),
    hf.poi, ?_, ?_, ha⟩, Props.initModel_intro k1 hfl hA hne⟩
  · have := hf.poisson c hc; rw [e] at this; cases this
  · intro c hc
    obtain ⟨c', hc', rfl⟩ := List.mem_map.1 hc
    exact hf.poisson c' hc'
  · intro c hc s hs'
    obtain ⟨c', hc', rfl⟩ := List.mem_map.1 hc
    obtain ⟨s', hs'', rfl⟩ := List.mem_map.1 hs'
    exact ⟨_, rfl, hf.yields c' hc' s' hs''⟩

theorem Ready.npDataSet (hT : T.Lawful) {o : Obj} (h : Ready T o) : o.mdl.NpDataSet :=
  npDataSet_of_init hT h.good.loaded h.init

/-- Fewer (or smaller) samples. -/
theorem DocGood.channels {o : Obj} (h : DocGood T (rawDoc o.doc)) {chans : List (ChanDoc Sample)}
    (hF : List.Forall₂ (fun c c' => c'.name = c.name ∧ c'.cls = c.cls ∧
      (c'.samples.map (·.name)).Sublist (c.samples.map (·.name)) ∧
      ∀ s' ∈ c'.samples, ∃ s ∈ c.samples, s'.norm = s.norm ∧ s'.nominal_yields = s.nominal_yields ∧
        ∀ kv ∈ s'.impacts, kv ∈ s.impacts) o.doc.channels chans) :
    DocGood T (rawDoc { o.doc with channels := chans }) := by
  have hnames : chans.map (·.name) = o.doc.channels.map (·.name) := forall₂_names (hF.imp fun c c' hh => hh.1)
  have hn1 : ((rawDoc o.doc).channels.map (·.name)) = o.doc.channels.map (·.name) := by
    simp only [rawDoc, List.map_map]; rfl
  have hn2 : ((rawDoc { o.doc with channels := chans }).channels.map (·.name)) = chans.map (·.name) := by
    simp only [rawDoc, List.map_map]; rfl
  refine ⟨⟨h.loaded.np, h.loaded.aux_declared, h.loaded.poi_distinct, h.loaded.aux_distinct, h.loaded.np_distinct,
    h.loaded.expr_distinct, ?_, ?_, ?_, ?_⟩, h.poi, ?_, ?_, h.aux⟩
  · rw [hn2, hnames, ← hn1]; exact h.loaded.chan_distinct
  · intro c0 hc0
    obtain ⟨c', hc', rfl⟩ := List.mem_map.1 hc0
    obtain ⟨c, hc, k1, k2, k3, k4⟩ := forall₂_mem_right hF c' hc'
    have := h.loaded.sample_distinct (rawChannel c) (List.mem_map.2 ⟨c, hc, rfl⟩)
    simp only [rawChannel, List.map_map] at this ⊢
    exact this.sublist k3
  · intro c0 hc0 s0 hs0
    obtain ⟨c', hc', rfl⟩ := List.mem_map.1 hc0
    obtain ⟨s', hs', rfl⟩ := List.mem_map.1 hs0
    obtain ⟨c, hc, k1, k2, k3, k4⟩ := forall₂_mem_right hF c' hc'
    obtain ⟨s, hs, j1, j2, j3⟩ := k4 s' hs'
    have := h.loaded.samples (rawChannel c) (List.mem_map.2 ⟨c, hc, rfl⟩) (toRaw s) (List.mem_map.2 ⟨s, hs, rfl⟩)
    exact ⟨fun e he => this.norm e (by rw [← he]; exact j1.symm), fun kv hkv => this.impacts kv (j3 kv hkv)⟩
  · intro c0 hc0 s0 hs0 l hl
    obtain ⟨c', hc', rfl⟩ := List.mem_map.1 hc0
    obtain ⟨s', hs', rfl⟩ := List.mem_map.1 hs0
    obtain ⟨c, hc, k1, k2, k3, k4⟩ := forall₂_mem_right hF c' hc'
    obtain ⟨s, hs, j1, j2, j3⟩ := k4 s' hs'
    have := h.loaded.sizes (rawChannel c) (List.mem_map.2 ⟨c, hc, rfl⟩) (toRaw s) (List.mem_map.2 ⟨s, hs, rfl⟩) l
      (by rw [← hl]; simp [toRaw, j2])
    rw [this]; simp [rawChannel, k2]
  · intro c0 hc0
    obtain ⟨c', hc', rfl⟩ := List.mem_map.1 hc0
    obtain ⟨c, hc, k1, k2, k3, k4⟩ := forall₂_mem_right hF c' hc'
    show c'.cls.isGauss = false
    rw [k2]
    exact h.poisson (rawChannel c) (List.mem_map.2 ⟨c, hc, rfl⟩)
  · intro c0 hc0 s0 hs0
    obtain ⟨c', hc', rfl⟩ := List.mem_map.1 hc0
    obtain ⟨s', hs', rfl⟩ := List.mem_map.1 hs0
    obtain ⟨c, hc, k1, k2, k3, k4⟩ := forall₂_mem_right hF c' hc'
    obtain ⟨s, hs, j1, j2, j3⟩ := k4 s' hs'
    obtain ⟨l, hl, hlen⟩ := h.yields (rawChannel c) (List.mem_map.2 ⟨c, hc, rfl⟩) (toRaw s) (List.mem_map.2 ⟨s, hs, rfl⟩)
    exact ⟨l, by rw [← hl]; simp [toRaw, j2], by rw [hlen]; simp [rawChannel, k2]⟩

/-- What all steps keep. -/
structure Kept (o o' : Obj) : Prop where
  pois : o'.doc.pois = o.doc.pois
  exprs : o'.doc.exprs = o.doc.exprs
  nps : o'.doc.nps.Sublist o.doc.nps
  chans : o'.doc.channels.map (fun c => (c.name, c.cls)) = o.doc.channels.map fun c => (c.name, c.cls)

theorem Kept.refl (o : Obj) : Kept o o := ⟨rfl, rfl, List.Sublist.refl _, rfl⟩

theorem Kept.trans {o o' o'' : Obj} (h : Kept o o') (h' : Kept o' o'') : Kept o o'' :=
  ⟨h'.pois.trans h.pois, h'.exprs.trans h.exprs, h'.nps.trans h.nps, h'.chans.trans h.chans⟩

theorem init_chans {d : ModelDoc RawSample} {f : Flags} {o : Obj} (ho : initModel d f = .ok o) :
    o.doc.channels.map (fun c => (c.name, c.cls)) = d.channels.map fun c => (c.name, c.cls) := by
  obtain ⟨hs, -, -⟩ := Props.initModel_ok ho
  obtain ⟨-, -, -, -, -, -, -, vals, -, hc⟩ := setUp_inv (f := f) hs
  refine forall₂_names ((mapM_ok_iff.1 hc).imp fun c c' hh => ?_)
  obtain ⟨k1, k2, -⟩ := setUpChannel_inv hh
  rw [k1, k2]

theorem pruneSamples_ready (hT : T.Lawful) {z : ℝ} {o o' : Obj} (h : Ready T o) (hp : pruneSamples z o = .ok o') :
    Ready T o' ∧ Kept o o' ∧ o'.doc.nps = o.doc.nps := by
  unfold pruneSamples at hp
  dsimp only at hp
  split at hp
  · have := Except.ok.inj (ε := PyErr) hp
    subst this
    exact ⟨h, Kept.refl _, rfl⟩
  · have hg : DocGood T (rawDoc { o.doc with channels := o.doc.channels.map (pruneChan z) }) := by
      refine h.good.channels ?_
      rw [List.forall₂_map_right_iff, List.forall₂_same]
      intro c _
      have hsub : (pruneChan z c).samples.Sublist c.samples := List.filter_sublist
      exact ⟨rfl, rfl, hsub.map _, fun s hs => ⟨s, hsub.subset hs, rfl, rfl, fun kv hkv => hkv⟩⟩
    rw [h.flags] at hp
    obtain ⟨a1, a2⟩ := hg.after hT hp
    obtain ⟨hs, -, -⟩ := Props.initModel_ok hp
    obtain ⟨e1, e2, e3, -⟩ := setUp_inv (f := o.flags) hs
    refine ⟨⟨a1, a2⟩, ⟨e1, e3, by rw [e2]; exact List.Sublist.refl _, ?_⟩, e2⟩
    rw [init_chans hp]
    simp [rawDoc, rawChannel, pruneChan, Function.comp_def]

theorem removeNps_ready (hT : T.Lawful) {A : Arrays} {rx : String → String → Bool} {pv : Dict (Option ℝ)} {o o' : Obj}
    (h : DocGood T (rawDoc o.doc)) (hf : o.flags = {}) (hp : removeNps A rx pv o = .ok o') :
    Ready T o' ∧ Kept o o' := by
  obtain ⟨sels, aux', chans', hsel, he, haux, hnd, -, chans, hin, ne, vals, offs, hc⟩ := removeNps_mdl hp
  have hg := h.removed haux hc
  rw [hf] at hin
  obtain ⟨a1, a2⟩ := hg.after hT hin
  have hch := init_chans hin
  refine ⟨⟨a1, a2⟩, ?_⟩
  subst he
  refine ⟨rfl, rfl, kept_sublist _ _, hch.trans ?_⟩
  refine forall₂_names ((mapM_ok_iff.1 hc).imp fun c c' hh => ?_)
  obtain ⟨k1, k2, -⟩ := refitDoc_inv hh
  rw [k1, k2]

theorem popChan_inv {names : List String} {c c' : ChanDoc Sample} (h : popChan names c = .ok c') :
    c'.name = c.name ∧ c'.cls = c.cls ∧ List.Forall₂ (fun s s' => popAll s names = .ok s') c.samples c'.samples := by
  unfold popChan at h
  obtain ⟨ss, hss, h1⟩ := bind_eq_ok.1 h
  have h2 := Except.ok.inj (ε := PyErr) h1
  subst h2
  exact ⟨rfl, rfl, mapM_ok_iff.1 hss⟩

theorem popAll_inv {s s' : Sample} {names : List String} (h : popAll s names = .ok s') :
    s' = { s with impacts := s.impacts.filter (fun e => decide (e.1 ∉ names)) } := by
  unfold popAll at h
  split at h
  · exact (Except.ok.inj (ε := PyErr) h).symm
  · cases h

theorem popped_good {o : Obj} (h : DocGood T (rawDoc o.doc)) {names : List String} {chans : List (ChanDoc Sample)}
    (hc : o.doc.channels.mapM (popChan names) = .ok chans) :
    DocGood T (rawDoc { o.doc with channels := chans }) ∧
      chans.map (fun c => (c.name, c.cls)) = o.doc.channels.map fun c => (c.name, c.cls) := by
  have hF := mapM_ok_iff.1 hc
  refine ⟨h.channels (hF.imp fun c c' hh => ?_), forall₂_names (hF.imp fun c c' hh => ?_)⟩
  · obtain ⟨k1, k2, k3⟩ := popChan_inv hh
    refine ⟨k1, k2, ?_, ?_⟩
    · rw [forall₂_names (k3.imp fun s s' hs => by rw [popAll_inv hs] : List.Forall₂ (fun s s' => s'.name = s.name) _ _)]
    · intro s' hs'
      obtain ⟨s, hs, hss⟩ := forall₂_mem_right k3 s' hs'
      rw [popAll_inv hss]
      exact ⟨s, hs, rfl, rfl, fun kv hkv => List.mem_of_mem_filter hkv⟩
  · obtain ⟨k1, k2, -⟩ := popChan_inv hh
    rw [k1, k2]

theorem pruneNps_ready (hT : T.Lawful) {A : Arrays} {rx : String → String → Bool} {ε : ℝ} {o o' : Obj}
    (h : Ready T o) (hp : pruneNps A rx ε o = .ok o') : Ready T o' ∧ Kept o o' := by
  unfold pruneNps at hp
  dsimp only at hp
  obtain ⟨chans, hc, h1⟩ := bind_eq_ok.1 hp
  obtain ⟨g1, g2⟩ := popped_good h.good hc
  obtain ⟨r1, r2⟩ := removeNps_ready hT (o := { o with doc := { o.doc with channels := chans } }) g1 h.flags h1
  exact ⟨r1, ⟨r2.pois, r2.exprs, r2.nps, r2.chans.trans g2⟩⟩

theorem prunedModel_ready (hT : T.Lawful) {L : Cmd.Lib} {opts : PruneOpts} {D : Dict V} {o o' : Obj}
    (ho : load T D = .ok o) (hf : Props.Faithful o) (ha : (o.doc.nps.filterMap (·.aux_obs)).Nodup)
    (hp : prunedModel T L opts D = .ok o') : Ready T o' ∧ Kept o o' := by
  unfold prunedModel at hp
  rw [ho, bind_ok] at hp
  obtain ⟨o1, h1, hp1⟩ := bind_eq_ok.1 hp
  obtain ⟨o2, h2, h3⟩ := bind_eq_ok.1 hp1
  have r0 := ready_of_load hT ho hf ha
  have r1 : Ready T o1 ∧ Kept o o1 := by
    unfold stepSamples at h1
    split at h1
    · have := Except.ok.inj (ε := PyErr) h1
      subst this
      exact ⟨r0, Kept.refl _⟩
    · obtain ⟨a, b, -⟩ := pruneSamples_ready hT r0 h1
      exact ⟨a, b⟩
  have r2 : Ready T o2 ∧ Kept o1 o2 := by
    unfold stepNps at h2
    split at h2
    · have := Except.ok.inj (ε := PyErr) h2
      subst this
      exact ⟨r1.1, Kept.refl _⟩
    · obtain ⟨d, -, h4⟩ := bind_eq_ok.1 h2
      obtain ⟨pv, -, h5⟩ := bind_eq_ok.1 h4
      obtain ⟨A, -, h6⟩ := bind_eq_ok.1 h5
      exact removeNps_ready hT r1.1.good r1.1.flags h6
  have r3 : Ready T o' ∧ Kept o2 o' := by
    unfold stepImpacts at h3
    split at h3
    · have := Except.ok.inj (ε := PyErr) h3
      subst this
      exact ⟨r2.1, Kept.refl _⟩
    · obtain ⟨A, -, h6⟩ := bind_eq_ok.1 h3
      exact pruneNps_ready hT r2.1 h6
  exact ⟨r3.1, (r1.2.trans r2.2).trans r3.2⟩

/-! ### Saving and loading -/

theorem save_shape {o : Obj} {D : Dict V} (h : save T o = .ok D) : ∃ m, D = [("model", m)] := by
  unfold save fillDoc at h
  obtain ⟨chans, -, h1⟩ := bind_eq_ok.1 h
  exact ⟨_, (Except.ok.inj (ε := PyErr) h1).symm⟩

theorem load_congr {D D' : Dict V} (h : D'.get? "model" = D.get? "model") : load T D' = load T D := by
  unfold load loadDoc Dict.getItem
  rw [h]

theorem Ready.saved (hT : T.Lawful) {o : Obj} (h : Ready T o) : ∃ D, save T o = .ok D ∧ load T D = .ok o := by
  obtain ⟨D, h1, h2, -⟩ := Props.save_and_load hT h.good.loaded h.init h.faithful
  exact ⟨D, h1, by rw [h2]; exact h.init⟩

theorem data_inv {m : DModel} {F : Dict V} {s : DData.DS} (h : DData.loadDict m F = .ok s) :
    ∃ (d : Dict V) (l : List V) (parts : List (List ℝ)) (aux : Dict ℝ), F.get? "data" = some (.dict d) ∧
      d.get? "channels" = some (.list l) ∧ m.channels.mapM (DData.loadOne l) = .ok parts ∧
      DData.auxDict d = .ok aux ∧ m.nps.mapM (DData.auxValue aux) = .ok s.aux_obs ∧ s.counts = parts.flatten := by
  unfold DData.loadDict at h
  obtain ⟨v, hv, h1⟩ := bind_eq_ok.1 h
  cases v with
  | dict d =>
    dsimp only at h1
    obtain ⟨v2, hv2, h2⟩ := bind_eq_ok.1 h1
    cases v2 with
    | list l =>
      dsimp only at h2
      obtain ⟨parts, hparts, h3⟩ := bind_eq_ok.1 h2
      obtain ⟨aux, haux, h4⟩ := bind_eq_ok.1 h3
      obtain ⟨vals, hvals, h5⟩ := bind_eq_ok.1 h4
      have hlen : vals.length = m.nps.length := (mapM_ok_iff.1 hvals).length_eq.symm
      rw [DData.setAuxObs_full m vals hlen, bind_ok] at h5
      have h6 := Except.ok.inj (ε := PyErr) h5
      subst h6
      exact ⟨d, l, parts, aux, Dict.getItem_ok.1 hv, Dict.getItem_ok.1 hv2, hparts, haux, hvals, rfl⟩
    | _ => simp at h2
  | _ => simp at h1

theorem data_intro {m : DModel} {F d : Dict V} {l : List V} {parts : List (List ℝ)} {aux : Dict ℝ} {vals : List ℝ}
    (h1 : F.get? "data" = some (.dict d)) (h2 : d.get? "channels" = some (.list l))
    (h3 : m.channels.mapM (DData.loadOne l) = .ok parts) (h4 : DData.auxDict d = .ok aux)
    (h5 : m.nps.mapM (DData.auxValue aux) = .ok vals) : DData.loadDict m F = .ok ⟨parts.flatten, vals⟩ := by
  unfold DData.loadDict
  rw [Dict.getItem_ok.2 h1, bind_ok]
  dsimp only
  rw [Dict.getItem_ok.2 h2, bind_ok]
  dsimp only
  have hlen : vals.length = m.nps.length := (mapM_ok_iff.1 h5).length_eq.symm
  rw [h3, bind_ok, h4, bind_ok, h5, bind_ok, DData.setAuxObs_full m vals hlen, bind_ok]
  rfl

theorem data_length {m : DModel} {F : Dict V} {s : DData.DS} (h : DData.loadDict m F = .ok s) :
    s.counts.length = m.nbins ∧ s.aux_obs.length = m.nps.length := by
  obtain ⟨d, l, parts, aux, -, -, h3, -, h5, h6⟩ := data_inv h
  refine ⟨?_, (mapM_ok_iff.1 h5).length_eq.symm⟩
  rw [h6, DModel.nbins, List.length_flatten]
  congr 1
  exact forall₂_names ((mapM_ok_iff.1 h3).imp fun c r hh => Props.loadOne_length hh)

theorem data_congr {m : DModel} {F F' : Dict V} (h : F'.get? "data" = F.get? "data") :
    DData.loadDict m F' = DData.loadDict m F := by
  unfold DData.loadDict Dict.getItem
  rw [h]

theorem kept_zero {m : DModel} {F : Dict V} {s : DData.DS} (h : DData.loadDict m F = .ok s) :
    List.zipWith (fun (p : NP ℝ) a => if p.aux_obs = none then 0 else a) m.nps s.aux_obs = s.aux_obs := by
  obtain ⟨d, l, parts, aux, -, -, -, -, h5, -⟩ := data_inv h
  have hF := mapM_ok_iff.1 h5
  generalize m.nps = nps at hF
  generalize s.aux_obs = vals at hF
  clear h5
  induction hF with
  | nil => rfl
  | @cons p v nps vals hh _ ih =>
    rw [List.zipWith_cons_cons, ih]
    congr 1
    by_cases e : p.aux_obs = none
    · rw [if_pos e]
      simp [DData.auxValue, e] at hh
      exact hh
    · rw [if_neg e]

end Markup
end Verif
