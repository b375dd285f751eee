import Verif.Lemmas.MergeScript
/-! Lemmas on the successive merges of `merge_channels.py`. -/
namespace Verif
open Merge Mdl
namespace Markup
variable {T : Texts}

/-- The values `l'` for the bins of `m'` are the values `l` for the bins of `m`: those of a channel that is not merged
are the same, and those of a merged channel are those of the channels it is made of, in order. -/
structure SameSlices {n P : Nat} (m m' : Mdl n P) (specs : List MergeSpec) (l l' : List ℝ) : Prop where
  other : ∀ ch ∈ m.channels, (∀ s ∈ specs, ch.name ∉ s.channels) →
    m'.channelSlice l' ch.name = m.channelSlice l ch.name
  merged : ∀ s ∈ specs, ∃ parts, s.channels.mapM (m.channelSlice l) = .ok parts ∧
    m'.channelSlice l' s.name = .ok parts.flatten

/-- The two models predict the same. -/
structure SamePredictions {n P : Nat} (m m' : Mdl n P) (A A' : Arrays) (specs : List MergeSpec) : Prop where
  nbins : m'.nbins = m.nbins
  tot : ∀ x θ N, m.totBinExp A x θ = .ok N → ∃ N', m'.totBinExp A' x θ = .ok N' ∧
    SameSlices m m' specs (Verif.asList N m.nbins) (Verif.asList N' m'.nbins)

/-- The two datasets are the same, and so are the likelihoods. -/
structure SameData {n P : Nat} (m m' : Mdl n P) (A A' : Arrays) (specs : List MergeSpec) (l l' : List ℝ) : Prop where
  length : l'.length = m'.nbins
  mem : ∀ x ∈ l', x ∈ l
  slices : SameSlices m m' specs l l'
  nll : ∀ (aux : Fin P → ℝ) x θ N offset floor nc, m.totBinExp A x θ = .ok N →
    m'.nll A' x θ ⟨fun b => l'.getD b 0, aux⟩ offset floor nc = m.nll A x θ ⟨fun b => l.getD b 0, aux⟩ offset floor nc

/-- The merges can be done, each on its own, and they concern different channels. -/
structure MergePlan (o : Obj) (specs : List MergeSpec) : Prop where
  each : ∀ s ∈ specs, ∃ ms, Mergeable o.mdl (kindNamed o) s.channels s.name s.ranges ms
  apart : specs.Pairwise fun s t => (∀ c ∈ s.channels, c ∉ t.channels) ∧ s.name ≠ t.name

theorem mem_mergedCounts {n P : Nat} {m : Mdl n P} {names : List String} {counts : List ℝ} {chans : List Channel}
    {added : Bool} {c : List ℝ} (h : m.mergedCounts names counts chans added = .ok c) : ∀ x ∈ c, x ∈ counts := by
  have hsl : ∀ {nm a}, m.channelSlice counts nm = .ok a → ∀ x ∈ a, x ∈ counts := by
    intro nm a ha x hx
    unfold channelSlice at ha
    obtain ⟨o, -, h1⟩ := bind_eq_ok.1 ha
    split at h1
    · have := Except.ok.inj (ε := PyErr) h1
      rw [← this] at hx
      exact List.mem_of_mem_drop (List.mem_of_mem_take hx)
    · cases h1
  induction chans generalizing added c with
  | nil =>
    have := Except.ok.inj (ε := PyErr) h
    rw [← this]
    intro x hx; cases hx
  | cons ch chans ih =>
    unfold mergedCounts at h
    by_cases hc : ch.name ∉ names
    · rw [if_pos hc] at h
      obtain ⟨a, ha, h1⟩ := bind_eq_ok.1 h
      obtain ⟨r, hr, h2⟩ := bind_eq_ok.1 h1
      have := Except.ok.inj (ε := PyErr) h2
      subst this
      intro x hx
      rcases List.mem_append.1 hx with hx | hx
      · exact hsl ha x hx
      · exact ih hr x hx
    · rw [if_neg hc] at h
      cases added with
      | true => simp only [if_true] at h; exact ih h
      | false =>
        simp only [Bool.false_eq_true, if_false] at h
        obtain ⟨a, ha, h1⟩ := bind_eq_ok.1 h
        obtain ⟨r, hr, h2⟩ := bind_eq_ok.1 h1
        have := Except.ok.inj (ε := PyErr) h2
        subst this
        intro x hx
        rcases List.mem_append.1 hx with hx | hx
        · obtain ⟨p, hp, hx⟩ := List.mem_flatten.1 hx
          obtain ⟨nm, -, hnm⟩ := forall₂_mem_right (mapM_ok_iff.1 ha) p hp
          exact hsl hnm x hx
        · exact ih hr x hx

theorem mergeData_inv {n P : Nat} {m m' : Mdl n P} {kind : String → ChKind} {names : List String} {counts c : List ℝ}
    (h : m.mergeData kind names m' counts = .ok (some c)) : m.mergedCounts names counts m.channels false = .ok c := by
  unfold mergeData at h
  obtain ⟨r, -, h1⟩ := bind_eq_ok.1 h
  cases r with
  | none => cases h1
  | some q =>
    dsimp only at h1
    obtain ⟨c', hc', h2⟩ := bind_eq_ok.1 h1
    by_cases hl : c'.length ≠ m'.nbins
    · rw [if_pos hl] at h2; cases h2
    · rw [if_neg hl] at h2
      rw [hc', Option.some.inj (Except.ok.inj (ε := PyErr) h2)]

theorem setCounts_full {m : DModel} {c : List ℝ} (h : c.length = m.nbins) : DData.setCounts m c = .ok c := by
  unfold DData.setCounts
  by_cases h0 : c.length > 0
  · rw [if_pos h0, if_neg (by simp [h])]
  · rw [if_neg h0, ← h]
    have : c = [] := List.length_eq_zero_iff.1 (by omega)
    rw [this]; rfl

theorem forall₂_with_mem {α β : Type} {R : α → β → Prop} {l : List α} {r : List β} (h : List.Forall₂ R l r) :
    List.Forall₂ (fun a b => R a b ∧ b ∈ r) l r := by
  induction h with
  | nil => exact .nil
  | cons hh _ ih => exact .cons ⟨hh, by simp⟩ (ih.imp fun a b q => ⟨q.1, by simp [q.2]⟩)

theorem dataModel_nbins (o : Obj) : (dataModel o).nbins = o.mdl.nbins := by
  rw [nbins_eq_sum]
  simp only [DModel.nbins, dataModel, Obj.mdl, List.map_map]
  congr 1
  refine List.map_congr_left fun c _ => ?_
  simp only [Function.comp_apply, DChannel.nbins, toChannel, ChClass.nbins, kindOf]
  cases c.cls <;> simp

theorem kept_channel {n P : Nat} {m m' : Mdl n P} {names mergedName ms merged keys pre c0 post}
    (h : MergedInto m names mergedName ms m' merged keys pre c0 post) {ch : Channel} (hc : ch ∈ m.channels)
    (hn : ch.name ∉ names) : ch ∈ m'.channels := by
  rw [h.channels]
  rw [h.split] at hc
  rcases List.mem_append.1 hc with hh | hh
  · simp [hh]
  rcases List.mem_cons.1 hh with hh | hh
  · rw [hh] at hn; exact absurd h.isC0 hn
  · simp only [List.mem_append, List.mem_cons, List.mem_filter, decide_eq_true_eq]
    exact .inr (.inr ⟨hh, hn⟩)

theorem old_channel {n P : Nat} {m m' : Mdl n P} {names mergedName ms merged keys pre c0 post}
    (h : MergedInto m names mergedName ms m' merged keys pre c0 post) {ch : Channel} (hc : ch ∈ m'.channels) :
    ch = merged ∨ (ch ∈ m.channels ∧ ch.name ∉ names) := by
  rw [h.channels] at hc
  rw [h.split]
  rcases List.mem_append.1 hc with hh | hh
  · exact .inr ⟨by simp [hh], h.isPre ch hh⟩
  rcases List.mem_cons.1 hh with hh | hh
  · exact .inl hh
  · simp only [List.mem_filter, decide_eq_true_eq] at hh
    exact .inr ⟨by simp [hh.1], hh.2⟩

/-- The name of a merged channel is not that of a channel of another merge. -/
theorem name_fresh {n P : Nat} {m : Mdl n P} {kind kind' : String → ChKind} {s t : MergeSpec} {ms ms'}
    (hs : Mergeable m kind s.channels s.name s.ranges ms) (ht : Mergeable m kind' t.channels t.name t.ranges ms')
    (h : ∀ c ∈ s.channels, c ∉ t.channels) : s.name ∉ t.channels := by
  intro hn
  obtain ⟨ch, -, hch, e⟩ := ht.known hn
  exact hs.fresh ch hch (fun hc => h _ hc (by rw [e]; exact hn)) e

/-- The channels `chans` of the result: those that were not merged are as before, and there is one for each merge, whose
class is made from the channels it replaces. -/
structure SameDocs (on ou : Option String) (specs : List MergeSpec) (chans0 chans : List (ChanDoc Sample)) : Prop where
  other : ∀ nm, (∀ s ∈ specs, nm ∉ s.channels ∧ nm ≠ s.name) →
    chans.find? (fun c => c.name == nm) = chans0.find? (fun c => c.name == nm)
  merged : ∀ s ∈ specs, ∃ docs c, s.channels.mapM (getDoc chans0) = .ok docs ∧
    chans.find? (fun c => c.name == s.name) = some c ∧ c.cls = mergedClass on ou s.ranges docs

theorem SameDocs.trans {on ou : Option String} {s : MergeSpec} {rest : List MergeSpec}
    {c0 c1 c2 : List (ChanDoc Sample)} (h : SameDocs on ou [s] c0 c1) (h' : SameDocs on ou rest c1 c2)
    (hap : ∀ t ∈ rest, (∀ c ∈ s.channels, c ∉ t.channels) ∧ s.name ∉ t.channels ∧ s.name ≠ t.name) :
    SameDocs on ou (s :: rest) c0 c2 := by
  refine ⟨fun nm hn => ?_, fun t ht => ?_⟩
  · rw [h'.other nm fun t ht => hn t (by simp [ht])]
    exact h.other nm fun t ht => by rw [List.mem_singleton.1 ht]; exact hn s (by simp)
  · rcases List.mem_cons.1 ht with rfl | ht
    · obtain ⟨docs, c, k1, k2, k3⟩ := h.merged t (by simp)
      refine ⟨docs, c, k1, ?_, k3⟩
      rw [h'.other t.name fun q hq => ⟨(hap q hq).2.1, (hap q hq).2.2⟩]
      exact k2
    · obtain ⟨docs, c, k1, k2, k3⟩ := h'.merged t ht
      refine ⟨docs, c, mapM_agree k1 fun nm hnm g hg => ?_, k2, k3⟩
      rw [← hg]
      unfold getDoc
      rw [h.other nm fun q hq => ?_]
      rw [List.mem_singleton.1 hq]
      exact ⟨fun hh => (hap t ht).1 _ hh hnm, fun e => (hap t ht).2.1 (by rw [← e]; exact hnm)⟩

/-- What is known after one merge. -/
theorem merge_one (hT : T.Lawful) {o : Obj} (hR : Ready T o) {on ou : Option String} {s : MergeSpec} {ms : List Channel}
    (hM : Mergeable o.mdl (kindNamed o) s.channels s.name s.ranges ms) (hs : StdAll o.mdl) {A : Arrays}
    (hA : o.mdl.setInternal = .ok A) :
    ∃ chans A', mergeObj on ou s o = .ok (some (withChans o chans)) ∧ Ready T (withChans o chans) ∧
      StdAll (withChans o chans).mdl ∧ (withChans o chans).mdl.setInternal = .ok A' ∧
      SamePredictions o.mdl (withChans o chans).mdl A A' [s] ∧
      (∀ ds : DData.DS, ds.counts.length = o.mdl.nbins → ds.aux_obs.length = o.doc.nps.length →
        ∃ c, mergeDataObj s o (withChans o chans) ds = .ok (some ⟨c, ds.aux_obs⟩) ∧
          SameData o.mdl (withChans o chans).mdl A A' [s] ds.counts c) ∧
      SameDocs on ou [s] o.doc.channels chans ∧
      (∀ ch ∈ o.mdl.channels, ch.name ∉ s.channels → ch ∈ (withChans o chans).mdl.channels) ∧
      (∃ ch ∈ (withChans o chans).mdl.channels, ch.name = s.name) ∧
      ∀ (t : MergeSpec) (ms' : List Channel), Mergeable o.mdl (kindNamed o) t.channels t.name t.ranges ms' →
        (∀ c ∈ s.channels, c ∉ t.channels) → s.name ≠ t.name →
        Mergeable (withChans o chans).mdl (kindNamed (withChans o chans)) t.channels t.name t.ranges ms' := by
  obtain ⟨chans, h1, h2, h3, h3', ⟨p, h4⟩, merged, keys, pre, c0, post, h5⟩ := merge_step hT hR (on := on) (ou := ou) hM hs
  obtain ⟨hsu, hfl, A0, ne, hA0, hne⟩ := Props.initModel_ok hR.init
  rw [hA] at hA0
  have hA0 := Except.ok.inj (ε := PyErr) hA0
  subst hA0
  have hvar : o.mdl.variations = none := by show o.flags.variations = none; rw [hfl]
  have hcut : o.mdl.cutoff = 0 := by show o.flags.cutoff = 0; rw [hfl]
  have ho := setInternal_order hM.channels hA
  have hstd := h5.std hM hs
  obtain ⟨A', hA'⟩ := setInternal_of_std (m := (withChans o chans).mdl) (by rw [h5.model]; exact hvar) hstd
    (h5.order hM ho)
  have hnb : (withChans o chans).mdl.nbins = o.mdl.nbins := by
    rw [nbins_eq_sum, nbins_eq_sum, h5.channels, ((h5.perm hM).map (·.nbins)).sum_eq]
    simp [h5.nbins]
  have one : ∀ {l l' : List ℝ}, ((∀ ch ∈ o.mdl.channels, ch.name ∉ s.channels →
      (withChans o chans).mdl.channelSlice l' ch.name = o.mdl.channelSlice l ch.name) ∧
      ∃ parts, s.channels.mapM (o.mdl.channelSlice l) = .ok parts ∧
        (withChans o chans).mdl.channelSlice l' s.name = .ok parts.flatten) →
      SameSlices o.mdl (withChans o chans).mdl [s] l l' := by
    rintro l l' ⟨a, b⟩
    refine ⟨fun ch hc hn => a ch hc (hn s (by simp)), fun t ht => ?_⟩
    rw [List.mem_singleton.1 ht]; exact b
  have h0 : o.mdl.refTot A = .ok _ := totBinExp_of_nExp hne
  refine ⟨chans, A', h1, h2, hstd, hA', ⟨hnb, fun x θ N hN => ?_⟩, fun ds hl ha => ?_, ?_, fun ch hc hn => kept_channel h5 hc hn,
    ⟨merged, by rw [h5.channels]; simp, h5.name⟩, fun t ms' ht hap hnm => ?_⟩
  · obtain ⟨N', hN', hS⟩ := h5.sameBins hM hcut hvar hs hA hA' hN
    exact ⟨N', hN', one (hS.slices h5 hM)⟩
  · obtain ⟨c, hc, hcl, hSc⟩ := h5.counts hM hl
    have hc' := mergeData_inv hc
    refine ⟨c, ?_, hcl, mem_mergedCounts hc', ?_, ?_⟩
    · unfold mergeDataObj
      rw [h4, bind_ok]
      dsimp only
      rw [hc', bind_ok]
      have e1 : DData.setCounts (dataModel (withChans o chans)) c = .ok c :=
        setCounts_full (by rw [dataModel_nbins]; exact hcl)
      have e2 : DData.setAuxObs (dataModel (withChans o chans)) ds.aux_obs = .ok ds.aux_obs :=
        DData.setAuxObs_full _ _ (by rw [ha]; simp [dataModel, withChans])
      rw [e1, bind_ok, e2, bind_ok]; rfl
    · have := hSc.slices h5 hM
      rw [asList_getD hcl, asList_getD hl] at this
      exact one this
    · intro aux x θ N offset floor nc hN
      obtain ⟨N', hN', hS⟩ := h5.sameBins hM hcut hvar hs hA hA' hN
      obtain ⟨N0', h0', hS0⟩ := h5.sameBins hM hcut hvar hs hA hA' h0
      have hpi : (withChans o chans).mdl.poiInit = o.mdl.poiInit := by rw [h5.model]
      exact hS.nll h5 hM ho hN hN' h0 (by unfold refTot; rw [hpi]; exact h0') hS0
        (d := ⟨fun b => ds.counts.getD b 0, aux⟩) (d' := ⟨fun b => c.getD b 0, aux⟩) hSc rfl offset floor nc
  · refine ⟨fun nm hn => h3 nm (hn s (by simp)).1 (hn s (by simp)).2, fun t ht => ?_⟩
    rw [List.mem_singleton.1 ht]; exact h3'
  · have hnm' := name_fresh hM ht hap
    have hin : ∀ ch ∈ ms', ch.name ∉ s.channels ∧ ch.name ≠ s.name := by
      intro ch hc
      obtain ⟨-, hh⟩ := ht.mem hc
      exact ⟨fun hc' => hap _ hc' hh, fun e => hnm' (by rw [← e]; exact hh)⟩
    refine ⟨ht.nonempty, ht.nodup, ?_, h5.names_nodup hM, ?_, ?_, ht.bins, ht.aligned⟩
    · have hsel := ht.selected
      have : List.Forall₂ (fun nm (ch : Channel) => (ch ∈ o.mdl.channels ∧ ch.name = nm) ∧ ch ∈ ms') t.channels ms' :=
        forall₂_with_mem hsel
      exact this.imp fun nm ch hh => ⟨kept_channel h5 hh.1.1 (hin ch hh.2).1, hh.1.2⟩
    · intro ch hc hn
      rcases old_channel h5 hc with rfl | ⟨hc, -⟩
      · rw [h5.name]; exact hnm
      · exact ht.fresh ch hc hn
    · intro ch hc
      obtain ⟨a, b⟩ := hin ch hc
      have e : kindNamed (withChans o chans) ch.name = kindNamed o ch.name := by
        unfold kindNamed
        rw [show (withChans o chans).doc.channels = chans from rfl, h3 _ a b]
      rw [e]
      exact ht.kinds ch hc

theorem SameSlices.trans {n P : Nat} {m m' m'' : Mdl n P} {s : MergeSpec} {rest : List MergeSpec} {l l' l'' : List ℝ}
    (h : SameSlices m m' [s] l l') (h' : SameSlices m' m'' rest l' l'')
    (hkept : ∀ ch ∈ m.channels, ch.name ∉ s.channels → ch ∈ m'.channels) (hnew : ∃ ch ∈ m'.channels, ch.name = s.name)
    (hap : ∀ t ∈ rest, (∀ c ∈ s.channels, c ∉ t.channels) ∧ s.name ∉ t.channels)
    (hknown : ∀ t ∈ rest, ∀ c ∈ t.channels, ∃ ch ∈ m.channels, ch.name = c) :
    SameSlices m m'' (s :: rest) l l'' := by
  refine ⟨fun ch hc hn => ?_, fun t ht => ?_⟩
  · have hs := hn s (by simp)
    rw [h'.other ch (hkept ch hc hs) fun t ht => hn t (by simp [ht])]
    exact h.other ch hc fun t ht => by rw [List.mem_singleton.1 ht]; exact hs
  · rcases List.mem_cons.1 ht with rfl | ht
    · obtain ⟨ch, hc, e⟩ := hnew
      obtain ⟨parts, p1, p2⟩ := h.merged t (by simp)
      refine ⟨parts, p1, ?_⟩
      rw [← p2, ← e]
      exact h'.other ch hc fun q hq => by rw [e]; exact (hap q hq).2
    · obtain ⟨parts, p1, p2⟩ := h'.merged t ht
      refine ⟨parts, mapM_agree p1 fun c hc g hg => ?_, p2⟩
      obtain ⟨ch, hch, rfl⟩ := hknown t ht c hc
      rw [← hg]
      refine (h.other ch hch fun q hq => ?_).symm
      rw [List.mem_singleton.1 hq]
      exact fun hh => (hap t ht).1 _ hh hc

/-- The whole loop. -/
theorem merge_all (hT : T.Lawful) (opts : MergeOpts) (rest : List MergeSpec) : ∀ (s : MergeSpec) {o : Obj}, Ready T o →
    MergePlan o (s :: rest) → StdAll o.mdl → ∀ {A : Arrays}, o.mdl.setInternal = .ok A →
    ∃ chans A', mergeLoop opts (s :: rest) o none = .ok (withChans o chans, none) ∧ Ready T (withChans o chans) ∧
      (withChans o chans).mdl.setInternal = .ok A' ∧
      SamePredictions o.mdl (withChans o chans).mdl A A' (s :: rest) ∧
      SameDocs opts.obs_name opts.obs_unit (s :: rest) o.doc.channels chans ∧
      ∀ ds : DData.DS, ds.counts.length = o.mdl.nbins → ds.aux_obs.length = o.doc.nps.length →
        ∃ c, mergeLoop opts (s :: rest) o (some ds) = .ok (withChans o chans, some ⟨c, ds.aux_obs⟩) ∧
          SameData o.mdl (withChans o chans).mdl A A' (s :: rest) ds.counts c := by
  induction rest with
  | nil =>
    intro s o hR hp hs A hA
    obtain ⟨ms, hM⟩ := hp.each s (by simp)
    obtain ⟨chans, A', h1, h2, -, h4, h5, h6, h6', -⟩ := merge_one hT hR (on := opts.obs_name) (ou := opts.obs_unit) hM hs hA
    refine ⟨chans, A', ?_, h2, h4, h5, h6', fun ds hl ha => ?_⟩
    · simp only [mergeLoop, h1, bind_ok, mergeStepData]
    · obtain ⟨c, c1, c2⟩ := h6 ds hl ha
      exact ⟨c, by simp only [mergeLoop, h1, bind_ok, mergeStepData, c1], c2⟩
  | cons t rest ih =>
    intro s o hR hp hs A hA
    obtain ⟨ms, hM⟩ := hp.each s (by simp)
    obtain ⟨chans, A', h1, h2, h3, h4, h5, h6, h6', h7, h8, h9⟩ :=
      merge_one hT hR (on := opts.obs_name) (ou := opts.obs_unit) hM hs hA
    obtain ⟨hap, hap'⟩ := List.pairwise_cons.1 hp.apart
    have hplan : MergePlan (withChans o chans) (t :: rest) := by
      refine ⟨fun q hq => ?_, hap'⟩
      obtain ⟨ms', hq'⟩ := hp.each q (by simp [List.mem_cons.1 hq])
      exact ⟨ms', h9 q ms' hq' (hap q hq).1 (hap q hq).2⟩
    obtain ⟨chans', A'', k1, k2, k3, k4, k4', k5⟩ := ih t h2 hplan h3 h4
    have hfr : ∀ q ∈ t :: rest, (∀ c ∈ s.channels, c ∉ q.channels) ∧ s.name ∉ q.channels := by
      intro q hq
      obtain ⟨ms', hq'⟩ := hp.each q (by simp [List.mem_cons.1 hq])
      exact ⟨(hap q hq).1, name_fresh hM hq' (hap q hq).1⟩
    have hkn : ∀ q ∈ t :: rest, ∀ c ∈ q.channels, ∃ ch ∈ o.mdl.channels, ch.name = c := by
      intro q hq c hc
      obtain ⟨ms', hq'⟩ := hp.each q (by simp [List.mem_cons.1 hq])
      obtain ⟨ch, -, h⟩ := hq'.known hc
      exact ⟨ch, h⟩
    refine ⟨chans', A'', ?_, k2, k3, ⟨k4.nbins.trans h5.nbins, fun x θ N hN => ?_⟩,
      h6'.trans k4' fun q hq => ⟨(hfr q hq).1, (hfr q hq).2, (hap q hq).2⟩, fun ds hl ha => ?_⟩
    · rw [mergeLoop, h1, bind_ok]
      simp only [mergeStepData, bind_ok]
      exact k1
    · obtain ⟨N', hN', hS⟩ := h5.tot x θ N hN
      obtain ⟨N'', hN'', hS'⟩ := k4.tot x θ N' hN'
      exact ⟨N'', hN'', hS.trans hS' h7 h8 hfr hkn⟩
    · obtain ⟨c, c1, c2⟩ := h6 ds hl ha
      obtain ⟨c', d1, d2⟩ := k5 ⟨c, ds.aux_obs⟩ c2.length ha
      refine ⟨c', ?_, d2.length, fun x hx => c2.mem x (d2.mem x hx), c2.slices.trans d2.slices h7 h8 hfr hkn, ?_⟩
      · rw [mergeLoop, h1, bind_ok]
        simp only [mergeStepData, c1, bind_ok]
        exact d1
      · intro aux x θ N offset floor nc hN
        obtain ⟨N', hN', -⟩ := h5.tot x θ N hN
        exact (d2.nll aux x θ N' offset floor nc hN').trans (c2.nll aux x θ N offset floor nc hN)

end Markup
end Verif
