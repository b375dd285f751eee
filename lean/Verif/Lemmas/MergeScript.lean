import Verif.Model.MergeScript
import Verif.Lemmas.PruneSteps
import Verif.Lemmas.MergeData
/-! Lemmas on the merging of channels of objects. -/
namespace Verif
open Merge Mdl
namespace Markup
variable {T : Texts}

/-- The object with other channels (and no description), as left by merges. -/
def withChans (o : Obj) (chans : List (ChanDoc Sample)) : Obj :=
  ⟨{ o.doc with description := none, channels := chans }, {}⟩

theorem set_map {α β : Type} (f : α → β) (d : Dict α) (k : String) (v : α) :
    Dict.set (d.map fun kv => (kv.1, f kv.2)) k (f v) = (Dict.set d k v).map fun kv => (kv.1, f kv.2) := by
  induction d with
  | nil => rfl
  | cons a d ih =>
    obtain ⟨k', w⟩ := a
    simp only [List.map_cons, Dict.set]
    by_cases h : k' = k
    · simp [h]
    · simp only [h, if_false, List.map_cons]
      rw [ih]

theorem newDocs_map (docs : List (ChanDoc Sample)) (names : List String) (merged : ChanDoc Sample) :
    ((newDocs docs names merged).1.values).map toChannel =
      (newChannels (docs.map toChannel) names (toChannel merged)).1.values := by
  have key : ∀ (l : List (ChanDoc Sample)) (d : Dict (ChanDoc Sample)) (b : Bool),
      (((l.foldl (fun (st : Dict (ChanDoc Sample) × Bool) ch =>
        if ch.name ∉ names then (st.1.set ch.name ch, st.2)
        else if st.2 then st
        else (st.1.set merged.name merged, true)) (d, b)).1.values).map toChannel) =
      ((l.map toChannel).foldl (fun (st : Dict Channel × Bool) ch =>
        if ch.name ∉ names then (st.1.set ch.name ch, st.2)
        else if st.2 then st
        else (st.1.set (toChannel merged).name (toChannel merged), true))
          (d.map fun kv => (kv.1, toChannel kv.2), b)).1.values := by
    intro l
    induction l with
    | nil => intro d b; simp [Dict.values]
    | cons a l ih =>
      intro d b
      rw [List.foldl_cons, List.map_cons, List.foldl_cons]
      by_cases h : a.name ∉ names
      · have h' : (toChannel a).name ∉ names := h
        rw [if_pos h, if_pos h', ih]
        show _ = (List.foldl _ (Dict.set _ a.name (toChannel a), b) _).1.values
        rw [set_map]
      · have h' : ¬ (toChannel a).name ∉ names := h
        rw [if_neg h, if_neg h']
        cases b with
        | true => simp only [if_true]; exact ih d true
        | false =>
          simp only [Bool.false_eq_true, if_false]
          rw [ih]
          show _ = (List.foldl _ (Dict.set _ merged.name (toChannel merged), true) _).1.values
          rw [set_map]
  exact key docs [] false

theorem find_toChannel (docs : List (ChanDoc Sample)) (nm : String) :
    (docs.map toChannel).find? (fun c => c.name == nm) = (docs.find? (fun c => c.name == nm)).map toChannel := by
  rw [List.find?_map]; rfl

theorem docs_of_channels {docs : List (ChanDoc Sample)} {names : List String} {ms : List Channel}
    (h : names.mapM (getChannel (docs.map toChannel)) = .ok ms) :
    ∃ sel, names.mapM (getDoc docs) = .ok sel ∧ sel.map toChannel = ms ∧
      ∀ c ∈ sel, c ∈ docs ∧ docs.find? (fun d => d.name == c.name) = some c := by
  induction names generalizing ms with
  | nil =>
    have := Except.ok.inj (ε := PyErr) h
    subst this
    exact ⟨[], rfl, rfl, fun c hc => by cases hc⟩
  | cons nm names ih =>
    rw [List.mapM_cons, bind_eq_ok] at h
    obtain ⟨c, hc, h1⟩ := h
    obtain ⟨cs, hcs, h2⟩ := bind_eq_ok.1 h1
    have h3 := Except.ok.inj (ε := PyErr) h2
    subst h3
    obtain ⟨sel, k1, k2, k3⟩ := ih hcs
    unfold getChannel at hc
    rw [find_toChannel] at hc
    cases hf : docs.find? (fun d => d.name == nm) with
    | none => rw [hf] at hc; cases hc
    | some d =>
      rw [hf] at hc
      have := Except.ok.inj (ε := PyErr) hc
      subst this
      have hn : d.name = nm := by simpa using List.find?_some hf
      refine ⟨d :: sel, ?_, by rw [List.map_cons, k2], fun c hc => ?_⟩
      · rw [List.mapM_cons]
        simp only [getDoc, hf, bind_ok]
        rw [show names.mapM (getDoc docs) = .ok sel from k1]; rfl
      · rcases List.mem_cons.1 hc with rfl | hc
        · exact ⟨List.mem_of_find?_eq_some hf, by rw [hn]; exact hf⟩
        · exact k3 c hc

theorem binsOf_length (c : ChanDoc Sample) : (binsOf c).length = binCount (kindOf c.cls) := by
  unfold binsOf
  cases c.cls <;> simp [kindOf, binCount]

theorem mergedClass_nbins {o : Obj} {on ou : Option String} {ranges : Option (List (ℝ × ℝ))}
    {sel : List (ChanDoc Sample)}
    (h : ∀ c ∈ sel, c ∈ o.doc.channels ∧ o.doc.channels.find? (fun d => d.name == c.name) = some c) :
    (mergedClass on ou ranges sel).nbins = mergedBins (kindNamed o) ranges (sel.map toChannel) := by
  cases ranges with
  | some l => simp [mergedClass, mergedBins, ChClass.nbins]
  | none =>
    simp only [mergedClass, mergedBins, ChClass.nbins, List.length_flatMap, List.map_map]
    congr 1
    refine List.map_congr_left fun c hc => ?_
    rw [binsOf_length]
    simp only [Function.comp_apply, kindNamed, toChannel, (h c hc).2]

theorem mergedClass_poisson (on ou : Option String) (ranges : Option (List (ℝ × ℝ))) (sel : List (ChanDoc Sample)) :
    (mergedClass on ou ranges sel).isGauss = false := by
  cases ranges <;> rfl

theorem toChannel_merged {o : Obj} {on ou : Option String} {ranges : Option (List (ℝ × ℝ))}
    {sel : List (ChanDoc Sample)} (nm : String) (samples : List Sample)
    (h : ∀ c ∈ sel, c ∈ o.doc.channels ∧ o.doc.channels.find? (fun d => d.name == c.name) = some c) :
    toChannel { name := nm, cls := mergedClass on ou ranges sel, samples := samples } =
      ⟨nm, false, mergedBins (kindNamed o) ranges (sel.map toChannel), fun _ _ => 0, samples⟩ := by
  rw [← mergedClass_nbins (on := on) (ou := ou) h]
  cases ranges <;> rfl

/-- `set_np_data` has nothing to do on samples that have their impacts. -/
theorem setUp_same {o : Obj} {pois nps vals} (h1 : o.doc.pois.mapM numericPOI = .ok pois)
    (h2 : o.doc.nps.mapM ModelNP.numeric = .ok nps) (h3 : refVals pois nps o.doc.exprs = .ok vals)
    (hset : o.mdl.NpDataSet) : setUp (rawDoc o.doc) = .ok o.doc := by
  have hn := nps_list h2
  unfold setUp
  have e1 : (rawDoc o.doc).pois.mapM numericPOI = .ok pois := h1
  have e2 : (rawDoc o.doc).nps.mapM ModelNP.numeric = .ok nps := h2
  have e3 : refVals pois nps (rawDoc o.doc).exprs = .ok vals := h3
  rw [e1, bind_ok, e2, bind_ok, e3, bind_ok]
  have e4 : (rawDoc o.doc).channels.mapM (setUpChannel nps (refReals pois nps (rawDoc o.doc).exprs) vals
      ((rawDoc o.doc).exprs.length + 1)) = .ok o.doc.channels := by
    refine mapM_map_id fun c hc => ?_
    unfold setUpChannel rawChannel
    have : (c.samples.map toRaw).mapM (fun s => s.setNpData nps (refReals pois nps (rawDoc o.doc).exprs) vals
        ((rawDoc o.doc).exprs.length + 1)) = .ok c.samples := by
      refine mapM_map_id fun s hs => ?_
      refine setNpData_same (nn := s.nominal_norm) (ys := s.nominal_yields) rfl rfl fun par hp => ?_
      rw [hn] at hp
      obtain ⟨p, rfl⟩ := List.mem_ofFn.1 hp
      cases hno : s.norm with
      | number v => exact .inr ⟨v, by simp [toRaw, hno]⟩
      | expr e => exact .inl (hset (toChannel c) (List.mem_map.2 ⟨c, hc, rfl⟩) s hs e hno p)
    simp only [this, bind_ok]; rfl
  rw [e4]; rfl

end Markup

theorem MergedInto.npDataSet {n P : Nat} {m m' : Mdl n P} {kind names mergedName obs ms merged keys pre c0 post}
    (h : MergedInto m names mergedName ms m' merged keys pre c0 post)
    (hM : Mergeable m kind names mergedName obs ms) (hset : m.NpDataSet) : m'.NpDataSet := by
  intro ch hc smp hs e he p
  have hnp : m'.nps = m.nps := by rw [h.model]
  rw [hnp]
  rw [h.channels] at hc
  rcases List.mem_append.1 hc with hc | hc
  · exact hset ch (by rw [h.split]; simp [hc]) smp hs e he p
  rcases List.mem_cons.1 hc with rfl | hc
  · obtain ⟨k, hk, hm⟩ := h.merged_samples hs
    obtain ⟨c, hc, s, hs', hsn, hnorm⟩ := hm.source
    obtain ⟨im, him⟩ := hset c (hM.mem hc).1 s hs' e (by rw [← hnorm, he]) p
    exact Option.isSome_iff_exists.1 (hm.keys c hc s hs' hsn _ (by rw [him]; rfl))
  · exact hset ch (by rw [h.split]; simp [List.mem_of_mem_filter hc]) smp hs e he p

namespace Markup
variable {T : Texts}

/-- The keys of merged impacts can be written. -/
theorem mergeSample_impacts (hT : T.Lawful) {ms : List Channel} {e : Entry} {M : Sample} (h : mergeSample ms e = .ok M)
    (hok : ∀ ch ∈ ms, ∀ s ∈ ch.samples, ∀ kv ∈ s.impacts, ImpactOk T kv.2) :
    ∀ kv ∈ M.impacts, ImpactOk T kv.2 := by
  unfold mergeSample at h
  obtain ⟨ys, -, h1⟩ := bind_eq_ok.1 h
  obtain ⟨imps, himps, h2⟩ := bind_eq_ok.1 h1
  have h3 := Except.ok.inj (ε := PyErr) h2
  subst h3
  intro kv hkv
  obtain ⟨kv0, -, hk⟩ := forall₂_mem_right (mapM_ok_iff.1 himps) kv hkv
  unfold mergedEntry at hk
  obtain ⟨l, hl, h4⟩ := bind_eq_ok.1 hk
  have h5 := Except.ok.inj (ε := PyErr) h4
  subst h5
  intro d hd kv1 hkv1
  obtain ⟨part, hpart, hd'⟩ := List.mem_flatten.1 hd
  obtain ⟨ch, hch, hp⟩ := forall₂_mem_right (mapM_ok_iff.1 hl) part hpart
  have hz : ∀ kv ∈ zeroVar, KeyOk T kv.1 := by
    intro kv hkv
    simp only [zeroVar, List.mem_cons, List.not_mem_nil, or_false] at hkv
    rcases hkv with rfl | rfl
    · exact hT.up
    · exact hT.down
  unfold mergedPart at hp
  cases hg : getSample ch e.sample.name with
  | none =>
    rw [hg] at hp
    have := Except.ok.inj (ε := PyErr) hp
    subst this
    simp only [List.mem_singleton] at hd'
    subst hd'
    exact hz kv1 hkv1
  | some s =>
    rw [hg] at hp
    dsimp only at hp
    have hs := (getSample_some hg).1
    cases hi : s.impacts.get? kv0.1 with
    | none =>
      rw [hi] at hp
      have := Except.ok.inj (ε := PyErr) hp
      subst this
      simp only [List.mem_singleton] at hd'
      subst hd'
      exact hz kv1 hkv1
    | some im =>
      rw [hi] at hp
      have hmem := hok ch hch s hs _ (Dict.mem_of_get?_eq hi)
      cases im with
      | perBin l' =>
        have := Except.ok.inj (ε := PyErr) hp
        subst this
        exact hmem d hd' kv1 hkv1
      | common d' =>
        have := Except.ok.inj (ε := PyErr) hp
        subst this
        simp only [List.mem_singleton] at hd'
        subst hd'
        exact hmem kv1 hkv1
      | float v => cases hp

/-- All impacts of the model are given at ±1. -/
def StdAll {n P : Nat} (m : Mdl n P) : Prop := ∀ ch ∈ m.channels, 0 < ch.nbins ∧ ∀ s ∈ ch.samples, s.Std ch.nbins

theorem mem_newDocs {docs : List (ChanDoc Sample)} {names : List String} {merged c : ChanDoc Sample}
    (h : c ∈ (newDocs docs names merged).1.values) : c = merged ∨ (c ∈ docs ∧ c.name ∉ names) := by
  have key : ∀ (l : List (ChanDoc Sample)) (d : Dict (ChanDoc Sample)) (b : Bool),
      (∀ c ∈ l, c ∈ docs) → (∀ c ∈ d.values, c = merged ∨ (c ∈ docs ∧ c.name ∉ names)) →
      ∀ c ∈ (l.foldl (fun (st : Dict (ChanDoc Sample) × Bool) ch =>
        if ch.name ∉ names then (st.1.set ch.name ch, st.2)
        else if st.2 then st
        else (st.1.set merged.name merged, true)) (d, b)).1.values, c = merged ∨ (c ∈ docs ∧ c.name ∉ names) := by
    have hset : ∀ (d : Dict (ChanDoc Sample)) (k : String) (v c : ChanDoc Sample),
        c ∈ (d.set k v).values → c = v ∨ c ∈ d.values := by
      intro d k v c hc
      obtain ⟨kv, hkv, rfl⟩ := List.mem_map.1 hc
      rcases mem_set hkv with hh | e
      · exact .inr (List.mem_map.2 ⟨kv, hh, rfl⟩)
      · left; rw [e]
    intro l
    induction l with
    | nil => intro d b _ hd; exact hd
    | cons a l ih =>
      intro d b hl hd
      rw [List.foldl_cons]
      by_cases ha : a.name ∉ names
      · rw [if_pos ha]
        refine ih _ _ (fun c hc => hl c (by simp [hc])) fun c hc => ?_
        rcases hset _ _ _ _ hc with rfl | hc
        · exact .inr ⟨hl c (by simp), ha⟩
        · exact hd c hc
      · rw [if_neg ha]
        cases b with
        | true => simp only [if_true]; exact ih _ _ (fun c hc => hl c (by simp [hc])) hd
        | false =>
          simp only [Bool.false_eq_true, if_false]
          refine ih _ _ (fun c hc => hl c (by simp [hc])) fun c hc => ?_
          rcases hset _ _ _ _ hc with rfl | hc
          · exact .inl rfl
          · exact hd c hc
  exact key docs [] false (fun c hc => hc) (fun c hc => by cases hc) c h

/-- One merge. -/
theorem merge_step (hT : T.Lawful) {o : Obj} (hR : Ready T o) {on ou : Option String} {s : MergeSpec} {ms : List Channel}
    (hM : Mergeable o.mdl (kindNamed o) s.channels s.name s.ranges ms) (hs : StdAll o.mdl) :
    ∃ chans, mergeObj on ou s o = .ok (some (withChans o chans)) ∧ Ready T (withChans o chans) ∧
      (∀ nm, nm ∉ s.channels → nm ≠ s.name →
        chans.find? (fun c => c.name == nm) = o.doc.channels.find? (fun c => c.name == nm)) ∧
      (∃ docs c, s.channels.mapM (getDoc o.doc.channels) = .ok docs ∧
        chans.find? (fun c => c.name == s.name) = some c ∧ c.cls = mergedClass on ou s.ranges docs) ∧
      (∃ p, Merge.check (kindNamed o) o.mdl.channels s.channels = .ok (some p)) ∧
      ∃ merged keys pre c0 post,
        MergedInto o.mdl s.channels s.name ms (withChans o chans).mdl merged keys pre c0 post := by
  have hset := hR.npDataSet hT
  obtain ⟨hsu, hfl, A, ne, hA, hne⟩ := Props.initModel_ok hR.init
  have hvar : o.mdl.variations = none := by show o.flags.variations = none; rw [hfl]
  have hcut : o.mdl.cutoff = 0 := by show o.flags.cutoff = 0; rw [hfl]
  obtain ⟨vals, hv, -⟩ := nExp_inv hne
  obtain ⟨entries, samples, m', merged, keys, pre, c0, post, h1, h2, h3, h4, -, h6⟩ := mergeChannels_parts hM hset hv
  obtain ⟨sel, d1, d2, d3⟩ := docs_of_channels hM.mapM
  set md : ChanDoc Sample := { name := s.name, cls := mergedClass on ou s.ranges sel, samples := samples } with hmd
  have htm : toChannel md = merged := by rw [h3, ← d2]; exact toChannel_merged _ _ d3
  set chans := (newDocs o.doc.channels s.channels md).1.values with hch
  have hchm : chans.map toChannel = m'.channels := by
    rw [hch, newDocs_map, h4, htm]; rfl
  have hmdl : (withChans o chans).mdl = m' := by
    rw [h6.model]
    have : (withChans o chans).mdl = { o.mdl with cutoff := 0, channels := chans.map toChannel } := by
      unfold withChans Obj.mdl
      simp only [hfl]
    rw [this, hchm, h6.channels]
    rfl
  -- the new object
  have hnds : (withChans o chans).mdl.NpDataSet := by
    have := h6.npDataSet hM hset
    rwa [← hmdl] at this
  have hnames : (chans.map (·.name)).Nodup := by
    have := h6.names_nodup hM
    rw [← hchm, List.map_map] at this
    exact this
  have hsamp : ∀ c ∈ ms, ∀ sm ∈ c.samples, SampleOk T (toRaw sm) := by
    intro c hc sm hsm
    rw [← d2] at hc
    obtain ⟨cd, hcd, rfl⟩ := List.mem_map.1 hc
    exact hR.good.loaded.samples (rawChannel cd) (List.mem_map.2 ⟨cd, (d3 cd hcd).1, rfl⟩) (toRaw sm)
      (List.mem_map.2 ⟨sm, hsm, rfl⟩)
  have hmsamp : ∀ sm ∈ samples, SampleOk T (toRaw sm) ∧ sm.nominal_yields.length = md.cls.nbins := by
    intro sm hsm
    obtain ⟨k, -, hk⟩ := h6.merged_samples (M := sm) (by rw [h3]; exact hsm)
    obtain ⟨c, hc, s0, hs0, -, hnorm⟩ := hk.source
    obtain ⟨e, -, he⟩ := forall₂_mem_right (mapM_ok_iff.1 h2) sm hsm
    refine ⟨⟨fun e' he' => (hsamp c hc s0 hs0).norm e' (by rw [← he']; exact hnorm.symm),
      mergeSample_impacts hT he fun c hc s hs kv hkv => (hsamp c hc s hs).impacts kv hkv⟩, ?_⟩
    rw [hk.std.1, ← h6.nbins, ← htm]; rfl
  have hgood : DocGood T (rawDoc (withChans o chans).doc) := by
    have g := hR.good
    refine ⟨⟨g.loaded.np, g.loaded.aux_declared, g.loaded.poi_distinct, g.loaded.aux_distinct, g.loaded.np_distinct,
      g.loaded.expr_distinct, ?_, ?_, ?_, ?_⟩, g.poi, ?_, ?_, g.aux⟩
    · show (((chans.map rawChannel).map (·.name))).Nodup
      rw [List.map_map]; exact hnames
    · intro c0 hc0
      obtain ⟨c, hc, rfl⟩ := List.mem_map.1 hc0
      simp only [rawChannel, List.map_map]
      rcases mem_newDocs hc with rfl | ⟨hc, -⟩
      · have hk : List.Forall₂ (fun k (M : Sample) => M.name = k) keys samples := by
          have := h6.samples
          rw [h3] at this
          exact this.imp fun k M hh => hh.name
        have := forall₂_names (f := fun k : String => k) (g := fun M : Sample => M.name) hk
        show (samples.map (·.name)).Nodup
        rw [this, List.map_id']; exact h6.nodup
      · have := g.loaded.sample_distinct (rawChannel c) (List.mem_map.2 ⟨c, hc, rfl⟩)
        simpa only [rawChannel, List.map_map] using this
    · intro c0 hc0 s0 hs0
      obtain ⟨c, hc, rfl⟩ := List.mem_map.1 hc0
      obtain ⟨sm, hsm, rfl⟩ := List.mem_map.1 hs0
      rcases mem_newDocs hc with rfl | ⟨hc, -⟩
      · exact (hmsamp sm hsm).1
      · exact g.loaded.samples (rawChannel c) (List.mem_map.2 ⟨c, hc, rfl⟩) (toRaw sm) (List.mem_map.2 ⟨sm, hsm, rfl⟩)
    · intro c0 hc0 s0 hs0 l hl
      obtain ⟨c, hc, rfl⟩ := List.mem_map.1 hc0
      obtain ⟨sm, hsm, rfl⟩ := List.mem_map.1 hs0
      rcases mem_newDocs hc with rfl | ⟨hc, -⟩
      · have := Option.some.inj hl
        rw [← this]; exact (hmsamp sm hsm).2
      · exact g.loaded.sizes (rawChannel c) (List.mem_map.2 ⟨c, hc, rfl⟩) (toRaw sm) (List.mem_map.2 ⟨sm, hsm, rfl⟩) l hl
    · intro c0 hc0
      obtain ⟨c, hc, rfl⟩ := List.mem_map.1 hc0
      rcases mem_newDocs hc with rfl | ⟨hc, -⟩
      · exact mergedClass_poisson on ou s.ranges sel
      · exact g.poisson (rawChannel c) (List.mem_map.2 ⟨c, hc, rfl⟩)
    · intro c0 hc0 s0 hs0
      obtain ⟨c, hc, rfl⟩ := List.mem_map.1 hc0
      obtain ⟨sm, hsm, rfl⟩ := List.mem_map.1 hs0
      rcases mem_newDocs hc with rfl | ⟨hc, -⟩
      · exact ⟨_, rfl, (hmsamp sm hsm).2⟩
      · exact g.yields (rawChannel c) (List.mem_map.2 ⟨c, hc, rfl⟩) (toRaw sm) (List.mem_map.2 ⟨sm, hsm, rfl⟩)
  have hinit : initModel (rawDoc (withChans o chans).doc) {} = .ok (withChans o chans) := by
    have hsu' := hsu
    unfold setUp at hsu'
    simp only [bind_eq_ok] at hsu'
    obtain ⟨pois, hpois, nps, hnps, vals', hvals', -⟩ := hsu'
    have ho := setInternal_order hM.channels hA
    obtain ⟨A', hA'⟩ := setInternal_of_std (m := m') (by rw [h6.model]; exact hvar) (h6.std hM hs) (h6.order hM ho)
    have h0 := totBinExp_of_nExp hne
    obtain ⟨N', hN', -⟩ := h6.sameBins hM hcut hvar hs hA hA' h0
    obtain ⟨ne', hne', -⟩ := nExp_of_totBinExp hN'
    have hpi : m'.poiInit = o.mdl.poiInit := by rw [h6.model]
    refine Props.initModel_intro (A := A') (ne := ne') (setUp_same hpois hnps hvals' hnds) rfl ?_ ?_
    · rw [hmdl]; exact hA'
    · rw [hmdl, hpi]; exact hne'
  refine ⟨chans, ?_, ⟨hgood, hinit⟩, ?_, ⟨sel, md, d1, ?_, rfl⟩, ⟨_, h1⟩, merged, keys, pre, c0, post, ?_⟩
  · unfold mergeObj
    rw [h1, bind_ok]
    dsimp only
    rw [h2, bind_ok, if_neg, d1]
    · have hf' : ({ o.flags with cutoff := 0 } : Flags) = {} := by rw [hfl]
      rw [bind_ok, hf', ← hmd, ← hch]
      have := hinit
      unfold withChans at this
      dsimp only at this
      rw [this]; rfl
    · rintro ⟨ho, hl⟩
      obtain ⟨l, ho⟩ := Option.isSome_iff_exists.1 ho
      rw [ho] at hl
      exact hl (hM.bins l ho).1
  · intro nm hn1 hn2
    show chans.find? (fun c => c.name == nm) = o.doc.channels.find? (fun c => c.name == nm)
    · cases hfo : o.doc.channels.find? (fun c => c.name == nm) with
      | none =>
        rw [List.find?_eq_none]
        intro c hc
        rcases mem_newDocs hc with rfl | ⟨hc, -⟩
        · simpa using fun e : s.name = nm => hn2 e.symm
        · exact List.find?_eq_none.1 hfo c hc
      | some c =>
        have hcm := List.mem_of_find?_eq_some hfo
        have hcn : c.name = nm := by simpa using List.find?_some hfo
        have hin : toChannel c ∈ m'.channels := by
          rw [h6.channels]
          have : toChannel c ∈ o.mdl.channels := List.mem_map.2 ⟨c, hcm, rfl⟩
          rw [h6.split] at this
          rcases List.mem_append.1 this with hh | hh
          · simp [hh]
          rcases List.mem_cons.1 hh with hh | hh
          · exact absurd (by rw [← hh] ; exact hcn) (fun e : c0.name = nm => hn1 (e ▸ h6.isC0))
          · simp only [List.mem_append, List.mem_cons, List.mem_filter, decide_eq_true_eq]
            exact .inr (.inr ⟨hh, by show c.name ∉ _; rw [hcn]; exact hn1⟩)
        rw [← hchm] at hin
        obtain ⟨c', hc', e⟩ := List.mem_map.1 hin
        have e2 : c'.name = nm := by rw [← hcn]; exact congrArg Channel.name e
        have hcc : c' = c := by
          rcases mem_newDocs hc' with rfl | ⟨hc2, -⟩
          · exact absurd e2 (Ne.symm hn2)
          · have hnd := hM.channels
            have hnd' : (o.doc.channels.map (·.name)).Nodup := by
              have := hnd
              simp only [Obj.mdl, List.map_map] at this
              exact this
            have f1 := find_of_nodup hnd' hc2
            have f2 := find_of_nodup hnd' hcm
            rw [show c'.name = c.name by rw [e2, hcn], f2] at f1
            exact (Option.some.inj f1).symm
        rw [hcc] at hc'
        have := find_of_nodup hnames hc'
        rwa [hcn] at this
  · have hin : merged ∈ m'.channels := by rw [h6.channels]; simp
    rw [← hchm] at hin
    obtain ⟨c, hc, e⟩ := List.mem_map.1 hin
    have e2 : c.name = s.name := by
      have : (toChannel c).name = merged.name := congrArg Channel.name e
      rw [h6.name] at this
      exact this
    have hcm : c = md := by
      rcases mem_newDocs hc with rfl | ⟨hc, hn⟩
      · rfl
      · exact absurd e2 (hM.fresh (toChannel c) (List.mem_map.2 ⟨c, hc, rfl⟩) hn)
    have := find_of_nodup hnames hc
    rw [e2, hcm] at this
    exact this
  · rw [hmdl]; exact h6

end Markup
end Verif
