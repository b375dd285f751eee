import Verif.Lemmas.MergeLoop
import Verif.Lemmas.MergeParse
import Verif.Props.PruneScript
/-!
# C78: the script `merge_channels.py`, from file to file

`mergeScript T L opts D F` is the decoded content of the two output files, for a model file with content `D` and a
data file with content `F` (or `none`).
-/
namespace Verif.Props
open Verif Markup Mdl

variable {T : Texts}

/-- C78: the option `--channels` is read as it is written: merges are separated by `~`, the channels of a merge by
commas, a channel may have a range `:low:high`, and blanks and line breaks do not count.  Either all channels of a
merge have a range or none has. -/
theorem c78_parse (L : Cmd.Lib) {l : List MergeText} {text : Cmd.Str} (h0 : l ≠ []) (h : ∀ m ∈ l, m.Ok)
    (hr : ∀ m ∈ l, m.RangesOk L) (ht : text.filter (fun c => c ≠ ' ' ∧ c ≠ '\n') = mergesText l) :
    parseMerges L text = .ok (l.map (MergeText.spec L)) := by
  have e : (text.filter (· ≠ ' ')).filter (· ≠ '\n') = mergesText l := by
    rw [← ht, List.filter_filter]
    congr 1
    funext c
    by_cases h1 : c = ' ' <;> by_cases h2 : c = '\n' <;> simp [h1, h2]
  unfold parseMerges
  rw [e, split_merges h0 h]
  have : (l.map mergeText).mapM (parseMerge L) = .ok (l.map (MergeText.spec L)) := by
    rw [mapM_ok_iff, List.forall₂_map_left_iff, List.forall₂_map_right_iff, List.forall₂_same]
    exact fun m hm => parseMerge_ok L (h m hm) (hr m hm)
  rw [this]

/-- C78: a merge with ranges for some of its channels only, or with a range that is not made of numbers, is refused
(`ValueError`), whatever the other merges are. -/
theorem c78_parse_refused (L : Cmd.Lib) {l : List MergeText} {text : Cmd.Str} (h : ∀ m ∈ l, m.Ok)
    (hr : ∃ m ∈ l, ¬ m.RangesOk L) (ht : text.filter (fun c => c ≠ ' ' ∧ c ≠ '\n') = mergesText l) :
    parseMerges L text = .error .valueError := by
  obtain ⟨m, hm, hr⟩ := hr
  have e : (text.filter (· ≠ ' ')).filter (· ≠ '\n') = mergesText l := by
    rw [← ht, List.filter_filter]
    congr 1
    funext c
    by_cases h1 : c = ' ' <;> by_cases h2 : c = '\n' <;> simp [h1, h2]
  unfold parseMerges
  rw [e, split_merges (List.ne_nil_of_mem hm) h]
  cases hh : (l.map mergeText).mapM (parseMerge L) with
  | error e => rfl
  | ok r =>
    exfalso
    have hF := mapM_ok_iff.1 hh
    rw [List.forall₂_map_left_iff] at hF
    obtain ⟨b, -, hb⟩ := forall₂_mem_left hF m hm
    obtain ⟨e, he⟩ := parseMerge_error L (h m hm) hr
    rw [he] at hb
    cases hb

theorem MergeS.parse_ne {L : Cmd.Lib} {text : Cmd.Str} {specs : List MergeSpec} (h : parseMerges L text = .ok specs) :
    specs ≠ [] := by
  unfold parseMerges at h
  cases hm : ((((text.filter (· ≠ ' ')).filter (· ≠ '\n')).splitOn '~').mapM (parseMerge L)) with
  | error e => rw [hm] at h; cases h
  | ok l =>
    rw [hm] at h
    have := Except.ok.inj (ε := PyErr) h
    subst this
    intro e
    subst e
    have := (mapM_ok_iff.1 hm).length_eq
    simp at this

/-- The file without the description of the model. -/
def MergeS.withoutDescription (out : Dict V) : Dict V :=
  out.map fun kv => match kv with
    | (k, .dict m) => (k, .dict (m.filter fun e => e.1 ≠ "description"))
    | kv => kv

theorem MergeS.save_keys {o : Obj} {D : Dict V} (h : save T o = .ok D) (hd : o.doc.description = none) :
    ∃ m : Dict V, D = [("model", .dict m)] ∧ m.get? "description" = none ∧ (m.get? "POIs").isSome ∧
      (m.get? "channels").isSome ∧ m.get? "name" = some (.ofStr o.doc.name) := by
  unfold save fillDoc at h
  obtain ⟨chans, -, h1⟩ := bind_eq_ok.1 h
  have h2 := Except.ok.inj (ε := PyErr) h1
  subst h2
  refine ⟨_, rfl, ?_, ?_, ?_, ?_⟩ <;>
  simp [rawDoc, hd, Dict.setOpt, Dict.get?_set, Dict.get?]

theorem MergeS.saved {o : Obj} {v : ℝ} {out : Dict V} (h : saveMerged T v o = .ok out) (hd : o.doc.description = none) :
    ∃ m : Dict V, save T o = .ok [("model", .dict m)] ∧ m.get? "description" = none ∧ (m.get? "POIs").isSome ∧
      (m.get? "channels").isSome ∧ m.get? "name" = some (.ofStr o.doc.name) ∧
      out = [("model", .dict (m ++ [("description", .num v)]))] := by
  unfold saveMerged at h
  obtain ⟨D, hD, h1⟩ := bind_eq_ok.1 h
  obtain ⟨m, rfl, k1, k2, k3, k4⟩ := MergeS.save_keys hD hd
  refine ⟨m, hD, k1, k2, k3, k4, ?_⟩
  have e : m.set "description" (.num v) = m ++ [("description", .num v)] :=
    Dict.set_new m ((Dict.get?_eq_none_iff _ _).1 k1) _
  have : saveMerged T v o = .ok [("model", .dict (m.set "description" (.num v)))] := by
    unfold saveMerged
    rw [hD, bind_ok]
    simp [Dict.getItem, Dict.get?, asDict, Dict.set]
  unfold saveMerged at this
  rw [h] at this
  rw [Except.ok.inj (ε := PyErr) this, e]

theorem MergeS.withoutDescription_eq {m : Dict V} {v : V} (h : m.get? "description" = none) :
    MergeS.withoutDescription [("model", .dict (m ++ [("description", v)]))] = [("model", .dict m)] := by
  have : ∀ kv ∈ m, (decide (kv.1 ≠ "description")) = true := by
    intro kv hkv
    have := (Dict.get?_eq_none_iff _ _).1 h
    simp only [ne_eq, decide_eq_true_eq]
    intro e
    exact this (List.mem_map.2 ⟨kv, hkv, e⟩)
  simp only [MergeS.withoutDescription, List.map_cons, List.map_nil, List.filter_append, List.filter_eq_self.2 this]
  simp

/-- The bins of a channel that is to be merged: the channel itself, or its bins if it has several. -/
def MergeS.bins (c : ChanDoc Sample) : List V :=
  match c.cls with
  | .multi b => b
  | .single => [.str c.name]
  | _ => []

/-- A loop that ends has left a model without a (textual) description, if there was a merge. -/
theorem MergeS.loop_description {opts : MergeOpts} {specs : List MergeSpec} : ∀ {o : Obj} {ds : Option DData.DS} {r},
    mergeLoop opts specs o ds = .ok r → (specs ≠ [] ∨ o.doc.description = none) → r.1.doc.description = none := by
  induction specs with
  | nil =>
    intro o ds r h hd
    have := Except.ok.inj (ε := PyErr) h
    rw [← this]
    exact hd.resolve_left (by simp)
  | cons s rest ih =>
    intro o ds r h _
    unfold mergeLoop at h
    obtain ⟨o1, h1, h2⟩ := bind_eq_ok.1 h
    cases o1 with
    | none => cases h2
    | some o1 =>
      dsimp only at h2
      obtain ⟨ds', -, h3⟩ := bind_eq_ok.1 h2
      refine ih h3 (.inr ?_)
      unfold mergeObj at h1
      obtain ⟨c, -, h4⟩ := bind_eq_ok.1 h1
      cases c with
      | none => cases h4
      | some c =>
        obtain ⟨ms, entries⟩ := c
        dsimp only at h4
        obtain ⟨samples, -, h5⟩ := bind_eq_ok.1 h4
        by_cases hr : s.ranges.isSome ∧ (s.ranges.getD []).length ≠ s.channels.length
        · rw [if_pos hr] at h5; cases h5
        · rw [if_neg hr] at h5
          obtain ⟨docs, -, h6⟩ := bind_eq_ok.1 h5
          obtain ⟨o2, h7, h8⟩ := bind_eq_ok.1 h6
          have := Option.some.inj (Except.ok.inj (ε := PyErr) h8)
          subst this
          have hs := (initModel_ok h7).1
          unfold setUp at hs
          simp only [bind_eq_ok] at hs
          obtain ⟨-, -, -, -, -, -, ch, -, hh⟩ := hs
          have := Except.ok.inj (ε := PyErr) hh
          rw [← this]
          rfl

/-- Finding F94: the model file written by the script can never be loaded again: whatever the input and the options, if
the script ends normally then loading its output raises `TypeError` (the verbosity is written in place of the
description of the model). -/
theorem c78_never_reloads {L : Cmd.Lib} {opts : MergeOpts} {D out : Dict V} {F out2 : Option (Dict V)}
    (h : mergeScript T L opts D F = .ok (out, out2)) : load T out = .error .typeError := by
  unfold mergeScript at h
  obtain ⟨⟨o, ds⟩, h1, h2⟩ := bind_eq_ok.1 h
  dsimp only at h2
  obtain ⟨out', h3, h4⟩ := bind_eq_ok.1 h2
  obtain ⟨d2, -, h5⟩ := bind_eq_ok.1 h4
  have h6 := Except.ok.inj (ε := PyErr) h5
  have h7 : out' = out := congrArg Prod.fst h6
  subst h7
  have hd : o.doc.description = none := by
    unfold mergedModel at h1
    obtain ⟨o0, -, k1⟩ := bind_eq_ok.1 h1
    obtain ⟨ds0, -, k2⟩ := bind_eq_ok.1 k1
    obtain ⟨specs, hs, k3⟩ := bind_eq_ok.1 k2
    exact MergeS.loop_description k3 (.inl (MergeS.parse_ne hs))
  obtain ⟨m, -, e1, e2, e3, e4, rfl⟩ := MergeS.saved h3 hd
  have g1 : ∀ k, (m.get? k).isSome → (m ++ [("description", MVal.num (lastVerbosity L opts))]).get? k = m.get? k := by
    intro k hk
    obtain ⟨v, hv⟩ := Option.isSome_iff_exists.1 hk
    rw [Dict.get?_append, hv]; rfl
  have g2 : (m ++ [("description", MVal.num (lastVerbosity L opts))]).get? "description" =
      some (.num (lastVerbosity L opts)) := by
    rw [Dict.get?_append, e1]; rfl
  unfold load loadDoc
  simp only [Dict.getItem, Dict.get?, if_true, bind_ok, asDict]
  have n2 : ¬ (Dict.get? (m ++ [("description", MVal.num (lastVerbosity L opts))]) "POIs").isNone = true := by
    rw [g1 _ e2]
    obtain ⟨v, hv⟩ := Option.isSome_iff_exists.1 e2
    rw [hv]; simp
  have n3 : ¬ (Dict.get? (m ++ [("description", MVal.num (lastVerbosity L opts))]) "channels").isNone = true := by
    rw [g1 _ e3]
    obtain ⟨v, hv⟩ := Option.isSome_iff_exists.1 e3
    rw [hv]; simp
  rw [if_neg n2, if_neg n3]
  have hn : ∃ n, loadStr "name" (m ++ [("description", MVal.num (lastVerbosity L opts))]) (some "") = .ok n := by
    unfold loadStr loadField
    rw [g1 _ (by rw [e4]; rfl), e4]
    cases o.doc.name <;> exact ⟨_, rfl⟩
  obtain ⟨n, hn⟩ := hn
  rw [hn, bind_ok]
  have hd' : loadStr "description" (m ++ [("description", MVal.num (lastVerbosity L opts))]) none = .error .typeError := by
    unfold loadStr loadField
    rw [g2]
    rfl
  rw [hd']
  rfl

/-- C78: the merges of the command line, from file to file.  The model has its impacts given at ±1 and no Gaussian
channel; the merges concern different channels, each of them can be done, and the counts are whole numbers.  Then the
script ends normally.  Once the entry `description` is taken out of its output (see `c78_never_reloads`), the files can be
loaded; the parameters are those of the input, the predictions are those of the input for all parameter values (channel
by channel for the channels that were not merged, and one after the other for those that were), and so are the data;
the likelihoods are equal, for all parameter values and with or without offset, floor and constraint terms.  A merged
channel has the bins of the channels it replaces, or the ranges, observable and unit given on the command line. -/
theorem c78_merged (hT : T.Lawful) {L : Cmd.Lib} {opts : MergeOpts} {D F : Dict V} {o : Obj} {ds : DData.DS}
    {specs : List MergeSpec} {A : Mdl.Arrays}
    (ho : load T D = .ok o) (hf : Faithful o) (ha : (o.doc.nps.filterMap (·.aux_obs)).Nodup)
    (hv : ∀ p ∈ o.doc.nps, p.variation ≠ some 0)
    (hs : ∀ ch ∈ o.mdl.channels, 0 < ch.nbins ∧ ∀ s ∈ ch.samples, s.Std ch.nbins)
    (hA : o.mdl.setInternal = .ok A)
    (hds : DData.loadDict (dataModel o) F = .ok ds) (hint : ∀ x ∈ ds.counts, ∃ k : ℤ, x = k)
    (hp : parseMerges L opts.channels = .ok specs) (hplan : MergePlan o specs) :
    ∃ (out F' : Dict V) (chans : List (ChanDoc Sample)) (ds' : DData.DS) (A' : Mdl.Arrays),
      mergeScript T L opts D (some F) = .ok (out, some F') ∧ mergeScript T L opts D none = .ok (out, none) ∧
      load T (MergeS.withoutDescription out) = .ok (withChans o chans) ∧
      DData.loadDict (dataModel (withChans o chans)) F' = .ok ds' ∧
      (withChans o chans).mdl.setInternal = .ok A' ∧ ds'.aux_obs = ds.aux_obs ∧
      SamePredictions o.mdl (withChans o chans).mdl A A' specs ∧
      SameData o.mdl (withChans o chans).mdl A A' specs ds.counts ds'.counts ∧
      (∀ nm, (∀ s ∈ specs, nm ∉ s.channels ∧ nm ≠ s.name) →
        chans.find? (fun c => c.name == nm) = o.doc.channels.find? (fun c => c.name == nm)) ∧
      ∀ s ∈ specs, ∃ docs c, s.channels.mapM (getDoc o.doc.channels) = .ok docs ∧
        chans.find? (fun c => c.name == s.name) = some c ∧
        (s.ranges = none → c.cls = .multi (docs.flatMap MergeS.bins)) ∧
        ∀ l, s.ranges = some l → c.cls = .range
          (l.map fun r => .dict [("lo_edge", .num r.1), ("hi_edge", .num r.2)]) opts.obs_name opts.obs_unit := by
  have hR := ready_of_load hT ho hf ha
  obtain ⟨l1, l2⟩ := data_length hds
  have hne := MergeS.parse_ne hp
  cases specs with
  | nil => exact absurd rfl hne
  | cons s rest =>
    obtain ⟨chans, A', k1, k2, k3, k4, k4', k5⟩ := merge_all hT opts rest s hR hplan hs hA
    obtain ⟨c, c1, c2⟩ := k5 ds (by rw [l1, dataModel_nbins]) (by rw [l2]; simp [dataModel])
    set o' := withChans o chans with ho'
    obtain ⟨D', s1, s2⟩ := k2.saved hT
    obtain ⟨m, rfl, e1, -⟩ := MergeS.save_keys s1 rfl
    obtain ⟨nps, hnps⟩ := Prune.numeric_all k2
    have hdist := k2.good.loaded.chan_distinct
    obtain ⟨F', r1, r2⟩ := c13_roundtrip (dataModel o') ⟨c, ds.aux_obs⟩
      (by simpa [dataModel, rawDoc, rawChannel, Function.comp_def] using hdist)
      (by
        intro c hc b e
        obtain ⟨c', hc', rfl⟩ := List.mem_map.1 hc
        have := k2.faithful.poisson c' hc'
        cases hk : c'.cls <;> simp [hk, kindOf, ChClass.isGauss] at e this)
      (by rw [dataModel_nbins]; exact c2.length) (by rw [l2]; simp [dataModel, ho', withChans]) (by
        show ((List.ofFn o'.mdl.nps).filterMap (·.aux_obs)).Nodup
        rw [Prune.nps_aux hnps]; exact k2.good.aux)
      (by
        intro p hp
        obtain ⟨i, rfl⟩ := List.mem_ofFn.1 hp
        exact Prune.np_variation hnps hv i)
    have e2 : c.map (fun x => if 0 ≤ x then (⌊x⌋ : ℝ) else (⌈x⌉ : ℝ)) = c := by
      rw [List.map_congr_left (g := id) (fun x hx => ?_), List.map_id]
      obtain ⟨k, rfl⟩ := hint x (c2.mem x hx)
      split <;> simp
    have e3 : List.zipWith (fun (p : NP ℝ) a => if p.aux_obs = none then 0 else a) (dataModel o').nps ds.aux_obs =
        ds.aux_obs := by
      rw [show (dataModel o').nps = (dataModel o).nps from rfl]
      exact kept_zero hds
    dsimp only at r2
    rw [e2, e3] at r2
    obtain ⟨out, hout⟩ : ∃ out, saveMerged T (lastVerbosity L opts) o' = .ok out := by
      unfold saveMerged
      rw [s1, bind_ok]
      exact ⟨_, rfl⟩
    obtain ⟨m', q1, q2, -, -, -, rfl⟩ := MergeS.saved hout rfl
    rw [s1] at q1
    obtain rfl : m = m' := by
      have := Except.ok.inj (ε := PyErr) q1
      simpa using this
    refine ⟨[("model", .dict (m ++ [("description", .num (lastVerbosity L opts))]))], F', chans, ⟨c, ds.aux_obs⟩, A', ?_, ?_, ?_, r2, k3, rfl, k4, c2, k4'.other, fun t ht => ?_⟩
    · unfold mergeScript mergedModel
      rw [ho, bind_ok]
      simp only [mergeInput, hds, bind_ok, pure_ok, hp, c1, hout, saveData, r1]
    · unfold mergeScript mergedModel
      rw [ho, bind_ok]
      simp only [mergeInput, bind_ok, pure_ok, hp, k1, hout, saveData]
    · rw [MergeS.withoutDescription_eq e1]; exact s2
    · obtain ⟨docs, c, q1, q2, q3⟩ := k4'.merged t ht
      refine ⟨docs, c, q1, q2, fun hn => ?_, fun l hl => ?_⟩
      · rw [q3, hn]
        simp only [mergedClass]
        congr 2
        funext d
        unfold Markup.binsOf MergeS.bins
        cases d.cls <;> rfl
      · rw [q3, hl]; rfl

theorem MergeS.check_refused {kind : String → ChKind} {chans : List Channel} {names : List String}
    (h : (∃ nm ∈ names, ∀ c ∈ chans, c.name ≠ nm) ∨
      ∃ nm ∈ names, (kind nm).isRange = true) :
    Merge.check kind chans names = .ok none ∨ Merge.check kind chans names = .error .keyError := by
  have h0 : names ≠ [] := by rcases h with ⟨nm, h, -⟩ | ⟨nm, h, -⟩ <;> exact List.ne_nil_of_mem h
  unfold Merge.check
  rw [if_neg h0]
  by_cases h1 : (names.tail.any (fun nm => !(chans.any (·.name == nm)))) = true
  · rw [if_pos h1]; exact .inl rfl
  rw [if_neg h1]
  cases hm : names.mapM (Merge.getChannel chans) with
  | error e =>
    right
    have : ∀ (l : List String) e, l.mapM (Merge.getChannel chans) = .error e → e = .keyError := by
      intro l
      induction l with
      | nil => intro e h; cases h
      | cons a l ih =>
        intro e h
        rw [List.mapM_cons] at h
        cases ha : Merge.getChannel chans a with
        | error e' =>
          rw [ha] at h
          unfold Merge.getChannel at ha
          split at ha
          · cases ha
          · cases ha; cases h; rfl
        | ok c =>
          rw [ha, bind_ok] at h
          cases hl : l.mapM (Merge.getChannel chans) with
          | error e' => rw [hl] at h; cases h; exact ih _ hl
          | ok r => rw [hl] at h; cases h
    rw [this names e hm]; rfl
  | ok ms =>
    left
    rw [bind_ok]
    have hF := mapM_ok_iff.1 hm
    rw [if_pos]
    · rfl
    rcases h with ⟨nm, hn, hu⟩ | ⟨nm, hn, hr⟩
    · obtain ⟨c, -, hc⟩ := forall₂_mem_left hF nm hn
      have := Merge.getChannel_ok hc
      exact absurd this.2 (hu c this.1)
    · obtain ⟨c, hc, hcq⟩ := forall₂_mem_left hF nm hn
      rw [List.any_eq_true]
      exact ⟨c, hc, by rw [(Merge.getChannel_ok hcq).2]; exact hr⟩

/-- C78: if the first merge names an unknown channel, or a channel that already has ranges, the script writes nothing:
it ends with `AttributeError` (the merge has returned `None`, which is not noticed) or `KeyError`. -/
theorem c78_refused (hT : T.Lawful) {L : Cmd.Lib} {opts : MergeOpts} {D : Dict V} {F : Option (Dict V)} {o : Obj}
    {s : MergeSpec} {rest : List MergeSpec} (ho : load T D = .ok o) (hf : Faithful o)
    (ha : (o.doc.nps.filterMap (·.aux_obs)).Nodup)
    (hF : ∀ G, F = some G → ∃ ds, DData.loadDict (dataModel o) G = .ok ds)
    (hp : parseMerges L opts.channels = .ok (s :: rest))
    (h : (∃ nm ∈ s.channels, ∀ c ∈ o.doc.channels, c.name ≠ nm) ∨
      ∃ nm ∈ s.channels, ∃ c ∈ o.doc.channels, c.name = nm ∧ ∃ b on ou, c.cls = .range b on ou) :
    mergeScript T L opts D F = .error .attributeError ∨ mergeScript T L opts D F = .error .keyError := by
  have hR := ready_of_load hT ho hf ha
  have hnd : (o.doc.channels.map (·.name)).Nodup := by
    simpa [rawDoc, rawChannel, Function.comp_def] using hR.good.loaded.chan_distinct
  have hck := MergeS.check_refused (kind := kindNamed o) (chans := o.mdl.channels) (names := s.channels) (by
    rcases h with ⟨nm, hn, hu⟩ | ⟨nm, hn, c, hc, rfl, b, on, ou, hcl⟩
    · refine .inl ⟨nm, hn, fun c hc => ?_⟩
      obtain ⟨c', hc', rfl⟩ := List.mem_map.1 hc
      exact hu c' hc'
    · refine .inr ⟨c.name, hn, ?_⟩
      unfold kindNamed
      rw [Merge.find_of_nodup hnd hc]
      simp [hcl, kindOf, ChKind.isRange])
  obtain ⟨ds, hds⟩ : ∃ ds, mergeInput o F = .ok ds := by
    cases F with
    | none => exact ⟨none, rfl⟩
    | some G =>
      obtain ⟨ds, hds⟩ := hF G rfl
      exact ⟨some ds, by simp only [mergeInput, hds, bind_ok]; rfl⟩
  unfold mergeScript mergedModel
  rw [ho, bind_ok, hds, bind_ok, hp, bind_ok, mergeLoop]
  rcases hck with hck | hck
  · left
    have : mergeObj opts.obs_name opts.obs_unit s o = .ok none := by
      unfold mergeObj; rw [hck]; rfl
    rw [this]; rfl
  · right
    have : mergeObj opts.obs_name opts.obs_unit s o = .error .keyError := by
      unfold mergeObj; rw [hck]; rfl
    rw [this]; rfl

/-! ### A concrete run -/
namespace MergeSDemo
open MarkupDemo

/-- A single-bin channel with a signal and a background. -/
noncomputable def ch (nm : String) (s b : ℝ) : ChanDoc Sample where
  name := nm
  cls := .single
  samples := [
    { name := "sig", norm := .expr "mu", nominal_norm := 1, nominal_yields := [s],
      impacts := [("np", .common [(.num 1, 0), (.num (-1), -0)])] },
    { name := "bkg", norm := .number 2, nominal_norm := 2, nominal_yields := [b],
      impacts := [("np", .common [(.num 1, 1/10), (.num (-1), -1/10)])] }]

/-- A model with four channels. -/
noncomputable def obj : Obj where
  doc :=
    { name := some "demo"
      description := some "four channels"
      pois := [{ name := some "mu", min_value := some 0, max_value := some 10, initial_value := some 1 }]
      aux := [{ name := some "aux" }]
      nps := [{ name := some "np", nominal_value := some 0, variation := some 1, constraint := some 1, aux_obs := some "aux" }]
      exprs := []
      channels := [ch "A" 1 10, ch "B" 2 20, ch "C" 3 30, ch "D" 4 40, ch "E" 5 50] }
  flags := {}

theorem std : StdAll obj.mdl := by
  intro c hc
  have : ∃ nm s b, c = toChannel (ch nm s b) := by
    simp only [Obj.mdl, obj, List.map_cons, List.map_nil, List.mem_cons, List.not_mem_nil, or_false] at hc
    rcases hc with rfl | rfl | rfl | rfl | rfl <;> exact ⟨_, _, _, rfl⟩
  obtain ⟨nm, y, b, rfl⟩ := this
  refine ⟨by simp [toChannel, ch, ChClass.nbins], ?_⟩
  intro s hs
  simp only [toChannel, ch, List.mem_cons, List.not_mem_nil, or_false] at hs
  rcases hs with rfl | rfl
  all_goals
    refine ⟨rfl, ?_⟩
    intro par i h
    simp only [Dict.get?] at h
    split_ifs at h
    all_goals simp at h
    rw [← h]; exact List.Perm.refl _

theorem vals : obj.mdl.ctx.realVals obj.mdl.poiInit = .ok [("mu", 1), ("np", 0)] := by
  simp [ExprCtx.realVals, ExprCtx.evalLoop, ExprCtx.base, Mdl.ctx, Obj.mdl, obj, ModelNP.numeric,
    Dict.set, Dict.keys]

theorem computable : obj.mdl.Computable [("mu", 1), ("np", 0)] := by
  refine ⟨?_, ?_, ?_⟩
  · intro s hs
    have h1 : obj.mdl.nbins = 5 := by
      simp [Mdl.nbins, Mdl.chanState, Obj.mdl, obj, ch, chanStep, toChannel, ChClass.nbins]
    have h2 : obj.mdl.maxSamples = 2 := by
      simp [Mdl.maxSamples, Mdl.chanState, Obj.mdl, obj, ch, chanStep, toChannel]
    rw [h2] at hs
    rw [h1]
    interval_cases s <;> simp [Mdl.cells, Channel.cells, Obj.mdl, obj, ch, toChannel]
  · intro c hc smp hm
    simp only [Obj.mdl, obj, List.map_cons, List.map_nil, List.mem_cons, List.not_mem_nil, or_false] at hc
    rcases hc with rfl | rfl | rfl | rfl | rfl <;>
    simp only [toChannel, ch, List.mem_cons, List.not_mem_nil, or_false] at hm <;>
    rcases hm with rfl | rfl <;> norm_num
  · intro c hc smp hm
    simp only [Obj.mdl, obj, List.map_cons, List.map_nil, List.mem_cons, List.not_mem_nil, or_false] at hc
    rcases hc with rfl | rfl | rfl | rfl | rfl <;>
    simp only [toChannel, ch, List.mem_cons, List.not_mem_nil, or_false] at hm <;>
    rcases hm with rfl | rfl <;> simp [Norm.value, Dict.getItem, Dict.get?]

theorem mem_raw {c : ChanDoc RawSample} (hc : c ∈ (rawDoc obj.doc).channels) : ∃ nm s b, c = rawChannel (ch nm s b) := by
  simp only [rawDoc, obj, List.map_cons, List.map_nil, List.mem_cons, List.not_mem_nil, or_false] at hc
  rcases hc with rfl | rfl | rfl | rfl | rfl <;> exact ⟨_, _, _, rfl⟩

theorem ready : Ready texts obj := by
  have hs : setUp (rawDoc obj.doc) = .ok obj.doc := by
    simp [setUp, rawDoc, rawChannel, toRaw, obj, ch, numericPOI, needName, ModelNP.numeric, refVals, ExprCtx.evalLoop,
      Dict.get?, Dict.set, setUpChannel, RawSample.setNpData, Norm.implicitImpact, Dict.keys, Expr.lookups]
  obtain ⟨A, hA⟩ := setInternal_of_std (m := obj.mdl) rfl std (by simp [PoissonFirst, Obj.mdl, obj, toChannel, ch, ChClass.isGauss])
  obtain ⟨ne, hne, -⟩ := Mdl.nExp_ok A 0 vals computable
  refine ⟨⟨⟨?_, ?_, ?_, ?_, ?_, ?_, ?_, ?_, ?_, ?_⟩, ?_, ?_, ?_, ?_⟩, initModel_intro hs rfl hA hne⟩
  · simp [rawDoc, obj]
  · simp [rawDoc, obj]
  · simp [rawDoc, obj]
  · simp [rawDoc, obj]
  · simp [rawDoc, obj]
  · simp [rawDoc, obj]
  · simp [rawDoc, rawChannel, obj, ch]
  · intro c hc
    obtain ⟨nm, s, b, rfl⟩ := mem_raw hc
    simp [rawChannel, toRaw, ch]
  · intro c hc s hs
    obtain ⟨nm, y, b, rfl⟩ := mem_raw hc
    simp only [rawChannel, ch, List.map_cons, List.map_nil, List.mem_cons, List.not_mem_nil, or_false] at hs
    rcases hs with rfl | rfl
    all_goals
      refine ⟨?_, ?_⟩
      · intro e he; cases he
        try rfl
      · intro kv hkv
        simp only [toRaw, List.mem_singleton] at hkv
        subst hkv
        intro kv hkv
        simp only [List.mem_cons, List.not_mem_nil, or_false] at hkv
        rcases hkv with rfl | rfl
        · exact lawful.up
        · exact lawful.down
  · intro c hc s hs l hl
    obtain ⟨nm, y, b, rfl⟩ := mem_raw hc
    simp only [rawChannel, ch, List.map_cons, List.map_nil, List.mem_cons, List.not_mem_nil, or_false] at hs
    rcases hs with rfl | rfl <;> simp [toRaw] at hl <;> subst hl <;> rfl
  · simp [rawDoc, obj]
  · intro c hc
    obtain ⟨nm, y, b, rfl⟩ := mem_raw hc
    rfl
  · intro c hc s hs
    obtain ⟨nm, y, b, rfl⟩ := mem_raw hc
    simp only [rawChannel, ch, List.map_cons, List.map_nil, List.mem_cons, List.not_mem_nil, or_false] at hs
    rcases hs with rfl | rfl <;> exact ⟨_, rfl, rfl⟩
  · simp [rawDoc, obj]

theorem stdCh (nm : String) (y b : ℝ) : ∀ s ∈ (ch nm y b).samples, s.Std 1 := by
  intro s hs
  simp only [ch, List.mem_cons, List.not_mem_nil, or_false] at hs
  rcases hs with rfl | rfl
  all_goals
    refine ⟨rfl, ?_⟩
    intro par i h
    simp only [Dict.get?] at h
    split_ifs at h
    all_goals simp at h
    rw [← h]; exact List.Perm.refl _

theorem aligned {ms : List Channel} (h : ∀ c ∈ ms, ∃ nm s b, c = toChannel (ch nm s b)) : Merge.Aligned ms := by
  refine ⟨?_, ?_, ?_, ?_, ?_⟩
  · intro c hc
    obtain ⟨nm, s, b, rfl⟩ := h c hc
    simp [toChannel, ch, ChClass.nbins]
  · intro c hc
    obtain ⟨nm, s, b, rfl⟩ := h c hc
    simp [toChannel, ch]
  · intro c hc s hs
    obtain ⟨nm, y, b, rfl⟩ := h c hc
    refine ⟨stdCh nm y b s hs, ?_⟩
    simp only [toChannel, ch, List.mem_cons, List.not_mem_nil, or_false] at hs
    rcases hs with rfl | rfl <;> simp
  · intro c hc s hs c' hc' s' hs'
    obtain ⟨nm, y, b, rfl⟩ := h c hc
    obtain ⟨nm', y', b', rfl⟩ := h c' hc'
    simp only [toChannel, ch, List.mem_cons, List.not_mem_nil, or_false] at hs hs'
    rcases hs with rfl | rfl <;> rcases hs' with rfl | rfl <;> simp
  · intro c hc
    obtain ⟨nm, s, b, rfl⟩ := h c hc
    exact .inl rfl

theorem plan : MergePlan obj [⟨"AC", ["A", "C"], none⟩, ⟨"BD", ["D", "B"], some [(0, 1), (1, 2)]⟩] := by
  refine ⟨?_, by simp⟩
  intro s hs
  simp only [List.mem_cons, List.not_mem_nil, or_false] at hs
  rcases hs with rfl | rfl
  · refine ⟨[toChannel (ch "A" 1 10), toChannel (ch "C" 3 30)], by simp, by simp, ?_, ?_, ?_, ?_, ?_, aligned ?_⟩
    · exact .cons ⟨by simp [Obj.mdl, obj], rfl⟩ (.cons ⟨by simp [Obj.mdl, obj], rfl⟩ .nil)
    · simp [Obj.mdl, obj, ch, toChannel]
    · simp [Obj.mdl, obj, ch, toChannel]
    · intro c hc
      simp only [List.mem_cons, List.not_mem_nil, or_false] at hc
      rcases hc with rfl | rfl <;>
      exact ⟨rfl, .inl ⟨by simp [kindNamed, obj, ch, toChannel, kindOf], rfl⟩⟩
    · intro l hl; cases hl
    · intro c hc
      simp only [List.mem_cons, List.not_mem_nil, or_false] at hc
      rcases hc with rfl | rfl <;> exact ⟨_, _, _, rfl⟩
  · refine ⟨[toChannel (ch "D" 4 40), toChannel (ch "B" 2 20)], by simp, by simp, ?_, ?_, ?_, ?_, ?_, aligned ?_⟩
    · exact .cons ⟨by simp [Obj.mdl, obj], rfl⟩ (.cons ⟨by simp [Obj.mdl, obj], rfl⟩ .nil)
    · simp [Obj.mdl, obj, ch, toChannel]
    · simp [Obj.mdl, obj, ch, toChannel]
    · intro c hc
      simp only [List.mem_cons, List.not_mem_nil, or_false] at hc
      rcases hc with rfl | rfl <;>
      exact ⟨rfl, .inl ⟨by simp [kindNamed, obj, ch, toChannel, kindOf], rfl⟩⟩
    · intro l hl
      have := Option.some.inj hl
      subst this
      refine ⟨rfl, fun c hc => ?_⟩
      simp only [List.mem_cons, List.not_mem_nil, or_false] at hc
      rcases hc with rfl | rfl <;> rfl
    · intro c hc
      simp only [List.mem_cons, List.not_mem_nil, or_false] at hc
      rcases hc with rfl | rfl <;> exact ⟨_, _, _, rfl⟩

/-- `AC=A,C~BD=D:0:1,B:1:2`, with blanks. -/
noncomputable def texts2 : List MergeText := [
  ⟨"AC".toList, [("A".toList, none), ("C".toList, none)]⟩,
  ⟨"BD".toList, [("D".toList, some ("0".toList, "1".toList)), ("B".toList, some ("1".toList, "2".toList))]⟩]

/-- The numbers `0`, `1` and `2`. -/
noncomputable def lib : Cmd.Lib :=
  ⟨fun v n => decide (v = n.toList), fun t => if t = "0".toList then some 0 else if t = "1".toList then some 1
    else if t = "2".toList then some 2 else none, fun _ => none⟩

theorem spec_ok : parseMerges lib "AC=A,C ~ BD=D:0:1, B:1:2".toList =
    .ok [⟨"AC", ["A", "C"], none⟩, ⟨"BD", ["D", "B"], some [(0, 1), (1, 2)]⟩] := by
  have h := c78_parse lib (l := texts2) (text := "AC=A,C ~ BD=D:0:1, B:1:2".toList) (by simp [texts2]) ?_ ?_ rfl
  · rw [h]
    simp [texts2, MergeText.spec, rangeOf, lib]
  · intro m hm
    simp only [texts2, List.mem_cons, List.not_mem_nil, or_false] at hm
    rcases hm with rfl | rfl
    · exact ⟨by simp [Clean], by simp, by simp [Clean]⟩
    · exact ⟨by simp [Clean], by simp, by simp [Clean]⟩
  · intro m hm
    simp only [texts2, List.mem_cons, List.not_mem_nil, or_false] at hm
    rcases hm with rfl | rfl
    · left; simp
    · right; simp [lib]

/-- All hypotheses of `c78_merged` are met by a model with five channels, two of which are merged into a channel with
two bins and two others into one with two ranges. -/
example : ∃ (opts : MergeOpts) (D F : Dict V) (ds : DData.DS) (specs : List MergeSpec) (A : Mdl.Arrays),
    load texts D = .ok obj ∧ Faithful obj ∧ (obj.doc.nps.filterMap (·.aux_obs)).Nodup ∧
    (∀ p ∈ obj.doc.nps, p.variation ≠ some 0) ∧ StdAll obj.mdl ∧ obj.mdl.setInternal = .ok A ∧
    DData.loadDict (dataModel obj) F = .ok ds ∧ ds.counts = [11, 22, 33, 44, 55] ∧ (∀ x ∈ ds.counts, ∃ k : ℤ, x = k) ∧
    parseMerges lib opts.channels = .ok specs ∧ MergePlan obj specs ∧ specs.length = 2 := by
  obtain ⟨D, -, hD⟩ := ready.saved lawful
  obtain ⟨A, hA⟩ := setInternal_of_std (m := obj.mdl) rfl std (by simp [PoissonFirst, Obj.mdl, obj, toChannel, ch, ChClass.isGauss])
  obtain ⟨nps, hnps⟩ := Prune.numeric_all ready
  have hv : ∀ p ∈ obj.doc.nps, p.variation ≠ some 0 := by simp [obj]
  obtain ⟨F, -, hF⟩ := c13_exact (dataModel obj) ⟨[11, 22, 33, 44, 55], [0]⟩
    (by simp [dataModel, obj, ch]) (by simp [dataModel, obj, ch, kindOf])
    (by simp [dataModel, DModel.nbins, DChannel.nbins, obj, ch, kindOf]) (by simp [dataModel, obj])
    (by
      show ((List.ofFn obj.mdl.nps).filterMap (·.aux_obs)).Nodup
      rw [Prune.nps_aux hnps]; simp [obj])
    (by
      intro p hp
      obtain ⟨i, rfl⟩ := List.mem_ofFn.1 hp
      exact Prune.np_variation hnps hv i)
    (by
      intro x hx
      simp only [List.mem_cons, List.not_mem_nil, or_false] at hx
      rcases hx with rfl | rfl | rfl | rfl | rfl
      exacts [⟨11, by norm_num⟩, ⟨22, by norm_num⟩, ⟨33, by norm_num⟩, ⟨44, by norm_num⟩, ⟨55, by norm_num⟩])
    (by simp [dataModel, obj, Obj.mdl, ModelNP.numeric])
  refine ⟨⟨"AC=A,C ~ BD=D:0:1, B:1:2".toList, 0, none, none⟩, D, F, _, _, A, hD, ready.faithful, by simp [obj], hv, std,
    hA, hF, rfl, ?_, spec_ok, plan, rfl⟩
  intro x hx
  simp only [List.mem_cons, List.not_mem_nil, or_false] at hx
  rcases hx with rfl | rfl | rfl | rfl | rfl
  exacts [⟨11, by norm_num⟩, ⟨22, by norm_num⟩, ⟨33, by norm_num⟩, ⟨44, by norm_num⟩, ⟨55, by norm_num⟩]

end MergeSDemo

end Verif.Props
