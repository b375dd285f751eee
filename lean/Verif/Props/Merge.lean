import Verif.Lemmas.MergeData
import Verif.Lemmas.DemoMerge
/-!
# C33: merging channels
-/
namespace Verif.Props
open Verif Merge Mdl

section
variable {n P : Nat} {m : Mdl n P} {kind : String → ChKind} {names : List String} {mergedName : String}
  {obs : Option (List (ℝ × ℝ))} {ms : List Channel} {A : Arrays} {N0 : Nat → ℝ}

/-- **C33** Merging channels gives a model with the same parameters whose predictions, for all POIs and
NPs, are those of the original: unmerged channels have the same yields, and the yields of the merged
channel are those of the channels that were merged, one after the other in the order of the call.

`Mergeable` says that the call makes sense (channels of the model, each named once, the name of the
merged channel not in use, single- or multi-bin channels) and that the channels can be put together: samples
of the same name have the same normalisation, nonzero where it is used to divide, and a multi-bin channel
has the samples of the others with impacts given bin by bin.  Impacts are given at ±1, and the model has no
cutoff. -/
theorem c33_predictions (hM : Mergeable m kind names mergedName obs ms) (hset : m.NpDataSet)
    (hcut : m.cutoff = 0) (hvar : m.variations = none)
    (hs : ∀ ch ∈ m.channels, 0 < ch.nbins ∧ ∀ s ∈ ch.samples, s.Std ch.nbins)
    (hA : m.setInternal = .ok A) (h0 : m.refTot A = .ok N0) :
    ∃ orig m' A', m.mergeChannels kind names mergedName obs = .ok (orig, some m') ∧ m'.setInternal = .ok A' ∧
      m'.pois = m.pois ∧ m'.nps = m.nps ∧ m'.nbins = m.nbins ∧
      ∀ x θ N, m.totBinExp A x θ = .ok N → ∃ N', m'.totBinExp A' x θ = .ok N' ∧
        (∀ ch ∈ m.channels, ch.name ∉ names → m'.channelSlice (asList N' m'.nbins) ch.name =
          m.channelSlice (asList N m.nbins) ch.name) ∧
        ∃ parts, names.mapM (m.channelSlice (asList N m.nbins)) = .ok parts ∧
          m'.channelSlice (asList N' m'.nbins) mergedName = .ok parts.flatten := by
  obtain ⟨ne, hne, _⟩ := nExp_of_totBinExp h0
  obtain ⟨vals, hv, _⟩ := nExp_inv hne
  obtain ⟨done, m', merged, keys, pre, c0, post, h1, h2⟩ := mergeChannels_ok hM hset hv
  have ho := setInternal_order hM.channels hA
  obtain ⟨A', hA'⟩ := setInternal_of_std (m := m') (by rw [h2.model]; exact hvar) (h2.std hM hs) (h2.order hM ho)
  have hnb : m'.nbins = m.nbins := by
    rw [nbins_eq_sum, nbins_eq_sum, h2.channels, ((h2.perm hM).map (·.nbins)).sum_eq]
    simp [h2.nbins]
  refine ⟨_, m', A', h1, hA', by rw [h2.model], by rw [h2.model], hnb, fun x θ N hN => ?_⟩
  obtain ⟨N', hN', hS⟩ := h2.sameBins hM hcut hvar hs hA hA' hN
  exact ⟨N', hN', hS.slices h2 hM⟩

/-- **C33** Merging the data after the model keeps every count: the counts of unmerged channels are the
same, and those of the merged channel are those of the channels that were merged, in order. -/
theorem c33_data (hM : Mergeable m kind names mergedName obs ms) (hset : m.NpDataSet)
    (h0 : m.refTot A = .ok N0) {orig m' : Mdl n P}
    (h : m.mergeChannels kind names mergedName obs = .ok (orig, some m'))
    {counts : List ℝ} (hl : counts.length = m.nbins) :
    ∃ c, orig.mergeData kind names m' counts = .ok (some c) ∧ c.length = m'.nbins ∧
      (∀ ch ∈ m.channels, ch.name ∉ names → m'.channelSlice c ch.name = m.channelSlice counts ch.name) ∧
      ∃ parts, names.mapM (m.channelSlice counts) = .ok parts ∧
        m'.channelSlice c mergedName = .ok parts.flatten := by
  obtain ⟨ne, hne, _⟩ := nExp_of_totBinExp h0
  obtain ⟨vals, hv, _⟩ := nExp_inv hne
  obtain ⟨done, m2, merged, keys, pre, c0, post, h1, h2⟩ := mergeChannels_ok hM hset hv
  rw [h1] at h
  obtain ⟨rfl, h⟩ := Prod.ext_iff.1 (Except.ok.inj (ε := PyErr) h)
  obtain rfl := Option.some.inj h
  obtain ⟨c, hc, hcl, hS⟩ := h2.counts hM hl
  refine ⟨c, by rw [mergeData_mutated]; exact hc, hcl, ?_⟩
  have := hS.slices h2 hM
  rwa [asList_getD hcl, asList_getD hl] at this

/-- **C33** The likelihood of the merged model on the merged data is that of the original on the original
data, for all POIs and NPs, with or without offset, floor and constraints. -/
theorem c33_likelihood (hM : Mergeable m kind names mergedName obs ms) (hset : m.NpDataSet)
    (hcut : m.cutoff = 0) (hvar : m.variations = none)
    (hs : ∀ ch ∈ m.channels, 0 < ch.nbins ∧ ∀ s ∈ ch.samples, s.Std ch.nbins)
    (hA : m.setInternal = .ok A) (h0 : m.refTot A = .ok N0) :
    ∃ orig m' A', m.mergeChannels kind names mergedName obs = .ok (orig, some m') ∧ m'.setInternal = .ok A' ∧
      ∀ (counts : List ℝ) (aux : Fin P → ℝ), counts.length = m.nbins →
        ∃ c, orig.mergeData kind names m' counts = .ok (some c) ∧
          ∀ x θ N offset floor nc, m.totBinExp A x θ = .ok N →
            m'.nll A' x θ ⟨fun b => c.getD b 0, aux⟩ offset floor nc =
              m.nll A x θ ⟨fun b => counts.getD b 0, aux⟩ offset floor nc := by
  obtain ⟨ne, hne, _⟩ := nExp_of_totBinExp h0
  obtain ⟨vals, hv, _⟩ := nExp_inv hne
  obtain ⟨done, m', merged, keys, pre, c0, post, h1, h2⟩ := mergeChannels_ok hM hset hv
  have ho := setInternal_order hM.channels hA
  obtain ⟨A', hA'⟩ := setInternal_of_std (m := m') (by rw [h2.model]; exact hvar) (h2.std hM hs) (h2.order hM ho)
  refine ⟨_, m', A', h1, hA', fun counts aux hl => ?_⟩
  obtain ⟨c, hc, hcl, hSc⟩ := h2.counts hM hl
  refine ⟨c, by rw [mergeData_mutated]; exact hc, fun x θ N offset floor nc hN => ?_⟩
  obtain ⟨N', hN', hS⟩ := h2.sameBins hM hcut hvar hs hA hA' hN
  obtain ⟨N0', h0', hS0⟩ := h2.sameBins hM hcut hvar hs hA hA' h0
  have hpi : m'.poiInit = m.poiInit := by rw [h2.model]
  exact hS.nll h2 hM ho hN hN' h0 (by unfold refTot; rw [hpi]; exact h0') hS0
    (d := ⟨fun b => counts.getD b 0, aux⟩) (d' := ⟨fun b => c.getD b 0, aux⟩) hSc rfl offset floor nc

end

/-- A model with three channels, two of which are merged. -/
example : Mergeable DemoMerge.mdl DemoMerge.kind ["B", "A"] "AB" none [DemoMerge.chB, DemoMerge.chA] ∧
    DemoMerge.mdl.NpDataSet ∧ (∀ ch ∈ DemoMerge.mdl.channels, 0 < ch.nbins ∧ ∀ s ∈ ch.samples, s.Std ch.nbins) ∧
    ∃ A N0, DemoMerge.mdl.setInternal = .ok A ∧ DemoMerge.mdl.refTot A = .ok N0 :=
  ⟨DemoMerge.mergeable, DemoMerge.npDataSet, DemoMerge.std, DemoMerge.setup⟩

/-! ### Refused calls -/

/-- **C33** A call that names an unknown channel, or a binned-range channel, has no result: `None` is
returned, or `KeyError` is raised if the unknown channel is the first one. -/
theorem c33_refused {n P : Nat} (m : Mdl n P) (kind : String → ChKind) (names : List String) (mergedName : String)
    (obs : Option (List (ℝ × ℝ))) (h : names = [] ∨ (∃ nm ∈ names, ∀ ch ∈ m.channels, ch.name ≠ nm) ∨
      ∃ nm ∈ names, (kind nm).isRange = true) :
    m.mergeChannels kind names mergedName obs = .ok (m, none) ∨
      (m.mergeChannels kind names mergedName obs = .error .keyError ∧
        ∃ nm rest, names = nm :: rest ∧ ∀ ch ∈ m.channels, ch.name ≠ nm) := by
  have hnone : ∀ nm, (∀ ch ∈ m.channels, ch.name ≠ nm) → m.channels.find? (fun c => c.name == nm) = none := by
    intro nm h; rw [List.find?_eq_none]; intro c hc; simpa using h c hc
  have fin : Merge.check kind m.channels names = .ok none → m.mergeChannels kind names mergedName obs = .ok (m, none) := by
    intro h; unfold mergeChannels; rw [h]; rfl
  cases names with
  | nil => exact .inl (fin (by simp [Merge.check]))
  | cons nm rest =>
    by_cases h2 : rest.any (fun nm => !(m.channels.any (·.name == nm))) = true
    · exact .inl (fin (by unfold Merge.check; rw [if_neg (by simp), if_pos (by simpa using h2)]))
    have hk : ∀ q ∈ rest, ∃ ch ∈ m.channels, ch.name = q := by
      simp only [List.any_eq_true, not_exists, not_and, Bool.not_eq_true, Bool.not_eq_false'] at h2
      intro q hq
      simpa using h2 q hq
    by_cases h3 : ∀ ch ∈ m.channels, ch.name ≠ nm
    · right
      refine ⟨?_, nm, rest, rfl, h3⟩
      unfold mergeChannels Merge.check
      rw [if_neg (by simp), if_neg (by simpa using h2), List.mapM_cons]
      simp only [getChannel, hnone nm h3, bind_error]
    left
    refine fin ?_
    push Not at h3
    have hall : ∀ q ∈ nm :: rest, ∃ c, getChannel m.channels q = .ok c := by
      intro q hq
      have : ∃ ch ∈ m.channels, ch.name = q := by
        rcases List.mem_cons.1 hq with rfl | hq
        · exact h3
        · exact hk q hq
      obtain ⟨ch, hc, hn⟩ := this
      unfold getChannel
      cases hf : m.channels.find? (fun c => c.name == q) with
      | some c => exact ⟨c, rfl⟩
      | none => exact absurd hn (by have := List.find?_eq_none.1 hf ch hc; simpa using this)
    have hms : ∃ ms, (nm :: rest).mapM (getChannel m.channels) = .ok ms := by
      generalize nm :: rest = l at hall
      induction l with
      | nil => exact ⟨[], rfl⟩
      | cons a l ih =>
        obtain ⟨c, hc⟩ := hall a (by simp)
        obtain ⟨r, hr⟩ := ih fun q hq => hall q (by simp [hq])
        exact ⟨c :: r, by rw [List.mapM_cons, hc, bind_ok, hr]; rfl⟩
    obtain ⟨ms, hms⟩ := hms
    have hrange : ms.any (fun c => (kind c.name).isRange) = true := by
      rcases h with h | ⟨q, hq, hno⟩ | ⟨q, hq, hr⟩
      · cases h
      · obtain ⟨c, hc⟩ := hall q hq
        exact absurd (getChannel_ok hc).2 (hno c (getChannel_ok hc).1)
      · rw [List.any_eq_true]
        have key : ∀ (l : List String) (l' : List Channel), List.Forall₂ (fun a b => getChannel m.channels a = .ok b) l l' →
            q ∈ l → ∃ c ∈ l', getChannel m.channels q = .ok c := by
          intro l l' hl
          induction hl with
          | nil => intro h; cases h
          | cons h1 _ ih =>
            intro h
            rcases List.mem_cons.1 h with rfl | h
            · exact ⟨_, by simp, h1⟩
            · obtain ⟨c, hc, hcq⟩ := ih h
              exact ⟨c, by simp [hc], hcq⟩
        obtain ⟨c, hc, hcq⟩ := key _ _ (mapM_ok_iff.1 hms) hq
        exact ⟨c, hc, by rw [(getChannel_ok hcq).2]; exact hr⟩
    unfold Merge.check
    rw [if_neg (by simp), if_neg (by simpa using h2), hms, bind_ok, if_pos hrange]
    rfl

/-- An unknown first channel and an unknown second one. -/
example : DemoMerge.mdl.mergeChannels DemoMerge.kind ["X", "A"] "AB" none = .error .keyError ∧
    DemoMerge.mdl.mergeChannels DemoMerge.kind ["A", "X"] "AB" none = .ok (DemoMerge.mdl, none) := by
  constructor <;>
  simp [mergeChannels, Merge.check, DemoMerge.mdl, getChannel, DemoMerge.chA, DemoMerge.chB, DemoMerge.chZ]

/-! ### What goes wrong outside of the hypotheses -/

/-- **C33** The original model is changed by the merge (F53): the impacts of its samples have become those of
the merged samples, and a model built from its channels is refused (`ValueError`). -/
theorem c33_original_corrupted : ∃ orig m' A, DemoMerge.sym.setInternal = .ok A ∧
    DemoMerge.sym.mergeChannels DemoMerge.kind ["B", "A"] "AB" none = .ok (orig, some m') ∧
    orig.setInternal = .error .valueError := by
  obtain ⟨A, hA⟩ := setInternal_of_std (m := DemoMerge.sym) rfl DemoMerge.std
    (by simp [PoissonFirst, DemoMerge.sym, DemoMerge.mdl, DemoMerge.chA, DemoMerge.chB, DemoMerge.chZ])
  obtain ⟨m', hm⟩ := DemoMerge.merge
  exact ⟨_, m', A, hA, hm, DemoMerge.after_refused⟩

/-- **C33** A multi-bin channel whose impacts are given once for all bins cannot be merged (F53): the merged
model is refused by its constructor (`ValueError`), although the original is accepted. -/
theorem c33_common_impact_fails : ∃ orig m' A, DemoMerge.common.setInternal = .ok A ∧
    DemoMerge.common.mergeChannels DemoMerge.kind ["Z", "A"] "AZ" none = .ok (orig, some m') ∧
    m'.setInternal = .error .valueError := by
  obtain ⟨A, hA⟩ := DemoMerge.common_setup
  obtain ⟨orig, hm⟩ := DemoMerge.common_merge
  exact ⟨orig, _, A, hA, hm, DemoMerge.common_refused⟩

/-- **C33** Normalisations of samples of the same name are not compared (F54): a sample normalised by `mu` in
one channel and by `nu` in the other is normalised by `mu` in all bins of the merge, so that the
prediction changes. -/
theorem c33_norms_not_compared : ∃ orig m' A A' N N', DemoMerge.norms.setInternal = .ok A ∧
    DemoMerge.norms.mergeChannels DemoMerge.kind ["A", "B"] "AB" none = .ok (orig, some m') ∧
    m'.setInternal = .ok A' ∧ DemoMerge.norms.totBinExp A ![1, 3] 0 = .ok N ∧ m'.totBinExp A' ![1, 3] 0 = .ok N' ∧
    N 1 = 60 ∧ N' 1 = 20 := by
  obtain ⟨orig, hm⟩ := DemoMerge.norms_merge
  obtain ⟨N, h1, h2⟩ := DemoMerge.norms_tot ![1, 3]
  obtain ⟨N', h3, h4⟩ := DemoMerge.normsMerged_tot ![1, 3]
  refine ⟨orig, _, _, _, N, N', DemoMerge.norms_setup.1, hm, DemoMerge.norms_setup.2, h1, h3, ?_, ?_⟩
  · rw [h2]; norm_num
  · rw [h4]; norm_num

end Verif.Props
