import Verif.Lemmas.DemoPrune
import Mathlib.Analysis.SpecialFunctions.Log.Deriv
import Mathlib.Analysis.Complex.ExponentialBounds
/-!
# C34, C60, C61: the tools that simplify a model

`NPPruner.remove_nps`, `NPPruner.prune` and `SamplePruner.prune`.
-/
namespace Verif.Props
open Verif Mdl

/-! ### C34: removing NPs -/

/-- **C34** Removing NPs gives a model with the other NPs, in the same order (`keep` is the position of
each in the original), whose expected yields, for all POIs and all values of the other NPs, are those of
the original with the removed NPs held at the values they were removed at.  This needs the exponential
form of the NP impacts and no cutoff, or NPs removed at 0.

The NPs that are removed are those named by a key, or matched by a key that names no NP.  Samples
normalised by a removed NP have its nominal value as nominal normalisation, as `set_np_data` sets it. -/
theorem c34_remove_nps {n P : Nat} {m : Mdl n P} {w : Nat} {A : Arrays} {rx : String → String → Bool}
    {pv : Dict (Option ℝ)} {P' : Nat} {m' : Mdl n P'} {A' : Arrays}
    (hD : m.ctx.Distinct) (hne : ∀ p, (m.nps p).name ≠ "") (hcn : (m.channels.map (·.name)).Nodup)
    (hu : m.Uniform w) (hset : m.NpDataSet) (hA : m.setInternal = .ok A)
    (hmode : (m.use_linear_nps = false ∧ m.cutoff = 0) ∨
      ∀ p, m.Selected rx pv p → removedAt pv (m.nps p) = 0)
    (hnn : ∀ ch ∈ m.channels, ∀ smp ∈ ch.samples, ∀ p, m.Selected rx pv p →
      smp.norm = .expr (m.nps p).name → smp.nominal_norm = (m.nps p).nominal_value)
    (h : m.removeNps A rx pv = .ok ⟨P', m'⟩) (hA' : m'.setInternal = .ok A') :
    ∃ keep : Fin P' → Fin P, StrictMono keep ∧ (∀ p, p ∈ Set.range keep ↔ ¬ m.Selected rx pv p) ∧
      (∀ i, m'.nps i = m.nps (keep i)) ∧ m'.pois = m.pois ∧
      m'.channels.map (·.name) = m.channels.map (·.name) ∧
      m'.nbins = m.nbins ∧ m'.maxSamples = m.maxSamples ∧
      ∀ (x : Fin n → ℝ) (θ : Fin P → ℝ), (∀ p, m.Selected rx pv p → θ p = removedAt pv (m.nps p)) →
        ∀ ne', m'.nExp A' x (fun i => θ (keep i)) = .ok ne' →
          ∃ ne, m.nExp A x θ = .ok ne ∧ ∀ s < m.maxSamples, ∀ b < m.nbins, ne s b = ne' s b := by
  obtain ⟨keep, names, ne0, vals0, u, R⟩ := removeNps_inv hD hcn (uniform_shaped hu) hset h
  refine ⟨keep, R.mono, R.range, R.nps, R.pois, ?_, R.layout.nbins, R.layout.maxSamples, ?_⟩
  · refine List.ext_getElem (by simp [R.len]) fun i h1 h2 => ?_
    simp only [List.length_map] at h1 h2
    simp only [List.getElem_map]
    exact (R.chan i _ _ (List.getElem?_eq_getElem h2) (List.getElem?_eq_getElem h1)).name
  · intro x θ hθ ne' hn
    exact R.predicts hD hne hu hA hmode hnn hA' hθ hn

/-- Removal of `a` at pull 1 in the exponential form. -/
example : ∃ (m' : Mdl 1 1) (A' : Arrays), (DemoPrune.mdl false 1).removeNps DemoPrune.arr DemoPrune.rx
      [("a", some 1)] = .ok ⟨1, m'⟩ ∧ m'.setInternal = .ok A' ∧
    (DemoPrune.mdl false 1).Selected DemoPrune.rx [("a", some 1)] 0 ∧
    ¬ (DemoPrune.mdl false 1).Selected DemoPrune.rx [("a", some 1)] 1 ∧
    (∀ x θ, ∃ ne, m'.nExp A' x θ = .ok ne) := by
  refine ⟨_, _, DemoPrune.removal false 1 (some 1), DemoPrune.setup' _ _ _, ?_, ?_, ?_⟩
  · exact ⟨"a", by simp [Dict.keys], .inl rfl⟩
  · rintro ⟨spec, hs, h⟩
    simp only [Dict.keys, List.map_cons, List.map_nil, List.mem_singleton] at hs
    subst hs
    simp [DemoPrune.mdl, DemoPrune.rx] at h
  · intro x θ
    obtain ⟨ne, h, _⟩ := DemoPrune.pruned_nExp false (DemoPrune.kOf false 1) x θ
    exact ⟨ne, h⟩

example : (DemoPrune.mdl false 1).ctx.Distinct ∧ (∀ p, ((DemoPrune.mdl false 1).nps p).name ≠ "") ∧
    ((DemoPrune.mdl false 1).channels.map (·.name)).Nodup ∧ (DemoPrune.mdl false 1).Uniform 1 ∧
    (DemoPrune.mdl false 1).NpDataSet ∧ (DemoPrune.mdl false 1).setInternal = .ok DemoPrune.arr :=
  ⟨DemoPrune.distinct _ _, fun p => by fin_cases p <;> simp [DemoPrune.mdl], by simp [DemoPrune.mdl],
    DemoPrune.uniform _ _, DemoPrune.npDataSet _ _, DemoPrune.setup _ _⟩

/-- **C34** The same for the total yield of each bin. -/
theorem c34_totals {n P : Nat} {m : Mdl n P} {w : Nat} {A : Arrays} {rx : String → String → Bool}
    {pv : Dict (Option ℝ)} {P' : Nat} {m' : Mdl n P'} {A' : Arrays}
    (hD : m.ctx.Distinct) (hne : ∀ p, (m.nps p).name ≠ "") (hcn : (m.channels.map (·.name)).Nodup)
    (hu : m.Uniform w) (hset : m.NpDataSet) (hA : m.setInternal = .ok A)
    (hmode : (m.use_linear_nps = false ∧ m.cutoff = 0) ∨
      ∀ p, m.Selected rx pv p → removedAt pv (m.nps p) = 0)
    (hnn : ∀ ch ∈ m.channels, ∀ smp ∈ ch.samples, ∀ p, m.Selected rx pv p →
      smp.norm = .expr (m.nps p).name → smp.nominal_norm = (m.nps p).nominal_value)
    (h : m.removeNps A rx pv = .ok ⟨P', m'⟩) (hA' : m'.setInternal = .ok A') :
    ∃ keep : Fin P' → Fin P, StrictMono keep ∧ (∀ p, p ∈ Set.range keep ↔ ¬ m.Selected rx pv p) ∧
      ∀ (x : Fin n → ℝ) (θ : Fin P → ℝ), (∀ p, m.Selected rx pv p → θ p = removedAt pv (m.nps p)) →
        ∀ N', m'.totBinExp A' x (fun i => θ (keep i)) = .ok N' →
          ∃ N, m.totBinExp A x θ = .ok N ∧ ∀ b < m.nbins, N b = N' b := by
  obtain ⟨keep, h1, h2, _, _, _, _, h3, h4⟩ := c34_remove_nps hD hne hcn hu hset hA hmode hnn h hA'
  refine ⟨keep, h1, h2, fun x θ hθ N' hN => ?_⟩
  obtain ⟨ne', hne', rfl⟩ := nExp_of_totBinExp hN
  obtain ⟨ne, hn, heq⟩ := h4 x θ hθ ne' hne'
  refine ⟨_, totBinExp_of_nExp hn, fun b hb => ?_⟩
  simp only [h3]
  exact Finset.sum_congr rfl fun s hs => heq s (Finset.mem_range.1 hs) b hb

/-- **C34** The likelihood of the data (without the constraint terms, which the pruned model has for the
remaining NPs only, and without the constant offset) is that of the original with the removed NPs held. -/
theorem c34_likelihood {n P : Nat} {m : Mdl n P} {w : Nat} {A : Arrays} {rx : String → String → Bool}
    {pv : Dict (Option ℝ)} {P' : Nat} {m' : Mdl n P'} {A' : Arrays}
    (hD : m.ctx.Distinct) (hne : ∀ p, (m.nps p).name ≠ "") (hcn : (m.channels.map (·.name)).Nodup)
    (hu : m.Uniform w) (hset : m.NpDataSet) (hA : m.setInternal = .ok A)
    (hmode : (m.use_linear_nps = false ∧ m.cutoff = 0) ∨
      ∀ p, m.Selected rx pv p → removedAt pv (m.nps p) = 0)
    (hnn : ∀ ch ∈ m.channels, ∀ smp ∈ ch.samples, ∀ p, m.Selected rx pv p →
      smp.norm = .expr (m.nps p).name → smp.nominal_norm = (m.nps p).nominal_value)
    (h : m.removeNps A rx pv = .ok ⟨P', m'⟩) (hA' : m'.setInternal = .ok A') :
    ∃ keep : Fin P' → Fin P, StrictMono keep ∧ (∀ p, p ∈ Set.range keep ↔ ¬ m.Selected rx pv p) ∧
      ∀ (x : Fin n → ℝ) (θ : Fin P → ℝ), (∀ p, m.Selected rx pv p → θ p = removedAt pv (m.nps p)) →
        ∀ (d : DataV P) (d' : DataV P') (L : Flt), d'.counts = d.counts →
          m'.nll A' x (fun i => θ (keep i)) d' (offset := false) (noConstraints := true) = .ok L →
          m.nll A x θ d (offset := false) (noConstraints := true) = .ok L := by
  obtain ⟨keep, names, ne0, vals0, u, R⟩ := removeNps_inv hD hcn (uniform_shaped hu) hset h
  refine ⟨keep, R.mono, R.range, fun x θ hθ d d' L hd hL => ?_⟩
  have hL' := hL
  simp only [nll] at hL'
  obtain ⟨N', hN', _⟩ := bind_eq_ok.1 hL'
  obtain ⟨ne', hne', rfl⟩ := nExp_of_totBinExp hN'
  obtain ⟨ne, hn, heq⟩ := R.predicts hD hne hu hA hmode hnn hA' hθ hne'
  obtain ⟨e1, e2, e3⟩ := R.chanState
  rw [← hL]
  refine (nll_raw_congr e1 e2 e3 m.nbins_eq (totBinExp_of_nExp hn) hN' (fun b hb => ?_) d d' hd).symm
  simp only [R.layout.maxSamples]
  exact Finset.sum_congr rfl fun s hs => heq s (Finset.mem_range.1 hs) b hb

/-- **C34** fails in the linear form of the impacts (F49): removing an NP at a nonzero value makes the
impacts of the other NPs relative to the new yields.  All other hypotheses of `c34_remove_nps` hold. -/
theorem c34_linear_fails : ∃ (m' : Mdl 1 1) (A' : Arrays),
    (DemoPrune.mdl true 1).removeNps DemoPrune.arr DemoPrune.rx [("a", some 1)] = .ok ⟨1, m'⟩ ∧
    m'.setInternal = .ok A' ∧ ∃ ne ne', (DemoPrune.mdl true 1).nExp DemoPrune.arr ![1] ![1, 1] = .ok ne ∧
      m'.nExp A' ![1] ![1] = .ok ne' ∧ ne 0 0 = 16 ∧ ne' 0 0 = 16.5 := by
  refine ⟨_, _, DemoPrune.removal true 1 (some 1), DemoPrune.setup' _ _ _, ?_⟩
  obtain ⟨ne, h1, h2⟩ := DemoPrune.mdl_nExp true 1 ![1] ![1, 1]
  obtain ⟨ne', h3, h4⟩ := DemoPrune.pruned_nExp true (DemoPrune.kOf true ((some 1).getD 2)) ![1] ![1]
  refine ⟨ne, ne', h1, h3, ?_, ?_⟩
  · rw [h2]
    simp [kExp, DemoPrune.mdl, DemoPrune.arr, Fin.sum_univ_two]; norm_num
  · rw [h4]
    simp [kExp, DemoPrune.pruned, DemoPrune.arr', DemoPrune.kOf, combine]; norm_num

/-- **C34** Without a value an NP is held at its nominal value, read as a pull (F48): the nominal
yields of a model with an NP of nominal value 2 change although nothing was asked for. -/
theorem c34_default_value_is_a_pull : ∃ (m' : Mdl 1 1) (A' : Arrays),
    (DemoPrune.mdl true 1).removeNps DemoPrune.arr DemoPrune.rx [("a", none)] = .ok ⟨1, m'⟩ ∧
    m'.setInternal = .ok A' ∧ ∃ ne ne', (DemoPrune.mdl true 1).nExp DemoPrune.arr ![1] ![0, 0] = .ok ne ∧
      m'.nExp A' ![1] ![0] = .ok ne' ∧ ne 0 0 = 10 ∧ ne' 0 0 = 20 := by
  refine ⟨_, _, DemoPrune.removal true 1 none, DemoPrune.setup' _ _ _, ?_⟩
  obtain ⟨ne, h1, h2⟩ := DemoPrune.mdl_nExp true 1 ![1] ![0, 0]
  obtain ⟨ne', h3, h4⟩ := DemoPrune.pruned_nExp true (DemoPrune.kOf true ((none : Option ℝ).getD 2)) ![1] ![0]
  refine ⟨ne, ne', h1, h3, ?_, ?_⟩
  · rw [h2]
    simp [kExp, DemoPrune.mdl, DemoPrune.arr, Fin.sum_univ_two]
  · rw [h4]
    simp [kExp, DemoPrune.pruned, DemoPrune.arr', DemoPrune.kOf, combine]; norm_num

/-- **C34** The value given with a wildcard is ignored (F51): a call whose keys are not names of NPs
gives the same model whatever the values. -/
theorem c34_wildcard_value_ignored {n P : Nat} (m : Mdl n P) (A : Arrays) (rx : String → String → Bool)
    (pv pv' : Dict (Option ℝ)) (hk : pv'.keys = pv.keys) (h : ∀ p, (m.nps p).name ∉ pv.keys) :
    m.removeNps A rx pv' = m.removeNps A rx pv := by
  have hv : ∀ p, removedAt pv' (m.nps p) = removedAt pv (m.nps p) := by
    intro p
    have h1 : pv.get? (m.nps p).name = none := (Dict.get?_eq_none_iff _ _).2 (h p)
    have h2 : pv'.get? (m.nps p).name = none := (Dict.get?_eq_none_iff _ _).2 (by rw [hk]; exact h p)
    simp only [removedAt, h1, h2]
  have hd : m.dropNp pv' = m.dropNp pv := by
    funext st p
    simp only [dropNp, hv]
  unfold removeNps
  rw [hk, hd]

/-- A wildcard with a value. -/
example (v : ℝ) : (DemoPrune.mdl true 1).removeNps DemoPrune.arr (fun s k => s == "a.*" && k.startsWith "a")
      [("a.*", some v)] =
    (DemoPrune.mdl true 1).removeNps DemoPrune.arr (fun s k => s == "a.*" && k.startsWith "a")
      [("a.*", none)] :=
  c34_wildcard_value_ignored _ _ _ _ _ rfl (by intro p; fin_cases p <;> simp [DemoPrune.mdl, Dict.keys])

/-- **C34** A key that matches no NP raises `KeyError`. -/
theorem c34_unknown_refused {n P : Nat} (m : Mdl n P) (A : Arrays) (rx : String → String → Bool)
    (pv : Dict (Option ℝ)) (spec : String) (hs : spec ∈ pv.keys)
    (hno : ∀ p, (m.nps p).name ≠ spec ∧ rx spec (m.nps p).name = false) :
    m.removeNps A rx pv = .error .keyError := by
  have key : ∀ ks : List String, spec ∈ ks → ks.mapM (m.selectNps rx) = .error .keyError := by
    intro ks
    induction ks with
    | nil => simp
    | cons k ks ih =>
      intro hm
      rw [List.mapM_cons]
      have herr : ∀ k e, m.selectNps rx k = .error e → e = .keyError := by
        intro k e he
        unfold selectNps at he
        split at he
        · cases he
        · split at he
          · exact (Except.error.inj he).symm
          · cases he
      cases hk : m.selectNps rx k with
      | error e => rw [herr k e hk]; rfl
      | ok l =>
        simp only [bind_ok]
        rcases List.mem_cons.1 hm with rfl | hm
        · exfalso
          unfold selectNps at hk
          have h1 : (List.finRange P).find? (fun p => decide ((m.nps p).name = spec)) = none := by
            rw [List.find?_eq_none]
            intro p _
            simpa using (hno p).1
          have h2 : (List.finRange P).filter (fun p => rx spec (m.nps p).name) = [] := by
            rw [List.filter_eq_nil_iff]
            intro p _
            simpa using (hno p).2
          rw [h1, h2] at hk
          cases hk
        · rw [ih hm]; rfl
  unfold removeNps
  rw [key pv.keys hs]; rfl

example : (DemoPrune.mdl true 1).removeNps DemoPrune.arr DemoPrune.rx [("zz", some 1)] = .error .keyError :=
  c34_unknown_refused _ _ _ _ "zz" (by simp [Dict.keys]) (by
    intro p; fin_cases p <;> simp [DemoPrune.mdl, DemoPrune.rx])

/-- **C34** An NP selected by two keys (for instance by name and by a wildcard) makes the call fail
(the second removal of the NP from the dictionary raises `KeyError`). -/
theorem c34_selected_twice_fails {n P : Nat} (m : Mdl n P) (A : Arrays) (rx : String → String → Bool)
    (pre mid post : Dict (Option ℝ)) (k1 k2 : String) (v1 v2 : Option ℝ) (p : Fin P)
    (hD : m.ctx.Distinct)
    (h1 : (m.nps p).name = k1 ∨ (∀ q, (m.nps q).name ≠ k1) ∧ rx k1 (m.nps p).name = true)
    (h2 : (m.nps p).name = k2 ∨ (∀ q, (m.nps q).name ≠ k2) ∧ rx k2 (m.nps p).name = true) :
    ∀ r, m.removeNps A rx (pre ++ (k1, v1) :: mid ++ (k2, v2) :: post) ≠ .ok r := by
  intro r h
  unfold removeNps at h
  obtain ⟨sels, hsel, h3⟩ := bind_eq_ok.1 h
  obtain ⟨ne, _, h4⟩ := bind_eq_ok.1 h3
  obtain ⟨vals, _, h5⟩ := bind_eq_ok.1 h4
  by_cases hnd : ¬ sels.flatten.Nodup
  · simp only at h5
    rw [if_pos hnd] at h5
    cases h5
  · apply hnd
    intro hn
    have hks : Dict.keys (pre ++ (k1, v1) :: mid ++ (k2, v2) :: post) =
        Dict.keys pre ++ k1 :: (Dict.keys mid ++ k2 :: Dict.keys post) := by
      simp [Dict.keys]
    rw [hks] at hsel
    have hF := mapM_ok_iff.1 hsel
    obtain ⟨s1, s2, _, hb, rfl⟩ := forall₂_append_left hF
    cases hb with
    | @cons _ l1 _ s3 hl1 hb =>
    obtain ⟨s4, s5, _, hd, rfl⟩ := forall₂_append_left hb
    cases hd with
    | @cons _ l2 _ s6 hl2 hd =>
    have m1 : p ∈ l1 := (selectNps_mem hD hl1 p).2 h1
    have m2 : p ∈ l2 := (selectNps_mem hD hl2 p).2 h2
    simp only [List.flatten_append, List.flatten_cons] at hn
    have hn1 := (List.nodup_append.1 hn).2.1
    have hn2 := (List.nodup_append.1 hn1).2.2 p m1 p (by simp [m2])
    exact hn2 rfl

/-- Selected by name and by a wildcard. -/
example : ∀ r, (DemoPrune.mdl true 1).removeNps DemoPrune.arr (fun s k => s == "a.*" && k == "a")
    [("a", some 1), ("a.*", some 1)] ≠ .ok r :=
  c34_selected_twice_fails _ _ _ [] [] [] "a" "a.*" _ _ 0 (DemoPrune.distinct _ _) (.inl rfl) (.inr ⟨by
    intro q; fin_cases q <;> simp [DemoPrune.mdl], by simp [DemoPrune.mdl]⟩)

/-- **C34** If the normalisation of a sample vanishes at the initial POI values, the pruned model cannot
predict anything (F50): its nominal normalisation is reset to 0. -/
theorem c34_zero_norm_unusable {n P : Nat} {m : Mdl n P} {A : Arrays} {rx : String → String → Bool}
    {pv : Dict (Option ℝ)} {P' : Nat} {m' : Mdl n P'}
    (hD : m.ctx.Distinct) (hcn : (m.channels.map (·.name)).Nodup) (hsh : m.YieldsShaped)
    (hset : m.NpDataSet) (h : m.removeNps A rx pv = .ok ⟨P', m'⟩)
    {ch : Channel} (hch : ch ∈ m.channels) {smp : Sample} (hs : smp ∈ ch.samples)
    (hnot : ∀ p, m.Selected rx pv p → smp.norm ≠ .expr (m.nps p).name)
    {vals : Dict ℝ} (hv : m.ctx.realVals m.poiInit = .ok vals) (h0 : smp.norm.value vals = .ok 0) :
    ∀ A' x θ' ne', m'.nExp A' x θ' ≠ .ok ne' := by
  intro A' x θ' ne' hn
  obtain ⟨keep, names, ne0, vals0, u, R⟩ := removeNps_inv hD hcn hsh hset h
  rw [R.vals] at hv
  obtain rfl := Except.ok.inj hv
  obtain ⟨i, hi, rfl⟩ := List.mem_iff_getElem.1 hch
  obtain ⟨s, hs0, rfl⟩ := List.mem_iff_getElem.1 hs
  have hi' : i < m'.channels.length := by rw [R.len]; exact hi
  have hr := R.chan i _ _ (List.getElem?_eq_getElem hi) (List.getElem?_eq_getElem hi')
  have hs1 : s < m'.channels[i].samples.length := by rw [hr.len]; exact hs0
  obtain ⟨D, hd, _, _, _, hval, _⟩ := hr.smp s _ _ (List.getElem?_eq_getElem hs0) (List.getElem?_eq_getElem hs1)
  have hnorm : D.norm = m.channels[i].samples[s].norm := by
    refine hd.norm fun k hk => ?_
    obtain ⟨p, rfl⟩ := R.sub k hk
    by_contra hc
    refine hnot p ((R.mem p).1 hk) ?_
    cases hn : m.channels[i].samples[s].norm with
    | number w => rw [hn] at hc; simp [Norm.isExpr] at hc
    | expr e => rw [hn] at hc; simpa [Norm.isExpr] using hc
  rw [hnorm, h0] at hval
  obtain ⟨_, _, hc⟩ := nExp_inv hn
  exact hc.norm0 _ (List.getElem_mem hi') _ (List.getElem_mem hs1) (Except.ok.inj hval).symm

/-- The same model with signal strength initially 0. -/
example : ∃ m' : Mdl 1 1, (DemoPrune.mdl false 0).removeNps DemoPrune.arr DemoPrune.rx [("a", some 1)] =
    .ok ⟨1, m'⟩ ∧ ∀ A' x θ' ne', m'.nExp A' x θ' ≠ .ok ne' :=
  ⟨_, DemoPrune.removal false 0 (some 1), c34_zero_norm_unusable (DemoPrune.distinct _ _)
    (by simp [DemoPrune.mdl]) (uniform_shaped (DemoPrune.uniform _ _)) (DemoPrune.npDataSet _ _)
    (DemoPrune.removal false 0 (some 1)) (ch := ⟨"c", false, 1, fun _ _ => 0, [DemoPrune.smp]⟩)
    (by simp [DemoPrune.mdl]) (smp := DemoPrune.smp) (by simp)
    (by intro p _; fin_cases p <;> simp [DemoPrune.mdl, DemoPrune.smp]) (DemoPrune.mdl_vals false 0 _)
    (by simp [DemoPrune.smp, Norm.value, Dict.getItem, Dict.get?, DemoPrune.mdl])⟩

/-! ### C60: pruning samples -/

theorem log_bound {x : ℝ} (h0 : 0 ≤ x) (h1 : x < 1) : x + x ^ 2 / 2 ≤ -Real.log (1 - x) := by
  have h := Real.hasSum_pow_div_log_of_abs_lt_one (x := x) (by rw [abs_of_nonneg h0]; exact h1)
  have := sum_le_hasSum (Finset.range 2) (fun i _ => by positivity) h
  simp only [Finset.sum_range_succ, Finset.sum_range_zero] at this
  norm_num at this
  linarith

theorem term_lower {s t : ℝ} (hs : 0 ≤ s) (ht : 0 < t - s) :
    s ^ 2 / t ≤ 2 * (t * Real.log (t / (t - s)) - s) := by
  have htp : 0 < t := by linarith
  have hx : s / t < 1 := by rw [div_lt_one htp]; linarith
  have hb := log_bound (x := s / t) (by positivity) hx
  have e : 1 - s / t = (t - s) / t := by field_simp
  have e2 : Real.log (t / (t - s)) = -Real.log (1 - s / t) := by
    rw [e, ← Real.log_inv, inv_div]
  rw [e2]
  have := mul_le_mul_of_nonneg_left hb htp.le
  have e3 : t * (s / t + (s / t) ^ 2 / 2) = s + s ^ 2 / t / 2 := by field_simp
  rw [e3] at this
  linarith

theorem term_nonneg {s t : ℝ} (ht : 0 < t) (hst : 0 < t - s) :
    0 ≤ 2 * (t * Real.log (t / (t - s)) - s) := by
  have h := Real.log_le_sub_one_of_pos (x := (t - s) / t) (by positivity)
  have e : Real.log (t / (t - s)) = -Real.log ((t - s) / t) := by rw [← Real.log_inv, inv_div]
  rw [e]
  have := mul_le_mul_of_nonneg_left h ht.le
  have e3 : t * ((t - s) / t - 1) = - s := by field_simp; ring
  linarith

/-- **C60** The significance is a number (not infinite) exactly when the other samples contribute in
every bin, whatever the yields of the sample, for positive totals. -/
theorem c60_significance_finite (S T : List ℝ) (hT : ∀ t ∈ T, 0 < t) :
    (∃ z, totalSignificance S T = some z ∧ 0 ≤ z) ↔ ∀ st ∈ S.zip T, 0 < st.2 - st.1 := by
  have key : (∀ st ∈ S.zip T, 0 < st.2 - st.1) → 0 ≤ signifSum S T := by
    intro h
    unfold signifSum
    rw [← List.map_uncurry_zip_eq_zipWith]
    refine List.sum_nonneg fun y hy => ?_
    obtain ⟨st, hst, rfl⟩ := List.mem_map.1 hy
    exact term_nonneg (hT _ (List.of_mem_zip hst).2) (h st hst)
  constructor
  · rintro ⟨z, hz, _⟩ st hst
    by_contra hc
    unfold totalSignificance at hz
    rw [if_pos ⟨st, hst, not_lt.1 hc⟩] at hz
    cases hz
  · intro h
    refine ⟨Real.sqrt (signifSum S T), ?_, Real.sqrt_nonneg _⟩
    unfold totalSignificance
    rw [if_neg (by rintro ⟨st, hst, hle⟩; exact absurd (h st hst) (not_lt.2 hle)), if_neg (not_lt.2 (key h))]

/-- **C60** Pruning at `ε` removes a sample only if, in each bin, its nominal yield is below `ε` times
the square root of the total: what is lost is below `ε` Poisson standard deviations of the total
(yields are not negative). -/
theorem c60_lost_yield_small (ch : Channel) (ε : ℝ) (smp : Sample) (hs : smp ∈ ch.samples)
    (hpr : smp ∉ (pruneSamples ε ch).samples) (h0 : ∀ y ∈ smp.nominal_yields, 0 ≤ y)
    (hT : ∀ t ∈ totalYields ch.nbins ch.samples, 0 ≤ t) :
    ∀ b (hb : b < smp.nominal_yields.length) (hb' : b < (totalYields ch.nbins ch.samples).length),
      smp.nominal_yields[b] < ε * Real.sqrt ((totalYields ch.nbins ch.samples)[b]) := by
  intro b hb hb'
  set T := totalYields ch.nbins ch.samples with hTd
  set S := smp.nominal_yields with hSd
  have hins : insignificant ε T smp = true := by
    by_contra hc
    apply hpr
    simp only [pruneSamples, List.mem_filter]
    exact ⟨hs, by simpa [hTd] using hc⟩
  unfold insignificant at hins
  rw [← hSd] at hins
  cases hz : totalSignificance S T with
  | none => rw [hz] at hins; simp at hins
  | some z =>
    rw [hz] at hins
    have hlt : z < ε := by simpa using hins
    unfold totalSignificance at hz
    by_cases hc : ∃ st ∈ S.zip T, st.2 - st.1 ≤ 0
    · rw [if_pos hc] at hz; cases hz
    rw [if_neg hc] at hz
    push Not at hc
    by_cases hneg : signifSum S T < 0
    · rw [if_pos hneg] at hz; cases hz
    rw [if_neg hneg] at hz
    have hzv := Option.some.inj hz
    have hmem : (S[b], T[b]) ∈ S.zip T := by
      rw [List.mem_iff_getElem]
      exact ⟨b, by simp [hb, hb'], by simp⟩
    have hpos := hc _ hmem
    have hsb : 0 ≤ S[b] := h0 _ (List.getElem_mem hb)
    have htb : 0 < T[b] := by linarith
    -- one term is at most the sum
    have hterm : S[b] ^ 2 / T[b] ≤ signifSum S T := by
      refine (term_lower hsb hpos).trans ?_
      unfold signifSum
      rw [← List.map_uncurry_zip_eq_zipWith]
      refine List.single_le_sum (fun y hy => ?_) _ (List.mem_map.2 ⟨_, hmem, rfl⟩)
      obtain ⟨st, hst, rfl⟩ := List.mem_map.1 hy
      have h1 := hc st hst
      have h2 := h0 _ (List.of_mem_zip hst).1
      exact term_nonneg (by linarith) h1
    have hz0 : 0 ≤ z := by rw [← hzv]; exact Real.sqrt_nonneg _
    have hzz : z ^ 2 = signifSum S T := by rw [← hzv, Real.sq_sqrt (not_lt.1 hneg)]
    have h2 : S[b] ^ 2 ≤ (z * Real.sqrt T[b]) ^ 2 := by
      rw [mul_pow, Real.sq_sqrt htb.le, hzz]
      rwa [div_le_iff₀ htb] at hterm
    have h3 : S[b] ≤ z * Real.sqrt T[b] := abs_le_of_sq_le_sq' h2 (by positivity) |>.2
    calc S[b] ≤ z * Real.sqrt T[b] := h3
      _ < ε * Real.sqrt T[b] := mul_lt_mul_of_pos_right hlt (Real.sqrt_pos.2 htb)

theorem term_upper {s t : ℝ} (ht : 0 < t) (hst : 0 < t - s) :
    2 * (t * Real.log (t / (t - s)) - s) ≤ 2 * s ^ 2 / (t - s) := by
  have h := Real.log_le_sub_one_of_pos (x := t / (t - s)) (by positivity)
  have := mul_le_mul_of_nonneg_left h ht.le
  have e3 : t * (t / (t - s) - 1) = s + s ^ 2 / (t - s) := by field_simp; ring
  rw [e3] at this
  have e4 : 2 * s ^ 2 / (t - s) = 2 * (s ^ 2 / (t - s)) := by ring
  rw [e4]
  linarith

/-- **C60** Conversely a sample whose yields are small compared to those of the others in every bin is
pruned. -/
theorem c60_small_pruned (ch : Channel) (ε : ℝ) (hε : 0 < ε) (smp : Sample)
    (hT : ∀ t ∈ totalYields ch.nbins ch.samples, 0 < t)
    (hpos : ∀ st ∈ smp.nominal_yields.zip (totalYields ch.nbins ch.samples), 0 < st.2 - st.1)
    (hsmall : (List.zipWith (fun s t => 2 * s ^ 2 / (t - s)) smp.nominal_yields
      (totalYields ch.nbins ch.samples)).sum < ε ^ 2) :
    smp ∉ (pruneSamples ε ch).samples := by
  intro hm
  simp only [pruneSamples, List.mem_filter] at hm
  obtain ⟨z, hz, hz0⟩ := (c60_significance_finite smp.nominal_yields _ hT).2 hpos
  have hins : insignificant ε (totalYields ch.nbins ch.samples) smp = true := by
    simp only [insignificant, hz, decide_eq_true_eq]
    have hle : signifSum smp.nominal_yields (totalYields ch.nbins ch.samples) ≤
        (List.zipWith (fun s t => 2 * s ^ 2 / (t - s)) smp.nominal_yields
          (totalYields ch.nbins ch.samples)).sum := by
      unfold signifSum
      rw [← List.map_uncurry_zip_eq_zipWith, ← List.map_uncurry_zip_eq_zipWith]
      refine List.sum_le_sum fun st hst => ?_
      exact term_upper (hT _ (List.of_mem_zip hst).2) (hpos st hst)
    unfold totalSignificance at hz
    split_ifs at hz with h1 h2
    have hzv := Option.some.inj hz
    rw [← hzv, Real.sqrt_lt' hε]
    exact lt_of_le_of_lt hle hsmall
  rw [hins] at hm
  simp at hm

/-- A large and a small sample: the small one is pruned at `1/10`. -/
example : (pruneSamples (1/10) ⟨"c", false, 1, fun _ _ => 0,
      [⟨"big", .number 1, 1, [99], []⟩, ⟨"small", .number 1, 1, [1/2], []⟩]⟩).samples =
    [⟨"big", .number 1, 1, [99], []⟩] := by
  set ch : Channel := ⟨"c", false, 1, fun _ _ => 0,
      [⟨"big", .number 1, 1, [99], []⟩, ⟨"small", .number 1, 1, [1/2], []⟩]⟩ with hch
  have ht : totalYields ch.nbins ch.samples = [99 + 1/2] := by
    simp [totalYields, hch]
  have h1 := c60_small_pruned ch (1/10) (by norm_num) ⟨"small", .number 1, 1, [1/2], []⟩
    (by rw [ht]; intro t h; simp at h; rw [h]; norm_num) (by rw [ht]; norm_num)
    (by rw [ht]; norm_num)
  have h2 : (⟨"big", .number 1, 1, [99], []⟩ : Sample) ∈ (pruneSamples (1/10) ch).samples := by
    by_contra hc
    have := c60_lost_yield_small ch (1/10) ⟨"big", .number 1, 1, [99], []⟩ (by simp [hch]) hc
      (by intro y hy; simp at hy; rw [hy]; norm_num) (by rw [ht]; intro t h; simp at h; rw [h]; norm_num) 0
      (by simp) (by rw [ht]; simp)
    simp only [ht, List.getElem_cons_zero] at this
    have h3 : Real.sqrt (99 + 1/2) < 10 := by
      rw [Real.sqrt_lt' (by norm_num)]; norm_num
    linarith
  simp only [pruneSamples, List.mem_filter] at h1 h2
  have e1 : insignificant (1/10) (totalYields ch.nbins ch.samples) ⟨"small", .number 1, 1, [1/2], []⟩ = true := by
    by_contra hc
    exact h1 ⟨by simp [hch], by simpa using hc⟩
  simp only [pruneSamples]
  rw [show ch.samples = [⟨"big", .number 1, 1, [99], []⟩, ⟨"small", .number 1, 1, [1/2], []⟩] from rfl] at e1 h2 ⊢
  rw [List.filter_cons, if_pos h2.2, List.filter_cons, if_neg (by rw [e1]; simp), List.filter_nil]

/-- **C60** The samples that remain are untouched and keep their order, and the other channels' data
are those of the original. -/
theorem c60_remaining_unchanged (ch : Channel) (ε : ℝ) :
    (pruneSamples ε ch).samples.Sublist ch.samples ∧ (pruneSamples ε ch).name = ch.name ∧
    (pruneSamples ε ch).nbins = ch.nbins ∧ (pruneSamples ε ch).gaussian = ch.gaussian ∧
    ∀ smp ∈ ch.samples, (∃ st ∈ smp.nominal_yields.zip (totalYields ch.nbins ch.samples), st.2 ≤ st.1) →
      smp ∈ (pruneSamples ε ch).samples := by
  refine ⟨List.filter_sublist, rfl, rfl, rfl, ?_⟩
  rintro smp hs ⟨st, hst, hle⟩
  simp only [pruneSamples, List.mem_filter]
  refine ⟨hs, ?_⟩
  have : totalSignificance smp.nominal_yields (totalYields ch.nbins ch.samples) = none := by
    unfold totalSignificance
    rw [if_pos ⟨st, hst, by linarith⟩]
  simp [insignificant, this]

/-- **C60** The pruned model has the bins of the original, can be evaluated wherever the original can,
and the total yield of each bin is that of the original without the yields of the pruned samples, for
all POI and NP values. -/
theorem c60_predictions {n P : Nat} {m : Mdl n P} {w : Nat} {A A' : Arrays} {ε : ℝ} (hu : m.Uniform w)
    (hA : m.setInternal = .ok A) (hA' : (m.pruneSamples ε).setInternal = .ok A') {x : Fin n → ℝ}
    {θ : Fin P → ℝ} {N : Nat → ℝ} {vals : Dict ℝ} (hN : m.totBinExp A x θ = .ok N)
    (hv : m.ctx.realVals x = .ok vals) :
    ∃ N', (m.pruneSamples ε).totBinExp A' x θ = .ok N' ∧ ∀ i ch, m.channels[i]? = some ch →
      ∀ b < ch.nbins, N' (m.chOff i + b) = N (m.chOff i + b) -
        ((ch.samples.filter fun smp => insignificant ε (totalYields ch.nbins ch.samples) smp).map
          fun smp => m.sampleYield vals θ smp b).sum := by
  set m' := m.pruneSamples ε with hm'
  have hsub : ∀ ch' ∈ m'.channels, ∃ ch ∈ m.channels, ch' = Verif.pruneSamples ε ch := by
    intro ch' hc
    obtain ⟨ch, h1, h2⟩ := List.mem_map.1 hc
    exact ⟨ch, h1, h2.symm⟩
  have hu' : m'.Uniform w := by
    intro ch' hc smp hs
    obtain ⟨ch, h1, rfl⟩ := hsub ch' hc
    exact hu ch h1 smp (List.mem_of_mem_filter hs)
  obtain ⟨ne, hne, _⟩ := nExp_of_totBinExp hN
  obtain ⟨vals', hv', hc⟩ := nExp_inv hne
  rw [hv] at hv'
  obtain rfl := Except.ok.inj hv'
  have hv2 : m'.ctx.realVals x = .ok vals := hv
  have hc' : m'.Computable vals := by
    refine ⟨shapeOk_of_yieldsShaped (uniform_shaped hu'), fun ch' hch smp hs => ?_, fun ch' hch smp hs => ?_⟩
    · obtain ⟨ch, h1, rfl⟩ := hsub ch' hch
      exact hc.norm0 ch h1 smp (List.mem_of_mem_filter hs)
    · obtain ⟨ch, h1, rfl⟩ := hsub ch' hch
      exact hc.value ch h1 smp (List.mem_of_mem_filter hs)
  have hN' := tot_ok A' θ hv2 hc'
  refine ⟨_, hN', fun i ch hch b hb => ?_⟩
  have hoff : m'.chOff i = m.chOff i := by
    unfold chOff
    rw [show m'.channels = m.channels.map (Verif.pruneSamples ε) from rfl, ← List.map_take, List.map_map]
    rfl
  have hch' : m'.channels[i]? = some (Verif.pruneSamples ε ch) := by
    rw [show m'.channels = m.channels.map (Verif.pruneSamples ε) from rfl, List.getElem?_map, hch]; rfl
  have e1 := tot_local hu hA hN hv hch hb
  have e2 := tot_local hu' hA' hN' hv2 hch' (b := b) hb
  rw [hoff] at e2
  rw [e1, e2]
  have hpart : ∀ (l : List Sample) (q : Sample → Bool) (f : Sample → ℝ),
      ((l.filter fun s => !q s).map f).sum = (l.map f).sum - ((l.filter q).map f).sum := by
    intro l q f
    induction l with
    | nil => simp
    | cons a l ih =>
      by_cases h : q a = true
      · rw [List.filter_cons_of_neg (by simp [h]), List.filter_cons_of_pos h]
        simp only [List.map_cons, List.sum_cons, ih]; ring
      · rw [List.filter_cons_of_pos (by simpa using h), List.filter_cons_of_neg h]
        simp only [List.map_cons, List.sum_cons, ih]; ring
  exact hpart ch.samples _ _

/-- **C60** The only sample of a channel is never pruned. -/
theorem c60_lone_sample_kept (nm : String) (g : Bool) (nb : Nat) (hh : Nat → Nat → ℝ) (smp : Sample)
    (hnb : 0 < nb) (hy : smp.nominal_yields.length = nb) (ε : ℝ) :
    (pruneSamples ε ⟨nm, g, nb, hh, [smp]⟩).samples = [smp] := by
  have htot : totalYields nb [smp] = smp.nominal_yields := by
    simp only [totalYields, List.foldl_cons, List.foldl_nil]
    refine List.ext_getElem (by simp [hy]) fun i h1 h2 => by simp
  have hmem : smp ∈ (pruneSamples ε ⟨nm, g, nb, hh, [smp]⟩).samples := by
    refine (c60_remaining_unchanged _ ε).2.2.2.2 smp (by simp) ?_
    simp only [htot]
    refine ⟨(smp.nominal_yields[0], smp.nominal_yields[0]), ?_, le_refl _⟩
    rw [List.mem_iff_getElem]
    exact ⟨0, by simp [hy, hnb], by simp⟩
  have hsub := (c60_remaining_unchanged ⟨nm, g, nb, hh, [smp]⟩ ε).1
  simp only at hsub
  rcases List.sublist_singleton.1 hsub with h | h
  · rw [h] at hmem; cases hmem
  · exact h

/-- **C60** does not extend to the channel as a whole (F52): each sample is compared with the total of
all samples, pruned ones included, so that for any threshold there is a channel that loses all its
samples. -/
theorem c60_channel_emptied (ε : ℝ) (hε : 0 < ε) : ∃ ch : Channel, ch.samples.length = 2 ∧ 0 < ch.nbins ∧
    (∀ smp ∈ ch.samples, ∀ y ∈ smp.nominal_yields, 0 < y) ∧ (pruneSamples ε ch).samples = [] := by
  set c : ℝ := ε ^ 2 / 4 with hc
  have hcp : 0 < c := by positivity
  have hz : ∀ nm : String, insignificant ε [c + c] ⟨nm, .number 1, 1, [c], []⟩ = true := by
    intro nm
    have hsum : signifSum [c] [c + c] = 2 * ((c + c) * Real.log 2 - c) := by
      have : (c + c) / (c + c - c) = 2 := by field_simp; ring
      simp only [signifSum, List.zipWith_cons_cons, List.zipWith_nil_left, List.sum_cons, List.sum_nil, add_zero, this]
    have hlog : Real.log 2 < 1 := by
      have := Real.log_two_lt_d9; linarith
    have hlog' : 1 / 2 < Real.log 2 := by
      have := Real.log_two_gt_d9; linarith
    have hnn : 0 ≤ signifSum [c] [c + c] := by rw [hsum]; nlinarith
    have : totalSignificance [c] [c + c] = some (Real.sqrt (signifSum [c] [c + c])) := by
      unfold totalSignificance
      rw [if_neg (by simp [hcp]), if_neg (not_lt.2 hnn)]
    simp only [insignificant, this, decide_eq_true_eq]
    rw [Real.sqrt_lt' hε, hsum]
    nlinarith
  refine ⟨⟨"c", false, 1, fun _ _ => 0, [⟨"s", .number 1, 1, [c], []⟩, ⟨"t", .number 1, 1, [c], []⟩]⟩,
    rfl, by simp, ?_, ?_⟩
  · intro smp hs y hy
    simp only [List.mem_cons, List.not_mem_nil, or_false] at hs
    rcases hs with rfl | rfl <;> simp at hy <;> rw [hy] <;> exact hcp
  · have ht : totalYields 1 [⟨"s", .number 1, 1, [c], []⟩, ⟨"t", .number 1, 1, [c], []⟩] = [c + c] := by
      simp [totalYields]
    simp only [pruneSamples, ht]
    simp [hz]

/-! ### C61: pruning NPs -/

/-- **C61** The NPs that are pruned are exactly those whose symmetrised impact is below the threshold,
in absolute value, in all bins of all samples. -/
theorem c61_pruned_iff {n P : Nat} {m : Mdl n P} {A : Arrays} {ε : ℝ} (hε : 0 < ε)
    (hw : ∀ ch ∈ m.channels, ∀ smp ∈ ch.samples, smp.WellShaped ch.nbins) (hA : m.setInternal = .ok A)
    (p : Fin P) : p ∈ m.smallNps A ε ↔ ∀ ch ∈ m.channels, ∀ smp ∈ ch.samples,
      ∃ r, smp.symImpact (m.nps p).name = .ok r ∧ ∀ b < ch.nbins, |r.getD b 0| < ε := by
  unfold smallNps
  rw [List.mem_filter]
  simp only [List.mem_finRange, true_and, decide_eq_true_eq]
  constructor
  · intro h ch hc smp hs
    obtain ⟨i, hi, rfl⟩ := List.mem_iff_getElem.1 hc
    obtain ⟨s, hs0, rfl⟩ := List.mem_iff_getElem.1 hs
    have hsp := m.split_at (List.getElem?_eq_getElem hi)
    obtain ⟨r, hr, hb⟩ := setInternal_sym hw hA hsp (List.getElem?_eq_getElem hs0) p
    refine ⟨r, hr, fun b hlt => ?_⟩
    rw [← hb b hlt, abs_lt]
    have hbn : ((m.channels.take i).map (·.nbins)).sum + b < m.nbins := by
      have hsum : m.nbins = ((m.channels.take i).map (·.nbins)).sum +
          (m.channels[i].nbins + ((m.channels.drop (i + 1)).map (·.nbins)).sum) := by
        rw [nbins_eq_sum]
        conv_lhs => rw [hsp]
        rw [List.map_append, List.sum_append, List.map_cons, List.sum_cons]
      rw [hsum]; omega
    obtain ⟨h1, h2⟩ := h s (lt_of_lt_of_le hs0 (m.samples_le (List.getElem_mem hi))) _ hbn
    exact ⟨h2, h1⟩
  · intro h s hs b hb
    obtain ⟨i, ch, b', hch, hb', rfl⟩ := m.bin_decomp hb
    cases hsm : ch.samples[s]? with
    | none =>
      have := setInternal_sym_absent hw hA (m.split_at hch) hs hsm p hb'
      unfold chOff
      rw [this]
      constructor <;> linarith
    | some smp =>
      obtain ⟨r, hr, hv⟩ := setInternal_sym hw hA (m.split_at hch) hsm p
      obtain ⟨r', hr', hlt⟩ := h ch (List.mem_of_getElem? hch) smp (List.mem_of_getElem? hsm)
      rw [hr] at hr'
      obtain rfl := Except.ok.inj hr'
      unfold chOff
      rw [hv b' hb']
      exact ⟨(abs_lt.1 (hlt b' hb')).2, (abs_lt.1 (hlt b' hb')).1⟩

/-- In the small model, `b` is pruned at 20% and `a` is not. -/
example : (1 : Fin 2) ∈ (DemoPrune.mdl false 1).smallNps DemoPrune.arr (1/5) ∧
    (0 : Fin 2) ∉ (DemoPrune.mdl false 1).smallNps DemoPrune.arr (1/5) := by
  obtain ⟨h1, h2⟩ := DemoPrune.shapes false 1
  constructor
  · simp [smallNps, h1, h2, DemoPrune.arr]; norm_num
  · simp [smallNps, h1, h2, DemoPrune.arr]; norm_num

theorem drop_samples {n P : Nat} (m : Mdl n P) (pv : Dict (Option ℝ)) (l : List (Fin P))
    (st : (Fin P → ℝ) × List Channel) :
    (l.foldl (m.dropNp pv) st).2 = st.2.map fun ch => { ch with samples := ch.samples.map (fun s =>
      l.foldl (fun s p => dropFromSample (m.nps p).name s) s) } := by
  induction l generalizing st with
  | nil => simp
  | cons p l ih =>
    rw [List.foldl_cons, ih]
    simp only [dropNp, List.map_map]
    refine List.map_congr_left fun ch _ => ?_
    simp only [Function.comp, List.map_map, List.foldl_cons]
    rfl

theorem drop_values {n P : Nat} (m : Mdl n P) (pv : Dict (Option ℝ)) (l : List (Fin P))
    (u : Fin P → ℝ) (chs chs' : List Channel) :
    (l.foldl (m.dropNp pv) (u, chs)).1 = (l.foldl (m.dropNp pv) (u, chs')).1 := by
  induction l generalizing u chs chs' with
  | nil => rfl
  | cons p l ih => exact ih _ _ _

theorem drop_impacts {n P : Nat} (m : Mdl n P) (l : List (Fin P)) (s : Sample)
    (hn : ∀ p ∈ l, s.norm.isExpr (m.nps p).name = false) :
    l.foldl (fun s p => dropFromSample (m.nps p).name s) s =
      { s with impacts := s.impacts.filter fun e => decide (e.1 ∉ l.map fun p => (m.nps p).name) } := by
  induction l generalizing s with
  | nil => simp
  | cons p l ih =>
    rw [List.foldl_cons]
    have h1 : dropFromSample (m.nps p).name s =
        { s with impacts := s.impacts.filter fun e => decide (e.1 ≠ (m.nps p).name) } := by
      unfold dropFromSample
      rw [if_neg (by rw [hn p (by simp)]; simp)]
    rw [h1]
    refine (ih { s with impacts := s.impacts.filter fun e => decide (e.1 ≠ (m.nps p).name) }
      (fun q hq => hn q (by simp [hq]))).trans ?_
    simp only [List.filter_filter, List.map_cons, List.mem_cons, not_or]
    congr 1
    refine List.filter_congr fun e _ => ?_
    by_cases h1 : e.1 = (m.nps p).name <;> by_cases h2 : e.1 ∈ l.map (fun p => (m.nps p).name) <;>
      simp [h1, h2]

/-- A channel without the impacts of some parameters. -/
def withoutImpacts (names : List String) (ch : Channel) : Channel :=
  { ch with samples := ch.samples.map fun s =>
      { s with impacts := s.impacts.filter fun e => decide (e.1 ∉ names) } }

/-- **C61** `prune` is `remove_nps` of the small NPs without values, if all samples have impacts for
them and none is normalised by one of them; so that `c34_remove_nps` gives its predictions. -/
theorem c61_prune_is_removal {n P : Nat} (m : Mdl n P) (A : Arrays) (rx : String → String → Bool) (ε : ℝ)
    (hD : m.ctx.Distinct)
    (hall : ∀ ch ∈ m.channels, ∀ smp ∈ ch.samples, ∀ p ∈ m.smallNps A ε,
      (smp.impacts.get? (m.nps p).name).isSome ∧ smp.norm ≠ .expr (m.nps p).name) :
    m.pruneNps A rx ε = m.removeNps A rx ((m.smallNps A ε).map fun p => ((m.nps p).name, none)) ∧
    ∀ p, m.Selected rx ((m.smallNps A ε).map fun p => ((m.nps p).name, none)) p ↔ p ∈ m.smallNps A ε := by
  set small := m.smallNps A ε with hsm
  set names := small.map fun p => (m.nps p).name with hnames
  have hpv : names.map (fun k => (k, (none : Option ℝ))) = small.map fun p => ((m.nps p).name, none) := by
    rw [hnames, List.map_map]; rfl
  have hkeys : Dict.keys (small.map fun p => ((m.nps p).name, (none : Option ℝ))) = names := by
    simp [Dict.keys, hnames]
  have hpop : m.channels.mapM (fun ch => do
      let samples ← ch.samples.mapM fun s => popAll s names
      return { ch with samples := samples }) = .ok (m.channels.map (withoutImpacts names)) := by
    refine mapM_ok_iff.2 ?_
    rw [List.forall₂_map_right_iff]
    refine List.forall₂_same.2 fun ch hc => ?_
    have hs : ch.samples.mapM (fun s => popAll s names) = .ok (ch.samples.map fun s =>
        { s with impacts := s.impacts.filter fun e => decide (e.1 ∉ names) }) := by
      refine mapM_ok_iff.2 ?_
      rw [List.forall₂_map_right_iff]
      refine List.forall₂_same.2 fun s hs => ?_
      unfold popAll
      rw [if_pos]
      rw [List.all_eq_true]
      intro k hk
      obtain ⟨p, hp, rfl⟩ := List.mem_map.1 hk
      exact (hall ch hc s hs p hp).1
    rw [hs]; rfl
  refine ⟨?_, fun p => ?_⟩
  · unfold pruneNps
    simp only [← hsm, ← hnames]
    rw [hpop]
    simp only [bind_ok, hpv]
    unfold removeNps
    -- the selected NPs are the small ones
    have hsel : ∀ m0 : Mdl n P, m0.nps = m.nps →
        ∀ l : List (Fin P), (l.map fun p => (m.nps p).name).mapM (m0.selectNps rx) = .ok (l.map fun p => [p]) := by
      intro m0 hm0 l
      refine mapM_ok_iff.2 ?_
      rw [List.forall₂_map_right_iff, List.forall₂_map_left_iff]
      refine List.forall₂_same.2 fun p _ => ?_
      unfold selectNps
      rw [hm0]
      have : (List.finRange P).find? (fun q => decide ((m.nps q).name = (m.nps p).name)) = some p := by
        rw [List.find?_eq_some_iff_append]
        refine ⟨by simp, ?_⟩
        obtain ⟨as, bs, h⟩ := List.append_of_mem (List.mem_finRange p)
        refine ⟨as, bs, h, fun q hq => ?_⟩
        simp only [Bool.not_eq_eq_eq_not, Bool.not_true, decide_eq_false_iff_not]
        intro he
        have hqp := np_inj hD he
        subst hqp
        have hnd := List.nodup_finRange P
        rw [h] at hnd
        exact (List.nodup_append.1 hnd).2.2 q hq q (by simp) rfl
      rw [this]
    rw [hkeys, hnames,
      hsel { m with channels := m.channels.map (withoutImpacts (small.map fun p => (m.nps p).name)) } rfl,
      hsel m rfl]
    have hfl : (small.map fun p => [p]).flatten = small := by
      induction small with
      | nil => rfl
      | cons a l ih => simp [ih]
    simp only [bind_ok, hfl]
    set pv : Dict (Option ℝ) := small.map fun p => ((m.nps p).name, none) with hpvd
    set pch := m.channels.map (withoutImpacts (small.map fun p => (m.nps p).name)) with hpch
    have hdrop : Mdl.dropNp { m with channels := pch } pv = m.dropNp pv := rfl
    have hst : small.foldl (m.dropNp pv) (fun _ => 0, pch) = small.foldl (m.dropNp pv) (fun _ => 0, m.channels) := by
      refine Prod.ext (drop_values m pv small _ _ _) ?_
      rw [drop_samples, drop_samples]
      simp only [hpch, List.map_map]
      refine List.map_congr_left fun ch hc => ?_
      simp only [Function.comp, withoutImpacts]
      congr 1
      rw [List.map_map]
      refine List.map_congr_left fun s hs => ?_
      simp only [Function.comp]
      have hns : ∀ p ∈ small, s.norm.isExpr (m.nps p).name = false := by
        intro p hp
        have := (hall ch hc s hs p hp).2
        cases hn : s.norm with
        | number v => rfl
        | expr e =>
          rw [hn] at this
          simp only [Norm.isExpr, beq_eq_false_iff_ne]
          intro he
          exact this (by rw [he])
      rw [drop_impacts m small s hns]
      refine (drop_impacts m small
        { s with impacts := s.impacts.filter fun e => decide (e.1 ∉ small.map fun p => (m.nps p).name) } hns).trans ?_
      simp only [List.filter_filter, Bool.and_self]
    rw [hdrop, hst]
  · unfold Selected
    rw [hkeys]
    constructor
    · rintro ⟨spec, hs, h⟩
      obtain ⟨q, hq, rfl⟩ := List.mem_map.1 hs
      rcases h with h | ⟨h, _⟩
      · rwa [np_inj hD h]
      · exact absurd rfl (h q)
    · intro hp
      exact ⟨(m.nps p).name, List.mem_map.2 ⟨p, hp, rfl⟩, .inl rfl⟩

example : ∀ ch ∈ (DemoPrune.mdl false 1).channels, ∀ smp ∈ ch.samples,
    ∀ p ∈ (DemoPrune.mdl false 1).smallNps DemoPrune.arr (1/5),
      (smp.impacts.get? ((DemoPrune.mdl false 1).nps p).name).isSome ∧
      smp.norm ≠ .expr ((DemoPrune.mdl false 1).nps p).name := by
  intro ch hc smp hs p _
  simp only [DemoPrune.mdl, List.mem_singleton] at hc
  subst hc
  simp only [List.mem_singleton] at hs
  subst hs
  fin_cases p <;> simp [DemoPrune.mdl, DemoPrune.smp, Dict.get?]

/-- **C61** If a sample has no impact for a small NP (for instance a sample normalised by a number),
`prune` raises `KeyError` (F56). -/
theorem c61_missing_impact_fails {n P : Nat} (m : Mdl n P) (A : Arrays) (rx : String → String → Bool) (ε : ℝ)
    {ch : Channel} (hc : ch ∈ m.channels) {smp : Sample} (hs : smp ∈ ch.samples) {p : Fin P}
    (hp : p ∈ m.smallNps A ε) (hno : smp.impacts.get? (m.nps p).name = none) :
    m.pruneNps A rx ε = .error .keyError := by
  set names := (m.smallNps A ε).map fun p => (m.nps p).name with hnames
  have hmem : (m.nps p).name ∈ names := List.mem_map.2 ⟨p, hp, rfl⟩
  have herr : ∀ {α β : Type} (f : α → Except PyErr β) (l : List α) (a : α), a ∈ l →
      (∀ b e, f b = .error e → e = .keyError) → f a = .error .keyError → l.mapM f = .error .keyError := by
    intro α β f l a ha hf hfa
    induction l with
    | nil => cases ha
    | cons b l ih =>
      rw [List.mapM_cons]
      cases hb : f b with
      | error e => rw [hf b e hb]; rfl
      | ok v =>
        rcases List.mem_cons.1 ha with rfl | ha
        · rw [hfa] at hb; cases hb
        · simp only [bind_ok]
          rw [ih ha]; rfl
  have hpop : popAll smp names = .error .keyError := by
    unfold popAll
    rw [if_neg]
    intro h
    rw [List.all_eq_true] at h
    have := h _ hmem
    rw [hno] at this; cases this
  have hpe : ∀ (b : Sample) e, popAll b names = .error e → e = .keyError := by
    intro b e he
    unfold popAll at he
    split_ifs at he
    exact (Except.error.inj he).symm
  have hsm : ch.samples.mapM (fun s => popAll s names) = .error .keyError := herr _ _ smp hs hpe hpop
  have hmapE : ∀ {α β : Type} (f : α → Except PyErr β) (l : List α) (e : PyErr),
      (∀ b e, f b = .error e → e = .keyError) → l.mapM f = .error e → e = .keyError := by
    intro α β f l e hf
    induction l generalizing e with
    | nil => intro h; cases h
    | cons b l ih =>
      intro h
      rw [List.mapM_cons] at h
      cases hb : f b with
      | error e' => rw [hb] at h; rw [← hf b e' hb]; exact (Except.error.inj h).symm
      | ok v =>
        rw [hb] at h
        simp only [bind_ok] at h
        cases hr : l.mapM f with
        | error e' => rw [hr] at h; rw [← ih e' hr]; exact (Except.error.inj h).symm
        | ok v' => rw [hr] at h; cases h
  unfold pruneNps
  simp only [← hnames]
  rw [herr _ m.channels ch hc (fun b e he => ?_) (by rw [hsm]; rfl)]
  · rfl
  · cases hb : b.samples.mapM (fun s => popAll s names) with
    | error e' =>
      rw [hb] at he
      rw [← Except.error.inj he]
      exact hmapE _ _ _ hpe hb
    | ok v => rw [hb] at he; cases he

end Verif.Props
