import Verif.Lemmas.FitData
/-! Helper lemmas on PLR data and rasters. -/
namespace Verif

theorem Dict.set_same {V : Type} (d : Dict V) (k : String) (v : V) (h : Dict.get? d k = some v) :
    Dict.set d k v = d := by
  induction d with
  | nil => simp at h
  | cons kv d ih =>
    obtain ⟨k', v'⟩ := kv
    simp only [Dict.get?] at h
    by_cases e : k' = k
    · simp [e] at h; simp [Dict.set, e, h]
    · simp [e] at h; simp [Dict.set, e, ih h]

namespace FitResult

/-- `r` was made by the constructor from a fitted parameter point. -/
def Made (m : ParModel ℝ) (r : FitResult) : Prop :=
  ∃ p o, (p.pois.length = m.pois.length ∧ p.nps.length = m.nps.length) ∧
    (o.getD [] : Hypo).WF ∧ init m (some p) r.nll o = .ok r

theorem Made.facts {m : ParModel ℝ} {r : FitResult} (h : Made m r)
    (hd : (m.pois ++ m.nps.map (·.name)).Nodup) :
    WF r.fitpars ∧ (∀ kv ∈ r.fitpars, kv.2.value ≠ none) ∧
      ∃ e : Dict ℝ, (∀ k, val? r.fitpars k = (Dict.get? e k).map some) ∧
        ∀ n, n ∈ m.pois ∨ n ∈ m.npNames → Dict.get? e n ≠ none := by
  obtain ⟨p, o, ⟨h1, h2⟩, hw, hi⟩ := h
  obtain ⟨d, e1, e2, e3, e4⟩ := init_spec m p r.nll (o.getD []) h1 h2 hd hw o rfl
  rw [e1] at hi
  have := Except.ok.inj (ε := PyErr) hi
  rw [← this]
  refine ⟨e2, e3, Dict.setAll (p.dict m false true) (o.getD []), ?_, ?_⟩
  · intro k
    rw [e4 k, Dict.get?_setAll _ _ _ hw]
  · intro n hn
    have hg := Pars.dict_get? m p true h1 h2 hd n
    have hlen : (p.unscaledNps m).length = m.npNames.length := by
      simp [Pars.unscaledNps, m.length_npNames, h2]
    rw [Dict.get?_setAll _ _ _ hw]
    have : (p.dict m false true).get? n ≠ none := by
      rw [hg]
      by_cases hp : n ∈ m.pois
      · have hi : m.pois.idxOf n < p.pois.length := by rw [h1]; exact List.idxOf_lt_length_iff.2 hp
        simp [hp]; omega
      · have hn' := hn.resolve_left hp
        have hi : m.npNames.idxOf n < (p.unscaledNps m).length := by
          rw [hlen]; exact List.idxOf_lt_length_iff.2 hn'
        simp [hp, hn']; omega
    cases hx : Dict.get? (o.getD [] : Hypo) n with
    | none => simpa using this
    | some v => simp

/-- Reloading a result made by the constructor, into one that has hypothesis values only. -/
theorem Made.reload {m : ParModel ℝ} {r : FitResult} (h : Made m r)
    (hd : (m.pois ++ m.nps.map (·.name)).Nodup) (s : FitResult) (h' : WF s.fitpars)
    (hs' : ∀ kv ∈ s.fitpars, kv.2.value ≠ none) :
    ∃ r', s.loadDict (r.fillDict []) = .ok r' ∧ r'.nll = r.nll ∧ r'.pars m = r.pars m := by
  obtain ⟨w, hs, e, he, hk⟩ := h.facts hd
  obtain ⟨r', a1, a2, a3, a4, a5⟩ := load_fill r w hs s h' hs'
  refine ⟨r', a1, a3, ?_⟩
  have c1 := pars_congr m r.fitpars e r.nll w hs (fun n _ => he n)
  have c2 := pars_congr m r'.fitpars e r'.nll a2 a4 (fun n hn => by
    rw [a5, he]
    cases hx : Dict.get? e n with
    | none => exact absurd hx (hk n hn)
    | some v => simp)
  have e1 : r = ⟨r.fitpars, r.nll⟩ := rfl
  have e2 : r' = ⟨r'.fitpars, r'.nll⟩ := rfl
  rw [e1, e2, c1, c2]

end FitResult

namespace PLRData

theorem mapM_numEntry (e : PyErr) (d : Dict ℝ) :
    (d.map (fun kv => (kv.1, (MVal.num kv.2 : MVal ℝ)))).mapM (numEntry e) = .ok d := by
  induction d with
  | nil => rfl
  | cons kv d ih => simp only [List.map_cons, List.mapM_cons, ih, numEntry, bind_ok, pure_ok]

theorem numsIn_out (d : Dict ℝ) : numsIn (numsOut d) = .ok d := mapM_numEntry _ d

theorem hypoIn_out (d : Hypo) (h : d.WF) : hypoIn (numsOut d) = .ok d := by
  simp only [hypoIn, numsOut, mapM_numEntry, bind_ok, pure_ok, Dict.setAll_nil_eq d h]

theorem update_keys {m : ParModel ℝ} {d0 d : PLRData} (h : update m d0 = .ok d) :
    ∀ n ∈ Dict.keys d.hypo, n ∈ m.pois := by
  unfold update at h
  by_cases hk : ∀ n ∈ Dict.keys d0.hypo, n ∈ m.pois
  · rw [if_pos hk] at h
    split at h
    · unfold computeTmu at h
      split at h
      · split at h
        · have := Except.ok.inj (ε := PyErr) h
          rw [← this]; exact hk
        · cases h
      · cases h
    · have := Except.ok.inj (ε := PyErr) h
      rw [← this]; exact hk
  · rw [if_neg hk] at h; cases h

theorem update_tmu {m : ParModel ℝ} {d0 d : PLRData} (h : update m d0 = .ok d)
    (hf : d.freeFit.isSome) (hh : d.hypoFit.isSome) : "tmu" ∈ Dict.keys d.testStats := by
  unfold update at h
  by_cases hk : ∀ n ∈ Dict.keys d0.hypo, n ∈ m.pois
  · rw [if_pos hk] at h
    split at h
    · unfold computeTmu at h
      split at h
      · split at h
        · have := Except.ok.inj (ε := PyErr) h
          rw [← this]
          exact (Dict.mem_keys_iff _ _).2 ⟨_, Dict.get?_set_self _ _ _⟩
        · cases h
      · cases h
    · rename_i hc
      have := Except.ok.inj (ε := PyErr) h
      subst this
      by_contra hn
      exact hc ⟨hf, hh, hn⟩
  · rw [if_neg hk] at h; cases h

theorem update_noop {m : ParModel ℝ} {d : PLRData} (hk : ∀ n ∈ Dict.keys d.hypo, n ∈ m.pois)
    (ht : "tmu" ∈ Dict.keys d.testStats) : update m d = .ok d := by
  unfold update
  rw [if_pos hk, if_neg (by tauto)]

theorem reload_full (m : ParModel ℝ) (p : Pars ℝ)
    (h1 : p.pois.length = m.pois.length) (h2 : p.nps.length = m.nps.length)
    (hd : (m.pois ++ m.nps.map (·.name)).Nodup) :
    Pars.init m (.dict (p.dict m)) none = .ok ⟨p.pois, List.replicate m.nps.length 0⟩ := by
  have hg := Pars.dict_get? m p true h1 h2 hd
  have hx : ∀ n ∈ m.pois, (p.dict m).get? n = some (p.pois[m.pois.idxOf n]?.getD 0) := by
    intro n hn
    have hi : m.pois.idxOf n < p.pois.length := by rw [h1]; exact List.idxOf_lt_length_iff.2 hn
    have : (p.dict m).get? n = _ := hg n
    rw [this, if_pos hn, List.getElem?_eq_getElem hi]; rfl
  obtain ⟨q, e, ⟨q1, q2⟩, q3, q4⟩ := Pars.init_dict m (p.dict m) (fun n hn => by rw [hx n hn]; simp)
  rw [e]
  congr 1
  ext1
  · apply List.ext_getElem (by simp only; omega)
    intro i hi hj
    have hi' : i < m.pois.length := by omega
    have := q3 i hi'
    rw [hx _ (List.getElem_mem hi'), (List.nodup_append.1 hd).1.idxOf_getElem i hi',
      List.getElem?_eq_getElem hi, List.getElem?_eq_getElem hj] at this
    simpa using this
  · exact q4

/-- What `fill_dict` writes, key by key. -/
theorem fillDict_get (m : ParModel ℝ) (d : PLRData) (ff hf : FitResult) (h1 : d.freeFit = some ff)
    (h2 : d.hypoFit = some hf) :
    ∃ sd, fillDict m d = .ok sd ∧
      Dict.get? sd "hypo" = some (numsOut (Dict.setAll [] d.hypo)) ∧
      Dict.get? sd "full_hypo" = d.fullHypo.map (fun p => numsOut (p.dict m)) ∧
      Dict.get? sd "free_fit" = some (.dict (ff.fillDict [])) ∧
      Dict.get? sd "hypo_fit" = some (.dict (hf.fillDict [])) ∧
      Dict.get? sd "test_statistics" = some (numsOut d.testStats) ∧
      Dict.get? sd "pvs" = some (numsOut d.pvs) := by
  unfold fillDict
  rw [h1, h2]
  refine ⟨_, rfl, ?_⟩
  simp only [Dict.get?_set, Dict.get?_setOpt]
  cases d.fullHypo <;> simp

theorem reload (m : ParModel ℝ) (d : PLRData) (ff hf : FitResult)
    (h1 : d.freeFit = some ff) (h2 : d.hypoFit = some hf)
    (hd : (m.pois ++ m.nps.map (·.name)).Nodup)
    (mf : ff.Made m) (mh : hf.Made m) (hw : d.hypo.WF)
    (hk : ∀ n ∈ Dict.keys d.hypo, n ∈ m.pois) (ht : "tmu" ∈ Dict.keys d.testStats)
    (hfull : ∀ p, d.fullHypo = some p → p.pois.length = m.pois.length ∧ p.nps.length = m.nps.length) :
    ∃ sd d', fillDict m d = .ok sd ∧ loadDict m sd = .ok d' ∧ d'.hypo = d.hypo ∧
      d'.testStats = d.testStats ∧ d'.pvs = d.pvs ∧
      (∃ ff', d'.freeFit = some ff' ∧ ff'.nll = ff.nll ∧ ff'.pars m = ff.pars m) ∧
      (∃ hf', d'.hypoFit = some hf' ∧ hf'.nll = hf.nll ∧ hf'.pars m = hf.pars m) ∧
      d'.fullHypo = d.fullHypo.map (fun p => ⟨p.pois, List.replicate m.nps.length 0⟩) := by
  obtain ⟨sd, e0, g1, g2, g3, g4, g5, g6⟩ := fillDict_get m d ff hf h1 h2
  obtain ⟨ff', a1, a2, a3⟩ := mf.reload hd ⟨[], none⟩ FitResult.WF.nil (by simp)
  obtain ⟨w3, s3, _⟩ := FitResult.fillHypo_spec d.hypo [] FitResult.WF.nil (by simp) hw
  obtain ⟨hf', b1, b2, b3⟩ := mh.reload hd ⟨FitResult.fillHypo d.hypo [], none⟩ w3 s3
  set d' : PLRData := ⟨d.hypo, some ff', some hf', d.testStats, d.pvs,
    d.fullHypo.map (fun p => ⟨p.pois, List.replicate m.nps.length 0⟩)⟩ with hd'
  refine ⟨sd, d', e0, ?_, rfl, rfl, rfl, ⟨ff', rfl, a2, a3⟩, ⟨hf', rfl, b2, b3⟩, rfl⟩
  have c1 : FitResult.init m none none none = .ok ⟨[], none⟩ := rfl
  have c2 : FitResult.init m none none (some d.hypo) = .ok ⟨FitResult.fillHypo d.hypo [], none⟩ := rfl
  have hu : update m d' = .ok d' := update_noop hk ht
  unfold loadDict
  simp only [Dict.getItem, g1, g2, g3, g4, g5, g6, bind_ok, Dict.setAll_nil_eq d.hypo hw,
    hypoIn_out d.hypo hw, asDict, c1, c2, a1, b1, numsIn_out]
  cases hfh : d.fullHypo with
  | none =>
    simp only [hfh, Option.map_none] at hd'
    simp only [Option.map_none, bind_ok, ← hd', hu]
  | some p =>
    obtain ⟨p1, p2⟩ := hfull p hfh
    simp only [hfh, Option.map_some] at hd'
    simp only [Option.map_some, bind_ok, numsIn_out, reload_full m p p1 p2 hd, ← hd', hu]

end PLRData
end Verif

namespace Verif
open Classical

theorem HDict.set_append {V : Type} (h : List String → ℕ) (d : HDict V) (k : Hypo) (v : V)
    (hk : ∀ kv ∈ d, ¬ kv.1.matches h k) : d.set h k v = d ++ [(k, v)] := by
  induction d with
  | nil => rfl
  | cons kv d ih =>
    obtain ⟨k', v'⟩ := kv
    unfold HDict.set
    rw [if_neg (hk (k', v') (by simp)), ih (fun x hx => hk x (by simp [hx]))]
    rfl

theorem HDict.get?_isSome_of_mem {V : Type} (h : List String → ℕ) (d : HDict V) (k : Hypo) (hw : k.WF)
    (hk : k ∈ d.map Prod.fst) : (HDict.get? h d k).isSome := by
  induction d with
  | nil => simp at hk
  | cons kv d ih =>
    obtain ⟨k', v'⟩ := kv
    unfold HDict.get?
    by_cases hm : k'.matches h k
    · rw [if_pos hm]; rfl
    · rw [if_neg hm]
      refine ih ?_
      simp only [List.map_cons, List.mem_cons] at hk
      rcases hk with e | e
      · subst e; exact absurd (Hypo.matches_refl h hw) hm
      · exact e

namespace PLRData

/-- The NLL values of the two fits. -/
def HasNlls (d : PLRData) (a b : ℝ) : Prop :=
  ∃ hf ff, d.hypoFit = some hf ∧ d.freeFit = some ff ∧ hf.nll = some a ∧ ff.nll = some b

theorem computeTmu_ok {d d' : PLRData} : computeTmu d = .ok d' ↔
    ∃ a b, HasNlls d a b ∧ d' = { d with testStats := d.testStats.set "tmu" (2 * (a - b)) } := by
  constructor
  · intro h
    unfold computeTmu at h
    split at h
    · rename_i hf ff h1 h2
      split at h
      · rename_i a b h3 h4
        exact ⟨a, b, ⟨hf, ff, h1, h2, h3, h4⟩, (Except.ok.inj (ε := PyErr) h).symm⟩
      · cases h
    · cases h
  · rintro ⟨a, b, ⟨hf, ff, h1, h2, h3, h4⟩, rfl⟩
    unfold computeTmu
    rw [h1, h2]
    simp only [h3, h4]

theorem HasNlls.unique {d : PLRData} {a b a' b' : ℝ} (h : HasNlls d a b) (h' : HasNlls d a' b') :
    a = a' ∧ b = b' := by
  obtain ⟨hf, ff, h1, h2, h3, h4⟩ := h
  obtain ⟨hf', ff', h1', h2', h3', h4'⟩ := h'
  rw [h1] at h1'; rw [h2] at h2'
  cases h1'; cases h2'
  rw [h3] at h3'; rw [h4] at h4'
  exact ⟨Option.some.inj h3', Option.some.inj h4'⟩

end PLRData

namespace Raster

theorem argMin_mem (l : List (Hypo × ℝ)) (b : Hypo × ℝ) : argMin b l ∈ b :: l := by
  induction l generalizing b with
  | nil => simp [argMin]
  | cons x l ih =>
    unfold argMin
    split
    · have := ih x; simp at this ⊢; tauto
    · have := ih b; simp at this ⊢; tauto

theorem argMin_le (l : List (Hypo × ℝ)) (b : Hypo × ℝ) : ∀ x ∈ b :: l, (argMin b l).2 ≤ x.2 := by
  induction l generalizing b with
  | nil => simp [argMin]
  | cons y l ih =>
    intro x hx
    unfold argMin
    by_cases hy : y.2 < b.2
    · rw [if_pos hy]
      have h := ih y
      have h0 := h y (by simp)
      simp only [List.mem_cons] at hx
      rcases hx with rfl | rfl | hx
      · linarith
      · exact h0
      · exact h x (by simp [hx])
    · rw [if_neg hy]
      have h := ih b
      have h0 := h b (by simp)
      simp only [List.mem_cons] at hx
      rcases hx with rfl | rfl | hx
      · exact h0
      · linarith
      · exact h x (by simp [hx])

theorem setGlobalBestFit_data {h : List String → ℕ} {r r' : Raster}
    (e : setGlobalBestFit h r = .ok r') :
    r'.map (fun e => (e.1, e.2.data)) = r.map (fun e => (e.1, e.2.data)) := by
  unfold setGlobalBestFit at e
  rw [bind_eq_ok] at e
  obtain ⟨l, _, e⟩ := e
  cases l with
  | nil => have := Except.ok.inj (ε := PyErr) e; rw [this]
  | cons x l =>
    simp only [bind_eq_ok] at e
    obtain ⟨best, _, e⟩ := e
    have := Except.ok.inj (ε := PyErr) e
    rw [← this]; simp [Function.comp_def]

theorem mapM_freeNll (r : Raster) (h : ∀ e ∈ r, ∃ a b, e.2.data.HasNlls a b) :
    ∃ l, r.mapM freeNll = .ok l ∧ l.map Prod.fst = r.map Prod.fst := by
  induction r with
  | nil => exact ⟨[], rfl, rfl⟩
  | cons e r ih =>
    obtain ⟨l, h1, h2⟩ := ih (fun x hx => h x (by simp [hx]))
    obtain ⟨a, b, hf, ff, _, e2, _, e4⟩ := h e (by simp)
    refine ⟨(e.1, b) :: l, ?_, by simp [h2]⟩
    simp only [List.mapM_cons, freeNll, e2, e4, h1, bind_ok, pure_ok]

theorem setGlobalBestFit_ok (h : List String → ℕ) (r : Raster) (hn : ∀ e ∈ r, ∃ a b, e.2.data.HasNlls a b)
    (hw : ∀ e ∈ r, e.1.WF) : ∃ r', setGlobalBestFit h r = .ok r' := by
  obtain ⟨l, h1, h2⟩ := mapM_freeNll r hn
  unfold setGlobalBestFit
  rw [h1, bind_ok]
  cases l with
  | nil => exact ⟨r, rfl⟩
  | cons x l =>
    have hm := argMin_mem l x
    have hk : (argMin x l).1 ∈ r.map Prod.fst := by rw [← h2]; exact List.mem_map_of_mem hm
    obtain ⟨e, he, hek⟩ := List.mem_map.1 hk
    have hs := HDict.get?_isSome_of_mem h r (argMin x l).1 (by rw [← hek]; exact hw e he) hk
    obtain ⟨v, hv⟩ := Option.isSome_iff_exists.1 hs
    simp only [HDict.getItem, hv, bind_ok, pure_ok]
    exact ⟨_, rfl⟩

/-- The effect of `compute_tmu` on an entry. -/
def TmuOf (e e' : Hypo × REntry) : Prop :=
  e'.1 = e.1 ∧ ∃ a b, e.2.data.HasNlls a b ∧
    e'.2.data = { e.2.data with testStats := e.2.data.testStats.set "tmu" (2 * (a - b)) }

theorem computeTmu_spec {r r' : Raster} (h : computeTmu r = .ok r') : List.Forall₂ TmuOf r r' := by
  unfold computeTmu at h
  rw [mapM_ok_iff] at h
  refine h.imp ?_
  intro e e' he
  rw [tmuEntry, bind_eq_ok] at he
  obtain ⟨d, hd, he⟩ := he
  have := Except.ok.inj (ε := PyErr) he
  rw [← this]
  obtain ⟨a, b, hn, rfl⟩ := PLRData.computeTmu_ok.1 hd
  exact ⟨rfl, a, b, hn, rfl⟩

theorem computeTmu_succeeds (r : Raster) (hn : ∀ e ∈ r, ∃ a b, e.2.data.HasNlls a b) :
    ∃ r', computeTmu r = .ok r' := by
  unfold computeTmu
  induction r with
  | nil => exact ⟨[], rfl⟩
  | cons e r ih =>
    obtain ⟨r', hr⟩ := ih (fun x hx => hn x (by simp [hx]))
    obtain ⟨a, b, hab⟩ := hn e (by simp)
    have := PLRData.computeTmu_ok.2 ⟨a, b, hab, rfl⟩
    simp only [List.mapM_cons, tmuEntry, this, bind_ok, pure_ok]
    rw [show List.mapM tmuEntry r = _ from hr]
    exact ⟨_, rfl⟩

theorem forall2_of_map {r r' : Raster}
    (h : r'.map (fun e => (e.1, e.2.data)) = r.map (fun e => (e.1, e.2.data))) :
    List.Forall₂ (fun e e' => e'.1 = e.1 ∧ e'.2.data = e.2.data) r r' := by
  induction r generalizing r' with
  | nil =>
    cases r' with
    | nil => exact .nil
    | cons x r' => simp at h
  | cons e r ih =>
    cases r' with
    | nil => simp at h
    | cons x r' =>
      simp only [List.map_cons, List.cons.injEq, Prod.mk.injEq] at h
      exact .cons ⟨h.1.1, h.1.2⟩ (ih h.2)

theorem forall2_comp {α β γ : Type} {R : α → β → Prop} {S : β → γ → Prop} {T : α → γ → Prop}
    (hT : ∀ a b c, R a b → S b c → T a c) {l : List α} {l' : List β} {l'' : List γ}
    (h : List.Forall₂ R l l') (h' : List.Forall₂ S l' l'') : List.Forall₂ T l l'' := by
  induction h generalizing l'' with
  | nil => cases h'; exact .nil
  | cons a _ ih => cases h' with | cons b h' => exact .cons (hT _ _ _ a b) (ih h')

theorem TmuOf.trans_same {e e' e'' : Hypo × REntry} (h : e'.1 = e.1 ∧ e'.2.data = e.2.data)
    (h' : TmuOf e' e'') : TmuOf e e'' := by
  obtain ⟨h1, a, b, hn, h2⟩ := h'
  rw [h.2] at hn h2
  exact ⟨h1.trans h.1, a, b, hn, h2⟩

theorem bestFitStage_spec {h : List String → ℕ} {g : Bool} {r r1 : Raster}
    (e1 : bestFitStage h g r = .ok r1) :
    List.Forall₂ (fun e e' => e'.1 = e.1 ∧ e'.2.data = e.2.data) r r1 := by
  cases g
  · have := Except.ok.inj (ε := PyErr) e1
    subst this
    exact forall2_of_map rfl
  · exact forall2_of_map (setGlobalBestFit_data e1)

theorem setPois_eq {m : ParModel ℝ} {r r' : Raster} (e : setPois m r = .ok r') : r' = r := by
  unfold setPois at e
  split at e
  · exact (Except.ok.inj (ε := PyErr) e).symm
  · cases e

/-- The constructor: every entry gets its own `tmu`, whatever `use_global_best_fit`. -/
theorem init_spec {h : List String → ℕ} {m : ParModel ℝ} {r r' : Raster} {g : Bool}
    (e : init h m r g true = .ok r') : List.Forall₂ TmuOf r r' := by
  unfold init at e
  rw [bind_eq_ok] at e
  obtain ⟨r1, e1, e⟩ := e
  rw [bind_eq_ok] at e
  obtain ⟨r2, e2, e⟩ := e
  rw [setPois_eq e]
  exact forall2_comp (R := fun e e' => e'.1 = e.1 ∧ e'.2.data = e.2.data) (S := TmuOf) (T := TmuOf)
      (fun _ _ _ => TmuOf.trans_same) (bestFitStage_spec e1)
    (computeTmu_spec (by simpa [tmuStage] using e2))

theorem haveCompatiblePois_mem (l : List Hypo) (n : String) (hn : n ∈ haveCompatiblePois l) :
    ∃ a ∈ l, n ∈ Dict.keys a := by
  match l, hn with
  | [], hn => simp [haveCompatiblePois] at hn
  | [_], hn => simp [haveCompatiblePois] at hn
  | a :: b :: l, hn =>
    simp only [haveCompatiblePois] at hn
    split at hn
    · simp at hn
    · exact ⟨a, by simp, hn⟩

theorem forall2_keys {r r' : Raster} (h : List.Forall₂ (fun e e' : Hypo × REntry => e'.1 = e.1) r r') :
    r'.map Prod.fst = r.map Prod.fst := by
  induction h with
  | nil => rfl
  | cons a _ ih => simp [a, ih]

theorem stages_succeed (h : List String → ℕ) (r : Raster) (g : Bool)
    (hn : ∀ e ∈ r, ∃ a b, e.2.data.HasNlls a b) (hw : ∀ e ∈ r, e.1.WF) :
    ∃ r1 r2, bestFitStage h g r = .ok r1 ∧ tmuStage true r1 = .ok r2 ∧ List.Forall₂ TmuOf r r2 := by
  have h1 : ∃ r1, bestFitStage h g r = .ok r1 := by
    cases g
    · exact ⟨r, rfl⟩
    · exact setGlobalBestFit_ok h r hn hw
  obtain ⟨r1, e1⟩ := h1
  have f1 := bestFitStage_spec e1
  have hn1 : ∀ e ∈ r1, ∃ a b, e.2.data.HasNlls a b := by
    intro e he
    obtain ⟨i, hi, rfl⟩ := List.getElem_of_mem he
    have hl := f1.length_eq
    have := (List.forall₂_iff_get.1 f1).2 i (by omega) hi
    simp only [List.get_eq_getElem] at this
    rw [this.2]
    exact hn _ (List.getElem_mem _)
  obtain ⟨r2, e2⟩ := computeTmu_succeeds r1 hn1
  exact ⟨r1, r2, e1, by simpa [tmuStage] using e2,
    forall2_comp (R := fun e e' => e'.1 = e.1 ∧ e'.2.data = e.2.data) (S := TmuOf) (T := TmuOf)
      (fun _ _ _ => TmuOf.trans_same) f1 (computeTmu_spec e2)⟩

theorem setPois_ok {m : ParModel ℝ} {r : Raster} (hk : ∀ e ∈ r, ∀ n ∈ Dict.keys e.1, n ∈ m.pois) :
    setPois m r = .ok r := by
  unfold setPois
  rw [if_pos]
  intro n hn'
  obtain ⟨a, ha, hna⟩ := haveCompatiblePois_mem _ n hn'
  obtain ⟨e, he, rfl⟩ := List.mem_map.1 ha
  exact hk e he n hna

theorem init_succeeds (h : List String → ℕ) (m : ParModel ℝ) (r : Raster) (g : Bool)
    (hn : ∀ e ∈ r, ∃ a b, e.2.data.HasNlls a b) (hw : ∀ e ∈ r, e.1.WF)
    (hk : ∀ e ∈ r, ∀ n ∈ Dict.keys e.1, n ∈ m.pois) : ∃ r', init h m r g true = .ok r' := by
  obtain ⟨r1, r2, e1, e2, f⟩ := stages_succeed h r g hn hw
  have k1 := forall2_keys (f.imp fun _ _ x => x.1)
  refine ⟨r2, ?_⟩
  simp only [init, e1, e2, bind_ok]
  refine setPois_ok ?_
  intro e he
  have : e.1 ∈ r.map Prod.fst := by rw [← k1]; exact List.mem_map_of_mem he
  obtain ⟨e0, he0, hh⟩ := List.mem_map.1 this
  rw [← hh]; exact hk e0 he0

/-- Loading entries stored under different hypotheses. -/
theorem loadEntries_spec (h : List String → ℕ) (m : ParModel ℝ) (l : List (Dict (MVal ℝ)))
    (ds : List PLRData) (hl : List.Forall₂ (fun x d => PLRData.loadDict m x = .ok d) l ds)
    (acc : Raster) (hp : (acc.map Prod.fst ++ ds.map (·.hypo)).Pairwise (fun a b => ¬ a.matches h b)) :
    loadEntries h m l acc = .ok (acc ++ ds.map (fun d => (d.hypo, ⟨d, none⟩))) := by
  induction hl generalizing acc with
  | nil => simp [loadEntries]
  | @cons x d l ds hx hl ih =>
    unfold loadEntries
    rw [hx, bind_ok, HDict.set_append]
    · rw [ih]
      · simp
      · simpa using hp
    · intro kv hkv
      have := (List.pairwise_append.1 hp).2.2 kv.1 (List.mem_map_of_mem hkv) d.hypo (by simp)
      exact this

end Raster
end Verif
