import Verif.Spec.Pyhf
import Verif.Lemmas.Markup
import Verif.Lemmas.MergeTot
import Verif.Props.Yields
/-! # Lemmas on the import of pyhf models -/
namespace Verif
namespace Pyhf
open Markup

/-! ### Conversion of the impacts -/

/-- The impacts that a modifier gives. -/
noncomputable def entries (first : List Par) (data : List ℝ) : Modifier → List (String × List UpDown)
  | .normfactor _ => []
  | .lumi n => match parOf first n with
    | some p => [(n, [(p.sigma.getD 0, -p.sigma.getD 0)])]
    | none => []
  | .normsys n hi lo => [(n, [(hi - 1, lo - 1)])]
  | .histosys n hi lo => [(n, (data.zip (hi.zip lo)).map fun t => (t.2.1 / t.1 - 1, t.2.2 / t.1 - 1))]
  | .shapesys n s => (data.zip s).zipIdx.map fun t => (binName n t.2, binImpact data.length t.2 (t.1.2 / t.1.1))
  | .staterror n s => (data.zip s).zipIdx.map fun t => (binName n t.2, binImpact data.length t.2 (t.1.2 / t.1.1))
  | .other _ => []

/-- Adding one entry. -/
noncomputable def addEntry (keep : Bool) (poi : String) (st : St) (e : String × List UpDown) : St :=
  addImpact keep poi st e.1 e.2

theorem shapeLoop_ok (keep : Bool) (poi name : String) (n : Nat) (st : St) (l : List ((ℝ × ℝ) × Nat))
    (h : ∀ t ∈ l, t.1.1 ≠ 0) : shapeLoop keep poi name n st l =
      .ok ((l.map fun t => (binName name t.2, binImpact n t.2 (t.1.2 / t.1.1))).foldl (addEntry keep poi) st) := by
  unfold shapeLoop
  induction l generalizing st with
  | nil => rfl
  | cons t l ih =>
    rw [List.foldlM_cons, if_neg (h t (by simp)), bind_ok, ih _ (fun u hu => h u (by simp [hu]))]
    rfl

theorem addModifier_ok {keep : Bool} {poi : String} {first : List Par} {pars : Ctx} {data : List ℝ} {nf : List String} {st : St}
    {mod : Modifier} (hg : GoodModifier first pars data mod) (hn : mod.name ∈ nf → ∃ n, mod = .normfactor n) :
    addModifier keep poi first data nf st mod = .ok ((entries first data mod).foldl (addEntry keep poi) st) := by
  unfold addModifier
  by_cases hm : mod.name ∈ nf
  · rw [if_pos hm]
    obtain ⟨n, rfl⟩ := hn hm
    rfl
  · rw [if_neg hm]
    cases mod with
    | normfactor n => rfl
    | lumi n =>
      obtain ⟨p, p0, σ, -, -, -, h0, hs⟩ := hg
      have h0' : first.reverse.find? (fun p => p.name = n) = some p0 := h0
      simp only [lumiSigma, h0', hs, bind_ok, pure_ok, entries, h0, Option.getD_some]
      rfl
    | normsys n hi lo => rfl
    | histosys n hi lo =>
      obtain ⟨h1, h2, h3⟩ := hg
      have : histoImpact data hi lo = .ok ((data.zip (hi.zip lo)).map fun t => (t.2.1 / t.1 - 1, t.2.2 / t.1 - 1)) := by
        refine mapM_map_ok ?_
        intro t ht
        have : t.1 ∈ data := (List.of_mem_zip ht).1
        obtain ⟨b, hb, he⟩ := List.mem_iff_getElem.1 this
        have h0 := (h3 b hb).1
        rw [List.getD_eq_getElem _ _ hb, he] at h0
        rw [if_neg h0]
      simp only [this, bind_ok, pure_ok]
      rfl
    | shapesys n s =>
      obtain ⟨h1, h2⟩ := hg
      refine shapeLoop_ok _ _ _ _ _ _ ?_
      intro t ht
      have h4 : t.1 ∈ data.zip s := by
        obtain ⟨hlt, he⟩ := List.mem_zipIdx' ht
        rw [he]; exact List.getElem_mem _
      have : t.1.1 ∈ data := (List.of_mem_zip h4).1
      obtain ⟨b, hb, he⟩ := List.mem_iff_getElem.1 this
      have h0 := h2 b hb
      rwa [List.getD_eq_getElem _ _ hb, he] at h0
    | staterror n s =>
      obtain ⟨h1, h2⟩ := hg
      refine shapeLoop_ok _ _ _ _ _ _ ?_
      intro t ht
      have h4 : t.1 ∈ data.zip s := by
        obtain ⟨hlt, he⟩ := List.mem_zipIdx' ht
        rw [he]; exact List.getElem_mem _
      have : t.1.1 ∈ data := (List.of_mem_zip h4).1
      obtain ⟨b, hb, he⟩ := List.mem_iff_getElem.1 this
      have h0 := (h2 b hb).1
      rwa [List.getD_eq_getElem _ _ hb, he] at h0
    | other n => exact hg.elim

theorem modifiers_ok {keep : Bool} {poi : String} {first : List Par} {pars : Ctx} {data : List ℝ} {nf : List String}
    (l : List Modifier) (st : St) (hg : ∀ mod ∈ l, GoodModifier first pars data mod)
    (hn : ∀ mod ∈ l, mod.name ∈ nf → ∃ n, mod = .normfactor n) :
    l.foldlM (addModifier keep poi first data nf) st =
      .ok ((l.flatMap (entries first data)).foldl (addEntry keep poi) st) := by
  induction l generalizing st with
  | nil => rfl
  | cons mod l ih =>
    rw [List.foldlM_cons, addModifier_ok (hg mod (by simp)) (hn mod (by simp)), bind_ok,
      ih _ (fun x hx => hg x (by simp [hx])) (fun x hx => hn x (by simp [hx])), List.flatMap_cons, List.foldl_append]

/-- All NPs declared so far. -/
noncomputable def declareAll (poi : String) (nps : Dict NPSpec) (names : List String) : Dict NPSpec :=
  names.foldl (declare poi) nps

theorem fixSigns_id {keep : Bool} {l : List UpDown} (h : ∀ i ∈ l, i.1 * i.2 ≤ 0) : fixSigns keep l = l := by
  unfold fixSigns
  rw [if_neg]
  rintro ⟨i, hi, h0⟩
  exact absurd (h i hi) (not_le.2 h0)

theorem entries_fold {keep : Bool} {poi : String} (es : List (String × List UpDown)) (st : St)
    (hs : ∀ e ∈ es, ∀ i ∈ e.2, i.1 * i.2 ≤ 0) (hn : (st.2.keys ++ es.map (·.1)).Nodup) :
    es.foldl (addEntry keep poi) st =
      (declareAll poi st.1 (es.map (·.1)), st.2 ++ es.map fun e => (e.1, collapse e.2)) := by
  induction es generalizing st with
  | nil => simp [declareAll]
  | cons e es ih =>
    have hk : e.1 ∉ st.2.keys := by
      intro hm
      rw [List.nodup_append] at hn
      exact hn.2.2 _ hm _ (by simp) rfl
    have hg : st.2.get? e.1 = none := by rw [Dict.get?_eq_none_iff]; exact hk
    have he : addEntry keep poi st e = (declare poi st.1 e.1, st.2 ++ [(e.1, collapse e.2)]) := by
      unfold addEntry addImpact
      simp only [hg, fixSigns_id (hs e (by simp)), set_new' _ _ _ hk]
    rw [List.foldl_cons, he, ih]
    · simp [declareAll]
    · exact fun f hf => hs f (by simp [hf])
    · simpa [Dict.keys] using hn

/-- The converted sample. -/
noncomputable def conv (first : List Par) (s : PSample) : CSample where
  name := s.name
  data := s.data
  norm := (normfactors s).head?
  impacts := (s.modifiers.flatMap (entries first s.data)).map fun e => (e.1, collapse e.2)

theorem mem_normfactors {s : PSample} {n : String} (h : Modifier.normfactor n ∈ s.modifiers) : n ∈ normfactors s :=
  List.mem_filterMap.2 ⟨_, h, rfl⟩

theorem entries_names {first : List Par} {pars : Ctx} {data : List ℝ} {mod : Modifier} (hg : GoodModifier first pars data mod) :
    (entries first data mod).map (·.1) = mod.params data.length := by
  cases mod with
  | normfactor n => rfl
  | lumi n =>
    obtain ⟨p, p0, σ, -, -, -, h0, hs⟩ := hg
    simp [entries, h0, Modifier.params]
  | normsys n hi lo => rfl
  | histosys n hi lo => rfl
  | shapesys n s =>
    obtain ⟨h1, h2⟩ := hg
    simp only [entries, Modifier.params, List.map_map]
    apply List.ext_getElem
    · simp [h1]
    · intro i hi hi'
      simp
  | staterror n s =>
    obtain ⟨h1, h2⟩ := hg
    simp only [entries, Modifier.params, List.map_map]
    apply List.ext_getElem
    · simp [h1]
    · intro i hi hi'
      simp
  | other n => exact hg.elim

theorem entries_signs {first : List Par} {pars : Ctx} {data : List ℝ} {mod : Modifier} (hg : GoodModifier first pars data mod) :
    ∀ e ∈ entries first data mod, (e.2.length = 1 ∨ e.2.length = data.length) ∧ ∀ i ∈ e.2, i.1 * i.2 ≤ 0 := by
  intro e he
  cases mod with
  | normfactor n => cases he
  | lumi n =>
    obtain ⟨p, p0, σ, -, -, -, h0, hs⟩ := hg
    simp only [entries, h0, List.mem_singleton] at he
    subst he
    refine ⟨.inl rfl, fun i hi => ?_⟩
    simp only [List.mem_singleton] at hi
    subst hi
    dsimp only
    nlinarith [sq_nonneg (p0.sigma.getD 0)]
  | normsys n hi lo =>
    simp only [entries, List.mem_singleton] at he
    subst he
    refine ⟨.inl rfl, fun i hi => ?_⟩
    simp only [List.mem_singleton] at hi
    subst hi
    exact hg
  | histosys n hi lo =>
    obtain ⟨h1, h2, h3⟩ := hg
    simp only [entries, List.mem_singleton] at he
    subst he
    refine ⟨.inr (by simp [h1, h2]), fun i hi' => ?_⟩
    obtain ⟨k, hk, rfl⟩ := List.mem_iff_getElem.1 hi'
    simp only [List.length_map, List.length_zip] at hk
    have hk1 : k < data.length := by omega
    obtain ⟨h4, h5⟩ := h3 k hk1
    simp only [List.getElem_map, List.getElem_zip]
    rw [List.getD_eq_getElem _ _ hk1] at h4 h5
    rw [List.getD_eq_getElem _ _ (by omega), List.getD_eq_getElem _ _ (by omega)] at h5
    rw [div_sub_one h4, div_sub_one h4, div_mul_div_comm]
    exact div_nonpos_of_nonpos_of_nonneg h5 (mul_self_nonneg _)
  | shapesys n s =>
    simp only [entries, List.mem_map] at he
    obtain ⟨t, ht, rfl⟩ := he
    refine ⟨.inr (by simp [binImpact]), fun i hi => ?_⟩
    simp only [binImpact, List.mem_map] at hi
    obtain ⟨b2, -, rfl⟩ := hi
    split_ifs
    · dsimp only; nlinarith [sq_nonneg (t.1.2 / t.1.1)]
    · simp
  | staterror n s =>
    simp only [entries, List.mem_map] at he
    obtain ⟨t, ht, rfl⟩ := he
    refine ⟨.inr (by simp [binImpact]), fun i hi => ?_⟩
    simp only [binImpact, List.mem_map] at hi
    obtain ⟨b2, -, rfl⟩ := hi
    split_ifs
    · dsimp only; nlinarith [sq_nonneg (t.1.2 / t.1.1)]
    · simp
  | other n => exact hg.elim

theorem flat_names {first : List Par} {pars : Ctx} {data : List ℝ} (l : List Modifier)
    (hg : ∀ mod ∈ l, GoodModifier first pars data mod) :
    (l.flatMap (entries first data)).map (·.1) = l.flatMap (Modifier.params data.length) := by
  induction l with
  | nil => rfl
  | cons a l ih =>
    rw [List.flatMap_cons, List.flatMap_cons, List.map_append, entries_names (hg a (by simp)),
      ih (fun x hx => hg x (by simp [hx]))]

theorem addSample_ok {keep : Bool} {poi : String} {first : List Par} {pars : Ctx} {nb : Nat} {s : PSample} {nps : Dict NPSpec}
    (h : GoodSample first pars poi nb s) :
    addSample keep poi first nps s =
      .ok (declareAll poi nps (s.modifiers.flatMap (Modifier.params nb)), conv first s) := by
  have h1 : ¬ (normfactors s).length > 1 := by rcases h.norm with e | e <;> simp [e]
  have hn : ∀ mod ∈ s.modifiers, mod.name ∈ normfactors s → ∃ n, mod = .normfactor n := by
    intro mod hm hmem
    by_contra hc
    push Not at hc
    have := h.other mod hm hc
    rcases h.norm with e | e <;> simp [e] at hmem
    exact this hmem
  have hnames := flat_names s.modifiers h.good
  rw [h.size] at hnames
  unfold addSample
  simp only [if_neg h1, modifiers_ok s.modifiers (nps, []) h.good hn, bind_ok, pure_ok]
  rw [entries_fold]
  · rw [hnames]; rfl
  · intro e he
    obtain ⟨mod, hm, he⟩ := List.mem_flatMap.1 he
    exact (entries_signs (h.good mod hm) e he).2
  · rw [hnames]; simpa [Dict.keys] using h.params

theorem addSamples_ok {keep : Bool} {poi : String} {first : List Par} {pars : Ctx} {nb : Nat} (l : List PSample)
    (nps : Dict NPSpec) (h : ∀ s ∈ l, GoodSample first pars poi nb s) :
    addSamples keep poi first l nps =
      .ok (declareAll poi nps (l.flatMap fun s => s.modifiers.flatMap (Modifier.params nb)), l.map (conv first)) := by
  induction l generalizing nps with
  | nil => rfl
  | cons s l ih =>
    simp only [addSamples, addSample_ok (h s (by simp)), bind_ok, ih _ (fun x hx => h x (by simp [hx])), pure_ok]
    simp [declareAll]

/-- The converted channel. -/
noncomputable def convC (first : List Par) (c : PChannel) : CChannel where
  name := c.name
  bins := if c.nbins = 1 then none else some (binNames c.nbins)
  samples := c.samples.map (conv first)

/-- The NPs of a channel. -/
def PChannel.params (c : PChannel) : List String := c.samples.flatMap fun s => s.modifiers.flatMap (Modifier.params c.nbins)

theorem addChannel_ok {keep : Bool} {poi : String} {first pars : List Par} {c : PChannel} {nps : Dict NPSpec}
    (h : GoodChannel first pars poi c) :
    addChannel keep poi first nps c = .ok (declareAll poi nps c.params, convC first c) := by
  have hs := addSamples_ok (keep := keep) c.samples nps h.samples
  have hb := h.bins
  unfold addChannel
  cases hc : c.samples with
  | nil => simp [PChannel.nbins, hc] at hb
  | cons s0 ss =>
    have hn : c.nbins = s0.data.length := by simp [PChannel.nbins, hc]
    rw [hc] at hs
    simp only [hs]
    have hf : (((s0 :: ss).map (·.data.length)).find? (fun n => n != 0)).getD 0 = s0.data.length := by
      have : (s0.data.length != 0) = true := by simp; intro e; simp [hn, e] at hb
      simp [List.find?_cons, this]
    rw [hf]
    simp [convC, PChannel.params, hc, hn]

theorem addChannels_ok {keep : Bool} {poi : String} {first pars : List Par} (l : List PChannel) (nps : Dict NPSpec)
    (h : ∀ c ∈ l, GoodChannel first pars poi c) :
    addChannels keep poi first l nps =
      .ok (declareAll poi nps (l.flatMap PChannel.params), l.map (convC first)) := by
  induction l generalizing nps with
  | nil => rfl
  | cons s l ih =>
    simp only [addChannels, addChannel_ok (h s (by simp)), bind_ok, ih _ (fun x hx => h x (by simp [hx])), pure_ok]
    simp [declareAll]

/-! ### The NPs -/

/-- What is true of `fastprof_model['NPs']`. -/
structure NPsOk (poi : String) (nps : Dict NPSpec) : Prop where
  distinct : nps.keys.Nodup
  poi : poi ∉ nps.keys
  names : ∀ kv ∈ nps, kv.2.name = kv.1

theorem npsOk_set {poi : String} {nps : Dict NPSpec} (h : NPsOk poi nps) {k : String} {p : NPSpec} (hk : k ≠ poi)
    (hp : p.name = k) : NPsOk poi (nps.set k p) := by
  refine ⟨Dict.nodup_keys_set _ _ _ h.distinct, ?_, ?_⟩
  · rw [Dict.mem_keys_iff, Dict.get?_set, if_neg hk, ← Dict.mem_keys_iff]
    exact h.poi
  · intro kv hkv
    have := (Dict.get?_eq_some_iff _ (Dict.nodup_keys_set _ _ _ h.distinct) kv.1 kv.2).2 hkv
    rw [Dict.get?_set] at this
    by_cases e : k = kv.1
    · rw [if_pos e] at this
      rw [← Option.some.inj this, hp, e]
    · rw [if_neg e] at this
      exact h.names kv ((Dict.get?_eq_some_iff _ h.distinct kv.1 kv.2).1 this)

theorem npsOk_pars (poi : String) (l : List Par) (nps : Dict NPSpec) (h : NPsOk poi nps) :
    NPsOk poi (l.foldl (addPar poi) nps) := by
  induction l generalizing nps with
  | nil => exact h
  | cons p l ih =>
    rw [List.foldl_cons]
    refine ih _ ?_
    unfold addPar
    by_cases e : p.name = poi
    · rw [if_pos e]; exact h
    · rw [if_neg e]; exact npsOk_set h e rfl

theorem npsOk_declareAll (poi : String) (l : List String) (nps : Dict NPSpec) (h : NPsOk poi nps) :
    NPsOk poi (declareAll poi nps l) := by
  unfold declareAll
  induction l generalizing nps with
  | nil => exact h
  | cons p l ih =>
    rw [List.foldl_cons]
    refine ih _ ?_
    unfold declare
    by_cases e : (nps.get? p).isNone ∧ p ≠ poi
    · rw [if_pos e]; exact npsOk_set h e.2 rfl
    · rw [if_neg e]; exact h

theorem get?_declareAll (poi : String) (l : List String) (nps : Dict NPSpec) (k : String) :
    (declareAll poi nps l).get? k = (nps.get? k).or (if k ∈ l ∧ k ≠ poi then some (autoNP k) else none) := by
  unfold declareAll
  induction l generalizing nps with
  | nil => simp
  | cons p l ih =>
    rw [List.foldl_cons, ih]
    unfold declare
    by_cases e : (nps.get? p).isNone ∧ p ≠ poi
    · rw [if_pos e, Dict.get?_set]
      by_cases ek : p = k
      · subst ek
        have := Option.isNone_iff_eq_none.1 e.1
        simp [this, e.2]
      · rw [if_neg ek]
        simp [Ne.symm ek]
    · rw [if_neg e]
      by_cases ek : p = k
      · subst ek
        cases hg : nps.get? p with
        | some v => simp
        | none =>
          have : p = poi := by
            by_contra hc
            exact e ⟨by simp [hg], hc⟩
          simp [this]
      · simp [Ne.symm ek]

end Pyhf
end Verif
