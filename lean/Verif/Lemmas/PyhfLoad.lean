import Verif.Lemmas.Pyhf
import Verif.Props.Markup
import Verif.Lemmas.FitData
/-! # Loading the markup written by the import of pyhf models -/
namespace Verif
namespace Pyhf
open Markup

/-- The texts that occur in the markup are understood: the two keys of variations, and the name of the POI, which is
not a number. -/
structure Reads (T : Texts) (poi : String) : Prop where
  up : T.read "+1" = some (.num 1)
  down : T.read "-1" = some (.num (-1))
  word : T.isFloat poi = false
  nonempty : poi ≠ ""

/-- The NP that is read. -/
noncomputable def rawNP (p : NPSpec) : ModelNP ℝ where
  name := some p.name
  nominal_value := some p.nominal_value
  variation := some ((p.variation.or p.constraint).getD 1)
  constraint := p.constraint
  aux_obs := p.constraint.map fun _ => "aux_" ++ p.name

/-- The impacts that are read. -/
def udVars (d : UpDown) : List (VarKey × ℝ) := [(.num 1, d.1), (.num (-1), d.2)]

/-- The impact that is read. -/
def rawImp : PImp → Impact
  | .common d => .common (udVars d)
  | .perBin l => .perBin (l.map udVars)

/-- The norm that is read. -/
def rawNorm : Option String → Norm
  | some n => .expr n
  | none => .number 1

/-- The sample that is read. -/
def rawSample (s : CSample) : RawSample where
  name := s.name
  norm := rawNorm s.norm
  nominal_norm := s.norm.map fun _ => 1
  nominal_yields := some s.data
  impacts := s.impacts.map fun kv => (kv.1, rawImp kv.2)

/-- The channel that is read. -/
def rawClass : Option (List String) → ChClass
  | none => .single
  | some l => .multi (l.map .str)

/-- The channel that is read. -/
def rawChan (c : CChannel) : ChanDoc RawSample where
  name := c.name
  cls := rawClass c.bins
  samples := c.samples.map rawSample

/-- The POI that is read. -/
noncomputable def rawPOI (poi : String) : ModelPOI ℝ :=
  { name := some poi, min_value := some 0, max_value := some 1, initial_value := some 0 }

theorem loadNP_val (p : NPSpec) : loadNP (npVal p) = .ok (rawNP p) := by
  obtain ⟨n, v, va, c⟩ := p
  cases va <;> cases c <;>
    simp [loadNP, npVal, asDict, ModelNP.loadDict, loadStr, loadNum, loadField, Dict.get?, MVal.isInstance, MVal.ofStr,
      MVal.ofNum, MVal.toStr?, MVal.toNum?, rawNP]

theorem loadPOI_val (poi : String) : loadPOI (poiVal poi) = .ok (rawPOI poi) := by
  simp [loadPOI, poiVal, asDict, ModelPOI.loadDict, loadStr, loadNum, loadField, Dict.get?, MVal.isInstance, MVal.ofStr,
      MVal.ofNum, MVal.toStr?, MVal.toNum?, rawPOI]

theorem readVars_ud {T : Texts} {poi : String} (h : Reads T poi) (d : UpDown) : readVars T (udVal d) = .ok (udVars d) := by
  simp [udVal, readVars, readVar, h.up, h.down, asNum, udVars]

theorem readImpact_pimp {T : Texts} {poi : String} (h : Reads T poi) (i : PImp) :
    readImpact T (pimpVal i) = .ok (rawImp i) := by
  cases i with
  | common d =>
    have := readVars_ud h d
    simp only [pimpVal, udVal] at this ⊢
    simp [readImpact, this, rawImp]
  | perBin l =>
    have : (l.map udVal).mapM (readVars T) = .ok (l.map udVars) := by
      rw [List.mapM_map]
      exact mapM_map_ok (fun d _ => readVars_ud h d)
    simp [pimpVal, readImpact, this, rawImp]

theorem loadSample_val {T : Texts} {poi : String} (h : Reads T poi) (s : CSample) (hn : s.norm = none ∨ s.norm = some poi) :
    ∃ d, sampleVal s = .dict d ∧ loadSample T d = .ok (rawSample s) := by
  refine ⟨_, rfl, ?_⟩
  have hy : (s.data.map (MVal.num : ℝ → V)).mapM asNum = .ok s.data := mapM_map_id (fun _ _ => rfl)
  have hi : (s.impacts.map fun kv => (kv.1, pimpVal kv.2)).mapM (readEntry T) =
      .ok (s.impacts.map fun kv => (kv.1, rawImp kv.2)) := by
    rw [List.mapM_map]
    refine mapM_map_ok ?_
    intro kv _
    simp [readEntry, readImpact_pimp h]
  rcases hn with e | e
  · simp [loadSample, e, loadNorm, loadNum, loadYields, loadImpacts, loadField, Dict.get?, MVal.isInstance, asStr, MVal.ofNum,
      MVal.toNum?, hy, hi, rawSample, rawNorm]
  · simp [loadSample, e, loadNorm, loadNum, loadYields, loadImpacts, loadField, Dict.get?, MVal.isInstance, asStr, MVal.ofNum,
      MVal.toNum?, hy, hi, rawSample, rawNorm, h.word]

theorem loadSamples_val {T : Texts} {poi : String} (h : Reads T poi) (l : List CSample) (acc : Dict RawSample)
    (hn : ∀ s ∈ l, s.norm = none ∨ s.norm = some poi) (hd : (acc.keys ++ l.map (·.name)).Nodup) :
    loadSamples T (l.map sampleVal) acc = .ok (acc ++ l.map fun s => (s.name, rawSample s)) := by
  induction l generalizing acc with
  | nil => simp [loadSamples]
  | cons s l ih =>
    obtain ⟨d, hd1, hd2⟩ := loadSample_val h s (hn s (by simp))
    have hk : s.name ∉ acc.keys := by
      intro hm
      rw [List.nodup_append] at hd
      exact hd.2.2 _ hm _ (by simp) rfl
    have hs : acc.set (rawSample s).name (rawSample s) = acc ++ [(s.name, rawSample s)] := set_new' _ _ _ hk
    simp only [List.map_cons, loadSamples, hd1, asDict, bind_ok, hd2, hs]
    rw [ih]
    · simp
    · exact fun x hx => hn x (by simp [hx])
    · simpa [Dict.keys] using hd

theorem loadChannel_val {T : Texts} {poi : String} (h : Reads T poi) (c : CChannel)
    (hn : ∀ s ∈ c.samples, s.norm = none ∨ s.norm = some poi) (hd : (c.samples.map (·.name)).Nodup)
    (hz : ∀ s ∈ c.samples, s.data.length = (rawClass c.bins).nbins) :
    loadCheckedChannel T (channelVal c) = .ok (rawChan c) := by
  have hs := loadSamples_val h c.samples [] hn (by simpa [Dict.keys] using hd)
  rw [List.nil_append] at hs
  have hv : Dict.values (c.samples.map fun s => (s.name, rawSample s)) = c.samples.map rawSample := by
    simp [Dict.values, Function.comp_def]
  have hzz : sizesOk (rawChan c) = true := by
    unfold sizesOk
    rw [List.all_eq_true]
    intro s hm
    obtain ⟨s', hm', rfl⟩ := List.mem_map.1 hm
    simpa [rawSample, rawChan] using hz s' hm'
  obtain ⟨nm, bins, ss⟩ := c
  simp only at hs hv
  cases bins with
  | none =>
    simp [rawChan, rawClass] at hzz
    simp [loadCheckedChannel, loadChannel, channelVal, asDict, Dict.get?, knownType, Dict.getItem, asStr, getList, Markup.asList, hs,
      loadClass, hv, rawChan, rawClass, hzz]
  | some l =>
    simp [rawChan, rawClass] at hzz
    simp [loadCheckedChannel, loadChannel, channelVal, asDict, Dict.get?, knownType, Dict.getItem, asStr, getList, Markup.asList, hs,
      loadClass, hv, rawChan, rawClass, hzz]

theorem loadNPs_val (l : List NPSpec) (aux : List (ModelAux ℝ)) (acc : List (ModelNP ℝ))
    (hd : (acc.map (·.name) ++ l.map fun p => some p.name).Nodup) :
    ∃ aux', loadNPs (l.map npVal) aux acc = .ok (aux', acc ++ l.map rawNP) := by
  induction l generalizing acc aux with
  | nil => exact ⟨aux, by simp [loadNPs]⟩
  | cons p l ih =>
    have hn : (rawNP p).name ∉ acc.map (·.name) := by
      intro hm
      rw [List.nodup_append] at hd
      exact hd.2.2 _ hm _ (by simp [rawNP]) rfl
    obtain ⟨aux', h'⟩ := ih (addAux aux (rawNP p)) (acc ++ [rawNP p]) (by simpa [rawNP] using hd)
    refine ⟨aux', ?_⟩
    simp only [List.map_cons, loadNPs, loadNP_val, bind_ok, if_neg hn, h']
    simp

/-- The attributes that are read. -/
noncomputable def rawModel (c : CModel) (aux : List (ModelAux ℝ)) : ModelDoc RawSample where
  name := some ""
  description := none
  pois := [rawPOI c.poi]
  aux := aux
  nps := c.nps.values.map rawNP
  exprs := []
  channels := c.channels.map rawChan

/-- What is true of what is collected. -/
structure Importable (c : CModel) : Prop where
  nps : NPsOk c.poi c.nps
  chans : (c.channels.map (·.name)).Nodup
  norm : ∀ ch ∈ c.channels, ∀ s ∈ ch.samples, s.norm = none ∨ s.norm = some c.poi
  samples : ∀ ch ∈ c.channels, (ch.samples.map (·.name)).Nodup
  sizes : ∀ ch ∈ c.channels, ∀ s ∈ ch.samples, s.data.length = (rawClass ch.bins).nbins

theorem values_names {poi : String} {nps : Dict NPSpec} (h : NPsOk poi nps) : nps.values.map (·.name) = nps.keys := by
  simp only [Dict.values, Dict.keys, List.map_map]
  exact List.map_congr_left (fun kv hkv => h.names kv hkv)

theorem loadDoc_markup {T : Texts} {c : CModel} (h : Reads T c.poi) (hc : Importable c) :
    ∃ aux, loadDoc T [] (markup c) = .ok (rawModel c aux) := by
  obtain ⟨aux, hn⟩ := loadNPs_val c.nps.values [] [] (by
    have := hc.nps.distinct
    rw [← values_names hc.nps] at this
    simpa [Function.comp_def] using this.map (f := some) (fun a b h => by simpa using h))
  rw [List.nil_append] at hn
  have hch : loadDistinct (loadCheckedChannel T) (·.name) (c.channels.map channelVal) [] = .ok (c.channels.map rawChan) := by
    simpa using loadDistinct_map (loadCheckedChannel T) (·.name) channelVal rawChan c.channels []
      (fun ch hm => loadChannel_val h ch (hc.norm ch hm) (hc.samples ch hm) (hc.sizes ch hm))
      (by simpa [Function.comp_def, rawChan] using hc.chans)
  refine ⟨aux, ?_⟩
  have hm : Dict.get? (markup c) "model" = some (.dict (modelVal c)) := by simp [markup, Dict.get?]
  simp only [loadDoc, Dict.getItem, hm, asDict, bind_ok, getList, optList]
  simp [modelVal, Dict.get?, loadStr, loadField, MVal.ofStr, MVal.toStr?, Markup.asList, loadPOI_val, hn, hch, loadDistinct, rawModel]

/-! ### The samples after `set_np_data` -/

/-- The numbers of an NP that is read. -/
noncomputable def numNP (p : NPSpec) : NP ℝ :=
  ⟨p.name, p.nominal_value, (p.variation.or p.constraint).getD 1, p.constraint, p.constraint.map fun _ => "aux_" ++ p.name⟩

theorem numeric_rawNP (p : NPSpec) : (rawNP p).numeric = .ok (numNP p) := rfl

/-- An impact that does nothing. -/
noncomputable def zeroImp : Impact := .common [(.num 1, 0), (.num (-1), -0)]

/-- Adding an impact that does nothing. -/
noncomputable def addZero (imps : Dict Impact) (k : String) : Dict Impact :=
  match imps.get? k with
  | some _ => imps
  | none => imps.set k zeroImp

theorem npStep_poi {poi : String} {reals : Dict Expr} {vals : Dict ℝ} {fuel : Nat} {imps : Dict Impact} {par : NP ℝ}
    (hr : reals.get? poi = some .single) (hp : par.name ≠ poi) :
    npStep (.expr poi) reals vals (fuel + 1) imps par = .ok (addZero imps par.name) := by
  unfold npStep addZero
  cases imps.get? par.name with
  | some v => rfl
  | none =>
    by_cases h0 : par.nominal_value ≠ 0
    · simp [Norm.implicitImpact, h0, Expr.gradient, Dict.getItem, hr, Expr.gradStep, hp, zeroImp]
    · simp [Norm.implicitImpact, h0, zeroImp]

/-- The impacts of a sample after `set_np_data`. -/
noncomputable def finalImps (names : List String) (s : CSample) : Dict Impact :=
  match s.norm with
  | none => (rawSample s).impacts
  | some _ => names.foldl addZero (rawSample s).impacts

theorem npFold_poi {poi : String} {reals : Dict Expr} {vals : Dict ℝ} {fuel : Nat} (l : List NPSpec) (imps : Dict Impact)
    (hr : reals.get? poi = some .single) (hp : ∀ p ∈ l, p.name ≠ poi) :
    (l.map numNP).foldlM (npStep (.expr poi) reals vals (fuel + 1)) imps = .ok ((l.map (·.name)).foldl addZero imps) := by
  induction l generalizing imps with
  | nil => rfl
  | cons p l ih =>
    rw [List.map_cons, List.foldlM_cons, npStep_poi hr (hp p (by simp)), bind_ok, ih _ (fun q hq => hp q (by simp [hq]))]
    rfl

theorem npFold_number {v : ℝ} {reals : Dict Expr} {vals : Dict ℝ} {fuel : Nat} (l : List (NP ℝ)) (imps : Dict Impact) :
    l.foldlM (npStep (.number v) reals vals fuel) imps = .ok imps := by
  induction l with
  | nil => rfl
  | cons p l ih => rw [List.foldlM_cons, npStep_number, bind_ok, ih]

/-- The sample after `set_np_data`. -/
noncomputable def finalSample (names : List String) (s : CSample) : Sample where
  name := s.name
  norm := rawNorm s.norm
  nominal_norm := 1
  nominal_yields := s.data
  impacts := finalImps names s

theorem setNpData_val {poi : String} {reals : Dict Expr} {vals : Dict ℝ} {fuel : Nat} (l : List NPSpec) (s : CSample)
    (hr : reals.get? poi = some .single) (hp : ∀ p ∈ l, p.name ≠ poi) (hn : s.norm = none ∨ s.norm = some poi) :
    (rawSample s).setNpData (l.map numNP) reals vals (fuel + 1) = .ok (finalSample (l.map (·.name)) s) := by
  rw [setNpData_eq]
  rcases hn with e | e
  · have : (l.map numNP).foldlM (npStep (rawSample s).norm reals vals (fuel + 1)) (rawSample s).impacts =
        .ok (rawSample s).impacts := by
      simp only [rawSample, e, rawNorm]
      exact npFold_number _ _
    rw [this]
    simp [rawSample, finalSample, finalImps, e, rawNorm, Norm.value]
  · have : (l.map numNP).foldlM (npStep (rawSample s).norm reals vals (fuel + 1)) (rawSample s).impacts =
        .ok ((l.map (·.name)).foldl addZero (rawSample s).impacts) := by
      have hnn : (rawSample s).norm = .expr poi := by simp only [rawSample, e, rawNorm]
      rw [hnn]
      exact npFold_poi _ _ hr hp
    rw [this]
    simp [rawSample, finalSample, finalImps, e, rawNorm]

theorem get?_addZeros (l : List String) (imps : Dict Impact) (k : String) :
    (l.foldl addZero imps).get? k = (imps.get? k).or (if k ∈ l then some zeroImp else none) := by
  induction l generalizing imps with
  | nil => simp
  | cons p l ih =>
    rw [List.foldl_cons, ih]
    unfold addZero
    cases hg : imps.get? p with
    | some v =>
      by_cases ek : k = p
      · subst ek; simp [hg]
      · simp [ek]
    | none =>
      simp only [Dict.get?_set]
      by_cases ek : p = k
      · subst ek; simp [hg]
      · simp [ek, Ne.symm ek]

/-- The channel after `set_np_data`. -/
noncomputable def finalChan (names : List String) (c : CChannel) : ChanDoc Sample where
  name := c.name
  cls := rawClass c.bins
  samples := c.samples.map (finalSample names)

/-- The loaded object. -/
noncomputable def finalObj (c : CModel) (aux : List (ModelAux ℝ)) : Obj where
  doc := {
    name := some ""
    description := none
    pois := [rawPOI c.poi]
    aux := aux
    nps := c.nps.values.map rawNP
    exprs := []
    channels := c.channels.map (finalChan c.nps.keys) }
  flags := {}

theorem setUp_val {c : CModel} (hc : Importable c) (aux : List (ModelAux ℝ)) :
    setUp (rawModel c aux) = .ok (finalObj c aux).doc := by
  have h1 : (rawModel c aux).pois.mapM numericPOI = .ok [(c.poi, 0)] := by
    simp [rawModel, numericPOI, rawPOI, needName]
  have h2 : (rawModel c aux).nps.mapM ModelNP.numeric = .ok (c.nps.values.map numNP) := by
    simp only [rawModel]
    rw [List.mapM_map]
    exact mapM_map_ok (fun p _ => numeric_rawNP p)
  have h3 : (rawModel c aux).channels.mapM (setUpChannel (c.nps.values.map numNP)
      (refReals [(c.poi, 0)] (c.nps.values.map numNP) []) ([(c.poi, 0)] ++ (c.nps.values.map numNP).map
        fun p => (p.name, p.nominal_value)) 1) = .ok (c.channels.map (finalChan c.nps.keys)) := by
    simp only [rawModel]
    rw [List.mapM_map]
    refine mapM_map_ok ?_
    intro ch hch
    have : (rawChan ch).samples.mapM (fun s => s.setNpData (c.nps.values.map numNP)
        (refReals [(c.poi, 0)] (c.nps.values.map numNP) []) ([(c.poi, 0)] ++ (c.nps.values.map numNP).map
        fun p => (p.name, p.nominal_value)) 1) = .ok (ch.samples.map (finalSample c.nps.keys)) := by
      simp only [rawChan]
      rw [List.mapM_map]
      refine mapM_map_ok ?_
      intro s hs
      rw [← values_names hc.nps]
      refine setNpData_val (fuel := 0) (poi := c.poi) _ _ (by simp [refReals, Dict.get?]) ?_ (hc.norm ch hch s hs)
      intro p hp e
      refine hc.nps.poi ?_
      rw [← values_names hc.nps]
      exact List.mem_map.2 ⟨p, hp, e⟩
    simp only [Function.comp, setUpChannel, this, bind_ok, pure_ok]
    rfl
  unfold setUp
  rw [h1, bind_ok, h2, bind_ok]
  simp only [refVals]
  have h4 : (rawModel c aux).exprs = [] := rfl
  simp only [h4, ExprCtx.evalLoop, bind_ok, List.length_nil, Nat.zero_add, h3, pure_ok]
  rfl

/-! ### The loaded model -/

theorem ud_std (d : UpDown) : StdDict (udVars d) := by simp [StdDict, udVars]

/-- The shape of the impacts that are collected. -/
def PImpOk (nb : Nat) : PImp → Prop
  | .common _ => True
  | .perBin l => l.length = nb

theorem get?_final (names : List String) (s : CSample) (k : String) : (finalImps names s).get? k =
    ((s.impacts.get? k).map rawImp).or (if s.norm.isSome = true ∧ k ∈ names then some zeroImp else none) := by
  have hm : (rawSample s).impacts.get? k = (s.impacts.get? k).map rawImp := by
    simp only [rawSample]
    exact Dict.get?_map (fun _ v => rawImp v) _ _
  unfold finalImps
  cases s.norm with
  | none => simp [hm]
  | some n => simp [get?_addZeros, hm]

theorem final_std {names : List String} {s : CSample} {nb : Nat} (hl : s.data.length = nb)
    (hi : ∀ k i, s.impacts.get? k = some i → PImpOk nb i) : (finalSample names s).Std nb := by
  refine ⟨hl, ?_⟩
  intro k i h
  have h : (finalImps names s).get? k = some i := h
  rw [get?_final] at h
  cases hg : s.impacts.get? k with
  | some j =>
    rw [hg] at h
    simp only [Option.map_some, Option.some_or, Option.some.injEq] at h
    subst h
    have := hi k j hg
    cases j with
    | common d => exact ud_std d
    | perBin l =>
      have this : l.length = nb := this
      refine ⟨by simpa using this, ?_⟩
      intro d hd
      obtain ⟨u, -, rfl⟩ := List.mem_map.1 hd
      exact ud_std u
  | none =>
    rw [hg] at h
    simp only [Option.map_none, Option.none_or] at h
    by_cases hc : s.norm.isSome = true ∧ k ∈ names
    · rw [if_pos hc] at h
      obtain rfl := Option.some.inj h
      exact by simp [StdImpact, zeroImp, StdDict]
    · rw [if_neg hc] at h; cases h

end Pyhf
end Verif
