import Verif.Model.Markup
import Verif.Lemmas.Base
import Verif.Lemmas.Except
import Verif.Props.Base
/-! # Saving and loading models -/
namespace Verif
namespace Markup

/-- The key `k` can be written and read again. -/
def KeyOk (T : Texts) (k : VarKey) : Prop := T.read (T.write k) = some k

/-- All keys of an impact can be written and read again. -/
def ImpactOk (T : Texts) : Impact → Prop
  | .perBin l => ∀ d ∈ l, ∀ kv ∈ d, KeyOk T kv.1
  | .common d => ∀ kv ∈ d, KeyOk T kv.1
  | .float _ => True

/-- A sample that is saved faithfully. -/
structure SampleOk (T : Texts) (s : RawSample) : Prop where
  norm : ∀ e, s.norm = .expr e → T.isFloat e = false
  impacts : ∀ kv ∈ s.impacts, ImpactOk T kv.2

theorem mapM_map_id {α β : Type} {enc : α → β} {f : β → Except PyErr α} {l : List α}
    (h : ∀ a ∈ l, f (enc a) = .ok a) : (l.map enc).mapM f = .ok l := by
  induction l with
  | nil => rfl
  | cons a l ih =>
    rw [List.map_cons, List.mapM_cons, h a (by simp), bind_ok, ih (fun b hb => h b (by simp [hb]))]
    rfl

theorem loadNorm_eq (T : Texts) (d : Dict V) (n : Norm) (h : d.get? "norm" = some (normVal n))
    (hn : ∀ e, n = .expr e → T.isFloat e = false) : loadNorm T d = .ok n := by
  cases n with
  | number v => simp [loadNorm, loadField, h, normVal, MVal.isInstance]
  | expr e => simp [loadNorm, loadField, h, normVal, MVal.isInstance, hn e rfl]

theorem readVars_val (T : Texts) (l : List (VarKey × ℝ)) (h : ∀ kv ∈ l, KeyOk T kv.1) :
    readVars T (varsVal T l) = .ok l := by
  unfold varsVal readVars
  refine mapM_map_id ?_
  intro kv hkv
  have hk : T.read (T.write kv.1) = some kv.1 := h kv hkv
  simp [readVar, hk, asNum]

theorem readImpact_val (T : Texts) (i : Impact) (h : ImpactOk T i) : readImpact T (impactVal T i) = .ok i := by
  cases i with
  | perBin l =>
    have : (l.map (varsVal T)).mapM (readVars T) = .ok l := mapM_map_id (fun d hd => readVars_val T d (h d hd))
    simp [impactVal, readImpact, this]
  | common d =>
    have := readVars_val T d h
    unfold varsVal at this
    simp [impactVal, varsVal, readImpact, this]
  | float v => simp [impactVal, readImpact]

theorem loadSample_fill (T : Texts) (s : RawSample) (h : SampleOk T s) :
    loadSample T (fillSample T s) = .ok s := by
  have h1 : loadField "name" (fillSample T s) (.str "") [.str] = .ok (.str s.name) := by
    simp [loadField, fillSample, Dict.get?, MVal.isInstance]
  have h2 : loadNorm T (fillSample T s) = .ok s.norm :=
    loadNorm_eq T _ _ (by simp [fillSample, Dict.get?]) h.norm
  have h3 : loadNum "nominal_norm" (fillSample T s) none = .ok s.nominal_norm :=
    loadNum_eq _ _ _ _ (Or.inl (by simp [fillSample, Dict.get?]))
  have h4 : loadYields (fillSample T s) = .ok s.nominal_yields := by
    have hg : (fillSample T s).get? "nominal_yields" = some (yieldsVal s.nominal_yields) := by
      simp [fillSample, Dict.get?]
    cases hy : s.nominal_yields with
    | none => simp [loadYields, loadField, hg, hy, yieldsVal]
    | some l =>
      have : (l.map MVal.num).mapM asNum = .ok l := mapM_map_id (fun a _ => rfl)
      simp [loadYields, loadField, hg, hy, yieldsVal, MVal.isInstance, this]
  have h5 : loadImpacts T (fillSample T s) = .ok s.impacts := by
    have hg : (fillSample T s).get? "impacts" =
        some (.dict (s.impacts.map fun kv => (kv.1, impactVal T kv.2))) := by simp [fillSample, Dict.get?]
    have : (s.impacts.map fun kv => (kv.1, impactVal T kv.2)).mapM (readEntry T) = .ok s.impacts :=
      mapM_map_id (fun kv hkv => by simp [readEntry, readImpact_val T kv.2 (h.impacts kv hkv)])
    simp only [loadImpacts, loadField, hg]
    simp [MVal.isInstance, this]
  unfold loadSample
  simp [h1, asStr, h2, h3, h4, h5]

theorem set_new' {V : Type} (d : Dict V) (k : String) (v : V) (h : k ∉ d.keys) : d.set k v = d ++ [(k, v)] := by
  induction d with
  | nil => rfl
  | cons p d ih =>
    simp only [Dict.keys, List.map_cons, List.mem_cons, not_or] at h
    simp only [Dict.set, if_neg (Ne.symm h.1), List.cons_append]
    rw [ih h.2]

theorem loadSamples_fill (T : Texts) (l : List RawSample) (acc : Dict RawSample)
    (h : ∀ s ∈ l, SampleOk T s) (hd : (acc.keys ++ l.map (·.name)).Nodup) :
    loadSamples T (l.map fun s => .dict (fillSample T s)) acc = .ok (acc ++ l.map fun s => (s.name, s)) := by
  induction l generalizing acc with
  | nil => simp [loadSamples]
  | cons s l ih =>
    have hs : acc.set s.name s = acc ++ [(s.name, s)] := by
      rw [List.nodup_append] at hd
      apply set_new'
      intro hm
      exact hd.2.2 _ hm _ (by simp) rfl
    simp only [List.map_cons, loadSamples, asDict, bind_ok, loadSample_fill T s (h s (by simp)), hs]
    rw [ih]
    · simp
    · exact fun t ht => h t (by simp [ht])
    · simpa [Dict.keys] using hd

/-- What becomes of the class of a channel when it is saved and loaded. -/
def ChClass.degrade : ChClass → ChClass
  | .gauss b _ => .multi b
  | c => c

theorem degrade_poisson {c : ChClass} (h : c.isGauss = false) : c.degrade = c := by
  cases c <;> simp_all [ChClass.isGauss, ChClass.degrade]

theorem degrade_nbins (c : ChClass) : c.degrade.nbins = c.nbins := by cases c <;> rfl

/-- What becomes of a channel. -/
def degradeChan {S : Type} (c : ChanDoc S) : ChanDoc S := { c with cls := c.cls.degrade }

/-- What becomes of a model. -/
def degradeDoc {S : Type} (d : ModelDoc S) : ModelDoc S := { d with channels := d.channels.map degradeChan }

theorem degradeChan_poisson {S : Type} {c : ChanDoc S} (h : c.cls.isGauss = false) : degradeChan c = c := by
  simp [degradeChan, degrade_poisson h]

theorem degradeDoc_poisson {S : Type} {d : ModelDoc S} (h : ∀ c ∈ d.channels, c.cls.isGauss = false) :
    degradeDoc d = d := by
  have : d.channels.map degradeChan = d.channels := by
    conv_rhs => rw [← List.map_id d.channels]
    exact List.map_congr_left (fun c hc => degradeChan_poisson (h c hc))
  simp [degradeDoc, this]

/-- A channel that can be saved, faithfully if it is not Gaussian. -/
structure ChanOk (T : Texts) (c : ChanDoc RawSample) : Prop where
  saved : ∃ r, fillClass c.cls = .ok r
  distinct : (c.samples.map (·.name)).Nodup
  samples : ∀ s ∈ c.samples, SampleOk T s
  sizes : ∀ s ∈ c.samples, ∀ l, s.nominal_yields = some l → l.length = c.cls.nbins

theorem loadChannel_fill (T : Texts) (c : ChanDoc RawSample) (h : ChanOk T c) :
    ∃ v, fillChannel T c = .ok v ∧ loadCheckedChannel T v = .ok (degradeChan c) := by
  obtain ⟨nm, cls, ss⟩ := c
  have hs : loadSamples T (ss.map fun s => .dict (fillSample T s)) [] = .ok (ss.map fun s => (s.name, s)) := by
    simpa using loadSamples_fill T ss [] h.samples (by simpa [Dict.keys] using h.distinct)
  have hz : sizesOk ⟨nm, cls.degrade, ss⟩ = true := by
    unfold sizesOk
    rw [List.all_eq_true]
    intro s hm
    split
    · rfl
    · rename_i l hl
      simpa [degrade_nbins] using h.sizes s hm l hl
  have hv : Dict.values (ss.map fun s => (s.name, s)) = ss := by simp [Dict.values, Function.comp_def]
  cases cls with
  | single =>
    refine ⟨_, rfl, ?_⟩
    simp only [ChClass.degrade] at hz
    simp [loadCheckedChannel, loadChannel, asDict, Dict.get?, knownType, Dict.getItem, asStr, getList, asList, hs,
      loadClass, hv, hz, degradeChan, ChClass.degrade]
  | range bins on ou =>
    refine ⟨_, rfl, ?_⟩
    simp only [ChClass.degrade] at hz
    have h1 : ∀ d : Dict V, d.get? "obs_name" = some (.ofStr on) → loadStr "obs_name" d (some "") = .ok on :=
      fun d hd => loadStr_eq _ _ _ _ (Or.inl hd)
    have h2 : ∀ d : Dict V, d.get? "obs_unit" = some (.ofStr ou) → loadStr "obs_unit" d (some "") = .ok ou :=
      fun d hd => loadStr_eq _ _ _ _ (Or.inl hd)
    simp [loadCheckedChannel, loadChannel, asDict, Dict.get?, knownType, Dict.getItem, asStr, getList, asList, hs,
      loadClass, hv, hz, h1, h2, degradeChan, ChClass.degrade]
  | multi bins =>
    refine ⟨_, rfl, ?_⟩
    simp only [ChClass.degrade] at hz
    simp [loadCheckedChannel, loadChannel, asDict, Dict.get?, knownType, Dict.getItem, asStr, getList, asList, hs,
      loadClass, hv, hz, degradeChan, ChClass.degrade]
  | gauss bins hh =>
    obtain ⟨r, hr⟩ := h.saved
    have hr' := hr
    simp only [fillClass, bind_eq_ok] at hr'
    obtain ⟨cov, _, hcov⟩ := hr'
    have hcov := Except.ok.inj (ε := PyErr) hcov
    subst hcov
    refine ⟨_, by simp only [fillChannel]; rw [hr]; rfl, ?_⟩
    simp only [ChClass.degrade] at hz
    simp [loadCheckedChannel, loadChannel, asDict, Dict.get?, knownType, Dict.getItem, asStr, getList, asList, hs,
      loadClass, hv, hz, degradeChan, ChClass.degrade]

theorem loadExpr_fill (ne : String × Expr) : loadExpr (fillExpr ne) = .ok ne := by
  obtain ⟨nm, e⟩ := ne
  cases e with
  | number v => simp [fillExpr, loadExpr, asDict, Dict.get?, Dict.getItem, asStr, needNum, loadField, MVal.isInstance, asNum]
  | single => simp [fillExpr, loadExpr, asDict, Dict.get?, Dict.getItem, asStr]
  | linear nv cs =>
    have : (cs.map fun kv => (kv.1, (MVal.num kv.2 : V))).mapM readCoeff = .ok cs :=
      mapM_map_id (fun kv _ => by simp [readCoeff, asNum])
    simp [fillExpr, loadExpr, asDict, Dict.get?, Dict.getItem, needNum, needCoeffs, loadField, asStr, asNum, MVal.isInstance, this]
  | prodRatio pf num den =>
    have h : ∀ l : List String, (l.map (MVal.str : String → V)).mapM asStr = .ok l :=
      fun l => mapM_map_id (fun kv _ => rfl)
    simp [fillExpr, loadExpr, asDict, Dict.get?, Dict.getItem, needNum, needNames, loadField, asStr, asNum, MVal.isInstance, h]
  | exponential e =>
    simp [fillExpr, loadExpr, asDict, Dict.get?, Dict.getItem, asStr, loadField, MVal.isInstance]

theorem loadDistinct_map {α β γ : Type} [DecidableEq β] (load : V → Except PyErr α) (nm : α → β) (enc : γ → V)
    (g : γ → α) (l : List γ) (acc : List α) (h : ∀ a ∈ l, load (enc a) = .ok (g a))
    (hd : ((acc ++ l.map g).map nm).Nodup) :
    loadDistinct load nm (l.map enc) acc = .ok (acc ++ l.map g) := by
  induction l generalizing acc with
  | nil => simp [loadDistinct]
  | cons a l ih =>
    have hn : nm (g a) ∉ acc.map nm := by
      intro hm
      rw [List.map_append, List.nodup_append] at hd
      exact hd.2.2 _ hm _ (by simp) rfl
    simp only [List.map_cons, loadDistinct, h a (by simp), bind_ok, if_neg hn]
    rw [ih]
    · simp
    · exact fun b hb => h b (by simp [hb])
    · simpa using hd

theorem loadNPs_fill (l : List (ModelNP ℝ)) (aux : List (ModelAux ℝ)) (acc : List (ModelNP ℝ))
    (h : ∀ p ∈ l, loadNP (.dict (p.fillDict [])) = .ok p)
    (ha : ∀ p ∈ l, ∀ a, p.aux_obs = some a → some a ∈ aux.map (·.name))
    (hd : ((acc ++ l).map (·.name)).Nodup) :
    loadNPs (l.map fun p => .dict (p.fillDict [])) aux acc = .ok (aux, acc ++ l) := by
  induction l generalizing acc with
  | nil => simp [loadNPs]
  | cons p l ih =>
    have hn : p.name ∉ acc.map (·.name) := by
      intro hm
      rw [List.map_append, List.nodup_append] at hd
      exact hd.2.2 _ hm _ (by simp) rfl
    have hx : addAux aux p = aux := by
      unfold addAux
      split
      · rfl
      · rename_i a haa
        rw [if_pos (ha p (by simp) a haa)]
    simp only [List.map_cons, loadNPs, h p (by simp), bind_ok, if_neg hn, hx]
    rw [ih]
    · simp
    · exact fun b hb => h b (by simp [hb])
    · exact fun b hb => ha b (by simp [hb])
    · simpa using hd

/-- A model that can be saved, faithfully if it has no Gaussian channel.  The conditions of distinctness hold for all Python objects (the
attributes are dictionaries keyed by the names), and `aux_declared` is checked by `Model.__init__`. -/
structure Storable (T : Texts) (d : ModelDoc RawSample) : Prop where
  poi : ∀ p ∈ d.pois, p.min_value ≠ none ∧ p.max_value ≠ none ∧ p.initial_value ≠ none
  np : ∀ p ∈ d.nps, p.variation ≠ none ∧ (p.constraint = none → p.aux_obs = none)
  aux_declared : ∀ p ∈ d.nps, ∀ a, p.aux_obs = some a → some a ∈ d.aux.map (·.name)
  poi_distinct : (d.pois.map (·.name)).Nodup
  aux_distinct : (d.aux.map (·.name)).Nodup
  np_distinct : (d.nps.map (·.name)).Nodup
  expr_distinct : (d.exprs.map (·.1)).Nodup
  chan_distinct : (d.channels.map (·.name)).Nodup
  chan : ∀ c ∈ d.channels, ChanOk T c

theorem fillChannels_ok (T : Texts) (l : List (ChanDoc RawSample)) (h : ∀ c ∈ l, ChanOk T c) :
    ∃ enc : ChanDoc RawSample → V, l.mapM (fillChannel T) = .ok (l.map enc) ∧
      ∀ c ∈ l, loadCheckedChannel T (enc c) = .ok (degradeChan c) := by
  classical
  refine ⟨fun c => if hc : ChanOk T c then (loadChannel_fill T c hc).choose else .none, ?_, ?_⟩
  · refine mapM_map_ok ?_
    intro c hc
    rw [dif_pos (h c hc)]
    exact (loadChannel_fill T c (h c hc)).choose_spec.1
  · intro c hc
    dsimp only
    rw [dif_pos (h c hc)]
    exact (loadChannel_fill T c (h c hc)).choose_spec.2

theorem loadDoc_fill (T : Texts) (d : ModelDoc RawSample) (h : Storable T d) :
    ∃ D, fillDoc T d = .ok D ∧ loadDoc T [] D = .ok (degradeDoc d) := by
  obtain ⟨enc, he, hl⟩ := fillChannels_ok T d.channels h.chan
  refine ⟨_, by rw [fillDoc, he]; rfl, ?_⟩
  have hp : loadDistinct loadPOI (·.name) (d.pois.map fun p => (.dict (p.fillDict []) : V)) [] = .ok d.pois := by
    simpa using loadDistinct_map loadPOI (·.name) (fun p : ModelPOI ℝ => .dict (p.fillDict [])) id d.pois []
      (fun p hp => (Props.c02_poi_roundtrip_iff {} p).2 (h.poi p hp)) (by simpa using h.poi_distinct)
  have ha : loadDistinct loadAux (·.name) (d.aux.map fun p => (.dict (p.fillDict []) : V)) [] = .ok d.aux := by
    simpa using loadDistinct_map loadAux (·.name) (fun p : ModelAux ℝ => .dict (p.fillDict [])) id d.aux []
      (fun p hp => Props.c02_aux_roundtrip {} p) (by simpa using h.aux_distinct)
  have hn : loadNPs (d.nps.map fun p => (.dict (p.fillDict []) : V)) d.aux [] = .ok (d.aux, d.nps) := by
    simpa using loadNPs_fill d.nps d.aux [] (fun p hp => (Props.c02_np_roundtrip_iff _ p).2 (h.np p hp))
      h.aux_declared (by simpa using h.np_distinct)
  have hx : loadDistinct loadExpr (·.1) (d.exprs.map fillExpr) [] = .ok d.exprs := by
    simpa using loadDistinct_map loadExpr (·.1) fillExpr id d.exprs [] (fun e _ => loadExpr_fill e)
      (by simpa using h.expr_distinct)
  have hc : loadDistinct (loadCheckedChannel T) (·.name) (d.channels.map enc) [] = .ok (d.channels.map degradeChan) := by
    simpa using loadDistinct_map (loadCheckedChannel T) (·.name) enc degradeChan d.channels [] hl
      (by simpa [Function.comp_def, degradeChan] using h.chan_distinct)
  simp only [loadDoc, Dict.getItem, Dict.get?, if_true, asDict, bind_ok, getList, optList]
  have hd1 : ∀ dd : Dict V, dd.get? "name" = some (.ofStr d.name) → loadStr "name" dd (some "") = .ok d.name :=
    fun dd hdd => loadStr_eq _ _ _ _ (Or.inl hdd)
  rw [hd1 _ (by simp [Dict.get?_set, Dict.get?_setOpt, Dict.get?])]
  rw [loadStr_eq "description" _ none d.description
    (by cases hh : d.description <;> simp [Dict.get?_set, Dict.get?_setOpt, Dict.get?, MVal.ofStr])]
  simp [Dict.get?_set, asList, hp, ha, hn, hx, hc, degradeDoc]

end Markup
end Verif
