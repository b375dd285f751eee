import Verif.Lemmas.MarkupLoad
import Verif.Lemmas.MergeTot
/-!
# C32: models survive saving and loading

`save T o` is `o.dump_dict()`, `load T D` is `Model().load_dict(D)` including `set_internal_vars`; an object `o`
consists of its saved attributes `o.doc` (parameters, expressions, channels, samples) and of its options
`o.flags`, and everything computed by `Model/Core.lean` is a function of `o.mdl`.
-/
namespace Verif.Props
open Verif Markup

variable {T : Texts}

theorem loaded_of_storable {d : ModelDoc RawSample} (h : Storable T d) : Loaded T d :=
  ⟨h.np, h.aux_declared, h.poi_distinct, h.aux_distinct, h.np_distinct, h.expr_distinct, h.chan_distinct,
    fun c hc => (h.chan c hc).distinct, fun c hc => (h.chan c hc).samples, fun c hc => (h.chan c hc).sizes⟩

theorem initModel_ok {d : ModelDoc RawSample} {f : Flags} {o : Obj} (h : initModel d f = .ok o) :
    setUp d = .ok o.doc ∧ o.flags = f ∧ ∃ A ne, o.mdl.setInternal = .ok A ∧ o.mdl.nExp A o.mdl.poiInit 0 = .ok ne := by
  unfold initModel at h
  simp only [bind_eq_ok] at h
  obtain ⟨doc, hd, A, hA, ne, hne, h⟩ := h
  have h := Except.ok.inj (ε := PyErr) h
  subst h
  exact ⟨hd, rfl, A, ne, hA, hne⟩

theorem initModel_intro {d : ModelDoc RawSample} {f : Flags} {o : Obj} {A ne} (h1 : setUp d = .ok o.doc)
    (h2 : o.flags = f) (hA : o.mdl.setInternal = .ok A) (hne : o.mdl.nExp A o.mdl.poiInit 0 = .ok ne) :
    initModel d f = .ok o := by
  subst h2
  unfold initModel
  rw [h1, bind_ok]
  show (o.mdl.setInternal >>= _) = _
  rw [hA, bind_ok]
  show (o.mdl.nExp A o.mdl.poiInit 0 >>= _) = _
  rw [hne, bind_ok]
  rfl

/-- The conditions, on the saved attributes of a model, under which saving is faithful: the three numbers of the
POIs are set, no channel is Gaussian, samples have one nominal yield per bin. -/
structure Faithful (o : Obj) : Prop where
  poi : ∀ p ∈ o.doc.pois, p.min_value ≠ none ∧ p.max_value ≠ none ∧ p.initial_value ≠ none
  poisson : ∀ c ∈ o.doc.channels, c.cls.isGauss = false
  yields : ∀ c ∈ o.doc.channels, ∀ s ∈ c.samples, s.nominal_yields.length = c.cls.nbins

/-- The same, with Gaussian channels whose Hessian can be inverted. -/
structure Saveable (o : Obj) : Prop where
  poi : ∀ p ∈ o.doc.pois, p.min_value ≠ none ∧ p.max_value ≠ none ∧ p.initial_value ≠ none
  inverse : ∀ c ∈ o.doc.channels, ∀ b h, c.cls = .gauss b h → ∃ cov, invRows h = .ok cov
  yields : ∀ c ∈ o.doc.channels, ∀ s ∈ c.samples, s.nominal_yields.length = c.cls.nbins

theorem Faithful.saveable {o : Obj} (h : Faithful o) : Saveable o :=
  ⟨h.poi, (fun c hc b hh e => by have := h.poisson c hc; rw [e] at this; cases this), h.yields⟩

theorem fillClass_ok {c : ChClass} (h : ∀ b hh, c = .gauss b hh → ∃ cov, invRows hh = .ok cov) :
    ∃ r, fillClass c = .ok r := by
  cases c with
  | gauss b hh =>
    obtain ⟨cov, hc⟩ := h b hh rfl
    exact ⟨_, by simp only [fillClass]; rw [hc]; rfl⟩
  | _ => exact ⟨_, rfl⟩

theorem save_and_degrade (hT : T.Lawful) {d : ModelDoc RawSample} (hd : Loaded T d) {f : Flags} {o : Obj}
    (ho : initModel d f = .ok o) (hf : Saveable o) :
    ∃ D, save T o = .ok D ∧ load T D = initModel (degradeDoc (rawDoc o.doc)) {} ∧
      setUp (rawDoc o.doc) = .ok o.doc := by
  obtain ⟨h1, -, -⟩ := initModel_ok ho
  obtain ⟨h2, h3⟩ := setUp_raw hT h1 hd
  obtain ⟨D, hD, hl⟩ := loadDoc_fill T (rawDoc o.doc) (h3 hf.poi (fun c hc => fillClass_ok (hf.inverse c hc)) hf.yields)
  exact ⟨D, hD, by simp only [load, hl, bind_ok], h2⟩

theorem save_and_load (hT : T.Lawful) {d : ModelDoc RawSample} (hd : Loaded T d) {f : Flags} {o : Obj}
    (ho : initModel d f = .ok o) (hf : Faithful o) :
    ∃ D, save T o = .ok D ∧ load T D = initModel (rawDoc o.doc) {} ∧ setUp (rawDoc o.doc) = .ok o.doc := by
  obtain ⟨D, h1, h2, h3⟩ := save_and_degrade hT hd ho hf.saveable
  refine ⟨D, h1, ?_, h3⟩
  rw [h2, degradeDoc_poisson]
  intro c hc
  obtain ⟨c', hc', rfl⟩ := List.mem_map.1 hc
  exact hf.poisson c' hc'

/-- C32: a model that was loaded from markup can be saved, and loading what was saved gives back the same
object (hence the same parameters, and the same result for every computation). -/
theorem c32_loaded_roundtrip (hT : T.Lawful) {D : Dict V} {o : Obj} (ho : load T D = .ok o) (hf : Faithful o) :
    ∃ D', save T o = .ok D' ∧ load T D' = .ok o := by
  unfold load at ho
  rw [bind_eq_ok] at ho
  obtain ⟨d, hd, ho⟩ := ho
  obtain ⟨D', h1, h2, h3⟩ := save_and_load hT (loadDoc_ok hT (by simp) hd) ho hf
  obtain ⟨-, hfl, A, ne, hA, hne⟩ := initModel_ok ho
  exact ⟨D', h1, by rw [h2]; exact initModel_intro h3 hfl hA hne⟩

/-- C32: the same for a model made with the constructor, with the default options; `d` are the objects passed
to the constructor. -/
theorem c32_constructed_roundtrip (hT : T.Lawful) {d : ModelDoc RawSample} (hd : Storable T d) {o : Obj}
    (ho : initModel d {} = .ok o) (hf : Faithful o) : ∃ D, save T o = .ok D ∧ load T D = .ok o := by
  obtain ⟨D', h1, h2, h3⟩ := save_and_load hT (loaded_of_storable hd) ho hf
  obtain ⟨-, hfl, A, ne, hA, hne⟩ := initModel_ok ho
  exact ⟨D', h1, by rw [h2]; exact initModel_intro h3 hfl hA hne⟩

/-- C32: predictions.  Whatever a loaded model computes, its reloaded copy computes too. -/
theorem c32_predictions (hT : T.Lawful) {D : Dict V} {o : Obj} (ho : load T D = .ok o) (hf : Faithful o)
    {D' : Dict V} (hs : save T o = .ok D') {o' : Obj} (hl : load T D' = .ok o') :
    ∃ (h1 : o'.doc.pois.length = o.doc.pois.length) (h2 : o'.doc.nps.length = o.doc.nps.length),
      ∀ A x θ, o'.mdl.totBinExp A x θ = o.mdl.totBinExp A (fun i => x (Fin.cast h1.symm i))
        (fun i => θ (Fin.cast h2.symm i)) := by
  obtain ⟨D'', h1, h2⟩ := c32_loaded_roundtrip hT ho hf
  rw [hs] at h1
  have e := Except.ok.inj (ε := PyErr) h1
  subst e
  rw [hl] at h2
  have e := Except.ok.inj (ε := PyErr) h2
  subst e
  exact ⟨rfl, rfl, fun A x θ => rfl⟩

/-- Finding F59: the options of a model (`use_asym_impacts`, `use_linear_nps`, ..., `variations`, `cutoff`) are
not saved.  A model with other options than the default ones comes back as a different object, with the same
parameters, samples and expressions. -/
theorem c32_options_lost (hT : T.Lawful) {d : ModelDoc RawSample} (hd : Storable T d) {f : Flags} {o : Obj}
    (ho : initModel d f = .ok o) (hf : Faithful o) :
    ∃ D, save T o = .ok D ∧ ∀ o', load T D = .ok o' → o'.doc = o.doc ∧ o'.flags = {} ∧ (o' = o ↔ f = {}) := by
  obtain ⟨D', h1, h2, h3⟩ := save_and_load hT (loaded_of_storable hd) ho hf
  refine ⟨D', h1, fun o' ho' => ?_⟩
  rw [h2] at ho'
  obtain ⟨k1, k2, -⟩ := initModel_ok ho'
  obtain ⟨-, l2, -⟩ := initModel_ok ho
  rw [h3] at k1
  have k1 := (Except.ok.inj (ε := PyErr) k1).symm
  refine ⟨k1, k2, ?_⟩
  constructor
  · rintro rfl
    rw [← l2, k2]
  · intro hff
    obtain ⟨od, of⟩ := o
    obtain ⟨od', of'⟩ := o'
    simp only at k1 k2 l2
    rw [k1, k2, l2, hff]

/-- What is written for a channel is never read as a Gaussian channel. -/
theorem loadChannel_fill_poisson {c c' : ChanDoc RawSample} {v : V} (h : fillChannel T c = .ok v)
    (h' : loadCheckedChannel T v = .ok c') : c'.cls.isGauss = false := by
  unfold loadCheckedChannel at h'
  rw [bind_eq_ok] at h'
  obtain ⟨c1, hc1, h'⟩ := h'
  by_cases hz : sizesOk c1
  swap
  · simp [hz] at h'
  simp [hz] at h'
  subst h'
  unfold loadChannel at hc1
  rw [bind_eq_ok] at hc1
  obtain ⟨d, hd, hc⟩ := hc1
  by_cases hk : knownType (d.get? "type")
  swap
  · simp [hk] at hc
  simp only [hk, Bool.not_true, Bool.false_eq_true, if_false, bind_eq_ok] at hc
  obtain ⟨nmv, _, nm, _, sl, _, ss, _, cls, hcls, hc⟩ := hc
  simp at hc; subst hc
  show cls.isGauss = false
  unfold fillChannel at h
  rw [bind_eq_ok] at h
  obtain ⟨cl, hcl, h⟩ := h
  have h := Except.ok.inj (ε := PyErr) h
  subst h
  simp only [asDict] at hd
  have hd := Except.ok.inj (ε := PyErr) hd
  subst hd
  unfold loadClass at hcls
  cases hc : c.cls with
  | single =>
    rw [hc] at hcl
    have hcl := Except.ok.inj (ε := PyErr) hcl
    subst hcl
    simp [Dict.get?] at hcls
    subst hcls; rfl
  | range b on ou =>
    rw [hc] at hcl
    have hcl := Except.ok.inj (ε := PyErr) hcl
    subst hcl
    simp [Dict.get?, bind_eq_ok] at hcls
    obtain ⟨_, _, _, _, _, _, rfl⟩ := hcls
    rfl
  | multi b =>
    rw [hc] at hcl
    have hcl := Except.ok.inj (ε := PyErr) hcl
    subst hcl
    simp [Dict.get?, bind_eq_ok] at hcls
    obtain ⟨_, _, rfl⟩ := hcls
    rfl
  | gauss b hh =>
    rw [hc] at hcl
    simp only [fillClass, bind_eq_ok] at hcl
    obtain ⟨cov, _, hcl⟩ := hcl
    have hcl := Except.ok.inj (ε := PyErr) hcl
    subst hcl
    simp [Dict.get?, bind_eq_ok] at hcls
    obtain ⟨_, _, rfl⟩ := hcls
    rfl

theorem doc_channels {D : Dict V} {e0 : Dict Expr} {d : ModelDoc RawSample} (h : loadDoc T e0 D = .ok d) :
    ∃ (m : Dict V) (l : List V), D.get? "model" = some (.dict m) ∧ m.get? "channels" = some (.list l) ∧
      ∀ c ∈ d.channels, ∃ v ∈ l, loadCheckedChannel T v = .ok c := by
  unfold loadDoc at h
  simp only [bind_eq_ok] at h
  obtain ⟨mv, hmv, m, hm, h⟩ := h
  by_cases h1 : (m.get? "POIs").isNone
  · simp [h1] at h
  by_cases h2 : (m.get? "channels").isNone
  · simp [h1, h2] at h
  simp only [h1, h2, Bool.false_eq_true, if_false, bind_eq_ok] at h
  obtain ⟨nm, _, ds, _, pl, _, pois, hpois, al, _, aux, haux, nl, _, an, hnps, el, _, exprs, hexprs,
    cl, hcl, chans, hch, h⟩ := h
  simp at h
  subst h
  have hmm : mv = .dict m := by
    cases mv <;> simp [asDict] at hm
    rw [hm]
  refine ⟨m, cl, ?_, ?_, ?_⟩
  · rw [← hmm]; exact Dict.getItem_ok.1 hmv
  · unfold getList at hcl
    rw [bind_eq_ok] at hcl
    obtain ⟨w, hw, hcl⟩ := hcl
    rw [Dict.getItem_ok.1 hw]
    cases w <;> simp [Markup.asList] at hcl
    rw [hcl]
  · intro c hc
    rcases (loadDistinct_ok hch (by simp)).2 c hc with hc | hc
    · cases hc
    · exact hc

theorem setUp_channels {d : ModelDoc RawSample} {d' : ModelDoc Sample} (h : setUp d = .ok d') :
    ∀ c' ∈ d'.channels, ∃ c ∈ d.channels, c'.cls = c.cls := by
  unfold setUp at h
  simp only [bind_eq_ok] at h
  obtain ⟨pois, hpois, nps, hnps, vals, hvals, chans, hch, h⟩ := h
  simp at h; subst h
  intro c' hc'
  obtain ⟨c, hc, hcc⟩ := mapM_mem_right hch c' hc'
  refine ⟨c, hc, ?_⟩
  unfold setUpChannel at hcc
  rw [bind_eq_ok] at hcc
  obtain ⟨_, _, hcc⟩ := hcc
  simp at hcc; subst hcc; rfl

/-- Finding F58: a Gaussian channel is saved as a Poisson one.  No model that was saved ever loads with a
Gaussian channel: the likelihood of its Gaussian channels is lost without an error message. -/
theorem c32_gaussian_lost {o o' : Obj} {D : Dict V} (hs : save T o = .ok D) (hl : load T D = .ok o') :
    (∀ c ∈ o'.doc.channels, c.cls.isGauss = false) ∧ o'.mdl.nbinsGaussian = 0 := by
  have key : ∀ c ∈ o'.doc.channels, c.cls.isGauss = false := by
    unfold load at hl
    rw [bind_eq_ok] at hl
    obtain ⟨d, hd, hi⟩ := hl
    obtain ⟨hu, -⟩ := initModel_ok hi
    obtain ⟨m, l, hm, hll, hc⟩ := doc_channels hd
    unfold save fillDoc at hs
    rw [bind_eq_ok] at hs
    obtain ⟨chs, hchs, hs⟩ := hs
    have hs := Except.ok.inj (ε := PyErr) hs
    subst hs
    simp [Dict.get?] at hm
    subst hm
    simp [Dict.get?_set] at hll
    subst hll
    intro c' hc'
    obtain ⟨c, hcm, e⟩ := setUp_channels hu c' hc'
    obtain ⟨v, hv, hlv⟩ := hc c hcm
    obtain ⟨c0, _, hc0⟩ := mapM_mem_right hchs v hv
    rw [e]
    exact loadChannel_fill_poisson hc0 hlv
  refine ⟨key, ?_⟩
  have : o'.mdl.channels.filter (fun c => c.gaussian) = [] := by
    rw [List.filter_eq_nil_iff]
    intro c hc
    obtain ⟨c', hc', rfl⟩ := List.mem_map.1 hc
    simp [toChannel, key c' hc']
  simp [Mdl.nbinsGaussian, this]

/-- Finding F57: no model with a `Formula` can be loaded (the loading code refers to a class that does not
exist). -/
theorem c32_formula_never_loads {D m : Dict V} {l : List V} {d : Dict V} (hD : D.get? "model" = some (.dict m))
    (hm : m.get? "expressions" = some (.list l)) (hd : .dict d ∈ l) (ht : d.get? "type" = some (.str "formula")) :
    ∀ o, load T D ≠ .ok o := by
  intro o ho
  unfold load at ho
  rw [bind_eq_ok] at ho
  obtain ⟨dd, hdd, -⟩ := ho
  unfold loadDoc at hdd
  simp only [bind_eq_ok] at hdd
  obtain ⟨mv, hmv, m', hm', h⟩ := hdd
  rw [Dict.getItem_ok] at hmv
  rw [hD] at hmv
  cases hmv
  simp [asDict] at hm'
  subst hm'
  by_cases h1 : (m.get? "POIs").isNone
  · simp [h1] at h
  by_cases h2 : (m.get? "channels").isNone
  · simp [h1, h2] at h
  simp only [h1, h2, Bool.false_eq_true, if_false, bind_eq_ok] at h
  obtain ⟨nm, _, ds, _, pl, _, pois, hpois, al, _, aux, haux, nl, _, an, hnps, el, hel, exprs, hexprs, -⟩ := h
  simp [optList, hm, Markup.asList] at hel
  subst hel
  have key : ∀ (l : List V) (acc r : Dict Expr), loadDistinct loadExpr (·.1) l acc = .ok r → .dict d ∉ l := by
    intro l
    induction l with
    | nil => intro _ _ _ h; cases h
    | cons v vs ih =>
      intro acc r h hmem
      simp only [loadDistinct, bind_eq_ok] at h
      obtain ⟨a, ha, h⟩ := h
      rcases List.mem_cons.1 hmem with rfl | hmem
      · simp only [loadExpr, asDict, bind_ok, ht, bind_eq_ok] at ha
        obtain ⟨_, _, ha⟩ := ha
        simp at ha
      · by_cases hn : a.1 ∈ acc.map (·.1)
        · simp [hn] at h
        · simp only [hn, if_false] at h
          exact ih _ _ h hmem
  exact key _ _ _ hexprs hd

/-- A second load into the same object raises `ValueError` as soon as the model has an expression
(`self.expressions` is not reset by `load_dict`). -/
theorem c32_second_load_fails {D : Dict V} {o : Obj} (ho : load T D = .ok o) (he : o.doc.exprs ≠ []) :
    reload T o D = .error .valueError := by
  unfold load at ho
  rw [bind_eq_ok] at ho
  obtain ⟨d, hd, ho⟩ := ho
  obtain ⟨hu, -⟩ := initModel_ok ho
  have hex : o.doc.exprs = d.exprs := by
    unfold setUp at hu
    simp only [bind_eq_ok] at hu
    obtain ⟨pois, hpois, nps, hnps, vals, hvals, chans, hch, h⟩ := hu
    have h := Except.ok.inj (ε := PyErr) h
    rw [← h]
  unfold reload
  rw [hex] at he ⊢
  suffices h : loadDoc T d.exprs D = .error .valueError by rw [h]; rfl
  unfold loadDoc at hd ⊢
  simp only [bind_eq_ok] at hd
  obtain ⟨mv, hmv, m, hm, h⟩ := hd
  rw [hmv, bind_ok, hm, bind_ok]
  by_cases h1 : (m.get? "POIs").isNone
  · simp [h1] at h
  by_cases h2 : (m.get? "channels").isNone
  · simp [h1, h2] at h
  simp only [h1, h2, Bool.false_eq_true, if_false, bind_eq_ok] at h ⊢
  obtain ⟨nm, hnm, ds, hds, pl, hpl, pois, hpois, al, hal, aux, haux, nl, hnl, an, hnps, el, hel, exprs, hexprs,
    cl, hcl, chans, hch, h⟩ := h
  have h := Except.ok.inj (ε := PyErr) h
  have hx : exprs = d.exprs := by rw [← h]
  subst hx
  have key : loadDistinct loadExpr (·.1) el d.exprs = .error .valueError := by
    cases el with
    | nil =>
      simp [loadDistinct] at hexprs
      exact (he (by first | exact hexprs | exact hexprs.symm)).elim
    | cons v vs =>
      simp only [loadDistinct, bind_eq_ok] at hexprs ⊢
      obtain ⟨a, ha, hr⟩ := hexprs
      have hmem : a ∈ d.exprs := by
        simp only [List.map_nil, List.not_mem_nil, if_false, List.nil_append] at hr
        have : ∀ (l : List V) (acc r : Dict Expr), loadDistinct loadExpr (·.1) l acc = .ok r → ∀ x ∈ acc, x ∈ r := by
          intro l
          induction l with
          | nil => intro acc r h x hx; simp [loadDistinct] at h; subst h; exact hx
          | cons v vs ih =>
            intro acc r h x hx
            simp only [loadDistinct, bind_eq_ok] at h
            obtain ⟨a, ha, h⟩ := h
            by_cases hn : a.1 ∈ acc.map (·.1)
            · simp [hn] at h
            · simp only [hn, if_false] at h
              exact ih _ _ h x (by simp [hx])
        exact this _ _ _ hr a (by simp)
      rw [ha, bind_ok, if_pos (List.mem_map.2 ⟨a, hmem, rfl⟩)]
      rfl
  rw [hnm, bind_ok, hds, bind_ok, hpl, bind_ok, hpois, bind_ok, hal, bind_ok, haux, bind_ok, hnl, bind_ok, hnps,
    bind_ok, hel, bind_ok, key]
  rfl

/-- Finding F60: a second sample with the same name silently replaces the first one (all other duplicates raise
`ValueError`). -/
theorem c32_duplicate_sample_dropped {d1 d2 : Dict V} {s1 s2 : RawSample} (h1 : loadSample T d1 = .ok s1)
    (h2 : loadSample T d2 = .ok s2) (hn : s2.name = s1.name) :
    loadSamples T [.dict d1, .dict d2] [] = .ok [(s1.name, s2)] := by
  simp [loadSamples, asDict, h1, h2, Dict.set, hn]

/-- A normalisation that is an expression whose name reads as a number (`float('inf')`, `float('nan')`, ...)
cannot be loaded from what was saved. -/
theorem c32_numeric_name_fails {s : RawSample} {e : String} (hs : s.norm = .expr e) (he : T.isFloat e = true) :
    loadSample T (fillSample T s) = .error .valueError := by
  have h1 : loadField "name" (fillSample T s) (.str "") [.str] = .ok (.str s.name) := by
    simp [loadField, fillSample, Dict.get?, MVal.isInstance]
  have h2 : loadNorm T (fillSample T s) = .error .valueError := by
    have hg : (fillSample T s).get? "norm" = some (.str e) := by simp [fillSample, Dict.get?, hs, normVal]
    simp [loadNorm, loadField, hg, MVal.isInstance, he]
  unfold loadSample
  simp [h1, asStr, h2]

/-! ## The hypotheses can be met -/

namespace MarkupDemo

open Classical in
/-- The texts of the four keys that occur below. -/
noncomputable def wr : VarKey → String
  | .pos => "pos"
  | .neg => "neg"
  | .num v => if v = 1 then "+1" else if v = -1 then "-1" else "?"

/-- Readers of these four texts. -/
noncomputable def rd (s : String) : Option VarKey :=
  if s = "pos" then some .pos else if s = "neg" then some .neg else if s = "+1" then some (.num 1)
    else if s = "-1" then some (.num (-1)) else none

/-- All texts that occur below. -/
noncomputable def texts : Texts where
  isFloat s := s == "inf"
  write := wr
  read := rd

theorem lawful : texts.Lawful := by
  have up : KeyOk texts (.num 1) := by simp [KeyOk, texts, wr, rd]
  have down : KeyOk texts (.num (-1)) := by
    have : (-1 : ℝ) ≠ 1 := by norm_num
    simp [KeyOk, texts, wr, rd, this]
  refine ⟨?_, up, down⟩
  intro s k h
  have h : rd s = some k := h
  unfold rd at h
  split_ifs at h <;> simp at h <;> subst h
  · simp [KeyOk, texts, wr, rd]
  · simp [KeyOk, texts, wr, rd]
  · exact up
  · exact down

/-- A model with a POI, a constrained NP, an expression and a two-bin channel of class `cls` and name `cn`. -/
noncomputable def raw (cls : ChClass) (cn : String := "c") : ModelDoc RawSample where
  name := some "demo"
  description := none
  pois := [{ name := some "mu", min_value := some 0, max_value := some 10, initial_value := some 1 }]
  aux := [{ name := some "aux" }]
  nps := [{ name := some "np", nominal_value := some 0, variation := some 1, constraint := some 1, aux_obs := some "aux" }]
  exprs := [("k", .linear 0 [("mu", 2)])]
  channels := [{ name := cn, cls := cls, samples := [
    { name := "sig", norm := .expr "k", nominal_norm := none, nominal_yields := some [1, 2], impacts := [] },
    { name := "bkg", norm := .number 2, nominal_norm := some 2, nominal_yields := some [5, 6],
      impacts := [("np", .common [(.num 1, 1/10), (.num (-1), -1/10)])] }] }]

/-- The object made from it. -/
noncomputable def obj (cls : ChClass) (cn : String := "c") : Obj where
  doc :=
    { name := some "demo"
      description := none
      pois := [{ name := some "mu", min_value := some 0, max_value := some 10, initial_value := some 1 }]
      aux := [{ name := some "aux" }]
      nps := [{ name := some "np", nominal_value := some 0, variation := some 1, constraint := some 1, aux_obs := some "aux" }]
      exprs := [("k", .linear 0 [("mu", 2)])]
      channels := [{ name := cn, cls := cls, samples := [
        { name := "sig", norm := .expr "k", nominal_norm := 1, nominal_yields := [1, 2],
          impacts := [("np", .common [(.num 1, 0), (.num (-1), -0)])] },
        { name := "bkg", norm := .number 2, nominal_norm := 2, nominal_yields := [5, 6],
          impacts := [("np", .common [(.num 1, 1/10), (.num (-1), -1/10)])] }] }] }
  flags := {}

theorem setUp_ok (cls : ChClass) (cn : String := "c") : setUp (raw cls cn) = .ok (obj cls cn).doc := by
  simp [setUp, raw, obj, numericPOI, needName, ModelNP.numeric, refVals, ExprCtx.evalLoop, Expr.value, Dict.get?,
    Dict.getItem, Dict.set, setUpChannel, RawSample.setNpData, Norm.value, Norm.implicitImpact, Expr.lookups, Dict.keys]

theorem std (cls : ChClass) (hc : cls.nbins = 2) (cn : String := "c") : ∀ ch ∈ (obj cls cn).mdl.channels, 0 < ch.nbins ∧
    ∀ s ∈ ch.samples, s.Std ch.nbins := by
  intro ch hch
  simp only [Obj.mdl, obj, List.map_cons, List.map_nil, List.mem_singleton] at hch
  subst hch
  simp only [toChannel, hc]
  refine ⟨by norm_num, ?_⟩
  intro s hs
  simp only [List.mem_cons, List.not_mem_nil, or_false] at hs
  rcases hs with rfl | rfl
  · refine ⟨rfl, ?_⟩
    intro par i h
    simp only [Dict.get?] at h
    split_ifs at h
    all_goals simp at h
    rw [← h]; exact List.Perm.refl _
  · refine ⟨rfl, ?_⟩
    intro par i h
    simp only [Dict.get?] at h
    split_ifs at h
    all_goals simp at h
    rw [← h]; exact List.Perm.refl _

theorem vals (cls : ChClass) (cn : String := "c") : (obj cls cn).mdl.ctx.realVals (obj cls cn).mdl.poiInit =
    .ok [("mu", 1), ("np", 0), ("k", 2)] := by
  simp [ExprCtx.realVals, ExprCtx.evalLoop, ExprCtx.base, Mdl.ctx, Obj.mdl, obj, ModelNP.numeric, Expr.value,
    Dict.get?, Dict.getItem, Dict.set, Dict.keys, Expr.lookups]

theorem computable (cls : ChClass) (hc : cls.nbins = 2) (cn : String := "c") :
    (obj cls cn).mdl.Computable [("mu", 1), ("np", 0), ("k", 2)] := by
  refine ⟨?_, ?_, ?_⟩
  · intro s hs
    have h1 : (obj cls cn).mdl.nbins = 2 := by
      simp [Mdl.nbins, Mdl.chanState, Obj.mdl, obj, chanStep, toChannel, hc]
    have h2 : (obj cls cn).mdl.maxSamples = 2 := by
      simp [Mdl.maxSamples, Mdl.chanState, Obj.mdl, obj, chanStep, toChannel]
    rw [h2] at hs
    rw [h1]
    interval_cases s <;> simp [Mdl.cells, Channel.cells, Obj.mdl, obj, toChannel]
  · intro ch hch smp hm
    simp only [Obj.mdl, obj, List.map_cons, List.map_nil, List.mem_singleton] at hch
    subst hch
    simp only [toChannel, List.mem_cons, List.not_mem_nil, or_false] at hm
    rcases hm with rfl | rfl <;> norm_num
  · intro ch hch smp hm
    simp only [Obj.mdl, obj, List.map_cons, List.map_nil, List.mem_singleton] at hch
    subst hch
    simp only [toChannel, List.mem_cons, List.not_mem_nil, or_false] at hm
    rcases hm with rfl | rfl <;> simp [Norm.value, Dict.getItem, Dict.get?]

theorem init (cls : ChClass) (hc : cls.nbins = 2) (cn : String := "c") : initModel (raw cls cn) {} = .ok (obj cls cn) := by
  obtain ⟨A, hA⟩ := setInternal_of_std (m := (obj cls cn).mdl) rfl (std cls hc cn) (by
    simp [PoissonFirst, Obj.mdl, obj])
  obtain ⟨ne, hne, -⟩ := Mdl.nExp_ok A 0 (vals cls cn) (computable cls hc cn)
  exact initModel_intro (setUp_ok cls cn) rfl hA hne

theorem storable (cls : ChClass) (hc : cls.nbins = 2) (hg : ∃ r, fillClass cls = .ok r) (cn : String := "c") : Storable texts (raw cls cn) := by
  refine ⟨?_, ?_, ?_, ?_, ?_, ?_, ?_, ?_, ?_⟩
  · simp [raw]
  · simp [raw]
  · simp [raw]
  · simp [raw]
  · simp [raw]
  · simp [raw]
  · simp [raw]
  · simp [raw]
  · intro c hcc
    simp only [raw, List.mem_singleton] at hcc
    subst hcc
    refine ⟨hg, by simp, ?_, ?_⟩
    · intro s hs
      simp only [List.mem_cons, List.not_mem_nil, or_false] at hs
      rcases hs with rfl | rfl
      · exact ⟨by intro e he; cases he; rfl, by simp⟩
      · refine ⟨(fun e he => by cases he), ?_⟩
        intro kv hkv
        simp only [List.mem_singleton] at hkv
        subst hkv
        intro kv hkv
        simp only [List.mem_cons, List.not_mem_nil, or_false] at hkv
        rcases hkv with rfl | rfl
        · exact lawful.up
        · exact lawful.down
    · intro s hs l hl
      simp only [List.mem_cons, List.not_mem_nil, or_false] at hs
      rcases hs with rfl | rfl <;> simp at hl <;> subst hl <;> simp [hc]

theorem faithful (cls : ChClass) (hc : cls.nbins = 2) (hg : cls.isGauss = false) (cn : String := "c") : Faithful (obj cls cn) := by
  refine ⟨by simp [obj], ?_, ?_⟩
  · intro c h
    simp only [obj, List.mem_singleton] at h
    subst h; exact hg
  · intro c h s hs
    simp only [obj, List.mem_singleton] at h
    subst h
    simp only [List.mem_cons, List.not_mem_nil, or_false] at hs
    rcases hs with rfl | rfl <;> simp [hc]

end MarkupDemo

/-- A model meeting all conditions: `c32_loaded_roundtrip`, `c32_constructed_roundtrip`, `c32_predictions`,
`c32_second_load_fails` apply to it. -/
example : ∃ (D : Dict V) (d : ModelDoc RawSample) (o : Obj), MarkupDemo.texts.Lawful ∧
    Storable MarkupDemo.texts d ∧ initModel d {} = .ok o ∧ load MarkupDemo.texts D = .ok o ∧ Faithful o ∧
    o.doc.exprs ≠ [] := by
  have hs := MarkupDemo.storable (.multi [.str "a", .str "b"]) rfl ⟨_, rfl⟩
  have hi := MarkupDemo.init (.multi [.str "a", .str "b"]) rfl
  have hf := MarkupDemo.faithful (.multi [.str "a", .str "b"]) rfl rfl
  obtain ⟨D, h1, h2⟩ := c32_constructed_roundtrip MarkupDemo.lawful hs hi hf
  exact ⟨D, _, _, MarkupDemo.lawful, hs, hi, h2, hf, by simp [MarkupDemo.obj]⟩

/-- Finding F58, what comes back: the same model where every Gaussian channel has become a Poisson channel with the
same bins and samples. -/
theorem c32_gaussian_becomes_poisson (hT : T.Lawful) {d : ModelDoc RawSample} (hd : Storable T d) {o : Obj}
    (ho : initModel d {} = .ok o) (hf : Saveable o) :
    ∃ D, save T o = .ok D ∧ load T D = initModel
      { rawDoc o.doc with channels := (rawDoc o.doc).channels.map fun c =>
          { c with cls := match c.cls with | .gauss b _ => .multi b | x => x } } {} := by
  obtain ⟨D, h1, h2, h3⟩ := save_and_degrade hT (loaded_of_storable hd) ho hf
  refine ⟨D, h1, ?_⟩
  rw [h2]
  rfl

namespace MarkupDemo
/-- A Gaussian channel with two bins and unit covariance. -/
noncomputable def gcls : ChClass := .gauss [.str "a", .str "b"] [[1, 0], [0, 1]]

theorem invRows_ok (l : List (List ℝ)) (h1 : ∀ r ∈ l, r.length = l.length)
    (h2 : (Matrix.of fun i j : Fin l.length => (l.getD i []).getD j 0).det ≠ 0) : ∃ cov, invRows l = .ok cov := by
  refine ⟨List.ofFn fun i => List.ofFn fun j => (Matrix.of fun i j : Fin l.length => (l.getD i []).getD j 0)⁻¹ i j, ?_⟩
  unfold invRows
  rw [if_neg (by push Not; exact h1)]
  exact if_neg h2

theorem gcls_inv : ∃ cov, invRows [[1, 0], [0, 1]] = .ok cov := by
  have h : (Matrix.of fun i j : Fin 2 => (([[1, 0], [0, 1]] : List (List ℝ)).getD i []).getD j 0).det ≠ 0 := by
    rw [Matrix.det_fin_two]
    simp
  exact invRows_ok _ (by simp) h

theorem gaussian_saveable : Saveable (obj gcls) := by
  refine ⟨by simp [obj], ?_, ?_⟩
  · intro c h b hh e
    simp only [obj, List.mem_singleton] at h
    subst h
    cases e
    exact gcls_inv
  · intro c h s hs
    simp only [obj, List.mem_singleton] at h
    subst h
    simp only [List.mem_cons, List.not_mem_nil, or_false] at hs
    rcases hs with rfl | rfl <;> rfl
end MarkupDemo

/-- F58 on a concrete model: the Gaussian channel with two bins comes back as a Poisson channel, everything else
as it was (so that `c32_gaussian_lost` is about models that exist). -/
theorem c32_gaussian_example : ∃ D, save MarkupDemo.texts (MarkupDemo.obj MarkupDemo.gcls) = .ok D ∧
    load MarkupDemo.texts D = .ok (MarkupDemo.obj (.multi [.str "a", .str "b"])) := by
  have hs := MarkupDemo.storable MarkupDemo.gcls rfl (fillClass_ok (fun b hh e => by cases e; exact MarkupDemo.gcls_inv))
  obtain ⟨D, h1, h2⟩ := c32_gaussian_becomes_poisson MarkupDemo.lawful hs (MarkupDemo.init _ rfl)
    MarkupDemo.gaussian_saveable
  refine ⟨D, h1, ?_⟩
  rw [h2]
  have hm := MarkupDemo.storable (.multi [.str "a", .str "b"]) rfl ⟨_, rfl⟩
  have hi := MarkupDemo.init (.multi [.str "a", .str "b"]) rfl
  obtain ⟨k1, -, A, ne, hA, hne⟩ := initModel_ok hi
  exact initModel_intro (setUp_raw MarkupDemo.lawful k1 (loaded_of_storable hm)).1 rfl hA hne

/-- Different options, on a concrete model: `c32_options_lost` is about models that exist. -/
example : ∃ (f : Flags) (o : Obj), f ≠ {} ∧ Storable MarkupDemo.texts (MarkupDemo.raw (.multi [.str "a", .str "b"])) ∧
    initModel (MarkupDemo.raw (.multi [.str "a", .str "b"])) f = .ok o ∧ Faithful o := by
  obtain ⟨k1, -, -⟩ := initModel_ok (MarkupDemo.init (.multi [.str "a", .str "b"]) rfl)
  have hf := MarkupDemo.faithful (.multi [.str "a", .str "b"]) rfl rfl
  let f : Flags := { cutoff := 1 }
  let o : Obj := ⟨(MarkupDemo.obj (.multi [.str "a", .str "b"])).doc, f⟩
  refine ⟨f, o, ?_, MarkupDemo.storable _ rfl ⟨_, rfl⟩, ?_, ⟨hf.poi, hf.poisson, hf.yields⟩⟩
  · intro h
    have := congrArg Flags.cutoff h
    simp [f] at this
  · obtain ⟨A, hA⟩ := setInternal_of_std (m := o.mdl) rfl (MarkupDemo.std (.multi [.str "a", .str "b"]) rfl) (by
      simp [PoissonFirst, Obj.mdl, MarkupDemo.obj, o])
    have hc := MarkupDemo.computable (.multi [.str "a", .str "b"]) rfl
    obtain ⟨ne, hne, -⟩ := Mdl.nExp_ok (m := o.mdl) A 0 (MarkupDemo.vals (.multi [.str "a", .str "b"]))
      ⟨hc.shape, hc.norm0, hc.value⟩
    exact initModel_intro k1 rfl hA hne
end Verif.Props
