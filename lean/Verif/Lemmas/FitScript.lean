import Verif.Spec.FitScript
import Verif.Props.Cov
import Verif.Props.LimitsAll
import Verif.Props.Expected
import Verif.Props.PruneScript
/-! Helper lemmas for C79. -/
namespace Verif.FitS
open Verif.Spec Verif.Props
variable {n P : Nat}

/-! ### The report -/

theorem zip_ofFn {α β : Type} (f : Fin n → α) (g : Fin n → β) :
    (List.ofFn f).zip (List.ofFn g) = List.ofFn fun i => (f i, g i) := by
  apply List.ext_getElem
  · simp
  · intro i h1 h2; simp

theorem dict_eq (m : Mdl n P) (hd : (List.ofFn m.pois ++ List.ofFn fun p => (m.nps p).name).Nodup) (x : Fin n → ℝ)
    (θ : Fin P → ℝ) :
    (⟨List.ofFn x, List.ofFn θ⟩ : Pars ℝ).dict m.parModel =
      (List.ofFn fun i => (m.pois i, x i)) ++ List.ofFn fun p => ((m.nps p).name, (m.nps p).unscaledValue (θ p)) := by
  have e1 : (List.ofFn m.pois).zip (List.ofFn x) = List.ofFn fun i => (m.pois i, x i) := zip_ofFn _ _
  have e2 : m.parModel.npNames.zip ((⟨List.ofFn x, List.ofFn θ⟩ : Pars ℝ).unscaledNps m.parModel) =
      List.ofFn fun p => ((m.nps p).name, (m.nps p).unscaledValue (θ p)) := by
    apply List.ext_getElem
    · simp [ParModel.npNames, Mdl.parModel, Pars.unscaledNps]
    · intro i h1 h2
      simp [ParModel.npNames, Mdl.parModel, Pars.unscaledNps]
  have hk : Dict.keys (List.ofFn fun i => (m.pois i, x i)) = List.ofFn m.pois := Dict.keys_ofFn _ _
  unfold Pars.dict
  simp only [if_true, Bool.false_eq_true, if_false]
  rw [show m.parModel.pois.zip (List.ofFn x) = _ from e1, e2,
    Dict.setAll_eq_append (List.ofFn fun i => (m.pois i, x i)) [] (by
      have := (List.nodup_append.1 hd).1
      simpa [Dict.keys, List.map_ofFn, Function.comp_def] using this), List.nil_append,
    Dict.setAll_eq_append _ _ (by
      rw [hk]; simpa [List.map_ofFn, Function.comp_def] using hd)]

theorem get_ofFn (m : Mdl n P) (hn : (List.ofFn m.pois).Nodup) (x : Fin n → ℝ) (nps : List ℝ) (i : Fin n) :
    (⟨List.ofFn x, nps⟩ : Pars ℝ).get m.parModel (m.pois i) = .ok (x i) := by
  have hmem : m.pois i ∈ m.parModel.pois := by simp [Mdl.parModel, List.mem_ofFn]
  have hio : m.parModel.pois.idxOf (m.pois i) = i := by
    have := hn.idxOf_getElem i.1 (by simp)
    simpa [Mdl.parModel] using this
  rw [get_poi _ _ _ hmem, hio]
  simp

theorem foldlM_set {α V : Type} (l : List α) (f : α → String) (g : α → V) (w : Dict V → α → Except PyErr (Dict V))
    (h : ∀ a ∈ l, ∀ d, w d a = .ok (d.set (f a) (g a))) (d : Dict V) :
    l.foldlM w d = .ok (Dict.setAll d (l.map fun a => (f a, g a))) := by
  induction l generalizing d with
  | nil => rfl
  | cons a l ih =>
    rw [List.foldlM_cons, h a (by simp), bind_ok, ih (fun b hb => h b (by simp [hb]))]
    rfl

theorem foldlM_map {α β γ : Type} (f : α → β) (w : γ → β → Except PyErr γ) (l : List α) (d : γ) :
    (l.map f).foldlM w d = l.foldlM (fun d a => w d (f a)) d := by
  induction l generalizing d with
  | nil => rfl
  | cons a l ih =>
    simp only [List.map_cons, List.foldlM_cons]
    cases w d (f a) with
    | error e => rfl
    | ok d' => simp only [bind_ok]; exact ih d'

/-- The errors reported. -/
noncomputable def errs (C : Option (Matrix (Fin n) (Fin n) ℝ)) (i : Fin n) : Option Flt :=
  C.map fun C => Mdl.errorsOf C i

/-- The correlations reported. -/
noncomputable def corrs (C : Option (Matrix (Fin n) (Fin n) ℝ)) : Option (List (List Flt)) :=
  C.map fun C => List.ofFn fun i => List.ofFn fun j =>
    Flt.quot (Flt.quot (.fin (C i j)) (Mdl.errorsOf C i)) (Mdl.errorsOf C j)

theorem report_eq (m : Mdl n P) (A : Mdl.Arrays) (d : Mdl.DataV P) (v : ℝ) (x : Fin n → ℝ) (θ : Fin P → ℝ)
    (hn : (List.ofFn m.pois).Nodup) :
    m.fitReport A d v ⟨List.ofFn x, List.ofFn θ⟩ =
      .ok ((Dict.setAll [("min_nll", .num v), ("min_pars", .pars ((⟨List.ofFn x, List.ofFn θ⟩ : Pars ℝ).dict m.parModel))]
        (List.ofFn fun i => (m.pois i, RepVal.poi (x i) (errs (m.covarianceMatrix A x θ d) i)))).set "correlation_matrix"
        (.matrix (corrs (m.covarianceMatrix A x θ d)))) := by
  have hinj : Function.Injective m.pois := List.nodup_ofFn.1 hn
  have hx : (fun i : Fin n => (List.ofFn x).getD i 0) = x := by funext i; simp [Mdl.getD_ofFn]
  have hθ : (fun a : Fin P => (List.ofFn θ).getD a 0) = θ := by funext i; simp [Mdl.getD_ofFn]
  unfold Mdl.fitReport
  dsimp only
  rw [hx, hθ]
  generalize m.covarianceMatrix A x θ d = C
  have he : ∃ E, m.errorsAndCorr A x θ d C = .ok (E, corrs C) ∧
      ∀ i, Mdl.uncertaintyOf E (m.pois i) = .ok (errs C i) := by
    cases C with
    | none => exact ⟨none, rfl, fun i => rfl⟩
    | some C =>
      refine ⟨some (Dict.setAll [] (List.ofFn fun i => (m.pois i, Mdl.errorsOf C i))), ?_, ?_⟩
      · simp [Mdl.errorsAndCorr, Mdl.parabolicErrors, Mdl.correlationMatrix, Mdl.covOf, corrs]
      · intro i
        have hg : (Dict.setAll [] (List.ofFn fun i => (m.pois i, Mdl.errorsOf C i))).get? (m.pois i) =
            some (Mdl.errorsOf C i) := by
          rw [Dict.setAll_eq_append _ _ (by simpa [Dict.keys, List.map_ofFn, Function.comp_def] using hn), List.nil_append]
          exact Dict.get?_ofFn _ _ hinj i
        simp [Mdl.uncertaintyOf, Dict.getItem, hg, errs]
  obtain ⟨E, h1, h2⟩ := he
  rw [h1, bind_ok]
  have h3 : ∀ base : Dict RepVal, m.reportPois ⟨List.ofFn x, List.ofFn θ⟩ E base =
      .ok (Dict.setAll base (List.ofFn fun i => (m.pois i, RepVal.poi (x i) (errs C i)))) := by
    intro base
    unfold Mdl.reportPois
    have e : List.ofFn m.pois = (List.finRange n).map m.pois := List.ofFn_eq_map
    rw [e, foldlM_map, foldlM_set (List.finRange n) m.pois (fun i => RepVal.poi (x i) (errs C i))]
    · rw [List.ofFn_eq_map]
    · intro i _ d0
      simp only [get_ofFn m hn, bind_ok, h2, pure_ok]
  dsimp only
  rw [h3, bind_ok]
  rfl

theorem report_spec (m : Mdl n P) (A : Mdl.Arrays) (d : Mdl.DataV P) (v : ℝ) (x : Fin n → ℝ) (θ : Fin P → ℝ)
    (hp : PlainNames m) (rep : Dict RepVal) (h : m.fitReport A d v ⟨List.ofFn x, List.ofFn θ⟩ = .ok rep) :
    Reports m rep v x θ ∧ (∀ i, ReportedError rep (m.pois i) (errs (m.covarianceMatrix A x θ d) i)) ∧
      rep.get? "correlation_matrix" = some (.matrix (corrs (m.covarianceMatrix A x θ d))) := by
  have hn : (List.ofFn m.pois).Nodup := (List.nodup_append.1 hp.distinct).1
  have hinj : Function.Injective m.pois := List.nodup_ofFn.1 hn
  rw [report_eq m A d v x θ hn] at h
  have h := (Except.ok.inj (ε := PyErr) h).symm
  generalize m.covarianceMatrix A x θ d = C at h ⊢
  have hfree : ∀ i, m.pois i ≠ "min_nll" ∧ m.pois i ≠ "min_pars" ∧ m.pois i ≠ "correlation_matrix" := fun i => by
    have := hp.free i
    simpa using this
  have hset := Dict.setAll_eq_append (List.ofFn fun i => (m.pois i, RepVal.poi (x i) (errs C i)))
    [("min_nll", .num v), ("min_pars", .pars ((⟨List.ofFn x, List.ofFn θ⟩ : Pars ℝ).dict m.parModel))] (by
      simp only [Dict.keys, List.map_cons, List.map_nil, List.map_ofFn, Function.comp_def]
      refine List.nodup_append.2 ⟨by simp, hn, ?_⟩
      intro a ha b hb
      obtain ⟨i, rfl⟩ := List.mem_ofFn.1 hb
      have := hfree i
      simp only [List.mem_cons, List.not_mem_nil, or_false] at ha
      rcases ha with rfl | rfl
      · exact this.1.symm
      · exact this.2.1.symm)
  rw [hset] at h
  have hcm : "correlation_matrix" ∉ Dict.keys ([("min_nll", RepVal.num v),
      ("min_pars", .pars ((⟨List.ofFn x, List.ofFn θ⟩ : Pars ℝ).dict m.parModel))] ++
      List.ofFn fun i => (m.pois i, RepVal.poi (x i) (errs C i))) := by
    simp only [Dict.keys, List.map_append, List.map_cons, List.map_nil, List.map_ofFn, Function.comp_def,
      List.mem_append, List.mem_cons, List.not_mem_nil, or_false, List.mem_ofFn, not_or, not_exists]
    exact ⟨by simp, fun i hi => (hfree i).2.2 hi⟩
  have hpoi : ∀ i, rep.get? (m.pois i) = some (.poi (x i) (errs C i)) := by
    intro i
    rw [h, Dict.get?_set_ne _ _ (Ne.symm (hfree i).2.2), Dict.get?_append]
    have e0 : Dict.get? ([("min_nll", RepVal.num v), ("min_pars", .pars
        ((⟨List.ofFn x, List.ofFn θ⟩ : Pars ℝ).dict m.parModel))] : Dict RepVal) (m.pois i) = none := by
      simp [Dict.get?, (hfree i).1.symm, (hfree i).2.1.symm]
    rw [e0, Option.none_or]
    exact Dict.get?_ofFn _ _ hinj i
  refine ⟨⟨?_, ?_, fun i => ⟨_, hpoi i⟩, ?_⟩, fun i => ⟨_, hpoi i⟩, ?_⟩
  · rw [h, Dict.get?_set_ne _ _ (by decide)]; simp [Dict.get?]
  · refine ⟨(⟨List.ofFn x, List.ofFn θ⟩ : Pars ℝ).dict m.parModel, ?_, ?_, ?_, ?_⟩
    · rw [h, Dict.get?_set_ne _ _ (by decide)]; simp [Dict.get?]
    · rw [dict_eq m hp.distinct]
      simp [Dict.keys, List.map_ofFn, Function.comp_def]
    · intro i
      rw [dict_eq m hp.distinct, Dict.get?_append, Dict.get?_ofFn _ _ hinj i]
      rfl
    · intro p
      have hninj : Function.Injective fun p => (m.nps p).name :=
        List.nodup_ofFn.1 (List.nodup_append.1 hp.distinct).2.1
      have e0 : Dict.get? (List.ofFn fun i => (m.pois i, x i)) (m.nps p).name = none := by
        rw [Dict.get?_eq_none_iff, Dict.keys_ofFn]
        intro hmem
        exact (List.nodup_append.1 hp.distinct).2.2 _ hmem _ (List.mem_ofFn.2 ⟨p, rfl⟩) rfl
      rw [dict_eq m hp.distinct, Dict.get?_append, e0, Option.none_or,
        Dict.get?_ofFn (fun p => (m.nps p).name) _ hninj p]
      rfl
  · rw [h, Dict.keys_set, if_neg hcm]
    simp [Dict.keys, List.map_ofFn, Function.comp_def]
  · rw [h, Dict.get?_set_self]

/-! ### The fit -/

theorem bestFit_inv {opt : Optim ℝ} {env : FitEnv ℝ} {m : ParModel ℝ} {pois : List (PoiRange ℝ)} {ref : Pars ℝ}
    {method : String} {v : ℝ} {q : Pars ℝ} {s : OptiMin ℝ} (h : bestFit opt env m pois ref method = .ok (v, q, s)) :
    ∃ p b st fr, setPois m pois ref none none false = .ok (p, b) ∧ freeBounds b = .ok fr ∧
      minimize env m { method := method, initPois := p, bounds := b }
        (opt env (if fr.length > 1 ∧ method = "scalar" then "L-BFGS-B" else method) p fr) = .ok (st, .nll v) ∧
      st.minPars = some q ∧ s.bounds = some b ∧ s.method = st.method ∧ s.altMethod = none ∧ s.rebound = 0 := by
  unfold bestFit at h
  obtain ⟨⟨p, b⟩, h1, h⟩ := bind_eq_ok.1 h
  obtain ⟨⟨st, r⟩, h2, h⟩ := bind_eq_ok.1 h
  unfold minimizeD optRun at h2
  obtain ⟨run, h3, h2⟩ := bind_eq_ok.1 h2
  obtain ⟨fr, h4, h3⟩ := bind_eq_ok.1 h3
  have h3 := Except.ok.inj (ε := PyErr) h3
  dsimp only at h4 h3 h
  subst h3
  cases r with
  | nonePair => cases h
  | nll w =>
    cases hq : st.minPars with
    | none => rw [hq] at h; cases h
    | some q' =>
      rw [hq] at h
      have h := Except.ok.inj (ε := PyErr) h
      simp only [Prod.mk.injEq] at h
      obtain ⟨rfl, rfl, rfl⟩ := h
      exact ⟨p, b, st, fr, h1, h4, h2, hq, rfl, rfl, rfl, rfl⟩

theorem setPois_none (m : ParModel ℝ) (pois : List (PoiRange ℝ)) (ref : Pars ℝ) :
    setPois m pois ref none none false = setPois m pois ref none (some []) false := rfl

/-- The fit of all the POIs: the point, and that it is the best one. -/
theorem bestFit_spec {opt : Optim ℝ} {env : FitEnv ℝ} {m : ParModel ℝ} {pois : List (PoiRange ℝ)} {ref : Pars ℝ}
    {method : String} {v : ℝ} {q : Pars ℝ} {s : OptiMin ℝ} (hm : pois.map (·.par) = m.pois) (hn : m.pois.Nodup)
    (hs : Shaped m ref) (hle : ∀ r ∈ pois, ∀ lo hi, r.min = some lo → r.max = some hi → lo ≤ hi)
    (hopt : GoodFit opt env m pois ref)
    (h : bestFit opt env m pois ref method = .ok (v, q, s)) :
    ∃ p, p.pois.length = m.pois.length ∧ p.nps = ref.nps ∧ InBox m pois [] [] p ∧ env.profile p = .ok q ∧ env.nll q = .ok v ∧
      IsLeast (profNlls env m pois [] [] ref.nps) v := by
  obtain ⟨p0, b, st, fr, h1, h2, h3, h4, _⟩ := bestFit_inv h
  set run := opt env (if fr.length > 1 ∧ method = "scalar" then "L-BFGS-B" else method) p0 fr with hrun
  have hle' : ∀ n b lo hi, effBound pois [] [] n = some b → b.min = some lo → b.max = some hi → lo ≤ hi := by
    intro n b lo hi hb h1 h2
    simp only [effBound, lastFor, lastBound, List.filter_nil, List.getLast?_nil, Option.map_none] at hb
    have := List.mem_of_getLast? hb
    exact hle b (List.mem_filter.1 this).1 lo hi h1 h2
  have hO : ∀ fr', freeBounds b = .ok fr' → fr' ≠ [] → Optimal env p0 fr' run := by
    intro fr' hf hne
    rw [h2] at hf
    have := Except.ok.inj (ε := PyErr) hf
    subst this
    exact (hopt p0 b fr _ h1 h2 hne).1
  have h1' := h1
  rw [setPois_none] at h1'
  obtain ⟨v', hv', hl⟩ := fit_least env m pois ref p0 none [] false b method run st (.nll v) hm hn hs (by simp) (by simp)
    (by simpa using hle') h1' h3 hO
  simp only [Option.getD_none, Bool.false_eq_true, if_false] at hl
  -- the point
  obtain ⟨hinv, s0, _, _⟩ := setPois_facts m pois ref _ _ _ p0 b hs h1
  obtain ⟨_, g1, g2, g3⟩ := setPois_inv m pois ref _ _ _ p0 b h1
  obtain ⟨ex, hk⟩ := buildBounds_keys _ _ _ _ _ g2 (by rw [hm]; exact hn)
  rw [hm] at hk
  have hbd : ∀ n, b.get? n = effBound pois [] [] n := by
    intro n
    simpa using c21_bounds m pois ref p0 none none false b h1 n
  have hstart : InBox m pois [] [] p0 := by
    intro n hmem b' hb'
    exact c21_start_within m pois ref p0 none none false b hs h1 n b' (by simpa using hb')
      (fun lo hi => hle' n b' lo hi hb')
  have hnps : p0.nps = ref.nps := by
    have hh : setHypo m [] ref = .ok ref := rfl
    simp only [Option.getD_none] at g1
    rw [hh] at g1
    have := Except.ok.inj (ε := PyErr) g1
    subst this
    refine clampInit_nps m b.values ref p0 ?_ g3
    intro b' hb'
    obtain ⟨⟨k, b''⟩, he, rfl⟩ := List.mem_map.1 hb'
    have h5 := hbd k
    rw [(Dict.get?_eq_some_iff b hinv.1 k b'').2 he] at h5
    have := effBound_mem m pois [] [] hm (by simp) (by simp) k b'' h5.symm
    rw [hinv.2 _ he]; exact this
  obtain ⟨fr', hfr', hcase⟩ := minimize_inv env m _ st run _ h3
  rw [h2] at hfr'
  have := Except.ok.inj (ε := PyErr) hfr'
  subst this
  rcases hcase with ⟨hnil, _, w, q', hp, e1, e2, e3, _⟩ | ⟨hne, es, hes, e, hsu, hfail⟩
  · rw [e2] at h4
    have := Option.some.inj h4
    subst this
    have hvw : v = w := by
      have := e3
      simpa using this
    subst hvw
    obtain ⟨a1, a2⟩ := profileAt_inv env _ _ _ hp
    rw [e1] at hv'
    have := Option.some.inj hv'
    subst this
    exact ⟨p0, s0.1, hnps, hstart, a1, a2, hl⟩
  · obtain ⟨hopt1, hlast⟩ := hopt p0 b fr (if fr.length > 1 ∧ method = "scalar" then "L-BFGS-B" else method) h1 h2 hne
    rw [← hrun] at hopt1 hlast
    obtain ⟨k1, k2, ⟨q2, k3⟩, k4⟩ := hopt1
    obtain ⟨e5, e6, _⟩ := hsu k1
    have hvw : v = run.fn := by simpa using e6
    obtain ⟨y, hy1, hy2⟩ := Lim.getLast_mapM _ _ _ hes _ hlast
    rw [hy2, h4] at e
    simp only [Option.map_some, Option.some_or, Option.some.injEq] at e
    rw [k3] at hy1
    have hy1 := Except.ok.inj (ε := PyErr) hy1
    rw [← hy1] at e
    simp only at e
    subst e
    rw [e5] at hv'
    have := Option.some.inj hv'
    subst this
    obtain ⟨p, hu, a1, a2⟩ := evalAt_inv env _ fr _ _ _ k3
    obtain ⟨sp, hpn, hall⟩ := evalPoint m b hinv ex hk hn fr h2 _ p0 p s0 hu
    refine ⟨p, sp.1, hpn.trans hnps, ?_, a1, by rw [hvw]; exact a2, by rw [hvw]; exact hl⟩
    intro n hmem b1 hb1
    obtain ⟨b2, w, hb2, hw, hfix, hfree⟩ := hall n hmem
    rw [hbd n, hb1] at hb2
    have := Option.some.inj hb2
    subst this
    refine ⟨w, hw, ?_⟩
    obtain ⟨isf, hisf⟩ := (freeBounds_inv b fr h2).2.2 b1 (by
      have : b.get? n = some b1 := by rw [hbd n, hb1]
      exact List.mem_map.2 ⟨_, (Dict.get?_eq_some_iff b hinv.1 n b1).1 this, rfl⟩)
    cases isf with
    | true => exact (allows_iff b1 w).1 (hfree hisf (k2.imp fun a c h => (allows_iff a.2 c).2 h))
    | false =>
      obtain ⟨w0, hw0, hal⟩ := hstart n hmem b1 hb1
      rw [hfix hisf] at hw0
      have := Except.ok.inj (ε := PyErr) hw0
      subst this
      exact hal

/-! ### Asimov data: the minimum is reached only where the yields are those of the data -/

theorem gibbs_eq {c N : ℝ} (hc : 0 < c) (hN : 0 < N) (h : N - c * Real.log N ≤ c - c * Real.log c) : N = c := by
  by_contra hne
  have h1 : N / c ≠ 1 := fun e => hne ((div_eq_one_iff_eq hc.ne').1 e)
  have h2 := Real.log_lt_sub_one_of_pos (div_pos hN hc) h1
  rw [Real.log_div hN.ne' hc.ne'] at h2
  have h3 : c * (Real.log N - Real.log c) < c * (N / c - 1) := mul_lt_mul_of_pos_left h2 hc
  have h4 : c * (N / c - 1) = N - c := by field_simp
  linarith

/-- Points with the NLL of the generating point have its yields. -/
theorem asimov_eq {m : Mdl n P} {A : Mdl.Arrays} (hH : m.HPsd) (hs : m.HSymm)
    {R : Nat → ℝ} (hR : m.refTot A = .ok R) (hR0 : ∀ b < m.nbinsPoisson, 0 < R b)
    {x₀ : Fin n → ℝ} {θ₀ : Fin P → ℝ} {d : Mdl.DataV P} (hd : m.generateAsimov A x₀ θ₀ = .ok d)
    (hp : ∀ b < m.nbinsPoisson, 0 < d.counts b) (f : ℝ) (hfl : ∀ b < m.nbinsPoisson, f < d.counts b)
    {v₀ : ℝ} (hv₀ : m.nll A x₀ θ₀ d true none = .ok (.fin v₀))
    {x : Fin n → ℝ} {θ : Fin P → ℝ} (hv : m.nll A x θ d true (some f) = .ok (.fin v₀)) :
    ∃ N, m.totBinExp A x θ = .ok N ∧ (∀ b < m.nbinsPoisson, N b = d.counts b) ∧
      (∑ i ∈ Finset.range m.nbinsGaussian, ∑ j ∈ Finset.range m.nbinsGaussian,
        (N (m.nbinsPoisson + i) - d.counts (m.nbinsPoisson + i)) * m.poiHessian i j *
        (N (m.nbinsPoisson + j) - d.counts (m.nbinsPoisson + j))) = 0 ∧
      ∀ p, (m.nps p).constraintWeight ≠ 0 → θ p = θ₀ p := by
  simp only [Mdl.generateAsimov] at hd
  obtain ⟨N0, h0, hd⟩ := bind_eq_ok.1 hd
  have hd := Except.ok.inj hd
  subst hd
  have hv' := hv
  simp only [Mdl.nll] at hv'
  obtain ⟨N, hN, _⟩ := bind_eq_ok.1 hv'
  have hN2 := hN
  unfold Mdl.totBinExp at hN2
  obtain ⟨ne, hne, _⟩ := bind_eq_ok.1 hN2
  have hN' : m.totBinExp A x θ = .ok (fun b => ∑ s ∈ Finset.range m.maxSamples, ne s b) := by
    simp only [Mdl.totBinExp, hne, bind_ok]; rfl
  have hpos : ∀ b < m.nbinsPoisson, 0 < N b := by
    by_contra hc
    push Not at hc
    obtain ⟨b, hb, hle⟩ := hc
    rw [Mdl.nll_off_bad hN (fun b hb => (hp b hb).le) hR hR0 hb hle] at hv
    cases Except.ok.inj hv
  rw [Mdl.nll_off_ok hN hpos hR hR0] at hv
  rw [Mdl.nll_off_ok h0 hp hR hR0] at hv₀
  have e1 := Flt.fin.inj (Except.ok.inj (ε := PyErr) hv)
  have e0 := Flt.fin.inj (Except.ok.inj (ε := PyErr) hv₀)
  rw [Mdl.nllValOff_eq hpos hR0 _ hs] at e1
  rw [Mdl.nllValOff_eq hp hR0 _ hs] at e0
  have e : m.nllVal N θ ⟨N0, θ₀⟩ false = m.nllVal N0 θ₀ ⟨N0, θ₀⟩ false := by linarith
  simp only [Mdl.nllVal, Bool.false_eq_true, if_false] at e
  have q0 : m.quad (fun i => N0 (m.nbinsPoisson + i) - N0 (m.nbinsPoisson + i))
    (fun i => N0 (m.nbinsPoisson + i) - N0 (m.nbinsPoisson + i)) = 0 := by simp [Mdl.quad]
  have q1 : 0 ≤ m.quad (fun i => N (m.nbinsPoisson + i) - N0 (m.nbinsPoisson + i))
      (fun i => N (m.nbinsPoisson + i) - N0 (m.nbinsPoisson + i)) := mul_nonneg (by norm_num) (hH _)
  have q2 : m.constraintTerm θ₀ ⟨N0, θ₀⟩ = 0 := by
    simp [Mdl.constraintTerm, show (fun p : Fin P => (0 : ℝ)) = 0 from rfl]
  have q3 := m.constraintTerm_nonneg θ ⟨N0, θ₀⟩
  have q4 : ∀ b ∈ Finset.range m.nbinsPoisson, N0 b - N0 b * Real.log (N0 b) ≤ N b - N0 b * Real.log (N b) :=
    fun b hb => Mdl.gibbs (hp b (Finset.mem_range.1 hb)) (hpos b (Finset.mem_range.1 hb))
  have q5 := Finset.sum_le_sum q4
  rw [q0, q2] at e
  have r1 : m.quad (fun i => N (m.nbinsPoisson + i) - N0 (m.nbinsPoisson + i))
      (fun i => N (m.nbinsPoisson + i) - N0 (m.nbinsPoisson + i)) = 0 := by linarith
  have r2 : m.constraintTerm θ ⟨N0, θ₀⟩ = 0 := by linarith
  have r3 : ∑ b ∈ Finset.range m.nbinsPoisson, (N0 b - N0 b * Real.log (N0 b)) =
      ∑ b ∈ Finset.range m.nbinsPoisson, (N b - N0 b * Real.log (N b)) := by linarith
  have r4 := (Finset.sum_eq_sum_iff_of_le q4).1 r3
  have r5 : ∀ b < m.nbinsPoisson, N b = N0 b := fun b hb =>
    gibbs_eq (hp b hb) (hpos b hb) (r4 b (Finset.mem_range.2 hb)).ge
  have hcases : ∀ b, N b = if b < m.nbinsPoisson then max (∑ s ∈ Finset.range m.maxSamples, ne s b) f
      else ∑ s ∈ Finset.range m.maxSamples, ne s b := by
    intro b
    simp only [Mdl.totBinExp, hne, bind_ok, pure_ok] at hN
    have := Except.ok.inj (ε := PyErr) hN
    rw [← this]
  refine ⟨_, hN', ?_, ?_, ?_⟩
  · intro b hb
    have h1 := r5 b hb
    rw [hcases b, if_pos hb] at h1
    have h2 := hfl b hb
    dsimp only at h2 ⊢
    rcases le_total (∑ s ∈ Finset.range m.maxSamples, ne s b) f with hle | hle
    · rw [max_eq_right hle] at h1; exact absurd h1 h2.ne
    · rwa [max_eq_left hle] at h1
  · have hg : ∀ i, N (m.nbinsPoisson + i) = ∑ s ∈ Finset.range m.maxSamples, ne s (m.nbinsPoisson + i) := fun i => by
      rw [hcases, if_neg (by omega)]
    simp only [← hg]
    simp only [Mdl.quad] at r1
    linarith
  · intro p hw
    simp only [Mdl.constraintTerm, Mdl.constraintHessian, dotProduct, Matrix.mulVec_diagonal] at r2
    have r6 : ∑ p, (θ₀ p - θ p) * ((m.nps p).constraintWeight * (θ₀ p - θ p)) = 0 := by linarith
    have r7 := (Finset.sum_eq_zero_iff_of_nonneg (fun p _ => by
      have h2 := mul_nonneg (NP.constraintWeight_nonneg (m.nps p)) (mul_self_nonneg (θ₀ p - θ p))
      linarith)).1 r6 p (Finset.mem_univ p)
    have r8 : (m.nps p).constraintWeight * ((θ₀ p - θ p) * (θ₀ p - θ p)) = 0 := by linarith
    have r9 := (mul_eq_zero.1 r8).resolve_left hw
    have := mul_self_eq_zero.1 r9
    linarith

/-! ### What the covariance does not see -/

theorem chan_same (m : Mdl n P) (cov : Channel → Nat → Nat → ℝ) (cons : Fin P → Option ℝ) :
    (withErrors m cov cons).nbins = m.nbins ∧ (withErrors m cov cons).maxSamples = m.maxSamples := by
  have key : ∀ (l : List Channel) (k k' : Nat) (s s' : ChanState), s.nbins = s'.nbins → s.maxSamples = s'.maxSamples →
      ((l.map fun ch => { ch with hessian := cov ch }).foldl (chanStep k) s).nbins = (l.foldl (chanStep k') s').nbins ∧
      ((l.map fun ch => { ch with hessian := cov ch }).foldl (chanStep k) s).maxSamples =
        (l.foldl (chanStep k') s').maxSamples := by
    intro l k k'
    induction l with
    | nil => exact fun s s' h1 h2 => ⟨h1, h2⟩
    | cons a l ih =>
      intro s s' h1 h2
      rw [List.map_cons, List.foldl_cons, List.foldl_cons]
      refine ih _ _ ?_ ?_
      · simp [chanStep, h1]
      · simp [chanStep, h2]
  exact key m.channels _ _ _ _ rfl rfl

theorem stack_same {α : Type} [Zero α] (m : Mdl n P) (cov : Channel → Nat → Nat → ℝ) (cons : Fin P → Option ℝ)
    (f : Sample → Except PyErr (List α)) : (withErrors m cov cons).stackRows f = m.stackRows f := by
  obtain ⟨e1, e2⟩ := chan_same m cov cons
  have : ∀ s, (withErrors m cov cons).channels.mapM (fun ch => ch.part s f) = m.channels.mapM (fun ch => ch.part s f) := by
    intro s
    simp only [withErrors]
    generalize m.channels = l
    induction l with
    | nil => rfl
    | cons a l ih =>
      rw [List.map_cons, List.mapM_cons, List.mapM_cons, ih]
      rfl
  simp only [Mdl.stackRows, e1, e2, this]

/-! ### The text of `--asimov` and `--hypo` -/

theorem assignLoop_num {M : Cmd.Names} {nps : List String} {val : Cmd.Str} (l : List String) (w : ℝ) (d : Dict Cmd.Val)
    (h : ∀ kv ∈ d, ∃ v, kv.2 = Cmd.Val.num v) :
    ∀ kv ∈ Cmd.assignLoop M {} nps val l (some w) d, ∃ v, kv.2 = Cmd.Val.num v := by
  induction l generalizing d with
  | nil => exact h
  | cons p l ih =>
    simp only [Cmd.assignLoop, Bool.false_and, Bool.false_eq_true, if_false]
    refine ih _ ?_
    intro kv hkv
    rcases Markup.mem_set hkv with hk | rfl
    · exact h kv hk
    · exact ⟨w, rfl⟩

theorem setvals_num {L : Cmd.Lib} {M : Cmd.Names} (fs : List (Cmd.Str × Cmd.Str)) (d D : Dict Cmd.Val)
    (h : ∀ kv ∈ d, ∃ v, kv.2 = Cmd.Val.num v)
    (hD : (fs.map fun a => [a.1, a.2]).foldlM (Cmd.assignOne L M {}) d = .ok D) : ∀ kv ∈ D, ∃ v, kv.2 = Cmd.Val.num v := by
  induction fs generalizing d with
  | nil =>
    have := Except.ok.inj (ε := PyErr) hD
    subst this
    exact h
  | cons a fs ih =>
    rw [List.map_cons, List.foldlM_cons, bind_eq_ok] at hD
    obtain ⟨d1, h1, h2⟩ := hD
    refine ih d1 ?_ h2
    rw [Cmd.assignOne_eq] at h1
    split at h1
    · cases h1
    · rename_i hc
      have h1 := Except.ok.inj (ε := PyErr) h1
      subst h1
      push Not at hc
      obtain ⟨w, hw⟩ := Option.ne_none_iff_exists'.1 (hc.2 rfl)
      rw [hw]
      exact assignLoop_num _ _ _ h

theorem nums {D : Dict Cmd.Val} (h : ∀ kv ∈ D, ∃ v, kv.2 = Cmd.Val.num v) :
    ∃ E : Dict ℝ, D.mapM (fun kv => match kv.2 with
      | .num v => Except.ok (kv.1, v)
      | .text _ => .error PyErr.unmodelled) = .ok E ∧ (∀ k v, D.get? k = some (.num v) → E.get? k = some v) ∧
      E.keys = D.keys := by
  induction D with
  | nil => exact ⟨[], rfl, (fun k v hk => by simp [Dict.get?] at hk), rfl⟩
  | cons a D ih =>
    obtain ⟨k0, x⟩ := a
    obtain ⟨w, hw⟩ := h (k0, x) (by simp)
    dsimp only at hw
    subst hw
    obtain ⟨E, e1, e2, e3⟩ := ih (fun kv hk => h kv (by simp [hk]))
    refine ⟨(k0, w) :: E, by rw [List.mapM_cons, e1]; rfl, ?_, by simp [Dict.keys] at e3 ⊢; exact e3⟩
    intro k v hk
    rw [Dict.get?_cons] at hk ⊢
    by_cases e : k0 = k
    · rw [if_pos e] at hk ⊢
      cases hk
      rfl
    · rw [if_neg e] at hk ⊢
      exact e2 k v hk

end Verif.FitS
