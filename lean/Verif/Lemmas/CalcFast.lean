import Verif.Lemmas.Calc
/-! Helper lemmas about `compute_fast_q` and `compute_fast_results`. -/
namespace Verif
open Classical

/-- The part of `compute_fast_plr` after the fits. -/
noncomputable def plrOf (c : CalcSetup) (hypo : Hypo) (full : Option (Pars ℝ)) (o : TmuOut ℝ) :
    Except PyErr PLRData := do
  let d ← PLRData.update c.m ⟨hypo, none, none, [], [], full⟩
  let ff ← FitResult.init c.m (some o.freePars) (some o.freeNll) none
  let hf ← FitResult.init c.m (some o.hypoPars) (some o.hypoNll) none
  PLRData.update c.m { d with testStats := d.testStats.set "tmu" o.tmu
                              freeFit := some ff, hypoFit := some hf }

/-- What `compute_fast_plr` gives, as a function of the outcome of `tmu`. -/
noncomputable def plrMap (c : CalcSetup) (hypo : Hypo) (full : Option (Pars ℝ)) (o : Except PyErr (TmuOut ℝ)) :
    Except PyErr PLRData := do
  let _ ← PLRData.update c.m ⟨hypo, none, none, [], [], full⟩
  let o ← o
  plrOf c hypo full o

theorem fastPlr_outcome (c : CalcSetup) (env : FitEnv ℝ) (hypo : Hypo) (full : Option (Pars ℝ))
    (s : OptiMin ℝ) :
    (fastPlr c env hypo full s).map Prod.snd =
      plrMap c hypo full ((s.tmu c.opt c.m c.pois env (full.getD c.ref) hypo).map Prod.snd) := by
  unfold fastPlr plrMap plrOf
  cases PLRData.update c.m ⟨hypo, none, none, [], [], full⟩ with
  | error e => rfl
  | ok d =>
    simp only [bind_ok]
    cases s.tmu c.opt c.m c.pois env (full.getD c.ref) hypo with
    | error e => rfl
    | ok x =>
      simp only [bind_ok, Except.map]
      cases FitResult.init c.m (some x.2.freePars) (some x.2.freeNll) none with
      | error e => rfl
      | ok ff =>
        simp only [bind_ok]
        cases FitResult.init c.m (some x.2.hypoPars) (some x.2.hypoNll) none with
        | error e => rfl
        | ok hf =>
          simp only [bind_ok]
          cases PLRData.update c.m { d with testStats := d.testStats.set "tmu" x.2.tmu, freeFit := some ff, hypoFit := some hf } with
          | error e => rfl
          | ok d' => rfl

theorem fastPlr_tmu (c : CalcSetup) (env : FitEnv ℝ) (hypo : Hypo) (full : Option (Pars ℝ))
    (s s' : OptiMin ℝ) (d : PLRData) (h : fastPlr c env hypo full s = .ok (s', d)) :
    ∃ o, s.tmu c.opt c.m c.pois env (full.getD c.ref) hypo = .ok (s', o) ∧
      plrOf c hypo full o = .ok d := by
  unfold fastPlr at h
  obtain ⟨d0, h0, h1⟩ := bind_eq_ok.1 h
  obtain ⟨⟨s1, o⟩, h2, h3⟩ := bind_eq_ok.1 h1
  simp only at h3
  obtain ⟨ff, h4, h5⟩ := bind_eq_ok.1 h3
  obtain ⟨hf, h6, h7⟩ := bind_eq_ok.1 h5
  obtain ⟨d', h8, h9⟩ := bind_eq_ok.1 h7
  have := Except.ok.inj (ε := PyErr) h9
  simp only [Prod.mk.injEq] at this
  obtain ⟨rfl, rfl⟩ := this
  refine ⟨o, h2, ?_⟩
  unfold plrOf
  rw [h0, bind_ok, h4, bind_ok, h6, bind_ok, h8]

/-- What is in the PLR data. -/
theorem plrOf_spec (c : CalcSetup) (hypo : Hypo) (full : Option (Pars ℝ)) (o : TmuOut ℝ) (d : PLRData)
    (h : plrOf c hypo full o = .ok d) :
    ∃ ff hf, FitResult.init c.m (some o.freePars) (some o.freeNll) none = .ok ff ∧
      FitResult.init c.m (some o.hypoPars) (some o.hypoNll) none = .ok hf ∧
      d = ⟨hypo, some ff, some hf, [("tmu", o.tmu)], [], full⟩ ∧
      (∀ n ∈ Dict.keys hypo, n ∈ c.m.pois) := by
  unfold plrOf at h
  obtain ⟨d0, h0, h1⟩ := bind_eq_ok.1 h
  obtain ⟨ff, h4, h5⟩ := bind_eq_ok.1 h1
  obtain ⟨hf, h6, h7⟩ := bind_eq_ok.1 h5
  have hk : ∀ n ∈ Dict.keys hypo, n ∈ c.m.pois := by
    unfold PLRData.update at h0
    by_contra hc
    rw [if_neg hc] at h0
    cases h0
  have e0 : d0 = ⟨hypo, none, none, [], [], full⟩ := by
    unfold PLRData.update at h0
    simp only at h0
    rw [if_pos hk] at h0
    simpa using h0.symm
  subst e0
  refine ⟨ff, hf, h4, h6, ?_, hk⟩
  unfold PLRData.update at h7
  simp only at h7
  rw [if_pos hk] at h7
  simpa [Dict.set, Dict.keys] using h7.symm

theorem init_nll (m : ParModel ℝ) (p : Option (Pars ℝ)) (v : Option ℝ) (h : Option Hypo) (r : FitResult)
    (e : FitResult.init m p v h = .ok r) : r.nll = v := by
  unfold FitResult.init at e
  cases p with
  | none =>
    have := Except.ok.inj (ε := PyErr) e
    rw [← this]
  | some p =>
    obtain ⟨d, _, e1⟩ := bind_eq_ok.1 e
    obtain ⟨d', _, e2⟩ := bind_eq_ok.1 e1
    have := Except.ok.inj (ε := PyErr) e2
    rw [← this]

theorem fastPlr_alike (c : CalcSetup) (hopt : Evaluates c.opt) (env : FitEnv ℝ) (hypo : Hypo)
    (full : Option (Pars ℝ)) (s s' : OptiMin ℝ) (h : Alike c.pois s s') :
    (fastPlr c env hypo full s).map Prod.snd = (fastPlr c env hypo full s').map Prod.snd := by
  rw [fastPlr_outcome, fastPlr_outcome, tmu_alike c.opt hopt c.m c.pois env _ hypo s s' h]

theorem fastPlr_keeps (c : CalcSetup) (env : FitEnv ℝ) (hypo : Hypo)
    (full : Option (Pars ℝ)) (s s' : OptiMin ℝ) (d : PLRData) (hr : Reusable c.pois s)
    (h : fastPlr c env hypo full s = .ok (s', d)) : Alike c.pois s s' ∧ Reusable c.pois s' := by
  obtain ⟨o, ho, _⟩ := fastPlr_tmu c env hypo full s s' d h
  exact tmu_keeps c.opt c.m c.pois env _ hypo s s' o hr ho

theorem map_snd_ok {α β : Type} {x : Except PyErr (α × β)} {b : β} (h : x.map Prod.snd = .ok b) :
    ∃ a, x = .ok (a, b) := by
  cases x with
  | error e => cases h
  | ok y => exact ⟨y.1, by rw [← Except.ok.inj (ε := PyErr) h]⟩

theorem fastQ_inv (c : CalcSetup) (k : CalcKind) (data : DataEnv) (hypo : Hypo)
    (full : Option (Pars ℝ)) (s s' : OptiMin ℝ) (d : PLRData) :
    fastQ c k data hypo full s = .ok (s', d) ↔
    ∃ s1 d1 ae a d2, fastPlr c data.fit hypo full s = .ok (s1, d1) ∧ data.asimov = .ok ae ∧
      fastPlr c ae hypo full s1 = .ok (s', a) ∧ d1.setAsimov a = .ok d2 ∧ fillPv k d2 = .ok d := by
  unfold fastQ
  constructor
  · intro h
    obtain ⟨⟨s1, d1⟩, h1, h2⟩ := bind_eq_ok.1 h
    obtain ⟨ae, h3, h4⟩ := bind_eq_ok.1 h2
    obtain ⟨⟨s2, a⟩, h5, h6⟩ := bind_eq_ok.1 h4
    obtain ⟨d2, h7, h8⟩ := bind_eq_ok.1 h6
    obtain ⟨d3, h9, h10⟩ := bind_eq_ok.1 h8
    have := Except.ok.inj (ε := PyErr) h10
    simp only [Prod.mk.injEq] at this
    obtain ⟨rfl, rfl⟩ := this
    exact ⟨s1, d1, ae, a, d2, h1, h3, h5, h7, h9⟩
  · rintro ⟨s1, d1, ae, a, d2, h1, h3, h5, h7, h9⟩
    rw [h1, bind_ok]
    simp only
    rw [h3, bind_ok, h5, bind_ok]
    simp only
    rw [h7, bind_ok, h9, bind_ok]
    rfl

/-- `compute_fast_q` gives the same result from minimisers that are alike. -/
theorem fastQ_alike (c : CalcSetup) (hopt : Evaluates c.opt) (k : CalcKind) (data : DataEnv) (hypo : Hypo)
    (full : Option (Pars ℝ)) (s s' s1 : OptiMin ℝ) (d : PLRData) (hal : Alike c.pois s s')
    (hr : Reusable c.pois s) (hr' : Reusable c.pois s')
    (h : fastQ c k data hypo full s = .ok (s1, d)) :
    ∃ s1', fastQ c k data hypo full s' = .ok (s1', d) := by
  obtain ⟨t1, d1, ae, a, d2, h1, h2, h3, h4, h5⟩ := (fastQ_inv c k data hypo full s s1 d).1 h
  have e1 := fastPlr_alike c hopt data.fit hypo full s s' hal
  rw [h1] at e1
  obtain ⟨u1, g1⟩ := map_snd_ok e1.symm
  obtain ⟨a1, r1⟩ := fastPlr_keeps c data.fit hypo full s t1 d1 hr h1
  obtain ⟨a2, r2⟩ := fastPlr_keeps c data.fit hypo full s' u1 d1 hr' g1
  have e2 := fastPlr_alike c hopt ae hypo full t1 u1 (a1.symm.trans (hal.trans a2))
  rw [h3] at e2
  obtain ⟨u2, g2⟩ := map_snd_ok e2.symm
  exact ⟨u2, (fastQ_inv c k data hypo full s' u2 d).2 ⟨u1, d1, ae, a, d2, g1, h2, g2, h4, h5⟩⟩

theorem fastQ_keeps (c : CalcSetup) (k : CalcKind) (data : DataEnv) (hypo : Hypo)
    (full : Option (Pars ℝ)) (s s' : OptiMin ℝ) (d : PLRData) (hr : Reusable c.pois s)
    (h : fastQ c k data hypo full s = .ok (s', d)) : Alike c.pois s s' ∧ Reusable c.pois s' := by
  obtain ⟨t1, d1, ae, a, d2, h1, h2, h3, h4, h5⟩ := (fastQ_inv c k data hypo full s s' d).1 h
  obtain ⟨a1, r1⟩ := fastPlr_keeps c data.fit hypo full s t1 d1 hr h1
  obtain ⟨a2, r2⟩ := fastPlr_keeps c ae hypo full t1 s' a r1 h3
  exact ⟨a1.trans a2, r2⟩

/-! ### p-values -/

theorem fillPv_fixed {k : CalcKind} {d d' : PLRData} (h : fillPv k d = .ok d') :
    d'.hypo = d.hypo ∧ d'.freeFit = d.freeFit ∧ d'.hypoFit = d.hypoFit ∧ d'.fullHypo = d.fullHypo ∧
    (∀ key, key ≠ "q_mu" → key ≠ "q~mu" → Dict.get? d'.testStats key = Dict.get? d.testStats key) := by
  cases k with
  | tmu =>
    unfold fillPv at h
    obtain ⟨q, h1, h2⟩ := bind_eq_ok.1 h
    have := Except.ok.inj (ε := PyErr) h2
    rw [← this]
    exact ⟨rfl, rfl, rfl, rfl, fun _ _ _ => rfl⟩
  | qmu =>
    unfold fillPv at h
    obtain ⟨q, h1, h2⟩ := bind_eq_ok.1 h
    obtain ⟨pv, h3, h4⟩ := bind_eq_ok.1 h2
    obtain ⟨cls, h5, h6⟩ := bind_eq_ok.1 h4
    obtain ⟨clb, h7, h8⟩ := bind_eq_ok.1 h6
    have := Except.ok.inj (ε := PyErr) h8
    rw [← this]
    exact ⟨rfl, rfl, rfl, rfl, fun key e1 _ => Dict.get?_set_ne _ _ e1.symm⟩
  | qmutilda =>
    unfold fillPv at h
    obtain ⟨q, h1, h2⟩ := bind_eq_ok.1 h
    obtain ⟨pv, h3, h4⟩ := bind_eq_ok.1 h2
    obtain ⟨cls, h5, h6⟩ := bind_eq_ok.1 h4
    obtain ⟨clb, h7, h8⟩ := bind_eq_ok.1 h6
    have := Except.ok.inj (ε := PyErr) h8
    rw [← this]
    exact ⟨rfl, rfl, rfl, rfl, fun key _ e2 => Dict.get?_set_ne _ _ e2.symm⟩

theorem makeTMu_congr {d d' : PLRData} (hh : d'.hypo = d.hypo)
    (h1 : Dict.get? d'.testStats "tmu" = Dict.get? d.testStats "tmu") : makeTMu d' = makeTMu d := by
  unfold makeTMu Dict.getItem
  rw [h1, hh]

theorem makeQMu_congr {d d' : PLRData} (hh : d'.hypo = d.hypo) (hf : d'.freeFit = d.freeFit)
    (h1 : Dict.get? d'.testStats "tmu" = Dict.get? d.testStats "tmu")
    (h2 : Dict.get? d'.testStats "tmu_A0" = Dict.get? d.testStats "tmu_A0") : makeQMu d' = makeQMu d := by
  unfold makeQMu calcPoi bestOf Dict.getItem
  rw [h1, h2, hh, hf]

theorem makeQMuTilda_congr {d d' : PLRData} (hh : d'.hypo = d.hypo) (hf : d'.freeFit = d.freeFit)
    (h1 : Dict.get? d'.testStats "tmu" = Dict.get? d.testStats "tmu")
    (h2 : Dict.get? d'.testStats "tmu_A0" = Dict.get? d.testStats "tmu_A0") :
    makeQMuTilda d' = makeQMuTilda d := by
  unfold makeQMuTilda calcPoi bestOf Dict.getItem
  rw [h1, h2, hh, hf]

/-- Filling p-values twice is the same as once. -/
theorem fillPv_again {k : CalcKind} {d d' : PLRData} (h : fillPv k d = .ok d') : fillPv k d' = .ok d' := by
  obtain ⟨f1, f2, f3, f4, f5⟩ := fillPv_fixed h
  have t1 := f5 "tmu" (by decide) (by decide)
  have t2 := f5 "tmu_A0" (by decide) (by decide)
  cases k with
  | tmu =>
    unfold fillPv at h ⊢
    rw [makeTMu_congr f1 t1]
    obtain ⟨q, h1, h2⟩ := bind_eq_ok.1 h
    have := Except.ok.inj (ε := PyErr) h2
    rw [h1, bind_ok, ← this]
    simp only [pure_ok]
    rw [Dict.set_same _ _ _ (Dict.get?_set_self _ _ _)]
  | qmu =>
    unfold fillPv at h ⊢
    rw [makeQMu_congr f1 f2 t1 t2]
    obtain ⟨q, h1, h2⟩ := bind_eq_ok.1 h
    obtain ⟨pv, h3, h4⟩ := bind_eq_ok.1 h2
    obtain ⟨cls, h5, h6⟩ := bind_eq_ok.1 h4
    obtain ⟨clb, h7, h8⟩ := bind_eq_ok.1 h6
    have := Except.ok.inj (ε := PyErr) h8
    rw [h1, bind_ok, h3, bind_ok, h5, bind_ok, h7, bind_ok, ← this]
    simp only [pure_ok]
    rw [Dict.set_same _ _ _ (Dict.get?_set_self _ _ _)]
    rw [Dict.set_same _ "pv" _ (by
      rw [Dict.get?_set_ne _ _ (by decide), Dict.get?_set_ne _ _ (by decide), Dict.get?_set_self])]
    rw [Dict.set_same _ "cls" _ (by rw [Dict.get?_set_ne _ _ (by decide), Dict.get?_set_self])]
    rw [Dict.set_same _ "clb" _ (Dict.get?_set_self _ _ _)]
  | qmutilda =>
    unfold fillPv at h ⊢
    rw [makeQMuTilda_congr f1 f2 t1 t2]
    obtain ⟨q, h1, h2⟩ := bind_eq_ok.1 h
    obtain ⟨pv, h3, h4⟩ := bind_eq_ok.1 h2
    obtain ⟨cls, h5, h6⟩ := bind_eq_ok.1 h4
    obtain ⟨clb, h7, h8⟩ := bind_eq_ok.1 h6
    have := Except.ok.inj (ε := PyErr) h8
    rw [h1, bind_ok, h3, bind_ok, h5, bind_ok, h7, bind_ok, ← this]
    simp only [pure_ok]
    rw [Dict.set_same _ _ _ (Dict.get?_set_self _ _ _)]
    rw [Dict.set_same _ "pv" _ (by
      rw [Dict.get?_set_ne _ _ (by decide), Dict.get?_set_ne _ _ (by decide), Dict.get?_set_self])]
    rw [Dict.set_same _ "cls" _ (by rw [Dict.get?_set_ne _ _ (by decide), Dict.get?_set_self])]
    rw [Dict.set_same _ "clb" _ (Dict.get?_set_self _ _ _)]

/-! ### The loop over hypotheses -/

/-- What the loop stores, in terms of computations made one by one with the initial minimiser. -/
theorem fastLoop_spec (h : List String → ℕ) (c : CalcSetup) (hopt : Evaluates c.opt) (k : CalcKind)
    (data : DataEnv) (full : HDict (Pars ℝ)) (hypos : List Hypo) (s0 s s' : OptiMin ℝ) (r r' : Raster)
    (hr0 : Reusable c.pois s0) (hr : Reusable c.pois s) (hal : Alike c.pois s s0)
    (hd : hypos.Pairwise (fun a b => ¬ a.matches h b))
    (hd' : ∀ e ∈ r, ∀ b ∈ hypos, ¬ e.1.matches h b)
    (e : fastLoop h c k data full hypos s r = .ok (s', r')) :
    ∃ l : Raster, r' = r ++ l ∧ List.Forall₂ (fun hy x => x.1 = hy ∧ x.2.keyFreeFit = none ∧
      ∃ s1, fastQ c k data hy (full.get? h hy) s0 = .ok (s1, x.2.data)) hypos l := by
  induction hypos generalizing s r with
  | nil =>
    have := Except.ok.inj (ε := PyErr) e
    simp only [Prod.mk.injEq] at this
    exact ⟨[], by rw [← this.2]; simp, .nil⟩
  | cons hy hs ih =>
    unfold fastLoop at e
    obtain ⟨⟨s1, d⟩, h1, h2⟩ := bind_eq_ok.1 e
    simp only at h2
    obtain ⟨a1, r1⟩ := fastQ_keeps c k data hy _ s s1 d hr h1
    obtain ⟨u, hu⟩ := fastQ_alike c hopt k data hy _ s s0 s1 d hal hr hr0 h1
    rw [HDict.set_append h r hy ⟨d, none⟩ (fun x hx => hd' x hx hy (by simp))] at h2
    rw [List.pairwise_cons] at hd
    obtain ⟨l, hl, hf⟩ := ih s1 (r ++ [(hy, ⟨d, none⟩)]) r1 (a1.symm.trans hal) hd.2 (by
      intro x hx b hb
      rw [List.mem_append, List.mem_singleton] at hx
      rcases hx with hx | hx
      · exact hd' x hx b (by simp [hb])
      · rw [hx]; exact hd.1 b hb) h2
    refine ⟨(hy, ⟨d, none⟩) :: l, by rw [hl]; simp, .cons ⟨rfl, rfl, u, hu⟩ hf⟩

end Verif
