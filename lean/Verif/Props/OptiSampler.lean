import Verif.Lemmas.OptiSampler
import Verif.Spec.OptiSampler
import Verif.Props.Calc
import Verif.Props.Coverage
import Verif.Lemmas.ComposeMdl
import Verif.Props.CalcTmu
import Verif.Props.Compose
import Verif.Lemmas.MarkupLoad
/-!
# C76: the samples of an `OptiSampler`
-/
namespace Verif.Props
open Verif Verif.Spec MeasureTheory

theorem OptiS.best_ok {f : OptiSampler.Fits} {b : ℝ} (h : OptiSampler.best f = .ok b) :
    ∃ more, f.minPois = some (b :: more) := by
  unfold OptiSampler.best at h
  cases hm : f.minPois with
  | none => rw [hm] at h; cases h
  | some l =>
    cases l with
    | nil => rw [hm] at h; cases h
    | cons x l =>
      rw [hm] at h
      have := Except.ok.inj (ε := PyErr) h
      exact ⟨l, by rw [← this]⟩

theorem OptiS.parts (c : CalcSetup) (cfg : OptiSampler.Cfg) (env : SampEnv) (s s' : OptiSampler.St) (pv : ℝ)
    (ha : s.min.altMethod = none) (hr : s.min.rebound = 0)
    (h : OptiSampler.compute c cfg env s = .ok (s', some pv)) :
    ∃ f o poi test rest best more, s.min.tmu c.opt c.m c.pois env.fit cfg.genHypo cfg.testHypo = .ok (s'.min, o) ∧
      f.tmu = o.tmu ∧ cfg.testHypo = (poi, test) :: rest ∧ s'.minPois = some (best :: more) ∧
      f.minPois = some (best :: more) ∧ o.tmu = max 0 (2 * (o.hypoNll - o.freeNll)) ∧
      OptiSampler.pvOf cfg f = .ok pv := by
  obtain ⟨f, h1, h2⟩ := OptiSampler.compute_inv c cfg env s s' _ h
  rcases h2 with ⟨_, h2⟩ | ⟨_, pv', h2, h3⟩
  · cases h2
  · cases h3
    obtain ⟨_, _, _, _, _, _, _, _, _, _, o, -, -, -, -, -, -, -, -, -, hm, ht, -, -, -, -, hat⟩ :=
      OptiSampler.tmu_inv c cfg env s s' f h1
    obtain ⟨_, _, _, _, _, _, _, _, _, _, _, _, _, _, _, _, he, _⟩ := attempt_inv _ _ _ _ _ _ _ _ _ hat
    rw [← tmu_eq_attempt _ _ _ _ _ _ s.min ha hr] at hat
    cases hh : cfg.testHypo with
    | nil =>
      unfold OptiSampler.pvOf at h2
      rw [hh] at h2
      cases h2
    | cons a rest =>
      obtain ⟨poi, test⟩ := a
      have h4 := h2
      unfold OptiSampler.pvOf at h4
      rw [hh] at h4
      obtain ⟨b, hb, -⟩ := bind_eq_ok.1 h4
      obtain ⟨more, hmo⟩ := OptiS.best_ok hb
      refine ⟨f, o, poi, test, rest, b, more, by rw [hh] at hat; exact hat, ht, rfl, by rw [hm, hmo], hmo, ?_, h2⟩
      rw [he]
      unfold tmuValue
      dsimp only
      split_ifs with hc
      · rw [max_eq_left hc.le]
      · rw [max_eq_right (not_lt.1 hc)]

/-- C76: what a sample is.  The sampler without Asimov values returns the one-sided p-value of the fits to the dataset: the
PLR statistic of the two fits (as `OptiMinimizer.tmu` gives it, so C20, C42 and C57 apply), the fitted value found in
`min_pois` and the value of the first POI of the test hypothesis. -/
theorem c76_qmu (c : CalcSetup) (cfg : OptiSampler.Cfg) (env : SampEnv) (s s' : OptiSampler.St) (pv : ℝ)
    (ha : s.min.altMethod = none) (hr : s.min.rebound = 0) (hA : cfg.tmuAmu = none ∨ cfg.tmuA0 = none)
    (h : OptiSampler.compute c cfg env s = .ok (s', some pv)) :
    ∃ o poi test rest best more, s.min.tmu c.opt c.m c.pois env.fit cfg.genHypo cfg.testHypo = .ok (s'.min, o) ∧
      cfg.testHypo = (poi, test) :: rest ∧ s'.minPois = some (best :: more) ∧
      o.tmu = max 0 (2 * (o.hypoNll - o.freeNll)) ∧ pv = qPv (qmuOf o.tmu best test) 0 := by
  obtain ⟨f, o, poi, test, rest, best, more, h1, h2, h3, h4, h5, h6, h7⟩ := OptiS.parts c cfg env s s' pv ha hr h
  refine ⟨o, poi, test, rest, best, more, h1, h3, h4, h6, ?_⟩
  unfold OptiSampler.pvOf at h7
  rw [h3] at h7
  have hb : OptiSampler.best f = .ok best := by unfold OptiSampler.best; rw [h5]
  simp only [hb, bind_ok] at h7
  have h8 : (QMu.init test f.tmu best none none none).asymptoticPv = .ok pv := by
    rcases hA with hA | hA
    · rw [hA] at h7; exact h7
    · rw [hA] at h7
      cases hx : cfg.tmuAmu <;> rw [hx] at h7 <;> exact h7
  have hn : (QMu.init test f.tmu best none none none).ncp = .ok 0 := by simp [QMu.ncp, QMu.init]
  unfold QMu.asymptoticPv at h8
  rw [hn, bind_ok, Option.getD_none] at h8
  have := Except.ok.inj (ε := PyErr) h8
  rw [← this]
  unfold qPv
  rw [ssqrt_eq, ← h2]
  rfl

/-- C76: with both Asimov values, the sample is the p-value of the bounded statistic; only the second Asimov value matters. -/
theorem c76_qmutilda (c : CalcSetup) (cfg : OptiSampler.Cfg) (env : SampEnv) (s s' : OptiSampler.St) (pv A A0 : ℝ)
    (ha : s.min.altMethod = none) (hr : s.min.rebound = 0) (hA : cfg.tmuAmu = some A) (hA0 : cfg.tmuA0 = some A0)
    (h : OptiSampler.compute c cfg env s = .ok (s', some pv)) :
    ∃ o poi test rest best more, s.min.tmu c.opt c.m c.pois env.fit cfg.genHypo cfg.testHypo = .ok (s'.min, o) ∧
      cfg.testHypo = (poi, test) :: rest ∧ s'.minPois = some (best :: more) ∧
      o.tmu = max 0 (2 * (o.hypoNll - o.freeNll)) ∧ pv = qtPv (qmutOf o.tmu best test) (max A0 0) 0 ∧
      (qmutOf o.tmu best test < max A0 0 ∨ 0 < A0) := by
  obtain ⟨f, o, poi, test, rest, best, more, h1, h2, h3, h4, h5, h6, h7⟩ := OptiS.parts c cfg env s s' pv ha hr h
  refine ⟨o, poi, test, rest, best, more, h1, h3, h4, h6, ?_⟩
  unfold OptiSampler.pvOf at h7
  rw [h3] at h7
  have hb : OptiSampler.best f = .ok best := by unfold OptiSampler.best; rw [h5]
  simp only [hb, bind_ok, hA, hA0] at h7
  have hn : (QMuTilda.init test f.tmu best none none (some A) (some A0)).ncp = .ok 0 := by
    simp [QMu.ncp, QMuTilda.init, QMu.init]
  have := qtilda_pv _ A0 0 rfl hn pv h7
  rw [← h2]
  exact this

/-- C76: samples are strictly between 0 and 1, as documented. -/
theorem c76_between (c : CalcSetup) (cfg : OptiSampler.Cfg) (env : SampEnv) (s s' : OptiSampler.St) (pv : ℝ)
    (ha : s.min.altMethod = none) (hr : s.min.rebound = 0)
    (h : OptiSampler.compute c cfg env s = .ok (s', some pv)) : 0 < pv ∧ pv < 1 := by
  by_cases hA : cfg.tmuAmu = none ∨ cfg.tmuA0 = none
  · obtain ⟨o, _, test, _, best, _, -, -, -, -, rfl⟩ := c76_qmu c cfg env s s' pv ha hr hA h
    exact ⟨normSf_pos _, normSf_lt_one _⟩
  · push Not at hA
    obtain ⟨a, h1⟩ := Option.ne_none_iff_exists'.1 hA.1
    obtain ⟨b, h2⟩ := Option.ne_none_iff_exists'.1 hA.2
    obtain ⟨o, _, test, _, best, _, -, -, -, -, rfl, -⟩ := c76_qmutilda c cfg env s s' pv a b ha hr h1 h2 h
    unfold qtPv
    split_ifs <;> exact ⟨normSf_pos _, normSf_lt_one _⟩

/-- C76: a computation fails (and the toy is generated again) only because of the bounds given to the sampler; the check for
a negative statistic never applies. -/
theorem c76_none_only_bounds (c : CalcSetup) (cfg : OptiSampler.Cfg) (env : SampEnv) (s s' : OptiSampler.St)
    (hb : cfg.bounds = []) : OptiSampler.compute c cfg env s ≠ .ok (s', none) := by
  intro h
  obtain ⟨f, -, h2⟩ := OptiSampler.compute_inv c cfg env s s' _ h
  rcases h2 with ⟨h2, -⟩ | ⟨-, pv, -, h2⟩
  · rw [hb] at h2
    cases h2
  · cases h2

/-- C76: the same p-value as the calculator's.  The sampler with the Asimov value found by `QMuTildaCalculator` for a
dataset, started at the same point, reproduces the calculator's p-value of that dataset, if the optimiser's answer for the
first free POI is the fitted value of the tested POI. -/
theorem c76_matches_calculator (c : CalcSetup) (data : DataEnv) (env : SampEnv) (hypo : Hypo) (full : Option (Pars ℝ))
    (s0 s1 : OptiMin ℝ) (mp : Option (List ℝ)) (s' : OptiSampler.St) (d : PLRData) (bs : List (ParBound ℝ)) (A b pv : ℝ)
    (poi : String) (more : List ℝ)
    (ha : s0.altMethod = none) (hr : s0.rebound = 0) (he : env.fit = data.fit)
    (hq : fastQ c .qmutilda data hypo full s0 = .ok (s1, d)) (hA : statIs d "tmu_A0" A)
    (hpoi : (Dict.keys hypo).head? = some poi) (hb : bestIs d poi b)
    (hs : OptiSampler.compute c ⟨hypo, full.getD c.ref, bs, some A, some A⟩ env ⟨s0, mp⟩ = .ok (s', some pv))
    (hm : s'.minPois = some (b :: more)) : pvIs d "pv" pv := by
  obtain ⟨f, o, poi', test, rest, best, more', h1, h2, h3, h4, h5, h6, h7⟩ := OptiS.parts c _ env _ s' pv ha hr hs
  rw [hm] at h4
  simp only [Option.some.injEq, List.cons.injEq] at h4
  obtain ⟨rfl, rfl⟩ := h4
  dsimp only at h1 h3
  have hp' : poi' = poi := by
    rw [h3] at hpoi
    simpa [Dict.keys] using hpoi
  subst hp'
  unfold OptiSampler.pvOf at h7
  dsimp only at h7
  rw [h3] at h7
  have hbe : OptiSampler.best f = .ok b := by unfold OptiSampler.best; rw [h5]
  simp only [hbe, bind_ok] at h7
  obtain ⟨a1, b1, hn, htm, hhy, hfill⟩ := fastQ_facts c .qmutilda data hypo full s0 s1 d ha hr hq
  -- the fits of the calculator are those of the sampler
  obtain ⟨t1, d1, ae, aa, d2, g1, g2, g3, g4, g5⟩ := (fastQ_inv c _ data hypo full s0 s1 d).1 hq
  obtain ⟨o', ho', hp⟩ := fastPlr_tmu c data.fit hypo full s0 t1 d1 g1
  rw [he, ho'] at h1
  have ho := Except.ok.inj (ε := PyErr) h1
  simp only [Prod.mk.injEq] at ho
  obtain ⟨-, rfl⟩ := ho
  obtain ⟨ff, hf, i1, i2, rfl, -⟩ := plrOf_spec c hypo full o' d1 hp
  have htmu : Dict.get? d.testStats "tmu" = some f.tmu := by
    obtain ⟨f1, f2, f3, f4, f5⟩ := fillPv_fixed g5
    rw [f5 "tmu" (by decide) (by decide)]
    unfold PLRData.setAsimov at g4
    obtain ⟨A', -, h8⟩ := bind_eq_ok.1 g4
    rw [← Except.ok.inj (ε := PyErr) h8]
    dsimp only
    rw [Dict.get?_set_ne _ _ (by decide), h2]
    simp [Dict.get?]
  unfold fillPv at hfill
  obtain ⟨q, k1, k2⟩ := bind_eq_ok.1 hfill
  obtain ⟨pv', k3, k4⟩ := bind_eq_ok.1 k2
  obtain ⟨cls, k5, k6⟩ := bind_eq_ok.1 k4
  obtain ⟨clb, k7, k8⟩ := bind_eq_ok.1 k6
  unfold makeQMuTilda at k1
  obtain ⟨poi2, l1, n1⟩ := bind_eq_ok.1 k1
  obtain ⟨test2, l2, n2⟩ := bind_eq_ok.1 n1
  obtain ⟨t2, l3, n3⟩ := bind_eq_ok.1 n2
  obtain ⟨best2, l4, n4⟩ := bind_eq_ok.1 n3
  obtain ⟨A2, l5, n5⟩ := bind_eq_ok.1 n4
  have hfirst := hypo_first l1 l2
  rw [hhy, h3] at hfirst
  simp only [List.head?_cons, Option.some.injEq, Prod.mk.injEq] at hfirst
  obtain ⟨rfl, rfl⟩ := hfirst
  have e3 : t2 = f.tmu := by
    have := Dict.getItem_ok.1 l3
    rw [htmu] at this
    exact (Option.some.inj this).symm
  have e5 : A2 = A := by
    have := Dict.getItem_ok.1 l5
    rw [hA] at this
    exact (Option.some.inj this).symm
  have e4 : best2 = b := by
    obtain ⟨F, p, z1, z2, z3⟩ := bestOf_ok l4
    obtain ⟨F', p', y1, y2, y3⟩ := hb
    rw [z1] at y1; cases y1
    rw [z2] at y2; cases y2
    rw [z3] at y3; cases y3
    rfl
  have hqe := Except.ok.inj (ε := PyErr) n5
  rw [← hqe, e3, e4, e5, h7] at k3
  have := Except.ok.inj (ε := PyErr) k3
  subst this
  unfold pvIs
  rw [← Except.ok.inj (ε := PyErr) k8]
  dsimp only
  rw [Dict.get?_set_ne _ _ (by decide), Dict.get?_set_ne _ _ (by decide), Dict.get?_set_self]

/-! ## One toy after the other -/

/-- C76: a sample depends on its pseudo-dataset only.  Whatever the datasets computed before with the same sampler, the next
result (value, failure or exception) is the one it would have given at first. -/
theorem c76_history_independent (c : CalcSetup) (cfg : OptiSampler.Cfg) (dat : ℕ → SampEnv) (s0 s : OptiSampler.St)
    (hc : CleanSampler c s0) (i : ℕ) (h : OptiSampler.stateAt c cfg dat s0 i = .ok s) (env : SampEnv) :
    outcome (OptiSampler.compute c cfg env s) = sampled c cfg s0 env :=
  (OptiSampler.compute_alike c cfg env s0 s hc.clean.evaluates hc.succeeds
    (OptiSampler.stateAt_alike c cfg dat s0 s (CleanUse.reusable hc.clean) i h).1).symm

/-- C76: generation gives the values of the statistic on the pseudo-datasets, in the order in which they were drawn (C31
applies, with the number of tries that the base class has by default). -/
theorem c76_generate (c : CalcSetup) (cfg : OptiSampler.Cfg) (dat : ℕ → SampEnv) (s0 : OptiSampler.St)
    (hc : CleanSampler c s0) (ntoys fuel : ℕ) :
    OptiSampler.generate c cfg dat s0 ntoys fuel =
      Sampler.generate (fun i => sampled c cfg s0 (dat i)) 20 ntoys fuel := by
  unfold OptiSampler.generate
  refine OptiSampler.generate_agree _ _ 20 ntoys fuel ?_
  have key : ∀ i, (∀ j < i, ∃ v, sampled c cfg s0 (dat j) = .ok v) → ∃ s, OptiSampler.stateAt c cfg dat s0 i = .ok s := by
    intro i
    induction i with
    | zero => intro _; exact ⟨s0, rfl⟩
    | succ i ih =>
      intro h
      obtain ⟨s, hs⟩ := ih fun j hj => h j (by omega)
      obtain ⟨v, hv⟩ := h i (by omega)
      rw [← c76_history_independent c cfg dat s0 s hc i hs (dat i)] at hv
      obtain ⟨s', hs'⟩ := map_snd_ok hv
      refine ⟨s', ?_⟩
      unfold OptiSampler.stateAt
      rw [hs, bind_ok, hs', bind_ok]
      rfl
  intro i hi
  obtain ⟨s, hs⟩ := key i hi
  rw [← c76_history_independent c cfg dat s0 s hc i hs (dat i)]
  unfold OptiSampler.call outcome
  rw [hs, bind_ok]
  cases OptiSampler.compute c cfg (dat i) s with
  | error e => rfl
  | ok x => rfl

/-- C76: from the model to the coverage of the sampling p-value.  Pseudo-datasets are drawn from the model at a parameter
point and each is fitted by the sampler, which goes on from one to the next; the p-value of the observed sample, if the
observed data are drawn in the same way, is at most `α` with chance at most `(2 α ntoys + 1)/(ntoys + 1)`. -/
theorem c76_coverage {n P : Nat} {Ω : Type*} [MeasurableSpace Ω] {Pr : Measure Ω} {m : Mdl n P} {A : Mdl.Arrays}
    {x : Fin n → ℝ} {θ : Fin P → ℝ} {μ : Measure m.Toy} {D : ℕ → Ω → m.Toy}
    (c : CalcSetup) (cfg : OptiSampler.Cfg) (s0 : OptiSampler.St) (niter : ℕ) (floor : Option ℝ)
    (hc : CleanSampler c s0) (hμ : m.toyLaw A x θ = .ok μ) (hD : Drawn Pr μ D)
    (hs : MeasurableStat fun t => sampled c cfg s0 (m.sampEnv A niter floor (m.toyData t)))
    (ntoys : ℕ) (hn : 0 < ntoys) (α : ℝ) (h0 : 0 ≤ α) :
    Pr.real {ω | ∃ v fuel l pv, sampled c cfg s0 (m.sampEnv A niter floor (m.toyData (D 0 ω))) = .ok (some v) ∧
        OptiSampler.generate c cfg (fun i => m.sampEnv A niter floor (m.toyData (D (i + 1) ω))) s0 ntoys fuel =
          some (.ok l) ∧
        SampDist.pv (SampDist.init ntoys (some l)) v = .ok pv ∧ pv ≤ α} ≤
      (2 * α * ntoys + 1) / (ntoys + 1) *
        Pr.real {ω | ∃ v, sampled c cfg s0 (m.sampEnv A niter floor (m.toyData (D 0 ω))) = .ok (some v)} := by
  simp only [c76_generate c cfg _ s0 hc]
  exact c75_bound (stat := fun d => sampled c cfg s0 (m.sampEnv A niter floor d)) hμ hD hs 20 ntoys hn α h0

/-! ## The bounds of a sampler -/

section
variable {n P : Nat}

theorem OptiS.np_get (m : Mdl n P) (a : Fin P) (hn : (m.nps a).name ∉ m.parModel.pois)
    (hd : Function.Injective fun a => (m.nps a).name) (p : Pars ℝ) (δ : Fin P → ℝ) (hp : p.nps = List.ofFn δ) :
    p.get m.parModel (m.nps a).name = .ok (δ a) := by
  have hnames : m.parModel.npNames = List.ofFn fun a => (m.nps a).name := by
    simp [ParModel.npNames, Mdl.parModel, List.map_ofFn, Function.comp_def]
  have hnd : m.parModel.npNames.Nodup := by rw [hnames]; exact List.nodup_ofFn.2 hd
  have hget : m.parModel.npNames[(a : ℕ)]? = some (m.nps a).name := by rw [hnames]; simp
  have hmem : (m.nps a).name ∈ m.parModel.npNames := List.mem_of_getElem? hget
  have hidx : m.parModel.npNames.idxOf (m.nps a).name = a := by
    obtain ⟨hl, he⟩ := List.getElem?_eq_some_iff.1 hget
    rw [← he]
    exact hnd.idxOf_getElem _ _
  unfold Pars.get
  rw [if_neg hn, if_pos hmem, hidx, hp]
  simp

theorem OptiS.deltas (m : Mdl n P) (A : Mdl.Arrays) (d : Mdl.DataV P) (floor : Option ℝ) (k : ℕ) (p q : Pars ℝ)
    (o : Option (Pars ℝ)) (h1 : (m.sampEnv A (k + 1) floor d).fit.profile p = .ok q)
    (h2 : (m.sampEnv A (k + 1) floor d).deltas p = .ok o) :
    ∃ θ1 θ2, m.profileNps A (fun i => q.pois.getD i 0) d k (fun a => p.nps.getD a 0) = .ok θ1 ∧
      q.nps = List.ofFn θ2 ∧ o = some ⟨p.pois, List.ofFn fun a => θ1 a - θ2 a⟩ := by
  obtain ⟨l1, l2, θ, hθ, rfl⟩ := Mdl.fitEnv_profile_inv h1
  simp only [Mdl.sampEnv] at h2
  rw [if_pos ⟨l1, l2⟩] at h2
  obtain ⟨δ, h3, h4⟩ := bind_eq_ok.1 h2
  obtain ⟨θ1, h5, rfl⟩ := OptiSampler.lastDeltas_spec m A _ d k _ θ δ h3 hθ
  exact ⟨θ1, θ, h5, rfl, (Except.ok.inj (ε := PyErr) h4).symm⟩

theorem OptiS.start_nps (m : ParModel ℝ) (pois : List (PoiRange ℝ)) (init p : Pars ℝ) (bounds : Option (List (ParBound ℝ)))
    (hypo : Dict ℝ) (fix : Bool) (bd : Dict (ParBound ℝ)) (h : setPois m pois init bounds (some hypo) fix = .ok (p, bd))
    (hk : ∀ e ∈ hypo, e.1 ∈ m.pois) (hp : ∀ q ∈ pois, q.par ∈ m.pois) (hb : ∀ q ∈ bounds.getD [], q.par ∈ m.pois) :
    p.nps = init.nps ∧ ∀ q ∈ bd.values, q.par ∈ m.pois := by
  unfold setPois at h
  obtain ⟨p1, e1, h⟩ := bind_eq_ok.1 h
  obtain ⟨d, e2, h⟩ := bind_eq_ok.1 h
  obtain ⟨p2, e3, h⟩ := bind_eq_ok.1 h
  have := Except.ok.inj (ε := PyErr) h
  simp only [Prod.mk.injEq] at this
  obtain ⟨rfl, rfl⟩ := this
  have hinv := buildBounds_inv _ _ _ _ _ e2
  have hall : ∀ q ∈ Dict.values d, q.par ∈ m.pois := by
    intro q hq
    obtain ⟨⟨k, b'⟩, he, rfl⟩ := List.mem_map.1 hq
    have hg := (Dict.get?_eq_some_iff d hinv.1 k b').2 he
    have hkb : b'.par = k := hinv.2 _ he
    rw [effBound_eq _ _ _ _ _ e2 k] at hg
    unfold effBound at hg
    dsimp only
    cases h1 : lastFor (if fix then (some hypo).getD [] else []) k with
    | some v =>
      rw [hkb]
      unfold lastFor at h1
      obtain ⟨e, he1, he2⟩ := Option.map_eq_some_iff.1 h1
      have := List.mem_of_getLast? he1
      simp only [List.mem_filter, decide_eq_true_eq] at this
      have hmem : e ∈ hypo := by
        cases fix with
        | true => simpa using this.1
        | false => simp at this
      rw [← this.2]; exact hk e hmem
    | none =>
      rw [h1] at hg
      cases h2 : lastBound (bounds.getD []) k with
      | some b1 =>
        rw [h2] at hg
        have := Option.some.inj hg
        subst this
        have := List.mem_of_getLast? h2
        simp only [List.mem_filter, decide_eq_true_eq] at this
        exact hb b1 this.1
      | none =>
        rw [h2] at hg
        have := List.mem_of_getLast? hg
        simp only [List.mem_filter, decide_eq_true_eq] at this
        exact hp b' this.1
  exact ⟨(clampInit_nps m _ p1 p2 hall e3).trans (setHypo_nps m hypo init p1 hk (by simpa using e1)), hall⟩

/-- C76: what the bounds given to a sampler select, for a bound on a nuisance parameter and fits with `k + 1` iterations: not
the fitted value of the parameter, but its value one iteration earlier *minus* the fitted value, in both fits. -/
theorem c76_bounds (m : Mdl n P) (A : Mdl.Arrays) (d : Mdl.DataV P) (floor : Option ℝ) (k : ℕ) (c : CalcSetup)
    (cfg : OptiSampler.Cfg) (s s' : OptiSampler.St) (r : Option ℝ) (a : Fin P) (b : ParBound ℝ)
    (hcm : c.m = m.parModel) (hn : (m.nps a).name ∉ c.m.pois) (hd : Function.Injective fun a => (m.nps a).name)
    (hb : b.par = (m.nps a).name) (hbs : cfg.bounds = [b]) (hk : ∀ e ∈ cfg.testHypo, e.1 ∈ c.m.pois)
    (hp : ∀ q ∈ c.pois, q.par ∈ c.m.pois) (hs : ∀ q ∈ (s.min.bounds.map Dict.values).getD [], q.par ∈ c.m.pois)
    (ha : s.min.altMethod = none) (hr : s.min.rebound = 0)
    (h : OptiSampler.compute c cfg (m.sampEnv A (k + 1) floor d) s = .ok (s', r)) :
    ∃ o gF gH θF θH, s.min.tmu c.opt c.m c.pois (m.fitEnv A d (k + 1) floor) cfg.genHypo cfg.testHypo = .ok (s'.min, o) ∧
      o.freePars.nps = List.ofFn θF ∧ o.hypoPars.nps = List.ofFn θH ∧
      m.profileNps A (fun i => o.freePars.pois.getD i 0) d k (fun a => cfg.genHypo.nps.getD a 0) = .ok gF ∧
      m.profileNps A (fun i => o.hypoPars.pois.getD i 0) d k (fun a => cfg.genHypo.nps.getD a 0) = .ok gH ∧
      (r ≠ none ↔ Allows b (gF a - θF a) ∧ Allows b (gH a - θH a)) := by
  obtain ⟨f, h1, h2⟩ := OptiSampler.compute_inv c cfg _ s s' r h
  obtain ⟨pf, bf, ph, bh, sh, rh, sf, rf, xh, xf, o, g1, g2, g3, g4, g5, g6, g7, g8, -, -, -, -, -, g9, g10, hat⟩ :=
    OptiSampler.tmu_inv c cfg _ s s' f h1
  rw [← tmu_eq_attempt _ _ _ _ _ _ s.min ha hr] at hat
  obtain ⟨n1, hbf⟩ := OptiS.start_nps c.m c.pois _ _ _ _ _ _ g1 hk hp hs
  obtain ⟨n2, -⟩ := OptiS.start_nps c.m c.pois _ _ _ _ _ _ g2 hk hp (by simpa using hbf)
  obtain ⟨u1, u2⟩ := OptiSampler.lastPoint_spec c.opt _ c.m _ sh rh xh o.hypoPars g3 g5 g9
  obtain ⟨w1, w2⟩ := OptiSampler.lastPoint_spec c.opt _ c.m _ sf rf xf o.freePars g4 g6 g10
  obtain ⟨gH, θH, v1, v2, v3⟩ := OptiS.deltas m A d floor k xh o.hypoPars _ u2 g7
  obtain ⟨gF, θF, z1, z2, z3⟩ := OptiS.deltas m A d floor k xf o.freePars _ w2 g8
  dsimp only at u1 w1
  rw [u1, n2] at v1
  rw [w1, n1] at z1
  refine ⟨o, gF, gH, θF, θH, hat, z2, v2, z1, v1, ?_⟩
  rw [hcm] at hn
  have tF : OptiSampler.boundTest c.m b f.freeDeltas = .ok (b.testValue (gF a - θF a)) := by
    rw [z3, OptiSampler.boundTest, ParBound.test, hb, hcm, OptiS.np_get m a hn hd _ _ rfl]
  have tH : OptiSampler.boundTest c.m b f.hypoDeltas = .ok (b.testValue (gH a - θH a)) := by
    rw [v3, OptiSampler.boundTest, ParBound.test, hb, hcm, OptiS.np_get m a hn hd _ _ rfl]
  have hpass : OptiSampler.passes c.m f cfg.bounds =
      .ok (b.testValue (gF a - θF a) && b.testValue (gH a - θH a)) := by
    rw [hbs]
    unfold OptiSampler.passes
    rw [tF, bind_ok]
    cases b.testValue (gF a - θF a) with
    | false => rfl
    | true =>
      rw [if_pos rfl, tH, bind_ok]
      cases b.testValue (gH a - θH a) <;> rfl
  rw [← allows_iff, ← allows_iff]
  rw [hpass] at h2
  rcases h2 with ⟨h2, rfl⟩ | ⟨h2, pv, -, rfl⟩
  · have := Except.ok.inj (ε := PyErr) h2
    rw [Bool.and_eq_false_iff] at this
    simp only [ne_eq, not_true_eq_false, false_iff, not_and]
    intro hh
    rcases this with h | h <;> simp_all
  · have := Except.ok.inj (ε := PyErr) h2
    rw [Bool.and_eq_true] at this
    simpa using this

/-- C76 finding F89: with one iteration (the default) and toys generated at the nominal values 0 of the NPs, a bound selects
the fits whose NP has the *opposite* of an allowed value: `NP >= 0` keeps the toys where it is fitted at or below 0. -/
theorem c76_bounds_reversed (m : Mdl n P) (A : Mdl.Arrays) (d : Mdl.DataV P) (floor : Option ℝ) (c : CalcSetup)
    (cfg : OptiSampler.Cfg) (s s' : OptiSampler.St) (r : Option ℝ) (a : Fin P)
    (hcm : c.m = m.parModel) (hn : (m.nps a).name ∉ c.m.pois) (hd : Function.Injective fun a => (m.nps a).name)
    (hbs : cfg.bounds = [⟨(m.nps a).name, some 0, none⟩]) (hk : ∀ e ∈ cfg.testHypo, e.1 ∈ c.m.pois)
    (hp : ∀ q ∈ c.pois, q.par ∈ c.m.pois) (hs : ∀ q ∈ (s.min.bounds.map Dict.values).getD [], q.par ∈ c.m.pois)
    (ha : s.min.altMethod = none) (hr : s.min.rebound = 0) (hg : ∀ x ∈ cfg.genHypo.nps, x = 0)
    (h : OptiSampler.compute c cfg (m.sampEnv A 1 floor d) s = .ok (s', r)) :
    ∃ o θF θH, s.min.tmu c.opt c.m c.pois (m.fitEnv A d 1 floor) cfg.genHypo cfg.testHypo = .ok (s'.min, o) ∧
      o.freePars.nps = List.ofFn θF ∧ o.hypoPars.nps = List.ofFn θH ∧ (r ≠ none ↔ θF a ≤ 0 ∧ θH a ≤ 0) := by
  obtain ⟨o, gF, gH, θF, θH, h1, h2, h3, h4, h5, h6⟩ := c76_bounds m A d floor 0 c cfg s s' r a _ hcm hn hd rfl hbs hk hp hs
    ha hr h
  refine ⟨o, θF, θH, h1, h2, h3, ?_⟩
  have h0 : cfg.genHypo.nps.getD (a : ℕ) 0 = 0 := by
    rw [List.getD_eq_getElem?_getD]
    cases hx : cfg.genHypo.nps[(a : ℕ)]? with
    | none => rfl
    | some x => exact hg x (List.mem_of_getElem? hx)
  simp only [Mdl.profileNps, Except.ok.injEq] at h4 h5
  rw [h6, ← h4, ← h5]
  dsimp only
  rw [h0]
  simp [Allows]

end

/-! ## Findings -/

/-- The one-POI setup with another optimiser. -/
noncomputable def OptiS.setup (opt : Optim ℝ) : CalcSetup := { oneSetup with opt := opt }

/-- A dataset whose NLL as a function of the POI is `g`. -/
noncomputable def OptiS.env (g : ℝ → ℝ) : SampEnv where
  fit :=
    { profile := oneEnv.profile
      nll := fun p => match p.pois with
        | [x] => .ok (g x)
        | _ => .error .indexError }
  deltas := fun _ => .ok none

theorem OptiS.free_one : freeBounds [("a", (⟨"a", some 0, some 10⟩ : ParBound ℝ))] = .ok [(0, ⟨"a", some 0, some 10⟩)] := by
  simp [freeBounds, Dict.values, ParBound.isFree]

theorem OptiS.free_fix (v : ℝ) : freeBounds [("a", (⟨"a", some v, some v⟩ : ParBound ℝ))] = .ok [] := by
  simp [freeBounds, Dict.values, ParBound.isFree]

/-- `min_nll` after the free fit. -/
noncomputable def OptiS.freeNll (g : ℝ → ℝ) (e : ℝ) (run : OptRun ℝ) : ℝ := if run.success then run.fn else g e

theorem OptiS.tmu_one (opt : Optim ℝ) (g : ℝ → ℝ) (v e : ℝ) (run : OptRun ℝ) (h0 : 0 ≤ v) (h1 : v ≤ 10)
    (he : run.evals = [[e]]) (hr : opt (OptiS.env g).fit "scalar" ⟨[v], []⟩ [(0, ⟨"a", some 0, some 10⟩)] = run)
    (s : OptiSampler.St) (hs : OneSt s.min) (A A0 : Option ℝ) :
    ∃ s', OneSt s'.min ∧ s'.minPois = (if run.success then some run.x else s.minPois) ∧
      OptiSampler.tmu (OptiS.setup opt) ⟨[("a", v)], ⟨[0], []⟩, [], A, A0⟩ (OptiS.env g) s =
        .ok (s', ⟨tmuValue (g v) (OptiS.freeNll g e run), none, none, s'.minPois⟩) := by
  obtain ⟨hm, ha, hrb, hb⟩ := hs
  unfold OptiSampler.tmu
  have hset := one_set 0 v h0 h1 (s.min.bounds.map Dict.values)
    (by rcases hb with hb | hb <;> rw [hb] <;> simp [Dict.values])
  have e1 : setPois (OptiS.setup opt).m (OptiS.setup opt).pois ⟨[0], []⟩ (s.min.bounds.map Dict.values)
      (some [("a", v)]) false = .ok (⟨[v], []⟩, [("a", ⟨"a", some 0, some 10⟩)]) := hset
  have e2 : setPois (OptiS.setup opt).m (OptiS.setup opt).pois ⟨[0], []⟩
      (some (Dict.values [("a", (⟨"a", some 0, some 10⟩ : ParBound ℝ))])) (some [("a", v)]) true =
      .ok (⟨[v], []⟩, [("a", ⟨"a", some v, some v⟩)]) := one_set_fix 0 v
  dsimp only
  rw [e1, bind_ok]
  dsimp only
  rw [e2, bind_ok, hm]
  dsimp only
  have e3 : minimizeD (OptiS.setup opt).opt (OptiS.env g).fit (OptiS.setup opt).m
      { method := "scalar", initPois := ⟨[v], []⟩, bounds := [("a", ⟨"a", some v, some v⟩)] } =
      .ok ({ method := "", initPois := ⟨[v], []⟩, bounds := [("a", ⟨"a", some v, some v⟩)],
             minNll := some (g v), minPars := some ⟨[v], []⟩ }, .nll (g v)) := by
    unfold minimizeD optRun minimize
    simp only [OptiS.free_fix, bind_ok, pure_ok]
    rfl
  have e4 : OptiSampler.lastPoint (OptiS.setup opt).opt (OptiS.env g).fit
      { method := "scalar", initPois := ⟨[v], []⟩, bounds := [("a", ⟨"a", some v, some v⟩)] } = .ok ⟨[v], []⟩ := by
    unfold OptiSampler.lastPoint
    simp only [OptiS.free_fix, bind_ok, pure_ok]
    rfl
  have hrun : optRun (OptiS.setup opt).opt (OptiS.env g).fit
      { method := "scalar", initPois := ⟨[v], []⟩, bounds := [("a", ⟨"a", some 0, some 10⟩)],
        minNll := s.min.minNll, minPars := s.min.minPars } = .ok run := by
    unfold optRun
    rw [OptiS.free_one, bind_ok, pure_ok]
    exact congrArg _ hr
  have hev : evalAt (OptiS.env g).fit ⟨[v], []⟩ [(0, ⟨"a", some 0, some 10⟩)] [e] = .ok (g e, ⟨[e], []⟩) := rfl
  have e5 : ∃ rf mp, minimizeD (OptiS.setup opt).opt (OptiS.env g).fit (OptiS.setup opt).m
      { method := "scalar", initPois := ⟨[v], []⟩, bounds := [("a", ⟨"a", some 0, some 10⟩)],
        minNll := s.min.minNll, minPars := s.min.minPars } =
      .ok ({ method := "scalar", initPois := ⟨[v], []⟩, bounds := [("a", ⟨"a", some 0, some 10⟩)],
             minNll := some (OptiS.freeNll g e run), minPars := some ⟨[e], []⟩, minPois := mp }, rf) ∧
      OptiSampler.newMinPois rf
        { method := "scalar", initPois := ⟨[v], []⟩, bounds := [("a", ⟨"a", some 0, some 10⟩)],
             minNll := some (OptiS.freeNll g e run), minPars := some ⟨[e], []⟩, minPois := mp } s.minPois =
          (if run.success then some run.x else s.minPois) := by
    unfold minimizeD
    rw [hrun, bind_ok]
    unfold minimize
    simp only [OptiS.free_one, bind_ok]
    have e3 : Pars.get (OptiS.setup opt).m (⟨[v], []⟩ : Pars ℝ) "a" = .ok v := rfl
    simp only [he, List.mapM_cons, List.mapM_nil, hev, e3, bind_ok, pure_ok, List.length_cons, List.length_nil]
    unfold OptiS.freeNll
    cases hsu : run.success with
    | true => exact ⟨.nll run.fn, run.x, by simp, rfl⟩
    | false => exact ⟨.nonePair, [], by simp, rfl⟩
  have e6 : OptiSampler.lastPoint (OptiS.setup opt).opt (OptiS.env g).fit
      { method := "scalar", initPois := ⟨[v], []⟩, bounds := [("a", ⟨"a", some 0, some 10⟩)],
        minNll := s.min.minNll, minPars := s.min.minPars } = .ok ⟨[e], []⟩ := by
    unfold OptiSampler.lastPoint
    rw [hrun]
    simp only [OptiS.free_one, bind_ok, he]
    rfl
  obtain ⟨rf, mp, e5, e7⟩ := e5
  rw [e3, bind_ok]
  dsimp only
  rw [e4, bind_ok]
  have e8 : ∀ p, (OptiS.env g).deltas p = .ok none := fun _ => rfl
  rw [e8, bind_ok, e5, bind_ok]
  dsimp only
  rw [e6, bind_ok, e8, bind_ok, e7]
  refine ⟨_, ?_, ?_, rfl⟩
  · exact ⟨rfl, ha, hrb, Or.inr rfl⟩
  · rfl

/-- One call of `compute` with no bounds. -/
theorem OptiS.compute_one (opt : Optim ℝ) (g : ℝ → ℝ) (v e : ℝ) (run : OptRun ℝ) (h0 : 0 ≤ v) (h1 : v ≤ 10)
    (he : run.evals = [[e]]) (hr : opt (OptiS.env g).fit "scalar" ⟨[v], []⟩ [(0, ⟨"a", some 0, some 10⟩)] = run)
    (s : OptiSampler.St) (hs : OneSt s.min) :
    ∃ s' : OptiSampler.St, OneSt s'.min ∧ s'.minPois = (if run.success then some run.x else s.minPois) ∧
      OptiSampler.compute (OptiS.setup opt) { testHypo := [("a", v)], genHypo := ⟨[0], []⟩ } (OptiS.env g) s =
        match s'.minPois with
        | none => .error .attributeError
        | some [] => .error .indexError
        | some (b :: _) => .ok (s', some (qPv (qmuOf (tmuValue (g v) (OptiS.freeNll g e run)) b v) 0)) := by
  obtain ⟨s', a1, a2, a3⟩ := OptiS.tmu_one opt g v e run h0 h1 he hr s hs none none
  refine ⟨s', a1, a2, ?_⟩
  have hnn := OptiSampler.tmu_nonneg _ _ _ _ _ _ a3
  unfold OptiSampler.compute
  rw [a3, bind_ok]
  dsimp only at hnn ⊢
  rw [if_neg (not_lt.2 hnn)]
  simp only [OptiSampler.passes, bind_ok, OptiSampler.pvOf, OptiSampler.best]
  cases s'.minPois with
  | none => rfl
  | some l =>
    cases l with
    | nil => rfl
    | cons b l =>
      dsimp only
      have hn : (QMu.init v (tmuValue (g v) (OptiS.freeNll g e run)) b none none none).ncp = .ok 0 := by
        simp [QMu.ncp, QMu.init]
      unfold QMu.asymptoticPv
      simp only [if_true, bind_ok, hn, Option.getD_none, pure_ok]
      unfold qPv
      rw [ssqrt_eq]
      rfl

/-- An optimiser that looks at the dataset (through the NLL at 0): it converges on those with minimum 1 or 3, and gives up on
all others. -/
noncomputable def OptiS.moody : Optim ℝ := fun env _ _ _ =>
  match env.nll ⟨[0], []⟩ with
  | .ok y =>
    open Classical in
    if y = 1 then ⟨[[1]], [1], 0, true⟩ else if y = 9 then ⟨[[3]], [3], 0, true⟩ else ⟨[[5]], [5], 0, false⟩
  | .error _ => ⟨[[5]], [5], 0, false⟩

/-- The dataset with NLL `(a - y)^2`. -/
noncomputable def OptiS.parab (y : ℝ) : SampEnv := OptiS.env fun x => (x - y) * (x - y)

theorem OptiS.moody_1 (p : Pars ℝ) (fr : List (Nat × ParBound ℝ)) :
    OptiS.moody (OptiS.parab 1).fit "scalar" p fr = ⟨[[1]], [1], 0, true⟩ := by
  simp [OptiS.moody, OptiS.parab, OptiS.env]

theorem OptiS.moody_3 (p : Pars ℝ) (fr : List (Nat × ParBound ℝ)) :
    OptiS.moody (OptiS.parab 3).fit "scalar" p fr = ⟨[[3]], [3], 0, true⟩ := by
  simp only [OptiS.moody, OptiS.parab, OptiS.env]
  norm_num

theorem OptiS.moody_10 (p : Pars ℝ) (fr : List (Nat × ParBound ℝ)) :
    OptiS.moody (OptiS.parab 10).fit "scalar" p fr = ⟨[[5]], [5], 0, false⟩ := by
  simp only [OptiS.moody, OptiS.parab, OptiS.env]
  norm_num

/-- C76 finding F90: a toy whose fit does not converge is given the p-value computed with the best-fit value of an *earlier*
toy.  The sampler neither fails nor generates the toy again: the same dataset gives 1/2-complementary answers after different
toys, and an `AttributeError` if it is the first. -/
theorem c76_stale_best : ∃ (c : CalcSetup) (cfg : OptiSampler.Cfg) (s0 s1 s3 : OptiSampler.St) (d1 d3 d : SampEnv)
    (p1 p3 p p' : ℝ), cfg.bounds = [] ∧ s0 = .fresh "scalar" ∧
    OptiSampler.compute c cfg d1 s0 = .ok (s1, some p1) ∧ OptiSampler.compute c cfg d3 s0 = .ok (s3, some p3) ∧
    outcome (OptiSampler.compute c cfg d s1) = .ok (some p) ∧ outcome (OptiSampler.compute c cfg d s3) = .ok (some p') ∧
    p < 1 / 2 ∧ 1 / 2 < p' ∧ outcome (OptiSampler.compute c cfg d s0) = .error .attributeError := by
  have o0 : OneSt (OptiSampler.St.fresh "scalar").min := ⟨rfl, rfl, rfl, Or.inl rfl⟩
  obtain ⟨s1, a1, a2, a3⟩ := OptiS.compute_one OptiS.moody _ 2 1 _ (by norm_num) (by norm_num) rfl
    (OptiS.moody_1 _ _) (.fresh "scalar") o0
  obtain ⟨s3, b1, b2, b3⟩ := OptiS.compute_one OptiS.moody _ 2 3 _ (by norm_num) (by norm_num) rfl
    (OptiS.moody_3 _ _) (.fresh "scalar") o0
  have hr := fun s hs => OptiS.compute_one OptiS.moody _ 2 5 _ (by norm_num) (by norm_num) rfl
    (OptiS.moody_10 _ _) s hs
  obtain ⟨t0, -, c2, c3⟩ := hr _ o0
  obtain ⟨t1, -, d2, d3⟩ := hr s1 a1
  obtain ⟨t3, -, e2, e3⟩ := hr s3 b1
  rw [if_pos rfl] at a2 b2
  rw [if_neg (by simp)] at c2 d2 e2
  rw [a2] at a3 d2
  rw [b2] at b3 e2
  rw [c2] at c3
  rw [d2] at d3
  rw [e2] at e3
  dsimp only at a3 b3 d3 e3
  have ht : tmuValue (((2:ℝ) - 10) * (2 - 10))
      (OptiS.freeNll (fun x => (x - 10) * (x - 10)) 5 ⟨[[5]], [5], 0, false⟩) = 78 := by
    simp [tmuValue, OptiS.freeNll]; norm_num
  rw [ht] at d3 e3
  refine ⟨_, _, _, s1, s3, _, _, _, _, _, _, _, rfl, rfl, a3, b3, by unfold outcome; rw [d3]; rfl,
    by unfold outcome; rw [e3]; rfl, ?_, ?_, by unfold outcome; rw [c3]; rfl⟩
  · have hq : qmuOf 78 1 2 = 78 := by rw [qmuOf, if_pos (by norm_num)]
    rw [hq, qPv, ← normSf_zero]
    apply normSf_strictAnti
    have : (0:ℝ) < Real.sqrt 78 := Real.sqrt_pos.2 (by norm_num)
    simp [ssqrt, sign_pos, this]
  · have hq : qmuOf 78 3 2 = -78 := by rw [qmuOf, if_neg (by norm_num)]
    rw [hq, qPv, ← normSf_zero]
    apply normSf_strictAnti
    have : (0:ℝ) < Real.sqrt 78 := Real.sqrt_pos.2 (by norm_num)
    simp [ssqrt, this]

/-- C76 finding F91: the value compared with the tested one is the fitted value of the first POI *of the model* that is free,
whichever POI the hypothesis is about. -/
theorem c76_first_free_poi (c : CalcSetup) (cfg : OptiSampler.Cfg) (env : SampEnv) (s s' : OptiSampler.St) (pv : ℝ)
    (i : ℕ) (b : ParBound ℝ) (rest : List (ℕ × ParBound ℝ))
    (ha : s.min.altMethod = none) (hr : s.min.rebound = 0) (hA : cfg.tmuAmu = none ∨ cfg.tmuA0 = none)
    (hopt : ∀ env method p fr, (c.opt env method p fr).success = true ∧
      (c.opt env method p fr).evals.getLast? = some (c.opt env method p fr).x)
    (hprof : ∀ p q, env.fit.profile p = .ok q → q.pois = p.pois)
    (hfree : freeBounds (argBounds c.pois (s.min.bounds.map Dict.values)) = .ok ((i, b) :: rest))
    (h : OptiSampler.compute c cfg env s = .ok (s', some pv)) :
    ∃ o poi test more best, s.min.tmu c.opt c.m c.pois env.fit cfg.genHypo cfg.testHypo = .ok (s'.min, o) ∧
      cfg.testHypo = (poi, test) :: more ∧ o.freePars.pois[i]? = some best ∧ pv = qPv (qmuOf o.tmu best test) 0 := by
  obtain ⟨o, poi, test, rest', best, more, h1, h2, h3, -, h5⟩ := c76_qmu c cfg env s s' pv ha hr hA h
  refine ⟨o, poi, test, rest', best, h1, h2, ?_, h5⟩
  obtain ⟨f, g1, -⟩ := OptiSampler.compute_inv c cfg env s s' _ h
  obtain ⟨pf, bf, ph, bh, sh, rh, sf, rf, xh, xf, o', k1, -, -, k4, -, k6, -, -, k7, k8, -, -, -, -, k9, hat⟩ :=
    OptiSampler.tmu_inv c cfg env s s' f g1
  rw [← tmu_eq_attempt _ _ _ _ _ _ s.min ha hr, h1] at hat
  have ho := Except.ok.inj (ε := PyErr) hat
  simp only [Prod.mk.injEq, true_and] at ho
  subst ho
  obtain ⟨-, l2⟩ := OptiSampler.lastPoint_spec c.opt _ c.m _ sf rf xf o.freePars k4 k6 k9
  rw [hprof _ _ l2]
  have hbf := setPois_bounds _ _ _ _ _ _ _ k1
  subst hbf
  have k4' := k4
  unfold minimizeD at k4'
  obtain ⟨run, m1, m2⟩ := bind_eq_ok.1 k4'
  obtain ⟨fr, hfr, hcase⟩ := minimize_inv _ _ _ _ _ _ m2
  dsimp only at hfr
  rw [hfree] at hfr
  have := Except.ok.inj (ε := PyErr) hfr
  subst this
  rcases hcase with ⟨hc, -⟩ | ⟨-, es, -, -, hsu, -⟩
  · cases hc
  · have m1' := m1
    unfold optRun at m1'
    dsimp only at m1'
    rw [hfree, bind_ok] at m1'
    have hrun := Except.ok.inj (ε := PyErr) m1'
    obtain ⟨q1, q2⟩ := hopt env.fit
      (if ((i, b) :: rest).length > 1 ∧ s.min.method = "scalar" then "L-BFGS-B" else s.min.method) pf ((i, b) :: rest)
    rw [hrun] at q1 q2
    obtain ⟨-, hrf, hmp⟩ := hsu q1
    have hx : run.x = best :: more := by
      rw [k8, k7, hrf] at h3
      simp only [OptiSampler.newMinPois, Option.some.injEq] at h3
      rw [← hmp, h3]
    unfold OptiSampler.lastPoint at k6
    dsimp only at k6
    rw [hfree, bind_ok, if_neg (by simp), m1, bind_ok, q2] at k6
    dsimp only at k6
    obtain ⟨f1, -, -⟩ := freeBounds_inv _ _ hfree
    obtain ⟨-, -, u3, -⟩ := updateHypo_spec _ _ _ ((map_fst_zip_sub _ _).nodup f1) k6
    exact u3 (i, best) (by rw [hx]; simp)

/-- A dict of pairs. -/
def OptiS.Pairs (d : Dict OptiSampler.BoundVal) : Prop := ∀ e ∈ d, ∃ lo hi, e.2 = OptiSampler.BoundVal.pair lo hi

theorem OptiS.pairs_set (d : Dict OptiSampler.BoundVal) (k : String) (v : OptiSampler.BoundVal) (hd : OptiS.Pairs d)
    (hv : ∃ lo hi, v = .pair lo hi) : Dict.set d k v ≠ [] ∧ OptiS.Pairs (Dict.set d k v) := by
  induction d with
  | nil =>
    refine ⟨by simp [Dict.set], ?_⟩
    intro e he
    simp only [Dict.set, List.mem_singleton] at he
    rw [he]; exact hv
  | cons a d ih =>
    obtain ⟨-, i2⟩ := ih fun e he => hd e (by simp [he])
    unfold Dict.set
    by_cases hk : a.1 = k
    · rw [if_pos hk]
      refine ⟨by simp, fun e he => ?_⟩
      rcases List.mem_cons.1 he with rfl | he
      · exact hv
      · exact hd e (by simp [he])
    · rw [if_neg hk]
      refine ⟨by simp, fun e he => ?_⟩
      rcases List.mem_cons.1 he with rfl | he
      · exact hd _ (by simp)
      · exact i2 e he

theorem OptiS.pairs_setAll (l d : Dict OptiSampler.BoundVal) (hne : l ≠ [] ∨ d ≠ []) (hl : OptiS.Pairs l)
    (hd : OptiS.Pairs d) : Dict.setAll d l ≠ [] ∧ OptiS.Pairs (Dict.setAll d l) := by
  induction l generalizing d with
  | nil => exact ⟨hne.resolve_left (by simp), hd⟩
  | cons a l ih =>
    obtain ⟨p1, p2⟩ := OptiS.pairs_set d a.1 a.2 hd (hl a (by simp))
    exact ih (Dict.set d a.1 a.2) (Or.inr p1) (fun e he => hl e (by simp [he])) p2

/-- C76 finding F88: `FitResult.set_poi_values_and_ranges`, which `compute_limits` calls on the minimiser of every sampler,
stores pairs of numbers where the minimiser expects `ParBound` objects: no toy can be computed afterwards. -/
theorem c76_ranges_break (c : CalcSetup) (cfg : OptiSampler.Cfg) (r : FitResult) (p : Pars ℝ)
    (bounds : Dict OptiSampler.BoundVal) (dat : ℕ → SampEnv) (s : OptiSampler.St) (q : Pars ℝ) (ntoys fuel : ℕ)
    (hm : c.m.pois ≠ []) (hset : OptiSampler.setPoiValuesAndRanges c.m r = .ok (p, bounds))
    (hq : setHypo c.m cfg.testHypo cfg.genHypo = .ok q) :
    (∀ env, OptiSampler.computeAny c cfg bounds env s = .error .attributeError) ∧
      Sampler.generate (fun i => outcome (OptiSampler.computeAny c cfg bounds (dat i) s)) 20 (ntoys + 1) (fuel + 1) =
        some (.error .attributeError) := by
  have hall : bounds ≠ [] ∧ ∀ e ∈ bounds, ∃ lo hi, e.2 = .pair lo hi := by
    unfold OptiSampler.setPoiValuesAndRanges at hset
    obtain ⟨p', -, h⟩ := bind_eq_ok.1 hset
    obtain ⟨bs, h2, h⟩ := bind_eq_ok.1 h
    have := Except.ok.inj (ε := PyErr) h
    simp only [Prod.mk.injEq] at this
    obtain ⟨-, rfl⟩ := this
    have hne : bs ≠ [] := by
      rintro rfl
      have := (mapM_ok_iff.1 h2).length_eq
      exact hm (List.length_eq_zero_iff.1 this)
    have hbs : ∀ e ∈ bs, ∃ lo hi, e.2 = OptiSampler.BoundVal.pair lo hi := by
      intro e he
      obtain ⟨n, -, hn⟩ := Markup.mapM_mem_right h2 e he
      obtain ⟨fp, -, hn⟩ := bind_eq_ok.1 hn
      have := Except.ok.inj (ε := PyErr) hn
      exact ⟨_, _, by rw [← this]⟩
    exact OptiS.pairs_setAll bs [] (Or.inl hne) hbs (fun e he => by cases he)
  have h1 : ∀ env, OptiSampler.computeAny c cfg bounds env s = .error .attributeError := by
    intro env
    unfold OptiSampler.computeAny
    rw [hq, bind_ok]
    cases bounds with
    | nil => exact absurd rfl hall.1
    | cons e l =>
      obtain ⟨lo, hi, he⟩ := hall.2 e (by simp)
      simp only [List.mapM_cons, he, OptiSampler.BoundVal.get, bind_error]
  refine ⟨h1, ?_⟩
  unfold Sampler.generate Sampler.toys Sampler.toy
  simp only [h1]
  rfl

/-! ## The hypotheses are met -/

/-- The optimiser that always answers 1, with the value of the objective there. -/
noncomputable def OptiS.one : Optim ℝ := fun env _ p fr =>
  match evalAt env p fr [1] with
  | .ok (v, _) => ⟨[[1]], [1], v, true⟩
  | .error _ => ⟨[[1]], [1], 0, true⟩

/-- Any model with one POI `mu`, between 0 and 10. -/
noncomputable def OptiS.mu (nps : List (NP ℝ)) (ref : Pars ℝ) : CalcSetup :=
  ⟨OptiS.one, ⟨["mu"], nps⟩, [⟨"mu", some 0, some 10⟩], ref⟩

theorem OptiS.one_clean (nps : List (NP ℝ)) (ref : Pars ℝ) :
    CleanSampler (OptiS.mu nps ref) (.fresh "scalar") where
  clean :=
    { evaluates := by
        intro env method p fr
        unfold OptiS.mu OptiS.one
        dsimp only
        split <;> simp
      noAlt := rfl
      noRebound := rfl
      free := ⟨[(0, ⟨"mu", some 0, some 10⟩)], by
        simp [OptiSampler.St.fresh, OptiS.mu, argBounds, Dict.setAll, Dict.set, freeBounds, Dict.values, ParBound.isFree],
        by simp, fun _ => rfl⟩ }
  succeeds := by
    intro env method p fr
    unfold OptiS.mu OptiS.one
    dsimp only
    split <;> rfl

theorem OptiS.mu_tmu (nps : List (NP ℝ)) (ref : Pars ℝ) (env : SampEnv) (θ qh qf : List ℝ) (vh vf : ℝ)
    (dh df : Option (Pars ℝ)) (bs : List (ParBound ℝ)) (A A0 : Option ℝ)
    (h1 : profileAt env.fit ⟨[2], θ⟩ = .ok (vh, ⟨[2], qh⟩)) (h2 : profileAt env.fit ⟨[1], θ⟩ = .ok (vf, ⟨[1], qf⟩))
    (h3 : env.deltas ⟨[2], θ⟩ = .ok dh) (h4 : env.deltas ⟨[1], θ⟩ = .ok df) :
    ∃ s', OptiSampler.tmu (OptiS.mu nps ref) ⟨[("mu", 2)], ⟨[0], θ⟩, bs, A, A0⟩ env (.fresh "scalar") =
      .ok (s', ⟨tmuValue vh vf, dh, df, some [1]⟩) := by
  have ev : evalAt env.fit ⟨[2], θ⟩ [(0, ⟨"mu", some 0, some 10⟩)] [1] = .ok (vf, ⟨[1], qf⟩) := by
    simp [evalAt, updateHypo, h2]
  simp [OptiS.mu, OptiSampler.tmu, OptiSampler.St.fresh, setPois, setHypo, buildBounds, argBounds, Dict.setAll, Dict.set,
    clampInit, Dict.values, Pars.get, Pars.set, ParBound.testValue, minimizeD, optRun, minimize, freeBounds,
    ParBound.isFree, updateHypo, h1, h3, h4, OptiS.one, show (2:ℝ) ≤ 10 by norm_num, ev, OptiSampler.lastPoint, OptiSampler.newMinPois]

/-- A dataset of the Gaussian model with one NP, not profiled (no iterations). -/
theorem OptiS.np1_env {A : Mdl.Arrays} (hA : A.sym 0 0 0 = 1 / 2) (d : Mdl.DataV 1) (fl : Option ℝ) :
    ∃ k, ∀ x, profileAt ((Demo.np1 true false).sampEnv A 0 fl d).fit ⟨[x], [0]⟩ =
        .ok (1 / 2 * (x - d.counts 0) ^ 2 - k, ⟨[x], [0]⟩) ∧
      ((Demo.np1 true false).sampEnv A 0 fl d).deltas ⟨[x], [0]⟩ = .ok none := by
  obtain ⟨c, N0, -, hc⟩ := np1_nll_off hA d fl
  refine ⟨c - 1 / 2 * (0 - d.aux_obs 0) ^ 2, fun x => ⟨?_, ?_⟩⟩
  · have ex : (fun i : Fin 1 => [x].getD i 0) = ![x] := by funext i; simp
    have e0 : (fun i : Fin 1 => [(0 : ℝ)].getD i 0) = 0 := by funext i; simp
    have hprof : ((Demo.np1 true false).sampEnv A 0 fl d).fit.profile ⟨[x], [0]⟩ = .ok ⟨[x], [0]⟩ := by
      simp [Mdl.sampEnv, Mdl.fitEnv, Mdl.profileNps]
    have hnll : ((Demo.np1 true false).sampEnv A 0 fl d).fit.nll ⟨[x], [0]⟩ =
        .ok (1 / 2 * (x - d.counts 0) ^ 2 - (c - 1 / 2 * (0 - d.aux_obs 0) ^ 2)) := by
      refine Mdl.fitEnv_nll_iff.2 ⟨by simp, ?_⟩
      rw [hc]
      simp
      ring
    simp only [profileAt, hprof, hnll, bind_ok, pure_ok]
  · simp [Mdl.sampEnv, Mdl.lastDeltas]

/-- The setting of the example: test `mu = 2`. -/
noncomputable def OptiS.two : OptiSampler.Cfg := { testHypo := [("mu", 2)], genHypo := ⟨[0], [0]⟩ }

theorem OptiS.np1_sampled {A : Mdl.Arrays} (hA : A.sym 0 0 0 = 1 / 2) (d : Mdl.DataV 1) (fl : Option ℝ) :
    sampled (OptiS.mu (List.ofFn (Demo.np1 true false).nps) ⟨[0], [0]⟩) OptiS.two (.fresh "scalar")
      ((Demo.np1 true false).sampEnv A 0 fl d) = .ok (some (qPv (max 0 (3 - 2 * d.counts 0)) 0)) := by
  obtain ⟨k, hk⟩ := OptiS.np1_env hA d fl
  obtain ⟨s', hs⟩ := OptiS.mu_tmu (List.ofFn (Demo.np1 true false).nps) ⟨[0], [0]⟩ _ [0] [0] [0] _ _ none none [] none none
    (hk 2).1 (hk 1).1 (hk 2).2 (hk 1).2
  have ht : tmuValue (1 / 2 * (2 - d.counts 0) ^ 2 - k) (1 / 2 * (1 - d.counts 0) ^ 2 - k) = max 0 (3 - 2 * d.counts 0) := by
    have e : 2 * ((1 / 2 * (2 - d.counts 0) ^ 2 - k) - (1 / 2 * (1 - d.counts 0) ^ 2 - k)) = 3 - 2 * d.counts 0 := by ring
    unfold tmuValue
    dsimp only
    rw [e]
    split_ifs with hc
    · rw [max_eq_left hc.le]
    · rw [max_eq_right (not_lt.1 hc)]
  rw [ht] at hs
  have hn : (QMu.init 2 (max 0 (3 - 2 * d.counts 0)) 1 none none none).ncp = .ok 0 := by simp [QMu.ncp, QMu.init]
  have hq : (QMu.init 2 (max 0 (3 - 2 * d.counts 0)) 1 none none none).value = max 0 (3 - 2 * d.counts 0) := by
    simp [QMu.value, QMu.init]
  unfold sampled outcome OptiSampler.compute
  unfold OptiS.two
  rw [hs, bind_ok]
  dsimp only
  rw [if_neg (not_lt.2 (le_max_left _ _))]
  simp only [OptiSampler.passes, bind_ok, OptiSampler.pvOf, OptiSampler.best, QMu.asymptoticPv, hn, hq, Option.getD_none,
    if_true, pure_ok]
  unfold qPv
  rw [ssqrt_eq]
  rfl

/-- Non-vacuity of `c76_coverage` (and of `c76_history_independent`, `c76_generate`): a Gaussian bin and a constrained NP, and
a sampler whose statistic depends on the data. -/
example : ∃ (A : Mdl.Arrays) (μ : Measure (Demo.np1 true false).Toy) (Ω : Type) (_ : MeasurableSpace Ω) (Pr : Measure Ω)
    (D : ℕ → Ω → (Demo.np1 true false).Toy) (c : CalcSetup) (cfg : OptiSampler.Cfg) (s0 : OptiSampler.St),
    (Demo.np1 true false).setInternal = .ok A ∧ c.m = (Demo.np1 true false).parModel ∧ CleanSampler c s0 ∧
    (Demo.np1 true false).toyLaw A ![1] ![0] = .ok μ ∧ Drawn Pr μ D ∧
    MeasurableStat (fun t => sampled c cfg s0 ((Demo.np1 true false).sampEnv A 0 none ((Demo.np1 true false).toyData t))) ∧
    ∃ t t' v v', sampled c cfg s0 ((Demo.np1 true false).sampEnv A 0 none ((Demo.np1 true false).toyData t)) = .ok (some v) ∧
      sampled c cfg s0 ((Demo.np1 true false).sampEnv A 0 none ((Demo.np1 true false).toyData t')) = .ok (some v') ∧
      v < v' := by
  obtain ⟨A, hi, hA⟩ := Demo.np1_internal true false
  obtain ⟨ne, hne, -⟩ := Demo.np1_ne true false hA ![1] ![0]
  obtain ⟨-, -, s3, s4⟩ := Demo.np1_shapes true false
  have hN : (Demo.np1 true false).totBinExp A ![1] ![0] =
      .ok (fun b => ∑ s ∈ Finset.range (Demo.np1 true false).maxSamples, ne s b) := by
    simp only [Mdl.totBinExp, hne, bind_ok, pure_ok]
  generalize (fun b => ∑ s ∈ Finset.range (Demo.np1 true false).maxSamples, ne s b) = N at hN
  have hμ := Toys.toyLaw_ok (Demo.np1 true false) A ![1] ![0] N hN (fun b hb => by rw [s3] at hb; simp at hb)
    (fun p c hc => by
      have : p = 0 := Subsingleton.elim _ _
      subst this
      simp [Demo.np1] at hc
      rw [← hc]; norm_num)
  obtain ⟨Ω, mΩ, Pr, D, -, hl, hind, -⟩ := ProbabilityTheory.exists_iid ℕ (Toys.lawM (Demo.np1 true false) N ![0])
  have hcount : ∀ t : (Demo.np1 true false).Toy, ((Demo.np1 true false).toyData t).counts 0 = t.2.1 ⟨0, by rw [s4]; simp⟩ := by
    intro t
    simp [Mdl.toyData, s3, s4]
  have hst : ∀ t, sampled (OptiS.mu (List.ofFn (Demo.np1 true false).nps) ⟨[0], [0]⟩) OptiS.two (.fresh "scalar")
      ((Demo.np1 true false).sampEnv A 0 none ((Demo.np1 true false).toyData t)) =
      .ok (some (qPv (max 0 (3 - 2 * t.2.1 ⟨0, by rw [s4]; simp⟩)) 0)) := by
    intro t
    rw [OptiS.np1_sampled hA, hcount]
  have hmeas : Measurable fun t : (Demo.np1 true false).Toy => qPv (max 0 (3 - 2 * t.2.1 ⟨0, by rw [s4]; simp⟩)) 0 := by
    have h1 : Measurable fun t : (Demo.np1 true false).Toy => max (0:ℝ) (3 - 2 * t.2.1 ⟨0, by rw [s4]; simp⟩) := by
      refine measurable_const.max (measurable_const.sub (measurable_const.mul ?_))
      exact (measurable_pi_apply _).comp (measurable_fst.comp measurable_snd)
    have h2 : ∀ y : ℝ, 0 ≤ y → qPv y 0 = normSf (Real.sqrt y) := by
      intro y hy
      unfold qPv ssqrt
      rcases hy.eq_or_lt with rfl | hy
      · simp
      · simp [sign_pos hy, abs_of_pos hy]
    have h3 : (fun t : (Demo.np1 true false).Toy => qPv (max 0 (3 - 2 * t.2.1 ⟨0, by rw [s4]; simp⟩)) 0) =
        fun t => normSf (Real.sqrt (max 0 (3 - 2 * t.2.1 ⟨0, by rw [s4]; simp⟩))) := by
      funext t
      exact h2 _ (le_max_left _ _)
    rw [h3]
    exact normSf_continuous.measurable.comp (Real.continuous_sqrt.measurable.comp h1)
  refine ⟨A, _, Ω, mΩ, Pr, D, OptiS.mu (List.ofFn (Demo.np1 true false).nps) ⟨[0], [0]⟩, OptiS.two, .fresh "scalar", hi, rfl,
    OptiS.one_clean _ _, hμ, ⟨hind, hl⟩, ⟨fun s hs => ?_, ?_⟩, ⟨fun _ => 0, fun _ => 0, fun _ => 0⟩,
    ⟨fun _ => 0, fun _ => 2, fun _ => 0⟩, _, _, hst _, hst _, ?_⟩
  · simp only [hst]
    have e : {t : (Demo.np1 true false).Toy | ∃ v ∈ s,
        (Except.ok (some (qPv (max 0 (3 - 2 * t.2.1 ⟨0, by rw [s4]; simp⟩)) 0)) : Except PyErr (Option ℝ)) = .ok (some v)} =
        (fun t : (Demo.np1 true false).Toy => qPv (max 0 (3 - 2 * t.2.1 ⟨0, by rw [s4]; simp⟩)) 0) ⁻¹' s := by
      ext t; simp
    rw [e]
    exact hmeas hs
  · simp only [hst]
    simp
  · unfold qPv
    apply normSf_strictAnti
    have : (0:ℝ) < Real.sqrt 3 := Real.sqrt_pos.2 (by norm_num)
    norm_num [ssqrt, this]

/-- Non-vacuity of `c76_bounds` and `c76_bounds_reversed`: 6 events observed, the NP is fitted at 2 in both fits, and the bound
`np >= 0` rejects the toy. -/
example : ∃ (A : Mdl.Arrays) (d : Mdl.DataV 1) (c : CalcSetup) (cfg : OptiSampler.Cfg) (s' : OptiSampler.St),
    (Demo.np1 true false).setInternal = .ok A ∧ c.m = (Demo.np1 true false).parModel ∧
    ((Demo.np1 true false).nps 0).name ∉ c.m.pois ∧
    (Function.Injective fun a => ((Demo.np1 true false).nps a).name) ∧ cfg.bounds = [⟨((Demo.np1 true false).nps 0).name, some 0, none⟩] ∧
    (∀ e ∈ cfg.testHypo, e.1 ∈ c.m.pois) ∧ (∀ q ∈ c.pois, q.par ∈ c.m.pois) ∧ (∀ x ∈ cfg.genHypo.nps, x = 0) ∧
    OptiSampler.compute c cfg ((Demo.np1 true false).sampEnv A (0 + 1) (some (1 / 10 ^ 7)) d) (.fresh "scalar") = .ok (s', none) := by
  obtain ⟨A, hi, hA⟩ := Demo.np1_internal true false
  obtain ⟨c, N0, hN0, hc⟩ := np1_nll_off hA ⟨fun _ => 6, 0⟩ (some (1 / 10 ^ 7))
  have hpa := np1_profileAt hA c (some (1 / 10 ^ 7)) hc
  obtain ⟨t1, ht1, hp1⟩ := hpa 1
  obtain ⟨t2, ht2, hp2⟩ := hpa 2
  norm_num at ht1 ht2
  have hd : ∀ x : ℝ, x / 2 * (x - 6) / ((x / 2) ^ 2 + 1) = -2 →
      ((Demo.np1 true false).sampEnv A 1 (some (1 / 10 ^ 7)) ⟨fun _ => 6, 0⟩).deltas ⟨[x], [0]⟩ = .ok (some ⟨[x], [-2]⟩) := by
    intro x hx
    obtain ⟨s, h1, h2, h3⟩ := Demo.np1_pq false hA ![x] 0 ⟨fun _ => 6, 0⟩
    have hp : s.p 0 0 = (x / 2) ^ 2 + 1 := by rw [h2]; simp
    have hq : s.q 0 = x / 2 * (x - 6) := by rw [h3]; simp
    have hpr := Demo.profile1 h1 (by rw [hp, abs_of_nonneg (by positivity)]; nlinarith [sq_nonneg (x / 2)])
    rw [hp, hq, hx] at hpr
    have ex : (fun i : Fin 1 => [x].getD i 0) = ![x] := by funext i; simp
    have e0 : (fun i : Fin 1 => [(0 : ℝ)].getD i 0) = 0 := by funext i; simp
    simp only [Mdl.sampEnv, List.length_singleton, and_self, if_true, ex, e0, Mdl.lastDeltas, hpr, bind_ok,
      pure_ok, List.ofFn_succ, List.ofFn_zero]
    simp
  obtain ⟨s', hs⟩ := OptiS.mu_tmu (List.ofFn (Demo.np1 true false).nps) ⟨[0], [0]⟩
    ((Demo.np1 true false).sampEnv A 1 (some (1 / 10 ^ 7)) ⟨fun _ => 6, 0⟩) [0] [t2] [t1] _ _ _ _
    [⟨((Demo.np1 true false).nps 0).name, some 0, none⟩] none none hp2 hp1 (hd 2 (by norm_num)) (hd 1 (by norm_num))
  refine ⟨A, ⟨fun _ => 6, 0⟩, OptiS.mu (List.ofFn (Demo.np1 true false).nps) ⟨[0], [0]⟩,
    ⟨[("mu", 2)], ⟨[0], [0]⟩, [⟨((Demo.np1 true false).nps 0).name, some 0, none⟩], none, none⟩, s', hi, rfl,
    by simp [OptiS.mu, Demo.np1], Function.injective_of_subsingleton _, rfl, by simp [OptiS.mu], by simp [OptiS.mu],
    by simp, ?_⟩
  unfold OptiSampler.compute
  rw [hs, bind_ok]
  have hnn := OptiSampler.tmu_nonneg _ _ _ _ _ _ hs
  dsimp only at hnn ⊢
  rw [if_neg (not_lt.2 hnn)]
  have hbt : OptiSampler.boundTest (OptiS.mu (List.ofFn (Demo.np1 true false).nps) ⟨[0], [0]⟩).m
      ⟨((Demo.np1 true false).nps 0).name, some 0, none⟩ (some ⟨[1], [-2]⟩) = .ok false := by
    simp [OptiSampler.boundTest, ParBound.test, OptiS.mu, Pars.get, ParModel.npNames, Demo.np1, ParBound.testValue]
  simp only [OptiSampler.passes, hbt, bind_ok, pure_ok]
  rfl

/-- Two POIs. -/
noncomputable def OptiS.ab : CalcSetup where
  opt := fun _ _ _ fr => if fr.length = 1 then ⟨[[5]], [5], 1, true⟩ else ⟨[[5, 2]], [5, 2], 0, true⟩
  m := ⟨["a", "b"], []⟩
  pois := [⟨"a", some 0, some 10⟩, ⟨"b", some 0, some 10⟩]
  ref := ⟨[0, 0], []⟩

/-- NLL `(a - 5)^2 + (b - 2)^2`. -/
noncomputable def OptiS.abEnv : SampEnv where
  fit :=
    { profile := fun p => .ok p
      nll := fun p => match p.pois with
        | [x, y] => .ok ((x - 5) ^ 2 + (y - 2) ^ 2)
        | _ => .error .indexError }
  deltas := fun _ => .ok none

theorem OptiS.ab_tmu : ∃ s', OptiSampler.tmu OptiS.ab { testHypo := [("b", 3)], genHypo := ⟨[0, 0], []⟩ } OptiS.abEnv
    (.fresh "L-BFGS-B") = .ok (s', ⟨2, none, none, some [5, 2]⟩) ∧ s'.min.minPars = some ⟨[5, 2], []⟩ := by
  simp [OptiS.ab, OptiS.abEnv, OptiSampler.tmu, OptiSampler.St.fresh, setPois, setHypo, buildBounds, argBounds, Dict.setAll,
    Dict.set, clampInit, Dict.values, Pars.get, Pars.set, ParBound.testValue, minimizeD, optRun, minimize, freeBounds,
    ParBound.isFree, updateHypo, OptiSampler.lastPoint, OptiSampler.newMinPois, show (3:ℝ) ≤ 10 by norm_num, evalAt, profileAt,
    tmuValue, show ¬ ((2:ℝ) < 0) by norm_num]

/-- Non-vacuity of `c76_first_free_poi` (and of `c76_qmu`, `c76_between`): two POIs, of which the second is tested at 3; the
free fit gives `a = 5`, `b = 2`, and 5 is compared with 3. -/
example : ∃ (c : CalcSetup) (cfg : OptiSampler.Cfg) (env : SampEnv) (s' : OptiSampler.St) (pv : ℝ) (b : ParBound ℝ)
    (rest : List (ℕ × ParBound ℝ)) (o : TmuOut ℝ), c.m.pois = ["a", "b"] ∧ cfg.testHypo = [("b", 3)] ∧ cfg.bounds = [] ∧
    cfg.tmuAmu = none ∧
    (∀ env method p fr, (c.opt env method p fr).success = true ∧
      (c.opt env method p fr).evals.getLast? = some (c.opt env method p fr).x) ∧
    (∀ p q, env.fit.profile p = .ok q → q.pois = p.pois) ∧
    freeBounds (argBounds c.pois none) = .ok ((0, b) :: rest) ∧
    OptiSampler.compute c cfg env (.fresh "L-BFGS-B") = .ok (s', some pv) ∧
    (OptiSampler.St.fresh "L-BFGS-B").min.tmu c.opt c.m c.pois env.fit cfg.genHypo cfg.testHypo = .ok (s'.min, o) ∧
    o.freePars = ⟨[5, 2], []⟩ ∧ 1 / 2 < pv := by
  obtain ⟨s', hs, hmp⟩ := OptiS.ab_tmu
  have hq : (QMu.init 3 2 5 none none none).value = -2 := by
    simp [QMu.value, QMu.init, show ¬ ((5:ℝ) < 3) by norm_num]
  have hcomp : OptiSampler.compute OptiS.ab { testHypo := [("b", 3)], genHypo := ⟨[0, 0], []⟩ } OptiS.abEnv
      (.fresh "L-BFGS-B") = .ok (s', some (qPv (-2) 0)) := by
    have hn : (QMu.init 3 2 5 none none none).ncp = .ok 0 := by simp [QMu.ncp, QMu.init]
    unfold OptiSampler.compute
    rw [hs, bind_ok]
    dsimp only
    rw [if_neg (by norm_num)]
    simp only [OptiSampler.passes, bind_ok, OptiSampler.pvOf, OptiSampler.best, QMu.asymptoticPv, hn, hq, Option.getD_none,
      if_true, pure_ok]
    unfold qPv
    rw [ssqrt_eq]
  obtain ⟨_, _, _, _, _, _, sf, _, _, _, o, -, -, -, -, -, -, -, -, -, -, -, -, -, -, -, hat⟩ :=
    OptiSampler.tmu_inv _ _ _ _ _ _ hs
  obtain ⟨_, _, _, _, _, _, _, _, -, -, -, -, -, -, -, -, -, hst⟩ := attempt_inv _ _ _ _ _ _ _ _ _ hat
  rw [← tmu_eq_attempt _ _ _ _ _ _ _ rfl rfl] at hat
  refine ⟨OptiS.ab, { testHypo := [("b", 3)], genHypo := ⟨[0, 0], []⟩ }, OptiS.abEnv, s', _, ⟨"a", some 0, some 10⟩,
    [(1, ⟨"b", some 0, some 10⟩)], o, rfl, rfl, rfl, rfl, ?_, ?_, ?_, hcomp, hat, ?_, ?_⟩
  · intro env method p fr
    unfold OptiS.ab
    dsimp only
    split_ifs <;> simp
  · intro p q h
    exact congrArg _ (Except.ok.inj (ε := PyErr) h).symm
  · simp [OptiS.ab, argBounds, Dict.setAll, Dict.set, freeBounds, Dict.values, ParBound.isFree]
  · rw [hst] at hmp
    exact Option.some.inj hmp
  · rw [qPv, ← normSf_zero]
    apply normSf_strictAnti
    simp [ssqrt]

/-- Non-vacuity of `c76_ranges_break`. -/
example : ∃ (c : CalcSetup) (cfg : OptiSampler.Cfg) (r : FitResult) (p q : Pars ℝ) (b : Dict OptiSampler.BoundVal),
    c.m.pois ≠ [] ∧ OptiSampler.setPoiValuesAndRanges c.m r = .ok (p, b) ∧ setHypo c.m cfg.testHypo cfg.genHypo = .ok q := by
  refine ⟨oneSetup, { testHypo := [("a", 2)], genHypo := ⟨[0], []⟩ }, ⟨[("a", .new "a" (some 1))], some 0⟩, _, _, _,
    by simp [oneSetup], rfl, rfl⟩

/-- Non-vacuity of `c76_matches_calculator` (and of `c76_qmutilda`): `mu = 2` tested on data fitted at 1, with the Asimov value
2 of the calculator. -/
example : ∃ (c : CalcSetup) (data : DataEnv) (env : SampEnv) (hypo : Hypo) (s0 s1 : OptiMin ℝ) (s' : OptiSampler.St)
    (d : PLRData) (A b pv : ℝ) (poi : String) (more : List ℝ), s0.altMethod = none ∧ s0.rebound = 0 ∧ env.fit = data.fit ∧
    fastQ c .qmutilda data hypo none s0 = .ok (s1, d) ∧ statIs d "tmu_A0" A ∧ (Dict.keys hypo).head? = some poi ∧
    bestIs d poi b ∧
    OptiSampler.compute c ⟨hypo, c.ref, [], some A, some A⟩ env ⟨s0, none⟩ = .ok (s', some pv) ∧
    s'.minPois = some (b :: more) := by
  have hs0 : OneSt (OptiSampler.St.fresh "scalar").min := ⟨rfl, rfl, rfl, Or.inl rfl⟩
  obtain ⟨s1, e1, p1⟩ := one_plr _ hs0 2 (by norm_num) (by norm_num) none 0 rfl
  obtain ⟨s2, e2, p2⟩ := one_plr s1 e1 2 (by norm_num) (by norm_num) none 0 rfl
  have : ∃ d', fillPv .qmutilda
      ⟨[("a", 2)], some ⟨[("a", .new "a" (some 1))], some 0⟩,
        some ⟨[("a", .new "a" (some 2))], some ((2 - 1) * (2 - 1))⟩,
        [("tmu", 2 * ((2 - 1) * (2 - 1))), ("tmu_A0", 2 * ((2 - 1) * (2 - 1)))], [], none⟩ = .ok d' := by
    simp [fillPv, makeQMuTilda, calcPoi, bestOf, Dict.keys, Dict.getItem, Dict.get?, FitPar.new,
      QMuTilda.asymptoticPv, QMuTilda.asymptoticCls, QMuTilda.asymptoticClb, clsOf, QMu.ncp, QMuTilda.init, QMu.init,
      QMuTilda.threshold, QMuTilda.value, show (2:ℝ) - 1 = 1 by norm_num, show ¬ ((2:ℝ) < 0) by norm_num]
  obtain ⟨d', hd'⟩ := this
  obtain ⟨f1, f2, f3, f4, f5⟩ := fillPv_fixed hd'
  have hq : fastQ oneSetup .qmutilda ⟨oneEnv, .ok oneEnv⟩ [("a", 2)] none (OptiSampler.St.fresh "scalar").min = .ok (s2, d') :=
    (fastQ_inv _ _ _ _ _ _ _ _).2 ⟨s1, _, oneEnv, _, _, p1, rfl, p2, rfl, hd'⟩
  obtain ⟨t', t1, t2, t3⟩ := OptiS.tmu_one oneSetup.opt (fun x => (x - 1) * (x - 1)) 2 1 ⟨[[1]], [1], 0, true⟩ (by norm_num)
    (by norm_num) rfl rfl (.fresh "scalar") hs0 (some 2) (some 2)
  rw [if_pos rfl] at t2
  rw [t2] at t3
  have hv : tmuValue (((2:ℝ) - 1) * (2 - 1)) (OptiS.freeNll (fun x => (x - 1) * (x - 1)) 1 ⟨[[1]], [1], 0, true⟩) = 2 := by
    simp [tmuValue, OptiS.freeNll]; norm_num
  dsimp only at t3
  rw [hv] at t3
  have hpv : ∃ pv, OptiSampler.compute oneSetup ⟨[("a", 2)], oneSetup.ref, [], some 2, some 2⟩
      (OptiS.env fun x => (x - 1) * (x - 1)) (.fresh "scalar") = .ok (t', some pv) := by
    have hp : ∃ pv, (QMuTilda.init 2 2 1 none none (some 2) (some 2)).asymptoticPv = .ok pv := by
      simp [QMuTilda.asymptoticPv, QMu.ncp, QMuTilda.init, QMu.init, QMuTilda.threshold, QMuTilda.value, show (2:ℝ) - 1 = 1 by norm_num, show ¬ ((2:ℝ) < 0) by norm_num]
    obtain ⟨pv, hp⟩ := hp
    refine ⟨pv, ?_⟩
    unfold OptiSampler.compute
    have t4 : OptiSampler.tmu oneSetup ⟨[("a", 2)], oneSetup.ref, [], some 2, some 2⟩ (OptiS.env fun x => (x - 1) * (x - 1))
      (.fresh "scalar") = _ := t3
    rw [t4, bind_ok]
    dsimp only
    rw [if_neg (by norm_num)]
    simp only [OptiSampler.passes, bind_ok, OptiSampler.pvOf, OptiSampler.best, hp, if_true, pure_ok]
  obtain ⟨pv, hpv⟩ := hpv
  refine ⟨oneSetup, ⟨oneEnv, .ok oneEnv⟩, OptiS.env fun x => (x - 1) * (x - 1), [("a", 2)], _, s2, t', d', 2, 1, pv, "a", [],
    rfl, rfl, rfl, hq, ?_, rfl, ?_, hpv, t2⟩
  · unfold statIs
    rw [f5 _ (by decide) (by decide)]
    norm_num [Dict.get?]
  · exact ⟨_, _, f2, rfl, rfl⟩

end Verif.Props
